import Verif.Schema.Spec
import Verif.Json.Prefix
import Verif.Json.Utf8

namespace Verif.Schema
open Verif Verif.Json

/-- The serializer accepts every string. -/
def AllValid (l : List Str) : Prop := ∀ s ∈ l, validUtf8 s = true

theorem allUtf8_iff (l : List Str) : AllUtf8 l ↔ AllValid l := by
  simp only [AllUtf8, AllValid, Utf8, validUtf8_iff]

instance (l : List Str) : Decidable (AllUtf8 l) :=
  decidable_of_iff (∀ s ∈ l, validUtf8 s = true) (allUtf8_iff l).symm

/-! ### Arrays -/

theorem mapM_map_some {α β : Type} (f : β → JVal) (g : JVal → Option β) (l : List β)
    (h : ∀ x, g (f x) = some x) : (l.map f).mapM g = some l := by
  induction l with
  | nil => rfl
  | cons x l ih => simp [List.mapM_cons, h, ih]

theorem getArr_map {β : Type} (f : β → JVal) (g : JVal → Option β) (l : List β)
    (h : ∀ x, g (f x) = some x) : getArr g (.arr (l.map f)) = some l :=
  mapM_map_some (α := β) f g l h

theorem getStrs_strsJ (l : List Str) : getArr getStr (strsJ l) = some l :=
  getArr_map _ _ l fun _ => rfl

theorem getPathInfo_J (i : PathInfo) : getPathInfo (pathInfoJ i) = some i := by
  simp [getPathInfo, pathInfoJ, field, at?, lookup, getStr]

theorem getInfos_J (l : List PathInfo) : getArr getPathInfo (pathInfosJ l) = some l :=
  getArr_map _ _ l getPathInfo_J

theorem getType_J (t : TargetType) : getType (typeJ t) = t := by cases t <;> rfl

theorem getBlob_J (l : List UInt8) : getArr getByte (blobJ l) = some l :=
  getArr_map _ _ l fun b => by simp [getByte]

theorem getIdInfo_J (i : IdInfo) : getIdInfo (idInfoJ i) = some i := by
  simp [getIdInfo, idInfoJ, field, at?, lookup, getInfos_J, getStrs_strsJ, getBlob_J]

theorem getIds_J (l : List (Str × IdInfo)) :
    getIds (.obj (l.map fun (k, i) => (k, idInfoJ i))) = some l := by
  simp only [getIds]
  induction l with
  | nil => rfl
  | cons p l ih => obtain ⟨k, i⟩ := p; simp [List.mapM_cons, getIdInfo_J, ih]

theorem getTarget_J (s : TargetSchema) : getTarget (targetJ s) = some s := by
  simp [getTarget, targetJ, field, at?, lookup, getInfos_J, getStrs_strsJ, getType_J, getStr, getBool]

theorem getGen_J (s : GenSchema) : getGen (genJ s) = some s := by
  have := getIds_J s.ids
  simp [getGen, genJ, field, at?, lookup, getStr, this]

/-! ### Well-formedness of the encoded values -/

theorem WfL_map {β : Type} (f : β → JVal) (l : List β) :
    JVal.Wf.WfL (l.map f) ↔ ∀ x ∈ l, (f x).Wf := by
  induction l with
  | nil => simp [JVal.Wf.WfL]
  | cons x l ih => simp [JVal.Wf.WfL, ih]

theorem WfM_map {β : Type} (f : β → Str × JVal) (l : List β) :
    JVal.Wf.WfM (l.map f) ↔ ∀ x ∈ l, validUtf8 (f x).1 = true ∧ (f x).2.Wf := by
  induction l with
  | nil => simp [JVal.Wf.WfM]
  | cons x l ih =>
    simp only [List.map_cons, List.mem_cons, forall_eq_or_imp]
    rw [← ih]
    generalize f x = p
    obtain ⟨k, v⟩ := p
    simp [JVal.Wf.WfM, and_assoc]

theorem strsJ_Wf (l : List Str) : (strsJ l).Wf ↔ AllValid l := by
  simp [strsJ, JVal.Wf, WfL_map, AllValid]

theorem pathInfoJ_Wf (i : PathInfo) :
    (pathInfoJ i).Wf ↔ validUtf8 i.path = true ∧ validUtf8 i.hash = true := by
  have h1 : validUtf8 b!"path" = true := by decide
  have h2 : validUtf8 b!"hash" = true := by decide
  simp [pathInfoJ, JVal.Wf, JVal.Wf.WfM, h1, h2]

theorem pathInfosJ_Wf (l : List PathInfo) : (pathInfosJ l).Wf ↔ AllValid (infoStrings l) := by
  simp only [pathInfosJ, JVal.Wf, WfL_map, pathInfoJ_Wf, AllValid, infoStrings, List.mem_flatMap]
  constructor
  · rintro h s ⟨i, hi, hs⟩
    simp at hs
    rcases hs with rfl | rfl
    · exact (h i hi).1
    · exact (h i hi).2
  · intro h i hi
    exact ⟨h _ ⟨i, hi, by simp⟩, h _ ⟨i, hi, by simp⟩⟩

theorem blobJ_Wf (l : List UInt8) : (blobJ l).Wf := by
  simp only [blobJ, JVal.Wf, WfL_map]
  intro b _
  have := b.toNat_lt
  omega

theorem typeJ_Wf (t : TargetType) : (typeJ t).Wf := by
  cases t <;> simp [typeJ, typeName, JVal.Wf] <;> decide

theorem AllValid_append (l m : List Str) : AllValid (l ++ m) ↔ AllValid l ∧ AllValid m := by
  simp only [AllValid, List.mem_append]
  constructor
  · intro h; exact ⟨fun s hs => h s (Or.inl hs), fun s hs => h s (Or.inr hs)⟩
  · rintro ⟨h1, h2⟩ s (hs | hs)
    · exact h1 s hs
    · exact h2 s hs

theorem AllValid_cons (a : Str) (l : List Str) :
    AllValid (a :: l) ↔ validUtf8 a = true ∧ AllValid l := by simp [AllValid]

theorem targetJ_Wf (s : TargetSchema) : (targetJ s).Wf ↔ AllValid s.strings := by
  have hn : (([b!"name", b!"type", b!"sources", b!"headers", b!"pchs", b!"libs",
      b!"external_libs", b!"include_dirs", b!"lib_dirs", b!"preprocessor_flags",
      b!"common_compile_flags", b!"pch_compile_flags", b!"pch_object_flags",
      b!"asm_compile_flags", b!"c_compile_flags", b!"cpp_compile_flags", b!"link_flags",
      b!"compile_dependencies", b!"link_dependencies", b!"pch_compiled",
      b!"target_linked"] : List Str).Nodup) := by decide
  have hv : ∀ k ∈ ([b!"name", b!"type", b!"sources", b!"headers", b!"pchs", b!"libs",
      b!"external_libs", b!"include_dirs", b!"lib_dirs", b!"preprocessor_flags",
      b!"common_compile_flags", b!"pch_compile_flags", b!"pch_object_flags",
      b!"asm_compile_flags", b!"c_compile_flags", b!"cpp_compile_flags", b!"link_flags",
      b!"compile_dependencies", b!"link_dependencies", b!"pch_compiled",
      b!"target_linked"] : List Str), validUtf8 k = true := by decide
  simp only [List.mem_cons, List.not_mem_nil, or_false, forall_eq_or_imp, forall_eq] at hv
  simp only [targetJ, JVal.Wf, JVal.Wf.WfM, List.map_cons, List.map_nil]
  simp only [hn, hv, strsJ_Wf, pathInfosJ_Wf, typeJ_Wf, true_and, and_true,
    TargetSchema.strings, AllValid_append, AllValid_cons, and_assoc]

theorem idInfoJ_Wf (i : IdInfo) :
    (idInfoJ i).Wf ↔ AllValid (infoStrings i.inputs) ∧ AllValid i.outputs := by
  have hn : (([b!"inputs", b!"outputs", b!"userblob"] : List Str).Nodup) := by decide
  have hv : ∀ k ∈ ([b!"inputs", b!"outputs", b!"userblob"] : List Str), validUtf8 k = true := by
    decide
  simp only [List.mem_cons, List.not_mem_nil, or_false, forall_eq_or_imp, forall_eq] at hv
  simp only [idInfoJ, JVal.Wf, JVal.Wf.WfM, List.map_cons, List.map_nil]
  simp only [hn, hv, strsJ_Wf, pathInfosJ_Wf, blobJ_Wf, true_and, and_true]

theorem genJ_Wf (s : GenSchema) :
    (genJ s).Wf ↔ (s.ids.map Prod.fst).Nodup ∧ AllValid s.strings := by
  have hn : (([b!"name", b!"ids"] : List Str).Nodup) := by decide
  have hv : ∀ k ∈ ([b!"name", b!"ids"] : List Str), validUtf8 k = true := by decide
  simp only [List.mem_cons, List.not_mem_nil, or_false, forall_eq_or_imp, forall_eq] at hv
  simp only [genJ, JVal.Wf, JVal.Wf.WfM, List.map_cons, List.map_nil]
  simp only [hn, hv, true_and, and_true, WfM_map, idInfoJ_Wf, GenSchema.strings, AllValid_cons,
    List.map_map]
  have e : (Prod.fst ∘ fun (x : Str × IdInfo) => (x.1, idInfoJ x.2)) = Prod.fst := by
    funext x; rfl
  rw [e]
  constructor
  · rintro ⟨h1, h2, h3⟩
    refine ⟨h2, h1, ?_⟩
    intro x hx
    simp only [List.mem_flatMap, List.mem_cons, List.mem_append] at hx
    obtain ⟨p, hp, hx⟩ := hx
    obtain ⟨ha, hb, hc⟩ := h3 p hp
    rcases hx with rfl | hx | hx
    · exact ha
    · exact hb x hx
    · exact hc x hx
  · rintro ⟨h1, h2, h3⟩
    refine ⟨h2, h1, ?_⟩
    intro p hp
    have h4 : ∀ x, x = p.1 ∨ x ∈ infoStrings p.2.inputs ∨ x ∈ p.2.outputs →
        validUtf8 x = true := by
      intro x hx
      apply h3
      simp only [List.mem_flatMap, List.mem_cons, List.mem_append]
      exact ⟨p, hp, hx⟩
    exact ⟨h4 _ (Or.inl rfl), fun x hx => h4 x (Or.inr (Or.inl hx)),
      fun x hx => h4 x (Or.inr (Or.inr hx))⟩

/-! ### `valid` of the encoded values -/

theorem validList_map {β : Type} (f : β → JVal) (l : List β) :
    JVal.valid.validList (l.map f) = true ↔ ∀ x ∈ l, (f x).valid = true := by
  induction l with
  | nil => simp [JVal.valid.validList]
  | cons x l ih => simp [JVal.valid.validList, ih]

theorem validMembers_map {β : Type} (f : β → Str × JVal) (l : List β) :
    JVal.valid.validMembers (l.map f) = true ↔
      ∀ x ∈ l, validUtf8 (f x).1 = true ∧ (f x).2.valid = true := by
  induction l with
  | nil => simp [JVal.valid.validMembers]
  | cons x l ih =>
    simp only [List.map_cons, List.mem_cons, forall_eq_or_imp]
    rw [← ih]
    generalize f x = p
    obtain ⟨k, v⟩ := p
    simp [JVal.valid.validMembers]

theorem strsJ_valid (l : List Str) : (strsJ l).valid = true ↔ (strsJ l).Wf := by
  simp [strsJ, JVal.Wf, WfL_map, JVal.valid, validList_map]

theorem pathInfoJ_valid (i : PathInfo) : (pathInfoJ i).valid = true ↔ (pathInfoJ i).Wf := by
  have h1 : validUtf8 b!"path" = true := by decide
  have h2 : validUtf8 b!"hash" = true := by decide
  rw [pathInfoJ_Wf]
  simp [pathInfoJ, JVal.valid, JVal.valid.validMembers, h1, h2]

theorem pathInfosJ_valid (l : List PathInfo) :
    (pathInfosJ l).valid = true ↔ (pathInfosJ l).Wf := by
  simp only [pathInfosJ, JVal.Wf, WfL_map, JVal.valid, validList_map, pathInfoJ_valid]

theorem blobJ_valid (l : List UInt8) : (blobJ l).valid = true := by
  simp [blobJ, JVal.valid, validList_map]

theorem typeJ_valid (t : TargetType) : (typeJ t).valid = true := Wf.valid _ (typeJ_Wf t)

theorem targetJ_valid (s : TargetSchema) : (targetJ s).valid = true ↔ AllValid s.strings := by
  have hv : ∀ k ∈ ([b!"name", b!"type", b!"sources", b!"headers", b!"pchs", b!"libs",
      b!"external_libs", b!"include_dirs", b!"lib_dirs", b!"preprocessor_flags",
      b!"common_compile_flags", b!"pch_compile_flags", b!"pch_object_flags",
      b!"asm_compile_flags", b!"c_compile_flags", b!"cpp_compile_flags", b!"link_flags",
      b!"compile_dependencies", b!"link_dependencies", b!"pch_compiled",
      b!"target_linked"] : List Str), validUtf8 k = true := by decide
  simp only [List.mem_cons, List.not_mem_nil, or_false, forall_eq_or_imp, forall_eq] at hv
  simp only [targetJ, JVal.valid, JVal.valid.validMembers, Bool.and_eq_true]
  simp only [hv, strsJ_valid, pathInfosJ_valid, strsJ_Wf, pathInfosJ_Wf, typeJ_valid, true_and,
    and_true, TargetSchema.strings, AllValid_append, AllValid_cons, and_assoc]

theorem idInfoJ_valid (i : IdInfo) : (idInfoJ i).valid = true ↔ (idInfoJ i).Wf := by
  have hv : ∀ k ∈ ([b!"inputs", b!"outputs", b!"userblob"] : List Str), validUtf8 k = true := by
    decide
  simp only [List.mem_cons, List.not_mem_nil, or_false, forall_eq_or_imp, forall_eq] at hv
  rw [idInfoJ_Wf]
  simp only [idInfoJ, JVal.valid, JVal.valid.validMembers, Bool.and_eq_true]
  simp only [hv, strsJ_valid, pathInfosJ_valid, strsJ_Wf, pathInfosJ_Wf, blobJ_valid, true_and,
    and_true]

theorem genJ_valid (s : GenSchema) : (genJ s).valid = true ↔ AllValid s.strings := by
  have hv : ∀ k ∈ ([b!"name", b!"ids"] : List Str), validUtf8 k = true := by decide
  simp only [List.mem_cons, List.not_mem_nil, or_false, forall_eq_or_imp, forall_eq] at hv
  simp only [genJ, JVal.valid, JVal.valid.validMembers, Bool.and_eq_true]
  simp only [hv, true_and, and_true, validMembers_map, idInfoJ_valid, idInfoJ_Wf,
    GenSchema.strings, AllValid_cons]
  constructor
  · rintro ⟨h1, h3⟩
    refine ⟨h1, ?_⟩
    intro x hx
    simp only [List.mem_flatMap, List.mem_cons, List.mem_append] at hx
    obtain ⟨p, hp, hx⟩ := hx
    obtain ⟨ha, hb, hc⟩ := h3 p hp
    rcases hx with rfl | hx | hx
    · exact ha
    · exact hb x hx
    · exact hc x hx
  · rintro ⟨h1, h3⟩
    refine ⟨h1, ?_⟩
    intro p hp
    have h4 : ∀ x, x = p.1 ∨ x ∈ infoStrings p.2.inputs ∨ x ∈ p.2.outputs →
        validUtf8 x = true := by
      intro x hx
      apply h3
      simp only [List.mem_flatMap, List.mem_cons, List.mem_append]
      exact ⟨p, hp, hx⟩
    exact ⟨h4 _ (Or.inl rfl), fun x hx => h4 x (Or.inr (Or.inl hx)),
      fun x hx => h4 x (Or.inr (Or.inr hx))⟩

/-! ### Texts -/

theorem targetText_isSome (s : TargetSchema) : (targetText s).isSome ↔ AllValid s.strings := by
  rw [← targetJ_valid, targetText, dump]; split <;> simp_all

theorem genText_isSome (s : GenSchema) : (genText s).isSome ↔ AllValid s.strings := by
  rw [← genJ_valid, genText, dump]; split <;> simp_all

theorem targetText_Wf {s : TargetSchema} {b : Str} (h : targetText s = some b) :
    (targetJ s).Wf := by
  rw [targetJ_Wf, ← targetText_isSome, h]; rfl

theorem loadTarget_text {s : TargetSchema} {b : Str} (h : targetText s = some b) :
    loadTarget b = some s := by
  simp [loadTarget, parse_dump _ (targetText_Wf h) b h, getTarget_J]

theorem genText_Wf {s : GenSchema} {b : Str} (hn : (s.ids.map Prod.fst).Nodup)
    (h : genText s = some b) : (genJ s).Wf := by
  rw [genJ_Wf, ← genText_isSome, h]; exact ⟨hn, rfl⟩

theorem loadGen_text {s : GenSchema} {b : Str} (hn : (s.ids.map Prod.fst).Nodup)
    (h : genText s = some b) : loadGen b = some s := by
  simp [loadGen, parse_dump _ (genText_Wf hn h) b h, getGen_J]

theorem loadTarget_prefix {s : TargetSchema} {b p q : Str} (h : targetText s = some b)
    (hb : b = p ++ q) (hq : q ≠ []) : loadTarget p = none := by
  have hw := targetText_Wf h
  have e : b = dumpV 0 (targetJ s) := by
    simp only [targetText, dump] at h; split at h <;> simp_all
  simp [loadTarget, parse_prefix _ hw p q (by rw [← hb, e]; rfl) hq]

theorem loadGen_prefix {s : GenSchema} {b p q : Str} (hn : (s.ids.map Prod.fst).Nodup)
    (h : genText s = some b) (hb : b = p ++ q) (hq : q ≠ []) : loadGen p = none := by
  have hw := genText_Wf hn h
  have e : b = dumpV 0 (genJ s) := by
    simp only [genText, dump] at h; split at h <;> simp_all
  simp [loadGen, parse_prefix _ hw p q (by rw [← hb, e]; rfl) hq]

/-! ### Inversion of the decoders -/

theorem Each_iff_mapM {β : Type} (g : JVal → Option β) (R : JVal → β → Prop)
    (h : ∀ v x, g v = some x ↔ R v x) (a : List JVal) (l : List β) :
    a.mapM g = some l ↔ Each R a l := by
  induction a generalizing l with
  | nil =>
    simp only [List.mapM_nil]
    constructor
    · intro h; cases h; exact .nil
    · intro h; cases h; rfl
  | cons v a ih =>
    simp only [List.mapM_cons, Option.bind_eq_bind, Option.bind_eq_some_iff]
    constructor
    · rintro ⟨x, hx, l', hl', e⟩
      cases e
      exact .cons ((h _ _).1 hx) ((ih _).1 hl')
    · intro hh
      cases hh with
      | cons h1 h2 => exact ⟨_, (h _ _).2 h1, _, (ih _).2 h2, rfl⟩

theorem getArr_iff {β : Type} (g : JVal → Option β) (R : JVal → β → Prop)
    (h : ∀ v x, g v = some x ↔ R v x) (v : JVal) (l : List β) :
    getArr g v = some l ↔ ∃ a, v = .arr a ∧ Each R a l := by
  cases v <;> simp [getArr, Each_iff_mapM g R h]

theorem getStr_iff (v : JVal) (s : Str) : getStr v = some s ↔ IsStr v s := by
  cases v <;> simp [getStr, IsStr]

theorem getBool_iff (v : JVal) (s : Bool) : getBool v = some s ↔ IsBool v s := by
  cases v <;> simp [getBool, IsBool]

theorem getStrs_iff (v : JVal) (l : List Str) : getArr getStr v = some l ↔ IsStrs v l :=
  getArr_iff _ _ getStr_iff v l

theorem has_iff {β : Type} (o : List (Str × JVal)) (k : Str) (g : JVal → Option β)
    (R : JVal → β → Prop) (h : ∀ v x, g v = some x ↔ R v x) (x : β) :
    field (.obj o) k g = some x ↔ Has o k R x := by
  simp [field, at?, Has, Option.bind_eq_some_iff, h]

theorem getPathInfo_iff (v : JVal) (i : PathInfo) : getPathInfo v = some i ↔ IsInfo v i := by
  cases v with
  | obj o =>
    simp only [getPathInfo, Option.bind_eq_bind]
    simp only [Option.bind_eq_some_iff , has_iff o _ getStr IsStr getStr_iff]
    constructor
    · rintro ⟨p, hp, h, hh, e⟩; cases e; exact ⟨o, rfl, hp, hh⟩
    · rintro ⟨o', e, h1, h2⟩; cases e; exact ⟨_, h1, _, h2, rfl⟩
  | _ => simp [getPathInfo, field, at?, IsInfo]

theorem getInfos_iff (v : JVal) (l : List PathInfo) :
    getArr getPathInfo v = some l ↔ IsInfos v l :=
  getArr_iff _ _ getPathInfo_iff v l

theorem getType_iff (v : JVal) (t : TargetType) : getType v = t ↔ IsType v t := by
  cases v with
  | str s => simp only [getType, IsType, JVal.str.injEq]; grind
  | _ => simp [getType, IsType]; grind

theorem getByte_iff (v : JVal) (b : UInt8) : getByte v = some b ↔ IsByte v b := by
  match v with
  | .num (.uint n) => simp [getByte, IsByte]; grind
  | .num (.nint n) => simp [getByte, IsByte]; grind
  | .num (.flt n) => simp [getByte, IsByte]; grind
  | .bool true => simp [getByte, IsByte]; grind
  | .bool false => simp [getByte, IsByte]; grind
  | .null => simp [getByte, IsByte]
  | .str _ => simp [getByte, IsByte]
  | .arr _ => simp [getByte, IsByte]
  | .obj _ => simp [getByte, IsByte]

theorem getTarget_iff (v : JVal) (s : TargetSchema) :
    getTarget v = some s ↔ ∃ o, v = .obj o ∧ HoldsTarget o s := by
  cases v with
  | obj o =>
    have ht : ∀ t, (∃ a, at? (.obj o) b!"type" = some a ∧ getType a = t) ↔
        Has o b!"type" IsType t := by
      intro t; simp [at?, Has, getType_iff]
    constructor
    · intro h
      refine ⟨o, rfl, ?_⟩
      simp only [getTarget, Option.bind_eq_bind] at h
      simp only [Option.bind_eq_some_iff , has_iff o _ getStr IsStr getStr_iff,
        has_iff o _ _ IsInfos getInfos_iff, has_iff o _ _ IsStrs getStrs_iff,
        has_iff o _ _ IsBool getBool_iff] at h
      obtain ⟨_, _, _, _, _, _, _, _, _, _, _, _, _, _, _, _, _, _, _, _, _, _, _, _, _, _, _, _,
        _, _, _, _, _, _, _, _, _, _, _, _, _, _, e⟩ := h
      cases e
      constructor
      all_goals first
        | assumption
        | (exact (ht _).1 ⟨_, ‹_›, rfl⟩)
    · rintro ⟨o', e, h⟩
      cases e
      obtain ⟨t, ht1, ht2⟩ := (ht _).2 h.type
      simp only [getTarget, Option.bind_eq_bind]
      rw [(has_iff o _ getStr IsStr getStr_iff _).2 h.name, ht1,
        (has_iff o _ _ IsInfos getInfos_iff _).2 h.sources,
        (has_iff o _ _ IsInfos getInfos_iff _).2 h.headers,
        (has_iff o _ _ IsInfos getInfos_iff _).2 h.pchs,
        (has_iff o _ _ IsInfos getInfos_iff _).2 h.libs,
        (has_iff o _ _ IsStrs getStrs_iff _).2 h.externalLibs,
        (has_iff o _ _ IsStrs getStrs_iff _).2 h.includeDirs,
        (has_iff o _ _ IsStrs getStrs_iff _).2 h.libDirs,
        (has_iff o _ _ IsStrs getStrs_iff _).2 h.preprocessorFlags,
        (has_iff o _ _ IsStrs getStrs_iff _).2 h.commonCompileFlags,
        (has_iff o _ _ IsStrs getStrs_iff _).2 h.pchCompileFlags,
        (has_iff o _ _ IsStrs getStrs_iff _).2 h.pchObjectFlags,
        (has_iff o _ _ IsStrs getStrs_iff _).2 h.asmCompileFlags,
        (has_iff o _ _ IsStrs getStrs_iff _).2 h.cCompileFlags,
        (has_iff o _ _ IsStrs getStrs_iff _).2 h.cppCompileFlags,
        (has_iff o _ _ IsStrs getStrs_iff _).2 h.linkFlags,
        (has_iff o _ _ IsInfos getInfos_iff _).2 h.compileDeps,
        (has_iff o _ _ IsInfos getInfos_iff _).2 h.linkDeps,
        (has_iff o _ _ IsBool getBool_iff _).2 h.pchCompiled,
        (has_iff o _ _ IsBool getBool_iff _).2 h.targetLinked]
      simp [ht2]
  | _ => simp [getTarget, field, at?]

theorem getIdInfo_iff (v : JVal) (i : IdInfo) : getIdInfo v = some i ↔ IsIdInfo v i := by
  cases v with
  | obj o =>
    simp only [getIdInfo, Option.bind_eq_bind]
    simp only [Option.bind_eq_some_iff , has_iff o _ _ IsInfos getInfos_iff,
      has_iff o _ _ IsStrs getStrs_iff, has_iff o _ _ _ (getArr_iff _ _ getByte_iff)]
    constructor
    · rintro ⟨p, hp, h, hh, b, hb, e⟩; cases e; exact ⟨o, rfl, hp, hh, hb⟩
    · rintro ⟨o', e, h1, h2, h3⟩; cases e; exact ⟨_, h1, _, h2, _, h3, rfl⟩
  | _ => simp [getIdInfo, field, at?, IsIdInfo]

theorem getIds_iff (v : JVal) (l : List (Str × IdInfo)) :
    getIds v = some l ↔ ∃ a, v = .obj a ∧
      Each (fun p q => p.1 = q.1 ∧ IsIdInfo p.2 q.2) a l := by
  cases v with
  | obj o =>
    simp only [getIds, JVal.obj.injEq, exists_eq_left']
    induction o generalizing l with
    | nil =>
      simp only [List.mapM_nil]
      constructor
      · intro h; cases h; exact .nil
      · intro h; cases h; rfl
    | cons p o ih =>
      obtain ⟨k, v⟩ := p
      simp only [List.mapM_cons, Option.bind_eq_bind, Option.bind_eq_some_iff, Option.map_eq_some_iff]
      constructor
      · rintro ⟨x, ⟨i, hi, rfl⟩, l', hl', e⟩
        cases e
        exact .cons ⟨rfl, (getIdInfo_iff _ _).1 hi⟩ ((ih _).1 hl')
      · intro hh
        cases hh with
        | cons h1 h2 =>
          refine ⟨_, ⟨_, (getIdInfo_iff _ _).2 h1.2, rfl⟩, _, (ih _).2 h2, ?_⟩
          have := h1.1; simp at this; rw [this]; rfl
  | _ => simp [getIds]

theorem getGen_iff (v : JVal) (s : GenSchema) :
    getGen v = some s ↔ ∃ o, v = .obj o ∧ HoldsGen o s := by
  cases v with
  | obj o =>
    simp only [getGen, Option.bind_eq_bind]
    simp only [Option.bind_eq_some_iff , has_iff o _ _ IsStr getStr_iff,
      has_iff o _ _ _ getIds_iff]
    constructor
    · rintro ⟨p, hp, h, hh, e⟩; cases e; exact ⟨o, rfl, hp, hh⟩
    · rintro ⟨o', e, h1, h2⟩; cases e; exact ⟨_, h1, _, h2, rfl⟩
  | _ => simp [getGen, field, at?]

end Verif.Schema
