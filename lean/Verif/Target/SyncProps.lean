import Verif.Target.Sync

/-! # Specification and proofs for `Copy` and `Insert` (C44, C45) -/

namespace Verif.Target
open Verif Verif.Schema

/-- The entries of the list that an option selects. -/
def entries (o : SyncOption) (t : TargetSchema) : List (PathInfo ⊕ Str) :=
  match o with
  | .preprocessorFlags => t.preprocessorFlags.map .inr
  | .commonCompileFlags => t.commonCompileFlags.map .inr
  | .pchCompileFlags => t.pchCompileFlags.map .inr
  | .pchObjectFlags => t.pchObjectFlags.map .inr
  | .asmCompileFlags => t.asmCompileFlags.map .inr
  | .cCompileFlags => t.cCompileFlags.map .inr
  | .cppCompileFlags => t.cppCompileFlags.map .inr
  | .linkFlags => t.linkFlags.map .inr
  | .compileDeps => t.compileDeps.map .inl
  | .linkDeps => t.linkDeps.map .inl
  | .sources => t.sources.map .inl
  | .headers => t.headers.map .inl
  | .pchs => t.pchs.map .inl
  | .libs => t.libs.map .inl
  | .includeDirs => t.includeDirs.map .inr
  | .libDirs => t.libDirs.map .inr
  | .externalLibs => t.externalLibs.map .inr

/-- What no option selects. -/
def SameRest (t t' : TargetSchema) : Prop :=
  t'.name = t.name ∧ t'.type = t.type ∧ t'.pchCompiled = t.pchCompiled ∧
    t'.targetLinked = t.targetLinked

/-- The options that select a list of strings that is moved, not a list of paths. -/
def SyncOption.movable : SyncOption → Bool
  | .sources | .headers | .pchs | .libs | .includeDirs | .libDirs | .compileDeps
  | .linkDeps => false
  | _ => true

theorem map_inl_inj {a b : List PathInfo} (h : a.map (.inl : _ → PathInfo ⊕ Str) = b.map .inl) :
    a = b := (List.map_inj_right fun _ _ h => Sum.inl.inj h).1 h

theorem map_inr_inj {a b : List Str} (h : a.map (.inr : _ → PathInfo ⊕ Str) = b.map .inr) :
    a = b := (List.map_inj_right fun _ _ h => Sum.inr.inj h).1 h

/-- The entries of all options and the rest are the whole target. -/
theorem entries_ext {t t' : TargetSchema} (h : ∀ o, entries o t' = entries o t)
    (hr : SameRest t t') : t' = t := by
  have h0 := map_inr_inj (h .preprocessorFlags)
  have h1 := map_inr_inj (h .commonCompileFlags)
  have h2 := map_inr_inj (h .pchCompileFlags)
  have h3 := map_inr_inj (h .pchObjectFlags)
  have h4 := map_inr_inj (h .asmCompileFlags)
  have h5 := map_inr_inj (h .cCompileFlags)
  have h6 := map_inr_inj (h .cppCompileFlags)
  have h7 := map_inr_inj (h .linkFlags)
  have h8 := map_inl_inj (h .compileDeps)
  have h9 := map_inl_inj (h .linkDeps)
  have h10 := map_inl_inj (h .sources)
  have h11 := map_inl_inj (h .headers)
  have h12 := map_inl_inj (h .pchs)
  have h13 := map_inl_inj (h .libs)
  have h14 := map_inr_inj (h .includeDirs)
  have h15 := map_inr_inj (h .libDirs)
  have h16 := map_inr_inj (h .externalLibs)
  obtain ⟨r1, r2, r3, r4⟩ := hr
  cases t; cases t'
  simp only at *
  simp [*]

theorem copyOne_entries (t src : TargetSchema) (o o' : SyncOption) :
    entries o' (copyOne t src o) = if o' = o then entries o' src else entries o' t := by
  cases o <;> cases o' <;> rfl

theorem copyOne_rest (t src : TargetSchema) (o : SyncOption) : SameRest t (copyOne t src o) := by
  cases o <;> exact ⟨rfl, rfl, rfl, rfl⟩

theorem insertOne_entries (t src : TargetSchema) (o o' : SyncOption) :
    entries o' (insertOne t src o) =
      if o' = o then entries o' t ++ entries o' src else entries o' t := by
  cases o <;> cases o' <;> first | rfl | exact List.map_append

theorem insertOne_rest (t src : TargetSchema) (o : SyncOption) :
    SameRest t (insertOne t src o) := by
  cases o <;> exact ⟨rfl, rfl, rfl, rfl⟩

theorem SameRest.trans {a b c : TargetSchema} (h : SameRest a b) (h' : SameRest b c) :
    SameRest a c :=
  ⟨h'.1.trans h.1, h'.2.1.trans h.2.1, h'.2.2.1.trans h.2.2.1, h'.2.2.2.trans h.2.2.2⟩

/-- C44: `Copy` makes each selected list equal to the source's and changes nothing else. -/
theorem C44_copy (t src : TargetSchema) (options : List SyncOption) :
    (∀ o, entries o (copy t src options) =
      if o ∈ options then entries o src else entries o t) ∧
    SameRest t (copy t src options) := by
  induction options generalizing t with
  | nil => exact ⟨fun o => by simp [copy], rfl, rfl, rfl, rfl⟩
  | cons x xs ih =>
    obtain ⟨ih1, ih2⟩ := ih (copyOne t src x)
    refine ⟨fun o => ?_, (copyOne_rest t src x).trans ih2⟩
    rw [show copy t src (x :: xs) = copy (copyOne t src x) src xs from rfl, ih1 o,
      copyOne_entries]
    by_cases h1 : o = x <;> by_cases h2 : o ∈ xs <;> simp [h1, h2]

/-- C44: `Insert` appends the entries of the source, in order, once for every time the
option is given, and changes nothing else. -/
theorem C44_insert (t src : TargetSchema) (options : List SyncOption) :
    (∀ o, entries o (insert t src options) =
      entries o t ++ (List.replicate (options.count o) (entries o src)).flatten) ∧
    SameRest t (insert t src options) := by
  induction options generalizing t with
  | nil => exact ⟨fun o => by simp [insert], rfl, rfl, rfl, rfl⟩
  | cons x xs ih =>
    obtain ⟨ih1, ih2⟩ := ih (insertOne t src x)
    refine ⟨fun o => ?_, (insertOne_rest t src x).trans ih2⟩
    rw [show insert t src (x :: xs) = insert (insertOne t src x) src xs from rfl, ih1 o,
      insertOne_entries]
    by_cases h1 : o = x
    · subst h1
      simp [List.replicate_succ]
    · rw [if_neg h1, List.count_cons_of_ne (fun h => h1 h.symm)]

/-- A target that has an entry in every list. -/
def exSyncFull (s : Str) : TargetSchema where
  name := s
  type := .executable
  sources := [⟨s, b!""⟩]
  headers := [⟨s, b!""⟩]
  pchs := [⟨s, b!""⟩]
  libs := [⟨s, b!""⟩]
  externalLibs := [s]
  includeDirs := [s]
  libDirs := [s]
  preprocessorFlags := [s]
  commonCompileFlags := [s]
  pchCompileFlags := [s]
  pchObjectFlags := [s]
  asmCompileFlags := [s]
  cCompileFlags := [s]
  cppCompileFlags := [s]
  linkFlags := [s]
  compileDeps := [⟨s, b!""⟩]
  linkDeps := [⟨s, b!""⟩]
  pchCompiled := true
  targetLinked := true

example : (copy (exSyncFull b!"t") (exSyncFull b!"s") [.cppCompileFlags, .libs]).cppCompileFlags = [b!"s"] ∧
    (copy (exSyncFull b!"t") (exSyncFull b!"s") [.cppCompileFlags, .libs]).libs = [⟨b!"s", b!""⟩] ∧
    (copy (exSyncFull b!"t") (exSyncFull b!"s") [.cppCompileFlags, .libs]).cCompileFlags = [b!"t"] := by
  decide

example : (insert (exSyncFull b!"t") (exSyncFull b!"s") [.linkFlags, .linkFlags]).linkFlags =
    [b!"t", b!"s", b!"s"] := by decide

/-! ## C45 -/

theorem copyLeaves_other (src junk t : TargetSchema) {o o' : SyncOption} (h : o' ≠ o) :
    copyOne t (copyLeaves src junk o) o' = copyOne t src o' := by
  cases o <;> cases o' <;> first | rfl | exact absurd rfl h

theorem copy_leaves (t src junk : TargetSchema) (o : SyncOption) (options : List SyncOption)
    (h : o ∉ options) : copy t (copyLeaves src junk o) options = copy t src options := by
  induction options generalizing t with
  | nil => rfl
  | cons x xs ih =>
    simp only [List.mem_cons, not_or] at h
    show copy (copyOne t _ x) _ xs = copy (copyOne t src x) src xs
    rw [copyLeaves_other src junk t (fun e => h.1 e.symm), ih _ h.2]

/-- C45: `Copy` by move leaves the receiving target as `Copy` by reference would, if no
option is repeated.

Missing: repeated options; see `C45_copy_repeated_false`. -/
theorem C45_copy_partial (junk : Nat → TargetSchema) (t src : TargetSchema)
    (options : List SyncOption) (h : options.Nodup) (n : Nat) :
    (copyMove junk n t src options).1 = copy t src options := by
  induction options generalizing t src n with
  | nil => rfl
  | cons x xs ih =>
    rw [List.nodup_cons] at h
    show (copyMove junk (n + 1) _ _ xs).1 = copy (copyOne t src x) src xs
    rw [ih _ _ h.2, copy_leaves _ _ _ _ _ h.1]

theorem insertLeaves_other (src junk t : TargetSchema) {o o' : SyncOption}
    (h : o.movable = true → o' ≠ o) :
    insertOne t (insertLeaves src junk o) o' = insertOne t src o' := by
  cases o <;> cases o' <;> first | rfl | exact absurd rfl (h rfl)

theorem insert_leaves (t src junk : TargetSchema) (o : SyncOption) (options : List SyncOption)
    (h : o.movable = true → o ∉ options) :
    insert t (insertLeaves src junk o) options = insert t src options := by
  induction options generalizing t with
  | nil => rfl
  | cons x xs ih =>
    show insert (insertOne t _ x) _ xs = insert (insertOne t src x) src xs
    rw [insertLeaves_other src junk t (fun hm e => h hm (by simp [e])),
      ih _ (fun hm hx => h hm (by simp [hx]))]

/-- C45: `Insert` by move leaves the receiving target as `Insert` by reference would, if no
option that selects a list of strings is repeated; the options that select paths may be.

Missing: repeated options for strings; see `C45_insert_repeated_false`. -/
theorem C45_insert_partial (junk : Nat → TargetSchema) (t src : TargetSchema)
    (options : List SyncOption)
    (h : ∀ o, o.movable = true → options.count o ≤ 1) (n : Nat) :
    (insertMove junk n t src options).1 = insert t src options := by
  induction options generalizing t src n with
  | nil => rfl
  | cons x xs ih =>
    show (insertMove junk (n + 1) _ _ xs).1 = insert (insertOne t src x) src xs
    rw [ih _ _ (fun o ho => Nat.le_trans (List.count_le_count_cons) (h o ho)),
      insert_leaves]
    intro hm hx
    have h1 := h x hm
    rw [List.count_cons_self] at h1
    have h2 := List.one_le_count_iff.2 hx
    omega

/-- C45 is false for `Copy` with a repeated option: when a moved-from vector is empty, as it
is in every implementation, the second move makes the list empty. -/
theorem C45_copy_repeated_false :
    ∃ (t src : TargetSchema) (options : List SyncOption),
      (copyMove (fun _ => .empty) 0 t src options).1 ≠ copy t src options ∧
      src.cppCompileFlags ≠ [] ∧
      (copyMove (fun _ => .empty) 0 t src options).1.cppCompileFlags = [] :=
  ⟨exSyncFull b!"t", exSyncFull b!"s", [.cppCompileFlags, .cppCompileFlags], by decide, by decide,
    by decide⟩

/-- C45 is false for `Insert` with a repeated option for strings: the second insertion
appends what the first one left behind, here empty strings. -/
theorem C45_insert_repeated_false :
    ∃ (t src : TargetSchema) (options : List SyncOption) (junk : TargetSchema),
      insert t src options ≠ (insertMove (fun _ => junk) 0 t src options).1 ∧
      (insertMove (fun _ => junk) 0 t src options).1.linkFlags = [b!"t", b!"s", b!""] :=
  ⟨exSyncFull b!"t", exSyncFull b!"s", [.linkFlags, .linkFlags],
    { TargetSchema.empty with linkFlags := [b!""] }, by decide, by decide⟩

/-- Different options, and a path option twice. -/
example (junk : Nat → TargetSchema) :
    (insertMove junk 0 (exSyncFull b!"t") (exSyncFull b!"s") [.sources, .sources, .linkFlags]).1.sources =
      [⟨b!"t", b!""⟩, ⟨b!"s", b!""⟩, ⟨b!"s", b!""⟩] := by
  rw [C45_insert_partial]
  · decide
  · intro o ho
    cases o <;> simp [SyncOption.movable] at ho <;> decide

example (junk : Nat → TargetSchema) :
    (copyMove junk 0 (exSyncFull b!"t") (exSyncFull b!"s") [.pchs, .linkFlags]).1.linkFlags = [b!"s"] := by
  rw [C45_copy_partial _ _ _ _ (by decide)]; decide

end Verif.Target
