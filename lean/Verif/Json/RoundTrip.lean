import Verif.Json.Lemmas

namespace Verif.Json
open Verif

/-- Values that the library builds: valid UTF-8 strings, 64-bit integers and
objects with distinct keys. -/
def JVal.Wf : JVal → Prop
  | .null | .bool _ => True
  | .num (.uint n) => n < 2 ^ 64
  | .num (.nint n) => n ≤ 2 ^ 63
  | .num (.flt _) => False
  | .str s => validUtf8 s = true
  | .arr l => WfL l
  | .obj l => (l.map Prod.fst).Nodup ∧ WfM l
where
  WfL : List JVal → Prop
    | [] => True
    | v :: l => v.Wf ∧ WfL l
  WfM : List (Str × JVal) → Prop
    | [] => True
    | (k, v) :: l => validUtf8 k = true ∧ v.Wf ∧ WfM l

/-- Fuel needed to parse the dump of a value. -/
def need : JVal → Nat
  | .null | .bool _ | .num _ | .str _ => 1
  | .arr l => 1 + needL l
  | .obj l => 1 + needM l
where
  needL : List JVal → Nat
    | [] => 0
    | v :: l => 1 + max (need v) (needL l)
  needM : List (Str × JVal) → Nat
    | [] => 0
    | (_, v) :: l => 1 + max (need v) (needM l)

theorem skipWs_cons {b : UInt8} (h : isWs b = false) (r : Str) :
    skipWs (b :: r) = b :: r := by simp [skipWs, h]

theorem skipWs_spaces (n : Nat) (r : Str) : skipWs (spaces n ++ r) = skipWs r := by
  induction n with
  | zero => rfl
  | succ n ih => simpa [spaces, List.replicate_succ, skipWs, isWs] using ih

theorem skipWs_nl (r : Str) : skipWs (c!"\n" :: r) = skipWs r := by simp [skipWs, isWs]
theorem skipWs_sp (r : Str) : skipWs (c!" " :: r) = skipWs r := by simp [skipWs, isWs]

theorem skipWs_idem (s : Str) : skipWs (skipWs s) = skipWs s := by
  induction s with
  | nil => rfl
  | cons b r ih =>
    rw [skipWs]
    split
    · exact ih
    · rename_i h; simp [skipWs, h]

theorem parseV_skip (f : Nat) (s : Str) : parseV f (skipWs s) = parseV f s := by
  cases f with
  | zero => simp [parseV]
  | succ f => rw [parseV, parseV, skipWs_idem]

theorem parseMembers_skip (f : Nat) (s : Str) : parseMembers f (skipWs s) = parseMembers f s := by
  cases f with
  | zero => simp [parseMembers]
  | succ f => rw [parseMembers, parseMembers, skipWs_idem]

theorem parseElems_skip (f : Nat) (s : Str) : parseElems f (skipWs s) = parseElems f s := by
  cases f with
  | zero => simp [parseElems]
  | succ f => rw [parseElems, parseElems, parseV_skip]

theorem parseV_skips (f n : Nat) (s : Str) : parseV f (spaces n ++ s) = parseV f s := by
  rw [← parseV_skip, skipWs_spaces, parseV_skip]

/-- Text that follows a value inside a dump: nothing, a comma or a newline. -/
def After (r : Str) : Prop := ∀ b t, r = b :: t → b = c!"," ∨ b = c!"\n"

theorem After.numEnd {r : Str} (h : After r) : NumEnd r := by
  intro b t hb
  rcases h b t hb with h | h <;> subst h <;> decide

theorem After.nil : After [] := by intro b t h; cases h
theorem After.comma (r : Str) : After (c!"," :: r) := by
  intro b t h; cases h; exact Or.inl rfl
theorem After.nl (r : Str) : After (c!"\n" :: r) := by
  intro b t h; cases h; exact Or.inr rfl

/-! ### `mkObj` -/

theorem setKey_new (k : Str) (v : JVal) (l : List (Str × JVal)) (h : k ∉ l.map Prod.fst) :
    setKey k v l = l ++ [(k, v)] := by
  induction l with
  | nil => rfl
  | cons p l ih =>
    obtain ⟨k', v'⟩ := p
    simp at h
    simp only [setKey]
    rw [if_neg (fun e => h.1 e.symm), ih (by simpa using h.2)]
    rfl

theorem mkObj_aux (l acc : List (Str × JVal))
    (h : ((acc ++ l).map Prod.fst).Nodup) :
    l.foldl (fun acc (k, v) => setKey k v acc) acc = acc ++ l := by
  induction l generalizing acc with
  | nil => simp
  | cons p l ih =>
    obtain ⟨k, v⟩ := p
    simp only [List.foldl_cons]
    have hk : k ∉ acc.map Prod.fst := by
      simp only [List.map_append, List.map_cons, List.nodup_append] at h
      intro hm
      exact h.2.2 k hm k (by simp) rfl
    rw [setKey_new k v acc hk, ih]
    · simp
    · simpa using h

theorem mkObj_nodup (l : List (Str × JVal)) (h : (l.map Prod.fst).Nodup) : mkObj l = l := by
  have := mkObj_aux l [] (by simpa using h)
  simpa [mkObj] using this

/-! ### Main induction -/

theorem digits_ne_nil (n : Nat) : ∃ b t, digits n = b :: t ∧ isDigit b = true := by
  obtain ⟨b, t, hb, _⟩ := digitsAux_head (n + 1) n (by omega)
  exact ⟨b, t, hb, digits_isDigit n b (by change digits n = _ at hb; simp [hb])⟩

theorem isDigit_start {b : UInt8} (h : isDigit b = true) :
    isWs b = false ∧ b ≠ c!"{" ∧ b ≠ c!"[" ∧ b ≠ c!"\"" ∧ b ≠ c!"t" ∧ b ≠ c!"f" ∧ b ≠ c!"n" := by
  simp only [isDigit, inRange_iff] at h
  simp only [isWs, Bool.or_eq_false_iff, decide_eq_false_iff_not]
  grind

theorem parseV_str (f : Nat) (s r : Str) (h : validUtf8 s = true) :
    parseV (f + 1) (dumpStr s ++ r) = some (.str s, r) := by
  have := scanStr_escape s r h
  simp only [dumpStr, List.cons_append, List.append_assoc, List.nil_append]
  rw [parseV, skipWs_cons (by decide)]
  simp [this]

theorem parseV_uint (f n : Nat) (r : Str) (h : n < 2 ^ 64) (hr : NumEnd r) :
    parseV (f + 1) (digits n ++ r) = some (.num (.uint n), r) := by
  have h1 := scanNum_uint n r h hr
  obtain ⟨b, t, hb, hd⟩ := digits_ne_nil n
  rw [hb, List.cons_append] at h1 ⊢
  obtain ⟨h2, h3, h4, h5, h6, h7, h8⟩ := isDigit_start hd
  rw [parseV, skipWs_cons h2]
  simp [h3, h4, h5, h6, h7, h8, hd, h1]

theorem parseV_nint (f n : Nat) (r : Str) (h : n ≤ 2 ^ 63) (hr : NumEnd r) :
    parseV (f + 1) (c!"-" :: (digits n ++ r)) = some (.num (.nint n), r) := by
  have h1 := scanNum_nint n r h hr
  rw [parseV, skipWs_cons (by decide)]
  simp [h1]

/-- A dumped value starts with a byte that is not white space and not a closing
bracket. -/
theorem dumpV_head (ind : Nat) (v : JVal) (h : v.Wf) :
    ∃ b t, dumpV ind v = b :: t ∧ isWs b = false ∧ b ≠ c!"]" ∧ b ≠ c!"}" := by
  match v with
  | .null => exact ⟨_, _, rfl, by decide⟩
  | .bool true => exact ⟨_, _, rfl, by decide⟩
  | .bool false => exact ⟨_, _, rfl, by decide⟩
  | .num (.uint n) =>
    obtain ⟨b, t, hb, hd⟩ := digits_ne_nil n
    refine ⟨b, t, by simp [dumpV, dumpNum, hb], (isDigit_start hd).1, ?_, ?_⟩ <;>
      (simp only [isDigit, inRange_iff] at hd; grind)
  | .num (.nint n) => exact ⟨_, _, rfl, by decide⟩
  | .num (.flt _) => exact absurd h (by simp [JVal.Wf])
  | .str s => exact ⟨_, _, rfl, by decide⟩
  | .arr [] => exact ⟨_, _, rfl, by decide⟩
  | .arr (_ :: _) => exact ⟨_, _, rfl, by decide⟩
  | .obj [] => exact ⟨_, _, rfl, by decide⟩
  | .obj ((_, _) :: _) => exact ⟨_, _, rfl, by decide⟩

mutual
theorem parseV_dump (v : JVal) (ind f : Nat) (r : Str) (h : v.Wf) (hf : need v ≤ f)
    (hr : After r) : parseV f (dumpV ind v ++ r) = some (v, r) := by
  match v, f with
  | v, 0 => exact absurd hf (by cases v <;> simp [need])
  | .null, f + 1 => simp [dumpV, parseV, skipWs, isWs, scanLit]
  | .bool true, f + 1 => simp [dumpV, parseV, skipWs, isWs, scanLit]
  | .bool false, f + 1 => simp [dumpV, parseV, skipWs, isWs, scanLit]
  | .num (.uint n), f + 1 => exact parseV_uint f n r h hr.numEnd
  | .num (.nint n), f + 1 => exact parseV_nint f n r h hr.numEnd
  | .num (.flt _), _ => exact absurd h (by simp [JVal.Wf])
  | .str s, f + 1 => exact parseV_str f s r h
  | .arr [], f + 1 => simp [dumpV, parseV, skipWs, isWs]
  | .obj [], f + 1 => simp [dumpV, parseV, skipWs, isWs]
  | .arr (v :: l), f + 1 =>
    have hfl : need.needL (v :: l) ≤ f := by simp only [need] at hf; omega
    have hw : JVal.Wf.WfL (v :: l) := h
    have key := parseElems_dump v l (ind + 4) f
      (c!"\n" :: (spaces ind ++ (c!"]" :: r))) r hw hfl
      (by rw [skipWs_nl, skipWs_spaces, skipWs_cons (by decide)])
      (After.nl _)
    obtain ⟨b, t, hb, hws, hnb, _⟩ := dumpV_head (ind + 4) v hw.1
    have e : dumpV ind (.arr (v :: l)) ++ r
        = c!"[" :: c!"\n" :: (spaces (ind + 4) ++ (dumpV (ind + 4) v ++
          (dumpV.dumpRest (ind + 4) l ++ (c!"\n" :: (spaces ind ++ (c!"]" :: r)))))) := by
      simp [dumpV]
    rw [e, parseV, skipWs_cons (by decide)]
    simp only [skipWs_nl, skipWs_spaces]
    rw [hb] at key ⊢
    simp only [List.cons_append] at key ⊢
    rw [skipWs_cons hws]
    simp [hnb, key]
  | .obj ((k, v) :: l), f + 1 =>
    have hfl : need.needM ((k, v) :: l) ≤ f := by simp only [need] at hf; omega
    have hw : JVal.Wf.WfM ((k, v) :: l) := h.2
    have key := parseMembers_dump k v l (ind + 4) f
      (c!"\n" :: (spaces ind ++ (c!"}" :: r))) r hw hfl
      (by rw [skipWs_nl, skipWs_spaces, skipWs_cons (by decide)])
      (After.nl _)
    have e : dumpV ind (.obj ((k, v) :: l)) ++ r
        = c!"{" :: c!"\n" :: (spaces (ind + 4) ++ (dumpStr k ++ (c!":" :: c!" " ::
          (dumpV (ind + 4) v ++
          (dumpV.dumpRestM (ind + 4) l ++ (c!"\n" :: (spaces ind ++ (c!"}" :: r)))))))) := by
      simp [dumpV]
    rw [e, parseV, skipWs_cons (by decide)]
    simp only [skipWs_nl, skipWs_spaces]
    simp only [dumpStr, List.cons_append] at key ⊢
    rw [skipWs_cons (by decide)]
    have hm := mkObj_nodup _ h.1
    simp at key
    simp [key, hm]
theorem parseElems_dump (v : JVal) (l : List JVal) (ind f : Nat) (e r : Str)
    (h : JVal.Wf.WfL (v :: l)) (hf : need.needL (v :: l) ≤ f)
    (he : skipWs e = c!"]" :: r) (hae : After e) :
    parseElems f (dumpV ind v ++ (dumpV.dumpRest ind l ++ e)) = some (v :: l, r) := by
  match f with
  | 0 => simp [need.needL] at hf
  | f + 1 =>
    simp only [need.needL] at hf
    match l with
    | [] =>
      have h1 := parseV_dump v ind f e h.1 (by omega) hae
      simp [parseElems, dumpV.dumpRest, h1, he]
    | w :: l =>
      have h1 := parseV_dump v ind f (dumpV.dumpRest ind (w :: l) ++ e) h.1 (by omega)
        (by simp only [dumpV.dumpRest, List.cons_append]; exact After.comma _)
      have h2 := parseElems_dump w l ind f e r h.2 (by omega) he hae
      rw [parseElems, h1]
      have e2 : dumpV.dumpRest ind (w :: l) ++ e = c!"," :: c!"\n" :: (spaces ind ++
          (dumpV ind w ++ (dumpV.dumpRest ind l ++ e))) := by
        simp [dumpV.dumpRest]
      rw [e2]
      simp only [skipWs_cons (b := c!",") (by decide)]
      have h3 : parseElems f (c!"\n" :: (spaces ind ++
          (dumpV ind w ++ (dumpV.dumpRest ind l ++ e)))) = some (w :: l, r) := by
        rw [← parseElems_skip, skipWs_nl, skipWs_spaces, parseElems_skip, h2]
      simp [h3]
theorem parseMembers_dump (k : Str) (v : JVal) (l : List (Str × JVal)) (ind f : Nat) (e r : Str)
    (h : JVal.Wf.WfM ((k, v) :: l)) (hf : need.needM ((k, v) :: l) ≤ f)
    (he : skipWs e = c!"}" :: r) (hae : After e) :
    parseMembers f (dumpStr k ++ (c!":" :: c!" " :: (dumpV ind v ++
      (dumpV.dumpRestM ind l ++ e)))) = some ((k, v) :: l, r) := by
  match f with
  | 0 => simp [need.needM] at hf
  | f + 1 =>
    simp only [need.needM] at hf
    have hk := fun r => scanStr_escape k r h.1
    simp only [dumpStr, List.cons_append, List.append_assoc, List.nil_append]
    rw [parseMembers, skipWs_cons (by decide)]
    simp only [hk]
    simp only [skipWs_cons (b := c!":") (by decide)]
    match l with
    | [] =>
      have h1 := parseV_dump v ind f e h.2.1 (by omega) hae
      have h1' : parseV f (c!" " :: (dumpV ind v ++ (dumpV.dumpRestM ind [] ++ e)))
          = some (v, e) := by
        rw [← parseV_skip, skipWs_sp, parseV_skip]; simpa [dumpV.dumpRestM] using h1
      simp [h1', he]
    | (k2, w) :: l =>
      have h1 := parseV_dump v ind f (dumpV.dumpRestM ind ((k2, w) :: l) ++ e) h.2.1 (by omega)
        (by simp only [dumpV.dumpRestM, List.cons_append]; exact After.comma _)
      have h1' : parseV f (c!" " :: (dumpV ind v ++ (dumpV.dumpRestM ind ((k2, w) :: l) ++ e)))
          = some (v, dumpV.dumpRestM ind ((k2, w) :: l) ++ e) := by
        rw [← parseV_skip, skipWs_sp, parseV_skip, h1]
      have h2 := parseMembers_dump k2 w l ind f e r h.2.2 (by omega) he hae
      have e2 : dumpV.dumpRestM ind ((k2, w) :: l) ++ e = c!"," :: c!"\n" :: (spaces ind ++
          (dumpStr k2 ++ (c!":" :: c!" " :: (dumpV ind w ++ (dumpV.dumpRestM ind l ++ e))))) := by
        simp [dumpV.dumpRestM]
      have h3 : parseMembers f (c!"\n" :: (spaces ind ++ (dumpStr k2 ++ (c!":" :: c!" " ::
          (dumpV ind w ++ (dumpV.dumpRestM ind l ++ e)))))) = some ((k2, w) :: l, r) := by
        rw [← parseMembers_skip, skipWs_nl, skipWs_spaces, parseMembers_skip, h2]
      rw [h1', e2]
      simp only [skipWs_cons (b := c!",") (by decide)]
      simp [h3]
end

end Verif.Json
