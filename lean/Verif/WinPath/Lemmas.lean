import Verif.Path.Exact
import Verif.WinPath.Model
import Verif.WinPath.Spec

/-! # Lemmas about paths on Windows -/

namespace Verif.WinPath
open Verif

/-! ## Spellings -/

theorem fwd_append (s t : Str) : fwd (s ++ t) = fwd s ++ fwd t := List.map_append

theorem fwd_same (s : Str) (h : back ∉ s) : fwd s = s := by
  rw [fwd]
  conv => rhs; rw [← List.map_id s]
  refine List.map_congr_left fun b hb => ?_
  have hn : b ≠ back := fun e => h (e ▸ hb)
  rw [if_neg hn]
  rfl

theorem back_fwd (s : Str) : back ∉ fwd s := by
  intro h
  obtain ⟨b, _, e⟩ := List.mem_map.1 h
  split at e
  · exact absurd e (by decide)
  · rename_i hb; exact hb e

theorem fwd_bwd (s : Str) : fwd (bwd s) = fwd s := by
  rw [fwd, bwd, List.map_map]
  refine List.map_congr_left fun b _ => ?_
  simp only [Function.comp]
  by_cases h : b = Path.slash
  · simp [h]
  · rw [if_neg h]

theorem fwd_fwd (s : Str) : fwd (fwd s) = fwd s := fwd_same _ (back_fwd s)

theorem bwd_fwd (s : Str) : bwd (fwd s) = bwd s := by
  rw [fwd, bwd, bwd, List.map_map]
  refine List.map_congr_left fun b _ => ?_
  simp only [Function.comp]
  by_cases h : b = back
  · simp [h, Path.slash]
  · rw [if_neg h]

theorem slash_bwd (s : Str) : Path.slash ∉ bwd s := by
  intro h
  obtain ⟨b, _, e⟩ := List.mem_map.1 h
  split at e
  · exact absurd e (by decide)
  · rename_i hb; exact hb e

theorem sameSpelling_iff (s t : Str) : SameSpelling s t ↔ fwd s = fwd t := by
  induction s generalizing t with
  | nil => cases t <;> simp [SameSpelling, fwd]
  | cons a s ih =>
    cases t with
    | nil => simp [SameSpelling, fwd]
    | cons b t =>
      have e : fwd (a :: s) = fwd (b :: t) ↔
          (if a = back then Path.slash else a) = (if b = back then Path.slash else b) ∧ fwd s = fwd t := by
        simp only [fwd, List.map_cons, List.cons.injEq]
      rw [SameSpelling, ih, e]
      refine and_congr_left fun _ => ?_
      simp only [SameByte, Path.slash, back]
      by_cases ha : a = c!"\\" <;> by_cases hb : b = c!"\\"
      · simp [ha, hb]
      · rw [if_pos ha, if_neg hb]
        constructor
        · rintro (h | ⟨_, h | h⟩)
          · exact absurd (h ▸ ha) hb
          · exact h.symm
          · exact absurd h hb
        · exact fun h => .inr ⟨.inr ha, .inl h.symm⟩
      · rw [if_neg ha, if_pos hb]
        constructor
        · rintro (h | ⟨h | h, _⟩)
          · exact absurd (h ▸ hb) ha
          · exact h
          · exact absurd h ha
        · exact fun h => .inr ⟨.inl h, .inr hb⟩
      · rw [if_neg ha, if_neg hb]
        constructor
        · rintro (h | ⟨h | h, h' | h'⟩)
          · exact h
          · rw [h, h']
          · exact absurd h' hb
          · exact absurd h ha
          · exact absurd h ha
        · exact fun h => .inl h

/-! ## Drives -/

theorem drive_tail (s : Str) : drive s ++ tail s = s := by
  match s with
  | [] => rfl
  | [_] => rfl
  | a :: b :: r =>
    simp only [tail, drive]
    split <;> rfl

theorem drive_cases (s : Str) : drive s = [] ∨ ∃ a, isLetter a = true ∧ drive s = [a, c!":"] := by
  match s with
  | [] => exact .inl rfl
  | [_] => exact .inl rfl
  | a :: b :: r =>
    simp only [drive]
    split
    · rename_i h
      simp only [Bool.and_eq_true, decide_eq_true_eq] at h
      exact .inr ⟨a, h.1, by rw [h.2]⟩
    · exact .inl rfl

theorem letter_not_sep (a : UInt8) (h : isLetter a = true) : a ≠ c!"/" ∧ a ≠ c!"\\" ∧ a ≠ c!" " ∧ a ≠ c!"." := by
  refine ⟨?_, ?_, ?_, ?_⟩ <;> (rintro rfl; revert h; decide)

theorem fwd_drive (s : Str) : fwd (drive s) = drive s := by
  rcases drive_cases s with h | ⟨a, h, e⟩
  · rw [h]; rfl
  · rw [e]; exact fwd_same _ (by simp [(letter_not_sep a h).2.1.symm, back])

theorem drive_fwd (s : Str) : drive (fwd s) = drive s := by
  match s with
  | [] => rfl
  | [_] => rfl
  | a :: b :: r =>
    simp only [drive, fwd, List.map_cons]
    by_cases ha : a = back
    · subst ha
      rw [show isLetter (if back = back then Path.slash else back) = false by decide,
        show isLetter back = false by decide]
      rfl
    by_cases hb : b = back
    · subst hb; simp [Path.slash, back]
    simp only [ha, hb, if_false]

theorem tail_fwd (s : Str) : tail (fwd s) = fwd (tail s) := by
  rw [tail, tail, drive_fwd, fwd, fwd, List.map_drop]

theorem drive_bwd (s : Str) : drive (bwd s) = drive s := by
  rw [← drive_fwd, fwd_bwd, drive_fwd]

theorem tail_bwd (s : Str) : fwd (tail (bwd s)) = fwd (tail s) := by
  rw [← tail_fwd, fwd_bwd, tail_fwd]

theorem fwd_split (s : Str) : fwd s = drive s ++ fwd (tail s) := by
  conv => lhs; rw [← drive_tail s, fwd_append, fwd_drive]

/-- A path whose text begins as that of another path with a drive. -/
theorem drive_of_cons (s r : Str) (h : drive s ≠ []) : drive (drive s ++ r) = drive s := by
  rcases drive_cases s with e | ⟨a, ha, e⟩
  · exact absurd e h
  · rw [e]; simp [drive, ha]

theorem drive_no_colon (s : Str) (h : c!":" ∉ s) : drive s = [] := by
  rcases drive_cases s with e | ⟨a, ha, e⟩
  · exact e
  · refine absurd ?_ h
    rw [← drive_tail s, e]; simp

theorem tail_of_drive_nil (s : Str) (h : drive s = []) : tail s = s := by rw [tail, h]; rfl

theorem drive_take (s : Str) (n : Nat) (h : drive s = []) : drive (s.take n) = [] := by
  match s, n with
  | [], n => simp [drive]
  | [a], 0 => rfl
  | [a], n + 1 => simp [drive]
  | a :: b :: r, 0 => rfl
  | a :: b :: r, 1 => rfl
  | a :: b :: r, n + 2 => simpa [drive] using h

theorem drive_join (p q : Str) (hq : drive q = []) (hn : q = [] ∨ ∃ b r, q = b :: r ∧ b ≠ c!":")
    (hp : filename p = []) : drive (p ++ q) = drive p := by
  match p with
  | [] => exact hq
  | [a] =>
    rcases hn with rfl | ⟨b, r, rfl, hb⟩
    · rfl
    · show drive (a :: b :: r) = []
      simp [drive, hb]
  | a :: b :: r => rfl

theorem tail_eq (s x : Str) (d : Str) (h : fwd s = d ++ x) (hd : drive s = d) : fwd (tail s) = x := by
  rw [fwd_split, hd] at h
  exact List.append_cancel_left h

/-! ## Bytes -/

theorem mem_splitSlash_byte (s c : Str) (hc : c ∈ Path.splitSlash s) (b : UInt8) (hb : b ∈ c) : b ∈ s := by
  induction s generalizing c with
  | nil => rw [Path.splitSlash, List.mem_singleton] at hc; subst hc; exact hb
  | cons x r ih =>
    rw [Path.splitSlash] at hc
    split at hc
    · rcases List.mem_cons.1 hc with rfl | hc
      · simp at hb
      · exact List.mem_cons_of_mem _ (ih c hc hb)
    · split at hc
      · rename_i e; exact absurd e (Path.splitSlash_ne_nil r)
      · rename_i d ds e
        rcases List.mem_cons.1 hc with rfl | hc
        · rcases List.mem_cons.1 hb with rfl | hb
          · exact List.mem_cons_self ..
          · exact List.mem_cons_of_mem _ (ih d (e ▸ List.mem_cons_self ..) hb)
        · exact List.mem_cons_of_mem _ (ih c (e ▸ List.mem_cons_of_mem _ hc) hb)

theorem mem_joinSlash (l : List Str) (b : UInt8) (h : b ∈ Path.joinSlash l) :
    b = Path.slash ∨ ∃ c ∈ l, b ∈ c := by
  induction l with
  | nil => simp [Path.joinSlash] at h
  | cons c l ih =>
    match l, ih with
    | [], _ => exact .inr ⟨c, List.mem_cons_self .., h⟩
    | d :: l, ih =>
      rw [Path.joinSlash] at h
      · rcases List.mem_append.1 h with h | h
        · exact .inr ⟨c, List.mem_cons_self .., h⟩
        · rcases List.mem_cons.1 h with h | h
          · exact .inl h
          · rcases ih h with h | ⟨x, hx, hb⟩
            · exact .inl h
            · exact .inr ⟨x, List.mem_cons_of_mem _ hx, hb⟩
      · simp

theorem mem_nstep (abs : Bool) (st : Path.NState) (c x : Str) (h : x ∈ (Path.nstep abs st c).stack) :
    x = c ∨ x ∈ st.stack := by
  rw [Path.nstep] at h
  split at h
  · exact .inr h
  · split at h
    · split at h
      · rename_i e
        split at h
        · rcases List.mem_cons.1 h with h | h
          · exact .inl h
          · exact .inr h
        · exact .inr (e ▸ List.mem_cons_of_mem _ h)
      · split at h
        · simp at h
        · exact .inl (List.mem_singleton.1 h)
    · rcases List.mem_cons.1 h with h | h
      · exact .inl h
      · exact .inr h

theorem mem_fold (abs : Bool) (l : List Str) (st : Path.NState) (x : Str)
    (h : x ∈ (l.foldl (Path.nstep abs) st).stack) : x ∈ l ∨ x ∈ st.stack := by
  induction l generalizing st with
  | nil => exact .inr h
  | cons c l ih =>
    rcases ih _ h with h | h
    · exact .inl (List.mem_cons_of_mem _ h)
    · rcases mem_nstep abs st c x h with rfl | h
      · exact .inl (List.mem_cons_self ..)
      · exact .inr h

/-- A normalised path has no other bytes than the path, `/` and `.`. -/
theorem mem_lexNormal (s : Str) (b : UInt8) (h : b ∈ Path.lexNormal s) :
    b ∈ s ∨ b = Path.slash ∨ b = c!"." := by
  rw [Path.lexNormal] at h
  split at h
  · simp at h
  rw [Path.render] at h
  split at h
  · split at h
    · exact .inr (.inl (List.mem_singleton.1 h))
    · exact .inr (.inr (List.mem_singleton.1 h))
  · rcases List.mem_append.1 h with h | h
    · rcases List.mem_append.1 h with h | h
      · split at h
        · exact .inr (.inl (List.mem_singleton.1 h))
        · simp at h
      · rcases mem_joinSlash _ b h with h | ⟨c, hc, hb⟩
        · exact .inr (.inl h)
        · rcases mem_fold _ _ _ c (List.mem_reverse.1 hc) with hc | hc
          · exact .inl (mem_splitSlash_byte s c hc b hb)
          · simp at hc
    · split at h
      · exact .inr (.inl (List.mem_singleton.1 h))
      · simp at h

theorem mem_elems (s e : Str) (he : e ∈ Path.elems s) (b : UInt8) (hb : b ∈ e) : b ∈ s ∨ b = Path.slash := by
  rw [Path.elems] at he
  simp only [List.mem_append] at he
  rcases he with (he | he) | he
  · split at he
    · rw [List.mem_singleton.1 he] at hb; exact .inr (List.mem_singleton.1 hb)
    · simp at he
  · exact .inl (mem_splitSlash_byte s e (List.mem_filter.1 he).1 b hb)
  · split at he
    · rw [List.mem_singleton.1 he] at hb; simp at hb
    · simp at he

theorem mem_append_path (p q : Str) (b : UInt8) (h : b ∈ Path.append p q) :
    b ∈ p ∨ b ∈ q ∨ b = Path.slash := by
  rw [Path.append] at h
  split at h
  · exact .inr (.inl h)
  · split at h
    · rcases List.mem_append.1 h with h | h
      · exact .inl h
      · exact .inr (.inl h)
    · rcases List.mem_append.1 h with h | h
      · exact .inl h
      · rcases List.mem_cons.1 h with h | h
        · exact .inr (.inr h)
        · exact .inr (.inl h)

theorem mem_foldl_append (l : List Str) (p : Str) (b : UInt8) (h : b ∈ l.foldl Path.append p) :
    b ∈ p ∨ b = Path.slash ∨ ∃ c ∈ l, b ∈ c := by
  induction l generalizing p with
  | nil => exact .inl h
  | cons c l ih =>
    rcases ih _ h with h | h | ⟨x, hx, hb⟩
    · rcases mem_append_path p c b h with h | h | h
      · exact .inl h
      · exact .inr (.inr ⟨c, List.mem_cons_self .., h⟩)
      · exact .inr (.inl h)
    · exact .inr (.inl h)
    · exact .inr (.inr ⟨x, List.mem_cons_of_mem _ hx, hb⟩)

/-- A relative path has no other bytes than the path, `/` and `.`. -/
theorem mem_lexRelative (p base : Str) (b : UInt8) (h : b ∈ Path.lexRelative p base) :
    b ∈ p ∨ b = Path.slash ∨ b = c!"." := by
  rw [Path.lexRelative] at h
  split at h
  · simp at h
  obtain ⟨c, e, -⟩ := Path.mismatch_spec (Path.elems p) (Path.elems base) _ _ rfl
  simp only at h
  split at h
  · exact .inr (.inr (List.mem_singleton.1 h))
  split at h
  · simp at h
  split at h
  · exact .inr (.inr (List.mem_singleton.1 h))
  rcases mem_foldl_append _ _ b h with h | h | ⟨x, hx, hb⟩
  · simp at h
  · exact .inr (.inl h)
  rcases List.mem_append.1 hx with hx | hx
  · rw [List.eq_of_mem_replicate hx] at hb
    refine .inr (.inr ?_)
    simpa using hb
  · rcases mem_elems p x (by rw [e]; exact List.mem_append_right _ hx) b hb with h | h
    · exact .inl h
    · exact .inr (.inl h)

/-! ## Operations -/

theorem fwd_filename (s : Str) : fwd (filename s) = filename s := by
  refine fwd_same _ fun h => back_fwd (tail s) ?_
  rw [← Path.splitFile_append (fwd (tail s))]
  exact List.mem_append_right _ h

theorem fwd_dirPart (s : Str) : fwd (dirPart s) = drive s ++ Path.dirPart (fwd (tail s)) := by
  have e : fwd s = (drive s ++ Path.dirPart (fwd (tail s))) ++ filename s := by
    rw [List.append_assoc, filename, Path.splitFile_append, ← fwd_split]
  have l : s.length - (filename s).length = (drive s ++ Path.dirPart (fwd (tail s))).length := by
    have := congrArg List.length e
    simp only [fwd, List.length_map, List.length_append] at this ⊢
    omega
  rw [dirPart, l, fwd, List.map_take]
  show List.take _ (fwd s) = _
  rw [e, List.take_left]

theorem drive_dirPart (s : Str) : drive (dirPart s) = drive s := by
  by_cases h : drive s = []
  · rw [h]; exact drive_take _ _ h
  · rw [← drive_fwd, fwd_dirPart, drive_of_cons _ _ h]

theorem tail_dirPart (s : Str) : fwd (tail (dirPart s)) = Path.dirPart (fwd (tail s)) :=
  tail_eq _ _ _ (fwd_dirPart s) (drive_dirPart s)

/-- A relative path without a drive is put behind a path. -/
theorem append_rel (p q : Str) (hq : drive q = []) (hr : Path.isAbs (fwd q) = false)
    (hc : ∀ r, q ≠ c!":" :: r) :
    drive (append p q) = drive p ∧
      fwd (tail (append p q)) = Path.append (fwd (tail p)) (fwd q) := by
  have e : append p q = if filename p = [] then p ++ q else p ++ back :: q := by
    rw [append, if_neg (by simp [hq]), if_neg (by simp [rooted, tail_of_drive_nil q hq, hr]),
      tail_of_drive_nil q hq]
  have d : drive (append p q) = drive p := by
    rw [e]
    split
    · rename_i hf
      refine drive_join p q hq ?_ hf
      cases q with
      | nil => exact .inl rfl
      | cons b r => exact .inr ⟨b, r, rfl, fun h => hc r (by rw [h])⟩
    · rename_i hf
      match p with
      | [] => exact absurd rfl hf
      | [a] => simp [drive, back]
      | a :: b :: r => rfl
  refine ⟨d, ?_⟩
  refine tail_eq _ _ _ ?_ d
  rw [e, Path.append, hr, if_neg Bool.false_ne_true]
  change _ = drive p ++ if filename p = [] then _ else _
  split
  · rw [fwd_append, fwd_split p, List.append_assoc]
  · rw [fwd_append, fwd_split p, List.append_assoc]
    rfl

theorem hasDotDot_bwd (s : Str) : Path.hasDotDot (bwd s) = Path.hasDotDot s := by
  match s with
  | [] => rfl
  | [_] => rfl
  | a :: b :: r =>
    have ih := hasDotDot_bwd (b :: r)
    have k : ∀ x : UInt8, ((if x = Path.slash then back else x) = c!".") = (x = c!".") := by
      intro x
      by_cases h : x = Path.slash
      · subst h; simp [Path.slash, back]
      · rw [if_neg h]
    simp only [bwd, List.map_cons] at ih ⊢
    rw [Path.hasDotDot, Path.hasDotDot, ih]
    simp only [k]

theorem dots_bwd (s : Str) : Path.dotsToUnderscores (bwd s) = bwd (Path.dotsToUnderscores s) := by
  simp only [Path.dotsToUnderscores, bwd, List.map_map]
  refine List.map_congr_left fun b _ => ?_
  simp only [Function.comp]
  by_cases h : b = Path.slash
  · subst h; simp [Path.slash, back]
  · by_cases h' : b = c!"."
    · subst h'; simp [Path.slash]
    · simp [h, h']

/-- The path of an object when the source is on the drive of the root directory. -/
theorem object_same_drive (root build ext source : Str) (hd : drive source = drive root)
    (hc : c!":" ∉ tail source) (he : c!":" ∉ ext ∧ c!"/" ∉ ext ∧ c!"\\" ∉ ext) :
    fwd (objectPath root build ext source)
      = drive build ++ Path.objectPath (fwd (tail root)) (fwd (tail build)) ext (fwd (tail source)) := by
  have hcf : c!":" ∉ fwd (tail source) := by
    intro h
    obtain ⟨b, hb, e⟩ := List.mem_map.1 h
    split at e
    · exact absurd e (by decide)
    · exact hc (e ▸ hb)
  have hcr : c!":" ∉ Path.lexRelative (fwd (tail source)) (fwd (tail root)) := by
    intro h
    rcases mem_lexRelative _ _ _ h with h | h | h
    · exact hcf h
    · exact absurd h (by decide)
    · exact absurd h (by decide)
  have hbr : back ∉ Path.lexRelative (fwd (tail source)) (fwd (tail root)) := by
    intro h
    rcases mem_lexRelative _ _ _ h with h | h | h
    · exact back_fwd _ h
    · exact absurd h (by decide)
    · exact absurd h (by decide)
  have hcd : ∀ s : Str, c!":" ∉ s → c!":" ∉ Path.dotsToUnderscores s := by
    intro s hs h
    obtain ⟨b, hb, e⟩ := List.mem_map.1 h
    split at e
    · exact absurd e (by decide)
    · exact hs (e ▸ hb)
  have hbd : ∀ s : Str, back ∉ s → back ∉ Path.dotsToUnderscores s := by
    intro s hs h
    obtain ⟨b, hb, e⟩ := List.mem_map.1 h
    split at e
    · exact absurd e (by decide)
    · exact hs (e ▸ hb)
  have hcb : ∀ s : Str, c!":" ∉ s → c!":" ∉ bwd s := by
    intro s hs h
    obtain ⟨b, hb, e⟩ := List.mem_map.1 h
    split at e
    · exact absurd e (by decide)
    · exact hs (e ▸ hb)
  -- the relative path
  obtain ⟨r, hr⟩ : ∃ r, r = (if Path.hasDotDot (Path.lexRelative (fwd (tail source)) (fwd (tail root)))
      then Path.dotsToUnderscores (Path.lexRelative (fwd (tail source)) (fwd (tail root)))
      else Path.lexRelative (fwd (tail source)) (fwd (tail root))) := ⟨_, rfl⟩
  have er : (if Path.hasDotDot (lexRelative source root) then Path.dotsToUnderscores (lexRelative source root)
      else lexRelative source root) = bwd r := by
    have el : lexRelative source root = bwd (Path.lexRelative (fwd (tail source)) (fwd (tail root))) := by
      rw [lexRelative, if_neg (by simp [hd])]
    rw [el, hasDotDot_bwd, dots_bwd, hr]
    split <;> rfl
  have rc : c!":" ∉ r := by 
    rw [hr]
    split
    · exact hcd _ hcr
    · exact hcr
  have rb : back ∉ r := by 
    rw [hr]
    split
    · exact hbd _ hbr
    · exact hbr
  have ra : Path.isAbs r = false := by
    rw [hr]
    split
    · exact Path.dotsToUnderscores_rel _ (Path.lexRelative_rel _ _)
    · exact Path.lexRelative_rel _ _
  have fr : fwd (bwd r) = r := by rw [fwd_bwd, fwd_same _ rb]
  obtain ⟨d1, t1⟩ := append_rel build (bwd r) (drive_no_colon _ (hcb _ rc)) (by rw [fr]; exact ra)
    (fun x e => hcb _ rc (by rw [e]; exact List.mem_cons_self ..))
  rw [fr] at t1
  -- the file name
  have fnc : c!":" ∉ filename source ++ ext := by
    intro h
    rcases List.mem_append.1 h with h | h
    · refine hcf ?_
      rw [← Path.splitFile_append (fwd (tail source))]
      exact List.mem_append_right _ h
    · exact he.1 h
  have ef : fwd (filename source ++ ext) = filename source ++ ext := by
    rw [fwd_append, fwd_filename, fwd_same _ he.2.2]
  have fns : Path.slash ∉ filename source ++ ext := by
    intro h
    rcases List.mem_append.1 h with h | h
    · exact Path.filename_noSlash _ h
    · exact he.2.1 h
  obtain ⟨d2, t2⟩ := append_rel (dirPart (append build (bwd r))) (filename source ++ ext)
    (drive_no_colon _ fnc) (by rw [ef]; exact Path.isAbs_noSlash _ fns)
    (fun x e => fnc (by rw [e]; exact List.mem_cons_self ..))
  rw [objectPath, er, replaceFilename, fwd_split, d2, t2, drive_dirPart, d1, tail_dirPart, t1, ef]
  rw [Path.objectPath, ← hr]
  rfl

/-- The path of an object when the source is on another drive. -/
theorem object_other_drive (root build ext source : Str) (hd : drive source ≠ drive root)
    (hc : c!":" ∉ tail source) (he : c!":" ∉ ext ∧ c!"/" ∉ ext ∧ c!"\\" ∉ ext) :
    SameSpelling (objectPath root build ext source) (append build (filename source ++ ext)) := by
  have hcf : c!":" ∉ fwd (tail source) := by
    intro h
    obtain ⟨b, hb, e⟩ := List.mem_map.1 h
    split at e
    · exact absurd e (by decide)
    · exact hc (e ▸ hb)
  have fnc : c!":" ∉ filename source ++ ext := by
    intro h
    rcases List.mem_append.1 h with h | h
    · refine hcf ?_
      rw [← Path.splitFile_append (fwd (tail source))]
      exact List.mem_append_right _ h
    · exact he.1 h
  have ef : fwd (filename source ++ ext) = filename source ++ ext := by
    rw [fwd_append, fwd_filename, fwd_same _ he.2.2]
  have fns : Path.slash ∉ filename source ++ ext := by
    intro h
    rcases List.mem_append.1 h with h | h
    · exact Path.filename_noSlash _ h
    · exact he.2.1 h
  obtain ⟨d1, t1⟩ := append_rel build [] rfl rfl (by simp)
  obtain ⟨d2, t2⟩ := append_rel (dirPart (append build [])) (filename source ++ ext)
    (drive_no_colon _ fnc) (by rw [ef]; exact Path.isAbs_noSlash _ fns)
    (fun x e => fnc (by rw [e]; exact List.mem_cons_self ..))
  obtain ⟨d3, t3⟩ := append_rel build (filename source ++ ext)
    (drive_no_colon _ fnc) (by rw [ef]; exact Path.isAbs_noSlash _ fns)
    (fun x e => fnc (by rw [e]; exact List.mem_cons_self ..))
  rw [sameSpelling_iff, objectPath, lexRelative, if_pos hd, if_neg (by decide), replaceFilename, fwd_split, d2,
    t2, drive_dirPart, d1, tail_dirPart, t1, ef, fwd_split (append build (filename source ++ ext)), d3, t3, ef]
  congr 1
  have ha : Path.isAbs (filename source ++ ext) = false := Path.isAbs_noSlash _ fns
  rw [show fwd [] = [] from rfl, Path.append_rel _ _ ha, Path.append_rel _ _ ha, Path.append_rel _ [] rfl,
    List.append_nil]
  congr 1
  have : Path.dirPart (Path.asDir (fwd (tail build))) = Path.asDir (fwd (tail build)) := by
    have := Path.dirPart_unique (Path.asDir (fwd (tail build))) [] (by simp) (Path.asDir_end _)
    simpa using this
  rw [this, Path.asDir_dir _ (Path.asDir_end _)]

end Verif.WinPath
