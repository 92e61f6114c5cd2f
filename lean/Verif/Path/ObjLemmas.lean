import Verif.Path.Lemmas

/-! Lemmas about file names, relative paths and object paths. -/

namespace Verif.Path
open Verif

/-! ### `splitFile` -/

theorem splitFile_append (s : Str) : dirPart s ++ filename s = s := by
  induction s with
  | nil => rfl
  | cons b r ih =>
    simp only [dirPart, filename, splitFile] at ih ⊢
    by_cases h : (splitFile r).1 = []
    · rw [h] at ih
      simp only [List.nil_append] at ih
      simp only [h, if_true]
      split <;> simp [ih]
    · simp [h, ih]

theorem filename_noSlash (s : Str) : slash ∉ filename s := by
  induction s with
  | nil => simp [filename, splitFile]
  | cons b r ih =>
    simp only [filename, splitFile] at ih ⊢
    split
    · split
      · exact ih
      · rename_i hb; simp only [List.mem_cons, not_or]; exact ⟨fun e => hb e.symm, ih⟩
    · exact ih

theorem dirPart_end (s : Str) : dirPart s = [] ∨ ∃ d, dirPart s = d ++ [slash] := by
  induction s with
  | nil => left; rfl
  | cons b r ih =>
    simp only [dirPart, splitFile] at ih ⊢
    by_cases h : (splitFile r).1 = []
    · simp only [h, if_true]
      split
      · rename_i hb; right; exact ⟨[], by simp [hb]⟩
      · left; rfl
    · rcases ih with ih | ⟨d, hd⟩
      · exact absurd ih h
      · right; exact ⟨b :: d, by simp [hd]⟩

/-- Uniqueness of the decomposition. -/
theorem splitFile_unique (d f : Str) (hf : slash ∉ f) (hd : d = [] ∨ ∃ d', d = d' ++ [slash]) :
    splitFile (d ++ f) = (d, f) := by
  have h1 : splitFile f = ([], f) := by
    clear hd
    induction f with
    | nil => rfl
    | cons b f ih =>
      simp only [List.mem_cons, not_or] at hf
      have hb : b ≠ slash := fun e => hf.1 e.symm
      simp [splitFile, ih hf.2, hb]
  induction d with
  | nil => exact h1
  | cons b d ih =>
    cases d with
    | nil =>
      rcases hd with hd | ⟨d', hd⟩
      · cases hd
      · have hb : b = slash := by
          cases d' with
          | nil => simpa using hd
          | cons x d' => simp at hd
        simp [splitFile, h1, hb]
    | cons c d =>
      have := ih (by
        rcases hd with hd | ⟨d', hd⟩
        · cases hd
        · right
          cases d' with
          | nil => simp at hd
          | cons x d' => simp at hd; exact ⟨d', by simpa using hd.2⟩)
      simp only [List.cons_append] at this ⊢
      rw [splitFile, this]
      simp

theorem dirPart_unique (d f : Str) (hf : slash ∉ f) (hd : d = [] ∨ ∃ d', d = d' ++ [slash]) :
    dirPart (d ++ f) = d := by rw [dirPart, splitFile_unique d f hf hd]

theorem filename_unique (d f : Str) (hf : slash ∉ f) (hd : d = [] ∨ ∃ d', d = d' ++ [slash]) :
    filename (d ++ f) = f := by rw [filename, splitFile_unique d f hf hd]

theorem filename_noSlash_self (f : Str) (hf : slash ∉ f) : filename f = f := by
  have := filename_unique [] f hf (Or.inl rfl); simpa using this

theorem dirPart_noSlash_self (f : Str) (hf : slash ∉ f) : dirPart f = [] := by
  have := dirPart_unique [] f hf (Or.inl rfl); simpa using this

/-- Prefixing a directory. -/
theorem splitFile_prefix (p q : Str) (hp : p = [] ∨ ∃ d', p = d' ++ [slash]) :
    dirPart (p ++ q) = p ++ dirPart q ∧ filename (p ++ q) = filename q := by
  have e : p ++ q = (p ++ dirPart q) ++ filename q := by
    rw [List.append_assoc, splitFile_append]
  have hd : p ++ dirPart q = [] ∨ ∃ d', p ++ dirPart q = d' ++ [slash] := by
    rcases dirPart_end q with h | ⟨d, h⟩
    · rw [h, List.append_nil]; exact hp
    · right; exact ⟨p ++ d, by simp [h]⟩
  rw [e]
  exact ⟨dirPart_unique _ _ (filename_noSlash q) hd, filename_unique _ _ (filename_noSlash q) hd⟩

theorem dirPart_empty_filename (p : Str) (h : filename p = []) :
    p = [] ∨ ∃ d', p = d' ++ [slash] := by
  have := splitFile_append p
  rw [h, List.append_nil] at this
  rw [← this]; exact dirPart_end p

/-! ### `append` -/

/-- The directory text of a path used as the left side of `/`. -/
def asDir (p : Str) : Str := if filename p = [] then p else p ++ [slash]

theorem append_rel (p q : Str) (h : isAbs q = false) : append p q = asDir p ++ q := by
  simp only [append, h, asDir]
  by_cases hp : filename p = [] <;> simp [hp]

theorem asDir_end (p : Str) : asDir p = [] ∨ ∃ d', asDir p = d' ++ [slash] := by
  rw [asDir]
  split
  · rename_i h; exact dirPart_empty_filename p h
  · right; exact ⟨p, rfl⟩

theorem isAbs_noSlash (s : Str) (h : slash ∉ s) : isAbs s = false := by
  cases s with
  | nil => rfl
  | cons b r =>
    simp only [List.mem_cons, not_or] at h
    have : b ≠ slash := fun e => h.1 e.symm
    simp [isAbs, this]

theorem isAbs_noSlash_append (s t : Str) (h : slash ∉ s) (hs : s ≠ []) :
    isAbs (s ++ t) = false := by
  rw [isAbs_append s t hs]; exact isAbs_noSlash s h

theorem asDir_dir (p : Str) (h : p = [] ∨ ∃ d', p = d' ++ [slash]) : asDir p = p := by
  have : filename p = [] := by
    have := filename_unique p [] (by simp) h
    simpa using this
  simp [asDir, this]

/-- Shape of every object path. -/
theorem objectPath_eq (root build objExt source : Str) (he : slash ∉ objExt)
    (rel : Str) (hrel : rel = (if hasDotDot (lexRelative source root)
      then dotsToUnderscores (lexRelative source root) else lexRelative source root))
    (ha : isAbs rel = false) :
    objectPath root build objExt source
      = asDir build ++ dirPart rel ++ (filename source ++ objExt) := by
  have hf : slash ∉ filename source ++ objExt := by
    simp only [List.mem_append, not_or]; exact ⟨filename_noSlash _, he⟩
  simp only [objectPath, ← hrel, replaceFilename]
  rw [append_rel _ _ ha, append_rel _ _ (isAbs_noSlash _ hf),
    (splitFile_prefix _ rel (asDir_end build)).1]
  rw [asDir_dir]
  rcases dirPart_end rel with h | ⟨d, h⟩
  · rw [h, List.append_nil]; exact asDir_end build
  · right; exact ⟨asDir build ++ d, by simp [h]⟩

/-! ### Relative paths are relative -/

theorem elems_noSlash (s e : Str) (h : e ∈ (splitSlash s).filter (· ≠ [])) :
    slash ∉ e := mem_splitSlash s e (List.mem_filter.1 h).1

theorem mismatch_spec (l m a b : List Str) (h : mismatch l m = (a, b)) :
    ∃ c, l = c ++ a ∧ m = c ++ b := by
  induction l generalizing m with
  | nil => simp [mismatch] at h; exact ⟨[], by simp [h.1], by simp [h.2]⟩
  | cons x l ih =>
    cases m with
    | nil => simp [mismatch] at h; exact ⟨[], by simp [← h.1], by simp [h.2]⟩
    | cons y m =>
      simp only [mismatch] at h
      split at h
      · rename_i e
        obtain ⟨c, h1, h2⟩ := ih m h
        exact ⟨x :: c, by simp [h1], by simp [h2, e]⟩
      · simp at h; exact ⟨[], by simp [h.1], by simp [h.2]⟩

/-- The part of `elems` after the root. -/
def tailElems (s : Str) : List Str :=
  (splitSlash s).filter (· ≠ [])
    ++ (if (splitSlash s).filter (· ≠ []) ≠ [] ∧ filename s = [] then [[]] else [])

theorem elems_eq (s : Str) : elems s = (if isAbs s then [[slash]] else []) ++ tailElems s := by
  simp [elems, tailElems]

theorem tailElems_noSlash (s e : Str) (h : e ∈ tailElems s) : slash ∉ e := by
  simp only [tailElems, List.mem_append] at h
  rcases h with h | h
  · exact elems_noSlash s e h
  · split at h
    · simp at h; simp [h]
    · simp at h

theorem mismatch_elems (p q : Str) (h : isAbs p = isAbs q) :
    mismatch (elems p) (elems q) = mismatch (tailElems p) (tailElems q) := by
  rw [elems_eq, elems_eq, h]
  cases isAbs q <;> simp [mismatch]

theorem foldl_append_rel (l : List Str) (acc : Str) (hl : ∀ e ∈ l, slash ∉ e)
    (ha : isAbs acc = false) : isAbs (l.foldl append acc) = false := by
  induction l generalizing acc with
  | nil => exact ha
  | cons e l ih =>
    apply ih
    · exact fun d hd => hl d (by simp [hd])
    · have he := hl e (by simp)
      rw [append_rel _ _ (isAbs_noSlash e he)]
      cases acc with
      | nil => simp [asDir, filename, splitFile]; exact isAbs_noSlash e he
      | cons b acc =>
        have : asDir (b :: acc) ++ e = b :: (asDir (b :: acc)).tail ++ e := by
          rw [asDir]; split <;> simp
        rw [this]; simpa [isAbs] using ha

theorem lexRelative_rel (p base : Str) : isAbs (lexRelative p base) = false := by
  rw [lexRelative]
  split
  · rfl
  · rename_i h
    simp only [ne_eq, Decidable.not_not] at h
    rw [mismatch_elems p base h]
    cases hm : mismatch (tailElems p) (tailElems base) with
    | mk a b =>
      simp only
      split
      · decide
      · split
        · rfl
        · split
          · decide
          · apply foldl_append_rel
            · intro e he
              simp only [List.mem_append, List.mem_replicate] at he
              rcases he with ⟨_, rfl⟩ | he
              · decide
              · obtain ⟨c, hc, _⟩ := mismatch_spec _ _ _ _ hm
                exact tailElems_noSlash p e (by rw [hc]; simp [he])
            · rfl

theorem dotsToUnderscores_rel (s : Str) (h : isAbs s = false) :
    isAbs (dotsToUnderscores s) = false := by
  cases s with
  | nil => rfl
  | cons b r =>
    simp [isAbs] at h
    simp only [dotsToUnderscores, List.map_cons, isAbs]
    split
    · decide
    · simp [h]

/-! ### No `..` component -/

theorem hasDotDot_append (p q : Str) (h : hasDotDot (p ++ dotdot ++ q) = false) : False := by
  induction p with
  | nil => simp [hasDotDot] at h
  | cons b p ih =>
    apply ih
    simp only [List.cons_append] at h
    cases hp : p ++ dotdot ++ q with
    | nil => simp at hp
    | cons c r =>
      rw [hp] at h
      simp [hasDotDot] at h
      exact h.2

theorem joinSlash_append_singleton (l : List Str) (c : Str) (m : List Str) :
    ∃ p q, joinSlash (l ++ c :: m) = p ++ c ++ q := by
  induction l with
  | nil =>
    cases m with
    | nil => exact ⟨[], [], by simp [joinSlash]⟩
    | cons d m => exact ⟨[], slash :: joinSlash (d :: m), by simp [joinSlash]⟩
  | cons x l ih =>
    obtain ⟨p, q, h⟩ := ih
    refine ⟨x ++ slash :: p, q, ?_⟩
    cases hl : l ++ c :: m with
    | nil => simp at hl
    | cons y ys =>
      rw [hl] at h
      simp only [List.cons_append, hl, joinSlash, h]
      simp

/-- A component of a string is a part of it. -/
theorem mem_split_infix (s c : Str) (h : c ∈ splitSlash s) : ∃ p q, s = p ++ c ++ q := by
  obtain ⟨l, m, hl⟩ := List.append_of_mem h
  have := joinSlash_splitSlash s
  rw [hl] at this
  obtain ⟨p, q, e⟩ := joinSlash_append_singleton l c m
  exact ⟨p, q, by rw [← this, e]⟩

theorem no_dotdot_of_hasDotDot (s : Str) (h : hasDotDot s = false) : dotdot ∉ splitSlash s := by
  intro hm
  obtain ⟨p, q, e⟩ := mem_split_infix s _ hm
  rw [e] at h
  exact hasDotDot_append p q h

theorem dotsToUnderscores_no_dot (s : Str) : c!"." ∉ dotsToUnderscores s := by
  simp only [dotsToUnderscores, List.mem_map, not_exists, not_and]
  intro b _ h
  split at h
  · exact absurd h (by decide)
  · rename_i hb; exact hb h

theorem no_dotdot_dots (s : Str) : dotdot ∉ splitSlash (dotsToUnderscores s) := by
  intro hm
  obtain ⟨p, q, e⟩ := mem_split_infix _ _ hm
  apply dotsToUnderscores_no_dot s
  rw [e]; simp

theorem splitSlash_dirPart (s : Str) :
    ∃ cs, splitSlash (dirPart s) = cs ++ [[]] ∧ splitSlash s = cs ++ [filename s] := by
  rcases dirPart_end s with h | ⟨d, h⟩
  · have := splitFile_append s
    rw [h, List.nil_append] at this
    refine ⟨[], by simp [h, splitSlash], ?_⟩
    have hf := filename_noSlash s
    rw [this] at hf ⊢
    simpa using splitSlash_noSlash s hf
  · refine ⟨splitSlash d, ?_, ?_⟩
    · rw [h, splitSlash_append]; rfl
    · have := splitFile_append s
      rw [h] at this
      have e : splitSlash s = splitSlash (d ++ slash :: filename s) := by
        apply congrArg; simpa using this.symm
      rw [e, splitSlash_append, splitSlash_noSlash _ (filename_noSlash s)]

/-! ### Absolute normalised sources -/

theorem filename_joinSlash (l : List Str) (c : Str) (h : ∀ d ∈ l, slash ∉ d) (hc : slash ∉ c) :
    filename (slash :: joinSlash (l ++ [c])) = c := by
  have e : ∃ d, joinSlash (l ++ [c]) = d ++ c ∧ (d = [] ∨ ∃ d', d = d' ++ [slash]) := by
    clear h
    induction l with
    | nil => exact ⟨[], by simp [joinSlash], Or.inl rfl⟩
    | cons x l ih =>
      obtain ⟨d, hd, he⟩ := ih
      refine ⟨x ++ slash :: d, ?_, ?_⟩
      · cases hl : l ++ [c] with
        | nil => simp at hl
        | cons y ys =>
          rw [hl] at hd
          simp only [List.cons_append, hl, joinSlash, hd]
          simp
      · right
        rcases he with rfl | ⟨d', rfl⟩
        · exact ⟨x, by simp⟩
        · exact ⟨x ++ slash :: d', by simp⟩
  obtain ⟨d, hd, he⟩ := e
  rw [hd]
  have := filename_unique (slash :: d) c hc (by
    right
    rcases he with rfl | ⟨d', rfl⟩
    · exact ⟨[], rfl⟩
    · exact ⟨slash :: d', by simp⟩)
  simpa using this

/-- The tail elements of an absolute path given by its names. -/
theorem tailElems_names (names : List Str) (hne : names ≠ []) (h : ∀ c ∈ names, IsName c) :
    tailElems (slash :: joinSlash names) = names := by
  have hs : splitSlash (slash :: joinSlash names) = [] :: names := by
    have := splitSlash_append [] (joinSlash names)
    rw [List.nil_append] at this
    rw [this, splitSlash_joinSlash names hne (fun c hc => (h c hc).2.2.2)]; rfl
  have hf : ([] :: names).filter (· ≠ []) = names := by
    simp only [ne_eq, decide_not, List.filter_cons, decide_true, Bool.not_true]
    simp only [Bool.false_eq_true, if_false]
    rw [List.filter_eq_self]
    intro c hc
    simp [(h c hc).1]
  obtain ⟨l, c, rfl⟩ : ∃ l c, names = l ++ [c] := by
    rcases List.eq_nil_or_concat names with h | ⟨l, c, h⟩
    · exact absurd h hne
    · exact ⟨l, c, by simpa using h⟩
  have hfn : filename (slash :: joinSlash (l ++ [c])) = c :=
    filename_joinSlash l c (fun d hd => (h d (by simp [hd])).2.2.2) (h c (by simp)).2.2.2
  simp only [tailElems, hs, hf, hfn]
  rw [if_neg]
  · simp
  · rintro ⟨_, h2⟩; exact (h c (by simp)).1 h2

theorem climb_acc (l : List Str) (n : Int) :
    l.foldl (fun n e => if e = dotdot then n - 1 else if e = [] ∨ e = dot then n else n + 1) n
      = n + climb l := by
  unfold climb
  induction l generalizing n with
  | nil => simp
  | cons e l ih =>
    simp only [List.foldl_cons]
    rw [ih, ih (if e = dotdot then (0 : Int) - 1 else if e = [] ∨ e = dot then 0 else 0 + 1)]
    repeat' split
    all_goals omega

theorem climb_names (c b : List Str) (h : ∀ e ∈ c, IsName e) :
    climb (c ++ b) = c.length + climb b := by
  induction c with
  | nil => simp
  | cons e c ih =>
    have he := h e (by simp)
    have e1 : climb (e :: c ++ b) = 1 + climb (c ++ b) := by
      rw [List.cons_append, climb, List.foldl_cons, climb_acc]
      simp [he.1, he.2.1, he.2.2.1]
    rw [e1, ih (fun d hd => h d (by simp [hd]))]
    simp; omega

theorem foldl_append_names (l : List Str) (acc : Str) (hl : ∀ e ∈ l, e ≠ [] ∧ slash ∉ e)
    (ha : filename acc ≠ []) (hr : isAbs acc = false) :
    l.foldl append acc = joinSlash (acc :: l) := by
  induction l generalizing acc with
  | nil => rfl
  | cons e l ih =>
    have he := hl e (by simp)
    have h1 : append acc e = acc ++ slash :: e := by
      rw [append_rel _ _ (isAbs_noSlash e he.2), asDir, if_neg ha]; simp
    have hfe : filename (acc ++ slash :: e) = e := by
      have := filename_unique (acc ++ [slash]) e he.2 (Or.inr ⟨acc, rfl⟩)
      simpa using this
    rw [List.foldl_cons, h1, ih]
    · cases l <;> simp [joinSlash]
    · exact fun d hd => hl d (by simp [hd])
    · rw [hfe]; exact he.1
    · cases acc with
      | nil => simp [filename, splitFile] at ha
      | cons b acc => simpa [isAbs] using hr

theorem appendAll_names (l : List Str) (hl : ∀ e ∈ l, e ≠ [] ∧ slash ∉ e) :
    appendAll l = joinSlash l := by
  cases l with
  | nil => rfl
  | cons e l =>
    have he := hl e (by simp)
    have h1 : append [] e = e := by
      rw [append_rel _ _ (isAbs_noSlash e he.2), asDir]; simp [filename, splitFile]
    rw [appendAll, List.foldl_cons, h1]
    apply foldl_append_names
    · exact fun d hd => hl d (by simp [hd])
    · rw [filename_noSlash_self e he.2]; exact he.1
    · exact isAbs_noSlash e he.2

/-- Relative path of an absolute normalised source that is not an ancestor of the root. -/
theorem lexRelative_source (names : List Str) (hne : names ≠ []) (h : ∀ c ∈ names, IsName c)
    (root : Str) (hroot : isAbs root = true)
    (hanc : ∀ x, tailElems root ≠ names ++ x)
    (hrel : lexRelative (slash :: joinSlash names) root ≠ []) :
    ∃ c a b, names = c ++ a ∧ a ≠ [] ∧ tailElems root = c ++ b ∧ 0 ≤ climb b ∧
      lexRelative (slash :: joinSlash names) root
        = joinSlash (List.replicate (climb b).toNat dotdot ++ a) := by
  have habs : isAbs (slash :: joinSlash names) = isAbs root := by rw [hroot]; rfl
  rw [lexRelative, if_neg (by simp [habs]), mismatch_elems _ _ habs,
    tailElems_names names hne h] at hrel ⊢
  cases hm : mismatch names (tailElems root) with
  | mk a b =>
    rw [hm] at hrel
    simp only at hrel ⊢
    obtain ⟨c, hc1, hc2⟩ := mismatch_spec _ _ _ _ hm
    have ha : a ≠ [] := by
      rintro rfl
      rw [List.append_nil] at hc1
      exact hanc b (by rw [hc2, hc1])
    rw [if_neg (fun h => ha h.1)] at hrel ⊢
    by_cases hn : climb b < 0
    · rw [if_pos hn] at hrel; exact absurd rfl hrel
    · rw [if_neg hn] at hrel ⊢
      have hh : ¬ (climb b = 0 ∧ (a = [] ∨ a.head? = some [])) := by
        rintro ⟨_, h1 | h1⟩
        · exact ha h1
        · cases a with
          | nil => exact ha rfl
          | cons x a =>
            simp at h1
            exact (h x (by simp [hc1])).1 h1
      rw [if_neg hh]
      refine ⟨c, a, b, hc1, ha, hc2, by omega, ?_⟩
      apply appendAll_names
      intro e he
      simp only [List.mem_append, List.mem_replicate] at he
      rcases he with ⟨_, rfl⟩ | he
      · decide
      · have := h e (by rw [hc1]; simp [he])
        exact ⟨this.1, this.2.2.2⟩

theorem replicate_append_inj (n m : Nat) (a b : List Str)
    (ha : ∀ e ∈ a, e ≠ dotdot) (hb : ∀ e ∈ b, e ≠ dotdot)
    (h : List.replicate n dotdot ++ a = List.replicate m dotdot ++ b) : n = m ∧ a = b := by
  induction n generalizing m with
  | zero =>
    cases m with
    | zero => simpa using h
    | succ m =>
      rw [List.replicate_zero, List.nil_append, List.replicate_succ, List.cons_append] at h
      exact absurd rfl (ha dotdot (by rw [h]; simp))
  | succ n ih =>
    cases m with
    | zero =>
      rw [List.replicate_zero, List.nil_append, List.replicate_succ, List.cons_append] at h
      exact absurd rfl (hb dotdot (by rw [← h]; simp))
    | succ m =>
      rw [List.replicate_succ, List.replicate_succ, List.cons_append, List.cons_append] at h
      simp only [List.cons.injEq, true_and] at h
      obtain ⟨h1, h2⟩ := ih m h
      exact ⟨by omega, h2⟩

/-- The relative path determines the source. -/
theorem lexRelative_inj (n1 n2 : List Str) (h1e : n1 ≠ []) (h2e : n2 ≠ [])
    (h1 : ∀ c ∈ n1, IsName c) (h2 : ∀ c ∈ n2, IsName c) (root : Str) (hroot : isAbs root = true)
    (ha1 : ∀ x, tailElems root ≠ n1 ++ x) (ha2 : ∀ x, tailElems root ≠ n2 ++ x)
    (hr1 : lexRelative (slash :: joinSlash n1) root ≠ [])
    (hr2 : lexRelative (slash :: joinSlash n2) root ≠ [])
    (h : lexRelative (slash :: joinSlash n1) root = lexRelative (slash :: joinSlash n2) root) :
    n1 = n2 := by
  obtain ⟨c1, a1, b1, e1, na1, t1, k1, r1⟩ := lexRelative_source n1 h1e h1 root hroot ha1 hr1
  obtain ⟨c2, a2, b2, e2, na2, t2, k2, r2⟩ := lexRelative_source n2 h2e h2 root hroot ha2 hr2
  rw [r1, r2] at h
  have ns : ∀ (k : Nat) (a : List Str), (∀ e ∈ a, IsName e) →
      ∀ e ∈ List.replicate k dotdot ++ a, slash ∉ e := by
    intro k a ha e he
    simp only [List.mem_append, List.mem_replicate] at he
    rcases he with ⟨_, rfl⟩ | he
    · decide
    · exact (ha e he).2.2.2
  have hA1 : ∀ e ∈ a1, IsName e := fun e he => h1 e (by rw [e1]; simp [he])
  have hA2 : ∀ e ∈ a2, IsName e := fun e he => h2 e (by rw [e2]; simp [he])
  have hc := congrArg splitSlash h
  rw [splitSlash_joinSlash _ (by simp [na1]) (ns _ _ hA1),
    splitSlash_joinSlash _ (by simp [na2]) (ns _ _ hA2)] at hc
  obtain ⟨hk, ha⟩ := replicate_append_inj _ _ _ _ (fun e he => (hA1 e he).2.2.1)
    (fun e he => (hA2 e he).2.2.1) hc
  have hl1 := climb_names c1 b1 (fun e he => h1 e (by rw [e1]; simp [he]))
  have hl2 := climb_names c2 b2 (fun e he => h2 e (by rw [e2]; simp [he]))
  rw [← t1] at hl1
  rw [← t2] at hl2
  have hlen : c1.length = c2.length := by omega
  have hcc : c1 = c2 := by
    have := t1.symm.trans t2
    exact (List.append_inj this hlen).1
  rw [e1, e2, hcc, ha]

/-- Every absolute normalised path with a file name is given by its names. -/
theorem names_of_normal (s : Str) (ha : isAbs s = true) (hn : lexNormal s = s)
    (hf : filename s ≠ []) :
    ∃ names, names ≠ [] ∧ (∀ c ∈ names, IsName c) ∧ s = slash :: joinSlash names := by
  have hne : s ≠ [] := by rintro rfl; simp [isAbs] at ha
  obtain ⟨st, hg, he⟩ := lexNormal_eq s hne
  rw [hn, ha] at he
  rw [ha] at hg
  obtain ⟨names, k, hs, hnm, hk⟩ := hg
  have hk0 := hk rfl
  subst hk0
  simp only [List.replicate_zero, List.append_nil] at hs
  cases hst : st.stack with
  | nil =>
    simp only [render, hst, if_true] at he
    rw [he] at hf
    simp [filename, splitFile] at hf
  | cons top rest =>
    simp only [render, hst, if_true] at he
    have hnames : names = top :: rest := by rw [← hs, hst]
    by_cases ht : st.trail = true ∧ top ≠ dotdot
    · rw [if_pos ht] at he
      have := filename_unique ([slash] ++ joinSlash (top :: rest).reverse ++ [slash]) [] (by simp)
        (Or.inr ⟨_, rfl⟩)
      rw [List.append_nil, ← he] at this
      exact absurd this hf
    · rw [if_neg ht, List.append_nil] at he
      refine ⟨(top :: rest).reverse, by simp, ?_, he⟩
      intro c hc
      exact hnm c (by rw [hnames]; exact List.mem_reverse.1 hc)

end Verif.Path
