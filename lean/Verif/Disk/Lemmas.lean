import Verif.Disk.Spec
import Verif.Path.MoreLemmas

namespace Verif.Disk
open Verif Verif.Schema Verif.Target
open Verif.Path (splitSlash dirPart filename isAbs slash dot dotdot IsName GoodStack NState nstep)

theorem Disk.Keeps.refl (d : Disk) : d.Keeps d := ⟨fun _ h => h, rfl⟩
theorem Disk.Keeps.trans {d e f : Disk} (h : d.Keeps e) (h' : e.Keeps f) : d.Keeps f :=
  ⟨fun a ha => h'.dirs a (h.dirs a ha), h'.cwd.trans h.cwd⟩

theorem resolve_append (at_ : Place) (l m : List Str) :
    resolve at_ (l ++ m) = resolve (resolve at_ l) m := by
  induction l generalizing at_ with
  | nil => rfl
  | cons c l ih =>
    simp only [List.cons_append, resolve]
    split
    · exact ih _
    · split <;> exact ih _

theorem walk_append (d : Disk) (at_ : Place) (l m : List Str) :
    d.walk at_ (l ++ m) = (d.walk at_ l).bind fun x => d.walk x m := by
  induction l generalizing at_ with
  | nil => rfl
  | cons c l ih =>
    simp only [List.cons_append, Disk.walk]
    split
    · exact ih _
    · split
      · exact ih _
      · split
        · exact ih _
        · rfl

theorem walk_resolve {d : Disk} {at_ x : Place} {l : List Str} (h : d.walk at_ l = some x) :
    x = resolve at_ l := by
  induction l generalizing at_ with
  | nil => simpa [Disk.walk, resolve, eq_comm] using h
  | cons c l ih =>
    simp only [Disk.walk] at h
    simp only [resolve]
    split at h
    · rename_i h1; rw [if_pos h1]; exact ih h
    · rename_i h1; rw [if_neg h1]
      split at h
      · rename_i h2; rw [if_pos h2]; exact ih h
      · rename_i h2; rw [if_neg h2]
        split at h
        · exact ih h
        · simp at h

theorem Disk.Wf.tail {d : Disk} (h : d.Wf) {at_ : Place} (ha : d.isDir at_ = true) :
    d.isDir at_.tail = true := by
  cases at_ with
  | nil => exact h.root
  | cons c at_ => exact h.closed c at_ ha

theorem walk_isDir {d : Disk} (hw : d.Wf) {at_ x : Place} {l : List Str} (ha : d.isDir at_ = true)
    (h : d.walk at_ l = some x) : d.isDir x = true := by
  induction l generalizing at_ with
  | nil => simp only [Disk.walk, Option.some.injEq] at h; exact h ▸ ha
  | cons c l ih =>
    simp only [Disk.walk] at h
    split at h
    · exact ih ha h
    · split at h
      · exact ih (hw.tail ha) h
      · split at h
        · rename_i hd; exact ih hd h
        · simp at h

theorem Disk.Wf.start {d : Disk} (h : d.Wf) (p : Str) : d.isDir (d.start p) = true := by
  rw [Disk.start]; split
  · exact h.root
  · exact h.cwd

theorem Disk.Keeps.start {d e : Disk} (h : d.Keeps e) (p : Str) : e.start p = d.start p := by
  simp [Disk.start, h.cwd]

theorem Disk.Keeps.walk {d e : Disk} (h : d.Keeps e) {at_ x : Place} {l : List Str}
    (hd : d.walk at_ l = some x) : e.walk at_ l = some x := by
  induction l generalizing at_ with
  | nil => exact hd
  | cons c l ih =>
    simp only [Disk.walk] at hd ⊢
    split at hd
    · rename_i h1; rw [if_pos h1]; exact ih hd
    · rename_i h1; rw [if_neg h1]
      split at hd
      · rename_i h2; rw [if_pos h2]; exact ih hd
      · rename_i h2; rw [if_neg h2]
        split at hd
        · rename_i h3; rw [if_pos (h.dirs _ h3)]; exact ih hd
        · simp at hd

/-- Names below a place, when the innermost is a directory. -/
theorem walk_names {d : Disk} (hw : d.Wf) (l : List Str) (at_ : Place) (hl : ∀ c ∈ l, IsName c)
    (h : d.isDir (l.reverse ++ at_) = true) : d.walk at_ l = some (l.reverse ++ at_) := by
  induction l generalizing at_ with
  | nil => rfl
  | cons c l ih =>
    obtain ⟨h1, h2, h3, -⟩ := hl c List.mem_cons_self
    have h' : d.isDir (l.reverse ++ c :: at_) = true := by simpa using h
    have hc : d.isDir (c :: at_) = true := by
      have : ∀ m : List Str, d.isDir (m ++ c :: at_) = true → d.isDir (c :: at_) = true := by
        intro m
        induction m with
        | nil => exact id
        | cons x m ihm => exact fun h => ihm (hw.closed _ _ h)
      exact this _ h'
    simp only [Disk.walk, h1, h2, h3, or_self, if_false, hc, if_true]
    rw [ih (c :: at_) (fun x hx => hl x (List.mem_cons_of_mem _ hx)) h']
    simp

theorem walk_dotdots (d : Disk) (k : Nat) (at_ : Place) :
    d.walk at_ (List.replicate k dotdot) = some (resolve at_ (List.replicate k dotdot)) := by
  induction k generalizing at_ with
  | zero => rfl
  | succ k ih =>
    simp only [List.replicate_succ, Disk.walk, resolve]
    have h1 : ¬(dotdot = [] ∨ dotdot = dot) := by decide
    simp only [h1, if_false, if_true]
    exact ih _

theorem resolve_names (l : List Str) (at_ : Place) (hl : ∀ c ∈ l, IsName c) :
    resolve at_ l = l.reverse ++ at_ := by
  induction l generalizing at_ with
  | nil => rfl
  | cons c l ih =>
    obtain ⟨h1, h2, h3, -⟩ := hl c List.mem_cons_self
    simp only [resolve, h1, h2, h3, or_self, if_false]
    rw [ih _ fun x hx => hl x (List.mem_cons_of_mem _ hx)]
    simp

/-- A normalised lookup succeeds when its end is a directory. -/
theorem walk_good {d : Disk} (hw : d.Wf) {abs : Bool} {st : List Str} (hg : GoodStack abs st)
    (at_ : Place) (h : d.isDir (resolve at_ st.reverse) = true) :
    d.walk at_ st.reverse = some (resolve at_ st.reverse) := by
  obtain ⟨names, k, rfl, hn, -⟩ := hg
  simp only [List.reverse_append, List.reverse_replicate] at h ⊢
  rw [resolve_append] at h ⊢
  rw [walk_append, walk_dotdots]
  have hn' : ∀ c ∈ names.reverse, IsName c := fun c hc => hn c (List.mem_reverse.1 hc)
  simp only [Option.bind_some]
  rw [resolve_names _ _ hn'] at h ⊢
  exact walk_names hw _ _ hn' h

/-- Normalising does not change where a lookup ends. -/
theorem resolve_nstep {abs : Bool} {at_ : Place} (ha : abs = true → at_ = []) (st : NState) (c : Str)
    (hg : GoodStack abs st.stack) :
    resolve at_ (nstep abs st c).stack.reverse = resolve (resolve at_ st.stack.reverse) [c] := by
  rw [nstep]
  split
  · rename_i h; simp [resolve, h]
  · rename_i h
    split
    · rename_i h2
      cases hs : st.stack with
      | nil =>
        simp only
        split
        · rename_i hb
          simp [resolve, h, h2, ha hb]
        · simp [resolve, h2]
      | cons top rest =>
        simp only
        split
        · rename_i ht
          simp only [List.reverse_cons, List.append_assoc, resolve_append]
        · rename_i ht
          have hn : IsName top := by
            obtain ⟨names, k, he, hn, -⟩ := hg
            rw [hs] at he
            cases names with
            | nil =>
              exfalso
              simp only [List.nil_append] at he
              have : top ∈ List.replicate k dotdot := by rw [← he]; simp
              exact ht (List.eq_of_mem_replicate this)
            | cons n ns =>
              simp only [List.cons_append, List.cons.injEq] at he
              rw [he.1]; exact hn n List.mem_cons_self
          simp only [List.reverse_cons, resolve_append]
          have := resolve_names [top] (resolve at_ rest.reverse) (by simpa using hn)
          rw [this]
          subst h2
          simp [resolve]
    · simp [resolve_append]

theorem resolve_fold {abs : Bool} {at_ : Place} (ha : abs = true → at_ = []) (l : List Str)
    (st : NState) (hg : GoodStack abs st.stack) (hl : ∀ c ∈ l, slash ∉ c) :
    resolve at_ (l.foldl (nstep abs) st).stack.reverse = resolve (resolve at_ st.stack.reverse) l := by
  induction l generalizing st with
  | nil => rfl
  | cons c l ih =>
    simp only [List.foldl_cons]
    rw [ih _ (Path.nstep_good abs st c hg (hl c List.mem_cons_self))
      fun x hx => hl x (List.mem_cons_of_mem _ hx), resolve_nstep ha st c hg, ← resolve_append]
    rfl

/-! ### Empty components -/

theorem walk_skip (d : Disk) (at_ : Place) (l : List Str) : d.walk at_ ([] :: l) = d.walk at_ l := by
  simp [Disk.walk]

theorem walk_skip_end (d : Disk) (at_ : Place) (l : List Str) (n : Nat) :
    d.walk at_ (l ++ List.replicate n []) = d.walk at_ l := by
  have : ∀ x, d.walk x (List.replicate n []) = some x := by
    intro x
    induction n with
    | zero => rfl
    | succ n ih => rw [List.replicate_succ, walk_skip]; exact ih
  rw [walk_append]
  cases d.walk at_ l with
  | none => rfl
  | some x => exact this x

theorem split_slashes (s : Str) (n : Nat) :
    splitSlash (s ++ List.replicate n slash) = splitSlash s ++ List.replicate n [] := by
  induction n generalizing s with
  | zero => simp
  | succ n ih =>
    rw [List.replicate_succ, show s ++ slash :: List.replicate n slash = s ++ slash :: ([] ++ List.replicate n slash) from rfl,
      Path.splitSlash_append, ih]
    simp [splitSlash, List.replicate_succ]

/-! ### Creating directories -/

theorem mkdir_spec {d e : Disk} {c : Str} {at_ : Place} (hw : d.Wf) (ha : d.isDir at_ = true)
    (h : d.mkdir (c :: at_) = some e) :
    e.Wf ∧ d.Keeps e ∧ e.isDir (c :: at_) = true ∧ e.file = d.file := by
  simp only [Disk.mkdir] at h
  split at h
  · rename_i hd
    simp only [Option.some.injEq] at h
    subst h
    exact ⟨hw, .refl d, hd, rfl⟩
  · split at h
    · simp at h
    · simp only [Option.some.injEq] at h
      subst h
      refine ⟨⟨?_, ?_, ?_⟩, ⟨?_, rfl⟩, by simp, rfl⟩
      · simp [hw.root]
      · simp [hw.cwd]
      · intro x y hx
        simp only at hx ⊢
        split at hx
        · rename_i he
          simp only [List.cons.injEq] at he
          rw [he.2]
          split
          · rfl
          · exact ha
        · split
          · rfl
          · exact hw.closed _ _ hx
      · intro x hx; simp [hx]

theorem mkdirs_spec {d e : Disk} {at_ : Place} {l : List Str} (hw : d.Wf) (ha : d.isDir at_ = true)
    (h : d.mkdirs at_ l = some e) :
    e.Wf ∧ d.Keeps e ∧ e.walk at_ l = some (resolve at_ l) ∧ e.file = d.file := by
  induction l generalizing d at_ with
  | nil =>
    simp only [Disk.mkdirs, Option.some.injEq] at h
    subst h
    exact ⟨hw, .refl d, rfl, rfl⟩
  | cons c l ih =>
    simp only [Disk.mkdirs] at h
    simp only [Disk.walk, resolve]
    split at h
    · rename_i h1; simp only [if_pos h1]; exact ih hw ha h
    · rename_i h1; simp only [if_neg h1]
      split at h
      · rename_i h2; simp only [if_pos h2]; exact ih hw (hw.tail ha) h
      · rename_i h2; simp only [if_neg h2]
        split at h
        · rename_i d' hd
          obtain ⟨w1, k1, i1, f1⟩ := mkdir_spec hw ha hd
          obtain ⟨w2, k2, i2, f2⟩ := ih w1 i1 h
          refine ⟨w2, k1.trans k2, ?_, f2.trans f1⟩
          rw [if_pos (k2.dirs _ i1)]
          exact i2
        · simp at h

theorem createDirectories_spec {d e : Disk} {p : Str} (hw : d.Wf)
    (h : d.createDirectories p = some e) :
    e.Wf ∧ d.Keeps e ∧ e.walk (e.start p) (splitSlash p) = some (resolve (e.start p) (splitSlash p)) ∧
      e.file = d.file := by
  simp only [Disk.createDirectories] at h
  split at h
  · simp at h
  · obtain ⟨w, k, i, f⟩ := mkdirs_spec hw (hw.start p) h
    rw [k.start p]
    exact ⟨w, k, i, f⟩

/-- Creating directories fails only where a file is in the way. -/
theorem mkdirs_none {d : Disk} {at_ : Place} {l : List Str} (h : d.mkdirs at_ l = none) :
    ∃ x, (d.file x).isSome = true ∧ d.isDir x = false ∧
      ∃ k, k ≤ l.length ∧ x = resolve at_ (l.take k) := by
  induction l generalizing d at_ with
  | nil => simp [Disk.mkdirs] at h
  | cons c l ih =>
    simp only [Disk.mkdirs] at h
    have up : ∀ {d' : Disk} {y : Place}, d'.mkdirs y l = none → resolve at_ [c] = y →
        d'.file = d.file → (∀ x, d'.isDir x = false → d.isDir x = false) →
        ∃ x, (d.file x).isSome = true ∧ d.isDir x = false ∧
          ∃ k, k ≤ (c :: l).length ∧ x = resolve at_ ((c :: l).take k) := by
      intro d' y hn hy hf hi
      obtain ⟨x, h1, h2, k, hk, hx⟩ := ih hn
      refine ⟨x, hf ▸ h1, hi x h2, k + 1, by simp; exact hk, ?_⟩
      rw [hx, List.take_succ_cons, ← hy, ← resolve_append]
      rfl
    split at h
    · rename_i h1; exact up h (by simp [resolve, h1]) rfl fun _ h => h
    · rename_i h1
      split at h
      · rename_i h2; exact up h (by rw [resolve, if_neg h1, if_pos h2]; rfl) rfl fun _ h => h
      · rename_i h2
        have hy : resolve at_ [c] = c :: at_ := by rw [resolve, if_neg h1, if_neg h2]; rfl
        split at h
        · rename_i d' hd
          simp only [Disk.mkdir] at hd
          split at hd
          · simp only [Option.some.injEq] at hd
            exact up h hy (by rw [hd]) fun _ h => by rw [← hd] at h; exact h
          · split at hd
            · simp at hd
            · simp only [Option.some.injEq] at hd
              refine up h hy (by rw [← hd]) fun x hx => ?_
              rw [← hd] at hx
              simp only at hx
              split at hx
              · simp at hx
              · exact hx
        · rename_i hd
          simp only [Disk.mkdir] at hd
          split at hd
          · simp at hd
          · rename_i hi
            split at hd
            · rename_i hf
              refine ⟨c :: at_, hf, by simpa using hi, 1, by simp, ?_⟩
              rw [List.take_succ_cons, List.take_zero, hy]
            · simp at hd

end Verif.Disk
