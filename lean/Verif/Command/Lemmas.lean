import Verif.Command.Model
import Verif.Command.Spec
import Verif.Path.MoreLemmas

namespace Verif.Command
open Verif

theorem byte_forall {p : UInt8 → Prop} (h : ∀ n : Fin 256, p (UInt8.ofNat n.val)) (b : UInt8) :
    p b := by
  have := h ⟨b.toNat, b.toNat_lt⟩
  simpa using this

theorem nameStart_iff (b : UInt8) : nameStart b = true ↔ b ∈ letters := by
  revert b; apply byte_forall; decide +kernel

theorem nameByte_iff (b : UInt8) : nameByte b = true ↔ b ∈ letters ∨ b ∈ numerals := by
  revert b; apply byte_forall; decide +kernel

theorem nameStart_special (b : UInt8) (h : nameStart b = true) :
    b ≠ c!"{" ∧ b ≠ c!"}" ∧ b ≠ c!":" ∧ ¬ (c!"0" ≤ b ∧ b ≤ c!"9") := by
  revert h; revert b; apply byte_forall; decide +kernel

theorem numeral_mem (b : UInt8) (h : c!"0" ≤ b ∧ b ≤ c!"9") : b ∈ numerals := by
  revert h; revert b; apply byte_forall; decide +kernel

theorem nameByte_close : nameByte c!"}" = false := by decide

theorem takeWhile_name (n : Str) (r : Str) (h : ∀ x ∈ n, nameByte x = true) :
    (n ++ c!"}" :: r).takeWhile nameByte = n ∧ (n ++ c!"}" :: r).dropWhile nameByte = c!"}" :: r := by
  induction n with
  | nil => simp [nameByte_close]
  | cons x n ih =>
    have hx := h x (by simp)
    have := ih (fun y hy => h y (by simp [hy]))
    simp [hx, this]

/-- Put a possibly missing text in front of a result. -/
def preOpt : Option Str → Out → Out
  | some t, o => o.pre t
  | none, _ => .fatal

theorem pre_append (a b : Str) (o : Out) : o.pre (a ++ b) = (o.pre b).pre a := by
  cases o <;> simp [Out.pre]

theorem pre_nil (o : Out) : o.pre [] = o := by cases o <;> rfl

theorem format_text (args : Args) (s p : Str) (f : Nat) (h1 : c!"{" ∉ s) (h2 : c!"}" ∉ s)
    (hf : (s ++ p).length < f) :
    ∃ g, p.length < g ∧ format args f (s ++ p) = (format args g p).pre s := by
  induction s generalizing f with
  | nil => exact ⟨f, by simpa using hf, by simp [pre_nil]⟩
  | cons b s ih =>
    simp only [List.mem_cons, not_or] at h1 h2
    cases f with
    | zero => simp at hf
    | succ f =>
      obtain ⟨g, hg, e⟩ := ih f h1.2 h2.2 (by simpa using hf)
      refine ⟨g, hg, ?_⟩
      rw [List.cons_append, format.eq_def]
      simp only
      rw [if_neg (fun e => h2.1 e.symm), if_neg (fun e => h1.1 e.symm),
        e, ← pre_append]
      rfl

theorem format_seg (args : Args) (x : Seg) (hx : x.Ok) (p : Str) (f : Nat)
    (hf : (x.src ++ p).length < f) :
    x.val (lookupArg args) = none ∧ format args f (x.src ++ p) = .fatal ∨
    ∃ g v, p.length < g ∧ x.val (lookupArg args) = some v ∧
      format args f (x.src ++ p) = (format args g p).pre v := by
  cases x with
  | text s =>
    obtain ⟨g, h1, h2⟩ := format_text args s p f hx.1 hx.2 hf
    exact Or.inr ⟨g, s, h1, rfl, h2⟩
  | openBrace =>
    cases f with
    | zero => simp at hf
    | succ f =>
      refine Or.inr ⟨f, b!"{", ?_, rfl, ?_⟩
      · simp [Seg.src] at hf; omega
      · simp [Seg.src, format]
  | closeBrace =>
    cases f with
    | zero => simp at hf
    | succ f =>
      refine Or.inr ⟨f, b!"}", ?_, rfl, ?_⟩
      · simp [Seg.src] at hf; omega
      · simp [Seg.src, format]
  | field n =>
    cases f with
    | zero => simp at hf
    | succ f =>
      cases n with
      | nil => exact absurd hx (by simp [Seg.Ok, IsIdent])
      | cons b n =>
        have hb := (nameStart_iff b).2 hx.1
        have hn : ∀ x ∈ n, nameByte x = true := fun x h => (nameByte_iff x).2 (hx.2 x h)
        obtain ⟨s1, s2, s3, s4⟩ := nameStart_special b hb
        obtain ⟨t1, t2⟩ := takeWhile_name n p hn
        have hsrc : (Seg.field (b :: n)).src ++ p = c!"{" :: b :: (n ++ c!"}" :: p) := by
          simp [Seg.src]
        have hfmt : format args (f + 1) (c!"{" :: b :: (n ++ c!"}" :: p)) =
            match lookupArg args (b :: n) with
            | some v => (format args f p).pre v
            | none => .fatal := by
          rw [format, if_neg (by decide), if_pos rfl]
          simp only
          rw [if_neg s1, if_neg (by simp only [s2, s3, s4, or_self, not_false_eq_true]), if_pos hb]
          simp only [t1, t2, if_true]
          cases lookupArg args (b :: n) <;> rfl
        rw [hsrc, hfmt]
        rw [hsrc] at hf
        cases hl : lookupArg args (b :: n) with
        | none => left; exact ⟨hl, rfl⟩
        | some v =>
          right
          exact ⟨f, v, by simp at hf; omega, hl, rfl⟩

theorem format_segs (args : Args) (l : List Seg) (hl : ∀ x ∈ l, x.Ok) (p : Str) (f : Nat)
    (hf : (srcs l ++ p).length < f) :
    vals (lookupArg args) l = none ∧ format args f (srcs l ++ p) = .fatal ∨
    ∃ g v, p.length < g ∧ vals (lookupArg args) l = some v ∧
      format args f (srcs l ++ p) = (format args g p).pre v := by
  induction l generalizing f with
  | nil => right; exact ⟨f, [], by simpa [srcs] using hf, rfl, by simp [srcs, pre_nil]⟩
  | cons x l ih =>
    have e : srcs (x :: l) ++ p = x.src ++ (srcs l ++ p) := by simp [srcs]
    rw [e] at hf ⊢
    rcases format_seg args x (hl x (by simp)) (srcs l ++ p) f hf with ⟨h1, h2⟩ | ⟨g, v, hg, h1, h2⟩
    · left; exact ⟨by simp [vals, h1], h2⟩
    · rcases ih (fun y hy => hl y (by simp [hy])) g hg with ⟨h3, h4⟩ | ⟨g2, w, h3, h4, h5⟩
      · left; exact ⟨by simp [vals, h1, h3], by rw [h2, h4]; rfl⟩
      · right
        exact ⟨g2, v ++ w, h3, by simp [vals, h1, h4], by rw [h2, h5, pre_append]⟩

/-- Every value comes from a segment list. -/
theorem format_value (args : Args) (f : Nat) (p s : Str) (h : format args f p = .value s) :
    ∃ l, (∀ x ∈ l, Seg.Ok x) ∧ srcs l = p ∧ vals (lookupArg args) l = some s := by
  induction f generalizing p s with
  | zero => simp [format] at h
  | succ f ih =>
    cases p with
    | nil => simp [format] at h; exact ⟨[], by simp, rfl, by simp [vals, h]⟩
    | cons b r =>
      have step : ∀ (x : Seg) (v q : Str), x.Ok → x.val (lookupArg args) = some v →
          x.src ++ q = b :: r → (format args f q).pre v = .value s →
          ∃ l, (∀ x ∈ l, Seg.Ok x) ∧ srcs l = b :: r ∧ vals (lookupArg args) l = some s := by
        intro x v q hx hv hq hf
        cases hr : format args f q with
        | value t =>
          rw [hr] at hf
          obtain ⟨l, h1, h2, h3⟩ := ih q t hr
          refine ⟨x :: l, ?_, ?_, ?_⟩
          · intro y hy
            rcases List.mem_cons.1 hy with rfl | hy
            · exact hx
            · exact h1 y hy
          · simp only [srcs, List.map_cons, List.flatten_cons] at h2 ⊢
            rw [h2, hq]
          · simp only [vals, hv, h3]
            simpa [Out.pre] using hf
        | fatal => rw [hr] at hf; simp [Out.pre] at hf
        | unspecified => rw [hr] at hf; simp [Out.pre] at hf
      rw [format.eq_def] at h
      simp only at h
      split at h
      · rename_i hb
        cases r with
        | nil => simp at h
        | cons b2 r2 =>
          simp only at h
          split at h
          · rename_i hb2
            exact step .closeBrace _ r2 trivial rfl (by simp [Seg.src, hb, hb2]) h
          · simp at h
      · rename_i hb
        split at h
        · rename_i hb1
          cases r with
          | nil => simp at h
          | cons b2 r2 =>
            simp only at h
            split at h
            · rename_i hb2
              exact step .openBrace _ r2 trivial rfl (by simp [Seg.src, hb1, hb2]) h
            · split at h
              · simp at h
              · split at h
                · rename_i hns
                  cases hdw : r2.dropWhile nameByte with
                  | nil => rw [hdw] at h; simp at h
                  | cons b3 r3 =>
                    rw [hdw] at h
                    simp only at h
                    split at h
                    · rename_i hb3
                      cases hlk : lookupArg args (b2 :: r2.takeWhile nameByte) with
                      | none => rw [hlk] at h; simp at h
                      | some v =>
                        rw [hlk] at h
                        refine step (.field (b2 :: r2.takeWhile nameByte)) v r3 ?_ hlk ?_ h
                        · refine ⟨(nameStart_iff b2).1 hns, ?_⟩
                          intro x hx
                          apply (nameByte_iff x).1
                          have := List.all_takeWhile (p := nameByte) (l := r2)
                          exact List.all_eq_true.1 this x hx
                        · have := List.takeWhile_append_dropWhile (p := nameByte) (l := r2)
                          rw [hdw, hb3] at this
                          simp only [Seg.src, hb1, List.cons_append, List.nil_append,
                            List.append_assoc]
                          rw [this]
                    · split at h <;> simp at h
                · simp at h
        · rename_i hb1
          refine step (.text [b]) [b] r ?_ rfl rfl h
          simp only [Seg.Ok, List.mem_singleton]
          exact ⟨fun e => hb1 e.symm, fun e => hb e.symm⟩

theorem lookupArg_append (a b : Args) (n : Str) :
    lookupArg (a ++ b) n = (lookupArg a n).or (lookupArg b n) := by
  induction a with
  | nil => simp [lookupArg]
  | cons x a ih =>
    obtain ⟨k, v⟩ := x
    simp only [List.cons_append, lookupArg]
    split <;> simp [ih]

theorem vals_congr (e1 e2 : Str → Option Str) (l : List Seg) (h : ∀ n, e1 n = e2 n) :
    vals e1 l = vals e2 l := by
  have : e1 = e2 := funext h
  rw [this]

theorem lookupArg_mem (a : Args) (n v : Str) (h : lookupArg a n = some v) : (n, v) ∈ a := by
  induction a with
  | nil => simp [lookupArg] at h
  | cons x a ih =>
    obtain ⟨k, w⟩ := x
    simp only [lookupArg] at h
    split at h
    · rename_i e; simp at h; simp [e, h]
    · simp [ih h]

theorem lookupArg_none (a : Args) (n : Str) : lookupArg a n = none ↔ n ∉ a.map Prod.fst := by
  induction a with
  | nil => simp [lookupArg]
  | cons x a ih =>
    obtain ⟨k, w⟩ := x
    simp only [lookupArg, List.map_cons, List.mem_cons, not_or]
    split
    · rename_i e; simp [e]
    · rename_i e; rw [ih]; exact ⟨fun h => ⟨fun e' => e e'.symm, h⟩, fun h => h.2⟩

theorem lookupArg_of_mem (a : Args) (n v : Str) (hd : (a.map Prod.fst).Nodup) (h : (n, v) ∈ a) :
    lookupArg a n = some v := by
  induction a with
  | nil => simp at h
  | cons x a ih =>
    obtain ⟨k, w⟩ := x
    simp only [List.map_cons, List.nodup_cons] at hd
    simp only [lookupArg]
    rcases List.mem_cons.1 h with e | h
    · simp at e; simp [e]
    · rw [if_neg]
      · exact ih hd.2 h
      · rintro rfl; exact hd.1 (List.mem_map.2 ⟨(k, v), h, rfl⟩)

theorem lookupArg_perm (a b : Args) (hp : a.Perm b) (hd : (a.map Prod.fst).Nodup) (n : Str) :
    lookupArg a n = lookupArg b n := by
  have hd' : (b.map Prod.fst).Nodup := (hp.map Prod.fst).nodup_iff.1 hd
  cases h : lookupArg a n with
  | some v =>
    exact (lookupArg_of_mem b n v hd' (hp.mem_iff.1 (lookupArg_mem a n v h))).symm
  | none =>
    rw [lookupArg_none] at h
    symm; rw [lookupArg_none]
    intro hm; exact h ((hp.map Prod.fst).mem_iff.2 hm)

theorem addDefault_nodup (d : Defaults) (k v : Str) (h : (d.map Prod.fst).Nodup) :
    ((addDefault d k v).map Prod.fst).Nodup := by
  rw [addDefault]
  split
  · exact h
  · rename_i hn
    have : k ∉ d.map Prod.fst := by
      rw [← lookupArg_none]; simpa using hn
    rw [List.map_append, List.nodup_append]
    refine ⟨h, by simp, ?_⟩
    intro a ha b hb
    simp at hb
    rintro rfl
    subst hb
    exact this ha

theorem getDefault_addDefault (d : Defaults) (k v n : Str) :
    getDefault (addDefault d k v) n =
      match getDefault d n with
      | some w => some w
      | none => if k = n then some v else none := by
  simp only [getDefault, addDefault]
  split
  · rename_i h
    cases hn : lookupArg d n with
    | some w => rfl
    | none =>
      by_cases e : k = n
      · subst e; simp [hn] at h
      · simp [e]
  · rw [lookupArg_append]
    cases lookupArg d n <;> simp [lookupArg]

theorem addDefaults_nodup (d : Defaults) (l : List (Str × Str)) (h : (d.map Prod.fst).Nodup) :
    ((addDefaults d l).map Prod.fst).Nodup := by
  induction l generalizing d with
  | nil => exact h
  | cons x l ih => exact ih _ (addDefault_nodup d x.1 x.2 h)

theorem getDefault_addDefaults (d : Defaults) (l : List (Str × Str)) (n : Str) :
    getDefault (addDefaults d l) n = (getDefault d n).or (lookupArg l n) := by
  induction l generalizing d with
  | nil => simp [addDefaults, lookupArg]
  | cons x l ih =>
    obtain ⟨k, v⟩ := x
    have : addDefaults d ((k, v) :: l) = addDefaults (addDefault d k v) l := rfl
    rw [this, ih, getDefault_addDefault]
    cases getDefault d n with
    | some w => simp
    | none =>
      simp only [lookupArg]
      split <;> simp

/-! ## Words of aggregated lists (used by C27) -/

theorem balanced_append (a b : Str) (ha : Path.Balanced a) (hb : Path.Balanced b) :
    Path.Balanced (a ++ b) := by
  simp only [Path.Balanced, List.filter_append, List.length_append] at *
  omega

theorem balanced_space_append (a b : Str) (ha : Path.Balanced a) (hb : Path.Balanced b) :
    Path.Balanced (a ++ c!" " :: b) := by
  simp only [Path.Balanced, List.filter_append, List.length_append, List.filter_cons] at *
  simp only [show ((c!" " : UInt8) = c!"\"") = False from by decide, decide_false]
  simp only [Bool.false_eq_true, if_false]
  omega

theorem aggregate_balanced (l : List Str) (h : ∀ x ∈ l, Path.Balanced x) :
    Path.Balanced (aggregate l) := by
  induction l with
  | nil => simp [aggregate, Path.Balanced]
  | cons a l ih =>
    cases l with
    | nil => exact h a (by simp)
    | cons b l =>
      exact balanced_space_append _ _ (h a (by simp)) (ih (fun x hx => h x (by simp [hx])))

/-- The words of an aggregated list are the words of its elements, in order. -/
theorem words_aggregate (l : List Str) (h : ∀ x ∈ l, Path.Balanced x) :
    Path.words (aggregate l) = l.flatMap Path.words := by
  induction l with
  | nil => rfl
  | cons a l ih =>
    cases l with
    | nil => simp [aggregate]
    | cons b l =>
      have := ih (fun x hx => h x (by simp [hx]))
      have e : aggregate (a :: b :: l) = a ++ c!" " :: aggregate (b :: l) := rfl
      rw [e, Path.words, Path.words_pre a _ (h a (by simp)), List.flatMap_cons]
      rw [← this]; rfl

end Verif.Command
