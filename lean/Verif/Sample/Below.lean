import Verif.Sample.Headers

/-! # Headers below an include directory (C107)

`AddIncludeDir(dir, true)` takes the entries of the directory itself.  The compiler also finds files in
the directories below it, as in `#include "sub/name.h"`. -/

namespace Verif.Sample
open Verif Verif.Schema Verif.Target Verif.Toolchain Verif.Path
open Verif.Boot (texts texts_append texts_paths)

/-! ## Proofs -/

theorem asDir_slash {dir : Str} (hd : dir ≠ []) : ∃ d, asDir dir = d ++ [slash] := by
  rcases asDir_end dir with h | h
  · exfalso
    rw [asDir] at h
    split at h
    · exact hd h
    · simp at h
  · exact h

/-- The normal form of a path of plain names below a directory, as components. -/
theorem below_normal {dir d : Str} (hd : asDir dir = d ++ [slash]) {l : List Str} (hl : l ≠ [])
    (hn : ∀ c ∈ l, PlainName c) :
    ∃ st : NState, lexNormal (asDir dir ++ joinSlash l) = render (isAbs (d ++ [slash])) st ∧
      GoodStack (isAbs (d ++ [slash])) st.stack ∧
      st.stack = l.reverse ++ ((splitSlash d).foldl (nstep (isAbs (d ++ [slash]))) ⟨[], false⟩).stack := by
  have hsp : splitSlash (asDir dir ++ joinSlash l) = splitSlash d ++ l := by
    rw [hd, List.append_assoc]
    simp only [List.cons_append, List.nil_append]
    rw [splitSlash_append, splitSlash_joinSlash l hl fun c hc => (hn c hc).2.2.2]
  have hab : isAbs (asDir dir ++ joinSlash l) = isAbs (d ++ [slash]) := by
    rw [hd]; exact isAbs_append _ _ (by simp)
  have hg := fold_good (isAbs (d ++ [slash])) (splitSlash d ++ l) ⟨[], false⟩
    ⟨[], 0, rfl, by simp, fun _ => rfl⟩ (by rw [← hsp]; exact fun c hc => mem_splitSlash _ c hc)
  have hf : ∀ (l : List Str) (st : NState), (∀ c ∈ l, PlainName c) →
      (l.foldl (nstep (isAbs (d ++ [slash]))) st).stack = l.reverse ++ st.stack := by
    intro l
    induction l with
    | nil => intro st _; rfl
    | cons c l ih =>
      intro st h
      rw [List.foldl_cons, ih _ fun x hx => h x (List.mem_cons_of_mem _ hx),
        nstep_name _ _ _ (h c (List.mem_cons_self ..))]
      simp
  refine ⟨_, ?_, hg, ?_⟩
  · rw [lexNormal, if_neg (by rw [hd]; simp), hab, hsp]
  · rw [List.foldl_append, hf _ _ hn]

theorem below_inj {dir : Str} (hd : dir ≠ []) {l m : List Str} (hl : l ≠ []) (hm : m ≠ [])
    (hln : ∀ c ∈ l, PlainName c) (hmn : ∀ c ∈ m, PlainName c)
    (h : toPathString (append dir (joinSlash l)) = toPathString (append dir (joinSlash m))) : l = m := by
  obtain ⟨d, hd'⟩ := asDir_slash hd
  have hr : ∀ {k : List Str}, k ≠ [] → (∀ c ∈ k, PlainName c) → isAbs (joinSlash k) = false := by
    intro k hk hn
    cases k with
    | nil => exact absurd rfl hk
    | cons c k =>
      have hc := hn c (List.mem_cons_self ..)
      cases c with
      | nil => exact absurd rfl hc.1
      | cons b r =>
        have hb : b ≠ slash := fun e => hc.2.2.2 (e ▸ List.mem_cons_self ..)
        cases k <;> simp [joinSlash, isAbs, hb]
  rw [append_rel _ _ (hr hl hln), append_rel _ _ (hr hm hmn)] at h
  obtain ⟨s1, e1, g1, k1⟩ := below_normal hd' hl hln
  obtain ⟨s2, e2, g2, k2⟩ := below_normal hd' hm hmn
  have h' : render (isAbs (d ++ [slash])) s1 = render (isAbs (d ++ [slash])) s2 := by
    rw [← e1, ← e2]; exact h
  have := render_stack_inj _ s1 s2 g1 g2 (by simp [k1, hl]) (by simp [k2, hm]) h'
  rw [k1, k2] at this
  simpa using List.append_cancel_right this

/-- What `AddIncludeDir(dir, true)` adds to the tracked headers. -/
theorem include_adds {e : ApiEnv} {t t' : TargetSchema} {dir : Str}
    (ha : apply e t (.addIncludeDirAbsolute dir true) = some t') :
    t'.includeDirs = t.includeDirs ++ [toPathString dir] ∧
      paths t'.headers = paths t.headers ++
        (filesIn e dir fun p => decide (IsHeader e.cfg p)).map toPathString := by
  rcases apply_spec e t (.addIncludeDirAbsolute dir true) with ⟨-, h2⟩ | ⟨-, t1, h2, -, h4⟩
  · rw [h2] at ha; cases ha
  · rw [h2] at ha
    cases ha
    rw [← texts_includes, ← texts_includes, ← (texts_paths _).2.1, ← (texts_paths _).2.1,
      h4 _ (fun h => h), h4 _ (fun h => h), texts_append, texts_append, ← Boot.texts_stored]
    constructor <;> simp [added, addsTo, texts, storedDir]

/-! ## Theorems -/

/-- **C107, exactly what is tracked.**  `l` are the names on the way from the include directory to a file
that the target did not track before.  The call with the headers tracks this file if and only if it is an
entry of the directory itself with the extension of a header. -/
theorem C107_below {e : ApiEnv} {t t' : TargetSchema} {dir : Str} {l : List Str} (hd : dir ≠ [])
    (hp : ∀ n ∈ (e.list dir).getD [], PlainName n) (hl : l ≠ []) (hln : ∀ c ∈ l, PlainName c)
    (hnew : toPathString (append dir (joinSlash l)) ∉ paths t.headers)
    (ha : apply e t (.addIncludeDirAbsolute dir true) = some t') :
    toPathString (append dir (joinSlash l)) ∈ paths t'.headers ↔
      ∃ n ∈ (e.list dir).getD [], l = [n] ∧ IsHeader e.cfg (append dir n) := by
  rw [(include_adds ha).2, List.mem_append]
  constructor
  · rintro (h | h)
    · exact absurd h hnew
    · obtain ⟨q, hq, he⟩ := List.mem_map.1 h
      simp only [filesIn, List.mem_filter, List.mem_map, decide_eq_true_eq] at hq
      obtain ⟨⟨n, hn, rfl⟩, hx⟩ := hq
      have : [n] = l := below_inj hd (by simp) hl (by simpa using hp n hn) hln he
      exact ⟨n, hn, this.symm, hx⟩
  · rintro ⟨n, hn, rfl, hx⟩
    refine .inr (List.mem_map.2 ⟨append dir n, ?_, rfl⟩)
    simp only [filesIn, List.mem_filter, List.mem_map, decide_eq_true_eq]
    exact ⟨⟨n, hn, rfl⟩, hx⟩

/-- **C107, its limit.**  The directory is given to the compiler, and a header in a directory below it is
not tracked: a change of this header compiles nothing. -/
theorem C107_below_false {e : ApiEnv} {t t' : TargetSchema} {dir sub name : Str} (hd : dir ≠ [])
    (hp : ∀ n ∈ (e.list dir).getD [], PlainName n) (hs : PlainName sub) (hn : PlainName name)
    (hnew : toPathString (append dir (sub ++ slash :: name)) ∉ paths t.headers)
    (ha : apply e t (.addIncludeDirAbsolute dir true) = some t') :
    toPathString dir ∈ t'.includeDirs ∧
      toPathString (append dir (sub ++ slash :: name)) ∉ paths t'.headers := by
  refine ⟨by simp [(include_adds ha).1], fun h => ?_⟩
  have := (C107_below (l := [sub, name]) hd hp (by simp) (by simpa using ⟨hs, hn⟩) hnew ha).1 h
  obtain ⟨n, -, h, -⟩ := this
  cases h

/-- An include directory with a header, a text and a directory. -/
def belowEnv : ApiEnv :=
  { Target.exEnv with
    list := fun d => if d = b!"/r/inc" then some [b!"a.hpp", b!"notes.txt", b!"sub"] else none }

example : (apply belowEnv .empty (.addIncludeDirAbsolute b!"/r/inc" true)).map
    (fun t => (paths t.headers, t.includeDirs)) = some ([b!"/r/inc/a.hpp"], [b!"/r/inc"]) := by
  decide +kernel

example {t' : TargetSchema}
    (h : apply belowEnv .empty (.addIncludeDirAbsolute b!"/r/inc" true) = some t') :
    b!"/r/inc" ∈ t'.includeDirs ∧ b!"/r/inc/sub/b.hpp" ∉ paths t'.headers :=
  C107_below_false (dir := b!"/r/inc") (sub := b!"sub") (name := b!"b.hpp") (by decide)
    (by decide +kernel) (by decide +kernel) (by decide +kernel) (by decide +kernel) h

end Verif.Sample
