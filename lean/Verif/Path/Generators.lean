import Verif.Path.Case

/-!
# Files of generators (C122)

A generator named `g` works in `<build>/g` and keeps its state in `<build>/g/g.json`.  A target works in
`<build>/<toolchain>/<name>`.  Which of these are the same file, exactly, also where the case of letters does not
count (`SameFile`, `SameCase`).
-/

namespace Verif.Path
open Verif

/-! ## Proofs -/

theorem fold_plain (abs : Bool) (l : List Str) (st : NState) (h : ∀ c ∈ l, PlainName c) :
    (l.foldl (nstep abs) st).stack = l.reverse ++ st.stack := by
  induction l generalizing st with
  | nil => rfl
  | cons c l ih =>
    rw [List.foldl_cons, ih _ fun d hd => h d (List.mem_cons_of_mem _ hd),
      nstep_name _ _ _ (h c List.mem_cons_self)]
    simp

/-- A directory and a text in it: how the names at its front are seen in the normal form. -/
theorem normal_stack_names (env : Str) (henv : env ≠ []) : ∃ (abs : Bool) (base : List Str),
    ∀ (l : List Str) (t : Str), l ≠ [] → (∀ c ∈ l, PlainName c) → dotdot ∉ splitSlash t →
      (∃ st, lexNormal (asDir env ++ joinSlash l) = render abs st ∧ GoodStack abs st.stack ∧
        st.stack = l.reverse ++ base) ∧
      ∃ st x, lexNormal (asDir env ++ (joinSlash l ++ slash :: t)) = render abs st ∧
        GoodStack abs st.stack ∧ st.stack = x ++ (l.reverse ++ base) := by
  obtain ⟨d, hd⟩ : ∃ d, asDir env = d ++ [slash] := by
    rcases asDir_end env with h | h
    · exfalso
      rw [asDir] at h
      split at h
      · exact henv h
      · simp at h
    · exact h
  refine ⟨isAbs (d ++ [slash]),
    ((splitSlash d).foldl (nstep (isAbs (d ++ [slash]))) ⟨[], false⟩).stack, fun l t hl hp hdd => ?_⟩
  have hs : ∀ c ∈ l, slash ∉ c := fun c hc => (hp c hc).2.2.2
  have hab : ∀ r, isAbs (asDir env ++ r) = isAbs (d ++ [slash]) := by
    intro r; rw [hd]; exact isAbs_append _ _ (by simp)
  have hsp : ∀ r, splitSlash (asDir env ++ r) = splitSlash d ++ splitSlash r := by
    intro r
    rw [hd, List.append_assoc]
    exact splitSlash_append d r
  have good : ∀ r, GoodStack (isAbs (d ++ [slash]))
      ((splitSlash (asDir env ++ r)).foldl (nstep (isAbs (d ++ [slash]))) ⟨[], false⟩).stack := fun r =>
    fold_good _ _ _ ⟨[], 0, rfl, by simp, fun _ => rfl⟩ fun c hc => mem_splitSlash _ c hc
  have hne : ∀ r, asDir env ++ r ≠ [] := by intro r; rw [hd]; simp
  constructor
  · refine ⟨_, by rw [lexNormal, if_neg (hne _), hab], good _, ?_⟩
    rw [hsp, splitSlash_joinSlash l hl hs, List.foldl_append, fold_plain _ _ _ hp]
  · obtain ⟨x, hx⟩ := fold_no_dotdot (isAbs (d ++ [slash])) (splitSlash t)
      (l.foldl (nstep (isAbs (d ++ [slash])))
        ((splitSlash d).foldl (nstep (isAbs (d ++ [slash]))) ⟨[], false⟩)) hdd
    refine ⟨_, x, by rw [lexNormal, if_neg (hne _), hab], good _, ?_⟩
    rw [hsp, splitSlash_append, splitSlash_joinSlash l hl hs, List.foldl_append, List.foldl_append, hx,
      fold_plain _ _ _ hp]

/-- Names in a directory: the same file only if all names are the same. -/
theorem names_inj (env : Str) (henv : env ≠ []) (l m : List Str) (hl : l ≠ []) (hm : m ≠ [])
    (pl : ∀ c ∈ l, PlainName c) (pm : ∀ c ∈ m, PlainName c)
    (h : toPathString (asDir env ++ joinSlash l) = toPathString (asDir env ++ joinSlash m)) : l = m := by
  obtain ⟨abs, base, key⟩ := normal_stack_names env henv
  obtain ⟨s1, e1, g1, k1⟩ := (key l [] hl pl (by decide)).1
  obtain ⟨s2, e2, g2, k2⟩ := (key m [] hm pm (by decide)).1
  rw [toPathString, toPathString, e1, e2] at h
  have := render_stack_inj _ s1 s2 g1 g2 (by simp [k1, hl]) (by simp [k2, hm]) h
  rw [k1, k2] at this
  simpa using List.append_cancel_right this

theorem first_inj (env : Str) (henv : env ≠ []) (a b t u : Str) (pa : PlainName a) (pb : PlainName b)
    (ht : dotdot ∉ splitSlash t) (hu : dotdot ∉ splitSlash u)
    (h : toPathString (asDir env ++ (a ++ slash :: t)) = toPathString (asDir env ++ (b ++ slash :: u))) :
    a = b := by
  obtain ⟨abs, base, key⟩ := normal_stack_names env henv
  obtain ⟨s1, x1, e1, g1, k1⟩ := (key [a] t (by simp) (by simpa using pa) ht).2
  obtain ⟨s2, x2, e2, g2, k2⟩ := (key [b] u (by simp) (by simpa using pb) hu).2
  rw [toPathString, toPathString, show a = joinSlash [a] from rfl, show b = joinSlash [b] from rfl, e1, e2] at h
  have := render_stack_inj _ s1 s2 g1 g2 (by simp [k1]) (by simp [k2]) h
  rw [k1, k2] at this
  have := (List.append_inj' this (by simp)).2
  simpa using this

theorem gen_dir (env g : Str) (hg : PlainName g) : genBuildDir env g = asDir env ++ g :=
  append_rel _ _ (isAbs_noSlash _ hg.2.2.2)

theorem inside_append (d n f : Str) (hn : PlainName n) (hf : slash ∉ f)
    (hd : d = [] ∨ ∃ d', d = d' ++ [slash]) : append (d ++ n) f = d ++ (n ++ slash :: f) := by
  rw [append_rel _ _ (isAbs_noSlash _ hf), asDir, filename_unique _ _ hn.2.2.2 hd, if_neg hn.1]
  simp

theorem target_dir (env tc n : Str) (ht : PlainName tc) (hn : PlainName n) :
    targetBuildDir env tc n = asDir env ++ (tc ++ slash :: n) := by
  rw [targetBuildDir, append_rel _ _ (isAbs_noSlash _ ht.2.2.2)]
  exact inside_append _ _ _ ht hn.2.2.2 (asDir_end env)

theorem in_target_dir (env tc n f : Str) (ht : PlainName tc) (hn : PlainName n) (hf : slash ∉ f) :
    append (targetBuildDir env tc n) f = asDir env ++ joinSlash [tc, n, f] := by
  rw [target_dir env tc n ht hn, show asDir env ++ (tc ++ slash :: n) = (asDir env ++ (tc ++ [slash])) ++ n by simp,
    inside_append _ _ _ hn hf (.inr ⟨asDir env ++ tc, by simp⟩)]
  simp [joinSlash]

theorem with_ext (n e : Str) (hn : PlainName n) (he : slash ∉ e) (h3 : 3 ≤ (n ++ e).length) :
    PlainName (n ++ e) := by
  refine ⟨fun h => ?_, fun h => ?_, fun h => ?_, fun h => ?_⟩
  · rw [h] at h3; simp at h3
  · rw [h] at h3; simp at h3
  · rw [h] at h3; simp at h3
  · rcases List.mem_append.1 h with h | h
    · exact hn.2.2.2 h
    · exact he h

theorem json_plain (g : Str) (hg : PlainName g) : PlainName (g ++ b!".json") :=
  with_ext _ _ hg (by decide) (by simp)

theorem gen_state (env g : Str) (hg : PlainName g) :
    genStateFile env g = asDir env ++ joinSlash [g, g ++ b!".json"] := by
  rw [genStateFile, gen_dir env g hg, inside_append _ _ _ hg (json_plain g hg).2.2.2 (asDir_end env)]
  rfl

theorem genDir_low (env g : Str) : genBuildDir (low env) (low g) = low (genBuildDir env g) := append_low _ _

theorem genState_low (env g : Str) : low (genStateFile env g) = genStateFile (low env) (low g) := by
  rw [genStateFile, genStateFile, genDir_low, ← append_low, low_append]
  rfl

/-! ## Theorems -/

/-- **C122, generators.**  Two generators whose directories have a file in common have the same name; where the
case of letters does not count, the same name apart from case. -/
theorem C122_generators (env g1 g2 t1 t2 : Str) (henv : env ≠ []) (p1 : PlainName g1) (p2 : PlainName g2)
    (h1 : dotdot ∉ splitSlash t1) (h2 : dotdot ∉ splitSlash t2) :
    (toPathString (genBuildDir env g1 ++ b!"/" ++ t1) = toPathString (genBuildDir env g2 ++ b!"/" ++ t2) →
      g1 = g2) ∧
    (SameFile (genBuildDir env g1 ++ b!"/" ++ t1) (genBuildDir env g2 ++ b!"/" ++ t2) → SameCase g1 g2) := by
  have key : ∀ env g1 g2 t1 t2 : Str, env ≠ [] → PlainName g1 → PlainName g2 → dotdot ∉ splitSlash t1 →
      dotdot ∉ splitSlash t2 →
      toPathString (genBuildDir env g1 ++ b!"/" ++ t1) = toPathString (genBuildDir env g2 ++ b!"/" ++ t2) →
      g1 = g2 := by
    intro env g1 g2 t1 t2 henv p1 p2 h1 h2 h
    rw [gen_dir env g1 p1, gen_dir env g2 p2] at h
    simp only [List.append_assoc, List.cons_append, List.nil_append] at h
    exact first_inj env henv g1 g2 t1 t2 p1 p2 h1 h2 h
  refine ⟨key env g1 g2 t1 t2 henv p1 p2 h1 h2, fun h => ?_⟩
  have e := sameFile_low h
  simp only [low_append, ← genDir_low] at e
  exact (sameCase_iff _ _).2 (key _ _ _ (low t1) (low t2) (mt (low_eq_nil env).1 henv) ((plain_low _).2 p1)
    ((plain_low _).2 p2) (mt (dotdot_low t1).1 h1) (mt (dotdot_low t2).1 h2) e)

/-- **C122, state files of generators**, exactly. -/
theorem C122_state (env g1 g2 : Str) (henv : env ≠ []) (p1 : PlainName g1) (p2 : PlainName g2) :
    (toPathString (genStateFile env g1) = toPathString (genStateFile env g2) ↔ g1 = g2) ∧
    (SameFile (genStateFile env g1) (genStateFile env g2) ↔ SameCase g1 g2) := by
  have key : ∀ env g1 g2 : Str, env ≠ [] → PlainName g1 → PlainName g2 →
      (toPathString (genStateFile env g1) = toPathString (genStateFile env g2) ↔ g1 = g2) := by
    intro env g1 g2 henv p1 p2
    refine ⟨fun h => ?_, fun h => by rw [h]⟩
    rw [gen_state env g1 p1, gen_state env g2 p2] at h
    have := names_inj env henv _ _ (by simp) (by simp)
      (by simpa using ⟨p1, by simpa using json_plain g1 p1⟩)
      (by simpa using ⟨p2, by simpa using json_plain g2 p2⟩) h
    simpa using this
  refine ⟨key env g1 g2 henv p1 p2, ?_⟩
  rw [SameFile, sameCase_iff, ← toPathString_low, ← toPathString_low, genState_low, genState_low,
    key _ _ _ (mt (low_eq_nil env).1 henv) ((plain_low _).2 p1) ((plain_low _).2 p2), sameCase_iff]

/-- **C122, a generator and a target.**  If the directory of a generator and that of a target have a file in
common, then the name of the generator is that of the toolchain. -/
theorem C122_target (env g tc n t1 t2 : Str) (henv : env ≠ []) (pg : PlainName g) (pt : PlainName tc)
    (pn : PlainName n) (h1 : dotdot ∉ splitSlash t1) (h2 : dotdot ∉ splitSlash t2) :
    (toPathString (genBuildDir env g ++ b!"/" ++ t1) = toPathString (targetBuildDir env tc n ++ b!"/" ++ t2) →
      g = tc) ∧
    (SameFile (genBuildDir env g ++ b!"/" ++ t1) (targetBuildDir env tc n ++ b!"/" ++ t2) → SameCase g tc) := by
  have key : ∀ env g tc n t1 t2 : Str, env ≠ [] → PlainName g → PlainName tc → PlainName n →
      dotdot ∉ splitSlash t1 → dotdot ∉ splitSlash t2 →
      toPathString (genBuildDir env g ++ b!"/" ++ t1) = toPathString (targetBuildDir env tc n ++ b!"/" ++ t2) →
      g = tc := by
    intro env g tc n t1 t2 henv pg pt pn h1 h2 h
    rw [gen_dir env g pg, target_dir env tc n pt pn] at h
    simp only [List.append_assoc, List.cons_append, List.nil_append] at h
    refine first_inj env henv g tc t1 (n ++ slash :: t2) pg pt h1 ?_ h
    rw [splitSlash_append, splitSlash_noSlash n pn.2.2.2]
    simp only [List.cons_append, List.nil_append, List.mem_cons, not_or]
    exact ⟨fun e => pn.2.2.1 e.symm, h2⟩
  refine ⟨key env g tc n t1 t2 henv pg pt pn h1 h2, fun h => ?_⟩
  have e := sameFile_low h
  simp only [low_append, ← genDir_low, ← dir_low] at e
  exact (sameCase_iff _ _).2 (key _ _ _ (low n) (low t1) (low t2) (mt (low_eq_nil env).1 henv)
    ((plain_low _).2 pg) ((plain_low _).2 pt) ((plain_low _).2 pn) (mt (dotdot_low t1).1 h1)
    (mt (dotdot_low t2).1 h2) e)

/-- **C122, the state of a generator and the files of a target.**  It is never the state or the output of a
target, whatever the names are.  It is the directory of a target exactly for one target of each toolchain that
has the name of the generator. -/
theorem C122_target_state (env g tc n ext : Str) (henv : env ≠ []) (pg : PlainName g) (pt : PlainName tc)
    (pn : PlainName n) (pe : PlainName (n ++ ext)) :
    toPathString (genStateFile env g) ≠ toPathString (targetStateFile env tc n) ∧
    toPathString (genStateFile env g) ≠ toPathString (targetOutput env tc n ext) ∧
    (toPathString (genStateFile env g) = toPathString (targetBuildDir env tc n) ↔
      tc = g ∧ n = g ++ b!".json") := by
  have pj := json_plain g pg
  have pb : PlainName (n ++ b!".bin") := with_ext n _ pn (by decide) (by simp)
  have h2 : ∀ c ∈ [g, g ++ b!".json"], PlainName c := by
    intro c hc
    rcases List.mem_cons.1 hc with rfl | hc
    · exact pg
    · rw [List.mem_singleton.1 hc]; exact pj
  have h3 : ∀ f, PlainName f → ∀ c ∈ [tc, n, f], PlainName c := by
    intro f pf c hc
    rcases List.mem_cons.1 hc with rfl | hc
    · exact pt
    · rcases List.mem_cons.1 hc with rfl | hc
      · exact pn
      · rw [List.mem_singleton.1 hc]; exact pf
  have dis : ∀ f, PlainName f →
      toPathString (genStateFile env g) ≠ toPathString (append (targetBuildDir env tc n) f) := by
    intro f pf h
    rw [gen_state env g pg, in_target_dir env tc n f pt pn pf.2.2.2] at h
    have := congrArg List.length (names_inj env henv _ _ (by simp) (by simp) h2 (h3 f pf) h)
    simp at this
  refine ⟨dis _ pb, dis _ pe, fun h => ?_, fun ⟨a, b⟩ => by rw [a, b]; rfl⟩
  rw [gen_state env g pg, target_dir env tc n pt pn] at h
  have := names_inj env henv [g, g ++ b!".json"] [tc, n] (by simp) (by simp) h2 (by
    intro c hc
    rcases List.mem_cons.1 hc with rfl | hc
    · exact pt
    · rw [List.mem_singleton.1 hc]; exact pn) h
  simp only [List.cons.injEq, and_true] at this
  exact ⟨this.1.symm, this.2.symm⟩

/-- **C122**, the same where the case of letters does not count. -/
theorem C122_target_state_case (env g tc n ext : Str) (henv : env ≠ []) (pg : PlainName g) (pt : PlainName tc)
    (pn : PlainName n) (pe : PlainName (n ++ ext)) :
    ¬ SameFile (genStateFile env g) (targetStateFile env tc n) ∧
    ¬ SameFile (genStateFile env g) (targetOutput env tc n ext) ∧
    (SameFile (genStateFile env g) (targetBuildDir env tc n) ↔ SameCase tc g ∧ SameCase n (g ++ b!".json")) := by
  have pe' : PlainName (low n ++ low ext) := by rw [← low_append]; exact (plain_low _).2 pe
  obtain ⟨h1, h2, h3⟩ := C122_target_state (low env) (low g) (low tc) (low n) (low ext)
    (mt (low_eq_nil env).1 henv) ((plain_low _).2 pg) ((plain_low _).2 pt) ((plain_low _).2 pn) pe'
  have e1 : low (targetStateFile env tc n) = targetStateFile (low env) (low tc) (low n) := by
    rw [targetStateFile, targetStateFile, dir_low, ← append_low, low_append]; rfl
  have e2 : low (targetOutput env tc n ext) = targetOutput (low env) (low tc) (low n) (low ext) := by
    rw [targetOutput, targetOutput, dir_low, ← append_low, low_append]
  refine ⟨fun h => h1 ?_, fun h => h2 ?_, ?_⟩
  · rw [← genState_low, ← e1]; exact sameFile_low h
  · rw [← genState_low, ← e2]; exact sameFile_low h
  · rw [SameFile, sameCase_iff, ← toPathString_low, ← toPathString_low, genState_low, ← dir_low, h3, sameCase_iff,
      sameCase_iff, low_append]
    rfl

/-- That a generator and a target never have a file in common is false, also if their names differ: a generator
with the name of a toolchain has the directories of all its targets in its own. -/
theorem C122_names_false (env g n t : Str) (pg : PlainName g) (pn : PlainName n) :
    targetBuildDir env g n ++ b!"/" ++ t = genBuildDir env g ++ b!"/" ++ (n ++ b!"/" ++ t) := by
  rw [gen_dir env g pg, target_dir env g n pg pn]
  simp

/-! ## Instances -/

example : PlainName b!"codegen" ∧ PlainName b!"gcc" ∧ PlainName b!"app" ∧ PlainName (b!"app" ++ b!".exe") ∧
    dotdot ∉ splitSlash b!"out/a.h" ∧
    toPathString (genStateFile b!"/b" b!"codegen") = b!"/b/codegen/codegen.json" := by decide

example : SameFile (genStateFile b!"/b" b!"Gen") (genStateFile b!"/b" b!"gen") ∧
    toPathString (genBuildDir b!"/b" b!"gcc" ++ b!"/" ++ b!"app/app.bin") =
      toPathString (targetStateFile b!"/b" b!"gcc" b!"app") := by decide

end Verif.Path
