import Verif.Target.Sound

/-!
# Changes of files that a build does not read

A build does not notice when a file that is not among its declared inputs changes, and a
build that has only been started has not looked at any file.
-/

namespace Verif.Target
open Verif Verif.Command Verif.Schema Verif.Json

/-- Every file a build looks at. -/
def inputPaths (c : TargetSchema) : List Str :=
  paths c.sources ++ paths c.headers ++ paths c.pchs ++ paths c.libs ++ paths c.compileDeps
    ++ paths c.linkDeps

/-- The same system with other files. -/
def Sys.withFiles (σ : Sys) (f : Str → Option Nat) (u : Str → List Nat) (b : Bool)
    (s : Str → List (Option Nat)) (v : Str → Option Nat) : Sys :=
  { σ with files := f, used := u, fresh := b, seen := s, view := v }

theorem hashAll_congr {f g : Str → Option Nat} {l : List PathInfo}
    (h : ∀ p ∈ paths l, f p = g p) : hashAll f l = hashAll g l := by
  induction l with
  | nil => rfl
  | cons i l ih =>
    have h1 := h i.path (by simp)
    have h2 := ih fun p hp => h p (by simp [hp])
    simp only [hashAll, fileHash, h1, h2]

theorem reads_files {f g : Str → Option Nat} {l : List PathInfo}
    (h : ∀ p ∈ paths l, f p = g p) : reads f l = reads g l := by
  simp only [reads]
  refine List.map_congr_left fun i hi => ?_
  rw [fileHash, fileHash, h i.path (mem_paths.2 ⟨i, hi, rfl⟩)]

/-- The user data of a run mentions the same files as its configuration. -/
structure SamePaths (a b : TargetSchema) : Prop where
  sources : paths a.sources = paths b.sources
  headers : paths a.headers = paths b.headers
  pchs : paths a.pchs = paths b.pchs
  libs : paths a.libs = paths b.libs
  deps : paths a.compileDeps = paths b.compileDeps
  linkDeps : paths a.linkDeps = paths b.linkDeps

theorem SamePaths.refl (a : TargetSchema) : SamePaths a a := by constructor <;> rfl

/-- Every active run mentions the files of its configuration, and selected sources are
sources. -/
def RunPaths (σ : Sys) : Prop :=
  ∀ r, σ.run = some r → SamePaths r.user r.cfg ∧ ∀ i ∈ r.pending, i.path ∈ paths r.cfg.sources

theorem recompile_sub : ∀ (l prev : List PathInfo) (i : PathInfo),
    i ∈ (recompile prev l).selected → i ∈ l := by
  intro l
  induction l with
  | nil => intro prev i h; simp [recompile] at h
  | cons j l ih =>
    intro prev i h
    simp only [recompile] at h
    split at h
    · simp only [List.mem_cons] at h
      rcases h with rfl | h
      · simp
      · simp [ih _ _ h]
    · split at h
      · simp only [List.mem_cons] at h
        rcases h with rfl | h
        · simp
        · simp [ih _ _ h]
      · simp [ih _ _ h]

theorem runPaths_step {fx : Fixed} {σ : Sys} (h : RunPaths σ) (e : Event) : RunPaths (step fx σ e) := by
  have keep : ∀ {σ' : Sys} {r r' : Run}, σ.run = some r → σ'.run = some r' → SamePaths r'.user r.user →
      r'.cfg = r.cfg → (∀ i ∈ r'.pending, i ∈ r.pending) → RunPaths σ' := by
    intro σ' r r' hr hr' h1 h2 h3 x hx
    rw [hr'] at hx
    simp only [Option.some.injEq] at hx
    subst hx
    obtain ⟨h4, h5⟩ := h r hr
    rw [h2]
    refine ⟨⟨h1.1.trans h4.1, h1.2.trans h4.2, h1.3.trans h4.3, h1.4.trans h4.4, h1.5.trans h4.5,
      h1.6.trans h4.6⟩, fun i hi => h5 i (h3 i hi)⟩
  have gone : ∀ {σ' : Sys}, σ'.run = none → RunPaths σ' := by
    intro σ' h1 r hr; rw [h1] at hr; simp at hr
  cases e with
  | edit p t => exact fun r hr => h r hr
  | delete p => exact fun r hr => h r hr
  | tamperObj p a => exact fun r hr => h r hr
  | tamperPch a => exact fun r hr => h r hr
  | tamperBin a => exact fun r hr => h r hr
  | dropState =>
    simp only [step]
    split
    · exact fun r hr => h r hr
    · exact h
  | otherFail =>
    simp only [step]
    split
    · exact fun r hr => h r hr
    · exact h
  | look p v =>
    simp only [step, lookAt]
    split
    · exact fun r hr => h r hr
    · exact h
  | start c o =>
    simp only [step, startRun]
    split
    · exact h
    · split
      · intro r hr
        simp only [Option.some.injEq] at hr
        subst hr
        exact ⟨.refl _, by simp⟩
      · exact h
  | pchTask =>
    simp only [step, inPhase]
    split
    · rename_i r hr
      split
      · simp only [pchTask]
        repeat' split
        all_goals refine keep hr rfl ?_ rfl (fun _ h => h)
        all_goals first
          | exact .refl _
          | exact ⟨rfl, hashAll_paths _ _, rfl, rfl, rfl, rfl⟩
          | exact ⟨rfl, hashAll_paths _ _, hashAll_paths _ _, rfl, rfl, rfl⟩
      · exact h
    · exact h
  | pchExec ok junk =>
    simp only [step, inPhase]
    split
    · rename_i r hr
      split
      · simp only [pchExec]
        split <;> exact keep hr rfl (.refl _) rfl (fun _ h => h)
      · exact h
    · exact h
  | objTask =>
    simp only [step, inPhase]
    split
    · rename_i r hr
      obtain ⟨h4, h5⟩ := h r hr
      split
      · simp only [objTask]
        repeat' split
        · exact keep hr rfl (.refl _) rfl (fun _ h => h)
        · exact keep hr rfl ⟨hashAll_paths _ _, rfl, rfl, rfl, rfl, rfl⟩ rfl (fun _ h => h)
        · exact keep hr rfl ⟨hashAll_paths _ _, hashAll_paths _ _, rfl, rfl, rfl, rfl⟩ rfl
            (fun _ h => h)
        · exact keep hr rfl ⟨hashAll_paths _ _, hashAll_paths _ _, rfl, rfl, hashAll_paths _ _, rfl⟩
            rfl (fun _ h => h)
        · intro r' hr'
          simp only [Option.some.injEq] at hr'
          subst hr'
          refine ⟨⟨?_, ?_, ?_, ?_, ?_, ?_⟩, ?_⟩
          · exact (hashAll_paths _ _).trans h4.1
          · exact (hashAll_paths _ _).trans h4.2
          · exact h4.3
          · exact h4.4
          · exact (hashAll_paths _ _).trans h4.5
          · exact h4.6
          · intro i hi
            have : i.path ∈ paths (hashAll σ.files r.user.sources).1 := mem_paths.2 ⟨i, hi, rfl⟩
            rw [hashAll_paths, h4.1] at this
            exact this
        · intro r' hr'
          simp only [Option.some.injEq] at hr'
          subst hr'
          refine ⟨⟨?_, ?_, ?_, ?_, ?_, ?_⟩, ?_⟩
          · exact (hashAll_paths _ _).trans h4.1
          · exact (hashAll_paths _ _).trans h4.2
          · exact h4.3
          · exact h4.4
          · exact (hashAll_paths _ _).trans h4.5
          · exact h4.6
          · intro i hi
            have : i.path ∈ paths (hashAll σ.files r.user.sources).1 :=
              mem_paths.2 ⟨i, recompile_sub _ _ _ hi, rfl⟩
            rw [hashAll_paths, h4.1] at this
            exact this
      · exact h
    · exact h
  | exec k ok junk =>
    simp only [step, inPhase]
    split
    · rename_i r hr
      split
      · simp only [execObj]
        split
        · exact h
        · split <;> exact keep hr rfl (.refl _) rfl (fun _ h => List.mem_of_mem_eraseIdx h)
      · exact h
    · exact h
  | add k =>
    simp only [step, inPhase]
    split
    · rename_i r hr
      split
      · simp only [addObj]
        split
        · exact h
        · exact keep hr rfl (.refl _) rfl (fun _ h => h)
      · exact h
    · exact h
  | linkTask =>
    simp only [step]
    split
    · rename_i r hr
      split
      · simp only [linkTask]
        repeat' split
        all_goals refine keep hr rfl ?_ rfl (fun _ h => h)
        all_goals first
          | exact .refl _
          | exact ⟨rfl, rfl, rfl, hashAll_paths _ _, rfl, rfl⟩
          | exact ⟨rfl, rfl, rfl, hashAll_paths _ _, rfl, hashAll_paths _ _⟩
      · exact h
    · exact h
  | linkExec ok junk =>
    simp only [step, inPhase]
    split
    · rename_i r hr
      split
      · simp only [linkExec]
        split <;> exact keep hr rfl (.refl _) rfl (fun _ h => h)
      · exact h
    · exact h
  | finish b =>
    simp only [step, inPhase]
    split
    · split
      · simp only [finishRun]
        repeat' split
        all_goals exact gone rfl
      · exact h
    · exact h
  | crash w =>
    simp only [step]
    split
    · simp only [crashRun]
      repeat' split
      all_goals exact gone rfl
    · exact h

theorem pchTask_seen (σ : Sys) (r : Run) :
    (pchTask σ r).seen = σ.seen ∧ (pchTask σ r).view = σ.view := by
  simp only [pchTask]
  repeat' split
  all_goals exact ⟨rfl, rfl⟩

theorem objTask_seen (σ : Sys) (r : Run) :
    (objTask σ r).seen = σ.seen ∧ (objTask σ r).view = σ.view := by
  simp only [objTask]
  repeat' split
  all_goals exact ⟨rfl, rfl⟩

theorem linkTask_seen (σ : Sys) (r : Run) :
    (linkTask σ r).seen = σ.seen ∧ (linkTask σ r).view = σ.view := by
  simp only [linkTask]
  repeat' split
  all_goals exact ⟨rfl, rfl⟩

/-- A failure elsewhere looks at no file. -/
theorem otherFail_withFiles {fx : Fixed} {σ : Sys} {f : Str → Option Nat} {u : Str → List Nat} {b : Bool}
    {s : Str → List (Option Nat)} {v : Str → Option Nat} :
    step fx (σ.withFiles f u b s v) .otherFail = (step fx σ .otherFail).withFiles f u b s v := by
  obtain ⟨fs, us, sn, vw, ob, pc, bi, sf, rn, okk, lg, dn, sv, fr, ls⟩ := σ
  cases rn <;> rfl

/-- A build does not notice changes of files that are not among its inputs: here for any set `P` of
files with the inputs in it. -/
theorem step_withFiles_on {fx : Fixed} {σ : Sys} {f : Str → Option Nat} {u : Str → List Nat} {b : Bool}
    {s : Str → List (Option Nat)} {v : Str → Option Nat} {P : Str → Prop}
    {e : Event} (h1 : e.outside = false) (h2 : e.isStart = false) (hp : RunPaths σ)
    (hI : ∀ r, σ.run = some r → ∀ p ∈ inputPaths r.cfg, P p)
    (hf : ∀ p, P p → f p = σ.files p ∧ s p = σ.seen p ∧ v p = σ.view p) :
    ∃ s' v', step fx (σ.withFiles f u b s v) e = (step fx σ e).withFiles f u b s' v' ∧
      ∀ p, P p → s' p = (step fx σ e).seen p ∧ v' p = (step fx σ e).view p := by
  have hlook : ∀ q w, e = .look q w →
      ∃ s' v', step fx (σ.withFiles f u b s v) e = (step fx σ e).withFiles f u b s' v' ∧
        ∀ p, P p → s' p = (step fx σ e).seen p ∧ v' p = (step fx σ e).view p := by
    intro q w he
    subst he
    simp only [step, lookAt, Sys.withFiles]
    by_cases ha : w ∈ s q <;> by_cases hb : w ∈ σ.seen q <;> simp only [ha, hb, if_true, if_false]
    · refine ⟨s, upd v q w, rfl, fun p hp => ⟨(hf p hp).2.1, ?_⟩⟩
      simp only [upd]
      split
      · rfl
      · exact (hf p hp).2.2
    · refine ⟨s, upd v q w, rfl, fun p hp => ⟨(hf p hp).2.1, ?_⟩⟩
      simp only [upd]
      split
      · rename_i e
        subst e
        rw [(hf p hp).2.1] at ha
        exact absurd ha hb
      · exact (hf p hp).2.2
    · refine ⟨s, v, rfl, fun p hp => ⟨(hf p hp).2.1, ?_⟩⟩
      simp only [upd]
      split
      · rename_i e
        subst e
        rw [(hf p hp).2.1] at ha
        exact absurd hb ha
      · exact (hf p hp).2.2
    · exact ⟨s, v, rfl, fun p hp => (hf p hp).2⟩
  cases hr : σ.run with
  | none =>
    cases e <;> simp only [Event.outside, Event.isStart, Bool.true_eq_false] at h1 h2
    case look q w => exact hlook q w rfl
    all_goals
      refine ⟨s, v, by simp [step, inPhase, hr, Sys.withFiles], ?_⟩
      have : ∀ e', e'.outside = false → e'.isStart = false → (∀ q w, e' ≠ .look q w) → step fx σ e' = σ := by
        intro e' k1 k2 k3
        cases e' <;> simp only [Event.outside, Event.isStart, Bool.true_eq_false] at k1 k2
        case look q w => exact absurd rfl (k3 q w)
        all_goals simp [step, inPhase, hr]
      rw [this _ rfl rfl (by simp)]
      exact fun p hp => (hf p hp).2
  | some r =>
    obtain ⟨h4, h5⟩ := hp r hr
    have hIn := hI r hr
    obtain ⟨fs, us, sn, vw, ob, pc, bi, sf, rn, okk, lg, dn, sv, fr, ls⟩ := σ
    simp only at hr hf
    subst hr
    have hs : ∀ p, P p → s p = sn p ∧ v p = vw p := fun p hp => (hf p hp).2
    have hset : ∀ p, P p → [f p] = [fs p] ∧ f p = fs p := fun p hp => by
      rw [(hf p hp).1]; exact ⟨rfl, rfl⟩
    have hS : ∀ p ∈ paths r.cfg.sources, f p = fs p ∧ v p = vw p := fun p hp =>
      have k := hf p (hIn p (by simp [inputPaths, hp])); ⟨k.1, k.2.2⟩
    have hH : ∀ p ∈ paths r.cfg.headers, f p = fs p ∧ v p = vw p := fun p hp =>
      have k := hf p (hIn p (by simp [inputPaths, hp])); ⟨k.1, k.2.2⟩
    have hP : ∀ p ∈ paths r.cfg.pchs, f p = fs p ∧ v p = vw p := fun p hp =>
      have k := hf p (hIn p (by simp [inputPaths, hp])); ⟨k.1, k.2.2⟩
    have hL : ∀ p ∈ paths r.cfg.libs, f p = fs p ∧ v p = vw p := fun p hp =>
      have k := hf p (hIn p (by simp [inputPaths, hp])); ⟨k.1, k.2.2⟩
    have hC : ∀ p ∈ paths r.cfg.compileDeps, f p = fs p ∧ v p = vw p := fun p hp =>
      have k := hf p (hIn p (by simp [inputPaths, hp])); ⟨k.1, k.2.2⟩
    have hD : ∀ p ∈ paths r.cfg.linkDeps, f p = fs p ∧ v p = vw p := fun p hp =>
      have k := hf p (hIn p (by simp [inputPaths, hp])); ⟨k.1, k.2.2⟩
    cases e <;> simp only [Event.outside, Event.isStart, Bool.true_eq_false] at h1 h2
    case look q w => exact hlook q w rfl
    case otherFail => exact ⟨s, v, otherFail_withFiles, hs⟩
    case add k =>
      simp only [step, inPhase, Sys.withFiles]
      split
      · simp only [addObj]; split <;> exact ⟨s, v, rfl, hs⟩
      · exact ⟨s, v, rfl, hs⟩
    case finish b' =>
      simp only [step, inPhase, Sys.withFiles]
      split
      · simp only [finishRun]
        split
        · split <;> exact ⟨s, v, rfl, hs⟩
        · exact ⟨s, v, rfl, hs⟩
      · exact ⟨s, v, rfl, hs⟩
    case crash w =>
      simp only [step, Sys.withFiles, crashRun]
      cases w with
      | none => exact ⟨s, v, rfl, hs⟩
      | some n =>
        simp only
        split
        · split <;> exact ⟨s, v, rfl, hs⟩
        · exact ⟨s, v, rfl, hs⟩
    case pchTask =>
      have e1 := hashAll_congr (l := r.user.headers) (h4.headers ▸ fun p hp => (hH p hp).1)
      have e2 := hashAll_congr (l := r.user.pchs) (h4.pchs ▸ fun p hp => (hP p hp).1)
      by_cases hph : r.phase = .pch
      · refine ⟨fun p => [f p], f, ?_, ?_⟩
        · simp only [step, inPhase, Sys.withFiles, Sys.settle, hph, if_true]
          simp only [pchTask, e1, e2, Sys.fail]
          repeat' split
          all_goals rfl
        · simp only [step, inPhase, hph, if_true, (pchTask_seen _ r).1, (pchTask_seen _ r).2]
          exact hset
      · refine ⟨s, v, ?_, ?_⟩ <;> simp only [step, inPhase, Sys.withFiles, hph, if_false]
        exact hs
    case pchExec ok junk =>
      have e1 := reads_files (l := r.cfg.headers) fun p hp => (hH p hp).2
      have e2 := reads_files (l := r.cfg.pchs) fun p hp => (hP p hp).2
      simp only [step, inPhase, Sys.withFiles]
      split
      · simp only [pchExec, makePch, e1, e2, Sys.fail]
        split <;> exact ⟨s, v, rfl, hs⟩
      · exact ⟨s, v, rfl, hs⟩
    case objTask =>
      have e1 := hashAll_congr (l := r.user.sources) (h4.sources ▸ fun p hp => (hS p hp).1)
      have e2 := hashAll_congr (l := r.user.headers) (h4.headers ▸ fun p hp => (hH p hp).1)
      have e3 := hashAll_congr (l := r.user.compileDeps) (h4.deps ▸ fun p hp => (hC p hp).1)
      by_cases hph : r.phase = .obj
      · refine ⟨fun p => [f p], f, ?_, ?_⟩
        · simp only [step, inPhase, Sys.withFiles, Sys.settle, hph, if_true]
          simp only [objTask, e1, e2, e3, Sys.fail]
          repeat' split
          all_goals rfl
        · simp only [step, inPhase, hph, if_true, (objTask_seen _ r).1, (objTask_seen _ r).2]
          exact hset
      · refine ⟨s, v, ?_, ?_⟩ <;> simp only [step, inPhase, Sys.withFiles, hph, if_false]
        exact hs
    case exec k ok junk =>
      have e1 := reads_files (l := r.cfg.headers) fun p hp => (hH p hp).2
      have e2 := reads_files (l := r.cfg.compileDeps) fun p hp => (hC p hp).2
      simp only [step, inPhase, Sys.withFiles]
      split
      · simp only [execObj]
        cases hk : r.pending[k]? with
        | none => exact ⟨s, v, rfl, hs⟩
        | some i =>
          have e3 : fileHash v i.path = fileHash vw i.path := by
            rw [fileHash, fileHash, (hS _ (h5 i (List.mem_of_getElem? hk))).2]
          simp only [makeObj, e1, e2, e3, Sys.fail]
          split <;> exact ⟨s, v, rfl, hs⟩
      · exact ⟨s, v, rfl, hs⟩
    case linkTask =>
      have e1 := hashAll_congr (l := r.user.libs) (h4.libs ▸ fun p hp => (hL p hp).1)
      have e2 := hashAll_congr (l := r.user.linkDeps) (h4.linkDeps ▸ fun p hp => (hD p hp).1)
      by_cases hph : r.phase = .link ∨ (r.phase = .objRun ∧ r.pending = [] ∧ r.executed = [])
      · refine ⟨fun p => [f p], f, ?_, ?_⟩
        · simp only [step, Sys.withFiles, Sys.settle, if_pos hph]
          simp only [linkTask, e1, e2, Sys.fail]
          repeat' split
          all_goals rfl
        · simp only [step, if_pos hph, (linkTask_seen _ r).1, (linkTask_seen _ r).2]
          exact hset
      · refine ⟨s, v, ?_, ?_⟩ <;> simp only [step, Sys.withFiles, if_neg hph]
        exact hs
    case linkExec ok junk =>
      have e1 := reads_files (l := r.cfg.libs) fun p hp => (hL p hp).2
      have e2 := reads_files (l := r.cfg.linkDeps) fun p hp => (hD p hp).2
      simp only [step, inPhase, Sys.withFiles]
      split
      · simp only [linkExec, makeBin, e1, e2, Sys.fail]
        split <;> exact ⟨s, v, rfl, hs⟩
      · exact ⟨s, v, rfl, hs⟩

/-- A build does not notice changes of files that are not among its inputs. -/
theorem step_withFiles {fx : Fixed} {σ : Sys} {f : Str → Option Nat} {u : Str → List Nat} {b : Bool}
    {s : Str → List (Option Nat)} {v : Str → Option Nat} {I : List Str}
    {e : Event} (h1 : e.outside = false) (h2 : e.isStart = false) (hp : RunPaths σ)
    (hI : ∀ r, σ.run = some r → inputPaths r.cfg = I)
    (hf : ∀ p ∈ I, f p = σ.files p ∧ s p = σ.seen p ∧ v p = σ.view p) :
    ∃ s' v', step fx (σ.withFiles f u b s v) e = (step fx σ e).withFiles f u b s' v' ∧
      ∀ p ∈ I, s' p = (step fx σ e).seen p ∧ v' p = (step fx σ e).view p :=
  step_withFiles_on (P := (· ∈ I)) h1 h2 hp (fun r hr p hp => hI r hr ▸ hp) hf

/-- Starting a build looks at no input file. -/
theorem start_withFiles {fx : Fixed} {σ : Sys} {f : Str → Option Nat} {u : Str → List Nat} {b : Bool}
    {s : Str → List (Option Nat)} {v : Str → Option Nat}
    {c : TargetSchema} {o : List Str} (h : (step fx σ (.start c o)).run.isSome = true)
    (hi : σ.run = none) :
    step fx (σ.withFiles f u b s v) (.start c o) = (step fx σ (.start c o)).withFiles f u true s v := by
  revert h
  simp only [step, startRun, hi, Sys.withFiles]
  split
  · intro _; rfl
  · intro h; simp [hi] at h

end Verif.Target
