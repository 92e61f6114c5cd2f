import Verif.Reg.AgreeSpec

/-! # Builds under different schedules: what has to be done -/

namespace Verif.Reg
open Verif Verif.Schema Verif.Json
open Verif.Target (Fixed BinArt objPath outputPath upd paths)

/-- The command has to be executed when the files are like this. -/
def Needs (f : Str → Option Nat) : Comp → Setup → Cmd → Prop
  | .target _ κ, .target c _, .pch => Target.NeedPch f (loadTargetFile κ.stateFile) c
  | .target _ κ, .target c _, .obj p => Target.NeedObj f (loadTargetFile κ.stateFile) c p
  | .target _ κ, .target c _, .link => Target.NeedLink f (loadTargetFile κ.stateFile) c
  | .gen κ, .gen c, .call id => Generator.Need f (loadGenFile κ.stateFile) c id
  | _, _, _ => False

theorem Quietly.needs {κ c : Comp} {s : Setup} {b : Bool} (h : Quietly κ s b c) (hs : Regular s)
    {x : Cmd} {ok : Bool} (hd : Carried c x ok) : Needs c.files κ s x := by
  cases h with
  | @target fx κ σ c o b h =>
    obtain ⟨σ₁, mid, s', v', k1, k2, k3⟩ := h.quietRun
    obtain ⟨h1, -, h3, h4⟩ := Target.C04_C05_only_needed hs k3
    rw [k1.state, k2] at h1 h3 h4
    cases x with
    | pch => exact h1 ok hd
    | obj p => exact h3 p (List.mem_filterMap.2 ⟨.obj p ok, hd, rfl⟩)
    | link => exact (h4 ok hd).1
    | call id => exact hd.elim
  | @gen κ σ c b h =>
    obtain ⟨σ₁, mid, s', v', g1, g2, g3⟩ := h.quietRun
    have h2 := (Generator.C28_only_needed g3).2
    rw [g1.state, g2] at h2
    cases x with
    | call id => exact h2 id (Generator.mem_calledIds.2 ⟨ok, hd⟩)
    | pch => exact hd.elim
    | obj p => exact hd.elim
    | link => exact hd.elim

theorem Quietly.does {κ c : Comp} {s : Setup} {b : Bool} (h : Quietly κ s b c) (hs : Regular s)
    (hr : c.running = false) (hok : c.ok = true) {x : Cmd} (hn : Needs c.files κ s x) : Carried c x true := by
  cases h with
  | @target fx κ σ c o b h =>
    simp only [Comp.running, Option.isSome_eq_false_iff, Option.isNone_iff_eq_none] at hr
    obtain ⟨σ₁, mid, s, v, g1, g2, g4, g5, g6, g8, g7⟩ := id h
    have g5' := fun e he => Target.Event.own_quiet (g5 e he)
    have hq : Target.QuietRun fx σ₁ c o mid (σ.withFiles σ.files σ.used true s v) := ⟨g1, g4, g5', g7⟩
    have hd := Target.own_done (fx := fx) mid _ g5 (fun h => by rw [h] at g4; simp at g4)
      (by rw [g7]; exact hr)
    rw [g7] at hd
    obtain ⟨d, hd⟩ := Option.isSome_iff_exists.1 hd
    have hdok : d.ok = true := (hq.inv.log.done d hd).trans hok
    have hf : σ₁.files = σ.files := ((hq.report hs hd).files).symm
    obtain ⟨-, a, b, l, e1, e2, -, -, e4, e5, -⟩ := Target.C04_C05_exactly_needed hs hq hd hdok
    rw [g2.state, hf] at e2 e4 e5
    have hm : ∀ {y}, y ∈ Target.commands (σ.withFiles σ.files σ.used true s v).log → y ∈ σ.log :=
      fun hy => (List.mem_filter.1 hy).1
    rw [e1] at hm
    cases x with
    | pch => exact hm (by rw [e2 hn]; simp)
    | obj p =>
      refine hm (List.mem_append_left _ (List.mem_append_right _ ?_))
      exact List.mem_map.2 ⟨p, (e4 p).2 hn, rfl⟩
    | link => exact hm (by rw [e5 hn]; simp)
    | call id => exact hn.elim
  | @gen κ σ c b h =>
    simp only [Comp.running, Option.isSome_eq_false_iff, Option.isNone_iff_eq_none] at hr
    obtain ⟨σ₁, mid, s, v, g1, g2, g3⟩ := h.quietRun
    obtain ⟨d, hd⟩ := g3.has_done hr
    have R := g3.report hd
    have hdok : d.ok = true := R.ok.trans hok
    have h2 := (Generator.C28_exactly_needed g3 hd hdok).2
    rw [g1.state, g2] at h2
    cases x with
    | call id =>
      obtain ⟨b', hb'⟩ := Generator.mem_calledIds.1 ((h2 id).2 hn)
      have := R.okIff.1 hok _ hb'
      simp only [Generator.Entry.failed, Bool.not_eq_false'] at this
      rw [this] at hb'
      exact hb'
    | pch => exact hn.elim
    | obj p => exact hn.elim
    | link => exact hn.elim

/-! ## States of the files that agree -/

theorem Alike.symm {u : Str → List Nat} {f f' : Str → Option Nat} {p : Str} (h : Alike u f f' p) :
    Alike u f' f p := by
  rcases h with h | ⟨h1, h2⟩
  · exact .inl h.symm
  · exact .inr ⟨h2, h1⟩

theorem Alike.of_known {u : Str → List Nat} {f f' : Str → Option Nat} {p : Str} (h : Alike u f f' p) {t : Nat}
    (hf : f p = some t) (ht : t ∈ u p) : f' p = some t := by
  rcases h with h | ⟨⟨t', h1, h2⟩, -⟩
  · rw [← h]; exact hf
  · rw [hf] at h1
    simp only [Option.some.injEq] at h1
    subst h1
    exact absurd ht h2

theorem dated_version {u : Str → List Nat} {f f' : Str → Option Nat} {i : PathInfo} (hd : Dated u i)
    (ha : Alike u f f' i.path) (h : (f i.path).map digits = some i.hash) :
    (f' i.path).map digits = some i.hash := by
  obtain ⟨t, ht, hh⟩ := Option.map_eq_some_iff.1 h
  rw [ha.of_known ht (hd t hh.symm), Option.map_some, hh]

theorem recorded_alike {u : Str → List Nat} {f f' : Str → Option Nat} : ∀ {l m : List PathInfo},
    (∀ i ∈ l, Dated u i) → (∀ p ∈ paths m, Alike u f f' p) →
    Target.recorded l = Target.versions f m → Target.recorded l = Target.versions f' m
  | [], [], _, _, _ => rfl
  | [], _ :: _, _, _, h => by simp [Target.recorded, Target.versions] at h
  | _ :: _, [], _, _, h => by simp [Target.recorded, Target.versions] at h
  | i :: l, k :: m, hd, ha, h => by
    simp only [Target.recorded, Target.versions, List.map_cons, List.cons.injEq, Prod.mk.injEq] at h ⊢
    obtain ⟨⟨h1, h2⟩, h3⟩ := h
    refine ⟨⟨h1, ?_⟩, recorded_alike (fun i hi => hd i (by simp [hi]))
      (fun p hp => ha p (by simp only [paths, List.map_cons, List.mem_cons]; exact .inr hp)) h3⟩
    have ha' := ha k.path (by simp [paths])
    simp only [Target.version] at h2 ⊢
    rw [← h1] at h2 ha' ⊢
    exact (dated_version (hd i (by simp)) ha' h2.symm).symm

theorem recorded_alike_gen {u : Str → List Nat} {f f' : Str → Option Nat} : ∀ {l : List PathInfo} {m : List Str},
    (∀ i ∈ l, Dated u i) → (∀ p ∈ m, Alike u f f' p) →
    Generator.recorded l = Generator.versions f m → Generator.recorded l = Generator.versions f' m
  | [], [], _, _, _ => rfl
  | [], _ :: _, _, _, h => by simp [Generator.recorded, Generator.versions] at h
  | _ :: _, [], _, _, h => by simp [Generator.recorded, Generator.versions] at h
  | i :: l, k :: m, hd, ha, h => by
    simp only [Generator.recorded, Generator.versions, List.map_cons, List.cons.injEq, Prod.mk.injEq] at h ⊢
    obtain ⟨⟨h1, h2⟩, h3⟩ := h
    refine ⟨⟨h1, ?_⟩, recorded_alike_gen (fun i hi => hd i (by simp [hi]))
      (fun p hp => ha p (by simp [hp])) h3⟩
    have ha' := ha k (by simp)
    simp only [Target.fileHash] at h2 ⊢
    rw [← h1] at h2 ha' ⊢
    exact (dated_version (hd i (by simp)) ha' h2.symm).symm

theorem pchCurrent_alike {u : Str → List Nat} {f f' : Str → Option Nat} {s c : TargetSchema}
    (hd : DatedTarget u s) (ha : ∀ p ∈ Target.tracked c, Alike u f f' p) (h : Target.PchCurrent f s c) :
    Target.PchCurrent f' s c where
  preprocessor := h.preprocessor
  common := h.common
  pchFlags := h.pchFlags
  cFlags := h.cFlags
  cppFlags := h.cppFlags
  includes := h.includes
  headers := recorded_alike hd.headers (fun p hp => ha p (by simp [Target.tracked, hp])) h.headers
  pchs := recorded_alike hd.pchs (fun p hp => ha p (by simp [Target.tracked, hp])) h.pchs
  compiled := h.compiled

theorem sharedCurrent_alike {u : Str → List Nat} {f f' : Str → Option Nat} {s c : TargetSchema}
    (hd : DatedTarget u s) (ha : ∀ p ∈ Target.tracked c, Alike u f f' p) (h : Target.SharedCurrent f s c) :
    Target.SharedCurrent f' s c where
  preprocessor := h.preprocessor
  common := h.common
  pchFlags := h.pchFlags
  asm := h.asm
  cFlags := h.cFlags
  cppFlags := h.cppFlags
  includes := h.includes
  headers := recorded_alike hd.headers (fun p hp => ha p (by simp [Target.tracked, hp])) h.headers
  deps := recorded_alike hd.compileDeps (fun p hp => ha p (by simp [Target.tracked, hp])) h.deps
  pch := fun hp => pchCurrent_alike hd ha (h.pch hp)

theorem sourceCurrent_alike {u : Str → List Nat} {f f' : Str → Option Nat} {s : TargetSchema} {p : Str}
    (hd : DatedTarget u s) (ha : Alike u f f' p) (h : Target.SourceCurrent f s p) :
    Target.SourceCurrent f' s p := by
  obtain ⟨i, hi, hv⟩ := h
  have hp : i.path = p := by simpa using List.find?_some hi
  refine ⟨i, hi, ?_⟩
  rw [← hp] at ha hv ⊢
  exact dated_version (hd.sources i (List.mem_of_find?_eq_some hi)) ha hv

theorem allCurrent_alike {u : Str → List Nat} {f f' : Str → Option Nat} {s c : TargetSchema}
    (hd : DatedTarget u s) (ha : ∀ p ∈ Target.tracked c, Alike u f f' p) (h : Target.AllCurrent f s c) :
    Target.AllCurrent f' s c where
  shared := sharedCurrent_alike hd ha h.shared
  sources := fun p hp => sourceCurrent_alike hd (ha p (by simp [Target.tracked, hp])) (h.sources p hp)
  noOther := h.noOther
  link :=
    { flags := h.link.flags, libDirs := h.link.libDirs, external := h.link.external
      libs := recorded_alike hd.libs (fun p hp => ha p (by simp [Target.tracked, hp])) h.link.libs
      deps := recorded_alike hd.linkDeps (fun p hp => ha p (by simp [Target.tracked, hp])) h.link.deps
      linked := h.link.linked }

/-- What has to be done is the same in states of the files that agree about the inputs. -/
theorem Needs.alike {u : Str → List Nat} {f f' : Str → Option Nat} {κ : Comp} {s : Setup} {x : Cmd}
    (hd : DatedState u κ) (ha : ∀ p ∈ s.inputs, Alike u f f' p) (h : Needs f κ s x) : Needs f' κ s x := by
  cases κ with
  | target fx κ =>
    cases s with
    | gen c => cases x <;> exact h.elim
    | target c o =>
      have ha' : ∀ p ∈ Target.tracked c, Alike u f' f p := fun p hp => (ha p (mem_inputs.1 hp)).symm
      cases x with
      | pch => exact ⟨h.1, fun s hs hc => h.2 s hs (pchCurrent_alike (hd s hs) ha' hc)⟩
      | obj p =>
        refine ⟨h.1, fun s hs hc => h.2 s hs ⟨sharedCurrent_alike (hd s hs) ha' hc.1, ?_⟩⟩
        exact sourceCurrent_alike (hd s hs) (ha' p (by simp [Target.tracked, h.1])) hc.2
      | link => exact fun s hs hc => h s hs (allCurrent_alike (hd s hs) ha' hc)
      | call id => exact h.elim
  | gen κ =>
    cases s with
    | target c o => cases x <;> exact h.elim
    | gen c =>
      cases x with
      | call id =>
        obtain ⟨i, hi, hn⟩ := h
        refine ⟨i, hi, fun s hs hc => hn s hs ⟨?_, hc.outputs, hc.blob⟩⟩
        exact recorded_alike_gen (hd id s hs)
          (fun p hp => (ha p (Generator.inputs_mem hi hp)).symm) hc.inputs
      | pch => exact h.elim
      | obj p => exact h.elim
      | link => exact h.elim

end Verif.Reg
