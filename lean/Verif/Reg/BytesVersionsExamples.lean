import Verif.Reg.BytesVersionsProps

/-! # Contents of files after builds of an edited script: examples (C101) -/

namespace Verif.Reg
open Verif Verif.Schema
open Verif.Target (paths text)
open Verif.Path (PlainName)

variable {β : Type} {M : Makers β}

/-- A boolean form of `AllOfVersionsB`, but for the launches. -/
def quietVB (M : Makers β) : BWorld β → List (BWEvent β) → Bool
  | _, [] => true
  | b, e :: l => quiet b.world [e.erase] && resuming b.world [e.erase] && quietVB M (b.step M e) l

theorem allOfVersionsB_of {F : Versions} {kinds : Str → Kind} (evs : List (BWEvent β))
    (hl : ∀ g s, .launch g s ∈ evs → F g s) (hq : quietVB M (BWorld.init kinds) evs = true) :
    AllOfVersionsB M F (BWorld.init kinds) evs := by
  have gen : ∀ (evs : List (BWEvent β)) (b : BWorld β), BInv b.world →
      (∀ g s, .launch g s ∈ evs → F g s) → quietVB M b evs = true → AllOfVersionsB M F b evs := by
    intro evs
    induction evs with
    | nil => intros; exact trivial
    | cons e l ih =>
      intro b hb h hq
      simp only [quietVB, Bool.and_eq_true] at hq
      obtain ⟨⟨h1, h2⟩, h3⟩ := hq
      have hb' : BInv (b.step M e).world := by
        rcases world_step (M := M) b e with h4 | h4
        · rw [h4]; exact bInv_step hb _
        · rw [h4]; exact hb
      refine ⟨?_, ih _ hb' (fun g' s' hm => h g' s' (List.mem_cons_of_mem _ hm)) h3⟩
      simp only [quiet, Bool.and_true] at h1
      simp only [resuming, Bool.and_true] at h2
      cases e with
      | edit p t x =>
        simp only [BWEvent.erase, Bool.and_eq_true] at h1
        exact ⟨of_decide_eq_true h1.1, not_delicate hb h1.2⟩
      | delete p => exact not_delicate hb h1
      | launch g s =>
        intro ha
        refine ⟨h g s (by simp), fun j hj => resumes_of ?_⟩
        have : (b.world.active || g.ids.all fun j => resumes (b.world.comps j) (s j)) = true := h2
        rw [ha, Bool.false_or] at this
        exact List.all_eq_true.1 this j hj
      | _ => trivial
  exact gen evs _ (bInv_init kinds) hl hq

/-! ## The two versions of the project of C100 -/

/-- The length of all together. -/
def exLength (l : List (Option Str)) : Nat := (l.map fun x => (x.getD []).length).sum

/-- The tools of `exMakers`, but a program or library is as long as its objects and libraries together. -/
def exCounting : Makers Str where
  tools :=
    { pch := exMakers.tools.pch
      obj := exMakers.tools.obj
      bin := fun _ l libs _ _ => List.replicate (exLength l + exLength (libs.map (·.2))) 0 }
  callbacks := exMakers.callbacks

def exVBGen (t : Nat) : List (BWEvent Str) :=
  [.begin exCodegen.name, .task exCodegen.name .begin [] exNoJunk,
    .task exCodegen.name (.task b!"Generate") [] exNoJunk,
    .task exCodegen.name (.call b!"Generate" true) [(b!"/r/_b/codegen/v.cpp", some t)] exNoJunk,
    .task exCodegen.name (.finish [b!"Generate"] true) [] exNoJunk]

def exVBApp (t : Nat) : List (BWEvent Str) :=
  [.begin exMixedApp.id, .task exMixedApp.id (.t .objTask) [] exNoJunk,
    .task exMixedApp.id (.t (.exec 0 true none)) [] exNoJunk,
    .task exMixedApp.id (.t (.exec 0 true none)) [] exNoJunk,
    .task exMixedApp.id (.t (.add 0)) [] exNoJunk, .task exMixedApp.id (.t (.add 0)) [] exNoJunk,
    .task exMixedApp.id (.t .linkTask) [] exNoJunk,
    .task exMixedApp.id (.t (.linkExec true none)) [(exMixedApp.output, some t)] exNoJunk,
    .task exMixedApp.id (.t (.finish true)) [] exNoJunk]

def exVBFiles : List (BWEvent Str) :=
  [.edit b!"/r/v.in" 1 b!"v1 ", .edit b!"/r/gen.py" 1 b!"py ", .edit b!"/r/main.cpp" 1 b!"m1 ",
    .edit b!"/r/x.cpp" 1 b!"x1 "]

/-- The first version is built.  The second one is killed while the library is compiled, and built
again. -/
def exVBHistory : List (BWEvent Str) :=
  exVBFiles ++ [.launch exMixedScript.graph (setupWith [exMixedApp] [exCodegen])] ++ exVBGen 2 ++ exVBApp 3 ++
  [.join, .launch exMixedScript2.graph (setupWith [exMixedLib, exMixedApp2] [exCodegen2])] ++
  exVBGen 4 ++ [.begin exMixedLib.id, .task exMixedLib.id (.t .objTask) [] exNoJunk,
    .task exMixedLib.id (.t (.exec 0 true none)) [] exNoJunk, .kill (fun _ => []) (fun _ => none),
    .launch exMixedScript2.graph (setupWith [exMixedLib, exMixedApp2] [exCodegen2]),
    .begin exCodegen.name, .task exCodegen.name .begin [] exNoJunk,
    .task exCodegen.name (.task b!"Generate") [] exNoJunk,
    .task exCodegen.name (.finish [b!"Generate"] true) [] exNoJunk] ++
  exBTarget exMixedLib.id exMixedLib.output 5 ++ exVBApp 6

/-- Only the second version is built, once, and the files have other time stamps. -/
def exVBOnce : List (BWEvent Str) :=
  [.edit b!"/r/x.cpp" 9 b!"x1 ", .edit b!"/r/gen.py" 8 b!"py ", .edit b!"/r/main.cpp" 7 b!"m1 ",
    .edit b!"/r/v.in" 6 b!"v1 ",
    .launch exMixedScript2.graph (setupWith [exMixedLib, exMixedApp2] [exCodegen2])] ++ exVBGen 14 ++
  exBTarget exMixedLib.id exMixedLib.output 15 ++ exVBApp 16

theorem exVBHistory_versions : AllOfVersionsB exCounting (versionsOf exVersions) (BWorld.init exVKinds)
    exVBHistory := by
  refine allOfVersionsB_of _ ?_ (by decide +kernel)
  intro g s hm
  simp only [exVBHistory, exVBFiles, exVBGen, exVBApp, exBTarget, List.mem_append, List.mem_cons,
    List.not_mem_nil, reduceCtorEq, false_or, or_false, BWEvent.launch.injEq] at hm
  rcases hm with (⟨rfl, rfl⟩ | ⟨rfl, rfl⟩) | ⟨rfl, rfl⟩
  · exact ⟨exVersion1, .inl rfl, rfl, fun j _ => SameSetup.refl _⟩
  · exact ⟨exVersion2, .inr rfl, rfl, fun j _ => SameSetup.refl _⟩
  · exact ⟨exVersion2, .inr rfl, rfl, fun j _ => SameSetup.refl _⟩

theorem exVBOnce_versions : AllOfVersionsB exCounting (versionsOf exVersions) (BWorld.init exVKinds)
    exVBOnce := by
  refine allOfVersionsB_of _ ?_ (by decide +kernel)
  intro g s hm
  simp only [exVBOnce, exVBGen, exVBApp, exBTarget, List.mem_append, List.mem_cons,
    List.not_mem_nil, reduceCtorEq, false_or, or_false, BWEvent.launch.injEq] at hm
  obtain ⟨rfl, rfl⟩ := hm
  exact ⟨exVersion2, .inr rfl, rfl, fun j _ => SameSetup.refl _⟩

def exVBWorld : BWorld Str := (BWorld.init exVKinds).steps exCounting exVBHistory

def exVBOnceWorld : BWorld Str := (BWorld.init exVKinds).steps exCounting exVBOnce

theorem exVBWorld_ok : exVBWorld.world.active = true ∧ exVBWorld.world.calm = true ∧
    (exVBWorld.step exCounting .join).world.result = some true ∧
    exVBWorld.world.graph = exMixedScript2.graph := by decide +kernel

theorem exVBOnceWorld_ok : exVBOnceWorld.world.active = true ∧ exVBOnceWorld.world.calm = true ∧
    (exVBOnceWorld.step exCounting .join).world.result = some true ∧
    exVBOnceWorld.world.graph = exMixedScript2.graph := by decide +kernel

/-- The graph tells which version is built. -/
theorem exVersion2_is {g : Graph} {s : Str → Setup} (h : versionsOf exVersions g s)
    (hg : g = exMixedScript2.graph) : exVersion2.Is g s := by
  obtain ⟨v, rfl | rfl, h⟩ := h
  · exact absurd (hg.symm.trans h.1) (by decide +kernel)
  · exact h

/-- Every process runs one of the versions. -/
theorem versions_present {F : Versions} {kinds : Str → Kind} {b : BWorld β} {evs : List (BWEvent β)}
    {means : Str → Str → Generator.Blob → Generator.Blob → Prop} (hF : SoundVersions kinds means F)
    (hb : b = (BWorld.init kinds).steps M evs) (hal : AllOfVersionsB M F (BWorld.init kinds) evs)
    (ha : b.world.active = true) : F b.world.graph b.world.setup := by
  subst hb
  exact (bVersions_steps hF evs (versionsInv_init hF) (cInv_init (M := M) kinds) hal).1.plan ha

theorem exVBWorld_is : exVersion2.Is exVBWorld.world.graph exVBWorld.world.setup :=
  exVersion2_is (versions_present exVersions_plain.sound rfl exVBHistory_versions exVBWorld_ok.1)
    exVBWorld_ok.2.2.2

theorem exVBOnceWorld_is : exVersion2.Is exVBOnceWorld.world.graph exVBOnceWorld.world.setup :=
  exVersion2_is (versions_present exVersions_plain.sound rfl exVBOnce_versions exVBOnceWorld_ok.1)
    exVBOnceWorld_ok.2.2.2

theorem exVersion2_own : OwnVersion exVersions exVersion2 where
  once :=
    { targets := by
        have : ∀ t ∈ exVersion2.ts, (∀ q ∈ paths t.cfg.sources, Target.objPath t.made.fixed q ≠ t.output) ∧
          t.output ∉ pchFiles t.made.fixed := by decide +kernel
        exact this
      ids := by decide +kernel
      gens := by
        intro g hg g' hg' hne
        rw [List.mem_singleton.1 hg, List.mem_singleton.1 hg'] at hne
        exact absurd rfl hne }
  names := by
    have : ∀ v, exVersions v → ∀ t ∈ v.ts,
        (∀ q ∈ paths t.cfg.sources, Target.objPath t.made.fixed q ≠ t.output) ∧
          t.output ∉ pchFiles t.made.fixed := by
      rintro v (rfl | rfl) <;> decide +kernel
    exact fun v hv _ _ t ht _ => this v hv t ht
  targets := by rintro v (rfl | rfl) <;> decide +kernel
  gens := by
    intro v hv g hg x hx q hq
    obtain rfl : g = exCodegen2 := List.mem_singleton.1 hg
    have hx1 : ∀ x ∈ exCodegen2.cfg, x.1 = b!"Generate" := by decide +kernel
    have hout : q ∈ exCodegen2.outputs := List.mem_flatMap.2 ⟨x, hx, hq⟩
    rcases hv with rfl | rfl
    · refine ⟨(exMixed_plain.apart exCodegen (by simp) q ?_), ?_⟩
      · have : exCodegen.outputs = exCodegen2.outputs := by decide +kernel
        rw [this]; exact hout
      · intro g' hg' y hy _
        obtain rfl : g' = exCodegen := List.mem_singleton.1 hg'
        have : ∀ x ∈ exCodegen.cfg, x.1 = b!"Generate" := by decide +kernel
        exact ⟨rfl, (this y hy).trans (hx1 x hx).symm⟩
    · refine ⟨(exMixed2_plain.apart exCodegen2 (by simp) q hout), ?_⟩
      intro g' hg' y hy _
      obtain rfl : g' = exCodegen2 := List.mem_singleton.1 hg'
      exact ⟨rfl, (hx1 y hy).trans (hx1 x hx).symm⟩

theorem exVersion2_makes {q : Str} (h : exVersion2.Makes q) :
    q ∈ [exMixedLib.output, exMixedApp2.output, b!"/r/_b/codegen/v.cpp"] := by
  rcases h with ⟨t, ht, rfl⟩ | ⟨g, hg, hq⟩
  · simp only [exVersion2, List.mem_cons, List.not_mem_nil, or_false] at ht
    rcases ht with rfl | rfl <;> simp
  · obtain rfl : g = exCodegen2 := List.mem_singleton.1 hg
    have : exCodegen2.outputs = [b!"/r/_b/codegen/v.cpp"] := by decide +kernel
    rw [this, List.mem_singleton] at hq
    subst hq
    simp

/-- No event of the list edits or deletes one of the files. -/
def noHands (l : List Str) (evs : List (BWEvent β)) : Bool :=
  evs.all fun e =>
    match e with
    | .edit p _ _ => !decide (p ∈ l)
    | .delete p => !decide (p ∈ l)
    | _ => true

theorem noHands_spec {l : List Str} {evs : List (BWEvent β)} (h : noHands l evs = true) :
    ∀ e ∈ evs, ∀ q ∈ l, (∀ t x, e ≠ .edit q t x) ∧ e ≠ .delete q := by
  intro e he q hq
  have := List.all_eq_true.1 h e he
  constructor
  · rintro t x rfl
    simp [hq] at this
  · rintro rfl
    simp [hq] at this

theorem exVB_hands {evs : List (BWEvent Str)}
    (h : noHands [exMixedLib.output, exMixedApp2.output, b!"/r/_b/codegen/v.cpp"] evs = true) :
    ∀ e ∈ evs, ∀ q, exVersion2.Makes q → (∀ t x, e ≠ .edit q t x) ∧ e ≠ .delete q :=
  fun e he q hq => noHands_spec h e he q (exVersion2_makes hq)

/-- The hypotheses of `C101_project_partial` are met: the program is what a build from scratch of the
second version makes. -/
example : ∃ orders : Str → List Str, ∀ o, InOrder exMixedScript2.graph o →
    text (exVBWorld.step exCounting .join).files exMixedApp2.output =
      buildAll exCounting (kindsOf [exMixedLib, exMixedApp2])
        (setupWith [exMixedLib, exMixedApp2] [exCodegen2]) orders o
        (sourcesOnly (kindsOf [exMixedLib, exMixedApp2]) exMixedScript2.graph
          (setupWith [exMixedLib, exMixedApp2] [exCodegen2]) exVBWorld.files) exMixedApp2.output := by
  obtain ⟨ha, hc, hr, -⟩ := exVBWorld_ok
  obtain ⟨orders, -, h⟩ := C101_project_partial (b := exVBWorld) exVersions_plain rfl exVBHistory_versions
    ha hc hr (.inr rfl) exVBWorld_is exVersion2_own (exVB_hands (by decide +kernel))
  exact ⟨orders, fun o ho => h o ho _ (.inl ⟨exMixedApp2, by simp [exVersion2], rfl⟩)⟩

/-- The program holds main.cpp, x.cpp, and the library that holds the two inputs of the generator. -/
example : text (exVBWorld.step exCounting .join).files exMixedApp2.output = some (List.replicate 12 0) ∧
    text (exVBWorld.step exCounting .join).files b!"/r/_b/codegen/v.cpp" = some b!"v1 py " := by
  decide +kernel

theorem exLength_perm {l l' : List (Option Str)} (h : l.Perm l') : exLength l = exLength l' :=
  (h.map _).sum_nat

theorem exCounting_order (g : Graph) (s : Str → Setup) : AnyOrder exCounting.tools g s := by
  intro j _ c x _ o o' ho ho' fx d
  have h : o.Perm o' := ho.trans ho'.symm
  simp only [Target.scratchBin, exCounting]
  rw [exLength_perm (h.map _)]

/-- The hypotheses of `C101_reproducible_partial` are met: after the two versions, one of them killed,
the program is the one of a single build of the second version. -/
example : text (exVBWorld.step exCounting .join).files exMixedApp2.output =
    text (exVBOnceWorld.step exCounting .join).files exMixedApp2.output := by
  obtain ⟨ha, hc, hr, -⟩ := exVBWorld_ok
  obtain ⟨ha', hc', hr', -⟩ := exVBOnceWorld_ok
  refine C101_reproducible_partial (b := exVBWorld) (b' := exVBOnceWorld) (v := exVersion2)
    (exCounting_order _ _) exVersions_plain exVersions_plain rfl rfl exVBHistory_versions exVBOnce_versions
    ha ha' hc hc' hr hr' (.inr rfl) (.inr rfl) exVBWorld_is exVBOnceWorld_is exVersion2_own exVersion2_own
    (exVB_hands (by decide +kernel)) (exVB_hands (by decide +kernel)) ?_ _
    (.inl ⟨exMixedApp2, by simp [exVersion2], rfl⟩)
  intro p hp
  by_cases h1 : p = b!"/r/v.in"
  · subst h1; decide +kernel
  by_cases h2 : p = b!"/r/gen.py"
  · subst h2; decide +kernel
  by_cases h3 : p = b!"/r/main.cpp"
  · subst h3; decide +kernel
  by_cases h4 : p = b!"/r/x.cpp"
  · subst h4; decide +kernel
  have hn : p ∉ [exMixedLib.output, exMixedApp2.output, exMixedApp.output, b!"/r/_b/codegen/v.cpp"] := by
    intro hq
    rw [List.all_eq_true.1 (show ([exMixedLib.output, exMixedApp2.output, exMixedApp.output,
      b!"/r/_b/codegen/v.cpp"].all (isMade (kindsOf exVersion2.ts) exVersion2.script.graph
        (setupWith exVersion2.ts exVersion2.gs))) = true by decide +kernel) p hq] at hp
    cases hp
  simp only [List.mem_cons, List.not_mem_nil, or_false, not_or] at hn
  rw [text, text, exVBWorld, exVBOnceWorld, untouched, untouched]
  · simp [exVBOnce, exVBGen, exVBApp, exBTarget, BWEvent.touched, h1, h2, h3, h4, hn]
  · simp [exVBHistory, exVBFiles, exVBGen, exVBApp, exBTarget, BWEvent.touched, h1, h2, h3, h4, hn]

/-! ## A file that is made by another generator in another version -/

def exTwoGen (name : Str) (input : Str) : ScriptGen :=
  ⟨name, (Generator.fileCfg [] [input] [b!"/r/_b/v.h"] [b!"make"]).getD []⟩

theorem exTwoGen_file {name input : Str}
    (h : (Generator.fileCfg [] [input] [b!"/r/_b/v.h"] [b!"make"]).isSome = true) :
    IsFileGen (exTwoGen name input) [b!"make"] := by
  obtain ⟨x, hx⟩ := Option.isSome_iff_exists.1 h
  refine ⟨⟨by decide, by decide⟩, [], [input], [b!"/r/_b/v.h"], ?_⟩
  rw [exTwoGen, hx, Option.getD_some]

/-- The only builder is a generator that makes `v.h`. -/
def exTwoVersion (name input : Str) : Version :=
  ⟨[.build ⟨true, false⟩ name], ⟨⟨[name], [], []⟩, []⟩, [], [exTwoGen name input]⟩

def exTwoA : Version := exTwoVersion b!"a" b!"/r/a.in"

def exTwoB : Version := exTwoVersion b!"b" b!"/r/b.in"

def exTwoVersions (v : Version) : Prop := v = exTwoA ∨ v = exTwoB

theorem exTwo_files : ∀ v, exTwoVersions v → ∀ g ∈ v.gs, IsFileGen g [b!"make"] := by
  rintro v (rfl | rfl) g hg <;> rw [List.mem_singleton.1 hg] <;> exact exTwoGen_file (by decide +kernel)

theorem exTwo_plain : PlainVersions exMixedProject (fun _ => .gen) exTwoVersions where
  accepted := by
    rintro v (rfl | rfl) <;> exact ⟨⟨1, by decide +kernel⟩, by decide +kernel, .refl _⟩
  plain := by
    have gen : ∀ {g : ScriptGen} {P : ScriptGen → Prop}, P g → ∀ t ∈ [g], P t := by
      intro g P h t ht
      rw [List.mem_singleton.1 ht]; exact h
    have no : ∀ {P : ScriptTarget → Prop}, ∀ t ∈ ([] : List ScriptTarget), P t := by
      intro P t ht
      cases ht
    rintro v (rfl | rfl)
    · refine ⟨by decide +kernel, no, no, gen (by decide +kernel), no, no, gen fun _ _ => no, no,
        gen fun q hq => ⟨no, gen fun hm => ?_⟩⟩
      exact absurd hm ((show ∀ q ∈ (exTwoGen b!"a" b!"/r/a.in").inputs,
        q ∉ (exTwoGen b!"a" b!"/r/a.in").outputs by decide +kernel) q hq)
    · refine ⟨by decide +kernel, no, no, gen (by decide +kernel), no, no, gen fun _ _ => no, no,
        gen fun q hq => ⟨no, gen fun hm => ?_⟩⟩
      exact absurd hm ((show ∀ q ∈ (exTwoGen b!"b" b!"/r/b.in").inputs,
        q ∉ (exTwoGen b!"b" b!"/r/b.in").outputs by decide +kernel) q hq)
  objects := by rintro v v' (rfl | rfl) _ t ht <;> cases ht
  targets := by
    intro j fx
    refine ⟨fun h => (by cases h), ?_⟩
    rintro ⟨v, t, rfl | rfl, ht, -⟩ <;> cases ht
  gens := fun _ _ _ _ => rfl
  pch := by rintro v v' (rfl | rfl) _ t ht <;> cases ht
  handlers := by
    intro v v' hv hv' g hg g' hg' _ id i i' hi hi'
    exact (fileGens_data (exTwo_files v hv g hg) (exTwo_files v' hv' g' hg') id i i' hi hi').1
  data := by
    intro v v' hv hv' g hg g' hg' _ id i i' hd a b hi hi'
    exact (fileGens_data (exTwo_files v hv g hg) (exTwo_files v' hv' g' hg') id i i' hi hi').2 hd a b

def exTwoRun (name : Str) (t : Nat) : List (BWEvent Str) :=
  [.begin name, .task name .begin [] exNoJunk, .task name (.task b!"Generate") [] exNoJunk,
    .task name (.call b!"Generate" true) [(b!"/r/_b/v.h", some t)] exNoJunk,
    .task name (.finish [b!"Generate"] true) [] exNoJunk]

/-- The version with generator `a`, the one with generator `b`, and the first one again, for which
nothing is run. -/
def exTwoHistory : List (BWEvent Str) :=
  [.edit b!"/r/a.in" 1 b!"a1 ", .edit b!"/r/b.in" 1 b!"b1 ",
    .launch exTwoA.script.graph (setupWith exTwoA.ts exTwoA.gs)] ++ exTwoRun b!"a" 2 ++
  [.join, .launch exTwoB.script.graph (setupWith exTwoB.ts exTwoB.gs)] ++ exTwoRun b!"b" 3 ++
  [.join, .launch exTwoA.script.graph (setupWith exTwoA.ts exTwoA.gs),
    .begin b!"a", .task b!"a" .begin [] exNoJunk, .task b!"a" (.task b!"Generate") [] exNoJunk,
    .task b!"a" (.finish [b!"Generate"] true) [] exNoJunk]

theorem exTwoHistory_versions : AllOfVersionsB exMakers (versionsOf exTwoVersions)
    (BWorld.init fun _ => .gen) exTwoHistory := by
  refine allOfVersionsB_of _ ?_ (by decide +kernel)
  intro g s hm
  simp only [exTwoHistory, exTwoRun, List.mem_append, List.mem_cons,
    List.not_mem_nil, reduceCtorEq, false_or, or_false, BWEvent.launch.injEq] at hm
  rcases hm with (⟨rfl, rfl⟩ | ⟨rfl, rfl⟩) | ⟨rfl, rfl⟩
  · exact ⟨exTwoA, .inl rfl, rfl, fun j _ => SameSetup.refl _⟩
  · exact ⟨exTwoB, .inr rfl, rfl, fun j _ => SameSetup.refl _⟩
  · exact ⟨exTwoA, .inl rfl, rfl, fun j _ => SameSetup.refl _⟩

/-- C101 is false for a file that had another maker in another version.  Generator `a` makes `v.h`; the
script is edited and generator `b` makes `v.h`; the edit is taken back.  The build of the first version
succeeds, and `v.h` is still what `b` made. -/
theorem C101_two_makers_false : ∃ (V : Version → Prop) (v : Version) (evs : List (BWEvent Str))
    (b : BWorld Str),
    PlainVersions exMixedProject (fun _ => .gen) V ∧ b = (BWorld.init fun _ => .gen).steps exMakers evs ∧
    AllOfVersionsB exMakers (versionsOf V) (BWorld.init fun _ => .gen) evs ∧
    b.world.active = true ∧ b.world.calm = true ∧ (b.step exMakers .join).world.result = some true ∧
    V v ∧ v.Is b.world.graph b.world.setup ∧ MadeOnce v.ts v.gs ∧
    (∀ e ∈ evs, ∀ q, v.Makes q → (∀ t x, e ≠ .edit q t x) ∧ e ≠ .delete q) ∧
    v.Makes b!"/r/_b/v.h" ∧ text (b.step exMakers .join).files b!"/r/_b/v.h" = some b!"b1 " ∧
    ∀ orders, buildAll exMakers (kindsOf v.ts) (setupWith v.ts v.gs) orders v.script.graph.ids
      (sourcesOnly (kindsOf v.ts) v.script.graph (setupWith v.ts v.gs) b.files) b!"/r/_b/v.h" =
        some b!"a1 " := by
  have hout : (exTwoGen b!"a" b!"/r/a.in").outputs = [b!"/r/_b/v.h"] := by decide +kernel
  refine ⟨exTwoVersions, exTwoA, exTwoHistory, _, exTwo_plain, rfl, exTwoHistory_versions,
    by decide +kernel, by decide +kernel, by decide +kernel, .inl rfl, ?_, ⟨?_, by decide +kernel, ?_⟩, ?_,
    .inr ⟨_, List.mem_singleton.2 rfl, by decide +kernel⟩, by decide +kernel, ?_⟩
  · obtain ⟨v, rfl | rfl, h⟩ := versions_present exTwo_plain.sound rfl exTwoHistory_versions (by decide +kernel)
    · exact h
    · exact absurd h.1 (by decide +kernel)
  · intro t ht
    cases ht
  · intro g hg g' hg' hne
    rw [List.mem_singleton.1 hg, List.mem_singleton.1 hg'] at hne
    exact absurd rfl hne
  · intro e he q hq
    refine noHands_spec (l := [b!"/r/_b/v.h"]) (evs := exTwoHistory) (by decide +kernel) e he q ?_
    rcases hq with ⟨t, ht, -⟩ | ⟨g, hg, hq⟩
    · cases ht
    · rw [List.mem_singleton.1 hg, hout] at hq
      exact hq
  · intro orders
    have h : ∀ d, buildAll exMakers (kindsOf exTwoA.ts) (setupWith exTwoA.ts exTwoA.gs) orders
        exTwoA.script.graph.ids d = buildAll exMakers (kindsOf exTwoA.ts) (setupWith exTwoA.ts exTwoA.gs)
        (fun _ => []) exTwoA.script.graph.ids d := fun _ => rfl
    rw [h]
    decide +kernel

end Verif.Reg
