import Verif.Reg.BytesScript
import Verif.Reg.OneScriptExamples
import Verif.Target.BytesProps

/-!
# What a build script leaves, in terms of contents

However a build script was run before, with whatever failures, after a build that succeeds the
generated files, libraries and programs hold what one build from scratch makes of the contents of the
source files.
-/

namespace Verif.Reg
open Verif Verif.Schema Verif.Json
open Verif.Target (Fixed outputPath upd text texts paths scratchBin)

variable {β : Type} {M : Makers β}

theorem join_world (b : BWorld β) : (b.step M .join).world = b.world.step .join := by
  simp only [BWorld.step]
  split
  · rfl
  · rename_i h
    simp only [World.step, if_neg h]

theorem join_files (b : BWorld β) : (b.step M .join).files = b.files := by
  simp only [BWorld.step]
  split <;> rfl

/-- C99: a sound build script is run again and again (`C40_one_script_partial`: files are edited and
deleted, builds fail and leave anything in their outputs, and are killed).  Whenever `Reg::Run` returns
with success and no file was changed from outside since the process was started, every output of a
generator and every target holds what one build from scratch makes of the contents of the files that
the script does not make: a build that starts without any of the files that the script makes, and runs
each builder once, in any order that respects the dependencies.

Missing: scripts that change (`C101_contents_partial`), files that several builders write (`OneMaker`),
contents that change while the stamp stays (`C97_same_stamp_false`, `C98_same_stamp_false`), changes by
hand of what the script makes, for which it is false (`C98_tampered_false`, `C99_by_hand_false`). -/
theorem C99_contents_partial {kinds : Str → Kind} {g : Graph} {s : Str → Setup} {evs : List (BWEvent β)}
    {b : BWorld β} (hb : b = (BWorld.init kinds).steps M evs) (hsc : SoundScript kinds g s)
    (ho : OneMaker kinds g s) (hal : AllOfScriptB M kinds g s (BWorld.init kinds) evs)
    (ha : b.world.active = true) (hcalm : b.world.calm = true)
    (hres : (b.step M .join).world.result = some true) :
    ∃ orders : Str → List Str,
      (∀ j ∈ g.ids, ∀ c o, s j = .target c o → (orders j).Perm (paths c.sources)) ∧
      ∀ l, InOrder g l → ∀ j ∈ g.ids, ∀ p ∈ products (kinds j) (s j),
        text (b.step M .join).files p =
          buildAll M kinds s orders l (sourcesOnly kinds g s b.files) p := by
  obtain ⟨hI, wevs, hw, hws⟩ := bScript_steps hsc ho evs (bScriptInv_init (M := M) hsc) hal
  rw [← hb] at hI hw
  have hI' : BScriptInv M kinds g s (b.step M .join) := bScriptInv_step hsc ho hI trivial trivial
  have hup := (C40_one_script_partial hw hsc hws ha hcalm (by rw [← join_world (M := M)]; exact hres)).1
  have hnow := fun j hj => products_now hI' hj (by rw [join_world]; exact hup j hj)
  have hord : ∀ j, ∃ order : List Str, j ∈ g.ids → ∀ fx c o, kinds j = .target fx → s j = .target c o →
      order.Perm (paths c.sources) ∧ text b.files (outputPath fx) =
        some (scratchBin fx M.tools (text b.files) c order) := by
    intro j
    by_cases h : ∃ fx c o, j ∈ g.ids ∧ kinds j = .target fx ∧ s j = .target c o
    · obtain ⟨fx, c, o, hj, hk, hs⟩ := h
      obtain ⟨order, h1, h2⟩ := (hnow j hj).1 fx c o hk hs
      rw [join_files] at h2
      refine ⟨order, fun _ fx' c' o' hk' hs' => ?_⟩
      rw [hk] at hk'; rw [hs] at hs'
      cases hk'; cases hs'
      exact ⟨h1, h2⟩
    · exact ⟨[], fun hj fx c o hk hs => absurd ⟨fx, c, o, hj, hk, hs⟩ h⟩
  let orders := fun j => Classical.choose (hord j)
  have horders := fun j => Classical.choose_spec (hord j)
  refine ⟨orders, ?_, ?_⟩
  · intro j hj c o hs
    have hfit := hsc.fits j hj
    cases hk : kinds j with
    | gen => rw [hk, hs] at hfit; exact hfit.elim
    | target fx => exact (horders j hj fx c o hk hs).1
  · intro l hl j hj p hp
    rw [join_files]
    refine (buildAll_eq hsc ho (fun j hj => horders j hj) ?_ hl l [] _ rfl ?_ p (.inr ⟨j, ?_, hp⟩)).symm
    · intro j hj c hk hs id i hi p hp
      have := (hnow j hj).2 c hk hs id i hi p hp
      rw [join_files] at this
      exact this
    · intro p hp
      rcases hp with hp | ⟨j, hj, -⟩
      · simp [sourcesOnly, hp]
      · simp at hj
    · exact hl.all.mem_iff.2 hj

/-- The linker does not care about the order in which it is given the objects of a target. -/
def AnyOrder (T : Target.Tools β) (g : Graph) (s : Str → Setup) : Prop :=
  ∀ j ∈ g.ids, ∀ c x, s j = .target c x → ∀ o o' : List Str, o.Perm (paths c.sources) →
    o'.Perm (paths c.sources) → ∀ fx d, scratchBin fx T d c o = scratchBin fx T d c o'

theorem buildAll_orders {kinds : Str → Kind} {g : Graph} {s : Str → Setup} (hT : AnyOrder M.tools g s)
    {o o' : Str → List Str} (h : ∀ j ∈ g.ids, ∀ c x, s j = .target c x → (o j).Perm (paths c.sources))
    (h' : ∀ j ∈ g.ids, ∀ c x, s j = .target c x → (o' j).Perm (paths c.sources)) :
    ∀ (l : List Str) (d : Str → Option β), (∀ j ∈ l, j ∈ g.ids) →
    buildAll M kinds s o l d = buildAll M kinds s o' l d := by
  intro l
  induction l with
  | nil => intro d _; rfl
  | cons j l ih =>
    intro d hl
    have h1 : buildOne M kinds s o d j = buildOne M kinds s o' d j := by
      simp only [buildOne]
      split
      · rename_i hs
        have hj := hl j List.mem_cons_self
        rw [hT j hj _ _ hs _ _ (h j hj _ _ hs) (h' j hj _ _ hs)]
      · rfl
      · rfl
    show buildAll M kinds s o l (buildOne M kinds s o d j) = buildAll M kinds s o' l (buildOne M kinds s o' d j)
    rw [h1]
    exact ih _ fun k hk => hl k (List.mem_cons_of_mem _ hk)

/-- C99: what a script leaves depends on the contents of the source files only.  Two histories of the
script, on two machines or in two directories, with different time stamps, schedules, failures and
numbers of builds: when both end with success and the files that the script does not make have the same
contents, so have those that it makes. -/
theorem C99_reproducible_partial {kinds : Str → Kind} {g : Graph} {s : Str → Setup}
    {evs evs' : List (BWEvent β)} {b b' : BWorld β} (hT : AnyOrder M.tools g s)
    (hsc : SoundScript kinds g s) (ho : OneMaker kinds g s)
    (hb : b = (BWorld.init kinds).steps M evs) (hb' : b' = (BWorld.init kinds).steps M evs')
    (hal : AllOfScriptB M kinds g s (BWorld.init kinds) evs)
    (hal' : AllOfScriptB M kinds g s (BWorld.init kinds) evs')
    (ha : b.world.active = true) (ha' : b'.world.active = true)
    (hcalm : b.world.calm = true) (hcalm' : b'.world.calm = true)
    (hres : (b.step M .join).world.result = some true) (hres' : (b'.step M .join).world.result = some true)
    (hsame : ∀ p, isMade kinds g s p = false → text b.files p = text b'.files p) :
    ∀ j ∈ g.ids, ∀ p ∈ products (kinds j) (s j),
      text (b.step M .join).files p = text (b'.step M .join).files p := by
  obtain ⟨o, h1, h2⟩ := C99_contents_partial hb hsc ho hal ha hcalm hres
  obtain ⟨o', h1', h2'⟩ := C99_contents_partial hb' hsc ho hal' ha' hcalm' hres'
  obtain ⟨l, hl⟩ := inOrder_exists hsc.valid hsc.acyclic
  intro j hj p hp
  rw [h2 l hl j hj p hp, h2' l hl j hj p hp]
  have hsrc : sourcesOnly kinds g s b.files = sourcesOnly kinds g s b'.files := by
    funext q
    simp only [sourcesOnly]
    split
    · rfl
    · rename_i hq
      exact hsame q (by simpa using hq)
  rw [hsrc, buildAll_orders hT h1 h1' l _ fun k hk => hl.all.mem_iff.1 hk]

/-! ## An example -/

/-- `AllOfScriptB` for a list of events. -/
def quietB (M : Makers β) (kinds : Str → Kind) (g : Graph) (s : Str → Setup) :
    BWorld β → List (BWEvent β) → Bool
  | _, [] => true
  | b, e :: l =>
    quiet b.world [e.erase] && (match e with
      | .edit p _ _ => !isMade kinds g s p
      | .delete p => !isMade kinds g s p
      | _ => true) && quietB M kinds g s (b.step M e) l

theorem allOfScriptB_of {kinds : Str → Kind} {g : Graph} {s : Str → Setup} (evs : List (BWEvent β))
    (hl : ∀ g' s', .launch g' s' ∈ evs → g' = g ∧ ∀ j ∈ g.ids, SameSetup (s' j) (s j))
    (hq : quietB M kinds g s (BWorld.init kinds) evs = true) :
    AllOfScriptB M kinds g s (BWorld.init kinds) evs := by
  have gen : ∀ (evs : List (BWEvent β)) (b : BWorld β), BInv b.world →
      (∀ g' s', .launch g' s' ∈ evs → g' = g ∧ ∀ j ∈ g.ids, SameSetup (s' j) (s j)) →
      quietB M kinds g s b evs = true → AllOfScriptB M kinds g s b evs := by
    intro evs
    induction evs with
    | nil => intros; exact trivial
    | cons e l ih =>
      intro b hb h hq
      simp only [quietB, Bool.and_eq_true] at hq
      obtain ⟨⟨h1, h2⟩, h3⟩ := hq
      have hb' : BInv (b.step M e).world := by
        rcases world_step (M := M) b e with h4 | h4
        · rw [h4]; exact bInv_step hb _
        · rw [h4]; exact hb
      refine ⟨?_, ?_, ih _ hb' (fun g' s' hm => h g' s' (List.mem_cons_of_mem _ hm)) h3⟩
      · simp only [quiet, Bool.and_true] at h1
        cases e with
        | edit p t x =>
          simp only [BWEvent.erase, Bool.and_eq_true] at h1
          exact ⟨of_decide_eq_true h1.1, not_delicate hb h1.2⟩
        | delete p => exact not_delicate hb h1
        | launch g' s' => exact h g' s' List.mem_cons_self
        | _ => trivial
      · cases e with
        | edit p t x => simpa [BWEvent.handsOff] using h2
        | delete p => simpa [BWEvent.handsOff] using h2
        | _ => trivial
  exact gen evs _ (bInv_init kinds) hl hq

/-- A compiler that puts headers before the source, and a linker that puts objects and libraries
together; the callback copies its input. -/
def exMakers : Makers Str where
  tools :=
    { pch := fun _ l _ => (l.map fun x => x.2.getD []).flatten
      obj := fun _ src hs _ _ => (hs.map fun x => x.2.getD []).flatten ++ src.getD []
      bin := fun _ l libs _ _ => (l.map fun x => x.getD []).flatten ++ (libs.map fun x => x.2.getD []).flatten }
  callbacks := fun _ _ _ ins _ _ => (ins.map fun x => x.2.getD []).flatten

def exNoJunk : Str → Str := fun _ => b!"?"

def exBGen (t : Nat) : List (BWEvent Str) :=
  [ .begin b!"gen", .task b!"gen" .begin [] exNoJunk, .task b!"gen" (.task b!"v") [] exNoJunk,
    .task b!"gen" (.call b!"v" true) [(b!"/p/gen/v.h", some t)] exNoJunk,
    .task b!"gen" (.finish [b!"v"] true) [] exNoJunk ]

def exBTarget (id out : Str) (t : Nat) : List (BWEvent Str) :=
  [ .begin id, .task id (.t .objTask) [] exNoJunk, .task id (.t (.exec 0 true none)) [] exNoJunk,
    .task id (.t (.add 0)) [] exNoJunk, .task id (.t .linkTask) [] exNoJunk,
    .task id (.t (.linkExec true none)) [(out, some t)] exNoJunk, .task id (.t (.finish true)) [] exNoJunk ]

def exBFiles : List (BWEvent Str) :=
  [ .edit b!"/p/v.in" 1 b!"v1 ", .edit b!"/p/a.cpp" 1 b!"a1 ", .edit b!"/p/main.cpp" 1 b!"m1 " ]

/-- The linker fails for the library and leaves half a file. -/
def exBFail : List (BWEvent Str) :=
  .launch exWGraph exSetup :: exBGen 2 ++
  [ .begin b!"lib", .task b!"lib" (.t .objTask) [] exNoJunk,
    .task b!"lib" (.t (.exec 0 true none)) [] exNoJunk, .task b!"lib" (.t (.add 0)) [] exNoJunk,
    .task b!"lib" (.t .linkTask) [] exNoJunk,
    .task b!"lib" (.t (.linkExec false (some (some b!"half")))) [(outputPath exLibFx, some 3)] exNoJunk,
    .task b!"lib" (.t (.finish true)) [] exNoJunk,
    .begin b!"app", .task b!"app" (.t .objTask) [] exNoJunk, .task b!"app" (.t .linkTask) [] exNoJunk,
    .task b!"app" (.t (.finish true)) [] exNoJunk, .join ]

/-- A build that fails, an edit of the input of the generator, and a build that succeeds up to its end. -/
def exBHistory : List (BWEvent Str) :=
  exBFiles ++ exBFail ++ .edit b!"/p/v.in" 5 b!"v2 " :: .launch exWGraph exSetup ::
    (exBGen 6 ++ exBTarget b!"lib" (outputPath exLibFx) 7 ++ exBTarget b!"app" (outputPath exAppFx) 8)

/-- The failed build leaves half a library. -/
example : text ((BWorld.init exKinds).steps exMakers (exBFiles ++ exBFail)).files (outputPath exLibFx) =
    some b!"half" ∧
    ((BWorld.init exKinds).steps exMakers (exBFiles ++ exBFail)).world.result = some false := by
  decide +kernel

theorem exOneMaker : OneMaker exKinds exWGraph exSetup where
  others := by decide +kernel
  target := by
    intro a ha fx hk
    simp only [exWGraph, List.mem_cons, List.not_mem_nil, or_false] at ha
    rcases ha with rfl | rfl | rfl
    · cases hk
    · cases hk
      refine ⟨by decide +kernel, fun c o hs => ?_⟩
      have : Setup.target exLibCfg [b!"/p/a.cpp"] = Setup.target c o := hs
      cases this
      decide +kernel
    · cases hk
      refine ⟨by decide +kernel, fun c o hs => ?_⟩
      have : Setup.target exAppCfg [b!"/p/main.cpp"] = Setup.target c o := hs
      cases this
      decide +kernel
  gen := by
    intro a ha c hs
    simp only [exWGraph, List.mem_cons, List.not_mem_nil, or_false] at ha
    rcases ha with rfl | rfl | rfl
    · have : Setup.gen exGenCfg = Setup.gen c := hs
      cases this
      exact ⟨by decide, by decide⟩
    · have : Setup.target exLibCfg [b!"/p/a.cpp"] = Setup.gen c := hs
      cases this
    · have : Setup.target exAppCfg [b!"/p/main.cpp"] = Setup.gen c := hs
      cases this
  reads := by decide +kernel

theorem exBHistory_script : AllOfScriptB exMakers exKinds exWGraph exSetup (BWorld.init exKinds) exBHistory := by
  refine allOfScriptB_of _ ?_ (by decide +kernel)
  intro g' s' hm
  simp only [exBHistory, exBFiles, exBFail, exBGen, exBTarget, List.mem_append, List.mem_cons,
    List.not_mem_nil, reduceCtorEq, false_or, or_false, BWEvent.launch.injEq] at hm
  rcases hm with ⟨rfl, rfl⟩ | ⟨rfl, rfl⟩ <;> exact ⟨rfl, fun j _ => SameSetup.refl _⟩

theorem exInOrder : InOrder exWGraph exWGraph.ids where
  all := .refl _
  after := by
    intro pre j post h a he
    simp only [exWGraph, List.mem_cons, Prod.mk.injEq, List.not_mem_nil, or_false] at he
    match pre, h with
    | [], h => 
      simp only [exWGraph, List.nil_append, List.cons.injEq] at h
      obtain ⟨rfl, -⟩ := h
      rcases he with ⟨-, he⟩ | ⟨-, he⟩ <;> exact absurd he (by decide)
    | [x], h =>
      simp only [exWGraph, List.cons_append, List.nil_append, List.cons.injEq] at h
      obtain ⟨rfl, rfl, -⟩ := h
      rcases he with ⟨rfl, -⟩ | ⟨-, he⟩
      · simp
      · exact absurd he (by decide)
    | [x, y], h =>
      simp only [exWGraph, List.cons_append, List.nil_append, List.cons.injEq] at h
      obtain ⟨rfl, rfl, rfl, -⟩ := h
      rcases he with ⟨-, he⟩ | ⟨rfl, -⟩
      · exact absurd he (by decide)
      · simp
    | x :: y :: z :: pre, h =>
      have := congrArg List.length h
      simp [exWGraph] at this

/-- The hypotheses of `C99_contents_partial` are met: the program is what one build makes of the sources. -/
example : ∃ orders : Str → List Str,
    text (((BWorld.init exKinds).steps exMakers exBHistory).step exMakers .join).files (outputPath exAppFx) =
      buildAll exMakers exKinds exSetup orders exWGraph.ids
        (sourcesOnly exKinds exWGraph exSetup ((BWorld.init exKinds).steps exMakers exBHistory).files)
        (outputPath exAppFx) := by
  obtain ⟨o, -, h⟩ := C99_contents_partial (M := exMakers) (evs := exBHistory) rfl exSound exOneMaker
    exBHistory_script (by decide +kernel) (by decide +kernel) (by decide +kernel)
  exact ⟨o, h _ exInOrder b!"app" (by decide) _ (by decide)⟩

example : text (((BWorld.init exKinds).steps exMakers exBHistory).step exMakers .join).files
    (outputPath exAppFx) = some b!"m1 v2 a1 " := by decide +kernel

/-- One build of the same sources, with other time stamps. -/
def exBOnce : List (BWEvent Str) :=
  [ .edit b!"/p/a.cpp" 30 b!"a1 ", .edit b!"/p/main.cpp" 10 b!"m1 ", .edit b!"/p/v.in" 20 b!"v2 ",
    .launch exWGraph exSetup ] ++
    (exBGen 6 ++ exBTarget b!"lib" (outputPath exLibFx) 7 ++ exBTarget b!"app" (outputPath exAppFx) 8)

theorem exBOnce_script : AllOfScriptB exMakers exKinds exWGraph exSetup (BWorld.init exKinds) exBOnce := by
  refine allOfScriptB_of _ ?_ (by decide +kernel)
  intro g' s' hm
  simp only [exBOnce, exBGen, exBTarget, List.mem_append, List.mem_cons,
    List.not_mem_nil, reduceCtorEq, false_or, or_false, BWEvent.launch.injEq] at hm
  obtain ⟨rfl, rfl⟩ := hm
  exact ⟨rfl, fun j _ => SameSetup.refl _⟩

theorem exAnyOrder : AnyOrder exMakers.tools exWGraph exSetup := by
  intro j hj c x hs o o' h h' fx d
  have : (paths c.sources).length = 1 := by
    simp only [exWGraph, List.mem_cons, List.not_mem_nil, or_false] at hj
    rcases hj with rfl | rfl | rfl
    · have : Setup.gen exGenCfg = Setup.target c x := hs
      cases this
    · have : Setup.target exLibCfg [b!"/p/a.cpp"] = Setup.target c x := hs
      cases this; rfl
    · have : Setup.target exAppCfg [b!"/p/main.cpp"] = Setup.target c x := hs
      cases this; rfl
  obtain ⟨q, hq⟩ := List.length_eq_one_iff.1 this
  rw [hq] at h h'
  rw [List.perm_singleton.1 h, List.perm_singleton.1 h']

/-- The files that an event may change. -/
def BWEvent.touched : BWEvent β → List Str
  | .edit p _ _ => [p]
  | .delete p => [p]
  | .task _ _ ws _ => ws.map (·.1)
  | _ => []

theorem puts_untouched {p : Str} : ∀ (l : List (Str × Option (Nat × β))) (b : BWorld β), p ∉ l.map (·.1) →
    (b.puts M l).files p = b.files p := by
  intro l
  induction l with
  | nil => intro b _; rfl
  | cons x l ih =>
    intro b h
    simp only [List.map_cons, List.mem_cons, not_or] at h
    refine (ih (b.put M x.1 x.2) h.2).trans ?_
    simp [BWorld.put, upd, h.1]

theorem untouched {p : Str} : ∀ (evs : List (BWEvent β)) (b : BWorld β), p ∉ evs.flatMap (·.touched) →
    (b.steps M evs).files p = b.files p := by
  intro evs
  induction evs with
  | nil => intro b _; rfl
  | cons e l ih =>
    intro b h
    simp only [List.flatMap_cons, List.mem_append, not_or] at h
    refine (ih (b.step M e) h.2).trans ?_
    have h := h.1
    cases e with
    | edit q t x => simp only [BWEvent.touched, List.mem_singleton] at h; simp [BWorld.step, BWorld.put, upd, h]
    | delete q => simp only [BWEvent.touched, List.mem_singleton] at h; simp [BWorld.step, BWorld.put, upd, h]
    | task id t ws junk =>
      simp only [BWorld.step]
      split
      · exact puts_untouched _ _ (by rw [withContents_paths]; exact h)
      · rfl
    | «begin» id => rfl
    | _ => simp only [BWorld.step]; split <;> rfl

/-- The hypotheses of `C99_reproducible_partial` are met. -/
example : text (((BWorld.init exKinds).steps exMakers exBHistory).step exMakers .join).files
      (outputPath exAppFx) =
    text (((BWorld.init exKinds).steps exMakers exBOnce).step exMakers .join).files (outputPath exAppFx) := by
  refine C99_reproducible_partial exAnyOrder exSound exOneMaker rfl rfl exBHistory_script exBOnce_script
    (by decide +kernel) (by decide +kernel) (by decide +kernel) (by decide +kernel) (by decide +kernel)
    (by decide +kernel) ?_ b!"app" (by decide) _ (by decide)
  intro p hp
  by_cases h1 : p = b!"/p/v.in"
  · subst h1; decide +kernel
  by_cases h2 : p = b!"/p/a.cpp"
  · subst h2; decide +kernel
  by_cases h3 : p = b!"/p/main.cpp"
  · subst h3; decide +kernel
  have hn : p ∉ [outputPath exLibFx, outputPath exAppFx, b!"/p/gen/v.h"] := by
    intro hq
    rw [List.all_eq_true.1 (show ([outputPath exLibFx, outputPath exAppFx, b!"/p/gen/v.h"].all
      (isMade exKinds exWGraph exSetup)) = true by decide +kernel) p hq] at hp
    cases hp
  simp only [List.mem_cons, List.not_mem_nil, or_false, not_or] at hn
  rw [text, text, untouched, untouched]
  · simp [exBOnce, exBGen, exBTarget, BWEvent.touched, h1, h2, h3, hn]
  · simp [exBHistory, exBFiles, exBFail, exBGen, exBTarget, BWEvent.touched, h1, h2, h3, hn]

/-- C99 is false when somebody changes by hand what the script makes: after a successful build the library
is overwritten; the next build succeeds and leaves it, and the program is linked with it. -/
theorem C99_by_hand_false : ∃ b : BWorld Str,
    b = (BWorld.init exKinds).steps exMakers (exBHistory ++
      [ .join, .edit (outputPath exLibFx) 20 b!"bad ", .launch exWGraph exSetup,
        .begin b!"gen", .task b!"gen" .begin [] exNoJunk, .task b!"gen" (.task b!"v") [] exNoJunk,
        .task b!"gen" (.finish [b!"v"] true) [] exNoJunk,
        .begin b!"lib", .task b!"lib" (.t .objTask) [] exNoJunk, .task b!"lib" (.t .linkTask) [] exNoJunk,
        .task b!"lib" (.t (.finish true)) [] exNoJunk,
        .begin b!"app", .task b!"app" (.t .objTask) [] exNoJunk, .task b!"app" (.t .linkTask) [] exNoJunk,
        .task b!"app" (.t (.linkExec true none)) [(outputPath exAppFx, some 21)] exNoJunk,
        .task b!"app" (.t (.finish true)) [] exNoJunk, .join ]) ∧
    b.world.result = some true ∧ text b.files (outputPath exAppFx) = some b!"m1 bad " ∧
    buildAll exMakers exKinds exSetup (fun j => if j = b!"lib" then [b!"/p/a.cpp"] else [b!"/p/main.cpp"])
      exWGraph.ids (sourcesOnly exKinds exWGraph exSetup b.files) (outputPath exAppFx) =
        some b!"m1 v2 a1 " :=
  ⟨_, rfl, by decide +kernel, by decide +kernel, by decide +kernel⟩

end Verif.Reg
