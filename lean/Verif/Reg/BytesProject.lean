import Verif.Reg.BytesProps
import Verif.Reg.MixedExamples

/-! # What a script of targets and generators leaves, in terms of contents -/

namespace Verif.Reg
open Verif Verif.Schema
open Verif.Target (Project outputPath text paths)
open Verif.Path (Inside)

variable {β : Type} {M : Makers β} {p : Project} {ts : List ScriptTarget} {gs : List ScriptGen}

/-- No file is made twice. -/
structure MadeOnce (ts : List ScriptTarget) (gs : List ScriptGen) : Prop where
  /-- The output of a target is neither one of its objects nor next to its precompiled header. -/
  targets : ∀ t ∈ ts, OwnName t
  /-- The ids of a generator have different names and make different files. -/
  ids : ∀ g ∈ gs, (g.cfg.map (·.1)).Nodup ∧
    ∀ x ∈ g.cfg, ∀ y ∈ g.cfg, ∀ q ∈ x.2.outputs, q ∈ y.2.outputs → x.1 = y.1
  /-- Different generators make different files. -/
  gens : ∀ g ∈ gs, ∀ g' ∈ gs, g.name ≠ g'.name → ∀ q ∈ g.outputs, q ∉ g'.outputs

theorem PlainProject.oneMaker {g : Graph} (h : PlainProject p ts gs g.edges) (hv : Valid g)
    (hi : g.ids.Perm (Names ts gs)) (hm : MadeOnce ts gs) : OneMaker (kindsOf ts) g (setupWith ts gs) := by
  have hn : (Names ts gs).Nodup := hi.nodup hv.ids
  have hj : ∀ {j}, j ∈ g.ids → (∃ t ∈ ts, t.id = j) ∨ ∃ x ∈ gs, x.name = j :=
    fun h => mem_names (hi.mem_iff.1 h)
  have hout : ∀ t ∈ ts, Inside t.made.buildDir (outputPath t.made.fixed) := by
    intro t ht
    have pt := h.placed ht
    have : Inside t.made.buildDir t.output := by
      rw [pt.output.1]
      have := plain_ext pt.name pt.ext
      exact inside_name this.2.2.1 this.2.2.2
    exact this
  refine ⟨?_, ?_, ?_, ?_⟩
  · intro a ha b hb hne q hqa hqb
    rcases hj ha with ⟨t, ht, rfl⟩ | ⟨x, hx, rfl⟩
    · obtain ⟨ka, sa⟩ := target_eq hn ht
      rw [ka, sa] at hqa
      rw [List.mem_singleton.1 hqa] at hqb
      rcases hj hb with ⟨u, hu, rfl⟩ | ⟨y, hy, rfl⟩
      · obtain ⟨kb, sb⟩ := target_eq hn hu
        rw [kb, sb] at hqb
        exact hne ((h.placed ht).same (h.placed hu) (hout t ht) ((h.placed hu).outputs hqb))
      · rw [(gen_eq hn hy).1, (gen_eq hn hy).2] at hqb
        exact h.apart y hy _ hqb t ht (hout t ht)
    · rw [(gen_eq hn hx).1, (gen_eq hn hx).2] at hqa
      rcases hj hb with ⟨u, hu, rfl⟩ | ⟨y, hy, rfl⟩
      · obtain ⟨kb, sb⟩ := target_eq hn hu
        rw [kb, sb] at hqb
        exact h.apart x hx _ hqa u hu ((h.placed hu).outputs hqb)
      · rw [(gen_eq hn hy).1, (gen_eq hn hy).2] at hqb
        exact hm.gens x hx y hy hne q hqa hqb
  · intro a ha fx hk
    rcases hj ha with ⟨t, ht, rfl⟩ | ⟨x, hx, rfl⟩
    · obtain ⟨ka, sa⟩ := target_eq hn ht
      rw [ka] at hk
      cases hk
      refine ⟨(hm.targets t ht).2, fun c o hs => ?_⟩
      rw [sa] at hs
      cases hs
      exact (hm.targets t ht).1
    · rw [(gen_eq hn hx).1] at hk; cases hk
  · intro a ha c hs
    rcases hj ha with ⟨t, ht, rfl⟩ | ⟨x, hx, rfl⟩
    · rw [(target_eq hn ht).2] at hs; cases hs
    · rw [(gen_eq hn hx).2] at hs
      cases hs
      exact hm.ids x hx
  · intro a ha b hb q hqa hqb
    rcases hj ha with ⟨t, ht, rfl⟩ | ⟨x, hx, rfl⟩
    · obtain ⟨ka, sa⟩ := target_eq hn ht
      rw [ka, sa] at hqa ⊢
      have hin := (h.placed ht).outputs hqa
      simp only [products, List.mem_singleton]
      rcases hj hb with ⟨u, hu, rfl⟩ | ⟨y, hy, rfl⟩
      · rw [(target_eq hn hu).2] at hqb
        refine ((h.targetReads u hu q ?_).1 t ht hin).1
        simp only [Setup.inputs, given, List.mem_append] at hqb ⊢
        rcases hqb with ((((h1 | h1) | h1) | h1) | h1) | h1 <;> simp [h1]
      · rw [(gen_eq hn hy).2] at hqb
        exact ((h.genReads y hy q hqb).1 t ht hin).1
    · rw [(gen_eq hn hx).1, (gen_eq hn hx).2] at hqa ⊢
      exact hqa

/-- C99 for a script that keeps to the rules of `PlainProject`, that makes no file twice, and that is
accepted by `Reg::Build` and `Reg::Dep`.  Whenever `Reg::Run` returns with success and no file was changed
from outside since the process was started, every target and every generated file holds what one build
from scratch makes of the contents of the files that the script does not make. -/
theorem C99_project_partial {n : Nat} {l : List Call} {s : Script}
    (hreg : calls n ⟨Graph.empty, []⟩ l = .ok s) (hself : ∀ c ∈ l, c.selfDep = false)
    (hids : s.graph.ids.Perm (Names ts gs)) (hp : PlainProject p ts gs s.graph.edges)
    (hm : MadeOnce ts gs) {evs : List (BWEvent β)} {b : BWorld β}
    (hb : b = (BWorld.init (kindsOf ts)).steps M evs)
    (hal : AllOfScriptB M (kindsOf ts) s.graph (setupWith ts gs) (BWorld.init (kindsOf ts)) evs)
    (ha : b.world.active = true) (hcalm : b.world.calm = true)
    (hres : (b.step M .join).world.result = some true) :
    ∃ orders : Str → List Str, (∀ t ∈ ts, (orders t.id).Perm (paths t.cfg.sources)) ∧
      ∀ o, InOrder s.graph o → ∀ q, ((∃ t ∈ ts, q = t.output) ∨ ∃ g ∈ gs, q ∈ g.outputs) →
        text (b.step M .join).files q = buildAll M (kindsOf ts) (setupWith ts gs) orders o
          (sourcesOnly (kindsOf ts) s.graph (setupWith ts gs) b.files) q := by
  have hv := C37_valid n l s hreg
  have hn : (Names ts gs).Nodup := hids.nodup hv.ids
  have hs := hp.sound hv (C37_acyclic_partial n l s hreg hself) hids
  have hmt : ∀ t ∈ ts, t.id ∈ s.graph.ids := fun t ht =>
    hids.mem_iff.2 (List.mem_append.2 (.inl (List.mem_map_of_mem ht)))
  have hmg : ∀ g ∈ gs, g.name ∈ s.graph.ids := fun g hg =>
    hids.mem_iff.2 (List.mem_append.2 (.inr (List.mem_map_of_mem hg)))
  obtain ⟨orders, h1, h2⟩ := C99_contents_partial hb hs (hp.oneMaker hv hids hm) hal ha hcalm hres
  refine ⟨orders, fun t ht => h1 _ (hmt t ht) _ _ (target_eq hn ht).2, ?_⟩
  rintro o ho q (⟨t, ht, rfl⟩ | ⟨g, hg, hq⟩)
  · refine h2 o ho t.id (hmt t ht) _ ?_
    rw [(target_eq hn ht).1, (target_eq hn ht).2]
    exact List.mem_singleton.2 rfl
  · refine h2 o ho g.name (hmg g hg) q ?_
    rw [(gen_eq hn hg).1, (gen_eq hn hg).2]
    exact hq

/-! ## An example -/

theorem exMixed_once : MadeOnce [exMixedApp] [exCodegen] where
  targets := by
    intro t ht
    rw [List.mem_singleton.1 ht]
    exact ⟨by decide +kernel, by decide +kernel⟩
  ids := by decide +kernel
  gens := by
    intro g hg g' hg' hne
    rw [List.mem_singleton.1 hg, List.mem_singleton.1 hg'] at hne
    exact absurd rfl hne

def exMixedTasksB (both : Bool) (t : Nat) : List (BWEvent Str) :=
  [.begin exCodegen.name, .task exCodegen.name .begin [] exNoJunk,
    .task exCodegen.name (.task b!"Generate") [] exNoJunk,
    .task exCodegen.name (.call b!"Generate" true) [(b!"/r/_b/codegen/v.cpp", some t)] exNoJunk,
    .task exCodegen.name (.finish [b!"Generate"] true) [] exNoJunk,
    .begin exMixedApp.id, .task exMixedApp.id (.t .objTask) [] exNoJunk] ++
  (if both then [.task exMixedApp.id (.t (.exec 0 true none)) [] exNoJunk,
    .task exMixedApp.id (.t (.add 0)) [] exNoJunk] else []) ++
  [.task exMixedApp.id (.t (.exec 0 true none)) [] exNoJunk, .task exMixedApp.id (.t (.add 0)) [] exNoJunk,
    .task exMixedApp.id (.t .linkTask) [] exNoJunk,
    .task exMixedApp.id (.t (.linkExec true none)) [(exMixedApp.output, some (t + 1))] exNoJunk,
    .task exMixedApp.id (.t (.finish true)) [] exNoJunk]

/-- A first build; then only the input of the generator is edited. -/
def exMixedHistoryB : List (BWEvent Str) :=
  [.edit b!"/r/v.in" 1 b!"v1 ", .edit b!"/r/gen.py" 1 b!"py ", .edit b!"/r/main.cpp" 1 b!"m1 ",
    .launch exMixedScript.graph (setupWith [exMixedApp] [exCodegen])] ++ exMixedTasksB true 2 ++
  [.join, .edit b!"/r/v.in" 4 b!"v2 ", .launch exMixedScript.graph (setupWith [exMixedApp] [exCodegen])] ++
  exMixedTasksB false 5

theorem exMixedHistoryB_script : AllOfScriptB exMakers (kindsOf [exMixedApp]) exMixedScript.graph
    (setupWith [exMixedApp] [exCodegen]) (BWorld.init (kindsOf [exMixedApp])) exMixedHistoryB := by
  refine allOfScriptB_of _ ?_ (by decide +kernel)
  intro g' s' hm
  simp only [exMixedHistoryB, exMixedTasksB, if_true, if_false, Bool.false_eq_true, List.append_nil,
    List.mem_append, List.mem_cons, List.not_mem_nil, reduceCtorEq, false_or, or_false,
    BWEvent.launch.injEq] at hm
  rcases hm with ⟨rfl, rfl⟩ | ⟨rfl, rfl⟩ <;> exact ⟨rfl, fun j _ => SameSetup.refl _⟩

/-- The hypotheses of `C99_project_partial` are met. -/
example : ∃ orders : Str → List Str, ∀ o, InOrder exMixedScript.graph o →
    text (((BWorld.init (kindsOf [exMixedApp])).steps exMakers exMixedHistoryB).step exMakers .join).files
      exMixedApp.output =
    buildAll exMakers (kindsOf [exMixedApp]) (setupWith [exMixedApp] [exCodegen]) orders o
      (sourcesOnly (kindsOf [exMixedApp]) exMixedScript.graph (setupWith [exMixedApp] [exCodegen])
        ((BWorld.init (kindsOf [exMixedApp])).steps exMakers exMixedHistoryB).files) exMixedApp.output := by
  have hp : exMixedScript.graph.ids.Perm (Names [exMixedApp] [exCodegen]) := List.Perm.swap _ _ _
  obtain ⟨orders, -, h⟩ := C99_project_partial (M := exMakers) exMixedScript_calls (by decide +kernel)
    hp exMixed_plain exMixed_once rfl exMixedHistoryB_script (by decide +kernel)
    (by decide +kernel) (by decide +kernel)
  exact ⟨orders, fun o ho => h o ho _ (.inl ⟨_, by simp, rfl⟩)⟩

example : text (((BWorld.init (kindsOf [exMixedApp])).steps exMakers exMixedHistoryB).step exMakers .join).files
    exMixedApp.output = some b!"m1 v2 py " := by decide +kernel

end Verif.Reg
