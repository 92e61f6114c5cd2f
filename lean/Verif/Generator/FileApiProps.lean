import Verif.Generator.FileApi
import Verif.Generator.ApiProps
import Verif.Generator.FileProps
import Verif.Path.Props

/-! # Filling a file generator (C72) and a template generator (C73) -/

namespace Verif.Generator
open Verif Verif.Command

/-! ## Specification -/

/-- The values of the placeholders in a command: those of the generator, then the arguments. -/
def withArgs (names : Str → Option Str) (args : Args) (n : Str) : Option Str :=
  match names n with
  | some v => some v
  | none => lookupArg args n

/-- The input patterns given by the calls. -/
def inputPatterns : List FileOp → List Str
  | [] => []
  | .addInput p :: ops => p :: inputPatterns ops
  | _ :: ops => inputPatterns ops

/-- The output patterns given by the calls. -/
def outputPatterns : List FileOp → List Str
  | [] => []
  | .addOutput p :: ops => p :: outputPatterns ops
  | _ :: ops => outputPatterns ops

/-- `l` has exactly the elements of `m`, each once. -/
def SetOf (l m : List Str) : Prop := l.Nodup ∧ ∀ x, x ∈ l ↔ x ∈ m

/-- The calls that only define placeholders. -/
def namesOf : List FileOp → List GenOp
  | [] => []
  | .addPattern k p :: ops => .addPattern k p :: namesOf ops
  | .addPatterns l :: ops => .addPatterns l :: namesOf ops
  | _ :: ops => namesOf ops

/-- The commands that the calls give: each stands for its pattern with the placeholders
defined before it. -/
inductive Commands (dirs : List Str) : List FileOp → List Str → Prop
  | none : Commands dirs [] []
  | command {ops cs p args s g} : Commands dirs ops cs →
      genApplyAll (newGenerator dirs) (namesOf ops) = some g →
      StandsFor (withArgs g.get args) p s →
      Commands dirs (ops ++ [.addCommand p args]) (cs ++ [s])
  | other {ops cs op} : Commands dirs ops cs → (∀ p args, op ≠ .addCommand p args) →
      Commands dirs (ops ++ [op]) cs

/-! ## Lemmas -/

theorem construct_withArgs (d : Defaults) (p s : Str) (args : Args) :
    construct d p args = .value s ↔ StandsFor (withArgs (getDefault d) args) p s := by
  rw [construct_value_iff, StandsFor]
  have : bound d args = withArgs (getDefault d) args := by
    funext n
    rw [bound, withArgs]
    cases getDefault d n <;> simp
  rw [this]

theorem fileApplyAll_append (g : FileGen) (a b : List FileOp) :
    fileApplyAll g (a ++ b) = (fileApplyAll g a).bind fun g => fileApplyAll g b := by
  induction a generalizing g with
  | nil => rfl
  | cons op a ih =>
    simp only [List.cons_append, fileApplyAll]
    cases fileApply g op with
    | none => rfl
    | some g => exact ih g

theorem inputPatterns_append (a b : List FileOp) : inputPatterns (a ++ b) = inputPatterns a ++ inputPatterns b := by
  induction a with
  | nil => rfl
  | cons op a ih => cases op <;> simp [inputPatterns, ih]

theorem outputPatterns_append (a b : List FileOp) : outputPatterns (a ++ b) = outputPatterns a ++ outputPatterns b := by
  induction a with
  | nil => rfl
  | cons op a ih => cases op <;> simp [outputPatterns, ih]

theorem namesOf_append (a b : List FileOp) :
    namesOf (a ++ b) = namesOf a ++ namesOf b := by
  induction a with
  | nil => rfl
  | cons op a ih => cases op <;> simp [namesOf, ih]

theorem setAdd_set {l m : List Str} {x : Str} (h : SetOf l m) : SetOf (setAdd l x) (m ++ [x]) := by
  rw [setAdd]
  split
  · rename_i hx
    refine ⟨h.1, fun y => ?_⟩
    simp only [List.mem_append, List.mem_singleton]
    exact ⟨fun hy => .inl ((h.2 y).1 hy), fun hy => hy.elim (h.2 y).2 (· ▸ hx)⟩
  · rename_i hx
    refine ⟨List.nodup_append.2 ⟨h.1, by simp, ?_⟩, fun y => ?_⟩
    · rintro a ha b hb rfl
      simp only [List.mem_singleton] at hb
      exact hx (hb ▸ ha)
    · simp only [List.mem_append, h.2 y]

/-- What a file generator has after the calls. -/
structure FileState (dirs : List Str) (ops : List FileOp) (g : FileGen) : Prop where
  gen : genApplyAll (newGenerator dirs) (namesOf ops) = some g.gen
  ids : g.gen.ids = []
  inputs : SetOf g.inputs (inputPatterns ops)
  outputs : SetOf g.outputs (outputPatterns ops)
  commands : Commands dirs ops g.commands

theorem gen_snoc {dirs : List Str} {ops : List GenOp} {g g' : Filled} {op : GenOp}
    (h : genApplyAll (newGenerator dirs) ops = some g) (h' : genApply g op = some g') :
    genApplyAll (newGenerator dirs) (ops ++ [op]) = some g' := by
  rw [genApplyAll_append, h, Option.bind_some, genApplyAll, h']
  rfl

theorem fileApply_state {dirs : List Str} {ops : List FileOp} {g g' : FileGen} {op : FileOp}
    (h : FileState dirs ops g) (h' : fileApply g op = some g') :
    FileState dirs (ops ++ [op]) g' := by
  cases op with
  | addPattern k p =>
    obtain ⟨x, hx, rfl⟩ := Option.map_eq_some_iff.1 h'
    have hi : x.ids = [] := by obtain ⟨s, -, rfl⟩ := addPattern_some hx; exact h.ids
    exact ⟨by rw [namesOf_append]; exact gen_snoc h.gen hx, hi,
      by rw [inputPatterns_append]; simpa [inputPatterns] using h.inputs,
      by rw [outputPatterns_append]; simpa [outputPatterns] using h.outputs,
      .other h.commands (by simp)⟩
  | addPatterns l =>
    obtain ⟨x, hx, rfl⟩ := Option.map_eq_some_iff.1 h'
    exact ⟨by rw [namesOf_append]; exact gen_snoc h.gen hx, by rw [(addPatterns_ids hx).1, h.ids],
      by rw [inputPatterns_append]; simpa [inputPatterns] using h.inputs,
      by rw [outputPatterns_append]; simpa [outputPatterns] using h.outputs,
      .other h.commands (by simp)⟩
  | addInput p =>
    simp only [fileApply, Option.some.injEq] at h'
    subst h'
    exact ⟨by rw [namesOf_append]; simpa [namesOf] using h.gen, h.ids,
      by rw [inputPatterns_append]; exact setAdd_set h.inputs,
      by rw [outputPatterns_append]; simpa [outputPatterns] using h.outputs,
      .other h.commands (by simp)⟩
  | addOutput p =>
    simp only [fileApply, Option.some.injEq] at h'
    subst h'
    exact ⟨by rw [namesOf_append]; simpa [namesOf] using h.gen, h.ids,
      by rw [inputPatterns_append]; simpa [inputPatterns] using h.inputs,
      by rw [outputPatterns_append]; exact setAdd_set h.outputs,
      .other h.commands (by simp)⟩
  | addCommand p args =>
    rw [fileApply] at h'
    split at h'
    · rename_i s hs
      simp only [Option.some.injEq] at h'
      subst h'
      exact ⟨by rw [namesOf_append]; simpa [namesOf] using h.gen, h.ids,
        by rw [inputPatterns_append]; simpa [inputPatterns] using h.inputs,
        by rw [outputPatterns_append]; simpa [outputPatterns] using h.outputs,
        .command h.commands h.gen ((construct_withArgs _ _ _ _).1 hs)⟩
    · simp at h'

theorem fileState_run {dirs : List Str} {before ops : List FileOp} {g g' : FileGen}
    (h : FileState dirs before g) (h' : fileApplyAll g ops = some g') :
    FileState dirs (before ++ ops) g' := by
  induction ops generalizing g before with
  | nil =>
    simp only [fileApplyAll, Option.some.injEq] at h'
    subst h'
    simpa using h
  | cons op ops ih =>
    rw [fileApplyAll] at h'
    split at h'
    · simp at h'
    · rename_i g1 h1
      have := ih (fileApply_state h h1) h'
      simpa using this

theorem fileState {dirs : List Str} {ops : List FileOp} {g : FileGen}
    (h : fileApplyAll (newFileGen dirs) ops = some g) : FileState dirs ops g := by
  have h0 : FileState dirs [] (newFileGen dirs) :=
    ⟨rfl, rfl, ⟨by simp [newFileGen], by simp [newFileGen, inputPatterns]⟩,
      ⟨by simp [newFileGen], by simp [newFileGen, outputPatterns]⟩, .none⟩
  simpa using fileState_run h0 h

/-- C72: a file generator has one id.  Its blob is the list of the added commands in the
order of the calls, each with the placeholders that were defined before it.  Its inputs and
outputs are the added ones, each once, with all placeholders.  `ins` and `outs` are the
elements of the two hash sets in any order. -/
theorem C72_built {dirs : List Str} {ops : List FileOp} {g : FileGen} {ins outs : List Str}
    {c : Cfg} (h : fileApplyAll (newFileGen dirs) ops = some g)
    (hi : ins.Perm g.inputs) (ho : outs.Perm g.outputs) (hb : g.build ins outs = some c) :
    ∃ i o commands all, c = [(b!"Generate", ⟨i, o, some (typedHandler commands)⟩)] ∧
      Commands dirs ops commands ∧
      genApplyAll (newGenerator dirs) (namesOf ops) = some all ∧
      SetOf ins (inputPatterns ops) ∧ StandForPaths all.get ins i ∧
      SetOf outs (outputPatterns ops) ∧ StandForPaths all.get outs o := by
  have hs := fileState h
  obtain ⟨i, o, h1, h2, h3⟩ := fileCfg_some hb
  refine ⟨i, o, g.commands, g.gen, h3, hs.commands, hs.gen, ⟨hi.nodup_iff.2 hs.inputs.1, fun x =>
    hi.mem_iff.trans (hs.inputs.2 x)⟩, (constructPaths_stand _ _ _).1 h1, ⟨ho.nodup_iff.2 hs.outputs.1, fun x =>
    ho.mem_iff.trans (hs.outputs.2 x)⟩, (constructPaths_stand _ _ _).1 h2⟩

/-- C72: the commands are determined by the calls. -/
theorem C72_unique {dirs : List Str} {ops : List FileOp} {a b : List Str}
    (ha : Commands dirs ops a) (hb : Commands dirs ops b) : a = b := by
  induction ha generalizing b with
  | none =>
    generalize ho : ([] : List FileOp) = ops at hb
    cases hb with
    | none => rfl
    | command _ _ _ => simp at ho
    | other _ _ => simp at ho
  | @command ops cs p args s g hc hg hp ih =>
    generalize ho : ops ++ [.addCommand p args] = l at hb
    cases hb with
    | none => simp at ho
    | @command ops' cs' p' args' s' g' hc' hg' hp' =>
      obtain ⟨rfl, h2⟩ := List.append_inj' ho rfl
      simp only [List.cons.injEq, FileOp.addCommand.injEq, and_true] at h2
      obtain ⟨rfl, rfl⟩ := h2
      rw [hg] at hg'
      simp only [Option.some.injEq] at hg'
      subst hg'
      have e1 := (construct_withArgs g.command p s args).2 hp
      have e2 := (construct_withArgs g.command p s' args).2 hp'
      rw [e1] at e2
      simp only [Out.value.injEq] at e2
      rw [ih hc', e2]
    | other hc' hne =>
      obtain ⟨rfl, h2⟩ := List.append_inj' ho rfl
      simp only [List.cons.injEq, and_true] at h2
      exact absurd h2.symm (hne _ _)
  | @other ops cs op hc hne ih =>
    generalize ho : ops ++ [op] = l at hb
    cases hb with
    | none => simp at ho
    | command hc' hg' hp' =>
      obtain ⟨rfl, h2⟩ := List.append_inj' ho rfl
      simp only [List.cons.injEq, and_true] at h2
      exact absurd h2 (hne _ _)
    | other hc' hne' =>
      obtain ⟨rfl, h2⟩ := List.append_inj' ho rfl
      exact ih hc'

/-- A command may use a placeholder that is defined before it, an input one that is defined
after it. -/
def exFileOps : List FileOp :=
  [ .addInput b!"{src}/a.in", .addPattern b!"src" b!"{current_root_dir}/src",
    .addCommand b!"gen {src} {mode}" [(b!"mode", b!"-x"), (b!"src", b!"/ignored")],
    .addOutput b!"{current_build_dir}/a.out", .addInput b!"{src}/a.in", .addCommand b!"check" [] ]

example : ∃ g c, fileApplyAll (newFileGen exDirs) exFileOps = some g ∧
    g.build g.inputs g.outputs = some c ∧
    c.map (fun e => (e.1, e.2.inputs, e.2.outputs)) =
      [(b!"Generate", [b!"/r/sub/src/a.in"], [b!"/r/_build/sub/gen/a.out"])] ∧
    Commands exDirs exFileOps [b!"gen /r/sub/src -x", b!"check"] :=
  ⟨_, _, rfl, rfl, by decide +kernel, (fileState (g := (fileApplyAll (newFileGen exDirs) exFileOps).get
    (by decide +kernel)) (by simp)).commands⟩

/-- A placeholder of a command that is defined later ends the program. -/
example : fileApplyAll (newFileGen exDirs)
    [.addCommand b!"gen {src}" [], .addPattern b!"src" b!"/s"] = none := by decide +kernel

/-! ## C73 -/

/-- The templates of the calls. -/
def templatesOf : List TemplateOp → List (Str × Str)
  | [] => []
  | .addTemplate i o :: ops => (i, o) :: templatesOf ops
  | _ :: ops => templatesOf ops

/-- The calls that only define placeholders. -/
def templateNamesOf : List TemplateOp → List GenOp
  | [] => []
  | .addPattern k p :: ops => .addPattern k p :: templateNamesOf ops
  | .addPatterns l :: ops => .addPatterns l :: templateNamesOf ops
  | _ :: ops => templateNamesOf ops

/-- One entry for each template, in order: its input, its output and its id, which is the path of
the input relative to the root directory. -/
def Entries (names : Str → Option Str) (root : Str) : List (Str × Str) → Cfg → Prop
  | [], [] => True
  | (i, o) :: l, (id, e) :: c =>
    (∃ si so, StandsFor names i si ∧ StandsFor names o so ∧
      e = ⟨[Path.toPathString si], [Path.toPathString so], none⟩ ∧
      id = Path.lexRelative (Path.toPathString si) root) ∧ Entries names root l c
  | _, _ => False

theorem templatesOf_append (a b : List TemplateOp) :
    templatesOf (a ++ b) = templatesOf a ++ templatesOf b := by
  induction a with
  | nil => rfl
  | cons op a ih => cases op <;> simp [templatesOf, ih]

theorem templateNamesOf_append (a b : List TemplateOp) :
    templateNamesOf (a ++ b) = templateNamesOf a ++ templateNamesOf b := by
  induction a with
  | nil => rfl
  | cons op a ih => cases op <;> simp [templateNamesOf, ih]

theorem templateState {dirs : List Str} {before ops : List TemplateOp} {g g' : TemplateGen}
    (hn : genApplyAll (newGenerator dirs) (templateNamesOf before) = some g.gen)
    (ht : g.templates = templatesOf before) (h : templateApplyAll g ops = some g') :
    genApplyAll (newGenerator dirs) (templateNamesOf (before ++ ops)) = some g'.gen ∧
      g'.templates = templatesOf (before ++ ops) := by
  induction ops generalizing g before with
  | nil =>
    simp only [templateApplyAll, Option.some.injEq] at h
    subst h
    simpa using ⟨hn, ht⟩
  | cons op ops ih =>
    rw [templateApplyAll] at h
    split at h
    · simp at h
    · rename_i g1 h1
      have key : genApplyAll (newGenerator dirs) (templateNamesOf (before ++ [op])) = some g1.gen ∧
          g1.templates = templatesOf (before ++ [op]) := by
        rw [templateNamesOf_append, templatesOf_append]
        cases op with
        | addPattern k p =>
          obtain ⟨x, hx, rfl⟩ := Option.map_eq_some_iff.1 h1
          exact ⟨gen_snoc hn hx, by simpa [templatesOf] using ht⟩
        | addPatterns l =>
          obtain ⟨x, hx, rfl⟩ := Option.map_eq_some_iff.1 h1
          exact ⟨gen_snoc hn hx, by simpa [templatesOf] using ht⟩
        | addTemplate i o =>
          simp only [templateApply, Option.some.injEq] at h1
          subst h1
          exact ⟨by simpa [templateNamesOf] using hn, by simp [templatesOf, ht]⟩
      simpa using ih key.1 key.2 h

theorem templateCfg_some {d : Defaults} {root : Str} {c c' : Cfg} {l : List (Str × Str)}
    (h : templateCfg d root c l = some c') (hn : (keys c).Nodup) :
    (keys c').Nodup ∧ ∃ e, c' = c ++ e ∧ Entries (getDefault d) root l e := by
  induction l generalizing c with
  | nil =>
    simp only [templateCfg, Option.some.injEq] at h
    subst h
    exact ⟨hn, [], by simp, trivial⟩
  | cons x l ih =>
    obtain ⟨i, o⟩ := x
    rw [templateCfg] at h
    split at h
    · rename_i p hp
      split at h
      · rename_i c1 hc1
        obtain ⟨hk, -, pi, po, hi, ho, rfl⟩ := addIdInfo_some hc1
        have hn1 : (keys (c ++ [(Path.lexRelative (Path.toPathString p) root, ⟨pi, po, none⟩)])).Nodup := by
          simp only [keys, List.map_append, List.map_cons, List.map_nil]
          refine List.nodup_append.2 ⟨hn, by simp, ?_⟩
          rintro a ha b hb rfl
          simp only [List.mem_singleton] at hb
          exact hk (hb ▸ ha)
        obtain ⟨h1, e, h2, h3⟩ := ih h hn1
        refine ⟨h1, (Path.lexRelative (Path.toPathString p) root, ⟨pi, po, none⟩) :: e,
          by simp [h2], ?_, h3⟩
        match pi, po, hi, ho with
        | [a], [b], ⟨⟨sa, ha, ea⟩, _⟩, ⟨⟨sb, hb, eb⟩, _⟩ =>
          subst ea eb
          have : sa = p := by
            have := (construct_stands d i sa).2 ha
            rw [hp] at this
            simpa using this.symm
          subst this
          exact ⟨sa, sb, ha, hb, rfl, rfl⟩
      · simp at h
    · simp at h

/-- C73: a template generator has one entry for each template, in the order of the calls, with
the input and the output it was given and without a blob; the ids are distinct. -/
theorem C73_built {dirs : List Str} {ops : List TemplateOp} {g : TemplateGen} {root : Str}
    {c : Cfg} (h : templateApplyAll (newTemplateGen dirs) ops = some g)
    (hb : g.build root = some c) :
    ∃ all, genApplyAll (newGenerator dirs) (templateNamesOf ops) = some all ∧
      Entries all.get root (templatesOf ops) c ∧ (keys c).Nodup := by
  obtain ⟨h1, h2⟩ := templateState (dirs := dirs) (before := []) (g := newTemplateGen dirs) rfl rfl h
  simp only [List.nil_append] at h1 h2
  obtain ⟨h3, e, h4, h5⟩ := templateCfg_some hb (by simp [keys])
  rw [h2] at h5
  simp only [List.nil_append] at h4
  subst h4
  exact ⟨g.gen, h1, h5, h3⟩

/-- An input that gets an id of its own: an absolute path of a file that is not the root or a
directory above it, and that can be reached from the root, which is always the case when
the root has no `..`. -/
def Reachable (root p : Str) : Prop :=
  Path.isAbs (Path.toPathString p) = true ∧ Path.filename (Path.toPathString p) ≠ [] ∧
    ¬ Path.elems (Path.toPathString p) <+: Path.elems root ∧
    Path.lexRelative (Path.toPathString p) root ≠ []

/-- C73: templates with different inputs have different ids. -/
theorem C73_distinct_partial {root p q : Str} (hr : Path.isAbs root = true)
    (hp : Reachable root p) (hq : Reachable root q)
    (h : Path.lexRelative (Path.toPathString p) root = Path.lexRelative (Path.toPathString q) root) :
    Path.toPathString p = Path.toPathString q := by
  obtain ⟨p1, p2, p3, p4⟩ := hp
  obtain ⟨q1, q2, q3, q4⟩ := hq
  have hp' := Path.normal_idempotent p
  have hq' := Path.normal_idempotent q
  generalize Path.toPathString p = p at *
  generalize Path.toPathString q = q at *
  obtain ⟨m1, me1, mn1, rfl⟩ := Path.names_of_normal p p1 hp' p2
  obtain ⟨m2, me2, mn2, rfl⟩ := Path.names_of_normal q q1 hq' q2
  rw [Path.lexRelative_inj m1 m2 me1 me2 mn1 mn2 root hr
    (Path.not_prefix_elems m1 me1 mn1 root hr p3) (Path.not_prefix_elems m2 me2 mn2 root hr q3) p4 q4 h]

/-- C73: `Build` goes through when every pattern has a value and the inputs are different and
reachable. -/
theorem C73_builds_partial {dirs : List Str} {ops : List TemplateOp} {g : TemplateGen} {root : Str}
    {all : Filled} (h : templateApplyAll (newTemplateGen dirs) ops = some g)
    (hall : genApplyAll (newGenerator dirs) (templateNamesOf ops) = some all)
    (hr : Path.isAbs root = true) {ins outs : List Str}
    (hi : StandForPaths all.get ((templatesOf ops).map (·.1)) ins)
    (ho : StandForPaths all.get ((templatesOf ops).map (·.2)) outs)
    (hd : ins.Nodup) (hre : ∀ p ∈ ins, Reachable root p) :
    ∃ c, g.build root = some c := by
  obtain ⟨h1, h2⟩ := templateState (dirs := dirs) (before := []) (g := newTemplateGen dirs) rfl rfl h
  simp only [List.nil_append] at h1 h2
  rw [hall] at h1
  simp only [Option.some.injEq] at h1
  subst h1
  rw [← h2] at hi ho
  have norm : ∀ {l m : List Str}, StandForPaths g.gen.get l m → ∀ p ∈ m, Path.toPathString p = p := by
    intro l
    induction l with
    | nil => intro m hm; cases m with
      | nil => simp
      | cons _ _ => exact absurd hm id
    | cons a l ih => intro m hm; cases m with
      | nil => exact absurd hm id
      | cons b m =>
        obtain ⟨⟨s, -, rfl⟩, h2⟩ := hm
        intro p hp
        rcases List.mem_cons.1 hp with rfl | hp
        · exact Path.normal_idempotent s
        · exact ih h2 p hp
  have hnorm := norm hi
  have go : ∀ (l : List (Str × Str)) (ins outs : List Str) (c : Cfg),
      StandForPaths g.gen.get (l.map (·.1)) ins → StandForPaths g.gen.get (l.map (·.2)) outs →
      ins.Nodup → (∀ p ∈ ins, Reachable root p ∧ Path.toPathString p = p ∧
        Path.lexRelative p root ∉ keys c) →
      ∃ c', templateCfg g.gen.command root c l = some c' := by
    intro l
    induction l with
    | nil => intro ins outs c _ _ _ _; exact ⟨c, rfl⟩
    | cons x l ih =>
      obtain ⟨i, o⟩ := x
      intro ins outs c hi ho hd hk
      match ins, outs, hi, ho with
      | a :: ins, b :: outs, ⟨⟨sa, ha, ea⟩, hi⟩, ⟨⟨sb, hb, eb⟩, ho⟩ =>
        subst ea eb
        have e1 := (construct_stands g.gen.command i sa).2 ha
        have e2 := (construct_stands g.gen.command o sb).2 hb
        obtain ⟨k1, k2, k3⟩ := hk (Path.toPathString sa) (by simp)
        have e3 : addIdInfo g.gen.command c (Path.lexRelative (Path.toPathString sa) root) [i] [o] true none
            = some (c ++ [(Path.lexRelative (Path.toPathString sa) root,
              ⟨[Path.toPathString sa], [Path.toPathString sb], none⟩)]) := by
          have hf : (find (Path.lexRelative (Path.toPathString sa) root) c).isSome = false := by
            cases hx : (find (Path.lexRelative (Path.toPathString sa) root) c).isSome with
            | false => rfl
            | true => exact absurd (find_isSome.1 hx) k3
          simp [addIdInfo, hf, constructPaths, e1, e2]
        simp only [templateCfg, e1, e3]
        refine ih ins outs _ hi ho (List.nodup_cons.1 hd).2 fun p hp => ?_
        obtain ⟨q1, q2, q3⟩ := hk p (by simp [hp])
        refine ⟨q1, q2, ?_⟩
        simp only [keys, List.map_append, List.map_cons, List.map_nil, List.mem_append,
          List.mem_singleton, not_or]
        refine ⟨q3, fun he => (List.nodup_cons.1 hd).1 ?_⟩
        have he' : Path.lexRelative (Path.toPathString p) root =
            Path.lexRelative (Path.toPathString (Path.toPathString sa)) root := by
          rw [q2, Path.normal_idempotent]; exact he
        have := C73_distinct_partial hr q1 k1 he'
        rw [q2, k2] at this
        exact this ▸ hp
  exact go _ ins outs [] hi ho hd fun p hp => ⟨hre p hp, hnorm p hp, by simp [keys]⟩

/-- C73: two templates with the same input end the program. -/
theorem C73_duplicate {dirs : List Str} {ops : List TemplateOp} {g : TemplateGen} {root : Str}
    {a b c : List (Str × Str)} {i o o' : Str}
    (h : templateApplyAll (newTemplateGen dirs) ops = some g)
    (hd : templatesOf ops = a ++ (i, o) :: b ++ (i, o') :: c) : g.build root = none := by
  cases hb : g.build root with
  | none => rfl
  | some cfg =>
    obtain ⟨all, -, h1, h2⟩ := C73_built h hb
    rw [hd] at h1
    have cut : ∀ (l m : List (Str × Str)) (c : Cfg), Entries all.get root (l ++ m) c →
        ∃ c1 c2, c = c1 ++ c2 ∧ Entries all.get root m c2 := by
      intro l
      induction l with
      | nil => intro m c h; exact ⟨[], c, rfl, h⟩
      | cons x l ih =>
        intro m c h
        cases c with
        | nil => exact absurd h id
        | cons e c =>
          obtain ⟨c1, c2, e1, e2⟩ := ih m c h.2
          exact ⟨e :: c1, c2, by simp [e1], e2⟩
    rw [List.append_assoc] at h1
    obtain ⟨c1, c2, rfl, h3⟩ := cut _ _ _ h1
    cases c2 with
    | nil => exact absurd h3 id
    | cons e c2 =>
      obtain ⟨⟨s, -, hs, -, -, hid⟩, h4⟩ := h3
      obtain ⟨c3, c4, rfl, h5⟩ := cut b _ c2 h4
      cases c4 with
      | nil => exact absurd h5 id
      | cons e' c4 =>
        obtain ⟨⟨s', -, hs', -, -, hid'⟩, -⟩ := h5
        have e1 := (construct_stands all.command i s).2 hs
        have e2 := (construct_stands all.command i s').2 hs'
        rw [e1] at e2
        simp only [Out.value.injEq] at e2
        subst e2
        exfalso
        simp only [keys, List.map_append, List.map_cons] at h2
        have := (List.nodup_cons.1 (List.nodup_append.1 h2).2.1).1
        apply this
        rw [hid, ← hid']
        simp

def exTemplateOps : List TemplateOp :=
  [ .addTemplate b!"{current_root_dir}/{v}.in" b!"{current_build_dir}/v.c",
    .addPattern b!"v" b!"version", .addTemplate b!"/elsewhere/x.in" b!"/tmp/x" ]

example : ∃ g c, templateApplyAll (newTemplateGen exDirs) exTemplateOps = some g ∧
    g.build b!"/r" = some c ∧
    c.map (fun e => (e.1, e.2.inputs, e.2.outputs)) =
      [(b!"sub/version.in", [b!"/r/sub/version.in"], [b!"/r/_build/sub/gen/v.c"]),
       (b!"../elsewhere/x.in", [b!"/elsewhere/x.in"], [b!"/tmp/x"])] ∧
    Reachable b!"/r" b!"/r/sub/version.in" ∧ Reachable b!"/r" b!"/elsewhere/x.in" :=
  ⟨_, _, rfl, rfl, by decide +kernel, ⟨by decide +kernel, by decide +kernel, by decide +kernel, by decide +kernel⟩,
    ⟨by decide +kernel, by decide +kernel, by decide +kernel, by decide +kernel⟩⟩

/-- C73 is false for a project whose root directory is given with `..`, as `--root_dir ..` does:
templates below the working directory all get the empty id, so the second one ends the
program. -/
theorem C73_root_false : ∃ g, templateApplyAll
      (newTemplateGen [b!"/p/s/..", b!"/p/s/_internal", b!"/p/s/..", b!"/p/s/_internal/g"])
      [.addTemplate b!"/p/s/a.in" b!"/p/s/a", .addTemplate b!"/p/s/b.in" b!"/p/s/b"] = some g ∧
    g.build b!"/p/s/.." = none :=
  ⟨_, rfl, by decide +kernel⟩

end Verif.Generator
