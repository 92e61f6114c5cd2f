import Verif.Generator.Api
import Verif.Generator.Lemmas
import Verif.Command.Props

/-! # Filling a generator (C68) -/

namespace Verif.Generator
open Verif Verif.Command

/-! ## Specification -/

/-- `s` is what the pattern stands for when the names have these values. -/
def StandsFor (names : Str → Option Str) (pattern s : Str) : Prop :=
  ∃ l : List Seg, (∀ x ∈ l, x.Ok) ∧ srcs l = pattern ∧ vals names l = some s

/-- The same for a list of patterns of paths. -/
def StandForPaths (names : Str → Option Str) : List Str → List Str → Prop
  | [], [] => True
  | p :: ps, q :: qs => (∃ s, StandsFor names p s ∧ q = Path.toPathString s) ∧
      StandForPaths names ps qs
  | _, _ => False

/-- The ids that the calls add. -/
def idsOf : List GenOp → List Str
  | [] => []
  | .addIdInfo id _ _ _ _ :: ops => id :: idsOf ops
  | _ :: ops => idsOf ops

/-! ## Lemmas -/

theorem construct_stands (d : Defaults) (p s : Str) :
    construct d p [] = .value s ↔ StandsFor (getDefault d) p s := by
  rw [construct_value_iff]
  have : bound d [] = getDefault d := by
    funext n
    rw [bound]
    cases getDefault d n <;> simp [lookupArg]
  rw [this, StandsFor]

theorem constructPaths_stand (d : Defaults) (ps qs : List Str) :
    constructPaths d ps = some qs ↔ StandForPaths (getDefault d) ps qs := by
  induction ps generalizing qs with
  | nil => cases qs <;> simp [constructPaths, StandForPaths]
  | cons p ps ih =>
    rw [constructPaths]
    constructor
    · intro h
      split at h
      · rename_i s r h1 h2
        simp only [Option.some.injEq] at h
        subst h
        exact ⟨⟨s, (construct_stands d p s).1 h1, rfl⟩, (ih r).1 h2⟩
      · simp at h
    · intro h
      cases qs with
      | nil => exact absurd h id
      | cons q qs =>
        obtain ⟨⟨s, h1, rfl⟩, h2⟩ := h
        rw [(construct_stands d p s).2 h1, (ih qs).2 h2]

theorem genApplyAll_append (g : Filled) (a b : List GenOp) :
    genApplyAll g (a ++ b) = (genApplyAll g a).bind fun g => genApplyAll g b := by
  induction a generalizing g with
  | nil => rfl
  | cons op a ih =>
    simp only [List.cons_append, genApplyAll]
    cases genApply g op with
    | none => rfl
    | some g => exact ih g

theorem idsOf_append (a b : List GenOp) : idsOf (a ++ b) = idsOf a ++ idsOf b := by
  induction a with
  | nil => rfl
  | cons op a ih => cases op <;> simp [idsOf, ih]

theorem addPattern_some {g g' : Filled} {k p : Str} (h : addPattern g k p = some g') :
    ∃ s, StandsFor g.get p s ∧ g' = { g with command := addDefault g.command k s } := by
  rw [addPattern] at h
  split at h
  · rename_i s hs
    simp only [Option.some.injEq] at h
    exact ⟨s, (construct_stands _ _ _).1 hs, h.symm⟩
  · simp at h

theorem addPatterns_ids {g g' : Filled} {l : List (Str × Str)} (h : addPatterns g l = some g') :
    g'.ids = g.ids ∧ ∀ n v, g.get n = some v → g'.get n = some v := by
  induction l generalizing g with
  | nil => simp only [addPatterns, Option.some.injEq] at h; subst h; simp
  | cons x l ih =>
    obtain ⟨k, p⟩ := x
    rw [addPatterns] at h
    split at h
    · simp at h
    · rename_i g1 h1
      obtain ⟨s, -, rfl⟩ := addPattern_some h1
      obtain ⟨h2, h3⟩ := ih h
      refine ⟨h2, fun n v hn => h3 n v ?_⟩
      have hn : getDefault g.command n = some v := hn
      show getDefault (addDefault g.command k s) n = some v
      rw [getDefault_addDefault, hn]

theorem addIdInfo_some {d : Defaults} {c c' : Cfg} {id : Str} {ins outs : List Str} {cb : Bool}
    {h : Option Handler} (hs : addIdInfo d c id ins outs cb h = some c') :
    id ∉ keys c ∧ cb = true ∧ ∃ i o, StandForPaths (getDefault d) ins i ∧
      StandForPaths (getDefault d) outs o ∧ c' = c ++ [(id, ⟨i, o, h⟩)] := by
  rw [addIdInfo] at hs
  split at hs
  · simp at hs
  · rename_i h1
    split at hs
    · simp at hs
    · rename_i h2
      split at hs
      · rename_i i o h3 h4
        simp only [Option.some.injEq] at hs
        refine ⟨fun hk => h1 (find_isSome.2 hk), by simpa using h2, i, o,
          (constructPaths_stand _ _ _).1 h3, (constructPaths_stand _ _ _).1 h4, hs.symm⟩
      · simp at hs

theorem genApply_some {g g' : Filled} {op : GenOp} (h : genApply g op = some g') :
    (∃ c, g'.ids = g.ids ++ c ∧ keys c = idsOf [op] ∧ ∀ id ∈ keys c, id ∉ keys g.ids) ∧
    (∀ n v, g.get n = some v → g'.get n = some v) := by
  cases op with
  | addPattern k p =>
    obtain ⟨s, -, rfl⟩ := addPattern_some h
    refine ⟨⟨[], by simp, rfl, by simp [keys]⟩, fun n v hn => ?_⟩
    have hn : getDefault g.command n = some v := hn
    show getDefault (addDefault g.command k s) n = some v
    rw [getDefault_addDefault, hn]
  | addPatterns l =>
    obtain ⟨h1, h2⟩ := addPatterns_ids h
    exact ⟨⟨[], by simp [h1], rfl, by simp [keys]⟩, h2⟩
  | addIdInfo id ins outs cb hd =>
    rw [genApply] at h
    split at h
    · rename_i c hc
      simp only [Option.some.injEq] at h
      subst h
      obtain ⟨h1, -, i, o, -, -, rfl⟩ := addIdInfo_some hc
      exact ⟨⟨[(id, ⟨i, o, hd⟩)], rfl, rfl, by simpa [keys] using h1⟩, fun n v hn => hn⟩
    · simp at h

theorem genApplyAll_some {g g' : Filled} {ops : List GenOp} (h : genApplyAll g ops = some g')
    (hn : (keys g.ids).Nodup) :
    (∃ c, g'.ids = g.ids ++ c ∧ keys c = idsOf ops) ∧ (keys g'.ids).Nodup ∧
    (∀ n v, g.get n = some v → g'.get n = some v) := by
  induction ops generalizing g with
  | nil =>
    simp only [genApplyAll, Option.some.injEq] at h
    subst h
    exact ⟨⟨[], by simp, rfl⟩, hn, fun _ _ h => h⟩
  | cons op ops ih =>
    rw [genApplyAll] at h
    split at h
    · simp at h
    · rename_i g1 h1
      obtain ⟨⟨c1, e1, k1, d1⟩, m1⟩ := genApply_some h1
      have hn1 : (keys g1.ids).Nodup := by
        rw [e1]
        simp only [keys, List.map_append, List.nodup_append]
        refine ⟨hn, ?_, ?_⟩
        · show (keys c1).Nodup
          rw [k1]
          cases op <;> simp [idsOf]
        · intro a ha b hb he
          exact d1 b hb (he ▸ ha)
      obtain ⟨⟨c2, e2, k2⟩, hn2, m2⟩ := ih h hn1
      refine ⟨⟨c1 ++ c2, by rw [e2, e1, List.append_assoc], ?_⟩, hn2,
        fun n v h => m2 n v (m1 n v h)⟩
      rw [← List.singleton_append, idsOf_append, ← k1, ← k2]
      simp [keys]

theorem new_ids (dirs : List Str) : (keys (newGenerator dirs).ids).Nodup := by
  simp [newGenerator, keys]

/-! ## C68 -/

variable {dirs : List Str} {g : Filled}

/-- C68: the ids of a generator are those of the calls of `AddIdInfo`, in order, and they are
distinct. -/
theorem C68_ids {ops : List GenOp} (h : genApplyAll (newGenerator dirs) ops = some g) :
    keys g.ids = idsOf ops ∧ (keys g.ids).Nodup := by
  obtain ⟨⟨c, h1, h2⟩, h3, -⟩ := genApplyAll_some h (new_ids dirs)
  refine ⟨?_, h3⟩
  rw [h1, ← h2]
  rfl

/-- C68: a second call with the same id is fatal. -/
theorem C68_duplicate {ops : List GenOp} (h : ¬ (idsOf ops).Nodup) :
    genApplyAll (newGenerator dirs) ops = none := by
  cases hg : genApplyAll (newGenerator dirs) ops with
  | none => rfl
  | some g => exact absurd ((C68_ids hg).1 ▸ (C68_ids hg).2) h

/-- C68: the inputs and outputs of an id are what the patterns stand for at the time of its
call; later calls do not change them. -/
theorem C68_paths {before after : List GenOp} {id : Str} {ins outs : List Str} {cb : Bool}
    {hd : Option Handler}
    (h : genApplyAll (newGenerator dirs) (before ++ .addIdInfo id ins outs cb hd :: after) =
      some g) :
    cb = true ∧ ∃ then_ i o, genApplyAll (newGenerator dirs) before = some then_ ∧
      StandForPaths then_.get ins i ∧ StandForPaths then_.get outs o ∧
      find id g.ids = some ⟨i, o, hd⟩ := by
  have hnd := (C68_ids h).2
  rw [genApplyAll_append] at h
  obtain ⟨g1, h1, h2⟩ := Option.bind_eq_some_iff.1 h
  rw [genApplyAll] at h2
  split at h2
  · simp at h2
  · rename_i g2 h3
    have h3' := h3
    rw [genApply] at h3
    split at h3
    · rename_i c hc
      simp only [Option.some.injEq] at h3
      obtain ⟨-, hcb, i, o, hi, ho, he⟩ := addIdInfo_some hc
      obtain ⟨-, hn1, -⟩ := genApplyAll_some h1 (new_ids dirs)
      have hn2 : (keys g2.ids).Nodup := (genApplyAll_some (ops := [.addIdInfo id ins outs cb hd])
        (by rw [genApplyAll, h3']; rfl) hn1).2.1
      obtain ⟨⟨c2, e2, -⟩, -, -⟩ := genApplyAll_some h2 hn2
      refine ⟨hcb, g1, i, o, h1, hi, ho, mem_find hnd ?_⟩
      rw [e2, ← h3]
      simp [he]
    · simp at h3

/-- C68: a placeholder has the value that its first `AddPattern` gives it, with the values
that the other placeholders have at that time, and keeps it. -/
theorem C68_pattern {before after : List GenOp} {k p : Str}
    (h : genApplyAll (newGenerator dirs) (before ++ .addPattern k p :: after) = some g) :
    ∃ then_ s, genApplyAll (newGenerator dirs) before = some then_ ∧ StandsFor then_.get p s ∧
      g.get k = some ((then_.get k).getD s) ∧
      ∀ n v, then_.get n = some v → g.get n = some v := by
  rw [genApplyAll_append] at h
  obtain ⟨g1, h1, h2⟩ := Option.bind_eq_some_iff.1 h
  obtain ⟨-, hn1, -⟩ := genApplyAll_some h1 (new_ids dirs)
  obtain ⟨-, -, m1⟩ := genApplyAll_some h2 hn1
  rw [genApplyAll] at h2
  split at h2
  · simp at h2
  · rename_i g2 h3
    obtain ⟨s, hs, e⟩ := addPattern_some (k := k) (p := p) h3
    have hn2 : (keys g2.ids).Nodup := by rw [e]; exact hn1
    obtain ⟨-, -, m2⟩ := genApplyAll_some h2 hn2
    refine ⟨g1, s, h1, hs, m2 _ _ ?_, m1⟩
    rw [e]
    show getDefault (addDefault g1.command k s) k = _
    rw [getDefault_addDefault]
    show _ = some ((getDefault g1.command k).getD s)
    cases getDefault g1.command k <;> simp

/-- C68: the four directories are available from the start. -/
theorem C68_directories (pr pb cr cb : Str) {ops : List GenOp}
    (h : genApplyAll (newGenerator [pr, pb, cr, cb]) ops = some g) :
    g.get b!"project_root_dir" = some (Path.toPathString pr) ∧
    g.get b!"project_build_dir" = some (Path.toPathString pb) ∧
    g.get b!"current_root_dir" = some (Path.toPathString cr) ∧
    g.get b!"current_build_dir" = some (Path.toPathString cb) := by
  obtain ⟨-, -, m⟩ := genApplyAll_some h (new_ids _)
  refine ⟨m _ _ ?_, m _ _ ?_, m _ _ ?_, m _ _ ?_⟩ <;>
  · simp only [Filled.get, newGenerator, getDefault_addDefaults, dirNames]
    rfl

def exDirs : List Str := [b!"/r", b!"/r/_build", b!"/r/sub", b!"/r/_build/sub/gen"]

def exOps : List GenOp :=
  [ .addPattern b!"out" b!"{current_build_dir}/{{x}}",
    .addIdInfo b!"a" [b!"{current_root_dir}/./a.in"] [b!"{out}/a"] true none,
    .addPattern b!"out" b!"/other",
    .addIdInfo b!"b" [] [b!"{out}/b"] true none ]

example : ∃ g, genApplyAll (newGenerator exDirs) exOps = some g ∧
    keys g.ids = [b!"a", b!"b"] ∧
    g.ids.map (·.2.inputs) = [[b!"/r/sub/a.in"], []] ∧
    g.ids.map (·.2.outputs) = [[b!"/r/_build/sub/gen/{x}/a"], [b!"/r/_build/sub/gen/{x}/b"]] ∧
    g.get b!"out" = some b!"/r/_build/sub/gen/{x}" :=
  ⟨_, rfl, by decide +kernel, by decide +kernel, by decide +kernel, by decide +kernel⟩

example : genApplyAll (newGenerator exDirs) (exOps ++ [.addIdInfo b!"a" [] [] true none]) = none :=
  C68_duplicate (by decide +kernel)

end Verif.Generator
