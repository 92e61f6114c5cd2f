import Verif.Generator.FileApiProps

/-! # C73: when a template generator can be built -/

namespace Verif.Generator
open Verif Verif.Command

theorem entries_paths {names : Str → Option Str} {root : Str} : ∀ {l : List (Str × Str)} {c : Cfg},
    Entries names root l c → ∃ ins outs, StandForPaths names (l.map (·.1)) ins ∧
      StandForPaths names (l.map (·.2)) outs ∧ ins.map (Path.lexRelative · root) = keys c
  | [], [], _ => ⟨[], [], trivial, trivial, rfl⟩
  | (i, o) :: l, (id, e) :: c, ⟨⟨si, so, h1, h2, h3, h4⟩, h⟩ => by
    obtain ⟨ins, outs, k1, k2, k3⟩ := entries_paths h
    refine ⟨Path.toPathString si :: ins, Path.toPathString so :: outs, ⟨⟨si, h1, rfl⟩, k1⟩, ⟨⟨so, h2, rfl⟩, k2⟩, ?_⟩
    simp only [keys, List.map_cons, h4] at k3 ⊢
    rw [k3]

/-- C73, exactly: `Build` goes through if and only if every pattern has a value and the inputs have different
paths relative to the root directory. -/
theorem C73_exact {dirs : List Str} {ops : List TemplateOp} {g : TemplateGen} {root : Str}
    {all : Filled} (h : templateApplyAll (newTemplateGen dirs) ops = some g)
    (hall : genApplyAll (newGenerator dirs) (templateNamesOf ops) = some all) :
    (∃ c, g.build root = some c) ↔ ∃ ins outs, StandForPaths all.get ((templatesOf ops).map (·.1)) ins ∧
      StandForPaths all.get ((templatesOf ops).map (·.2)) outs ∧
      (ins.map (Path.lexRelative · root)).Nodup := by
  constructor
  · rintro ⟨c, hc⟩
    obtain ⟨all', h1, h2, h3⟩ := C73_built h hc
    rw [hall, Option.some.injEq] at h1
    subst h1
    obtain ⟨ins, outs, k1, k2, k3⟩ := entries_paths h2
    exact ⟨ins, outs, k1, k2, by rw [k3]; exact h3⟩
  · rintro ⟨ins, outs, hi, ho, hd⟩
    obtain ⟨h1, h2⟩ := templateState (dirs := dirs) (before := []) (g := newTemplateGen dirs) rfl rfl h
    simp only [List.nil_append] at h1 h2
    rw [hall] at h1
    simp only [Option.some.injEq] at h1
    subst h1
    rw [← h2] at hi ho
    have go : ∀ (l : List (Str × Str)) (ins outs : List Str) (c : Cfg),
        StandForPaths g.gen.get (l.map (·.1)) ins → StandForPaths g.gen.get (l.map (·.2)) outs →
        (ins.map (Path.lexRelative · root)).Nodup → (∀ p ∈ ins, Path.lexRelative p root ∉ keys c) →
        ∃ c', templateCfg g.gen.command root c l = some c' := by
      intro l
      induction l with
      | nil => intro ins outs c _ _ _ _; exact ⟨c, rfl⟩
      | cons x l ih =>
        obtain ⟨i, o⟩ := x
        intro ins outs c hi ho hd hk
        match ins, outs, hi, ho with
        | a :: ins, b :: outs, ⟨⟨sa, ha, ea⟩, hi⟩, ⟨⟨sb, hb, eb⟩, ho⟩ =>
          subst ea eb
          have e1 := (construct_stands g.gen.command i sa).2 ha
          have e2 := (construct_stands g.gen.command o sb).2 hb
          have k3 := hk (Path.toPathString sa) (by simp)
          have e3 : addIdInfo g.gen.command c (Path.lexRelative (Path.toPathString sa) root) [i] [o] true none
              = some (c ++ [(Path.lexRelative (Path.toPathString sa) root,
                ⟨[Path.toPathString sa], [Path.toPathString sb], none⟩)]) := by
            have hf : (find (Path.lexRelative (Path.toPathString sa) root) c).isSome = false := by
              cases hx : (find (Path.lexRelative (Path.toPathString sa) root) c).isSome with
              | false => rfl
              | true => exact absurd (find_isSome.1 hx) k3
            simp [addIdInfo, hf, constructPaths, e1, e2]
          simp only [templateCfg, e1, e3]
          rw [List.map_cons, List.nodup_cons] at hd
          refine ih ins outs _ hi ho hd.2 fun p hp => ?_
          simp only [keys, List.map_append, List.map_cons, List.map_nil, List.mem_append,
            List.mem_singleton, not_or]
          exact ⟨hk p (by simp [hp]), fun he => hd.1 (by
            rw [← he]; exact List.mem_map_of_mem (f := (Path.lexRelative · root)) hp)⟩
    exact go _ ins outs [] hi ho hd fun p _ => by simp [keys]

/-- The root directory given with `..`: both inputs have the empty path. -/
example : Path.lexRelative b!"/p/s/a.in" b!"/p/s/.." = [] ∧ Path.lexRelative b!"/p/s/b.in" b!"/p/s/.." = [] ∧
    Path.lexRelative b!"/p/s/a.in" b!"/p" ≠ Path.lexRelative b!"/p/s/b.in" b!"/p" := by decide +kernel

/-- Two templates without placeholders that can be built. -/
example : ∃ g c, templateApplyAll (newTemplateGen [b!"/p", b!"/p/b", b!"/p", b!"/p/b/g"])
      [.addTemplate b!"/p/s/a.in" b!"/p/s/a", .addTemplate b!"/p/s/b.in" b!"/p/s/b"] = some g ∧
    g.build b!"/p" = some c := by
  have h : templateApplyAll (newTemplateGen [b!"/p", b!"/p/b", b!"/p", b!"/p/b/g"])
      [.addTemplate b!"/p/s/a.in" b!"/p/s/a", .addTemplate b!"/p/s/b.in" b!"/p/s/b"] = some _ := rfl
  obtain ⟨c, hc⟩ := (C73_exact (root := b!"/p") h rfl).2 ⟨[b!"/p/s/a.in", b!"/p/s/b.in"], [b!"/p/s/a", b!"/p/s/b"],
    (constructPaths_stand _ _ _).1 (by decide +kernel), (constructPaths_stand _ _ _).1 (by decide +kernel),
    by decide +kernel⟩
  exact ⟨_, c, h, hc⟩

end Verif.Generator
