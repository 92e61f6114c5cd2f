import Verif.Sample.MixedSpec

/-! # The generators of scripts given by their text: lemmas -/

namespace Verif.Sample
open Verif Verif.Schema Verif.Target Verif.Toolchain Verif.Path
open Verif.Generator (FileOp GenOp dirNames StandsFor fileApplyAll newFileGen newGenerator genApplyAll
  namesOf)
open Verif.Command (Seg srcs vals)

/-- The four directories of a generator. -/
def genDirs (p : Project) (d : GenDecl) : List Str :=
  [p.rootDir, p.buildDir, append p.rootDir d.dir, genDir p d.name]

theorem runGens_spec {p : Project} {ord : List Str → List Str} : ∀ {l : List GenDecl} {gs : List GenMade},
    runGens p ord l = some gs → gs.map (·.name) = l.map (·.name) ∧
      ∀ (i : Nat) (d : GenDecl) (g : GenMade), l[i]? = some d → gs[i]? = some g → g.name = d.name ∧
        ∃ fg, fileApplyAll (newFileGen (genDirs p d)) d.ops = some fg ∧
          fg.build (ord fg.inputs) (ord fg.outputs) = some g.cfg ∧ g.filled = fg.gen ∧
          g.commands = fg.commands
  | [], gs, h => by
    cases h
    simp
  | d :: l, gs, h => by
    rw [runGens] at h
    split at h
    · cases h
    split at h
    · cases h
    · rename_i fg hfg
      split at h
      · cases h
      · rename_i c hc
        obtain ⟨r, hr, rfl⟩ := Option.map_eq_some_iff.1 h
        obtain ⟨h1, h2⟩ := runGens_spec hr
        refine ⟨by simp [h1], ?_⟩
        intro i d' g hd hg
        cases i with
        | zero =>
          cases hd; cases hg
          exact ⟨rfl, fg, hfg, hc, rfl, rfl⟩
        | succ i => exact h2 i d' g hd hg

/-- The placeholders that calls define. -/
def patternsOf (l : List GenOp) : List Str := l.filterMap fun | .addPattern k _ => some k | _ => none

theorem get_none {dirs : List Str} : ∀ {ops : List GenOp} {g g' : Generator.Filled},
    genApplyAll g ops = some g' → (∀ op ∈ ops, ∃ k p, op = .addPattern k p) → ∀ k, g.get k = none →
    k ∉ patternsOf ops → g'.get k = none
  | [], g, g', h, _, k, hk, _ => by cases h; exact hk
  | op :: ops, g, g', h, hop, k, hk, hn => by
    obtain ⟨j, q, rfl⟩ := hop op (List.mem_cons_self ..)
    rw [genApplyAll] at h
    split at h
    · cases h
    · rename_i g1 h1
      refine get_none (dirs := dirs) h (fun x hx => hop x (List.mem_cons_of_mem _ hx)) k ?_ ?_
      · obtain ⟨s, -, e⟩ := Generator.addPattern_some (k := j) (p := q) h1
        rw [e]
        show Command.getDefault (Command.addDefault g.command j s) k = none
        have hne : k ≠ j := by
          intro e
          apply hn
          simp [patternsOf, e]
        rw [Command.getDefault_addDefault]
        have : Command.getDefault g.command k = none := hk
        rw [this]
        simp [Ne.symm hne]
      · intro hm
        apply hn
        simp only [patternsOf, List.filterMap_cons] at hm ⊢
        exact List.mem_cons_of_mem _ hm

theorem new_none {p : Project} {d : GenDecl} {k : Str} (h : k ∉ dirNames) :
    (newGenerator (genDirs p d)).get k = none := by
  have h4 : ∀ j ∈ dirNames, k ≠ j := fun j hj e => h (e ▸ hj)
  simp only [dirNames, List.mem_cons, List.not_mem_nil, or_false, forall_eq_or_imp, forall_eq] at h4
  simp only [Generator.Filled.get, newGenerator, Command.getDefault_addDefaults, dirNames, genDirs]
  simp [Command.getDefault, Command.lookupArg, Ne.symm h4.1, Ne.symm h4.2.1, Ne.symm h4.2.2.1, Ne.symm h4.2.2.2]

theorem namesOf_fine {d : GenDecl} : ∀ {l : List FileOp}, (∀ op ∈ l, d.OpFine op) →
    ∀ op ∈ namesOf l, ∃ k p, op = .addPattern k p
  | [], _, op, h => by cases h
  | x :: l, hf, op, h => by
    have ih := namesOf_fine (d := d) fun y hy => hf y (List.mem_cons_of_mem _ hy)
    cases x with
    | addPattern k p =>
      rcases List.mem_cons.1 h with rfl | h
      · exact ⟨k, p, rfl⟩
      · exact ih op h
    | addPatterns m => exact absurd (hf _ (List.mem_cons_self ..)) id
    | addInput q => exact ih op h
    | addOutput q => exact ih op h
    | addCommand q a => exact ih op h

theorem patternsOf_names (l : List FileOp) (hf : ∀ op ∈ l, ∀ m, op ≠ .addPatterns m) :
    patternsOf (namesOf l) = (l.filterMap fun | .addPattern k p => some (k, p) | _ => none).map
      (fun x : Str × Str => x.1) := by
  induction l with
  | nil => rfl
  | cons x l ih =>
    have ih := ih fun y hy => hf y (List.mem_cons_of_mem _ hy)
    cases x with
    | addPatterns m => exact absurd rfl (hf _ (List.mem_cons_self ..) m)
    | addPattern k p =>
      simp only [namesOf, patternsOf, List.filterMap_cons, List.map_cons] at ih ⊢
      rw [ih]
    | _ => simpa only [namesOf, patternsOf, List.filterMap_cons] using ih

theorem stands_unique {g : Generator.Filled} {p s t : Str} (h1 : StandsFor g.get p s)
    (h2 : StandsFor g.get p t) : s = t := by
  have e1 := (Generator.construct_stands g.command p s).2 h1
  have e2 := (Generator.construct_stands g.command p t).2 h2
  rw [e1] at e2
  exact Command.Out.value.inj e2

/-- What the pattern of a file in the directory of the generator stands for. -/
theorem stands_local {g : Generator.Filled} {gen dir pat s : Str} (hd : g.get b!"current_build_dir" = some dir)
    (hp : LocalPattern gen pat) (h : StandsFor g.get pat s) : s = dir ++ b!"/" ++ localName pat := by
  obtain ⟨h0, -, h1, h2, -⟩ := hp
  refine stands_unique h ⟨[.field b!"current_build_dir", .text b!"/", .text (localName pat)], ?_, ?_, ?_⟩
  · simp only [List.mem_cons, List.not_mem_nil, or_false, forall_eq_or_imp, forall_eq]
    exact ⟨by decide +kernel, by decide +kernel, h1, h2⟩
  · refine Eq.trans ?_ h0.symm
    simp [srcs, Seg.src, inDir]
  · simp [vals, Seg.val, hd]

theorem stands_field {g : Generator.Filled} {k v s : Str} (hk : Command.IsIdent k) (hv : g.get k = some v)
    (h : StandsFor g.get (b!"{" ++ k ++ b!"}") s) : s = v := by
  refine stands_unique h ⟨[.field k], by simpa [Seg.Ok] using hk, by simp [srcs, Seg.src], ?_⟩
  simp [vals, Seg.val, hv]

theorem output_mem {x : Str} : ∀ {l : List FileOp}, x ∈ Generator.outputPatterns l → .addOutput x ∈ l
  | [], h => by cases h
  | op :: l, h => by
    cases op with
    | addOutput q =>
      rcases List.mem_cons.1 h with rfl | h
      · exact List.mem_cons_self ..
      · exact List.mem_cons_of_mem _ (output_mem h)
    | _ => exact List.mem_cons_of_mem _ (output_mem h)

theorem pattern_mem {d : GenDecl} {k pat : Str} (h : (k, pat) ∈ d.patterns) : .addPattern k pat ∈ d.ops := by
  obtain ⟨op, hop, he⟩ := List.mem_filterMap.1 h
  cases op <;> simp at he
  obtain ⟨rfl, rfl⟩ := he
  exact hop

theorem stands_mem {names : Str → Option Str} : ∀ {ps qs : List Str}, Generator.StandForPaths names ps qs →
    ∀ q ∈ qs, ∃ x ∈ ps, ∃ s, StandsFor names x s ∧ q = toPathString s
  | [], [], _, q, h => by cases h
  | [], _ :: _, h, _, _ => absurd h id
  | _ :: _, [], h, _, _ => absurd h id
  | x :: ps, y :: qs, h, q, hq => by
    rcases List.mem_cons.1 hq with rfl | hq
    · obtain ⟨s, h1, h2⟩ := h.1
      exact ⟨x, List.mem_cons_self .., s, h1, h2⟩
    · obtain ⟨z, hz, s, h1, h2⟩ := stands_mem h.2 q hq
      exact ⟨z, List.mem_cons_of_mem _ hz, s, h1, h2⟩

theorem stands_of {names : Str → Option Str} : ∀ {ps qs : List Str}, Generator.StandForPaths names ps qs →
    ∀ x ∈ ps, ∃ s, StandsFor names x s ∧ toPathString s ∈ qs
  | [], _, _, x, h => by cases h
  | _ :: _, [], h, _, _ => absurd h id
  | y :: ps, z :: qs, h, x, hx => by
    rcases List.mem_cons.1 hx with rfl | hx
    · obtain ⟨s, h1, rfl⟩ := h.1
      exact ⟨s, h1, List.mem_cons_self ..⟩
    · obtain ⟨s, h1, h2⟩ := stands_of h.2 x hx
      exact ⟨s, h1, List.mem_cons_of_mem _ h2⟩

section
variable {p : Project} {d : GenDecl} {fg : Generator.FileGen}

theorem get_dir (hg : genApplyAll (newGenerator (genDirs p d)) ops = some g) :
    g.get b!"current_build_dir" = some (toPathString (genDir p d.name)) :=
  (Generator.C68_directories _ _ _ _ hg).2.2.2

/-- The value of a placeholder. -/
theorem get_pattern (hf : d.Fine) (h : fileApplyAll (newFileGen (genDirs p d)) d.ops = some fg)
    {k pat : Str} (hm : .addPattern k pat ∈ d.ops) :
    fg.gen.get k = some (toPathString (genDir p d.name) ++ b!"/" ++ localName pat) := by
  obtain ⟨-, -, hops, hnd⟩ := hf
  obtain ⟨a, b, hab⟩ := List.append_of_mem hm
  have hg := (Generator.fileState h).gen
  have hap : ∀ op ∈ d.ops, ∀ m, op ≠ .addPatterns m := by
    rintro op ho m rfl
    exact hops _ ho
  rw [hab, Generator.namesOf_append, namesOf] at hg
  obtain ⟨then_, s, h1, h2, h3, -⟩ := Generator.C68_pattern hg
  have hfine := hops _ hm
  have hn : then_.get k = none := by
    refine get_none (dirs := []) h1 ?_ k (new_none hfine.2.1) ?_
    · exact namesOf_fine fun op ho => hops op (by rw [hab]; exact List.mem_append_left _ ho)
    · rw [patternsOf_names a fun op ho => hap op (by rw [hab]; exact List.mem_append_left _ ho)]
      rw [GenDecl.patterns, hab, List.filterMap_append, List.map_append, List.filterMap_cons] at hnd
      intro hk
      exact (List.nodup_append.1 hnd).2.2 k hk k (by simp) rfl
  rw [h3, hn, stands_local (get_dir h1) hfine.2.2 h2]
  rfl

/-- The outputs are files in the directory of the generator; those of placeholders are among them. -/
theorem outputs_local {ord : List Str → List Str} (hord : ∀ l, (ord l).Perm l) (hf : d.Fine)
    (hb : Reg.Absolute p.buildDir) (h : fileApplyAll (newFileGen (genDirs p d)) d.ops = some fg)
    {c : Generator.Cfg} (hc : fg.build (ord fg.inputs) (ord fg.outputs) = some c) :
    (∀ q ∈ Reg.ScriptGen.outputs ⟨d.name, c⟩, ∃ n, PlainName n ∧
      q = p.buildDir ++ b!"/" ++ d.name ++ b!"/" ++ n) ∧
    ∀ k pat, .addPattern k pat ∈ d.ops → b!"{" ++ k ++ b!"}" ∈ Generator.outputPatterns d.ops →
      p.buildDir ++ b!"/" ++ d.name ++ b!"/" ++ localName pat ∈ Reg.ScriptGen.outputs ⟨d.name, c⟩ := by
  have hdir : genDir p d.name = p.buildDir ++ b!"/" ++ d.name ∧ Reg.Absolute (p.buildDir ++ b!"/" ++ d.name) := by
    have := hb.append hf.1
    rw [genDir, this.1]
    exact ⟨rfl, this.1 ▸ this.2⟩
  have habs : ∀ {n : Str}, PlainName n → toPathString (p.buildDir ++ b!"/" ++ d.name ++ b!"/" ++ n) =
      p.buildDir ++ b!"/" ++ d.name ++ b!"/" ++ n := fun hn => by
    have := hdir.2.append hn
    rw [this.1] at this
    exact this.2.2.1
  obtain ⟨i, o, commands, all, rfl, -, hall, -, -, ho, hst⟩ := Generator.C72_built h (hord _) (hord _) hc
  have hg : all = fg.gen := Option.some.inj (hall.symm.trans (Generator.fileState h).gen)
  subst hg
  have hlocal : ∀ {x : Str}, x ∈ Generator.outputPatterns d.ops → ∃ n, PlainName n ∧
      ∀ s, StandsFor fg.gen.get x s → s = p.buildDir ++ b!"/" ++ d.name ++ b!"/" ++ n := by
    intro x hx
    have hop : .addOutput x ∈ d.ops := output_mem hx
    rcases hf.2.2.1 _ hop with hk | hl
    · obtain ⟨⟨k, pat⟩, hkm, rfl⟩ := List.mem_map.1 hk
      have hpm := pattern_mem hkm
      have hfine := hf.2.2.1 _ hpm
      refine ⟨localName pat, hfine.2.2.2.1, fun s hs => ?_⟩
      rw [stands_field hfine.1 (get_pattern hf h hpm) hs, hdir.1, hdir.2.2.1]
    · refine ⟨localName x, hl.2.1, fun s hs => ?_⟩
      rw [stands_local (get_dir (Generator.fileState h).gen) hl hs, hdir.1, hdir.2.2.1]
  have hout : Reg.ScriptGen.outputs ⟨d.name, [(b!"Generate", ⟨i, o, some (Generator.typedHandler commands)⟩)]⟩ = o := by
    simp [Reg.ScriptGen.outputs]
  rw [hout]
  refine ⟨?_, ?_⟩
  · intro q hq
    obtain ⟨x, hx, s, hs, rfl⟩ := stands_mem hst q hq
    obtain ⟨n, hn, hn'⟩ := hlocal ((ho.2 x).1 hx)
    exact ⟨n, hn, by rw [hn' s hs, habs hn]⟩
  · intro k pat hpm hx
    obtain ⟨s, hs, hq⟩ := stands_of hst _ ((ho.2 _).2 hx)
    have hfine := hf.2.2.1 _ hpm
    rw [stands_field hfine.1 (get_pattern hf h hpm) hs, hdir.1, hdir.2.2.1, habs hfine.2.2.2.1] at hq
    exact hq
end

end Verif.Sample
