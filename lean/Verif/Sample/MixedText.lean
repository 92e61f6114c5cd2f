import Verif.Sample.MixedGens

/-! # Scripts with generators given by their text: what targets take from them -/

namespace Verif.Sample
open Verif Verif.Schema Verif.Target Verif.Toolchain Verif.Path
open Verif.Boot (Filled fill fill_some texts texts_paths made_none)
open Verif.Generator (fileApplyAll newFileGen)

/-- The call with the names of files only. -/
def shape : Step → Step
  | .call (.addSource f _) => .call (.addSource (filename f) [])
  | x => x

def Decl.shape (d : Decl) : Decl := { d with steps := d.steps.map Sample.shape }

def Text.shape (s : Text) : Text := { s with targets := s.targets.map Decl.shape }

theorem filename_filename (f : Str) : filename (filename f) = filename f := by
  have := filename_unique [] (filename f) (filename_noSlash f) (.inl rfl)
  simpa using this

theorem shape_names (infos ts : List (List Str)) (x : Step) :
    stepNames infos ts (shape x) = stepNames infos ts x := by
  unfold shape
  split
  · simp [stepNames, opNames, filename_filename]
  · rfl

theorem shape_fine (k : Nat) (x : Step) : (shape x).Fine k ↔ x.Fine k := by
  unfold shape
  split
  · simp [Step.Fine, Own, filename_filename]
  · rfl

theorem shape_linked (x : Step) : (shape x).linked = x.linked := by
  unfold shape
  split <;> rfl

theorem namesFrom_shape (infos : List (List Str)) : ∀ (l : List Decl) (ts : List (List Str)),
    namesFrom infos ts (l.map Decl.shape) = namesFrom infos ts l
  | [], _ => rfl
  | d :: l, ts => by
    have : (d.steps.map shape).flatMap (stepNames infos ts) = d.steps.flatMap (stepNames infos ts) := by
      rw [List.flatMap_map]
      exact flatMap_congr' fun x _ => shape_names infos ts x
    rw [List.map_cons, namesFrom, namesFrom, Decl.shape, this, namesFrom_shape infos l]

theorem zipIdx_shape {l : List Decl} {P : Decl → Nat → Prop} :
    (∀ d ∈ (l.map Decl.shape).zipIdx, P d.1 d.2) ↔ ∀ d ∈ l.zipIdx, P d.1.shape d.2 := by
  constructor
  · intro h d hd
    refine h (d.1.shape, d.2) ?_
    rw [List.mem_zipIdx_iff_getElem?] at hd ⊢
    simp [hd]
  · intro h d hd
    rw [List.mem_zipIdx_iff_getElem?, List.getElem?_map] at hd
    obtain ⟨e, he, hs⟩ := Option.map_eq_some_iff.1 hd
    have := h (e, d.2) (List.mem_zipIdx_iff_getElem?.2 he)
    rw [← hs]
    exact this

theorem neat_shape (s : Text) : Neat s.shape ↔ Neat s := by
  have hn : s.shape.names = s.names := namesFrom_shape _ _ _
  have hs : (∀ d ∈ s.shape.targets.zipIdx, ∀ x ∈ d.1.steps, x.Fine d.2) ↔
      ∀ d ∈ s.targets.zipIdx, ∀ x ∈ d.1.steps, x.Fine d.2 := by
    rw [Text.shape]
    rw [zipIdx_shape (P := fun d k => ∀ x ∈ d.steps, x.Fine k)]
    refine forall_congr' fun d => forall_congr' fun _ => ?_
    simp [Decl.shape, shape_fine]
  have hl : (∀ d ∈ s.shape.targets.zipIdx, ∀ x ∈ d.1.steps, ∀ i ∈ x.linked, (d.2, i) ∈ s.deps) ↔
      ∀ d ∈ s.targets.zipIdx, ∀ x ∈ d.1.steps, ∀ i ∈ x.linked, (d.2, i) ∈ s.deps := by
    rw [Text.shape]
    rw [zipIdx_shape (P := fun d k => ∀ x ∈ d.steps, ∀ i ∈ x.linked, (k, i) ∈ s.deps)]
    refine forall_congr' fun d => forall_congr' fun _ => ?_
    simp [Decl.shape, shape_linked]
  have hp : (∀ d ∈ s.shape.targets, PlainName d.name ∧ c!"." ∉ d.name ∧ ¬ b!"buildcc_pch" <+: d.name) ↔
      ∀ d ∈ s.targets, PlainName d.name ∧ c!"." ∉ d.name ∧ ¬ b!"buildcc_pch" <+: d.name := by
    simp [Text.shape, Decl.shape]
  have hm : s.shape.targets.map (·.name) = s.targets.map (·.name) := by
    simp [Text.shape, Decl.shape]
  have hlen : s.shape.targets.length = s.targets.length := by simp [Text.shape]
  constructor
  · intro h
    exact ⟨hp.1 h.plain, h.infos, hs.1 h.steps, hn ▸ h.sources, hm ▸ h.names,
      ⟨h.deps.1, hlen ▸ h.deps.2⟩, ⟨h.tests.1, hlen ▸ h.tests.2⟩, hl.1 h.linked⟩
  · intro h
    exact ⟨hp.2 h.plain, h.infos, hs.2 h.steps, hn ▸ h.sources, hm ▸ h.names,
      ⟨h.deps.1, hlen ▸ h.deps.2⟩, ⟨h.tests.1, hlen ▸ h.tests.2⟩, hl.2 h.linked⟩

section
variable {p : Project} {gs : List GenMade} {s : MText}

theorem plainDecls_spec : ∀ {l : List MDecl} {ds : List Decl}, plainDecls p gs l = some ds →
    ds.length = l.length ∧ ∀ (k : Nat) (d : MDecl), l[k]? = some d → ∃ steps,
      plainSteps p gs d.steps = some steps ∧ ds[k]? = some ⟨d.name, d.type, d.dir, steps⟩
  | [], ds, h => by cases h; simp
  | d :: l, ds, h => by
    rw [plainDecls] at h
    split at h
    · cases h
    · rename_i steps hs
      obtain ⟨r, hr, rfl⟩ := Option.map_eq_some_iff.1 h
      obtain ⟨h1, h2⟩ := plainDecls_spec hr
      refine ⟨by simp [h1], ?_⟩
      intro k d' hd
      cases k with
      | zero => cases hd; exact ⟨steps, hs, rfl⟩
      | succ k => exact h2 k d' hd

theorem plainSteps_mem : ∀ {l : List MStep} {xs : List Step}, plainSteps p gs l = some xs →
    (∀ x ∈ l, ∃ y ∈ xs, x.plain p gs = some y) ∧
    ∀ f : MStep → Step, (∀ x ∈ l, ∀ y, x.plain p gs = some y → shape y = shape (f x)) →
      xs.map shape = (l.map f).map shape
  | [], xs, h => by cases h; simp
  | x :: l, xs, h => by
    rw [plainSteps] at h
    split at h
    · cases h
    · rename_i y hy
      obtain ⟨r, hr, rfl⟩ := Option.map_eq_some_iff.1 h
      obtain ⟨h1, h2⟩ := plainSteps_mem hr
      refine ⟨?_, ?_⟩
      · intro z hz
        rcases List.mem_cons.1 hz with rfl | hz
        · exact ⟨y, List.mem_cons_self .., hy⟩
        · obtain ⟨w, hw, e⟩ := h1 z hz
          exact ⟨w, List.mem_cons_of_mem _ hw, e⟩
      · intro f hf
        rw [List.map_cons, List.map_cons, List.map_cons, hf x (List.mem_cons_self ..) y hy,
          h2 f fun z hz => hf z (List.mem_cons_of_mem _ hz)]

/-- A file that a target takes from a generator: its parts. -/
theorem source_parts (hn : NeatMixed s) {k : Nat} {d : MDecl} (hd : s.targets[k]? = some d) {i : Nat} {id : Str}
    (hx : .genSource i id ∈ d.steps) : (k, i) ∈ s.uses ∧ d.dir = [] ∧ ∃ g pat, s.gens[i]? = some g ∧
      s.genAt i = g.name ∧ s.patternAt i id = pat ∧ .addPattern id pat ∈ g.ops ∧
      b!"{" ++ id ++ b!"}" ∈ Generator.outputPatterns g.ops := by
  obtain ⟨h1, h2, h3, h4⟩ := hn.steps (d, k) (List.mem_zipIdx_iff_getElem?.2 hd) _ hx
  have hi := (hn.uses.2 _ h1).2
  have hg := List.getElem?_eq_getElem hi
  rw [hg, Option.getD_some] at h3 h4
  have hpat : ∃ pat, s.patternAt i id = pat ∧ (id, pat) ∈ s.gens[i].patterns := by
    rw [MText.patternAt, hg, Option.getD_some]
    cases hf : s.gens[i].patterns.find? (fun x => decide (x.1 = id)) with
    | none =>
      obtain ⟨y, hy, he⟩ := List.mem_map.1 h3
      exact absurd (by simpa using he) (List.find?_eq_none.1 hf y hy)
    | some y =>
      have h5 := List.find?_some hf
      have h6 := List.mem_of_find?_eq_some hf
      simp only [decide_eq_true_eq] at h5
      refine ⟨y.2, rfl, ?_⟩
      rw [← h5]
      exact h6
  obtain ⟨pat, hp1, hp2⟩ := hpat
  exact ⟨h1, h2, _, pat, hg, by simp [MText.genAt, hg], hp1, pattern_mem hp2, h4⟩

theorem source_plain {tc : Toolchain} {ord : List Str → List Str} (hn : NeatMixed s) (hp : MixedPlace p tc s)
    (hg : runGens p ord s.gens = some gs) {k : Nat} {d : MDecl} (hd : s.targets[k]? = some d) {i : Nat} {id : Str}
    (hx : .genSource i id ∈ d.steps) {y : Step} (hy : (MStep.genSource i id).plain p gs = some y) :
    ∃ r, y = .call (.addSource r []) ∧ filename r = localName (s.patternAt i id) ∧
      s.fileAt p i id = p.rootDir ++ b!"/" ++ r ∧ isAbs r = false ∧ Reg.Absolute (s.fileAt p i id) := by
  obtain ⟨-, -, g, pat, hgi, hname, hpat, hop, -⟩ := source_parts hn hd hx
  have hfine := hn.gens g (List.mem_of_getElem? hgi)
  have hlen : gs.length = s.gens.length := by
    have := congrArg List.length (runGens_spec hg).1
    simpa using this
  have hlt : i < gs.length := by rw [hlen]; exact (List.getElem?_eq_some_iff.1 hgi).1
  obtain ⟨hnm, fg, hfg, -, hfill, -⟩ := (runGens_spec hg).2 i g _ hgi (List.getElem?_eq_getElem hlt)
  have hget := get_pattern hfine hfg hop
  have hdir := hp.place.build.append hfine.1
  have hpn : PlainName (localName pat) := (hfine.2.2.1 _ hop).2.2.2.1
  have hfile := hdir.2.append hpn
  rw [hdir.1] at hfile
  have e : s.fileAt p i id = p.buildDir ++ b!"/" ++ g.name ++ b!"/" ++ localName pat := by
    rw [MText.fileAt, hname, hpat]
  have habs : Reg.Absolute (s.fileAt p i id) := by rw [e, ← hfile.1]; exact hfile.2
  obtain ⟨hroot, r, hr⟩ := hp.below (List.ne_nil_of_mem (List.mem_of_getElem? hgi))
  have hd2 := hdir.2.2.1
  rw [hdir.1] at hd2
  rw [genDir, hdir.1, hd2] at hget
  simp only [MStep.plain, List.getElem?_eq_getElem hlt, hfill, hget, Option.map_some, Option.some.injEq] at hy
  have e2 : s.fileAt p i id = p.rootDir ++ b!"/" ++ (r ++ b!"/" ++ g.name ++ b!"/" ++ localName pat) := by
    rw [e, hr]; simp
  have hfn : filename (r ++ b!"/" ++ g.name ++ b!"/" ++ localName pat) = localName pat :=
    filename_unique _ _ hpn.2.2.2 (.inr ⟨_, rfl⟩)
  have hrel := lexRelative_inside p.rootDir (r ++ b!"/" ++ g.name ++ b!"/" ++ localName pat) hroot.2.1
    hroot.1 hroot.2.2 (by rw [← e2]; exact habs.2.1) (by rw [hfn]; exact hpn.1)
  rw [← e2] at hrel
  rw [← e] at hy
  have hab := lexRelative_rel (s.fileAt p i id) p.rootDir
  rw [hrel] at hab
  refine ⟨_, by rw [← hy, hrel], ?_, e2, hab, habs⟩
  rw [hfn, hpat]

/-- The script keeps to the rules for scripts without generators. -/
theorem plain_neat {tc : Toolchain} {ord : List Str → List Str} (hn : NeatMixed s) (hp : MixedPlace p tc s)
    (hg : runGens p ord s.gens = some gs) {ds : List Decl} (hd : plainDecls p gs s.targets = some ds) :
    Neat ⟨s.infos, ds, s.deps, s.tests⟩ := by
  have h : Text.shape ⟨s.infos, ds, s.deps, s.tests⟩ = s.named.shape := by
    obtain ⟨h1, h2⟩ := plainDecls_spec hd
    have : ds.map Decl.shape = s.named.targets.map Decl.shape := by
      apply List.ext_getElem?
      intro k
      rw [List.getElem?_map, List.getElem?_map, MText.named, List.getElem?_map]
      cases hk : s.targets[k]? with
      | none =>
        rw [List.getElem?_eq_none_iff, ← h1, ← List.getElem?_eq_none_iff] at hk
        rw [hk]; rfl
      | some d =>
        obtain ⟨steps, hs, hds⟩ := h2 k d hk
        rw [hds]
        simp only [Option.map_some, Option.some.injEq, Decl.shape, Decl.mk.injEq, true_and]
        refine (plainSteps_mem hs).2 (MStep.named s) ?_
        intro x hx y hy
        cases x with
        | step x => cases hy; rfl
        | genSource i id =>
          obtain ⟨r, rfl, hr, -⟩ := source_plain hn hp hg hk hx hy
          have := (filename_filename r)
          rw [hr] at this
          simp only [shape, MStep.named, hr, this]
    simp only [Text.shape, this]
    rfl
  rw [← neat_shape, h, neat_shape]
  exact hn.text

end

/-- How each target came about. -/
theorem runTargets_fill {junk : Nat → TargetSchema} {p : Project} {list : Str → Option (List Str)}
    {tc : Toolchain} {infos : List TargetSchema} : ∀ {l : List Decl} {ts fs : List Filled},
    runTargets junk p list tc infos ts l = some fs → (∀ j < ts.length, fs[j]? = ts[j]?) ∧
      ∀ (k : Nat) (d : Decl), l[k]? = some d → ∃ ts' m f, fs[ts.length + k]? = some f ∧
        targetGeneric junk p d.name d.type tc (TargetEnv.relative p d.dir) = some m ∧
        fill list m (d.steps.map (Step.op infos ts')) = some f
  | [], ts, fs, h => by cases h; simp
  | d :: l, ts, fs, h => by
    rw [runTargets] at h
    split at h
    · cases h
    · rename_i m hm
      split at h
      · cases h
      · rename_i f hf
        obtain ⟨h1, h2⟩ := runTargets_fill h
        refine ⟨?_, ?_⟩
        · intro j hj
          rw [h1 j (by simp; omega), List.getElem?_append_left hj]
        · intro k d' hd
          cases k with
          | zero =>
            cases hd
            refine ⟨ts, m, f, ?_, hm, hf⟩
            rw [Nat.add_zero, h1 ts.length (by simp)]
            simp
          | succ k =>
            obtain ⟨ts', m', f', a, b⟩ := h2 k d' hd
            refine ⟨ts', m', f', ?_, b⟩
            rw [← a]
            simp [Nat.add_comm, Nat.add_left_comm]

/-- The sources that are added to a target of the project's directory are those files. -/
theorem source_added {junk : Nat → TargetSchema} {p : Project} {list : Str → Option (List Str)}
    {tc : Toolchain} {t : Text} {fs : List Filled} (h : t.run junk p list tc = some fs) (hn : Neat t)
    {k : Nat} {d : Decl} {f : Filled} (hd : t.targets[k]? = some d) (hf : fs[k]? = some f) (hdir : d.dir = [])
    {r : Str} (hr : isAbs r = false) (hroot : Reg.Absolute p.rootDir)
    (hq : toPathString (p.rootDir ++ b!"/" ++ r) = p.rootDir ++ b!"/" ++ r)
    (hx : .call (.addSource r []) ∈ d.steps) : p.rootDir ++ b!"/" ++ r ∈ paths f.cfg.sources := by
  rw [Text.run] at h
  split at h
  · cases h
  · rename_i infos hi
    obtain ⟨ts', m, f', h1, h2, h3⟩ := (runTargets_fill h).2 k d hd
    simp only [List.length_nil, Nat.zero_add] at h1
    obtain rfl : f = f' := Option.some.inj (hf.symm.trans h1)
    obtain ⟨rfl, happ⟩ := fill_some h3
    obtain ⟨-, -, c1, r1, -⟩ := C70_made h2
    have hfine := hn.steps (d, k) (List.mem_zipIdx_iff_getElem?.2 hd)
    have := (C67_inputs happ).2 .sources (by
      intro op hop
      obtain ⟨x, hx, rfl⟩ := List.mem_map.1 hop
      exact step_copies (hfine x hx) (.inl rfl))
    rw [made_none h2 _ (by intro k; cases k <;> simp [FlagKind.option]), List.nil_append] at this
    rw [← (texts_paths _).1, this, texts_flatMap, List.flatMap_map, List.mem_flatMap]
    refine ⟨_, hx, ?_⟩
    have e : append (append (append p.rootDir d.dir) []) r = p.rootDir ++ b!"/" ++ r := by
      have h1 : append p.rootDir [] = p.rootDir ++ b!"/" := by
        rw [append_rel _ _ rfl, asDir, if_neg hroot.2.2, List.append_nil]
      have h2 : filename (p.rootDir ++ b!"/") = [] := by
        have := filename_unique (p.rootDir ++ b!"/") [] (by simp) (.inr ⟨p.rootDir, rfl⟩)
        simpa using this
      have h3 : append (p.rootDir ++ b!"/") [] = p.rootDir ++ b!"/" := by
        rw [append_rel _ _ rfl, asDir, if_pos h2, List.append_nil]
      rw [hdir, h1, h3, append_rel _ _ hr, asDir, if_pos h2]
    simp only [Step.op, added, addsTo]
    simp [texts, stored, r1, TargetEnv.relative, e]
    simpa using hq.symm

end Verif.Sample
