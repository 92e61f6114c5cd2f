import Verif.Sample.Names

/-! # What the calls of a script leave -/

namespace Verif.Sample
open Verif Verif.Schema Verif.Target Verif.Toolchain Verif.Path
open Verif.Reg (Absolute ScriptTarget Reaches Placed PlainScript)
open Verif.Boot (Filled fill fill_some texts texts_append texts_paths made_none)

theorem texts_flatMap {α : Type} (l : List α) (f : α → List (PathInfo ⊕ Str)) :
    texts (l.flatMap f) = l.flatMap fun x => texts (f x) := by
  simp [texts, List.map_flatMap]

theorem flatMap_congr' {α β : Type} {f g : α → List β} : ∀ {l : List α}, (∀ x ∈ l, f x = g x) →
    l.flatMap f = l.flatMap g
  | [], _ => rfl
  | x :: l, h => by
    rw [List.flatMap_cons, List.flatMap_cons, h x (List.mem_cons_self ..),
      flatMap_congr' fun y hy => h y (List.mem_cons_of_mem _ hy)]

/-- The file names of the sources that a call adds. -/
theorem own_sources (e : ApiEnv) {op : ApiOp} (h : Own op) :
    (texts (added e .sources op)).map filename = opNames op := by
  have key : ∀ (d f : Str), PlainName (filename f) → filename (toPathString (append d f)) = filename f := by
    intro d f hf
    have e := filename_below (d := d) hf.1
    rw [filename_normal (by rw [e]; exact hf.1) (by rw [e]; exact hf.2.1) (by rw [e]; exact hf.2.2.1), e]
  cases op <;>
    first
      | exact absurd h id
      | (simp [added, addsTo, texts, opNames]; done)
      | skip
  · simp only [added, addsTo, texts, opNames, stored]
    have h' : PlainName (filename _) := h
    simpa using filename_normal h'.1 h'.2.1 h'.2.2.1
  · simp only [added, addsTo, texts, opNames, stored]
    simpa using key _ _ h
  · rename_i k _
    cases k <;> simp [added, addsTo, texts, opNames, FlagKind.option]

/-- Such a call adds no library. -/
theorem own_libs (e : ApiEnv) {op : ApiOp} (h : Own op) : added e .libs op = [] := by
  cases op <;>
    first
      | exact absurd h id
      | (simp [added, addsTo]; done)
      | skip
  rename_i k _
  cases k <;> simp [added, addsTo, FlagKind.option]

theorem own_copies {op : ApiOp} (h : Own op) (o : SyncOption) : ¬ Copies o op := by
  cases op <;> first | exact absurd h id | exact id

theorem added_once (e : ApiEnv) (o : SyncOption) (c : TargetSchema) {l : List SyncOption}
    (h : l.Nodup) : added e o (.insert c l) = if o ∈ l then entries o c else [] := by
  rw [added_insert, List.Nodup.count h]
  split <;> simp

/-- The header-only libraries. -/
theorem runInfos_spec {p : Project} {list : Str → Option (List Str)} {tc : Toolchain} :
    ∀ {l : List (Str × List ApiOp)} {cs : List TargetSchema}, runInfos p list tc l = some cs →
      (∀ x ∈ l, ∀ op ∈ x.2, Own op) →
      cs.map (fun c => (paths c.sources).map filename) = l.map fun x => x.2.flatMap opNames
  | [], _, h, _ => by
    cases h; rfl
  | x :: l, cs, h, ho => by
    rw [runInfos] at h
    split at h
    · cases h
    · rename_i c hc
      obtain ⟨r, hr, rfl⟩ := Option.map_eq_some_iff.1 h
      have ih := runInfos_spec hr fun y hy => ho y (List.mem_cons_of_mem _ hy)
      simp only [List.map_cons]
      rw [ih]
      congr 1
      have hx := ho x (List.mem_cons_self ..)
      have := (C67_inputs hc).2 .sources (fun op hop => own_copies (hx op hop) _)
      rw [(C50_new _).2 .sources (by intro k; cases k <;> simp [FlagKind.option]), List.nil_append] at this
      rw [← (texts_paths c).1, this, texts_flatMap, List.map_flatMap]
      exact flatMap_congr' fun op hop => own_sources _ (hx op hop)

/-- What is known of the targets `ts` that were declared by `ds`. -/
structure Ran (junk : Nat → TargetSchema) (p : Project) (tc : Toolchain) (deps : List (Str × Str))
    (names : List (List Str)) (ds : List Decl) (ts : List Filled) : Prop where
  length : ts.length = ds.length
  made : ∀ (k : Nat) (f : Filled) (d : Decl), ts[k]? = some f → ds[k]? = some d →
    targetGeneric junk p d.name d.type tc (TargetEnv.relative p d.dir) = some f.made
  names : ts.map (fun f => (paths f.cfg.sources).map filename) = names
  libs : ∀ (k : Nat) (f : Filled) (d : Decl), ts[k]? = some f → ds[k]? = some d →
    ∀ q ∈ paths f.cfg.libs, ∃ (j : Nat) (e : Filled) (g : Decl), ts[j]? = some e ∧ ds[j]? = some g ∧
      q = toPathString (outputPath e.made.fixed) ∧ Reaches deps (g.id tc) (d.id tc)
  linked : ∀ (k : Nat) (f : Filled) (d : Decl), ts[k]? = some f → ds[k]? = some d →
    ∀ i, .libDep i ∈ d.steps → ∃ a, ts[i]? = some a ∧
      toPathString (outputPath a.made.fixed) ∈ paths f.cfg.libs

section
variable {junk : Nat → TargetSchema} {p : Project} {list : Str → Option (List Str)} {tc : Toolchain}
  {deps : List (Str × Str)}

theorem step_sources (e : ApiEnv) {infos : List TargetSchema} {ts : List Filled} {k : Nat} {x : Step}
    (h : x.Fine k) : (texts (added e .sources (x.op infos ts))).map filename =
      stepNames (infos.map fun c => (paths c.sources).map filename)
        (ts.map fun f => (paths f.cfg.sources).map filename) x := by
  have hempty : paths TargetSchema.empty.sources = [] := rfl
  cases x with
  | call op => exact own_sources e h
  | libDep i => simp [Step.op, added, addsTo, texts, stepNames]
  | insert i o =>
    rw [Step.op, added_once _ _ _ h.2, stepNames]
    split
    · rw [(texts_paths _).1, List.getElem?_map]
      cases ts[i]? <;> simp [hempty]
    · rfl
  | insertInfo i o =>
    have h' : o.Nodup := h
    rw [Step.op, added_once _ _ _ h', stepNames]
    split
    · rw [(texts_paths _).1, List.getElem?_map]
      cases infos[i]? <;> simp [hempty]
    · rfl
  | copyInfo i o => simp [Step.op, added, addsTo, texts, stepNames]

/-- Header-only libraries have no libraries. -/
theorem runInfos_libs : ∀ {l : List (Str × List ApiOp)} {cs : List TargetSchema},
    runInfos p list tc l = some cs → (∀ x ∈ l, ∀ op ∈ x.2, Own op) → ∀ c ∈ cs, entries .libs c = []
  | [], _, h, _ => by cases h; simp
  | x :: l, cs, h, ho => by
    rw [runInfos] at h
    split at h
    · cases h
    · rename_i c hc
      obtain ⟨r, hr, rfl⟩ := Option.map_eq_some_iff.1 h
      have ih := runInfos_libs hr fun y hy => ho y (List.mem_cons_of_mem _ hy)
      have hx := ho x (List.mem_cons_self ..)
      have := (C67_inputs hc).2 .libs (fun op hop => own_copies (hx op hop) _)
      rw [(C50_new _).2 .libs (by intro k; cases k <;> simp [FlagKind.option]), List.nil_append] at this
      have : entries .libs c = [] := by
        rw [this, List.flatMap_eq_nil_iff]
        exact fun op hop => own_libs _ (hx op hop)
      intro y hy
      rcases List.mem_cons.1 hy with rfl | hy
      · exact this
      · exact ih y hy

theorem step_libs (e : ApiEnv) {infos : List TargetSchema} (hi : ∀ c ∈ infos, entries .libs c = [])
    {ts : List Filled} {x : Step} (h : x.Fine ts.length) {q : Str}
    (hq : q ∈ texts (added e .libs (x.op infos ts))) : ∃ i ∈ x.linked, ∃ f, ts[i]? = some f ∧
      (q = toPathString (outputPath f.made.fixed) ∨ q ∈ paths f.cfg.libs) := by
  cases x with
  | call op => rw [Step.op, own_libs e h] at hq; cases hq
  | libDep i =>
    have hlt : i < ts.length := h
    refine ⟨i, by simp [Step.linked], ts[i], List.getElem?_eq_getElem hlt, .inl ?_⟩
    simpa [Step.op, added, addsTo, texts, stored, List.getElem?_eq_getElem hlt] using hq
  | insert i o =>
    rw [Step.op, added_once _ _ _ h.2] at hq
    split at hq
    · rename_i ho
      refine ⟨i, by simp [Step.linked, ho], ts[i]'h.1, List.getElem?_eq_getElem h.1, .inr ?_⟩
      rw [(texts_paths _).2.2.2.1, List.getElem?_eq_getElem h.1] at hq
      exact hq
    · cases hq
  | insertInfo i o =>
    have h' : o.Nodup := h
    rw [Step.op, added_once _ _ _ h'] at hq
    split at hq
    · have : entries .libs (infos[i]?.getD TargetSchema.empty) = [] := by
        cases hc : infos[i]? with
        | none => rfl
        | some c => exact hi c (List.mem_of_getElem? hc)
      rw [this] at hq; cases hq
    · cases hq
  | copyInfo i o => simp [Step.op, added, addsTo, texts] at hq

theorem step_copies {infos : List TargetSchema} {ts : List Filled} {k : Nat} {x : Step} (h : x.Fine k)
    {o : SyncOption} (ho : o = .sources ∨ o = .libs) : ¬ Copies o (x.op infos ts) := by
  cases x with
  | call op => exact own_copies h o
  | libDep i => exact id
  | insert i o => exact id
  | insertInfo i o => exact id
  | copyInfo i l =>
    intro hm
    rcases ho with rfl | rfl
    · exact h.1 hm
    · exact h.2 hm

/-- The targets, one by one. -/
theorem runTargets_spec {infos : List TargetSchema} (hi : ∀ c ∈ infos, entries .libs c = []) :
    ∀ (l ds : List Decl) (ts fs : List Filled) (names : List (List Str)),
      runTargets junk p list tc infos ts l = some fs → Ran junk p tc deps names ds ts →
      (∀ d ∈ l.zipIdx ds.length, ∀ x ∈ d.1.steps, x.Fine d.2) →
      (∀ d ∈ l, ∀ x ∈ d.steps, ∀ i ∈ x.linked, ∀ e : Decl, (ds ++ l)[i]? = some e →
        Reaches deps (e.id tc) (d.id tc)) →
      Ran junk p tc deps (namesFrom (infos.map fun c => (paths c.sources).map filename) names l)
        (ds ++ l) fs
  | [], ds, ts, fs, names, h, hr, _, _ => by
    cases h
    simpa [namesFrom] using hr
  | d :: l, ds, ts, fs, names, h, hr, hf, hd => by
    rw [runTargets] at h
    split at h
    · cases h
    · rename_i m hm
      split at h
      · cases h
      · rename_i f hfill
        have hfine : ∀ x ∈ d.steps, x.Fine ts.length := by
          rw [hr.length]
          exact hf (d, ds.length) (by simp)
        obtain ⟨rfl, happ⟩ := fill_some hfill
        have hent : ∀ o, (o = .sources ∨ o = .libs) → texts (entries o f.cfg) =
            d.steps.flatMap fun x => texts (added ⟨f.made.toolchain.config, f.made.rootDir, list⟩ o
              (x.op infos ts)) := by
          intro o ho
          have := (C67_inputs happ).2 o (by
            intro op hop
            obtain ⟨x, hx, rfl⟩ := List.mem_map.1 hop
            exact step_copies (hfine x hx) ho)
          rw [made_none hm o (by rcases ho with rfl | rfl <;> intro k <;> cases k <;> simp [FlagKind.option]),
            List.nil_append] at this
          rw [this, texts_flatMap, List.flatMap_map]
        have hsrc : (paths f.cfg.sources).map filename = d.steps.flatMap
            (stepNames (infos.map fun c => (paths c.sources).map filename) names) := by
          rw [← (texts_paths _).1, hent _ (.inl rfl), List.map_flatMap, ← hr.names]
          exact flatMap_congr' fun x hx => step_sources _ (hfine x hx)
        have hds : ∀ (j : Nat) (g : Decl), ds[j]? = some g → (ds ++ [d])[j]? = some g := by
          intro j g hg
          rw [List.getElem?_append_left (by
            have := (List.getElem?_eq_some_iff.1 hg).1; exact this)]
          exact hg
        have hts : ∀ (j : Nat) (e : Filled), ts[j]? = some e → (ts ++ [f])[j]? = some e := by
          intro j e he
          rw [List.getElem?_append_left (List.getElem?_eq_some_iff.1 he).1]
          exact he
        have hcase : ∀ {k : Nat} {f' : Filled} {d' : Decl}, (ts ++ [f])[k]? = some f' →
            (ds ++ [d])[k]? = some d' → (ts[k]? = some f' ∧ ds[k]? = some d') ∨ (f' = f ∧ d' = d) := by
          intro k f' d' h1 h2
          by_cases hk : k < ts.length
          · left
            rw [List.getElem?_append_left hk] at h1
            rw [List.getElem?_append_left (by rw [← hr.length]; exact hk)] at h2
            exact ⟨h1, h2⟩
          · right
            have hk' : k = ts.length := by
              have := (List.getElem?_eq_some_iff.1 h1).1
              simp at this; omega
            subst hk'
            simp at h1
            rw [hr.length] at h2
            simp at h2
            exact ⟨h1.symm, h2.symm⟩
        have hnew : Ran junk p tc deps (names ++ [d.steps.flatMap
            (stepNames (infos.map fun c => (paths c.sources).map filename) names)]) (ds ++ [d])
            (ts ++ [f]) := by
          refine ⟨by simp [hr.length], ?_, by simp [hr.names, hsrc], ?_, ?_⟩
          · intro k f' d' h1 h2
            rcases hcase h1 h2 with ⟨h1, h2⟩ | ⟨rfl, rfl⟩
            · exact hr.made k f' d' h1 h2
            · exact hm
          · intro k f' d' h1 h2 q hq
            rcases hcase h1 h2 with ⟨h1, h2⟩ | ⟨rfl, rfl⟩
            · obtain ⟨j, e, g, a, b, c⟩ := hr.libs k f' d' h1 h2 q hq
              exact ⟨j, e, g, hts j e a, hds j g b, c⟩
            · rw [← (texts_paths _).2.2.2.1, hent _ (.inr rfl)] at hq
              obtain ⟨x, hx, hq⟩ := List.mem_flatMap.1 hq
              obtain ⟨i, hin, e, he, hq⟩ := step_libs _ hi (hfine x hx) hq
              have hlt := (List.getElem?_eq_some_iff.1 he).1
              rw [hr.length] at hlt
              have hg := List.getElem?_eq_getElem hlt
              have hreach : Reaches deps (Decl.id tc ds[i]) (d'.id tc) :=
                hd d' (List.mem_cons_self ..) x hx i hin ds[i] (by
                  rw [List.getElem?_append_left hlt]; exact hg)
              rcases hq with rfl | hq
              · exact ⟨i, e, ds[i], hts i e he, hds i _ hg, rfl, hreach⟩
              · obtain ⟨j, e', g, a, b, c, r⟩ := hr.libs i e ds[i] he hg q hq
                exact ⟨j, e', g, hts j e' a, hds j g b, c, r.trans hreach⟩
          · intro k f' d' h1 h2 i hin
            rcases hcase h1 h2 with ⟨h1, h2⟩ | ⟨rfl, rfl⟩
            · obtain ⟨a, h3, h4⟩ := hr.linked k f' d' h1 h2 i hin
              exact ⟨a, hts i a h3, h4⟩
            · have hlt : i < ts.length := hfine _ hin
              refine ⟨ts[i], hts i _ (List.getElem?_eq_getElem hlt), ?_⟩
              rw [← (texts_paths _).2.2.2.1, hent _ (.inr rfl), List.mem_flatMap]
              refine ⟨_, hin, ?_⟩
              simp [Step.op, added, addsTo, texts, stored, List.getElem?_eq_getElem hlt]
        have := runTargets_spec hi l (ds ++ [d]) (ts ++ [f]) fs _ h hnew (by
            intro y hy
            refine hf y ?_
            rw [List.zipIdx_cons]
            simp only [List.length_append, List.length_cons, List.length_nil] at hy
            exact List.mem_cons_of_mem _ hy) (by
            intro y hy x hx i hin e he
            refine hd y (List.mem_cons_of_mem _ hy) x hx i hin e ?_
            simpa using he)
        simpa [namesFrom] using this

end

end Verif.Sample
