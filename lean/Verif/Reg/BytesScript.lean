import Verif.Reg.BytesValue

/-! # Histories of a script, with contents -/

namespace Verif.Reg
open Verif Verif.Schema Verif.Json
open Verif.Target (Fixed outputPath upd text texts paths scratchBin scratchObj scratchPch scratchPch?)

variable {β : Type} {M : Makers β}

/-! ## Who makes what -/

/-- The builder `a` makes `p`, a generator with the id. -/
def Maker (kinds : Str → Kind) (g : Graph) (s : Str → Setup) (a id p : Str) : Prop :=
  a ∈ g.ids ∧ match kinds a, s a with
    | .target fx, .target _ _ => outputPath fx = p
    | .gen, .gen c => ∃ i, (id, i) ∈ c ∧ p ∈ i.outputs
    | _, _ => False

theorem Maker.product {kinds : Str → Kind} {g : Graph} {s : Str → Setup} {a id p : Str}
    (h : Maker kinds g s a id p) : p ∈ products (kinds a) (s a) := by
  obtain ⟨-, h⟩ := h
  cases hk : kinds a <;> cases hs : s a <;> rw [hk, hs] at h <;> try exact h.elim
  · simp only [products, List.mem_singleton]; exact Eq.symm h
  · obtain ⟨i, hi, hp⟩ := h
    exact List.mem_flatMap.2 ⟨_, hi, hp⟩

theorem products_outputs {k : Kind} {s : Setup} {p : Str} (h : p ∈ products k s) : p ∈ outputs k.init s := by
  cases k <;> cases s <;> simp only [products, List.not_mem_nil] at h
  · simp only [List.mem_singleton] at h
    subst h
    simp [outputs, Kind.init, linkFiles]
  · exact h

theorem isMade_of {kinds : Str → Kind} {g : Graph} {s : Str → Setup} {a p : Str} (ha : a ∈ g.ids)
    (h : p ∈ outputs (kinds a).init (s a)) : isMade kinds g s p = true := by
  simp only [isMade, List.any_eq_true, decide_eq_true_eq]
  exact ⟨a, ha, h⟩

theorem Maker.isMade {kinds : Str → Kind} {g : Graph} {s : Str → Setup} {a id p : Str}
    (h : Maker kinds g s a id p) : isMade kinds g s p = true :=
  isMade_of h.1 (products_outputs h.product)

theorem keepsB_of {kinds : Str → Kind} {g : Graph} {s : Str → Setup} {w : World} {a id p : Str}
    (h : ScriptInv kinds g s w) (ho : OneMaker kinds g s) (hm : Maker kinds g s a id p)
    {e : BWEvent β} (he : e.handsOff kinds g s) : KeepsB a id p w e.erase := by
  have hmade := hm.isMade
  cases e with
  | edit q t x => rintro rfl; simp [BWEvent.handsOff, hmade] at he
  | delete q => rintro rfl; simp [BWEvent.handsOff, hmade] at he
  | task j t ws junk =>
    show w.acts j (t.ev ws junk).erase ws = true → _
    generalize (t.ev ws junk).erase = e
    intro hact hp
    simp only [World.acts, Bool.and_eq_true, decide_eq_true_eq] at hact
    obtain ⟨⟨⟨⟨ha, hb⟩, hr⟩, -⟩, hl⟩ := hact
    obtain ⟨hgr, hset⟩ := h.plan ha
    obtain ⟨x, hx, hx'⟩ := List.mem_map.1 hp
    have hmw := ((legal_spec hl).2 x hx).1
    rw [hx'] at hmw
    have hj : j ∈ w.graph.ids := h.inv.base.sub j hb
    have htr := h.inv.track ha j hj
    have hgood := h.inv.good j
    have hout := mayWrite_outputs hgood htr hmw
    rw [hgr] at hj
    rw [(h.kind j).outputs, outputs_same (hset j hj)] at hout
    have hja : j = a := Classical.byContradiction fun hja =>
      ho.others a hm.1 j hj (fun e => hja e.symm) p hm.product hout
    subst hja
    refine ⟨rfl, ?_⟩
    have hk := h.kind j
    have hsame := hset j hj
    have htgt := ho.target j hj
    have hgen := ho.gen j hj
    obtain ⟨-, hm⟩ := hm
    revert hk hgood htr hmw hsame htgt hgen hm
    generalize w.comps j = c
    generalize w.setup j = st
    cases hkj : kinds j <;> cases hsj : s j
    · rename_i fx c1 o1
      cases c with
      | gen σ => intro _ _ _ hk; exact hk.elim
      | target fx' σ =>
        intro hmw htr hgood hk hsame htgt _ hm
        obtain rfl : fx' = fx := hk
        obtain rfl : outputPath fx' = p := hm
        cases st with
        | gen c => exact htr.elim
        | target c2 o2 =>
          obtain rfl : c2 = c1 := hsame
          obtain ⟨t1, t2⟩ := htgt fx' rfl
          rcases mayWrite_own hgood htr hmw with h1 | h1 | ⟨q, hq, h1⟩
          · exact .inl h1
          · exact absurd h1 t1
          · exact absurd h1.symm (t2 c2 o1 rfl q hq)
    · intro _ _ _ _ _ _ _ hm; exact hm.elim
    · intro _ _ _ _ _ _ _ hm; exact hm.elim
    · rename_i c1
      cases c with
      | target fx σ => intro _ _ _ hk; exact hk.elim
      | gen σ =>
        intro hmw htr hgood hk hsame _ hgen hm
        obtain ⟨i, hi, hpi⟩ := hm
        cases st with
        | target c2 o2 => exact htr.elim
        | gen c2 =>
          obtain rfl : c2 = c1 := hsame
          cases e with
          | t e => simp [mayWrite] at hmw
          | g e =>
            cases e with
            | call id' ok =>
              refine .inr ⟨ok, ?_⟩
              cases hrun : σ.run with
              | none => simp [mayWrite, hrun] at hmw
              | some r =>
                simp only [mayWrite, hrun] at hmw
                split at hmw
                · rename_i i' hi' _
                  rw [htr.1 r hrun] at hi'
                  obtain rfl : id' = id := (hgen c2 rfl).2 _ (Generator.find_mem hi') _ hi p hmw hpi
                  rfl
                · simp at hmw
            | _ => simp [mayWrite] at hmw
  | _ => exact trivial

theorem fitting_of {kinds : Str → Kind} {g : Graph} {s : Str → Setup} {w : World} {a id p : Str}
    (h : ScriptInv kinds g s w) (hm : Maker kinds g s a id p) : Fitting p (w.comps a) := by
  have hk := h.kind a
  obtain ⟨-, hm⟩ := hm
  revert hk
  generalize w.comps a = c
  cases c with
  | gen σ => intro _; trivial
  | target fx σ =>
    intro hk
    cases hka : kinds a with
    | gen => rw [hka] at hk; exact hk.elim
    | target fx' =>
      rw [hka] at hk hm
      obtain rfl : fx = fx' := hk
      cases hsa : s a with
      | gen c => rw [hsa] at hm; exact hm.elim
      | target c o => rw [hsa] at hm; exact hm

/-! ## Histories -/

/-- What a history of the script keeps true. -/
structure BScriptInv (M : Makers β) (kinds : Str → Kind) (g : Graph) (s : Str → Setup) (b : BWorld β) :
    Prop where
  script : ScriptInv kinds g s b.world
  bytes : CInv M b
  kept : ∀ a id p, Maker kinds g s a id p → Kept a id p b

theorem bScriptInv_init {kinds : Str → Kind} {g : Graph} {s : Str → Setup} (hsc : SoundScript kinds g s) :
    BScriptInv M kinds g s (BWorld.init kinds) :=
  ⟨scriptInv_init hsc, cInv_init kinds, fun _ _ _ _ => kept_init kinds⟩

theorem bScriptInv_step {kinds : Str → Kind} {g : Graph} {s : Str → Setup} (hsc : SoundScript kinds g s)
    (ho : OneMaker kinds g s) {b : BWorld β} (h : BScriptInv M kinds g s b) {e : BWEvent β}
    (h1 : OfScript g s b.world e.erase) (h2 : e.handsOff kinds g s) : BScriptInv M kinds g s (b.step M e) where
  script := by
    rcases world_step (M := M) b e with h3 | h3
    · rw [h3]; exact scriptInv_step hsc h.script h1
    · rw [h3]; exact h.script
  bytes := cInv_step h.bytes (by
    cases e with
    | edit p t x => exact h1.1
    | _ => trivial)
  kept a id p hm := kept_step h.bytes (fitting_of h.script hm) (h.kept a id p hm)
    (keepsB_of h.script ho hm h2)

/-- The history of the build system behind a history with contents. -/
theorem bScript_steps {kinds : Str → Kind} {g : Graph} {s : Str → Setup} (hsc : SoundScript kinds g s)
    (ho : OneMaker kinds g s) : ∀ (evs : List (BWEvent β)) {b : BWorld β}, BScriptInv M kinds g s b →
    AllOfScriptB M kinds g s b evs →
    BScriptInv M kinds g s (b.steps M evs) ∧
    ∃ wevs, (b.steps M evs).world = b.world.steps wevs ∧ AllOfScript g s b.world wevs := by
  intro evs
  induction evs with
  | nil => intro b h _; exact ⟨h, [], rfl, trivial⟩
  | cons e l ih =>
    intro b h ⟨h1, h2, h3⟩
    obtain ⟨i1, wevs, i2, i3⟩ := ih (bScriptInv_step hsc ho h h1 h2) h3
    refine ⟨i1, ?_⟩
    rcases world_step (M := M) b e with h4 | h4
    · rw [h4] at i2 i3
      exact ⟨e.erase :: wevs, i2, h1, i3⟩
    · refine ⟨wevs, i2.trans ?_, ?_⟩
      · rw [h4]
      · rw [h4] at i3; exact i3

/-! ## Contents of the products -/

theorem comp_files {b : BWorld β} (hc : CInv M b) (hb : BInv b.world) (j : Str) {content : Str → Str → β}
    (hcont : ∀ p t x, (p, t, x) ∈ b.hist → x = content p (digits t)) :
    (∀ fx s, b.comps j = .target fx s → text s.files = text b.files) ∧
    ∀ s, b.comps j = .gen s → text s.files = text b.files := by
  have hv := (hb.views j).1
  have her := hc.er j
  have hrel := hc.rel content hcont j
  have both : ∀ f : Str → Option (Nat × β), (∀ p, b.world.files p = (f p).map (·.1)) →
      (∀ p y, f p = some y → y.2 = content p (digits y.1)) → text f = text b.files := by
    intro f h1 h2
    funext p
    have h3 := h1 p
    rw [hc.fl p] at h3
    simp only [text]
    cases hf : f p with
    | none =>
      rw [hf] at h3
      cases hbf : b.files p with
      | none => rfl
      | some y => rw [hbf] at h3; simp at h3
    | some y =>
      rw [hf] at h3
      cases hbf : b.files p with
      | none => rw [hbf] at h3; simp at h3
      | some z =>
        rw [hbf] at h3
        simp only [Option.map_some, Option.some.injEq] at h3 ⊢
        rw [h2 p y hf, hcont p z.1 z.2 (hc.fh p z hbf), h3]
  refine ⟨fun fx s hs => ?_, fun s hs => ?_⟩
  · rw [hs] at hrel her
    rw [← her] at hv
    exact both s.files (fun p => by rw [← hv]; exact hrel.files p) hrel.cfiles
  · rw [hs] at hrel her
    rw [← her] at hv
    exact both s.files (fun p => by rw [← hv]; exact hrel.files p) hrel.cfiles

/-- Every product is what its maker makes of the files as they are. -/
theorem products_now {kinds : Str → Kind} {g : Graph} {s : Str → Setup} {b : BWorld β}
    (h : BScriptInv M kinds g s b) {j : Str} (hj : j ∈ g.ids)
    (hu : UpToDate (scriptRules s) j (s j) (b.world.comps j)) :
    (∀ fx c o, kinds j = .target fx → s j = .target c o → ∃ order : List Str, order.Perm (paths c.sources) ∧
      text b.files (outputPath fx) = some (scratchBin fx M.tools (text b.files) c order)) ∧
    ∀ c, kinds j = .gen → s j = .gen c → ∀ id i, Generator.find id c = some i → ∀ p ∈ i.outputs,
      text b.files p = some (Generator.made (M.callbacks j) (text b.files) id i p) := by
  let junk : β := M.callbacks [] [] [] [] [] []
  have hcont : ∀ p t x, (p, t, x) ∈ b.hist → x = Generator.contentOf junk b.hist p (digits t) :=
    fun p t x hm => Generator.contentOf_mem junk h.bytes.hp hm
  have hrel := h.bytes.rel _ hcont j
  have hfiles := comp_files h.bytes h.script.inv.base j hcont
  have hkind := h.script.kind j
  rw [← h.bytes.er j] at hu hkind
  refine ⟨fun fx c o hk hs => ?_, fun c hk hs id i hi p hp => ?_⟩
  · have hkept := h.kept j [] (outputPath fx) ⟨hj, by rw [hk, hs]⟩
    rw [Kept] at hkept
    rw [hk] at hkind
    rw [hs] at hu
    cases hc : b.comps j with
    | gen σ => rw [hc] at hkind; exact hkind.elim
    | target fx' σ =>
      rw [hc] at hkind hu hrel hkept
      obtain rfl : fx' = fx := hkind
      obtain ⟨order, o1, o2⟩ := (Target.Rel.clean hrel hu).bin
      refine ⟨order, o1, hkept.trans ?_⟩
      rw [← hfiles.1 _ _ hc]
      exact o2
  · have hkept := h.kept j id p ⟨hj, by rw [hk, hs]; exact ⟨i, Generator.find_mem hi, hp⟩⟩
    rw [Kept] at hkept
    rw [hk] at hkind
    rw [hs] at hu
    cases hc : b.comps j with
    | target fx' σ => rw [hc] at hkind; exact hkind.elim
    | gen σ =>
      rw [hc] at hkind hu hrel hkept
      refine hkept.trans ?_
      rw [← hfiles.2 _ hc]
      exact Generator.Rel.current hrel (hu id i hi) hp

/-! ## Building from scratch -/

theorem texts_congr {d d' : Str → Option β} {l : List PathInfo} (h : ∀ p ∈ paths l, d p = d' p) :
    texts d l = texts d' l := by
  refine List.map_congr_left fun i hi => ?_
  rw [h i.path (List.mem_map_of_mem hi)]

theorem scratchBin_congr {fx : Fixed} {T : Target.Tools β} {d d' : Str → Option β} {c : TargetSchema}
    {o order : List Str} (h : ∀ p ∈ (Setup.target c o).inputs, d p = d' p)
    (hord : order.Perm (paths c.sources)) : scratchBin fx T d c order = scratchBin fx T d' c order := by
  simp only [Setup.inputs, List.mem_append] at h
  have h1 : texts d c.headers = texts d' c.headers := texts_congr fun p hp => h p (by simp [hp])
  have h2 : texts d c.pchs = texts d' c.pchs := texts_congr fun p hp => h p (by simp [hp])
  have h3 : texts d c.libs = texts d' c.libs := texts_congr fun p hp => h p (by simp [hp])
  have h4 : texts d c.compileDeps = texts d' c.compileDeps := texts_congr fun p hp => h p (by simp [hp])
  have h5 : texts d c.linkDeps = texts d' c.linkDeps := texts_congr fun p hp => h p (by simp [hp])
  have hp : scratchPch? fx T d c = scratchPch? fx T d' c := by
    simp only [scratchPch?, scratchPch, h1, h2]
  simp only [scratchBin, h3, h5, hp]
  congr 1
  refine List.map_congr_left fun q hq => ?_
  simp only [scratchObj, h1, h4, hp]
  rw [h q (by simp [hord.mem_iff.1 hq])]

theorem made_congr {C : Generator.Callbacks β} {d d' : Str → Option β} {id : Str} {i : Generator.IdCfg} {p : Str}
    (h : ∀ q ∈ i.inputs, d q = d' q) : Generator.made C d id i p = Generator.made C d' id i p := by
  have : Generator.contentsOf d i.inputs = Generator.contentsOf d' i.inputs :=
    List.map_congr_left fun q hq => by rw [h q hq]
  rw [Generator.made, this, Generator.made]

theorem find_of_mem {α : Type} {id : Str} {a : α} : ∀ {l : List (Str × α)}, (Generator.keys l).Nodup →
    (id, a) ∈ l → Generator.find id l = some a := by
  intro l
  induction l with
  | nil => intro _ h; simp at h
  | cons x l ih =>
    obtain ⟨k, y⟩ := x
    intro hn h
    simp only [Generator.keys, List.map_cons, List.nodup_cons] at hn
    rcases List.mem_cons.1 h with h | h
    · cases h; simp [Generator.find]
    · have hne : k ≠ id := by
        rintro rfl
        exact hn.1 (List.mem_map.2 ⟨_, h, rfl⟩)
      simp only [Generator.find, if_neg hne]
      exact ih hn.2 h

/-- Dependencies come earlier, also through others. -/
theorem inOrder_reaches {g : Graph} {l pre post : List Str} {j a : Str} (h : InOrder g l)
    (hl : l = pre ++ j :: post) (hr : Reaches g.edges a j) : a ∈ pre := by
  have key : ∀ {a j : Str}, Reaches g.edges a j → ∀ {pre post}, l = pre ++ j :: post → a ∈ pre := by
    intro a j hr
    induction hr with
    | edge he => intro pre post hl; exact h.after _ _ _ hl _ he
    | @step a b c he _ ih =>
      intro pre post hl
      have hb := ih hl
      obtain ⟨p1, p2, rfl⟩ := List.append_of_mem hb
      have := h.after p1 b (p2 ++ c :: post) (by rw [hl]; simp) _ he
      simp [this]
  exact key hr hl

/-- There is such an order. -/
theorem inOrder_exists {g : Graph} (hv : Valid g) (ha : Acyclic g.edges) : ∃ l, InOrder g l := by
  have trans : ∀ {a b c : Str}, Reaches g.edges a b → Reaches g.edges b c → Reaches g.edges a c := by
    intro a b c h1 h2
    induction h1 with
    | edge e => exact .step e h2
    | step e _ ih => exact .step e (ih h2)
  have key : ∀ ids : List Str, ∃ l : List Str, l.Perm ids ∧ l.Pairwise fun a b => ¬ Reaches g.edges b a := by
    intro ids
    induction ids with
    | nil => exact ⟨[], .refl _, .nil⟩
    | cons x ids ih =>
      obtain ⟨l, h1, h2⟩ := ih
      refine ⟨l.filter (fun a => @decide (Reaches g.edges a x) (Classical.propDecidable _)) ++ x ::
        l.filter (fun a => !@decide (Reaches g.edges a x) (Classical.propDecidable _)), ?_, ?_⟩
      · refine List.perm_middle.trans (.cons _ ?_)
        exact (List.filter_append_perm _ _).trans h1
      · refine List.pairwise_append.2 ⟨h2.filter _, List.pairwise_cons.2 ⟨?_, h2.filter _⟩, ?_⟩
        · intro b hb
          have := (List.mem_filter.1 hb).2
          simpa using this
        · intro a ha' b hb hr
          have hax : Reaches g.edges a x := by simpa using (List.mem_filter.1 ha').2
          rcases List.mem_cons.1 hb with rfl | hb
          · exact ha _ (trans hax hr)
          · have := (List.mem_filter.1 hb).2
            simp only [Bool.not_eq_true', decide_eq_false_iff_not] at this
            exact this (trans hr hax)
  obtain ⟨l, h1, h2⟩ := key g.ids
  refine ⟨l, h1, ?_⟩
  rintro pre j post rfl a he
  have hm : a ∈ pre ++ j :: post := h1.mem_iff.2 (hv.ends _ he).1
  rcases List.mem_append.1 hm with hm | hm
  · exact hm
  · rcases List.mem_cons.1 hm with rfl | hm
    · exact absurd (.edge he) (ha _)
    · have := (List.pairwise_cons.1 (List.pairwise_append.1 h2).2.1).1 a hm
      exact absurd (.edge he) this

/-- When every product is what its maker makes of the files as they are, the products are those of a
build from scratch. -/
theorem buildAll_eq {kinds : Str → Kind} {g : Graph} {s : Str → Setup} (hsc : SoundScript kinds g s)
    (ho : OneMaker kinds g s) {files : Str → Option (Nat × β)} {orders : Str → List Str}
    (ht : ∀ j ∈ g.ids, ∀ fx c o, kinds j = .target fx → s j = .target c o →
      (orders j).Perm (paths c.sources) ∧
      text files (outputPath fx) = some (scratchBin fx M.tools (text files) c (orders j)))
    (hg : ∀ j ∈ g.ids, ∀ c, kinds j = .gen → s j = .gen c → ∀ id i, Generator.find id c = some i →
      ∀ p ∈ i.outputs, text files p = some (Generator.made (M.callbacks j) (text files) id i p))
    {l : List Str} (hl : InOrder g l) : ∀ post pre d, l = pre ++ post →
    (∀ p, (isMade kinds g s p = false ∨ ∃ j ∈ pre, p ∈ products (kinds j) (s j)) → d p = text files p) →
    ∀ p, (isMade kinds g s p = false ∨ ∃ j ∈ l, p ∈ products (kinds j) (s j)) →
      buildAll M kinds s orders post d p = text files p := by
  intro post
  induction post with
  | nil =>
    intro pre d hpre ih p hp
    rw [List.append_nil] at hpre
    subst hpre
    exact ih p hp
  | cons j post next =>
    intro pre d hpost' ih
    refine next (pre ++ [j]) (buildOne M kinds s orders d j) (by rw [hpost']; simp) ?_
    intro p hp
    have hj : j ∈ g.ids := hl.all.mem_iff.1 (by rw [hpost']; simp)
    have hfit := hsc.fits j hj
    have hin : ∀ q ∈ (s j).inputs, d q = text files q := by
      intro q hq
      refine ih q ?_
      cases hm : isMade kinds g s q with
      | false => exact .inl rfl
      | true =>
        simp only [isMade, List.any_eq_true, decide_eq_true_eq] at hm
        obtain ⟨a, ha, hqa⟩ := hm
        exact .inr ⟨a, inOrder_reaches hl hpost' (hsc.declared a ha j hj q hqa hq), ho.reads a ha j hj q hqa hq⟩
    -- files that the builder does not make keep their contents
    have rest : p ∉ products (kinds j) (s j) → d p = text files p := by
      intro hn
      refine ih p (hp.imp id ?_)
      rintro ⟨a, ha, hpa⟩
      rcases List.mem_append.1 ha with ha | ha
      · exact ⟨a, ha, hpa⟩
      · rw [List.mem_singleton.1 ha] at hpa
        exact absurd hpa hn
    rw [buildOne]
    cases hk : kinds j with
    | target fx =>
      cases hs : s j with
      | gen c => rw [hk, hs] at hfit; exact hfit.elim
      | target c o =>
        rw [hk, hs] at rest
        rw [hs] at hin
        obtain ⟨h1, h2⟩ := ht j hj fx c o hk hs
        simp only [upd]
        split
        · rename_i e
          rw [e, h2, scratchBin_congr hin h1]
        · rename_i e
          exact rest (by simpa [products] using e)
    | gen =>
      cases hs : s j with
      | target c o => rw [hk, hs] at hfit; exact hfit.elim
      | gen c =>
        rw [hk, hs] at rest
        rw [hs] at hin
        simp only
        cases hf : c.find? (fun x => decide (p ∈ x.2.outputs)) with
        | none =>
          refine rest ?_
          intro hm
          obtain ⟨x, hx, hpx⟩ := List.mem_flatMap.1 hm
          have := List.find?_eq_none.1 hf x hx
          simp [hpx] at this
        | some x =>
          obtain ⟨id, i⟩ := x
          have hx := List.mem_of_find?_eq_some hf
          have hpx : p ∈ i.outputs := by simpa using List.find?_some hf
          simp only
          rw [hg j hj c hk hs id i (find_of_mem (ho.gen j hj c hs).1 hx) p hpx,
            made_congr fun q hq => hin q (List.mem_flatMap.2 ⟨_, hx, hq⟩)]

end Verif.Reg
