import Verif.Reg.Choices
import Verif.Reg.BytesVersionsProps

/-! # Contents of files when every run builds some of the targets (C111) -/

namespace Verif.Reg
open Verif Verif.Schema
open Verif.Target (Project outputPath upd text paths)
open Verif.Path (Inside)

variable {β : Type} {M : Makers β}

/-! ## Specification -/

/-- The history is one of choices of a script (`OfChoices`). -/
def AllOfChoicesB (M : Makers β) (G : Graph → Prop) (s : Str → Setup) : BWorld β → List (BWEvent β) → Prop
  | _, [] => True
  | b, e :: l => OfChoices G s b.world e.erase ∧ AllOfChoicesB M G s (b.step M e) l

theorem AllOfChoicesB.mono {G G' : Graph → Prop} (h : ∀ g, G g → G' g) {s : Str → Setup} :
    ∀ {evs : List (BWEvent β)} {b : BWorld β}, AllOfChoicesB M G s b evs → AllOfChoicesB M G' s b evs
  | [], _, _ => trivial
  | e :: l, b, ha => by
    refine ⟨?_, AllOfChoicesB.mono h ha.2⟩
    cases e with
    | launch g s' => exact ⟨h g ha.1.1, ha.1.2⟩
    | _ => exact ha.1

/-- The choice `u` is of all targets: each other one leaves targets out, but none on which one that is
chosen depends. -/
structure Whole (ts : List ScriptTarget) (V : Version → Prop) (u : Version) : Prop where
  choice : V u
  all : u.ts = ts
  edges : ∀ v, V v → ∀ e ∈ v.script.graph.edges, e ∈ u.script.graph.edges
  closed : ∀ v, V v → ∀ e ∈ u.script.graph.edges, e.2 ∈ v.script.graph.ids → e.1 ∈ v.script.graph.ids

/-! ## Choices are versions -/

theorem choicesB_versions {G : Graph → Prop} {s : Str → Setup} {F : Versions}
    (hF : ∀ g s', G g → (∀ j ∈ g.ids, SameSetup (s' j) (s j)) → F g s') :
    ∀ (evs : List (BWEvent β)) (b : BWorld β), (∀ j, KComp (s j) (b.world.comps j)) →
      AllOfChoicesB M G s b evs → AllOfVersionsB M F b evs
  | [], _, _, _ => trivial
  | e :: l, b, h, ha => by
    refine ⟨?_, choicesB_versions hF l _ ?_ ha.2⟩
    · cases e with
      | launch g s' => exact fun _ => ⟨hF g s' ha.1.1 ha.1.2, fun j hj => (h j).resumes (ha.1.2 j hj)⟩
      | _ => exact ha.1
    · rcases world_step (M := M) b e with h1 | h1
      · rw [h1]; exact kComp_choice h ha.1
      · rw [h1]; exact h

section
variable {p : Project} {ts : List ScriptTarget} {gs : List ScriptGen} {V : Version → Prop}

theorem Choices.own (h : Choices p ts gs V) (hm : MadeOnce ts gs) {v : Version} (hv : V v) :
    OwnVersion V v where
  once := by
    obtain ⟨h1, h2⟩ := h.sub v hv
    exact ⟨fun t ht => hm.targets t (h1 t ht), h2 ▸ hm.ids, h2 ▸ hm.gens⟩
  names v' hv' t _ t' ht' _ := hm.targets t' ((h.sub v' hv').1 t' ht')
  targets := by
    intro v' hv' t ht g hg hq
    have hp := h.plain v hv
    have pt := hp.placed ht
    have hin : Inside t.made.buildDir t.output := by
      rw [pt.output.1]
      have := plain_ext pt.name pt.ext
      exact inside_name this.2.2.1 this.2.2.2
    refine hp.apart g ?_ _ hq t ht hin
    rw [(h.sub v hv).2, ← (h.sub v' hv').2]
    exact hg
  gens := by
    intro v' hv' g hg x hx q hq
    rw [(h.sub v hv).2] at hg
    have hgo : q ∈ g.outputs := List.mem_flatMap.2 ⟨x, hx, hq⟩
    refine ⟨fun t ht => (h.plain v' hv').apart g ((h.sub v' hv').2 ▸ hg) q hgo t ht, ?_⟩
    intro g' hg' y hy hqy
    rw [(h.sub v' hv').2] at hg'
    have he : g'.name = g.name := Classical.byContradiction fun hne =>
      hm.gens g' hg' g hg hne q (List.mem_flatMap.2 ⟨y, hy, hqy⟩) hgo
    obtain rfl := unique_gen h.names hg' hg he
    exact ⟨rfl, (hm.ids g' hg').2 y hy x hx q hqy hq⟩

end

/-! ## A build of some of the builders -/

theorem buildOne_rest {kinds : Str → Kind} {s : Str → Setup} {orders : Str → List Str} {d : Str → Option β}
    {j q : Str} (h : q ∉ products (kinds j) (s j)) : buildOne M kinds s orders d j q = d q := by
  unfold buildOne
  cases hk : kinds j <;> cases hs : s j <;> rw [hk, hs] at h <;> simp only
  · rw [upd, if_neg]
    simpa [products] using h
  · rename_i c
    cases hf : c.find? (fun x => decide (q ∈ x.2.outputs)) with
    | none => rfl
    | some x =>
      refine absurd (List.mem_flatMap.2 ⟨x, List.mem_of_find?_eq_some hf, ?_⟩) h
      simpa using List.find?_some hf

theorem buildOne_congr {kinds : Str → Kind} {s : Str → Setup} {orders : Str → List Str} {d d' : Str → Option β}
    {j q : Str} (hin : ∀ x ∈ (s j).inputs, d x = d' x) (hq : d q = d' q)
    (ho : ∀ c o, s j = .target c o → (orders j).Perm (paths c.sources)) :
    buildOne M kinds s orders d j q = buildOne M kinds s orders d' j q := by
  unfold buildOne
  cases hk : kinds j <;> cases hs : s j <;> rw [hs] at hin <;> simp only
  · simp only [upd]
    split
    · rw [scratchBin_congr hin (ho _ _ hs)]
    · exact hq
  · exact hq
  · exact hq
  · rename_i c
    cases hf : c.find? (fun x => decide (q ∈ x.2.outputs)) with
    | none => exact hq
    | some x =>
      simp only
      rw [made_congr fun y hy => hin y (List.mem_flatMap.2 ⟨x, List.mem_of_find?_eq_some hf, hy⟩)]

/-- Builders of which nobody who is built reads anything can be left out. -/
theorem buildAll_part {kinds : Str → Kind} {s : Str → Setup} {orders : Str → List Str} {ids : List Str}
    {Off : Str → Prop} : ∀ (l : List Str) (d d' : Str → Option β), (∀ q, ¬ Off q → d q = d' q) →
    (∀ j ∈ l, j ∉ ids → ∀ q ∈ products (kinds j) (s j), Off q) →
    (∀ j ∈ l, j ∈ ids → ∀ q ∈ (s j).inputs, ¬ Off q) →
    (∀ j ∈ l, j ∈ ids → ∀ c o, s j = .target c o → (orders j).Perm (paths c.sources)) →
    ∀ q, ¬ Off q → buildAll M kinds s orders l d q = buildAll M kinds s orders (l.filter (· ∈ ids)) d' q
  | [], _, _, h, _, _, _, q, hq => h q hq
  | j :: l, d, d', h, h1, h2, h3, q, hq => by
    by_cases hj : j ∈ ids
    · rw [List.filter_cons_of_pos (by simpa using hj)]
      refine buildAll_part l (buildOne M kinds s orders d j) (buildOne M kinds s orders d' j) ?_
        (fun k hk => h1 k (List.mem_cons_of_mem _ hk)) (fun k hk => h2 k (List.mem_cons_of_mem _ hk))
        (fun k hk => h3 k (List.mem_cons_of_mem _ hk)) q hq
      intro x hx
      exact buildOne_congr (fun y hy => h y (h2 j List.mem_cons_self hj y hy)) (h x hx)
        (h3 j List.mem_cons_self hj)
    · rw [List.filter_cons_of_neg (by simpa using hj)]
      refine buildAll_part l (buildOne M kinds s orders d j) d' ?_
        (fun k hk => h1 k (List.mem_cons_of_mem _ hk)) (fun k hk => h2 k (List.mem_cons_of_mem _ hk))
        (fun k hk => h3 k (List.mem_cons_of_mem _ hk)) q hq
      intro x hx
      rw [buildOne_rest fun hp => hx (h1 j List.mem_cons_self hj x hp)]
      exact h x hx

/-- An order of all builders, without those that are left out. -/
theorem InOrder.part {g g' : Graph} {l : List Str} (h : InOrder g l) (hv : Valid g) (hv' : Valid g')
    (hsub : ∀ j ∈ g'.ids, j ∈ g.ids) (he : ∀ e ∈ g'.edges, e ∈ g.edges) :
    InOrder g' (l.filter (· ∈ g'.ids)) where
  all := by
    have hn : l.Nodup := h.all.symm.nodup hv.ids
    refine (List.perm_ext_iff_of_nodup (hn.filter _) hv'.ids).2 fun j => ?_
    simp only [List.mem_filter, decide_eq_true_eq, and_iff_right_iff_imp]
    exact fun hj => h.all.mem_iff.2 (hsub j hj)
  after := by
    intro pre j post hl a ha
    obtain ⟨l1, l2, rfl, rfl, h2⟩ := List.filter_eq_append_iff.1 hl
    obtain ⟨m1, m2, rfl, h3, h4, -⟩ := List.filter_eq_cons_iff.1 h2
    have := h.after (l1 ++ m1) j m2 (by simp) a (he _ ha)
    have hid := (hv'.ends _ ha).1
    rcases List.mem_append.1 this with hm | hm
    · exact List.mem_filter.2 ⟨hm, by simpa using hid⟩
    · have := h3 a hm
      simp only [decide_eq_true_eq] at this
      exact absurd hid this

section
variable {p : Project} {ts : List ScriptTarget} {gs : List ScriptGen} {V : Version → Prop}

theorem reaches_closed {E : List (Str × Str)} {ids : List Str} (h : ∀ e ∈ E, e.2 ∈ ids → e.1 ∈ ids) {a b : Str}
    (hr : Reaches E a b) (hb : b ∈ ids) : a ∈ ids := by
  induction hr with
  | edge he => exact h _ he hb
  | step he _ ih => exact h _ he (ih hb)

/-- A choice registers nothing else. -/
theorem Whole.sub {u : Version} (hu : Whole ts V u) (h : Choices p ts gs V) {v : Version} (hv : V v) :
    ∀ j ∈ v.script.graph.ids, j ∈ u.script.graph.ids := by
  intro j hj
  refine (h.accepted u hu.choice).2.2.mem_iff.2 ?_
  rw [Names, hu.all, (h.sub u hu.choice).2]
  rcases mem_names ((h.accepted v hv).2.2.mem_iff.1 hj) with ⟨t, ht, rfl⟩ | ⟨x, hx, rfl⟩
  · exact List.mem_append.2 (.inl (List.mem_map_of_mem ((h.sub v hv).1 t ht)))
  · exact List.mem_append.2 (.inr (List.mem_map_of_mem ((h.sub v hv).2 ▸ hx)))

/-- A build from scratch of a choice makes of its targets and of the generated files what a build from
scratch of the whole script makes of them. -/
theorem choice_part (h : Choices p ts gs V) (hm : MadeOnce ts gs) {u v : Version} (hu : Whole ts V u) (hv : V v)
    {orders : Str → List Str} (hord : ∀ t ∈ v.ts, (orders t.id).Perm (paths t.cfg.sources))
    {o : List Str} (ho : InOrder u.script.graph o) (files : Str → Option (Nat × β)) {q : Str} (hq : v.Makes q) :
    buildAll M (kindsOf ts) (setupWith ts gs) orders o
      (sourcesOnly (kindsOf ts) u.script.graph (setupWith ts gs) files) q =
    buildAll M (kindsOf v.ts) (setupWith v.ts v.gs) orders (o.filter (· ∈ v.script.graph.ids))
      (sourcesOnly (kindsOf v.ts) v.script.graph (setupWith v.ts v.gs) files) q := by
  have hpv := h.versions
  obtain ⟨hval, hac, hnu⟩ := hpv.names hu.choice
  obtain ⟨hval', -, hnv⟩ := hpv.names hv
  have hidu := (h.accepted u hu.choice).2.2
  have hidv := (h.accepted v hv).2.2
  have hsub := hu.sub h hv
  have hk : ∀ j ∈ v.script.graph.ids, kindsOf v.ts j = kindsOf ts j := fun j hj => (hpv.kind hv hj).symm
  have hs : ∀ j ∈ v.script.graph.ids, setupWith v.ts v.gs j = setupWith ts gs j := fun j hj => h.setup hv hj
  have hplain : PlainProject p ts gs u.script.graph.edges := by
    have := h.plain u hu.choice
    rw [hu.all, (h.sub u hu.choice).2] at this
    exact this
  have hperm : u.script.graph.ids.Perm (Names ts gs) := by
    have := hidu
    rw [hu.all, (h.sub u hu.choice).2] at this
    exact this
  have hsound := hplain.sound hval hac hperm
  have hone := hplain.oneMaker hval hperm hm
  -- files of the builders that are left out
  let Off := fun q => ∃ j ∈ u.script.graph.ids, j ∉ v.script.graph.ids ∧
    q ∈ outputs (kindsOf ts j).init (setupWith ts gs j)
  have hoff : ∀ j ∈ v.script.graph.ids, ∀ x ∈ (setupWith ts gs j).inputs, ¬ Off x := by
    rintro j hj x hx ⟨a, ha, hna, hxa⟩
    exact hna (reaches_closed (hu.closed v hv) (hsound.declared a ha j (hsub j hj) x hxa hx) hj)
  have hmade : ∃ j ∈ v.script.graph.ids, q ∈ products (kindsOf ts j) (setupWith ts gs j) := by
    rcases hq with ⟨t, ht, rfl⟩ | ⟨g, hg, hqg⟩
    · refine ⟨t.id, hidv.mem_iff.2 (List.mem_append.2 (.inl (List.mem_map_of_mem ht))), ?_⟩
      obtain ⟨e1, e2⟩ := target_eq h.names ((h.sub v hv).1 t ht)
      rw [e1, e2]
      exact List.mem_singleton.2 rfl
    · refine ⟨g.name, hidv.mem_iff.2 (List.mem_append.2 (.inr (List.mem_map_of_mem hg))), ?_⟩
      obtain ⟨e1, e2⟩ := gen_eq h.names ((h.sub v hv).2 ▸ hg)
      rw [e1, e2]
      exact hqg
  have hqoff : ¬ Off q := by
    rintro ⟨a, ha, hna, hqa⟩
    obtain ⟨j, hj, hqj⟩ := hmade
    exact hone.others j (hsub j hj) a ha (fun e => hna (e ▸ hj)) q hqj hqa
  have hsrc : ∀ x, ¬ Off x → sourcesOnly (kindsOf ts) u.script.graph (setupWith ts gs) files x =
      sourcesOnly (kindsOf ts) v.script.graph (setupWith ts gs) files x := by
    intro x hx
    have : isMade (kindsOf ts) u.script.graph (setupWith ts gs) x =
        isMade (kindsOf ts) v.script.graph (setupWith ts gs) x := by
      rw [Bool.eq_iff_iff]
      simp only [isMade, List.any_eq_true, decide_eq_true_eq]
      constructor
      · rintro ⟨j, hj, hxj⟩
        exact ⟨j, Classical.byContradiction fun hn => hx ⟨j, hj, hn, hxj⟩, hxj⟩
      · rintro ⟨j, hj, hxj⟩
        exact ⟨j, hsub j hj, hxj⟩
    simp only [sourcesOnly, this]
  rw [buildAll_part o _ _ hsrc ?_ (fun j _ hj => hoff j hj) ?_ q hqoff]
  · have e : sourcesOnly (kindsOf v.ts) v.script.graph (setupWith v.ts v.gs) files =
        sourcesOnly (kindsOf ts) v.script.graph (setupWith ts gs) files := by
      unfold sourcesOnly
      rw [isMade_same fun j hj => ⟨hk j hj, by rw [hs j hj]; exact SameSetup.refl _⟩]
    rw [e]
    refine (congrFun (buildAll_same _ _ fun j hj => ?_) q).symm
    have hj : j ∈ v.script.graph.ids := by simpa using (List.mem_filter.1 hj).2
    exact ⟨hk j hj, by rw [hs j hj]; exact SameSetup.refl _⟩
  · exact fun j hj hnj x hx => ⟨j, ho.all.mem_iff.1 hj, hnj, products_outputs hx⟩
  · intro j _ hj c o' hc
    rcases mem_names (hidv.mem_iff.1 hj) with ⟨t, ht, rfl⟩ | ⟨x, hx, rfl⟩
    · rw [(target_eq h.names ((h.sub v hv).1 t ht)).2] at hc
      cases hc
      exact hord t ht
    · rw [(gen_eq h.names ((h.sub v hv).2 ▸ hx)).2] at hc
      cases hc

/-- C111: a script of targets and generators that makes no file twice is run again and again, each time with
another choice of its targets.  When the choice `v` was built with success and nobody has changed by hand
what it makes, every target of it and every generated file holds what one build from scratch of the whole
script makes of the contents of the files that the script does not make: which targets were chosen, now and
before, does not matter. -/
theorem C111_choices {evs : List (BWEvent β)} {b : BWorld β} (h : Choices p ts gs V) (hm : MadeOnce ts gs)
    {u : Version} (hu : Whole ts V u) (hb : b = (BWorld.init (kindsOf ts)).steps M evs)
    (hal : AllOfChoicesB M (fun g => ∃ v, V v ∧ g = v.script.graph) (setupWith ts gs)
      (BWorld.init (kindsOf ts)) evs)
    (ha : b.world.active = true) (hcalm : b.world.calm = true)
    (hres : (b.step M .join).world.result = some true)
    {v : Version} (hv : V v) (hg : b.world.graph = v.script.graph)
    (hand : ∀ e ∈ evs, ∀ q, v.Makes q → (∀ t x, e ≠ .edit q t x) ∧ e ≠ .delete q) :
    ∃ orders : Str → List Str, (∀ t ∈ ts, (orders t.id).Perm (paths t.cfg.sources)) ∧
      ∀ o, InOrder u.script.graph o → ∀ q, v.Makes q →
        text (b.step M .join).files q = buildAll M (kindsOf ts) (setupWith ts gs) orders o
          (sourcesOnly (kindsOf ts) u.script.graph (setupWith ts gs) b.files) q := by
  have hF : ∀ (g : Graph) (s' : Str → Setup), (∃ v, V v ∧ g = v.script.graph) →
      (∀ j ∈ g.ids, SameSetup (s' j) (setupWith ts gs j)) → versionsOf V g s' := by
    rintro g s' ⟨v, hv, rfl⟩ hs
    refine ⟨v, hv, rfl, fun j hj => ?_⟩
    rw [h.setup hv hj]
    exact hs j hj
  have hav := choicesB_versions hF evs _ (kComp_init _ _) hal
  have hpv := h.versions
  have his : v.Is b.world.graph b.world.setup := by
    obtain ⟨hI, -, -⟩ := bVersions_steps hpv.sound evs (M := M) (b := BWorld.init (kindsOf ts))
      (versionsInv_init hpv.sound) (cInv_init _) hav
    rw [← hb] at hI
    obtain ⟨v', hv', e1, e2⟩ := hI.plan ha
    refine ⟨hg, fun j hj => ?_⟩
    have := e2 j hj
    rw [h.setup hv' (e1 ▸ hj)] at this
    rw [h.setup hv (hg ▸ hj)]
    exact this
  obtain ⟨orders, h1, h2⟩ := C101_project_partial hpv hb hav ha hcalm hres hv his (h.own hm hv) hand
  obtain ⟨hval, hac, hnu⟩ := hpv.names hu.choice
  obtain ⟨hval', -, hnv⟩ := hpv.names hv
  have hidv := (h.accepted v hv).2.2
  let orders' : Str → List Str := fun j =>
    if j ∈ v.script.graph.ids then orders j
    else match setupWith ts gs j with
      | .target c _ => paths c.sources
      | .gen _ => []
  have hmt : ∀ t ∈ v.ts, t.id ∈ v.script.graph.ids := fun t ht =>
    hidv.mem_iff.2 (List.mem_append.2 (.inl (List.mem_map_of_mem ht)))
  refine ⟨orders', ?_, ?_⟩
  · intro t ht
    simp only [orders']
    split
    · rename_i hj
      rcases mem_names (hidv.mem_iff.1 hj) with ⟨t', ht', he⟩ | ⟨x, hx, he⟩
      · obtain rfl := unique_target h.names ((h.sub v hv).1 t' ht') ht he
        exact h1 t' ht'
      · have e1 := (gen_eq h.names ((h.sub v hv).2 ▸ hx)).1
        rw [he, (target_eq h.names ht).1] at e1
        cases e1
    · rw [(target_eq h.names ht).2]
  · intro o ho q hq
    have hsub := hu.sub h hv
    rw [choice_part h hm hu hv (fun t ht => by
      simp only [orders', if_pos (hmt t ht)]; exact h1 t ht) ho b.files hq,
      h2 _ (ho.part hval hval' hsub (hu.edges v hv)) q hq]
    have : ∀ (l : List Str) (d : Str → Option β), (∀ j ∈ l, j ∈ v.script.graph.ids) →
        buildAll M (kindsOf v.ts) (setupWith v.ts v.gs) orders l d =
        buildAll M (kindsOf v.ts) (setupWith v.ts v.gs) orders' l d := by
      intro l
      induction l with
      | nil => intro d _; rfl
      | cons j l ih =>
        intro d hl
        have e : buildOne M (kindsOf v.ts) (setupWith v.ts v.gs) orders d j =
            buildOne M (kindsOf v.ts) (setupWith v.ts v.gs) orders' d j := by
          have : orders' j = orders j := by simp only [orders', if_pos (hl j List.mem_cons_self)]
          unfold buildOne
          rw [this]
        show buildAll M _ _ orders l _ = buildAll M _ _ orders' l _
        rw [e]
        exact ih _ fun k hk => hl k (List.mem_cons_of_mem _ hk)
    rw [this _ _ fun j hj => by simpa using (List.mem_filter.1 hj).2]

/-- C111: two directories in which the script was run with any choices, the last ones being `v` and `v'`.
When both builds end with success and the files that the script does not make have the same contents, so
have those that both make. -/
theorem C111_same {evs evs' : List (BWEvent β)} {b b' : BWorld β} (h : Choices p ts gs V)
    (hm : MadeOnce ts gs) {u : Version} (hu : Whole ts V u)
    (hT : AnyOrder M.tools u.script.graph (setupWith ts gs))
    (hb : b = (BWorld.init (kindsOf ts)).steps M evs) (hb' : b' = (BWorld.init (kindsOf ts)).steps M evs')
    (hal : AllOfChoicesB M (fun g => ∃ v, V v ∧ g = v.script.graph) (setupWith ts gs)
      (BWorld.init (kindsOf ts)) evs)
    (hal' : AllOfChoicesB M (fun g => ∃ v, V v ∧ g = v.script.graph) (setupWith ts gs)
      (BWorld.init (kindsOf ts)) evs')
    (ha : b.world.active = true) (ha' : b'.world.active = true)
    (hcalm : b.world.calm = true) (hcalm' : b'.world.calm = true)
    (hres : (b.step M .join).world.result = some true) (hres' : (b'.step M .join).world.result = some true)
    {v v' : Version} (hv : V v) (hv' : V v') (hg : b.world.graph = v.script.graph)
    (hg' : b'.world.graph = v'.script.graph)
    (hand : ∀ e ∈ evs, ∀ q, v.Makes q → (∀ t x, e ≠ .edit q t x) ∧ e ≠ .delete q)
    (hand' : ∀ e ∈ evs', ∀ q, v'.Makes q → (∀ t x, e ≠ .edit q t x) ∧ e ≠ .delete q)
    (hsame : ∀ q, isMade (kindsOf ts) u.script.graph (setupWith ts gs) q = false →
      text b.files q = text b'.files q) :
    ∀ q, v.Makes q → v'.Makes q → text (b.step M .join).files q = text (b'.step M .join).files q := by
  obtain ⟨o, h1, h2⟩ := C111_choices h hm hu hb hal ha hcalm hres hv hg hand
  obtain ⟨o', h1', h2'⟩ := C111_choices h hm hu hb' hal' ha' hcalm' hres' hv' hg' hand'
  obtain ⟨hval, hac, -⟩ := h.versions.names hu.choice
  have hids := (h.accepted u hu.choice).2.2
  rw [hu.all, (h.sub u hu.choice).2] at hids
  obtain ⟨l, hl⟩ := inOrder_exists hval hac
  intro q hq hq'
  rw [h2 l hl q hq, h2' l hl q hq']
  have hsrc : sourcesOnly (kindsOf ts) u.script.graph (setupWith ts gs) b.files =
      sourcesOnly (kindsOf ts) u.script.graph (setupWith ts gs) b'.files := by
    funext q
    simp only [sourcesOnly]
    split
    · rfl
    · rename_i hq
      exact hsame q (by simpa using hq)
  have hperm : ∀ o : Str → List Str, (∀ t ∈ ts, (o t.id).Perm (paths t.cfg.sources)) →
      ∀ j ∈ u.script.graph.ids, ∀ c x, setupWith ts gs j = .target c x → (o j).Perm (paths c.sources) := by
    intro o ho j hj c x hs
    rcases mem_names (hids.mem_iff.1 hj) with ⟨t, ht, rfl⟩ | ⟨y, hy, rfl⟩
    · rw [(target_eq h.names ht).2] at hs
      cases hs
      exact ho t ht
    · rw [(gen_eq h.names hy).2] at hs
      cases hs
  rw [hsrc, buildAll_orders hT (hperm o h1) (hperm o' h1') l _ fun k hk => hl.all.mem_iff.1 hk]

end

end Verif.Reg
