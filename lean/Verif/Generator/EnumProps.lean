import Verif.Generator.FileApiProps
import Verif.Generator.ExactProps
import Verif.Generator.Examples

/-!
# Sets given to a generator (C95)

`AddIdInfo` takes the inputs and outputs as `std::unordered_set`, `AddPatterns` takes an
`std::unordered_map`.  C++ leaves open in which order they are iterated; with the usual
libraries it depends on the order in which a script lists the elements.
-/

namespace Verif.Generator
open Verif Verif.Command Verif.Schema

/-! ## Specification -/

/-- Two calls with the same arguments, apart from the order of the elements of sets and maps. -/
inductive SameCall : GenOp → GenOp → Prop where
  | pattern (k p : Str) : SameCall (.addPattern k p) (.addPattern k p)
  | patterns {l l' : List (Str × Str)} (h : l.Perm l') (nodup : (l.map (·.1)).Nodup) :
    SameCall (.addPatterns l) (.addPatterns l')
  | idInfo (id : Str) {ins ins' outs outs' : List Str} (hasCb : Bool) (handler : Option Handler)
    (inputs : ins.Perm ins') (outputs : outs.Perm outs') :
    SameCall (.addIdInfo id ins outs hasCb handler) (.addIdInfo id ins' outs' hasCb handler)

/-- Two sequences of such calls. -/
inductive SameCalls : List GenOp → List GenOp → Prop where
  | nil : SameCalls [] []
  | cons {a b : GenOp} {l m : List GenOp} : SameCall a b → SameCalls l m →
    SameCalls (a :: l) (b :: m)

/-- No pattern of the map uses a placeholder that the same map defines. -/
def Independent (l : List (Str × Str)) : Prop :=
  ∀ x ∈ l, ∀ y ∈ l, ∀ segs : List Seg, (∀ s ∈ segs, s.Ok) → srcs segs = x.2 → .field y.1 ∉ segs

/-- The same ids with the same inputs and outputs, apart from their order. -/
def SameSets (c c' : Cfg) : Prop :=
  keys c = keys c' ∧ ∀ id i, find id c = some i → ∃ i', find id c' = some i' ∧
    i.inputs.Perm i'.inputs ∧ i.outputs.Perm i'.outputs ∧ i.handler = i'.handler

/-! ## Lemmas -/

theorem vals_congr {f g : Str → Option Str} {l : List Seg}
    (h : ∀ n, Seg.field n ∈ l → f n = g n) : vals f l = vals g l := by
  induction l with
  | nil => rfl
  | cons x l ih =>
    rw [vals, vals, ih fun n hn => h n (List.mem_cons_of_mem _ hn)]
    have : x.val f = x.val g := by
      cases x with
      | field n => exact h n List.mem_cons_self
      | _ => rfl
    rw [this]

theorem standsFor_unique {names : Str → Option Str} {p s t : Str} (d : Defaults)
    (hd : names = getDefault d) (h : StandsFor names p s) (h' : StandsFor names p t) : s = t := by
  subst hd
  have h1 := (construct_stands d p s).2 h
  rw [(construct_stands d p t).2 h'] at h1
  simpa using h1.symm

/-- What `AddPatterns` does when no pattern uses another one of the same call. -/
theorem addPatterns_spec {g : Filled} {l : List (Str × Str)} {used : Str → Option Str}
    (hi : Independent l) (hn : (l.map (·.1)).Nodup)
    (hu : ∀ x ∈ l, ∀ segs : List Seg, (∀ s ∈ segs, s.Ok) → srcs segs = x.2 →
      ∀ n, .field n ∈ segs → used n = g.get n)
    (hk : ∀ x ∈ l, used x.1 = g.get x.1) :
    ((addPatterns g l).isSome ↔ ∀ x ∈ l, ∃ s, StandsFor used x.2 s) ∧
    ∀ g', addPatterns g l = some g' → g'.ids = g.ids ∧ ∀ n v,
      g'.get n = some v ↔ g.get n = some v ∨
        g.get n = none ∧ ∃ p, (n, p) ∈ l ∧ StandsFor used p v := by
  induction l generalizing g with
  | nil => simp [addPatterns]
  | cons x l ih =>
    obtain ⟨k, p⟩ := x
    have huse : ∀ s, StandsFor g.get p s ↔ StandsFor used p s := by
      intro s
      constructor
      · rintro ⟨segs, h1, h2, h3⟩
        exact ⟨segs, h1, h2, by
          rw [vals_congr (hu (k, p) List.mem_cons_self segs h1 h2), h3]⟩
      · rintro ⟨segs, h1, h2, h3⟩
        exact ⟨segs, h1, h2, by
          rw [← vals_congr (hu (k, p) List.mem_cons_self segs h1 h2), h3]⟩
    rw [addPatterns, addPattern]
    cases hc : construct g.command p [] with
    | value s =>
      have hs : StandsFor g.get p s := (construct_stands _ _ _).1 hc
      simp only
      have hget : ∀ n, Filled.get { g with command := addDefault g.command k s } n =
          match g.get n with
          | some w => some w
          | none => if k = n then some s else none := fun n => getDefault_addDefault _ _ _ _
      have hne : ∀ x ∈ l, k ≠ x.1 := by
        intro x hx e
        rw [List.map_cons, List.nodup_cons] at hn
        exact hn.1 (List.mem_map.2 ⟨x, hx, e.symm⟩)
      obtain ⟨h1, h2⟩ := ih (g := { g with command := addDefault g.command k s })
        (fun x hx y hy => hi x (List.mem_cons_of_mem _ hx) y (List.mem_cons_of_mem _ hy))
        (by rw [List.map_cons, List.nodup_cons] at hn; exact hn.2)
        (by
          intro x hx segs o1 o2 n hnf
          rw [hu x (List.mem_cons_of_mem _ hx) segs o1 o2 n hnf, hget]
          cases g.get n with
          | some w => rfl
          | none =>
            have : k ≠ n := by
              rintro rfl
              exact hi x (List.mem_cons_of_mem _ hx) (k, p) List.mem_cons_self segs o1 o2 hnf
            simp [this])
        (by
          intro x hx
          rw [hk x (List.mem_cons_of_mem _ hx), hget]
          cases g.get x.1 with
          | some w => rfl
          | none => simp [hne x hx])
      refine ⟨?_, ?_⟩
      · rw [h1]
        simp only [List.mem_cons, forall_eq_or_imp]
        exact ⟨fun h => ⟨⟨s, (huse s).1 hs⟩, h⟩, fun h => h.2⟩
      · intro g' hg'
        obtain ⟨h3, h4⟩ := h2 g' hg'
        refine ⟨h3, fun n v => ?_⟩
        rw [h4, hget]
        cases hgn : g.get n with
        | some w => simp
        | none =>
          by_cases hkn : k = n
          · subst hkn
            simp only [if_pos, Option.some.injEq, reduceCtorEq, false_and, or_false, false_or,
              true_and, List.mem_cons, Prod.mk.injEq]
            constructor
            · rintro rfl
              exact ⟨p, .inl rfl, (huse s).1 hs⟩
            · rintro ⟨q, hq | hq, hv⟩
              · subst hq
                exact standsFor_unique g.command rfl hs ((huse v).2 hv)
              · exact absurd rfl (hne _ hq)
          · simp only [if_neg hkn, reduceCtorEq, false_or, true_and, List.mem_cons, Prod.mk.injEq]
            constructor
            · rintro ⟨q, hq, hv⟩
              exact ⟨q, .inr hq, hv⟩
            · rintro ⟨q, ⟨h5, -⟩ | hq, hv⟩
              · exact absurd h5.symm hkn
              · exact ⟨q, hq, hv⟩
    | fatal =>
      refine ⟨?_, by simp⟩
      simp only [Option.isSome_none, Bool.false_eq_true, List.mem_cons, forall_eq_or_imp, false_iff]
      rintro ⟨⟨s, hs⟩, -⟩
      have := (construct_stands g.command p s).2 ((huse s).2 hs)
      rw [hc] at this; cases this
    | unspecified =>
      refine ⟨?_, by simp⟩
      simp only [Option.isSome_none, Bool.false_eq_true, List.mem_cons, forall_eq_or_imp, false_iff]
      rintro ⟨⟨s, hs⟩, -⟩
      have := (construct_stands g.command p s).2 ((huse s).2 hs)
      rw [hc] at this; cases this

theorem constructPaths_congr {d d' : Defaults} (h : getDefault d = getDefault d') (l : List Str) :
    constructPaths d l = constructPaths d' l := by
  apply Option.ext
  intro q
  rw [constructPaths_stand, constructPaths_stand, h]

/-- `Construct` of the elements of a set in another order. -/
theorem constructPaths_perm {d : Defaults} {l m : List Str} (h : l.Perm m) {i : List Str}
    (hi : constructPaths d l = some i) : ∃ j, constructPaths d m = some j ∧ i.Perm j := by
  induction h generalizing i with
  | nil => exact ⟨i, hi, .refl _⟩
  | cons x _ ih =>
    rw [constructPaths] at hi
    split at hi
    · rename_i s r h1 h2
      simp only [Option.some.injEq] at hi
      subst hi
      obtain ⟨j, hj, hp⟩ := ih h2
      exact ⟨_, by rw [constructPaths, h1, hj], hp.cons _⟩
    · simp at hi
  | swap x y l =>
    rw [constructPaths, constructPaths] at hi
    split at hi
    · rename_i s r h1 h2
      split at h2
      · rename_i s' r' h3 h4
        simp only [Option.some.injEq] at hi h2
        subst hi; subst h2
        exact ⟨_, by rw [constructPaths, constructPaths, h3, h1, h4], .swap _ _ _⟩
      · simp at h2
    · simp at hi
  | trans _ _ ih1 ih2 =>
    obtain ⟨j, hj, hp⟩ := ih1 hi
    obtain ⟨k, hk, hq⟩ := ih2 hj
    exact ⟨k, hk, hp.trans hq⟩

theorem find_append_single {c : Cfg} {id n : Str} {x : IdCfg} :
    find n (c ++ [(id, x)]) = (find n c).or (if id = n then some x else none) := by
  induction c with
  | nil => simp [find]
  | cons y c ih =>
    obtain ⟨k, v⟩ := y
    simp only [List.cons_append, find]
    split
    · simp
    · exact ih

/-- The same names and, apart from the order of inputs and outputs, the same ids. -/
structure Alike (g g' : Filled) : Prop where
  names : g.get = g'.get
  ids : SameSets g.ids g'.ids

theorem genApply_alike {g g₁ h : Filled} {a b : GenOp} (hab : SameCall a b)
    (hi : ∀ l, a = .addPatterns l → Independent l) (hg : Alike g h) (ha : genApply g a = some g₁) :
    ∃ h₁, genApply h b = some h₁ ∧ Alike g₁ h₁ := by
  have hnames : getDefault g.command = getDefault h.command := hg.names
  cases hab with
  | pattern k p =>
    obtain ⟨s, hs, rfl⟩ := addPattern_some ha
    rw [hg.names] at hs
    have hc : construct h.command p [] = .value s := (construct_stands _ _ _).2 hs
    refine ⟨{ h with command := addDefault h.command k s }, by simp [genApply, addPattern, hc], ?_, hg.ids⟩
    funext n
    show getDefault (addDefault g.command k s) n = getDefault (addDefault h.command k s) n
    rw [getDefault_addDefault, getDefault_addDefault, hnames]
  | @patterns l l' hp hn =>
    have hind := hi l rfl
    have hind' : Independent l' := fun x hx y hy => hind x (hp.mem_iff.2 hx) y (hp.mem_iff.2 hy)
    obtain ⟨s1, s2⟩ := addPatterns_spec (g := g) (used := g.get) hind hn
      (fun _ _ _ _ _ _ _ => rfl) fun _ _ => rfl
    obtain ⟨t1, t2⟩ := addPatterns_spec (g := h) (used := h.get) hind'
      ((hp.map _).nodup_iff.1 hn) (fun _ _ _ _ _ _ _ => rfl) fun _ _ => rfl
    have hall := s1.1 (by rw [genApply] at ha; rw [ha]; rfl)
    have hsome := t1.2 fun x hx => hg.names ▸ hall x (hp.mem_iff.2 hx)
    obtain ⟨h₁, hh⟩ := Option.isSome_iff_exists.1 hsome
    obtain ⟨a1, a2⟩ := s2 g₁ ha
    obtain ⟨b1, b2⟩ := t2 h₁ hh
    refine ⟨h₁, hh, ?_, by rw [a1, b1]; exact hg.ids⟩
    funext n
    apply Option.ext
    intro v
    rw [a2, b2, hg.names]
    simp only [hp.mem_iff]
  | @idInfo id ins ins' outs outs' cb hd pi po =>
    rw [genApply] at ha
    split at ha
    · rename_i c hc
      simp only [Option.some.injEq] at ha
      subst ha
      rw [addIdInfo] at hc
      split at hc
      · simp at hc
      · rename_i h1
        split at hc
        · simp at hc
        · rename_i h2
          split at hc
          · rename_i i o h3 h4
            simp only [Option.some.injEq] at hc
            rw [constructPaths_congr hnames] at h3 h4
            obtain ⟨i', hi', pi'⟩ := constructPaths_perm pi h3
            obtain ⟨o', ho', po'⟩ := constructPaths_perm po h4
            have hk : ¬ (find id h.ids).isSome = true := by
              rw [find_isSome, ← hg.ids.1, ← find_isSome]; exact h1
            refine ⟨{ h with ids := h.ids ++ [(id, ⟨i', o', hd⟩)] }, ?_, hg.names, ?_⟩
            · simp [genApply, addIdInfo, hk, h2, hi', ho']
            · subst hc
              refine ⟨by simp only [keys, List.map_append]; rw [show
                List.map Prod.fst g.ids = List.map Prod.fst h.ids from hg.ids.1]; rfl, ?_⟩
              intro n x hx
              simp only [find_append_single] at hx ⊢
              cases hf : find n g.ids with
              | some y =>
                rw [hf] at hx
                simp only [Option.some_or, Option.some.injEq] at hx
                subst hx
                obtain ⟨y', hy', r⟩ := hg.ids.2 n y hf
                exact ⟨y', by rw [hy']; rfl, r⟩
              | none =>
                have hf' : find n h.ids = none := by
                  cases hq : find n h.ids with
                  | none => rfl
                  | some y =>
                    have : n ∈ keys h.ids := find_isSome.1 (by rw [hq]; rfl)
                    rw [← hg.ids.1] at this
                    have := find_isSome.2 this
                    rw [hf] at this; cases this
                rw [hf] at hx
                rw [hf']
                simp only [Option.none_or] at hx ⊢
                split at hx
                · rename_i hid
                  simp only [Option.some.injEq] at hx
                  subst hx
                  exact ⟨_, if_pos hid, pi', po', rfl⟩
                · cases hx
          · simp at hc
    · simp at ha

/-! ## C95 -/

/-- C95: the order in which sets and maps are iterated has no influence on whether a generator
is accepted, on its placeholders, on its ids, and on the inputs and outputs of an id as sets.
Missing: a map in which one pattern uses another one (`C95_patterns_false`), and that the order
of the inputs and outputs has no influence on the next run (`C95_rerun_false`). -/
theorem C95_filled_partial {dirs : List Str} {ops ops' : List GenOp} (h : SameCalls ops ops')
    (hi : ∀ l, .addPatterns l ∈ ops → Independent l) {g : Filled}
    (hg : genApplyAll (newGenerator dirs) ops = some g) :
    ∃ g', genApplyAll (newGenerator dirs) ops' = some g' ∧ (∀ n, g'.get n = g.get n) ∧
      SameSets g.ids g'.ids := by
  suffices hs : ∀ g₀ h₀ : Filled, Alike g₀ h₀ → genApplyAll g₀ ops = some g →
      ∃ g', genApplyAll h₀ ops' = some g' ∧ Alike g g' by
    obtain ⟨g', h1, h2⟩ := hs _ _ ⟨rfl, rfl, fun id i h => ⟨i, h, .refl _, .refl _, rfl⟩⟩ hg
    exact ⟨g', h1, fun n => by rw [h2.names], h2.ids⟩
  clear hg
  induction h with
  | nil =>
    intro g₀ h₀ ha hg
    simp only [genApplyAll, Option.some.injEq] at hg
    subst hg
    exact ⟨h₀, rfl, ha⟩
  | @cons a b l m hab _ ih =>
    intro g₀ h₀ ha hg
    rw [genApplyAll] at hg
    split at hg
    · simp at hg
    · rename_i g₁ h1
      obtain ⟨h₁, h2, h3⟩ := genApply_alike hab (fun l e => hi l (e ▸ List.mem_cons_self)) ha h1
      obtain ⟨g', h4, h5⟩ := ih (fun l hl => hi l (List.mem_cons_of_mem _ hl)) g₁ h₁ h3 hg
      exact ⟨g', by rw [genApplyAll, h2]; exact h4, h5⟩

/-- Two calls list the same sets in another order. -/
def exEnumOps (order : Bool) : List GenOp :=
  [ .addPatterns (if order then [(b!"in", b!"{current_root_dir}/in"), (b!"ext", b!"txt")]
      else [(b!"ext", b!"txt"), (b!"in", b!"{current_root_dir}/in")]),
    .addIdInfo b!"x" (if order then [b!"{in}/a.{ext}", b!"{in}/b.{ext}"]
      else [b!"{in}/b.{ext}", b!"{in}/a.{ext}"]) [b!"/o/x"] true none ]

theorem exEnum_same : SameCalls (exEnumOps true) (exEnumOps false) :=
  .cons (.patterns (.swap _ _ _) (by decide)) (.cons (.idInfo _ _ _ (.swap _ _ _) (.refl _)) .nil)

/-- A pattern in which a name is not written at all does not use it. -/
theorem not_used {k p : Str} {segs : List Seg} (hs : srcs segs = p)
    (h : ∀ n < p.length + 1, (b!"{" ++ k ++ b!"}").isPrefixOf (p.drop n) = false) :
    Seg.field k ∉ segs := by
  intro hm
  obtain ⟨a, b, rfl⟩ := List.append_of_mem hm
  have e : p = srcs a ++ ((b!"{" ++ k ++ b!"}") ++ srcs b) := by
    rw [← hs]; simp [srcs, Seg.src]
  have := h (srcs a).length (by rw [e, List.length_append]; omega)
  rw [e, List.drop_left, ← Bool.not_eq_true, List.isPrefixOf_iff_prefix] at this
  exact this ⟨_, rfl⟩

/-- C95: a file generator has the same commands, and the same inputs and outputs as sets,
whatever the order in which its two sets are iterated. -/
theorem C95_file {g : FileGen} {ins ins' outs outs' : List Str} {c : Cfg}
    (hi : ins.Perm g.inputs) (ho : outs.Perm g.outputs) (hi' : ins'.Perm g.inputs)
    (ho' : outs'.Perm g.outputs) (hb : g.build ins outs = some c) :
    ∃ c', g.build ins' outs' = some c' ∧ SameSets c c' := by
  obtain ⟨h₁, h2, -, h3⟩ := genApply_alike (g := ⟨g.gen.command, []⟩) (h := ⟨g.gen.command, []⟩)
    (.idInfo b!"Generate" true (some (typedHandler g.commands)) (hi.trans hi'.symm)
      (ho.trans ho'.symm)) (by intro l e; cases e)
    ⟨rfl, rfl, fun id i h => ⟨i, h, .refl _, .refl _, rfl⟩⟩
    (g₁ := ⟨g.gen.command, c⟩) (by
      rw [FileGen.build, fileCfg] at hb
      rw [genApply, hb])
  rw [genApply] at h2
  split at h2
  · rename_i c' hc'
    simp only [Option.some.injEq] at h2
    subst h2
    exact ⟨c', hc', h3⟩
  · cases h2

/-- A generator with two inputs is built with both orders. -/
example : ∃ g c, fileApplyAll (newFileGen []) [.addInput b!"/a", .addInput b!"/b", .addOutput b!"/c"] =
      some g ∧ g.build [b!"/a", b!"/b"] [b!"/c"] = some c ∧
    ∃ c', g.build [b!"/b", b!"/a"] [b!"/c"] = some c' ∧ SameSets c c' := by
  refine ⟨⟨newGenerator [], [b!"/a", b!"/b"], [b!"/c"], []⟩,
    [(b!"Generate", ⟨[b!"/a", b!"/b"], [b!"/c"], some (typedHandler [])⟩)], rfl, rfl, ?_⟩
  exact C95_file (ins := [b!"/a", b!"/b"]) (.refl _) (.refl _) (.swap _ _ _) (.refl _) rfl

/-- C95, what the order does: in a run after a successful run of the same generator, with
nothing changed, a callback is called exactly when the inputs or the outputs of its id are
iterated in another order. -/
theorem C95_rerun {c c' : Cfg} {σ₀ σ₁ σ₂ σ₃ : Sys} {mid₁ mid₂ : List Event} {d₁ d₂ : Done}
    (same : SameSets c c') (hr : Reflexive c) (h₁ : QuietRun σ₀ c mid₁ σ₁)
    (hd₁ : σ₁.done = some d₁) (hok₁ : d₁.ok = true) (hu : Untouched c σ₁ σ₂)
    (h₂ : QuietRun σ₂ c' mid₂ σ₃) (hd₂ : σ₃.done = some d₂) (hok₂ : d₂.ok = true) (id : Str) :
    id ∈ calledIds σ₃.log ↔ ∃ i i', find id c = some i ∧ find id c' = some i' ∧
      (i.inputs ≠ i'.inputs ∨ i.outputs ≠ i'.outputs) := by
  rw [(C28_exactly_needed h₂ hd₂ hok₂).2]
  have R₁ := h₁.report hd₁
  have settled : ∀ i, find id c = some i → ∃ s, storedId (loadGenFile σ₂.stateFile) id = some s ∧
      Unchanged σ₂.files s i := by
    intro i hi
    have hk : id ∈ keys c := find_isSome.1 (by rw [hi]; rfl)
    refine decision_false ?_
    rw [hu.stateFile, decision_congr (f := σ₀.files) (by
      intro p hp
      rw [hu.files p (inputs_mem hi hp), R₁.files])]
    exact R₁.settled rfl hr (R₁.noStoreFailed hok₁) hi (R₁.completed_ok hok₁ hk)
  constructor
  · rintro ⟨i', hi', hn⟩
    have hk : id ∈ keys c := by rw [same.1]; exact find_isSome.1 (by rw [hi']; rfl)
    obtain ⟨i, hi⟩ := Option.isSome_iff_exists.1 (find_isSome.2 hk)
    obtain ⟨i'', hi'', -, -, hh⟩ := same.2 id i hi
    rw [hi'] at hi''
    simp only [Option.some.injEq] at hi''
    subst hi''
    refine ⟨i, i', hi, hi', ?_⟩
    by_cases h1 : i.inputs = i'.inputs
    · by_cases h2 : i.outputs = i'.outputs
      · obtain ⟨s, hs, hU⟩ := settled i hi
        exact absurd ⟨by rw [hU.inputs, h1], by rw [hU.outputs, h2], by rw [← hh]; exact hU.blob⟩
          (hn s hs)
      · exact .inr h2
    · exact .inl h1
  · rintro ⟨i, i', hi, hi', hne⟩
    refine ⟨i', hi', fun s hs hU => ?_⟩
    obtain ⟨s', hs', hV⟩ := settled i hi
    rw [hs] at hs'
    simp only [Option.some.injEq] at hs'
    subst hs'
    rcases hne with h | h
    · have e := hV.inputs.symm.trans hU.inputs
      have := congrArg (List.map Prod.fst) e
      exact h (by simpa [versions, List.map_map, Function.comp_def] using this)
    · exact h (hV.outputs.symm.trans hU.outputs)

/-- The inputs of `b` in the other order. -/
def exEnumGen : Cfg :=
  [ (b!"a", ⟨[b!"/p/a.in"], [b!"/p/a.out"], some (exH [1])⟩),
    (b!"b", ⟨[b!"/p/a.in", b!"/p/b.in"], [b!"/p/b.out"], none⟩) ]

theorem exEnum_sets : SameSets (exGen [1]) exEnumGen := by
  refine ⟨by decide, ?_⟩
  intro id i h
  simp only [exGen, exEnumGen, find] at h ⊢
  split at h
  · rename_i e
    simp only [Option.some.injEq] at h
    subst h
    exact ⟨_, if_pos e, .refl _, .refl _, rfl⟩
  · rename_i e
    rw [if_neg e]
    split at h
    · rename_i e'
      simp only [Option.some.injEq] at h
      subst h
      exact ⟨_, if_pos e', .swap _ _ _, .refl _, rfl⟩
    · cases h

/-- C95, what fails: nothing has changed, both runs succeed, and the callback of `b` runs again
because its inputs are iterated in another order. -/
theorem C95_rerun_false : ∃ (c c' : Cfg) (σ₀ : Sys) (mid₁ mid₂ : List Event), SameSets c c' ∧
    QuietRun σ₀ c mid₁ (runG σ₀ c mid₁) ∧ outcome (runG σ₀ c mid₁) = some true ∧
    QuietRun (runG σ₀ c mid₁) c' mid₂ (runG (runG σ₀ c mid₁) c' mid₂) ∧
    outcome (runG (runG σ₀ c mid₁) c' mid₂) = some true ∧
    calledIds (runG (runG σ₀ c mid₁) c' mid₂).log = [b!"b"] :=
  ⟨exGen [1], exEnumGen, exS, exFullG, exRetryG, exEnum_sets,
    quietRun (by decide +kernel) (by decide) (by decide), by decide +kernel,
    quietRun (by decide +kernel) (by decide) (by decide), by decide +kernel, by decide +kernel⟩

/-- The hypotheses of `C95_rerun` are met. -/
example : b!"b" ∈ calledIds (runG (runG exS (exGen [1]) exFullG) exEnumGen exRetryG).log :=
  let ⟨_, h1, h2⟩ := outcome_ok (σ := runG exS (exGen [1]) exFullG) (b := true) (by decide +kernel)
  let ⟨_, g1, g2⟩ := outcome_ok (σ := runG (runG exS (exGen [1]) exFullG) exEnumGen exRetryG)
    (b := true) (by decide +kernel)
  (C95_rerun exEnum_sets (exReflexive _) (quietRun (by decide +kernel) (by decide) (by decide)) h1 h2
    Untouched.rfl' (quietRun (by decide +kernel) (by decide) (by decide)) g1 g2 _).2
    ⟨_, _, rfl, rfl, .inl (by decide)⟩

theorem newGenerator_none {dirs : List Str} {k : Str} (h : k ∉ dirNames) :
    (newGenerator dirs).get k = none := by
  show getDefault (addDefaults [] (dirNames.zip (dirs.map Path.toPathString))) k = none
  rw [getDefault_addDefaults]
  have : ∀ l : List (Str × Str), (∀ x ∈ l, x.1 ≠ k) → lookupArg l k = none := by
    intro l
    induction l with
    | nil => intro _; rfl
    | cons x l ih =>
      obtain ⟨a, v⟩ := x
      intro hl
      rw [lookupArg, if_neg (hl (a, v) List.mem_cons_self)]
      exact ih fun y hy => hl y (List.mem_cons_of_mem _ hy)
  rw [this _ fun x hx e => h (e ▸ (List.of_mem_zip hx).1)]
  rfl

/-- C95, what fails: a map with a pattern that uses another pattern of the same map.  Whether the
program ends depends on the order in which the map is iterated. -/
theorem C95_patterns_false : ∃ l l' : List (Str × Str), l.Perm l' ∧ (l.map (·.1)).Nodup ∧
    ∀ dirs, (addPatterns (newGenerator dirs) l).isSome = true ∧
      addPatterns (newGenerator dirs) l' = none := by
  refine ⟨[(b!"lib", b!"/x"), (b!"inc", b!"{lib}/inc")], [(b!"inc", b!"{lib}/inc"), (b!"lib", b!"/x")],
    .swap _ _ _, by decide, fun dirs => ?_⟩
  have hn : getDefault (newGenerator dirs).command b!"lib" = none := newGenerator_none (by decide)
  have hsegs : ∀ d : Defaults, construct d b!"{lib}/inc" [] =
      match getDefault d b!"lib" with
      | some v => .value (v ++ b!"/inc")
      | none => .fatal := by
    intro d
    have := construct_meaning d [] [.field b!"lib", .text b!"/inc"] (by decide)
    simp only [srcs, Seg.src, List.map_cons, List.map_nil, List.flatten_cons, List.flatten_nil,
      vals, Seg.val, bound, lookupArg, Option.or_none] at this
    cases hl : getDefault d b!"lib" with
    | none => rw [hl] at this; exact this
    | some v => rw [hl] at this; simpa using this
  constructor
  · rw [addPatterns, addPattern, construct_text _ _ _ (by decide) (by decide)]
    simp only [addPatterns, addPattern, hsegs, getDefault_addDefault, hn, if_pos, Option.isSome_some]
  · rw [addPatterns, addPattern, hsegs, hn]

/-- The hypotheses of `C95_filled_partial` are met. -/
example : ∃ g', genApplyAll (newGenerator [b!"/r", b!"/b", b!"/r", b!"/b/g"]) (exEnumOps false) = some g' ∧
    ∃ i', find b!"x" g'.ids = some i' ∧ [b!"/r/in/a.txt", b!"/r/in/b.txt"].Perm i'.inputs := by
  have hs : (genApplyAll (newGenerator [b!"/r", b!"/b", b!"/r", b!"/b/g"]) (exEnumOps true)).map
      (fun g => (find b!"x" g.ids).map (·.inputs)) =
      some (some [b!"/r/in/a.txt", b!"/r/in/b.txt"]) := by decide +kernel
  obtain ⟨g, hg, hi⟩ := Option.map_eq_some_iff.1 hs
  obtain ⟨i, hf, hi⟩ := Option.map_eq_some_iff.1 hi
  obtain ⟨g', h1, -, h2⟩ := C95_filled_partial exEnum_same (by
    intro l hl
    simp only [exEnumOps, if_pos, List.mem_cons, GenOp.addPatterns.injEq, reduceCtorEq,
      List.not_mem_nil, or_false] at hl
    subst hl
    intro x hx y hy segs _ hs
    exact not_used hs ((by decide :
      ∀ x ∈ [(b!"in", b!"{current_root_dir}/in"), (b!"ext", b!"txt")],
      ∀ y ∈ [(b!"in", b!"{current_root_dir}/in"), (b!"ext", b!"txt")], ∀ n < x.2.length + 1,
        (b!"{" ++ y.1 ++ b!"}").isPrefixOf (x.2.drop n) = false) x hx y hy)) hg
  obtain ⟨i', h3, h4, -⟩ := h2.2 _ i hf
  exact ⟨g', h1, i', h3, hi ▸ h4⟩

end Verif.Generator
