import Verif.Generator.SoundSpec
import Verif.Generator.Report

/-! # The invariant behind C29 -/

namespace Verif.Generator
open Verif Verif.Schema Verif.Json
open Verif.Target (Reads fileHash upd)

variable {R : Str → Blob → Blob → Prop} {K : Cfg → Prop}

/-- The last callback produced what is recorded. -/
def Match (R : Str → Blob → Blob → Prop) (σ : Sys) (id : Str) (s : IdInfo) : Prop :=
  ∃ k, σ.last id = some k ∧ k.ok = true ∧ k.inputs = recorded s.inputs ∧ k.outputs = s.outputs ∧
    R id k.blob s.userblob

/-- A recorded input version is not the present one. -/
def Stale (f : Str → Option Nat) (s : IdInfo) : Prop :=
  ∃ x ∈ s.inputs, fileHash f x.path ≠ some x.hash

def Fact (R : Str → Blob → Blob → Prop) (σ : Sys) (id : Str) : Prop :=
  ∀ s, storedId (loadGenFile σ.stateFile) id = some s →
    Match R σ id s ∨ Stale σ.files s ∨ ∃ l ∈ σ.lost, ∃ i', find id l = some i' ∧ ChangesId s i'

def TouchedFact (σ : Sys) (r : Run) (id : Str) : Prop :=
  ∃ i, find id r.cfg = some i ∧ (r.status id).touched = true ∧
    ∀ s, storedId (loadGenFile σ.stateFile) id = some s → Stale σ.files s ∨ ChangesId s i

structure RunOk (R : Str → Blob → Blob → Prop) (K : Cfg → Prop) (σ : Sys) (r : Run) : Prop where
  k : K r.cfg
  nodup : (keys r.cfg).Nodup
  load : r.load = loadGenFile σ.stateFile
  done : σ.done = none
  keep : ∀ id i s, find id r.cfg = some i → storedId (loadGenFile σ.stateFile) id = some s →
    ∀ l ∈ σ.lost, ∀ i', find id l = some i' → ChangesId s i' → ChangesId s i
  fresh : r.began = false → ∀ id, r.status id = .waiting
  calling : ∀ id i, find id r.cfg = some i → r.status id = .calling →
    (blobOf i.handler).isSome ∧
      ∀ s, storedId (loadGenFile σ.stateFile) id = some s → Stale σ.files s ∨ ChangesId s i
  good : ∀ id i, find id r.cfg = some i → (r.status id).good = true → Current R σ id i
  ok : σ.ok = true → ∀ id ∈ keys r.cfg, (r.status id).isEnded = true → (r.status id).good = true
  view : ∀ id i, find id r.cfg = some i → r.status id = .calling → ∀ p ∈ i.inputs,
    σ.view id p = σ.files p ∧ ∀ v ∈ σ.seen id p, v = σ.files p

structure SInv (R : Str → Blob → Blob → Prop) (K : Cfg → Prop) (σ : Sys) : Prop where
  used : ∀ p n, σ.files p = some n → n ∈ σ.used p
  known : ∀ id s, storedId (loadGenFile σ.stateFile) id = some s → ∀ x ∈ s.inputs,
    ∃ n ∈ σ.used x.path, x.hash = digits n
  origin : ∀ id s, storedId (loadGenFile σ.stateFile) id = some s →
    ∃ c i, K c ∧ find id c = some i ∧ blobOf i.handler = some s.userblob
  fact : ∀ id, Fact R σ id ∨ ∃ r, σ.run = some r ∧ TouchedFact σ r id
  run : ∀ r, σ.run = some r → RunOk R K σ r

theorem sinv_init : SInv R K Sys.init where
  used := by simp [Sys.init]
  known := by simp [Sys.init, storedId, loadGenFile, loadFile]
  origin := by simp [Sys.init, storedId, loadGenFile, loadFile]
  fact := by
    intro id
    left
    intro s hs
    simp [Sys.init, storedId, loadGenFile, loadFile] at hs
  run := by simp [Sys.init]

theorem stale_or {f : Str → Option Nat} {s : IdInfo} {i : IdCfg} (h : ¬ Unchanged f s i) :
    Stale f s ∨ ChangesId s i := by
  refine Classical.or_iff_not_imp_right.2 fun hc => ?_
  simp only [ChangesId, not_or] at hc
  obtain ⟨h1, h2, h3⟩ := hc
  refine Classical.not_not.1 fun hst => h ⟨?_, Classical.not_not.1 h2, ?_⟩
  · have h1 := Classical.not_not.1 h1
    rw [← h1]
    simp only [recorded, versions, List.map_map]
    refine List.map_congr_left fun x hx => ?_
    simp only [Function.comp, Prod.mk.injEq, true_and]
    refine Classical.not_not.1 fun hne => hst ⟨x, hx, fun e => hne e.symm⟩
  · intro hd hhd
    exact Classical.not_not.1 fun hn => h3 ⟨hd, hhd, hn⟩

theorem Unchanged.not_stale {f : Str → Option Nat} {s : IdInfo} {i : IdCfg} (h : Unchanged f s i) :
    ¬ Stale f s := by
  rintro ⟨x, hx, hne⟩
  have : (x.path, some x.hash) ∈ recorded s.inputs := List.mem_map.2 ⟨x, hx, rfl⟩
  rw [h.inputs] at this
  obtain ⟨p, -, he⟩ := List.mem_map.1 this
  simp only [Prod.mk.injEq] at he
  rw [he.1] at he
  exact hne he.2

theorem Unchanged.not_changes {f : Str → Option Nat} {s : IdInfo} {i : IdCfg}
    (h : Unchanged f s i) : ¬ ChangesId s i := by
  rintro (h1 | h1 | ⟨hd, hhd, h1⟩)
  · refine h1 ?_
    have := congrArg (List.map Prod.fst) h.inputs
    simp only [recorded, versions, List.map_map] at this
    have e : (i.inputs.map fun p => (p, fileHash f p)).map Prod.fst = i.inputs := by
      rw [List.map_map]; simp [Function.comp_def]
    rw [List.map_map] at e
    rw [e] at this
    exact this
  · exact h1 h.outputs
  · exact h1 (h.blob hd hhd)

theorem Current.of_match (hf : Family R K) {σ : Sys} {id : Str} {s : IdInfo} {i : IdCfg} {c : Cfg}
    (hm : Match R σ id s) (hu : Unchanged σ.files s i) (hk : K c) (hi : find id c = some i)
    (hb : ∃ b, blobOf i.handler = some b)
    (ho : ∃ c i, K c ∧ find id c = some i ∧ blobOf i.handler = some s.userblob) :
    Current R σ id i := by
  obtain ⟨k, h1, h2, h3, h4, h5⟩ := hm
  obtain ⟨b, hb⟩ := hb
  refine ⟨k, b, h1, h2, h3.trans hu.inputs, h4.trans hu.outputs, hb, ?_⟩
  cases hh : i.handler with
  | none =>
    obtain ⟨c', i', hk', hi', hb'⟩ := ho
    have := hf.keep c c' hk hk' id i i' hi hi' hh
    rw [this] at hb'
    simp only [blobOf, Option.some.injEq] at hb'
    rw [hh] at hb
    simp only [blobOf, Option.some.injEq] at hb
    rw [← hb, hb']; exact h5
  | some h =>
    obtain ⟨b', e1, e2⟩ := hu.blob h hh
    rw [hh] at hb
    rw [(blobOf_some hb).1] at e1
    simp only [Option.some.injEq] at e1
    subst e1
    obtain ⟨c', i', hk', hi', hb'⟩ := ho
    exact hf.trans id _ _ _ h5
      (hf.equal c c' hk hk' id i i' h _ _ hi hi' hh hb' (by rw [hh]; exact hb) e2)

theorem Current.congr {σ σ' : Sys} {id : Str} {i : IdCfg} (h : Current R σ id i)
    (hl : σ'.last id = σ.last id) (hf : ∀ p ∈ i.inputs, σ'.files p = σ.files p) :
    Current R σ' id i := by
  obtain ⟨k, b, h1, h2, h3, h4, h5, h6⟩ := h
  exact ⟨k, b, hl.trans h1, h2, by rw [versions_congr hf]; exact h3, h4, h5, h6⟩

theorem Stale.edit {f : Str → Option Nat} {s : IdInfo} {p : Str} {t : Option Nat} {u : Str → List Nat}
    (h : Stale f s) (hk : ∀ x ∈ s.inputs, ∃ n ∈ u x.path, x.hash = digits n)
    (ht : ∀ n, t = some n → n ∉ u p) : Stale (upd f p t) s := by
  obtain ⟨x, hx, hne⟩ := h
  refine ⟨x, hx, ?_⟩
  simp only [fileHash, upd]
  split
  · rename_i e
    cases t with
    | none => simp
    | some m =>
      obtain ⟨n, hn, hh⟩ := hk x hx
      simp only [Option.map_some, ne_eq, Option.some.injEq]
      intro he
      rw [hh] at he
      have := digits_inj he
      subst this
      rw [e] at hn
      exact ht m rfl hn
  · exact hne

/-- Files change from outside. -/
theorem SInv.change {σ : Sys} {p : Str} {t : Option Nat} {u : Str → List Nat} (h : SInv R K σ)
    (hrun : ¬ Relied σ p)
    (ht : ∀ n, t = some n → n ∉ σ.used p) (hu : ∀ q, ∀ n ∈ σ.used q, n ∈ u q)
    (hp : ∀ n, t = some n → n ∈ u p) : SInv R K { σ.put p t with used := u } where
  used := by
    intro q n hq
    simp only [Sys.put, upd] at hq
    split at hq
    · rename_i e; subst e; exact hp n hq
    · exact hu q n (h.used q n hq)
  known := by
    intro id s hs x hx
    obtain ⟨n, hn, he⟩ := h.known id s hs x hx
    exact ⟨n, hu _ n hn, he⟩
  origin := h.origin
  fact := by
    intro id
    rcases h.fact id with hf | ⟨r, hr, i, hi, ht', hf⟩
    · left
      intro s hs
      rcases hf s hs with h1 | h1 | h1
      · exact .inl h1
      · exact .inr (.inl (h1.edit (h.known id s hs) ht))
      · exact .inr (.inr h1)
    · right
      refine ⟨r, hr, i, hi, ht', fun s hs => ?_⟩
      rcases hf s hs with h1 | h1
      · exact .inl (h1.edit (h.known id s hs) ht)
      · exact .inr h1
  run := by
    intro r hr
    have hR := h.run r hr
    have hne : ∀ id i, find id r.cfg = some i →
        (r.status id = .calling ∨ (r.status id).good = true) → ∀ q ∈ i.inputs, q ≠ p := by
      rintro id i hi hw q hq rfl
      exact hrun ⟨r, id, i, hr, hi, hq, hw⟩
    refine ⟨hR.k, hR.nodup, hR.load, hR.done, hR.keep, hR.fresh, ?_, ?_, hR.ok, ?_⟩
    rotate_left 2
    · intro id i hi hc q hq
      have hqp := hne id i hi (.inl hc) q hq
      simp only [Sys.put, upd, hqp, if_false]
      exact hR.view id i hi hc q hq
    · intro id i hi hc
      obtain ⟨h1, h2⟩ := hR.calling id i hi hc
      refine ⟨h1, fun s hs => ?_⟩
      rcases h2 s hs with h3 | h3
      · exact .inl (h3.edit (h.known id s hs) ht)
      · exact .inr h3
    intro id i hi hg
    refine (hR.good id i hi hg).congr rfl ?_
    intro q hq
    have hqp := hne id i hi (.inr hg) q hq
    simp [Sys.put, upd, hqp]

/-- The run ends without storing. -/
theorem SInv.lose {σ σ' : Sys} {r : Run} (h : SInv R K σ) (hr : σ.run = some r)
    (hf : σ'.files = σ.files) (hu : σ'.used = σ.used) (hl : σ'.last = σ.last)
    (hst : σ'.stateFile = σ.stateFile) (hrun : σ'.run = none) (hlost : σ'.lost = r.lose σ.lost) :
    SInv R K σ' where
  used := by rw [hf, hu]; exact h.used
  known := by rw [hst, hu]; exact h.known
  origin := by rw [hst]; exact h.origin
  run := by intro r' hr'; rw [hrun] at hr'; simp at hr'
  fact := by
    intro id
    left
    intro s hs
    rw [hst] at hs
    rw [hf, hlost]
    have hsub : ∀ l ∈ σ.lost, l ∈ r.lose σ.lost := by
      intro l hl
      simp only [Run.lose]; split
      · exact List.mem_cons_of_mem _ hl
      · exact hl
    rcases h.fact id with h1 | ⟨r', hr', i, hi, ht, h1⟩
    · rcases h1 s hs with h2 | h2 | ⟨l, hl', i', hi', h2⟩
      · left
        simpa only [Match, hl] using h2
      · exact .inr (.inl h2)
      · exact .inr (.inr ⟨l, hsub l hl', i', hi', h2⟩)
    · rw [hr] at hr'; simp only [Option.some.injEq] at hr'; subst hr'
      rcases h1 s hs with h2 | h2
      · exact .inr (.inl h2)
      · refine .inr (.inr ⟨r.cfg, ?_, i, hi, h2⟩)
        simp only [Run.lose]
        rw [if_pos]
        · simp
        · exact List.any_eq_true.2 ⟨id, find_isSome.1 (by rw [hi]; rfl), ht⟩

/-- The state file is replaced by something that cannot be loaded. -/
theorem SInv.unreadable {σ : Sys} {f : Option Str} (h : SInv R K σ) (hr : σ.run = none)
    (hl : loadGenFile f = none) : SInv R K { σ with stateFile := f } where
  used := h.used
  known := by simp [hl, storedId]
  origin := by simp [hl, storedId]
  fact := by
    intro id
    left
    intro s hs
    simp [hl, storedId] at hs
  run := by intro r hr'; rw [show ({ σ with stateFile := f } : Sys).run = σ.run from rfl, hr] at hr'; simp at hr'

theorem convertAll_inv {f : Str → Option Nat} {r : Run} : ∀ {order : List Str}
    {l : List (Str × IdInfo)}, convertAll f r order = some l →
    (keys l).Sublist order ∧ ∀ id s, (id, s) ∈ l → (r.status id).good = true ∧
      ∃ i, find id r.cfg = some i ∧ convert f i = some s := by
  intro order
  induction order with
  | nil =>
    intro l h
    simp only [convertAll, Option.some.injEq] at h
    subst h; exact ⟨.refl _, by simp⟩
  | cons a order ih =>
    intro l h
    simp only [convertAll] at h
    split at h
    · rename_i hg
      split at h
      · rename_i x rest h1 h2
        simp only [Option.some.injEq] at h; subst h
        obtain ⟨g1, g2⟩ := ih h2
        refine ⟨g1.cons₂ _, ?_⟩
        intro id s hm
        rcases List.mem_cons.1 hm with hm | hm
        · simp only [Prod.mk.injEq] at hm
          obtain ⟨rfl, rfl⟩ := hm
          obtain ⟨i, hi, hc⟩ := Option.bind_eq_some_iff.1 h1
          exact ⟨hg, i, hi, hc⟩
        · exact g2 id s hm
      · simp at h
    · obtain ⟨g1, g2⟩ := ih h
      exact ⟨g1.cons _, g2⟩

/-- The state is stored. -/
theorem SInv.store {σ σ' : Sys} {r : Run} {order : List Str} {s : GenSchema} {t : Str}
    (h : SInv R K σ) (hr : σ.run = some r) (hR : RunOk R K σ r) (ho : order.Perm (keys r.cfg))
    (hs : toStore σ.files r order = some s) (ht : genText s = some t)
    (hf : σ'.files = σ.files) (hu : σ'.used = σ.used) (hl : σ'.last = σ.last)
    (hst : σ'.stateFile = some t) (hrun : σ'.run = none) : SInv R K σ' := by
  obtain ⟨l, hl1, hl2⟩ := Option.map_eq_some_iff.1 hs
  obtain ⟨g1, g2⟩ := convertAll_inv hl1
  have hn : (keys l).Nodup := (ho.nodup_iff.2 hR.nodup).sublist g1
  have hload : loadGenFile σ'.stateFile = some s := by
    rw [hst]
    simp only [loadGenFile, loadFile, Option.bind_some]
    refine loadGen_text ?_ ht
    rw [← hl2]; exact hn
  have key : ∀ id x, storedId (loadGenFile σ'.stateFile) id = some x →
      (r.status id).good = true ∧ ∃ i, find id r.cfg = some i ∧ convert σ.files i = some x := by
    intro id x hx
    rw [hload] at hx
    simp only [storedId, Option.bind_some, ← hl2] at hx
    exact g2 id x (find_mem hx)
  refine ⟨by rw [hf, hu]; exact h.used, ?_, ?_, ?_, ?_⟩
  · intro id x hx y hy
    obtain ⟨-, i, hi, hc⟩ := key id x hx
    have hin := (convert_iff.1 hc).1
    have : (y.path, some y.hash) ∈ recorded x.inputs := List.mem_map.2 ⟨y, hy, rfl⟩
    rw [hin] at this
    obtain ⟨p, -, he⟩ := List.mem_map.1 this
    simp only [Prod.mk.injEq] at he
    rw [he.1] at he
    obtain ⟨n, hn1, hn2⟩ := Option.map_eq_some_iff.1 he.2
    rw [hu]
    exact ⟨n, h.used _ _ hn1, hn2.symm⟩
  · intro id x hx
    obtain ⟨-, i, hi, hc⟩ := key id x hx
    exact ⟨r.cfg, i, hR.k, hi, (convert_iff.1 hc).2.2⟩
  · intro id
    left
    intro x hx
    obtain ⟨hg, i, hi, hc⟩ := key id x hx
    obtain ⟨k, b, c1, c2, c3, c4, c5, c6⟩ := hR.good id i hi hg
    obtain ⟨e1, e2, e3⟩ := convert_iff.1 hc
    left
    refine ⟨k, by rw [hl]; exact c1, c2, c3.trans e1.symm, c4.trans e2.symm, ?_⟩
    rw [c5] at e3; simp only [Option.some.injEq] at e3
    rw [← e3]; exact c6
  · intro r' hr'; rw [hrun] at hr'; simp at hr'

theorem truncated_unreadable {f : Str → Option Nat} {r : Run} {order : List Str} {s : GenSchema}
    {t : Str} {n : Nat} (hnd : (keys r.cfg).Nodup) (ho : order.Perm (keys r.cfg))
    (hs : toStore f r order = some s) (ht : genText s = some t) (hlt : n < t.length) :
    loadGenFile (some (t.take n)) = none := by
  obtain ⟨l, hl1, hl2⟩ := Option.map_eq_some_iff.1 hs
  obtain ⟨g1, -⟩ := convertAll_inv hl1
  have hn : (keys l).Nodup := (ho.nodup_iff.2 hnd).sublist g1
  simp only [loadGenFile, loadFile, Option.bind_some]
  refine loadGen_prefix (s := s) (by rw [← hl2]; exact hn) ht (List.take_append_drop n t).symm ?_
  intro hd
  have := congrArg List.length hd
  simp at this
  omega

/-- The status of an id changes, and perhaps what its last callback was. -/
theorem SInv.mark {σ σ' : Sys} {r : Run} {id : Str} {i : IdCfg} {st : Status} (h : SInv R K σ)
    (hr : σ.run = some r) (hi : find id r.cfg = some i)
    (hf : σ'.files = σ.files) (hu : σ'.used = σ.used) (hst : σ'.stateFile = σ.stateFile)
    (hlost : σ'.lost = σ.lost) (hdn : σ'.done = σ.done)
    (hrun : σ'.run = some (r.set id st)) (hlast : ∀ id', id' ≠ id → σ'.last id' = σ.last id')
    (hfact : Fact R σ' id ∨ TouchedFact σ' (r.set id st) id)
    (hbeg : r.began = true)
    (hcall : st = .calling → (blobOf i.handler).isSome ∧
      ∀ s, storedId (loadGenFile σ.stateFile) id = some s → Stale σ.files s ∨ ChangesId s i)
    (hgood : st.good = true → Current R σ' id i)
    (hok : σ'.ok = true → σ.ok = true ∧ (st.isEnded = true → st.good = true))
    (hview : ∀ id', id' ≠ id → σ'.view id' = σ.view id' ∧ σ'.seen id' = σ.seen id')
    (hstart : st = .calling → σ'.view id = σ.files ∧ σ'.seen id = fun p => [σ.files p]) :
    SInv R K σ' where
  used := by rw [hf, hu]; exact h.used
  known := by rw [hst, hu]; exact h.known
  origin := by rw [hst]; exact h.origin
  fact := by
    intro id'
    by_cases e : id' = id
    · subst e
      rcases hfact with h1 | h1
      · exact .inl h1
      · exact .inr ⟨_, hrun, h1⟩
    · rcases h.fact id' with h1 | ⟨r', hr', i', hi', ht', h1⟩
      · left
        intro s hs
        rw [hst] at hs
        have := h1 s hs
        rw [hf, hlost]
        simpa only [Match, hlast id' e] using this
      · right
        rw [hr] at hr'; simp only [Option.some.injEq] at hr'; subst hr'
        refine ⟨_, hrun, i', hi', ?_, ?_⟩
        · simp only [Run.set, upd, e, if_false]; exact ht'
        · rw [hst, hf]; exact h1
  run := by
    intro r' hr'
    rw [hrun] at hr'; simp only [Option.some.injEq] at hr'; subst hr'
    have hR := h.run r hr
    refine ⟨hR.k, hR.nodup, by rw [hst]; exact hR.load, hdn.trans hR.done,
      by rw [hst, hlost]; exact hR.keep, fun hb => by simp [Run.set, hbeg] at hb, ?_, ?_, ?_, ?_⟩
    rotate_left 3
    · intro id' i' hi' hc p hp
      simp only [Run.set, upd] at hc
      rw [hf]
      split at hc
      · rename_i e; subst e
        obtain ⟨h1, h2⟩ := hstart hc
        rw [h1, h2]; simp
      · rename_i e
        obtain ⟨h1, h2⟩ := hview id' e
        rw [h1, h2]
        exact hR.view id' i' hi' hc p hp
    · intro id' i' hi' hc
      simp only [Run.set, upd] at hc
      split at hc
      · rename_i e; subst e
        rw [show (r.set id' st).cfg = r.cfg from rfl, hi] at hi'
        simp only [Option.some.injEq] at hi'; subst hi'
        rw [hst, hf]; exact hcall hc
      · rw [hst, hf]; exact hR.calling id' i' hi' hc
    · intro id' i' hi' hg
      simp only [Run.set, upd] at hg
      split at hg
      · rename_i e; subst e
        rw [show (r.set id' st).cfg = r.cfg from rfl, hi] at hi'
        simp only [Option.some.injEq] at hi'; subst hi'
        exact hgood hg
      · rename_i e
        exact (hR.good id' i' hi' hg).congr (hlast id' e) fun p _ => by rw [hf]
    · intro hk id' hid' he
      obtain ⟨h1, h2⟩ := hok hk
      simp only [Run.set, upd] at he ⊢
      split
      · rename_i e
        rw [if_pos e] at he
        exact h2 he
      · rename_i e
        rw [if_neg e] at he
        exact hR.ok h1 id' hid' he

theorem sinv_step (hf : Family R K) {σ : Sys} {e : Event} (h : SInv R K σ) (ha : Allowed K σ e) :
    SInv R K (step σ e) := by
  cases e with
  | edit p t =>
    simp only [step]
    · obtain ⟨ht, ha⟩ := ha
      refine h.change ha ?_ ?_ ?_
      · intro n hn; simp only [Option.some.injEq] at hn; subst hn; exact ht
      · intro q n hn
        simp only [upd]; split
        · rename_i e; subst e; exact List.mem_cons_of_mem _ hn
        · exact hn
      · intro n hn; simp only [Option.some.injEq] at hn; subst hn; simp [upd]
  | delete p =>
    simp only [step]
    exact h.change (u := σ.used) ha (by simp) (fun _ _ hn => hn) (by simp)
  | dropState =>
    simp only [step]
    split
    · rename_i hr
      exact h.unreadable (by simpa using hr) rfl
    · exact h
  | otherFail =>
    simp only [step]
    split
    · refine ⟨h.used, h.known, h.origin, h.fact, ?_⟩
      intro r hr
      have hR := h.run r hr
      exact ⟨hR.k, hR.nodup, hR.load, hR.done, hR.keep, hR.fresh, hR.calling, hR.good,
        fun hk => by simp [Sys.fail] at hk, hR.view⟩
    · exact h
  | start c =>
    simp only [step, startRun]
    cases hr : σ.run with
    | some r => exact h
    | none =>
      simp only
      split
      · rename_i hn
        obtain ⟨hk, hkeep⟩ := ha
        refine ⟨h.used, h.known, h.origin, ?_, ?_⟩
        · intro id
          rcases h.fact id with h1 | ⟨r', hr', -⟩
          · exact .inl h1
          · rw [hr] at hr'; simp at hr'
        · intro r' hr'
          simp only [Option.some.injEq] at hr'; subst hr'
          refine ⟨hk, hn, rfl, rfl, hkeep, fun _ _ => rfl, ?_, ?_, ?_, ?_⟩ <;>
            simp [Status.good, Status.isEnded]
      · exact h
  | begin =>
    simp only [step, inRun]
    cases hr : σ.run with
    | none => exact h
    | some r =>
      simp only [beginRun]
      have hR := h.run r hr
      split
      · exact h
      · rename_i hb
        have hb : r.began = false := by simpa using hb
        split
        · refine h.lose hr rfl rfl rfl rfl rfl ?_
          simp [Run.lose, hR.fresh hb, Status.touched]
        · refine ⟨h.used, h.known, h.origin, ?_, ?_⟩
          · intro id
            rcases h.fact id with h1 | ⟨r', hr', i, hi, ht, h1⟩
            · exact .inl h1
            · rw [hr] at hr'; simp only [Option.some.injEq] at hr'; subst hr'
              exact .inr ⟨_, rfl, i, hi, ht, h1⟩
          · intro r' hr'
            simp only [Option.some.injEq] at hr'; subst hr'
            exact ⟨hR.k, hR.nodup, hR.load, hR.done, hR.keep, fun hb => by simp at hb,
              hR.calling, hR.good, hR.ok, hR.view⟩
  | task id =>
    simp only [step, inRun]
    cases hr : σ.run with
    | none => exact h
    | some r =>
      have hR := h.run r hr
      simp only [taskRun]
      split
      · rename_i i hi hb hw
        have hfact : Fact R σ id := by
          rcases h.fact id with h1 | ⟨r', hr', i', hi', ht, h1⟩
          · exact h1
          · rw [hr] at hr'; simp only [Option.some.injEq] at hr'; subst hr'
            rw [hw] at ht; simp [Status.touched] at ht
        split
        · rename_i hk
          refine h.mark (σ' := { σ with
              log := σ.log ++ [.skipped id], run := some (r.set id (.ended false false)) })
            hr hi rfl rfl rfl rfl rfl rfl (fun _ _ => rfl) (.inl hfact) hb (by simp) (by simp [Status.good]) ?_
            (fun _ _ => ⟨rfl, rfl⟩) (by simp)
          intro hk'
          simp only at hk'
          rw [hk'] at hk; simp at hk
        · split
          · refine h.mark (σ' := { σ.fail (.broken id) with run := some (r.set id (.ended false false)) })
              hr hi rfl rfl rfl rfl rfl rfl (fun _ _ => rfl) (.inl hfact) hb (by simp)
              (by simp [Status.good]) ?_ (fun _ _ => ⟨rfl, rfl⟩) (by simp)
            intro hk; simp [Sys.fail] at hk
          · rename_i hdec
            have hch : ∀ s, storedId (loadGenFile σ.stateFile) id = some s →
                Stale σ.files s ∨ ChangesId s i := by
              intro s hs
              rw [hR.load] at hdec
              exact stale_or (decision_true hdec s hs)
            have hbl : (blobOf i.handler).isSome := by
              simp only [decision] at hdec
              split at hdec
              · simp at hdec
              · rename_i cur hc
                rw [(convert_iff.1 hc).2.2]; rfl
            refine h.mark (σ' := { σ with
                run := some (r.set id .calling)
                last := upd σ.last id (some (makeCall σ.files i false))
                seen := upd σ.seen id fun p => [σ.files p]
                view := upd σ.view id σ.files })
              hr hi rfl rfl rfl rfl rfl rfl ?_ ?_ hb (fun _ => ⟨hbl, hch⟩) (by simp [Status.good]) ?_
              (fun id' hne => by simp [upd, hne]) (fun _ => by simp [upd])
            · intro id' hne; simp [upd, hne]
            · exact .inr ⟨i, hi, by simp [Run.set, upd, Status.touched], hch⟩
            · intro hk; exact ⟨hk, by simp [Status.isEnded]⟩
          · rename_i hdec
            refine h.mark (σ' := { σ with
                log := σ.log ++ [.unchanged id], run := some (r.set id (.ended false true)) })
              hr hi rfl rfl rfl rfl rfl rfl (fun _ _ => rfl) (.inl hfact) hb (by simp) ?_ ?_
              (fun _ _ => ⟨rfl, rfl⟩) (by simp)
            · intro _
              rw [hR.load] at hdec
              obtain ⟨s, hs, hu⟩ := decision_false hdec
              have hm : Match R σ id s := by
                rcases hfact s hs with h1 | h1 | ⟨l, hl, i', hi', h1⟩
                · exact h1
                · exact absurd h1 hu.not_stale
                · exact absurd (hR.keep id i s hi hs l hl i' hi' h1) hu.not_changes
              have hbl : ∃ b, blobOf i.handler = some b := by
                simp only [decision] at hdec
                split at hdec
                · simp at hdec
                · rename_i cur hc
                  exact ⟨_, (convert_iff.1 hc).2.2⟩
              exact (Current.of_match hf hm hu hR.k hi hbl (h.origin id s hs)).congr rfl fun _ _ => rfl
            · intro hk; exact ⟨hk, fun _ => rfl⟩
      · exact h
  | look id p v =>
    simp only [step, inRun]
    cases hr : σ.run with
    | none => exact h
    | some r =>
      have hR := h.run r hr
      simp only [lookAt]
      split
      · rename_i hv
        refine ⟨h.used, h.known, h.origin, h.fact, fun r' hr' => ?_⟩
        have : r' = r := by
          simp only [hr, Option.some.injEq] at hr'; exact hr'.symm
        subst this
        refine ⟨hR.k, hR.nodup, hR.load, hR.done, hR.keep, hR.fresh, hR.calling, hR.good, hR.ok, ?_⟩
        intro id' i' hi' hc q hq
        obtain ⟨h1, h2⟩ := hR.view id' i' hi' hc q hq
        refine ⟨?_, h2⟩
        by_cases e : id' = id
        · subst e
          by_cases e : q = p
          · subst e; simpa [upd] using h2 v hv.2
          · simpa [upd, e] using h1
        · simpa [upd, e] using h1
      · exact h
  | call id ok =>
    simp only [step, inRun]
    cases hr : σ.run with
    | none => exact h
    | some r =>
      have hR := h.run r hr
      simp only [callRun]
      split
      · rename_i i hi hc
        obtain ⟨hbl, hch⟩ := hR.calling id i hi hc
        have hb : r.began = true := by
          cases hb : r.began with
          | true => rfl
          | false => rw [hR.fresh hb] at hc; simp at hc
        have hgen : ∀ σ' : Sys, σ'.files = σ.files → σ'.used = σ.used → σ'.stateFile = σ.stateFile →
            σ'.lost = σ.lost → σ'.done = σ.done → σ'.run = some (r.set id (.ended true ok)) →
            σ'.last = upd σ.last id (some (makeCall (σ.view id) i ok)) →
            σ'.view = σ.view → σ'.seen = σ.seen → (σ'.ok = true → σ.ok = true ∧ ok = true) →
            SInv R K σ' := by
          intro σ' e1 e2 e3 e4 e5 e6 e7 e9 e10 e8
          refine h.mark hr hi e1 e2 e3 e4 e5 e6 ?_ (.inr ⟨i, hi, ?_, ?_⟩) hb (by simp) ?_ ?_
            (fun id' _ => ⟨by rw [e9], by rw [e10]⟩) (by simp)
          · intro id' hne; rw [e7]; simp [upd, hne]
          · simp [Run.set, upd, Status.touched]
          · rw [e3, e1]; exact hch
          · intro hg
            simp only [Status.good] at hg
            obtain ⟨b, hbb⟩ := Option.isSome_iff_exists.1 hbl
            refine ⟨makeCall (σ.view id) i ok, b, by rw [e7]; simp [upd], hg, ?_, rfl, hbb, ?_⟩
            · rw [e1]
              exact versions_congr fun p hp => (hR.view id i hi hc p hp).1
            simp only [makeCall, hbb, Option.getD_some]
            exact hf.refl id b
          · intro hk
            obtain ⟨h1, h2⟩ := e8 hk
            exact ⟨h1, fun _ => h2⟩
        split
        · rename_i hk
          exact hgen _ rfl rfl rfl rfl rfl rfl rfl rfl rfl fun h' => ⟨h', hk⟩
        · exact hgen _ rfl rfl rfl rfl rfl rfl rfl rfl rfl fun h' => by simp at h'
      · exact h
  | finish order b =>
    simp only [step, inRun]
    cases hr : σ.run with
    | none => exact h
    | some r =>
      have hR := h.run r hr
      simp only
      split
      · rename_i hj
        simp only [Bool.and_eq_true, List.isPerm_iff] at hj
        rcases finish_cases σ r order b with ⟨hd, he⟩ | ⟨-, -, he⟩ | ⟨s, t, -, h1, h2, he⟩ | ⟨-, he⟩
        · rw [he]
          refine h.lose hr rfl rfl rfl rfl rfl ?_
          simp only [Run.lose]
          rw [if_neg]
          rw [List.any_eq_true]
          rintro ⟨id, hid, ht⟩
          simp only [Run.joined, Bool.and_eq_true, List.all_eq_true] at hj
          have he := hj.1.2 id hid
          simp only [Run.dirty, Bool.or_eq_false_iff, List.any_eq_false] at hd
          have := hd.2 id hid
          revert ht he this
          cases r.status id <;> simp [Status.touched, Status.isEnded, Status.ran]
        · rw [he]; exact h.lose hr rfl rfl rfl rfl rfl rfl
        · rw [he]; exact h.store hr hR hj.2 h1 h2 rfl rfl rfl rfl rfl
        · rw [he]; exact h.lose hr rfl rfl rfl rfl rfl rfl
      · exact h
  | crash order w =>
    simp only [step, inRun]
    cases hr : σ.run with
    | none => exact h
    | some r =>
      have hR := h.run r hr
      have hl : SInv R K { σ with run := none, lost := r.lose σ.lost } :=
        h.lose hr rfl rfl rfl rfl rfl rfl
      simp only [crashRun]
      cases w with
      | none => exact hl
      | some n =>
        simp only
        split
        · rename_i hj
          simp only [Bool.and_eq_true, List.isPerm_iff] at hj
          split
          · exact hl
          · rename_i text ht
            obtain ⟨s, h1, h2⟩ := Option.bind_eq_some_iff.1 ht
            split
            · rename_i hlt
              exact hl.unreadable rfl (truncated_unreadable hR.nodup hj.2 h1 h2 hlt)
            · exact h.store hr hR hj.2 h1 h2 rfl rfl rfl rfl rfl
        · exact hl

theorem sinv_steps (hf : Family R K) : ∀ {evs : List Event} {σ : Sys}, SInv R K σ →
    AllAllowed K σ evs → SInv R K (steps σ evs) := by
  intro evs
  induction evs with
  | nil => intro σ h _; exact h
  | cons e l ih =>
    intro σ h ha
    exact ih (sinv_step hf h ha.1) ha.2

end Verif.Generator
