import Verif.Reg.BytesProps
import Verif.Reg.ScriptsProps

/-! # Contents of files when the build script is edited between builds -/

namespace Verif.Reg
open Verif Verif.Schema Verif.Json
open Verif.Target (Fixed outputPath upd text texts paths scratchBin)

variable {β : Type} {M : Makers β}

/-! ## Specification -/

/-- The history is one of the versions of a script (`OfVersions`). -/
def AllOfVersionsB (M : Makers β) (F : Versions) : BWorld β → List (BWEvent β) → Prop
  | _, [] => True
  | b, e :: l => OfVersions F b.world e.erase ∧ AllOfVersionsB M F (b.step M e) l

/-- In all versions of the script only the builder `a` makes the file `p`, a generator with the id,
and nobody changes the file by hand. -/
structure OwnProduct (kinds : Str → Kind) (F : Versions) (evs : List (BWEvent β)) (a id p : Str) : Prop where
  others : ∀ g s, F g s → ∀ j ∈ g.ids, j ≠ a → p ∉ outputs (kinds j).init (s j)
  target : ∀ fx, kinds a = .target fx → p = outputPath fx ∧ p ∉ pchFiles fx ∧
    ∀ c, F.target a c → ∀ q ∈ paths c.sources, Target.objPath fx q ≠ p
  gen : kinds a = .gen → ∀ c, F.gen a c → ∀ x ∈ c, p ∈ x.2.outputs → x.1 = id
  byHand : ∀ e ∈ evs, (∀ t x, e ≠ .edit p t x) ∧ e ≠ .delete p

/-! ## Histories -/

section
variable {kinds : Str → Kind} {means : Str → Str → Generator.Blob → Generator.Blob → Prop} {F : Versions}

theorem keepsB_version {w : World} {evs : List (BWEvent β)} {a id p : Str}
    (h : VersionsInv kinds means F w) (ho : OwnProduct kinds F evs a id p) {e : BWEvent β} (he : e ∈ evs) :
    KeepsB a id p w e.erase := by
  cases e with
  | edit q t x => rintro rfl; exact (ho.byHand _ he).1 t x rfl
  | delete q => rintro rfl; exact (ho.byHand _ he).2 rfl
  | task j t ws junk =>
    show w.acts j (t.ev ws junk).erase ws = true → _
    generalize (t.ev ws junk).erase = e
    intro hact hp
    simp only [World.acts, Bool.and_eq_true, decide_eq_true_eq] at hact
    obtain ⟨⟨⟨⟨ha, hb⟩, hr⟩, -⟩, hl⟩ := hact
    have hF := h.plan ha
    obtain ⟨x, hx, hx'⟩ := List.mem_map.1 hp
    have hmw := ((legal_spec hl).2 x hx).1
    rw [hx'] at hmw
    have hj : j ∈ w.graph.ids := h.inv.base.sub j hb
    have htr := h.inv.track ha j hj
    have hgood := h.inv.good j
    have hout := mayWrite_outputs hgood htr hmw
    rw [(h.kind j).outputs] at hout
    have hja : j = a := Classical.byContradiction fun hja => ho.others _ _ hF j hj hja hout
    subst hja
    refine ⟨rfl, ?_⟩
    have hk := h.kind j
    have htgt := ho.target
    have hgen := ho.gen
    have htf : ∀ c o, w.setup j = .target c o → F.target j c := fun c o hs => ⟨_, _, o, hF, hj, hs⟩
    have hgf : ∀ c, w.setup j = .gen c → F.gen j c := fun c hs => ⟨_, _, hF, hj, hs⟩
    revert hk hgood htr hmw htgt hgen htf hgf
    generalize w.comps j = c
    generalize w.setup j = st
    cases hkj : kinds j with
    | target fx =>
      cases c with
      | gen σ => intro _ _ _ hk; exact hk.elim
      | target fx' σ =>
        intro hmw htr hgood hk htgt _ htf _
        obtain rfl : fx' = fx := hk
        obtain ⟨rfl, t1, t2⟩ := htgt fx' rfl
        cases st with
        | gen c => exact htr.elim
        | target c o =>
          rcases mayWrite_own hgood htr hmw with h1 | h1 | ⟨q, hq, h1⟩
          · exact .inl h1
          · exact absurd h1 t1
          · exact absurd h1.symm (t2 c (htf c o rfl) q hq)
    | gen =>
      cases c with
      | target fx σ => intro _ _ _ hk; exact hk.elim
      | gen σ =>
        intro hmw htr hgood hk _ hgen _ hgf
        cases st with
        | target c2 o2 => exact htr.elim
        | gen c2 =>
          cases e with
          | t e => simp [mayWrite] at hmw
          | g e =>
            cases e with
            | call id' ok =>
              refine .inr ⟨ok, ?_⟩
              cases hrun : σ.run with
              | none => simp [mayWrite, hrun] at hmw
              | some r =>
                simp only [mayWrite, hrun] at hmw
                split at hmw
                · rename_i i' hi' _
                  rw [htr.1 r hrun] at hi'
                  obtain rfl : id' = id := hgen rfl c2 (hgf c2 rfl) _ (Generator.find_mem hi') hmw
                  rfl
                · simp at hmw
            | _ => simp [mayWrite] at hmw
  | _ => exact trivial

theorem fitting_version {w : World} {evs : List (BWEvent β)} {a id p : Str}
    (h : ∀ j, OfKind (kinds j) (w.comps j)) (ho : OwnProduct kinds F evs a id p) : Fitting p (w.comps a) := by
  have hk := h a
  have htgt := ho.target
  revert hk
  generalize w.comps a = c
  cases c with
  | gen σ => intro _; trivial
  | target fx σ =>
    intro hk
    cases hka : kinds a with
    | gen => rw [hka] at hk; exact hk.elim
    | target fx' =>
      rw [hka] at hk
      obtain rfl : fx = fx' := hk
      exact (htgt fx hka).1.symm

theorem bVersions_step (hv : SoundVersions kinds means F) {b : BWorld β} (h : VersionsInv kinds means F b.world)
    (hc : CInv M b) {e : BWEvent β} (he : OfVersions F b.world e.erase) :
    VersionsInv kinds means F (b.step M e).world ∧ CInv M (b.step M e) := by
  refine ⟨?_, cInv_step hc (by
    cases e with
    | edit p t x => exact he.1
    | _ => trivial)⟩
  rcases world_step (M := M) b e with h3 | h3
  · rw [h3]; exact versionsInv_step hv h he
  · rw [h3]; exact h

/-- The history of the build system behind a history with contents. -/
theorem bVersions_steps (hv : SoundVersions kinds means F) : ∀ (evs : List (BWEvent β)) {b : BWorld β},
    VersionsInv kinds means F b.world → CInv M b → AllOfVersionsB M F b evs →
    VersionsInv kinds means F (b.steps M evs).world ∧ CInv M (b.steps M evs) ∧
    ∃ wevs, (b.steps M evs).world = b.world.steps wevs ∧ AllOfVersions F b.world wevs := by
  intro evs
  induction evs with
  | nil => intro b h hc _; exact ⟨h, hc, [], rfl, trivial⟩
  | cons e l ih =>
    intro b h hc ⟨h1, h3⟩
    obtain ⟨g1, g2⟩ := bVersions_step hv h hc h1
    obtain ⟨i1, i2, wevs, i3, i4⟩ := ih g1 g2 h3
    refine ⟨i1, i2, ?_⟩
    rcases world_step (M := M) b e with h4 | h4
    · rw [h4] at i3 i4
      exact ⟨e.erase :: wevs, i3, h1, i4⟩
    · refine ⟨wevs, i3.trans ?_, ?_⟩
      · rw [h4]
      · rw [h4] at i4; exact i4

theorem kept_versions (hv : SoundVersions kinds means F) {all : List (BWEvent β)} {a id p : Str}
    (ho : OwnProduct kinds F all a id p) : ∀ (evs : List (BWEvent β)) {b : BWorld β}, (∀ e ∈ evs, e ∈ all) →
    VersionsInv kinds means F b.world → CInv M b → AllOfVersionsB M F b evs → Kept a id p b →
    Kept a id p (b.steps M evs) := by
  intro evs
  induction evs with
  | nil => intro b _ _ _ _ h; exact h
  | cons e l ih =>
    intro b hsub h hc ⟨h1, h3⟩ hk
    obtain ⟨g1, g2⟩ := bVersions_step hv h hc h1
    exact ih (fun x hx => hsub x (List.mem_cons_of_mem _ hx)) g1 g2 h3
      (kept_step hc (fitting_version h.kind ho) hk (keepsB_version h ho (hsub e List.mem_cons_self)))

end

/-- Every product is what its maker makes of the files as they are (`products_now`). -/
theorem products_version {kinds : Str → Kind} {b : BWorld β} {r : Rules}
    (hr : r.means = fun _ _ a b => a = b) (hbytes : CInv M b) (hbase : BInv b.world)
    (hkinds : ∀ j, OfKind (kinds j) (b.world.comps j)) {g : Graph} {s : Str → Setup}
    (hkepts : ∀ a id p, Maker kinds g s a id p → Kept a id p b) {j : Str} (hj : j ∈ g.ids)
    (hu : UpToDate r j (s j) (b.world.comps j)) :
    (∀ fx c o, kinds j = .target fx → s j = .target c o → ∃ order : List Str, order.Perm (paths c.sources) ∧
      text b.files (outputPath fx) = some (scratchBin fx M.tools (text b.files) c order)) ∧
    ∀ c, kinds j = .gen → s j = .gen c → ∀ id i, Generator.find id c = some i → ∀ p ∈ i.outputs,
      text b.files p = some (Generator.made (M.callbacks j) (text b.files) id i p) := by
  let junk : β := M.callbacks [] [] [] [] [] []
  have hcont : ∀ p t x, (p, t, x) ∈ b.hist → x = Generator.contentOf junk b.hist p (digits t) :=
    fun p t x hm => Generator.contentOf_mem junk hbytes.hp hm
  have hrel := hbytes.rel _ hcont j
  have hfiles := comp_files hbytes hbase j hcont
  have hkind := hkinds j
  rw [← hbytes.er j] at hu hkind
  refine ⟨fun fx c o hk hs => ?_, fun c hk hs id i hi p hp => ?_⟩
  · have hkept := hkepts j [] (outputPath fx) ⟨hj, by rw [hk, hs]⟩
    rw [Kept] at hkept
    rw [hk] at hkind
    rw [hs] at hu
    cases hc : b.comps j with
    | gen σ => rw [hc] at hkind; exact hkind.elim
    | target fx' σ =>
      rw [hc] at hkind hu hrel hkept
      obtain rfl : fx' = fx := hkind
      obtain ⟨order, o1, o2⟩ := (Target.Rel.clean hrel hu).bin
      refine ⟨order, o1, hkept.trans ?_⟩
      rw [← hfiles.1 _ _ hc]
      exact o2
  · have hkept := hkepts j id p ⟨hj, by rw [hk, hs]; exact ⟨i, Generator.find_mem hi, hp⟩⟩
    rw [Kept] at hkept
    rw [hk] at hkind
    rw [hs] at hu
    cases hc : b.comps j with
    | target fx' σ => rw [hc] at hkind; exact hkind.elim
    | gen σ =>
      rw [hc] at hkind hu hrel hkept
      refine hkept.trans ?_
      rw [← hfiles.2 _ hc]
      have hcur := hu id i hi
      rw [hr] at hcur
      exact Generator.Rel.current hrel hcur hp

/-- When every product is what its maker makes of the files as they are, all of them together are what
one build from scratch makes. -/
theorem scratch_of_products {kinds : Str → Kind} {g : Graph} {s : Str → Setup} (hsc : SoundScript kinds g s)
    (ho : OneMaker kinds g s) {files : Str → Option (Nat × β)}
    (hnow : ∀ j ∈ g.ids, (∀ fx c o, kinds j = .target fx → s j = .target c o →
      ∃ order : List Str, order.Perm (paths c.sources) ∧
        text files (outputPath fx) = some (scratchBin fx M.tools (text files) c order)) ∧
      ∀ c, kinds j = .gen → s j = .gen c → ∀ id i, Generator.find id c = some i → ∀ p ∈ i.outputs,
        text files p = some (Generator.made (M.callbacks j) (text files) id i p)) :
    ∃ orders : Str → List Str,
      (∀ j ∈ g.ids, ∀ c o, s j = .target c o → (orders j).Perm (paths c.sources)) ∧
      ∀ l, InOrder g l → ∀ j ∈ g.ids, ∀ p ∈ products (kinds j) (s j),
        text files p = buildAll M kinds s orders l (sourcesOnly kinds g s files) p := by
  have hord : ∀ j, ∃ order : List Str, j ∈ g.ids → ∀ fx c o, kinds j = .target fx → s j = .target c o →
      order.Perm (paths c.sources) ∧ text files (outputPath fx) =
        some (scratchBin fx M.tools (text files) c order) := by
    intro j
    by_cases h : ∃ fx c o, j ∈ g.ids ∧ kinds j = .target fx ∧ s j = .target c o
    · obtain ⟨fx, c, o, hj, hk, hs⟩ := h
      obtain ⟨order, h1, h2⟩ := (hnow j hj).1 fx c o hk hs
      refine ⟨order, fun _ fx' c' o' hk' hs' => ?_⟩
      rw [hk] at hk'; rw [hs] at hs'
      cases hk'; cases hs'
      exact ⟨h1, h2⟩
    · exact ⟨[], fun hj fx c o hk hs => absurd ⟨fx, c, o, hj, hk, hs⟩ h⟩
  let orders := fun j => Classical.choose (hord j)
  have horders := fun j => Classical.choose_spec (hord j)
  refine ⟨orders, ?_, ?_⟩
  · intro j hj c o hs
    have hfit := hsc.fits j hj
    cases hk : kinds j with
    | gen => rw [hk, hs] at hfit; exact hfit.elim
    | target fx => exact (horders j hj fx c o hk hs).1
  · intro l hl j hj p hp
    refine (buildAll_eq hsc ho (fun j hj => horders j hj)
      (fun j hj c hk hs => (hnow j hj).2 c hk hs) hl l [] _ rfl ?_ p (.inr ⟨j, ?_, hp⟩)).symm
    · intro p hp
      rcases hp with hp | ⟨j, hj, -⟩
      · simp [sourcesOnly, hp]
      · simp at hj
    · exact hl.all.mem_iff.2 hj

/-- C101: a build script is run again and again and edited between builds (`C100_versions_partial`).
Whenever `Reg::Run` returns with success and no file was changed from outside since the process was
started, every output of a generator and every target of the present version of the script holds what
one build from scratch of this version makes of the contents of the files that this version does not
make.  In the present version every product has one maker (`OneMaker`), which is its maker in all
versions (`OwnProduct`).

Missing: what C100 excludes; products that had another maker in another version, for which it is false
(`C101_two_makers_false`); changes by hand (`C99_by_hand_false`). -/
theorem C101_contents_partial {kinds : Str → Kind} {F : Versions} {evs : List (BWEvent β)}
    {b : BWorld β} (hb : b = (BWorld.init kinds).steps M evs)
    (hv : SoundVersions kinds (fun _ _ a b => a = b) F)
    (hal : AllOfVersionsB M F (BWorld.init kinds) evs)
    (ho : OneMaker kinds b.world.graph b.world.setup)
    (hown : ∀ a id p, Maker kinds b.world.graph b.world.setup a id p → OwnProduct kinds F evs a id p)
    (ha : b.world.active = true) (hcalm : b.world.calm = true)
    (hres : (b.step M .join).world.result = some true) :
    F b.world.graph b.world.setup ∧ ∃ orders : Str → List Str,
      (∀ j ∈ b.world.graph.ids, ∀ c o, b.world.setup j = .target c o →
        (orders j).Perm (paths c.sources)) ∧
      ∀ l, InOrder b.world.graph l → ∀ j ∈ b.world.graph.ids,
        ∀ p ∈ products (kinds j) (b.world.setup j),
        text (b.step M .join).files p = buildAll M kinds b.world.setup orders l
          (sourcesOnly kinds b.world.graph b.world.setup b.files) p := by
  obtain ⟨hI, hC, wevs, hw, hws⟩ := bVersions_steps hv evs (versionsInv_init hv) (cInv_init (M := M) kinds) hal
  rw [← hb] at hI hC hw
  obtain ⟨hI', hC'⟩ := bVersions_step (M := M) (e := .join) hv hI hC trivial
  obtain ⟨hF, hup, -⟩ := C100_versions_partial hw hv hws ha hcalm (by rw [← join_world (M := M)]; exact hres)
  have hkept : ∀ a id p, Maker kinds b.world.graph b.world.setup a id p → Kept a id p (b.step M .join) := by
    intro a id p hm
    have hp := hown a id p hm
    have h1 := kept_versions (M := M) hv hp evs (fun _ h => h) (versionsInv_init hv) (cInv_init kinds) hal
      (kept_init kinds)
    rw [← hb] at h1
    exact kept_step (M := M) (e := .join) hC (fitting_version hI.kind hp) h1 trivial
  refine ⟨hF, ?_⟩
  have hnow := fun j hj => products_version (M := M) rfl hC' hI'.inv.base hI'.kind hkept hj
    (by rw [join_world]; exact hup j hj)
  rw [join_files] at hnow
  obtain ⟨orders, h1, h2⟩ := scratch_of_products (hv.sound _ _ hF) ho hnow
  refine ⟨orders, h1, ?_⟩
  rw [join_files]
  exact h2

end Verif.Reg
