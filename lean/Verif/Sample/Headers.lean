import Verif.Sample.Registered

/-! # Headers that the compiler can find are tracked (C107) -/

namespace Verif.Sample
open Verif Verif.Schema Verif.Target Verif.Toolchain Verif.Path
open Verif.Boot (Filled fill fill_some texts texts_append texts_paths made_none)

/-! ## Specification -/

/-- A call that gives an include directory gives the headers in it as well. -/
def GlobsOp : ApiOp → Prop
  | .addIncludeDir _ glob => glob = true
  | .addIncludeDirAbsolute _ glob => glob = true
  | .copy .. | .insert .. => False
  | _ => True

/-- With the include directories of another object its headers are taken as well. -/
def Step.Globs : Step → Prop
  | .call op => GlobsOp op
  | .libDep _ => True
  | .insert _ o => .includeDirs ∈ o → .headers ∈ o
  | .insertInfo _ o => .includeDirs ∈ o → .headers ∈ o
  | .copyInfo _ o => .includeDirs ∈ o ↔ .headers ∈ o

instance : DecidablePred GlobsOp := fun op => by cases op <;> unfold GlobsOp <;> infer_instance

instance : DecidablePred Step.Globs := fun s => by cases s <;> unfold Step.Globs <;> infer_instance

/-- A rule for the text of a script. -/
def Globbed (s : Text) : Prop :=
  (∀ x ∈ s.infos, ∀ op ∈ x.2, GlobsOp op) ∧ ∀ d ∈ s.targets, ∀ x ∈ d.steps, x.Globs

instance (s : Text) : Decidable (Globbed s) := inferInstanceAs (Decidable (_ ∧ _))

/-- Every header in a directory in which the compiler looks for headers is one of the files whose change
recompiles the target.  `raw` is the directory as it was given to the library, which stores it in normal
form. -/
def Covered (list : Str → Option (List Str)) (tc : Toolchain) (t : TargetSchema) : Prop :=
  ∀ d ∈ t.includeDirs, ∃ raw, d = toPathString raw ∧ ∀ n ∈ (list raw).getD [],
    IsHeader tc.config (append raw n) → toPathString (append raw n) ∈ paths t.headers

/-! ## Proofs -/

variable {list : Str → Option (List Str)} {tc : Toolchain}

theorem covered_mono {t t' : TargetSchema} (h : Covered list tc t)
    (hi : ∀ d ∈ t'.includeDirs, d ∈ t.includeDirs) (hh : ∀ q ∈ paths t.headers, q ∈ paths t'.headers) :
    Covered list tc t' := by
  intro d hd
  obtain ⟨raw, h1, h2⟩ := h d (hi d hd)
  exact ⟨raw, h1, fun n hn hx => hh _ (h2 n hn hx)⟩

theorem texts_includes (t : TargetSchema) : texts (entries .includeDirs t) = t.includeDirs := by
  simp [texts, entries, Function.comp_def]

theorem covered_append {t t' : TargetSchema} (h : Covered list tc t) {i hs : List Str}
    (hi : t'.includeDirs = t.includeDirs ++ i) (hh : paths t'.headers = paths t.headers ++ hs)
    (hnew : ∀ d ∈ i, ∃ raw, d = toPathString raw ∧ ∀ n ∈ (list raw).getD [],
      IsHeader tc.config (append raw n) → toPathString (append raw n) ∈ hs) : Covered list tc t' := by
  intro d hd
  rw [hi, List.mem_append] at hd
  rcases hd with hd | hd
  · obtain ⟨raw, h1, h2⟩ := h d hd
    exact ⟨raw, h1, fun n hn hx => hh ▸ List.mem_append_left _ (h2 n hn hx)⟩
  · obtain ⟨raw, h1, h2⟩ := hnew d hd
    exact ⟨raw, h1, fun n hn hx => hh ▸ List.mem_append_right _ (h2 n hn hx)⟩

/-- A call that takes from other objects what is covered leaves what is covered. -/
theorem apply_covered {root : Str} {t t' : TargetSchema} {op : ApiOp} (h : Covered list tc t)
    (ha : apply ⟨tc.config, root, list⟩ t op = some t')
    (ho : GlobsOp op ∨ (∃ c o, op = .insert c o ∧ Covered list tc c ∧ (.includeDirs ∈ o → .headers ∈ o)) ∨
      ∃ c o, op = .copy c o ∧ Covered list tc c ∧ (.includeDirs ∈ o ↔ .headers ∈ o)) :
    Covered list tc t' := by
  have key : (∀ o, ¬ Copies o op) → t'.includeDirs = t.includeDirs ++
        texts (added ⟨tc.config, root, list⟩ .includeDirs op) ∧
      paths t'.headers = paths t.headers ++ texts (added ⟨tc.config, root, list⟩ .headers op) := by
    intro hc
    rcases apply_spec ⟨tc.config, root, list⟩ t op with ⟨-, h2⟩ | ⟨-, t1, h2, -, h4⟩
    · rw [h2] at ha; cases ha
    · rw [h2] at ha
      cases ha
      rw [← texts_includes, ← texts_includes, ← (texts_paths _).2.1, ← (texts_paths _).2.1,
        h4 _ (hc _), h4 _ (hc _), texts_append, texts_append]
      exact ⟨rfl, rfl⟩
  have hdir : ∀ raw : Str, ∀ n ∈ (list raw).getD [], IsHeader tc.config (append raw n) →
      toPathString (append raw n) ∈ texts ((filesIn ⟨tc.config, root, list⟩ raw
        fun p => decide (IsHeader tc.config p)).map stored) := by
    intro raw n hn hx
    rw [Boot.texts_stored]
    refine List.mem_map_of_mem ?_
    simp only [filesIn, List.mem_filter, List.mem_map, decide_eq_true_eq]
    exact ⟨⟨n, hn, rfl⟩, hx⟩
  rcases ho with ho | ⟨c, o, rfl, hcov, ho⟩ | ⟨c, o, rfl, hcov, ho⟩
  · cases op <;>
      first
        | exact absurd ho id
        | (obtain ⟨h1, h2⟩ := key fun _ => id
           refine covered_append h h1 h2 ?_
           simp [added, addsTo, texts]
           done)
        | skip
    · rename_i dir glob
      obtain ⟨h1, h2⟩ := key fun _ => id
      have hg : glob = true := ho
      subst hg
      refine covered_append h h1 h2 ?_
      intro d hd
      have hd : d = toPathString dir := by simpa [added, addsTo, texts, storedDir] using hd
      refine ⟨dir, hd, fun n hn hx => ?_⟩
      have := hdir dir n hn hx
      simpa [added, addsTo] using this
    · rename_i dir glob
      obtain ⟨h1, h2⟩ := key fun _ => id
      have hg : glob = true := ho
      subst hg
      refine covered_append h h1 h2 ?_
      intro d hd
      have hd : d = toPathString (append root dir) := by simpa [added, addsTo, texts, storedDir] using hd
      refine ⟨_, hd, fun n hn hx => ?_⟩
      have := hdir _ n hn hx
      simpa [added, addsTo] using this
    · rename_i k f
      obtain ⟨h1, h2⟩ := key fun _ => id
      refine covered_append h h1 h2 ?_
      cases k <;> simp [added, addsTo, texts, FlagKind.option]
  · obtain ⟨h1, h2⟩ := key fun _ => id
    refine covered_append h h1 h2 ?_
    intro d hd
    rw [added_insert] at hd
    by_cases hm : SyncOption.includeDirs ∈ o
    · have hd' : d ∈ c.includeDirs := by
        rw [← texts_includes]
        simp only [texts, List.map_flatten, List.mem_flatten, List.mem_map, List.mem_replicate] at hd
        obtain ⟨_, ⟨l, ⟨-, rfl⟩, rfl⟩, hd⟩ := hd
        exact hd
      obtain ⟨raw, h3, h4⟩ := hcov d hd'
      refine ⟨raw, h3, fun n hn hx => ?_⟩
      have h5 := h4 n hn hx
      rw [← (texts_paths _).2.1] at h5
      rw [added_insert]
      simp only [texts, List.map_flatten, List.mem_flatten, List.mem_map, List.mem_replicate]
      exact ⟨_, ⟨_, ⟨Nat.pos_iff_ne_zero.1 (List.count_pos_iff.2 (ho hm)), rfl⟩, rfl⟩, h5⟩
    · rw [List.count_eq_zero_of_not_mem hm] at hd
      simp [texts] at hd
  · have ha : copy t c o = t' := by simpa [apply] using ha
    subst ha
    have e1 := (C44_copy t c o).1 .includeDirs
    have e2 := (C44_copy t c o).1 .headers
    by_cases hm : SyncOption.includeDirs ∈ o
    · rw [if_pos hm] at e1
      rw [if_pos (ho.1 hm)] at e2
      refine covered_mono hcov ?_ ?_
      · rw [← texts_includes, e1, texts_includes]; exact fun _ => id
      · rw [← (texts_paths (copy t c o)).2.1, e2, (texts_paths c).2.1]; exact fun _ => id
    · rw [if_neg hm] at e1
      rw [if_neg fun hx => hm (ho.2 hx)] at e2
      refine covered_mono h ?_ ?_
      · rw [← texts_includes, e1, texts_includes]; exact fun _ => id
      · rw [← (texts_paths (copy t c o)).2.1, e2, (texts_paths t).2.1]; exact fun _ => id

theorem applyAll_covered {root : Str} {ops : List ApiOp} : ∀ {t t' : TargetSchema}, Covered list tc t →
    applyAll ⟨tc.config, root, list⟩ t ops = some t' →
    (∀ op ∈ ops, GlobsOp op ∨
      (∃ c o, op = .insert c o ∧ Covered list tc c ∧ (.includeDirs ∈ o → .headers ∈ o)) ∨
      ∃ c o, op = .copy c o ∧ Covered list tc c ∧ (.includeDirs ∈ o ↔ .headers ∈ o)) →
    Covered list tc t' := by
  induction ops with
  | nil => intro t t' h ha _; cases ha; exact h
  | cons op ops ih =>
    intro t t' h ha ho
    rw [applyAll] at ha
    split at ha
    · cases ha
    · rename_i t1 h1
      exact ih (apply_covered h h1 (ho op (List.mem_cons_self ..))) ha
        fun x hx => ho x (List.mem_cons_of_mem _ hx)

theorem infos_covered {p : Project} : ∀ {l : List (Str × List ApiOp)} {cs : List TargetSchema},
    runInfos p list tc l = some cs → (∀ x ∈ l, ∀ op ∈ x.2, GlobsOp op) → ∀ c ∈ cs, Covered list tc c
  | [], _, h, _ => by cases h; simp
  | x :: l, cs, h, ho => by
    rw [runInfos] at h
    split at h
    · cases h
    · rename_i c hc
      obtain ⟨r, hr, rfl⟩ := Option.map_eq_some_iff.1 h
      have ih := infos_covered hr fun y hy => ho y (List.mem_cons_of_mem _ hy)
      intro y hy
      rcases List.mem_cons.1 hy with rfl | hy
      · refine applyAll_covered ?_ hc fun op hop => .inl (ho x (List.mem_cons_self ..) op hop)
        intro d hd
        rw [← texts_includes, (C50_new _).2 .includeDirs (by intro k; cases k <;> simp [FlagKind.option])] at hd
        cases hd
      · exact ih y hy

theorem targets_covered {junk : Nat → TargetSchema} {p : Project} {infos : List TargetSchema}
    (hi : ∀ c ∈ infos, Covered list tc c) : ∀ (l : List Decl) (ts fs : List Filled),
      runTargets junk p list tc infos ts l = some fs → (∀ f ∈ ts, Covered list tc f.cfg) →
      (∀ d ∈ l, ∀ x ∈ d.steps, x.Globs) → ∀ f ∈ fs, Covered list tc f.cfg
  | [], ts, fs, h, ht, _ => by cases h; exact ht
  | d :: l, ts, fs, h, ht, hd => by
    rw [runTargets] at h
    split at h
    · cases h
    · rename_i m hm
      split at h
      · cases h
      · rename_i f hfill
        refine targets_covered hi l (ts ++ [f]) fs h ?_ fun e he => hd e (List.mem_cons_of_mem _ he)
        obtain ⟨rfl, happ⟩ := fill_some hfill
        intro g hg
        rw [List.mem_append, List.mem_singleton] at hg
        rcases hg with hg | rfl
        · exact ht g hg
        · have htc := C70_made hm
          obtain ⟨-, -, htc, -⟩ := htc
          rw [htc] at happ
          refine applyAll_covered ?_ happ ?_
          · intro x hx
            rw [← texts_includes, made_none hm .includeDirs (by intro k; cases k <;> simp [FlagKind.option])] at hx
            cases hx
          · intro op hop
            obtain ⟨x, hx, rfl⟩ := List.mem_map.1 hop
            have hg := hd d (List.mem_cons_self ..) x hx
            have hempty : Covered list tc TargetSchema.empty := by intro d hd; cases hd
            have hinfo : ∀ i : Nat, Covered list tc (infos[i]?.getD TargetSchema.empty) := by
              intro i
              cases hc : infos[i]? with
              | none => exact hempty
              | some c => exact hi c (List.mem_of_getElem? hc)
            cases x with
            | call op => exact .inl hg
            | libDep i => exact .inl trivial
            | insert i o =>
              refine .inr (.inl ⟨_, _, rfl, ?_, hg⟩)
              cases hc : ts[i]? with
              | none => exact hempty
              | some c => exact ht c (List.mem_of_getElem? hc)
            | insertInfo i o => exact .inr (.inl ⟨_, _, rfl, hinfo i, hg⟩)
            | copyInfo i o => exact .inr (.inr ⟨_, _, rfl, hinfo i, hg⟩)

/-- C107: in a script whose text keeps to the rule of `Globbed`, wherever it runs and whatever is in the
directories, the headers in the include directories of a target are among the files whose change
recompiles it. -/
theorem C107_covered {junk : Nat → TargetSchema} {p : Project} {s : Text} {fs : List Filled}
    (h : s.run junk p list tc = some fs) (hg : Globbed s) : ∀ f ∈ fs, Covered list tc f.cfg := by
  rw [Text.run] at h
  split at h
  · cases h
  · rename_i infos hi
    exact targets_covered (infos_covered hi hg.1) _ _ _ h (by simp) hg.2

end Verif.Sample
