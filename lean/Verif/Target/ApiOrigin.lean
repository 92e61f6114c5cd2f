import Verif.Target.ApiProps

/-! # C48: where files without an extension of the toolchain come from -/

namespace Verif.Target
open Verif Verif.Command Verif.Toolchain Verif.Schema

/-- The call takes what the option names from the other target, by `Copy` or `Insert`. -/
def TakesFrom (o : SyncOption) (src : TargetSchema) : ApiOp → Prop
  | .copy s options | .insert s options => s = src ∧ o ∈ options
  | _ => False

/-- C48, for every sequence of calls: a source, header or header for precompilation that has no extension of
the toolchain was in the target before, or a call of `Copy` or `Insert` took it from another target, where it
is listed. -/
theorem C48_origin {e : ApiEnv} {t t' : TargetSchema} {ops : List ApiOp} (h : applyAll e t ops = some t')
    (o : SyncOption) (x : PathInfo ⊕ Str) (hx : x ∈ entries o t') :
    GoodEntry e.cfg o x ∨ x ∈ entries o t ∨
      ∃ op ∈ ops, ∃ src, TakesFrom o src op ∧ x ∈ entries o src := by
  induction ops generalizing t with
  | nil => simp only [applyAll, Option.some.injEq] at h; exact .inr (.inl (h ▸ hx))
  | cons op ops ih =>
    rw [applyAll] at h
    rcases apply_spec e t op with ⟨h1, h2⟩ | ⟨h1, t1, h2, h3, h4⟩
    · simp [h2] at h
    · rw [h2] at h
      rcases ih h with g | g | ⟨op', hop, src, hs, hm⟩
      · exact .inl g
      · by_cases hc : Copies o op
        · cases op with
          | copy src options =>
            have h2 : some (copy t src options) = some t1 := h2
            simp only [Option.some.injEq] at h2
            rw [← h2, (C44_copy t src options).1 o, if_pos (show o ∈ options from hc)] at g
            exact .inr (.inr ⟨_, List.mem_cons_self .., src, ⟨rfl, hc⟩, g⟩)
          | _ => exact absurd hc id
        · rw [h4 o hc, List.mem_append] at g
          rcases g with g | g
          · exact .inr (.inl g)
          · cases op with
            | insert s options =>
              simp only [added, List.mem_flatMap, List.mem_filter, decide_eq_true_eq] at g
              obtain ⟨⟨o', l⟩, ⟨hl, ho⟩, hx⟩ := g
              simp only at ho hx
              subst ho
              simp only [addsTo, List.mem_map, Prod.mk.injEq] at hl
              obtain ⟨o, hm, rfl, rfl⟩ := hl
              exact .inr (.inr ⟨_, List.mem_cons_self .., s, ⟨rfl, hm⟩, hx⟩)
            | copy s options => simp [added, addsTo] at g
            | _ => exact .inl (added_good h1 trivial o x g)
      · exact .inr (.inr ⟨op', List.mem_cons_of_mem _ hop, src, hs, hm⟩)

/-- C48: in a target to which `Copy` and `Insert` were never applied, every source has an extension of a C, C++
or assembler file, and every header has an extension of a header. -/
theorem C48_own {e : ApiEnv} {t' : TargetSchema} {ops : List ApiOp}
    (hn : ∀ op ∈ ops, ∀ o src, ¬ TakesFrom o src op) (h : applyAll e .empty ops = some t') :
    Classified e.cfg t' := by
  rw [classified_iff]
  intro o x hx
  rcases C48_origin h o x hx with g | g | ⟨op, hop, src, hs, -⟩
  · exact g
  · cases o <;> simp [entries, TargetSchema.empty] at g
  · exact absurd hs (hn op hop o src)

example : (∀ op ∈ [ApiOp.globSources b!"src", .addSource b!"./x/..//m.s" b!"", .addPch b!"p.hpp" b!""],
      ∀ o src, ¬ TakesFrom o src op) ∧
    (applyAll exEnv .empty [.globSources b!"src", .addSource b!"./x/..//m.s" b!"", .addPch b!"p.hpp" b!""]).isSome
      = true := by
  refine ⟨fun op hop o src => ?_, by decide +kernel⟩
  simp only [List.mem_cons, List.not_mem_nil, or_false] at hop
  rcases hop with rfl | rfl | rfl <;> exact id

/-- C48: a file that has no extension of a C, C++ or assembler file has a compile command without a compiler:
it begins with the flags, and no flags of a language are in it. -/
theorem C48_unclassified (fx : Fixed) (t : TargetSchema) (p : Str) (h : ¬ IsSource fx.cfg p)
    (ht : fx.tcfg.compileCommand = gccCompileTemplate) :
    compileCommand fx t p = .value (spaced
      [ b!"", spaced t.preprocessorFlags, spaced (t.includeDirs.map (fx.cfg.prefixIncludeDir ++ ·)),
        spaced t.commonCompileFlags, spaced (if t.pchs ≠ [] then t.pchObjectFlags else []),
        b!"", b!"-o", Path.displayString (objPath fx p), b!"-c", p ]) := by
  have hk : selectCompiler fx (fx.cfg.fileExt p) = [] ∧ selectCompileFlags t (fx.cfg.fileExt p) = [] := by
    by_cases h0 : Path.extension p = []
    · rw [Config.fileExt, if_pos h0]; exact ⟨rfl, rfl⟩
    · have h1 : Path.extension p ∉ fx.cfg.validC := fun x => h (.inl ⟨h0, x⟩)
      have h2 : Path.extension p ∉ fx.cfg.validCpp := fun x => h (.inr (.inl ⟨h0, x⟩))
      have h3 : Path.extension p ∉ fx.cfg.validAsm := fun x => h (.inr (.inr ⟨h0, x⟩))
      rw [Config.fileExt, if_neg h0, if_neg h1, if_neg h2, if_neg h3]
      split <;> exact ⟨rfl, rfl⟩
  have hd : Path.displayString [] = [] := by decide
  rw [compileCommand, ht]
  apply construct_segs _ _ _ [.field b!"compiler", .text b!" ", .field b!"preprocessor_flags", .text b!" ", .field b!"include_dirs", .text b!" ", .field b!"common_compile_flags", .text b!" ", .field b!"pch_object_flags", .text b!" ", .field b!"compile_flags", .text b!" -o ", .field b!"output", .text b!" -c ", .field b!"input"]
  · decide +kernel
  · decide +kernel
  · simp [vals, Seg.val, bound, defaults_get, pchDefaults_get, baseDefaults, lookupArg,
      compileArgs, hk.1, hk.2, hd, aggregateWithPrefix, aggregate_eq]
    split <;> simp [spaced]

/-- The target of `C48_copied_false`: the call that took the file, and its command. -/
example (other mine : TargetSchema) (ho : applyAll exOther .empty [.addSource b!"a.m" b!""] = some other)
    (hm : applyAll exEnv .empty [.copy other [.sources]] = some mine) :
    ∃ x ∈ entries .sources mine, ¬ GoodEntry exEnv.cfg .sources x ∧
      TakesFrom .sources other (.copy other [.sources]) ∧ x ∈ entries .sources other := by
  cases ho
  cases hm
  refine ⟨.inl ⟨b!"/r/a.m", []⟩, List.Mem.head _, ?_, ⟨rfl, by decide⟩, List.Mem.head _⟩
  show ¬ IsSource _ _
  decide

end Verif.Target
