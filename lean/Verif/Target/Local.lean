import Verif.Target.Spec
import Verif.Target.CommandLemmas

/-! # What the shipped templates depend on -/

namespace Verif.Target
open Verif Verif.Command Verif.Toolchain Verif.Schema

theorem gcc_compile_eq (fx : Fixed) (u : TargetSchema) (src : Str)
    (ht : fx.tcfg.compileCommand = gccCompileTemplate) :
    compileCommand fx u src = .value (Path.displayString (selectCompiler fx (fx.cfg.fileExt src)) ++
      (c!" " :: (aggregate u.preprocessorFlags ++
      (c!" " :: (aggregateWithPrefix fx.cfg.prefixIncludeDir u.includeDirs ++
      (c!" " :: (aggregate u.commonCompileFlags ++ (c!" " ::
        ((if u.pchs ≠ [] then aggregate u.pchObjectFlags else []) ++ (c!" " ::
        (selectCompileFlags u (fx.cfg.fileExt src) ++ (b!" -o " ++
        (Path.displayString (objPath fx src) ++ (b!" -c " ++ src)))))))))))))) := by
  rw [compileCommand, ht]
  apply construct_segs _ _ _ [.field b!"compiler", .text b!" ", .field b!"preprocessor_flags", .text b!" ", .field b!"include_dirs", .text b!" ", .field b!"common_compile_flags", .text b!" ", .field b!"pch_object_flags", .text b!" ", .field b!"compile_flags", .text b!" -o ", .field b!"output", .text b!" -c ", .field b!"input"]
  · decide +kernel
  · decide +kernel
  · simp [vals, Seg.val, bound, defaults_get, pchDefaults_get, baseDefaults, lookupArg, compileArgs]

theorem msvc_compile_eq (fx : Fixed) (u : TargetSchema) (src : Str)
    (ht : fx.tcfg.compileCommand = msvcCompileTemplate) :
    compileCommand fx u src = .value (Path.displayString (selectCompiler fx (fx.cfg.fileExt src)) ++
      (c!" " :: (aggregate u.preprocessorFlags ++
      (c!" " :: (aggregateWithPrefix fx.cfg.prefixIncludeDir u.includeDirs ++
      (c!" " :: (aggregate u.commonCompileFlags ++ (c!" " ::
        ((if u.pchs ≠ [] then aggregate u.pchObjectFlags else []) ++ (c!" " ::
        (selectCompileFlags u (fx.cfg.fileExt src) ++ (b!" /Fo" ++
        (Path.displayString (objPath fx src) ++ (b!" /c " ++ src)))))))))))))) := by
  rw [compileCommand, ht]
  apply construct_segs _ _ _ [.field b!"compiler", .text b!" ", .field b!"preprocessor_flags", .text b!" ", .field b!"include_dirs", .text b!" ", .field b!"common_compile_flags", .text b!" ", .field b!"pch_object_flags", .text b!" ", .field b!"compile_flags", .text b!" /Fo", .field b!"output", .text b!" /c ", .field b!"input"]
  · decide +kernel
  · decide +kernel
  · simp [vals, Seg.val, bound, defaults_get, pchDefaults_get, baseDefaults, lookupArg, compileArgs]

theorem selectCompileFlags_congr {a b : TargetSchema} (h1 : a.asmCompileFlags = b.asmCompileFlags)
    (h2 : a.cCompileFlags = b.cCompileFlags) (h3 : a.cppCompileFlags = b.cppCompileFlags)
    (e : FileExt) : selectCompileFlags a e = selectCompileFlags b e := by
  cases e <;> simp [selectCompileFlags, h1, h2, h3]

theorem compileLocal_of (fx : Fixed) (h : fx.tcfg.compileCommand = gccCompileTemplate ∨
    fx.tcfg.compileCommand = msvcCompileTemplate) : CompileLocal fx := by
  intro a b src ho hp
  have hpo : (if a.pchs ≠ [] then aggregate a.pchObjectFlags else []) =
      if b.pchs ≠ [] then aggregate b.pchObjectFlags else [] := by
    by_cases hn : a.pchs = []
    · simp [hn, hp.1 hn]
    · rw [if_pos hn, if_pos (fun e => hn (hp.2 e)), ho.pchFlags]
  rcases h with h | h
  · rw [gcc_compile_eq fx a src h, gcc_compile_eq fx b src h, hpo, ho.preprocessor, ho.common,
      ho.includes, selectCompileFlags_congr ho.asm ho.c ho.cpp]
  · rw [msvc_compile_eq fx a src h, msvc_compile_eq fx b src h, hpo, ho.preprocessor, ho.common,
      ho.includes, selectCompileFlags_congr ho.asm ho.c ho.cpp]

theorem gcc_pch_eq (fx : Fixed) (u : TargetSchema) (ht : fx.tcfg.pchCommand = gccPchTemplate) :
    pchCommand fx u = .value (Path.displayString (if containsCpp fx u then fx.exe.cppCompiler else fx.exe.cCompiler) ++
      (c!" " :: (aggregate u.preprocessorFlags ++
      (c!" " :: (aggregateWithPrefix fx.cfg.prefixIncludeDir u.includeDirs ++
      (c!" " :: (aggregate u.commonCompileFlags ++ (c!" " ::
        ((if u.pchs ≠ [] then aggregate u.pchCompileFlags else []) ++ (c!" " ::
        (selectCompileFlags u (if containsCpp fx u then .cpp else .c) ++ (b!" -o " ++
        (Path.displayString (Path.pchCompilePath fx.buildDir fx.cfg.pchHeaderExt fx.cfg.pchCompileExt)
          ++ (b!" -c " ++
          Path.displayString (Path.pchHeaderPath fx.buildDir fx.cfg.pchHeaderExt))))))))))))))) := by
  rw [pchCommand, ht]
  apply construct_segs _ _ _ [.field b!"compiler", .text b!" ", .field b!"preprocessor_flags", .text b!" ", .field b!"include_dirs", .text b!" ", .field b!"common_compile_flags", .text b!" ", .field b!"pch_compile_flags", .text b!" ", .field b!"compile_flags", .text b!" -o ", .field b!"output", .text b!" -c ", .field b!"input"]
  · decide +kernel
  · decide +kernel
  · simp [vals, Seg.val, bound, defaults_get, pchDefaults_get, baseDefaults, lookupArg, pchArgs]

theorem msvc_pch_eq (fx : Fixed) (u : TargetSchema) (ht : fx.tcfg.pchCommand = msvcPchTemplate) :
    pchCommand fx u = .value (Path.displayString (if containsCpp fx u then fx.exe.cppCompiler else fx.exe.cCompiler) ++
      (c!" " :: (aggregate u.preprocessorFlags ++
      (c!" " :: (aggregateWithPrefix fx.cfg.prefixIncludeDir u.includeDirs ++
      (c!" " :: (aggregate u.commonCompileFlags ++ (b!" /Yc" ++
        (Path.displayString (Path.pchHeaderPath fx.buildDir fx.cfg.pchHeaderExt) ++ (b!" /FI" ++
        (Path.displayString (Path.pchHeaderPath fx.buildDir fx.cfg.pchHeaderExt) ++ (b!" /Fp" ++
        (Path.displayString (Path.pchCompilePath fx.buildDir fx.cfg.pchHeaderExt fx.cfg.pchCompileExt)
          ++ (c!" " ::
        ((if u.pchs ≠ [] then aggregate u.pchCompileFlags else []) ++ (c!" " ::
        (selectCompileFlags u (if containsCpp fx u then .cpp else .c) ++ (b!" /Fo" ++
        ((if u.pchs ≠ [] then Path.displayString
          (Path.pchObjectPath fx.buildDir fx.cfg.pchHeaderExt fx.cfg.objExt) else []) ++ (b!" /c " ++
          Path.displayString (Path.pchSourcePath fx.buildDir fx.cfg.pchHeaderExt (containsCpp fx u)))))))))))))))))))))) := by
  rw [pchCommand, ht]
  apply construct_segs _ _ _ [.field b!"compiler", .text b!" ", .field b!"preprocessor_flags", .text b!" ", .field b!"include_dirs", .text b!" ", .field b!"common_compile_flags", .text b!" /Yc", .field b!"input", .text b!" /FI", .field b!"input", .text b!" /Fp", .field b!"output", .text b!" ", .field b!"pch_compile_flags", .text b!" ", .field b!"compile_flags", .text b!" /Fo", .field b!"pch_object_output", .text b!" /c ", .field b!"input_source"]
  · decide +kernel
  · decide +kernel
  · simp [vals, Seg.val, bound, defaults_get, pchDefaults_get, baseDefaults, lookupArg, pchArgs]

theorem pchLocal_of (fx : Fixed) (h : fx.tcfg.pchCommand = gccPchTemplate ∨
    fx.tcfg.pchCommand = msvcPchTemplate) : PchLocal fx := by
  intro a b hs hl
  have hn : a.pchs = [] ↔ b.pchs = [] := by
    have := hs.pchs
    simp only [paths] at this
    constructor
    · intro e; rw [e] at this; simpa using this
    · intro e; rw [e] at this; simpa using this
  have hpo : (if a.pchs ≠ [] then aggregate a.pchCompileFlags else []) =
      if b.pchs ≠ [] then aggregate b.pchCompileFlags else [] := by
    by_cases hn1 : a.pchs = []
    · simp [hn1, hn.1 hn1]
    · rw [if_pos hn1, if_pos (fun e => hn1 (hn.2 e)), hs.pchFlags]
  have hsel : selectCompileFlags a (if containsCpp fx b then .cpp else .c) =
      selectCompileFlags b (if containsCpp fx b then .cpp else .c) := by
    split <;> simp [selectCompileFlags, hs.c, hs.cpp]
  rcases h with h | h
  · rw [gcc_pch_eq fx a h, gcc_pch_eq fx b h, hpo, hl, hs.preprocessor, hs.common, hs.includes, hsel]
  · rw [msvc_pch_eq fx a h, msvc_pch_eq fx b h, hpo, hl, hs.preprocessor, hs.common, hs.includes, hsel]
    simp only [ne_eq, hn]

theorem Shipped.compileLocal {fx : Fixed} (h : Shipped fx) : CompileLocal fx := by
  apply compileLocal_of
  simp only [Shipped, List.mem_cons, List.not_mem_nil, or_false] at h
  rcases h with h | h | h | h | h | h | h | h | h | h <;> rw [h] <;> first | exact .inl rfl | exact .inr rfl

theorem Shipped.pchLocal {fx : Fixed} (h : Shipped fx) : PchLocal fx := by
  apply pchLocal_of
  simp only [Shipped, List.mem_cons, List.not_mem_nil, or_false] at h
  rcases h with h | h | h | h | h | h | h | h | h | h <;> rw [h] <;> first | exact .inl rfl | exact .inr rfl

end Verif.Target
