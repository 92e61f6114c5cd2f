import Verif.Sample.Spec
import Verif.Boot.Inputs

/-! # File names of paths and of object files -/

namespace Verif.Path
open Verif

/-- The file name of a path below another one. -/
theorem filename_below {d p : Str} (h : filename p ≠ []) : filename (append d p) = filename p := by
  unfold append
  split
  · rfl
  · split
    · rename_i hd
      rcases dirPart_empty_filename d hd with rfl | ⟨e, rfl⟩
      · rfl
      · exact (splitFile_prefix (e ++ [slash]) p (.inr ⟨e, rfl⟩)).2
    · have e : d ++ slash :: p = (d ++ [slash]) ++ p := by simp
      rw [e]
      exact (splitFile_prefix (d ++ [slash]) p (.inr ⟨d, rfl⟩)).2

/-- The file name of an object file. -/
theorem filename_object {root build ext source : Str} (he : slash ∉ ext) :
    filename (objectPath root build ext source) = filename source ++ ext := by
  have hs : slash ∉ filename source ++ ext := by
    simp only [List.mem_append, not_or]
    exact ⟨filename_noSlash source, he⟩
  rw [objectPath, replaceFilename]
  generalize append build _ = p
  rw [append_rel _ _ (isAbs_noSlash _ hs)]
  refine filename_unique _ _ hs ?_
  unfold asDir
  split
  · exact dirPart_end p
  · exact .inr ⟨_, rfl⟩

end Verif.Path

namespace Verif.Sample
open Verif Verif.Schema Verif.Target Verif.Toolchain Verif.Path
open Verif.Reg (ScriptTarget)

/-- Sources with different file names have different object files. -/
theorem objects_names {t : ScriptTarget} (he : PlainExt t.made.toolchain.config.objExt)
    {srcs : List Str} (hs : (srcs.map filename).Nodup) :
    srcs.Nodup ∧ ∀ a ∈ srcs, ∀ b ∈ srcs, objPath t.made.fixed a = objPath t.made.fixed b → a = b := by
  refine ⟨hs.of_map _ (fun a b hab h => hab (h ▸ rfl)), ?_⟩
  intro a ha b hb h
  have h1 := congrArg filename h
  have he' := Reg.PlainExt.noSlash he
  have e : ∀ s, filename (objPath t.made.fixed s) = filename s ++ t.made.toolchain.config.objExt :=
    fun s => filename_object he'
  rw [e, e] at h1
  have h2 := List.append_cancel_right h1
  clear h h1 e
  induction srcs with
  | nil => cases ha
  | cons x l ih =>
    simp only [List.map_cons, List.nodup_cons, List.mem_map, not_exists, not_and] at hs
    rcases List.mem_cons.1 ha with ha' | ha'
    · rcases List.mem_cons.1 hb with hb' | hb'
      · rw [ha', hb']
      · exact absurd (h2.symm.trans (by rw [ha'])) (hs.1 b hb')
    · rcases List.mem_cons.1 hb with hb' | hb'
      · exact absurd (h2.trans (by rw [hb'])) (hs.1 a ha')
      · exact ih hs.2 ha' hb'

end Verif.Sample
