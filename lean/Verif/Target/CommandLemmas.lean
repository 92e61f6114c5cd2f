import Verif.Command.Props
import Verif.Target.Commands

namespace Verif.Target
open Verif Verif.Command Verif.Toolchain Verif.Schema

theorem aggregate_eq (l : List Str) : aggregate l = b!" ".intercalate l := by
  induction l with
  | nil => rfl
  | cons a l ih =>
    cases l with
    | nil => simp [aggregate, List.intercalate]
    | cons b l =>
      have e : aggregate (a :: b :: l) = a ++ c!" " :: aggregate (b :: l) := rfl
      rw [e, ih]
      simp [List.intercalate, List.intersperse]

/-- Value of a name in the default arguments of a target. -/
theorem defaults_get (fx : Fixed) (u : TargetSchema) (n : Str) :
    getDefault (defaults fx u) n
      = (lookupArg (baseDefaults fx u) n).or (lookupArg (pchDefaults fx u) n) := by
  rw [defaults, getDefault_addDefaults, getDefault_addDefaults]
  simp [getDefault, lookupArg]

theorem pchDefaults_get (fx : Fixed) (u : TargetSchema) (n : Str) :
    lookupArg (pchDefaults fx u) n =
      if n = b!"pch_compile_flags" then
        some (if u.pchs ≠ [] then aggregate u.pchCompileFlags else [])
      else if n = b!"pch_object_flags" then
        some (if u.pchs ≠ [] then aggregate u.pchObjectFlags else [])
      else if n = b!"pch_object_output" then
        some (if u.pchs ≠ [] then Path.displayString
          (Path.pchObjectPath fx.buildDir fx.cfg.pchHeaderExt fx.cfg.objExt) else [])
      else none := by
  simp only [pchDefaults, lookupArg]
  split <;> simp only [lookupArg, eq_comm] <;> rfl

/-- Construct with a template given by segments. -/
theorem construct_segs (d : Defaults) (args : Args) (p : Str) (l : List Seg) (s : Str)
    (hl : ∀ x ∈ l, Seg.Ok x) (hp : srcs l = p) (hv : vals (bound d args) l = some s) :
    construct d p args = .value s :=
  (construct_value_iff d args p s).2 ⟨l, hl, hp, hv⟩

theorem containsCpp_iff (fx : Fixed) (u : TargetSchema) :
    containsCpp fx u = true ↔ ∃ s ∈ u.sources, fx.cfg.fileExt s.path = .cpp := by
  simp [containsCpp]

theorem balanced_display (p : Str) (h : c!"\"" ∉ Path.toPathString p) :
    Path.Balanced (Path.displayString p) := by
  have h0 : (Path.toPathString p).filter (· = c!"\"") = [] := by
    rw [List.filter_eq_nil_iff]
    intro a ha; simp; rintro rfl; exact h ha
  rw [Path.displayString]
  split
  · simp only [Path.Balanced, List.filter_cons, List.filter_append, h0]; decide
  · simp [Path.Balanced, h0]

theorem words_display (p : Str) (hp : p ≠ []) (h : c!"\"" ∉ Path.toPathString p) :
    Path.words (Path.displayString p) = [Path.toPathString p] := by
  have hb := balanced_display p h
  have h1 := Path.words_pre (Path.displayString p) [] hb
  have hne : Path.toPathString p ≠ [] := Path.lexNormal_ne_nil p hp
  have h2 : Path.wordsFrom false none (Path.displayString p ++ c!" " :: []) = [Path.toPathString p] := by
    rw [Path.displayString]
    split
    · have := Path.words_quoted (Path.toPathString p) [] h
      simpa [Path.words, Path.wordsFrom] using this
    · rename_i hs
      have := Path.words_plain (Path.toPathString p) b!" " [] hs h hne
      simpa [Path.wordsFrom] using this
  rw [h2] at h1
  simpa [Path.wordsFrom] using h1.symm

theorem quote_split (a b x y : Str) (ha : c!"\"" ∉ a) (hb : c!"\"" ∉ b)
    (h : a ++ c!"\"" :: x = b ++ c!"\"" :: y) : a = b ∧ x = y := by
  induction a generalizing b with
  | nil =>
    cases b with
    | nil => simpa using h
    | cons c b =>
      simp only [List.nil_append, List.cons_append, List.cons.injEq] at h
      exact absurd (by simp [h.1]) hb
  | cons c a ih =>
    cases b with
    | nil =>
      simp only [List.nil_append, List.cons_append, List.cons.injEq] at h
      exact absurd (by simp [← h.1]) ha
    | cons d b =>
      simp only [List.cons_append, List.cons.injEq] at h
      obtain ⟨e1, e2⟩ := ih b (fun hm => ha (by simp [hm])) (fun hm => hb (by simp [hm])) h.2
      exact ⟨by rw [h.1, e1], e2⟩

theorem includes_inj (h1 h2 : List Str) (q1 : ∀ h ∈ h1, c!"\"" ∉ h) (q2 : ∀ h ∈ h2, c!"\"" ∉ h)
    (h : (h1.map fun h => b!"#include \"" ++ h ++ b!"\"\r\n").flatten
      = (h2.map fun h => b!"#include \"" ++ h ++ b!"\"\r\n").flatten) : h1 = h2 := by
  induction h1 generalizing h2 with
  | nil =>
    cases h2 with
    | nil => rfl
    | cons a h2 => simp at h
  | cons a h1 ih =>
    cases h2 with
    | nil => simp at h
    | cons b h2 =>
      simp only [List.map_cons, List.flatten_cons, List.append_assoc, List.cons_append,
        List.nil_append, List.cons.injEq, true_and] at h
      obtain ⟨e1, e2⟩ := quote_split _ _ _ _ (q1 a (by simp)) (q2 b (by simp)) h
      simp only [List.cons.injEq, true_and] at e2
      rw [e1, ih h2 (fun x hx => q1 x (by simp [hx])) (fun x hx => q2 x (by simp [hx]))
        (by simpa using e2)]

end Verif.Target
