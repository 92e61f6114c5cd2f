import Verif.Target.Sound
import Verif.Target.CommandProps

/-! # Concrete targets and histories used in examples and refutations -/

namespace Verif.Target
open Verif Verif.Command Verif.Schema Verif.Json

/-- All edits of a history happen while no build runs and give the file a new stamp. -/
def idleEdits (fx : Fixed) : Sys → List Event → Bool
  | _, [] => true
  | σ, e :: l =>
    (match e with
      | .edit p t => σ.run.isNone && decide (t ∉ σ.used p)
      | _ => true) && idleEdits fx (step fx σ e) l

theorem idleEdits_spec {fx : Fixed} : ∀ (evs : List Event) (σ : Sys), idleEdits fx σ evs = true →
    ∀ pre p t post, evs = pre ++ .edit p t :: post →
      (steps fx σ pre).run = none ∧ t ∉ (steps fx σ pre).used p := by
  intro evs
  induction evs with
  | nil => intro σ _ pre p t post h; simp at h
  | cons e l ih =>
    intro σ h pre p t post he
    simp only [idleEdits, Bool.and_eq_true] at h
    cases pre with
    | nil =>
      simp only [List.nil_append, List.cons.injEq] at he
      rw [he.1] at h
      simpa [steps] using h.1
    | cons e' pre =>
      simp only [List.cons_append, List.cons.injEq] at he
      have := ih (step fx σ e) h.2 pre p t post he.2
      rw [← he.1]
      exact this

/-- No file gets a stamp twice. -/
def editsFresh : List Event → List (Str × Nat) → Bool
  | [], _ => true
  | .edit p t :: l, old => decide ((p, t) ∉ old) && editsFresh l ((p, t) :: old)
  | _ :: l, old => editsFresh l old

theorem editsFresh_spec (evs : List Event) (h : editsFresh evs [] = true) :
    ∀ pre p t post, evs = pre ++ .edit p t :: post → Event.edit p t ∉ pre := by
  suffices hg : ∀ (evs : List Event) old, editsFresh evs old = true →
      ∀ pre p t post, evs = pre ++ .edit p t :: post → Event.edit p t ∉ pre ∧ (p, t) ∉ old from
    fun pre p t post he => (hg evs [] h pre p t post he).1
  intro evs
  induction evs with
  | nil => intro old _ pre p t post he; simp at he
  | cons e l ih =>
    intro old h pre p t post he
    cases pre with
    | nil =>
      simp only [List.nil_append, List.cons.injEq] at he
      rw [he.1] at h
      simp only [editsFresh, Bool.and_eq_true, decide_eq_true_eq] at h
      exact ⟨by simp, h.1⟩
    | cons e' pre =>
      simp only [List.cons_append, List.cons.injEq] at he
      obtain ⟨rfl, he⟩ := he
      have key : ∀ old', editsFresh l old' = true → (∀ x, x ∈ old → x ∈ old') →
          (Event.edit p t = e → (p, t) ∈ old') → Event.edit p t ∉ e :: pre ∧ (p, t) ∉ old := by
        intro old' h' h1 h2
        obtain ⟨a, b⟩ := ih old' h' pre p t post he
        refine ⟨fun hm => ?_, fun hm => b (h1 _ hm)⟩
        rcases List.mem_cons.1 hm with hm | hm
        · exact b (h2 hm)
        · exact a hm
      cases e with
      | edit q s =>
        simp only [editsFresh, Bool.and_eq_true, decide_eq_true_eq] at h
        exact key _ h.2 (fun x hx => List.mem_cons_of_mem _ hx)
          (fun h => by simp only [Event.edit.injEq] at h; rw [h.1, h.2]; exact List.mem_cons_self)
      | _ => exact key old h (fun x hx => hx) (fun h => by simp at h)

/-- The file is edited only between builds. -/
def idleOf (fx : Fixed) (q : Str) : Sys → List Event → Bool
  | _, [] => true
  | σ, e :: l =>
    (match e with
      | .edit p _ => decide (p ≠ q) || σ.run.isNone
      | _ => true) && idleOf fx q (step fx σ e) l

theorem idleOf_spec {fx : Fixed} (q : Str) : ∀ (evs : List Event) (σ : Sys),
    idleOf fx q σ evs = true → ∀ pre t post, evs = pre ++ .edit q t :: post →
      (steps fx σ pre).run = none := by
  intro evs
  induction evs with
  | nil => intro σ _ pre t post h; simp at h
  | cons e l ih =>
    intro σ h pre t post he
    simp only [idleOf, Bool.and_eq_true] at h
    cases pre with
    | nil =>
      simp only [List.nil_append, List.cons.injEq] at he
      rw [he.1] at h
      simpa [steps] using h.1
    | cons e' pre =>
      simp only [List.cons_append, List.cons.injEq] at he
      have := ih (step fx σ e) h.2 pre t post he.2
      rw [← he.1]
      exact this

/-- One configuration: a history with edits between builds only is disciplined. -/
theorem disciplined_single {fx : Fixed} {c : TargetSchema} {evs : List Event}
    (h1 : ∀ c' o, Event.start c' o ∈ evs → c' = c) (h2 : ∀ e ∈ evs, e.tampers = false)
    (h3 : idleEdits fx Sys.init evs = true) : Disciplined fx (· = c) evs where
  starts := h1
  untouched := h2
  stamps := fun pre p t post he hm =>
    (idleEdits_spec evs _ h3 pre p t post he).2 ((used_steps fx pre).2 hm)
  headers := fun pre p t post he => .inl (idleEdits_spec evs _ h3 pre p t post he).1
  losses := .inl fun _ _ ha hb => ha.trans hb.symm

/-- A target with a C and a C++ source, a header, a PCH, a library and flags. -/
def exCfg : TargetSchema :=
  { exUser with
    sources := [⟨b!"/p/src/main.cpp", []⟩, ⟨b!"/p/src/util.c", []⟩]
    headers := [⟨b!"/p/include/a.h", []⟩]
    pchs := [⟨b!"/p/include/pch.h", []⟩]
    libs := [⟨b!"/p/lib/libz.a", []⟩]
    compileDeps := [⟨b!"/p/gen/v.txt", []⟩] }

/-- The same without a PCH. -/
def exPlain : TargetSchema := { exCfg with pchs := [] }

def exFiles : List Event :=
  [ .edit b!"/p/src/main.cpp" 1, .edit b!"/p/src/util.c" 2, .edit b!"/p/include/a.h" 3,
    .edit b!"/p/include/pch.h" 4, .edit b!"/p/lib/libz.a" 5, .edit b!"/p/gen/v.txt" 6 ]

def exOrder : List Str := [b!"/p/src/util.c", b!"/p/src/main.cpp"]

/-- A build that compiles everything. -/
def exFull : List Event :=
  [ .pchTask, .pchExec true none, .objTask, .exec 1 true none, .exec 0 true none, .add 0, .add 0,
    .linkTask, .linkExec true none, .finish true ]

/-- A build that finds nothing to do. -/
def exNull : List Event := [.pchTask, .objTask, .linkTask, .finish true]

/-- Files appear, a first build, an edit of the header, a build that is killed after
compiling one object, a build that is killed while it writes the state file. -/
def exPre : List Event :=
  exFiles ++ .start exCfg exOrder :: exFull ++
    [ .edit b!"/p/include/a.h" 7, .start exCfg exOrder, .pchTask, .pchExec true none, .objTask,
      .exec 0 true none, .crash none,
      .start exCfg exOrder, .pchTask, .pchExec true none, .objTask, .exec 0 true none, .add 0,
      .exec 0 false (some none), .linkTask, .crash (some 40) ]

theorem ex_family : Family exFixed (· = exCfg) where
  nodup := by rintro c rfl; decide +kernel
  inj := by rintro a b rfl rfl; decide +kernel
  pchKept := by
    intro a b ha hb h1 h2
    rw [ha] at h1; rw [hb] at h2
    exact absurd h2 h1
  pchLang := by rintro a b rfl rfl _ _ _; rfl

end Verif.Target
