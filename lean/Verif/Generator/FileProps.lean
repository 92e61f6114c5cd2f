import Verif.Generator.MsgpackLemmas
import Verif.Generator.FileGen
import Verif.Generator.ExactProps
import Verif.Command.Props

/-!
# File generators, template generators and their blobs (C34, C35, C36, C62)
-/

namespace Verif.Generator
open Verif Verif.Schema Verif.Json Verif.Command
open Verif.Target (Reads fileHash upd)

/-! ## C36 -/

/-- C36: what is serialized passes verification and is recovered exactly. -/
theorem C36_roundtrip {l : List Str} (h : Fits l) :
    (typedHandler l).getSerializedData = some (encode l) ∧ deserialize (encode l) = some l := by
  refine ⟨?_, deserialize_encode h⟩
  simp [Handler.getSerializedData, typedHandler, parse_encode h]

/-- C36: a change is reported exactly if the data differ. -/
theorem C36_changed_iff {a b : List Str} (ha : Fits a) (hb : Fits b) :
    ∃ changed, (typedHandler b).checkChanged (encode a) (encode b) = some changed ∧
      (changed = true ↔ a ≠ b) := by
  refine ⟨!(a == b), ?_, by simp⟩
  simp [Handler.checkChanged, typedHandler, parse_encode ha, parse_encode hb,
    deserialize_encode ha, deserialize_encode hb]

/-- C36: different data have different blobs. -/
theorem C36_injective {a b : List Str} (ha : Fits a) (hb : Fits b) (h : encode a = encode b) :
    a = b := by
  have := deserialize_encode ha
  rw [h, deserialize_encode hb] at this
  exact (Option.some.inj this).symm

/-- A list with a string of 300 bytes, which needs a two byte length. -/
example : Fits [b!"gcc -c a.c", List.replicate 300 c!"x", []] := by
  refine ⟨by decide, ?_⟩
  intro s hs
  simp only [List.mem_cons, List.not_mem_nil, or_false] at hs
  rcases hs with rfl | rfl | rfl
  · decide
  · rw [List.length_replicate]; decide
  · decide

example : encode [b!"ab", []] = [0x92, 0xA2, c!"a", c!"b", 0xA0] := by decide

/-- Blobs that are not an array of strings: `Verify` accepts a number, and an exception is
thrown when it is compared; `Verify` rejects the empty blob and trailing bytes. -/
example : (typedHandler []).verify [0x05] = true ∧
    (typedHandler []).checkChanged [0x05] (encode []) = none ∧
    (typedHandler []).verify [] = false ∧ (typedHandler []).verify [0x90, 0x90] = false := by
  decide +kernel

/-! ## C34 -/

theorem runCommands_spec (sys : Nat → Str → Bool) : ∀ (l : List Str) (n : Nat),
    (runCommands sys n l).1 <+: l ∧
    (∀ k c, k + 1 < (runCommands sys n l).1.length → (runCommands sys n l).1[k]? = some c →
      sys (n + k) c = true) ∧
    ((runCommands sys n l).2 = true → (runCommands sys n l).1 = l ∧
      ∀ k c, l[k]? = some c → sys (n + k) c = true) ∧
    ((runCommands sys n l).2 = false → ∃ k c, (runCommands sys n l).1.length = k + 1 ∧
      l[k]? = some c ∧ sys (n + k) c = false) := by
  intro l
  induction l with
  | nil => intro n; simp [runCommands]
  | cons c l ih =>
    intro n
    obtain ⟨h1, h2, h3, h4⟩ := ih (n + 1)
    simp only [runCommands]
    split
    · rename_i hc
      refine ⟨List.cons_prefix_cons.2 ⟨rfl, h1⟩, ?_, ?_, ?_⟩
      · intro k x hk hx
        cases k with
        | zero => simp at hx; subst hx; exact hc
        | succ k =>
          simp only [List.length_cons] at hk
          simp only [List.getElem?_cons_succ] at hx
          have := h2 k x (by omega) hx
          rw [show n + (k + 1) = n + 1 + k by omega]; exact this
      · intro hk
        obtain ⟨e1, e2⟩ := h3 hk
        refine ⟨by rw [e1], ?_⟩
        intro k x hx
        cases k with
        | zero => simp at hx; subst hx; exact hc
        | succ k =>
          simp only [List.getElem?_cons_succ] at hx
          rw [show n + (k + 1) = n + 1 + k by omega]; exact e2 k x hx
      · intro hk
        obtain ⟨k, x, e1, e2, e3⟩ := h4 hk
        exact ⟨k + 1, x, by simp [e1], by simpa using e2, by
          rw [show n + (k + 1) = n + 1 + k by omega]; exact e3⟩
    · rename_i hc
      refine ⟨List.cons_prefix_cons.2 ⟨rfl, List.nil_prefix⟩, by simp, by simp, ?_⟩
      intro _
      exact ⟨0, c, rfl, rfl, by simpa using hc⟩

/-- C34: the callback executes the commands in the order in which they were added, up to
the first one that fails, and succeeds if and only if none fails. -/
theorem C34_in_order (sys : Nat → Str → Bool) {commands : List Str} (h : Fits commands) :
    ∃ executed ok, fileCb sys (encode commands) = some (executed, ok) ∧
      executed <+: commands ∧
      (∀ k c, k + 1 < executed.length → executed[k]? = some c → sys k c = true) ∧
      (ok = true → executed = commands ∧ ∀ k c, commands[k]? = some c → sys k c = true) ∧
      (ok = false → ∃ k c, executed.length = k + 1 ∧ commands[k]? = some c ∧ sys k c = false) := by
  have := runCommands_spec sys commands 0
  simp only [Nat.zero_add] at this
  exact ⟨_, _, by simp only [fileCb, deserialize_encode h]; rfl, this⟩

/-- The second of three commands fails. -/
example : fileCb (fun _ c => c ≠ b!"b") (encode [b!"a", b!"b", b!"c"])
    = some ([b!"a", b!"b"], false) := by decide +kernel

theorem fileCfg_some {cmd : Defaults} {ins outs commands : List Str} {c : Cfg}
    (h : fileCfg cmd ins outs commands = some c) :
    ∃ i o, constructPaths cmd ins = some i ∧ constructPaths cmd outs = some o ∧
      c = [(b!"Generate", ⟨i, o, some (typedHandler commands)⟩)] := by
  simp only [fileCfg, addIdInfo, find] at h
  simp only [Option.isSome_none, Bool.false_eq_true, if_false, Bool.not_true] at h
  split at h
  · rename_i i o h1 h2
    simp only [Option.some.injEq, List.nil_append] at h
    exact ⟨i, o, h1, h2, h.symm⟩
  · simp at h

/-- C34: the callback of a file generator is given its commands. -/
theorem C34_given_commands {cmd : Defaults} {ins outs commands : List Str} {c : Cfg} {σ : Sys}
    {r : Run} {ok : Bool} (hf : Fits commands) (hc : fileCfg cmd ins outs commands = some c)
    (hr : σ.run = some r) (hrc : r.cfg = c) (hs : r.status b!"Generate" = .calling) :
    ∃ k, (step σ (.call b!"Generate" ok)).last b!"Generate" = some k ∧ k.ok = ok ∧
      k.blob = encode commands := by
  obtain ⟨i, o, -, -, rfl⟩ := fileCfg_some hc
  have hfi : find b!"Generate" r.cfg = some ⟨i, o, some (typedHandler commands)⟩ := by
    rw [hrc]; simp [find]
  refine ⟨makeCall (σ.view b!"Generate") ⟨i, o, some (typedHandler commands)⟩ ok, ?_, rfl, ?_⟩
  · simp only [step, inRun, hr, callRun, hfi, hs]
    split <;> simp [upd]
  · simp [makeCall, blobOf, (C36_roundtrip hf).1]

theorem typed_equal {a b : Blob} {l : List Str} (h : (typedHandler l).isEqual a b = some true) :
    ∃ x, deserialize a = some x ∧ deserialize b = some x := by
  simp only [typedHandler] at h
  split at h
  · rename_i x y h1 h2
    simp only [Option.some.injEq, beq_iff_eq] at h
    exact ⟨x, h1, by rw [h2, h]⟩
  · simp at h

theorem file_reflexive {cmd : Defaults} {ins outs commands : List Str} {c : Cfg}
    (hf : Fits commands) (hc : fileCfg cmd ins outs commands = some c) : Reflexive c := by
  obtain ⟨i, o, -, -, rfl⟩ := fileCfg_some hc
  intro id i' h b hi hh hb
  have := find_mem hi
  simp only [List.mem_singleton, Prod.mk.injEq] at this
  obtain ⟨-, rfl⟩ := this
  simp only [Option.some.injEq] at hh
  subst hh
  simp only [typedHandler, Option.some.injEq] at hb
  subst hb
  simp [typedHandler, deserialize_encode hf]

/-- C34: after a successful run, and with the same inputs and outputs and no change of the
files, a successful run executes the commands again if and only if the list of commands is
a different one: a command was added, removed, moved or edited. -/
theorem C34_rerun_iff {cmd : Defaults} {ins outs commands commands' : List Str} {c c' : Cfg}
    {σ₀ σ₁ σ₂ σ₃ : Sys} {mid₁ mid₂ : List Event} {d₁ d₂ : Done}
    (hf : Fits commands) (hf' : Fits commands')
    (hc : fileCfg cmd ins outs commands = some c) (hc' : fileCfg cmd ins outs commands' = some c')
    (h₁ : QuietRun σ₀ c mid₁ σ₁) (hd₁ : σ₁.done = some d₁) (hok₁ : d₁.ok = true)
    (hu : Untouched c σ₁ σ₂) (h₂ : QuietRun σ₂ c' mid₂ σ₃) (hd₂ : σ₃.done = some d₂)
    (hok₂ : d₂.ok = true) : b!"Generate" ∈ calledIds σ₃.log ↔ commands ≠ commands' := by
  constructor
  · rintro hm rfl
    rw [hc] at hc'; simp only [Option.some.injEq] at hc'; subst hc'
    have := (C30_null_run (file_reflexive hf hc) h₁ hd₁ hok₁ hu h₂).1
    rw [this] at hm; simp at hm
  · intro hne
    have hr := file_reflexive hf hc
    have R₁ := h₁.report hd₁
    obtain ⟨i, o, g1, g2, e⟩ := fileCfg_some hc
    obtain ⟨i', o', g1', g2', e'⟩ := fileCfg_some hc'
    have hfi : find b!"Generate" c = some ⟨i, o, some (typedHandler commands)⟩ := by
      rw [e]; simp [find]
    have hfi' : find b!"Generate" c' = some ⟨i', o', some (typedHandler commands')⟩ := by
      rw [e']; simp [find]
    have hset := R₁.settled rfl hr (R₁.noStoreFailed hok₁) hfi
      (R₁.completed_ok hok₁ (find_isSome.1 (by rw [hfi]; rfl)))
    obtain ⟨s, hs, hun⟩ := decision_false hset
    obtain ⟨b, hb1, hb2⟩ := hun.blob _ rfl
    simp only [typedHandler, Option.some.injEq] at hb1
    subst hb1
    obtain ⟨x, hx1, hx2⟩ := typed_equal hb2
    rw [deserialize_encode hf] at hx2
    simp only [Option.some.injEq] at hx2; subst hx2
    refine C33_data_changed_partial h₂ hd₂ hok₂ hfi' rfl (s := s) (b := encode commands')
      (by rw [hu.stateFile]; exact hs) rfl ?_
    simp [typedHandler, hx1, deserialize_encode hf', hne]

/-- A file generator with two commands which are then swapped. -/
def exFileCfg (commands : List Str) : Cfg :=
  (fileCfg [(b!"d", b!"/p")] [b!"{d}/a.in"] [b!"{d}/a.out"] commands).getD []

def exFileRun : List Event :=
  [.begin, .task b!"Generate", .call b!"Generate" true, .finish [b!"Generate"] true]

def exFile1 : Sys := runG exS (exFileCfg [b!"x", b!"y"]) exFileRun

example : b!"Generate" ∈ calledIds (runG exFile1 (exFileCfg [b!"y", b!"x"]) exFileRun).log :=
  let ⟨_, h1, h2⟩ := outcome_ok (σ := exFile1) (b := true) (by decide +kernel)
  let ⟨_, g1, g2⟩ := outcome_ok (σ := runG exFile1 (exFileCfg [b!"y", b!"x"]) exFileRun)
    (b := true) (by decide +kernel)
  (C34_rerun_iff (commands := [b!"x", b!"y"]) (commands' := [b!"y", b!"x"])
    (cmd := [(b!"d", b!"/p")]) (ins := [b!"{d}/a.in"]) (outs := [b!"{d}/a.out"])
    (by simp [Fits]) (by simp [Fits]) rfl rfl
    (quietRun (σ := exS) (mid := exFileRun) (by decide +kernel) (by decide) (by decide)) h1 h2
    Untouched.rfl' (quietRun (mid := exFileRun) (by decide +kernel) (by decide) (by decide))
    g1 g2).2 (by decide)

/-! ## C35 -/

variable {cmd : Defaults} {fs : Str → Option Str} {input output : Str}

/-- C35: if every placeholder of the template has a value, the output file receives the
text of the input with the placeholders replaced, and no other file changes. -/
theorem C35_substituted {l : List Seg} {s : Str} (hl : ∀ x ∈ l, x.Ok)
    (hin : fs input = some (srcs l)) (hv : vals (bound cmd []) l = some s) :
    ∃ fs', templateCb cmd input output true fs = (.ok, fs') ∧ fs' output = some s ∧
      ∀ p, p ≠ output → fs' p = fs p := by
  refine ⟨upd fs output (some s), ?_, by simp [upd], fun p hp => by simp [upd, hp]⟩
  have := construct_meaning cmd [] l hl
  rw [hv] at this
  simp only [templateCb, hin, this, if_true]

/-- C35: and only then the callback succeeds. -/
theorem C35_only_substituted {canOpen : Bool} {fs' : Str → Option Str}
    (h : templateCb cmd input output canOpen fs = (.ok, fs')) :
    ∃ l s, (∀ x ∈ l, Seg.Ok x) ∧ fs input = some (srcs l) ∧ vals (bound cmd []) l = some s ∧
      fs' output = some s ∧ ∀ p, p ≠ output → fs' p = fs p := by
  simp only [templateCb] at h
  split at h
  · simp at h
  · rename_i text ht
    split at h
    · rename_i s hs
      obtain ⟨l, h1, h2, h3⟩ := (construct_value_iff _ _ _ _).1 hs
      split at h
      · simp only [Prod.mk.injEq, true_and] at h
        subst h
        exact ⟨l, s, h1, by rw [ht, h2], h3, by simp [upd], fun p hp => by simp [upd, hp]⟩
      · simp at h
    · simp at h
    · simp at h

/-- C35: a placeholder without a value is an error and nothing is written. -/
theorem C35_unknown_placeholder {canOpen : Bool} {l m : List Seg} {n : Str}
    (hl : ∀ x ∈ l ++ .field n :: m, x.Ok) (hin : fs input = some (srcs (l ++ .field n :: m)))
    (hn : bound cmd [] n = none) : templateCb cmd input output canOpen fs = (.thrown, fs) := by
  simp only [templateCb, hin, construct_missing_fatal cmd [] l m n hl hn]

/-- C35: whenever the callback does not succeed, all files are as before. -/
theorem C35_failure_untouched {canOpen : Bool}
    (h : (templateCb cmd input output canOpen fs).1 ≠ .ok) :
    (templateCb cmd input output canOpen fs).2 = fs := by
  simp only [templateCb] at h ⊢
  split
  · rfl
  · rename_i text ht
    simp only [ht] at h
    split
    · rename_i s hs
      simp only [hs] at h
      split
      · rename_i hc; simp [hc] at h
      · rfl
    · rfl
    · rfl

def exText : Str := b!"int v = {{ {version} }};"

def exFs (text : Str) : Str → Option Str := fun p => if p = b!"/p/v.in" then some text else none

example : (templateCb [(b!"version", b!"7")] b!"/p/v.in" b!"/p/v.c" true (exFs exText)).2 b!"/p/v.c"
    = some b!"int v = { 7 };" := by decide +kernel

example : (templateCb [] b!"/p/v.in" b!"/p/v.c" true (exFs exText)).1 = .thrown := by decide +kernel

/-! ## C62 -/

/-- The template generator of the example. -/
def exTemplate : List (Str × Str) := [(b!"/p/v.in", b!"/p/v.c")]

def exTemplateCfg : Cfg := [(b!"v.in", ⟨[b!"/p/v.in"], [b!"/p/v.c"], none⟩)]

/-- C62, the part that holds: when a changed value changes a path of a template, a
successful run writes it again. -/
theorem C62_path_changed_partial {σ₀ σ : Sys} {c : Cfg} {mid : List Event} {d : Done} {id : Str}
    {i : IdCfg} {s : IdInfo} (h : QuietRun σ₀ c mid σ) (hd : σ.done = some d) (hok : d.ok = true)
    (hi : find id c = some i) (hs : storedId (loadGenFile σ₀.stateFile) id = some s)
    (hne : s.outputs ≠ i.outputs ∨ s.inputs.map (·.path) ≠ i.inputs) : id ∈ calledIds σ.log := by
  rw [(C28_exactly_needed h hd hok).2]
  refine ⟨i, hi, ?_⟩
  intro s' hs' hu
  rw [hs] at hs'; simp only [Option.some.injEq] at hs'; subst hs'
  rcases hne with h1 | h1
  · exact h1 hu.outputs
  · refine h1 ?_
    have := congrArg (List.map Prod.fst) hu.inputs
    simpa [recorded, versions, List.map_map, Function.comp_def] using this

/-- C62 is false of the code: the value of `version` changes from 7 to 8, the generator
is the same to the build system, a run after a successful run calls nothing and succeeds,
and the output keeps the text with the old value. -/
theorem C62_pattern_change_false :
    templateCfg [(b!"version", b!"7")] b!"/p" [] exTemplate = some exTemplateCfg ∧
    templateCfg [(b!"version", b!"8")] b!"/p" [] exTemplate = some exTemplateCfg ∧
    (templateCb [(b!"version", b!"7")] b!"/p/v.in" b!"/p/v.c" true (exFs exText)).2 b!"/p/v.c"
      ≠ (templateCb [(b!"version", b!"8")] b!"/p/v.in" b!"/p/v.c" true (exFs exText)).2 b!"/p/v.c" ∧
    ∀ (σ₀ σ₁ σ₂ σ₃ : Sys) (mid₁ mid₂ : List Event) (d₁ : Done),
      QuietRun σ₀ exTemplateCfg mid₁ σ₁ → σ₁.done = some d₁ → d₁.ok = true →
      Untouched exTemplateCfg σ₁ σ₂ → QuietRun σ₂ exTemplateCfg mid₂ σ₃ →
      calledIds σ₃.log = [] := by
  refine ⟨rfl, rfl, by decide +kernel, ?_⟩
  intro σ₀ σ₁ σ₂ σ₃ mid₁ mid₂ d₁ h₁ hd hok hu h₂
  refine (C30_null_run ?_ h₁ hd hok hu h₂).1
  intro id i h b hi hh
  have := find_mem hi
  simp only [exTemplateCfg, List.mem_singleton, Prod.mk.injEq] at this
  obtain ⟨-, rfl⟩ := this
  simp at hh

end Verif.Generator
