import Verif.Target.Det
import Verif.Target.ExactProps

/-!
# C07: independence of the schedule
-/

namespace Verif.Target
open Verif Verif.Command Verif.Schema Verif.Json

variable {f : Str → Option Nat} {L : Option TargetSchema} {c : TargetSchema} {w : Outcome}

/-- Two stored states that lead every later run, with whatever configuration and files,
to the same decisions. -/
def SameDecisions (a b : Option TargetSchema) : Prop :=
  ∀ f c, (NeedPch f a c ↔ NeedPch f b c) ∧ (∀ p, NeedObj f a c p ↔ NeedObj f b c p) ∧
    (NeedLink f a c ↔ NeedLink f b c)

/-- Equal up to the order of the sources. -/
structure Alike (a b : TargetSchema) : Prop where
  rest : { a with sources := [] } = { b with sources := [] }
  sources : a.sources.Perm b.sources
  nodup : (paths a.sources).Nodup

theorem lookupInfo_iff {l : List PathInfo} (hn : (paths l).Nodup) {p h : Str} :
    lookupInfo l p = some h ↔ (⟨p, h⟩ : PathInfo) ∈ l := by
  refine ⟨fun hh => lookupInfo_mem hh, ?_⟩
  induction l with
  | nil => simp
  | cons i l ih =>
    intro hm
    simp only [paths, List.map_cons, List.nodup_cons] at hn
    rcases List.mem_cons.1 hm with rfl | hm
    · simp [lookupInfo]
    · have : i.path ≠ p := by
        rintro rfl
        exact hn.1 (List.mem_map.2 ⟨_, hm, rfl⟩)
      simp only [lookupInfo, this, if_false]
      exact ih hn.2 hm

theorem Alike.symm {a b : TargetSchema} (h : Alike a b) : Alike b a :=
  ⟨h.rest.symm, h.sources.symm, ((h.sources.map (fun i : PathInfo => i.path)).nodup_iff).1 h.nodup⟩

theorem Alike.source {a b : TargetSchema} (h : Alike a b) {f : Str → Option Nat} {p : Str}
    (hs : SourceCurrent f a p) : SourceCurrent f b p := by
  obtain ⟨i, h1, h2⟩ := hs
  have h3 := (sourceCurrent_iff (s := a) h2).1 ⟨i, h1, h2⟩
  rw [lookupInfo_iff h.nodup] at h3
  rw [sourceCurrent_iff h2, lookupInfo_iff h.symm.nodup]
  exact h.sources.mem_iff.1 h3

theorem Alike.pch {a b : TargetSchema} (h : Alike a b) {f : Str → Option Nat} {c : TargetSchema}
    (hs : PchCurrent f a c) : PchCurrent f b c := by
  have g1 : a.preprocessorFlags = b.preprocessorFlags := by simpa using congrArg TargetSchema.preprocessorFlags h.rest
  have g2 : a.commonCompileFlags = b.commonCompileFlags :=
    by simpa using congrArg TargetSchema.commonCompileFlags h.rest
  have g3 : a.pchCompileFlags = b.pchCompileFlags := by simpa using congrArg TargetSchema.pchCompileFlags h.rest
  have g4 : a.cCompileFlags = b.cCompileFlags := by simpa using congrArg TargetSchema.cCompileFlags h.rest
  have g5 : a.cppCompileFlags = b.cppCompileFlags := by simpa using congrArg TargetSchema.cppCompileFlags h.rest
  have g6 : a.includeDirs = b.includeDirs := by simpa using congrArg TargetSchema.includeDirs h.rest
  have g7 : a.headers = b.headers := by simpa using congrArg TargetSchema.headers h.rest
  have g8 : a.pchs = b.pchs := by simpa using congrArg TargetSchema.pchs h.rest
  have g9 : a.pchCompiled = b.pchCompiled := by simpa using congrArg TargetSchema.pchCompiled h.rest
  obtain ⟨a1, a2, a3, a4, a5, a6, a7, a8, a9⟩ := hs
  exact ⟨g1 ▸ a1, g2 ▸ a2, g3 ▸ a3, g4 ▸ a4, g5 ▸ a5, g6 ▸ a6, g7 ▸ a7, g8 ▸ a8, g9 ▸ a9⟩

theorem Alike.shared {a b : TargetSchema} (h : Alike a b) {f : Str → Option Nat} {c : TargetSchema}
    (hs : SharedCurrent f a c) : SharedCurrent f b c := by
  have g1 : a.preprocessorFlags = b.preprocessorFlags := by simpa using congrArg TargetSchema.preprocessorFlags h.rest
  have g2 : a.commonCompileFlags = b.commonCompileFlags :=
    by simpa using congrArg TargetSchema.commonCompileFlags h.rest
  have g3 : a.pchObjectFlags = b.pchObjectFlags := by simpa using congrArg TargetSchema.pchObjectFlags h.rest
  have g4 : a.asmCompileFlags = b.asmCompileFlags := by simpa using congrArg TargetSchema.asmCompileFlags h.rest
  have g5 : a.cCompileFlags = b.cCompileFlags := by simpa using congrArg TargetSchema.cCompileFlags h.rest
  have g6 : a.cppCompileFlags = b.cppCompileFlags := by simpa using congrArg TargetSchema.cppCompileFlags h.rest
  have g7 : a.includeDirs = b.includeDirs := by simpa using congrArg TargetSchema.includeDirs h.rest
  have g8 : a.headers = b.headers := by simpa using congrArg TargetSchema.headers h.rest
  have g9 : a.compileDeps = b.compileDeps := by simpa using congrArg TargetSchema.compileDeps h.rest
  obtain ⟨a1, a2, a3, a4, a5, a6, a7, a8, a9, a10⟩ := hs
  exact ⟨g1 ▸ a1, g2 ▸ a2, g3 ▸ a3, g4 ▸ a4, g5 ▸ a5, g6 ▸ a6, g7 ▸ a7, g8 ▸ a8, g9 ▸ a9,
    fun hp => h.pch (a10 hp)⟩

theorem Alike.link {a b : TargetSchema} (h : Alike a b) {f : Str → Option Nat} {c : TargetSchema}
    (hs : LinkCurrent f a c) : LinkCurrent f b c := by
  have g1 : a.linkFlags = b.linkFlags := by simpa using congrArg TargetSchema.linkFlags h.rest
  have g2 : a.libDirs = b.libDirs := by simpa using congrArg TargetSchema.libDirs h.rest
  have g3 : a.externalLibs = b.externalLibs := by simpa using congrArg TargetSchema.externalLibs h.rest
  have g4 : a.libs = b.libs := by simpa using congrArg TargetSchema.libs h.rest
  have g5 : a.linkDeps = b.linkDeps := by simpa using congrArg TargetSchema.linkDeps h.rest
  have g6 : a.targetLinked = b.targetLinked := by simpa using congrArg TargetSchema.targetLinked h.rest
  obtain ⟨a1, a2, a3, a4, a5, a6⟩ := hs
  exact ⟨g1 ▸ a1, g2 ▸ a2, g3 ▸ a3, g4 ▸ a4, g5 ▸ a5, g6 ▸ a6⟩

theorem Alike.all {a b : TargetSchema} (h : Alike a b) {f : Str → Option Nat} {c : TargetSchema}
    (hs : AllCurrent f a c) : AllCurrent f b c :=
  ⟨h.shared hs.shared, fun p hp => h.source (hs.sources p hp),
    fun p hp => hs.noOther p (((h.sources.map (fun i : PathInfo => i.path)).mem_iff).2 hp), h.link hs.link⟩

theorem Alike.decisions {a b : TargetSchema} (h : Alike a b) : SameDecisions (some a) (some b) := by
  intro f c
  refine ⟨?_, ?_, ?_⟩
  · simp only [NeedPch, Option.some.injEq, forall_eq']
    exact and_congr_right fun _ => not_congr ⟨h.pch, h.symm.pch⟩
  · intro p
    simp only [NeedObj, Option.some.injEq, forall_eq']
    exact and_congr_right fun _ => not_congr
      ⟨fun g => ⟨h.shared g.1, h.source g.2⟩, fun g => ⟨h.symm.shared g.1, h.symm.source g.2⟩⟩
  · simp only [NeedLink, Option.some.injEq, forall_eq']
    exact not_congr ⟨h.all, h.symm.all⟩

theorem sameDecisions_refl (a : Option TargetSchema) : SameDecisions a a :=
  fun _ _ => ⟨Iff.rfl, fun _ => Iff.rfl, Iff.rfl⟩

/-! ## The ends of two runs -/

theorem outcomes_eq {B : List (PathInfo × Bool)} {l : List Entry} (hw : Obeys w l)
    (hl : ∀ e ∈ objCmds B, e ∈ l) : B = (B.map (·.1)).map fun i => (i, w.obj i.path) := by
  induction B with
  | nil => rfl
  | cons x B ih =>
    simp only [objCmds, List.map_cons, List.mem_cons, forall_eq_or_imp] at hl
    simp only [List.map_cons]
    rw [← ih hl.2, ← hw.obj _ _ hl.1]

theorem outcomes_perm {Ba Bb : List (PathInfo × Bool)} {la lb : List Entry}
    (ha : Obeys w la) (hb : Obeys w lb) (hla : ∀ e ∈ objCmds Ba, e ∈ la)
    (hlb : ∀ e ∈ objCmds Bb, e ∈ lb) (h : (Ba.map (·.1)).Perm (Bb.map (·.1))) : Ba.Perm Bb := by
  rw [outcomes_eq ha hla, outcomes_eq hb hlb]
  exact h.map _

theorem mid_nodup {B : List (PathInfo × Bool)} {r : Run} (hn : (paths c.sources).Nodup)
    (h : XMid f L c B r) (hp : r.pending = []) (he : r.executed = []) :
    (paths r.store.sources).Nodup := by
  have hcov : (B.map (·.1)).Perm (sel f L c) := by simpa [hp] using h.cover
  have hst : r.store.sources.Perm (dum f L c ++ okInfos B) := by simpa [he] using h.stored
  have h1 : (paths (dum f L c ++ B.map (·.1))).Nodup := by
    have := ((hcov.append_left (dum f L c)).trans sel_dum_perm).map (fun i : PathInfo => i.path)
    exact this.nodup_iff.2 (nodup_hs hn)
  have h2 : (okInfos B).Sublist (B.map (·.1)) := by
    unfold okInfos
    exact List.filter_sublist.map _
  refine (hst.map (fun i : PathInfo => i.path)).nodup_iff.2 ?_
  exact h1.sublist (((List.Sublist.refl (dum f L c)).append h2).map _)

structure EndAlike (σa σb : Sys) (ra rb : Run) : Prop where
  ok : σa.ok = σb.ok
  dirty : ra.dirty = rb.dirty
  stored : Alike ra.toStore rb.toStore
  cmds : (commands σa.log).Perm (commands σb.log)

theorem alike_mid {Ba Bb : List (PathInfo × Bool)} {ra rb : Run} (hn : (paths c.sources).Nodup)
    (ha : XMid f L c Ba ra) (hb : XMid f L c Bb rb) (pa : ra.pending = []) (ea : ra.executed = [])
    (eb : rb.executed = []) (hB : Ba.Perm Bb) (hu : ra.user = rb.user)
    (hl : ra.store.targetLinked = rb.store.targetLinked) : Alike ra.toStore rb.toStore := by
  refine ⟨?_, ?_, mid_nodup hn ha pa ea⟩
  · simp only [Run.toStore, updateStore, hu, hl, ha.pchs, hb.pchs, ha.compiled, hb.compiled]
  · show ra.store.sources.Perm rb.store.sources
    have h1 : ra.store.sources.Perm (dum f L c ++ okInfos Ba) := by simpa [ea] using ha.stored
    have h2 : rb.store.sources.Perm (dum f L c ++ okInfos Bb) := by simpa [eb] using hb.stored
    refine h1.trans (List.Perm.trans ?_ h2.symm)
    exact (List.Perm.map _ (hB.filter _)).append_left _

theorem end_alike {σa σb : Sys} {ra rb : Run} (hn : (paths c.sources).Nodup)
    (ha : Det f L c w σa ra) (hb : Det f L c w σb rb) (pa : ra.phase = .fin) (pb : rb.phase = .fin)
    (wa : Obeys w σa.log) (wb : Obeys w σb.log) : EndAlike σa σb ra rb := by
  simp only [Det, pa] at ha
  simp only [Det, pb] at hb
  have perm : ∀ {Ba Bb : List (PathInfo × Bool)} {xa xb : List Entry}, XMid f L c Ba ra →
      XMid f L c Bb rb → ra.pending = [] → rb.pending = [] →
      commands σa.log = preCmd (dP f L c) ++ objCmds Ba ++ xa →
      commands σb.log = preCmd (dP f L c) ++ objCmds Bb ++ xb → Ba.Perm Bb := by
    intro Ba Bb xa xb ma mb qa qb ca cb
    refine outcomes_perm wa wb ?_ ?_ ?_
    · intro e he
      have : e ∈ commands σa.log := by rw [ca]; simp [he]
      exact (List.mem_filter.1 this).1
    · intro e he
      have : e ∈ commands σb.log := by rw [cb]; simp [he]
      exact (List.mem_filter.1 this).1
    · have h1 : (Ba.map (·.1)).Perm (sel f L c) := by simpa [qa] using ma.cover
      have h2 : (Bb.map (·.1)).Perm (sel f L c) := by simpa [qb] using mb.cover
      exact h1.trans h2.symm
  rcases ha with ⟨xa, oa, Ea⟩ | ⟨ga, Ba, xa, Fa⟩ | ⟨ga, Ba, ba, xa, oa, na⟩ <;>
    rcases hb with ⟨xb, ob, Eb⟩ | ⟨gb, Bb, xb, Fb⟩ | ⟨gb, Bb, bb, xb, ob, nb⟩
  · have hu : ra.user = rb.user := Ea.user.trans Eb.user.symm
    have hs : ra.store = rb.store := Ea.store.trans Eb.store.symm
    refine ⟨oa.trans ob.symm, Ea.dirty.trans Eb.dirty.symm, ⟨?_, ?_, ?_⟩, ?_⟩
    · simp only [Run.toStore, hu, hs]
    · simp only [Run.toStore, hu, hs]; exact .refl _
    · show (paths ra.store.sources).Nodup
      rw [xa.sources]; simp [paths]
    · rw [Ea.cmds, Eb.cmds]
  · rw [Ea.not] at gb; simp at gb
  · rw [Ea.not] at gb; simp at gb
  · rw [Eb.not] at ga; simp at ga
  · have hB : Ba.Perm Bb := perm (xa := []) (xb := []) xa.mid xb.mid xa.pending xb.pending
      (by simpa using xa.cmds) (by simpa using xb.cmds)
    have hall : Ba.all (·.2) = Bb.all (·.2) := by
      rw [Bool.eq_iff_iff, List.all_eq_true, List.all_eq_true]
      exact ⟨fun h x hx => h x (hB.mem_iff.2 hx), fun h x hx => h x (hB.mem_iff.1 hx)⟩
    refine ⟨xa.failed.trans xb.failed.symm, xa.dirty.trans xb.dirty.symm,
      alike_mid hn xa.mid xb.mid xa.pending xa.executed xb.executed hB ?_
        (xa.linked.trans xb.linked.symm), ?_⟩
    · rw [Fa.user, Fb.user, hall]
    · rw [xa.cmds, xb.cmds]
      exact (hB.map _).append_left _
  · exfalso
    have hB : Ba.Perm Bb := perm (xa := []) xa.mid xb.mid xa.pending xb.pending
      (by simpa using xa.cmds) xb.cmds
    have hall : Ba.all (·.2) = true :=
      List.all_eq_true.2 fun x hx => xb.ok x (hB.mem_iff.1 hx)
    have := Fa.not hall
    rw [nb] at this; simp at this
  · rw [Eb.not] at ga; simp at ga
  · exfalso
    have hB : Ba.Perm Bb := perm (xb := []) xa.mid xb.mid xa.pending xb.pending
      xa.cmds (by simpa using xb.cmds)
    have hall : Bb.all (·.2) = true :=
      List.all_eq_true.2 fun x hx => xa.ok x (hB.mem_iff.2 hx)
    have := Fb.not hall
    rw [na] at this; simp at this
  · have hB : Ba.Perm Bb := perm xa.mid xb.mid xa.pending xb.pending xa.cmds xb.cmds
    have hbb : dL f L c = true → ba = bb := by
      intro hdl
      have h1 : Entry.link ba ∈ σa.log := by
        rw [mem_commands rfl, xa.cmds, hdl]; simp
      have h2 : Entry.link bb ∈ σb.log := by
        rw [mem_commands rfl, xb.cmds, hdl]; simp
      exact (wa.link _ h1).trans (wb.link _ h2).symm
    refine ⟨?_, xa.dirty.trans xb.dirty.symm,
      alike_mid hn xa.mid xb.mid xa.pending xa.executed xb.executed hB
        (xa.user.trans xb.user.symm) ?_, ?_⟩
    · rw [oa, ob]
      cases hdl : dL f L c
      · rfl
      · rw [hbb hdl]
    · rw [xa.linked, xb.linked]
      cases hdl : dL f L c
      · rfl
      · rw [hbb hdl]
    · rw [xa.cmds, xb.cmds]
      refine List.Perm.append ((hB.map _).append_left _) ?_
      cases hdl : dL f L c
      · exact .refl _
      · rw [hbb hdl]

theorem finish_store {σ' : Sys} {r : Run} {b : Bool} {d : Done}
    (hd : (finishRun σ' r b).done = some d) (hs : Entry.storeFailed ∉ σ'.log) :
    Entry.storeFailed ∈ (finishRun σ' r b).log ↔ r.dirty = true ∧ d.built = false := by
  revert hd
  simp only [finishRun]
  cases hdi : r.dirty
  · simp only [Bool.false_eq_true, if_false, Option.some.injEq]
    rintro rfl
    simp [hs]
  · simp only [if_true]
    repeat' split
    all_goals
      simp only [Option.some.injEq]
      rintro rfl
      simp [hs, Sys.fail]

/-- Two finished runs from the same state, in which the same commands succeed and fail,
no other target fails and the state can be stored in both or in none: they end with
the same task state and the same `IsBuilt()`, issue the same commands up to their
order, and leave states from which every later run takes the same decisions. -/
theorem C07_schedule_independent {fx : Fixed} {σ₀ σa σb : Sys} {c : TargetSchema}
    {oa ob : List Str} {mida midb : List Event} {da db : Done} (w : Outcome)
    (hn : (paths c.sources).Nodup)
    (ha : QuietRun fx σ₀ c oa mida σa) (hb : QuietRun fx σ₀ c ob midb σb)
    (hda : σa.done = some da) (hdb : σb.done = some db)
    (wa : Obeys w σa.log) (wb : Obeys w σb.log)
    (na : Entry.other ∉ σa.log) (nb : Entry.other ∉ σb.log)
    (hs : Entry.storeFailed ∈ σa.log ↔ Entry.storeFailed ∈ σb.log) :
    da = db ∧ (commands σa.log).Perm (commands σb.log) ∧
      SameDecisions (loadTargetFile σa.stateFile) (loadTargetFile σb.stateFile) := by
  obtain ⟨σa', ra, ba, Da, pa, sa, ca, rfl, wa', fa⟩ := (ha.dinv wa na).done da hda
  obtain ⟨σb', rb, bb, Db, pb, sb, cb, rfl, wb', fb⟩ := (hb.dinv wb nb).done db hdb
  have he := end_alike hn Da Db pa pb wa' wb'
  rw [finish_store hda fa, finish_store hdb fb, he.dirty] at hs
  obtain ⟨-, h1a, h2a, h3a⟩ := finish_cases hda
  obtain ⟨-, h1b, h2b, h3b⟩ := finish_cases hdb
  have hcfg : da.cfg = db.cfg := by rw [h2a, h2b, ca, cb]
  refine ⟨?_, ?_, ?_⟩
  · have : da.ok = db.ok ∧ da.built = db.built := by
      rcases h3a with h | h | h <;> rcases h3b with g | g | g
      · exact ⟨h.2.1.trans (he.ok.trans g.2.1.symm), h.2.2.1.trans g.2.2.1.symm⟩
      · have := hs.2 ⟨g.1, g.2.2.1⟩
        rw [h.2.2.1] at this; simp at this
      · have := h.1
        rw [he.dirty, g.1] at this; simp at this
      · have := hs.1 ⟨g.1, h.2.2.1⟩
        rw [g.2.2.1] at this; simp at this
      · exact ⟨h.2.1.trans g.2.1.symm, h.2.2.1.trans g.2.2.1.symm⟩
      · have := h.1
        rw [he.dirty, g.1] at this; simp at this
      · have := h.1
        rw [he.dirty, g.1] at this; simp at this
      · have := h.1
        rw [he.dirty, g.1] at this; simp at this
      · exact ⟨h.2.1.trans (he.ok.trans g.2.1.symm), h.2.2.1.trans g.2.2.1.symm⟩
    cases da; cases db; simp_all
  · rw [h1a, h1b]; exact he.cmds
  · rcases h3a with h | h | h <;> rcases h3b with g | g | g
    · rw [h.2.2.2, g.2.2.2]; exact he.stored.decisions
    · have := hs.2 ⟨g.1, g.2.2.1⟩
      rw [h.2.2.1] at this; simp at this
    · have := h.1
      rw [he.dirty, g.1] at this; simp at this
    · have := hs.1 ⟨g.1, h.2.2.1⟩
      rw [g.2.2.1] at this; simp at this
    · rw [h.2.2.2, g.2.2.2, sa, sb]; exact sameDecisions_refl _
    · have := h.1
      rw [he.dirty, g.1] at this; simp at this
    · have := h.1
      rw [he.dirty, g.1] at this; simp at this
    · have := h.1
      rw [he.dirty, g.1] at this; simp at this
    · rw [h.2.2.2, g.2.2.2, sa, sb]; exact sameDecisions_refl _

/-! ## The hypotheses are met: one compile fails, the compiles run in either order -/

def obeysB (w : Outcome) : Entry → Bool
  | .pch b => b == w.pch
  | .obj p b => b == w.obj p
  | .link b => b == w.link
  | _ => true

theorem obeys_of {w : Outcome} {l : List Entry} (h : l.all (obeysB w) = true) : Obeys w l := by
  rw [List.all_eq_true] at h
  exact ⟨fun b hb => by simpa [obeysB] using h _ hb, fun p b hb => by simpa [obeysB] using h _ hb,
    fun b hb => by simpa [obeysB] using h _ hb⟩

/-- `util.c` does not compile. -/
def exOutcome : Outcome := ⟨true, fun p => p == b!"/p/src/main.cpp", true⟩

/-- The same run as `exPartFail` in another order. -/
def exPartFail' : List Event :=
  [ .pchTask, .pchExec true none, .objTask, .exec 0 true none, .add 0, .exec 0 false (some none),
    .linkTask, .finish true ]

def exPartFailed' : Sys :=
  steps exFixed exBuilt (.start exCfg2 [b!"/p/src/main.cpp", b!"/p/src/util.c"] :: exPartFail')

example := C07_schedule_independent (c := exCfg2) (σ₀ := exBuilt) (oa := exOrder)
  (ob := [b!"/p/src/main.cpp", b!"/p/src/util.c"]) (mida := exPartFail) (midb := exPartFail')
  (da := ⟨exCfg2, false, true⟩) (db := ⟨exCfg2, false, true⟩) exOutcome (by decide)
  (exRun (by decide +kernel)) (exRun (by decide +kernel)) (by decide +kernel) (by decide +kernel)
  (obeys_of (by decide +kernel)) (obeys_of (by decide +kernel))
  (by decide +kernel) (by decide +kernel) (by decide +kernel)

example : commands exPartFailed.log
      = [.pch true, .obj b!"/p/src/util.c" false, .obj b!"/p/src/main.cpp" true] ∧
    commands exPartFailed'.log
      = [.pch true, .obj b!"/p/src/main.cpp" true, .obj b!"/p/src/util.c" false] := by
  decide +kernel

end Verif.Target
