import Verif.Generator.Spec

/-! # Vocabulary for C29 -/

namespace Verif.Generator
open Verif Verif.Schema Verif.Json
open Verif.Target (Reads fileHash upd)

/-- The last callback of the id succeeded and was given the configured inputs in their
present versions, the configured outputs, and data that means the same as the configured
data. -/
def Current (R : Str → Blob → Blob → Prop) (σ : Sys) (id : Str) (i : IdCfg) : Prop :=
  ∃ k b, σ.last id = some k ∧ k.ok = true ∧ k.inputs = versions σ.files i.inputs ∧
    k.outputs = i.outputs ∧ blobOf i.handler = some b ∧ R id k.blob b

/-- The configurations `K` of one generator over its life: two blobs of an id that its
handler finds equal mean the same, and an id has a handler always or never. -/
structure Family (R : Str → Blob → Blob → Prop) (K : Cfg → Prop) : Prop where
  refl : ∀ id a, R id a a
  trans : ∀ id a b c, R id a b → R id b c → R id a c
  equal : ∀ c c', K c → K c' → ∀ id i i' h a b, find id c = some i → find id c' = some i' →
    i.handler = some h → blobOf i'.handler = some a → blobOf i.handler = some b →
    h.isEqual a b = some true → R id a b
  keep : ∀ c c', K c → K c' → ∀ id i i', find id c = some i → find id c' = some i' →
    i.handler = none → i'.handler = none

/-- The configuration of the id differs from what is recorded. -/
def ChangesId (s : IdInfo) (i : IdCfg) : Prop :=
  s.inputs.map (·.path) ≠ i.inputs ∨ s.outputs ≠ i.outputs ∨
    ∃ h, i.handler = some h ∧ ¬ ∃ b, h.serialize = some b ∧ h.isEqual s.userblob b = some true

/-- The file is an input of an id whose callback is running or which is completed in this run:
either its callback returned or it was found to be unchanged. -/
def Relied (σ : Sys) (p : Str) : Prop :=
  ∃ r id i, σ.run = some r ∧ find id r.cfg = some i ∧ p ∈ i.inputs ∧
    (r.status id = .calling ∨ (r.status id).good = true)

/-- What the history may do next: no file gets a stamp it had before, the inputs of an id are not
changed between the start of its callback (or the moment when it was found to be unchanged) and the
end of the run, and after
a run that executed callbacks but could not store its state (it was killed, for instance)
the changes it had to its stored configuration are not taken back. -/
def Allowed (K : Cfg → Prop) (σ : Sys) : Event → Prop
  | .edit p t => t ∉ σ.used p ∧ ¬ Relied σ p
  | .delete p => ¬ Relied σ p
  | .start c => K c ∧ ∀ id i s, find id c = some i →
      storedId (loadGenFile σ.stateFile) id = some s →
      ∀ l ∈ σ.lost, ∀ i', find id l = some i' → ChangesId s i' → ChangesId s i
  | _ => True

/-- Every event of the history is allowed when it happens. -/
def AllAllowed (K : Cfg → Prop) : Sys → List Event → Prop
  | _, [] => True
  | σ, e :: l => Allowed K σ e ∧ AllAllowed K (step σ e) l

end Verif.Generator
