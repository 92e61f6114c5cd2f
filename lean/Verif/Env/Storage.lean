import Verif.Str.Basic

/-!
# Model of `ScopedStorage` and `Storage`

Objects are numbered in the order in which `Add` creates them, and a type is the string
`typeid(T).name()`.  `Storage` (`storage.h:115-150`) forwards to one static `ScopedStorage`.

Not modelled: running out of memory, constructors that throw, objects whose constructors or
destructors use the storage, use from several threads, the order in which `Clear` goes
through the hash map.
-/

namespace Verif.Env
open Verif

/-- `ScopedStorage::PtrMetadata` (`storage.h:105-109`); the destructor callback deletes
`ptr`. -/
structure PtrMetadata where
  ptr : Nat
  typeName : Str
deriving DecidableEq, Repr

/-- A `ScopedStorage` (`storage.h:112`), with the number of objects created so far and the
objects that were deleted. -/
structure Storage where
  ptrs : List (Str × PtrMetadata)
  made : Nat
  deleted : List Nat
deriving DecidableEq, Repr

/-- `ScopedStorage()` (`storage.h:34`). -/
def Storage.init : Storage := ⟨[], 0, []⟩

/-- `ptrs_.find(identifier)`. -/
def Storage.find (s : Storage) (id : Str) : Option PtrMetadata :=
  (s.ptrs.find? fun e => e.1 = id).map (·.2)

/-- `Contains` (`storage.h:79-81`). -/
def Storage.contains (s : Storage) (id : Str) : Bool := (s.find id).isSome

/-- `Add<T>` (`storage.h:39-53`): the object it returns and the new storage.  `emplace`
leaves an existing entry alone. -/
def Storage.add (s : Storage) (id typeName : Str) : Nat × Storage :=
  let ptr := s.made
  (ptr, { s with
    made := s.made + 1
    ptrs := if s.contains id then s.ptrs else s.ptrs ++ [(id, ⟨ptr, typeName⟩)] })

/-- `Clear` (`storage.h:55-60`), also called by the destructor (`storage.h:35`). -/
def Storage.clear (s : Storage) : Storage :=
  { s with deleted := s.deleted ++ s.ptrs.map (·.2.ptr), ptrs := [] }

/-- `ConstRef<T>` (`storage.h:62-71`) and `Ref<T>` (`storage.h:74-77`); `none` is
`assert_fatal`. -/
def Storage.ref (s : Storage) (id typeName : Str) : Option Nat :=
  match s.find id with
  | none => none
  | some m => if typeName = m.typeName then some m.ptr else none

/-- `Valid<T>` (`storage.h:83-92`). -/
def Storage.valid (s : Storage) (id typeName : Str) : Bool :=
  match s.find id with
  | none => false
  | some m => if typeName ≠ m.typeName then false else true

/-- The operations that change a storage. -/
inductive StorageOp where
  | add (id typeName : Str)
  | clear
deriving DecidableEq, Repr

def Storage.step (s : Storage) : StorageOp → Storage
  | .add id t => (s.add id t).2
  | .clear => s.clear

def Storage.run (s : Storage) (ops : List StorageOp) : Storage := ops.foldl Storage.step s

/-- A storage after a history of operations. -/
def storageAfter (ops : List StorageOp) : Storage := Storage.init.run ops

end Verif.Env
