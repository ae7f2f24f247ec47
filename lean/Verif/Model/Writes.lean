import Verif.Model.Ram

/-! # The queue of memory writes: src/t86/cpu/memory_writes_manager.cpp, src/t86/cpu/memory_writes_manager/* -/

namespace T86

/-- Models: src/t86/cpu/memory_writes_manager/memory_write.h:54-60 (data members of `MemoryWrite`). `refValid` says
whether the C++ reference to this object kept in `writesById` (src/t86/cpu/memory_writes_manager.h:62) is still valid:
the object lives in a `std::vector`, and inserting another element into that vector invalidates it. -/
structure MemWrite where
  id : Nat
  addr : Word
  value : Option Word
  ramId : Option Nat
  refValid : Bool
  deriving DecidableEq, Repr

/-- Models: src/t86/cpu/memory_writes_manager.h:58-64 (data members of `MemoryWritesManager`). All per-address vectors
of `writesMap_` are kept in one list `ws`, sorted by descending id; the vector of an address is the sublist of its
records, sorted by descending id as in the C++ (src/t86/cpu/memory_writes_manager/memory_writes.h:45-56). -/
structure Writes where
  cur : Nat
  ws : List MemWrite
  unspec : List Nat
  deriving DecidableEq, Repr

/-- Insertion by descending id. Models: `std::lower_bound` + `emplace` in
src/t86/cpu/memory_writes_manager/memory_writes.cpp:7-9,23-26. -/
def insertDesc (w : MemWrite) : List MemWrite → List MemWrite
  | [] => [w]
  | x :: xs => if x.id > w.id then x :: insertDesc w xs else w :: x :: xs

namespace Writes

/-- Models: default member initialisers. -/
def init : Writes := ⟨0, [], []⟩

/-- Models: src/t86/cpu/memory_writes_manager/memory_writes.cpp:23-26 (`MemoryWrites::add`). Simplification (towards more
undefined behaviour): the emplacement invalidates the references to all other elements of the same vector; with spare
capacity the C++ keeps those in front of the insertion point valid. -/
def add (q : Writes) (id : Nat) (a : Word) : Writes :=
  let old := q.ws.map fun w => if w.addr = a then { w with refValid := false } else w
  { q with ws := insertDesc ⟨id, a, none, none, true⟩ old }

/-- Models: src/t86/cpu/memory_writes_manager.cpp:7-11. -/
def registerUnspecified (q : Writes) : Nat × Writes :=
  (q.cur + 1, { q with cur := q.cur + 1, unspec := (q.cur + 1) :: q.unspec })

/-- Models: src/t86/cpu/memory_writes_manager.cpp:13-17. -/
def registerAt (q : Writes) (a : Word) : Nat × Writes :=
  (q.cur + 1, add { q with cur := q.cur + 1 } (q.cur + 1) a)

/-- Models: src/t86/cpu/memory_writes_manager.cpp:19-24 (`specifyAddress`). -/
def specifyAddress (q : Writes) (id : Nat) (a : Word) : Res Writes :=
  if id ∈ q.unspec then .ok (add { q with unspec := q.unspec.filter (· != id) } id a) else .error .abort

/-- Models: src/t86/cpu/memory_writes_manager.h:48-51 (`hasUnspecifiedWrites`; the set is ordered by `std::greater`, so
`lower_bound(maxId)` is the largest element not above `maxId`). -/
def hasUnspecified (q : Writes) (maxId : Nat) : Bool := q.unspec.any (· ≤ maxId)

/-- Models: src/t86/cpu/memory_writes_manager.cpp:31-39 (`previousWrite`) with
src/t86/cpu/memory_writes_manager/memory_writes.cpp:15-21 (`latest`). Its assertion is established by the only caller
(src/t86/cpu.cpp:195). -/
def previousWrite (q : Writes) (a : Word) (maxId : Nat) : Option MemWrite :=
  q.ws.find? fun w => w.addr == a && decide (w.id ≤ maxId)

/-- Models: src/t86/cpu/memory_writes_manager.cpp:41-48 with memory_writes.cpp:28-41 (`removeFinished`). Simplification:
erasing from a vector also invalidates the references to the records of the same address behind the erased ones. These have
smaller ids, so they were handed to the memory before the erased ones, and a reference is not used after that.
(`removePending` erases the records that have not been handed to the memory; those behind them are again ones that have.) -/
def removeFinished (q : Writes) (ram : Ram) : Writes :=
  { q with ws := q.ws.filter (fun w => match w.ramId with
      | some rid => ram.pending rid
      | none => true) }

/-- Models: src/t86/cpu/memory_writes_manager.cpp:50-58 with memory_writes.cpp:43-56 (`removePending`). -/
def removePending (q : Writes) : Writes :=
  { q with ws := q.ws.filter (·.ramId.isSome), unspec := [] }

/-- Models: src/t86/cpu/memory_writes_manager.cpp:60-64 (`getWrite`); using a dangling reference is undefined. -/
def getWrite (q : Writes) (id : Nat) : Res MemWrite :=
  match q.ws.find? (·.id == id) with
  | none => .error .abort
  | some w => if w.refValid then .ok w else .error .ub

/-- Update of the record with a given id, through its reference. -/
def modify (q : Writes) (id : Nat) (f : MemWrite → MemWrite) : Writes :=
  { q with ws := q.ws.map fun w => if w.id = id then f w else w }

/-- Models: src/t86/cpu/reservation_station.cpp:361-363 (`setWriteValue`) with memory_write.cpp:11-14 (`setValue`). -/
def setValue (q : Writes) (id : Nat) (v : Word) : Res Writes := do
  let w ← q.getWrite id
  if w.value.isSome || w.ramId.isSome then .error .abort
  else return q.modify id fun w => { w with value := some v }

/-- Models: src/t86/cpu/memory_writes_manager.cpp:66-70 (`startWriting`) with memory_write.cpp:6-9 (`setWriteId`). -/
def startWriting (q : Writes) (id : Nat) (ram : Ram) : Res (Writes × Ram) := do
  let w ← q.getWrite id
  match w.ramId, w.value with
  | none, some v => do
      let x ← ram.write w.addr v
      return (q.modify id fun w => { w with ramId := some x.1 }, x.2)
  | _, _ => .error .abort

end Writes
end T86
