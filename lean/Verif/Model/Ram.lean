import Verif.Model.Base

/-! # Memory with latency: src/t86/ram.cpp, src/t86/ram.h -/

namespace T86

/-- Models: src/t86/config.cpp:7-9 (`RAM::readLatency`). -/
def readLatency : Nat := 5

/-- Models: src/t86/config.cpp:11-13 (`RAM::writeLatency`). -/
def writeLatency : Nat := 5

/-- Models: src/t86/ram.h:51-54 (`ReadEntry`) together with its key in `reads_`. -/
structure ReadEntry where
  addr : Word
  rem : Nat
  value : Word
  deriving DecidableEq, Repr

/-- Models: src/t86/ram.h:56-60 (`WriteEntry`) together with its key in `writes_`. The field `value` of the C++ struct
is never read and is dropped. -/
structure WriteEntry where
  addr : Word
  id : Nat
  rem : Nat
  deriving DecidableEq, Repr

/-- Models: src/t86/ram.h:43-67 (data members of `RAM`). The two hash maps keyed by address are association lists; the
helper map `writesById_` is the set of `id`s in `writes`. -/
structure Ram where
  mem : List Word
  gates : Nat
  reads : List ReadEntry
  writes : List WriteEntry
  nextId : Nat
  deriving DecidableEq, Repr

namespace Ram

/-- Models: src/t86/ram.cpp:7 (constructor). -/
def init (size gates : Nat) : Ram := ⟨List.replicate size 0, gates, [], [], 0⟩

/-- Models: src/t86/ram.cpp:9-33 (`tick`). -/
def tick (r : Ram) : Ram :=
  { r with
    writes := r.writes.filterMap fun w => if w.rem = 0 then none else some { w with rem := w.rem - 1 }
    reads := r.reads.filterMap fun x => if x.rem = 0 then none else some { x with rem := x.rem - 1 } }

/-- Models: src/t86/ram.cpp:58-60 (`isBusy`). -/
def isBusy (r : Ram) : Bool := r.reads.length == r.gates

/-- Models: src/t86/ram.cpp:35-56 (`read`). `mem_.at(address)` is evaluated before the map is touched, so an
out-of-range address leaves no trace. -/
def read (r : Ram) (a : Word) : Res (Option Word × Ram) :=
  match r.reads.find? (·.addr == a) with
  | some e => .ok (if e.rem = 0 then some e.value else none, r)
  | none =>
    if r.isBusy then .ok (none, r)
    else if r.writes.any (·.addr == a) then .error .abort
    else match r.mem[a.toNat]? with
      | none => .error (.exn .outOfRange)
      | some v => .ok (none, { r with reads := ⟨a, readLatency, v⟩ :: r.reads })

/-- Models: src/t86/ram.cpp:62-70 (`write`). -/
def write (r : Ram) (a v : Word) : Res (Nat × Ram) :=
  if a.toNat < r.mem.length then
    .ok (r.nextId,
      { r with
        mem := r.mem.set a.toNat v
        writes := ⟨a, r.nextId, writeLatency⟩ :: r.writes.filter (·.addr != a)
        nextId := r.nextId + 1 })
  else .error (.exn .outOfRange)

/-- Models: src/t86/ram.cpp:72-74 (`get`). -/
def get (r : Ram) (a : Word) : Res Word :=
  match r.mem[a.toNat]? with
  | some v => .ok v
  | none => .error (.exn .outOfRange)

/-- Models: src/t86/ram.cpp:76-78 (`set`). -/
def set (r : Ram) (a v : Word) : Res Ram :=
  if a.toNat < r.mem.length then .ok { r with mem := r.mem.set a.toNat v } else .error (.exn .outOfRange)

/-- Models: src/t86/ram.cpp:80-82 (`size`). -/
def size (r : Ram) : Nat := r.mem.length

/-- Models: src/t86/ram.cpp:84-86 (`pending`). -/
def pending (r : Ram) (id : Nat) : Bool := r.writes.any (·.id == id)

end Ram
end T86
