/-! # Message transport: src/common/TCP.h and src/common/threads_messenger.h -/

namespace T86

/-- A byte on the wire. -/
abbrev Byte := BitVec 8

namespace Tcp

/-- The object representation of a `size_t` (eight bytes, least significant first, as on x86-64).
Models: src/common/TCP.h:60-64 (the union in `Send`). -/
def encode : Nat → Nat → List Byte
  | 0, _ => []
  | n + 1, v => BitVec.ofNat 8 (v % 256) :: encode n (v / 256)

/-- Reading bytes into a `size_t` that was 0 before; bytes not read stay 0. Models: src/common/TCP.h:71-72. -/
def decode : List Byte → Nat
  | [] => 0
  | b :: l => b.toNat + 256 * decode l

/-- How many bytes one call of `send` or `read` moves when `want` are asked for: at least one, at most `want`. `k` is the
choice of the network. -/
def moved (want k : Nat) : Nat := min want (max 1 k)

/-- The loop that sends a buffer, for the network's choices `ks` (whole transfers when they run out), with a bound on the
number of passes. Models: src/common/TCP.h:52-57 (`SendRaw`). Simplification: `send` does not fail. -/
def sendRaw (wire data : List Byte) : Nat → Nat → List Nat → List Byte
  | 0, _, _ => wire
  | fuel + 1, sent, ks =>
    if sent < data.length then
      let k := moved (data.length - sent) (ks.headD (data.length - sent))
      sendRaw (wire ++ (data.drop sent).take k) data fuel (sent + k) ks.tail
    else wire

/-- Models: src/common/TCP.h:59-67 (`Send`). -/
def send (ks₁ ks₂ : List Nat) (wire : List Byte) (m : List Byte) : List Byte :=
  let wire := sendRaw wire (encode 8 m.length) 9 0 ks₁
  sendRaw wire m (m.length + 1) 0 ks₂

/-- The network's choices for one received message: how much the `read` of the header returns, and the `read`s of the
body. -/
structure Splitting where
  header : Nat
  body : List Nat

/-- The loop that reads the body; `none`: the connection was closed. Models: src/common/TCP.h:79-89. -/
def readBody (size : Nat) : Nat → List Byte → List Byte → List Nat → Option (List Byte) × List Byte
  | 0, data, wire, _ => (some data, wire)
  | fuel + 1, data, wire, ks =>
    if data.length < size then
      let k := moved (size - data.length) (ks.headD (size - data.length))
      let got := wire.take k
      if got.length = 0 then (none, wire)
      else readBody size fuel (data ++ got) (wire.drop k) ks.tail
    else (some data, wire)

/-- Receiving one message from `wire`, the bytes that were and will be sent. Models: src/common/TCP.h:69-94 (`Receive`).
Simplification: `read` does not fail, and a buffer of `size` bytes can be allocated. -/
def receive (net : Splitting) (wire : List Byte) : Option (List Byte) × List Byte :=
  let k := moved 8 net.header
  let hdr := wire.take k
  if hdr.length = 0 then (none, wire)
  else
    let size := decode hdr
    readBody size (size + 1) [] (wire.drop k) net.body

/-- Sending a list of messages. -/
def sendAll (wire : List Byte) : List (List Byte × List Nat × List Nat) → List Byte
  | [] => wire
  | (m, ks₁, ks₂) :: l => sendAll (send ks₁ ks₂ wire m) l

/-- Receiving as many messages as there are entries in the list of the network's choices. -/
def receiveAll : List Splitting → List Byte → List (Option (List Byte)) × List Byte
  | [], wire => ([], wire)
  | net :: l, wire =>
    let x := receive net wire
    let y := receiveAll l x.2
    (x.1 :: y.1, y.2)

end Tcp

namespace Threads

/-- The two queues shared by the messengers of the debugger and of the machine. Models: the queues of
src/common/threads_messenger.h:8-13 and 37-38, with the debugger's messenger built on (in, out) and the machine's on
(out, in). -/
structure Queues (α : Type) where
  toMachine : List α
  toDebugger : List α

/-- The two threads. -/
inductive Side
  | debugger | machine
  deriving DecidableEq

/-- A call of a messenger; a `Receive` that returns is one event, at the time it takes the message. -/
inductive Event (α : Type)
  | send (by_ : Side) (m : α)
  | receive (by_ : Side)

/-- One event and the message it returns. Both calls hold the mutex of the queue, so events do not overlap. `none`: the
call waits. Models: src/common/threads_messenger.h:22-34 (`Send`, `Receive`), 44-56. -/
def step {α : Type} (q : Queues α) : Event α → Option (Queues α × Option α)
  | .send .debugger m => some ({ q with toMachine := q.toMachine ++ [m] }, none)
  | .send .machine m => some ({ q with toDebugger := q.toDebugger ++ [m] }, none)
  | .receive .debugger =>
    match q.toDebugger with
    | [] => none
    | m :: l => some ({ q with toDebugger := l }, some m)
  | .receive .machine =>
    match q.toMachine with
    | [] => none
    | m :: l => some ({ q with toMachine := l }, some m)

/-- A sequence of events with the messages they return; `none` if some call could not have returned. -/
def play {α : Type} (q : Queues α) : List (Event α) → Option (Queues α × List (Event α × Option α))
  | [] => some (q, [])
  | e :: l =>
    match step q e with
    | none => none
    | some (q', r) =>
      match play q' l with
      | none => none
      | some (q'', t) => some (q'', (e, r) :: t)

end Threads
end T86
