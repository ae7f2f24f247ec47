import Verif.Model.Message

/-! # C26, C27: message transport -/

set_option linter.unusedSimpArgs false
set_option linter.unusedVariables false

namespace T86
namespace Tcp

theorem sendRaw_eq (data : List Byte) : ∀ (fuel sent : Nat) (ks : List Nat) (wire : List Byte),
    data.length - sent < fuel → sendRaw wire data fuel sent ks = wire ++ data.drop sent := by
  intro fuel
  induction fuel with
  | zero => intro sent ks wire h; omega
  | succ f ih =>
    intro sent ks wire h
    rw [sendRaw]
    by_cases hs : sent < data.length
    · rw [if_pos hs]
      simp only
      have hk : 1 ≤ moved (data.length - sent) (ks.headD (data.length - sent)) := by unfold moved; omega
      have hk' : moved (data.length - sent) (ks.headD (data.length - sent)) ≤ data.length - sent := by unfold moved; omega
      generalize moved (data.length - sent) (ks.headD (data.length - sent)) = k at hk hk' ⊢
      rw [ih _ _ _ (by omega), List.append_assoc]
      congr 1
      rw [← List.drop_drop]
      exact List.take_append_drop k _
    · rw [if_neg hs, List.drop_eq_nil_of_le (by omega), List.append_nil]

theorem encode_length : ∀ n v, (encode n v).length = n
  | 0, _ => rfl
  | n + 1, v => by simp [encode, encode_length n]

theorem decode_encode : ∀ n v, v < 256 ^ n → decode (encode n v) = v
  | 0, v, h => by simp at h; subst h; rfl
  | n + 1, v, h => by
    rw [encode, decode, decode_encode n (v / 256) (by rw [Nat.pow_succ] at h; omega)]
    simp
    omega

theorem send_eq (ks₁ ks₂ : List Nat) (wire m : List Byte) : send ks₁ ks₂ wire m = wire ++ encode 8 m.length ++ m := by
  unfold send
  simp only
  rw [sendRaw_eq m _ _ _ _ (by omega), sendRaw_eq (encode 8 m.length) _ _ _ _ (by rw [encode_length]; omega)]
  simp

theorem readBody_eq (m rest : List Byte) : ∀ (fuel i : Nat) (ks : List Nat), m.length - i < fuel → i ≤ m.length →
    readBody m.length fuel (m.take i) (m.drop i ++ rest) ks = (some m, rest) := by
  intro fuel
  induction fuel with
  | zero => intro i ks h; omega
  | succ f ih =>
    intro i ks h hi
    rw [readBody]
    have hl : (m.take i).length = i := by simp; omega
    rw [hl]
    by_cases hs : i < m.length
    · rw [if_pos hs]
      simp only
      have hk : 1 ≤ moved (m.length - i) (ks.headD (m.length - i)) := by unfold moved; omega
      have hk' : moved (m.length - i) (ks.headD (m.length - i)) ≤ m.length - i := by unfold moved; omega
      generalize moved (m.length - i) (ks.headD (m.length - i)) = k at hk hk' ⊢
      have h1 : (m.drop i ++ rest).take k = (m.drop i).take k := by
        rw [List.take_append_of_le_length (by simp; omega)]
      have h2 : (m.drop i ++ rest).drop k = m.drop (i + k) ++ rest := by
        rw [List.drop_append_of_le_length (by simp; omega), List.drop_drop]
      rw [h1, h2, if_neg (by simp; omega)]
      have h3 : m.take i ++ (m.drop i).take k = m.take (i + k) := by
        rw [List.take_add]
      rw [h3]
      exact ih _ _ (by omega) (by omega)
    · rw [if_neg hs]
      have : i = m.length := by omega
      subst this
      simp

theorem receive_eq (net : Splitting) (hn : 8 ≤ net.header) (m rest : List Byte) (hm : m.length < 2 ^ 64) :
    receive net (encode 8 m.length ++ m ++ rest) = (some m, rest) := by
  unfold receive
  have hk : moved 8 net.header = 8 := by unfold moved; omega
  simp only [hk]
  have h1 : (encode 8 m.length ++ m ++ rest).take 8 = encode 8 m.length := by
    rw [List.append_assoc, List.take_append_of_le_length (by rw [encode_length]; omega),
      List.take_of_length_le (by rw [encode_length]; omega)]
  have h2 : (encode 8 m.length ++ m ++ rest).drop 8 = m ++ rest := by
    rw [List.append_assoc, List.drop_append_of_le_length (by rw [encode_length]; omega),
      List.drop_of_length_le (by rw [encode_length]; omega), List.nil_append]
  rw [h1, h2, encode_length, if_neg (by omega), decode_encode 8 _ (by simpa using hm)]
  have := readBody_eq m rest (m.length + 1) 0 net.body (by omega) (by omega)
  simpa using this

theorem sendAll_eq (l : List (List Byte × List Nat × List Nat)) : ∀ wire,
    sendAll wire l = wire ++ (l.map fun x => encode 8 x.1.length ++ x.1).flatten := by
  induction l with
  | nil => intro w; simp [sendAll]
  | cons x l ih =>
    intro w
    obtain ⟨m, a, b⟩ := x
    rw [sendAll, ih, send_eq]
    simp

end Tcp

open Tcp in
/-- C26, as far as it holds: for all message contents, however `send` splits its buffers and however the network splits
the bodies, the messages received are the messages sent, in order, and nothing remains in the stream.

Missing: the header. The code reads it with one `read` and does not look at how much it got (src/common/TCP.h:72-77), so
the statement needs `8 ≤ header`: the eight bytes arrive together. `C26_split_header` shows that this is needed. -/
theorem C26_framing_partial (l : List (List Byte × List Nat × List Nat)) (nets : List Splitting)
    (hlen : nets.length = l.length) (hm : ∀ x ∈ l, x.1.length < 2 ^ 64) (hn : ∀ n ∈ nets, 8 ≤ n.header) :
    receiveAll nets (sendAll [] l) = (l.map fun x => some x.1, []) := by
  rw [sendAll_eq, List.nil_append]
  induction l generalizing nets with
  | nil =>
    cases nets with
    | nil => rfl
    | cons _ _ => simp at hlen
  | cons x l ih =>
    cases nets with
    | nil => simp at hlen
    | cons n nets =>
      simp only [List.map_cons, List.flatten_cons, receiveAll]
      rw [receive_eq n (hn n (by simp)) x.1 _ (hm x (by simp))]
      simp only
      rw [ih nets (by simpa using hlen) (fun y hy => hm y (by simp [hy])) (fun k hk => hn k (by simp [hk]))]

open Tcp in
/-- C26 fails when the network delivers a header in two parts: `OK` (bytes 79, 75) is received as two zero bytes. -/
theorem C26_split_header : ∃ (m : List Byte) (net : Splitting),
    (receive net (sendAll [] [(m, [], [])])).1 ≠ some m ∧ (receive net (sendAll [] [(m, [], [])])).1 = some [0, 0] :=
  ⟨[79, 75], ⟨4, []⟩, by decide, by decide⟩

open Tcp in
example : receiveAll [⟨8, [1, 1]⟩, ⟨9, []⟩] (sendAll [] [([79, 75], [3], [1]), ([], [], [])]) = ([some [79, 75], some []], []) :=
  C26_framing_partial _ _ rfl (by decide) (by decide)

namespace Threads
variable {α : Type}

/-- The messages sent by one side during a history. -/
def sentBy (s : Side) (t : List (Event α × Option α)) : List α :=
  t.filterMap fun
    | (.send s' m, _) => if s' = s then some m else none
    | _ => none

/-- The messages received by one side during a history. -/
def receivedBy (s : Side) (t : List (Event α × Option α)) : List α :=
  t.filterMap fun
    | (.receive s', r) => if s' = s then r else none
    | _ => none

/-- The other side. -/
def Side.other : Side → Side
  | .debugger => .machine
  | .machine => .debugger

/-- The queue out of which a side receives. -/
def Queues.of (q : Queues α) : Side → List α
  | .debugger => q.toDebugger
  | .machine => q.toMachine

end Threads

open Threads in
theorem fifo_from {α : Type} (es : List (Event α)) : ∀ (q q' : Queues α) (t : List (Event α × Option α)),
    play q es = some (q', t) → ∀ s : Side, q.of s ++ sentBy s.other t = receivedBy s t ++ q'.of s := by
  induction es with
  | nil =>
    intro q q' t h s
    simp [play] at h
    obtain ⟨rfl, rfl⟩ := h
    simp [sentBy, receivedBy]
  | cons e es ih =>
    intro q q' t h s
    rw [play] at h
    cases h1 : step q e with
    | none => rw [h1] at h; simp at h
    | some x =>
      obtain ⟨q1, r⟩ := x
      rw [h1] at h
      simp only at h
      cases h2 : play q1 es with
      | none => rw [h2] at h; simp at h
      | some y =>
        obtain ⟨q2, t2⟩ := y
        rw [h2] at h
        simp at h
        obtain ⟨rfl, rfl⟩ := h
        have := ih q1 q2 t2 h2 s
        have hcase : (q.of s ++ sentBy s.other [(e, r)] = receivedBy s [(e, r)] ++ q1.of s) := by
          cases e with
          | send b m =>
            cases b <;> (simp [step] at h1; obtain ⟨rfl, rfl⟩ := h1; cases s <;>
              simp [sentBy, receivedBy, Side.other, Queues.of])
          | receive b =>
            cases b with
            | debugger =>
              rw [step] at h1
              cases hq : q.toDebugger with
              | nil => rw [hq] at h1; simp at h1
              | cons m l =>
                rw [hq] at h1
                simp at h1
                obtain ⟨rfl, rfl⟩ := h1
                cases s <;> simp [sentBy, receivedBy, Side.other, Queues.of, hq]
            | machine =>
              rw [step] at h1
              cases hq : q.toMachine with
              | nil => rw [hq] at h1; simp at h1
              | cons m l =>
                rw [hq] at h1
                simp at h1
                obtain ⟨rfl, rfl⟩ := h1
                cases s <;> simp [sentBy, receivedBy, Side.other, Queues.of, hq]
        have e1 : sentBy s.other ((e, r) :: t2) = sentBy s.other [(e, r)] ++ sentBy s.other t2 := by
          unfold sentBy; rw [← List.filterMap_append]; rfl
        have e2 : receivedBy s ((e, r) :: t2) = receivedBy s [(e, r)] ++ receivedBy s t2 := by
          unfold receivedBy; rw [← List.filterMap_append]; rfl
        rw [e1, e2, ← List.append_assoc, hcase, List.append_assoc, this, List.append_assoc]

open Threads in
/-- C27: whatever the order of the calls of the two threads, what a side has received is, in order, the beginning of what
the other side has sent, and the queue holds exactly the rest. -/
theorem C27_fifo {α : Type} (es : List (Event α)) (q : Queues α) (t : List (Event α × Option α))
    (h : play ⟨[], []⟩ es = some (q, t)) (s : Side) : sentBy s.other t = receivedBy s t ++ q.of s := by
  have := fifo_from es _ _ _ h s
  cases s <;> simpa [Queues.of] using this

open Threads in
/-- C27: a receive waits only while everything the other side sent has been received. -/
theorem C27_no_loss {α : Type} (es : List (Event α)) (q : Queues α) (t : List (Event α × Option α))
    (h : play ⟨[], []⟩ es = some (q, t)) (s : Side) (hw : step q (.receive s) = none) :
    receivedBy s t = sentBy s.other t := by
  have := C27_fifo es q t h s
  have hq : q.of s = [] := by
    cases s
    · cases hq : q.toDebugger with
      | nil => exact hq
      | cons m l => rw [step, hq] at hw; simp at hw
    · cases hq : q.toMachine with
      | nil => exact hq
      | cons m l => rw [step, hq] at hw; simp at hw
  rw [this, hq, List.append_nil]

open Threads in
/-- C27: both calls take effect at once otherwise: a send always returns, a receive returns when the queue is not empty. -/
theorem C27_progress {α : Type} (q : Queues α) :
    (∀ s m, (step q (.send s m)).isSome) ∧ ∀ s, q.of s ≠ [] → (step q (.receive s)).isSome := by
  refine ⟨fun s m => by cases s <;> rfl, fun s h => ?_⟩
  cases s
  · rw [step]; cases hq : q.toDebugger with
    | nil => exact absurd hq h
    | cons m l => rfl
  · rw [step]; cases hq : q.toMachine with
    | nil => exact absurd hq h
    | cons m l => rfl

open Threads in
example : (play (α := Nat) ⟨[], []⟩ [.send .debugger 1, .send .machine 7, .receive .machine, .send .debugger 2, .receive .debugger]).isSome := by
  decide

end T86
