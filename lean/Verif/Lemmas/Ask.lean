import Verif.Lemmas.Link
import Verif.Model.Native

/-! Sequences of commands and answers. -/

set_option linter.unusedSimpArgs false
set_option linter.unusedVariables false

namespace T86
open Dbg Str

namespace Job
variable {σ α β : Type}

theorem bind_ok {x : Job σ α} {f : α → Job σ β} {s s' : σ} {b : β} (h : (x >>= f) s = (.ok b, s')) :
    ∃ a t, x s = (.ok a, t) ∧ f a t = (.ok b, s') := by
  change bind x f s = _ at h
  unfold bind at h
  cases hx : x s with
  | mk r t =>
    rw [hx] at h
    cases r with
    | error e => cases h
    | ok a => exact ⟨a, t, rfl, h⟩

theorem bind_eq {x : Job σ α} {f : α → Job σ β} {s t : σ} {a : α} (h : x s = (.ok a, t)) : (x >>= f) s = f a t := by
  change bind x f s = _
  unfold bind
  rw [h]

theorem bind_error {x : Job σ α} {f : α → Job σ β} {s t : σ} {e : Err} (h : x s = (.error e, t)) : (x >>= f) s = (.error e, t) := by
  change bind x f s = _
  unfold bind
  rw [h]

/-- If it begins where `p` holds and succeeds, it ends where `q` holds. -/
def Triple (p : σ → Prop) (x : Job σ α) (q : α → σ → Prop) : Prop := ∀ s a s', p s → x s = (.ok a, s') → q a s'

namespace Triple
variable {p : σ → Prop} {q : α → σ → Prop} {r : β → σ → Prop}

theorem bind {x : Job σ α} {f : α → Job σ β} (h : Triple p x q) (hf : ∀ a, Triple (q a) (f a) r) : Triple p (x >>= f) r := by
  intro s b s' hp hb
  obtain ⟨a, t, h1, h2⟩ := bind_ok hb
  exact hf a t b s' (h s a t hp h1) h2

theorem pure {a : α} {q : α → σ → Prop} (h : ∀ s, p s → q a s) : Triple p (Pure.pure a) q := by
  intro s b s' hp hb
  cases hb
  exact h s hp

theorem throw {e : Err} : Triple p (Job.throw e : Job σ α) q := by
  intro s b s' hp hb
  cases hb

theorem get {q : σ → σ → Prop} (h : ∀ s, p s → q s s) : Triple p Job.get q := by
  intro s b s' hp hb
  cases hb
  exact h s hp

theorem modify {f : σ → σ} {q : Unit → σ → Prop} (h : ∀ s, p s → q () (f s)) : Triple p (Job.modify f) q := by
  intro s b s' hp hb
  cases hb
  exact h s hp

theorem ofExcept {x : Except Err α} (h : ∀ s a, x = .ok a → p s → q a s) : Triple p (Job.ofExcept x) q := by
  intro s b s' hp hb
  have h1 : x = .ok b := congrArg Prod.fst hb
  have h2 : s = s' := congrArg Prod.snd hb
  subst h2
  exact h s b h1 hp

theorem mono {p' : σ → Prop} {q' : α → σ → Prop} {x : Job σ α} (h : Triple p x q) (h1 : ∀ s, p' s → p s)
    (h2 : ∀ a s, q a s → q' a s) : Triple p' x q' := fun s a s' hp hb => h2 a s' (h s a s' (h1 s hp) hb)

end Triple
end Job

namespace Link

/-- The machine waits for a command, and nothing is on its way. -/
structure At (l : Link) : Prop where
  toVm : l.toVm = []
  toDbg : l.toDbg = []
  idle : l.vm.phase ≠ .running

/-- A command was answered. -/
def Answer (h : Host) (l : Link) (k : Cmd) (s : Str) (l' : Link) : Prop :=
  (∃ why c' rep nx, l.vm.phase = .stopped why ∧ Cpu.command h.cfg h.gregs h.gram why l.vm.cpu k = .ok (c', rep, nx) ∧
    s = Proto.reply h k rep ∧ l' = { l with vm := Vm.leave why c' nx }) ∨
  (l.vm.phase = .failed ∧ ((k = .reason ∧ s = "CPU_ERROR".toList ∧ l' = l) ∨
    (afterFailure k = true ∧ k ≠ .reason ∧ l' = { l with vm := ⟨l.vm.cpu, .ended false⟩ })))

theorem ask {h : Host} {l l' : Link} (hl : l.At) {m s : Str} {u : Unit}
    (hr : (send m >>= fun _ => receive h) l = (.ok (some s), l')) : ∃ k, Proto.parse h m = .ok k ∧ Answer h l k s l' := by
  obtain ⟨vm, toVm, toDbg, dead⟩ := l
  obtain ⟨rfl, rfl, hi⟩ : toVm = [] ∧ toDbg = [] ∧ vm.phase ≠ .running := ⟨hl.1, hl.2, hl.3⟩
  obtain ⟨u, l1, h1, h2⟩ := Job.bind_ok hr
  cases h1
  unfold receive at h2
  simp only [receiveLoop, List.nil_append] at h2
  unfold turn at h2
  simp only at h2
  cases dead with
  | true => simp at h2
  | false =>
    simp only [Bool.false_eq_true, if_false] at h2
    cases hp : Proto.parse h m with
    | error e =>
      exfalso
      rw [hp] at h2
      have : ∀ n : Nat, receiveLoop h n ⟨vm, [], [], true⟩ ≠ (.ok (some s), l') := by
        intro n
        cases n with
        | zero => simp [receiveLoop]
        | succ n => simp [receiveLoop, turn]
      cases hph : vm.phase with
      | running => exact hi hph
      | ended b => rw [hph] at h2; simp at h2
      | stopped w =>
        rw [hph] at h2
        cases e <;> simp only at h2 <;> first | exact this _ h2 | cases h2
      | failed =>
        rw [hph] at h2
        cases e <;> simp only at h2 <;> first | exact this _ h2 | cases h2
    | ok k =>
      refine ⟨k, rfl, ?_⟩
      rw [hp] at h2
      cases hph : vm.phase with
      | running => exact absurd hph hi
      | ended b => rw [hph] at h2; simp at h2
      | stopped w =>
        left
        rw [hph] at h2
        simp only [Vm.step, hph, reduceCtorEq, false_and, if_false] at h2
        cases hc : Cpu.command h.cfg h.gregs h.gram w vm.cpu k with
        | error f =>
          exfalso
          rw [hc] at h2
          have : ∀ n : Nat, receiveLoop h n ⟨vm, [], [], true⟩ ≠ (.ok (some s), l') := by
            intro n
            cases n with
            | zero => simp [receiveLoop]
            | succ n => simp [receiveLoop, turn]
          cases f <;> simp only [bind, Except.bind] at h2 <;> first | exact this _ h2 | cases h2
        | ok x =>
          obtain ⟨c', rep, nx⟩ := x
          rw [hc] at h2
          simp only [bind, Except.bind, pure, Except.pure, List.map_cons, List.map_nil] at h2
          cases h2
          exact ⟨w, c', rep, nx, hph, hc, rfl, rfl⟩
      | failed =>
        right
        refine ⟨hph, ?_⟩
        rw [hph] at h2
        simp only [true_and] at h2
        obtain ⟨c, p⟩ := vm
        simp only at hph
        subst hph
        cases k <;> simp [afterFailure, Vm.step, receiveLoop] at h2
        · left
          exact ⟨rfl, h2.1.symm, h2.2.symm⟩
        all_goals
          right
          exact ⟨rfl, by simp, h2.2.symm⟩

theorem ask_eq {h : Host} {l : Link} (h1 : l.toVm = []) (h2 : l.toDbg = []) (h3 : l.dead = false) {why : Reason} {c' : Cpu}
    {rep : Reply} {nx : Next} {k : Cmd} {m : Str}
    (hph : l.vm.phase = .stopped why) (hp : Proto.parse h m = .ok k)
    (hc : Cpu.command h.cfg h.gregs h.gram why l.vm.cpu k = .ok (c', rep, nx)) :
    (send m >>= fun _ => receive h) l = (.ok (some (Proto.reply h k rep)), { l with vm := Vm.leave why c' nx }) := by
  obtain ⟨vm, toVm, toDbg, dead⟩ := l
  simp only at h1 h2 h3 hph hc
  subst h1 h2 h3
  rw [Job.bind_eq (x := send m) (t := ⟨vm, [m], [], false⟩) rfl]
  unfold receive
  simp only [receiveLoop, turn, Bool.false_eq_true, if_false, hph, hp, reduceCtorEq, false_and, Vm.step, hc, bind, Except.bind, pure,
    Except.pure, List.map_cons, List.map_nil, List.nil_append]

end Link
end T86
