import Verif.Model.Base

/-! Reasoning about `Res` computations. -/

namespace T86

/-- `x` either succeeds with a value satisfying `P` or fails with a fault satisfying `E`. -/
def Sat {α : Type} (x : Res α) (P : α → Prop) (E : Fault → Prop) : Prop :=
  match x with
  | .ok a => P a
  | .error f => E f

theorem Sat.ok {α : Type} {a : α} {P : α → Prop} {E : Fault → Prop} (h : P a) : Sat (.ok a) P E := h

theorem Sat.pure {α : Type} {a : α} {P : α → Prop} {E : Fault → Prop} (h : P a) : Sat (Pure.pure a) P E := h

theorem Sat.error {α : Type} {f : Fault} {P : α → Prop} {E : Fault → Prop} (h : E f) :
    Sat (.error f : Res α) P E := h

theorem Sat.bind {α β : Type} {x : Res α} {f : α → Res β} {P : α → Prop} {Q : β → Prop} {E : Fault → Prop}
    (h : Sat x P E) (k : ∀ a, P a → Sat (f a) Q E) : Sat (x >>= f) Q E := by
  cases x with
  | ok a => exact k a h
  | error e => exact h

theorem Sat.mono {α : Type} {x : Res α} {P Q : α → Prop} {E F : Fault → Prop}
    (h : Sat x P E) (hp : ∀ a, P a → Q a) (he : ∀ f, E f → F f) : Sat x Q F := by
  cases x with
  | ok a => exact hp a h
  | error e => exact he e h

theorem Sat.imp {α : Type} {x : Res α} {P Q : α → Prop} {E : Fault → Prop}
    (h : Sat x P E) (hp : ∀ a, P a → Q a) : Sat x Q E := h.mono hp fun _ h => h

theorem Sat.of_eq {α : Type} {x : Res α} {a : α} {P : α → Prop} {E : Fault → Prop}
    (h : x = .ok a) (hp : P a) : Sat x P E := by subst h; exact hp

/-- What is known about the value holds in addition to the equation. -/
theorem Sat.with_eq {α : Type} {x : Res α} {P : α → Prop} {E : Fault → Prop}
    (h : Sat x P E) : Sat x (fun a => x = .ok a ∧ P a) E := by
  cases x with
  | ok a => exact ⟨rfl, h⟩
  | error e => exact h

theorem bind_ok_iff {α β : Type} {x : Res α} {f : α → Res β} {b : β} :
    (x >>= f) = .ok b ↔ ∃ a, x = .ok a ∧ f a = .ok b := by
  cases x with
  | ok a => constructor
            · intro h; exact ⟨a, rfl, h⟩
            · rintro ⟨a', h1, h2⟩; cases h1; exact h2
  | error e => constructor
               · intro h; cases h
               · rintro ⟨a', h1, _⟩; cases h1

theorem pure_ok {α : Type} (a : α) : (Pure.pure a : Res α) = .ok a := rfl

theorem ok_bind {α β : Type} (a : α) (f : α → Res β) : ((.ok a : Res α) >>= f) = f a := rfl

theorem error_bind {α β : Type} (e : Fault) (f : α → Res β) : ((.error e : Res α) >>= f) = .error e := rfl

theorem Sat.foldlM {α σ : Type} {f : σ → α → Res σ} {E : Fault → Prop} (I : List α → σ → Prop) :
    ∀ (l : List α) (s : σ), I l s →
    (∀ a as s, I (a :: as) s → Sat (f s a) (I as) E) → Sat (l.foldlM f s) (I []) E
  | [], s, h, _ => h
  | a :: as, s, h, step => by
      rw [List.foldlM_cons]
      exact Sat.bind (step a as s h) fun s' hs' => Sat.foldlM I as s' hs' step

end T86
