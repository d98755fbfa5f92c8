import Verif.Core
/-!
# Reasoning about member functions by postconditions

`Sat m s Q A`: started in state `s`, `m` either returns `a` in state `s'` with `Q a s'`, or ends abnormally with
outcome `r` in state `s'` with `A r s'`.
-/
namespace Utki

/-- Forget the returned value. -/
def Res.erase {α : Type} : Res α → Res Unit
  | .ok _ => .ok ()
  | .throw e => .throw e
  | .ub u => .ub u
  | .abort => .abort
  | .terminate => .terminate
  | .diverge => .diverge

/-- Weakest precondition of `m` in `s`. -/
def Sat {σ α : Type} (m : Meth σ α) (s : σ) (Q : α → σ → Prop) (A : Res Unit → σ → Prop) : Prop :=
  match (m s).1 with
  | .ok a => Q a (m s).2
  | r => A r.erase (m s).2

namespace Sat
variable {σ α β : Type}

theorem pure {a : α} {s : σ} {Q : α → σ → Prop} {A : Res Unit → σ → Prop} (h : Q a s) : Sat (Pure.pure a) s Q A := h

theorem bind {m : Meth σ α} {f : α → Meth σ β} {s : σ} {Q : β → σ → Prop} {A : Res Unit → σ → Prop}
    (h : Sat m s (fun a s' => Sat (f a) s' Q A) A) : Sat (m >>= f) s Q A := by
  unfold Sat at h ⊢
  rw [Meth.bind_apply, Meth.bind]
  generalize hm : m s = r at h
  obtain ⟨r, s'⟩ := r
  cases r <;> exact h

theorem mono {m : Meth σ α} {s : σ} {Q Q' : α → σ → Prop} {A A' : Res Unit → σ → Prop} (h : Sat m s Q A)
    (hq : ∀ a s', Q a s' → Q' a s') (ha : ∀ r s', A r s' → A' r s') : Sat m s Q' A' := by
  unfold Sat at h ⊢
  revert h
  generalize m s = r
  obtain ⟨r, s'⟩ := r
  intro h
  cases r with
  | ok a => exact hq _ _ h
  | _ => exact ha _ _ h

theorem ok {m : Meth σ α} {s s' : σ} {a : α} {Q : α → σ → Prop} {A : Res Unit → σ → Prop} (e : m s = (.ok a, s')) (h : Q a s') :
    Sat m s Q A := by
  unfold Sat; rw [e]; exact h

theorem get {s : σ} {Q : σ → σ → Prop} {A : Res Unit → σ → Prop} (h : Q s s) : Sat Meth.get s Q A := h
theorem set {s t : σ} {Q : Unit → σ → Prop} {A : Res Unit → σ → Prop} (h : Q () t) : Sat (Meth.set t) s Q A := h
theorem lift {r : α} {s : σ} {Q : α → σ → Prop} {A : Res Unit → σ → Prop} (h : Q r s) : Sat (Meth.lift (.ok r)) s Q A := h

theorem ite {c : Prop} [Decidable c] {m n : Meth σ α} {s : σ} {Q : α → σ → Prop} {A : Res Unit → σ → Prop}
    (h1 : c → Sat m s Q A) (h2 : ¬ c → Sat n s Q A) : Sat (if c then m else n) s Q A := by
  split
  · exact h1 ‹_›
  · exact h2 ‹_›

/-- Reading the result off. -/
theorem out {m : Meth σ α} {s : σ} {Q : α → σ → Prop} {A : Res Unit → σ → Prop} (h : Sat m s Q A) :
    (∃ a, (m s).1 = .ok a ∧ Q a (m s).2) ∨ ((∀ a, (m s).1 ≠ .ok a) ∧ A (m s).1.erase (m s).2) := by
  unfold Sat at h
  split at h <;> rename_i he
  · exact .inl ⟨_, he, h⟩
  · exact .inr ⟨he, h⟩

end Sat
end Utki
