import Verif.Model.Signal
/-!
# What may happen at a signal

A specification of signals by their log of events. It says which events may come next after a given history; it knows nothing
of the list of callbacks.
-/
namespace Utki.Spec
open Signal
variable {α : Type}

/-- The callback with id `i` is connected after the history `l`. -/
def Live (l : List (Event α)) (i : Nat) : Prop := .connected i ∈ l ∧ .disconnected i ∉ l

/-- The callbacks called by emission `k`, with their arguments, in order. -/
def callsOf (k : Nat) (l : List (Event α)) : List (Nat × α) :=
  l.filterMap (fun e => match e with | .called k' i a => if k' = k then some (i, a) else none | _ => none)

/-- The ids of the callbacks called by emission `k`, in order. -/
def calls (k : Nat) (l : List (Event α)) : List Nat := (callsOf k l).map (·.1)

/-- The event may come next after the history `l`. -/
def Allowed (l : List (Event α)) : Event α → Prop
  /- ids grow and are never used again -/
  | .connected i => (∀ j, .connected j ∈ l → j < i) ∧ .disconnected i ∉ l
  /- only connected callbacks are disconnected -/
  | .disconnected i => Live l i
  /- an emission calls the first connected callback behind all those it has called -/
  | .called k i _ => Live l i ∧ (∀ j ∈ calls k l, j < i) ∧ (∀ j, Live l j → j < i → ∃ m ∈ calls k l, j ≤ m)
  /- a callback is connected when its call ends -/
  | .returned _ i => Live l i
  /- an emission ends when no connected callback is left behind those it has called -/
  | .finished k => ∀ j, Live l j → ∃ m ∈ calls k l, j ≤ m

/-- Histories in which every event was allowed. -/
inductive Valid : List (Event α) → Prop where
  | nil : Valid []
  | snoc (l : List (Event α)) (e : Event α) : Valid l → Allowed l e → Valid (l ++ [e])

/-- The client disconnected something that is not connected. -/
def Misuse (l : List (Event α)) : Prop := ∃ l' i, l = l' ++ [.disconnected i] ∧ Valid l' ∧ ¬ Live l' i

/-- A callback was disconnected while a call of it was running. -/
def DisconnectedWhileRunning (l : List (Event α)) : Prop :=
  ∃ l1 k i a l2 l3, l = l1 ++ [.called k i a] ++ l2 ++ [.disconnected i] ++ l3 ∧ .returned k i ∉ l2

end Utki.Spec
