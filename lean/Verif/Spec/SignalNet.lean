import Verif.Model.SignalNet
import Verif.Spec.Signal
/-!
# What may happen at several signals

Which events may come next after a given history; the events of each signal are those allowed for a single one.
-/
namespace Utki.Spec.Net
open SignalNet
variable {α : Type}

/-- The events of the signal `s`. -/
def history (s : Nat) (l : List (Event α)) : List (Signal.Event α) :=
  l.filterMap (fun e => match e with | .on t e => if t = s then some e else none | _ => none)

/-- The signal `s` exists after the history `l`. -/
def Alive (l : List (Event α)) (s : Nat) : Prop := .created s ∈ l ∧ .destroyed s ∉ l

/-- The callback with the id `i` is connected to the signal `s`. -/
def Connected (l : List (Event α)) (s i : Nat) : Prop := Live (history s l) i

/-- The event may come next after the history `l`. -/
def Allowed (l : List (Event α)) : Event α → Prop
  | .created s => ∀ t, .created t ∈ l → t < s
  | .used s => Alive l s
  | .destroyed s => Alive l s
  /- allowed at that signal, and ids are unique across signals -/
  | .on s e => Alive l s ∧ Spec.Allowed (history s l) e ∧ ∀ i, e = .connected i → ∀ t j, .on t (.connected j) ∈ l → j < i

/-- Histories in which every event was allowed. -/
inductive Valid : List (Event α) → Prop where
  | nil : Valid []
  | snoc (l : List (Event α)) (e : Event α) : Valid l → Allowed l e → Valid (l ++ [e])

/-- A member function was called on a signal that did not exist, or `disconnect` for something that was not connected to the signal. -/
def Misuse (l : List (Event α)) : Prop :=
  ∃ l' s, Valid l' ∧ ((l = l' ++ [.used s] ∧ ¬ Alive l' s) ∨ ∃ i, l = l' ++ [.on s (.disconnected i)] ∧ ¬ Connected l' s i)

/-- While a call of a callback was running it was disconnected, or its signal destroyed. -/
def PulledAway (l : List (Event α)) : Prop :=
  ∃ l1 s k i a l2 e l3, l = l1 ++ [.on s (.called k i a)] ++ l2 ++ [e] ++ l3 ∧ .on s (.returned k i) ∉ l2 ∧
    (e = .on s (.disconnected i) ∨ e = .destroyed s)

/-- A signal is about to be destroyed although a callback is connected to it. -/
def DestroyedConnected (l : List (Event α)) : Prop := ∃ l' s i, l = l' ++ [.used s] ∧ Valid l' ∧ Alive l' s ∧ Connected l' s i

/-- Emission number `k` of the signal `s` runs its callbacks one after the other, each with what is left of the argument by those before it, until one throws; each is run like
a program of its own and leaves the callbacks of `s` as they are. -/
inductive InTurn {γ σ : Type} (dbg : Bool) (body : γ → α → Prog γ α σ) (moved : α → α) (s k : Nat) :
    List (Nat × γ) → α → World γ α σ → Res Unit × World γ α σ → Prop where
  | done (a : α) (w : World γ α σ) : InTurn dbg body moved s k [] a w (.ok (), w.add (.on s (.finished k)))
  | call (fuel i : Nat) (c : γ) (cs : List (Nat × γ)) (a : α) (w w1 : World γ α σ) (out : Res Unit × World γ α σ) :
      program dbg body moved fuel (body c a) (w.add (.on s (.called k i a))) = (.ok (), w1) → w1.get s = w.get s →
      InTurn dbg body moved s k cs (moved a) (w1.add (.on s (.returned k i))) out → InTurn dbg body moved s k ((i, c) :: cs) a w out
  | thrown (fuel i : Nat) (c : γ) (cs : List (Nat × γ)) (a : α) (w w1 : World γ α σ) (e : Err) :
      program dbg body moved fuel (body c a) (w.add (.on s (.called k i a))) = (.throw e, w1) → w1.get s = w.get s →
      InTurn dbg body moved s k ((i, c) :: cs) a w (.throw e, w1.add (.on s (.returned k i)))

end Utki.Spec.Net
