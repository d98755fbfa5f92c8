/-!
# Several locks

What threads do with locks and the memory that they protect, as seen from outside, and what this says about who holds a lock and
what a memory location contains. Independent of the implementation.
-/
namespace Utki.Spec.Locks

/-- What threads do. -/
inductive Event where
  /-- thread `t` calls `lock()` of lock `k` -/
  | call (t k : Nat)
  /-- an attempt in `lock()` failed -/
  | failed (t k : Nat)
  /-- `lock()` of lock `k` returns in thread `t` -/
  | locked (t k : Nat)
  /-- thread `t` calls `unlock()` of lock `k` -/
  | unlocked (t k : Nat)
  | read (t l : Nat) (v : Int)
  | write (t l : Nat) (v : Int)
  /-- an access that is a data race: undefined behaviour -/
  | race (t l : Nat)
deriving DecidableEq, Repr

/-- The thread that holds lock `k`: the one of the last return of its `lock()` without an `unlock()` behind it. -/
def owner (k : Nat) (es : List Event) : Option Nat :=
  es.foldl (fun o e => match e with
    | .locked t j => if j = k then some t else o
    | .unlocked _ j => if j = k then none else o
    | _ => o) none

/-- The value last written to the location. -/
def lastWrite (l : Nat) (es : List Event) : Int :=
  es.foldl (fun v e => match e with | .write _ m w => if m = l then w else v | _ => v) 0

/-- Thread `t` is in `lock()` of lock `k`: it has called it, and it has not returned since. -/
def Waiting (t k : Nat) (es : List Event) : Prop := ∃ pre post, es = pre ++ .call t k :: post ∧ .locked t k ∉ post

/-- The thread of an event. -/
def Event.thread : Event → Nat
  | .call t _ | .failed t _ | .locked t _ | .unlocked t _ | .read t _ _ | .write t _ _ | .race t _ => t

/-- The rule that locks are taken in the order of their numbers: a thread that holds the locks `held` calls `lock()` only of greater ones. -/
def InOrder (held : List Nat) (k : Nat) : Prop := ∀ j ∈ held, j < k

/-- No rule. -/
def AnyOrder (_ : List Nat) (_ : Nat) : Prop := True

end Utki.Spec.Locks
