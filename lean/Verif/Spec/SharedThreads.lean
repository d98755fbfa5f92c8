import Verif.Model.SharedThreads
/-!
# Specification: references used by several threads

Everything here is in terms of what has happened (the list of events), not of the state of the model.
-/
namespace Utki.Spec
open Utki.SharedThreads

/-- The thread that does something. -/
def actor : Event → Nat
  | .made t _ | .copied t _ _ | .used t _ | .usedDead t _ | .sent t _ _ | .received t _ _ | .locked t _ | .lockFailed t _ | .dropped t _
  | .destroyed t _ | .destroyedTwice t _ => t

/-- A new reference to `o` comes into being. -/
def Gains (o : Nat) : Event → Bool
  | .made _ x | .copied _ _ x | .locked _ x => x == o
  | _ => false

/-- A reference to `o` is destroyed. -/
def Loses (o : Nat) : Event → Bool
  | .dropped _ x => x == o
  | _ => false

/-- `o` is destroyed. -/
def Ends (o : Nat) : Event → Bool
  | .destroyed _ x => x == o
  | _ => false

/-- The object `o` is accessed: its constructor runs, or it is used. -/
def Touches (o : Nat) : Event → Bool
  | .made _ x | .used _ x => x == o
  | _ => false

/-- There is a reference to `o`: more have come into being than were destroyed. -/
def Referenced (o : Nat) (es : List Event) : Prop := es.countP (Loses o) < es.countP (Gains o)

/-- The happens-before relation of the events at two places: the order of the steps of each thread; the sending of a message before its arrival; a
decrement of a counter before later decrements of it, if the order of these operations is both a release and an acquire one (all operations on a counter are
read-modify-write operations, so every one continues the release sequences of those before it). -/
inductive HappensBefore (es : List Event) : Nat → Nat → Prop where
  | thread (i j : Nat) (a b : Event) : i < j → es[i]? = some a → es[j]? = some b → actor a = actor b → HappensBefore es i j
  | message (i j t u o m : Nat) : i < j → es[i]? = some (.sent t o m) → es[j]? = some (.received u o m) → HappensBefore es i j
  | counter (i j t u o : Nat) : i < j → es[i]? = some (.dropped t o) → es[j]? = some (.dropped u o) →
      decrementOrder.releases = true → decrementOrder.acquires = true → HappensBefore es i j
  | trans (i j k : Nat) : HappensBefore es i j → HappensBefore es j k → HappensBefore es i k

end Utki.Spec
