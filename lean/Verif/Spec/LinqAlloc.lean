import Verif.Spec.TreeAlloc
import Verif.Model.LinqAlloc
/-! # Specification of the memory that `linq` uses -/
namespace Utki.Spec
open TreeAlloc LinqAlloc
variable {α β κ : Type}

/-- The values of the elements. -/
def valuesOf (os : List (Obj α)) : List α := os.map (·.val)

/-- The blocks of the elements. -/
def blocksObjs (os : List (Obj α)) : List Nat := os.flatMap (·.mem)

/-- The blocks that a vector owns. -/
def blocksBuf (v : Buf α) : List Nat := v.block.toList ++ blocksObjs v.elems

/-- The blocks that a map of vectors owns. -/
def blocksMap (m : List (κ × Entry α)) : List Nat := m.flatMap (fun e => e.2.node :: blocksBuf e.2.vec)

/-- The map without its memory. -/
def plainMap (m : List (κ × Entry α)) : List (κ × List α) := m.map (fun e => (e.1, valuesOf e.2.vec.elems))

/-- What an operation leaves of the elements it takes to its result: constant elements stay, others are moved from. -/
def takenFrom (konst : Bool) (moved : α → α) (takes : α → Bool) (os : List (Obj α)) : List (Obj α) :=
  os.map (fun o => if takes o.val && !konst then ⟨moved o.val, []⟩ else o)

/-- How an operation on the aggregator with the collection in `s.src` may end. Either it returns with the result in `ret`, having taken the elements that `takes` says from the collection, and
in use are the blocks of the result, of the collection and the others. Or a request for memory has failed: then `std::bad_alloc` leaves it, nothing is left of the result, the elements up
to some point have been taken, and in use are the blocks of the collection and the others. -/
def AllOrRest {ρ : Type} (op : Meth (LSt α ρ) Unit) (blocks : ρ → List Nat) (good : ρ → Prop) (konst : Bool) (moved : α → α) (takes : α → Bool) (s : LSt α ρ) (others : List Nat) : Prop :=
  (∃ s', op s = (.ok (), s') ∧ good s'.ret ∧ s'.src = { s.src with elems := takenFrom konst moved takes s.src.elems } ∧
    InUse s'.mem (blocks s'.ret ++ (blocksBuf s'.src ++ others))) ∨
  (∃ s' done rest, op s = (.throw .bad_alloc, s') ∧ false ∈ s.mem.plan ∧ blocks s'.ret = [] ∧ s.src.elems = done ++ rest ∧
    s'.src = { s.src with elems := takenFrom konst moved takes done ++ rest } ∧ InUse s'.mem (blocksBuf s'.src ++ others))

/-- A function of the user that makes an object with the value `x`: it returns one, or a request for memory has failed and it throws `std::bad_alloc` without leaving anything behind. -/
def Makes (m : Meth Mem (Obj β)) (x : β) : Prop :=
  ∀ s bs, InUse s bs →
    (∃ o s', m s = (.ok o, s') ∧ o.val = x ∧ InUse s' (o.mem ++ bs) ∧ s'.plan <:+ s.plan) ∨
    (∃ s', m s = (.throw .bad_alloc, s') ∧ InUse s' bs ∧ false ∈ s.plan)

end Utki.Spec
