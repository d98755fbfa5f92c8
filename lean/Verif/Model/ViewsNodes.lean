import Verif.Model.ViewsLive
/-!
# Views of lists whose elements come and go during the loop, /repo/src/utki/views.hpp

The collections are `std::list`s (or sets, maps): inserting and erasing elements does not invalidate iterators to the other elements, nor the end iterator. Elements have identities, which are
numbers; `nodes s k` are those of the collection `k` in state `s`, in order, each once. An iterator is the element it points to, or `none` for the end iterator. Using an iterator to an element
that has been erased is undefined, also comparing it. The body of the loop has any effects.
-/
namespace Utki
namespace ViewsNodes
open ViewsLive (look)

variable {σ : Type} (nodes : σ → Nat → List Nat)

/-- An iterator into a collection. -/
abbrev It := Option Nat

/-- `++` of an iterator to an element. -/
def after (l : List Nat) (x : Nat) : Res It :=
  match l.dropWhile (· != x) with
  | [] => .ub .bad_iterator
  | _ :: r => .ok r.head?

/-- `--` of an iterator; the result always points to an element. -/
def before (l : List Nat) : It → Res Nat
  | none => match l.getLast? with
    | none => .ub .bad_iterator
    | some p => .ok p
  | some y => if y ∈ l then match (l.takeWhile (· != y)).getLast? with
      | none => .ub .bad_iterator
      | some p => .ok p
    else .ub .bad_iterator

/-- `*` of an iterator, for the address only. -/
def deref (l : List Nat) : It → Res Nat
  | none => .ub .bad_iterator
  | some x => if x ∈ l then .ok x else .ub .bad_iterator

/-- Comparison of iterators to the same collection. -/
def same (l : List Nat) (a b : It) : Res Bool :=
  if (∀ x ∈ a, x ∈ l) ∧ (∀ x ∈ b, x ∈ l) then .ok (decide (a = b)) else .ub .bad_iterator

/-- `utki::next(c.begin(), n)`, utility.hpp 70-83; that this makes `n` steps is C65. -/
def nextBegin (l : List Nat) (n : Nat) : Res It :=
  if n ≤ l.length then .ok l[n]? else .ub .bad_iterator

/-- A loop over one collection from an iterator to the end iterator. `fuel` bounds the number of rounds. -/
def forwardRun (body : Nat → Meth σ Unit) (k : Nat) : Nat → It → Meth σ Unit
  | fuel, it => do
    let stop ← look (fun s => same (nodes s k) it none)
    if stop then pure ()
    else match fuel with
      | 0 => Meth.lift .diverge
      | fuel + 1 => do
        let x ← look (fun s => deref (nodes s k) it)
        body x
        let it' ← look (fun s => after (nodes s k) x)
        forwardRun body k fuel it'

/-- `for (auto& x : skip_front<n>(c)) body(x);`, views.hpp 38-73. -/
def skipFor (dbg : Bool) (n k : Nat) (body : Nat → Meth σ Unit) (fuel : Nat) : Meth σ Unit := do
  look (fun s => ASSERT dbg (decide (n ≤ (nodes s k).length)))
  let b ← look (fun s => nextBegin (nodes s k) n)
  forwardRun nodes body k fuel b

/-- A loop with reverse iterators, given by their base; `e` is the base of `rend`. -/
def backwardRun (body : Nat → Meth σ Unit) (k : Nat) (e : It) : Nat → It → Meth σ Unit
  | fuel, b => do
    let stop ← look (fun s => same (nodes s k) b e)
    if stop then pure ()
    else match fuel with
      | 0 => Meth.lift .diverge
      | fuel + 1 => do
        let x ← look (fun s => before (nodes s k) b)
        body x
        let b' ← look (fun s => before (nodes s k) b)
        backwardRun body k e fuel (some b')

/-- `for (auto& x : reverse(c)) body(x);`, views.hpp 82-115. The end of the range is determined before the loop. -/
def reverseFor (k : Nat) (body : Nat → Meth σ Unit) (fuel : Nat) : Meth σ Unit := do
  let e ← look (fun s => .ok (nodes s k).head?)
  backwardRun nodes body k e fuel none

/-- `zip_view::end`, views.hpp 190-198. -/
def zipEndAt (n : Nat) (s : σ) : List Nat → Res (List It)
  | [] => .ok []
  | k :: ks => do
    let i ← nextBegin (nodes s k) n
    let is ← zipEndAt n s ks
    pure (i :: is)

/-- `zip_view::iterator::operator*`, views.hpp 163-171: the collections and the elements. -/
def zipRefs (s : σ) : List Nat → List It → Res (List (Nat × Nat))
  | k :: ks, i :: is => do
    let x ← deref (nodes s k) i
    let rs ← zipRefs s ks is
    pure ((k, x) :: rs)
  | _, _ => .ok []

/-- `zip_view::iterator::operator++`, views.hpp 151-161. -/
def zipInc (s : σ) : List Nat → List It → Res (List It)
  | k :: ks, i :: is => do
    let x ← deref (nodes s k) i
    let i' ← after (nodes s k) x
    let is' ← zipInc s ks is
    pure (i' :: is')
  | _, _ => .ok []

/-- `zip_view::iterator::operator!=`, views.hpp 146-149: only the first iterators are compared. -/
def zipSame (s : σ) : List Nat → List It → List It → Res Bool
  | k :: _, i :: _, e :: _ => same (nodes s k) i e
  | _, _, _ => .ok true

/-- The loop over a zip view. -/
def zipRun (body : List (Nat × Nat) → Meth σ Unit) (ids : List Nat) (e : List It) : Nat → List It → Meth σ Unit
  | fuel, is => do
    let stop ← look (fun s => zipSame nodes s ids is e)
    if stop then pure ()
    else match fuel with
      | 0 => Meth.lift .diverge
      | fuel + 1 => do
        let rs ← look (fun s => zipRefs nodes s ids is)
        body rs
        let is' ← look (fun s => zipInc nodes s ids is)
        zipRun body ids e fuel is'

/-- `for (auto t : view) body(t);` for a zip view that remembers the least size `n`. -/
def zipFor (ids : List Nat) (n : Nat) (body : List (Nat × Nat) → Meth σ Unit) (fuel : Nat) : Meth σ Unit := do
  let b ← look (fun s => .ok (ids.map (fun k => (nodes s k).head?)))
  let e ← look (fun s => zipEndAt nodes n s ids)
  zipRun nodes body ids e fuel b

end ViewsNodes
end Utki
