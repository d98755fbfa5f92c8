import Verif.Model.Views
/-!
# Views that are kept, /repo/src/utki/views.hpp

A view refers to its collections and can be iterated over later, when they have changed, and several times; the body of the loop can have any effects. Here the collections are numbered, and of the
state of the program, `σ`, only their sizes matter to the views. A reference to an element is the number of the collection and the index. The same collection may occur several times in one view,
and collections may have different types of elements. Iterators are positions, as in `Model/Views`.
-/
namespace Utki
namespace ViewsLive
open Views

variable {σ : Type} (size : σ → Nat → Nat)

/-- A reference to an element: collection and index. -/
abbrev Ref := Nat × Nat

/-- `zip_view`, views.hpp 122-125: the collections, and the least size they had when it was made. -/
structure ZipView where
  ids : List Nat
  min : Nat
deriving DecidableEq, Repr

/-- `zip(c1, ..., cn)`, views.hpp 127-130, 205-209; not defined without collections. -/
def zipMake (ids : List Nat) : Meth σ ZipView := fun s =>
  match ids with
  | [] => (.ub .bad_argument, s)
  | k :: ks => (.ok ⟨ids, ks.foldl (fun m j => min m (size s j)) (size s k)⟩, s)

/-- The state is not changed. -/
def look {α : Type} (f : σ → Res α) : Meth σ α := fun s => (f s, s)

/-- `zip_view::end`, views.hpp 190-198. -/
def zipEndAt (n : Nat) (s : σ) : List Nat → Res (List Nat)
  | [] => .ok []
  | k :: ks => do
    let i ← next 64 (size s k) 0 n
    let is ← zipEndAt n s ks
    pure (i.1 :: is)

/-- `zip_view::iterator::operator*`, views.hpp 163-171: the references, if there are such elements. -/
def zipRefs (s : σ) : List Nat → List Nat → Res (List Ref)
  | k :: ks, i :: is =>
    if i < size s k then do
      let rs ← zipRefs s ks is
      pure ((k, i) :: rs)
    else .ub .bad_iterator
  | _, _ => .ok []

/-- `zip_view::iterator::operator++`, views.hpp 151-161. -/
def zipInc (s : σ) : List Nat → List Nat → Res (List Nat)
  | k :: ks, i :: is => do
    let i' ← advance 64 (size s k) i 1
    let is' ← zipInc s ks is
    pure (i' :: is')
  | _, _ => .ok []

/-- The loop; `!=` compares the first iterators, views.hpp 146-149. `fuel` bounds the number of rounds. -/
def zipRun (body : List Ref → Meth σ Unit) (ids e : List Nat) : Nat → List Nat → Meth σ Unit
  | fuel, is =>
    if is.head? = e.head? then pure ()
    else match fuel with
      | 0 => Meth.lift .diverge
      | fuel + 1 => do
        let rs ← look (fun s => zipRefs size s ids is)
        body rs
        let is' ← look (fun s => zipInc size s ids is)
        zipRun body ids e fuel is'

/-- `for (auto t : view) body(t);` for a zip view. -/
def zipFor (v : ZipView) (body : List Ref → Meth σ Unit) (fuel : Nat) : Meth σ Unit := do
  let e ← look (fun s => zipEndAt size v.min s v.ids)
  zipRun size body v.ids e fuel (v.ids.map (fun _ => 0))

/-- A loop over one collection from position `i` to `e`. -/
def forwardRun (body : Ref → Meth σ Unit) (k e : Nat) : Nat → Nat → Meth σ Unit
  | fuel, i =>
    if i = e then pure ()
    else match fuel with
      | 0 => Meth.lift .diverge
      | fuel + 1 => do
        look (fun s => if i < size s k then .ok () else .ub .bad_iterator)
        body (k, i)
        let i' ← look (fun s => advance 64 (size s k) i 1)
        forwardRun body k e fuel i'

/-- `for (auto& x : skip_front<n>(c)) body(x);`, views.hpp 38-73. -/
def skipFor (dbg : Bool) (n k : Nat) (body : Ref → Meth σ Unit) (fuel : Nat) : Meth σ Unit := do
  look (fun s => ASSERT dbg (decide (n ≤ size s k)))
  let b ← look (fun s => next 64 (size s k) 0 n)
  let e ← look (fun s => .ok (size s k))
  forwardRun size body k e fuel b.1

/-- A loop with reverse iterators, given by their base. -/
def backwardRun (body : Ref → Meth σ Unit) (k : Nat) : Nat → Nat → Meth σ Unit
  | fuel, i =>
    if i = 0 then pure ()
    else match fuel with
      | 0 => Meth.lift .diverge
      | fuel + 1 => do
        let b ← look (fun s => advance 64 (size s k) i (-1))
        look (fun s => if b < size s k then .ok () else .ub .bad_iterator)
        body (k, b)
        let i' ← look (fun s => advance 64 (size s k) i (-1))
        backwardRun body k fuel i'

/-- `for (auto& x : reverse(c)) body(x);`, views.hpp 82-115. -/
def reverseFor (k : Nat) (body : Ref → Meth σ Unit) (fuel : Nat) : Meth σ Unit := do
  let b ← look (fun s => .ok (size s k))
  backwardRun size body k fuel b

end ViewsLive
end Utki
