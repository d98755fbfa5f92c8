import Verif.Core
/-!
# Model of `utki::span`

/repo/src/utki/span.hpp:64-651 (the branch used for C++ standards below 26, i.e. always with the
repository's configuration).
-/
namespace Utki

/-- `std::numeric_limits<size_t>::max()` -/
def sizeMax : Nat := 2 ^ 64 - 1

/-- `utki::span<T>` (span.hpp:69-87): `buf` is a pointer into the object `mem` (position `off`),
`size` the number of elements.  The null span is `⟨[], 0, 0⟩`.
The elements are part of the model value so that reading is a function of the span. -/
structure Span (α : Type) where
  mem : List α
  off : Nat
  size : Nat
  deriving DecidableEq, Repr

namespace Span
variable {α : Type}

/-- The elements a span is meant to denote (used in statements, not by the model functions). -/
def contents (s : Span α) : List α := (s.mem.drop s.off).take s.size

/-- The span lies inside its object. -/
def Valid (s : Span α) : Prop := s.off + s.size ≤ s.mem.length

/-- `make_span(buf, size)` on a whole container, span.hpp:549-616 -/
def ofList (l : List α) : Span α := ⟨l, 0, l.length⟩

/-- `empty()`, span.hpp:313-316 -/
def empty (s : Span α) : Bool := s.size == 0

/-- pointer arithmetic `p + n`: defined only up to one past the end of the object -/
def ptrAdd (mem : List α) (p n : Nat) : Res Nat :=
  if p + n ≤ mem.length then .ok (p + n) else .ub .bad_pointer

/-- `operator[](i)`, span.hpp:333-354 -/
def get (dbg : Bool) (s : Span α) (i : Nat) : Res α := do
  ASSERT dbg (i < s.size)
  rd s.mem (s.off + i)

/-- `at(i)`, span.hpp:356-372 -/
def at_ (s : Span α) (i : Nat) : Res α :=
  if i ≥ s.size then .throw .out_of_range
  else rd s.mem (s.off + i)

/-- `end()`, span.hpp:396-400 -/
def end_ (s : Span α) : Res Nat := ptrAdd s.mem s.off s.size

/-- `front()`, span.hpp:443-453 -/
def front (dbg : Bool) (s : Span α) : Res α := do
  ASSERT dbg (!s.empty)
  s.get dbg 0

/-- `back()`, span.hpp:455-465. `size() - 1` is `size_t` arithmetic. -/
def back (dbg : Bool) (s : Span α) : Res α := do
  ASSERT dbg (!s.empty)
  s.get dbg ((s.size + sizeMax) % 2 ^ 64)

/-- `subspan(offset, count)`, span.hpp:467-478. -/
def subspan (dbg : Bool) (s : Span α) (offset : Nat) (count : Nat := sizeMax) : Res (Span α) := do
  let new_p ← ptrAdd s.mem s.off offset
  let e ← s.end_
  ASSERT dbg (new_p ≤ e)
  -- `this->end() - new_p` is a `ptrdiff_t` converted to `size_t`
  let new_s := if count = sizeMax then (if new_p ≤ e then e - new_p else 2 ^ 64 - (new_p - e)) else count
  if dbg then
    let q ← ptrAdd s.mem new_p new_s
    ASSERT dbg (q ≤ e)
  return ⟨s.mem, new_p, new_s⟩

/-- Range-`for` over a span: reads every element from `begin()` to `end()`
(span.hpp:378-400; used by `operator<<`, `std::copy`, `std::equal`, ...). -/
def readFrom (mem : List α) : (count p : Nat) → Res (List α)
  | 0, _ => .ok []
  | n + 1, p => do
    let a ← rd mem p
    let r ← readFrom mem n (p + 1)
    return a :: r

/-- All elements, by iteration. -/
def toList (s : Span α) : Res (List α) := readFrom s.mem s.size s.off

/-- Reverse iteration `rbegin()..rend()`, span.hpp:412-430: `*std::reverse_iterator(p)` reads `p - 1`. -/
def readBack (mem : List α) : (count p : Nat) → Res (List α)
  | 0, _ => .ok []
  | n + 1, p =>
    match p with
    | 0 => .ub .bad_pointer
    | p + 1 => do
      let a ← rd mem p
      let r ← readBack mem n p
      return a :: r

/-- All elements, by reverse iteration. -/
def toListRev (s : Span α) : Res (List α) := do
  let e ← s.end_
  readBack s.mem s.size e

/-- `make_vector(s)`, span.hpp:618-625 -/
def make_vector (s : Span α) : Res (List α) := s.toList

/-- `overlaps(s, p)`, span.hpp:489-493, for a pointer `p` into the same object.
`&*s.begin()` and `&*std::prev(s.end())` need these elements to exist. -/
def overlaps (s : Span α) (p : Nat) : Res Bool := do
  let _ ← rd s.mem s.off
  let e ← s.end_
  if e = 0 then .ub .bad_pointer
  else
    let _ ← rd s.mem (e - 1)
    return decide (s.off ≤ p ∧ p ≤ e - 1)

/-- Element loop of `std::equal` with four random access iterators (sizes are compared first). -/
def equalLoop (eq : α → α → Bool) (m1 m2 : List α) : (count p q : Nat) → Res Bool
  | 0, _, _ => .ok true
  | n + 1, p, q => do
    let a ← rd m1 p
    let b ← rd m2 q
    if eq a b then equalLoop eq m1 m2 n (p + 1) (q + 1) else return false

/-- `deep_equals`, span.hpp:495-504 -/
def deep_equals (eq : α → α → Bool) (l r : Span α) : Res Bool :=
  if l.size ≠ r.size then .ok false else equalLoop eq l.mem r.mem l.size l.off r.off

/-- `deep_not_equals`, span.hpp:506-510 -/
def deep_not_equals (eq : α → α → Bool) (l r : Span α) : Res Bool := do
  return !(← deep_equals eq l r)

/-- `std::lexicographical_compare` as specified by the standard ([alg.lex.comparison]). -/
def lexLoop (lt : α → α → Bool) (m1 m2 : List α) : (n1 n2 p q : Nat) → Res Bool
  | 0, n2, _, _ => .ok (decide (n2 ≠ 0))
  | _ + 1, 0, _, _ => .ok false
  | n1 + 1, n2 + 1, p, q => do
    let a ← rd m1 p
    let b ← rd m2 q
    if lt a b then return true
    if lt b a then return false
    lexLoop lt m1 m2 n1 n2 (p + 1) (q + 1)

/-- `deep_less_than`, span.hpp:512-516 -/
def deep_less_than (lt : α → α → Bool) (l r : Span α) : Res Bool :=
  lexLoop lt l.mem r.mem l.size r.size l.off r.off

/-- `deep_greater_or_equals`, span.hpp:518-522 -/
def deep_greater_or_equals (lt : α → α → Bool) (l r : Span α) : Res Bool := do
  return !(← deep_less_than lt l r)

/-- `deep_greater_than`, span.hpp:524-528 -/
def deep_greater_than (lt : α → α → Bool) (l r : Span α) : Res Bool :=
  deep_less_than lt r l

/-- `deep_less_or_equals`, span.hpp:530-534 -/
def deep_less_or_equals (lt : α → α → Bool) (l r : Span α) : Res Bool := do
  return !(← deep_greater_than lt l r)

/-- `to_uint8_t(s)` / `to_char(s)`, span.hpp:627-649: same address, same size; `char` and `uint8_t` share the byte representation. -/
def to_uint8_t (s : Span Byte) : Span Byte := ⟨s.mem, s.off, s.size⟩
/-- span.hpp:639-649 -/
def to_char (s : Span Byte) : Span Byte := ⟨s.mem, s.off, s.size⟩

/-- `strlen(p)`: position of the first NUL minus `p`; undefined if there is none in the object. -/
def strlenLoop (mem : List Byte) : (fuel p : Nat) → Res Nat
  | 0, _ => .ub .oob_read
  | fuel + 1, p => do
    let b ← rd mem p
    if b = 0 then return 0
    let n ← strlenLoop mem fuel (p + 1)
    return n + 1

/-- `make_span(const char*)`, span.hpp:613-616, and the `span(T*)` constructor, span.hpp:295-297. -/
def ofCStr (mem : List Byte) (p : Nat) : Res (Span Byte) := do
  let n ← strlenLoop mem (mem.length + 1) p
  return ⟨mem, p, n⟩

end Span

/-- `make_string(span)` / `make_string_view(span)`, string.hpp:69-145: constructs from pointer and size, i.e. copies
(views) exactly `size` bytes. -/
def make_string (s : Span Byte) : Res (List Byte) := s.toList
/-- string.hpp:79-93 -/
def make_string_view (s : Span Byte) : Res (List Byte) := s.toList

end Utki
