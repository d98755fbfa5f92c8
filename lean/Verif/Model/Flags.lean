import Verif.Core
/-!
# `flags`

Model of /repo/src/utki/flags.hpp. `std::bitset<N>` is a bit vector of `N` bits; `N = size_t(enum_size)`. An enumerator is
given by its underlying integer value, so that enumerators without a flag (`enum_size` itself, negative or larger values) can
be passed as in C++.
-/
namespace Utki

/-- `class flags`, flags.hpp 73-85. -/
structure Flags (N : Nat) where
  bits : BitVec N
deriving DecidableEq, Repr

namespace Flags
variable {N : Nat}

/-- `size_t(flag)`. -/
def toIndex (e : Int) : Nat := (e % 2 ^ 64).toNat

/-- `std::bitset::operator[](i)`: undefined for positions outside. -/
def bitAt (b : BitVec N) (i : Nat) : Res Bool := if i < N then .ok (b.getLsbD i) else .ub .oob_read

/-- Assign one bit. -/
def put (b : BitVec N) (i : Nat) (v : Bool) : BitVec N :=
  if v then b ||| BitVec.twoPow N i else b &&& ~~~(BitVec.twoPow N i)

/-- `std::bitset::set(i, v)`: throws `std::out_of_range` for positions outside. -/
def bitsetSet (b : BitVec N) (i : Nat) (v : Bool) : Res (BitVec N) := if i < N then .ok (put b i v) else .throw .out_of_range

/-- `flags(bool initial_value = false)`, flags.hpp 93-98. -/
def ofBool (v : Bool) : Flags N := if v then ⟨BitVec.allOnes N⟩ else ⟨0#N⟩

/-- The loop of the constructor from a list, flags.hpp 106-108. -/
def ofListLoop : List Int → BitVec N → Res (BitVec N)
  | [], b => .ok b
  | v :: vs, b => do
    let b ← bitsetSet b (toIndex v) true
    ofListLoop vs b

/-- `flags(std::initializer_list<enum_type>)` and `make_flags`, flags.hpp 104-109, 353-357. -/
def ofList (vs : List Int) : Res (Flags N) := do
  let b ← ofListLoop vs 0#N
  return ⟨b⟩

/-- `flags(enum_type)`, flags.hpp 116-118. -/
def ofEnum (e : Int) : Res (Flags N) := ofList [e]

/-- `operator|(enum_type, enum_type)`, flags.hpp 364-374. -/
def orEnums (e1 e2 : Int) : Res (Flags N) := ofList [e1, e2]

/-- `size()`, flags.hpp 120-123. -/
def size (_ : Flags N) : Nat := N

/-- `operator[](flag) const`, flags.hpp 125-128. -/
def index (f : Flags N) (e : Int) : Res Bool := bitAt f.bits (toIndex e)

/-- `f[flag] = v` with the reference returned by the non-const `operator[]`, flags.hpp 130-133. -/
def indexAssign (f : Flags N) (e : Int) (v : Bool) : Res (Flags N) :=
  if toIndex e < N then .ok ⟨put f.bits (toIndex e) v⟩ else .ub .oob_write

/-- `get`, flags.hpp 141-145. -/
def get (dbg : Bool) (f : Flags N) (e : Int) : Res Bool := do
  ASSERT dbg (decide (e < (N : Int)))
  bitAt f.bits (toIndex e)

/-- `set(flag, value)`, flags.hpp 153-166: an exception of the bitset is caught. -/
def set (dbg : Bool) (f : Flags N) (e : Int) (v : Bool) : Res (Flags N) := do
  ASSERT dbg (decide (e < (N : Int)))
  match bitsetSet f.bits (toIndex e) v with
  | .ok b => return ⟨b⟩
  | .throw _ => do ASSERT dbg false; return f
  | .ub u => .ub u
  | .abort => .abort
  | .terminate => .terminate
  | .diverge => .diverge

/-- `set(bool)`, flags.hpp 173-181. -/
def setAll (_ : Flags N) (v : Bool) : Flags N := if v then ⟨BitVec.allOnes N⟩ else ⟨0#N⟩

/-- `clear(flag)`, flags.hpp 188-201. -/
def clear (dbg : Bool) (f : Flags N) (e : Int) : Res (Flags N) := do
  ASSERT dbg (decide (e < (N : Int)))
  match bitsetSet f.bits (toIndex e) false with
  | .ok b => return ⟨b⟩
  | .throw _ => do ASSERT dbg false; return f
  | .ub u => .ub u
  | .abort => .abort
  | .terminate => .terminate
  | .diverge => .diverge

/-- `clear()`, flags.hpp 207-211. -/
def clearAll (_ : Flags N) : Flags N := ⟨0#N⟩

/-- `is_clear`, flags.hpp 218-221. -/
def is_clear (f : Flags N) : Bool := f.bits == 0#N

/-- `is_set`, flags.hpp 228-231. -/
def is_set (f : Flags N) : Bool := f.bits == BitVec.allOnes N

/-- `invert`, flags.hpp 237-241. -/
def invert (f : Flags N) : Flags N := ⟨~~~f.bits⟩

/-- `operator!=`, flags.hpp 249-252. -/
def ne (f g : Flags N) : Bool := f.bits != g.bits

/-- `operator==`, flags.hpp 260-263. -/
def eq (f g : Flags N) : Bool := f.bits == g.bits

/-- `operator~`, flags.hpp 269-272. -/
def not (f : Flags N) : Flags N := invert f

/-- `operator&=`, flags.hpp 279-283. -/
def andAssign (f g : Flags N) : Flags N := ⟨f.bits &&& g.bits⟩

/-- `operator&`, flags.hpp 290-293. -/
def and (f g : Flags N) : Flags N := andAssign f g

/-- `operator|=`, flags.hpp 300-304. -/
def orAssign (f g : Flags N) : Flags N := ⟨f.bits ||| g.bits⟩

/-- `operator|`, flags.hpp 311-314. -/
def or (f g : Flags N) : Flags N := orAssign f g

/-- `operator|(enum_type) const`, flags.hpp 316-319. -/
def orEnum (dbg : Bool) (f : Flags N) (e : Int) : Res (Flags N) := set dbg f e true

/-- `operator^=`, flags.hpp 326-330. -/
def xorAssign (f g : Flags N) : Flags N := ⟨f.bits ^^^ g.bits⟩

/-- `operator^`, flags.hpp 337-340. -/
def xor (f g : Flags N) : Flags N := xorAssign f g

/-- `operator<<`, flags.hpp 342-345: `std::bitset` prints the highest position first. -/
def print (f : Flags N) : List Byte := (List.range N).map (fun i => if f.bits.getLsbD (N - 1 - i) then ch '1' else ch '0')

/-- The operations that change a flags object. -/
inductive Op (N : Nat) where
  | set (e : Int) (v : Bool)
  | clear (e : Int)
  | indexAssign (e : Int) (v : Bool)
  | setAll (v : Bool)
  | clearAll
  | invert
  | andAssign (g : Flags N)
  | orAssign (g : Flags N)
  | xorAssign (g : Flags N)
  | assign (g : Flags N)

/-- One operation. -/
def step (dbg : Bool) (f : Flags N) : Op N → Res (Flags N)
  | .set e v => set dbg f e v
  | .clear e => clear dbg f e
  | .indexAssign e v => indexAssign f e v
  | .setAll v => .ok (setAll f v)
  | .clearAll => .ok (clearAll f)
  | .invert => .ok (invert f)
  | .andAssign g => .ok (andAssign f g)
  | .orAssign g => .ok (orAssign f g)
  | .xorAssign g => .ok (xorAssign f g)
  | .assign g => .ok g

/-- A history of operations. -/
def run (dbg : Bool) : Flags N → List (Op N) → Res (Flags N)
  | f, [] => .ok f
  | f, o :: os => do
    let f ← step dbg f o
    run dbg f os

end Flags
end Utki
