import Verif.Core
/-!
# `std::map`, `flip_map`, `contains`

Model of /repo/src/utki/utility.hpp 142-214. A `std::map` is modelled by the sequence of its elements in iteration order; the
operations are those of the standard with comparator `lt`.
-/
namespace Utki
namespace OMap

variable {κ ν : Type}

/-- `map.insert(hint, {k, v})`: puts the element at its place in the order unless there is one with an equivalent key; the hint has no
influence on the result. -/
def insert (lt : κ → κ → Bool) (k : κ) (v : ν) : List (κ × ν) → List (κ × ν)
  | [] => [(k, v)]
  | (k', v') :: m =>
    if lt k' k then (k', v') :: insert lt k v m
    else if lt k k' then (k, v) :: (k', v') :: m
    else (k', v') :: m

/-- `map[k]` as an lvalue, modified by `f`: an element with the value `d` is inserted first if the key is missing. -/
def upsert (lt : κ → κ → Bool) (k : κ) (d : ν) (f : ν → ν) : List (κ × ν) → List (κ × ν)
  | [] => [(k, f d)]
  | (k', v') :: m =>
    if lt k' k then (k', v') :: upsert lt k d f m
    else if lt k k' then (k, f d) :: (k', v') :: m
    else (k', f v') :: m

/-- `map.find(k)`: the position of the element with an equivalent key, the size (that is `end()`) if there is none. -/
def find (lt : κ → κ → Bool) (k : κ) : List (κ × ν) → Nat
  | [] => 0
  | (k', _) :: m => if lt k' k then find lt k m + 1 else if lt k k' then m.length + 1 else 0

/-- `flip_pair`, utility.hpp 147-151. -/
def flipPair (p : κ × ν) : ν × κ := (p.2, p.1)

/-- `flip_map`, utility.hpp 158-164 and 172-178 (they differ in the comparator of the result only): `std::transform` of `[begin, end)`
through `std::inserter(ret, ret.begin())`. -/
def flipMap (ltv : ν → ν → Bool) (m : List (κ × ν)) : List (ν × κ) :=
  m.foldl (fun ret p => insert ltv (flipPair p).1 (flipPair p).2 ret) []

/-- `contains` for `std::map`, utility.hpp 196-201: `find(value) != cend()`. -/
def containsMap (lt : κ → κ → Bool) (m : List (κ × ν)) (k : κ) : Bool := find lt k m != m.length

/-- `std::find`: position of the first element equal to the value, the size if there is none. -/
def stdFind (eq : κ → κ → Bool) (x : κ) : List κ → Nat
  | [] => 0
  | y :: l => if eq y x then 0 else stdFind eq x l + 1

/-- `contains` for other containers, utility.hpp 202-213. -/
def contains (eq : κ → κ → Bool) (l : List κ) (x : κ) : Bool := stdFind eq x l != l.length

/-- `contains` for `std::unordered_map`, utility.hpp 196-201: `find` of a hash map whose hash respects `eq` finds the element with an
equal key wherever it is stored; the storage order `m` is arbitrary. -/
def containsUnordered (eq : κ → κ → Bool) (m : List (κ × ν)) (k : κ) : Bool := stdFind eq k (m.map (·.1)) != m.length

end OMap
end Utki
