import Verif.Model.String
/-!
# Model of `utki::word_wrap`

/repo/src/utki/string.cpp:159-246. Iterators into the `string_view` are positions; `std::distance` is the (signed)
difference of positions; converting it to `size_t` or `unsigned` wraps modulo 2^64 or 2^32.
-/
namespace Utki

/-- Conversion of a `ptrdiff_t` to `size_t`, done by passing `std::distance(..)` to `substr`. -/
def sizeT (d : Int) : Nat := (d % 2 ^ 64).toNat

/-- The local variables of `word_wrap`, string.cpp:161-170: `line_begin`, `span_begin`, `word_ended`, `ret`. -/
structure Ww where
  lb : Nat
  sb : Nat
  we : Bool
  ret : List (List Byte)
deriving DecidableEq, Repr

/-- `std::distance(line_begin, i)` compared with `width`, string.cpp:174-178: `std::cmp_equal` in C++20, otherwise a
comparison after conversion to `unsigned`. -/
def distEq (cpp20 : Bool) (d : Int) (width : BitVec 32) : Bool :=
  if cpp20 then d == (width.toNat : Int) else BitVec.ofInt 32 d == width

/-- The line break because of the width, string.cpp:181-207. -/
def wwBreak (dbg : Bool) (s : List Byte) (i : Nat) (st : Ww) : Res Ww := do
  let c ← rd s st.sb
  if c = ch ' ' then
    if st.we then do
      let l ← substr s st.lb (sizeT ((st.sb : Int) - st.lb))
      return { lb := st.sb + 1, sb := st.sb, we := false, ret := st.ret ++ [l] }
    else
      return { st with lb := i, sb := i, we := false }
  else if st.we then do
    ASSERT dbg ((st.sb : Int) - st.lb ≥ 1)
    if st.sb = 0 then Res.ub .bad_pointer -- `std::prev` of the begin iterator
    else do
      let l ← substr s st.lb (sizeT (((st.sb - 1 : Nat) : Int) - st.lb))
      return { lb := st.sb, sb := st.sb, we := false, ret := st.ret ++ [l] }
  else do
    let l ← substr s st.lb (sizeT ((i : Int) - st.lb))
    return { lb := i, sb := i, we := false, ret := st.ret ++ [l] }

/-- The `switch (*i)`, string.cpp:209-227. -/
def wwChar (s : List Byte) (i : Nat) (c : Byte) (st : Ww) : Res Ww :=
  if c = ch ' ' then do
    let d ← rd s st.sb
    if d ≠ ch ' ' then return { st with sb := i, we := true } else return st
  else if c = ch '\n' then do
    let l ← substr s st.lb (sizeT ((i : Int) - st.lb))
    return { lb := i + 1, sb := i + 1, we := false, ret := st.ret ++ [l] }
  else do
    let d ← rd s st.sb
    if d = ch ' ' then return { st with sb := i } else return st

/-- One iteration of the loop, string.cpp:172-227. -/
def wwStep (cpp20 dbg : Bool) (width : BitVec 32) (s : List Byte) (i : Nat) (st : Ww) : Res Ww := do
  ASSERT dbg ((i : Int) - st.lb ≥ 0)
  let c ← rd s i
  let st ← if c ≠ ch '\n' ∧ distEq cpp20 ((i : Int) - st.lb) width then wwBreak dbg s i st else pure st
  wwChar s i c st

/-- The loop, string.cpp:171: `i` runs up to the end; running out of `fuel` would be divergence. -/
def wwLoop (cpp20 dbg : Bool) (width : BitVec 32) (s : List Byte) : (fuel i : Nat) → Ww → Res Ww
  | fuel, i, st =>
    if i = s.length then .ok st
    else match fuel with
      | 0 => .diverge
      | fuel + 1 => do
        let st ← wwStep cpp20 dbg width s i st
        wwLoop cpp20 dbg width s fuel (i + 1) st

/-- Adding the last string, string.cpp:231-245. -/
def wwLast (s : List Byte) (st : Ww) : Res (List (List Byte)) := do
  let space ← if st.sb ≠ s.length then (do let c ← rd s st.sb; return decide (c = ch ' ')) else (return false)
  if space then
    if st.we then do
      let l ← substr s st.lb (sizeT ((st.sb : Int) - st.lb))
      return st.ret ++ [l]
    else return st.ret
  else do
    let l ← substr s st.lb (sizeT ((s.length : Int) - st.lb))
    return st.ret ++ [l]

/-- `word_wrap(str, width)`, string.cpp:159-246. -/
def word_wrap (cpp20 dbg : Bool) (s : List Byte) (width : BitVec 32) : Res (List (List Byte)) :=
  if width = 0 then .ok [s]
  else do
    let st ← wwLoop cpp20 dbg width s s.length 0 { lb := 0, sb := 0, we := false, ret := [] }
    wwLast s st

end Utki
