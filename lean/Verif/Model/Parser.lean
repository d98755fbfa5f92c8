import Verif.Model.Number
import Verif.Model.String
/-!
# Model of `utki::string_parser`

/repo/src/utki/string.hpp:379-620, /repo/src/utki/string.cpp:319-490. The only field, `std::string_view view`, is
represented by the characters it views.
-/
namespace Utki

/-- `class string_parser`, string.hpp:378-380: the characters left. -/
abbrev Parser := List Byte

namespace Parser

/-- `view.substr(pos)`, assigned to `view`. -/
def advance (pos : Nat) : Meth Parser Unit := do
  let v ← Meth.get
  let v' ← Meth.lift (substr v pos v.length)
  Meth.set v'

/-- `is_space(c)`, string.cpp:319-329 -/
def is_space (c : Byte) : Bool :=
  c == ch ' ' || c == ch '\n' || c == ch '\t' || c == ch '\r' || c == 0x0b || c == 0x0c

/-- `empty()`, string.hpp:610-613 -/
def empty (p : Parser) : Bool := p.isEmpty
/-- `size()`, string.hpp:619-622 -/
def size (p : Parser) : Nat := p.length

/-- The loop of `skip_whitespaces`, string.cpp:334-339: `pos` after the loop. -/
def skipWsLoop : List Byte → (pos : Nat) → Nat
  | [], pos => pos
  | c :: cs, pos => if !is_space c then pos else skipWsLoop cs (pos + 1)

/-- `skip_whitespaces()`, string.cpp:331-341 -/
def skip_whitespaces : Meth Parser Unit := do
  let v ← Meth.get
  advance (skipWsLoop v 0)

/-- The loop of `skip_whitespaces_and_comma`, string.cpp:348-360. -/
def skipWsCommaLoop : List Byte → (pos : Nat) → (comma_skipped : Bool) → Nat
  | [], pos, _ => pos
  | c :: cs, pos, skipped =>
    if is_space c then skipWsCommaLoop cs (pos + 1) skipped
    else if c == ch ',' then
      if skipped then pos else skipWsCommaLoop cs (pos + 1) true
    else pos

/-- `skip_whitespaces_and_comma()`, string.cpp:343-362 -/
def skip_whitespaces_and_comma : Meth Parser Unit := do
  let v ← Meth.get
  advance (skipWsCommaLoop v 0 false)

/-- The loop of `skip_inclusive_until`, string.cpp:366-371; `fuel` running out is divergence. -/
def skipUntilLoop (c : Byte) : (fuel : Nat) → Meth Parser Unit
  | 0 => Meth.lift .diverge
  | fuel + 1 => do
    let v ← Meth.get
    if v.isEmpty then return ()
    else do
      let front ← Meth.lift (rd v 0)
      if front = c then advance 1
      else do
        advance 1
        skipUntilLoop c fuel

/-- `skip_inclusive_until(c)`, string.cpp:364-372 -/
def skip_inclusive_until (c : Byte) : Meth Parser Unit := do
  let v ← Meth.get
  skipUntilLoop c (v.length + 1)

/-- The loop of `skip_inclusive_until_one_of`, string.cpp:376-386. `std::find` is `List.find?`. -/
def skipUntilOneOfLoop (cs : List Byte) : (fuel : Nat) → Meth Parser Byte
  | 0 => Meth.lift .diverge
  | fuel + 1 => do
    let v ← Meth.get
    if v.isEmpty then return 0
    else do
      let front ← Meth.lift (rd v 0)
      match cs.find? (· == front) with
      | some x => do
        advance 1
        return x
      | none => do
        advance 1
        skipUntilOneOfLoop cs fuel

/-- `skip_inclusive_until_one_of(cs)`, string.cpp:374-388 -/
def skip_inclusive_until_one_of (cs : List Byte) : Meth Parser Byte := do
  let v ← Meth.get
  skipUntilOneOfLoop cs (v.length + 1)

/-- The loop shared by `read_word`, `read_word_until` and `read_chars_until` (string.cpp:392-399, 410-417, 476-483): the
distance to the first character satisfying `stop`, or nothing if the loop runs to the end. -/
def scanLoop (stop : Byte → Bool) : List Byte → (dist : Nat) → Option Nat
  | [], _ => none
  | c :: cs, dist => if stop c then some dist else scanLoop stop cs (dist + 1)

/-- The common body of these three functions. -/
def readUntil (stop : Byte → Bool) : Meth Parser (List Byte) := do
  let v ← Meth.get
  match scanLoop stop v 0 with
  | some dist => do
    let ret ← Meth.lift (substr v 0 dist)
    advance dist
    return ret
  | none => do
    Meth.set []
    return v

/-- `read_word()`, string.cpp:390-406 -/
def read_word : Meth Parser (List Byte) := readUntil is_space
/-- `read_word_until(c)`, string.cpp:408-424 -/
def read_word_until (c : Byte) : Meth Parser (List Byte) := readUntil (fun x => is_space x || x == c)
/-- `read_chars_until(c)`, string.cpp:474-490 -/
def read_chars_until (c : Byte) : Meth Parser (List Byte) := readUntil (fun x => x == c)

/-- `throw_if_empty()`, string.cpp:426-431 -/
def throw_if_empty : Meth Parser Unit := do
  let v ← Meth.get
  if v.isEmpty then Meth.throw .invalid_argument else return ()

/-- `read_char()`, string.cpp:433-442 -/
def read_char : Meth Parser Byte := do
  throw_if_empty
  let v ← Meth.get
  let ret ← Meth.lift (rd v 0)
  advance 1
  return ret

/-- `peek_char()`, string.cpp:444-449 -/
def peek_char : Meth Parser Byte := do
  throw_if_empty
  let v ← Meth.get
  Meth.lift (rd v 0)

/-- `peek_char(n)`, string.cpp:451-460 -/
def peek_char_at (n : Nat) : Meth Parser Byte := do
  let v ← Meth.get
  if v.length ≤ n then Meth.throw .invalid_argument else Meth.lift (rd v n)

/-- `read_chars(n)`, string.cpp:462-472. The view of the `n` characters at `data()` is checked to lie inside the text. -/
def read_chars (n : Nat) : Meth Parser (List Byte) := do
  let v ← Meth.get
  let n := min n v.length
  if v.length < n then Meth.lift (.ub .oob_read)
  else do
    let ret := v.take n
    advance n
    return ret

/-- The common end of `read_number`, string.hpp:537-561: throw, or advance and return the value or 0. -/
def finishNumber {α : Type} (dbg : Bool) (zero : α) (res : FromChars α) : Meth Parser α :=
  match res with
  | .invalid_argument => Meth.throw .invalid_argument
  | .out_of_range n => do
    Meth.lift (ASSERT dbg (0 < n))
    advance n
    return zero
  | .ok v n => do
    Meth.lift (ASSERT dbg (0 < n))
    advance n
    return v

/-- The characters accepted after `0x`, string.hpp:497. -/
def isHexChar (c : Byte) : Bool :=
  (48 ≤ c.toNat && c.toNat ≤ 57) || (97 ≤ c.toNat && c.toNat ≤ 102) || (65 ≤ c.toNat && c.toNat ≤ 70)

/-- The detection of the base, string.hpp:486-526, for an unsigned type: `none` if 0 is to be returned at once, otherwise
the base. (Bytes from 0x80 are negative where `char` is signed; they take the same branches either way.) -/
def detectBase : Meth Parser (Option Base) := do
  let c0 ← peek_char
  if c0 = ch '0' then do
    let _ ← read_char
    let v ← Meth.get
    if empty v then return none
    else do
      let c ← peek_char
      if c = ch 'x' then
        if size v < 2 then return none
        else do
          let c ← peek_char_at 1
          if isHexChar c then do
            let _ ← read_char
            return some .hex
          else return none
      else if c = ch 'b' then
        if size v < 2 then return none
        else do
          let c ← peek_char_at 1
          if c = ch '0' ∨ c = ch '1' then do
            let _ ← read_char
            return some .bin
          else return none
      else if 48 ≤ c.toNat ∧ c.toNat ≤ 55 then return some .oct
      else if c.toNat < 48 ∨ 57 < c.toNat then return none
      else return some .dec
  else return some .dec

/-- `read_number<T>()` for an unsigned integer type of `w` bits, string.hpp:466-562. -/
def read_numberU (dbg : Bool) (w : Nat) : Meth Parser Nat := do
  skip_whitespaces
  let b ← detectBase
  match b with
  | none => return 0
  | some base => do
    let v ← Meth.get
    finishNumber dbg 0 (fromCharsU w (to_int base) v)

/-- `read_number<T>()` for a signed integer type of `w` bits, string.hpp:466-562. -/
def read_numberS (dbg : Bool) (w : Nat) : Meth Parser Int := do
  skip_whitespaces
  let v ← Meth.get
  finishNumber dbg 0 (fromCharsS w (to_int .dec) v)

end Parser
end Utki
