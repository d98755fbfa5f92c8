import Verif.Core
/-!
# Specification: base64 (RFC 4648, section 4)
-/
namespace Utki.Spec.Base64

/-- The base64 alphabet, RFC 4648 table 1. -/
def alphabet : List Byte := str "ABCDEFGHIJKLMNOPQRSTUVWXYZabcdefghijklmnopqrstuvwxyz0123456789+/"

/-- The character for a 6-bit value. -/
def char6 (n : Nat) : Byte := alphabet.getD n 0

/-- The encoder: 24-bit groups, most significant bits first, four characters per group; a final group of
one or two bytes is filled with zero bits and, with padding, completed with `=`. -/
def encode (pad : Bool) : List Byte → List Byte
  | a :: b :: c :: rest =>
    let n := a.toNat * 65536 + b.toNat * 256 + c.toNat
    char6 (n / 262144 % 64) :: char6 (n / 4096 % 64) :: char6 (n / 64 % 64) :: char6 (n % 64) :: encode pad rest
  | [a, b] =>
    let n := a.toNat * 65536 + b.toNat * 256
    [char6 (n / 262144 % 64), char6 (n / 4096 % 64), char6 (n / 64 % 64)] ++ if pad then str "=" else []
  | [a] =>
    let n := a.toNat * 65536
    [char6 (n / 262144 % 64), char6 (n / 4096 % 64)] ++ if pad then str "==" else []
  | [] => []

/-- The 6-bit value of a character; characters outside the alphabet count as `A` (0). -/
def value6 (c : Byte) : Nat := (alphabet.idxOf? c).getD 0

/-- The 24 bits of four characters, as three bytes. -/
def group (a b c d : Byte) : List Byte :=
  let n := value6 a * 262144 + value6 b * 4096 + value6 c * 64 + value6 d
  [BitVec.ofNat 8 (n / 65536), BitVec.ofNat 8 (n / 256), BitVec.ofNat 8 n]

/-- What a run of characters means: three bytes per four characters, a final group of three characters gives two
bytes, of two characters one byte. -/
def decodeGroups : List Byte → List Byte
  | a :: b :: c :: d :: rest => group a b c d ++ decodeGroups rest
  | [a, b, c] => (group a b c (ch 'A')).take 2
  | [a, b] => (group a b (ch 'A') (ch 'A')).take 1
  | _ => []

/-- Number of `=` that count as padding: one if the text ends in `=`, two if it ends in `==`. -/
def padding (s : List Byte) : Nat :=
  if s.getLast? = some (ch '=') then
    if s.dropLast.getLast? = some (ch '=') then 2 else 1
  else 0

end Utki.Spec.Base64
