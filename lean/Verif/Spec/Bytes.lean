import Verif.Core
/-!
# Specification: numbers as byte sequences

Independent of the model: the value a byte string denotes in base 256, least or most
significant byte first, and the bytes of a number.
-/
namespace Utki.Spec

/-- Value of a byte string, least significant byte first. -/
def leValue : List Byte → Nat
  | [] => 0
  | b :: bs => b.toNat + 256 * leValue bs

/-- Value of a byte string, most significant byte first. -/
def beValue (bs : List Byte) : Nat := leValue bs.reverse

/-- The `n` bytes of a number, least significant first: byte `i` is digit `i` in base 256. -/
def leBytes (n : Nat) (v : Nat) : List Byte :=
  (List.range n).map fun i => BitVec.ofNat 8 (v / 256 ^ i % 256)

/-- The `n` bytes of a number, most significant first. -/
def beBytes (n : Nat) (v : Nat) : List Byte := (leBytes n v).reverse

/-- Memory `mem` with the bytes `bs` put at position `p`. -/
def patch (mem : List Byte) (p : Nat) (bs : List Byte) : List Byte :=
  mem.take p ++ bs ++ mem.drop (p + bs.length)

end Utki.Spec
