import Verif.Core
/-!
# Specification: what is made of arbitrary bytes

The first byte of a sequence announces its length; the following bytes are taken whatever they are, and contribute their lower six bits.
-/
namespace Utki.Spec.Utf8

/-- Length of the sequence that a first byte announces. 0xxxxxxx: 1, 110xxxxx: 2, 1110xxxx: 3, 11110xxx: 4, 111110xx: 5, 1111110x: 6. The second highest bit is
not looked at: 10xxxxxx is taken like 11xxxxxx. The bytes x1111110 and x1111111 (with the highest bit set) announce 7 and 8. -/
def announced (b : Nat) : Nat :=
  if b < 128 then 1
  else if b % 64 < 32 then 2
  else if b % 64 < 48 then 3
  else if b % 64 < 56 then 4
  else if b % 64 < 60 then 5
  else if b % 64 < 62 then 6
  else if b % 64 < 63 then 7
  else 8

/-- The number in a sequence with first byte `b` and further bytes `xs`: the bits of the first byte behind the announcement, then six bits of each other one. -/
def number (b : Nat) (xs : List Byte) : Nat :=
  xs.foldl (fun v x => v * 64 + x.toNat % 64) (if b < 128 then b else b % 2 ^ (7 - announced b))

/-- How decoding ends: after the last byte, at a sequence with the number 0, at a sequence that the bytes do not suffice for, at a sequence of 7 or 8 bytes. -/
inductive Finish where
  | done
  | zero
  | truncated
  | tooLong
deriving DecidableEq, Repr

/-- The numbers of the sequences, up to the end. -/
def decodeAny (bytes : List Byte) : List Nat × Finish :=
  match bytes with
  | [] => ([], .done)
  | b :: rest =>
    if rest.length + 1 < announced b.toNat then ([], .truncated)
    else if 7 ≤ announced b.toNat then ([], .tooLong)
    else if number b.toNat (rest.take (announced b.toNat - 1)) = 0 then ([], .zero)
    else
      let r := decodeAny (rest.drop (announced b.toNat - 1))
      (number b.toNat (rest.take (announced b.toNat - 1)) :: r.1, r.2)
termination_by bytes.length
decreasing_by simp; omega

/-- A complete sequence, whatever its further bytes. -/
def Sequence (s : List Byte) : Prop := ∃ b xs, s = b :: xs ∧ announced b.toNat = s.length ∧ s.length ≤ 6 ∧ number b.toNat xs ≠ 0

/-- The number in a sequence. -/
def sequenceNumber : List Byte → Nat
  | [] => 0
  | b :: xs => number b.toNat xs

end Utki.Spec.Utf8
