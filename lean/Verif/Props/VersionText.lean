import Verif.Model.VersionText
import Verif.Props.Parser
/-!
# The text of a version number (C71)
-/
namespace Utki
open Misc Spec Parser

theorem streamU16_eq (n : BitVec 16) : streamU16 n = to_stringU n.toNat .dec := by
  unfold streamU16 to_stringU
  rw [show (128 - (basePrefix .dec).length) = 128 from rfl, show to_int .dec = 10 from rfl]
  cases toChars 10 128 n.toNat <;> rfl

theorem not_digit_dot (base : Nat) (rest : List Byte) : NoDigitAhead base (ch '.' :: rest) := by
  intro c hc
  obtain rfl : ch '.' = c := by simpa using hc
  rw [← isDigit_iff]
  simp [isDigit, show digitVal (ch '.') = none by decide]

/-- C71: a version is written as its two numbers in decimal, without superfluous zeros, with a dot between. -/
theorem C71_text (v : Version) : ∃ ma mi, v.text = ma ++ [ch '.'] ++ mi ∧
    (ma ≠ [] ∧ Numeral 10 ma v.major.toNat ∧ (ma.head? = some (ch '0') → ma = [ch '0'])) ∧
    (mi ≠ [] ∧ Numeral 10 mi v.minor.toNat ∧ (mi.head? = some (ch '0') → mi = [ch '0'])) := by
  obtain ⟨ma, a1, a2, a3, a4⟩ := C36_unsigned 16 (by decide) v.major.toNat v.major.isLt .dec
  obtain ⟨mi, b1, b2, b3, b4⟩ := C36_unsigned 16 (by decide) v.minor.toNat v.minor.isLt .dec
  refine ⟨ma, mi, ?_, ⟨a2, a3, fun h => (a4 h).2⟩, b2, b3, fun h => (b4 h).2⟩
  rw [Version.text, streamU16_eq, streamU16_eq, a1, b1]
  rfl

/-- Reading a version with the parser: a number, a character, a number. -/
def readVersion (dbg : Bool) : Meth Parser (Nat × Byte × Nat) := do
  let major ← read_numberU dbg 16
  let c ← read_char
  let minor ← read_numberU dbg 16
  return (major, c, minor)

/-- C71: the text of a version, followed by a text that does not continue the number, is read back by the parser. -/
theorem C71_read_back (dbg : Bool) (v : Version) (rest : List Byte) (hr : NoDigitAhead 10 rest)
    (hx : ∀ c r, rest = ch 'x' :: c :: r → ¬ IsDigit 16 c) (hb : ∀ c r, rest = ch 'b' :: c :: r → ¬ IsDigit 2 c) :
    readVersion dbg (v.text ++ rest) = (.ok (v.major.toNat, ch '.', v.minor.toNat), rest) := by
  have e : v.text ++ rest = to_stringU v.major.toNat .dec ++ (ch '.' :: (to_stringU v.minor.toNat .dec ++ rest)) := by
    rw [Version.text, streamU16_eq, streamU16_eq]; simp
  have h1 := C35_unsigned dbg 16 (by decide) v.major.toNat v.major.isLt .dec (ch '.' :: (to_stringU v.minor.toNat .dec ++ rest))
    (not_digit_dot _ _) (fun _ _ => ⟨fun c r h => absurd (List.cons.inj h).1 (by decide), fun c r h => absurd (List.cons.inj h).1 (by decide)⟩)
  have h2 := C35_unsigned dbg 16 (by decide) v.minor.toNat v.minor.isLt .dec rest hr (fun _ _ => ⟨hx, hb⟩)
  have h3 := (C32_read_char (ch '.' :: (to_stringU v.minor.toNat .dec ++ rest))).1 _ _ rfl
  rw [e, readVersion, Meth.bind_ok h1, Meth.bind_ok h3, Meth.bind_ok h2]
  rfl

/-- C71: different versions have different texts. -/
theorem C71_text_injective (a b : Version) (h : a.text = b.text) : a = b := by
  have h1 := C71_read_back true a [] (by intro c hc; cases hc) (by intro c r hc; cases hc) (by intro c r hc; cases hc)
  have h2 := C71_read_back true b [] (by intro c hc; cases hc) (by intro c r hc; cases hc) (by intro c r hc; cases hc)
  rw [h, h2] at h1
  simp only [Prod.mk.injEq, Res.ok.injEq] at h1
  obtain ⟨⟨e1, _, e2⟩, _⟩ := h1
  obtain ⟨a1, a2⟩ := a
  obtain ⟨b1, b2⟩ := b
  simp only [Version.mk.injEq]
  exact ⟨BitVec.eq_of_toNat_eq e1.symm, BitVec.eq_of_toNat_eq e2.symm⟩

example : (Version.mk 10 0).text = str "10.0" ∧ (Version.mk 0 65535).text = str "0.65535" := by decide +kernel

example : readVersion true ((Version.mk 3 14).text ++ str "-rc") = (.ok (3, ch '.', 14), str "-rc") := by decide +kernel

end Utki
