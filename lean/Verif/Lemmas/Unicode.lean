import Verif.Model.Unicode
import Verif.Spec.Utf8
import Verif.Lemmas.Span
/-! # Lemmas about UTF-8 conversion -/
namespace Utki
open Spec.Utf8

/-- Number of bytes the decoder takes for a sequence that starts with `b`. -/
def seqLen (b : Byte) : Nat :=
  if b.toNat < 128 then 1
  else if b.toNat % 64 < 32 then 2
  else if b.toNat % 32 < 16 then 3
  else if b.toNat % 16 < 8 then 4
  else if b.toNat % 8 < 4 then 5
  else if b.toNat % 4 < 2 then 6
  else if b.toNat % 2 < 1 then 7
  else 8

theorem bit_test_fin : ∀ b : Fin 256, 128 ≤ b.val → ∀ i : Fin 9, 2 ≤ i.val → i.val ≤ seqLen (BitVec.ofNat 8 b.val) →
    (((BitVec.ofNat 8 b.val) <<< i.val) >>> 7 ≠ (0 : Byte) ↔ i.val < seqLen (BitVec.ofNat 8 b.val)) := by
  decide +kernel

theorem bit_test {b : Byte} (hb : 128 ≤ b.toNat) {i : Nat} (h2 : 2 ≤ i) (hs : i ≤ seqLen b) (h8 : i ≤ 8) :
    ((b <<< i) >>> 7 ≠ (0 : Byte)) ↔ i < seqLen b := by
  have := bit_test_fin ⟨b.toNat, b.isLt⟩ hb ⟨i, by omega⟩ h2 (by simpa using hs)
  simpa using this

theorem high_test_fin : ∀ b : Fin 256, (BitVec.ofNat 8 b.val &&& 0x80 = (0 : Byte)) ↔ b.val < 128 := by decide +kernel

theorem high_test (b : Byte) : (b &&& 0x80 = 0) ↔ b.toNat < 128 := by
  have := high_test_fin ⟨b.toNat, b.isLt⟩
  simpa using this

theorem seqLen_bounds {b : Byte} (hb : 128 ≤ b.toNat) : 2 ≤ seqLen b ∧ seqLen b ≤ 8 := by
  unfold seqLen; rw [if_neg (by omega)]
  repeat' split
  all_goals omega

theorem seqLen_pos (b : Byte) : 1 ≤ seqLen b := by
  unfold seqLen
  repeat' split
  all_goals omega

theorem seqLen_ge7 {b : Byte} : 7 ≤ seqLen b ↔ b ∈ ([0xBE, 0xBF, 0xFE, 0xFF] : List Byte) := by
  have : ∀ b : Fin 256, 7 ≤ seqLen (BitVec.ofNat 8 b.val) ↔ BitVec.ofNat 8 b.val ∈ ([0xBE, 0xBF, 0xFE, 0xFF] : List Byte) := by
    decide +kernel
  simpa using this ⟨b.toNat, b.isLt⟩

/-- What the loop accumulates. -/
def contFold (c : BitVec 32) (xs : List Byte) : BitVec 32 :=
  xs.foldl (fun c x => (c <<< 6) ||| (x &&& 0x3f).setWidth 32) c

/-- The bits of the lead byte at their place. -/
def leadBits (b : Byte) : BitVec 32 :=
  ((b <<< (seqLen b + 1)) >>> (seqLen b + 1)).setWidth 32 <<< (6 * (seqLen b - 1))

namespace Utf8Iter

theorem incLoop_full (it : Utf8Iter) (b : Byte) (hb : 128 ≤ b.toNat) : ∀ (k fuel i : Nat) (c : BitVec 32) (p : Nat),
    i + k = seqLen b → 2 ≤ i → k < fuel → p + k ≤ it.mem.length → (∀ q, p ≤ q → q < p + k → it.atEnd q = false) →
    incLoop it b fuel i c p =
      if 7 ≤ seqLen b then .ub .bad_shift
      else .ok { it with c := contFold c ((it.mem.drop p).take k) ||| leadBits b, p := p + k } := by
  have hN := seqLen_bounds hb
  intro k
  induction k with
  | zero =>
    intro fuel i c p hi h2 hf hlen hend
    obtain ⟨fuel, rfl⟩ : ∃ f, fuel = f + 1 := ⟨fuel - 1, by omega⟩
    unfold incLoop
    rw [if_neg (by rw [bit_test hb h2 (by omega) (by omega)]; omega)]
    have hi' : i = seqLen b := by omega
    subst hi'
    by_cases h7 : 7 ≤ seqLen b
    · rw [if_pos (by omega), if_pos h7]
    · rw [if_neg (by omega), if_neg h7]
      simp [contFold, leadBits]
  | succ k ih =>
    intro fuel i c p hi h2 hf hlen hend
    obtain ⟨fuel, rfl⟩ : ∃ f, fuel = f + 1 := ⟨fuel - 1, by omega⟩
    unfold incLoop
    rw [if_pos (by rw [bit_test hb h2 (by omega) (by omega)]; omega), hend p (by omega) (by omega)]
    simp only [Bool.false_eq_true, if_false, rd_eq_ok (show p < it.mem.length by omega), Res.bind_eq, Res.ok_bind]
    rw [ih fuel (i + 1) _ (p + 1) (by omega) (by omega) (by omega) (by omega) (fun q h1 h2 => hend q (by omega) (by omega))]
    rw [List.drop_eq_getElem_cons (by omega : p < it.mem.length), List.take_succ_cons]
    simp only [contFold, List.foldl_cons]
    rw [show p + 1 + k = p + (k + 1) by omega]

theorem incLoop_trunc (it : Utf8Iter) (b : Byte) (hb : 128 ≤ b.toNat) (e : Nat) (he : it.end = some e)
    (hel : e ≤ it.mem.length) : ∀ (k fuel i : Nat) (c : BitVec 32) (p : Nat),
    i + k = seqLen b → 2 ≤ i → k < fuel → p ≤ e → e < p + k →
    incLoop it b fuel i c p = .ok { it with c := 0, p := e } := by
  have hN := seqLen_bounds hb
  intro k
  induction k with
  | zero => intro fuel i c p _ _ _ h1 h2; omega
  | succ k ih =>
    intro fuel i c p hi h2 hf hpe hek
    obtain ⟨fuel, rfl⟩ : ∃ f, fuel = f + 1 := ⟨fuel - 1, by omega⟩
    unfold incLoop
    rw [if_pos (by rw [bit_test hb h2 (by omega) (by omega)]; omega)]
    by_cases hp : p = e
    · subst hp
      rw [if_pos (by simp [atEnd, he])]
    · rw [if_neg (by simp [atEnd, he]; omega)]
      simp only [rd_eq_ok (show p < it.mem.length by omega), Res.bind_eq, Res.ok_bind]
      exact ih fuel (i + 1) _ (p + 1) (by omega) (by omega) (by omega) (by omega) (by omega)

/-- A sequence completely available. -/
theorem inc_full (it : Utf8Iter) (b : Byte) (hb : it.mem[it.p]? = some b) (hlen : it.p + seqLen b ≤ it.mem.length)
    (hend : ∀ q, it.p ≤ q → q < it.p + seqLen b → it.atEnd q = false) :
    inc it = if b.toNat < 128 then .ok { it with c := b.setWidth 32, p := it.p + 1 }
      else if 7 ≤ seqLen b then .ub .bad_shift
      else .ok { it with c := contFold 0 ((it.mem.drop (it.p + 1)).take (seqLen b - 1)) ||| leadBits b,
                         p := it.p + seqLen b } := by
  have hp := seqLen_pos b
  unfold inc
  have hr : rd it.mem it.p = .ok b := by simp [rd, hb]
  simp only [hend it.p (by omega) (by omega), Bool.false_eq_true, if_false, hr, Res.bind_eq, Res.ok_bind, Res.pure_eq]
  by_cases h : b.toNat < 128
  · rw [if_pos ((high_test b).mpr h), if_pos h]
  · rw [if_neg (by rw [high_test]; exact h), if_neg h]
    have hN := seqLen_bounds (show 128 ≤ b.toNat by omega)
    simp only [hend (it.p + 1) (by omega) (by omega), Bool.false_eq_true, if_false,
      rd_eq_ok (show it.p + 1 < it.mem.length by omega), Res.ok_bind]
    rw [incLoop_full it b (by omega) (seqLen b - 2) 8 2 _ (it.p + 1 + 1) (by omega) (by omega) (by omega) (by omega)
      (fun q h1 h2 => hend q (by omega) (by omega))]
    congr 2
    rw [show seqLen b - 1 = (seqLen b - 2) + 1 by omega,
      List.drop_eq_getElem_cons (by omega : it.p + 1 < it.mem.length), List.take_succ_cons]
    simp only [contFold, List.foldl_cons]
    simp
    omega

/-- The complete behaviour of `++` on an iterator over a span. -/
theorem inc_span (it : Utf8Iter) (e : Nat) (he : it.end = some e) (hel : e ≤ it.mem.length) :
    (it.p = e → inc it = .ok { it with c := 0 }) ∧
    (∀ b, it.p < e → it.mem[it.p]? = some b →
      inc it = if b.toNat < 128 then .ok { it with c := b.setWidth 32, p := it.p + 1 }
        else if e < it.p + seqLen b then .ok { it with c := 0, p := e }
        else if 7 ≤ seqLen b then .ub .bad_shift
        else .ok { it with c := contFold 0 ((it.mem.drop (it.p + 1)).take (seqLen b - 1)) ||| leadBits b,
                           p := it.p + seqLen b }) := by
  constructor
  · intro h
    unfold inc
    rw [if_pos (by simp [atEnd, he, h])]
  · intro b hlt hb
    by_cases ht : e < it.p + seqLen b
    · by_cases h : b.toNat < 128
      · exfalso
        have : seqLen b = 1 := by unfold seqLen; rw [if_pos h]
        omega
      · rw [if_neg h, if_pos ht]
        have hN := seqLen_bounds (show 128 ≤ b.toNat by omega)
        unfold inc
        have hr : rd it.mem it.p = .ok b := by simp [rd, hb]
        have h0 : it.atEnd it.p = false := by simp [atEnd, he]; omega
        simp only [h0, Bool.false_eq_true, if_false, hr, Res.bind_eq, Res.ok_bind, Res.pure_eq]
        rw [if_neg (by rw [high_test]; exact h)]
        by_cases h1 : it.p + 1 = e
        · rw [if_pos (by simp [atEnd, he, h1])]; rw [h1]
        · rw [if_neg (by simp [atEnd, he]; omega)]
          simp only [rd_eq_ok (show it.p + 1 < it.mem.length by omega), Res.ok_bind]
          exact incLoop_trunc it b (by omega) e he hel (seqLen b - 2) 8 2 _ (it.p + 1 + 1) (by omega) (by omega) (by omega)
            (by omega) (by omega)
    · rw [inc_full it b hb (by omega) (fun q h1 h2 => by simp [atEnd, he]; omega), if_neg ht]

end Utf8Iter

/-! ## Values -/

theorem and3f (x : Byte) : ((x &&& 0x3f).setWidth 32).toNat = x.toNat % 64 := by
  have : x.toNat &&& 63 = x.toNat % 64 := Nat.and_two_pow_sub_one_eq_mod x.toNat 6
  rw [BitVec.toNat_setWidth, BitVec.toNat_and]
  show (x.toNat &&& 63) % 2 ^ 32 = _
  rw [this]; omega

theorem cont_step {c : BitVec 32} {x : Byte} (h : c.toNat < 2 ^ 26) :
    ((c <<< 6) ||| (x &&& 0x3f).setWidth 32).toNat = c.toNat * 64 + x.toNat % 64 := by
  rw [BitVec.toNat_or, and3f, BitVec.toNat_shiftLeft, Nat.shiftLeft_eq,
    Nat.mod_eq_of_lt (by omega : c.toNat * 2 ^ 6 < 2 ^ 32), ← Nat.shiftLeft_eq,
    ← Nat.shiftLeft_add_eq_or_of_lt (by omega), Nat.shiftLeft_eq]

/-- The accumulated continuation bits as a number. -/
theorem contFold_conts (cv : Nat) : ∀ (k : Nat) (c : BitVec 32), c.toNat * 64 ^ k + 64 ^ k ≤ 2 ^ 32 → 
    (contFold c (conts k cv)).toNat = c.toNat * 64 ^ k + cv % 64 ^ k := by
  intro k
  induction k with
  | zero => intro c h; simp [contFold, conts, Nat.mod_one]
  | succ k ih =>
    intro c h
    have hk : 0 < 64 ^ k := Nat.pow_pos (by decide)
    rw [Nat.pow_succ] at h
    have hc : c.toNat < 2 ^ 26 := by
      have : 64 ≤ 64 ^ k * 64 := Nat.le_mul_of_pos_left _ hk
      have : c.toNat * 64 ≤ c.toNat * (64 ^ k * 64) := Nat.mul_le_mul_left _ this
      omega
    have hs := cont_step (x := BitVec.ofNat 8 (0x80 + cv / 64 ^ k % 64)) hc
    have hx : (BitVec.ofNat 8 (0x80 + cv / 64 ^ k % 64)).toNat % 64 = cv / 64 ^ k % 64 := by
      simp only [BitVec.toNat_ofNat]; omega
    rw [hx] at hs
    have hd : cv / 64 ^ k % 64 < 64 := Nat.mod_lt _ (by decide)
    show (contFold _ (conts k cv)).toNat = _
    rw [ih _ (by
      rw [hs]
      have : (c.toNat * 64 + cv / 64 ^ k % 64) * 64 ^ k + 64 ^ k ≤ (c.toNat * 64 + 63) * 64 ^ k + 64 ^ k := by
        apply Nat.add_le_add_right
        apply Nat.mul_le_mul_right; omega
      have e : (c.toNat * 64 + 63) * 64 ^ k + 64 ^ k = c.toNat * (64 ^ k * 64) + 64 ^ k * 64 := by grind
      omega)]
    rw [hs, Nat.pow_succ, Nat.mod_mul, Nat.add_mul]
    grind

theorem lead_facts {n c : Nat} (hn : 2 ≤ n) (hn6 : n ≤ 6) (hc : c < capacity n) :
    128 ≤ (BitVec.ofNat 8 (lead n + c / 64 ^ (n - 1)) : Byte).toNat ∧
    seqLen (BitVec.ofNat 8 (lead n + c / 64 ^ (n - 1))) = n ∧
    (leadBits (BitVec.ofNat 8 (lead n + c / 64 ^ (n - 1)))).toNat = c / 64 ^ (n - 1) * 64 ^ (n - 1) := by
  have key : ∀ (n : Fin 7) (q : Fin 32), 2 ≤ n.val → q.val < 2 ^ (7 - n.val) →
      128 ≤ (BitVec.ofNat 8 (lead n.val + q.val) : Byte).toNat ∧ seqLen (BitVec.ofNat 8 (lead n.val + q.val)) = n.val ∧
      (leadBits (BitVec.ofNat 8 (lead n.val + q.val))).toNat = q.val * 64 ^ (n.val - 1) := by
    decide +kernel
  have hq : c / 64 ^ (n - 1) < 2 ^ (7 - n) := by
    rw [Nat.div_lt_iff_lt_mul (Nat.pow_pos (by decide))]
    have : n = 2 ∨ n = 3 ∨ n = 4 ∨ n = 5 ∨ n = 6 := by omega
    rcases this with h | h | h | h | h <;> subst h <;> simpa [capacity] using hc
  have h32 : 2 ^ (7 - n) ≤ 32 := by
    calc 2 ^ (7 - n) ≤ 2 ^ 5 := Nat.pow_le_pow_right (by decide) (by omega)
      _ = 32 := by decide
  exact key ⟨n, by omega⟩ ⟨c / 64 ^ (n - 1), by omega⟩ hn hq

/-- Decoding the `n`-byte form gives the character. -/
theorem decode_form {n c : Nat} (hn : 2 ≤ n) (hn6 : n ≤ 6) (hc : c < capacity n) :
    (contFold 0 (conts (n - 1) c) ||| leadBits (BitVec.ofNat 8 (lead n + c / 64 ^ (n - 1)))) = BitVec.ofNat 32 c := by
  obtain ⟨_, _, h3⟩ := lead_facts hn hn6 hc
  have hc31 : c < 2 ^ 31 := by
    have : n = 2 ∨ n = 3 ∨ n = 4 ∨ n = 5 ∨ n = 6 := by omega
    rcases this with h | h | h | h | h <;> subst h <;> simp [capacity] at hc <;> omega
  have hk : 64 ^ (n - 1) ≤ 2 ^ 32 := by
    calc 64 ^ (n - 1) ≤ 64 ^ 5 := Nat.pow_le_pow_right (by decide) (by omega)
      _ ≤ 2 ^ 32 := by decide
  have hcf := contFold_conts c (n - 1) 0 (by simpa using hk)
  apply BitVec.eq_of_toNat_eq
  rw [BitVec.toNat_or, hcf, h3]
  simp only [show (0 : BitVec 32).toNat = 0 from rfl, Nat.zero_mul, Nat.zero_add, BitVec.toNat_ofNat]
  rw [Nat.mod_eq_of_lt (show c < 2 ^ 32 by omega), Nat.or_comm]
  have e64 : (64 : Nat) ^ (n - 1) = 2 ^ (6 * (n - 1)) := by rw [Nat.pow_mul]
  have hlt : c % 64 ^ (n - 1) < 2 ^ (6 * (n - 1)) := by rw [← e64]; exact Nat.mod_lt _ (Nat.pow_pos (by decide))
  have e1 : c / 64 ^ (n - 1) * 64 ^ (n - 1) = (c / 64 ^ (n - 1)) <<< (6 * (n - 1)) := by
    rw [Nat.shiftLeft_eq, ← e64]
  rw [e1, ← Nat.shiftLeft_add_eq_or_of_lt hlt, ← e1, Nat.mul_comm, Nat.div_add_mod]

theorem length_conts (k c : Nat) : (conts k c).length = k := by
  induction k with
  | zero => rfl
  | succ k ih => simp [conts, ih]

theorem length_form {n c : Nat} (h : 1 ≤ n) : (form n c).length = n := by
  simp [form, length_conts]; omega

/-- `++` on a complete form. -/
theorem Utf8Iter.inc_form (it : Utf8Iter) (pre post : List Byte) (n c : Nat) (hn : 1 ≤ n) (hn6 : n ≤ 6)
    (hc : c < capacity n) (hmem : it.mem = pre ++ (form n c ++ post)) (hp : it.p = pre.length)
    (hend : ∀ e, it.end = some e → pre.length + n ≤ e) :
    inc it = .ok { it with c := BitVec.ofNat 32 c, p := pre.length + n } := by
  have hlen : it.mem.length = pre.length + n + post.length := by
    rw [hmem]; simp [length_form hn]; omega
  have hae : ∀ q, it.p ≤ q → q < it.p + n → it.atEnd q = false := by
    intro q h1 h2
    cases he : it.end with
    | none => simp [atEnd, he]
    | some e => have := hend e he; simp [atEnd, he]; omega
  have hb : it.mem[it.p]? = some (BitVec.ofNat 8 (lead n + c / 64 ^ (n - 1))) := by
    rw [hmem, hp, List.getElem?_append_right (Nat.le_refl _)]; simp [form]
  by_cases h1 : n = 1
  · subst h1
    have hcl : c < 128 := by simpa [capacity] using hc
    simp [lead] at hb
    have hbn : (BitVec.ofNat 8 c).toNat = c := by simp; omega
    have hsl : seqLen (BitVec.ofNat 8 c) = 1 := by unfold seqLen; rw [if_pos (by omega)]
    rw [inc_full it _ hb (by rw [hsl]; omega) (by rw [hsl]; exact hae), if_pos (by omega), hp]
    congr 2
    apply BitVec.eq_of_toNat_eq
    simp; omega
  · obtain ⟨f1, f2, _⟩ := lead_facts (show 2 ≤ n by omega) hn6 hc
    rw [inc_full it _ hb (by rw [f2]; omega) (by rw [f2]; exact hae), if_neg (by omega), f2, if_neg (by omega), hp]
    congr 2
    have : (it.mem.drop (pre.length + 1)).take (n - 1) = conts (n - 1) c := by
      rw [hmem, ← List.drop_drop, List.drop_left]
      simp only [form, List.cons_append, List.drop_succ_cons, List.drop_zero]
      rw [List.take_left' (length_conts _ _)]
    rw [this]
    exact decode_form (by omega) hn6 hc

/-- Advance, then run the loop of `to_utf32`. -/
def decodeFrom (fuel : Nat) (it : Utf8Iter) (buf : List (BitVec 32)) : Res (List (BitVec 32)) := do
  let it ← it.inc
  toUtf32Loop fuel it buf

/-- A text of forms `(n, c)`. -/
def formsBytes (fs : List (Nat × Nat)) : List Byte := fs.flatMap (fun f => form f.1 f.2)

/-- Decoding a text of forms that is followed by the end of the span or by NUL. -/
theorem decodeFrom_forms : ∀ (fs : List (Nat × Nat)) (fuel : Nat) (it : Utf8Iter) (buf : List (BitVec 32))
    (pre post : List Byte),
    (∀ f ∈ fs, 1 ≤ f.1 ∧ f.1 ≤ 6 ∧ 0 < f.2 ∧ f.2 < capacity f.1) →
    it.mem = pre ++ (formsBytes fs ++ post) → it.p = pre.length → fs.length < fuel →
    (it.end = some (pre.length + (formsBytes fs).length) ∨
      ((∀ e, it.end = some e → pre.length + (formsBytes fs).length < e) ∧ ∃ post', post = 0 :: post')) →
    decodeFrom fuel it buf = .ok (buf ++ fs.map (fun f => BitVec.ofNat 32 f.2)) := by
  intro fs
  induction fs with
  | nil =>
    intro fuel it buf pre post _ hmem hp hf hstop
    obtain ⟨fuel, rfl⟩ : ∃ f, fuel = f + 1 := ⟨fuel - 1, by simp at hf; omega⟩
    simp only [formsBytes, List.flatMap_nil, List.nil_append, List.length_nil, Nat.add_zero] at *
    have hinc : ∃ it', it.inc = .ok it' ∧ it'.c = 0 := by
      rcases hstop with h | ⟨h, post', rfl⟩
      · refine ⟨{ it with c := 0 }, ?_, rfl⟩
        unfold Utf8Iter.inc
        rw [if_pos (by simp [Utf8Iter.atEnd, h, hp])]
      · refine ⟨{ it with c := 0, p := it.p + 1 }, ?_, rfl⟩
        unfold Utf8Iter.inc
        have h0 : it.atEnd it.p = false := by
          cases he : it.end with
          | none => simp [Utf8Iter.atEnd, he]
          | some e => have := h e he; simp [Utf8Iter.atEnd, he]; omega
        have hr : rd it.mem it.p = .ok 0 := by simp [rd, hmem, hp]
        rw [h0]; simp [hr]
    obtain ⟨it', h1, h2⟩ := hinc
    simp [decodeFrom, h1, toUtf32Loop, Utf8Iter.is_end, h2]
  | cons f fs ih =>
    intro fuel it buf pre post hfs hmem hp hf hstop
    obtain ⟨fuel, rfl⟩ : ∃ f, fuel = f + 1 := ⟨fuel - 1, by simp at hf; omega⟩
    obtain ⟨hn1, hn6, hc0, hc⟩ := hfs f (by simp)
    have hbl : (formsBytes (f :: fs)).length = f.1 + (formsBytes fs).length := by
      simp [formsBytes, length_form hn1]
    have hmem' : it.mem = pre ++ (form f.1 f.2 ++ (formsBytes fs ++ post)) := by
      rw [hmem]; simp [formsBytes]
    have hinc := Utf8Iter.inc_form it pre _ f.1 f.2 hn1 hn6 hc hmem' hp (by
      intro e he
      rcases hstop with h | ⟨h, _⟩
      · rw [h] at he; cases he; omega
      · have := h e he; omega)
    have hc31 : f.2 < 2 ^ 31 := by
      have : f.1 = 1 ∨ f.1 = 2 ∨ f.1 = 3 ∨ f.1 = 4 ∨ f.1 = 5 ∨ f.1 = 6 := by omega
      rcases this with h | h | h | h | h | h <;> rw [h] at hc <;> simp [capacity] at hc <;> omega
    have hne : (BitVec.ofNat 32 f.2 == (0 : BitVec 32)) = false := by
      rw [beq_eq_false_iff_ne]
      intro h
      have := congrArg BitVec.toNat h
      simp at this; omega
    have := ih fuel { it with c := BitVec.ofNat 32 f.2, p := pre.length + f.1 } (buf ++ [BitVec.ofNat 32 f.2])
      (pre ++ form f.1 f.2) post (fun g hg => hfs g (by simp [hg])) (by simp [hmem']) (by simp [length_form hn1])
      (by simp at hf; omega)
      (by
        simp only [List.length_append, length_form hn1, Nat.add_assoc]
        rcases hstop with h | ⟨h, h'⟩
        · left; rw [h, hbl]
        · right; exact ⟨fun e he => by have := h e he; omega, h'⟩)
    unfold decodeFrom at this ⊢
    simp only [hinc, Res.bind_eq, Res.ok_bind]
    unfold toUtf32Loop
    simp only [Utf8Iter.is_end, Utf8Iter.character, hne, Bool.false_eq_true, if_false]
    rw [Res.bind_eq] at this ⊢
    rw [this]; simp


/-! ## Encoding -/

theorem orByte (a k s : Nat) (c : BitVec 32) (h : a * 2 ^ k + 2 ^ k ≤ 256) :
    ((BitVec.ofNat 32 (a * 2 ^ k) ||| ((c >>> s) &&& BitVec.ofNat 32 (2 ^ k - 1))).setWidth 8 : Byte) =
      BitVec.ofNat 8 (a * 2 ^ k + c.toNat / 2 ^ s % 2 ^ k) := by
  have hk : 0 < 2 ^ k := Nat.pow_pos (by decide)
  have hm : c.toNat / 2 ^ s % 2 ^ k < 2 ^ k := Nat.mod_lt _ hk
  apply BitVec.eq_of_toNat_eq
  simp only [BitVec.toNat_setWidth, BitVec.toNat_or, BitVec.toNat_ofNat, BitVec.toNat_and, BitVec.toNat_ushiftRight,
    Nat.shiftRight_eq_div_pow]
  rw [Nat.mod_eq_of_lt (show 2 ^ k - 1 < 2 ^ 32 by omega), Nat.and_two_pow_sub_one_eq_mod,
    Nat.mod_eq_of_lt (show a * 2 ^ k < 2 ^ 32 by omega), ← Nat.shiftLeft_eq, ← Nat.shiftLeft_add_eq_or_of_lt hm]

theorem list7 {l : List Byte} (h : l.length = 7) :
    ∃ a b c d e f g, l = [a, b, c, d, e, f, g] := by
  match l, h with
  | [a, b, c, d, e, f, g], _ => exact ⟨a, b, c, d, e, f, g, rfl⟩

theorem to_utf8_char_eq (junk : List Byte) (hj : junk.length = 7) (c : BitVec 32) :
    to_utf8_char junk c = .ok (encode c.toNat ++ 0 :: junk.drop ((encode c.toNat).length + 1)) := by
  obtain ⟨j0, j1, j2, j3, j4, j5, j6, rfl⟩ := list7 hj
  have hle : ∀ n : Nat, n < 2 ^ 32 → (c ≤ BitVec.ofNat 32 n ↔ c.toNat < n + 1) := by
    intro n hn
    rw [BitVec.le_def, BitVec.toNat_ofNat, Nat.mod_eq_of_lt hn]; omega
  have l1 := hle 0x7f (by decide)
  have l2 := hle 0x7ff (by decide)
  have l3 := hle 0xffff (by decide)
  have l4 := hle 0x1fffff (by decide)
  have l5 := hle 0x3ffffff (by decide)
  have l6 := hle 0x7fffffff (by decide)
  have w : ∀ (l : List Byte) (i : Nat) (v : Byte), i < l.length → wr l i v = .ok (l.set i v) := fun l i v h => wr_eq_ok h
  unfold to_utf8_char encode size
  dsimp only
  by_cases h1 : c.toNat < 0x80
  · rw [if_pos (l1.mpr h1)]
    simp [wr, h1, form, conts, lead]
  rw [if_neg (fun h => h1 (l1.mp h))]
  have c0 : ((0x80#32 ||| (c &&& 0x3f#32)).setWidth 8 : Byte) = BitVec.ofNat 8 (128 + c.toNat % 64) := by
    simpa using orByte 2 6 0 c (by decide)
  have c6 : ((0x80#32 ||| ((c >>> 6) &&& 0x3f#32)).setWidth 8 : Byte) = BitVec.ofNat 8 (128 + c.toNat / 64 % 64) :=
    orByte 2 6 6 c (by decide)
  have c12 : ((0x80#32 ||| ((c >>> 12) &&& 0x3f#32)).setWidth 8 : Byte) = BitVec.ofNat 8 (128 + c.toNat / 4096 % 64) :=
    orByte 2 6 12 c (by decide)
  have c18 : ((0x80#32 ||| ((c >>> 18) &&& 0x3f#32)).setWidth 8 : Byte) = BitVec.ofNat 8 (128 + c.toNat / 262144 % 64) :=
    orByte 2 6 18 c (by decide)
  have c24 : ((0x80#32 ||| ((c >>> 24) &&& 0x3f#32)).setWidth 8 : Byte) = BitVec.ofNat 8 (128 + c.toNat / 16777216 % 64) :=
    orByte 2 6 24 c (by decide)
  by_cases h2 : c.toNat < 0x800
  · rw [if_pos (l2.mpr h2)]
    have e : ((0xc0#32 ||| ((c >>> 6) &&& 0x1f#32)).setWidth 8 : Byte) = BitVec.ofNat 8 (0xc0 + c.toNat / 64 % 32) :=
      orByte 6 5 6 c (by decide)
    rw [c0, e]
    simp [wr, h1, h2, form, conts, lead]
    congr 1; omega
  rw [if_neg (fun h => h2 (l2.mp h))]
  by_cases h3 : c.toNat < 0x10000
  · rw [if_pos (l3.mpr h3)]
    have e : ((0xe0#32 ||| ((c >>> 12) &&& 0xf#32)).setWidth 8 : Byte) = BitVec.ofNat 8 (0xe0 + c.toNat / 4096 % 16) :=
      orByte 14 4 12 c (by decide)
    rw [c0, c6, e]
    simp [wr, h1, h2, h3, form, conts, lead]
    congr 1; omega
  rw [if_neg (fun h => h3 (l3.mp h))]
  by_cases h4 : c.toNat < 0x200000
  · rw [if_pos (l4.mpr h4)]
    have e : ((0xf0#32 ||| ((c >>> 18) &&& 0x7#32)).setWidth 8 : Byte) = BitVec.ofNat 8 (0xf0 + c.toNat / 262144 % 8) :=
      orByte 30 3 18 c (by decide)
    rw [c0, c6, c12, e]
    simp [wr, h1, h2, h3, h4, form, conts, lead]
    congr 1; omega
  rw [if_neg (fun h => h4 (l4.mp h))]
  by_cases h5 : c.toNat < 0x4000000
  · rw [if_pos (l5.mpr h5)]
    have e : ((0xf8#32 ||| ((c >>> 24) &&& 0x3#32)).setWidth 8 : Byte) = BitVec.ofNat 8 (0xf8 + c.toNat / 16777216 % 4) :=
      orByte 62 2 24 c (by decide)
    rw [c0, c6, c12, c18, e]
    simp [wr, h1, h2, h3, h4, h5, form, conts, lead]
    congr 1; omega
  rw [if_neg (fun h => h5 (l5.mp h))]
  by_cases h6 : c.toNat < 0x80000000
  · rw [if_pos (l6.mpr h6)]
    have e : ((0xfc#32 ||| ((c >>> 30) &&& 0x1#32)).setWidth 8 : Byte) = BitVec.ofNat 8 (0xfc + c.toNat / 1073741824 % 2) :=
      orByte 126 1 30 c (by decide)
    rw [c0, c6, c12, c18, c24, e]
    simp [wr, h1, h2, h3, h4, h5, h6, form, conts, lead]
    congr 1; omega
  rw [if_neg (fun h => h6 (l6.mp h))]
  simp [wr, h1, h2, h3, h4, h5, h6]

theorem conts_ne_zero (k c : Nat) : ∀ b ∈ conts k c, b ≠ 0 := by
  induction k with
  | zero => simp [conts]
  | succ k ih =>
    simp only [conts, List.mem_cons]
    rintro b (h | h)
    · subst h; intro h0
      have := congrArg BitVec.toNat h0
      simp at this; omega
    · exact ih b h

theorem form_ne_zero {n c : Nat} (hn : 1 ≤ n) (hn6 : n ≤ 6) (h0 : 0 < c) (hc : c < capacity n) : ∀ b ∈ form n c, b ≠ 0 := by
  simp only [form, List.mem_cons]
  rintro b (h | h)
  · subst h; intro hz
    have hz' := congrArg BitVec.toNat hz
    by_cases h1 : n = 1
    · subst h1; simp [capacity, lead] at hc hz'; omega
    · have := (lead_facts (show 2 ≤ n by omega) hn6 hc).1
      rw [hz] at this; simp at this
  · exact conts_ne_zero _ _ b h

theorem size_facts (c : Nat) (h : c < 0x80000000) : 1 ≤ size c ∧ size c ≤ 6 ∧ c < capacity (size c) := by
  unfold size
  repeat' split
  all_goals simp only [capacity]
  all_goals omega

theorem size_zero (c : Nat) : size c = 0 ↔ 0x80000000 ≤ c := by
  unfold size
  repeat' split
  all_goals omega

theorem cstrBytes_eq (l : List Byte) (h : ∀ b ∈ l, b ≠ 0) (t : List Byte) : cstrBytes (l ++ 0 :: t) = .ok l := by
  induction l with
  | nil => simp [cstrBytes]
  | cons b l ih =>
    have := ih (fun x hx => h x (by simp [hx]))
    have hb : b ≠ 0 := h b (by simp)
    simp only [List.cons_append, cstrBytes, if_neg hb, this, Res.bind_eq, Res.ok_bind, Res.pure_eq]

/-- The characters that survive `to_utf8`. -/
def kept (c : BitVec 32) : Bool := 0 < c.toNat && c.toNat < 0x80000000

theorem encode_kept {c : BitVec 32} (h : kept c = true) :
    encode c.toNat = form (size c.toNat) c.toNat ∧ 1 ≤ size c.toNat ∧ size c.toNat ≤ 6 ∧ 0 < c.toNat ∧
      c.toNat < capacity (size c.toNat) := by
  simp [kept] at h
  have := size_facts c.toNat h.2
  refine ⟨?_, this.1, this.2.1, h.1, this.2.2⟩
  unfold encode; rw [if_neg (by omega)]

theorem toUtf8Loop_eq (junk : Nat → List Byte) (hj : ∀ k, (junk k).length = 7) :
    ∀ (s : List (BitVec 32)) (k : Nat) (ss : List Byte),
    toUtf8Loop junk s k ss = .ok (ss ++ encodeAll (s.filter kept)) := by
  intro s
  induction s with
  | nil => intro k ss; simp [toUtf8Loop, encodeAll]
  | cons c s ih =>
    intro k ss
    simp only [toUtf8Loop, to_utf8_char_eq (junk k) (hj k) c, Res.bind_eq, Res.ok_bind]
    by_cases hk : kept c = true
    · obtain ⟨he, h1, h6, h0, hc⟩ := encode_kept hk
      rw [cstrBytes_eq _ (by rw [he]; exact form_ne_zero h1 h6 h0 hc)]
      simp only [Res.ok_bind, ih, List.filter_cons_of_pos hk]
      simp [encodeAll]
    · have hcs : cstrBytes (encode c.toNat ++ 0 :: (junk k).drop ((encode c.toNat).length + 1)) = .ok [] := by
        simp [kept] at hk
        by_cases h0 : c.toNat = 0
        · rw [h0]; rfl
        · unfold encode; rw [if_pos ((size_zero _).mpr (by omega))]; rfl
      rw [hcs]
      simp only [Res.ok_bind, ih, List.filter_cons_of_neg hk]
      simp

/-- The well-formed text of a list of kept characters, as forms. -/
def formsOf (s : List (BitVec 32)) : List (Nat × Nat) := s.map (fun c => (size c.toNat, c.toNat))

theorem formsBytes_formsOf (s : List (BitVec 32)) (h : ∀ c ∈ s, kept c = true) :
    formsBytes (formsOf s) = encodeAll s := by
  induction s with
  | nil => rfl
  | cons c s ih =>
    have he := (encode_kept (h c (by simp))).1
    have := ih (fun c hc => h c (by simp [hc]))
    simp only [formsBytes, formsOf, encodeAll, List.map_cons, List.flatMap_cons, he] at this ⊢
    rw [this]

theorem formsOf_ok (s : List (BitVec 32)) (h : ∀ c ∈ s, kept c = true) :
    ∀ f ∈ formsOf s, 1 ≤ f.1 ∧ f.1 ≤ 6 ∧ 0 < f.2 ∧ f.2 < capacity f.1 := by
  intro f hf
  simp only [formsOf, List.mem_map] at hf
  obtain ⟨c, hc, rfl⟩ := hf
  exact (encode_kept (h c hc)).2

theorem formsOf_chars (s : List (BitVec 32)) : (formsOf s).map (fun f => BitVec.ofNat 32 f.2) = s := by
  induction s with
  | nil => rfl
  | cons c s ih => simp only [formsOf, List.map_cons] at ih ⊢; rw [ih]; simp

theorem formsBytes_length (fs : List (Nat × Nat)) (h : ∀ f ∈ fs, 1 ≤ f.1) : fs.length ≤ (formsBytes fs).length := by
  induction fs with
  | nil => simp
  | cons f fs ih =>
    have := ih (fun f hf => h f (by simp [hf]))
    have h1 := h f (by simp)
    simp only [formsBytes, List.flatMap_cons, List.length_append, length_form h1, List.length_cons] at this ⊢
    omega

theorem to_utf32_span_eq (s : Span Byte) : to_utf32_span s = decodeFrom (s.mem.length + 2) ⟨s.mem, 0, s.off, some (s.off + s.size)⟩ [] := rfl

theorem inc_mem {it it' : Utf8Iter} (h : it.inc = .ok it') : it'.mem = it.mem ∧ it'.end = it.end := by
  have hl : ∀ fuel b i c p, ∀ it', Utf8Iter.incLoop it b fuel i c p = .ok it' → it'.mem = it.mem ∧ it'.end = it.end := by
    intro fuel b
    induction fuel with
    | zero => intro i c p it' h; simp [Utf8Iter.incLoop] at h
    | succ n ih =>
      intro i c p it' h
      unfold Utf8Iter.incLoop at h
      split at h
      · split at h
        · cases h; exact ⟨rfl, rfl⟩
        · rw [Res.bind_eq, Res.bind_eq_ok] at h
          obtain ⟨x, _, h⟩ := h
          exact ih _ _ _ _ h
      · split at h
        · cases h
        · cases h; exact ⟨rfl, rfl⟩
  unfold Utf8Iter.inc at h
  split at h
  · cases h; exact ⟨rfl, rfl⟩
  · rw [Res.bind_eq, Res.bind_eq_ok] at h
    obtain ⟨b, _, h⟩ := h
    simp only [Res.pure_eq] at h
    split at h
    · cases h; exact ⟨rfl, rfl⟩
    · split at h
      · cases h; exact ⟨rfl, rfl⟩
      · rw [Res.bind_eq, Res.bind_eq_ok] at h
        obtain ⟨x, _, h⟩ := h
        exact hl _ _ _ _ _ _ h

theorem to_utf32_cstr_eq (mem : List Byte) (p : Nat) : to_utf32_cstr mem p = decodeFrom (mem.length + 2) ⟨mem, 0, p, none⟩ [] := by
  unfold to_utf32_cstr decodeFrom Utf8Iter.ofCStr to_utf32_iter
  cases h : Utf8Iter.inc ⟨mem, 0, p, none⟩ with
  | ok it => simp only [Res.bind_eq, Res.ok_bind, (inc_mem h).1]
  | _ => rfl

end Utki

namespace Utki
open Spec.Utf8

/-! ## Iterating over arbitrary bytes -/

/-- Client program: `++` applied `k` times. -/
def Utf8Iter.incN : Nat → Utf8Iter → Res Utf8Iter
  | 0, it => .ok it
  | k + 1, it => do
    let it ← it.inc
    incN k it

/-- One increment inside a span: the complete description in terms of the bytes of the span. -/
inductive IncOutcome (bytes : List Byte) (pos : Nat) : Res (BitVec 32 × Nat) → Prop
  | atEnd : pos = bytes.length → IncOutcome bytes pos (.ok (0, pos))
  | ascii (b : Byte) : bytes[pos]? = some b → b.toNat < 128 → IncOutcome bytes pos (.ok (b.setWidth 32, pos + 1))
  | trunc (b : Byte) : bytes[pos]? = some b → 128 ≤ b.toNat → bytes.length < pos + seqLen b →
      IncOutcome bytes pos (.ok (0, bytes.length))
  | wide (b : Byte) : bytes[pos]? = some b → 128 ≤ b.toNat → pos + seqLen b ≤ bytes.length → 7 ≤ seqLen b →
      IncOutcome bytes pos (.ub .bad_shift)
  | multi (b : Byte) : bytes[pos]? = some b → 128 ≤ b.toNat → pos + seqLen b ≤ bytes.length → seqLen b < 7 →
      IncOutcome bytes pos (.ok (contFold 0 ((bytes.drop (pos + 1)).take (seqLen b - 1)) ||| leadBits b, pos + seqLen b))

theorem IncOutcome.unique {bytes pos r r'} (h : IncOutcome bytes pos r) (h' : IncOutcome bytes pos r') : r = r' := by
  have hnone : ∀ b, pos = bytes.length → bytes[pos]? = some b → False := by
    intro b h1 h2
    have := (List.getElem?_eq_some_iff.mp h2).1
    omega
  cases h <;> cases h' <;> first | rfl | (exfalso; grind) | grind

/-- State of an iterator over a span: where it is, relative to the span. -/
def Utf8Iter.InSpan (it : Utf8Iter) (s : Span Byte) : Prop :=
  it.mem = s.mem ∧ it.end = some (s.off + s.size) ∧ s.off ≤ it.p ∧ it.p ≤ s.off + s.size

theorem Utf8Iter.inc_outcome {it : Utf8Iter} {s : Span Byte} (hv : s.Valid) (h : it.InSpan s) :
    ∃ r, IncOutcome s.contents (it.p - s.off) r ∧
      it.inc = r.bind (fun x => .ok { it with c := x.1, p := s.off + x.2 }) := by
  obtain ⟨hm, he, h1, h2⟩ := h
  have hl := Span.length_contents hv
  have hv' : s.off + s.size ≤ s.mem.length := hv
  obtain ⟨ha, hb⟩ := inc_span it (s.off + s.size) he (by rw [hm]; exact hv')
  by_cases hp : it.p = s.off + s.size
  · refine ⟨_, .atEnd (by omega), ?_⟩
    rw [ha hp]; simp; omega
  · have hlt : it.p - s.off < s.size := by omega
    obtain ⟨b, hbb⟩ : ∃ b, it.mem[it.p]? = some b := ⟨it.mem[it.p]'(by rw [hm]; omega), by simp⟩
    have hcb : s.contents[it.p - s.off]? = some b := by
      rw [Span.getElem_contents hlt, ← hm, show s.off + (it.p - s.off) = it.p by omega, hbb]
    have := hb b (by omega) hbb
    by_cases c1 : b.toNat < 128
    · refine ⟨_, .ascii b hcb c1, ?_⟩
      rw [this, if_pos c1]; simp; omega
    · rw [if_neg c1] at this
      by_cases c2 : s.off + s.size < it.p + seqLen b
      · refine ⟨_, .trunc b hcb (by omega) (by omega), ?_⟩
        rw [this, if_pos c2]; simp; omega
      · rw [if_neg c2] at this
        by_cases c3 : 7 ≤ seqLen b
        · refine ⟨_, .wide b hcb (by omega) (by omega) c3, ?_⟩
          rw [this, if_pos c3]; simp
        · refine ⟨_, .multi b hcb (by omega) (by omega) (by omega), ?_⟩
          rw [this, if_neg c3]
          have hsl := seqLen_pos b
          have : (it.mem.drop (it.p + 1)).take (seqLen b - 1) = (s.contents.drop (it.p - s.off + 1)).take (seqLen b - 1) := by
            rw [hm, Span.contents, List.drop_take, List.drop_drop, List.take_take]
            congr 1 <;> try omega
            congr 1; omega
          simp only [this, Res.ok_bind]
          congr 2; omega

theorem IncOutcome.ok_bounds {bytes : List Byte} {pos : Nat} {c : BitVec 32} {q : Nat} (h : IncOutcome bytes pos (.ok (c, q)))
    (hp : pos ≤ bytes.length) : q ≤ bytes.length ∧ pos ≤ q ∧ (c ≠ 0 → pos < q) := by
  cases h with
  | atEnd h => exact ⟨by omega, by omega, fun h => absurd rfl h⟩
  | ascii b hb _ => have := (List.getElem?_eq_some_iff.mp hb).1; exact ⟨by omega, by omega, fun _ => by omega⟩
  | trunc b _ _ _ => exact ⟨by omega, by omega, fun h => absurd rfl h⟩
  | multi b _ _ h _ => have := seqLen_pos b; exact ⟨by omega, by omega, fun _ => by omega⟩

theorem IncOutcome.ub_witness {bytes : List Byte} {pos : Nat} {r} (h : IncOutcome bytes pos r) (hr : ∀ x, r ≠ .ok x) :
    r = .ub .bad_shift ∧ ∃ i b, bytes[i]? = some b ∧ b ∈ ([0xBE, 0xBF, 0xFE, 0xFF] : List Byte) ∧ i + 7 ≤ bytes.length := by
  cases h with
  | wide b hb _ h1 h7 => exact ⟨rfl, pos, b, hb, seqLen_ge7.mp h7, by omega⟩
  | _ => exact absurd rfl (hr _)

theorem Utf8Iter.inc_inSpan {it it' : Utf8Iter} {s : Span Byte} (hv : s.Valid) (h : it.InSpan s) (hi : it.inc = .ok it') :
    it'.InSpan s ∧ it.p ≤ it'.p ∧ (it'.c ≠ 0 → it.p < it'.p) := by
  obtain ⟨r, ho, hr⟩ := inc_outcome hv h
  have hl := Span.length_contents hv
  obtain ⟨hm, he, h1, h2⟩ := h
  rw [hi] at hr
  cases r with
  | ok x =>
    obtain ⟨c, q⟩ := x
    simp only [Res.ok_bind, Res.ok.injEq] at hr
    subst hr
    obtain ⟨b1, b2, b3⟩ := ho.ok_bounds (by omega)
    refine ⟨⟨hm, he, by simp, by simp; omega⟩, by simp; omega, ?_⟩
    intro hc; have := b3 hc; simp; omega
  | _ => simp at hr

/-- Two iterators at the same place over spans with the same bytes. -/
def Utf8Iter.Same (a : Utf8Iter) (s : Span Byte) (b : Utf8Iter) (t : Span Byte) : Prop :=
  a.InSpan s ∧ b.InSpan t ∧ a.c = b.c ∧ a.p - s.off = b.p - t.off

theorem Utf8Iter.inc_same {a b : Utf8Iter} {s t : Span Byte} (hs : s.Valid) (ht : t.Valid) (hc : s.contents = t.contents)
    (ha : a.InSpan s) (hb : b.InSpan t) (hp : a.p - s.off = b.p - t.off) :
    (∃ a' b', a.inc = .ok a' ∧ b.inc = .ok b' ∧ a'.Same s b' t) ∨ (∃ u, a.inc = .ub u ∧ b.inc = .ub u) := by
  obtain ⟨r, ho, hr⟩ := inc_outcome hs ha
  obtain ⟨r', ho', hr'⟩ := inc_outcome ht hb
  rw [← hc, ← hp] at ho'
  have := ho.unique ho'
  subst this
  cases r with
  | ok x =>
    left
    refine ⟨_, _, hr, hr', (inc_inSpan hs ha hr).1, (inc_inSpan ht hb hr').1, rfl, ?_⟩
    simp
  | ub u => right; exact ⟨u, hr, hr'⟩
  | throw => exact absurd (ho.ub_witness (by simp)).1 (by simp)
  | abort => exact absurd (ho.ub_witness (by simp)).1 (by simp)
  | terminate => exact absurd (ho.ub_witness (by simp)).1 (by simp)
  | diverge => exact absurd (ho.ub_witness (by simp)).1 (by simp)

/-- The loop of `to_utf32` depends on the bytes of the span only, not on its surroundings nor on the iteration bound. -/
theorem toUtf32Loop_same {s t : Span Byte} (hs : s.Valid) (ht : t.Valid) (hc : s.contents = t.contents) :
    ∀ (f g : Nat) (a b : Utf8Iter) (buf : List (BitVec 32)), a.Same s b t →
      s.off + s.size - a.p + 1 < f → s.off + s.size - a.p + 1 < g →
      toUtf32Loop f a buf = toUtf32Loop g b buf := by
  intro f
  induction f with
  | zero => intro g a b buf _ h; omega
  | succ f ih =>
    intro g a b buf hsame hf hg
    obtain ⟨g, rfl⟩ : ∃ k, g = k + 1 := ⟨g - 1, by omega⟩
    obtain ⟨ha, hb, hcc, hpp⟩ := hsame
    unfold toUtf32Loop
    have hie : a.is_end = b.is_end := by simp [Utf8Iter.is_end, hcc]
    rw [← hie]
    by_cases he : a.is_end = true
    · rw [if_pos he, if_pos he]
    · rw [if_neg he, if_neg he]
      have hch : a.character = b.character := hcc
      rcases Utf8Iter.inc_same hs ht hc ha hb hpp with ⟨a', b', h1, h2, hsame'⟩ | ⟨u, h1, h2⟩
      · simp only [h1, h2, hch, Res.bind_eq, Res.ok_bind]
        obtain ⟨hin, hle, hlt⟩ := Utf8Iter.inc_inSpan hs ha h1
        have hle2 := hin.2.2.2
        by_cases hz : a'.c = 0
        · -- the next test ends both loops
          obtain ⟨f, rfl⟩ : ∃ k, f = k + 1 := ⟨f - 1, by omega⟩
          obtain ⟨g, rfl⟩ : ∃ k, g = k + 1 := ⟨g - 1, by omega⟩
          have hz' : b'.c = 0 := hsame'.2.2.1 ▸ hz
          unfold toUtf32Loop
          simp [Utf8Iter.is_end, hz, hz']
        · have := hlt hz
          exact ih g a' b' _ hsame' (by omega) (by omega)
      · simp only [h1, h2, Res.bind_eq, Res.ub_bind]

theorem toUtf32Loop_outcome {s : Span Byte} (hs : s.Valid) :
    ∀ (f : Nat) (a : Utf8Iter) (buf : List (BitVec 32)), a.InSpan s → s.off + s.size - a.p + 1 < f →
      (∃ l, toUtf32Loop f a buf = .ok l ∧ l.length ≤ buf.length + (if a.c = 0 then 0 else 1) + (s.off + s.size - a.p)) ∨
      (toUtf32Loop f a buf = .ub .bad_shift ∧
        ∃ i b, s.contents[i]? = some b ∧ b ∈ ([0xBE, 0xBF, 0xFE, 0xFF] : List Byte) ∧ i + 7 ≤ s.size) := by
  have hl := Span.length_contents hs
  intro f
  induction f with
  | zero => intro a buf _ h; omega
  | succ f ih =>
    intro a buf ha hf
    unfold toUtf32Loop
    by_cases he : a.is_end = true
    · left; rw [if_pos he]; exact ⟨_, rfl, by omega⟩
    · rw [if_neg he]
      have hne : ¬ a.c = 0 := by simpa [Utf8Iter.is_end] using he
      cases h1 : a.inc with
      | ok a' =>
        simp only [Res.bind_eq, Res.ok_bind]
        obtain ⟨hin, hle, hlt⟩ := Utf8Iter.inc_inSpan hs ha h1
        have hle2 := hin.2.2.2
        by_cases hz : a'.c = 0
        · left
          obtain ⟨f, rfl⟩ : ∃ k, f = k + 1 := ⟨f - 1, by omega⟩
          unfold toUtf32Loop
          refine ⟨_, by simp [Utf8Iter.is_end, hz]; rfl, ?_⟩
          rw [if_neg hne]
          simp
        · have := hlt hz
          rcases ih a' (buf ++ [a.character]) hin (by omega) with ⟨l, h2, h3⟩ | h2
          · left; refine ⟨l, h2, ?_⟩
            rw [if_neg hz] at h3; rw [if_neg hne]; simp at h3; omega
          · right; exact h2
      | _ =>
        right
        obtain ⟨r, ho, hr⟩ := Utf8Iter.inc_outcome hs ha
        obtain ⟨rfl, hw⟩ := ho.ub_witness (by rintro x rfl; rw [h1] at hr; simp at hr)
        rw [h1] at hr
        cases hr
        all_goals first
          | exact ⟨rfl, by rw [hl] at hw; exact hw⟩

theorem ofSpan_start {s : Span Byte} : (⟨s.mem, 0, s.off, some (s.off + s.size)⟩ : Utf8Iter).InSpan s :=
  ⟨rfl, rfl, Nat.le_refl _, by simp⟩

end Utki
