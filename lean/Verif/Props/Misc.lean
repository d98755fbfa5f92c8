import Verif.Model.Misc
/-!
# Properties of version numbers, powers, ticks and compile-time tables (C71 - C74)
-/
namespace Utki
open Misc

theorem toUint32_toNat (v : Version) : v.toUint32.toNat = v.major.toNat * 2 ^ 16 + v.minor.toNat := by
  have h1 := v.major.isLt
  have h2 := v.minor.isLt
  unfold Version.toUint32
  rw [BitVec.toNat_or, BitVec.toNat_shiftLeft, BitVec.toNat_setWidth, BitVec.toNat_setWidth, Nat.mod_eq_of_lt (by omega : v.major.toNat < 2 ^ 32),
    Nat.mod_eq_of_lt (by omega : v.minor.toNat < 2 ^ 32), Nat.shiftLeft_eq, Nat.mod_eq_of_lt (by omega), ← Nat.shiftLeft_eq,
    show 2 * 8 = 16 from rfl, ← Nat.shiftLeft_add_eq_or_of_lt (by omega), Nat.shiftLeft_eq]

theorem ge_iff (a b : Version) : a.ge b = true ↔ b.major.toNat * 2 ^ 16 + b.minor.toNat ≤ a.major.toNat * 2 ^ 16 + a.minor.toNat := by
  have h1 := a.minor.isLt
  have h2 := b.minor.isLt
  unfold Version.ge
  split
  · rename_i h
    have : b.major.toNat < a.major.toNat := h
    simp; omega
  · rename_i h
    have h : ¬ b.major.toNat < a.major.toNat := h
    split
    · rename_i h'
      simp only [Bool.and_eq_true, beq_iff_eq, decide_eq_true_eq] at h'
      have h3 : a.major.toNat = b.major.toNat := by rw [h'.1]
      have h4 : b.minor.toNat ≤ a.minor.toNat := h'.2
      simp; omega
    · rename_i h'
      simp only [Bool.and_eq_true, beq_iff_eq, decide_eq_true_eq, not_and] at h'
      simp only [Bool.false_eq_true, false_iff, Nat.not_le]
      by_cases e : a.major = b.major
      · have h4 : ¬ b.minor.toNat ≤ a.minor.toNat := h' e
        rw [e]; omega
      · have : a.major.toNat ≠ b.major.toNat := fun h => e (BitVec.eq_of_toNat_eq h)
        omega

/-- C71: packing keeps the order. -/
theorem C71_order (a b : Version) : (a.ge b = true ↔ b.toUint32 ≤ a.toUint32) ∧ (a.lt b = true ↔ a.toUint32 < b.toUint32) := by
  have h := ge_iff a b
  rw [← toUint32_toNat, ← toUint32_toNat] at h
  refine ⟨h, ?_⟩
  have : a.lt b = true ↔ ¬ a.ge b = true := by simp [Version.lt]
  rw [this, h]
  exact Nat.not_le

/-- C71: versions come first by the major, then by the minor number. -/
theorem C71_lexicographic (a b : Version) :
    a.lt b = true ↔ a.major.toNat < b.major.toNat ∨ (a.major.toNat = b.major.toNat ∧ a.minor.toNat < b.minor.toNat) := by
  have h := ge_iff a b
  have h1 := a.minor.isLt
  have h2 := b.minor.isLt
  have : a.lt b = true ↔ ¬ a.ge b = true := by simp [Version.lt]
  rw [this, h]
  omega

/-- C71: packing loses nothing. -/
theorem C71_unpack (v : Version) : v.toUint32.toNat / 2 ^ 16 = v.major.toNat ∧ v.toUint32.toNat % 2 ^ 16 = v.minor.toNat := by
  rw [toUint32_toNat]
  have := v.minor.isLt
  omega

theorem C71_injective (a b : Version) (h : a.toUint32 = b.toUint32) : a = b := by
  have h1 := C71_unpack a
  have h2 := C71_unpack b
  rw [h] at h1
  obtain ⟨a1, a2⟩ := a
  obtain ⟨b1, b2⟩ := b
  simp only [Version.mk.injEq]
  exact ⟨BitVec.eq_of_toNat_eq (h1.1.symm.trans h2.1), BitVec.eq_of_toNat_eq (h1.2.symm.trans h2.2)⟩

/-- C71: `>=` is a total order and `<` its strict part. -/
theorem C71_total_order (a b c : Version) : a.ge a = true ∧ (a.ge b = true ∨ b.ge a = true) ∧ (a.ge b = true → b.ge c = true → a.ge c = true) ∧
    (a.ge b = true → b.ge a = true → a = b) ∧ (a.lt b = true ↔ b.ge a = true ∧ a ≠ b) := by
  have hn : ∀ x y : Version, x.ge y = true ↔ y.toUint32.toNat ≤ x.toUint32.toNat := fun x y => (C71_order x y).1
  have hl : a.lt b = true ↔ a.toUint32.toNat < b.toUint32.toNat := (C71_order a b).2
  have inj : a.toUint32.toNat = b.toUint32.toNat → a = b := fun h => C71_injective a b (BitVec.eq_of_toNat_eq h)
  simp only [hn, hl]
  refine ⟨Nat.le_refl _, by omega, by omega, fun h1 h2 => inj (by omega), ?_⟩
  constructor
  · intro h; exact ⟨by omega, by rintro rfl; omega⟩
  · rintro ⟨h1, h2⟩
    have : a.toUint32.toNat ≠ b.toUint32.toNat := fun h => h2 (inj h)
    omega

example : (Version.mk 1 65535).lt ⟨2, 0⟩ = true ∧ (Version.mk 258 3).toUint32 = 0x01020003#32 := by decide

namespace Misc.IntType

theorem hi_sub_lo (t : IntType) (hw : 1 ≤ t.w) : t.hi - t.lo = 2 ^ t.w := by
  unfold hi lo
  cases t.signed
  · simp
  · simp only [if_true]
    obtain ⟨k, hk⟩ : ∃ k, t.w = k + 1 := ⟨t.w - 1, by omega⟩
    rw [hk, Nat.add_sub_cancel, Int.pow_succ]; omega

theorem conv_of_mem (t : IntType) (hw : 1 ≤ t.w) {x : Int} (h : t.Mem x) : t.conv x = x := by
  have := hi_sub_lo t hw
  unfold Mem at h
  unfold conv
  rw [Int.emod_eq_of_lt (by omega) (by omega)]
  omega

theorem conv_mem (t : IntType) (hw : 1 ≤ t.w) (x : Int) : t.Mem (t.conv x) := by
  have := hi_sub_lo t hw
  have hp : (0 : Int) < 2 ^ t.w := Int.pow_pos (by omega)
  have h1 := Int.emod_nonneg (x - t.lo) (Int.ne_of_gt hp)
  have h2 := Int.emod_lt_of_pos (x - t.lo) hp
  unfold Mem conv
  omega

theorem conv_emod (t : IntType) (x : Int) : t.conv x % 2 ^ t.w = x % 2 ^ t.w := by
  unfold conv
  rw [Int.emod_add_emod]
  congr 1; omega

theorem conv_congr (t : IntType) {x y : Int} (h : x % 2 ^ t.w = y % 2 ^ t.w) : t.conv x = t.conv y := by
  unfold conv
  rw [Int.sub_emod, h, ← Int.sub_emod]

theorem conv_mul (t : IntType) (x y : Int) : t.conv (t.conv x * y) = t.conv (x * y) := by
  apply conv_congr
  rw [Int.mul_emod, conv_emod, ← Int.mul_emod]

theorem conv_mul_both (t : IntType) (x y : Int) : t.conv (t.conv x * t.conv y) = t.conv (x * y) := by
  rw [conv_mul, Int.mul_comm, conv_mul, Int.mul_comm]

theorem conv_unsigned (t : IntType) (hs : t.signed = false) (x : Int) : t.conv x = x % 2 ^ t.w := by
  simp [conv, lo, hs]

/-- Multiplication without overflow. -/
theorem mul_total (t : IntType) (h : t.promote.signed = false ∨ ∀ x y, t.Mem x → t.Mem y → t.promote.Mem (x * y)) (hp : t.promote.signed = false → t.promote = t)
    {x y : Int} (hx : t.Mem x) (hy : t.Mem y) : t.mul x y = .ok (t.conv (x * y)) := by
  unfold mul
  by_cases hs : t.promote.signed = true
  · rcases h with h | h
    · rw [h] at hs; cases hs
    · simp only
      rw [if_pos hs, if_pos (h x y hx hy)]
  · simp only
    rw [if_neg hs, hp (by simpa using hs), conv_congr t (conv_emod t (x * y))]

end Misc.IntType
open Misc.IntType

/-- C72: `sign`. -/
theorem C72_sign (t : IntType) (hw : 2 ≤ t.w) (n : Int) (hn : t.Mem n) : (n < 0 → sign t n = -1) ∧ (0 ≤ n → sign t n = 1) := by
  have h2 : (2 : Int) ^ 1 ≤ 2 ^ (t.w - 1) := by
    have := Nat.pow_le_pow_right (n := 2) (by omega) (show 1 ≤ t.w - 1 by omega)
    exact_mod_cast this
  have h3 : (2 : Int) ^ (t.w - 1) ≤ 2 ^ t.w := by
    have := Nat.pow_le_pow_right (n := 2) (by omega) (show t.w - 1 ≤ t.w by omega)
    exact_mod_cast this
  constructor
  · intro h
    rw [sign, if_pos h]
    apply conv_of_mem t (by omega)
    unfold Mem lo hi at *
    cases hs : t.signed <;> simp [hs] at hn ⊢ <;> omega
  · intro h
    rw [sign, if_neg (by omega)]
    apply conv_of_mem t (by omega)
    unfold Mem lo hi
    cases hs : t.signed <;> simp <;> omega

/-- The powers when no multiplication overflows. -/
theorem pow_total (t : IntType) (hw : 1 ≤ t.w) (h : t.promote.signed = false ∨ ∀ x y, t.Mem x → t.Mem y → t.promote.Mem (x * y))
    (hp : t.promote.signed = false → t.promote = t) (x : Int) (hx : t.Mem x) :
    pow2 t x = .ok (t.conv (x ^ 2)) ∧ pow3 t x = .ok (t.conv (x ^ 3)) ∧ pow4 t x = .ok (t.conv (x ^ 4)) ∧ pow5 t x = .ok (t.conv (x ^ 5)) ∧
    pow6 t x = .ok (t.conv (x ^ 6)) := by
  have m := fun {x y : Int} (hx : t.Mem x) (hy : t.Mem y) => mul_total t h hp hx hy
  have h2 : pow2 t x = .ok (t.conv (x ^ 2)) := by rw [pow2, m hx hx]; congr 2; grind
  have h3 : pow3 t x = .ok (t.conv (x ^ 3)) := by
    rw [pow3, h2]; simp only [Res.bind_eq, Res.ok_bind]; rw [m (conv_mem t hw _) hx, conv_mul]; congr 2; grind
  have h4 : pow4 t x = .ok (t.conv (x ^ 4)) := by
    rw [pow4, h2]; simp only [Res.bind_eq, Res.ok_bind]
    rw [pow2, m (conv_mem t hw _) (conv_mem t hw _), conv_mul_both]; congr 2; grind
  have h5 : pow5 t x = .ok (t.conv (x ^ 5)) := by
    rw [pow5, h4]; simp only [Res.bind_eq, Res.ok_bind]; rw [m (conv_mem t hw _) hx, conv_mul]; congr 2; grind
  have h6 : pow6 t x = .ok (t.conv (x ^ 6)) := by
    rw [pow6, h3]; simp only [Res.bind_eq, Res.ok_bind]
    rw [pow2, m (conv_mem t hw _) (conv_mem t hw _), conv_mul_both]; congr 2; grind
  exact ⟨h2, h3, h4, h5, h6⟩

/-- C72: unsigned types at least as wide as `int`: the power modulo `2 ^ w`. -/
theorem C72_unsigned (w : Nat) (hw : 32 ≤ w) (x : Int) (hx : 0 ≤ x ∧ x < 2 ^ w) :
    pow2 ⟨w, false⟩ x = .ok (x ^ 2 % 2 ^ w) ∧ pow3 ⟨w, false⟩ x = .ok (x ^ 3 % 2 ^ w) ∧ pow4 ⟨w, false⟩ x = .ok (x ^ 4 % 2 ^ w) ∧
    pow5 ⟨w, false⟩ x = .ok (x ^ 5 % 2 ^ w) ∧ pow6 ⟨w, false⟩ x = .ok (x ^ 6 % 2 ^ w) := by
  have hp : (IntType.mk w false).promote = ⟨w, false⟩ := by unfold promote; rw [if_neg]; show ¬ w < 32; omega
  have := pow_total ⟨w, false⟩ (show 1 ≤ w by omega) (.inl (by rw [hp])) (fun _ => hp) x (by simpa [Mem, lo, hi] using hx)
  have hc : ∀ z, (IntType.mk w false).conv z = z % 2 ^ w := fun z => conv_unsigned ⟨w, false⟩ rfl z
  simpa only [hc] using this

/-- C72: types so narrow that products fit `int` (8 bits, and 16 bits signed): never undefined, the power is converted to the type, that
is, taken modulo `2 ^ w`. -/
theorem C72_narrow (t : IntType) (hw : 1 ≤ t.w) (ht : t.w ≤ 15 ∨ (t.w = 16 ∧ t.signed = true)) (x : Int) (hx : t.Mem x) :
    pow2 t x = .ok (t.conv (x ^ 2)) ∧ pow3 t x = .ok (t.conv (x ^ 3)) ∧ pow4 t x = .ok (t.conv (x ^ 4)) ∧ pow5 t x = .ok (t.conv (x ^ 5)) ∧
    pow6 t x = .ok (t.conv (x ^ 6)) := by
  have hp : t.promote = IntType.int := by unfold promote; rw [if_pos (by omega)]
  apply pow_total t hw _ _ x hx
  · right
    rw [hp]
    intro a b ha hb
    have bound : ∀ z, t.Mem z → z.natAbs ≤ 2 ^ 15 := by
      intro z hz
      unfold Mem lo hi at hz
      have e1 : (2 : Int) ^ (t.w - 1) ≤ 2 ^ 15 := by
        have := Nat.pow_le_pow_right (n := 2) (by omega) (show t.w - 1 ≤ 15 by omega)
        exact_mod_cast this
      rcases ht with ht | ⟨h1, h2⟩
      · have e2 : (2 : Int) ^ t.w ≤ 2 ^ 15 := by
          have := Nat.pow_le_pow_right (n := 2) (by omega) ht
          exact_mod_cast this
        cases hs : t.signed <;> simp [hs] at hz <;> omega
      · simp [h2] at hz; omega
    have hprod : (a * b).natAbs ≤ 2 ^ 15 * 2 ^ 15 := by
      rw [Int.natAbs_mul]; exact Nat.mul_le_mul (bound a ha) (bound b hb)
    simp only [Mem, lo, hi, IntType.int]
    simp
    omega
  · rw [hp]; intro h; cases h

/-- Powers grow. -/
theorem pow_mem_of {t : IntType} (hs : t.signed = true) (hw : 2 ≤ t.w) {x : Int} {m n : Nat} (hmn : m < n) (h : t.Mem (x ^ n)) : t.Mem (x ^ m) := by
  have hB : 2 ≤ 2 ^ (t.w - 1) := by
    have := Nat.pow_le_pow_right (n := 2) (by omega) (show 1 ≤ t.w - 1 by omega)
    simpa using this
  have hcast : ((2 ^ (t.w - 1) : Nat) : Int) = (2 : Int) ^ (t.w - 1) := by simp
  have key : (x ^ m).natAbs < 2 ^ (t.w - 1) := by
    have hn : (x ^ n).natAbs ≤ 2 ^ (t.w - 1) := by
      unfold Mem lo hi at h
      simp only [hs, if_true] at h
      rw [← hcast] at h
      omega
    rw [Int.natAbs_pow] at hn ⊢
    rcases Nat.lt_or_ge x.natAbs 2 with h1 | h1
    · have : x.natAbs ^ m ≤ 1 ^ m := Nat.pow_le_pow_left (by omega) m
      rw [Nat.one_pow] at this; omega
    · have := Nat.pow_lt_pow_right h1 hmn
      omega
  unfold Mem lo hi
  simp only [hs, if_true]
  rw [← hcast]
  omega

theorem mul_signed {t : IntType} (hs : t.signed = true) (hw : 32 ≤ t.w) (x y : Int) :
    t.mul x y = if t.Mem (x * y) then .ok (x * y) else .ub .overflow := by
  have hp : t.promote = t := by unfold promote; rw [if_neg (by omega)]
  unfold mul
  rw [hp]
  simp only [hs, if_true]
  by_cases h : t.Mem (x * y)
  · rw [if_pos h, if_pos h, conv_of_mem t (by omega) h]
  · rw [if_neg h, if_neg h]

/-- C72: signed types at least as wide as `int`: the power if it is a value of the type, undefined otherwise. -/
theorem C72_signed (w : Nat) (hw : 32 ≤ w) (x : Int) :
    pow2 ⟨w, true⟩ x = (if - 2 ^ (w - 1) ≤ x ^ 2 ∧ x ^ 2 < 2 ^ (w - 1) then .ok (x ^ 2) else .ub .overflow) ∧
    pow3 ⟨w, true⟩ x = (if - 2 ^ (w - 1) ≤ x ^ 3 ∧ x ^ 3 < 2 ^ (w - 1) then .ok (x ^ 3) else .ub .overflow) ∧
    pow4 ⟨w, true⟩ x = (if - 2 ^ (w - 1) ≤ x ^ 4 ∧ x ^ 4 < 2 ^ (w - 1) then .ok (x ^ 4) else .ub .overflow) ∧
    pow5 ⟨w, true⟩ x = (if - 2 ^ (w - 1) ≤ x ^ 5 ∧ x ^ 5 < 2 ^ (w - 1) then .ok (x ^ 5) else .ub .overflow) ∧
    pow6 ⟨w, true⟩ x = (if - 2 ^ (w - 1) ≤ x ^ 6 ∧ x ^ 6 < 2 ^ (w - 1) then .ok (x ^ 6) else .ub .overflow) := by
  have hm : ∀ z : Int, (- 2 ^ (w - 1) ≤ z ∧ z < 2 ^ (w - 1)) ↔ (IntType.mk w true).Mem z := fun z => by simp [Mem, lo, hi]
  have ms := mul_signed (t := ⟨w, true⟩) rfl hw
  have up := fun {m n : Nat} (hmn : m < n) => pow_mem_of (t := ⟨w, true⟩) rfl (show 2 ≤ w by omega) (x := x) hmn
  have ite_eq : ∀ (z : Int), (if - 2 ^ (w - 1) ≤ z ∧ z < 2 ^ (w - 1) then Res.ok z else .ub .overflow) =
      if (IntType.mk w true).Mem z then Res.ok z else .ub .overflow := by
    intro z
    by_cases h : (IntType.mk w true).Mem z
    · rw [if_pos h, if_pos ((hm z).mpr h)]
    · rw [if_neg h, if_neg (fun h' => h ((hm z).mp h'))]
  simp only [ite_eq]
  have p2 : ∀ z : Int, pow2 ⟨w, true⟩ z = if (IntType.mk w true).Mem (z ^ 2) then .ok (z ^ 2) else .ub .overflow := by
    intro z; rw [pow2, ms]; rw [show z * z = z ^ 2 by grind]
  have chain : ∀ (m n : Nat) (f : Int → Res Int) (r : Res Int), m < n →
      r = (if (IntType.mk w true).Mem (x ^ m) then .ok (x ^ m) else .ub .overflow) →
      (f (x ^ m) = if (IntType.mk w true).Mem (x ^ n) then .ok (x ^ n) else .ub .overflow) →
      r.bind f = if (IntType.mk w true).Mem (x ^ n) then .ok (x ^ n) else .ub .overflow := by
    intro m n f r hmn hr hf
    by_cases h : (IntType.mk w true).Mem (x ^ m)
    · rw [hr, if_pos h, Res.ok_bind, hf]
    · rw [hr, if_neg h, Res.ub_bind, if_neg (fun h' => h (up hmn h'))]
  have h2 := p2 x
  have h3 : pow3 ⟨w, true⟩ x = _ := chain 2 3 _ _ (by omega) h2 (by rw [ms, show x ^ 2 * x = x ^ 3 by grind])
  have h4 : pow4 ⟨w, true⟩ x = _ := chain 2 4 _ _ (by omega) h2 (by rw [p2, show (x ^ 2) ^ 2 = x ^ 4 by grind])
  have h5 : pow5 ⟨w, true⟩ x = _ := chain 4 5 _ _ (by omega) h4 (by rw [ms, show x ^ 4 * x = x ^ 5 by grind])
  have h6 : pow6 ⟨w, true⟩ x = _ := chain 3 6 _ _ (by omega) h3 (by rw [p2, show (x ^ 3) ^ 2 = x ^ 6 by grind])
  exact ⟨h2, h3, h4, h5, h6⟩

/-- C72: `uint16_t` is promoted to `int`, so the square of a large value is undefined behaviour instead of being taken modulo `2 ^ 16`. -/
theorem C72_uint16 (x : Int) (hx : 0 ≤ x ∧ x < 2 ^ 16) :
    pow2 ⟨16, false⟩ x = if x ≤ 46340 then .ok (x ^ 2 % 2 ^ 16) else .ub .overflow := by
  have hp : (IntType.mk 16 false).promote = IntType.int := by decide
  have hsq : x ≤ 46340 ↔ IntType.int.Mem (x * x) := by
    simp only [Mem, lo, hi, IntType.int]
    simp
    constructor
    · intro h
      have := Int.mul_le_mul h h hx.1 (by omega)
      have h0 := Int.mul_nonneg hx.1 hx.1
      omega
    · intro h
      apply Int.not_lt.mp
      intro hc
      have := Int.mul_le_mul (show (46341 : Int) ≤ x by omega) (show (46341 : Int) ≤ x by omega) (by omega) hx.1
      omega
  unfold pow2 mul
  rw [hp, if_pos (show IntType.int.signed = true from rfl)]
  by_cases h : x ≤ 46340
  · rw [if_pos h, if_pos (hsq.mp h), conv_unsigned ⟨16, false⟩ rfl]
    congr 2; grind
  · rw [if_neg h, if_neg (fun h' => h (hsq.mpr h'))]

theorem mul_defined {t : IntType} {x y r : Int} (h : t.mul x y = .ok r) : r = t.conv (x * y) := by
  unfold mul at h
  simp only at h
  by_cases hs : t.promote.signed = true
  · rw [if_pos hs] at h
    by_cases hm : t.promote.Mem (x * y)
    · rw [if_pos hm] at h
      simpa using h.symm
    · rw [if_neg hm] at h; cases h
  · rw [if_neg hs] at h
    have hp : t.promote = t := by
      unfold promote at hs ⊢
      by_cases hw : t.w < 32
      · rw [if_pos hw] at hs; exact absurd rfl hs
      · rw [if_neg hw]
    rw [hp, conv_congr t (conv_emod t (x * y))] at h
    simpa using h.symm

/-- C72: for every integer type, whenever the call is not undefined the result is the power converted to the type (modulo `2 ^ w`). -/
theorem C72_when_defined (t : IntType) (x r : Int) :
    (pow2 t x = .ok r → r = t.conv (x ^ 2)) ∧ (pow3 t x = .ok r → r = t.conv (x ^ 3)) ∧ (pow4 t x = .ok r → r = t.conv (x ^ 4)) ∧
    (pow5 t x = .ok r → r = t.conv (x ^ 5)) ∧ (pow6 t x = .ok r → r = t.conv (x ^ 6)) := by
  have inv : ∀ {m : Res Int} {f : Int → Res Int} {r : Int}, (m >>= f) = .ok r → ∃ y, m = .ok y ∧ f y = .ok r := by
    intro m f r h
    cases m with
    | ok y => exact ⟨y, rfl, h⟩
    | _ => cases h
  have h2 : ∀ z r, pow2 t z = .ok r → r = t.conv (z ^ 2) := by
    intro z r h
    rw [mul_defined h]; congr 1; grind
  have h3 : ∀ r, pow3 t x = .ok r → r = t.conv (x ^ 3) := by
    intro r h
    obtain ⟨y, hy, h⟩ := inv h
    rw [mul_defined h, h2 _ _ hy, conv_mul]; congr 1; grind
  have h4 : ∀ r, pow4 t x = .ok r → r = t.conv (x ^ 4) := by
    intro r h
    obtain ⟨y, hy, h⟩ := inv h
    rw [mul_defined h, h2 _ _ hy, conv_mul_both]; congr 1; grind
  refine ⟨h2 x r, h3 r, h4 r, ?_, ?_⟩
  · intro h
    obtain ⟨y, hy, h⟩ := inv h
    rw [mul_defined h, h4 _ hy, conv_mul]; congr 1; grind
  · intro h
    obtain ⟨y, hy, h⟩ := inv h
    rw [mul_defined h, h3 _ hy, conv_mul_both]; congr 1; grind

example : pow3 ⟨16, false⟩ 1000 = .ok (1000000000 % 65536) := by decide

example : pow3 ⟨32, true⟩ (-7) = .ok (-343) ∧ pow2 ⟨32, true⟩ 46341 = .ub .overflow ∧ pow2 ⟨8, false⟩ 20 = .ok 144 ∧
    pow2 ⟨16, false⟩ 65535 = .ub .overflow := by decide

/-- C73: the difference of two readings is the elapsed time in milliseconds, to less than one millisecond, also if the counter wrapped in
between. -/
theorem C73_ticks (t1 t2 : Int) (h0 : 0 ≤ t1) (h1 : t1 ≤ t2) (h2 : t2 - t1 ≤ (2 ^ 32 - 1) * 1000000) :
    (((ticks t2 - ticks t1).toNat : Int) * 1000000 - (t2 - t1)).natAbs < 1000000 := by
  unfold ticks
  rw [Int.tdiv_eq_ediv_of_nonneg h0, Int.tdiv_eq_ediv_of_nonneg (by omega), BitVec.toNat_sub, BitVec.toNat_ofInt, BitVec.toNat_ofInt]
  omega

/-- C73: the bound is tight: one nanosecond less than 2 ^ 32 ms can read as 0. -/
theorem C73_tight : ∃ t1 t2 : Int, 0 ≤ t1 ∧ t1 ≤ t2 ∧ t2 - t1 < 2 ^ 32 * 1000000 ∧ ticks t2 - ticks t1 = 0 :=
  ⟨999999, 2 ^ 32 * 1000000, by omega, by omega, by omega, by decide⟩

/-- Across a wrap. -/
example : ticks (4294967295 * 1000000) = 4294967295#32 ∧ ticks (4294967300 * 1000000) = 4#32 ∧
    (ticks (4294967300 * 1000000) - ticks (4294967295 * 1000000)).toNat = 5 := by decide

/-- C74: `offset_sequence` adds the offset to every index and keeps their number and order. -/
theorem C74_offset_sequence (offset : Nat) (is : List Nat) (h : ∀ i ∈ is, i + offset < 2 ^ 64) :
    (offsetSequence offset is).length = is.length ∧ ∀ k i : Nat, is[k]? = some i → (offsetSequence offset is)[k]? = some (i + offset) := by
  refine ⟨by simp [offsetSequence], ?_⟩
  intro k i hk
  have := h i (List.mem_of_getElem? hk)
  simp [offsetSequence, hk, Nat.mod_eq_of_lt this]

theorem filter_zipIdx (x : Nat) (ts : List Nat) (k i : Nat) : (x, i) ∈ (ts.zipIdx k).filter (fun p => p.1 = x) ↔ k ≤ i ∧ ts[i - k]? = some x := by
  rw [List.mem_filter, List.mem_zipIdx_iff_le_and_getElem?_sub]
  simp

/-- C74: `index_of_v<X, variant<T...>>` exists exactly if `X` is one of the alternatives and occurs once, and is its position. -/
theorem C74_index_of (x : Nat) (ts : List Nat) (i : Nat) : indexOf x ts = some i ↔ ts[i]? = some x ∧ ∀ j, ts[j]? = some x → j = i := by
  have hmem : ∀ p ∈ ts.zipIdx.filter (fun p => p.1 = x), p.1 = x := by
    intro p hp; simpa using (List.mem_filter.mp hp).2
  have hf := fun i => filter_zipIdx x ts 0 i
  simp only [Nat.zero_le, true_and, Nat.sub_zero] at hf
  have hnd : (ts.zipIdx.filter (fun p => p.1 = x)).Nodup := by
    apply List.Pairwise.filter
    have := List.nodup_range' (s := 0) (n := ts.length)
    rw [← List.zipIdx_map_snd] at this
    refine List.Pairwise.imp ?_ (List.pairwise_map.mp this)
    intro a b h he
    exact h (by rw [he])
  unfold indexOf
  constructor
  · intro h
    split at h
    · rename_i p hp
      simp only [Option.some.injEq] at h
      obtain ⟨a, b⟩ := p
      have hx : a = x := hmem (a, b) (by rw [hp]; simp)
      simp only at h
      subst h hx
      refine ⟨(hf b).mp (by rw [hp]; simp), ?_⟩
      intro j hj
      have := (hf j).mpr hj
      rw [hp] at this
      simpa using this
    · cases h
  · rintro ⟨h1, h2⟩
    have hall : ∀ p ∈ ts.zipIdx.filter (fun p => p.1 = x), p = (x, i) := by
      rintro ⟨a, b⟩ hp
      have hx := hmem _ hp
      simp only at hx
      subst hx
      rw [h2 b ((hf b).mp hp)]
    have hin := (hf i).mpr h1
    generalize ts.zipIdx.filter (fun p => p.1 = x) = l at *
    cases l with
    | nil => cases hin
    | cons p l =>
      cases l with
      | nil => rw [hall p (by simp)]
      | cons q l =>
        have e1 := hall p (by simp)
        have e2 := hall q (by simp)
        rw [e1, e2] at hnd
        simp at hnd

/-- C74: `uint_size<n>` and `int_size<n>` exist for 1 to 8 bytes and are the smallest type with at least `n` bytes. -/
theorem C74_int_size (n : Nat) : (1 ≤ n ∧ n ≤ 8 → ∃ s, intSize n = some s ∧ s ∈ [1, 2, 4, 8] ∧ n ≤ s ∧ ∀ s' ∈ [1, 2, 4, 8], n ≤ s' → s ≤ s') ∧
    (¬ (1 ≤ n ∧ n ≤ 8) → intSize n = none) := by
  match n with
  | 0 | 1 | 2 | 3 | 4 | 5 | 6 | 7 | 8 => simp [intSize]
  | n + 9 => simp [intSize]

example : indexOf 7 [3, 7, 5] = some 1 ∧ indexOf 7 [7, 7] = none ∧ indexOf 7 [3] = none ∧ offsetSequence 10 [0, 1, 2] = [10, 11, 12] := by decide

end Utki
