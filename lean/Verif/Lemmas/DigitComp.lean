import Verif.Lemmas.FloatRound
import Verif.Lemmas.DigitMantissa
import Mathlib.Tactic.LinearCombination
/-!
# The exact comparison rounds to nearest

Helper lemmas about `positive_digit_comp`, `negative_digit_comp`, `compute_error` and `digit_comp`.
-/
namespace Utki.FastFloat

open Utki Utki.Spec Utki.Spec.BinFmt

/-- Rounding in a cell, with everything beyond the largest number becoming infinity. -/
theorem nearest_cell_min (f : BinFmt) (hp : 1 ≤ f.p) {e m : Nat} {z x : ℚ} {tie : Bool}
    (hx : x = z * 2 ^ ((e : ℤ) + 1 - f.bias - f.p))
    (hm : (m : ℚ) ≤ 2 * z) (hm' : 2 * z < m + 1)
    (hlow : 2 ^ f.p ≤ m / 2 ∨ e = 0) (hhigh : m / 2 < 2 ^ (f.p + 1))
    (htie : m % 4 = 1 → (tie = true ↔ 2 * z = m)) :
    f.Nearest x (min (e * 2 ^ f.p + rne2 m tie) f.inf) := by
  by_cases hover : e * 2 ^ f.p + rne2 m tie ≤ f.inf
  · rw [Nat.min_eq_left hover]
    exact nearest_cell f hp hx hm hm' hlow hhigh htie hover
  · rw [Nat.min_eq_right (by omega)]
    apply nearest_inf
    have hr := rne2_bounds m tie
    refine (val_le f (show f.inf ≤ e * 2 ^ f.p + m / 2 by omega)).trans ?_
    rw [val_cell f e _ hlow hhigh.le, hx]
    refine mul_le_mul_of_nonneg_right ?_ (by positivity)
    have : ((m / 2 : ℕ) * 2 : ℚ) ≤ m := by exact_mod_cast Nat.div_mul_le_self m 2
    linarith

/-- `positive_digit_comp` rounds a whole number. -/
theorem positive_digit_comp_nearest [Platform] {b : Format} {f : BinFmt} (F : FmtOK b f) {v : bigint} {n : Nat} (h : Big v n) (hn : 0 < n)
    (r : Int) (hb : n * 10 ^ r.toNat < base ^ bigint_limbs) :
    ∃ am, positive_digit_comp b v r = .ok am ∧ GoodAm f am ∧ f.Nearest ((n * 10 ^ r.toNat : ℕ) : ℚ) (pat f am) := by
  have hp := F.prec
  have hbias := F.bias
  obtain ⟨v', a1, a2⟩ := pow10_big r.toNat h hn hb
  obtain ⟨N, hN⟩ : ∃ N, N = n * 10 ^ r.toNat := ⟨_, rfl⟩
  rw [← hN] at a2 ⊢
  have hN0 : 0 < N := by rw [hN]; positivity
  clear hN hb
  obtain ⟨L, hL⟩ : ∃ L, L = N.log2 + 1 := ⟨_, rfl⟩
  have hL1 : 2 ^ L ≤ N * 2 := by
    rw [hL, pow_succ]; exact Nat.mul_le_mul_right _ (Nat.log2_self_le (by omega))
  have hL2 : N < 2 ^ L := by rw [hL]; exact Nat.lt_log2_self
  have hLp : 0 < 2 ^ L := by positivity
  unfold positive_digit_comp
  have hbl : b.extended_bias = f.p + f.bias := by
    unfold Format.extended_bias
    rw [F.p, F.min]; ring
  simp only [Res.bind_eq, a1, Res.ok_bind, hi64_big a2 hN0, bit_length_big a2 hN0, ← hL]
  obtain ⟨M, hM⟩ : ∃ M, M = N * 2 ^ 64 / 2 ^ L := ⟨_, rfl⟩
  obtain ⟨R, hR⟩ : ∃ R, R = N * 2 ^ 64 % 2 ^ L := ⟨_, rfl⟩
  have hMR : 2 ^ L * M + R = N * 2 ^ 64 := by rw [hM, hR]; exact Nat.div_add_mod _ _
  have hRlt : R < 2 ^ L := by rw [hR]; exact Nat.mod_lt _ hLp
  have hM1 : 2 ^ 63 ≤ M := by
    rw [hM, Nat.le_div_iff_mul_le hLp]
    have : (2 : ℕ) ^ 64 = 2 ^ 63 * 2 := by norm_num
    rw [this, Nat.mul_comm N, Nat.mul_assoc]
    exact Nat.mul_le_mul_left _ (by omega)
  have hM2 : M < 2 ^ 64 := by
    rw [hM, Nat.div_lt_iff_lt_mul hLp, Nat.mul_comm]
    exact Nat.mul_lt_mul_of_pos_left hL2 (by positivity)
  rw [← hM, ← hR]
  obtain ⟨P, hP⟩ : ∃ P : ℤ, P = ((L : ℕ) : ℤ) - 64 + b.extended_bias := ⟨_, rfl⟩
  rw [← hP]
  rw [hbl] at hP
  obtain ⟨am, b1, b2, b3⟩ := round_nearest_pat F hM2 (fun _ => hM1) (P := P)
    (fun is_odd is_halfway is_above => is_above || (is_halfway && decide (R ≠ 0)) || (is_odd && is_halfway))
  refine ⟨am, b1, b2, ?_⟩
  rw [b3]
  have hnorm : 1 ≤ P + (63 - f.p : ℤ) := by omega
  have hs : shiftOf f P = 63 - f.p := by rw [shiftOf, if_pos hnorm]
  obtain ⟨e, he⟩ : ∃ e, e = cellOf f P := ⟨_, rfl⟩
  have he' : (e : ℤ) + 1 - f.bias - f.p = (L : ℤ) - 1 - f.p := by
    rw [he]; unfold cellOf; omega
  rw [← he, hs]
  clear b1 b2 b3 he hP hnorm hs a1 a2 h
  obtain ⟨t, ht⟩ : ∃ t, 63 - f.p = t + 1 := ⟨62 - f.p, by omega⟩
  rw [ht, Nat.add_sub_cancel]
  have h64 : (2 : ℕ) ^ 64 = 2 ^ (f.p + 2) * 2 ^ t := by rw [← pow_add]; congr 1; omega
  have htp : 0 < 2 ^ t := by positivity
  obtain ⟨m, hm⟩ : ∃ m, m = M / 2 ^ t := ⟨_, rfl⟩
  obtain ⟨l, hl⟩ : ∃ l, l = M % 2 ^ t := ⟨_, rfl⟩
  have hml : M = m * 2 ^ t + l := by rw [hm, hl, Nat.mul_comm]; exact (Nat.div_add_mod _ _).symm
  have hlt : l < 2 ^ t := by rw [hl]; exact Nat.mod_lt _ htp
  have hdiv : M / 2 ^ (t + 1) = m / 2 := by rw [pow_succ, ← Nat.div_div_eq_div_mul, hm]
  have hmod : M % 2 ^ (t + 1) = m % 2 * 2 ^ t + l := by
    have h1 := Nat.div_add_mod M (2 ^ (t + 1))
    rw [hdiv, pow_succ] at h1
    have h2 := Nat.div_add_mod m 2
    have h3 : M = 2 ^ t * 2 * (m / 2) + (m % 2 * 2 ^ t + l) := by
      rw [hml]
      conv_lhs => rw [← h2]
      ring
    rw [pow_succ]
    omega
  have hround : M / 2 ^ (t + 1) + ((decide (M % 2 ^ (t + 1) > 2 ^ t) || decide (M % 2 ^ (t + 1) = 2 ^ t) && decide (R ≠ 0) ||
      decide (M / 2 ^ (t + 1) % 2 = 1) && decide (M % 2 ^ (t + 1) = 2 ^ t)).toNat) = rne2 m (decide (l = 0 ∧ R = 0)) := by
    rw [hdiv, hmod]
    unfold rne2
    rcases Nat.mod_two_eq_zero_or_one m with h0 | h0
    · have c1 : ¬ (0 * 2 ^ t + l > 2 ^ t) := by omega
      have c2 : ¬ (0 * 2 ^ t + l = 2 ^ t) := by omega
      have c3 : ¬ (m % 4 = 1) := by omega
      rw [h0]
      simp only [c1, c2, c3, decide_false, Bool.false_and, Bool.and_false, Bool.or_false, Bool.toNat_false, Bool.false_eq_true, if_false]
      omega
    · rw [h0, Nat.one_mul]
      have c4 : (2 ^ t + l = 2 ^ t) ↔ l = 0 := by omega
      have c5 : (2 ^ t + l > 2 ^ t) ↔ l ≠ 0 := by omega
      simp only [c4, c5]
      by_cases hl0 : l = 0
      · by_cases hR0 : R = 0
        · by_cases hm4 : m % 4 = 1
          · have c6 : ¬ (m / 2 % 2 = 1) := by omega
            simp [hl0, hR0, hm4, c6]
          · have c6 : m / 2 % 2 = 1 := by omega
            simp [hl0, hR0, hm4, c6]; omega
        · simp [hl0, hR0]; omega
      · simp [hl0]; omega
  rw [hround]
  have hzeq : 2 * ((N : ℚ) * 2 ^ (f.p + 1) / 2 ^ L) * (2 ^ t * 2 ^ L) = N * 2 ^ 64 := by
    have : (2 : ℚ) ^ 64 = 2 ^ (f.p + 2) * 2 ^ t := by exact_mod_cast h64
    rw [this, pow_succ 2 (f.p + 1)]
    field_simp
  have hq : (N * 2 ^ 64 : ℚ) = 2 ^ L * M + R := by exact_mod_cast hMR.symm
  have hMq : (M : ℚ) = m * 2 ^ t + l := by exact_mod_cast hml
  have hpq : (0 : ℚ) < 2 ^ t * 2 ^ L := by positivity
  apply nearest_cell_min f (by omega) (z := (N : ℚ) * 2 ^ (f.p + 1) / 2 ^ L)
  · rw [he', div_mul_eq_mul_div, eq_div_iff (by positivity), mul_assoc]
    congr 1
    rw [← zpow_natCast, ← zpow_natCast, ← zpow_add₀ (by norm_num)]
    congr 1
    push_cast
    ring
  · apply le_of_mul_le_mul_right _ hpq
    rw [hzeq, hq, hMq]
    have : (0 : ℚ) ≤ l * 2 ^ L + R := by positivity
    nlinarith
  · apply lt_of_mul_lt_mul_right _ hpq.le
    rw [hzeq, hq, hMq]
    have h1 : (l + 1 : ℚ) ≤ 2 ^ t := by exact_mod_cast hlt
    have h2 : (R : ℚ) < 2 ^ L := by exact_mod_cast hRlt
    have h3 : (l + 1 : ℚ) * 2 ^ L ≤ 2 ^ t * 2 ^ L := mul_le_mul_of_nonneg_right h1 (by positivity)
    nlinarith
  · left
    rw [← hdiv, Nat.le_div_iff_mul_le (by positivity), ← pow_add, show f.p + (t + 1) = 63 by omega]
    exact hM1
  · rw [← hdiv, Nat.div_lt_iff_lt_mul (by positivity), ← pow_add, show f.p + 1 + (t + 1) = 64 by omega]
    exact hM2
  · intro _
    rw [decide_eq_true_eq]
    constructor
    · rintro ⟨rfl, rfl⟩
      apply mul_right_cancel₀ hpq.ne'
      rw [hzeq, hq, hMq]
      push_cast; ring
    · intro hz
      have h1 : (m : ℚ) * (2 ^ t * 2 ^ L) = 2 ^ L * (m * 2 ^ t + l) + R := by rw [← hMq, ← hq, ← hzeq, hz]
      have h2 : (2 ^ L * l + R : ℚ) = 0 := by linarith
      have h3 : 2 ^ L * l + R = 0 := by exact_mod_cast h2
      have h4 : 2 ^ L * l = 0 := by omega
      refine ⟨?_, by omega⟩
      rcases Nat.mul_eq_zero.mp h4 with h5 | h5
      · omega
      · exact h5

/-- `compute_error(q, w)`: a 64-bit mantissa whose leading bits are those of `w * 10^q`. -/
theorem compute_error_floor [Platform] {b : Format} {f : BinFmt} (F : FmtOK b f) (hbias' : f.bias ≤ 3000) {q : Int} (h1 : b.smallest_power_of_ten ≤ q)
    (h2 : q ≤ b.largest_power_of_ten) {w : Nat} (hw0 : w ≠ 0) (hw : w < 2 ^ 64) :
    ∃ M P, compute_error b q w = .ok ⟨M, P + invalid_am_bias⟩ ∧ P + invalid_am_bias < 0 ∧ M < 2 ^ 64 ∧ 2 ^ 63 ≤ M ∧
      (2 ^ f.p ≤ M / 2 ^ shiftOf f P ∨ cellOf f P = 0) ∧ M / 2 ^ shiftOf f P < 2 ^ (f.p + 1) ∧
      ((M / 2 ^ shiftOf f P : ℕ) : ℚ) * 2 ^ ((cellOf f P : ℤ) + 1 - f.bias - f.p) ≤ w * 10 ^ q ∧
      (w : ℚ) * 10 ^ q < ((M / 2 ^ shiftOf f P : ℕ) + 1) * 2 ^ ((cellOf f P : ℤ) + 1 - f.bias - f.p) := by
  have hp := F.prec
  have hbias := F.bias
  obtain ⟨lz, w', hi, lo, pr, L⟩ := leading F h1 h2 hw0 hw
  unfold compute_error compute_error_scaled
  simp only [L.hlz, Res.bind_eq, Res.ok_bind, L.hshl, F.p, L.prod, F.min, Res.pure_eq]
  obtain ⟨ub, hub⟩ : ∃ ub, ub = pr.high >>> 63 := ⟨_, rfl⟩
  obtain ⟨shift, hshift⟩ : ∃ s, s = ub + 64 - f.p - 3 := ⟨_, rfl⟩
  obtain ⟨m, hm⟩ : ∃ m, m = pr.high >>> shift := ⟨_, rfl⟩
  obtain ⟨g1, g2, g3, g4, g5, g6⟩ := lead_mant hp L hub hshift hm
  have hxor : pr.high >>> 63 ^^^ 1 = 1 - ub := by
    rw [← hub]
    rcases Nat.le_one_iff_eq_zero_or_eq_one.mp g1 with rfl | rfl <;> rfl
  rw [hxor]
  have hval := lead_value L
  have hh := L.high_lt
  have hg := L.high_ge
  have hub' : ub = pr.high / 2 ^ 63 := by rw [hub, Nat.shiftRight_eq_div_pow]
  have hM : (pr.high <<< (1 - ub)) % 2 ^ 64 = pr.high * 2 ^ (1 - ub) := by
    rw [Nat.shiftLeft_eq]
    apply Nat.mod_eq_of_lt
    rcases Nat.le_one_iff_eq_zero_or_eq_one.mp g1 with h | h
    · rw [h, Nat.sub_zero, pow_one]; omega
    · rw [h, Nat.sub_self, pow_zero]; omega
  rw [hM]
  obtain ⟨M, hMe⟩ : ∃ M, M = pr.high * 2 ^ (1 - ub) := ⟨_, rfl⟩
  rw [← hMe]
  have hM1 : 2 ^ 63 ≤ M := by
    rw [hMe]
    rcases Nat.le_one_iff_eq_zero_or_eq_one.mp g1 with h | h
    · rw [h, Nat.sub_zero, pow_one]; omega
    · rw [h, Nat.sub_self, pow_zero]; omega
  have hM2 : M < 2 ^ 64 := by
    rw [hMe]
    rcases Nat.le_one_iff_eq_zero_or_eq_one.mp g1 with h | h
    · rw [h, Nat.sub_zero, pow_one]; omega
    · rw [h, Nat.sub_self, pow_zero]; omega
  have hMm : M / 2 ^ (62 - f.p) = m := by
    rw [hm, Nat.shiftRight_eq_div_pow, hMe, show 62 - f.p = shift + (1 - ub) by omega, pow_add, Nat.mul_div_mul_right _ _ (by positivity)]
  obtain ⟨P, hP⟩ : ∃ P : ℤ, P = power q + ub - lz + f.bias + f.p - 63 := ⟨_, rfl⟩
  have hlz := L.lz_le
  refine ⟨M, P, ?_, ?_, hM2, hM1, ?_⟩
  · congr 2
    rw [hP]
    push_cast [Nat.cast_sub g1]
    ring
  · rw [hP]
    unfold invalid_am_bias power
    simp only [Int.shiftRight_eq_div_pow]
    have := F.largest
    norm_num
    omega
  -- in units of the last bit of the mantissa
  obtain ⟨y, hy⟩ : ∃ y : ℚ, w' * tpow q = y * 2 ^ (128 + shift) := ⟨w' * tpow q / 2 ^ (128 + shift), by field_simp⟩
  have hupos : (0 : ℚ) < 2 ^ (128 + shift) := by positivity
  have hy1 : (m : ℚ) ≤ y := by rw [hy] at g5; exact le_of_mul_le_mul_right g5 hupos
  have hy2 : y < m + 1 := by rw [hy] at g6; exact lt_of_mul_lt_mul_right g6 hupos.le
  have hx : (w : ℚ) * 10 ^ q = y * 2 ^ (P + (63 - f.p) - 1 - f.bias - f.p : ℤ) := by
    rw [hval, hy, mul_assoc, ← zpow_natCast, ← zpow_add₀ (by norm_num)]
    congr 2
    push_cast
    omega
  -- the number of bits removed below the leading `p + 2` ones
  obtain ⟨k, hk⟩ : ∃ k : ℕ, k = 1 + (1 - (P + (63 - f.p : ℤ))).toNat := ⟨_, rfl⟩
  have hcell : (cellOf f P : ℤ) + 1 - f.bias - f.p = (P + (63 - f.p) - 1 - f.bias - f.p : ℤ) + k := by
    unfold cellOf; omega
  have hj : M / 2 ^ shiftOf f P = m / 2 ^ k := by
    by_cases hs : shiftOf f P = 62 - f.p + k
    · rw [hs, pow_add, ← Nat.div_div_eq_div_mul, hMm]
    · have h64 : shiftOf f P = 64 ∧ 64 ≤ 62 - f.p + k := by
        unfold shiftOf at hs ⊢
        split <;> rename_i hc
        · exfalso; apply hs; rw [if_pos hc]; omega
        · rw [if_neg hc] at hs; omega
      rw [h64.1, Nat.div_eq_of_lt hM2, Nat.div_eq_of_lt]
      calc m < 2 ^ (f.p + 2) := g4
        _ ≤ 2 ^ k := Nat.pow_le_pow_right (by norm_num) (by omega)
  rw [hj, hcell, zpow_add₀ (by norm_num), zpow_natCast, hx]
  have hk1 : (0 : ℚ) < 2 ^ k := by positivity
  have hu : (0 : ℚ) < 2 ^ (P + (63 - f.p) - 1 - f.bias - f.p : ℤ) := by positivity
  refine ⟨?_, ?_, ?_, ?_⟩
  · by_cases hc : cellOf f P = 0
    · exact .inr hc
    · left
      have : k = 1 := by unfold cellOf at hc; omega
      rw [this, pow_one]
      rw [pow_succ] at g3
      omega
  · have : m / 2 ^ k ≤ m / 2 ^ 1 := Nat.div_le_div_left (Nat.pow_le_pow_right (by norm_num) (by omega)) (by norm_num)
    have h6 : 2 ^ (f.p + 2) = 2 ^ (f.p + 1) * 2 := pow_succ _ _
    omega
  · rw [mul_comm ((2 : ℚ) ^ (P + (63 - f.p) - 1 - f.bias - f.p : ℤ)), ← mul_assoc]
    refine mul_le_mul_of_nonneg_right ?_ hu.le
    have : ((m / 2 ^ k : ℕ) * 2 ^ k : ℚ) ≤ m := by exact_mod_cast Nat.div_mul_le_self _ _
    linarith
  · rw [mul_comm ((2 : ℚ) ^ (P + (63 - f.p) - 1 - f.bias - f.p : ℤ)), ← mul_assoc]
    refine mul_lt_mul_of_pos_right ?_ hu
    have : m < 2 ^ k * (m / 2 ^ k + 1) := Nat.lt_mul_div_succ _ (by positivity)
    have : m + 1 ≤ (m / 2 ^ k + 1) * 2 ^ k := by rw [Nat.mul_comm]; omega
    have : (m + 1 : ℚ) ≤ ((m / 2 ^ k : ℕ) + 1) * 2 ^ k := by exact_mod_cast this
    linarith

/-- A number between two numbers with the same rounding has that rounding as well. -/
theorem nearest_between (f : BinFmt) {x y z : ℚ} {k : Nat} (hx : f.Nearest x k) (hy : f.Nearest y k) (h1 : x ≤ z) (h2 : z ≤ y) :
    f.Nearest z k := by
  have key : ∀ {u v v' : ℚ}, v < v' → ((|u - v| < |u - v'| ↔ 2 * u < v + v') ∧ (|u - v| = |u - v'| ↔ 2 * u = v + v')) := by
    intro u v v' h
    rcases abs_cases (u - v) with ⟨e1, _⟩ | ⟨e1, _⟩ <;> rcases abs_cases (u - v') with ⟨e2, _⟩ | ⟨e2, _⟩ <;> rw [e1, e2] <;>
      (constructor <;> constructor <;> intro _ <;> linarith)
  refine ⟨hx.1, fun k' hk' hne => ?_⟩
  rcases Nat.lt_or_gt_of_ne hne with hlt | hgt
  · have hv := val_lt f hlt
    have hx' := hx.2 k' hk' hne
    have k1 := key (u := x) hv
    have k2 := key (u := z) hv
    rcases hx' with h | ⟨h, he⟩
    · left
      have h3 : ¬ (2 * x < f.val k' + f.val k) := fun hc => by have := k1.1.mpr hc; linarith
      have h4 : ¬ (2 * x = f.val k' + f.val k) := fun hc => by have := k1.2.mpr hc; linarith
      have h5 : f.val k' + f.val k < 2 * x := by
        rcases lt_trichotomy (2 * x) (f.val k' + f.val k) with h | h | h
        · exact absurd h h3
        · exact absurd h h4
        · exact h
      rcases lt_trichotomy (|z - f.val k|) (|z - f.val k'|) with h | h | h
      · exact h
      · have := k2.2.mp h.symm; linarith
      · have := k2.1.mp h; linarith
    · have h5 := k1.2.mp h.symm
      rcases lt_trichotomy (|z - f.val k|) (|z - f.val k'|) with h | h | h
      · exact .inl h
      · exact .inr ⟨h, he⟩
      · have := k2.1.mp h; linarith
  · have hv := val_lt f hgt
    have hy' := hy.2 k' hk' hne
    have k1 := key (u := y) hv
    have k2 := key (u := z) hv
    rcases hy' with h | ⟨h, he⟩
    · left
      have := k1.1.mp h
      exact k2.1.mpr (by linarith)
    · have h5 := k1.2.mp h
      rcases lt_or_eq_of_le (show 2 * z ≤ f.val k + f.val k' by linarith) with h6 | h6
      · exact .inl (k2.1.mpr h6)
      · exact .inr ⟨k2.2.mpr h6, he⟩

/-- Which of two neighbours is nearest, decided by comparing with the middle. -/
theorem nearest_of_halfway (f : BinFmt) (hp : 1 ≤ f.p) {e j : Nat} (h1 : 2 ^ f.p ≤ j ∨ e = 0) (h2 : j < 2 ^ (f.p + 1))
    (hlt : e * 2 ^ f.p + j < f.inf) {x u : ℚ} (hu : u = 2 ^ ((e : ℤ) + 1 - f.bias - f.p)) (hx1 : j * u ≤ x) (hx2 : x < (j + 1) * u + u / 2) :
    f.Nearest x (e * 2 ^ f.p + (j + if (2 * j + 1) * u / 2 < x then 1 else if x < (2 * j + 1) * u / 2 then 0 else j % 2)) := by
  have hup : 0 < u := by rw [hu]; positivity
  have v0 := val_cell f e j h1 h2.le
  have v1 := val_cell f e (j + 1) (by omega) (by omega)
  rw [← hu] at v0 v1
  push_cast at v1
  rw [← Nat.add_assoc] at v1
  have hpar : (e * 2 ^ f.p + j) % 2 = j % 2 := by
    obtain ⟨p', hp'⟩ : ∃ p', f.p = p' + 1 := ⟨f.p - 1, by omega⟩
    rw [hp', pow_succ, ← Nat.mul_assoc, Nat.add_comm, Nat.add_mul_mod_self_right]
  split
  · rename_i hgt
    rw [← Nat.add_assoc]
    rcases le_or_gt x ((j + 1) * u) with hle | hgt2
    · apply nearest_upper f (by omega) (by rw [v0]; exact hx1) (by rw [v1]; exact hle)
      left
      rw [v0, v1]
      nlinarith
    · by_cases hinf : e * 2 ^ f.p + j + 1 = f.inf
      · rw [hinf]
        apply nearest_inf
        rw [← hinf, v1]
        exact hgt2.le
      · have v2 : (j + 1) * u + u ≤ f.val (e * 2 ^ f.p + j + 1 + 1) := by
          rcases Nat.lt_or_ge (j + 1) (2 ^ (f.p + 1)) with hc | hc
          · have := val_cell f e (j + 2) (by omega) (by omega)
            rw [← hu] at this
            rw [Nat.add_assoc, Nat.add_assoc, this]
            push_cast
            nlinarith
          · have hpp : 0 < 2 ^ f.p := by positivity
            rw [pow_succ] at hc h2
            have hj : j + 1 = 2 ^ f.p * 2 := by omega
            have := val_cell f (e + 1) (2 ^ f.p + 1) (by omega) (by rw [pow_succ]; omega)
            rw [show e * 2 ^ f.p + j + 1 + 1 = (e + 1) * 2 ^ f.p + (2 ^ f.p + 1) by rw [Nat.add_mul]; omega, this]
            have hjq : (j + 1 : ℚ) = 2 ^ f.p * 2 := by exact_mod_cast hj
            have hu2 : (2 : ℚ) ^ (((e + 1 : ℕ) : ℤ) + 1 - f.bias - f.p) = u * 2 := by
              rw [hu, show (((e + 1 : ℕ) : ℤ) + 1 - f.bias - f.p) = ((e : ℤ) + 1 - f.bias - f.p) + 1 by push_cast; ring,
                zpow_add₀ (by norm_num), zpow_one]
            rw [hu2, hjq]
            push_cast
            nlinarith
        apply nearest_lower f (by omega)
        · rw [v1]; exact hgt2.le
        · linarith
        · left
          rw [v1]
          linarith
  · rename_i hngt
    split
    · rename_i hl
      rw [Nat.add_zero]
      apply nearest_lower f (by omega) (by rw [v0]; exact hx1)
      · rw [v1]; nlinarith
      · left
        rw [v0, v1]
        nlinarith
    · rename_i hnl
      have heq : x = (2 * j + 1) * u / 2 := le_antisymm (not_lt.mp hngt) (not_lt.mp hnl)
      rcases Nat.mod_two_eq_zero_or_one j with h0 | h0
      · rw [h0, Nat.add_zero]
        apply nearest_lower f (by omega) (by rw [v0]; exact hx1)
        · rw [v1, heq]; nlinarith
        · right
          rw [v0, v1, hpar]
          exact ⟨by rw [heq]; ring, h0⟩
      · rw [h0, ← Nat.add_assoc]
        apply nearest_upper f (by omega) (by rw [v0]; exact hx1)
        · rw [v1, heq]; nlinarith
        · right
          rw [v0, v1]
          exact ⟨by rw [heq]; ring, by omega⟩

theorem to_float_pos {b : Format} {f : BinFmt} (F : FmtOK b f) (am : adjusted_mantissa) : to_float b false am = pat f am := by
  unfold to_float pat
  rw [F.p]
  simp

/-- `negative_digit_comp` adds one to the number rounded down exactly if the digits lie above the middle, or on it and the number is odd. -/
theorem negative_digit_comp_eq [Platform] {b : Format} {f : BinFmt} (F : FmtOK b f) (F2 : FmtOK2 b f) {v : bigint} {R : Nat} (hv : Big v R) (hR : 0 < R)
    {M : Nat} {P : Int} (hM2 : M < 2 ^ 64) (hM1 : 2 ^ 63 ≤ M) {e j : Nat} (he : cellOf f P = e) (hj : M / 2 ^ shiftOf f P = j)
    (h1 : 2 ^ f.p ≤ j ∨ e = 0) (h2 : j < 2 ^ (f.p + 1)) (hlt : e * 2 ^ f.p + j < f.inf) {r : Int} (hr : r < 0)
    (hA : (2 * j + 1) * 5 ^ (-r).toNat * 2 ^ ((e : ℤ) - f.p - f.bias - r).toNat < base ^ bigint_limbs)
    (hB : R * 2 ^ (r - ((e : ℤ) - f.p - f.bias)).toNat < base ^ bigint_limbs) :
    ∃ am, negative_digit_comp b v ⟨M, P⟩ r = .ok am ∧ GoodAm f am ∧
      pat f am = e * 2 ^ f.p + (j + if ((2 * j + 1 : ℕ) : ℚ) * 2 ^ ((e : ℤ) - f.p - f.bias) < R * 10 ^ r then 1
        else if (R : ℚ) * 10 ^ r < ((2 * j + 1 : ℕ) : ℚ) * 2 ^ ((e : ℤ) - f.p - f.bias) then 0 else j % 2) := by
  have hp := F.prec
  obtain ⟨H, hH⟩ : ∃ H, H = 2 * j + 1 := ⟨_, rfl⟩
  obtain ⟨te, hte⟩ : ∃ te : ℤ, te = (e : ℤ) - f.p - f.bias := ⟨_, rfl⟩
  obtain ⟨amb, a1, -, a3⟩ := round_down_pat F hM2 (fun _ => hM1) (P := P)
  rw [he, hj, Nat.min_eq_left hlt.le] at a3
  have hth := to_extended_halfway_eq F F2 h1 h2 hlt
  rw [← hte, ← hH] at hA hth ⊢
  rw [← hte] at hB
  have hH64 : H < 2 ^ 64 := by
    rw [hH]
    have : 2 ^ (f.p + 1) ≤ 2 ^ 53 := Nat.pow_le_pow_right (by norm_num) (by omega)
    omega
  have hH0 : 0 < H := by omega
  have b0 := ofU64_big hH64
  have hA' : H * 5 ^ (-r).toNat < base ^ bigint_limbs :=
    lt_of_le_of_lt (Nat.le_mul_of_pos_right _ (by positivity)) hA
  obtain ⟨v1, c1, c2⟩ := pow5_big (-r).toNat b0 hH0 hA'
  have hH5 : 0 < H * 5 ^ (-r).toNat := by positivity
  -- both sides after scaling
  obtain ⟨t', d1, d2⟩ : ∃ t', (if te - r > 0 then (bigint.shl v1 (te - r).toNat).1 else v1) = t' ∧
      Big t' (H * 5 ^ (-r).toNat * 2 ^ (te - r).toNat) := by
    split
    · obtain ⟨x, x1, x2⟩ := shl_big (te - r).toNat c2 hH5 hA
      exact ⟨x, by rw [x1], x2⟩
    · rename_i hc
      refine ⟨v1, rfl, ?_⟩
      rw [show (te - r).toNat = 0 by omega, pow_zero, Nat.mul_one]
      exact c2
  obtain ⟨u', e1, e2⟩ : ∃ u', (if te - r < 0 then (bigint.shl v (-(te - r)).toNat).1 else v) = u' ∧
      Big u' (R * 2 ^ (r - te).toNat) := by
    split
    · obtain ⟨x, x1, x2⟩ := shl_big (r - te).toNat hv hR hB
      rw [show -(te - r) = r - te by ring]
      exact ⟨x, by rw [x1], x2⟩
    · rename_i hc
      refine ⟨v, rfl, ?_⟩
      rw [show (r - te).toNat = 0 by omega, pow_zero, Nat.mul_one]
      exact hv
  have hcmp := compare_big e2 d2
  -- the same comparison for the scaled numbers
  have hC : (0 : ℚ) < 10 ^ (-r).toNat * 2 ^ (r - te).toNat := by positivity
  have hscR : (R : ℚ) * 10 ^ r * (10 ^ (-r).toNat * 2 ^ (r - te).toNat) = ((R * 2 ^ (r - te).toNat : ℕ) : ℚ) := by
    have : (10 : ℚ) ^ r * 10 ^ (-r).toNat = 1 := by
      rw [← zpow_natCast, ← zpow_add₀ (by norm_num), show r + ((-r).toNat : ℤ) = 0 by omega, zpow_zero]
    push_cast
    linear_combination (R : ℚ) * 2 ^ (r - te).toNat * this
  have hscH : (H : ℚ) * 2 ^ te * (10 ^ (-r).toNat * 2 ^ (r - te).toNat) = ((H * 5 ^ (-r).toNat * 2 ^ (te - r).toNat : ℕ) : ℚ) := by
    have h10 : (10 : ℚ) ^ (-r).toNat = 5 ^ (-r).toNat * 2 ^ (-r).toNat := by rw [← mul_pow]; norm_num
    have : (2 : ℚ) ^ te * (2 ^ (-r).toNat * 2 ^ (r - te).toNat) = 2 ^ (te - r).toNat := by
      rw [← pow_add, ← zpow_natCast, ← zpow_natCast, ← zpow_add₀ (by norm_num)]
      congr 1
      push_cast
      omega
    push_cast
    rw [h10]
    linear_combination (H : ℚ) * 5 ^ (-r).toNat * this
  have k1 : R * 2 ^ (r - te).toNat > H * 5 ^ (-r).toNat * 2 ^ (te - r).toNat ↔ (H : ℚ) * 2 ^ te < R * 10 ^ r := by
    rw [← mul_lt_mul_iff_left₀ hC, hscR, hscH, Nat.cast_lt]
  have k2 : R * 2 ^ (r - te).toNat < H * 5 ^ (-r).toNat * 2 ^ (te - r).toNat ↔ (R : ℚ) * 10 ^ r < H * 2 ^ te := by
    rw [← mul_lt_mul_iff_left₀ hC, hscR, hscH, Nat.cast_lt]
  obtain ⟨ord, hord⟩ : ∃ o, o = bigint.compare u' t' := ⟨_, rfl⟩
  obtain ⟨am, g1, g2, g3⟩ := round_nearest_pat F hM2 (fun _ => hM1) (P := P)
    (fun is_odd _ _ => if ord > 0 then true else if ord < 0 then false else is_odd)
  refine ⟨am, ?_, g2, ?_⟩
  · unfold negative_digit_comp
    simp only [Res.bind_eq, a1, Res.ok_bind, to_float_pos F, a3, hth]
    rw [if_pos (by omega)]
    simp only [c1, Res.ok_bind, d1, e1, ← hord]
    exact g1
  · rw [g3, he, hj]
    have : ((if ord > 0 then true else if ord < 0 then false else decide (j % 2 = 1)) : Bool).toNat =
        if (H : ℚ) * 2 ^ te < R * 10 ^ r then 1 else if (R : ℚ) * 10 ^ r < H * 2 ^ te then 0 else j % 2 := by
      rw [hord, hcmp]
      simp only [k1, k2]
      split
      · simp
      · split
        · simp
        · simp only [gt_iff_lt, lt_self_iff_false, if_false]
          rcases Nat.mod_two_eq_zero_or_one j with h | h <;> rw [h] <;> rfl
    rw [this, Nat.min_eq_left]
    refine le_trans (Nat.add_le_add_left (Nat.add_le_add_left (?_ : _ ≤ 1) _) _) (by omega : e * 2 ^ f.p + (j + 1) ≤ f.inf)
    split
    · exact le_rfl
    · split <;> omega

end Utki.FastFloat
