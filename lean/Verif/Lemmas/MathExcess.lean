import Verif.Lemmas.MathFloat
import Verif.Model.MathExcess
import Verif.Spec.MathExcess
/-!
# Lemmas on excess precision
-/
namespace Utki
open Spec Spec.BinFmt MathF

/-- A number with a short enough significand and an exponent in the range is a number of the format. -/
theorem exists_val_nat (f : BinFmt) (ht : 2 ≤ f.top) : ∀ (d n : Nat), n < 2 ^ (f.p + 1) →
    (n : ℚ) * 2 ^ (1 - f.bias - f.p + d : ℤ) < 2 ^ (f.top - f.bias : ℤ) → ∃ k < f.inf, f.val k = (n : ℚ) * 2 ^ (1 - f.bias - f.p + d : ℤ) := by
  have hp : 0 < 2 ^ f.p := Nat.two_pow_pos _
  intro d
  induction d with
  | zero =>
    intro n hn _
    refine ⟨n, ?_, ?_⟩
    · calc n < 2 ^ (f.p + 1) := hn
        _ = 2 * 2 ^ f.p := by ring
        _ ≤ f.top * 2 ^ f.p := Nat.mul_le_mul_right _ ht
    · unfold BinFmt.val
      by_cases h : n < 2 ^ f.p
      · rw [if_pos (Nat.div_eq_of_lt h)]; simp
      · have h1 : n / 2 ^ f.p = 1 := by
          apply Nat.div_eq_of_lt_le
          · omega
          · rw [Nat.pow_succ] at hn; omega
        have h2 : n % 2 ^ f.p = n - 2 ^ f.p := by
          have := Nat.div_add_mod n (2 ^ f.p)
          rw [h1] at this; omega
        rw [h1, if_neg (by omega), h2]
        have h3 : (2 : ℚ) ^ f.p + ((n - 2 ^ f.p : ℕ) : ℚ) = n := by
          rw [Nat.cast_sub (by omega)]; push_cast; ring
        rw [h3]; simp
  | succ d ih =>
    intro n hn hlt
    have two : (2 : ℚ) ≠ 0 := by norm_num
    by_cases h : n < 2 ^ f.p
    · have e : (n : ℚ) * 2 ^ (1 - f.bias - f.p + (d + 1 : ℕ) : ℤ) = ((2 * n : ℕ) : ℚ) * 2 ^ (1 - f.bias - f.p + d : ℤ) := by
        push_cast
        rw [show (1 - f.bias - f.p + (d + 1) : ℤ) = (1 - f.bias - f.p + d) + 1 by ring, zpow_add_one₀ two]
        ring
      rw [e] at hlt ⊢
      exact ih (2 * n) (by rw [Nat.pow_succ]; omega) hlt
    · have hE : d + 2 < f.top := by
        by_contra hc
        have h1 : (2 : ℚ) ^ (f.top - f.bias : ℤ) ≤ 2 ^ (f.p : ℤ) * 2 ^ (1 - f.bias - f.p + (d + 1 : ℕ) : ℤ) := by
          rw [← zpow_add₀ two]
          apply zpow_le_zpow_right₀ (by norm_num)
          push_cast; omega
        have h2 : (2 : ℚ) ^ (f.p : ℤ) ≤ n := by
          rw [zpow_natCast]; exact_mod_cast Nat.le_of_not_lt h
        have h3 : (2 : ℚ) ^ (f.p : ℤ) * 2 ^ (1 - f.bias - f.p + (d + 1 : ℕ) : ℤ) ≤ (n : ℚ) * 2 ^ (1 - f.bias - f.p + (d + 1 : ℕ) : ℤ) := by gcongr
        linarith
      have hr : n - 2 ^ f.p < 2 ^ f.p := by rw [Nat.pow_succ] at hn; omega
      have h1 : ((d + 2) * 2 ^ f.p + (n - 2 ^ f.p)) / 2 ^ f.p = d + 2 := by
        rw [Nat.mul_comm, Nat.mul_add_div hp, Nat.div_eq_of_lt hr, Nat.add_zero]
      have h2 : ((d + 2) * 2 ^ f.p + (n - 2 ^ f.p)) % 2 ^ f.p = n - 2 ^ f.p := by
        rw [Nat.mul_comm, Nat.mul_add_mod, Nat.mod_eq_of_lt hr]
      refine ⟨(d + 2) * 2 ^ f.p + (n - 2 ^ f.p), ?_, ?_⟩
      · unfold BinFmt.inf
        calc (d + 2) * 2 ^ f.p + (n - 2 ^ f.p) < (d + 2) * 2 ^ f.p + 2 ^ f.p := by omega
          _ = (d + 3) * 2 ^ f.p := by ring
          _ ≤ f.top * 2 ^ f.p := Nat.mul_le_mul_right _ hE
      · unfold BinFmt.val
        rw [h1, h2, if_neg (by omega)]
        have h3 : (2 : ℚ) ^ f.p + ((n - 2 ^ f.p : ℕ) : ℚ) = n := by
          rw [Nat.cast_sub (by omega)]; push_cast; ring
        rw [h3]
        congr 2
        push_cast; ring

theorem exists_val {f : BinFmt} (ht : 2 ≤ f.top) {n : Nat} {e : ℤ} (hn : n < 2 ^ (f.p + 1)) (he : 1 - f.bias - f.p ≤ e)
    (hlt : (n : ℚ) * 2 ^ e < 2 ^ (f.top - f.bias : ℤ)) : ∃ k < f.inf, f.val k = (n : ℚ) * 2 ^ e := by
  obtain ⟨d, hd⟩ := Int.le.dest he
  have := exists_val_nat f ht d n hn
  rw [hd] at this
  exact this hlt

/-- Every number of the format is of this kind. -/
theorem val_form (f : BinFmt) (k : Nat) : ∃ (n : Nat) (e : ℤ), n < 2 ^ (f.p + 1) ∧ 1 - f.bias - f.p ≤ e ∧ f.val k = (n : ℚ) * 2 ^ e := by
  have hp : 0 < 2 ^ f.p := Nat.two_pow_pos _
  unfold BinFmt.val
  split
  · next h =>
    have : k < 2 ^ f.p := by
      rcases Nat.div_eq_zero_iff.mp h with h | h
      · omega
      · exact h
    exact ⟨k, _, by rw [Nat.pow_succ]; omega, le_refl _, rfl⟩
  · next h =>
    have := Nat.mod_lt k hp
    refine ⟨2 ^ f.p + k % 2 ^ f.p, ((k / 2 ^ f.p : ℕ) : ℤ) - f.bias - f.p, by rw [Nat.pow_succ]; omega, ?_, by rw [Nat.cast_add, Nat.cast_pow]; rfl⟩
    have h1 : (1 : ℤ) ≤ ((k / 2 ^ f.p : ℕ) : ℤ) := by exact_mod_cast Nat.pos_of_ne_zero h
    linarith

/-- What the proofs need to know about the two formats. -/
structure Wider (f g : BinFmt) : Prop where
  F : FT f
  G : FT g
  df : IsDoubleOrFloat f
  p : f.p + 11 ≤ g.p
  low : (1 - g.bias - g.p : ℤ) ≤ 2 * (1 - f.bias - f.p)
  high : 2 * (f.top - f.bias : ℤ) ≤ g.top - g.bias

theorem Wider.of {f g : BinFmt} (h : EvaluatedIn f g) : Wider f g := by
  rcases h with ⟨rfl, rfl⟩ | ⟨rfl, rfl⟩ | ⟨rfl, rfl⟩
  · exact ⟨FT.of type32, FT.of type64, .inr rfl, by decide, by decide, by decide⟩
  · exact ⟨FT.of type32, FT.of type80, .inr rfl, by decide, by decide, by decide⟩
  · exact ⟨FT.of type64, FT.of type80, .inl rfl, by decide, by decide, by decide⟩

theorem val_lt_limit_rat {f : BinFmt} (F : FT f) {k : Nat} (hk : k < f.inf) : f.val k < 2 ^ (f.top - f.bias : ℤ) := by
  have := val_lt_limit F hk
  unfold BinFmt.limit at this
  have e : ((2 : ℝ) ^ (f.top - f.bias : ℤ)) = ((2 ^ (f.top - f.bias : ℤ) : ℚ) : ℝ) := by push_cast; rfl
  rw [e] at this
  exact Rat.cast_lt.mp this

theorem emin_neg {f g : BinFmt} (W : Wider f g) : (1 - f.bias - f.p : ℤ) ≤ 0 := by
  rcases W.df with rfl | rfl <;> decide

theorem emax_pos {f g : BinFmt} (W : Wider f g) : (0 : ℤ) ≤ f.top - f.bias := by
  rcases W.df with rfl | rfl <;> decide

/-- Numbers of the type are numbers of the wider format. -/
theorem wider_exact {R : Rounding} (hR : RoundsToNearest R) {f g : BinFmt} (W : Wider f g) {k : Nat} (hk : k < f.inf) :
    R g (f.val k) < g.inf ∧ g.val (R g (f.val k)) = f.val k := by
  obtain ⟨n, e, hn, he, hv⟩ := val_form f k
  have hlt := val_lt_limit_rat W.F hk
  have h1 := emin_neg W
  have h2 := emax_pos W
  obtain ⟨k', hk', hv'⟩ := exists_val (f := g) W.G.top (n := n) (e := e)
    (lt_of_lt_of_le hn (Nat.pow_le_pow_right (by norm_num) (by have := W.p; omega))) (by have := W.low; omega)
    (by rw [← hv]; exact lt_of_lt_of_le hlt (zpow_le_zpow_right₀ (by norm_num) (by have := W.high; omega)))
  have : R g (f.val k) = k' := by
    rw [hv, ← hv']; exact round_exact hR W.G hk'.le
  rw [this]
  exact ⟨hk', by rw [hv', hv]⟩

theorem opd_eq {R : Rounding} {f g : BinFmt} {x : FloatNum} (hx : f.Finite x) : opd R f g x = ⟨x.neg, R g (f.val x.mag)⟩ := by
  have : x.mag < f.inf := hx
  unfold opd fconv
  rw [if_neg (by omega), if_neg (by omega)]

theorem opd_finite {R : Rounding} (hR : RoundsToNearest R) {f g : BinFmt} (W : Wider f g) {x : FloatNum} (hx : f.Finite x) :
    g.Finite (opd R f g x) ∧ g.real (opd R f g x) = f.real x ∧ (opd R f g x).neg = x.neg ∧ g.val (opd R f g x).mag = f.val x.mag := by
  rw [opd_eq hx]
  obtain ⟨h1, h2⟩ := wider_exact hR W (k := x.mag) hx
  refine ⟨h1, ?_, rfl, h2⟩
  simp only [BinFmt.real, h2]

/-- The product of two numbers of the type is exact in the wider format, if that has twice the precision. -/
theorem product_exact {R : Rounding} (hR : RoundsToNearest R) {f g : BinFmt} (W : Wider f g) (h2p : 2 * f.p + 1 ≤ g.p) {a b : Nat} (ha : a < f.inf)
    (hb : b < f.inf) : R g (f.val a * f.val b) < g.inf ∧ g.val (R g (f.val a * f.val b)) = f.val a * f.val b := by
  obtain ⟨n, e, hn, he, hv⟩ := val_form f a
  obtain ⟨m, d, hm, hd, hw⟩ := val_form f b
  have two : (2 : ℚ) ≠ 0 := by norm_num
  have hprod : f.val a * f.val b = ((n * m : ℕ) : ℚ) * 2 ^ (e + d) := by
    rw [hv, hw, zpow_add₀ two]; push_cast; ring
  have hlt : f.val a * f.val b < 2 ^ (g.top - g.bias : ℤ) := by
    have h1 := val_lt_limit_rat W.F ha
    have h2 := val_lt_limit_rat W.F hb
    have h3 := val_nonneg f a
    have h4 := val_nonneg f b
    calc f.val a * f.val b < 2 ^ (f.top - f.bias : ℤ) * 2 ^ (f.top - f.bias : ℤ) := by
          apply mul_lt_mul'' h1 h2 h3 h4
      _ = 2 ^ (2 * (f.top - f.bias : ℤ)) := by rw [← zpow_add₀ two]; congr 1; exact (two_mul _).symm
      _ ≤ 2 ^ (g.top - g.bias : ℤ) := zpow_le_zpow_right₀ (by norm_num) W.high
  obtain ⟨k', hk', hv'⟩ := exists_val (f := g) W.G.top (n := n * m) (e := e + d)
    (by
      calc n * m < 2 ^ (f.p + 1) * 2 ^ (f.p + 1) := Nat.mul_lt_mul'' hn hm
        _ = 2 ^ (f.p + 1 + (f.p + 1)) := (Nat.pow_add _ _ _).symm
        _ ≤ 2 ^ (g.p + 1) := Nat.pow_le_pow_right (by norm_num) (by omega))
    (by have := W.low; omega) (by rw [← hprod]; exact hlt)
  have : R g (f.val a * f.val b) = k' := by
    rw [hprod, ← hv']; exact round_exact hR W.G hk'.le
  rw [this]
  exact ⟨hk', by rw [hv', hprod]⟩

end Utki
