import Verif.Lemmas.Nearest
/-!
# The error of rounding to nearest

Helper lemmas.
-/
namespace Utki.Spec.BinFmt

variable {f : BinFmt}

/-- Half a unit of the last place: relative to the number, or absolute among the smallest numbers. -/
theorem nearest_err {x : ℚ} {k : Nat} (h : f.Nearest x k) (hk : k < f.inf) (hx : 0 ≤ x) :
    |x - f.val k| ≤ 2 ^ (-(f.p + 1 : ℤ)) * x ∨ |x - f.val k| ≤ 2 ^ (-(f.bias + f.p : ℤ)) := by
  obtain ⟨e, j, rfl, h1, h2⟩ := cell_of f k
  have hs : (0 : ℚ) < 2 ^ ((e : ℤ) + 1 - f.bias - f.p) := by positivity
  have hv := val_cell f e j h1 h2.le
  have hv1 := val_cell f e (j + 1) (h1.imp (fun h => by omega) id) (by omega)
  -- half a step, relative to the lowest number of the cell
  have hhalf : (2 : ℚ) ^ ((e : ℤ) + 1 - f.bias - f.p) / 2 = 2 ^ (-(f.p + 1 : ℤ)) * (2 ^ f.p * 2 ^ ((e : ℤ) + 1 - f.bias - f.p)) := by
    rw [← zpow_natCast, ← zpow_add₀ two_ne_zero, ← zpow_add₀ two_ne_zero, div_eq_mul_inv, ← zpow_neg_one, ← zpow_add₀ two_ne_zero]
    congr 1; ring
  have hhalf0 : e = 0 → (2 : ℚ) ^ ((e : ℤ) + 1 - f.bias - f.p) / 2 = 2 ^ (-(f.bias + f.p : ℤ)) := by
    rintro rfl
    rw [div_eq_mul_inv, ← zpow_neg_one, ← zpow_add₀ two_ne_zero]
    congr 1; push_cast; ring
  have hw : (0 : ℚ) < 2 ^ (-(f.p + 1 : ℤ)) := by positivity
  have hw2 : (2 : ℚ) ^ (-(f.p + 1 : ℤ)) ≤ 1 / 2 := by
    rw [show (-(f.p + 1 : ℤ)) = -((f.p + 1 : ℕ) : ℤ) by push_cast; ring, zpow_neg, zpow_natCast, one_div]
    apply inv_anti₀ (by norm_num)
    calc (2 : ℚ) = 2 ^ 1 := by norm_num
      _ ≤ 2 ^ (f.p + 1) := by gcongr <;> norm_num
  generalize hS : (2 : ℚ) ^ ((e : ℤ) + 1 - f.bias - f.p) = S at *
  generalize hW : (2 : ℚ) ^ (-(f.p + 1 : ℤ)) = W at *
  have hup := (h.2 (e * 2 ^ f.p + (j + 1)) (by omega) (by omega)).elim le_of_lt (fun h => h.1.le)
  rw [hv, hv1] at hup
  rw [hv]
  push_cast at hup
  rcases le_total ((j : ℚ) * S) x with hle | hle
  · rw [abs_of_nonneg (by linarith)] at hup ⊢
    have hd : x - j * S ≤ S / 2 := by
      rcases abs_cases (x - (j + 1 : ℚ) * S) with ⟨e1, e2⟩ | ⟨e1, e2⟩ <;> rw [e1] at hup <;> nlinarith
    rcases h1 with h1 | h1
    · left
      refine hd.trans ?_
      rw [hhalf]
      refine mul_le_mul_of_nonneg_left ?_ hw.le
      refine le_trans ?_ hle
      refine mul_le_mul_of_nonneg_right ?_ hs.le
      exact_mod_cast h1
    · right; rw [← hhalf0 h1]; exact hd
  · rcases Nat.eq_zero_or_pos j with hj0 | hj0
    · subst hj0
      have hxe : x = 0 := le_antisymm (by simpa using hle) hx
      right
      rw [hxe]; simp; positivity
    rw [abs_of_nonpos (by linarith)]
    by_cases hj : 2 ^ f.p < j ∨ e = 0
    · have hv2 := val_cell f e (j - 1) (hj.imp (fun h => by omega) id) (by omega)
      have hdn := (h.2 (e * 2 ^ f.p + (j - 1)) (by omega) (by omega)).elim le_of_lt (fun h => h.1.le)
      rw [hv, hv2, hS, Nat.cast_sub hj0] at hdn
      rw [abs_of_nonpos (by linarith)] at hdn
      push_cast at hdn
      have hd : -(x - j * S) ≤ S / 2 := by
        rcases abs_cases (x - (j - 1 : ℚ) * S) with ⟨e1, e2⟩ | ⟨e1, e2⟩ <;> rw [e1] at hdn <;> nlinarith
      rcases h1 with h1 | h1
      · rcases hj with hj | hj
        · left
          refine hd.trans ?_
          rw [hhalf]
          refine mul_le_mul_of_nonneg_left ?_ hw.le
          have : ((2 ^ f.p : ℕ) : ℚ) + 1 ≤ j := by exact_mod_cast hj
          push_cast at this
          nlinarith
        · right; rw [← hhalf0 hj]; exact hd
      · right; rw [← hhalf0 h1]; exact hd
    · push Not at hj
      obtain ⟨hj1, he⟩ := hj
      have hj2 : j = 2 ^ f.p := by rcases h1 with h1 | h1 <;> omega
      obtain ⟨e', rfl⟩ : ∃ e', e = e' + 1 := ⟨e - 1, by omega⟩
      have hp1 := Nat.two_pow_pos f.p
      have hidx : (e' + 1) * 2 ^ f.p + j = e' * 2 ^ f.p + (2 ^ (f.p + 1) - 1) + 1 := by
        rw [hj2, pow_succ]; have : (e' + 1) * 2 ^ f.p = e' * 2 ^ f.p + 2 ^ f.p := by ring
        omega
      have hv2 := val_cell f e' (2 ^ (f.p + 1) - 1) (Or.inl (by rw [pow_succ]; omega)) (by omega)
      have hS2 : (2 : ℚ) ^ ((e' : ℤ) + 1 - f.bias - f.p) = S / 2 := by
        rw [← hS, div_eq_mul_inv, ← zpow_neg_one, ← zpow_add₀ two_ne_zero]; congr 1; push_cast; ring
      have hdn := (h.2 (e' * 2 ^ f.p + (2 ^ (f.p + 1) - 1)) (by omega) (by omega)).elim le_of_lt (fun h => h.1.le)
      rw [hv, hv2, hS2, Nat.cast_sub (Nat.one_le_two_pow)] at hdn
      rw [abs_of_nonpos (by linarith)] at hdn
      have hjq : (j : ℚ) = 2 ^ f.p := by rw [hj2]; push_cast; rfl
      rw [hjq] at hdn hle ⊢
      push_cast at hdn
      rw [pow_succ] at hdn
      have hd : -(x - 2 ^ f.p * S) ≤ S / 4 := by
        rcases abs_cases (x - (2 ^ f.p * 2 - 1 : ℚ) * (S / 2)) with ⟨e1, e2⟩ | ⟨e1, e2⟩ <;> rw [e1] at hdn <;> nlinarith
      left
      refine hd.trans ?_
      have : W * (2 ^ f.p * S) - W * x ≤ S / 4 * (1 / 2) := by nlinarith
      nlinarith

/-- Rounding keeps the order. -/
theorem nearest_mono {x y : ℚ} {a b : Nat} (ha : f.Nearest x a) (hb : f.Nearest y b) (hxy : x ≤ y) : a ≤ b := by
  by_contra hc
  push Not at hc
  have hlt := val_lt f hc
  have h1 := (ha.2 b hb.1 (by omega)).elim le_of_lt (fun h => h.1.le)
  have h2 := (hb.2 a ha.1 (by omega)).elim le_of_lt (fun h => h.1.le)
  have hx : f.val a + f.val b ≤ 2 * x := by
    rcases abs_cases (x - f.val a) with ⟨e1, _⟩ | ⟨e1, _⟩ <;> rcases abs_cases (x - f.val b) with ⟨e2, _⟩ | ⟨e2, _⟩ <;> rw [e1, e2] at h1 <;> linarith
  have hy : 2 * y ≤ f.val a + f.val b := by
    rcases abs_cases (y - f.val a) with ⟨e1, _⟩ | ⟨e1, _⟩ <;> rcases abs_cases (y - f.val b) with ⟨e2, _⟩ | ⟨e2, _⟩ <;> rw [e1, e2] at h2 <;> linarith
  have : x = y := by linarith
  subst this
  have := Nearest.unique f ha hb
  omega

end Utki.Spec.BinFmt
