import Verif.Spec.Float
import Mathlib.Tactic.Linarith
import Mathlib.Tactic.Positivity
import Mathlib.Tactic.FieldSimp
import Mathlib.Tactic.NormNum
import Mathlib.Tactic.Ring
/-!
# Lemmas on floating-point values and rounding
-/
namespace Utki.Spec.BinFmt

variable (f : BinFmt)

/-- In the cell number `e` (all patterns whose exponent field is `e + 1`, and also the subnormals for `e = 0`) the values
are the integers from `2^p` to `2^(p+1)` times one power of two. -/
theorem val_cell (e j : Nat) (h1 : 2 ^ f.p ≤ j ∨ e = 0) (h2 : j ≤ 2 ^ (f.p + 1)) :
    f.val (e * 2 ^ f.p + j) = (j : ℚ) * 2 ^ ((e : ℤ) + 1 - f.bias - f.p) := by
  have hpos : 0 < 2 ^ f.p := Nat.two_pow_pos _
  unfold val
  by_cases hj : 2 ^ f.p ≤ j
  · by_cases hj2 : j = 2 ^ (f.p + 1)
    · have e1 : e * 2 ^ f.p + j = (e + 2) * 2 ^ f.p := by rw [hj2, pow_succ]; ring
      rw [e1, Nat.mul_div_cancel _ hpos, Nat.mul_mod_left, if_neg (by omega), hj2]
      push_cast
      rw [show ((e : ℤ) + 2 - f.bias - f.p) = ((e : ℤ) + 1 - f.bias - f.p) + 1 by ring, zpow_add₀ (by norm_num)]
      rw [pow_succ]; ring
    · have hlt : j < 2 ^ (f.p + 1) := by omega
      rw [pow_succ] at hlt
      obtain ⟨m, rfl⟩ : ∃ m, j = 2 ^ f.p + m := ⟨j - 2 ^ f.p, by omega⟩
      have hm : m < 2 ^ f.p := by omega
      have e1 : e * 2 ^ f.p + (2 ^ f.p + m) = m + (e + 1) * 2 ^ f.p := by ring
      rw [e1, Nat.add_mul_div_right _ _ hpos, Nat.add_mul_mod_self_right, Nat.div_eq_of_lt hm, Nat.mod_eq_of_lt hm,
        if_neg (by omega)]
      push_cast
      rw [show (0 + ((e : ℤ) + 1) - f.bias - f.p) = ((e : ℤ) + 1 - f.bias - f.p) by ring]
  · have he : e = 0 := by omega
    subst he
    have hj' : j < 2 ^ f.p := by omega
    rw [Nat.zero_mul, Nat.zero_add, if_pos (Nat.div_eq_of_lt hj')]
    norm_num

/-- Every pattern lies in a cell. -/
theorem cell_of (k : Nat) : ∃ e j, k = e * 2 ^ f.p + j ∧ (2 ^ f.p ≤ j ∨ e = 0) ∧ j < 2 ^ (f.p + 1) := by
  have hpos : 0 < 2 ^ f.p := Nat.two_pow_pos _
  rw [pow_succ]
  rcases Nat.lt_or_ge k (2 ^ f.p) with h | h
  · exact ⟨0, k, by omega, .inr rfl, by omega⟩
  · refine ⟨k / 2 ^ f.p - 1, 2 ^ f.p + k % 2 ^ f.p, ?_, .inl (by omega), ?_⟩
    · have hd : 1 ≤ k / 2 ^ f.p := by rw [Nat.le_div_iff_mul_le hpos]; omega
      have := Nat.div_add_mod k (2 ^ f.p)
      obtain ⟨d, hd'⟩ : ∃ d, k / 2 ^ f.p = d + 1 := ⟨k / 2 ^ f.p - 1, by omega⟩
      rw [hd'] at this ⊢
      rw [Nat.add_sub_cancel]
      rw [Nat.mul_add] at this
      rw [Nat.mul_comm d]
      omega
    · have := Nat.mod_lt k hpos
      omega

theorem val_lt_succ (k : Nat) : f.val k < f.val (k + 1) := by
  obtain ⟨e, j, rfl, h1, h2⟩ := cell_of f k
  rw [Nat.add_assoc, val_cell f e j h1 (by omega), val_cell f e (j + 1) (by omega) (by omega)]
  have : (0 : ℚ) < 2 ^ ((e : ℤ) + 1 - f.bias - f.p) := by positivity
  push_cast
  nlinarith

theorem val_strictMono : StrictMono f.val := strictMono_nat_of_lt_succ (val_lt_succ f)

theorem val_nonneg (k : Nat) : 0 ≤ f.val k := by
  unfold val; split <;> positivity

theorem val_zero : f.val 0 = 0 := by simp [val]

theorem val_le {a b : Nat} (h : a ≤ b) : f.val a ≤ f.val b := (val_strictMono f).monotone h
theorem val_lt {a b : Nat} (h : a < b) : f.val a < f.val b := val_strictMono f h

/-- Between two neighbouring patterns: the lower is nearest if it is nearer, or equally near and even. -/
theorem nearest_lower {x : ℚ} {k : Nat} (hk : k ≤ f.inf) (h1 : f.val k ≤ x) (h2 : x ≤ f.val (k + 1))
    (h : x - f.val k < f.val (k + 1) - x ∨ (x - f.val k = f.val (k + 1) - x ∧ k % 2 = 0)) : f.Nearest x k := by
  refine ⟨hk, fun k' _ hne => ?_⟩
  rw [abs_of_nonneg (by linarith : 0 ≤ x - f.val k)]
  rcases Nat.lt_or_gt_of_ne hne with hlt | hgt
  · left
    have := val_lt f hlt
    rw [abs_of_nonneg (by linarith)]
    linarith
  · have := val_le f (show k + 1 ≤ k' from hgt)
    rw [abs_of_nonpos (by linarith : x - f.val k' ≤ 0)]
    rcases h with h | ⟨h, he⟩
    · left; linarith
    · rcases this.lt_or_eq with h3 | h3
      · left; linarith
      · right; exact ⟨by linarith, he⟩

/-- Between two neighbouring patterns: the upper is nearest if it is nearer, or equally near and even. -/
theorem nearest_upper {x : ℚ} {k : Nat} (hk : k + 1 ≤ f.inf) (h1 : f.val k ≤ x) (h2 : x ≤ f.val (k + 1))
    (h : f.val (k + 1) - x < x - f.val k ∨ (x - f.val k = f.val (k + 1) - x ∧ (k + 1) % 2 = 0)) : f.Nearest x (k + 1) := by
  refine ⟨hk, fun k' _ hne => ?_⟩
  rw [abs_of_nonpos (by linarith : x - f.val (k + 1) ≤ 0)]
  rcases Nat.lt_or_gt_of_ne hne with hlt | hgt
  · have := val_le f (show k' ≤ k by omega)
    rw [abs_of_nonneg (by linarith : 0 ≤ x - f.val k')]
    rcases h with h | ⟨h, he⟩
    · left; linarith
    · rcases this.lt_or_eq with h3 | h3
      · left; linarith
      · right; exact ⟨by linarith, he⟩
  · left
    have := val_lt f hgt
    rw [abs_of_nonpos (by linarith : x - f.val k' ≤ 0)]
    linarith

/-- Numbers from the end of the range on are rounded to infinity. -/
theorem nearest_inf {x : ℚ} (h : f.val f.inf ≤ x) : f.Nearest x f.inf := by
  refine ⟨le_rfl, fun k' hk' hne => .inl ?_⟩
  have := val_lt f (show k' < f.inf by omega)
  rw [abs_of_nonneg (by linarith), abs_of_nonneg (by linarith)]
  linarith

/-- A number a pattern denotes is rounded to that pattern. -/
theorem nearest_val {k : Nat} (h : k ≤ f.inf) : f.Nearest (f.val k) k := by
  apply nearest_lower f h le_rfl (val_lt_succ f k).le
  left
  have := val_lt_succ f k
  linarith

/-- There is only one nearest pattern. -/
theorem Nearest.unique {x : ℚ} {a b : Nat} (ha : f.Nearest x a) (hb : f.Nearest x b) : a = b := by
  by_contra hne
  wlog hab : a < b with H
  · exact H f hb ha (fun h => hne h.symm) (by omega)
  have h1 := ha.2 b hb.1 (fun h => hne h.symm)
  have h2 := hb.2 a ha.1 hne
  have heq : |x - f.val a| = |x - f.val b| := by
    rcases h1 with h1 | h1 <;> rcases h2 with h2 | h2
    · exact absurd h1 (by linarith)
    · exact h2.1.symm
    · exact h1.1
    · exact h1.1
  have ha2 : a % 2 = 0 := by
    rcases h1 with h1 | h1
    · exact absurd heq h1.ne
    · exact h1.2
  have hb2 : b % 2 = 0 := by
    rcases h2 with h2 | h2
    · exact absurd heq.symm h2.ne
    · exact h2.2
  have hlt1 := val_lt f (show a < a + 1 by omega)
  have hlt2 := val_lt f (show a + 1 < b by omega)
  have h3 := ha.2 (a + 1) (by have := hb.1; omega) (by omega)
  -- x is the midpoint
  have hmid : x - f.val a = f.val b - x := by
    rcases abs_eq_abs.mp heq with h | h
    · have := val_lt f hab; linarith
    · linarith
  rw [abs_of_nonneg (show 0 ≤ x - f.val a by linarith)] at h3
  have : |x - f.val (a + 1)| < x - f.val a := by
    rw [abs_lt]; constructor <;> linarith
  rcases h3 with h3 | h3
  · linarith
  · linarith [h3.1]

/-- What rounding makes of `z` when twice `z` is at least `m` and below `m + 1`; `tie` is true if it is exactly `m`. -/
def rne2 (m : Nat) (tie : Bool) : Nat := if m % 4 = 1 && tie then m / 2 else (m + 1) / 2

theorem rne2_bounds (m : Nat) (t : Bool) : m / 2 ≤ rne2 m t ∧ rne2 m t ≤ m / 2 + 1 := by
  unfold rne2; split <;> omega

/-- Rounding in a cell, from the first `p + 2` bits and the knowledge whether there are more. -/
theorem nearest_cell (hp : 1 ≤ f.p) {e m : Nat} {z x : ℚ} {tie : Bool}
    (hx : x = z * 2 ^ ((e : ℤ) + 1 - f.bias - f.p))
    (hm : (m : ℚ) ≤ 2 * z) (hm' : 2 * z < m + 1)
    (hlow : 2 ^ f.p ≤ m / 2 ∨ e = 0) (hhigh : m / 2 < 2 ^ (f.p + 1))
    (htie : m % 4 = 1 → (tie = true ↔ 2 * z = m))
    (hinf : e * 2 ^ f.p + rne2 m tie ≤ f.inf) :
    f.Nearest x (e * 2 ^ f.p + rne2 m tie) := by
  have hu : (0 : ℚ) < 2 ^ ((e : ℤ) + 1 - f.bias - f.p) := by positivity
  have v0 := val_cell f e (m / 2) hlow (by omega)
  have v1 := val_cell f e (m / 2 + 1) (by omega) (by omega)
  rw [← Nat.add_assoc] at v1
  have hpar : ∀ n, (e * 2 ^ f.p + n) % 2 = n % 2 := by
    intro n
    obtain ⟨p', hp'⟩ : ∃ p', f.p = p' + 1 := ⟨f.p - 1, by omega⟩
    rw [hp', pow_succ, ← Nat.mul_assoc, Nat.add_comm, Nat.add_mul_mod_self_right]
  generalize (2 : ℚ) ^ ((e : ℤ) + 1 - f.bias - f.p) = u at *
  -- m = 2j or 2j+1
  obtain ⟨j, hj⟩ : ∃ j, j = m / 2 := ⟨_, rfl⟩
  rw [← hj] at v0 v1 hlow hhigh
  push_cast at v1
  rcases Nat.mod_two_eq_zero_or_one m with hm2 | hm2
  · have hmj : m = 2 * j := by omega
    have hr : rne2 m tie = j := by
      unfold rne2; split
      · omega
      · omega
    rw [hr] at hinf ⊢
    rw [hmj] at hm hm'; push_cast at hm hm'
    apply nearest_lower f hinf
    · rw [v0, hx]; nlinarith
    · rw [v1, hx]; nlinarith
    · left; rw [v0, v1, hx]; nlinarith
  · have hmj : m = 2 * j + 1 := by omega
    by_cases hdown : m % 4 = 1 ∧ tie = true
    · have hz : 2 * z = m := (htie hdown.1).mp hdown.2
      have hr : rne2 m tie = j := by
        unfold rne2; rw [if_pos (by simp [hdown])]; omega
      rw [hr] at hinf ⊢
      rw [hmj] at hz; push_cast at hz
      have hz' : z = j + 1 / 2 := by linarith
      apply nearest_lower f hinf
      · rw [v0, hx, hz']; nlinarith
      · rw [v1, hx, hz']; nlinarith
      · right
        refine ⟨by rw [v0, v1, hx, hz']; ring, ?_⟩
        rw [hpar]; omega
    · have hr : rne2 m tie = j + 1 := by
        unfold rne2; rw [if_neg (by simpa using hdown)]; omega
      rw [hr] at hinf ⊢
      rw [hmj] at hm hm'; push_cast at hm hm'
      rw [← Nat.add_assoc] at hinf ⊢
      apply nearest_upper f hinf
      · rw [v0, hx]; nlinarith
      · rw [v1, hx]; nlinarith
      · rw [v0, v1, hx]
        rcases hm.lt_or_eq with hlt | heq
        · left; nlinarith
        · right
          have hz' : z = j + 1 / 2 := by linarith
          refine ⟨by rw [hz']; ring, ?_⟩
          rw [Nat.add_assoc, hpar]
          by_contra hodd
          have h4 : m % 4 = 1 := by omega
          have : tie = true := (htie h4).mpr (by rw [hmj]; push_cast; linarith)
          exact hdown ⟨h4, this⟩

end Utki.Spec.BinFmt
