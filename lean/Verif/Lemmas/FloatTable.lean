import Verif.Lemmas.FloatCert
import Mathlib.Data.Rat.Floor
import Mathlib.Algebra.Order.Field.Power
import Mathlib.Tactic.Linarith
import Mathlib.Tactic.Positivity
import Mathlib.Tactic.FieldSimp
import Mathlib.Tactic.NormNum
import Mathlib.Tactic.Ring
/-!
# The table of powers of five is accurate

Every entry is compared with the exact power of ten, and the certificates are checked, by evaluation in the kernel over the
whole table. The consequences are stated for the rational number `tpow q`, the exact value an entry approximates.
-/
namespace Utki.FastFloat

/-- power of two in `tpow` -/
def sft (q : Int) : Int := q + 190 - power q
/-- numerator of `tpow` -/
def tnum (q : Int) : Nat := 5 ^ q.toNat * 2 ^ (sft q).toNat
/-- denominator of `tpow` -/
def tden (q : Int) : Nat := 5 ^ (-q).toNat * 2 ^ (-sft q).toNat
/-- `10^q` scaled to 128 bits -/
def tpow (q : Int) : ℚ := 10 ^ q * 2 ^ (190 - power q)

theorem tden_pos (q) : 0 < tden q := by unfold tden; positivity

theorem zpow_toNat (b : ℚ) (k : Int) : b ^ k = b ^ k.toNat / b ^ (-k).toNat := by
  rcases Int.le_total 0 k with h | h
  · obtain ⟨n, rfl⟩ := Int.eq_ofNat_of_zero_le h
    simp
  · obtain ⟨n, hn⟩ := Int.eq_ofNat_of_zero_le (show 0 ≤ -k by omega)
    have : k = -(n : Int) := by omega
    subst this
    simp

theorem tpow_eq (q) : tpow q = tnum q / tden q := by
  unfold tpow tnum tden
  rw [show (190 - power q) = sft q - q by unfold sft; ring]
  rw [show (10 : ℚ) = 5 * 2 by norm_num, mul_zpow, zpow_sub₀ (by norm_num)]
  rw [zpow_toNat 5 q, zpow_toNat 2 (sft q)]
  push_cast
  have : (2 : ℚ) ^ q ≠ 0 := by positivity
  field_simp

/-- the entry `hi, lo` for `q` is right -/
def checkEntry (q : Int) (hi lo : Nat) : Bool :=
  let T := hi * 2 ^ 64 + lo
  let n := tnum q
  let d := tden q
  hi < 2 ^ 64 && 2 ^ 63 ≤ hi && lo < 2 ^ 64 && 2 ^ 127 * d ≤ n && n < 2 ^ 128 * d &&
  (if -27 ≤ q ∧ q < 0 then (T - 1) * d < n && n < T * d && 1 ≤ lo else T * d ≤ n && n < (T + 1) * d) &&
  (if 0 ≤ q ∧ q ≤ 55 then T * d == n else true) && (if 0 ≤ q ∧ q ≤ 27 then lo == 0 else true)

/-- the certificate for `q` is valid -/
def checkFarey (N : Nat) (q : Int) (hi lo : Nat) (c : FareyCert) : Bool :=
  let n := tnum q
  let d := tden q
  let T := (hi * 2 ^ 64 + lo) * d
  T == n || (c.a * N * d ≤ c.b * min T n && max T n * c.d < c.c * N * d && c.c * c.b == c.a * c.d + 1 && 2 ^ 64 ≤ c.b + c.d)

/-- Go through the table with its certificates. -/
def checkAll (chk : Int → Nat → Nat → FareyCert → Bool) : Int → List Nat → List FareyCert → Bool
  | q, hi :: lo :: t, c :: cs => chk q hi lo c && checkAll chk (q + 1) t cs
  | _, [], [] => true
  | _, _, _ => false

def chkD (q : Int) (hi lo : Nat) (c : FareyCert) : Bool := checkEntry q hi lo && checkFarey (2 ^ 137) q hi lo c
def chkF (q : Int) (hi lo : Nat) (c : FareyCert) : Bool := checkFarey (2 ^ 166) q hi lo c

theorem table_checked : checkAll chkD (-342) power_of_five_128 certDouble = true := by decide +kernel

theorem table_checked_float :
    checkAll chkF (-64) ((power_of_five_128.drop 556).take 206) certFloat = true := by decide +kernel

theorem checkAll_get {chk} : ∀ {q0 l cs}, checkAll chk q0 l cs = true → ∀ i, i < cs.length →
    ∃ hi lo c, l[2 * i]? = some hi ∧ l[2 * i + 1]? = some lo ∧ chk (q0 + i) hi lo c = true
  | q0, hi :: lo :: t, c :: cs, h, 0, _ => by
    simp only [checkAll, Bool.and_eq_true] at h
    exact ⟨hi, lo, c, rfl, rfl, by simpa using h.1⟩
  | q0, hi :: lo :: t, c :: cs, h, i + 1, hi' => by
    simp only [checkAll, Bool.and_eq_true] at h
    obtain ⟨hi2, lo2, c2, h1, h2, h3⟩ := checkAll_get h.2 i (by simpa using hi')
    refine ⟨hi2, lo2, c2, ?_, ?_, ?_⟩
    · rw [show 2 * (i + 1) = 2 * i + 1 + 1 by ring]; simpa using h1
    · rw [show 2 * (i + 1) + 1 = (2 * i + 1) + 1 + 1 by ring]; simpa using h2
    · rw [show q0 + ((i + 1 : ℕ) : ℤ) = q0 + 1 + i by push_cast; ring]; exact h3
  | _, [], [], _, i, hi => by simp at hi
  | _, [], _ :: _, h, _, _ => by simp [checkAll] at h
  | _, [_], _, h, _, _ => by simp [checkAll] at h
  | _, _ :: _ :: _, [], h, _, _ => by simp [checkAll] at h

/-- What a valid certificate gives: entry and exact value have the same multiples of `N` below them when multiplied by
any non-zero 64-bit number. -/
theorem farey_sound {N : Nat} {q : Int} {hi lo : Nat} {c : FareyCert} (h : checkFarey N q hi lo c = true) (n w : Nat)
    (hw : 0 < w) (hw' : w < 2 ^ 64) :
    (n * N : ℚ) ≤ w * (hi * 2 ^ 64 + lo) ↔ (n * N : ℚ) ≤ w * tpow q := by
  have hd := tden_pos q
  have key : n * N * tden q ≤ w * ((hi * 2 ^ 64 + lo) * tden q) ↔ n * N * tden q ≤ w * tnum q := by
    simp only [checkFarey, Bool.or_eq_true, Bool.and_eq_true, beq_iff_eq, decide_eq_true_eq] at h
    generalize hA : (hi * 2 ^ 64 + lo) * tden q = A at h ⊢
    generalize hB : tnum q = B at h ⊢
    generalize hM : N * tden q = M
    have eM : ∀ k, k * N * tden q = k * M := fun k => by rw [Nat.mul_assoc, hM]
    simp only [eM] at h ⊢
    rcases h with h | ⟨⟨⟨h1, h2⟩, h3⟩, h4⟩
    · rw [h]
    · have core : ∀ X Y, c.a * M ≤ c.b * X → Y * c.d < c.c * M → n * M ≤ w * Y → ¬ n * M ≤ w * X → False := by
        intro X Y hX hY hnY hnX
        have hnX : w * X < n * M := by omega
        have l1 : c.a * w < n * c.b := by
          have : c.a * w * M < n * c.b * M := by
            calc c.a * w * M = w * (c.a * M) := by ring
              _ ≤ w * (c.b * X) := Nat.mul_le_mul_left _ hX
              _ = c.b * (w * X) := by ring
              _ < c.b * (n * M) := by
                apply Nat.mul_lt_mul_of_pos_left hnX
                rcases Nat.eq_zero_or_pos c.b with hb | hb
                · rw [hb] at h3; omega
                · exact hb
              _ = n * c.b * M := by ring
          exact Nat.lt_of_mul_lt_mul_right this
        have l2 : n * c.d < c.c * w := by
          have : n * c.d * M < c.c * w * M := by
            calc n * c.d * M = c.d * (n * M) := by ring
              _ ≤ c.d * (w * Y) := Nat.mul_le_mul_left _ hnY
              _ = w * (Y * c.d) := by ring
              _ < w * (c.c * M) := Nat.mul_lt_mul_of_pos_left hY hw
              _ = c.c * w * M := by ring
          exact Nat.lt_of_mul_lt_mul_right this
        have l3 : c.b + c.d ≤ w := by
          have e : w * (c.c * c.b) = w * (c.a * c.d) + w := by rw [h3]; ring
          have i1 : c.d * (c.a * w + 1) ≤ c.d * (n * c.b) := Nat.mul_le_mul_left _ l1
          have i2 : c.b * (n * c.d + 1) ≤ c.b * (c.c * w) := Nat.mul_le_mul_left _ l2
          nlinarith
        omega
      rcases Nat.le_total A B with hAB | hAB
      · rw [Nat.min_eq_left hAB] at h1
        rw [Nat.max_eq_right hAB] at h2
        constructor
        · intro hh; exact hh.trans (Nat.mul_le_mul_left _ hAB)
        · intro hh; by_contra hc; exact core A B h1 h2 hh hc
      · rw [Nat.min_eq_right hAB] at h1
        rw [Nat.max_eq_left hAB] at h2
        constructor
        · intro hh; by_contra hc; exact core B A h1 h2 hh hc
        · intro hh; exact hh.trans (Nat.mul_le_mul_left _ hAB)
  have hdq : (0 : ℚ) < tden q := by exact_mod_cast hd
  rw [tpow_eq]
  have e1 : (n * N : ℚ) ≤ w * (hi * 2 ^ 64 + lo) ↔ n * N * tden q ≤ w * ((hi * 2 ^ 64 + lo) * tden q) := by
    rw [← Nat.mul_assoc]
    constructor
    · intro hh
      have : (n * N : ℚ) * tden q ≤ w * (hi * 2 ^ 64 + lo) * tden q := mul_le_mul_of_nonneg_right hh hdq.le
      exact_mod_cast this
    · intro hh
      have : (n * N : ℚ) * tden q ≤ w * (hi * 2 ^ 64 + lo) * tden q := by exact_mod_cast hh
      exact le_of_mul_le_mul_right this hdq
  have e2 : (n * N : ℚ) ≤ w * (tnum q / tden q) ↔ n * N * tden q ≤ w * tnum q := by
    rw [← mul_div_assoc, le_div_iff₀ hdq]
    exact_mod_cast Iff.rfl
  rw [e1, e2, key]

/-- What is known about the table entry `hi, lo` of the power of ten `q`. -/
structure Entry (q : Int) (hi lo : Nat) : Prop where
  rdhi : rd power_of_five_128 (2 * (q - -342)).toNat = .ok hi
  rdlo : rd power_of_five_128 ((2 * (q - -342)).toNat + 1) = .ok lo
  hi_lt : hi < 2 ^ 64
  hi_ge : 2 ^ 63 ≤ hi
  lo_lt : lo < 2 ^ 64
  t_ge : 2 ^ 127 ≤ tpow q
  t_lt : tpow q < 2 ^ 128
  up : -27 ≤ q → q < 0 → (hi * 2 ^ 64 + lo - 1 : ℚ) < tpow q ∧ tpow q < (hi * 2 ^ 64 + lo : ℚ) ∧ 1 ≤ lo
  down : ¬(-27 ≤ q ∧ q < 0) → (hi * 2 ^ 64 + lo : ℚ) ≤ tpow q ∧ tpow q < (hi * 2 ^ 64 + lo + 1 : ℚ)
  exact : 0 ≤ q → q ≤ 55 → tpow q = (hi * 2 ^ 64 + lo : ℚ)
  lo0 : 0 ≤ q → q ≤ 27 → lo = 0

theorem entry_of_check {q : Int} {hi lo : Nat} (h : checkEntry q hi lo = true)
    (h1 : rd power_of_five_128 (2 * (q - -342)).toNat = .ok hi)
    (h2 : rd power_of_five_128 ((2 * (q - -342)).toNat + 1) = .ok lo) : Entry q hi lo := by
  have hd : (0 : ℚ) < tden q := by exact_mod_cast tden_pos q
  simp only [checkEntry, Bool.and_eq_true, decide_eq_true_eq] at h
  obtain ⟨⟨⟨⟨⟨⟨⟨a1, a2⟩, a3⟩, a4⟩, a5⟩, a6⟩, a7⟩, a8⟩ := h
  have le_iff : ∀ k : Nat, k * tden q ≤ tnum q ↔ (k : ℚ) ≤ tpow q := by
    intro k; rw [tpow_eq, le_div_iff₀ hd]; exact_mod_cast Iff.rfl
  have lt_iff : ∀ k : Nat, tnum q < k * tden q ↔ tpow q < (k : ℚ) := by
    intro k; rw [tpow_eq, div_lt_iff₀ hd]; exact_mod_cast Iff.rfl
  have gt_iff : ∀ k : Nat, k * tden q < tnum q ↔ (k : ℚ) < tpow q := by
    intro k; rw [tpow_eq, lt_div_iff₀ hd]; exact_mod_cast Iff.rfl
  refine ⟨h1, h2, a1, a2, a3, ?_, ?_, ?_, ?_, ?_, ?_⟩
  · have := (le_iff _).mp a4; exact_mod_cast this
  · have := (lt_iff _).mp a5; exact_mod_cast this
  · intro b1 b2
    rw [if_pos ⟨b1, b2⟩] at a6
    simp only [Bool.and_eq_true, decide_eq_true_eq] at a6
    obtain ⟨⟨c1, c2⟩, c3⟩ := a6
    refine ⟨?_, ?_, c3⟩
    · have := (gt_iff _).mp c1
      rw [Nat.cast_sub (by omega)] at this
      push_cast at this; exact this
    · have := (lt_iff _).mp c2
      push_cast at this; exact this
  · intro b1
    rw [if_neg b1] at a6
    simp only [Bool.and_eq_true, decide_eq_true_eq] at a6
    have c1 := (le_iff _).mp a6.1
    have c2 := (lt_iff _).mp a6.2
    push_cast at c1 c2
    exact ⟨c1, c2⟩
  · intro b1 b2
    rw [if_pos ⟨b1, b2⟩] at a7
    rw [tpow_eq, eq_comm, eq_div_iff hd.ne']
    exact_mod_cast (beq_iff_eq.mp a7)
  · intro b1 b2
    rw [if_pos ⟨b1, b2⟩] at a8
    simpa using a8

theorem rd_of_get {α : Type} {l : List α} {i : Nat} {a : α} (h : l[i]? = some a) : rd l i = .ok a := by
  simp [rd, h]

theorem certDouble_length : certDouble.length = 651 := by decide +kernel
theorem certFloat_length : certFloat.length = 103 := by decide +kernel

/-- Every power of ten of the range of `double` has its entry, accurate enough for `double`. -/
theorem entry_double {q : Int} (h1 : -342 ≤ q) (h2 : q ≤ 308) : ∃ hi lo, Entry q hi lo ∧
    ∀ n w : Nat, 0 < w → w < 2 ^ 64 → ((n * (2 ^ 137 : ℕ) : ℚ) ≤ w * (hi * 2 ^ 64 + lo) ↔ (n * (2 ^ 137 : ℕ) : ℚ) ≤ w * tpow q) := by
  obtain ⟨hi, lo, c, e1, e2, e3⟩ := checkAll_get table_checked (q + 342).toNat (by rw [certDouble_length]; omega)
  rw [show ((-342 : ℤ) + ((q + 342).toNat : ℤ)) = q by omega] at e3
  simp only [chkD, Bool.and_eq_true] at e3
  have ei : (2 * (q - -342)).toNat = 2 * (q + 342).toNat := by omega
  exact ⟨hi, lo, entry_of_check e3.1 (by rw [ei]; exact rd_of_get e1) (by rw [ei]; exact rd_of_get e2),
    fun n w hw hw' => farey_sound e3.2 n w hw hw'⟩

/-- Every power of ten of the range of `float` has its entry, accurate enough for `float`. -/
theorem entry_float {q : Int} (h1 : -64 ≤ q) (h2 : q ≤ 38) : ∃ hi lo, Entry q hi lo ∧
    ∀ n w : Nat, 0 < w → w < 2 ^ 64 → ((n * (2 ^ 166 : ℕ) : ℚ) ≤ w * (hi * 2 ^ 64 + lo) ↔ (n * (2 ^ 166 : ℕ) : ℚ) ≤ w * tpow q) := by
  obtain ⟨hi, lo, e, -⟩ := entry_double (q := q) (by omega) (by omega)
  obtain ⟨hi2, lo2, c, e1, e2, e3⟩ := checkAll_get table_checked_float (q + 64).toNat (by rw [certFloat_length]; omega)
  rw [show ((-64 : ℤ) + ((q + 64).toNat : ℤ)) = q by omega] at e3
  have f1 := e.rdhi
  have f2 := e.rdlo
  rw [List.getElem?_take, if_pos (by omega), List.getElem?_drop] at e1 e2
  rw [show 556 + 2 * (q + 64).toNat = (2 * (q - -342)).toNat by omega] at e1
  rw [show 556 + (2 * (q + 64).toNat + 1) = (2 * (q - -342)).toNat + 1 by omega] at e2
  rw [rd_of_get e1] at f1
  rw [rd_of_get e2] at f2
  cases f1; cases f2
  exact ⟨hi, lo, e, fun n w hw hw' => farey_sound e3 n w hw hw'⟩

end Utki.FastFloat
