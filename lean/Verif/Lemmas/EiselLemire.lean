import Verif.Lemmas.FloatTable
import Verif.Lemmas.Nearest
import Verif.Lemmas.Platform
/-!
# The 64-bit decimal-to-binary step rounds correctly
-/
namespace Utki.FastFloat
open Spec

/-- What `compute_product_approximation` returns: the product with the high word of the entry, or with the whole entry. -/
theorem product_spec [Platform] {prec : Nat} (hprec : prec = 55 ∨ prec = 26) {q : Int} {hi lo : Nat} (E : Entry q hi lo) {w : Nat}
    (hw : w < 2 ^ 64) : ∃ pr, compute_product_approximation prec q w = .ok pr ∧ pr.low < 2 ^ 64 ∧ pr.high < 2 ^ 64 ∧
      ((pr.high * 2 ^ 64 + pr.low = w * hi ∧ pr.high % 2 ^ (64 - prec) ≠ 2 ^ (64 - prec) - 1) ∨
       (w * hi / 2 ^ 64 % 2 ^ (64 - prec) = 2 ^ (64 - prec) - 1 ∧
        pr.high * 2 ^ 64 + pr.low = w * (hi * 2 ^ 64 + lo) / 2 ^ 64)) := by
  have b1 : w * hi < 2 ^ 64 * 2 ^ 64 := Nat.mul_lt_mul'' hw E.hi_lt
  have b2 : w * lo < 2 ^ 64 * 2 ^ 64 := Nat.mul_lt_mul'' hw E.lo_lt
  have c1 : w * hi / 2 ^ 64 % 2 ^ 64 = w * hi / 2 ^ 64 := Nat.mod_eq_of_lt (by omega)
  have c2 : w * lo / 2 ^ 64 % 2 ^ 64 = w * lo / 2 ^ 64 := Nat.mod_eq_of_lt (by omega)
  have hmask : (2 ^ 64 - 1) >>> prec = 2 ^ (64 - prec) - 1 := by rcases hprec with rfl | rfl <;> rfl
  have hall : w * (hi * 2 ^ 64 + lo) = w * hi * 2 ^ 64 + w * lo := by ring
  have b3 : w * (hi * 2 ^ 64 + lo) / 2 ^ 64 = w * hi + w * lo / 2 ^ 64 := by rw [hall]; omega
  have b4 : w * hi + w * lo / 2 ^ 64 < 2 ^ 64 * 2 ^ 64 := by
    rw [← b3, Nat.div_lt_iff_lt_mul (by norm_num)]
    have : hi * 2 ^ 64 + lo < 2 ^ 64 * 2 ^ 64 := by have := E.hi_lt; have := E.lo_lt; omega
    have := Nat.mul_lt_mul'' hw this
    omega
  simp only [compute_product_approximation, fmtDouble, E.rdhi, E.rdlo, full_multiplication_eq hw E.hi_lt, full_multiplication_eq hw E.lo_lt,
    Res.bind_eq, Res.ok_bind, hmask,
    Nat.and_two_pow_sub_one_eq_mod, c1, c2, Res.pure_eq]
  by_cases hm : w * hi / 2 ^ 64 % 2 ^ (64 - prec) = 2 ^ (64 - prec) - 1
  · rw [if_pos hm]
    split
    · refine ⟨_, rfl, Nat.mod_lt _ (by norm_num), Nat.mod_lt _ (by norm_num), .inr ⟨hm, ?_⟩⟩
      rw [b3]; dsimp only; omega
    · refine ⟨_, rfl, Nat.mod_lt _ (by norm_num), ?_, .inr ⟨hm, ?_⟩⟩
      · dsimp only; omega
      · rw [b3]; dsimp only; omega
  · rw [if_neg hm]
    refine ⟨_, rfl, Nat.mod_lt _ (by norm_num), ?_, .inl ⟨?_, hm⟩⟩
    · dsimp only; omega
    · dsimp only; omega

theorem Entry.lower {q : Int} {hi lo : Nat} (E : Entry q hi lo) : (hi * 2 ^ 64 : ℚ) ≤ tpow q := by
  have hlo : (0 : ℚ) ≤ lo := by positivity
  by_cases h : -27 ≤ q ∧ q < 0
  · have := E.up h.1 h.2
    have h1 : (1 : ℚ) ≤ lo := by exact_mod_cast this.2.2
    linarith
  · have := E.down h
    linarith

theorem Entry.upper {q : Int} {hi lo : Nat} (E : Entry q hi lo) : tpow q < ((hi + 1) * 2 ^ 64 : ℚ) := by
  have hlo : (lo + 1 : ℚ) ≤ 2 ^ 64 := by exact_mod_cast E.lo_lt
  by_cases h : -27 ≤ q ∧ q < 0
  · have := E.up h.1 h.2
    linarith
  · have := E.down h
    linarith

/-- The entry is accurate enough for `prec` leading bits of products. -/
def Sharp (prec : Nat) (q : Int) (hi lo : Nat) : Prop :=
  ∀ n w : Nat, 0 < w → w < 2 ^ 64 →
    ((n * (2 ^ (192 - prec) : ℕ) : ℚ) ≤ w * (hi * 2 ^ 64 + lo) ↔ (n * (2 ^ (192 - prec) : ℕ) : ℚ) ≤ w * tpow q)

/-- The leading `prec` bits of the high word are those of the exact product. -/
theorem product_floor {prec : Nat} (hprec : prec = 55 ∨ prec = 26) {q : Int} {hi lo : Nat} (E : Entry q hi lo)
    (S : Sharp prec q hi lo) {w : Nat} (hw0 : 0 < w) (hw : w < 2 ^ 64) {pr : value128} (hlow : pr.low < 2 ^ 64)
    (h : (pr.high * 2 ^ 64 + pr.low = w * hi ∧ pr.high % 2 ^ (64 - prec) ≠ 2 ^ (64 - prec) - 1) ∨
       (w * hi / 2 ^ 64 % 2 ^ (64 - prec) = 2 ^ (64 - prec) - 1 ∧
        pr.high * 2 ^ 64 + pr.low = w * (hi * 2 ^ 64 + lo) / 2 ^ 64)) :
    ((pr.high / 2 ^ (64 - prec) : ℕ) * 2 ^ (192 - prec) : ℚ) ≤ w * tpow q ∧
    w * tpow q < ((pr.high / 2 ^ (64 - prec) : ℕ) + 1) * 2 ^ (192 - prec) := by
  have hN : 2 ^ (192 - prec) = 2 ^ (64 - prec) * 2 ^ 128 := by
    rw [← pow_add]; congr 1; rcases hprec with rfl | rfl <;> rfl
  have hNq : (2 : ℚ) ^ (192 - prec) = 2 ^ (64 - prec) * 2 ^ 128 := by exact_mod_cast hN
  have hD : 0 < 2 ^ (64 - prec) := by positivity
  obtain ⟨G, hG⟩ : ∃ G, G = pr.high / 2 ^ (64 - prec) := ⟨_, rfl⟩
  have hdm := Nat.div_add_mod pr.high (2 ^ (64 - prec))
  have hml := Nat.mod_lt pr.high hD
  rw [← hG] at hdm ⊢
  have hwq : (0 : ℚ) < w := by exact_mod_cast hw0
  have hwq' : (w : ℚ) < 2 ^ 64 := by exact_mod_cast hw
  rcases h with ⟨h1, h2⟩ | ⟨_, h1⟩
  · have l1 := E.lower
    have l2 := E.upper
    rw [hNq]
    constructor
    · have : G * 2 ^ (64 - prec) * 2 ^ 64 ≤ w * hi := by rw [Nat.mul_comm G]; omega
      have hq : (G * 2 ^ (64 - prec) * 2 ^ 64 : ℚ) ≤ w * hi := by exact_mod_cast this
      calc (G * (2 ^ (64 - prec) * 2 ^ 128) : ℚ) = G * 2 ^ (64 - prec) * 2 ^ 64 * 2 ^ 64 := by ring
        _ ≤ w * hi * 2 ^ 64 := by linarith
        _ = w * (hi * 2 ^ 64) := by ring
        _ ≤ w * tpow q := mul_le_mul_of_nonneg_left l1 hwq.le
    · have : w * hi + 2 ^ 64 ≤ (G + 1) * 2 ^ (64 - prec) * 2 ^ 64 := by
        rw [Nat.mul_comm (G + 1), Nat.mul_add]; omega
      have hq : (w * hi + 2 ^ 64 : ℚ) ≤ (G + 1) * 2 ^ (64 - prec) * 2 ^ 64 := by exact_mod_cast this
      calc w * tpow q < w * ((hi + 1) * 2 ^ 64) := mul_lt_mul_of_pos_left l2 hwq
        _ = (w * hi + w) * 2 ^ 64 := by ring
        _ ≤ (w * hi + 2 ^ 64) * 2 ^ 64 := by linarith
        _ ≤ (G + 1) * 2 ^ (64 - prec) * 2 ^ 64 * 2 ^ 64 := by linarith
        _ = (G + 1) * (2 ^ (64 - prec) * 2 ^ 128) := by ring
  · have hT : pr.high = w * (hi * 2 ^ 64 + lo) / 2 ^ 128 := by
      rw [show 2 ^ 128 = 2 ^ 64 * 2 ^ 64 by norm_num, ← Nat.div_div_eq_div_mul, ← h1]; omega
    have hGT : G = w * (hi * 2 ^ 64 + lo) / 2 ^ (192 - prec) := by
      rw [hG, hT, Nat.div_div_eq_div_mul, hN, Nat.mul_comm (2 ^ 128)]
    have hNpos : 0 < 2 ^ (192 - prec) := by positivity
    constructor
    · have h3 : G * 2 ^ (192 - prec) ≤ w * (hi * 2 ^ 64 + lo) := by rw [hGT]; exact Nat.div_mul_le_self _ _
      have := (S G w hw0 hw).mp (by exact_mod_cast h3)
      exact_mod_cast this
    · have h3 : w * (hi * 2 ^ 64 + lo) < (G + 1) * 2 ^ (192 - prec) := by
        rw [hGT, Nat.mul_comm (_ + 1)]; exact Nat.lt_mul_div_succ _ hNpos
      by_contra hc
      have := (S (G + 1) w hw0 hw).mpr (by push_cast; exact not_lt.mp hc)
      have : (G + 1) * 2 ^ (192 - prec) ≤ w * (hi * 2 ^ 64 + lo) := by exact_mod_cast this
      omega

/-- Check that no 64-bit multiple of the high word of the entry is 0 or 1 modulo `2^k`: `u` is its inverse up to `2^v`. -/
def invCheck (k : Nat) (q : Int) (c : Nat × Nat) : Bool :=
  match rd power_of_five_128 (2 * (q - -342)).toNat with
  | .ok hi => hi * c.1 % 2 ^ k == 2 ^ c.2 && c.2 + 64 ≤ k && (if c.2 = 0 then 2 ^ 64 ≤ c.1 % 2 ^ k else hi % 2 == 0)
  | _ => false

/-- Go through a range of powers of ten. -/
def invCheckAll (k : Nat) : Int → List (Nat × Nat) → Bool
  | _, [] => true
  | q, c :: cs => invCheck k q c && invCheckAll k (q + 1) cs

/-- inverses for the powers of ten from -4 to -1 -/
def invDouble : List (Nat × Nat) := [(0x16f6978533007ec3183, 0), (0x1bac687d6343eb1a1f3, 0), (0xcd555555555555554d, 1), (0x1fafffffffffffffffb, 2)]
/-- inverses for the powers of ten from -17 to -1 -/
def invFloat : List (Nat × Nat) := [(0x35098bdb3d89ee897ef59d7df9, 0), (0x211816f7a030fad280461f66d3, 0), (0x23fbf0a26db7d434f9093d1369, 0), (0x2bf851237a4776114e932f16ef, 0), (0x28c625cd4ea976a8f009f3ec1b, 0), (0x31e2736326ccda17e7d0519ce3, 0), (0x32cf6babd67808364f657f6a7f, 1), (0x250d8510908c50dd1a3257511f, 1), (0x9951e492347a5ffb53d302a27, 0), (0x10e09d7b38f7a3f25d4bd57c3f, 2), (0x377312201dd3cea73b0d36c64f, 2), (0xa95361b162d28ff519dc1fc9d, 0), (0x3a77ae3d78b464ceec1a874b8b, 0), (0x3b1439a16f6978533007ec3183, 0), (0x3c66c8a9bac687d6343eb1a1f3, 0), (0x38e38e38cd555555555555554d, 1), (0x3ffffffffafffffffffffffffb, 2)]

theorem invDouble_checked : invCheckAll 73 (-4) invDouble = true := by decide +kernel
theorem invFloat_checked : invCheckAll 102 (-17) invFloat = true := by decide +kernel

theorem invCheckAll_get {k} : ∀ {q0 cs}, invCheckAll k q0 cs = true → ∀ i, i < cs.length → ∃ c, invCheck k (q0 + i) c = true
  | q0, c :: cs, h, 0, _ => by
    simp only [invCheckAll, Bool.and_eq_true] at h
    exact ⟨c, by simpa using h.1⟩
  | q0, c :: cs, h, i + 1, hi => by
    simp only [invCheckAll, Bool.and_eq_true] at h
    obtain ⟨c2, h2⟩ := invCheckAll_get h.2 i (by simpa using hi)
    refine ⟨c2, ?_⟩
    rw [show q0 + ((i + 1 : ℕ) : ℤ) = q0 + 1 + i by push_cast; ring]; exact h2
  | _, [], _, _, hi => by simp at hi

theorem inv_sound {k : Nat} {q : Int} {c : Nat × Nat} (h : invCheck k q c = true) {hi lo : Nat} (E : Entry q hi lo) {w : Nat}
    (hw0 : 0 < w) (hw : w < 2 ^ 64) {l : Nat} (hl : l ≤ 1) : w * hi % 2 ^ k ≠ l := by
  obtain ⟨u, v⟩ := c
  simp only [invCheck, E.rdhi, Bool.and_eq_true, beq_iff_eq, decide_eq_true_eq] at h
  obtain ⟨⟨h1, h2⟩, h3⟩ := h
  intro hc
  have hK : 2 ^ k = 2 ^ (k - 64 - v) * (2 ^ 64 * 2 ^ v) := by
    rw [← pow_add, ← pow_add]; congr 1; omega
  have hKle : 2 ^ 64 * 2 ^ v ≤ 2 ^ k := by rw [hK]; exact Nat.le_mul_of_pos_left _ (by positivity)
  have key : w * 2 ^ v % 2 ^ k = l * u % 2 ^ k := by
    have e : w * hi * u = w * (hi * u) := by ring
    have e1 : (w * hi * u) % 2 ^ k = l * u % 2 ^ k := by rw [Nat.mul_mod, hc, Nat.mul_mod_mod]
    rw [← e1, e, ← Nat.mul_mod_mod w (hi * u), h1]
  have hsmall : w * 2 ^ v < 2 ^ k := lt_of_lt_of_le (Nat.mul_lt_mul_of_pos_right hw (by positivity)) hKle
  rw [Nat.mod_eq_of_lt hsmall] at key
  rcases Nat.le_one_iff_eq_zero_or_eq_one.mp hl with rfl | rfl
  · have : 0 < w * 2 ^ v := by positivity
    simp at key; omega
  · by_cases hv : v = 0
    · subst hv
      simp at key h3; omega
    · rw [if_neg hv] at h3
      simp only [beq_iff_eq] at h3
      have hk2 : 2 ∣ 2 ^ k := dvd_pow_self 2 (by omega)
      have : w * hi % 2 ^ k % 2 = w * hi % 2 := Nat.mod_mod_of_dvd _ hk2
      rw [hc, Nat.mul_mod, h3] at this
      simp at this

/-- What the proofs need to know about the constants of a format. -/
structure FmtOK (b : Format) (f : BinFmt) : Prop where
  p : b.mantissa_explicit_bits = f.p
  prec : f.p + 3 = 55 ∨ f.p + 3 = 26
  min : b.minimum_exponent = -f.bias
  inf : b.infinite_power = f.top
  top : 2 ≤ f.top
  bias : 100 ≤ f.bias
  smallest : -342 ≤ b.smallest_power_of_ten
  largest : b.largest_power_of_ten ≤ 308
  sharp : ∀ q, b.smallest_power_of_ten ≤ q → q ≤ b.largest_power_of_ten → ∃ hi lo, Entry q hi lo ∧ Sharp (f.p + 3) q hi lo
  maxRE0 : 0 ≤ b.max_exponent_round_to_even
  maxRE : b.max_exponent_round_to_even ≤ 23
  tie_hi : 2 ^ (f.p + 2) ≤ 5 ^ (b.max_exponent_round_to_even.toNat + 1)
  minRE0 : b.min_exponent_round_to_even < 0
  minRE : -17 ≤ b.min_exponent_round_to_even
  tie_lo : 2 ^ (63 - f.p) ≤ 5 ^ ((-b.min_exponent_round_to_even).toNat + 1)
  inv : ∀ q, b.min_exponent_round_to_even ≤ q → q < 0 → ∃ c, invCheck (125 - f.p) q c = true
  zero : 2 ^ 64 * (10 : ℚ) ^ (b.smallest_power_of_ten - 1) * 2 < 2 ^ (1 - f.bias - f.p : ℤ)
  infb : (2 : ℚ) ^ (f.top - f.bias : ℤ) ≤ 10 ^ (b.largest_power_of_ten + 1)

set_option exponentiation.threshold 2000 in
theorem fmtDouble_ok : FmtOK fmtDouble binary64 where
  p := rfl
  prec := .inl rfl
  min := rfl
  inf := rfl
  top := by decide
  bias := by decide
  smallest := by decide
  largest := by decide
  sharp := fun _ h1 h2 => entry_double h1 h2
  maxRE0 := by decide
  maxRE := by decide
  tie_hi := by decide
  minRE0 := by decide
  minRE := by decide
  tie_lo := by decide
  inv := by
    intro q h1 h2
    simp only [fmtDouble] at h1
    obtain ⟨c, hc⟩ := invCheckAll_get invDouble_checked (q + 4).toNat (by simp [invDouble]; omega)
    exact ⟨c, by rw [show (-4 : ℤ) + ((q + 4).toNat : ℤ) = q by omega] at hc; exact hc⟩
  zero := by simp only [fmtDouble, binary64]; norm_num
  infb := by simp only [fmtDouble, binary64]; norm_num

theorem fmtFloat_ok : FmtOK fmtFloat binary32 where
  p := rfl
  prec := .inr rfl
  min := rfl
  inf := rfl
  top := by decide
  bias := by decide
  smallest := by decide
  largest := by decide
  sharp := fun _ h1 h2 => entry_float h1 h2
  maxRE0 := by decide
  maxRE := by decide
  tie_hi := by decide
  minRE0 := by decide
  minRE := by decide
  tie_lo := by decide
  inv := by
    intro q h1 h2
    simp only [fmtFloat] at h1
    obtain ⟨c, hc⟩ := invCheckAll_get invFloat_checked (q + 17).toNat (by simp [invFloat]; omega)
    exact ⟨c, by rw [show (-17 : ℤ) + ((q + 17).toNat : ℤ) = q by omega] at hc; exact hc⟩
  zero := by simp only [fmtFloat, binary32]; norm_num
  infb := by simp only [fmtFloat, binary32]; norm_num

theorem sft_ge {q : Int} (h1 : -27 ≤ q) (h2 : q < 0) : 128 ≤ sft q := by
  simp only [sft, power, Int.shiftRight_eq_div_pow]; norm_num; omega

theorem sft_ge' {q : Int} (h1 : 0 ≤ q) (h2 : q ≤ 23) : 65 ≤ sft q := by
  simp only [sft, power, Int.shiftRight_eq_div_pow]; norm_num; omega

/-- The product is a whole multiple of a power of two, in whole numbers. -/
theorem exact_nat {q : Int} {w m k : Nat} : (w * tpow q = m * 2 ^ k) ↔ w * tnum q = m * 2 ^ k * tden q := by
  have hd : (0 : ℚ) < tden q := by exact_mod_cast tden_pos q
  rw [tpow_eq, ← mul_div_assoc, div_eq_iff hd.ne']
  exact_mod_cast Iff.rfl

/-- An odd number of leading bits followed by zeroes only: then the power of five divides it, or it times the power of five divides `w`. -/
theorem exact_dvd {q : Int} {w m k : Nat} (hodd : m % 2 = 1) (h : w * tpow q = m * 2 ^ k) :
    (0 ≤ q → 5 ^ q.toNat ∣ m) ∧ (q < 0 → m * 5 ^ (-q).toNat ∣ w) := by
  rw [exact_nat] at h
  unfold tnum tden at h
  constructor
  · intro hq
    have : (-q).toNat = 0 := by omega
    rw [this] at h
    have hd : 5 ^ q.toNat ∣ m * 2 ^ (k + (-sft q).toNat) := by
      refine ⟨w * 2 ^ (sft q).toNat, ?_⟩
      rw [pow_add]
      rw [pow_zero, one_mul] at h
      calc m * (2 ^ k * 2 ^ (-sft q).toNat) = m * 2 ^ k * 2 ^ (-sft q).toNat := by ring
        _ = w * (5 ^ q.toNat * 2 ^ (sft q).toNat) := h.symm
        _ = _ := by ring
    exact Nat.Coprime.dvd_of_dvd_mul_right (Nat.Coprime.pow _ _ (by decide)) hd
  · intro hq
    have : q.toNat = 0 := by omega
    rw [this, pow_zero, one_mul] at h
    have hd : m * 5 ^ (-q).toNat ∣ w * 2 ^ (sft q).toNat := by
      refine ⟨2 ^ k * 2 ^ (-sft q).toNat, ?_⟩
      rw [h]; ring
    refine Nat.Coprime.dvd_of_dvd_mul_right ?_ hd
    apply Nat.Coprime.pow_right
    apply Nat.Coprime.mul_left
    · rw [Nat.Coprime, Nat.gcd_comm, Nat.gcd_rec, hodd]; rfl
    · exact Nat.Coprime.pow_left _ (by decide)

/-- The test for a tie in `compute_float` is exact. -/
theorem tie_iff {b : Format} {f : BinFmt} (F : FmtOK b f) {q : Int} {hi lo : Nat} (E : Entry q hi lo) {w : Nat} (hw0 : 0 < w)
    (hw : w < 2 ^ 64) {pr : value128} (hlow : pr.low < 2 ^ 64)
    (h : (pr.high * 2 ^ 64 + pr.low = w * hi ∧ pr.high % 2 ^ (61 - f.p) ≠ 2 ^ (61 - f.p) - 1) ∨
       (w * hi / 2 ^ 64 % 2 ^ (61 - f.p) = 2 ^ (61 - f.p) - 1 ∧
        pr.high * 2 ^ 64 + pr.low = w * (hi * 2 ^ 64 + lo) / 2 ^ 64))
    {shift m : Nat} (hs : 61 - f.p ≤ shift) (hodd : m % 2 = 1) (hm1 : 2 ^ (f.p + 1) ≤ m) (hm2 : m < 2 ^ (f.p + 2)) :
    (pr.low ≤ 1 ∧ q ≥ b.min_exponent_round_to_even ∧ q ≤ b.max_exponent_round_to_even ∧ m * 2 ^ shift = pr.high) ↔
      w * tpow q = m * 2 ^ (128 + shift) := by
  have hwq : (0 : ℚ) < w := by exact_mod_cast hw0
  have hwq' : (w : ℚ) < 2 ^ 64 := by exact_mod_cast hw
  have hp : f.p + 3 = 55 ∨ f.p + 3 = 26 := F.prec
  have es : m * 2 ^ (64 + shift) = m * 2 ^ shift * 2 ^ 64 := by rw [pow_add]; ring
  have es' : m * 2 ^ (128 + shift) = m * 2 ^ shift * 2 ^ 64 * 2 ^ 64 := by rw [pow_add]; ring
  have esq : (m * 2 ^ (128 + shift) : ℚ) = m * 2 ^ shift * 2 ^ 64 * 2 ^ 64 := by rw [pow_add]; ring
  -- the low bits of multiples of 2^shift
  obtain ⟨r, hr⟩ : ∃ r, 2 ^ shift = 2 ^ (61 - f.p) * r := pow_dvd_pow 2 hs
  have hSpos : 0 < 2 ^ shift := by positivity
  have hBpos : 0 < 2 ^ (61 - f.p) := by positivity
  constructor
  · rintro ⟨h1, h2, h3, h4⟩
    rcases Int.lt_or_le q 0 with hq | hq
    · have hq27 : -27 ≤ q := by have := F.minRE; omega
      rcases h with ⟨hA, _⟩ | ⟨_, hB⟩
      · exfalso
        obtain ⟨c, hc⟩ := F.inv q h2 hq
        refine inv_sound hc E hw0 hw h1 ?_
        rw [← hA, ← h4, hr]
        have e125 : 2 ^ (125 - f.p) = 2 ^ (61 - f.p) * 2 ^ 64 := by
          rw [← pow_add]; congr 1; omega
        rw [e125, show m * (2 ^ (61 - f.p) * r) * 2 ^ 64 + pr.low = pr.low + (2 ^ (61 - f.p) * 2 ^ 64) * (m * r) by ring,
          Nat.add_mul_mod_self_left, Nat.mod_eq_of_lt]
        have : 1 ≤ 2 ^ (61 - f.p) := hBpos
        nlinarith
      · -- whole entry
        have U := E.up hq27 hq
        have hT : w * (hi * 2 ^ 64 + lo) < (pr.high * 2 ^ 64 + pr.low + 1) * 2 ^ 64 := by omega
        have hT' : (pr.high * 2 ^ 64 + pr.low) * 2 ^ 64 ≤ w * (hi * 2 ^ 64 + lo) := by omega
        have hTq : (w * (hi * 2 ^ 64 + lo) : ℚ) < (pr.high * 2 ^ 64 + pr.low + 1) * 2 ^ 64 := by exact_mod_cast hT
        have hTq' : ((pr.high * 2 ^ 64 + pr.low) * 2 ^ 64 : ℚ) ≤ w * (hi * 2 ^ 64 + lo) := by exact_mod_cast hT'
        have h4q : (m * 2 ^ shift : ℚ) = pr.high := by exact_mod_cast h4
        have h1q : (pr.low : ℚ) ≤ 1 := by exact_mod_cast h1
        have h0q : (0 : ℚ) ≤ pr.low := by positivity
        have u1 : (w * tpow q : ℚ) < m * 2 ^ (128 + shift) + 2 * 2 ^ 64 := by
          rw [esq, h4q]
          have : w * tpow q < w * (hi * 2 ^ 64 + lo) := mul_lt_mul_of_pos_left U.2.1 hwq
          linarith
        have u2 : (m * 2 ^ (128 + shift) - 2 ^ 64 : ℚ) < w * tpow q := by
          rw [esq, h4q]
          have : w * (hi * 2 ^ 64 + lo - 1) < w * tpow q := mul_lt_mul_of_pos_left U.1 hwq
          linarith
        -- in whole numbers
        rw [exact_nat]
        have hd : (0 : ℚ) < tden q := by exact_mod_cast tden_pos q
        rw [tpow_eq, ← mul_div_assoc, div_lt_iff₀ hd] at u1
        rw [tpow_eq, ← mul_div_assoc, lt_div_iff₀ hd, sub_mul, sub_lt_iff_lt_add] at u2
        have v1 : w * tnum q < (m * 2 ^ (128 + shift) + 2 * 2 ^ 64) * tden q := by exact_mod_cast u1
        have v2 : m * 2 ^ (128 + shift) * tden q < w * tnum q + 2 ^ 64 * tden q := by exact_mod_cast u2
        have hsft := sft_ge hq27 hq
        have en : tnum q = 2 ^ 128 * 2 ^ ((sft q).toNat - 128) := by
          unfold tnum
          rw [show q.toNat = 0 by omega, pow_zero, one_mul]
          conv_lhs => rw [show (sft q).toNat = 128 + ((sft q).toNat - 128) by omega, pow_add]
        have hden : tden q < 2 ^ 40 := by
          unfold tden
          rw [show (-sft q).toNat = 0 by omega, pow_zero, mul_one]
          calc 5 ^ (-q).toNat ≤ 5 ^ 17 := Nat.pow_le_pow_right (by norm_num) (by have := F.minRE; omega)
            _ < 2 ^ 40 := by norm_num
        rw [en] at v1 v2 ⊢
        have em : m * 2 ^ (128 + shift) * tden q = 2 ^ 128 * (m * 2 ^ shift * tden q) := by rw [pow_add]; ring
        rw [Nat.add_mul, em] at v1
        rw [em] at v2 ⊢
        rw [show w * (2 ^ 128 * 2 ^ ((sft q).toNat - 128)) = 2 ^ 128 * (w * 2 ^ ((sft q).toNat - 128)) by ring] at v1 v2 ⊢
        omega
    · -- non-negative power of ten: the entry is exact
      have hq23 : q ≤ 23 := by have := F.maxRE; omega
      have hx := E.exact hq (by omega)
      have hlo := E.lo0 hq (by omega)
      subst hlo
      have hprod : pr.high * 2 ^ 64 + pr.low = w * hi := by
        rcases h with ⟨hA, _⟩ | ⟨_, hB⟩
        · exact hA
        · rw [hB, Nat.add_zero, ← Nat.mul_assoc, Nat.mul_div_cancel _ (by norm_num)]
      have heven : hi % 2 = 0 := by
        have hsft := sft_ge' hq hq23
        have e1 : hi * 2 ^ 64 = 5 ^ q.toNat * 2 ^ (sft q).toNat := by
          have := tpow_eq q
          unfold tnum tden at this
          rw [show (-q).toNat = 0 by omega, show (-sft q).toNat = 0 by omega, hx] at this
          push_cast at this
          rw [div_one, add_zero] at this
          exact_mod_cast this
        rw [show (sft q).toNat = ((sft q).toNat - 65) + 1 + 64 by omega, pow_add, pow_add, ← Nat.mul_assoc] at e1
        have e2 := Nat.eq_of_mul_eq_mul_right (by norm_num) e1
        rw [e2, pow_one, ← Nat.mul_assoc]
        exact Nat.mul_mod_left _ _
      have hlow0 : pr.low = 0 := by
        have h5 : (pr.high * 2 ^ 64 + pr.low) % 2 = 0 := by rw [hprod, Nat.mul_mod, heven, Nat.mul_zero, Nat.zero_mod]
        omega
      rw [hx, esq]
      have h4q : (m * 2 ^ shift : ℚ) = pr.high := by exact_mod_cast h4
      have hpq : (pr.high * 2 ^ 64 : ℚ) = w * hi := by rw [hlow0, Nat.add_zero] at hprod; exact_mod_cast hprod
      rw [h4q, hpq]
      push_cast; ring
  · intro hV
    have hdv := exact_dvd hodd hV
    have hmpos : 0 < m := by omega
    rcases Int.lt_or_le q 0 with hq | hq
    · have hdvd := Nat.le_of_dvd hw0 (hdv.2 hq)
      have h5 : 5 ^ (-q).toNat < 5 ^ ((-b.min_exponent_round_to_even).toNat + 1) := by
        refine lt_of_lt_of_le ?_ F.tie_lo
        have : 2 ^ (f.p + 1) * 5 ^ (-q).toNat < 2 ^ (f.p + 1) * 2 ^ (63 - f.p) := by
          calc 2 ^ (f.p + 1) * 5 ^ (-q).toNat ≤ m * 5 ^ (-q).toNat := Nat.mul_le_mul_right _ hm1
            _ < 2 ^ 64 := by omega
            _ = 2 ^ (f.p + 1) * 2 ^ (63 - f.p) := by rw [← pow_add]; congr 1; omega
        exact Nat.lt_of_mul_lt_mul_left this
      have hqm : b.min_exponent_round_to_even ≤ q := by
        have := (Nat.pow_lt_pow_iff_right (by norm_num : 1 < 5)).mp h5
        have := F.minRE0
        omega
      have hq27 : -27 ≤ q := by have := F.minRE; omega
      have U := E.up hq27 hq
      have hUlo : (1 : ℚ) ≤ lo := by exact_mod_cast U.2.2
      have hmax : q ≤ b.max_exponent_round_to_even := by have := F.maxRE0; omega
      rw [esq] at hV
      rcases h with ⟨hA, hA2⟩ | ⟨_, hB⟩
      · exfalso
        -- the high word would be all ones at the end
        have g1 : w * hi < m * 2 ^ shift * 2 ^ 64 := by
          have : (w * hi * 2 ^ 64 : ℚ) < m * 2 ^ shift * 2 ^ 64 * 2 ^ 64 := by
            rw [← hV]
            have : w * (hi * 2 ^ 64 + lo - 1) < w * tpow q := mul_lt_mul_of_pos_left U.1 hwq
            have : (0 : ℚ) ≤ w * (lo - 1) := mul_nonneg hwq.le (by linarith)
            linarith
          have : (w * hi : ℚ) < m * 2 ^ shift * 2 ^ 64 := by linarith
          exact_mod_cast this
        have g2 : m * 2 ^ shift * 2 ^ 64 < w * hi + 2 ^ 64 := by
          have : (m * 2 ^ shift * 2 ^ 64 * 2 ^ 64 : ℚ) < w * hi * 2 ^ 64 + 2 ^ 64 * 2 ^ 64 := by
            rw [← hV]
            have := mul_lt_mul_of_pos_left E.upper hwq
            linarith
          have : (m * 2 ^ shift * 2 ^ 64 : ℚ) < w * hi + 2 ^ 64 := by linarith
          exact_mod_cast this
        have g3 : pr.high + 1 = m * 2 ^ shift := by omega
        apply hA2
        rw [hr, show m * (2 ^ (61 - f.p) * r) = 2 ^ (61 - f.p) * (m * r) by ring] at g3
        have hmr : 0 < m * r := by
          have : 0 < r := by
            rcases Nat.eq_zero_or_pos r with h0 | h0
            · rw [h0, Nat.mul_zero] at hr; omega
            · exact h0
          positivity
        obtain ⟨s, hs'⟩ : ∃ s, m * r = s + 1 := ⟨m * r - 1, by omega⟩
        rw [hs', Nat.mul_add, Nat.mul_one] at g3
        have : pr.high = (2 ^ (61 - f.p) - 1) + 2 ^ (61 - f.p) * s := by omega
        rw [this, Nat.add_mul_mod_self_left, Nat.mod_eq_of_lt (by omega)]
      · have g1 : m * 2 ^ shift * 2 ^ 64 * 2 ^ 64 ≤ w * (hi * 2 ^ 64 + lo) := by
          have : (m * 2 ^ shift * 2 ^ 64 * 2 ^ 64 : ℚ) ≤ w * (hi * 2 ^ 64 + lo) := by
            rw [← hV]; exact mul_le_mul_of_nonneg_left U.2.1.le hwq.le
          exact_mod_cast this
        have g2 : w * (hi * 2 ^ 64 + lo) < m * 2 ^ shift * 2 ^ 64 * 2 ^ 64 + 2 ^ 64 := by
          have : (w * (hi * 2 ^ 64 + lo) : ℚ) < m * 2 ^ shift * 2 ^ 64 * 2 ^ 64 + 2 ^ 64 := by
            rw [← hV]
            have : w * (hi * 2 ^ 64 + lo - 1) < w * tpow q := mul_lt_mul_of_pos_left U.1 hwq
            linarith
          exact_mod_cast this
        have g3 : w * (hi * 2 ^ 64 + lo) / 2 ^ 64 = m * 2 ^ shift * 2 ^ 64 := by omega
        rw [g3] at hB
        refine ⟨by omega, hqm, hmax, by omega⟩
    · have hdvd := Nat.le_of_dvd hmpos (hdv.1 hq)
      have hqmax : q ≤ b.max_exponent_round_to_even := by
        have : 5 ^ q.toNat < 5 ^ (b.max_exponent_round_to_even.toNat + 1) := lt_of_lt_of_le (by omega) F.tie_hi
        have := (Nat.pow_lt_pow_iff_right (by norm_num : 1 < 5)).mp this
        have := F.maxRE0
        omega
      have hq23 : q ≤ 23 := by have := F.maxRE; omega
      have hx := E.exact hq (by omega)
      have hlo := E.lo0 hq (by omega)
      subst hlo
      have hprod : pr.high * 2 ^ 64 + pr.low = w * hi := by
        rcases h with ⟨hA, _⟩ | ⟨_, hB⟩
        · exact hA
        · rw [hB, Nat.add_zero, ← Nat.mul_assoc, Nat.mul_div_cancel _ (by norm_num)]
      rw [hx, esq] at hV
      have hV' : (w * hi : ℚ) = m * 2 ^ shift * 2 ^ 64 := by
        push_cast at hV; linarith
      have hVn : w * hi = m * 2 ^ shift * 2 ^ 64 := by exact_mod_cast hV'
      rw [hVn] at hprod
      refine ⟨by omega, by have := F.minRE0; omega, hqmax, by omega⟩

/-- Everything the product in `compute_float` and `compute_error` is known to satisfy. -/
structure Lead [Platform] (f : BinFmt) (q : Int) (w lz w' hi lo : Nat) (pr : value128) : Prop where
  lz_le : lz ≤ 63
  hlz : leading_zeroes w = .ok lz
  hshl : (w <<< lz) % 2 ^ 64 = w'
  w'_eq : w' = w * 2 ^ lz
  w'_ge : 2 ^ 63 ≤ w'
  w'_lt : w' < 2 ^ 64
  entry : Entry q hi lo
  prod : compute_product_approximation (f.p + 3) q w' = .ok pr
  low_lt : pr.low < 2 ^ 64
  high_lt : pr.high < 2 ^ 64
  cases : (pr.high * 2 ^ 64 + pr.low = w' * hi ∧ pr.high % 2 ^ (61 - f.p) ≠ 2 ^ (61 - f.p) - 1) ∨
       (w' * hi / 2 ^ 64 % 2 ^ (61 - f.p) = 2 ^ (61 - f.p) - 1 ∧
        pr.high * 2 ^ 64 + pr.low = w' * (hi * 2 ^ 64 + lo) / 2 ^ 64)
  floor1 : ((pr.high / 2 ^ (61 - f.p) : ℕ) * 2 ^ (189 - f.p) : ℚ) ≤ w' * tpow q
  floor2 : w' * tpow q < ((pr.high / 2 ^ (61 - f.p) : ℕ) + 1) * 2 ^ (189 - f.p)
  high_ge : 2 ^ 62 ≤ pr.high

theorem leading [Platform] {b : Format} {f : BinFmt} (F : FmtOK b f) {q : Int} (h1 : b.smallest_power_of_ten ≤ q)
    (h2 : q ≤ b.largest_power_of_ten) {w : Nat} (hw0 : w ≠ 0) (hw : w < 2 ^ 64) :
    ∃ lz w' hi lo pr, Lead f q w lz w' hi lo pr := by
  have hp := F.prec
  have hlog : w.log2 < 64 := (Nat.log2_lt hw0).mpr hw
  have hl1 : 2 ^ w.log2 ≤ w := Nat.log2_self_le hw0
  have hl2 : w < 2 ^ (w.log2 + 1) := Nat.lt_log2_self
  obtain ⟨lz, hlz⟩ : ∃ lz, lz = 63 - w.log2 := ⟨_, rfl⟩
  have e63 : 2 ^ 63 = 2 ^ w.log2 * 2 ^ lz := by rw [← pow_add]; congr 1; omega
  have e64 : 2 ^ 64 = 2 ^ (w.log2 + 1) * 2 ^ lz := by rw [← pow_add]; congr 1; omega
  have g1 : 2 ^ 63 ≤ w * 2 ^ lz := by rw [e63]; exact Nat.mul_le_mul_right _ hl1
  have g2 : w * 2 ^ lz < 2 ^ 64 := by rw [e64]; exact Nat.mul_lt_mul_of_pos_right hl2 (by positivity)
  obtain ⟨hi, lo, E, S⟩ := F.sharp q h1 h2
  obtain ⟨pr, e1, e2, e3, e4⟩ := product_spec F.prec E (w := w * 2 ^ lz) g2
  have fl := product_floor F.prec E S (by omega) g2 e2 e4
  rw [show 64 - (f.p + 3) = 61 - f.p by omega] at e4 fl
  rw [show 192 - (f.p + 3) = 189 - f.p by omega] at fl
  refine ⟨lz, w * 2 ^ lz, hi, lo, pr, by omega, ?_, ?_, rfl, g1, g2, E, e1, e2, e3, e4, fl.1, fl.2, ?_⟩
  · rw [leading_zeroes_eq hw0 hw, hlz]
  · rw [Nat.shiftLeft_eq, Nat.mod_eq_of_lt g2]
  · -- the product has 191 or 192 bits
    have k1 : (2 ^ 190 : ℚ) < ((pr.high / 2 ^ (61 - f.p) : ℕ) + 1) * 2 ^ (189 - f.p) := by
      refine lt_of_le_of_lt ?_ fl.2
      have a1 : (2 ^ 63 : ℚ) ≤ (w * 2 ^ lz : ℕ) := by exact_mod_cast g1
      have a2 := E.t_ge
      calc (2 ^ 190 : ℚ) = 2 ^ 63 * 2 ^ 127 := by norm_num
        _ ≤ (w * 2 ^ lz : ℕ) * tpow q := mul_le_mul a1 a2 (by positivity) (by positivity)
    have k2 : 2 ^ 190 < (pr.high / 2 ^ (61 - f.p) + 1) * 2 ^ (189 - f.p) := by exact_mod_cast k1
    have k3 : 2 ^ 190 = 2 ^ (f.p + 1) * 2 ^ (189 - f.p) := by rw [← pow_add]; congr 1; omega
    rw [k3] at k2
    have k4 := Nat.lt_of_mul_lt_mul_right k2
    have k5 : 2 ^ (f.p + 1) ≤ pr.high / 2 ^ (61 - f.p) := by omega
    rw [Nat.le_div_iff_mul_le (by positivity), ← pow_add] at k5
    rw [show f.p + 1 + (61 - f.p) = 62 by omega] at k5
    exact k5

/-- The number, from the scaled product. -/
theorem lead_value [Platform] {f : BinFmt} {q : Int} {w lz w' hi lo : Nat} {pr : value128} (L : Lead f q w lz w' hi lo pr) :
    (w : ℚ) * 10 ^ q = w' * tpow q * 2 ^ (power q - lz - 190) := by
  rw [L.w'_eq, tpow, show power q - lz - 190 = -(190 - power q) + -(lz : ℤ) by ring, zpow_add₀ (by norm_num),
    zpow_neg, zpow_neg]
  have h1 : (2 : ℚ) ^ (190 - power q) ≠ 0 := by positivity
  push_cast
  rw [zpow_natCast]
  field_simp

/-- The mantissa taken from the high word: `p + 2` bits of the exact product. -/
theorem lead_mant [Platform] {f : BinFmt} (hp : f.p + 3 = 55 ∨ f.p + 3 = 26) {q : Int} {w lz w' hi lo : Nat} {pr : value128}
    (L : Lead f q w lz w' hi lo pr) {ub shift m : Nat} (hub : ub = pr.high >>> 63) (hshift : shift = ub + 64 - f.p - 3)
    (hm : m = pr.high >>> shift) :
    ub ≤ 1 ∧ 61 - f.p ≤ shift ∧ 2 ^ (f.p + 1) ≤ m ∧ m < 2 ^ (f.p + 2) ∧
    (m * 2 ^ (128 + shift) : ℚ) ≤ w' * tpow q ∧ w' * tpow q < (m + 1) * 2 ^ (128 + shift) := by
  have hh := L.high_lt
  have hg := L.high_ge
  rw [Nat.shiftRight_eq_div_pow] at hub hm
  have hub1 : ub ≤ 1 := by omega
  have c1 := L.floor1
  have c2 := L.floor2
  refine ⟨hub1, by omega, ?_⟩
  rcases Nat.le_one_iff_eq_zero_or_eq_one.mp hub1 with h0 | h0
  · have hs : shift = 61 - f.p := by omega
    rw [← hs] at c1 c2
    rw [show 189 - f.p = 128 + shift by omega, ← hm] at c1 c2
    refine ⟨?_, ?_, c1, c2⟩
    · rw [hm, Nat.le_div_iff_mul_le (by positivity), ← pow_add, show f.p + 1 + shift = 62 by omega]; exact hg
    · rw [hm, Nat.div_lt_iff_lt_mul (by positivity), ← pow_add, show f.p + 2 + shift = 63 by omega]; omega
  · have hs : shift = (61 - f.p) + 1 := by omega
    have hm2 : m = pr.high / 2 ^ (61 - f.p) / 2 := by rw [hm, hs, pow_succ, Nat.div_div_eq_div_mul]
    generalize pr.high / 2 ^ (61 - f.p) = G at c1 c2 hm2
    have e : (2 : ℚ) ^ (128 + shift) = 2 * 2 ^ (189 - f.p) := by
      rw [show 128 + shift = (189 - f.p) + 1 by omega, pow_succ]; ring
    have hpos : (0 : ℚ) < 2 ^ (189 - f.p) := by positivity
    have g1 : (2 * m : ℚ) ≤ G := by exact_mod_cast (by omega : 2 * m ≤ G)
    have g2 : (G : ℚ) + 1 ≤ 2 * m + 2 := by exact_mod_cast (by omega : G + 1 ≤ 2 * m + 2)
    refine ⟨?_, ?_, ?_, ?_⟩
    · rw [hm, Nat.le_div_iff_mul_le (by positivity), ← pow_add, show f.p + 1 + shift = 63 by omega]; omega
    · rw [hm, Nat.div_lt_iff_lt_mul (by positivity), ← pow_add, show f.p + 2 + shift = 64 by omega]; omega
    · rw [e]; nlinarith
    · rw [e]; nlinarith

end Utki.FastFloat
