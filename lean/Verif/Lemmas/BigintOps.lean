import Verif.Lemmas.Bigint
import Mathlib.Data.Nat.Log
/-!
# Powers of five and ten, shifts, comparison and top bits of big integers
-/
namespace Utki.FastFloat

/-! ## Powers of 5 -/

/-- The number some limbs of 64 or 32 bits stand for. -/
def valBits (w : Nat) : List Nat → Nat
  | [] => 0
  | x :: l => x + 2 ^ w * valBits w l

theorem small_power_get (e : Nat) (he : e < 28) : rd small_power_of_5 e = .ok (5 ^ e) := by
  have : ∀ e < 28, rd small_power_of_5 e = .ok (5 ^ e) := by decide +kernel
  exact this e he

variable [Platform]

theorem bval_valBits (l : List Nat) : bval l = valBits limb_bits l := by
  induction l with
  | nil => rfl
  | cons x l ih => rw [bval, valBits, ih, base_eq]

theorem large_power_val : bval large_power_of_5 = 5 ^ 135 := by
  rw [bval_valBits]
  unfold large_power_of_5
  rcases limb_bits_cases with ⟨h, hl⟩ | ⟨h, hl⟩
  · rw [if_pos h, hl]; decide +kernel
  · rw [if_neg (by simp [h]), hl]; decide +kernel

theorem large_power_limbs : Limbs large_power_of_5 := by
  unfold large_power_of_5 Limbs
  rcases limb_bits_cases with ⟨h, hl⟩ | ⟨h, hl⟩
  · rw [if_pos h, base64 h]; decide +kernel
  · rw [if_neg (by simp [h]), base32 h]; decide +kernel

theorem large_power_head : ∀ c ∈ large_power_of_5.head?, 0 < c := by
  unfold large_power_of_5
  split <;> simp

theorem large_power_length : large_power_of_5.length ≠ 1 ∧ 0 < large_power_of_5.length := by
  unfold large_power_of_5
  split <;> simp

theorem large_mul_power (v : bigint) : large_mul v large_power_of_5 = long_mul v large_power_of_5 := by
  unfold large_power_of_5
  split <;> rfl

theorem small_step_le : bigint.small_step < 28 ∧ 0 < bigint.small_step := by
  unfold bigint.small_step
  split <;> simp

theorem max_native_eq : bigint.max_native = 5 ^ bigint.small_step := by
  unfold bigint.max_native bigint.small_step
  split <;> norm_num

theorem five_pow_lt {e : Nat} (he : e ≤ bigint.small_step) : 5 ^ e < base := by
  refine lt_of_le_of_lt (Nat.pow_le_pow_right (by norm_num) he) ?_
  unfold bigint.small_step
  rcases limb_bits_cases with ⟨h, hl⟩ | ⟨h, hl⟩
  · rw [if_pos h, base64 h]; norm_num
  · rw [if_neg (by simp [h]), base32 h]; norm_num

theorem pow5_large_spec : ∀ (e : Nat) {v : bigint} {n : Nat}, Big v n → 0 < n → n * 5 ^ e < base ^ bigint_limbs →
    ∃ v' e' m, bigint.pow5_large v e = .ok (v', true, e') ∧ e' < 135 ∧ Big v' m ∧ 0 < m ∧ m * 5 ^ e' = n * 5 ^ e := by
  intro e
  induction e using Nat.strongRecOn with
  | _ e ih =>
    intro v n h hn hb
    rw [bigint.pow5_large]
    by_cases he : 135 ≤ e
    · rw [dif_pos he]
      have hsplit : n * 5 ^ 135 * 5 ^ (e - 135) = n * 5 ^ e := by
        rw [mul_assoc, ← pow_add, Nat.add_sub_cancel' he]
      have hle : n * 5 ^ 135 ≤ n * 5 ^ e := by
        rw [← hsplit]; exact Nat.le_mul_of_pos_right _ (Nat.pow_pos (by norm_num))
      obtain ⟨x', h1, h2⟩ := long_mul_big h hn large_power_limbs large_power_head
        (by rw [large_power_val]; omega) (fun hnil => by have := large_power_length.2; rw [hnil] at this; simp at this)
      rw [large_power_val] at h2
      rw [large_mul_power, h1]
      simp only [Res.bind_eq, Res.ok_bind, Bool.not_true, Bool.false_eq_true, if_false]
      obtain ⟨v', e', m, i1, i2, i3, i4, i5⟩ := ih (e - 135) (by omega) h2 (Nat.mul_pos hn (Nat.pow_pos (by norm_num)))
        (by rw [hsplit]; exact hb)
      exact ⟨v', e', m, i1, i2, i3, i4, by rw [i5, hsplit]⟩
    · rw [dif_neg he]
      exact ⟨v, e, n, rfl, by omega, h, hn, rfl⟩

theorem pow5_small_spec : ∀ (e : Nat) {v : bigint} {n : Nat}, Big v n → 0 < n → n * 5 ^ e < base ^ bigint_limbs →
    ∃ v' e' m, bigint.pow5_small v e = (v', true, e') ∧ e' < bigint.small_step ∧ Big v' m ∧ 0 < m ∧ m * 5 ^ e' = n * 5 ^ e := by
  intro e
  induction e using Nat.strongRecOn with
  | _ e ih =>
    intro v n h hn hb
    rw [bigint.pow5_small]
    by_cases he : bigint.small_step ≤ e
    · rw [dif_pos he]
      have hsplit : n * 5 ^ bigint.small_step * 5 ^ (e - bigint.small_step) = n * 5 ^ e := by
        rw [mul_assoc, ← pow_add, Nat.add_sub_cancel' he]
      have hle : n * 5 ^ bigint.small_step ≤ n * 5 ^ e := by
        rw [← hsplit]; exact Nat.le_mul_of_pos_right _ (Nat.pow_pos (by norm_num))
      rw [max_native_eq]
      have hs := small_step_le
      obtain ⟨x', h1, h2⟩ := small_mul_big (y := 5 ^ bigint.small_step) h (Nat.pow_pos (by norm_num)) (five_pow_lt le_rfl) (by omega)
      rw [h1]
      simp only [Bool.not_true, Bool.false_eq_true, if_false]
      obtain ⟨v', e', m, i1, i2, i3, i4, i5⟩ := ih (e - bigint.small_step) (by omega) h2 (Nat.mul_pos hn (Nat.pow_pos (by norm_num)))
        (by rw [hsplit]; exact hb)
      exact ⟨v', e', m, i1, i2, i3, i4, by rw [i5, hsplit]⟩
    · rw [dif_neg he]
      exact ⟨v, e, n, rfl, by omega, h, hn, rfl⟩

theorem pow5_big {v : bigint} {n : Nat} (e : Nat) (h : Big v n) (hn : 0 < n) (hb : n * 5 ^ e < base ^ bigint_limbs) :
    ∃ v', bigint.pow5 v e = .ok (v', true) ∧ Big v' (n * 5 ^ e) := by
  obtain ⟨v1, e1, m1, a1, -, a3, a4, a5⟩ := pow5_large_spec e h hn hb
  obtain ⟨v2, e2, m2, b1, b2, b3, b4, b5⟩ := pow5_small_spec e1 a3 a4 (by rw [a5]; exact hb)
  rw [a5] at b5
  unfold bigint.pow5
  simp only [a1, b1, Res.bind_eq, Res.ok_bind, Bool.not_true, Bool.false_eq_true, if_false]
  by_cases h0 : e2 = 0
  · subst h0
    rw [if_neg (by simp)]
    refine ⟨v2, rfl, ?_⟩
    rw [← b5, pow_zero, mul_one]
    exact b3
  · rw [if_pos h0, small_power_get e2 (by have := small_step_le; omega)]
    have hlt : 5 ^ e2 < base := five_pow_lt (by omega)
    obtain ⟨x', h1, h2⟩ := small_mul_big b3 (Nat.pow_pos (by norm_num)) hlt (by rw [b5]; exact hb)
    rw [b5] at h2
    exact ⟨x', by rw [Res.ok_bind, ← base_eq, Nat.mod_eq_of_lt hlt, h1]; rfl, h2⟩

/-! ## Shifts -/

omit [Platform] in
/-- Splitting a limb of `w` bits at a shift. -/
theorem limb_split {w x s : Nat} (hs : s < w) : x * 2 ^ s = (x <<< s) % 2 ^ w + 2 ^ w * (x >>> (w - s)) := by
  rw [Nat.shiftLeft_eq, Nat.shiftRight_eq_div_pow]
  have e : (2 : Nat) ^ w = 2 ^ (w - s) * 2 ^ s := by rw [← pow_add]; congr 1; omega
  rw [e, Nat.mul_mod_mul_right]
  have := Nat.mod_add_div x (2 ^ (w - s))
  calc x * 2 ^ s = (x % 2 ^ (w - s) + 2 ^ (w - s) * (x / 2 ^ (w - s))) * 2 ^ s := by rw [this]
    _ = _ := by ring

omit [Platform] in
/-- Joining the halves by `|`. -/
theorem limb_or {w x p s : Nat} (hs : s < w) (hp : p < 2 ^ w) :
    (x <<< s) % 2 ^ w ||| p >>> (w - s) = (x <<< s) % 2 ^ w + p >>> (w - s) ∧
      (x <<< s) % 2 ^ w + p >>> (w - s) < 2 ^ w := by
  have e : (2 : Nat) ^ w = 2 ^ (w - s) * 2 ^ s := by rw [← pow_add]; congr 1; omega
  have h1 : p >>> (w - s) < 2 ^ s := by
    rw [Nat.shiftRight_eq_div_pow]
    exact Nat.div_lt_of_lt_mul (by rw [← e]; exact hp)
  have h2 : (x <<< s) % 2 ^ w = 2 ^ s * (x % 2 ^ (w - s)) := by
    rw [Nat.shiftLeft_eq, e, Nat.mul_mod_mul_right, mul_comm]
  have h3 : x % 2 ^ (w - s) < 2 ^ (w - s) := Nat.mod_lt _ (Nat.pow_pos (by norm_num))
  rw [h2]
  refine ⟨(Nat.two_pow_add_eq_or_of_lt h1 _).symm, ?_⟩
  rw [e]
  have h4 : 2 ^ s * (x % 2 ^ (w - s) + 1) ≤ 2 ^ s * 2 ^ (w - s) := Nat.mul_le_mul_left _ h3
  rw [mul_comm (2 ^ (w - s))]
  rw [mul_add, mul_one] at h4
  omega

theorem shl_loop_spec {s : Nat} (hs : s < limb_bits) : ∀ (l : List Nat) (p : Nat), Limbs l → p < base →
    bval (bigint.shl_loop s l p).1 + base ^ l.length * ((bigint.shl_loop s l p).2 >>> (limb_bits - s)) = bval l * 2 ^ s + p >>> (limb_bits - s) ∧
      (bigint.shl_loop s l p).1.length = l.length ∧ Limbs (bigint.shl_loop s l p).1 ∧ (bigint.shl_loop s l p).2 < base := by
  intro l
  induction l with
  | nil => intro p _ hp; simp [bigint.shl_loop, bval, Limbs.nil, hp]
  | cons x l ih =>
    intro p hl hp
    obtain ⟨i1, i2, i3, i4⟩ := ih x hl.tail hl.head
    have e : bigint.shl_loop s (x :: l) p =
        (((x <<< s) % 2 ^ limb_bits ||| p >>> (limb_bits - s)) :: (bigint.shl_loop s l x).1, (bigint.shl_loop s l x).2) := rfl
    obtain ⟨o1, o2⟩ := limb_or (x := x) hs (by rw [← base_eq]; exact hp)
    rw [← base_eq] at o2
    rw [e]
    refine ⟨?_, by simp [i2], Limbs.cons (by rw [o1]; exact o2) i3, i4⟩
    rw [o1]
    simp only [bval, List.length_cons, pow_succ]
    have hx := limb_split (x := x) hs
    rw [← base_eq] at hx ⊢
    calc (x <<< s) % base + p >>> (limb_bits - s) + base * bval (bigint.shl_loop s l x).1 +
          base ^ l.length * base * ((bigint.shl_loop s l x).2 >>> (limb_bits - s))
        = (x <<< s) % base + p >>> (limb_bits - s) + base * (bval (bigint.shl_loop s l x).1 +
          base ^ l.length * ((bigint.shl_loop s l x).2 >>> (limb_bits - s))) := by ring
      _ = ((x <<< s) % base + base * (x >>> (limb_bits - s))) + p >>> (limb_bits - s) + base * (bval l * 2 ^ s) := by rw [i1]; ring
      _ = _ := by rw [← hx]; ring

theorem shl_bits_big {v : bigint} {n s : Nat} (h : Big v n) (hs : s < limb_bits) (hb : n * 2 ^ s < base ^ bigint_limbs) :
    ∃ v', bigint.shl_bits v s = (v', true) ∧ Big v' (n * 2 ^ s) := by
  obtain ⟨m1, m2, m3, m4⟩ := shl_loop_spec hs v 0 h.limbs base_pos
  rw [h.val, Nat.zero_shiftRight, Nat.add_zero] at m1
  unfold bigint.shl_bits
  generalize bigint.shl_loop s v 0 = r at *
  obtain ⟨r, p⟩ := r
  dsimp only at *
  rw [← m2] at m1
  by_cases hc : p >>> (limb_bits - s) ≠ 0
  · rw [if_pos hc]
    have hlt : p >>> (limb_bits - s) < base := by
      rw [Nat.shiftRight_eq_div_pow]
      exact lt_of_le_of_lt (Nat.div_le_self _ _) m4
    obtain ⟨p1, p2⟩ := push_ok m3 hc hlt m1 hb
    exact ⟨_, p1, p2⟩
  · rw [if_neg hc]
    have hc0 : p >>> (limb_bits - s) = 0 := by omega
    rw [hc0, Nat.mul_zero, Nat.add_zero] at m1
    refine ⟨r, rfl, m3, by rw [m2]; exact h.cap, m1, ?_⟩
    intro hr
    have hv : v ≠ [] := by
      rintro rfl
      exact hr (List.length_eq_zero_iff.1 m2)
    rw [m2]
    exact le_trans (h.norm hv) (Nat.le_mul_of_pos_right _ (Nat.pow_pos (by norm_num)))

theorem shl_limbs_big {v : bigint} {n d : Nat} (h : Big v n) (hn : 0 < n) (hb : n * base ^ d < base ^ bigint_limbs) :
    ∃ v', bigint.shl_limbs v d = (v', true) ∧ Big v' (n * base ^ d) := by
  have hv := h.ne_nil hn
  have hl : 0 < v.length := List.length_pos_iff.2 hv
  have h1 : base ^ (v.length - 1) * base ^ d < base ^ bigint_limbs :=
    lt_of_le_of_lt (Nat.mul_le_mul_right _ (h.norm hv)) hb
  rw [← pow_add] at h1
  have h2 := (Nat.pow_lt_pow_iff_right one_lt_base).1 h1
  unfold bigint.shl_limbs
  rw [if_neg (by omega), if_pos (by omega)]
  refine ⟨_, rfl, (limbs_zeros d).append h.limbs, ?_, ?_, ?_⟩
  · rw [List.length_append, List.length_replicate]; omega
  · rw [bval_append, bval_zeros, List.length_replicate, h.val]; ring
  · intro _
    rw [List.length_append, List.length_replicate]
    have e : d + v.length - 1 = (v.length - 1) + d := by omega
    rw [e, pow_add]
    exact Nat.mul_le_mul_right _ (h.norm hv)

theorem shl_big {v : bigint} {n : Nat} (k : Nat) (h : Big v n) (hn : 0 < n) (hb : n * 2 ^ k < base ^ bigint_limbs) :
    ∃ v', bigint.shl v k = (v', true) ∧ Big v' (n * 2 ^ k) := by
  have hsplit : n * 2 ^ (k % limb_bits) * base ^ (k / limb_bits) = n * 2 ^ k := by
    rw [base_eq, ← pow_mul, mul_assoc, ← pow_add]; congr 2; rw [Nat.mod_add_div]
  have hle : n * 2 ^ (k % limb_bits) ≤ n * 2 ^ k := by
    rw [← hsplit]; exact Nat.le_mul_of_pos_right _ (Nat.pow_pos base_pos)
  unfold bigint.shl
  dsimp only
  have h1 : ∃ v1, (if k % limb_bits ≠ 0 then bigint.shl_bits v (k % limb_bits) else (v, true)) = (v1, true) ∧ Big v1 (n * 2 ^ (k % limb_bits)) := by
    by_cases h0 : k % limb_bits = 0
    · rw [if_neg (by omega), h0]
      exact ⟨v, rfl, by simpa using h⟩
    · rw [if_pos h0]
      exact shl_bits_big h (Nat.mod_lt _ limb_bits_pos) (by omega)
  obtain ⟨v1, a1, a2⟩ := h1
  rw [a1]
  dsimp only
  rw [if_neg (by simp)]
  by_cases h0 : k / limb_bits = 0
  · rw [if_neg (by omega)]
    refine ⟨v1, rfl, ?_⟩
    rw [← hsplit, h0, pow_zero, mul_one]
    exact a2
  · rw [if_pos h0, ← hsplit]
    exact shl_limbs_big a2 (Nat.mul_pos hn (Nat.pow_pos (by norm_num))) (by rw [hsplit]; exact hb)

theorem pow10_big {v : bigint} {n : Nat} (e : Nat) (h : Big v n) (hn : 0 < n) (hb : n * 10 ^ e < base ^ bigint_limbs) :
    ∃ v', bigint.pow10 v e = .ok (v', true) ∧ Big v' (n * 10 ^ e) := by
  have hsplit : n * 5 ^ e * 2 ^ e = n * 10 ^ e := by
    rw [mul_assoc, ← mul_pow]; norm_num
  have hle : n * 5 ^ e ≤ n * 10 ^ e := by
    rw [← hsplit]; exact Nat.le_mul_of_pos_right _ (Nat.pow_pos (by norm_num))
  obtain ⟨v1, a1, a2⟩ := pow5_big e h hn (by omega)
  obtain ⟨v2, b1, b2⟩ := shl_big e a2 (Nat.mul_pos hn (Nat.pow_pos (by norm_num))) (by rw [hsplit]; exact hb)
  rw [hsplit] at b2
  refine ⟨v2, ?_, b2⟩
  unfold bigint.pow10
  rw [a1, Res.bind_eq, Res.ok_bind]
  dsimp only
  rw [if_neg (by simp), b1]
  rfl

/-! ## Comparison -/

theorem compare_loop_spec : ∀ (xs ys : List Nat), xs.length = ys.length → Limbs xs → Limbs ys →
    bigint.compare_loop xs ys = if bval xs.reverse > bval ys.reverse then 1 else if bval xs.reverse < bval ys.reverse then -1 else 0 := by
  intro xs
  induction xs with
  | nil =>
    intro ys hlen _ _
    cases ys with
    | nil => simp [bigint.compare_loop]
    | cons => simp at hlen
  | cons x xs ih =>
    intro ys hlen hx hy
    cases ys with
    | nil => simp at hlen
    | cons y ys =>
      have hlen' : xs.length = ys.length := by simpa using hlen
      have i := ih ys hlen' hx.tail hy.tail
      have rl : ∀ l : List Nat, Limbs l → bval l.reverse < base ^ l.length := by
        intro l hl
        have h' : Limbs l.reverse := fun a ha => hl a (List.mem_reverse.1 ha)
        have := bval_lt h'
        rwa [List.length_reverse] at this
      have h1 := rl xs hx.tail
      have h2 := rl ys hy.tail
      rw [hlen'] at h1
      rw [List.reverse_cons, List.reverse_cons, bval_append, bval_append, bval_single, bval_single, List.length_reverse,
        List.length_reverse, bigint.compare_loop, hlen']
      generalize bval xs.reverse = a at *
      generalize bval ys.reverse = b at *
      generalize base ^ ys.length = P at *
      rcases lt_trichotomy x y with hxy | hxy | hxy
      · have : P * (x + 1) ≤ P * y := Nat.mul_le_mul_left _ hxy
        rw [mul_add, mul_one] at this
        rw [if_neg (by omega), if_pos hxy, if_neg (by omega), if_pos (by omega)]
      · subst hxy
        rw [if_neg (by omega), if_neg (by omega), i]
        simp
      · have : P * (y + 1) ≤ P * x := Nat.mul_le_mul_left _ hxy
        rw [mul_add, mul_one] at this
        rw [if_pos hxy, if_pos (by omega)]

theorem compare_big {v w : bigint} {n m : Nat} (h : Big v n) (h' : Big w m) :
    bigint.compare v w = if n > m then 1 else if n < m then -1 else 0 := by
  have key : ∀ {v w : bigint} {n m : Nat}, Big v n → Big w m → v.length > w.length → n > m := by
    intro v w n m h h' hl
    have hv : v ≠ [] := by rintro rfl; simp at hl
    have h1 := h.norm hv
    have h2 := h'.lt
    have h3 : base ^ w.length ≤ base ^ (v.length - 1) := Nat.pow_le_pow_right base_pos (by omega)
    omega
  unfold bigint.compare
  by_cases h1 : v.length > w.length
  · rw [if_pos h1, if_pos (key h h' h1)]
  · by_cases h2 : v.length < w.length
    · have := key h' h h2
      rw [if_neg h1, if_pos h2, if_neg (by omega), if_pos this]
    · rw [if_neg h1, if_neg h2, compare_loop_spec _ _ (by simp; omega) (fun a ha => h.limbs a (List.mem_reverse.1 ha))
        (fun a ha => h'.limbs a (List.mem_reverse.1 ha))]
      simp only [List.reverse_reverse, h.val, h'.val]

/-! ## The top bits -/

/-- A nonzero normalised number splits into its top limb and the rest. -/
theorem Big.top {v : bigint} {n : Nat} (h : Big v n) (hn : 0 < n) :
    ∃ l r, v = l ++ [r] ∧ 0 < r ∧ r < base ∧ Limbs l ∧ n = bval l + base ^ l.length * r := by
  have hv := h.ne_nil hn
  obtain ⟨l, r, hlr⟩ : ∃ l r, v = l ++ [r] := ⟨v.dropLast, v.getLast hv, (List.dropLast_concat_getLast hv).symm⟩
  subst hlr
  have hl := h.limbs.left
  have hr : r < base := h.limbs r (by simp)
  have hval := h.val
  rw [bval_append, bval_single] at hval
  refine ⟨l, r, rfl, ?_, hr, hl, hval.symm⟩
  by_contra h0
  have h0' : r = 0 := by omega
  subst h0'
  have h1 := h.norm hv
  rw [List.length_append, List.length_singleton, Nat.add_sub_cancel] at h1
  have := bval_lt hl
  simp only [Nat.mul_zero, Nat.add_zero] at hval
  omega

theorem log2_lt_limb {r : Nat} (h0 : 0 < r) (h : r < base) : r.log2 < limb_bits := (Nat.log2_lt (by omega)).2 h

theorem top_log2 {l k r : Nat} (hr : 0 < r) (hl : l < base ^ k) : (l + base ^ k * r).log2 = limb_bits * k + r.log2 := by
  have hP : base ^ k = 2 ^ (limb_bits * k) := by rw [base_eq, ← pow_mul]
  have hpos : 0 < base ^ k := Nat.pow_pos base_pos
  rw [Nat.log2_eq_iff (by have := Nat.mul_pos hpos hr; omega)]
  have h1 : 2 ^ r.log2 ≤ r := Nat.log2_self_le (by omega)
  have h2 : r < 2 ^ (r.log2 + 1) := Nat.lt_log2_self
  constructor
  · rw [pow_add, ← hP]
    have := Nat.mul_le_mul_left (base ^ k) h1
    omega
  · rw [add_assoc, pow_add, ← hP]
    have : base ^ k * (r + 1) ≤ base ^ k * 2 ^ (r.log2 + 1) := Nat.mul_le_mul_left _ h2
    rw [mul_add, mul_one] at this
    omega

omit [Platform] in
theorem rindex_top (l : List Nat) (r : Nat) : stackvec.rindex (l ++ [r]) 0 = .ok r := by
  unfold stackvec.rindex
  rw [if_pos (by simp), rd_eq_ok (by simp)]
  simp

omit [Platform] in
theorem rindex_second (l : List Nat) (a r : Nat) : stackvec.rindex (l ++ [a] ++ [r]) 1 = .ok a := by
  unfold stackvec.rindex
  rw [if_pos (by simp), rd_eq_ok (by simp)]
  simp

theorem bit_length_big {v : bigint} {n : Nat} (h : Big v n) (hn : 0 < n) : bigint.bit_length v = .ok ((n.log2 + 1 : Nat) : Int) := by
  obtain ⟨l, r, rfl, hr, hrb, hl, rfl⟩ := h.top hn
  have hlog := log2_lt_limb hr hrb
  unfold bigint.bit_length bigint.ctlz
  rw [if_neg (by simp), rindex_top, top_log2 hr (bval_lt hl)]
  rcases limb_bits_cases with ⟨hp, hw⟩ | ⟨hp, hw⟩
  · rw [base64 hp] at hrb
    rw [hw] at hlog ⊢
    simp only [Res.bind_eq, Res.ok_bind, hp, if_true, leading_zeroes_eq (show r ≠ 0 by omega) hrb, Res.pure_eq, List.length_append,
      List.length_singleton]
    congr 1
    omega
  · rw [base32 hp] at hrb
    rw [hw] at hlog ⊢
    have e : (r <<< 32) % 2 ^ 64 = r * 2 ^ 32 := by rw [Nat.shiftLeft_eq]; omega
    have e2 : (r * 2 ^ 32).log2 = r.log2 + 32 := by
      rw [Nat.log2_eq_iff (by omega)]
      have h1 : 2 ^ r.log2 ≤ r := Nat.log2_self_le (by omega)
      have h2 : r < 2 ^ (r.log2 + 1) := Nat.lt_log2_self
      constructor
      · rw [pow_add]; exact Nat.mul_le_mul_right _ h1
      · rw [show r.log2 + 32 + 1 = r.log2 + 1 + 32 by omega, pow_add]; exact Nat.mul_lt_mul_of_pos_right h2 (by norm_num)
    simp only [Res.bind_eq, Res.ok_bind, hp, Bool.false_eq_true, if_false, e, leading_zeroes_eq (show r * 2 ^ 32 ≠ 0 by omega)
      (show r * 2 ^ 32 < 2 ^ 64 by omega), e2, Res.pure_eq, List.length_append, List.length_singleton]
    generalize r.log2 = k at *
    clear e e2
    refine congrArg Res.ok ?_
    omega

theorem any_nonzero (l : List Nat) : l.any (· != 0) = decide (bval l ≠ 0) := by
  induction l with
  | nil => simp [bval]
  | cons x l ih =>
    rw [List.any_cons, ih, bval]
    have := base_pos
    by_cases hx : x = 0
    · subst hx
      by_cases hl : bval l = 0
      · simp [hl]
      · have : base * bval l ≠ 0 := Nat.mul_ne_zero (by omega) hl
        simp [hl, this]
    · have : x + base * bval l ≠ 0 := by omega
      simp [hx]

theorem nonzero_two (l : List Nat) (a r : Nat) : stackvec.nonzero (l ++ [a] ++ [r]) 2 = decide (bval l ≠ 0) := by
  rw [← any_nonzero]
  unfold stackvec.nonzero
  simp

omit [Platform] in
theorem rindex_third (l : List Nat) (b a r : Nat) : stackvec.rindex (l ++ [b] ++ [a] ++ [r]) 2 = .ok b := by
  unfold stackvec.rindex
  rw [if_pos (by simp), rd_eq_ok (by simp)]
  simp

theorem nonzero_three (l : List Nat) (b a r : Nat) : stackvec.nonzero (l ++ [b] ++ [a] ++ [r]) 3 = decide (bval l ≠ 0) := by
  rw [← any_nonzero]
  unfold stackvec.nonzero
  simp

/-- The top 64 bits of a number, and whether anything nonzero is below them. -/
def top64 (n : Nat) : Nat × Bool := (n * 2 ^ 64 / 2 ^ (n.log2 + 1), decide (n * 2 ^ 64 % 2 ^ (n.log2 + 1) ≠ 0))

theorem hi_one {r : Nat} (hr : 0 < r) (hrb : r < 2 ^ 64) : bigint.uint64_hi64_1 r = .ok (top64 r) := by
  have h64 : r.log2 < 64 := (Nat.log2_lt (by omega)).2 hrb
  have hlt2 : r < 2 ^ (r.log2 + 1) := Nat.lt_log2_self
  unfold bigint.uint64_hi64_1 top64
  simp only [Res.bind_eq, leading_zeroes_eq (show r ≠ 0 by omega) hrb, Res.ok_bind, Res.pure_eq]
  have e : (2 : Nat) ^ 64 = 2 ^ (r.log2 + 1) * 2 ^ (63 - r.log2) := by rw [← pow_add]; congr 1; omega
  have e2 : r * 2 ^ 64 = 2 ^ (r.log2 + 1) * (r * 2 ^ (63 - r.log2)) := by rw [e]; ring
  rw [e2, Nat.mul_div_cancel_left _ (Nat.pow_pos (by norm_num)), Nat.mul_mod_right, Nat.shiftLeft_eq, Nat.mod_eq_of_lt]
  · simp
  · rw [e]; exact Nat.mul_lt_mul_of_pos_right hlt2 (Nat.pow_pos (by norm_num))

omit [Platform] in
theorem log2_append {l k r : Nat} (hr : 0 < r) (hl : l < 2 ^ k) : (l + 2 ^ k * r).log2 = k + r.log2 := by
  have hpos : 0 < 2 ^ k := Nat.two_pow_pos k
  rw [Nat.log2_eq_iff (by have := Nat.mul_pos hpos hr; omega)]
  have h1 : 2 ^ r.log2 ≤ r := Nat.log2_self_le (by omega)
  have h2 : r < 2 ^ (r.log2 + 1) := Nat.lt_log2_self
  constructor
  · rw [pow_add]
    have := Nat.mul_le_mul_left (2 ^ k) h1
    omega
  · rw [add_assoc, pow_add]
    have : 2 ^ k * (r + 1) ≤ 2 ^ k * 2 ^ (r.log2 + 1) := Nat.mul_le_mul_left _ h2
    rw [mul_add, mul_one] at this
    omega

theorem hi_two {r a : Nat} (hr : 0 < r) (hrb : r < 2 ^ 64) (hab : a < 2 ^ 64) :
    bigint.uint64_hi64_2 r a = .ok (top64 (a + 2 ^ 64 * r)) := by
  have h64 : r.log2 < 64 := (Nat.log2_lt (by omega)).2 hrb
  have hlt2 : r < 2 ^ (r.log2 + 1) := Nat.lt_log2_self
  unfold bigint.uint64_hi64_2 top64
  simp only [Res.bind_eq, leading_zeroes_eq (show r ≠ 0 by omega) hrb, Res.ok_bind, Res.pure_eq]
  rw [log2_append hr hab]
  -- everything in terms of the number of bits `s` taken from the second limb
  obtain ⟨s, hs, hs1⟩ : ∃ s, r.log2 + 1 = s ∧ s ≤ 64 := ⟨_, rfl, by omega⟩
  have hs0 : 0 < s := by omega
  have elz : 63 - r.log2 = 64 - s := by omega
  have hrs : r < 2 ^ s := by rw [← hs]; exact hlt2
  have spos : 0 < 2 ^ s := Nat.pow_pos (by norm_num)
  have e64 : (2 : Nat) ^ 64 = 2 ^ (64 - s) * 2 ^ s := by rw [← pow_add]; congr 1; omega
  have eL : (2 : Nat) ^ (64 + r.log2 + 1) = 2 ^ s * 2 ^ 64 := by rw [← pow_add]; congr 1; omega
  rw [elz, eL, Nat.mul_div_mul_right _ _ (Nat.pow_pos (by norm_num)), Nat.mul_mod_mul_right]
  have ebr : a + 2 ^ 64 * r = a + 2 ^ s * (2 ^ (64 - s) * r) := by rw [e64]; ring
  rw [ebr, Nat.add_mul_div_left _ _ spos, Nat.add_mul_mod_self_left]
  have hz : (a % 2 ^ s * 2 ^ 64 ≠ 0) ↔ a % 2 ^ s ≠ 0 := by
    rw [Ne, Nat.mul_eq_zero]
    have h2 : (2 : Nat) ^ 64 ≠ 0 := by norm_num
    tauto
  rw [decide_eq_decide.2 hz]
  by_cases h0 : 64 - s = 0
  · have hs64 : s = 64 := by omega
    subst hs64
    have ha0 : a / 2 ^ 64 = 0 := Nat.div_eq_of_lt hab
    have ha1 : a % 2 ^ 64 = a := Nat.mod_eq_of_lt hab
    have e0 : decide (a % 2 ^ 64 ≠ 0) = decide (a ≠ 0) := decide_eq_decide.2 (by rw [ha1])
    rw [if_pos h0, ha0, e0]
    simp
  · rw [if_neg h0]
    obtain ⟨o1, -⟩ := limb_or (x := r) (p := a) (s := 64 - s) (w := 64) (by omega) hab
    have e1 : 64 - (64 - s) = s := by omega
    rw [e1] at o1
    have hrl : (r <<< (64 - s)) % 2 ^ 64 = 2 ^ (64 - s) * r := by
      rw [Nat.shiftLeft_eq, Nat.mod_eq_of_lt, mul_comm]
      rw [e64, mul_comm (2 ^ (64 - s))]
      exact Nat.mul_lt_mul_of_pos_right hrs (Nat.pow_pos (by norm_num))
    have hal : (a <<< (64 - s)) % 2 ^ 64 = 2 ^ (64 - s) * (a % 2 ^ s) := by
      rw [Nat.shiftLeft_eq, e64, mul_comm a, Nat.mul_mod_mul_left]
    have hne : ((a <<< (64 - s)) % 2 ^ 64 ≠ 0) ↔ a % 2 ^ s ≠ 0 := by
      rw [hal, Ne, Nat.mul_eq_zero]
      have : (2 : Nat) ^ (64 - s) ≠ 0 := by positivity
      tauto
    rw [hrl, Nat.shiftRight_eq_div_pow] at o1
    simp only [e1, hrl, Nat.shiftRight_eq_div_pow, decide_eq_decide.2 hne]
    rw [o1, Nat.add_comm]

omit [Platform] in
/-- Digits below the top 64 bits do not change these. -/
theorem top64_append {l k n : Nat} (hn : 2 ^ 64 ≤ n) (hl : l < 2 ^ k) :
    top64 (l + 2 ^ k * n) = ((top64 n).1, (top64 n).2 || decide (l ≠ 0)) := by
  have hpos : 0 < 2 ^ k := Nat.two_pow_pos k
  have hlog : 64 ≤ n.log2 := (Nat.le_log2 (by omega)).2 hn
  unfold top64
  rw [log2_append (by omega) hl]
  obtain ⟨c, hc⟩ : ∃ c, n.log2 + 1 = c + 64 := ⟨n.log2 + 1 - 64, by omega⟩
  have e : k + n.log2 + 1 = k + c + 64 := by omega
  rw [e, hc]
  have h64 : (0 : Nat) < 2 ^ 64 := by norm_num
  rw [pow_add _ (k + c), pow_add _ c, Nat.mul_div_mul_right _ _ h64, Nat.mul_mod_mul_right, Nat.mul_div_mul_right _ _ h64,
    Nat.mul_mod_mul_right, pow_add, ← Nat.div_div_eq_div_mul, Nat.mod_mul]
  have hdiv : (l + 2 ^ k * n) / 2 ^ k = n := by
    rw [Nat.add_mul_div_left _ _ hpos, Nat.div_eq_of_lt hl, Nat.zero_add]
  have hmod : (l + 2 ^ k * n) % 2 ^ k = l := by
    rw [Nat.add_mul_mod_self_left, Nat.mod_eq_of_lt hl]
  rw [hdiv, hmod]
  congr 1
  rw [← Bool.decide_or]
  refine decide_eq_decide.2 ?_
  rw [Ne, Nat.mul_eq_zero, Nat.add_eq_zero_iff, Nat.mul_eq_zero, Ne, Nat.mul_eq_zero]
  have h2 : (2 : Nat) ^ 64 ≠ 0 := by norm_num
  have h3 : (2 : Nat) ^ k ≠ 0 := by omega
  tauto

theorem base_pow (k : Nat) : base ^ k = 2 ^ (limb_bits * k) := by rw [base_eq, ← pow_mul]

theorem hi64_limb64_big (hp : Platform.limb64 = true) {v : bigint} {n : Nat} (h : Big v n) (hn : 0 < n) :
    bigint.hi64_limb64 v = .ok (top64 n) := by
  obtain ⟨l, r, rfl, hr, hrb, hl, rfl⟩ := h.top hn
  unfold bigint.hi64_limb64
  rcases List.eq_nil_or_concat l with rfl | ⟨l, a, rfl⟩
  · rw [if_neg (by simp), if_pos (by simp), rindex_top]
    rw [base64 hp] at hrb
    simp only [Res.bind_eq, Res.ok_bind, hi_one hr hrb, bval, List.length_nil, pow_zero, one_mul, Nat.zero_add]
  · rw [List.concat_eq_append] at *
    have hlen : (l ++ [a] ++ [r]).length = l.length + 2 := by simp
    have hab : a < base := hl a (by simp)
    have hl' := bval_lt hl.left
    rw [base_pow] at hl'
    rw [base64 hp] at hab hrb
    rw [if_neg (by omega), if_neg (by omega), rindex_top, rindex_second, nonzero_two]
    simp only [Res.bind_eq, Res.ok_bind, hi_two hr hrb hab, Res.pure_eq]
    rw [bval_append, bval_single, List.length_append, List.length_singleton, pow_succ base]
    have en : bval l + base ^ l.length * a + base ^ l.length * base * r = bval l + base ^ l.length * (a + base * r) := by ring
    rw [en, base_pow, base64 hp, top64_append (by omega) hl']

theorem hi64_limb32_big (hp : Platform.limb64 = false) {v : bigint} {n : Nat} (h : Big v n) (hn : 0 < n) :
    bigint.hi64_limb32 v = .ok (top64 n) := by
  obtain ⟨l, r, rfl, hr, hrb, hl, rfl⟩ := h.top hn
  have hb := base32 hp
  unfold bigint.hi64_limb32
  have shl32 : ∀ x y : Nat, x < 2 ^ 32 → y < 2 ^ 32 → (x <<< 32) % 2 ^ 64 ||| y = y + 2 ^ 32 * x := by
    intro x y hx hy
    rw [Nat.shiftLeft_eq, Nat.mod_eq_of_lt (by omega), mul_comm, ← Nat.two_pow_add_eq_or_of_lt hy, Nat.add_comm]
  rcases List.eq_nil_or_concat l with rfl | ⟨l, a, rfl⟩
  · rw [if_neg (by simp), if_pos (by simp), rindex_top]
    rw [hb] at hrb
    simp only [Res.bind_eq, Res.ok_bind, bigint.uint32_hi64_1, hi_one hr (show r < 2 ^ 64 by omega), bval, List.length_nil, pow_zero, one_mul,
      Nat.zero_add]
  · rw [List.concat_eq_append] at *
    have hab : a < base := hl a (by simp)
    rcases List.eq_nil_or_concat l with rfl | ⟨l, b, rfl⟩
    · rw [hb] at hab hrb
      rw [if_neg (by simp), if_neg (by simp), if_pos (by simp), rindex_top, rindex_second]
      simp only [Res.bind_eq, Res.ok_bind, bigint.uint32_hi64_2]
      rw [shl32 r a hrb hab, hi_one (by omega) (by omega)]
      simp only [List.nil_append, bval_single, List.length_singleton, pow_one, hb]
    · rw [List.concat_eq_append] at *
      have hlen : (l ++ [b] ++ [a] ++ [r]).length = l.length + 3 := by simp
      have hbb : b < base := hl b (by simp)
      have hl' := bval_lt hl.left.left
      rw [base_pow] at hl'
      rw [hb] at hab hrb hbb
      rw [if_neg (by omega), if_neg (by omega), if_neg (by omega), rindex_top, rindex_second, rindex_third, nonzero_three]
      simp only [Res.bind_eq, Res.ok_bind, bigint.uint32_hi64_3]
      rw [shl32 a b hab hbb, hi_two hr (by omega) (by omega)]
      simp only [Res.ok_bind, Res.pure_eq]
      rw [bval_append, bval_single, bval_append, bval_single, List.length_append, List.length_append, List.length_singleton,
        List.length_append, List.length_singleton, List.length_singleton, pow_succ base (l.length + 1), pow_succ base]
      have en : bval l + base ^ l.length * b + base ^ l.length * base * a + base ^ l.length * base * base * r =
          bval l + base ^ l.length * (b + base * a + base * base * r) := by ring
      have en2 : b + 2 ^ 32 * a + 2 ^ 32 * 2 ^ 32 * r = b + 2 ^ 32 * a + 2 ^ 64 * r := by norm_num
      rw [en, base_pow, hb, en2, top64_append (by omega) hl']

theorem hi64_big {v : bigint} {n : Nat} (h : Big v n) (hn : 0 < n) :
    bigint.hi64 v = .ok (n * 2 ^ 64 / 2 ^ (n.log2 + 1), decide (n * 2 ^ 64 % 2 ^ (n.log2 + 1) ≠ 0)) := by
  unfold bigint.hi64
  rcases limb_bits_cases with ⟨hp, -⟩ | ⟨hp, -⟩
  · rw [if_pos hp, hi64_limb64_big hp h hn]; rfl
  · rw [if_neg (by simp [hp]), hi64_limb32_big hp h hn]; rfl

/-- A 64-bit number. -/
theorem ofU64_big {n : Nat} (h : n < 2 ^ 64) : Big (bigint.ofU64 n) n := by
  have hcap : 2 ≤ bigint_limbs := by
    unfold bigint_limbs
    rcases limb_bits_cases with ⟨_, hw⟩ | ⟨_, hw⟩ <;> rw [hw] <;> norm_num
  unfold bigint.ofU64
  rcases limb_bits_cases with ⟨hp, hw⟩ | ⟨hp, hw⟩
  · rw [if_pos hp]
    obtain ⟨n1, n2, n3, n4⟩ := normalize_spec [n] (Limbs.cons (by rw [base64 hp]; exact h) Limbs.nil)
    rw [bval_single] at n3 n4
    exact ⟨n1, le_trans n2 (by simp only [List.length_singleton]; omega), n3, n4⟩
  · rw [if_neg (by simp [hp])]
    rw [Nat.shiftRight_eq_div_pow, Nat.mod_eq_of_lt (show n / 2 ^ 32 < 2 ^ 32 by omega)]
    obtain ⟨n1, n2, n3, n4⟩ := normalize_spec [n % 2 ^ 32, n / 2 ^ 32] (Limbs.cons (by rw [base32 hp]; exact Nat.mod_lt _ (by norm_num))
      (Limbs.cons (by rw [base32 hp]; omega) Limbs.nil))
    have e : bval [n % 2 ^ 32, n / 2 ^ 32] = n := by
      simp only [bval, base32 hp]; omega
    rw [e] at n3 n4
    exact ⟨n1, le_trans n2 (by simpa using hcap), n3, n4⟩

end Utki.FastFloat
