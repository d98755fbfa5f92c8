import Verif.Model.Bigint
import Verif.Lemmas.Platform
import Mathlib.Tactic.Ring
import Mathlib.Tactic.Linarith
import Mathlib.Tactic.NormNum
import Mathlib.Algebra.Order.Group.Nat
import Mathlib.Data.List.Induction
/-!
# Big integers compute with integers

Every operation on a big integer yields the limbs of the exact result, as long as that fits into the limbs there are.
-/
namespace Utki.FastFloat

variable [Platform]

/-- The base of the limbs, kept folded. -/
def base : Nat := 2 ^ limb_bits
theorem base_eq : base = 2 ^ limb_bits := rfl
theorem limb_bits_cases : (Platform.limb64 = true ∧ limb_bits = 64) ∨ (Platform.limb64 = false ∧ limb_bits = 32) := by
  unfold limb_bits
  cases Platform.limb64 <;> simp
theorem limb_bits_pos : 0 < limb_bits := by rcases limb_bits_cases with h | h <;> omega
theorem limb_bits_le : limb_bits ≤ 64 := by rcases limb_bits_cases with h | h <;> omega
theorem base_ge : 2 ^ 32 ≤ base := by
  rw [base_eq]; exact Nat.pow_le_pow_right (by norm_num) (by rcases limb_bits_cases with h | h <;> omega)
theorem base_le : base ≤ 2 ^ 64 := by rw [base_eq]; exact Nat.pow_le_pow_right (by norm_num) limb_bits_le
theorem base_pos : 0 < base := by have := base_ge; omega
theorem one_lt_base : 1 < base := by have := base_ge; omega
theorem base64 (h : Platform.limb64 = true) : base = 2 ^ 64 := by
  rw [base_eq, limb_bits, if_pos h]
theorem base32 (h : Platform.limb64 = false) : base = 2 ^ 32 := by
  rw [base_eq, limb_bits, if_neg (by simp [h])]

/-- The numbers that fit: on every platform at least those below `2 ^ 3968`. -/
theorem base_capacity : 2 ^ 3968 ≤ base ^ bigint_limbs := by
  unfold bigint_limbs
  rw [base_eq, ← pow_mul]
  exact Nat.pow_le_pow_right (by norm_num) (by rcases limb_bits_cases with h | h <;> rw [h.2] <;> norm_num)

theorem scalar_add_eq {x y : Nat} (hx : x < base) (hy : y < base) : scalar_add x y = ((x + y) % base, decide (base ≤ x + y)) := by
  unfold scalar_add
  rw [← base_eq]
  split
  · rfl
  · dsimp only
    congr 1
    apply decide_eq_decide.2
    by_cases h : base ≤ x + y
    · rw [Nat.mod_eq_sub_mod h, Nat.mod_eq_of_lt (by omega)]; omega
    · rw [Nat.mod_eq_of_lt (by omega)]; omega

theorem product_lt {x y c : Nat} (hx : x < base) (hy : y < base) (hc : c < base) : x * y + c < base * base := by
  have h1 : x * y ≤ (base - 1) * (base - 1) := Nat.mul_le_mul (by omega) (by omega)
  have h2 : (base - 1) * (base - 1) + (base - 1) < base * base := by
    have := base_pos
    obtain ⟨k, hk⟩ : ∃ k, base = k + 1 := ⟨base - 1, by omega⟩
    rw [hk]; simp only [Nat.add_sub_cancel]
    nlinarith
  omega

theorem scalar_mul_eq {x y c : Nat} (hx : x < base) (hy : y < base) (hc : c < base) :
    scalar_mul x y c = ((x * y + c) % base, (x * y + c) / base) := by
  have hz := product_lt hx hy hc
  have hq : (x * y + c) / base < base := Nat.div_lt_of_lt_mul hz
  unfold scalar_mul
  rcases limb_bits_cases with ⟨h, hl⟩ | ⟨h, hl⟩
  · have hb := base64 h
    rw [if_pos h]
    split
    · dsimp only
      rw [hl, Nat.shiftRight_eq_div_pow, ← hb]
      rw [Nat.mod_eq_of_lt (show x * y + c < 2 ^ 128 by rw [show (2 : Nat) ^ 128 = 2 ^ 64 * 2 ^ 64 by norm_num, ← hb]; exact hz),
        Nat.mod_eq_of_lt hq]
    · rw [full_multiplication_eq (by rw [← hb]; exact hx) (by rw [← hb]; exact hy), ← hb]
      dsimp only
      rw [scalar_add_eq (Nat.mod_lt _ base_pos) hc]
      have hdm := Nat.mod_add_div (x * y) base
      have hr := Nat.mod_lt (x * y) base_pos
      have hq' : x * y / base < base := Nat.div_lt_of_lt_mul (by omega)
      have e : x * y + c = (x * y % base + c) + base * (x * y / base) := by omega
      have e1 : (x * y + c) / base = (x * y % base + c) / base + x * y / base := by
        conv_lhs => rw [e, Nat.add_mul_div_left _ _ base_pos]
      have e2 : (x * y + c) % base = (x * y % base + c) % base := by
        conv_lhs => rw [e, Nat.add_mul_mod_self_left]
      rw [e1] at hq
      rw [e1, e2, Nat.mod_eq_of_lt hq']
      have e3 : (x * y % base + c) / base = (decide (base ≤ x * y % base + c)).toNat := by
        by_cases h : base ≤ x * y % base + c
        · have : (x * y % base + c) / base = 1 := by
            rw [Nat.div_eq_iff base_pos]; constructor <;> omega
          simp [h, this]
        · have : (x * y % base + c) / base = 0 := Nat.div_eq_of_lt (by omega)
          simp [h, this]
      rw [e3] at hq ⊢
      rw [Nat.add_comm (x * y / base), Nat.mod_eq_of_lt hq]
  · have hb := base32 h
    rw [if_neg (by simp [h])]
    dsimp only
    rw [hl, Nat.shiftRight_eq_div_pow, ← hb]
    rw [Nat.mod_eq_of_lt (show x * y + c < 2 ^ 64 by rw [show (2 : Nat) ^ 64 = 2 ^ 32 * 2 ^ 32 by norm_num, ← hb]; exact hz),
      Nat.mod_eq_of_lt hq]

/-- The number a list of limbs stands for. -/
def bval : List Nat → Nat
  | [] => 0
  | x :: xs => x + base * bval xs

/-- All limbs are in range. -/
def Limbs (l : List Nat) : Prop := ∀ x ∈ l, x < base

theorem Limbs.nil : Limbs [] := by intro x hx; cases hx
theorem Limbs.cons {x : Nat} {l : List Nat} (hx : x < base) (hl : Limbs l) : Limbs (x :: l) := by
  intro y hy
  rcases List.mem_cons.1 hy with rfl | h
  · exact hx
  · exact hl y h
theorem Limbs.head {x : Nat} {l : List Nat} (h : Limbs (x :: l)) : x < base := h x List.mem_cons_self
theorem Limbs.tail {x : Nat} {l : List Nat} (h : Limbs (x :: l)) : Limbs l := fun y hy => h y (List.mem_cons_of_mem _ hy)
theorem Limbs.append {a b : List Nat} (ha : Limbs a) (hb : Limbs b) : Limbs (a ++ b) := by
  intro x hx
  rcases List.mem_append.1 hx with h | h
  · exact ha x h
  · exact hb x h
theorem Limbs.left {a b : List Nat} (h : Limbs (a ++ b)) : Limbs a := fun x hx => h x (List.mem_append_left _ hx)
theorem Limbs.right {a b : List Nat} (h : Limbs (a ++ b)) : Limbs b := fun x hx => h x (List.mem_append_right _ hx)
theorem Limbs.take {l : List Nat} (h : Limbs l) (n : Nat) : Limbs (l.take n) := fun x hx => h x (List.mem_of_mem_take hx)
theorem Limbs.drop {l : List Nat} (h : Limbs l) (n : Nat) : Limbs (l.drop n) := fun x hx => h x (List.mem_of_mem_drop hx)

theorem bval_append (a b : List Nat) : bval (a ++ b) = bval a + base ^ a.length * bval b := by
  induction a with
  | nil => simp [bval]
  | cons x a ih => rw [List.cons_append, bval, bval, ih, List.length_cons, pow_succ]; ring

theorem bval_single (x : Nat) : bval [x] = x := by simp [bval]

theorem bval_lt {l : List Nat} (h : Limbs l) : bval l < base ^ l.length := by
  induction l with
  | nil => simp [bval]
  | cons x l ih =>
    have h1 := ih h.tail
    have h2 := h.head
    rw [bval, List.length_cons, pow_succ']
    have := Nat.mul_le_mul_left base h1
    rw [Nat.succ_eq_add_one, mul_add, mul_one] at this
    omega

theorem bval_zeros (n : Nat) : bval (List.replicate n 0) = 0 := by
  induction n with
  | zero => rfl
  | succ n ih => rw [List.replicate_succ, bval, ih]; simp

theorem limbs_zeros (n : Nat) : Limbs (List.replicate n 0) := by
  intro x hx
  rw [(List.mem_replicate.1 hx).2]
  exact base_pos

theorem bval_take_drop (l : List Nat) (n : Nat) (h : n ≤ l.length) : bval l = bval (l.take n) + base ^ n * bval (l.drop n) := by
  conv_lhs => rw [← List.take_append_drop n l, bval_append, List.length_take, Nat.min_eq_left h]

/-- `v` is the normalised form of the number `n`, within the capacity. -/
structure Big (v : stackvec) (n : Nat) : Prop where
  limbs : Limbs v
  cap : v.length ≤ bigint_limbs
  val : bval v = n
  norm : v ≠ [] → base ^ (v.length - 1) ≤ n

theorem Big.zero : Big [] 0 := ⟨Limbs.nil, Nat.zero_le _, rfl, fun h => absurd rfl h⟩

theorem Big.lt {v : stackvec} {n : Nat} (h : Big v n) : n < base ^ v.length := by rw [← h.val]; exact bval_lt h.limbs

theorem Big.ne_nil {v : stackvec} {n : Nat} (h : Big v n) (hn : 0 < n) : v ≠ [] := by
  rintro rfl
  have := h.val
  simp only [bval] at this
  omega

theorem Big.pos {v : stackvec} {n : Nat} (h : Big v n) (hv : v ≠ []) : 0 < n :=
  lt_of_lt_of_le (Nat.pow_pos base_pos) (h.norm hv)

/-- A push that is needed finds room. -/
theorem push_ok {v : stackvec} {c n : Nat} (hl : Limbs v) (hc : c ≠ 0) (hcb : c < base)
    (hn : bval v + base ^ v.length * c = n) (hb : n < base ^ bigint_limbs) :
    stackvec.try_push v c = (v ++ [c], true) ∧ Big (v ++ [c]) n := by
  have h1 : base ^ v.length ≤ base ^ v.length * c := Nat.le_mul_of_pos_right _ (Nat.pos_of_ne_zero hc)
  have h2 : v.length < bigint_limbs := by
    have : base ^ v.length < base ^ bigint_limbs := by omega
    exact (Nat.pow_lt_pow_iff_right one_lt_base).1 this
  refine ⟨by rw [stackvec.try_push, if_pos h2], ?_, ?_, ?_, ?_⟩
  · exact hl.append (Limbs.cons hcb Limbs.nil)
  · rw [List.length_append, List.length_singleton]; omega
  · rw [bval_append, bval_single, hn]
  · intro _
    rw [List.length_append, List.length_singleton, Nat.add_sub_cancel]
    omega

/-! ## Addition and multiplication by a limb -/

theorem mul_carry_spec (y : Nat) (hy : y < base) : ∀ (l : List Nat) (c : Nat), Limbs l → c < base →
    bval (mul_carry y l c).1 + base ^ l.length * (mul_carry y l c).2 = bval l * y + c ∧ (mul_carry y l c).1.length = l.length ∧
    Limbs (mul_carry y l c).1 ∧ (mul_carry y l c).2 < base := by
  intro l
  induction l with
  | nil => intro c _ hc; simp [mul_carry, bval, Limbs.nil, hc]
  | cons x l ih =>
    intro c hl hc
    have hx := hl.head
    have hq : (x * y + c) / base < base := Nat.div_lt_of_lt_mul (product_lt hx hy hc)
    have e : mul_carry y (x :: l) c =
        ((x * y + c) % base :: (mul_carry y l ((x * y + c) / base)).1, (mul_carry y l ((x * y + c) / base)).2) := by
      rw [mul_carry]
      simp only [scalar_mul_eq hx hy hc]
    obtain ⟨i1, i2, i3, i4⟩ := ih ((x * y + c) / base) hl.tail hq
    rw [e]
    refine ⟨?_, by simp [i2], Limbs.cons (Nat.mod_lt _ base_pos) i3, i4⟩
    simp only [bval, List.length_cons, pow_succ]
    have hdm := Nat.mod_add_div (x * y + c) base
    calc (x * y + c) % base + base * bval (mul_carry y l ((x * y + c) / base)).1 +
          base ^ l.length * base * (mul_carry y l ((x * y + c) / base)).2
        = (x * y + c) % base + base * (bval (mul_carry y l ((x * y + c) / base)).1 +
          base ^ l.length * (mul_carry y l ((x * y + c) / base)).2) := by ring
      _ = (x * y + c) % base + base * ((x * y + c) / base) + base * (bval l * y) := by rw [i1]; ring
      _ = (x + base * bval l) * y + c := by rw [hdm]; ring

theorem small_mul_big {v : stackvec} {n y : Nat} (h : Big v n) (hy0 : 0 < y) (hy : y < base) (hb : n * y < base ^ bigint_limbs) :
    ∃ v', small_mul v y = (v', true) ∧ Big v' (n * y) := by
  obtain ⟨m1, m2, m3, m4⟩ := mul_carry_spec y hy v 0 h.limbs base_pos
  rw [h.val, Nat.add_zero] at m1
  unfold small_mul
  generalize mul_carry y v 0 = r at *
  obtain ⟨r, c⟩ := r
  dsimp only at *
  rw [← m2] at m1
  by_cases hc : c ≠ 0
  · rw [if_pos hc]
    obtain ⟨p1, p2⟩ := push_ok m3 hc m4 m1 hb
    exact ⟨_, p1, p2⟩
  · rw [if_neg hc]
    have hc0 : c = 0 := by omega
    subst hc0
    rw [Nat.mul_zero, Nat.add_zero] at m1
    refine ⟨r, rfl, m3, by rw [m2]; exact h.cap, m1, ?_⟩
    intro hr
    have hv : v ≠ [] := by
      rintro rfl
      exact hr (List.length_eq_zero_iff.1 m2)
    rw [m2]
    exact le_trans (h.norm hv) (Nat.le_mul_of_pos_right _ hy0)

theorem add_carry_spec : ∀ (l : List Nat) (c : Nat), Limbs l → c < base →
    bval (add_carry l c).1 + base ^ l.length * (add_carry l c).2 = bval l + c ∧ (add_carry l c).1.length = l.length ∧
    Limbs (add_carry l c).1 ∧ (add_carry l c).2 < base := by
  intro l
  induction l with
  | nil =>
    intro c _ hc
    cases c with
    | zero => simp [add_carry, bval, Limbs.nil, base_pos]
    | succ c => simp [add_carry, bval, Limbs.nil, hc]
  | cons x l ih =>
    intro c hl hc
    cases c with
    | zero => simp [add_carry, hl, base_pos]
    | succ c =>
      have hx := hl.head
      generalize hc' : c + 1 = c' at *
      have hov : (decide (base ≤ x + c')).toNat = (x + c') / base := by
        by_cases h : base ≤ x + c'
        · have : (x + c') / base = 1 := by
            rw [Nat.div_eq_iff base_pos]; constructor <;> omega
          simp [h, this]
        · have : (x + c') / base = 0 := Nat.div_eq_of_lt (by omega)
          simp [h, this]
      have hq : (x + c') / base < base := by
        have : (x + c') / base < 2 := Nat.div_lt_of_lt_mul (by omega)
        have := one_lt_base
        omega
      have e : add_carry (x :: l) c' =
          ((x + c') % base :: (add_carry l ((x + c') / base)).1, (add_carry l ((x + c') / base)).2) := by
        rw [← hc', add_carry, hc', ← hov]
        · simp only [scalar_add_eq hx hc]
        · omega
      obtain ⟨i1, i2, i3, i4⟩ := ih ((x + c') / base) hl.tail hq
      rw [e]
      refine ⟨?_, by simp [i2], Limbs.cons (Nat.mod_lt _ base_pos) i3, i4⟩
      simp only [bval, List.length_cons, pow_succ]
      have hdm := Nat.mod_add_div (x + c') base
      calc (x + c') % base + base * bval (add_carry l ((x + c') / base)).1 +
            base ^ l.length * base * (add_carry l ((x + c') / base)).2
          = (x + c') % base + base * (bval (add_carry l ((x + c') / base)).1 +
            base ^ l.length * (add_carry l ((x + c') / base)).2) := by ring
        _ = (x + c') % base + base * ((x + c') / base) + base * bval l := by rw [i1]; ring
        _ = x + base * bval l + c' := by rw [hdm]; ring

/-- Adding a limb at position `k`: the value, and either the length stays or the new top limb is not 0. -/
theorem small_add_from_spec {v : stackvec} {y k : Nat} (hl : Limbs v) (hcap : v.length ≤ bigint_limbs) (hk : k ≤ v.length)
    (hy : y < base) (hb : bval v + base ^ k * y < base ^ bigint_limbs) :
    ∃ v', small_add_from v y k = (v', true) ∧ Limbs v' ∧ v'.length ≤ bigint_limbs ∧ bval v' = bval v + base ^ k * y ∧
      (v'.length = v.length ∨ v' ≠ [] ∧ base ^ (v'.length - 1) ≤ bval v') := by
  obtain ⟨m1, m2, m3, m4⟩ := add_carry_spec (v.drop k) y (hl.drop k) hy
  unfold small_add_from
  generalize add_carry (v.drop k) y = r at *
  obtain ⟨r, c⟩ := r
  dsimp only at *
  have hlen : (v.take k ++ r).length = v.length := by
    rw [List.length_append, List.length_take, m2, List.length_drop]; omega
  have hval : bval (v.take k ++ r) + base ^ (v.take k ++ r).length * c = bval v + base ^ k * y := by
    rw [hlen, bval_append, List.length_take, Nat.min_eq_left hk, bval_take_drop v k hk]
    have e : base ^ v.length = base ^ k * base ^ (v.drop k).length := by
      rw [← pow_add, List.length_drop]; congr 1; omega
    calc bval (v.take k) + base ^ k * bval r + base ^ v.length * c
        = bval (v.take k) + base ^ k * (bval r + base ^ (v.drop k).length * c) := by rw [e]; ring
      _ = _ := by rw [m1]; ring
  have hlm : Limbs (v.take k ++ r) := (hl.take k).append m3
  by_cases hc : c ≠ 0
  · rw [if_pos hc]
    obtain ⟨p1, p2⟩ := push_ok hlm hc m4 hval hb
    refine ⟨_, p1, p2.limbs, p2.cap, p2.val, Or.inr ⟨by simp, ?_⟩⟩
    rw [p2.val]
    exact p2.norm (by simp)
  · rw [if_neg hc]
    have hc0 : c = 0 := by omega
    subst hc0
    rw [Nat.mul_zero, Nat.add_zero] at hval
    exact ⟨_, rfl, hlm, by rw [hlen]; exact hcap, hval, Or.inl hlen⟩

theorem small_add_big {v : stackvec} {n y : Nat} (h : Big v n) (hy : y < base) (hb : n + y < base ^ bigint_limbs) :
    ∃ v', small_add v y = (v', true) ∧ Big v' (n + y) := by
  obtain ⟨v', h1, h2, h3, h4, h5⟩ := small_add_from_spec (k := 0) h.limbs h.cap (Nat.zero_le _) hy (by simpa [h.val] using hb)
  rw [pow_zero, one_mul, h.val] at h4
  refine ⟨v', h1, h2, h3, h4, ?_⟩
  intro hv
  rcases h5 with h5 | h5
  · rw [h5]
    have : v ≠ [] := by
      rintro rfl
      exact hv (List.length_eq_zero_iff.1 h5)
    exact le_trans (h.norm this) (Nat.le_add_right _ _)
  · rw [← h4]; exact h5.2

/-! ## Multiplication of big integers -/

theorem add_limbs_spec : ∀ (xs ys : List Nat) (c : Bool), Limbs xs → Limbs ys → ys.length ≤ xs.length →
    ∃ r c', add_limbs xs ys c = .ok (r, c') ∧ Limbs r ∧ r.length = xs.length ∧
      bval r + base ^ ys.length * c'.toNat = bval xs + bval ys + c.toNat := by
  intro xs ys
  induction ys generalizing xs with
  | nil =>
    intro c hx _ _
    exact ⟨xs, c, by rw [add_limbs]; rfl, hx, rfl, by simp [bval]⟩
  | cons y ys ih =>
    intro c hx hy hlen
    cases xs with
    | nil => simp at hlen
    | cons x xs =>
      have hxb := hx.head
      have hyb := hy.head
      have hc1 : c.toNat ≤ 1 := Bool.toNat_le c
      -- the two additions together
      have hpair : ∃ z co, (if c then (scalar_add (scalar_add x y).1 1) else ((scalar_add x y).1, false)) = (z, co) ∧ z < base ∧
          z + base * ((scalar_add x y).2 || co).toNat = x + y + c.toNat := by
        have hb := one_lt_base
        have hm : ∀ a, a < 2 * base → a % base = if base ≤ a then a - base else a := by
          intro a ha
          split
          · rw [Nat.mod_eq_sub_mod (by assumption), Nat.mod_eq_of_lt (by omega)]
          · exact Nat.mod_eq_of_lt (by omega)
        cases c with
        | false =>
          refine ⟨_, _, rfl, ?_, ?_⟩
          · rw [scalar_add_eq hxb hyb]; exact Nat.mod_lt _ base_pos
          · simp only [scalar_add_eq hxb hyb, Bool.or_false, Bool.toNat_false, Nat.add_zero]
            rw [hm _ (by omega)]
            by_cases h : base ≤ x + y
            · simp [h]
            · simp [h]
        | true =>
          rw [if_pos rfl, scalar_add_eq hxb hyb, scalar_add_eq (Nat.mod_lt _ base_pos) hb]
          refine ⟨_, _, rfl, ?_, ?_⟩
          · exact Nat.mod_lt _ base_pos
          · change ((x + y) % base + 1) % base + base * (decide (base ≤ x + y) || decide (base ≤ (x + y) % base + 1)).toNat =
              x + y + 1
            rw [hm (x + y) (by omega)]
            by_cases h : base ≤ x + y
            · simp only [h, if_true, decide_true, Bool.true_or, Bool.toNat_true, Nat.mul_one]
              rw [hm _ (by omega), if_neg (by omega)]
              omega
            · simp only [h, if_false, decide_false, Bool.false_or]
              rw [hm _ (by omega)]
              by_cases h' : base ≤ x + y + 1
              · simp only [h', if_true, decide_true, Bool.toNat_true]
                omega
              · simp [h']
      obtain ⟨z, co, hz, hzb, hzv⟩ := hpair
      obtain ⟨r, c', h1, h2, h3, h4⟩ := ih xs ((scalar_add x y).2 || co) hx.tail hy.tail (by simpa using hlen)
      refine ⟨z :: r, c', ?_, Limbs.cons hzb h2, by simp [h3], ?_⟩
      · rw [add_limbs]
        dsimp only
        rw [hz]
        dsimp only
        rw [h1]
        rfl
      · simp only [bval, List.length_cons, pow_succ]
        calc z + base * bval r + base ^ ys.length * base * c'.toNat
            = z + base * (bval r + base ^ ys.length * c'.toNat) := by ring
          _ = (z + base * ((scalar_add x y).2 || co).toNat) + base * bval xs + base * bval ys := by rw [h4]; ring
          _ = _ := by rw [hzv]; ring

theorem large_add_from_spec {x : stackvec} {y : List Nat} {start : Nat} (hx : Limbs x) (hcap : x.length ≤ bigint_limbs)
    (hy : Limbs y) (hroom : y.length + start ≤ bigint_limbs) (hb : bval x + base ^ start * bval y < base ^ bigint_limbs) :
    ∃ x', large_add_from x y start = .ok (x', true) ∧ Limbs x' ∧ x'.length ≤ bigint_limbs ∧
      bval x' = bval x + base ^ start * bval y := by
  -- after the resize
  obtain ⟨x1, hx1, hl1, hc1, hlen1, hv1⟩ : ∃ x1, (if x.length < start ∨ y.length > x.length - start then
        stackvec.try_resize x (y.length + start) 0 else (x, true)) = (x1, true) ∧ Limbs x1 ∧ x1.length ≤ bigint_limbs ∧
      y.length + start ≤ x1.length ∧ bval x1 = bval x := by
    by_cases h : x.length < start ∨ y.length > x.length - start
    · rw [if_pos h, stackvec.try_resize, if_neg (by omega), if_pos (by omega)]
      refine ⟨_, rfl, hx.append (limbs_zeros _), ?_, ?_, ?_⟩
      · rw [List.length_append, List.length_replicate]; omega
      · rw [List.length_append, List.length_replicate]; omega
      · rw [bval_append, bval_zeros]; simp
    · rw [if_neg h]
      exact ⟨x, rfl, hx, hcap, by omega, rfl⟩
  unfold large_add_from
  rw [hx1]
  obtain ⟨r, c, h1, h2, h3, h4⟩ := add_limbs_spec (x1.drop start) y false (hl1.drop _) hy (by rw [List.length_drop]; omega)
  simp only [Bool.not_true, Bool.false_eq_true, if_false, Res.bind_eq, h1, Res.ok_bind]
  have hlen : (x1.take start ++ r).length = x1.length := by
    rw [List.length_append, List.length_take, h3, List.length_drop]; omega
  have hval : bval (x1.take start ++ r) + base ^ (y.length + start) * c.toNat = bval x + base ^ start * bval y := by
    rw [← hv1, bval_take_drop x1 start (by omega), bval_append, List.length_take, Nat.min_eq_left (by omega), pow_add]
    calc bval (x1.take start) + base ^ start * bval r + base ^ y.length * base ^ start * c.toNat
        = bval (x1.take start) + base ^ start * (bval r + base ^ y.length * c.toNat) := by ring
      _ = _ := by rw [h4]; simp only [Bool.toNat_false, Nat.add_zero]; ring
  have hlm : Limbs (x1.take start ++ r) := (hl1.take _).append h2
  cases c with
  | false =>
    refine ⟨_, rfl, hlm, by rw [hlen]; exact hc1, ?_⟩
    simpa using hval
  | true =>
    rw [Bool.toNat_true, Nat.mul_one] at hval
    obtain ⟨v', s1, s2, s3, s4, -⟩ := small_add_from_spec (y := 1) (k := y.length + start) hlm (by rw [hlen]; exact hc1)
      (by rw [hlen]; exact hlen1) one_lt_base (by rw [Nat.mul_one, hval]; exact hb)
    refine ⟨v', by rw [if_pos rfl, s1]; rfl, s2, s3, ?_⟩
    rw [s4, Nat.mul_one, hval]

theorem long_mul_loop_spec {z : stackvec} {n : Nat} (hz : Big z n) (hn : 0 < n) : ∀ (ys : List Nat) (x : stackvec) (i : Nat),
    Limbs ys → Limbs x → x.length ≤ bigint_limbs → bval x + n * base ^ i * bval ys < base ^ bigint_limbs →
    ∃ x', long_mul_loop z x ys i = .ok (x', true) ∧ Limbs x' ∧ x'.length ≤ bigint_limbs ∧
      bval x' = bval x + n * base ^ i * bval ys := by
  intro ys
  induction ys with
  | nil => intro x i _ hx hcap _; exact ⟨x, rfl, hx, hcap, by simp [bval]⟩
  | cons y ys ih =>
    intro x i hys hx hcap hb
    have hsplit : n * base ^ i * bval (y :: ys) = base ^ i * (n * y) + n * base ^ (i + 1) * bval ys := by
      rw [bval, pow_succ]; ring
    rw [hsplit] at hb ⊢
    rw [long_mul_loop]
    by_cases hy0 : y ≠ 0
    · rw [if_pos hy0]
      have hext : stackvec.try_extend [] z = (z, true) := by
        rw [stackvec.try_extend, if_pos (by simpa using hz.cap)]; rfl
      have hpow : 0 < base ^ i := Nat.pow_pos base_pos
      have hny : base ^ i * (n * y) < base ^ bigint_limbs := by omega
      have hle : n * y ≤ base ^ i * (n * y) := Nat.le_mul_of_pos_left _ hpow
      obtain ⟨zi, hz1, hz2⟩ := small_mul_big hz (Nat.pos_of_ne_zero hy0) hys.head (by omega)
      have hnypos : 0 < n * y := Nat.mul_pos hn (Nat.pos_of_ne_zero hy0)
      have hroom : zi.length + i ≤ bigint_limbs := by
        have h1 := hz2.norm (hz2.ne_nil hnypos)
        have h2 : base ^ i * base ^ (zi.length - 1) < base ^ bigint_limbs :=
          lt_of_le_of_lt (Nat.mul_le_mul_left _ h1) hny
        rw [← pow_add] at h2
        have h3 := (Nat.pow_lt_pow_iff_right one_lt_base).1 h2
        have h4 : 0 < zi.length := List.length_pos_iff.2 (hz2.ne_nil hnypos)
        omega
      obtain ⟨x', l1, l2, l3, l4⟩ := large_add_from_spec (start := i) hx hcap hz2.limbs hroom (by rw [hz2.val]; omega)
      rw [hz2.val] at l4
      obtain ⟨x'', m1, m2, m3, m4⟩ := ih x' (i + 1) hys.tail l2 l3 (by rw [l4]; omega)
      rw [hext]
      dsimp only
      simp only [Bool.not_true, Bool.false_eq_true, if_false, hz1, Res.bind_eq, l1, Res.ok_bind]
      exact ⟨x'', m1, m2, m3, by rw [m4, l4]; ring⟩
    · rw [if_neg hy0]
      have hy0' : y = 0 := by omega
      subst hy0'
      simp only [Nat.mul_zero, Nat.zero_add] at hb ⊢
      exact ih x (i + 1) hys.tail hx hcap hb

theorem normalize_spec (v : List Nat) (h : Limbs v) :
    Limbs (stackvec.normalize v) ∧ (stackvec.normalize v).length ≤ v.length ∧ bval (stackvec.normalize v) = bval v ∧
      (stackvec.normalize v ≠ [] → base ^ ((stackvec.normalize v).length - 1) ≤ bval v) := by
  induction v using List.reverseRecOn with
  | nil => exact ⟨Limbs.nil, le_rfl, rfl, fun h => absurd rfl h⟩
  | append_singleton l x ih =>
    unfold stackvec.normalize at *
    rw [List.reverse_append, List.reverse_singleton, List.singleton_append]
    by_cases hx : x = 0
    · subst hx
      rw [List.dropWhile_cons_of_pos (by simp)]
      obtain ⟨i1, i2, i3, i4⟩ := ih h.left
      have e : bval (l ++ [0]) = bval l := by rw [bval_append, bval_single]; simp
      rw [e]
      refine ⟨i1, ?_, i3, i4⟩
      rw [List.length_append]; omega
    · rw [List.dropWhile_cons_of_neg (by simpa using hx)]
      simp only [List.reverse_cons, List.reverse_reverse]
      refine ⟨h, le_rfl, trivial, fun _ => ?_⟩
      rw [bval_append, bval_single, List.length_append, List.length_singleton, Nat.add_sub_cancel]
      have := Nat.le_mul_of_pos_right (base ^ l.length) (Nat.pos_of_ne_zero hx)
      omega

theorem long_mul_big {x : stackvec} {y : List Nat} {n : Nat} (h : Big x n) (hn : 0 < n) (hy : Limbs y) (hy0 : ∀ c ∈ y.head?, 0 < c)
    (hb : n * bval y < base ^ bigint_limbs) (hne : y ≠ []) : ∃ x', long_mul x y = .ok (x', true) ∧ Big x' (n * bval y) := by
  have hext : stackvec.try_extend [] x = (x, true) := by
    rw [stackvec.try_extend, if_pos (by simpa using h.cap)]; rfl
  unfold long_mul
  rw [hext]
  cases y with
  | nil => exact absurd rfl hne
  | cons y0 ys =>
    have hsplit : n * bval (y0 :: ys) = n * y0 + n * base ^ 1 * bval ys := by rw [bval]; ring
    rw [hsplit] at hb ⊢
    obtain ⟨x1, m1, m2⟩ := small_mul_big h (hy0 y0 rfl) hy.head (by omega)
    obtain ⟨x2, l1, l2, l3, l4⟩ := long_mul_loop_spec h hn ys x1 1 hy.tail m2.limbs m2.cap (by rw [m2.val]; exact hb)
    rw [m2.val] at l4
    dsimp only
    simp only [m1, Bool.not_true, Bool.false_eq_true, if_false, Res.bind_eq, l1, Res.ok_bind]
    obtain ⟨n1, n2, n3, n4⟩ := normalize_spec x2 l2
    rw [l4] at n3 n4
    exact ⟨_, rfl, n1, by omega, n3, n4⟩

end Utki.FastFloat
