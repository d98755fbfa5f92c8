import Verif.Model.Serialize
import Verif.Spec.Bytes
/-! Helper lemmas for serialization. -/
namespace Utki
open Spec

theorem pow256 (i : Nat) : 256 ^ i = 2 ^ (8 * i) := by
  rw [Nat.pow_mul]

theorem byte_of_shift {n : Nat} (v : BitVec (8 * n)) (k : Nat) (hk : k < n) :
    ((v >>> (8 * k)) &&& BitVec.ofNat (8 * n) 0xff).setWidth 8 =
      BitVec.ofNat 8 (v.toNat / 256 ^ k % 256) := by
  apply BitVec.eq_of_toNat_eq
  have h255 : 255 % 2 ^ (8 * n) = 255 := by
    apply Nat.mod_eq_of_lt
    calc 255 < 2 ^ 8 := by decide
      _ ≤ 2 ^ (8 * n) := Nat.pow_le_pow_right (by decide) (by omega)
  have hand : ∀ x : Nat, x &&& 255 = x % 256 := fun x => by
    have := Nat.and_two_pow_sub_one_eq_mod x 8
    simpa using this
  simp [BitVec.toNat_setWidth, BitVec.toNat_and, h255, hand, pow256, Nat.shiftRight_eq_div_pow]

theorem length_leBytes (n v) : (leBytes n v).length = n := by simp [leBytes]
theorem length_beBytes (n v) : (beBytes n v).length = n := by simp [beBytes, length_leBytes]

theorem leBytes_succ (n v) : leBytes (n + 1) v = BitVec.ofNat 8 (v % 256) :: leBytes n (v / 256) := by
  simp only [leBytes, List.range_succ_eq_map, List.map_cons, List.map_map, Nat.pow_zero, Nat.div_one]
  congr 1
  apply List.map_congr_left
  intro i _
  simp only [Function.comp, Nat.succ_eq_add_one]
  rw [Nat.pow_succ', Nat.div_div_eq_div_mul]

theorem leValue_leBytes (n v) : leValue (leBytes n v) = v % 256 ^ n := by
  induction n generalizing v with
  | zero => simp [leBytes, leValue, Nat.mod_one]
  | succ n ih =>
    rw [leBytes_succ, leValue, ih, Nat.pow_succ', Nat.mod_mul]
    simp

theorem leValue_lt (bs : List Byte) : leValue bs < 256 ^ bs.length := by
  induction bs with
  | nil => simp [leValue]
  | cons b bs ih =>
    have := b.isLt
    simp only [leValue, List.length_cons, Nat.pow_succ']
    omega

theorem leBytes_leValue (bs : List Byte) : leBytes bs.length (leValue bs) = bs := by
  induction bs with
  | nil => simp [leBytes]
  | cons b bs ih =>
    have := b.isLt
    rw [List.length_cons, leBytes_succ]
    have h1 : leValue (b :: bs) % 256 = b.toNat := by simp only [leValue]; omega
    have h2 : leValue (b :: bs) / 256 = leValue bs := by simp only [leValue]; omega
    rw [h1, h2, ih]
    simp

theorem length_patch {mem p bs} (h : p + bs.length ≤ mem.length) : (patch mem p bs).length = mem.length := by
  simp [patch]; omega

theorem patch_nil (mem p) : patch mem p [] = mem := by simp [patch]

theorem patch_cons (mem p b bs) (h : p < mem.length) : patch (mem.set p b) (p + 1) bs = patch mem p (b :: bs) := by
  have h1 : (mem.set p b).take (p + 1) = mem.take p ++ [b] := by
    rw [List.take_add_one, List.take_set]
    rw [List.set_eq_of_length_le (by simp; omega)]
    simp [h]
  have h2 : (mem.set p b).drop (p + 1 + bs.length) = mem.drop (p + (b :: bs).length) := by
    rw [List.drop_set]
    have : ¬ (p + 1 + bs.length ≤ p) := by omega
    simp [Nat.add_assoc, Nat.add_comm 1]
  simp only [patch, h1, h2]
  simp

theorem getElem_patch {mem p bs i} (h : p + bs.length ≤ mem.length) (hi : i < bs.length) :
    (patch mem p bs)[p + i]? = bs[i]? := by
  have : (mem.take p).length = p := by simp; omega
  simp only [patch, List.append_assoc]
  rw [List.getElem?_append_right (by omega), this]
  simp [List.getElem?_append_left hi]

theorem serializeLeLoop_eq {n : Nat} (v : BitVec (8 * n)) (todo index p : Nat) (mem : List Byte)
    (hi : index + todo ≤ n) (hp : p + todo ≤ mem.length) :
    serializeLeLoop v todo index p mem =
      .ok (patch mem p (leBytes todo (v.toNat / 256 ^ index)), p + todo) := by
  induction todo generalizing index p mem with
  | zero => simp [serializeLeLoop, leBytes, patch_nil]
  | succ todo ih =>
    have hsh : 8 * index < 8 * n := by omega
    simp only [serializeLeLoop, shrChecked, hsh, if_true, Res.bind_eq, Res.ok_bind]
    rw [wr_eq_ok (by omega), Res.ok_bind, ih _ _ _ (by omega) (by simp; omega),
      patch_cons _ _ _ _ (by omega), leBytes_succ, byte_of_shift _ _ (by omega), Nat.div_div_eq_div_mul,
      ← Nat.pow_succ]
    simp; omega

theorem serialize_le_eq {n : Nat} (v : BitVec (8 * n)) (mem : List Byte) (p : Nat)
    (hp : p + n ≤ mem.length) :
    serialize_le v mem p = .ok (patch mem p (leBytes n v.toNat), p + n) := by
  rw [serialize_le, serializeLeLoop_eq _ _ _ _ _ (by omega) hp]; simp

theorem beBytes_succ (n v : Nat) :
    beBytes (n + 1) v = BitVec.ofNat 8 (v / 256 ^ n % 256) :: beBytes n v := by
  simp [beBytes, leBytes, List.range_succ]

theorem serializeBeLoop_eq (dbg) {n : Nat} (v : BitVec (8 * n)) (todo p : Nat) (mem : List Byte)
    (hi : todo ≤ n) (hp : p + todo ≤ mem.length) :
    serializeBeLoop dbg v todo todo p mem = .ok (patch mem p (beBytes todo v.toNat), p + todo) := by
  induction todo generalizing p mem with
  | zero => simp [serializeBeLoop, beBytes, leBytes, patch_nil]
  | succ todo ih =>
    have hsh : 8 * todo < 8 * n := by omega
    have ha : decide (8 * todo ≤ n * 8) = true := by simp; omega
    simp only [serializeBeLoop, shrChecked, Nat.add_sub_cancel, hsh, if_true, Res.bind_eq, Res.ok_bind,
      gt_iff_lt, Nat.zero_lt_succ, decide_true, ASSERT_true, ha]
    rw [wr_eq_ok (by omega), Res.ok_bind, ih _ _ (by omega) (by simp; omega),
      patch_cons _ _ _ _ (by omega), beBytes_succ, byte_of_shift _ _ (by omega)]
    simp; omega

theorem serialize_be_eq (dbg) {n : Nat} (v : BitVec (8 * n)) (mem : List Byte) (p : Nat)
    (hp : p + n ≤ mem.length) :
    serialize_be dbg v mem p = .ok (patch mem p (beBytes n v.toNat), p + n) := by
  rw [serialize_be, serializeBeLoop_eq _ _ _ _ _ (by omega) hp]

/-- or-ing in a byte above all set bits adds it -/
theorem or_shift_byte {n : Nat} (ret : BitVec (8 * n)) (b : Byte) (k : Nat) (hk : k < n)
    (hr : ret.toNat < 256 ^ k) :
    (ret ||| (b.setWidth (8 * n)) <<< (8 * k)).toNat = ret.toNat + 256 ^ k * b.toNat := by
  have hb := b.isLt
  have hbn : b.toNat % 2 ^ (8 * n) = b.toNat := by
    apply Nat.mod_eq_of_lt
    exact Nat.lt_of_lt_of_le hb (Nat.pow_le_pow_right (by decide) (by omega))
  have hlt : b.toNat <<< (8 * k) < 2 ^ (8 * n) := by
    rw [Nat.shiftLeft_eq]
    calc b.toNat * 2 ^ (8 * k) < 2 ^ 8 * 2 ^ (8 * k) := (Nat.mul_lt_mul_right (Nat.two_pow_pos _)).2 hb
      _ = 2 ^ (8 + 8 * k) := by rw [Nat.pow_add]
      _ ≤ 2 ^ (8 * n) := Nat.pow_le_pow_right (by decide) (by omega)
  simp only [BitVec.toNat_or, BitVec.toNat_shiftLeft, BitVec.toNat_setWidth, hbn, Nat.mod_eq_of_lt hlt]
  rw [Nat.or_comm, ← Nat.shiftLeft_add_eq_or_of_lt (by rw [← pow256]; exact hr), Nat.shiftLeft_eq, pow256]
  rw [Nat.mul_comm, Nat.add_comm]

theorem deserializeLeLoop_eq {n : Nat} (mem : List Byte) (todo index p : Nat) (ret : BitVec (8 * n))
    (hi : index + todo = n) (hp : p + todo ≤ mem.length) (hr : ret.toNat < 256 ^ index) :
    ∃ r, deserializeLeLoop mem todo index p ret = .ok r ∧
      r.toNat = ret.toNat + 256 ^ index * leValue ((mem.drop p).take todo) := by
  induction todo generalizing index p ret with
  | zero => exact ⟨ret, rfl, by simp [leValue]⟩
  | succ todo ih =>
    have hsh : 8 * index < 8 * n := by omega
    have hpl : p < mem.length := by omega
    have hor := or_shift_byte ret mem[p] index (by omega) hr
    have hlt : (ret ||| (mem[p].setWidth (8 * n)) <<< (8 * index)).toNat < 256 ^ (index + 1) := by
      rw [hor, Nat.pow_succ]
      have := (mem[p]).isLt
      calc ret.toNat + 256 ^ index * (mem[p]).toNat
          < 256 ^ index + 256 ^ index * (mem[p]).toNat := by omega
        _ = 256 ^ index * ((mem[p]).toNat + 1) := by rw [Nat.mul_add]; omega
        _ ≤ 256 ^ index * 256 := Nat.mul_le_mul_left _ (by omega)
    obtain ⟨r, h1, h2⟩ := ih (index + 1) (p + 1) _ (by omega) (by omega) hlt
    refine ⟨r, ?_, ?_⟩
    · simp only [deserializeLeLoop, rd_eq_ok hpl, Res.bind_eq, Res.ok_bind, shlChecked, hsh, if_true]
      exact h1
    · rw [h2, hor, List.drop_eq_getElem_cons hpl, List.take_succ_cons, leValue, Nat.mul_add, Nat.pow_succ,
        Nat.mul_assoc]
      omega

theorem take_drop_length {α} {mem : List α} {p n : Nat} (hp : p + n ≤ mem.length) : ((mem.drop p).take n).length = n := by
  simp; omega

theorem deserialize_le_eq (n : Nat) (mem : List Byte) (p : Nat) (hp : p + n ≤ mem.length) :
    deserialize_le n mem p = .ok (BitVec.ofNat (8 * n) (leValue ((mem.drop p).take n))) := by
  obtain ⟨r, h1, h2⟩ := deserializeLeLoop_eq (n := n) mem n 0 p 0 (by omega) hp (by simp)
  rw [deserialize_le, h1]
  congr 1
  apply BitVec.eq_of_toNat_eq
  have := leValue_lt ((mem.drop p).take n)
  rw [take_drop_length hp, pow256] at this
  rw [h2, BitVec.toNat_ofNat, Nat.mod_eq_of_lt this]
  simp

theorem beValue_cons (b : Byte) (bs : List Byte) : beValue (b :: bs) = beValue bs + 256 ^ bs.length * b.toNat := by
  have : ∀ (xs : List Byte) (y : Byte), leValue (xs ++ [y]) = leValue xs + 256 ^ xs.length * y.toNat := by
    intro xs y
    induction xs with
    | nil => simp [leValue]
    | cons x xs ih => simp [leValue, ih, Nat.pow_succ']; rw [Nat.mul_add, Nat.mul_assoc]; omega
  simp [beValue, this]

theorem beValue_lt (bs : List Byte) : beValue bs < 256 ^ bs.length := by
  have := leValue_lt bs.reverse
  simpa [beValue] using this

theorem or_shift_byte_hi {n : Nat} (ret : BitVec (8 * n)) (b : Byte) (k : Nat) (hk : k < n) (m : Nat)
    (hr : ret.toNat = 256 ^ (k + 1) * m) :
    (ret ||| (b.setWidth (8 * n)) <<< (8 * k)).toNat = ret.toNat + 256 ^ k * b.toNat := by
  have hb := b.isLt
  have hbn : b.toNat % 2 ^ (8 * n) = b.toNat := by
    apply Nat.mod_eq_of_lt
    exact Nat.lt_of_lt_of_le hb (Nat.pow_le_pow_right (by decide) (by omega))
  have hlt' : b.toNat <<< (8 * k) < 2 ^ (8 * (k + 1)) := by
    rw [Nat.shiftLeft_eq]
    calc b.toNat * 2 ^ (8 * k) < 2 ^ 8 * 2 ^ (8 * k) := (Nat.mul_lt_mul_right (Nat.two_pow_pos _)).2 hb
      _ = 2 ^ (8 * (k + 1)) := by rw [← Nat.pow_add]; congr 1; omega
  have hlt : b.toNat <<< (8 * k) < 2 ^ (8 * n) :=
    Nat.lt_of_lt_of_le hlt' (Nat.pow_le_pow_right (by decide) (by omega))
  simp only [BitVec.toNat_or, BitVec.toNat_shiftLeft, BitVec.toNat_setWidth, hbn, Nat.mod_eq_of_lt hlt]
  have hr' : ret.toNat = m <<< (8 * (k + 1)) := by rw [Nat.shiftLeft_eq, hr, pow256, Nat.mul_comm]
  rw [hr', ← Nat.shiftLeft_add_eq_or_of_lt hlt', Nat.shiftLeft_eq b.toNat, pow256, Nat.mul_comm b.toNat]

theorem deserializeBeLoop_eq (dbg) {n : Nat} (mem : List Byte) (todo p : Nat) (ret : BitVec (8 * n)) (m : Nat)
    (hi : todo ≤ n) (hp : p + todo ≤ mem.length) (hr : ret.toNat = 256 ^ todo * m) :
    ∃ r, deserializeBeLoop dbg mem todo todo p ret = .ok r ∧
      r.toNat = ret.toNat + beValue ((mem.drop p).take todo) := by
  induction todo generalizing p ret m with
  | zero => exact ⟨ret, rfl, by simp [leValue, beValue]⟩
  | succ todo ih =>
    have hsh : 8 * todo < 8 * n := by omega
    have hpl : p < mem.length := by omega
    have hor := or_shift_byte_hi ret mem[p] todo (by omega) m hr
    have hm : (ret ||| (mem[p].setWidth (8 * n)) <<< (8 * todo)).toNat = 256 ^ todo * (256 * m + (mem[p]).toNat) := by
      rw [hor, hr, Nat.pow_succ, Nat.mul_add, Nat.mul_assoc]
    obtain ⟨r, h1, h2⟩ := ih (p + 1) _ _ (by omega) (by omega) hm
    refine ⟨r, ?_, ?_⟩
    · have ha : decide (todo ≤ n) = true := by simp; omega
      simp only [deserializeBeLoop, rd_eq_ok hpl, Res.bind_eq, Res.ok_bind, shlChecked, Nat.add_sub_cancel, hsh,
        if_true, ha, ASSERT_true]
      exact h1
    · rw [h2, hor, List.drop_eq_getElem_cons hpl, List.take_succ_cons, beValue_cons,
        take_drop_length (by omega)]
      omega

theorem deserialize_be_eq (dbg) (n : Nat) (mem : List Byte) (p : Nat) (hp : p + n ≤ mem.length) :
    deserialize_be dbg n mem p = .ok (BitVec.ofNat (8 * n) (beValue ((mem.drop p).take n))) := by
  obtain ⟨r, h1, h2⟩ := deserializeBeLoop_eq dbg (n := n) mem n p 0 0 (by omega) hp (by simp)
  rw [deserialize_be, h1]
  congr 1
  apply BitVec.eq_of_toNat_eq
  have := beValue_lt ((mem.drop p).take n)
  rw [take_drop_length hp, pow256] at this
  rw [h2, BitVec.toNat_ofNat, Nat.mod_eq_of_lt this]
  simp

theorem take_drop_patch {mem p bs} (h : p + bs.length ≤ mem.length) :
    ((patch mem p bs).drop p).take bs.length = bs := by
  have : (mem.take p).length = p := by simp; omega
  simp only [patch, List.append_assoc]
  rw [List.drop_append_of_le_length (by omega), List.drop_of_length_le (by omega)]
  simp

theorem patch_self {mem : List Byte} {p n : Nat} (hp : p + n ≤ mem.length) :
    patch mem p ((mem.drop p).take n) = mem := by
  rw [patch, take_drop_length hp, ← List.drop_drop, List.append_assoc, List.take_append_drop,
    List.take_append_drop]

end Utki
