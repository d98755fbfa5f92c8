import Verif.Lemmas.Serialize
/-!
# Properties of the serialization functions (C01–C04)
-/
namespace Utki
open Spec

/-! ## C01: writing then reading returns the value -/

/-- C01, little-endian: for every width, value, buffer and offset with room. -/
theorem C01_serialize_le_roundtrip (n : Nat) (v : BitVec (8 * n)) (mem : List Byte) (p : Nat)
    (room : p + n ≤ mem.length) :
    ∃ mem' q, serialize_le v mem p = .ok (mem', q) ∧ deserialize_le n mem' p = .ok v := by
  refine ⟨_, _, serialize_le_eq v mem p room, ?_⟩
  have hl : (leBytes n v.toNat).length = n := length_leBytes _ _
  have := take_drop_patch (mem := mem) (p := p) (bs := leBytes n v.toNat) (by omega)
  rw [hl] at this
  rw [deserialize_le_eq _ _ _ (by rw [length_patch (by omega)]; exact room), this, leValue_leBytes, pow256,
    Nat.mod_eq_of_lt v.isLt]
  simp

/-- C01, big-endian. -/
theorem C01_serialize_be_roundtrip (dbg : Bool) (n : Nat) (v : BitVec (8 * n)) (mem : List Byte) (p : Nat)
    (room : p + n ≤ mem.length) :
    ∃ mem' q, serialize_be dbg v mem p = .ok (mem', q) ∧ deserialize_be dbg n mem' p = .ok v := by
  refine ⟨_, _, serialize_be_eq dbg v mem p room, ?_⟩
  have hl : (beBytes n v.toNat).length = n := length_beBytes _ _
  have := take_drop_patch (mem := mem) (p := p) (bs := beBytes n v.toNat) (by omega)
  rw [hl] at this
  rw [deserialize_be_eq _ _ _ _ (by rw [length_patch (by omega)]; exact room), this, beValue, beBytes,
    List.reverse_reverse, leValue_leBytes, pow256, Nat.mod_eq_of_lt v.isLt]
  simp

/-- C01 for the fixed-width wrappers of the API. -/
theorem C01_wrappers_roundtrip (dbg : Bool) (mem : List Byte) (p : Nat) :
    (∀ v, p + 2 ≤ mem.length → ∃ mem' q, serialize16le v mem p = .ok (mem', q) ∧ deserialize16le mem' p = .ok v) ∧
    (∀ v, p + 4 ≤ mem.length → ∃ mem' q, serialize32le v mem p = .ok (mem', q) ∧ deserialize32le mem' p = .ok v) ∧
    (∀ v, p + 8 ≤ mem.length → ∃ mem' q, serialize64le v mem p = .ok (mem', q) ∧ deserialize64le mem' p = .ok v) ∧
    (∀ v, p + 2 ≤ mem.length → ∃ mem' q, serialize16be dbg v mem p = .ok (mem', q) ∧ deserialize16be dbg mem' p = .ok v) ∧
    (∀ v, p + 4 ≤ mem.length → ∃ mem' q, serialize32be dbg v mem p = .ok (mem', q) ∧ deserialize32be dbg mem' p = .ok v) ∧
    (∀ v, p + 8 ≤ mem.length → ∃ mem' q, serialize64be dbg v mem p = .ok (mem', q) ∧ deserialize64be dbg mem' p = .ok v) :=
  ⟨fun v h => C01_serialize_le_roundtrip 2 v mem p h, fun v h => C01_serialize_le_roundtrip 4 v mem p h,
   fun v h => C01_serialize_le_roundtrip 8 v mem p h, fun v h => C01_serialize_be_roundtrip dbg 2 v mem p h,
   fun v h => C01_serialize_be_roundtrip dbg 4 v mem p h, fun v h => C01_serialize_be_roundtrip dbg 8 v mem p h⟩

/-- The hypotheses of C01 are met by a 4-byte value written in the middle of a 7-byte buffer. -/
example : (2 : Nat) + 4 ≤ (List.replicate 7 (0xee : Byte)).length ∧
    serialize32le 0x01020304 (List.replicate 7 0xee) 2 = .ok ([0xee, 0xee, 4, 3, 2, 1, 0xee], 6) ∧
    deserialize32le [0xee, 0xee, 4, 3, 2, 1, 0xee] 2 = .ok 0x01020304 := by decide

/-! ## C02: reading then writing reproduces the bytes -/

/-- C02, little-endian: reading `n` bytes and writing the value back where it was leaves the memory as it was,
and distinct byte strings give distinct values. -/
theorem C02_deserialize_le_roundtrip (n : Nat) (mem : List Byte) (p : Nat) (room : p + n ≤ mem.length) :
    ∃ v, deserialize_le n mem p = .ok v ∧ serialize_le v mem p = .ok (mem, p + n) := by
  refine ⟨_, deserialize_le_eq n mem p room, ?_⟩
  have hl : ((mem.drop p).take n).length = n := take_drop_length room
  have hlt := leValue_lt ((mem.drop p).take n)
  have hb := leBytes_leValue ((mem.drop p).take n)
  rw [hl] at hlt hb
  rw [pow256] at hlt
  rw [serialize_le_eq _ _ _ room, BitVec.toNat_ofNat, Nat.mod_eq_of_lt hlt, hb, patch_self room]

/-- C02, big-endian. -/
theorem C02_deserialize_be_roundtrip (dbg : Bool) (n : Nat) (mem : List Byte) (p : Nat) (room : p + n ≤ mem.length) :
    ∃ v, deserialize_be dbg n mem p = .ok v ∧ serialize_be dbg v mem p = .ok (mem, p + n) := by
  refine ⟨_, deserialize_be_eq dbg n mem p room, ?_⟩
  have hl : ((mem.drop p).take n).length = n := take_drop_length room
  have hlt := leValue_lt ((mem.drop p).take n).reverse
  have hb := leBytes_leValue ((mem.drop p).take n).reverse
  rw [List.length_reverse, hl] at hlt hb
  rw [pow256] at hlt
  rw [serialize_be_eq _ _ _ _ room, BitVec.toNat_ofNat, beValue, Nat.mod_eq_of_lt hlt, beBytes, hb,
    List.reverse_reverse, patch_self room]

/-- C02, injectivity: different byte strings are read as different values, in both byte orders. -/
theorem C02_deserialize_injective (dbg : Bool) (n : Nat) (bs cs : List Byte) (hb : bs.length = n) (hc : cs.length = n) :
    (deserialize_le n bs 0 = deserialize_le n cs 0 → bs = cs) ∧
    (deserialize_be dbg n bs 0 = deserialize_be dbg n cs 0 → bs = cs) := by
  constructor
  · intro h
    obtain ⟨v, h1, h2⟩ := C02_deserialize_le_roundtrip n bs 0 (by omega)
    obtain ⟨w, h3, h4⟩ := C02_deserialize_le_roundtrip n cs 0 (by omega)
    have hvw : v = w := by rw [h1, h3] at h; simpa using h
    subst hvw
    rw [serialize_le_eq _ _ _ (by omega)] at h2 h4
    simp only [Res.ok.injEq, Prod.mk.injEq] at h2 h4
    rw [← h2.1, ← h4.1]
    simp [patch, length_leBytes]
    rw [List.drop_of_length_le (by omega), List.drop_of_length_le (by omega)]
  · intro h
    obtain ⟨v, h1, h2⟩ := C02_deserialize_be_roundtrip dbg n bs 0 (by omega)
    obtain ⟨w, h3, h4⟩ := C02_deserialize_be_roundtrip dbg n cs 0 (by omega)
    have hvw : v = w := by rw [h1, h3] at h; simpa using h
    subst hvw
    rw [serialize_be_eq _ _ _ _ (by omega)] at h2 h4
    simp only [Res.ok.injEq, Prod.mk.injEq] at h2 h4
    rw [← h2.1, ← h4.1]
    simp [patch, length_beBytes]
    rw [List.drop_of_length_le (by omega), List.drop_of_length_le (by omega)]

example : deserialize_be true 2 [9, 0x12, 0x34, 9] 1 = .ok 0x1234 ∧
    serialize_be true (n := 2) 0x1234 [9, 0x12, 0x34, 9] 1 = .ok ([9, 0x12, 0x34, 9], 3) := by decide

/-! ## C03: byte order and footprint -/

/-- C03, little-endian: the returned pointer is `n` further; byte `i` of the value (weight `256^i`) is at `p + i`;
every other byte of the memory, and its size, is unchanged. -/
theorem C03_serialize_le_layout (n : Nat) (v : BitVec (8 * n)) (mem : List Byte) (p : Nat)
    (room : p + n ≤ mem.length) :
    ∃ mem', serialize_le v mem p = .ok (mem', p + n) ∧ mem'.length = mem.length ∧
      (∀ i, i < n → mem'[p + i]? = some (BitVec.ofNat 8 (v.toNat / 256 ^ i))) ∧
      (∀ j, (j < p ∨ p + n ≤ j) → mem'[j]? = mem[j]?) := by
  have hl : (leBytes n v.toNat).length = n := length_leBytes _ _
  refine ⟨_, serialize_le_eq v mem p room, length_patch (by omega), ?_, ?_⟩
  · intro i hi
    rw [getElem_patch (by omega) (by omega)]
    simp [leBytes, hi]
    apply BitVec.eq_of_toNat_eq
    simp
  · intro j hj
    have ht : (mem.take p).length = p := by simp; omega
    simp only [patch, List.append_assoc]
    rcases hj with hj | hj
    · rw [List.getElem?_append_left (by omega), List.getElem?_take_of_lt hj]
    · rw [List.getElem?_append_right (by omega), List.getElem?_append_right (by omega), List.getElem?_drop]
      congr 1; omega

/-- C03, big-endian: byte of weight `256^i` is at `p + (n - 1 - i)`. -/
theorem C03_serialize_be_layout (dbg : Bool) (n : Nat) (v : BitVec (8 * n)) (mem : List Byte) (p : Nat)
    (room : p + n ≤ mem.length) :
    ∃ mem', serialize_be dbg v mem p = .ok (mem', p + n) ∧ mem'.length = mem.length ∧
      (∀ i, i < n → mem'[p + (n - 1 - i)]? = some (BitVec.ofNat 8 (v.toNat / 256 ^ i))) ∧
      (∀ j, (j < p ∨ p + n ≤ j) → mem'[j]? = mem[j]?) := by
  have hl : (beBytes n v.toNat).length = n := length_beBytes _ _
  refine ⟨_, serialize_be_eq dbg v mem p room, length_patch (by omega), ?_, ?_⟩
  · intro i hi
    rw [getElem_patch (by omega) (by omega), beBytes, List.getElem?_reverse (by rw [length_leBytes]; omega)]
    have : n - 1 - (n - 1 - i) = i := by omega
    simp [this, leBytes, hi]
    apply BitVec.eq_of_toNat_eq
    simp
  · intro j hj
    have ht : (mem.take p).length = p := by simp; omega
    simp only [patch, List.append_assoc]
    rcases hj with hj | hj
    · rw [List.getElem?_append_left (by omega), List.getElem?_take_of_lt hj]
    · rw [List.getElem?_append_right (by omega), List.getElem?_append_right (by omega), List.getElem?_drop]
      congr 1; omega

/-- C03, reading: the value read is the base-256 value of the `n` bytes in the named order. -/
theorem C03_deserialize_value (dbg : Bool) (n : Nat) (mem : List Byte) (p : Nat) (room : p + n ≤ mem.length) :
    (∃ v, deserialize_le n mem p = .ok v ∧ v.toNat = leValue ((mem.drop p).take n)) ∧
    (∃ v, deserialize_be dbg n mem p = .ok v ∧ v.toNat = beValue ((mem.drop p).take n)) := by
  have hl : ((mem.drop p).take n).length = n := take_drop_length room
  have h1 := leValue_lt ((mem.drop p).take n)
  have h2 := beValue_lt ((mem.drop p).take n)
  rw [hl, pow256] at h1 h2
  exact ⟨⟨_, deserialize_le_eq n mem p room, by rw [BitVec.toNat_ofNat, Nat.mod_eq_of_lt h1]⟩,
    ⟨_, deserialize_be_eq dbg n mem p room, by rw [BitVec.toNat_ofNat, Nat.mod_eq_of_lt h2]⟩⟩

/-- The room requirement of C03 is needed: without it the write is out of bounds (undefined behaviour). -/
theorem C03_no_room_is_ub (n : Nat) (v : BitVec (8 * n)) (mem : List Byte) (p : Nat)
    (hn : 0 < n) (noroom : mem.length < p + n) : serialize_le v mem p = .ub .oob_write := by
  have : ∀ (todo index p : Nat) (mem : List Byte), index + todo ≤ n → 0 < todo → mem.length < p + todo →
      serializeLeLoop v todo index p mem = .ub .oob_write := by
    intro todo
    induction todo with
    | zero => intro _ _ _ _ h; omega
    | succ todo ih =>
      intro index p mem hi _ hlen
      have hsh : 8 * index < 8 * n := by omega
      simp only [serializeLeLoop, shrChecked, hsh, if_true, Res.bind_eq, Res.ok_bind]
      by_cases hp : p < mem.length
      · rw [wr_eq_ok hp, Res.ok_bind, ih _ _ _ (by omega) (by omega) (by simp; omega)]
      · simp [wr, hp]
  exact this n 0 p mem (by omega) hn noroom

/-- C03 for the fixed-width wrappers: they are exactly the generic functions at 2, 4 and 8 bytes, so they put
the little- or big-endian bytes of the value at the pointer, return the pointer past them and touch nothing else. -/
theorem C03_wrappers_layout (dbg : Bool) (mem : List Byte) (p : Nat) :
    (∀ v : BitVec 16, p + 2 ≤ mem.length → serialize16le v mem p = .ok (patch mem p (leBytes 2 v.toNat), p + 2) ∧
        serialize16be dbg v mem p = .ok (patch mem p (beBytes 2 v.toNat), p + 2)) ∧
    (∀ v : BitVec 32, p + 4 ≤ mem.length → serialize32le v mem p = .ok (patch mem p (leBytes 4 v.toNat), p + 4) ∧
        serialize32be dbg v mem p = .ok (patch mem p (beBytes 4 v.toNat), p + 4)) ∧
    (∀ v : BitVec 64, p + 8 ≤ mem.length → serialize64le v mem p = .ok (patch mem p (leBytes 8 v.toNat), p + 8) ∧
        serialize64be dbg v mem p = .ok (patch mem p (beBytes 8 v.toNat), p + 8)) :=
  ⟨fun v h => ⟨serialize_le_eq (n := 2) v mem p h, serialize_be_eq dbg (n := 2) v mem p h⟩,
   fun v h => ⟨serialize_le_eq (n := 4) v mem p h, serialize_be_eq dbg (n := 4) v mem p h⟩,
   fun v h => ⟨serialize_le_eq (n := 8) v mem p h, serialize_be_eq dbg (n := 8) v mem p h⟩⟩

example : serialize64be true 0x0102030405060708 (List.replicate 9 0) 1 = .ok ([0, 1, 2, 3, 4, 5, 6, 7, 8], 9) := by
  decide

/-! ## C04: floats -/

/-- C04: the bits written are read back unchanged, whatever they are (NaN payloads included), in both byte orders. -/
theorem C04_float_roundtrip (dbg : Bool) (f : CFloat) (mem : List Byte) (p : Nat) (room : p + 4 ≤ mem.length) :
    (∃ mem' q, serialize_float_le f mem p = .ok (mem', q) ∧ deserialize_float_le mem' p = .ok f) ∧
    (∃ mem' q, serialize_float_be dbg f mem p = .ok (mem', q) ∧ deserialize_float_be dbg mem' p = .ok f) := by
  obtain ⟨_, h1, _, _, h2, _⟩ := C01_wrappers_roundtrip dbg mem p
  constructor
  · obtain ⟨m, q, ha, hb⟩ := h1 f.bits room
    exact ⟨m, q, ha, by simp [deserialize_float_le, hb]⟩
  · obtain ⟨m, q, ha, hb⟩ := h2 f.bits room
    exact ⟨m, q, ha, by simp [deserialize_float_be, hb]⟩

/-- C04: the bytes are those of the 32-bit representation in the named order, and reading takes any four bytes as bits. -/
theorem C04_float_layout (dbg : Bool) (f : CFloat) (mem : List Byte) (p : Nat) (room : p + 4 ≤ mem.length) :
    serialize_float_le f mem p = .ok (patch mem p (leBytes 4 f.bits.toNat), p + 4) ∧
    serialize_float_be dbg f mem p = .ok (patch mem p (beBytes 4 f.bits.toNat), p + 4) ∧
    (∃ g, deserialize_float_le mem p = .ok g ∧ g.bits.toNat = leValue ((mem.drop p).take 4)) ∧
    (∃ g, deserialize_float_be dbg mem p = .ok g ∧ g.bits.toNat = beValue ((mem.drop p).take 4)) := by
  obtain ⟨_, h, _⟩ := C03_wrappers_layout dbg mem p
  obtain ⟨⟨v, hv, hv'⟩, ⟨w, hw, hw'⟩⟩ := C03_deserialize_value dbg 4 mem p room
  refine ⟨(h f.bits room).1, (h f.bits room).2, ⟨⟨v⟩, ?_, hv'⟩, ⟨⟨w⟩, ?_, hw'⟩⟩
  · simp [deserialize_float_le, deserialize32le, hv]
  · simp [deserialize_float_be, deserialize32be, hw]

/-- A signalling NaN with a payload, written at offset 1. -/
example : serialize_float_le ⟨0x7fa00001⟩ [0, 0, 0, 0, 0] 1 = .ok ([0, 1, 0, 0xa0, 0x7f], 5) ∧
    deserialize_float_le [0, 1, 0, 0xa0, 0x7f] 1 = .ok ⟨0x7fa00001⟩ := by decide

end Utki
