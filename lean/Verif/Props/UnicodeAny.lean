import Verif.Spec.Utf8Any
import Verif.Props.Unicode
/-!
# C117: UTF-8 decoding of arbitrary bytes
-/
namespace Utki
open Spec.Utf8

theorem seqLen_eq_announced (b : Byte) : seqLen b = announced b.toNat := by
  unfold seqLen announced
  have := b.isLt
  repeat' split
  all_goals omega

theorem announced_bounds {b : Nat} (h : 128 ≤ b) : 2 ≤ announced b ∧ announced b ≤ 8 := by
  unfold announced
  repeat' split
  all_goals omega

/-- The bits of the first byte at their place, as a number. -/
theorem leadBits_toNat {b : Byte} (hb : 128 ≤ b.toNat) (h6 : seqLen b < 7) :
    (leadBits b).toNat = b.toNat % 2 ^ (7 - seqLen b) * 64 ^ (seqLen b - 1) := by
  have : ∀ b : Fin 256, 128 ≤ b.val → seqLen (BitVec.ofNat 8 b.val) < 7 →
      (leadBits (BitVec.ofNat 8 b.val)).toNat = b.val % 2 ^ (7 - seqLen (BitVec.ofNat 8 b.val)) * 64 ^ (seqLen (BitVec.ofNat 8 b.val) - 1) := by
    decide +kernel
  have := this ⟨b.toNat, b.isLt⟩ hb (by simpa using h6)
  simpa using this

theorem number_fold (xs : List Byte) (v : Nat) :
    xs.foldl (fun v x => v * 64 + x.toNat % 64) v = v * 64 ^ xs.length + xs.foldl (fun v x => v * 64 + x.toNat % 64) 0 := by
  induction xs generalizing v with
  | nil => simp
  | cons x xs ih =>
    simp only [List.foldl_cons, List.length_cons]
    rw [ih, ih (0 * 64 + x.toNat % 64), Nat.pow_succ]
    grind

theorem number_fold_lt (xs : List Byte) : xs.foldl (fun v x => v * 64 + x.toNat % 64) 0 < 64 ^ xs.length := by
  induction xs with
  | nil => simp
  | cons x xs ih =>
    simp only [List.foldl_cons, List.length_cons]
    rw [number_fold, Nat.pow_succ]
    have h1 : x.toNat % 64 < 64 := Nat.mod_lt _ (by decide)
    have h2 : (0 * 64 + x.toNat % 64) * 64 ^ xs.length ≤ 63 * 64 ^ xs.length := Nat.mul_le_mul_right _ (by omega)
    omega

theorem contFold_toNat (xs : List Byte) : ∀ c : BitVec 32, c.toNat * 64 ^ xs.length + 64 ^ xs.length ≤ 2 ^ 32 →
    (contFold c xs).toNat = c.toNat * 64 ^ xs.length + xs.foldl (fun v x => v * 64 + x.toNat % 64) 0 := by
  induction xs with
  | nil => intro c _; simp [contFold]
  | cons x xs ih =>
    intro c h
    rw [List.length_cons, Nat.pow_succ] at h
    have hk : 0 < 64 ^ xs.length := Nat.pow_pos (by decide)
    have hc : c.toNat < 2 ^ 26 := by
      have : 64 ≤ 64 ^ xs.length * 64 := Nat.le_mul_of_pos_left _ hk
      have : c.toNat * 64 ≤ c.toNat * (64 ^ xs.length * 64) := Nat.mul_le_mul_left _ this
      omega
    have hs := cont_step (x := x) hc
    have hd : x.toNat % 64 < 64 := Nat.mod_lt _ (by decide)
    show (contFold _ xs).toNat = _
    rw [ih _ (by
      rw [hs]
      have : (c.toNat * 64 + x.toNat % 64) * 64 ^ xs.length + 64 ^ xs.length ≤ (c.toNat * 64 + 63) * 64 ^ xs.length + 64 ^ xs.length := by
        apply Nat.add_le_add_right
        apply Nat.mul_le_mul_right; omega
      have e : (c.toNat * 64 + 63) * 64 ^ xs.length + 64 ^ xs.length = c.toNat * (64 ^ xs.length * 64) + 64 ^ xs.length * 64 := by grind
      omega)]
    rw [hs, List.foldl_cons, number_fold xs (0 * 64 + x.toNat % 64), List.length_cons, Nat.pow_succ]
    grind

/-- The character that is made of a sequence is its number. -/
theorem char_toNat {b : Byte} (hb : 128 ≤ b.toNat) (h6 : seqLen b < 7) (xs : List Byte) (hx : xs.length = seqLen b - 1) :
    (contFold 0 xs ||| leadBits b).toNat = number b.toNat xs := by
  have hs := seqLen_bounds hb
  have h5 : xs.length ≤ 5 := by omega
  have h64 : 64 ^ xs.length ≤ 2 ^ 32 := Nat.le_trans (Nat.pow_le_pow_right (by decide) h5) (by decide)
  have h1 := contFold_toNat xs 0 (by simpa using h64)
  have h2 := number_fold_lt xs
  rw [BitVec.toNat_or, h1, leadBits_toNat hb h6, number, if_neg (by omega), ← seqLen_eq_announced, number_fold xs (b.toNat % _), ← hx]
  rw [show (0 : BitVec 32).toNat = 0 from rfl, Nat.zero_mul, Nat.zero_add, Nat.or_comm]
  have h3 : (64 : Nat) ^ xs.length = 2 ^ (6 * xs.length) := by rw [Nat.pow_mul]
  rw [h3] at h2 ⊢
  rw [← Nat.shiftLeft_eq, ← Nat.shiftLeft_add_eq_or_of_lt h2]

theorem number_lt {b : Nat} (hb : b < 256) (xs : List Byte) (hx : xs.length + 1 = announced b) (h6 : announced b ≤ 6) : number b xs < 2 ^ 31 := by
  unfold number
  rw [number_fold]
  have h2 := number_fold_lt xs
  by_cases h : b < 128
  · have : announced b = 1 := by unfold announced; rw [if_pos h]
    have hl : xs.length = 0 := by omega
    rw [hl] at h2
    rw [if_pos h, hl]
    simp only [Nat.pow_zero] at h2 ⊢
    omega
  · rw [if_neg h]
    have ha := announced_bounds (show 128 ≤ b by omega)
    generalize hn : announced b = n at *
    have hl : xs.length = n - 1 := by omega
    rw [hl] at h2 ⊢
    have hm : b % 2 ^ (7 - n) < 2 ^ (7 - n) := Nat.mod_lt _ (Nat.pow_pos (by decide))
    have : n = 2 ∨ n = 3 ∨ n = 4 ∨ n = 5 ∨ n = 6 := by omega
    rcases this with rfl | rfl | rfl | rfl | rfl <;> simp only [Nat.reduceSub, Nat.reducePow] at hm h2 ⊢ <;> omega

/-- What `++` does over a span, in terms of the bytes that are left. -/
theorem inc_any {it : Utf8Iter} {s : Span Byte} (hv : s.Valid) (h : it.InSpan s) :
    (s.contents.drop (it.p - s.off) = [] → it.inc = .ok { it with c := 0, p := it.p }) ∧
    ∀ b rest, s.contents.drop (it.p - s.off) = b :: rest →
      (rest.length + 1 < announced b.toNat → it.inc = .ok { it with c := 0, p := s.off + s.size }) ∧
      (announced b.toNat ≤ rest.length + 1 → 7 ≤ announced b.toNat → it.inc = .ub .bad_shift) ∧
      (announced b.toNat ≤ rest.length + 1 → announced b.toNat < 7 → ∃ c, c.toNat = number b.toNat (rest.take (announced b.toNat - 1)) ∧
        it.inc = .ok { it with c := c, p := it.p + announced b.toNat } ∧ ({ it with c := c, p := it.p + announced b.toNat } : Utf8Iter).InSpan s) := by
  have hl := Span.length_contents hv
  obtain ⟨r, ho, hr⟩ := Utf8Iter.inc_outcome hv h
  obtain ⟨hm, he, h1, h2⟩ := h
  constructor
  · intro h0
    have : s.contents.length ≤ it.p - s.off := List.drop_eq_nil_iff.mp h0
    have hp : it.p - s.off = s.contents.length := by omega
    have hu := ho.unique (.atEnd hp)
    rw [hr, hu]
    simp
    omega
  · intro b rest hbr
    have hb : s.contents[it.p - s.off]? = some b := by
      have := congrArg List.head? hbr
      simpa [List.head?_drop] using this
    have hlen : rest.length + 1 = s.size - (it.p - s.off) := by
      have := congrArg List.length hbr
      rw [List.length_drop, List.length_cons, hl] at this
      omega
    have hpos : it.p - s.off < s.size := by omega
    have hrest : rest = s.contents.drop (it.p - s.off + 1) := by
      rw [← List.tail_drop, hbr]; rfl
    rw [← seqLen_eq_announced]
    refine ⟨fun ht => ?_, fun ht h7 => ?_, fun ht h7 => ?_⟩
    · have hb128 : 128 ≤ b.toNat := by
        refine Nat.le_of_not_lt fun hlt => ?_
        have : seqLen b = 1 := by unfold seqLen; rw [if_pos hlt]
        omega
      have hu := ho.unique (.trunc b hb hb128 (by omega))
      rw [hr, hu]
      simp [hl]
    · have hb128 : 128 ≤ b.toNat := by
        refine Nat.le_of_not_lt fun hlt => ?_
        have : seqLen b = 1 := by unfold seqLen; rw [if_pos hlt]
        omega
      have hu := ho.unique (.wide b hb hb128 (by omega) h7)
      rw [hr, hu]
      rfl
    · by_cases hlt : b.toNat < 128
      · have h1' : seqLen b = 1 := by unfold seqLen; rw [if_pos hlt]
        have hu := ho.unique (.ascii b hb hlt)
        refine ⟨b.setWidth 32, ?_, ?_, hm, he, by simp only; omega, by simp only; omega⟩
        · rw [h1', BitVec.toNat_setWidth]
          simp only [Nat.sub_self, List.take_zero, number, List.foldl_nil, if_pos hlt]
          omega
        · rw [hr, hu, h1']
          simp
          omega
      · have hu := ho.unique (.multi b hb (by omega) (by omega) h7)
        refine ⟨contFold 0 (rest.take (seqLen b - 1)) ||| leadBits b, char_toNat (by omega) h7 _ (by rw [List.length_take]; omega), ?_, hm, he,
          by simp only; omega, by simp only; omega⟩
        rw [hr, hu, hrest]
        simp only [Res.ok_bind]
        congr 2
        omega

/-- The result of decoding a span. -/
def spanResult (buf : List (BitVec 32)) (r : List Nat × Finish) : Res (List (BitVec 32)) :=
  if r.2 = .tooLong then .ub .bad_shift else .ok (buf ++ r.1.map (BitVec.ofNat 32))

theorem decodeFrom_any {s : Span Byte} (hv : s.Valid) : ∀ (n fuel : Nat) (it : Utf8Iter) (buf : List (BitVec 32)), it.InSpan s →
    s.off + s.size - it.p ≤ n → n + 1 < fuel → decodeFrom fuel it buf = spanResult buf (decodeAny (s.contents.drop (it.p - s.off))) := by
  have hl := Span.length_contents hv
  intro n
  induction n with
  | zero =>
    intro fuel it buf hin hn hf
    have h0 : s.contents.drop (it.p - s.off) = [] := List.drop_eq_nil_iff.mpr (by have := hin.2.2.1; have := hin.2.2.2; omega)
    obtain ⟨fuel, rfl⟩ : ∃ k, fuel = k + 1 := ⟨fuel - 1, by omega⟩
    rw [h0, decodeFrom, (inc_any hv hin).1 h0]
    simp [decodeAny, spanResult, toUtf32Loop, Utf8Iter.is_end]
  | succ n ih =>
    intro fuel it buf hin hn hf
    obtain ⟨fuel, rfl⟩ : ∃ k, fuel = k + 1 := ⟨fuel - 1, by omega⟩
    cases hd : s.contents.drop (it.p - s.off) with
    | nil =>
      rw [decodeFrom, (inc_any hv hin).1 hd]
      simp [decodeAny, spanResult, toUtf32Loop, Utf8Iter.is_end]
    | cons b rest =>
      obtain ⟨h1, h2, h3⟩ := (inc_any hv hin).2 b rest hd
      rw [decodeAny]
      by_cases ht : rest.length + 1 < announced b.toNat
      · rw [if_pos ht, decodeFrom, h1 ht]
        simp [spanResult, toUtf32Loop, Utf8Iter.is_end]
      · rw [if_neg ht]
        by_cases h7 : 7 ≤ announced b.toNat
        · rw [if_pos h7, decodeFrom, h2 (by omega) h7]
          simp [spanResult]
        · rw [if_neg h7]
          obtain ⟨c, hc, hi, hin'⟩ := h3 (by omega) (by omega)
          rw [decodeFrom, hi]
          simp only [Res.bind_eq, Res.ok_bind]
          by_cases hz : number b.toNat (rest.take (announced b.toNat - 1)) = 0
          · rw [if_pos hz]
            have : c = 0 := BitVec.eq_of_toNat_eq (by rw [hc, hz]; rfl)
            simp [spanResult, toUtf32Loop, Utf8Iter.is_end, this]
          · rw [if_neg hz]
            have hc0 : c ≠ 0 := by rintro rfl; exact hz (by rw [← hc]; rfl)
            have hpos : 1 ≤ announced b.toNat := by rw [← seqLen_eq_announced]; exact seqLen_pos b
            have hlen : rest.length + 1 = s.size - (it.p - s.off) := by
              have := congrArg List.length hd
              rw [List.length_drop, List.length_cons, hl] at this
              omega
            have hle : s.off + s.size - (it.p + announced b.toNat) ≤ n := by have := hin.2.2.1; omega
            have := ih fuel _ (buf ++ [c]) hin' hle (by omega)
            have hd' : s.contents.drop (it.p + announced b.toNat - s.off) = rest.drop (announced b.toNat - 1) := by
              have hr : rest = s.contents.drop (it.p - s.off + 1) := by rw [← List.tail_drop, hd]; rfl
              rw [hr, List.drop_drop]
              congr 1
              have := hin.2.2.1
              omega
            simp only [hd'] at this
            rw [toUtf32Loop, if_neg (by simpa [Utf8Iter.is_end] using hc0)]
            refine Eq.trans this ?_
            have hcn : BitVec.ofNat 32 (number b.toNat (rest.take (announced b.toNat - 1))) = c := by rw [← hc]; simp
            simp only [spanResult, List.map_cons, hcn, List.append_assoc, List.cons_append, List.nil_append]

/-- **C117.** What `to_utf32` makes of any bytes: the numbers of the sequences that they are taken for, up to the first one that is not complete or has the number 0; a
sequence of 7 or 8 bytes is undefined behaviour. -/
theorem C117_any_bytes (s : Span Byte) (hv : s.Valid) : to_utf32_span s =
    if (decodeAny s.contents).2 = .tooLong then .ub .bad_shift else .ok ((decodeAny s.contents).1.map (BitVec.ofNat 32)) := by
  have hv' : s.off + s.size ≤ s.mem.length := hv
  rw [to_utf32_span_eq, decodeFrom_any hv (s.size) (s.mem.length + 2) _ [] ofSpan_start (by simp) (by omega)]
  simp [spanResult]

/-- Stray continuation bytes, wrong continuation bytes and surrogates are not rejected; a truncated sequence ends the text. -/
example : to_utf32_span ⟨[0x41, 0x93, 0x42, 0xE2, 0x28, 0xA1, 0xED, 0xA0, 0x80, 0xF0, 0x9F], 0, 11⟩ = .ok [0x41, 0x4C2, 0x2A21, 0xD800] ∧
    to_utf32_span ⟨[0x41, 0xFE, 1, 2, 3, 4, 5, 6, 0x42], 0, 9⟩ = .ub .bad_shift ∧ to_utf32_span ⟨[0x41, 0xFE, 1, 2, 3, 4, 5], 0, 7⟩ = .ok [0x41] := by
  decide +kernel

/-! ## NUL-terminated strings -/

theorem incLoop_past (it : Utf8Iter) (b : Byte) (hb : 128 ≤ b.toNat) (he : it.end = none) : ∀ (k fuel i : Nat) (c : BitVec 32) (p : Nat),
    i + k = seqLen b → 2 ≤ i → k < fuel → it.mem.length < p + k → p ≤ it.mem.length →
    Utf8Iter.incLoop it b fuel i c p = .ub .oob_read := by
  have hN := seqLen_bounds hb
  intro k
  induction k with
  | zero => intro fuel i c p _ _ _ h1 h2; omega
  | succ k ih =>
    intro fuel i c p hi h2 hf hpe hek
    obtain ⟨fuel, rfl⟩ : ∃ f, fuel = f + 1 := ⟨fuel - 1, by omega⟩
    unfold Utf8Iter.incLoop
    rw [if_pos (by rw [bit_test hb h2 (by omega) (by omega)]; omega), if_neg (by simp [Utf8Iter.atEnd, he])]
    by_cases hp : p < it.mem.length
    · simp only [rd_eq_ok hp, Res.bind_eq, Res.ok_bind]
      exact ih fuel (i + 1) _ (p + 1) (by omega) (by omega) (by omega) (by omega) (by omega)
    · simp [rd, List.getElem?_eq_none (show it.mem.length ≤ p by omega)]

/-- What `++` does over a NUL-terminated string, in terms of the bytes up to the end of the object. -/
theorem inc_any_cstr {it : Utf8Iter} (he : it.end = none) :
    (it.mem.drop it.p = [] → it.inc = .ub .oob_read) ∧
    ∀ b rest, it.mem.drop it.p = b :: rest →
      (rest.length + 1 < announced b.toNat → it.inc = .ub .oob_read) ∧
      (announced b.toNat ≤ rest.length + 1 → 7 ≤ announced b.toNat → it.inc = .ub .bad_shift) ∧
      (announced b.toNat ≤ rest.length + 1 → announced b.toNat < 7 → ∃ c, c.toNat = number b.toNat (rest.take (announced b.toNat - 1)) ∧
        it.inc = .ok { it with c := c, p := it.p + announced b.toNat }) := by
  have hend : ∀ q, it.atEnd q = false := by intro q; simp [Utf8Iter.atEnd, he]
  constructor
  · intro h0
    have : it.mem.length ≤ it.p := List.drop_eq_nil_iff.mp h0
    unfold Utf8Iter.inc
    simp [hend, rd, List.getElem?_eq_none this]
  · intro b rest hbr
    have hb : it.mem[it.p]? = some b := by
      have := congrArg List.head? hbr
      simpa [List.head?_drop] using this
    have hlen : it.p + (rest.length + 1) = it.mem.length := by
      have := congrArg List.length hbr
      rw [List.length_drop, List.length_cons] at this
      omega
    have hrest : rest = it.mem.drop (it.p + 1) := by
      rw [← List.tail_drop, hbr]; rfl
    rw [← seqLen_eq_announced]
    refine ⟨fun ht => ?_, fun ht h7 => ?_, fun ht h7 => ?_⟩
    · have hb128 : 128 ≤ b.toNat := by
        refine Nat.le_of_not_lt fun hlt => ?_
        have : seqLen b = 1 := by unfold seqLen; rw [if_pos hlt]
        omega
      have hN := seqLen_bounds hb128
      unfold Utf8Iter.inc
      have hr : rd it.mem it.p = .ok b := by simp [rd, hb]
      simp only [hend, Bool.false_eq_true, if_false, hr, Res.bind_eq, Res.ok_bind, Res.pure_eq]
      rw [if_neg (by rw [high_test]; omega)]
      by_cases h1 : it.p + 1 < it.mem.length
      · simp only [rd_eq_ok h1, Res.ok_bind]
        exact incLoop_past it b hb128 he (seqLen b - 2) 8 2 _ (it.p + 1 + 1) (by omega) (by omega) (by omega) (by omega) (by omega)
      · simp [rd, List.getElem?_eq_none (show it.mem.length ≤ it.p + 1 by omega)]
    · have hb128 : 128 ≤ b.toNat := by
        refine Nat.le_of_not_lt fun hlt => ?_
        have : seqLen b = 1 := by unfold seqLen; rw [if_pos hlt]
        omega
      rw [Utf8Iter.inc_full it b hb (by omega) (fun q _ _ => hend q), if_neg (by omega), if_pos h7]
    · rw [Utf8Iter.inc_full it b hb (by omega) (fun q _ _ => hend q)]
      by_cases hlt : b.toNat < 128
      · have h1' : seqLen b = 1 := by unfold seqLen; rw [if_pos hlt]
        refine ⟨b.setWidth 32, ?_, by rw [if_pos hlt, h1']⟩
        rw [h1', BitVec.toNat_setWidth]
        simp only [Nat.sub_self, List.take_zero, number, List.foldl_nil, if_pos hlt]
        omega
      · exact ⟨contFold 0 (rest.take (seqLen b - 1)) ||| leadBits b, char_toNat (by omega) h7 _ (by rw [List.length_take]; omega),
          by rw [if_neg hlt, if_neg (by omega), hrest]⟩

/-- The result of decoding a NUL-terminated string. -/
def cstrResult (buf : List (BitVec 32)) (r : List Nat × Finish) : Res (List (BitVec 32)) :=
  match r.2 with
  | .zero => .ok (buf ++ r.1.map (BitVec.ofNat 32))
  | .tooLong => .ub .bad_shift
  | .done => .ub .oob_read
  | .truncated => .ub .oob_read

theorem decodeFrom_any_cstr : ∀ (n fuel : Nat) (it : Utf8Iter) (buf : List (BitVec 32)), it.end = none →
    it.mem.length - it.p ≤ n → n + 1 < fuel → decodeFrom fuel it buf = cstrResult buf (decodeAny (it.mem.drop it.p)) := by
  intro n
  induction n with
  | zero =>
    intro fuel it buf he hn hf
    have h0 : it.mem.drop it.p = [] := List.drop_eq_nil_iff.mpr (by omega)
    rw [h0, decodeFrom, (inc_any_cstr he).1 h0]
    simp [decodeAny, cstrResult]
  | succ n ih =>
    intro fuel it buf he hn hf
    obtain ⟨fuel, rfl⟩ : ∃ k, fuel = k + 1 := ⟨fuel - 1, by omega⟩
    cases hd : it.mem.drop it.p with
    | nil =>
      rw [decodeFrom, (inc_any_cstr he).1 hd]
      simp [decodeAny, cstrResult]
    | cons b rest =>
      obtain ⟨h1, h2, h3⟩ := (inc_any_cstr he).2 b rest hd
      rw [decodeAny]
      by_cases ht : rest.length + 1 < announced b.toNat
      · rw [if_pos ht, decodeFrom, h1 ht]
        simp [cstrResult]
      · rw [if_neg ht]
        by_cases h7 : 7 ≤ announced b.toNat
        · rw [if_pos h7, decodeFrom, h2 (by omega) h7]
          simp [cstrResult]
        · rw [if_neg h7]
          obtain ⟨c, hc, hi⟩ := h3 (by omega) (by omega)
          clear h1 h2 h3
          rw [decodeFrom, hi]
          simp only [Res.bind_eq, Res.ok_bind]
          by_cases hz : number b.toNat (rest.take (announced b.toNat - 1)) = 0
          · rw [if_pos hz]
            have : c = 0 := BitVec.eq_of_toNat_eq (by rw [hc, hz]; rfl)
            simp [cstrResult, toUtf32Loop, Utf8Iter.is_end, this]
          · rw [if_neg hz]
            have hc0 : c ≠ 0 := by rintro rfl; exact hz (by rw [← hc]; rfl)
            have hpos : 1 ≤ announced b.toNat := by rw [← seqLen_eq_announced]; exact seqLen_pos b
            have hlen : it.p + (rest.length + 1) = it.mem.length := by
              have := congrArg List.length hd
              rw [List.length_drop, List.length_cons] at this
              omega
            have hle : it.mem.length - (it.p + announced b.toNat) ≤ n := by omega
            have := ih fuel { it with c := c, p := it.p + announced b.toNat } (buf ++ [c]) he hle (by omega)
            have hd' : it.mem.drop (it.p + announced b.toNat) = rest.drop (announced b.toNat - 1) := by
              have hr : rest = it.mem.drop (it.p + 1) := by rw [← List.tail_drop, hd]; rfl
              rw [hr, List.drop_drop]
              congr 1
              rw [Nat.add_assoc, Nat.add_sub_cancel' hpos]
            simp only [hd'] at this
            rw [toUtf32Loop, if_neg (by simpa [Utf8Iter.is_end] using hc0)]
            refine Eq.trans this ?_
            have hcn : BitVec.ofNat 32 (number b.toNat (rest.take (announced b.toNat - 1))) = c := by rw [← hc]; simp
            simp only [cstrResult, List.map_cons, hcn, List.append_assoc, List.cons_append, List.nil_append]

/-- **C117, NUL-terminated strings.** `mem` is the object that the string is in. Decoding ends at the first sequence with the number 0. If there is none, or a sequence is
not complete within the object, bytes after the object are read; a sequence of 7 or 8 bytes is undefined behaviour, too. -/
theorem C117_any_bytes_cstr (mem : List Byte) (p : Nat) : to_utf32_cstr mem p =
    match (decodeAny (mem.drop p)).2 with
    | .zero => .ok ((decodeAny (mem.drop p)).1.map (BitVec.ofNat 32))
    | .tooLong => .ub .bad_shift
    | .done => .ub .oob_read
    | .truncated => .ub .oob_read := by
  rw [to_utf32_cstr_eq, decodeFrom_any_cstr mem.length (mem.length + 2) _ [] rfl (by simp) (by omega)]
  simp [cstrResult]

/-- A first byte just before the terminator takes the terminator for its second byte. For the bytes with five zero bits the number is 0, and decoding ends there. -/
example : to_utf32_cstr [0x41, 0xC3, 0, 0x42, 0] 0 = .ok [0x41, 0xC0, 0x42] ∧ to_utf32_cstr [0x41, 0xC3, 0] 0 = .ub .oob_read ∧
    to_utf32_cstr [0x41, 0xC0, 0] 0 = .ok [0x41] ∧ to_utf32_cstr [0x41, 0x93, 0x42, 0] 0 = .ok [0x41, 0x4C2] := by
  decide +kernel

/-! ## Consequences -/

theorem decodeAny_sequence {q : List Byte} (h : Sequence q) (rest : List Byte) :
    decodeAny (q ++ rest) = (sequenceNumber q :: (decodeAny rest).1, (decodeAny rest).2) := by
  obtain ⟨b, xs, rfl, hl, h6, h0⟩ := h
  rw [List.length_cons] at hl h6
  rw [List.cons_append, decodeAny]
  have ht : (xs ++ rest).take (announced b.toNat - 1) = xs := by rw [hl]; simp
  have hd : (xs ++ rest).drop (announced b.toNat - 1) = rest := by rw [hl]; simp
  rw [if_neg (by rw [List.length_append]; omega), if_neg (by omega), ht, hd, if_neg h0]
  rfl

theorem decodeAny_sequences (qs : List (List Byte)) (h : ∀ q ∈ qs, Sequence q) (rest : List Byte) :
    decodeAny (qs.flatten ++ rest) = (qs.map sequenceNumber ++ (decodeAny rest).1, (decodeAny rest).2) := by
  induction qs with
  | nil => simp
  | cons q qs ih =>
    rw [List.flatten_cons, List.append_assoc, decodeAny_sequence (h q (by simp)), ih (fun q hq => h q (by simp [hq]))]
    simp

theorem decodeAny_bounds (bytes : List Byte) : ∀ v ∈ (decodeAny bytes).1, v ≠ 0 ∧ v < 2 ^ 31 := by
  induction hn : bytes.length using Nat.strongRecOn generalizing bytes with
  | ind n ih =>
    subst hn
    cases bytes with
    | nil => simp [decodeAny]
    | cons b rest =>
      rw [decodeAny]
      split
      · simp
      · split
        · simp
        · split
          · simp
          · next ht h7 hz =>
            intro v hv
            rcases List.mem_cons.mp hv with rfl | hv
            · have hpos : 1 ≤ announced b.toNat := by rw [← seqLen_eq_announced]; exact seqLen_pos b
              exact ⟨hz, number_lt b.isLt _ (by rw [List.length_take]; omega) (by omega)⟩
            · exact ih _ (by rw [List.length_drop, List.length_cons]; omega) _ rfl v hv

/-- **C117.** The characters are never 0 and never larger than 0x7fffffff, whatever the bytes. -/
theorem C117_characters (s : Span Byte) (hv : s.Valid) (l : List (BitVec 32)) (h : to_utf32_span s = .ok l) : ∀ c ∈ l, c ≠ 0 ∧ c ≤ 0x7fffffff#32 := by
  rw [C117_any_bytes s hv] at h
  split at h
  · cases h
  · cases h
    intro c hc
    obtain ⟨v, hv, rfl⟩ := List.mem_map.mp hc
    obtain ⟨h0, h1⟩ := decodeAny_bounds _ v hv
    have hm : (BitVec.ofNat 32 v).toNat = v := by rw [BitVec.toNat_ofNat]; omega
    constructor
    · intro h; rw [h] at hm; exact h0 hm.symm
    · rw [BitVec.le_def, hm]
      have : (0x7fffffff#32).toNat = 2 ^ 31 - 1 := rfl
      omega

/-- **C117.** A sequence that is complete but malformed spoils nothing that comes after it: well-formed text is decoded to its characters, up to its end. -/
theorem C117_after_sequences (qs : List (List Byte)) (h : ∀ q ∈ qs, Sequence q) (text : List (BitVec 32)) (ht : ∀ c ∈ text, c ≠ 0 ∧ c ≤ 0x7fffffff#32) :
    to_utf32_span ⟨qs.flatten ++ encodeAll text, 0, (qs.flatten ++ encodeAll text).length⟩
      = .ok (qs.map (fun q => BitVec.ofNat 32 (sequenceNumber q)) ++ text) := by
  have e : ∀ l : List Byte, (⟨l, 0, l.length⟩ : Span Byte).contents = l := by intro l; simp [Span.contents]
  have v : ∀ l : List Byte, (⟨l, 0, l.length⟩ : Span Byte).Valid := by intro l; simp [Span.Valid]
  have h1 := C14_decode_text text [] [] ht
  simp only [List.nil_append, List.append_nil, List.length_nil] at h1
  rw [C117_any_bytes _ (v _), e] at h1
  rw [C117_any_bytes _ (v _), e, decodeAny_sequences qs h]
  split at h1
  · cases h1
  · next hf =>
    rw [if_neg hf]
    simp only [Res.ok.injEq] at h1
    simp only [List.map_append, List.map_map, h1]
    rfl

/-- A stray continuation byte with the letter after it, and an overlong form. -/
example : (∀ q ∈ ([[0x93, 0x42], [0xC0, 0xAF]] : List (List Byte)), Sequence q) ∧ ([[0x93, 0x42], [0xC0, 0xAF]] : List (List Byte)).map sequenceNumber = [0x4C2, 0x2F] ∧
    (∀ c ∈ ([0x43, 0x20AC] : List (BitVec 32)), c ≠ 0 ∧ c ≤ 0x7fffffff#32) ∧
    to_utf32_span ⟨[0x93, 0x42, 0xC0, 0xAF, 0x43, 0xE2, 0x82, 0xAC], 0, 8⟩ = .ok [0x4C2, 0x2F, 0x43, 0x20AC] := by
  refine ⟨?_, by decide +kernel, by intro c hc; simp only [List.mem_cons, List.not_mem_nil, or_false] at hc; rcases hc with rfl | rfl <;> decide, by decide +kernel⟩
  intro q hq
  simp only [List.mem_cons, List.not_mem_nil, or_false] at hq
  rcases hq with rfl | rfl
  · exact ⟨0x93, [0x42], rfl, by decide +kernel, by decide, by decide +kernel⟩
  · exact ⟨0xC0, [0xAF], rfl, by decide +kernel, by decide, by decide +kernel⟩

/-- **C117.** Decoding and encoding again gives the same bytes for exactly the texts in shortest form, without the characters 0 and above 0x7fffffff. -/
theorem C117_bytes_return (junk : Nat → List Byte) (hj : ∀ k, (junk k).length = 7) (s : Span Byte) (hv : s.Valid) (l : List (BitVec 32))
    (h : to_utf32_span s = .ok l) :
    to_utf8 junk l = .ok (encodeAll l) ∧ to_utf32_span ⟨encodeAll l, 0, (encodeAll l).length⟩ = .ok l ∧
    (to_utf8 junk l = .ok s.contents ↔ ∃ text : List (BitVec 32), (∀ c ∈ text, c ≠ 0 ∧ c ≤ 0x7fffffff#32) ∧ s.contents = encodeAll text) := by
  have hc := C117_characters s hv l h
  have hk : l.filter kept = l := List.filter_eq_self.mpr (fun c m => kept_eq_representable ▸ representable_of (hc c m))
  have h8 : to_utf8 junk l = .ok (encodeAll l) := by
    have : to_utf8 junk l = .ok (encodeAll (l.filter kept)) := by simp [to_utf8, toUtf8Loop_eq junk hj]
    rwa [hk] at this
  have hd : ∀ text : List (BitVec 32), (∀ c ∈ text, c ≠ 0 ∧ c ≤ 0x7fffffff#32) → to_utf32_span ⟨encodeAll text, 0, (encodeAll text).length⟩ = .ok text := by
    intro text ht
    have := C14_decode_text text [] [] ht
    simpa using this
  refine ⟨h8, hd l hc, fun he => ⟨l, hc, ?_⟩, fun ⟨text, ht, he⟩ => ?_⟩
  · rw [h8] at he
    exact (Res.ok.inj he).symm
  · have h2 := hd text ht
    have e : (⟨encodeAll text, 0, (encodeAll text).length⟩ : Span Byte).contents = encodeAll text := by simp [Span.contents]
    rw [C117_any_bytes _ (by simp [Span.Valid]), e, ← he, ← C117_any_bytes s hv, h] at h2
    cases h2
    rw [h8, he]

/-- An overlong form does not come back as the same bytes. -/
example : to_utf32_span ⟨[0xC0, 0xAF], 0, 2⟩ = .ok [0x2F] ∧ to_utf8 (fun _ => List.replicate 7 0x55) [0x2F] = .ok [0x2F] ∧
    to_utf32_span ⟨[0xE2, 0x82, 0xAC], 0, 3⟩ = .ok [0x20AC] ∧ to_utf8 (fun _ => List.replicate 7 0x55) [0x20AC] = .ok [0xE2, 0x82, 0xAC] := by
  decide +kernel

end Utki
