import Verif.Lemmas.Base64
/-!
# Properties of `base64_decode` (C07, C08, C09)
-/
namespace Utki
open Spec.Base64 Base64

/-! ## C07 -/

/-- C07: decoding the RFC 4648 encoding of any bytes, with or without padding, gives the bytes back, in debug and
release builds and for signed and unsigned `char`. -/
theorem C07_decode_encode (dbg sgn pad : Bool) (bytes : List Byte) :
    base64_decode dbg sgn (encode pad bytes) = .ok bytes := by
  by_cases hne : bytes = []
  · subst hne; cases pad <;> rfl
  have hc := encode_false_charOk bytes
  have hlen := length_encode_false bytes
  have hbl : 0 < bytes.length := List.length_pos_iff.mpr hne
  have hene : encode false bytes ≠ [] := by
    intro h; rw [h] at hlen; simp at hlen; split at hlen <;> omega
  obtain ⟨k, hk2, hke, hkp⟩ : ∃ k, k ≤ 2 ∧ (k = 0 ∨ k = (3 - bytes.length % 3) % 3) ∧
      encode pad bytes = encode false bytes ++ List.replicate k (ch '=') := by
    cases pad
    · exact ⟨0, by omega, .inl rfl, by simp⟩
    · exact ⟨(3 - bytes.length % 3) % 3, by omega, .inr rfl, encode_true_eq bytes⟩
  rw [hkp]
  have hpad := padding_append_eq (fun c h => (hc c h).2) k hk2 (.inr hene)
  rw [decode_unfold _ _ _ (by simp [hene]), hpad]
  have hl : (encode false bytes ++ List.replicate k (ch '=')).length = (encode false bytes).length + k := by simp
  rw [if_neg (by rw [hl, hlen]; split <;> omega), hl, Nat.add_sub_cancel]
  have htake : (encode false bytes ++ List.replicate k (ch '=')).take (encode false bytes).length = encode false bytes := by
    simp
  rw [htake]
  have hq : 4 * quads (encode false bytes ++ List.replicate k (ch '=')) ≤ (encode false bytes).length ∧
      (encode false bytes).length - 4 * quads (encode false bytes ++ List.replicate k (ch '=')) ≠ 1 ∧
      (encode false bytes).length ≤ 4 * quads (encode false bytes ++ List.replicate k (ch '=')) + 3 := by
    unfold quads
    rw [hpad, hl, hlen]
    split <;> split <;> omega
  rw [decodeStripped_ok dbg sgn _ _ hq.1 hq.2.1 (fun c h => .inr (hc c (List.mem_of_mem_take h)).1),
    List.take_of_length_le hq.2.2, decodeGroups_encode]

/-- RFC 4648, section 10, test vectors: the specification's encoder is the standard one. -/
example : encode true (str "fooba") = str "Zm9vYmE=" ∧ encode true (str "foob") = str "Zm9vYg==" ∧
    encode false (str "foob") = str "Zm9vYg" ∧ encode true (str "foobar") = str "Zm9vYmFy" ∧
    base64_decode true true (str "Zm9vYg==") = .ok (str "foob") := by
  decide +kernel

/-! ## C08 -/

/-- C08: `std::invalid_argument` exactly for short text ending in `=`. -/
theorem C08_throws_iff (dbg sgn : Bool) (s : List Byte) (e : Err) :
    base64_decode dbg sgn s = .throw e ↔ e = .invalid_argument ∧ s.getLast? = some (ch '=') ∧ s.length < 4 := by
  have hp : padding s ≠ 0 ↔ s.getLast? = some (ch '=') := by
    unfold padding
    constructor
    · intro h; by_cases h1 : s.getLast? = some (ch '=')
      · exact h1
      · rw [if_neg h1] at h; exact absurd rfl h
    · intro h; rw [if_pos h]; split <;> simp
  by_cases hne : s = []
  · subst hne; simp [base64_decode]
  rw [decode_unfold _ _ _ hne, ← hp]
  by_cases h : padding s ≠ 0 ∧ s.length < 4
  · rw [if_pos h]
    constructor
    · intro h'; cases h'; exact ⟨rfl, h⟩
    · rintro ⟨rfl, _⟩; rfl
  · rw [if_neg h]
    constructor
    · intro h'
      exfalso
      have hpl := padding_le s
      have hq : 4 * quads s ≤ (s.take (s.length - padding s)).length := by
        rw [List.length_take]; unfold quads; split <;> omega
      by_cases h1 : (s.take (s.length - padding s)).length - 4 * quads s = 1
      · by_cases hc : ∀ c ∈ (s.take (s.length - padding s)).take (4 * quads s), CharOk sgn c
        · rw [decodeStripped_one dbg sgn _ _ (by omega) hc] at h'
          cases dbg <;> simp at h'
        · have := quadLoop_bad dbg sgn (s.take (s.length - padding s)) (quads s) 0 [] (by omega) (by simpa using hc)
          simp [decodeStripped, this] at h'
      · by_cases hc : ∀ c ∈ (s.take (s.length - padding s)).take (4 * quads s + 3), CharOk sgn c
        · rw [decodeStripped_ok dbg sgn _ _ hq h1 hc] at h'; cases h'
        · rw [decodeStripped_bad dbg sgn _ _ hq h1 hc] at h'; cases h'
    · rintro ⟨_, h'⟩; exact absurd h' h

/-- C08: every text without non-ASCII characters (or any text if `char` is unsigned) that is not "unpadded with length
1 modulo 4" and not "padded and shorter than 4" is decoded normally: no read outside the text or the table, no failing
`ASSERT`. -/
theorem C08_safe (dbg sgn : Bool) (s : List Byte) (hchars : sgn = false ∨ ∀ c ∈ s, c.toNat < 128)
    (hpad : s.getLast? = some (ch '=') → 4 ≤ s.length) (hunp : s.getLast? ≠ some (ch '=') → s.length % 4 ≠ 1) :
    (base64_decode dbg sgn s).isOk = true := by
  by_cases hne : s = []
  · subst hne; rfl
  have hok : ∀ c ∈ s, CharOk sgn c := by
    intro c h
    rcases hchars with h' | h'
    · exact .inl h'
    · refine .inr ?_
      have := h' c h
      rw [BitVec.msb_eq_decide]; simp; omega
  have hp : padding s ≠ 0 → s.getLast? = some (ch '=') := by
    unfold padding; intro h
    by_cases h1 : s.getLast? = some (ch '=')
    · exact h1
    · rw [if_neg h1] at h; exact absurd rfl h
  have hp0 : padding s = 0 → s.getLast? ≠ some (ch '=') := by
    unfold padding; intro h h1; rw [if_pos h1] at h; split at h <;> simp at h
  have hpl := padding_le s
  rw [decode_unfold _ _ _ hne, if_neg (by rintro ⟨h1, h2⟩; have := hpad (hp h1); omega)]
  have hlt : (s.take (s.length - padding s)).length = s.length - padding s := by simp
  have hq : 4 * quads s ≤ (s.take (s.length - padding s)).length ∧
      (s.take (s.length - padding s)).length - 4 * quads s ≠ 1 := by
    rw [hlt]; unfold quads
    by_cases h0 : padding s = 0
    · have := hunp (hp0 h0); rw [if_pos h0]; omega
    · have := hpad (hp h0); rw [if_neg h0]; omega
  rw [decodeStripped_ok dbg sgn _ _ hq.1 hq.2
    (fun c h => hok c (List.mem_of_mem_take (List.mem_of_mem_take h)))]
  rfl

/-- C08, the first exception: unpadded ASCII text of length 1 modulo 4 fails the `ASSERT` in a debug build and reads
past the end of the text in a release build. -/
theorem C08_unsafe_length (dbg sgn : Bool) (s : List Byte) (hchars : sgn = false ∨ ∀ c ∈ s, c.toNat < 128)
    (hunp : s.getLast? ≠ some (ch '=')) (hlen : s.length % 4 = 1) :
    base64_decode dbg sgn s = if dbg then .abort else .ub .oob_read := by
  have hne : s ≠ [] := by intro h; subst h; simp at hlen
  have hok : ∀ c ∈ s, CharOk sgn c := by
    intro c h
    rcases hchars with h' | h'
    · exact .inl h'
    · refine .inr ?_
      have := h' c h
      rw [BitVec.msb_eq_decide]; simp; omega
  have hp0 : padding s = 0 := by unfold padding; rw [if_neg hunp]
  rw [decode_unfold _ _ _ hne, if_neg (by simp [hp0])]
  have hq : quads s = s.length / 4 := by unfold quads; rw [if_pos hp0]
  rw [hp0, Nat.sub_zero, List.take_length, hq]
  exact decodeStripped_one dbg sgn s _ (by omega) (fun c h => hok c (List.mem_of_mem_take h))

/-- C08, the second exception: with signed `char`, unpadded text containing a byte from 0x80 up is never decoded
normally (the negative index reads outside the table, unless the length check fails first). -/
theorem C08_unsafe_char (dbg : Bool) (s : List Byte) (hunp : s.getLast? ≠ some (ch '='))
    (hbad : ∃ c ∈ s, 128 ≤ c.toNat) :
    base64_decode dbg true s = .ub .oob_read ∨ (s.length % 4 = 1 ∧ base64_decode dbg true s = .abort) := by
  obtain ⟨c, hcm, hc⟩ := hbad
  have hne : s ≠ [] := by intro h; subst h; simp at hcm
  have hnok : ¬ CharOk true c := by
    simp only [CharOk, Bool.true_eq_false, false_or, Bool.not_eq_false]
    rw [BitVec.msb_eq_decide]; simp; omega
  have hp0 : padding s = 0 := by unfold padding; rw [if_neg hunp]
  have hq : quads s = s.length / 4 := by unfold quads; rw [if_pos hp0]
  rw [decode_unfold _ _ _ hne, if_neg (by simp [hp0]), hp0, Nat.sub_zero, List.take_length, hq]
  by_cases h1 : s.length - 4 * (s.length / 4) = 1
  · by_cases hall : ∀ c ∈ s.take (4 * (s.length / 4)), CharOk true c
    · rw [decodeStripped_one dbg true s _ (by omega) hall]
      cases dbg
      · exact .inl rfl
      · exact .inr ⟨by omega, rfl⟩
    · have := quadLoop_bad dbg true s (s.length / 4) 0 [] (by omega) (by simpa using hall)
      simp [decodeStripped, this]
  · refine .inl (decodeStripped_bad dbg true s _ (by omega) h1 ?_)
    intro hall
    rw [List.take_of_length_le (by omega)] at hall
    exact hnok (hall c hcm)

/-- Malformed but safe text (padding in the middle, wrong length), and the unsafe ones. -/
example : base64_decode false true (str "ab=cd==") = .ok [0x69, 0xb0] ∧
    base64_decode true true (str "ab=") = .throw .invalid_argument ∧
    base64_decode true true (str "abcde") = .abort ∧ base64_decode false true (str "abcde") = .ub .oob_read ∧
    base64_decode false true [0x61, 0xc3, 0xa9, 0x62] = .ub .oob_read ∧
    base64_decode false false [0x61, 0xc3, 0xa9, 0x62] = .ok [0x68, 0x00, 0x1b] := by
  decide +kernel

/-! ## C09 -/

/-- C09: whenever decoding succeeds, the bytes are those of the 6-bit values of the characters (`value6`: `A` for
everything outside the alphabet), grouped by four; of the text only the part before the padding counts, and of a
malformed padded text at most the first `4 * quads + 3` characters, where a padded text has one whole quad less. -/
theorem C09_value (dbg sgn : Bool) (s r : List Byte) (h : base64_decode dbg sgn s = .ok r) :
    r = decodeGroups ((s.take (s.length - padding s)).take
      (4 * (if padding s = 0 then s.length / 4 else s.length / 4 - 1) + 3)) := by
  by_cases hne : s = []
  · subst hne; simp [base64_decode] at h; simp [h, decodeGroups]
  rw [decode_unfold _ _ _ hne] at h
  have hpl := padding_le s
  by_cases h4 : padding s ≠ 0 ∧ s.length < 4
  · rw [if_pos h4] at h; cases h
  rw [if_neg h4] at h
  have hq : 4 * quads s ≤ (s.take (s.length - padding s)).length := by
    rw [List.length_take]; unfold quads; split <;> omega
  change r = decodeGroups ((s.take (s.length - padding s)).take (4 * quads s + 3))
  by_cases h1 : (s.take (s.length - padding s)).length - 4 * quads s = 1
  · by_cases hc : ∀ c ∈ (s.take (s.length - padding s)).take (4 * quads s), CharOk sgn c
    · rw [decodeStripped_one dbg sgn _ _ (by omega) hc] at h
      cases dbg <;> simp at h
    · have := quadLoop_bad dbg sgn (s.take (s.length - padding s)) (quads s) 0 [] (by omega) (by simpa using hc)
      simp [decodeStripped, this] at h
  · by_cases hc : ∀ c ∈ (s.take (s.length - padding s)).take (4 * quads s + 3), CharOk sgn c
    · rw [decodeStripped_ok dbg sgn _ _ hq h1 hc] at h
      exact (Res.ok.inj h).symm
    · rw [decodeStripped_bad dbg sgn _ _ hq h1 hc] at h; cases h

/-- C09: the result length is a function of the text length and the amount of padding. -/
theorem C09_length (dbg sgn : Bool) (s r : List Byte) (h : base64_decode dbg sgn s = .ok r) :
    r.length = if padding s = 0 then s.length / 4 * 3 + (s.length % 4 - 1)
      else (s.length / 4 - 1) * 3 + min 2 (s.length % 4 + 3 - padding s) := by
  have hpl := padding_le s
  have hthrow := (C08_throws_iff dbg sgn s .invalid_argument).2
  have h4 : padding s ≠ 0 → 4 ≤ s.length := by
    intro hp
    apply Classical.byContradiction
    intro h4
    have hl : s.getLast? = some (ch '=') := by
      apply Classical.byContradiction
      intro hl; apply hp; unfold padding; rw [if_neg hl]
    have := hthrow ⟨rfl, hl, by omega⟩
    rw [this] at h; cases h
  rw [C09_value dbg sgn s r h, length_decodeGroups, List.length_take, List.length_take]
  split
  · omega
  · have := h4 (by assumption)
    omega

/-- C09: at most three bytes per four characters, rounded up. -/
theorem C09_length_bound (dbg sgn : Bool) (s r : List Byte) (h : base64_decode dbg sgn s = .ok r) :
    r.length ≤ 3 * ((s.length + 3) / 4) := by
  rw [C09_length dbg sgn s r h]
  have hpos : padding s ≠ 0 → 0 < s.length := by
    intro hp; apply List.length_pos_iff.mpr; intro hs; subst hs; exact hp rfl
  split
  · omega
  · have := hpos (by assumption)
    omega

/-- C09: replacing characters outside the alphabet by `A` does not change what is decoded: two texts of the same shape
(length and padding) whose characters have pairwise equal values decode to the same bytes. -/
theorem C09_invalid_as_A (dbg sgn : Bool) (s t r : List Byte) (hs : ∀ c ∈ s, c.toNat < 128) (ht : ∀ c ∈ t, c.toNat < 128)
    (hv : s.map value6 = t.map value6) (hp : padding s = padding t) (h : base64_decode dbg sgn s = .ok r) :
    base64_decode dbg sgn t = .ok r := by
  have hl : s.length = t.length := by simpa using congrArg List.length hv
  have hpz : ∀ u : List Byte, padding u = 0 ↔ u.getLast? ≠ some (ch '=') := by
    intro u; unfold padding
    by_cases h1 : u.getLast? = some (ch '=')
    · rw [if_pos h1]; simp [h1]; split <;> simp
    · simp [h1]
  have hsafe : (base64_decode dbg sgn t).isOk = true := by
    apply C08_safe dbg sgn t (.inr ht)
    · intro he
      apply Classical.byContradiction
      intro h4
      have hse : s.getLast? = some (ch '=') := by
        apply Classical.byContradiction
        intro hse
        have := (hpz s).2 hse
        rw [hp] at this
        exact (hpz t).1 this he
      have := (C08_throws_iff dbg sgn s .invalid_argument).2 ⟨rfl, hse, by omega⟩
      rw [this] at h; cases h
    · intro he h1
      have hse : s.getLast? ≠ some (ch '=') := (hpz s).1 (hp ▸ (hpz t).2 he)
      have := C08_unsafe_length dbg sgn s (.inr hs) hse (by omega)
      rw [this] at h; cases dbg <;> simp at h
  cases hr : base64_decode dbg sgn t with
  | ok r' =>
    have e1 := C09_value dbg sgn s r h
    have e2 := C09_value dbg sgn t r' hr
    rw [e1, e2, ← hp, ← hl]
    congr 1
    apply decodeGroups_congr
    simp only [List.map_take, hv]
  | throw => rw [hr] at hsafe; cases hsafe
  | ub => rw [hr] at hsafe; cases hsafe
  | abort => rw [hr] at hsafe; cases hsafe
  | terminate => rw [hr] at hsafe; cases hsafe
  | diverge => rw [hr] at hsafe; cases hsafe

/-- `*` and `\n` are outside the alphabet and stand for `A`. -/
example : value6 (ch '*') = 0 ∧ value6 (ch '\n') = 0 ∧ value6 (ch 'A') = 0 ∧ value6 (ch '/') = 63 ∧
    base64_decode true true (str "Zm9*Ym\nx") = base64_decode true true (str "Zm9AYmAx") ∧
    (base64_decode true true (str "Zm9*Ym\nx")).isOk := by
  decide +kernel

end Utki
