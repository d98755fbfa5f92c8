import Verif.Lemmas.Unicode
/-!
# Properties of UTF-8 conversion (C10 – C14)
-/
namespace Utki
open Spec.Utf8

/-- The characters that UTF-8 text handled by the library can carry: not U+0000 and at most 0x7fffffff. -/
def representable (c : BitVec 32) : Bool := c ≠ 0 ∧ c ≤ 0x7fffffff#32

theorem kept_eq_representable : kept = representable := by
  funext c
  simp only [kept, representable]
  by_cases h0 : c = 0
  · subst h0; decide
  · have h1 : 0 < c.toNat := by
      rcases Nat.eq_zero_or_pos c.toNat with h | h
      · exact absurd (BitVec.eq_of_toNat_eq h) h0
      · exact h
    simp only [h0, h1, BitVec.le_def, decide_true, Bool.true_and, ne_eq, not_false_eq_true, true_and]
    congr 1
    apply propext
    show _ ↔ c.toNat ≤ 2147483647
    omega

theorem representable_of {c : BitVec 32} (h : c ≠ 0 ∧ c ≤ 0x7fffffff#32) : representable c = true := by
  unfold representable; exact decide_eq_true h

/-! ## C10 -/

/-- C10: converting any UTF-32 string to UTF-8 and back, through the span interface or as a NUL-terminated string,
gives the string without the characters that are not representable. `junk` is the contents of the uninitialised
temporary arrays. -/
theorem C10_round_trip (junk : Nat → List Byte) (hj : ∀ k, (junk k).length = 7) (s : List (BitVec 32)) :
    ∃ u8, to_utf8 junk s = .ok u8 ∧
      to_utf32_span ⟨u8, 0, u8.length⟩ = .ok (s.filter representable) ∧
      to_utf32_cstr (u8 ++ [0]) 0 = .ok (s.filter representable) := by
  have hk : ∀ c ∈ s.filter kept, kept c = true := fun c h => (List.mem_filter.mp h).2
  have hf := formsOf_ok _ hk
  have hb := formsBytes_formsOf _ hk
  have hlen := formsBytes_length (formsOf (s.filter kept)) (fun f h => (hf f h).1)
  refine ⟨encodeAll (s.filter kept), by simp [to_utf8, toUtf8Loop_eq junk hj], ?_, ?_⟩
  · rw [to_utf32_span_eq, ← kept_eq_representable, ← hb]
    rw [decodeFrom_forms (formsOf (s.filter kept)) _ _ [] [] [] hf (by simp) rfl (by simp; omega) (.inl (by simp)),
      formsOf_chars]
    rfl
  · rw [to_utf32_cstr_eq, ← kept_eq_representable, ← hb]
    rw [decodeFrom_forms (formsOf (s.filter kept)) _ _ [] [] [0] hf (by simp) rfl (by simp; omega)
      (.inr ⟨by simp, [], rfl⟩), formsOf_chars]
    rfl

/-- C10, the special case: strings of representable characters come back unchanged. -/
theorem C10_round_trip_exact (junk : Nat → List Byte) (hj : ∀ k, (junk k).length = 7) (s : List (BitVec 32))
    (h : ∀ c ∈ s, c ≠ 0 ∧ c ≤ 0x7fffffff#32) :
    ∃ u8, to_utf8 junk s = .ok u8 ∧ to_utf32_span ⟨u8, 0, u8.length⟩ = .ok s ∧ to_utf32_cstr (u8 ++ [0]) 0 = .ok s := by
  have := C10_round_trip junk hj s
  rwa [List.filter_eq_self.mpr (fun c hc => representable_of (h c hc))] at this

example : to_utf8 (fun _ => List.replicate 7 0x55) [0x41, 0x20ac, 0, 0x10ffff, 0xffffffff]
      = .ok [0x41, 0xe2, 0x82, 0xac, 0xf4, 0x8f, 0xbf, 0xbf] ∧
    ([0x41, 0x20ac, 0, 0x10ffff, 0xffffffff] : List (BitVec 32)).filter representable = [0x41, 0x20ac, 0x10ffff] := by
  decide +kernel

/-! ## C11 -/

/-- C11: `to_utf8(c)` fills its 7-byte array with the encoding followed by NUL, whatever the array contained. -/
theorem C11_to_utf8_char (junk : List Byte) (hj : junk.length = 7) (c : BitVec 32) :
    ∃ arr, to_utf8_char junk c = .ok arr ∧ arr.length = 7 ∧ (encode c.toNat ++ [0]) <+: arr := by
  refine ⟨_, to_utf8_char_eq junk hj c, ?_, ?_⟩
  · have hle : (encode c.toNat).length ≤ 6 := by
      unfold encode
      split
      · simp
      · next h =>
        have h6 : size c.toNat ≤ 6 ∧ 1 ≤ size c.toNat := by
          unfold size at h ⊢
          repeat' split
          all_goals simp_all
        rw [length_form h6.2]; exact h6.1
    simp [hj]; omega
  · exact ⟨junk.drop ((encode c.toNat).length + 1), by simp⟩

/-- C11: the encoding is a standard form of the character, and no standard form of it is shorter; above 0x7fffffff there
is none and the result is empty. -/
theorem C11_shortest (c : Nat) :
    (c ≤ 0x7fffffff → ∃ n, 1 ≤ n ∧ n ≤ 6 ∧ c < capacity n ∧ encode c = form n c ∧
      ∀ m, 1 ≤ m → m ≤ 6 → c < capacity m → n ≤ m) ∧
    (0x7fffffff < c → encode c = []) := by
  constructor
  · intro h
    obtain ⟨h1, h6, hc⟩ := size_facts c (by omega)
    refine ⟨size c, h1, h6, hc, ?_, ?_⟩
    · unfold encode; rw [if_neg (by omega)]
    · intro m hm1 hm6 hmc
      have : m = 1 ∨ m = 2 ∨ m = 3 ∨ m = 4 ∨ m = 5 ∨ m = 6 := by omega
      unfold size
      rcases this with h | h | h | h | h | h <;> subst h <;> simp only [capacity] at hmc <;>
        (repeat' split) <;> omega
  · intro h
    unfold encode; rw [if_pos ((size_zero c).mpr (by omega))]

/-- C11, independent check of the specification: for every Unicode scalar value it is the UTF-8 encoding of Lean's own
library. -/
theorem C11_agrees_with_standard_library (c : Char) :
    encode c.toNat = (String.utf8EncodeChar c).map (fun b => b.toBitVec) := by
  have hv : c.toNat < 0x110000 := by
    have := c.valid
    have e : c.toNat = c.val.toNat := rfl
    rcases this with h | h
    · have : c.val.toNat < 0xd800 := h
      omega
    · have : c.val.toNat < 0x110000 := h.2
      omega
  unfold String.utf8EncodeChar encode size
  show _ = List.map _ (if c.toNat ≤ 127 then _ else _)
  have ho : ∀ n, (UInt8.ofNat n).toBitVec = BitVec.ofNat 8 n := fun n => rfl
  by_cases h1 : c.toNat < 0x80
  · rw [if_pos (by omega : c.toNat ≤ 127)]
    simp [h1, form, conts, lead, ho]
  by_cases h2 : c.toNat < 0x800
  · rw [if_neg (by omega : ¬ c.toNat ≤ 127)]
    show _ = List.map _ (if c.toNat ≤ 2047 then _ else _)
    rw [if_pos (by omega : c.toNat ≤ 2047)]
    simp only [List.map_cons, List.map_nil, ho]
    simp [h1, h2, form, conts, lead]
    constructor <;> (congr 1; omega)
  by_cases h3 : c.toNat < 0x10000
  · rw [if_neg (by omega : ¬ c.toNat ≤ 127)]
    show _ = List.map _ (if c.toNat ≤ 2047 then _ else if c.toNat ≤ 65535 then _ else _)
    rw [if_neg (by omega : ¬ c.toNat ≤ 2047), if_pos (by omega : c.toNat ≤ 65535)]
    simp only [List.map_cons, List.map_nil, ho]
    simp [h1, h2, h3, form, conts, lead]
    refine ⟨?_, ?_, ?_⟩ <;> (congr 1; omega)
  · rw [if_neg (by omega : ¬ c.toNat ≤ 127)]
    show _ = List.map _ (if c.toNat ≤ 2047 then _ else if c.toNat ≤ 65535 then _ else _)
    rw [if_neg (by omega : ¬ c.toNat ≤ 2047), if_neg (by omega : ¬ c.toNat ≤ 65535)]
    have h4 : c.toNat < 0x200000 := by omega
    simp only [List.map_cons, List.map_nil, ho]
    simp [h1, h2, h3, h4, form, conts, lead]
    refine ⟨?_, ?_, ?_, ?_⟩ <;> (congr 1; omega)

example : encode 0x7ff = [0xdf, 0xbf] ∧ encode 0x800 = [0xe0, 0xa0, 0x80] ∧ encode 0xffff = [0xef, 0xbf, 0xbf] ∧
    encode 0x10000 = [0xf0, 0x90, 0x80, 0x80] ∧ encode 0x200000 = [0xf8, 0x88, 0x80, 0x80, 0x80] ∧
    encode 0x7fffffff = [0xfd, 0xbf, 0xbf, 0xbf, 0xbf, 0xbf] ∧ encode 0x80000000 = [] ∧
    to_utf8_char [1, 2, 3, 4, 5, 6, 7] 0x800#32 = .ok [0xe0, 0xa0, 0x80, 0, 5, 6, 7] := by
  decide +kernel

/-! ## C12 -/

/-- C12: an iterator over a span, incremented any number of times, stays inside the span; the only way it can fail is the
over-wide shift, and then the span contains one of the four lead bytes followed by six more bytes. -/
theorem C12_iterate (s : Span Byte) (hv : s.Valid) (k : Nat) :
    (∃ it, (Utf8Iter.ofSpan s).bind (Utf8Iter.incN k) = .ok it ∧ s.off ≤ it.p ∧ it.p ≤ s.off + s.size) ∨
    ((Utf8Iter.ofSpan s).bind (Utf8Iter.incN k) = .ub .bad_shift ∧
      ∃ i b, s.contents[i]? = some b ∧ b ∈ ([0xBE, 0xBF, 0xFE, 0xFF] : List Byte) ∧ i + 7 ≤ s.size) := by
  have hl := Span.length_contents hv
  have step : ∀ (it : Utf8Iter), it.InSpan s → (∃ it', it.inc = .ok it' ∧ it'.InSpan s) ∨ (it.inc = .ub .bad_shift ∧
      ∃ i b, s.contents[i]? = some b ∧ b ∈ ([0xBE, 0xBF, 0xFE, 0xFF] : List Byte) ∧ i + 7 ≤ s.size) := by
    intro it hin
    obtain ⟨r, ho, hr⟩ := Utf8Iter.inc_outcome hv hin
    cases h1 : it.inc with
    | ok it' => exact .inl ⟨it', rfl, (Utf8Iter.inc_inSpan hv hin h1).1⟩
    | _ =>
      right
      obtain ⟨rfl, hw⟩ := ho.ub_witness (by rintro x rfl; rw [h1] at hr; simp at hr)
      rw [h1] at hr
      cases hr
      all_goals first
        | exact ⟨rfl, by rw [hl] at hw; exact hw⟩
  have many : ∀ (k : Nat) (it : Utf8Iter), it.InSpan s → (∃ it', it.incN k = .ok it' ∧ it'.InSpan s) ∨
      (it.incN k = .ub .bad_shift ∧
      ∃ i b, s.contents[i]? = some b ∧ b ∈ ([0xBE, 0xBF, 0xFE, 0xFF] : List Byte) ∧ i + 7 ≤ s.size) := by
    intro k
    induction k with
    | zero => intro it h; exact .inl ⟨it, rfl, h⟩
    | succ k ih =>
      intro it h
      rcases step it h with ⟨it', h1, h2⟩ | ⟨h1, h2⟩
      · simp only [Utf8Iter.incN, h1, Res.bind_eq, Res.ok_bind]; exact ih it' h2
      · simp only [Utf8Iter.incN, h1, Res.bind_eq, Res.ub_bind]; exact .inr ⟨by trivial, h2⟩
  rcases step _ (ofSpan_start (s := s)) with ⟨it', h1, h2⟩ | ⟨h1, h2⟩
  · simp only [Utf8Iter.ofSpan, h1, Res.ok_bind]
    rcases many k it' h2 with ⟨it, h3, h4⟩ | h3
    · exact .inl ⟨it, h3, h4.2.2⟩
    · exact .inr h3
  · simp only [Utf8Iter.ofSpan, h1, Res.ub_bind]; exact .inr ⟨by trivial, h2⟩

/-- C12: `to_utf32` of any span terminates with at most one character per byte, or hits the over-wide shift. -/
theorem C12_to_utf32 (s : Span Byte) (hv : s.Valid) :
    (∃ l, to_utf32_span s = .ok l ∧ l.length ≤ s.size) ∨
    (to_utf32_span s = .ub .bad_shift ∧
      ∃ i b, s.contents[i]? = some b ∧ b ∈ ([0xBE, 0xBF, 0xFE, 0xFF] : List Byte) ∧ i + 7 ≤ s.size) := by
  have hv' : s.off + s.size ≤ s.mem.length := hv
  have hl := Span.length_contents hv
  rw [to_utf32_span_eq]
  unfold decodeFrom
  cases h1 : Utf8Iter.inc ⟨s.mem, 0, s.off, some (s.off + s.size)⟩ with
  | ok it =>
    simp only [Res.bind_eq, Res.ok_bind]
    obtain ⟨hin, hle, hlt⟩ := Utf8Iter.inc_inSpan hv ofSpan_start h1
    obtain ⟨-, -, h3, h4⟩ := id hin
    rcases toUtf32Loop_outcome hv (s.mem.length + 2) it [] hin (by omega) with ⟨l, h5, h6⟩ | h5
    · refine .inl ⟨l, h5, ?_⟩
      by_cases hz : it.c = 0
      · rw [if_pos hz] at h6; simp at h6; omega
      · rw [if_neg hz] at h6; have := hlt hz; simp at h6 this; omega
    · exact .inr h5
  | _ =>
    right
    obtain ⟨r, ho, hr⟩ := Utf8Iter.inc_outcome hv (ofSpan_start (s := s))
    obtain ⟨rfl, hw⟩ := ho.ub_witness (by rintro x rfl; rw [h1] at hr; simp at hr)
    rw [h1] at hr
    cases hr
    all_goals first
      | exact ⟨rfl, by rw [hl] at hw; exact hw⟩

/-- C12: what is decoded depends on the bytes of the span only (a read outside would make it depend on its
surroundings). In particular the span may be the whole object, where any outside read would be undefined. -/
theorem C12_reads_only_the_span (s t : Span Byte) (hs : s.Valid) (ht : t.Valid) (same : s.contents = t.contents) :
    to_utf32_span s = to_utf32_span t := by
  have hs' : s.off + s.size ≤ s.mem.length := hs
  have ht' : t.off + t.size ≤ t.mem.length := ht
  have hsz : s.size = t.size := by rw [← Span.length_contents hs, ← Span.length_contents ht, same]
  rw [to_utf32_span_eq, to_utf32_span_eq]
  unfold decodeFrom
  rcases Utf8Iter.inc_same hs ht same ofSpan_start ofSpan_start (by simp) with ⟨a, b, h1, h2, h3⟩ | ⟨u, h1, h2⟩
  · simp only [h1, h2, Res.bind_eq, Res.ok_bind]
    have := h3.1.2.2
    have := h3.2.1.2.2
    exact toUtf32Loop_same hs ht same _ _ a b [] h3 (by omega) (by omega)
  · simp only [h1, h2, Res.bind_eq, Res.ub_bind]

/-- Malformed input: stray continuation byte, truncated sequence, and the over-wide shift. -/
example : to_utf32_span ⟨[0x41, 0x80, 0x42, 0xe2, 0x82], 0, 5⟩ = .ok [0x41, 2] ∧
    to_utf32_span ⟨[0xff, 0x41, 0x41, 0x41, 0x41, 0x41, 0x41, 0x41], 0, 8⟩ = .ub .bad_shift ∧
    to_utf32_span ⟨[0xff, 0x41, 0x41, 0x41, 0x41, 0x41, 0x41, 0x41], 0, 7⟩ = .ok [] := by
  decide +kernel

/-! ## C13, C14 -/

/-- C14: any text made of standard forms (also over-long ones) of non-zero characters decodes to exactly these
characters, in order. -/
theorem C14_decode_forms (fs : List (Nat × Nat)) (pre post : List Byte)
    (h : ∀ f ∈ fs, 1 ≤ f.1 ∧ f.1 ≤ 6 ∧ 0 < f.2 ∧ f.2 < capacity f.1) :
    to_utf32_span ⟨pre ++ fs.flatMap (fun f => form f.1 f.2) ++ post, pre.length, (fs.flatMap (fun f => form f.1 f.2)).length⟩
      = .ok (fs.map (fun f => BitVec.ofNat 32 f.2)) := by
  have hlen := formsBytes_length fs (fun f hf => (h f hf).1)
  unfold formsBytes at hlen
  rw [to_utf32_span_eq]
  rw [decodeFrom_forms fs _ _ [] pre post h (by simp [formsBytes]) rfl
    (by simp only [List.length_append]; omega) (.inl rfl)]
  rfl

/-- C14: any well-formed UTF-8 text decodes to its characters. -/
theorem C14_decode_text (s : List (BitVec 32)) (pre post : List Byte) (h : ∀ c ∈ s, c ≠ 0 ∧ c ≤ 0x7fffffff#32) :
    to_utf32_span ⟨pre ++ encodeAll s ++ post, pre.length, (encodeAll s).length⟩ = .ok s := by
  have hk : ∀ c ∈ s, kept c = true := fun c hc => kept_eq_representable ▸ representable_of (h c hc)
  have := C14_decode_forms (formsOf s) pre post (formsOf_ok s hk)
  rw [formsOf_chars] at this
  rw [← formsBytes_formsOf s hk]
  exact this

/-- C14: text after an embedded NUL is not decoded, whatever it is. -/
theorem C14_stops_at_nul (s : List (BitVec 32)) (rest : List Byte) (h : ∀ c ∈ s, c ≠ 0 ∧ c ≤ 0x7fffffff#32) :
    to_utf32_span ⟨encodeAll s ++ 0 :: rest, 0, (encodeAll s).length + 1 + rest.length⟩ = .ok s := by
  have hk : ∀ c ∈ s, kept c = true := fun c hc => kept_eq_representable ▸ representable_of (h c hc)
  have hf := formsOf_ok s hk
  have hb := formsBytes_formsOf s hk
  have hlen := formsBytes_length (formsOf s) (fun f h => (hf f h).1)
  rw [to_utf32_span_eq, ← hb]
  rw [decodeFrom_forms (formsOf s) _ _ [] [] (0 :: rest) hf (by simp) rfl
    (by simp only [List.length_append, List.length_cons]; omega)
    (.inr ⟨by intro e he; simp at he; simp; omega, rest, rfl⟩), formsOf_chars]
  rfl

/-- C13: decoding a NUL-terminated well-formed text reads nothing after the terminator (the object may end there:
`post = []`), and gives the same characters as decoding the same text as a span. -/
theorem C13_nul_terminated (s : List (BitVec 32)) (pre post : List Byte) (h : ∀ c ∈ s, c ≠ 0 ∧ c ≤ 0x7fffffff#32) :
    to_utf32_cstr (pre ++ encodeAll s ++ 0 :: post) pre.length = .ok s ∧
    to_utf32_cstr (pre ++ encodeAll s ++ 0 :: post) pre.length =
      to_utf32_span ⟨pre ++ encodeAll s ++ 0 :: post, pre.length, (encodeAll s).length⟩ := by
  have hk : ∀ c ∈ s, kept c = true := fun c hc => kept_eq_representable ▸ representable_of (h c hc)
  have hf := formsOf_ok s hk
  have hb := formsBytes_formsOf s hk
  have hlen := formsBytes_length (formsOf s) (fun f h => (hf f h).1)
  have h1 : to_utf32_cstr (pre ++ encodeAll s ++ 0 :: post) pre.length = .ok s := by
    rw [to_utf32_cstr_eq, ← hb]
    rw [decodeFrom_forms (formsOf s) _ _ [] pre (0 :: post) hf (by simp) rfl
      (by simp only [List.length_append, List.length_cons]; omega)
      (.inr ⟨by simp, post, rfl⟩), formsOf_chars]
    rfl
  exact ⟨h1, by rw [h1, C14_decode_text s pre (0 :: post) h]⟩

/-- The hypothesis of well-formedness is needed: a truncated sequence at the end of a NUL-terminated string makes the
decoder read past the terminator. -/
theorem C13_truncated_reads_past_terminator : to_utf32_cstr [0x41, 0xe2, 0x82, 0] 0 = .ub .oob_read := by
  decide +kernel

/-- An over-long form is accepted: `C0 80`-style encoding of `/`. -/
example : to_utf32_span ⟨[0xc0, 0xaf, 0xe2, 0x82, 0xac], 0, 5⟩ = .ok [0x2f, 0x20ac] ∧ form 2 0x2f = [0xc0, 0xaf] := by
  decide +kernel

end Utki
