import Verif.Props.Base64
import Verif.Props.Unicode
/-!
# C107: conversions can be done piece by piece
-/
namespace Utki

open Spec Spec.Utf8

/-! ## UTF-8 -/

theorem incLoop_c (it : Utf8Iter) (x : BitVec 32) (b : Byte) : ∀ (fuel i : Nat) (c : BitVec 32) (p : Nat),
    Utf8Iter.incLoop { it with c := x } b fuel i c p = Utf8Iter.incLoop it b fuel i c p := by
  intro fuel
  induction fuel with
  | zero => intro i c p; rfl
  | succ fuel ih =>
    intro i c p
    unfold Utf8Iter.incLoop
    simp only [ih]
    rfl

/-- Advancing does not depend on the current character. -/
theorem inc_c (it : Utf8Iter) (x : BitVec 32) : Utf8Iter.inc { it with c := x } = Utf8Iter.inc it := by
  unfold Utf8Iter.inc
  simp only [incLoop_c]
  rfl

theorem toUtf32Loop_buf : ∀ (fuel : Nat) (it : Utf8Iter) (buf : List (BitVec 32)),
    toUtf32Loop fuel it buf = (toUtf32Loop fuel it []).bind (fun r => .ok (buf ++ r)) := by
  intro fuel
  induction fuel with
  | zero => intro it buf; rfl
  | succ fuel ih =>
    intro it buf
    unfold toUtf32Loop
    by_cases h : it.is_end = true
    · simp [h]
    · simp only [h, Bool.false_eq_true, if_false, Res.bind_eq]
      cases h1 : it.inc with
      | ok it' =>
        simp only [Res.ok_bind]
        rw [ih it' (buf ++ [it.character]), ih it' ([] ++ [it.character])]
        cases toUtf32Loop fuel it' [] <;> simp
      | _ => rfl

/-- Decoding goes over complete forms, whatever follows. -/
theorem decodeFrom_over : ∀ (fs : List (Nat × Nat)) (fuel : Nat) (it : Utf8Iter) (buf : List (BitVec 32)) (pre post : List Byte),
    (∀ f ∈ fs, 1 ≤ f.1 ∧ f.1 ≤ 6 ∧ 0 < f.2 ∧ f.2 < capacity f.1) →
    it.mem = pre ++ (formsBytes fs ++ post) → it.p = pre.length →
    (∀ e, it.end = some e → pre.length + (formsBytes fs).length ≤ e) →
    decodeFrom (fuel + fs.length) it buf =
      decodeFrom fuel { it with p := pre.length + (formsBytes fs).length } (buf ++ fs.map (fun f => BitVec.ofNat 32 f.2)) := by
  intro fs
  induction fs with
  | nil =>
    intro fuel it buf pre post _ _ hp _
    have : it = { it with p := pre.length + (formsBytes []).length } := by
      cases it; simp only [formsBytes, List.flatMap_nil, List.length_nil, Nat.add_zero] at *; rw [hp]
    rw [← this]
    simp
  | cons f fs ih =>
    intro fuel it buf pre post hfs hmem hp hend
    obtain ⟨hn1, hn6, hc0, hc⟩ := hfs f (by simp)
    have hbl : (formsBytes (f :: fs)).length = f.1 + (formsBytes fs).length := by
      simp [formsBytes, length_form hn1]
    have hmem' : it.mem = pre ++ (form f.1 f.2 ++ (formsBytes fs ++ post)) := by
      rw [hmem]; simp [formsBytes]
    have hinc := Utf8Iter.inc_form it pre _ f.1 f.2 hn1 hn6 hc hmem' hp (by
      intro e he
      have := hend e he; omega)
    have hc31 : f.2 < 2 ^ 31 := by
      have : f.1 = 1 ∨ f.1 = 2 ∨ f.1 = 3 ∨ f.1 = 4 ∨ f.1 = 5 ∨ f.1 = 6 := by omega
      rcases this with h | h | h | h | h | h <;> rw [h] at hc <;> simp [capacity] at hc <;> omega
    have hne : (BitVec.ofNat 32 f.2 == (0 : BitVec 32)) = false := by
      rw [beq_eq_false_iff_ne]
      intro h
      have := congrArg BitVec.toNat h
      simp at this; omega
    have := ih fuel { it with c := BitVec.ofNat 32 f.2, p := pre.length + f.1 } (buf ++ [BitVec.ofNat 32 f.2])
      (pre ++ form f.1 f.2) post (fun g hg => hfs g (by simp [hg])) (by simp [hmem']) (by simp [length_form hn1])
      (by
        simp only [List.length_append, length_form hn1, Nat.add_assoc]
        intro e he; have := hend e he; omega)
    have e1 : decodeFrom (fuel + (f :: fs).length) it buf =
        decodeFrom (fuel + fs.length) { it with c := BitVec.ofNat 32 f.2, p := pre.length + f.1 } (buf ++ [BitVec.ofNat 32 f.2]) := by
      unfold decodeFrom
      simp only [hinc, Res.bind_eq, Res.ok_bind]
      rw [List.length_cons, ← Nat.add_assoc]
      conv => lhs; unfold toUtf32Loop
      simp only [Utf8Iter.is_end, Utf8Iter.character, hne, Bool.false_eq_true, if_false]
      rfl
    rw [e1, this]
    simp only [List.length_append, length_form hn1, hbl, List.map_cons, List.append_assoc, List.singleton_append, Nat.add_assoc]
    unfold decodeFrom
    rw [inc_c { it with p := pre.length + (f.1 + (formsBytes fs).length) }]

/-- C107: if a text begins with complete UTF-8 forms, decoding it gives the characters of this part followed by what decoding the rest, in
whatever memory, gives; also if the rest is malformed. -/
theorem C107_to_utf32 (fs : List (Nat × Nat)) (h : ∀ f ∈ fs, 1 ≤ f.1 ∧ f.1 ≤ 6 ∧ 0 < f.2 ∧ f.2 < capacity f.1)
    (s t : Span Byte) (hs : s.Valid) (ht : t.Valid) (hc : s.contents = fs.flatMap (fun f => form f.1 f.2) ++ t.contents) :
    to_utf32_span s = (to_utf32_span t).bind (fun r => .ok (fs.map (fun f => BitVec.ofNat 32 f.2) ++ r)) := by
  have hlt := Span.length_contents ht
  -- the whole text, and the rest of it, in one memory object
  obtain ⟨B, hB⟩ : ∃ B, B = formsBytes fs := ⟨_, rfl⟩
  have hfl := formsBytes_length fs (fun f hf => (h f hf).1)
  rw [← hB] at hfl
  have v1 : (⟨B ++ t.contents, 0, B.length + t.size⟩ : Span Byte).Valid := by
    show 0 + (B.length + t.size) ≤ (B ++ t.contents).length
    simp [hlt]
  have v2 : (⟨B ++ t.contents, B.length, t.size⟩ : Span Byte).Valid := by
    show B.length + t.size ≤ (B ++ t.contents).length
    simp [hlt]
  have c1 : (⟨B ++ t.contents, 0, B.length + t.size⟩ : Span Byte).contents = s.contents := by
    rw [hc]
    show ((B ++ t.contents).drop 0).take (B.length + t.size) = _
    rw [List.drop_zero, List.take_of_length_le (by simp [hlt]), hB]
    rfl
  have c2 : (⟨B ++ t.contents, B.length, t.size⟩ : Span Byte).contents = t.contents := by
    show ((B ++ t.contents).drop B.length).take t.size = _
    rw [List.drop_left, List.take_of_length_le (by simp [hlt])]
  rw [← C12_reads_only_the_span _ s v1 hs c1, ← C12_reads_only_the_span _ t v2 ht c2, to_utf32_span_eq, to_utf32_span_eq]
  have hl : (B ++ t.contents).length = B.length + t.size := by simp [hlt]
  simp only [hl]
  obtain ⟨fuel, hfuel⟩ : ∃ fuel, fuel = B.length + t.size + 2 - fs.length := ⟨_, rfl⟩
  have hov := decodeFrom_over fs fuel ⟨B ++ t.contents, 0, 0, some (0 + (B.length + t.size))⟩ [] [] t.contents h
    (by simp [hB]) rfl (by intro e he; simp only [Option.some.injEq] at he; simp [← hB]; omega)
  rw [show fuel + fs.length = B.length + t.size + 2 by omega] at hov
  rw [hov]
  simp only [List.length_nil, Nat.zero_add, List.nil_append, ← hB]
  unfold decodeFrom
  rcases Utf8Iter.inc_same v2 v2 rfl (ofSpan_start (s := ⟨B ++ t.contents, B.length, t.size⟩))
    (ofSpan_start (s := ⟨B ++ t.contents, B.length, t.size⟩)) rfl with ⟨a, b, h1, h2, h3⟩ | ⟨u, h1, h2⟩
  · simp only at h1 h2
    have hab : a = b := by rw [h1] at h2; exact Res.ok.inj h2
    subst hab
    simp only [h1, Res.bind_eq, Res.ok_bind]
    have hi := h3.1.2.2
    simp only at hi
    rw [toUtf32Loop_buf, toUtf32Loop_same v2 v2 rfl fuel (B.length + t.size + 2) a a [] h3 (by simp only; omega) (by simp only; omega)]
  · simp only at h1
    simp only [h1, Res.bind_eq, Res.ub_bind]

/-- C107: converting two texts to UTF-8 one after the other gives the same bytes as converting them together. -/
theorem C107_to_utf8 (junk junk' junk'' : Nat → List Byte) (hj : ∀ k, (junk k).length = 7) (hj' : ∀ k, (junk' k).length = 7)
    (hj'' : ∀ k, (junk'' k).length = 7) (s t : List (BitVec 32)) :
    ∃ u v, to_utf8 junk s = .ok u ∧ to_utf8 junk' t = .ok v ∧ to_utf8 junk'' (s ++ t) = .ok (u ++ v) := by
  unfold to_utf8
  rw [toUtf8Loop_eq junk hj, toUtf8Loop_eq junk' hj', toUtf8Loop_eq junk'' hj'']
  refine ⟨_, _, rfl, rfl, ?_⟩
  simp [encodeAll]

/-! ## base64 -/

section
open Spec.Base64 Base64

/-- What a successful decoding says about the text. -/
theorem decode_inv {dbg sgn : Bool} {s r : List Byte} (hne : s ≠ []) (h : base64_decode dbg sgn s = .ok r) :
    (padding s ≠ 0 → 4 ≤ s.length) ∧ 4 * quads s ≤ s.length - padding s ∧ s.length - padding s - 4 * quads s ≠ 1 ∧
      (∀ c ∈ (s.take (s.length - padding s)).take (4 * quads s + 3), CharOk sgn c) ∧
      r = decodeGroups ((s.take (s.length - padding s)).take (4 * quads s + 3)) := by
  rw [decode_unfold _ _ _ hne] at h
  have hpl := padding_le s
  by_cases h4 : padding s ≠ 0 ∧ s.length < 4
  · rw [if_pos h4] at h; cases h
  rw [if_neg h4] at h
  have hl : (s.take (s.length - padding s)).length = s.length - padding s := by simp
  have hq : 4 * quads s ≤ (s.take (s.length - padding s)).length := by
    rw [List.length_take]; unfold quads; split <;> omega
  by_cases h1 : (s.take (s.length - padding s)).length - 4 * quads s = 1
  · by_cases hc : ∀ c ∈ (s.take (s.length - padding s)).take (4 * quads s), CharOk sgn c
    · rw [decodeStripped_one dbg sgn _ _ (by omega) hc] at h
      cases dbg <;> simp at h
    · have := quadLoop_bad dbg sgn (s.take (s.length - padding s)) (quads s) 0 [] (by omega) (by simpa using hc)
      simp [decodeStripped, this] at h
  · by_cases hc : ∀ c ∈ (s.take (s.length - padding s)).take (4 * quads s + 3), CharOk sgn c
    · rw [decodeStripped_ok dbg sgn _ _ hq h1 hc] at h
      exact ⟨fun hp => by omega, by omega, by omega, hc, (Res.ok.inj h).symm⟩
    · rw [decodeStripped_bad dbg sgn _ _ hq h1 hc] at h; cases h

theorem getLast?_append_ne (a b : List Byte) (hb : b ≠ []) : (a ++ b).getLast? = b.getLast? := by
  rw [List.getLast?_append]
  cases h : b.getLast? with
  | none => rw [List.getLast?_eq_none_iff] at h; exact absurd h hb
  | some x => rfl

theorem padding_append (a b : List Byte) (hb : padding b = 0 ∧ b ≠ [] ∨ 2 ≤ b.length) : padding (a ++ b) = padding b := by
  have hne : b ≠ [] := by
    rcases hb with h | h
    · exact h.2
    · intro h0; subst h0; simp at h
  unfold padding
  rw [getLast?_append_ne _ _ hne, List.dropLast_append_of_ne_nil hne]
  rcases hb with h | h
  · have : ¬ b.getLast? = some (ch '=') := by
      intro h1
      have := h.1
      unfold padding at this
      rw [if_pos h1] at this
      split at this <;> simp at this
    rw [if_neg this, if_neg this]
  · have : b.dropLast ≠ [] := by
      intro h0
      have := congrArg List.length h0
      simp at this; omega
    rw [getLast?_append_ne _ _ this]

/-- C107: base64 text can be decoded piece by piece: if the first piece is made of whole groups of four characters and is not padded, then
decoding the pieces one after the other gives the bytes of decoding them together. -/
theorem C107_base64 (dbg sgn : Bool) (a b x y : List Byte) (h4 : a.length % 4 = 0) (hp : a.getLast? ≠ some (ch '='))
    (ha : base64_decode dbg sgn a = .ok x) (hb : base64_decode dbg sgn b = .ok y) :
    base64_decode dbg sgn (a ++ b) = .ok (x ++ y) := by
  by_cases hb0 : b = []
  · subst hb0
    simp [base64_decode] at hb
    subst hb
    simpa using ha
  by_cases ha0 : a = []
  · subst ha0
    simp [base64_decode] at ha
    subst ha
    simpa using hb
  obtain ⟨b1, b2, b3, b4, b5⟩ := decode_inv hb0 hb
  obtain ⟨-, -, -, a4, a5⟩ := decode_inv ha0 ha
  have hpa : padding a = 0 := by unfold padding; rw [if_neg hp]
  have hqa : quads a = a.length / 4 := by unfold quads; rw [if_pos hpa]
  rw [hpa, Nat.sub_zero, List.take_length, hqa, List.take_of_length_le (by omega)] at a4 a5
  have hbl : 0 < b.length := List.length_pos_iff.mpr hb0
  have hpl := padding_le b
  have hpab : padding (a ++ b) = padding b := by
    apply padding_append
    by_cases h0 : padding b = 0
    · exact .inl ⟨h0, hb0⟩
    · exact .inr (by have := b1 h0; omega)
  have hqab : 4 * quads (a ++ b) = a.length + 4 * quads b := by
    unfold quads
    rw [hpab, List.length_append]
    by_cases h0 : padding b = 0
    · rw [if_pos h0, if_pos h0]; omega
    · have := b1 h0
      rw [if_neg h0, if_neg h0]; omega
  have hple : padding b ≤ b.length := by
    by_cases h0 : padding b = 0
    · omega
    · have := b1 h0; omega
  have ht : (a ++ b).take ((a ++ b).length - padding b) = a ++ b.take (b.length - padding b) := by
    rw [List.length_append, Nat.add_sub_assoc hple, List.take_length_add_append]
  have ht2 : (a ++ b.take (b.length - padding b)).take (4 * quads (a ++ b) + 3) =
      a ++ (b.take (b.length - padding b)).take (4 * quads b + 3) := by
    rw [hqab, Nat.add_assoc, List.take_length_add_append]
  rw [decode_unfold _ _ _ (by simp [hb0]), hpab, if_neg (by
    rintro ⟨h0, hl⟩
    have := b1 h0
    rw [List.length_append] at hl; omega), ht]
  rw [decodeStripped_ok, ht2, decodeGroups_append (a.length / 4) a _ (by omega), ← a5, ← b5]
  · rw [hqab]; simp; omega
  · rw [hqab]; simp; omega
  · rw [ht2]
    intro c hc
    rcases List.mem_append.mp hc with h | h
    · exact a4 c h
    · exact b4 c h

/-- C107: the encodings of pieces of a whole number of three bytes can be joined: the text decodes to the joined pieces. -/
theorem C107_base64_encoded (dbg sgn pad pad' : Bool) (x y : List Byte) (h3 : x.length % 3 = 0) :
    base64_decode dbg sgn (encode pad x ++ encode pad' y) = .ok (x ++ y) := by
  have he : encode pad x = encode false x := by
    cases pad
    · rfl
    · rw [encode_true_eq, h3]; simp
  rw [he]
  apply C107_base64
  · rw [length_encode_false]; split <;> omega
  · intro h
    exact (encode_false_charOk x _ (List.mem_of_getLast? h)).2 rfl
  · exact C07_decode_encode dbg sgn false x
  · exact C07_decode_encode dbg sgn pad' y

/-- C107: the conditions matter: of joined padded texts only the last padding is recognised, and after a piece that is not made of whole
groups the bits of the following piece are shifted. -/
theorem C107_base64_not : ∃ a b x y z : List Byte, base64_decode true true a = .ok x ∧ base64_decode true true b = .ok y ∧
    a.length % 4 = 0 ∧ base64_decode true true (a ++ b) = .ok z ∧ z ≠ x ++ y :=
  ⟨str "Zg==", str "Zm9v", str "f", str "foo", [0x66, 0, 0, 0x66, 0x6f, 0x6f], by decide +kernel⟩

example : base64_decode true true (str "Zm9v" ++ str "YmE=") = .ok (str "fooba") ∧
    base64_decode true true (str "Zm9v") = .ok (str "foo") ∧ base64_decode true true (str "YmE=") = .ok (str "ba") := by
  decide +kernel

end

/-! ## Examples -/

/-- `é` and `€`, followed by `a` and a form cut short. -/
example : to_utf32_span ⟨[0xc3, 0xa9, 0xe2, 0x82, 0xac, 0x61], 0, 6⟩ = .ok [0xe9, 0x20ac, 0x61] ∧
    ([0xc3, 0xa9, 0xe2, 0x82, 0xac] : List Byte) = [(2, 0xe9), (3, 0x20ac)].flatMap (fun f => form f.1 f.2) ∧
    to_utf32_span ⟨[0x61], 0, 1⟩ = .ok [0x61] := by
  decide +kernel

end Utki
