import Verif.Props.Serialize
import Verif.Props.Unicode
import Verif.Spec.Lex
import Mathlib.Tactic.ByContra
import Mathlib.Tactic.NormNum
import Mathlib.Tactic.SplitIfs
import Mathlib.Algebra.Order.Group.Nat
/-!
# C106: encoded forms compare like what they encode

Bytes are compared as unsigned numbers, as `memcmp` and the comparison operators of `std::string` do.
-/
namespace Utki

open Spec Spec.Utf8

/-! ## Lexicographic comparison -/

section
variable {α : Type} {lt : α → α → Bool}

/-- The sequences differ at a place where both go on, and there the first one is less. -/
def LexDiff (lt : α → α → Bool) (l r : List α) : Prop := ∃ pre a b s t, l = pre ++ a :: s ∧ r = pre ++ b :: t ∧ lt a b = true

theorem LexDiff.append {l r : List α} (h : LexDiff lt l r) (x y : List α) : LexDiff lt (l ++ x) (r ++ y) := by
  obtain ⟨pre, a, b, s, t, rfl, rfl, h3⟩ := h
  exact ⟨pre, a, b, s ++ x, t ++ y, by simp, by simp, h3⟩

theorem LexDiff.cons {l r : List α} (h : LexDiff lt l r) (x : α) : LexDiff lt (x :: l) (x :: r) := by
  obtain ⟨pre, a, b, s, t, rfl, rfl, h3⟩ := h
  exact ⟨x :: pre, a, b, s, t, rfl, rfl, h3⟩

theorem LexDiff.less (hlt : StrictTotal lt) {l r : List α} (h : LexDiff lt l r) : LexLess lt l r := by
  obtain ⟨pre, a, b, s, t, rfl, rfl, h3⟩ := h
  refine ⟨pre.length, ?_, .inr ⟨a, b, by simp, by simp, h3⟩⟩
  intro i hi
  exact ⟨pre[i], pre[i], by rw [List.getElem?_append_left hi, List.getElem?_eq_getElem hi], by rw [List.getElem?_append_left hi, List.getElem?_eq_getElem hi], hlt.irrefl _, hlt.irrefl _⟩

theorem lexLess_asymm (hlt : StrictTotal lt) {l r : List α} (h : LexLess lt l r) : ¬ LexLess lt r l := by
  rintro ⟨k', h1', h2'⟩
  obtain ⟨k, h1, h2⟩ := h
  have hasym : ∀ a b, lt a b = true → lt b a = true → False := by
    intro a b h h'
    have := hlt.trans a b a h h'
    rw [hlt.irrefl] at this
    cases this
  rcases Nat.lt_trichotomy k k' with hk | rfl | hk
  · obtain ⟨a, b, e1, e2, e3, e4⟩ := h1' k hk
    rcases h2 with ⟨h3, -⟩ | ⟨a', b', f1, f2, f3⟩
    · rw [List.getElem?_eq_none (by omega)] at e2; cases e2
    · rw [f1] at e2; rw [f2] at e1
      cases e1; cases e2
      rw [e4] at f3; cases f3
  · rcases h2 with ⟨h3, h4⟩ | ⟨a, b, f1, f2, f3⟩ <;> rcases h2' with ⟨h3', h4'⟩ | ⟨a', b', f1', f2', f3'⟩
    · omega
    · rw [List.getElem?_eq_none (by omega)] at f2'; cases f2'
    · rw [List.getElem?_eq_none (by omega)] at f2; cases f2
    · rw [f1] at f2'; rw [f2] at f1'
      cases f1'; cases f2'
      exact hasym _ _ f3 f3'
  · obtain ⟨a, b, e1, e2, e3, e4⟩ := h1 k' hk
    rcases h2' with ⟨h3, -⟩ | ⟨a', b', f1, f2, f3⟩
    · rw [List.getElem?_eq_none (by omega)] at e2; cases e2
    · rw [f1] at e2; rw [f2] at e1
      cases e1; cases e2
      rw [e4] at f3; cases f3

theorem lexLess_nil_right (l : List α) : ¬ LexLess lt l [] := by
  rintro ⟨k, -, ⟨-, h⟩ | ⟨a, b, -, h, -⟩⟩
  · simp at h
  · simp at h

theorem lexLess_nil_left (l : List α) : LexLess lt [] l ↔ l ≠ [] := by
  constructor
  · rintro h rfl; exact lexLess_nil_right _ h
  · intro h
    exact ⟨0, fun i hi => absurd hi (by omega), .inl ⟨rfl, List.length_pos_iff.mpr h⟩⟩

theorem lexLess_prefix (hlt : StrictTotal lt) (pre l r : List α) : LexLess lt (pre ++ l) (pre ++ r) ↔ LexLess lt l r := by
  constructor
  · rintro ⟨k, h1, h2⟩
    have hk : pre.length ≤ k := by
      by_contra hc
      rcases h2 with ⟨h3, -⟩ | ⟨a, b, f1, f2, f3⟩
      · simp at h3; omega
      · rw [List.getElem?_append_left (by omega)] at f1 f2
        rw [f1] at f2; cases f2
        rw [hlt.irrefl] at f3; cases f3
    refine ⟨k - pre.length, ?_, ?_⟩
    · intro i hi
      obtain ⟨a, b, e1, e2, e3⟩ := h1 (i + pre.length) (by omega)
      rw [List.getElem?_append_right (by omega)] at e1 e2
      simp only [Nat.add_sub_cancel] at e1 e2
      exact ⟨a, b, e1, e2, e3⟩
    · rcases h2 with ⟨h3, h4⟩ | ⟨a, b, f1, f2, f3⟩
      · left; simp at h3 h4; omega
      · right
        rw [List.getElem?_append_right (by omega)] at f1 f2
        exact ⟨a, b, f1, f2, f3⟩
  · rintro ⟨k, h1, h2⟩
    refine ⟨k + pre.length, ?_, ?_⟩
    · intro i hi
      by_cases hp : i < pre.length
      · exact ⟨pre[i], pre[i], by rw [List.getElem?_append_left hp, List.getElem?_eq_getElem hp], by rw [List.getElem?_append_left hp, List.getElem?_eq_getElem hp], hlt.irrefl _, hlt.irrefl _⟩
      · obtain ⟨a, b, e1, e2, e3⟩ := h1 (i - pre.length) (by omega)
        exact ⟨a, b, by rw [List.getElem?_append_right (by omega), e1], by rw [List.getElem?_append_right (by omega), e2], e3⟩
    · rcases h2 with ⟨h3, h4⟩ | ⟨a, b, f1, f2, f3⟩
      · left; simp; omega
      · right
        exact ⟨a, b, by rw [List.getElem?_append_right (by omega), Nat.add_sub_cancel, f1],
          by rw [List.getElem?_append_right (by omega), Nat.add_sub_cancel, f2], f3⟩

end

theorem ult_total (w : Nat) : StrictTotal (BitVec.ult (n := w)) where
  irrefl a := by simp [BitVec.ult]
  trans a b c := by simp only [BitVec.ult, decide_eq_true_eq]; omega
  tri a b := by
    simp only [BitVec.ult, decide_eq_true_eq]
    rcases Nat.lt_trichotomy a.toNat b.toNat with h | h | h
    · exact .inl h
    · exact .inr (.inl (BitVec.eq_of_toNat_eq h))
    · exact .inr (.inr h)

/-! ## Digits -/

theorem div_split {c d B : Nat} (h : c < d) (k : Nat) (he : c / B ^ (k + 1) = d / B ^ (k + 1)) :
    c / B ^ k % B < d / B ^ k % B ∨ c / B ^ k = d / B ^ k := by
  have hle : c / B ^ k ≤ d / B ^ k := Nat.div_le_div_right h.le
  rw [Nat.pow_succ, ← Nat.div_div_eq_div_mul, ← Nat.div_div_eq_div_mul] at he
  have a1 := Nat.div_add_mod (c / B ^ k) B
  have a2 := Nat.div_add_mod (d / B ^ k) B
  rw [he] at a1
  omega

theorem conts_diff : ∀ (k : Nat) {c d : Nat}, c < d → c / 64 ^ k = d / 64 ^ k → LexDiff BitVec.ult (conts k c) (conts k d) := by
  intro k
  induction k with
  | zero => intro c d h he; simp at he; omega
  | succ k ih =>
    intro c d h he
    simp only [conts]
    rcases div_split h k he with h1 | h1
    · refine ⟨[], _, _, _, _, rfl, rfl, ?_⟩
      have := Nat.mod_lt (d / 64 ^ k) (show 0 < 64 by norm_num)
      simp [BitVec.ult]
      omega
    · rw [h1]
      exact (ih h h1).cons _

theorem beBytes_diff : ∀ (n : Nat) {v w : Nat}, v < w → v / 256 ^ n = w / 256 ^ n → LexDiff BitVec.ult (beBytes n v) (beBytes n w) := by
  intro n
  induction n with
  | zero => intro c d h he; simp at he; omega
  | succ n ih =>
    intro c d h he
    rw [beBytes_succ, beBytes_succ]
    rcases div_split h n he with h1 | h1
    · refine ⟨[], _, _, _, _, rfl, rfl, ?_⟩
      simp [BitVec.ult]
      omega
    · rw [h1]
      exact (ih h h1).cons _

/-! ## Big-endian integers -/

theorem beBytes_order (n : Nat) (v w : BitVec (8 * n)) : LexLess BitVec.ult (beBytes n v.toNat) (beBytes n w.toNat) ↔ v < w := by
  have hb : ∀ x : BitVec (8 * n), x.toNat / 256 ^ n = 0 := by
    intro x
    apply Nat.div_eq_of_lt
    have := x.isLt
    rwa [show 256 = 2 ^ 8 by norm_num, ← pow_mul]
  rcases Nat.lt_trichotomy v.toNat w.toNat with h | h | h
  · exact ⟨fun _ => h, fun _ => (beBytes_diff n h (by rw [hb, hb])).less (ult_total 8)⟩
  · have : v = w := BitVec.eq_of_toNat_eq h
    subst this
    exact ⟨fun h => absurd h (lexLess_asymm (ult_total 8) h), fun h => absurd h (by simp)⟩
  · have := (beBytes_diff n h (by rw [hb, hb])).less (ult_total 8)
    refine ⟨fun h' => absurd h' (lexLess_asymm (ult_total 8) this), fun h' => ?_⟩
    have : v.toNat < w.toNat := h'
    omega

/-- C106: of two integers serialized with the most significant byte first, anywhere in memory, the bytes of the smaller one compare less,
and only of the smaller one. -/
theorem C106_big_endian (dbg : Bool) (n : Nat) (v w : BitVec (8 * n)) (mem mem' : List Byte) (p p' : Nat) (room : p + n ≤ mem.length)
    (room' : p' + n ≤ mem'.length) :
    ∃ m m' q q', serialize_be dbg v mem p = .ok (m, q) ∧ serialize_be dbg w mem' p' = .ok (m', q') ∧
      (LexLess BitVec.ult ((m.drop p).take n) ((m'.drop p').take n) ↔ v < w) := by
  have hb : ∀ (v : BitVec (8 * n)) (mem : List Byte) (p : Nat), p + n ≤ mem.length →
      ((patch mem p (beBytes n v.toNat)).drop p).take n = beBytes n v.toNat := by
    intro v mem p room
    have hl : (beBytes n v.toNat).length = n := length_beBytes _ _
    have := take_drop_patch (mem := mem) (p := p) (bs := beBytes n v.toNat) (by omega)
    rwa [hl] at this
  refine ⟨_, _, _, _, serialize_be_eq dbg v mem p room, serialize_be_eq dbg w mem' p' room', ?_⟩
  rw [hb v mem p room, hb w mem' p' room']
  exact beBytes_order n v w

/-! ## UTF-8 -/

theorem size_mono {c d : Nat} (h : c ≤ d) (hd : d < 0x80000000) : size c ≤ size d := by
  unfold size
  split_ifs <;> omega

theorem encode_diff {c d : Nat} (h : c < d) (hd : d < 0x80000000) : LexDiff BitVec.ult (encode c) (encode d) := by
  obtain ⟨c1, c6, cc⟩ := size_facts c (by omega)
  obtain ⟨d1, d6, dc⟩ := size_facts d hd
  have hm := size_mono h.le hd
  unfold encode
  rw [if_neg (by omega), if_neg (by omega)]
  unfold form
  rcases Nat.lt_or_ge (size c) (size d) with hs | hs
  · refine ⟨[], _, _, _, _, rfl, rfl, ?_⟩
    generalize size c = n at *
    generalize size d = m at *
    have hn : n = 1 ∨ n = 2 ∨ n = 3 ∨ n = 4 ∨ n = 5 := by omega
    have hm' : m = 2 ∨ m = 3 ∨ m = 4 ∨ m = 5 ∨ m = 6 := by omega
    rcases hn with rfl | rfl | rfl | rfl | rfl <;> rcases hm' with rfl | rfl | rfl | rfl | rfl <;> first
      | omega
      | (simp only [capacity, lead, BitVec.ult, BitVec.toNat_ofNat, decide_eq_true_eq] at *
         omega)
  · have hs' : size c = size d := by omega
    rw [hs'] at cc ⊢
    generalize size d = n at *
    have hn : n = 1 ∨ n = 2 ∨ n = 3 ∨ n = 4 ∨ n = 5 ∨ n = 6 := by omega
    have hle : c / 64 ^ (n - 1) ≤ d / 64 ^ (n - 1) := Nat.div_le_div_right h.le
    rcases Nat.lt_or_ge (c / 64 ^ (n - 1)) (d / 64 ^ (n - 1)) with h1 | h1
    · refine ⟨[], _, _, _, _, rfl, rfl, ?_⟩
      rcases hn with rfl | rfl | rfl | rfl | rfl | rfl <;>
        (simp only [capacity, lead, BitVec.ult, BitVec.toNat_ofNat, decide_eq_true_eq] at *
         omega)
    · have he : c / 64 ^ (n - 1) = d / 64 ^ (n - 1) := by omega
      rw [he]
      exact (conts_diff (n - 1) h he).cons _

theorem encodeAll_order : ∀ (s t : List (BitVec 32)), (∀ c ∈ s, c ≤ 0x7fffffff#32) → (∀ c ∈ t, c ≤ 0x7fffffff#32) →
    (LexLess BitVec.ult (encodeAll s) (encodeAll t) ↔ LexLess BitVec.ult s t) := by
  have hne : ∀ c : BitVec 32, c ≤ 0x7fffffff#32 → encode c.toNat ≠ [] := by
    intro c hc
    have hc' : c.toNat ≤ 0x7fffffff := hc
    obtain ⟨h1, -, -⟩ := size_facts c.toNat (by omega)
    unfold encode
    rw [if_neg (by omega)]
    simp [form]
  intro s
  induction s with
  | nil =>
    intro t _ ht
    simp only [encodeAll, List.flatMap_nil]
    rw [lexLess_nil_left, lexLess_nil_left]
    cases t with
    | nil => simp
    | cons d t =>
      simp only [List.flatMap_cons]
      have := hne d (ht d (by simp))
      simp [this]
  | cons c s ih =>
    intro t hs ht
    cases t with
    | nil => exact ⟨fun h => absurd h (lexLess_nil_right _), fun h => absurd h (lexLess_nil_right _)⟩
    | cons d t =>
      have hc : c.toNat ≤ 0x7fffffff := hs c (by simp)
      have hd : d.toNat ≤ 0x7fffffff := ht d (by simp)
      have e1 : encodeAll (c :: s) = encode c.toNat ++ encodeAll s := rfl
      have e2 : encodeAll (d :: t) = encode d.toNat ++ encodeAll t := rfl
      rcases Nat.lt_trichotomy c.toNat d.toNat with h | h | h
      · have a1 : LexLess BitVec.ult (encodeAll (c :: s)) (encodeAll (d :: t)) := by
          rw [e1, e2]
          exact ((encode_diff h (by omega)).append _ _).less (ult_total 8)
        have a2 : LexLess BitVec.ult (c :: s) (d :: t) :=
          LexDiff.less (ult_total 32) ⟨[], c, d, s, t, rfl, rfl, by simp [BitVec.ult, h]⟩
        exact ⟨fun _ => a2, fun _ => a1⟩
      · have : c = d := BitVec.eq_of_toNat_eq h
        subst this
        rw [e1, e2, lexLess_prefix (ult_total 8), ih t (fun c hc => hs c (by simp [hc])) (fun c hc => ht c (by simp [hc]))]
        exact (lexLess_prefix (ult_total 32) [c] s t).symm
      · have a1 : LexLess BitVec.ult (encodeAll (d :: t)) (encodeAll (c :: s)) := by
          rw [e1, e2]
          exact ((encode_diff h (by omega)).append _ _).less (ult_total 8)
        have a2 : LexLess BitVec.ult (d :: t) (c :: s) :=
          LexDiff.less (ult_total 32) ⟨[], d, c, t, s, rfl, rfl, by simp [BitVec.ult, h]⟩
        exact ⟨fun h => absurd h (lexLess_asymm (ult_total 8) a1), fun h => absurd h (lexLess_asymm (ult_total 32) a2)⟩

/-- C106: of two texts converted to UTF-8, the bytes of one compare less than those of the other exactly if its characters do; and the bytes
are equal exactly if the texts are. -/
theorem C106_utf8 (junk junk' : Nat → List Byte) (hj : ∀ k, (junk k).length = 7) (hj' : ∀ k, (junk' k).length = 7) (s t : List (BitVec 32))
    (hs : ∀ c ∈ s, c ≠ 0 ∧ c ≤ 0x7fffffff#32) (ht : ∀ c ∈ t, c ≠ 0 ∧ c ≤ 0x7fffffff#32) :
    ∃ u v, to_utf8 junk s = .ok u ∧ to_utf8 junk' t = .ok v ∧
      (LexLess BitVec.ult u v ↔ LexLess BitVec.ult s t) ∧ (u = v ↔ s = t) := by
  obtain ⟨u, u1, u2, -⟩ := C10_round_trip_exact junk hj s hs
  obtain ⟨v, v1, v2, -⟩ := C10_round_trip_exact junk' hj' t ht
  have key : ∀ (junk : Nat → List Byte) (hj : ∀ k, (junk k).length = 7) (s : List (BitVec 32)) (u : List Byte),
      (∀ c ∈ s, c ≠ 0 ∧ c ≤ 0x7fffffff#32) → to_utf8 junk s = .ok u → u = encodeAll s := by
    intro junk hj s u hs h
    unfold to_utf8 at h
    rw [toUtf8Loop_eq junk hj] at h
    have hf : s.filter kept = s := List.filter_eq_self.mpr (fun c hc => kept_eq_representable ▸ representable_of (hs c hc))
    rw [hf] at h
    simpa using (Res.ok.inj h).symm
  have ku := key junk hj s u hs u1
  have kv := key junk' hj' t v ht v1
  refine ⟨u, v, u1, v1, ?_, ?_⟩
  · rw [ku, kv]
    exact encodeAll_order s t (fun c hc => (hs c hc).2) (fun c hc => (ht c hc).2)
  · constructor
    · rintro rfl
      rw [u2] at v2
      exact Res.ok.inj v2
    · rintro rfl
      rw [ku, kv]

/-- C106: integers serialized with the least significant byte first do not have this property: 1 < 256, but `01 00` is not less than `00 01`. -/
theorem C106_little_endian_not : ∃ (v w : BitVec (8 * 2)) (m m' : List Byte), v < w ∧ serialize_le (n := 2) v [0, 0] 0 = .ok (m, 2) ∧
    serialize_le (n := 2) w [0, 0] 0 = .ok (m', 2) ∧ ¬ LexLess BitVec.ult m m' := by
  have h : LexDiff BitVec.ult ([0, 1] : List Byte) [1, 0] := ⟨[], 0, 1, [1], [0], rfl, rfl, by decide⟩
  exact ⟨1, 256, [1, 0], [0, 1], by decide, by decide, by decide, lexLess_asymm (ult_total 8) (h.less (ult_total 8))⟩

/-- U+FFFD is less than U+10000, in UTF-8 as well (in UTF-16 it is not). -/
example : LexLess BitVec.ult (encodeAll [0xfffd]) (encodeAll [0x10000]) ∧ encodeAll [0xfffd] = [0xef, 0xbf, 0xbd] ∧
    encodeAll [0x10000] = [0xf0, 0x90, 0x80, 0x80] := by
  have h : LexLess BitVec.ult [0xfffd#32] [0x10000#32] := LexDiff.less (ult_total 32) ⟨[], 0xfffd, 0x10000, [], [], rfl, rfl, by decide⟩
  have h1 : ∀ c ∈ [0xfffd#32], c ≤ 0x7fffffff#32 := by intro c hc; rw [List.mem_singleton.mp hc]; decide
  have h2 : ∀ c ∈ [0x10000#32], c ≤ 0x7fffffff#32 := by intro c hc; rw [List.mem_singleton.mp hc]; decide
  exact ⟨(encodeAll_order _ _ h1 h2).mpr h, by decide +kernel, by decide +kernel⟩

end Utki
