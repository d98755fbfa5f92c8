import Verif.Model.Base64
import Verif.Spec.Base64
/-! # Lemmas about the base64 decoder -/
namespace Utki.Base64
open Utki.Spec.Base64

theorem table_eq : ∀ i : Fin 256, decode_table[i.val]? = some (BitVec.ofNat 8 (value6 (BitVec.ofNat 8 i.val))) := by
  decide +kernel

theorem value6_lt_fin : ∀ i : Fin 256, value6 (BitVec.ofNat 8 i.val) < 64 := by decide +kernel

theorem value6_char6_fin : ∀ n : Fin 64, value6 (char6 n.val) = n.val := by decide +kernel

theorem char6_fin : ∀ n : Fin 64, (char6 n.val).msb = false ∧ char6 n.val ≠ ch '=' := by decide +kernel

theorem value6_lt (c : Byte) : value6 c < 64 := by
  have := value6_lt_fin ⟨c.toNat, c.isLt⟩
  simpa using this

theorem value6_char6 {n : Nat} (h : n < 64) : value6 (char6 n) = n := value6_char6_fin ⟨n, h⟩

theorem char6_msb {n : Nat} (h : n < 64) : (char6 n).msb = false := (char6_fin ⟨n, h⟩).1
theorem char6_ne {n : Nat} (h : n < 64) : char6 n ≠ ch '=' := (char6_fin ⟨n, h⟩).2

theorem value6_A : value6 (ch 'A') = 0 := by decide +kernel

/-- A character that can index the table. -/
def CharOk (sgn : Bool) (c : Byte) : Prop := sgn = false ∨ c.msb = false

theorem charOk_A (sgn) : CharOk sgn (ch 'A') := .inr (by decide)

theorem lookup_ok {sgn c} (h : CharOk sgn c) : lookup sgn c = .ok (BitVec.ofNat 8 (value6 c)) := by
  have ht := table_eq ⟨c.toNat, c.isLt⟩
  have : charIndex sgn c = c.toNat := by
    unfold charIndex; rcases h with h | h <;> simp [h]
  unfold lookup rd
  rw [this]
  simp only [BitVec.ofNat_toNat, BitVec.setWidth_eq] at ht
  rw [ht]

theorem lookup_bad {sgn c} (h : ¬ CharOk sgn c) : lookup sgn c = .ub .oob_read := by
  have h1 : (sgn && c.msb) = true := by
    unfold CharOk at h; cases sgn <;> cases hc : c.msb <;> simp_all
  have : decode_table.length = 256 := by decide +kernel
  have : decode_table.length ≤ charIndex sgn c := by
    unfold charIndex; rw [if_pos h1]; omega
  exact rd_oob this

theorem or_sum {va vb vc vd : Nat} (hb : vb < 64) (hc : vc < 64) (hd : vd < 64) :
    ((va <<< 18) ||| (vb <<< 12) ||| (vc <<< 6) ||| vd) = va * 262144 + vb * 4096 + vc * 64 + vd := by
  have h3 : (vc <<< 6) ||| vd = vc <<< 6 + vd := (Nat.shiftLeft_add_eq_or_of_lt (by omega) _).symm
  have h2 : (vb <<< 12) ||| (vc <<< 6 + vd) = vb <<< 12 + (vc <<< 6 + vd) :=
    (Nat.shiftLeft_add_eq_or_of_lt (by simp [Nat.shiftLeft_eq]; omega) _).symm
  have h1 : (va <<< 18) ||| (vb <<< 12 + (vc <<< 6 + vd)) = va <<< 18 + (vb <<< 12 + (vc <<< 6 + vd)) :=
    (Nat.shiftLeft_add_eq_or_of_lt (by simp [Nat.shiftLeft_eq]; omega) _).symm
  rw [Nat.or_assoc, Nat.or_assoc, h3, h2, h1]
  simp [Nat.shiftLeft_eq]; omega

theorem quad_ok {sgn a b c d} (ha : CharOk sgn a) (hb : CharOk sgn b) (hc : CharOk sgn c) (hd : CharOk sgn d) :
    ∃ x y z, base64_decode_quad sgn a b c d = .ok (x, y, z) ∧ [x, y, z] = group a b c d := by
  have la := value6_lt a
  have lb := value6_lt b
  have lc := value6_lt c
  have ld := value6_lt d
  simp only [base64_decode_quad, lookup_ok, ha, hb, hc, hd, Res.bind_eq, Res.ok_bind, Res.pure_eq]
  refine ⟨_, _, _, rfl, ?_⟩
  simp only [group]
  generalize value6 a = va at *
  generalize value6 b = vb at *
  generalize value6 c = vc at *
  generalize value6 d = vd at *
  have hor := or_sum (va := va) lb lc ld
  have hq : (((BitVec.ofNat 8 va).setWidth 32 <<< (6 * 3)) ||| ((BitVec.ofNat 8 vb).setWidth 32 <<< (6 * 2)) |||
      ((BitVec.ofNat 8 vc).setWidth 32 <<< 6) ||| (BitVec.ofNat 8 vd).setWidth 32 : BitVec 32).toNat =
      va * 262144 + vb * 4096 + vc * 64 + vd := by
    simp only [BitVec.toNat_or, BitVec.toNat_shiftLeft, BitVec.toNat_setWidth, BitVec.toNat_ofNat]
    rw [← hor]
    simp only [Nat.shiftLeft_eq]
    rw [show va % 2 ^ 8 % 2 ^ 32 = va by omega, show vb % 2 ^ 8 % 2 ^ 32 = vb by omega,
      show vc % 2 ^ 8 % 2 ^ 32 = vc by omega, show vd % 2 ^ 8 % 2 ^ 32 = vd by omega]
    rw [show va * 2 ^ (6 * 3) % 2 ^ 32 = va * 2 ^ 18 by omega, show vb * 2 ^ (6 * 2) % 2 ^ 32 = vb * 2 ^ 12 by omega,
      show vc * 2 ^ 6 % 2 ^ 32 = vc * 2 ^ 6 by omega]
  generalize hqq : (((BitVec.ofNat 8 va).setWidth 32 <<< (6 * 3)) ||| ((BitVec.ofNat 8 vb).setWidth 32 <<< (6 * 2)) |||
      ((BitVec.ofNat 8 vc).setWidth 32 <<< 6) ||| (BitVec.ofNat 8 vd).setWidth 32 : BitVec 32) = q at hq
  rw [← hq]
  have hm : ∀ n : Nat, n &&& 255 = n % 256 := fun n => Nat.and_two_pow_sub_one_eq_mod n 8
  congr 1
  · apply BitVec.eq_of_toNat_eq
    simp [Nat.shiftRight_eq_div_pow, hm]
  congr 1
  · apply BitVec.eq_of_toNat_eq
    simp [Nat.shiftRight_eq_div_pow, hm]
  congr 1
  · apply BitVec.eq_of_toNat_eq
    simp [hm]

theorem quad_bad {sgn a b c d} (h : ¬ (CharOk sgn a ∧ CharOk sgn b ∧ CharOk sgn c ∧ CharOk sgn d)) :
    base64_decode_quad sgn a b c d = .ub .oob_read := by
  unfold base64_decode_quad
  by_cases ha : CharOk sgn a
  · by_cases hb : CharOk sgn b
    · by_cases hc : CharOk sgn c
      · by_cases hd : CharOk sgn d
        · exact absurd ⟨ha, hb, hc, hd⟩ h
        · simp [lookup_ok, lookup_bad, *]
      · simp [lookup_ok, lookup_bad, *]
    · simp [lookup_ok, lookup_bad, *]
  · simp [lookup_bad, *]

theorem decodeGroups_cons4 {t : List Byte} {a b c d} :
    decodeGroups (a :: b :: c :: d :: t) = group a b c d ++ decodeGroups t := by
  rw [decodeGroups]

/-- Whole quads then the tail. -/
theorem decodeGroups_append (q : Nat) : ∀ (u v : List Byte), u.length = 4 * q →
    decodeGroups (u ++ v) = decodeGroups u ++ decodeGroups v := by
  induction q with
  | zero => intro u v h; have : u = [] := List.length_eq_zero_iff.mp (by omega); subst this; simp [decodeGroups]
  | succ q ih =>
    intro u v h
    match u, h with
    | a :: b :: c :: d :: u, h =>
      have := ih u v (by simp at h; omega)
      simp only [List.cons_append, decodeGroups_cons4, this, List.append_assoc]
    | [], h => simp at h
    | [_], h => simp at h; omega
    | [_, _], h => simp at h; omega
    | [_, _, _], h => simp at h; omega

theorem drop_take4 {s : List Byte} {i n : Nat} (h : i + 4 ≤ s.length) :
    (s.drop i).take (n + 4) = s[i] :: s[i + 1] :: s[i + 2] :: s[i + 3] :: (s.drop (i + 4)).take n := by
  rw [List.drop_eq_getElem_cons (by omega : i < s.length), List.take_succ_cons,
    List.drop_eq_getElem_cons (by omega : i + 1 < s.length), List.take_succ_cons,
    List.drop_eq_getElem_cons (by omega : i + 1 + 1 < s.length), List.take_succ_cons,
    List.drop_eq_getElem_cons (by omega : i + 1 + 1 + 1 < s.length), List.take_succ_cons]

theorem quadLoop_ok (dbg sgn : Bool) (s : List Byte) : ∀ (q i : Nat) (ret : List Byte), i + 4 * q ≤ s.length →
    (∀ c ∈ (s.drop i).take (4 * q), CharOk sgn c) →
    quadLoop dbg sgn s q i ret = .ok (ret ++ decodeGroups ((s.drop i).take (4 * q)), i + 4 * q) := by
  intro q
  induction q with
  | zero => intro i ret h hc; simp [quadLoop, decodeGroups]
  | succ q ih =>
    intro i ret h hc
    rw [show 4 * (q + 1) = 4 * q + 4 by omega, drop_take4 (by omega)] at hc ⊢
    obtain ⟨x, y, z, hq, hg⟩ := quad_ok (hc s[i] (by simp)) (hc s[i+1] (by simp)) (hc s[i+2] (by simp)) (hc s[i+3] (by simp))
    unfold quadLoop
    have h1 : (decide (i < s.length)) = true := by simp; omega
    have h2 : (decide (i + 4 ≤ s.length)) = true := by simp; omega
    simp only [h1, h2, ASSERT_true, Res.bind_eq, Res.ok_bind, rd_eq_ok (show i < s.length by omega),
      rd_eq_ok (show i + 1 < s.length by omega), rd_eq_ok (show i + 2 < s.length by omega),
      rd_eq_ok (show i + 3 < s.length by omega), hq]
    rw [ih (i + 4) _ (by omega) (fun c h => hc c (by simp [h])), decodeGroups_cons4, ← hg]
    simp; omega

theorem quadLoop_bad (dbg sgn : Bool) (s : List Byte) : ∀ (q i : Nat) (ret : List Byte), i + 4 * q ≤ s.length →
    ¬ (∀ c ∈ (s.drop i).take (4 * q), CharOk sgn c) →
    quadLoop dbg sgn s q i ret = .ub .oob_read := by
  intro q
  induction q with
  | zero => intro i ret h hc; simp at hc
  | succ q ih =>
    intro i ret h hc
    rw [show 4 * (q + 1) = 4 * q + 4 by omega, drop_take4 (by omega)] at hc
    unfold quadLoop
    have h1 : (decide (i < s.length)) = true := by simp; omega
    have h2 : (decide (i + 4 ≤ s.length)) = true := by simp; omega
    simp only [h1, h2, ASSERT_true, Res.bind_eq, Res.ok_bind, rd_eq_ok (show i < s.length by omega),
      rd_eq_ok (show i + 1 < s.length by omega), rd_eq_ok (show i + 2 < s.length by omega),
      rd_eq_ok (show i + 3 < s.length by omega)]
    by_cases h4 : CharOk sgn s[i] ∧ CharOk sgn s[i+1] ∧ CharOk sgn s[i+2] ∧ CharOk sgn s[i+3]
    · obtain ⟨x, y, z, hq, hg⟩ := quad_ok h4.1 h4.2.1 h4.2.2.1 h4.2.2.2
      simp only [hq, Res.ok_bind]
      apply ih (i + 4) _ (by omega)
      intro hall
      apply hc
      intro c hcm
      simp only [List.mem_cons] at hcm
      rcases hcm with h | h | h | h | h
      · exact h ▸ h4.1
      · exact h ▸ h4.2.1
      · exact h ▸ h4.2.2.1
      · exact h ▸ h4.2.2.2
      · exact hall c h
    · rw [quad_bad h4]; rfl

/-- The stripped part: what `decodeStripped` computes, by the number of characters left after the whole quads. -/
theorem decodeStripped_ok (dbg sgn : Bool) (s : List Byte) (q : Nat) (hq : 4 * q ≤ s.length)
    (h1 : s.length - 4 * q ≠ 1) (hc : ∀ c ∈ s.take (4 * q + 3), CharOk sgn c) :
    decodeStripped dbg sgn s q = .ok (decodeGroups (s.take (4 * q + 3))) := by
  have hsplit : s.take (4 * q + 3) = s.take (4 * q) ++ (s.drop (4 * q)).take 3 := List.take_add
  have hloop := quadLoop_ok dbg sgn s q 0 [] (by omega)
    (by intro c hcm; apply hc; rw [hsplit]; simp only [List.drop_zero] at hcm; simp [hcm])
  have hg := decodeGroups_append q (s.take (4 * q)) ((s.drop (4 * q)).take 3) (by simp; omega)
  rw [hsplit, hg]
  simp only [List.drop_zero, List.nil_append, Nat.zero_add] at hloop
  unfold decodeStripped
  have ha1 : decide (4 * q ≤ s.length) = true := by simp; omega
  simp only [hloop, Res.bind_eq, Res.ok_bind, ha1, ASSERT_true, Res.pure_eq]
  by_cases he : 4 * q = s.length
  · rw [if_pos he]; simp [he, decodeGroups]
  · rw [if_neg he]
    have ha2 : decide (4 * q + 1 ≠ s.length) = true := by simp; omega
    simp only [rd_eq_ok (show 4 * q < s.length by omega), rd_eq_ok (show 4 * q + 1 < s.length by omega), Res.ok_bind,
      ha2, ASSERT_true]
    rw [hsplit] at hc
    by_cases he2 : 4 * q + 1 + 1 = s.length
    · rw [if_pos he2]
      have e : (s.drop (4 * q)).take 3 = [s[4 * q], s[4 * q + 1]] := by
        rw [List.drop_eq_getElem_cons (by omega : 4 * q < s.length), List.take_succ_cons,
          List.drop_eq_getElem_cons (by omega : 4 * q + 1 < s.length), List.take_succ_cons,
          List.drop_eq_nil_of_le (by omega), List.take_nil]
      rw [e] at hc ⊢
      obtain ⟨x, y, z, hqd, hgr⟩ := quad_ok (hc s[4*q] (by simp)) (hc s[4*q+1] (by simp)) (charOk_A sgn) (charOk_A sgn)
      simp [hqd, decodeGroups, ← hgr]
    · rw [if_neg he2]
      have e : (s.drop (4 * q)).take 3 = [s[4 * q], s[4 * q + 1], s[4 * q + 1 + 1]] := by
        rw [List.drop_eq_getElem_cons (by omega : 4 * q < s.length), List.take_succ_cons,
          List.drop_eq_getElem_cons (by omega : 4 * q + 1 < s.length), List.take_succ_cons,
          List.drop_eq_getElem_cons (by omega : 4 * q + 1 + 1 < s.length), List.take_succ_cons, List.take_zero]
      rw [e] at hc ⊢
      obtain ⟨x, y, z, hqd, hgr⟩ := quad_ok (hc s[4*q] (by simp)) (hc s[4*q+1] (by simp)) (hc s[4*q+1+1] (by simp))
        (charOk_A sgn)
      simp [rd_eq_ok (show 4 * q + 1 + 1 < s.length by omega), hqd, decodeGroups, ← hgr]

theorem decodeStripped_one (dbg sgn : Bool) (s : List Byte) (q : Nat) 
    (h1 : s.length = 4 * q + 1) (hc : ∀ c ∈ s.take (4 * q), CharOk sgn c) :
    decodeStripped dbg sgn s q = if dbg then .abort else .ub .oob_read := by
  have hloop := quadLoop_ok dbg sgn s q 0 [] (by omega) (by simpa using hc)
  simp only [List.drop_zero, List.nil_append, Nat.zero_add] at hloop
  unfold decodeStripped
  have ha1 : decide (4 * q ≤ s.length) = true := by simp; omega
  simp only [hloop, Res.bind_eq, Res.ok_bind, ha1, ASSERT_true, Res.pure_eq]
  rw [if_neg (by omega)]
  have ha2 : decide (4 * q + 1 ≠ s.length) = false := by simp; omega
  simp only [rd_eq_ok (show 4 * q < s.length by omega), rd_oob (show s.length ≤ 4 * q + 1 by omega), Res.ok_bind, ha2]
  cases dbg <;> simp

theorem decodeStripped_bad (dbg sgn : Bool) (s : List Byte) (q : Nat) (hq : 4 * q ≤ s.length) 
    (h1 : s.length - 4 * q ≠ 1) (hc : ¬ ∀ c ∈ s.take (4 * q + 3), CharOk sgn c) :
    decodeStripped dbg sgn s q = .ub .oob_read := by
  have hsplit : s.take (4 * q + 3) = s.take (4 * q) ++ (s.drop (4 * q)).take 3 := List.take_add
  by_cases hcq : ∀ c ∈ s.take (4 * q), CharOk sgn c
  · have hloop := quadLoop_ok dbg sgn s q 0 [] (by omega) (by simpa using hcq)
    simp only [List.drop_zero, List.nil_append, Nat.zero_add] at hloop
    unfold decodeStripped
    have ha1 : decide (4 * q ≤ s.length) = true := by simp; omega
    simp only [hloop, Res.bind_eq, Res.ok_bind, ha1, ASSERT_true, Res.pure_eq]
    have hc3 : ¬ ∀ c ∈ (s.drop (4 * q)).take 3, CharOk sgn c := by
      intro h; apply hc; rw [hsplit]; intro c hcm
      rcases List.mem_append.mp hcm with h' | h'
      · exact hcq c h'
      · exact h c h'
    by_cases he : 4 * q = s.length
    · exfalso; apply hc3; simp [he]
    · rw [if_neg he]
      have ha2 : decide (4 * q + 1 ≠ s.length) = true := by simp; omega
      simp only [rd_eq_ok (show 4 * q < s.length by omega), rd_eq_ok (show 4 * q + 1 < s.length by omega), Res.ok_bind,
        ha2, ASSERT_true]
      by_cases he2 : 4 * q + 1 + 1 = s.length
      · rw [if_pos he2]
        have e : (s.drop (4 * q)).take 3 = [s[4 * q], s[4 * q + 1]] := by
          rw [List.drop_eq_getElem_cons (by omega : 4 * q < s.length), List.take_succ_cons,
            List.drop_eq_getElem_cons (by omega : 4 * q + 1 < s.length), List.take_succ_cons,
            List.drop_eq_nil_of_le (by omega), List.take_nil]
        rw [quad_bad]; · rfl
        rintro ⟨ha, hb, -, -⟩; apply hc3; rw [e]; simp [ha, hb]
      · rw [if_neg he2]
        have e : (s.drop (4 * q)).take 3 = [s[4 * q], s[4 * q + 1], s[4 * q + 1 + 1]] := by
          rw [List.drop_eq_getElem_cons (by omega : 4 * q < s.length), List.take_succ_cons,
            List.drop_eq_getElem_cons (by omega : 4 * q + 1 < s.length), List.take_succ_cons,
            List.drop_eq_getElem_cons (by omega : 4 * q + 1 + 1 < s.length), List.take_succ_cons, List.take_zero]
        simp only [rd_eq_ok (show 4 * q + 1 + 1 < s.length by omega), Res.ok_bind]
        rw [quad_bad]; · rfl
        rintro ⟨ha, hb, hcc, -⟩; apply hc3; rw [e]; simp [ha, hb, hcc]
  · have := quadLoop_bad dbg sgn s q 0 [] (by omega) (by simpa using hcq)
    unfold decodeStripped
    simp only [this, Res.bind_eq, Res.ub_bind]


theorem rd_last {s : List Byte} {x : Byte} (h : s.getLast? = some x) : rd s (s.length - 1) = .ok x := by
  rw [List.getLast?_eq_getElem?] at h
  simp [rd, h]

/-- The quads that the main loop decodes. -/
def quads (s : List Byte) : Nat := if padding s = 0 then s.length / 4 else s.length / 4 - 1

theorem decode_unfold (dbg sgn : Bool) (s : List Byte) (hne : s ≠ []) :
    base64_decode dbg sgn s =
      if padding s ≠ 0 ∧ s.length < 4 then .throw .invalid_argument
      else decodeStripped dbg sgn (s.take (s.length - padding s)) (quads s) := by
  have hemp : s.isEmpty = false := by simpa using hne
  obtain ⟨x, hx⟩ : ∃ x, s.getLast? = some x := by
    cases h : s.getLast? with
    | none => rw [List.getLast?_eq_none_iff] at h; exact absurd h hne
    | some x => exact ⟨x, rfl⟩
  unfold base64_decode
  simp only [hemp, rd_last hx, Res.bind_eq, Res.ok_bind, if_neg Bool.false_ne_true]
  by_cases h1 : x = ch '='
  · subst h1
    have hp : padding s ≠ 0 := by unfold padding; rw [if_pos hx]; split <;> simp
    by_cases h4 : s.length < 4
    · rw [if_pos rfl, if_pos (by omega), if_pos ⟨hp, h4⟩]
    · rw [if_pos rfl, if_neg (by omega), if_neg (by omega)]
      rw [← List.dropLast_eq_take]
      obtain ⟨y, hy⟩ : ∃ y, s.dropLast.getLast? = some y := by
        cases h : s.dropLast.getLast? with
        | none =>
          rw [List.getLast?_eq_none_iff] at h
          have := congrArg List.length h
          simp at this; omega
        | some x => exact ⟨x, rfl⟩
      rw [rd_last hy]
      simp only [Res.ok_bind, quads, if_neg hp]
      by_cases h2 : y = ch '='
      · subst h2
        have : padding s = 2 := by unfold padding; rw [if_pos hx, if_pos hy]
        rw [if_pos rfl, this, List.dropLast_eq_take, List.take_take]
        congr 2; simp; omega
      · have : padding s = 1 := by unfold padding; rw [if_pos hx, if_neg (by rw [hy]; simpa using h2)]
        rw [if_neg h2, this, List.dropLast_eq_take]
  · have hp : padding s = 0 := by unfold padding; rw [if_neg (by rw [hx]; simpa using h1)]
    rw [if_neg h1]
    simp [hp, quads]

theorem padding_le (s : List Byte) : padding s ≤ 2 := by
  unfold padding; split
  · split <;> omega
  · omega

/-- `encode false` as groups. -/
theorem encode_false_charOk (bs : List Byte) : ∀ c ∈ encode false bs, c.msb = false ∧ c ≠ ch '=' := by
  intro c
  have hk : ∀ n, n < 64 → (char6 n).msb = false ∧ char6 n ≠ ch '=' := fun n h => ⟨char6_msb h, char6_ne h⟩
  induction bs using encode.induct with
  | case1 a b c' rest ih =>
    simp only [encode, List.mem_cons]
    rintro (h | h | h | h | h)
    · subst h; exact hk _ (Nat.mod_lt _ (by decide))
    · subst h; exact hk _ (Nat.mod_lt _ (by decide))
    · subst h; exact hk _ (Nat.mod_lt _ (by decide))
    · subst h; exact hk _ (Nat.mod_lt _ (by decide))
    · exact ih h
  | case2 a b =>
    simp only [encode, Bool.false_eq_true, if_false, List.append_nil, List.mem_cons, List.not_mem_nil, or_false]
    rintro (h | h | h) <;> subst h <;> exact hk _ (Nat.mod_lt _ (by decide))
  | case3 a =>
    simp only [encode, Bool.false_eq_true, if_false, List.append_nil, List.mem_cons, List.not_mem_nil, or_false]
    rintro (h | h) <;> subst h <;> exact hk _ (Nat.mod_lt _ (by decide))
  | case4 => simp [encode]

theorem encode_true_eq (bs : List Byte) : encode true bs = encode false bs ++ List.replicate ((3 - bs.length % 3) % 3) (ch '=') := by
  induction bs using encode.induct with
  | case1 a b c' rest ih =>
    simp only [encode, ih, List.cons_append, List.length_cons]
    rw [show (rest.length + 1 + 1 + 1) % 3 = rest.length % 3 by omega]
  | case2 a b => simp [encode, str]
  | case3 a => simp [encode, str]
  | case4 => simp [encode]

theorem length_encode_false (bs : List Byte) :
    (encode false bs).length = bs.length / 3 * 4 + (if bs.length % 3 = 0 then 0 else bs.length % 3 + 1) := by
  induction bs using encode.induct with
  | case1 a b c' rest ih =>
    simp only [encode, List.length_cons, ih]
    rw [show (rest.length + 1 + 1 + 1) % 3 = rest.length % 3 by omega]; omega
  | case2 a b => simp [encode]
  | case3 a => simp [encode]
  | case4 => simp [encode]

theorem decodeGroups_encode (bs : List Byte) : decodeGroups (encode false bs) = bs := by
  induction bs using encode.induct with
  | case1 a b c' rest ih =>
    simp only [encode, decodeGroups_cons4, ih, group]
    have ha := a.isLt; have hb := b.isLt; have hc := c'.isLt
    rw [value6_char6 (Nat.mod_lt _ (by decide)), value6_char6 (Nat.mod_lt _ (by decide)),
      value6_char6 (Nat.mod_lt _ (by decide)), value6_char6 (Nat.mod_lt _ (by decide))]
    have e : ∀ (x : Byte) (m : Nat), m % 256 = x.toNat → BitVec.ofNat 8 m = x := by
      intro x m h; apply BitVec.eq_of_toNat_eq; simpa using h
    rw [e a _ (by omega), e b _ (by omega), e c' _ (by omega)]
    rfl
  | case2 a b =>
    have ha := a.isLt; have hb := b.isLt
    have e : ∀ (x : Byte) (m : Nat), m % 256 = x.toNat → BitVec.ofNat 8 m = x := by
      intro x m h; apply BitVec.eq_of_toNat_eq; simpa using h
    simp only [encode, Bool.false_eq_true, if_false, List.append_nil, decodeGroups, group, value6_A]
    rw [value6_char6 (Nat.mod_lt _ (by decide)), value6_char6 (Nat.mod_lt _ (by decide)),
      value6_char6 (Nat.mod_lt _ (by decide))]
    rw [e a _ (by omega), e b _ (by omega)]
    rfl
  | case3 a =>
    have ha := a.isLt
    have e : ∀ (x : Byte) (m : Nat), m % 256 = x.toNat → BitVec.ofNat 8 m = x := by
      intro x m h; apply BitVec.eq_of_toNat_eq; simpa using h
    simp only [encode, Bool.false_eq_true, if_false, List.append_nil, decodeGroups, group, value6_A]
    rw [value6_char6 (Nat.mod_lt _ (by decide)), value6_char6 (Nat.mod_lt _ (by decide))]
    rw [e a _ (by omega)]
    rfl
  | case4 => simp [encode, decodeGroups]

theorem padding_append_eq {t : List Byte} (h : ∀ c ∈ t, c ≠ ch '=') (k : Nat) (hk : k ≤ 2) (hl : k = 0 ∨ t ≠ []) :
    padding (t ++ List.replicate k (ch '=')) = k := by
  have h0 : t.getLast? ≠ some (ch '=') := fun he => h _ (List.mem_of_getLast? he) rfl
  match k, hk with
  | 0, _ => simp only [List.replicate_zero, List.append_nil, padding, if_neg h0]
  | 1, _ =>
    unfold padding
    simp [h0]
  | 2, _ =>
    unfold padding
    have : t ++ List.replicate 2 (ch '=') = (t ++ [ch '=']) ++ [ch '='] := by simp [List.replicate]
    rw [this]
    simp

theorem length_group (a b c d : Byte) : (group a b c d).length = 3 := rfl

theorem length_decodeGroups (t : List Byte) :
    (decodeGroups t).length = t.length / 4 * 3 + (t.length % 4 - 1) := by
  induction t using decodeGroups.induct with
  | case1 a b c d rest ih => simp only [decodeGroups, List.length_append, length_group, ih, List.length_cons]; omega
  | case2 => simp [decodeGroups, length_group]
  | case3 => simp [decodeGroups, length_group]
  | case4 t h1 h2 h3 =>
    match t, h1, h2, h3 with
    | [], _, _, _ => simp [decodeGroups]
    | [a], _, _, _ => simp [decodeGroups]
    | [a, b], _, _, h => exact absurd rfl (h a b)
    | [a, b, c], _, h, _ => exact absurd rfl (h a b c)
    | a :: b :: c :: d :: r, h, _, _ => exact absurd rfl (h a b c d r)

theorem decodeGroups_congr (t u : List Byte) (hl : t.map value6 = u.map value6) : decodeGroups t = decodeGroups u := by
  induction t using decodeGroups.induct generalizing u with
  | case1 a b c d rest ih =>
    match u, hl with
    | a' :: b' :: c' :: d' :: rest', hl =>
      simp at hl
      simp [decodeGroups, group, hl, ih rest' (by simp [hl])]
    | [], hl => simp at hl
    | [_], hl => simp at hl
    | [_, _], hl => simp at hl
    | [_, _, _], hl => simp at hl
  | case2 a b c =>
    match u, hl with
    | [_, _, _], hl => simp at hl; simp [decodeGroups, group, hl]
    | _ :: _ :: _ :: _ :: _, hl => simp at hl
    | [], hl => simp at hl
    | [_], hl => simp at hl
    | [_, _], hl => simp at hl
  | case3 a b =>
    match u, hl with
    | [_, _], hl => simp at hl; simp [decodeGroups, group, hl]
    | _ :: _ :: _ :: _, hl => simp at hl
    | [], hl => simp at hl
    | [_], hl => simp at hl
  | case4 t h1 h2 h3 =>
    match t, h1, h2, h3 with
    | [], _, _, _ => have : u = [] := by simpa using hl.symm
                     simp [this]
    | [a], _, _, _ =>
      match u, hl with
      | [_], _ => simp [decodeGroups]
      | [], hl => simp at hl
      | _ :: _ :: _, hl => simp at hl
    | [a, b], _, _, h => exact absurd rfl (h a b)
    | [a, b, c], _, h, _ => exact absurd rfl (h a b c)
    | a :: b :: c :: d :: r, h, _, _ => exact absurd rfl (h a b c d r)

end Utki.Base64
