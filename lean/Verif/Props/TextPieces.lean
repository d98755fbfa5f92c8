import Verif.Props.String
import Verif.Props.WrapAgain
/-!
# C110: text can be handled piece by piece
-/
namespace Utki
open Spec

/-! ## `word_wrap` looks at one paragraph at a time -/

theorem getElem?_agree {s s' : List Byte} {m k : Nat} (ha : s.take m = s'.take m) (hk : k < m) : s'[k]? = s[k]? := by
  have h1 := List.getElem?_take_of_lt (l := s) hk
  have h2 := List.getElem?_take_of_lt (l := s') hk
  rw [← h1, ← h2, ha]

theorem rd_agree {s s' : List Byte} {m k : Nat} (ha : s.take m = s'.take m) (hk : k < m) : rd s' k = rd s k := by
  unfold rd; rw [getElem?_agree ha hk]

theorem substr_agree {s s' : List Byte} {m a b : Nat} (ha : s.take m = s'.take m) (hm : m ≤ s.length) (hm' : m ≤ s'.length) (hab : a ≤ b) (hb : b ≤ m)
    (hlt : b - a < 2 ^ 32) : substr s' a (sizeT ((b : Int) - a)) = substr s a (sizeT ((b : Int) - a)) := by
  rw [substr_piece s a b hab (by omega) hlt, substr_piece s' a b hab (by omega) hlt]
  have : ∀ l : List Byte, (l.drop a).take (b - a) = ((l.take m).drop a).take (b - a) := by
    intro l
    rw [List.drop_take, List.take_take, Nat.min_eq_left (by omega)]
  rw [this s, this s', ha]

theorem wwInv_agree {w : Nat} {s s' : List Byte} {m i : Nat} {st : Ww} (ha : s.take m = s'.take m) (hi : i ≤ m) (h : WwInv w s i st) : WwInv w s' i st := by
  have g : ∀ k, k < i → s'[k]? = s[k]? := fun k hk => getElem?_agree ha (by omega)
  have hlb := h.hlb
  have hsb := h.hsb
  refine ⟨h.hlb, h.hw, h.hsb, fun k h1 h2 => g k h2 ▸ h.hnl k h1 h2, h.fresh, ?_, ?_, ?_, h.lines⟩
  · intro h1 h2
    rw [g _ h1] at h2
    obtain ⟨a1, a2, a3, a4⟩ := h.space h1 h2
    refine ⟨a1, fun k hk hk' => g k hk' ▸ a2 k hk hk', ?_, fun hw k hk hk' => g k hk' ▸ a4 hw k hk hk'⟩
    rw [g (st.sb - 1) (by omega)]
    exact a3
  · intro h1 h2
    rw [g _ h1] at h2
    obtain ⟨a1, a2, a3⟩ := h.word h1 h2
    refine ⟨a1, fun k hk hk' => g k hk' ▸ a2 k hk hk', ?_⟩
    rw [g (st.sb - 1) (by omega)]
    exact a3
  · have : s'.take st.lb = s.take st.lb := by
      have e : ∀ l : List Byte, l.take st.lb = (l.take m).take st.lb := by
        intro l; rw [List.take_take, Nat.min_eq_left (by omega)]
      rw [e s, e s', ha]
    rw [this]; exact h.pieces

/-- A step of the loop looks only at characters up to the current one. -/
theorem wwStep_agree (cpp20 dbg : Bool) (width : BitVec 32) (hw0 : 0 < width.toNat) {s s' : List Byte} {m : Nat} (ha : s.take m = s'.take m) (hm : m ≤ s.length)
    (hm' : m ≤ s'.length) (i : Nat) (hi : i < m) (st : Ww) (h : WwInv width.toNat s i st) :
    wwStep cpp20 dbg width s' i st = wwStep cpp20 dbg width s i st := by
  have hW := width.isLt
  have hlb := h.hlb
  have hsb := h.hsb
  have hwd := h.hw
  have hg : s[i]? = some s[i] := List.getElem?_eq_getElem (by omega)
  have char_agree : ∀ st', WwInv width.toNat s i st' → wwChar s' i s[i] st' = wwChar s i s[i] st' := by
    intro st' h'
    have := h'.hlb; have := h'.hsb; have := h'.hw
    unfold wwChar
    rw [rd_agree ha (show st'.sb < m by omega), substr_agree ha hm hm' (show st'.lb ≤ i by omega) (by omega) (by omega)]
  have break_agree : i - st.lb = width.toNat → wwBreak dbg s' i st = wwBreak dbg s i st := by
    intro hd
    have hlt : st.sb < i := by
      rcases Nat.lt_or_ge st.sb i with h' | h'
      · exact h'
      · have := h.fresh (by omega); omega
    have hgs : s[st.sb]? = some s[st.sb] := List.getElem?_eq_getElem (by omega)
    unfold wwBreak
    rw [rd_agree ha (show st.sb < m by omega), rd_get? s st.sb _ hgs]
    simp only [Res.bind_eq, Res.ok_bind]
    rw [substr_agree ha hm hm' (show st.lb ≤ i by omega) (by omega) (by omega)]
    by_cases hc : s[st.sb] = ch ' '
    · rw [if_pos hc, if_pos hc]
      rw [hc] at hgs
      obtain ⟨a1, a2, a3, a4⟩ := h.space hlt hgs
      cases hwe : st.we with
      | true =>
        have := (a3 hwe).1
        rw [substr_agree ha hm hm' (show st.lb ≤ st.sb by omega) (by omega) (by omega)]
      | false => rfl
    · rw [if_neg hc, if_neg hc]
      have hns : s[st.sb]? ≠ some (ch ' ') := by rw [hgs]; simpa using hc
      obtain ⟨a1, a2, a3⟩ := h.word hlt hns
      cases hwe : st.we with
      | true =>
        have := (a3 hwe).1
        rw [substr_agree ha hm hm' (show st.lb ≤ st.sb - 1 by omega) (by omega) (by omega)]
      | false => rfl
  unfold wwStep
  rw [rd_agree ha hi, rd_get? s i _ hg]
  simp only [Res.bind_eq, Res.ok_bind]
  congr 1
  funext _
  by_cases hb : s[i] ≠ ch '\n' ∧ distEq cpp20 ((i : Int) - st.lb) width = true
  · rw [if_pos hb, if_pos hb]
    have hd : i - st.lb = width.toNat := (distEq_iff cpp20 i st.lb width hlb hwd).mp hb.2
    rw [break_agree hd]
    obtain ⟨st', e1, e2, -⟩ := wwBreak_inv dbg width hw0 s i (by omega) st h hd
    rw [e1, Res.ok_bind, Res.ok_bind]
    exact char_agree st' e2
  · rw [if_neg hb, if_neg hb, Res.pure_eq, Res.ok_bind, Res.ok_bind]
    exact char_agree st h

/-- The loop over a text that begins with `a`: what it does in `a` does not depend on the rest. -/
theorem wwLoop_prefix (cpp20 dbg : Bool) (width : BitVec 32) (hw0 : 0 < width.toNat) (a r : List Byte) (n i : Nat) (hi : i + n = a.length) (st : Ww)
    (h : WwInv width.toNat a i st) :
    ∃ st', wwLoop cpp20 dbg width a n i st = .ok st' ∧ WwInv width.toNat a a.length st' ∧
      ∀ fuel, wwLoop cpp20 dbg width (a ++ r) (n + fuel) i st = wwLoop cpp20 dbg width (a ++ r) fuel a.length st' := by
  induction n generalizing i st with
  | zero =>
    obtain rfl : i = a.length := by omega
    refine ⟨st, ?_, h, fun fuel => by rw [Nat.zero_add]⟩
    unfold wwLoop; rw [if_pos rfl]
  | succ n ih =>
    obtain ⟨st1, e1, e2⟩ := wwStep_inv cpp20 dbg width hw0 a i (by omega) st h
    obtain ⟨st', f1, f2, f3⟩ := ih (i + 1) (by omega) st1 e2
    refine ⟨st', ?_, f2, fun fuel => ?_⟩
    · unfold wwLoop
      rw [if_neg (by omega)]
      simp only [Res.bind_eq, e1, Res.ok_bind, f1]
    · rw [← f3 fuel, show n + 1 + fuel = (n + fuel) + 1 by omega]
      conv => lhs; unfold wwLoop
      rw [if_neg (by rw [List.length_append]; omega)]
      have ha : a.take a.length = (a ++ r).take a.length := by simp
      rw [wwStep_agree cpp20 dbg width hw0 ha (Nat.le_refl _) (by simp) i (by omega) st h]
      simp only [Res.bind_eq, e1, Res.ok_bind]

/-! ## `word_wrap` does not depend on what was before the paragraph -/

/-- The variables moved by `k` characters, and with lines before. -/
def Ww.shift (k : Nat) (pre : List (List Byte)) (st : Ww) : Ww := ⟨st.lb + k, st.sb + k, st.we, pre ++ st.ret⟩

theorem rd_shift (p b : List Byte) (i : Nat) : rd (p ++ b) (i + p.length) = rd b i := by
  unfold rd
  rw [List.getElem?_append_right (by omega), Nat.add_sub_cancel]

theorem substr_shift (p b : List Byte) (i n : Nat) : substr (p ++ b) (i + p.length) n = substr b i n := by
  unfold substr
  rw [List.length_append]
  by_cases h : b.length < i
  · rw [if_pos h, if_pos (by omega)]
  · rw [if_neg h, if_neg (by omega), show i + p.length = p.length + i by omega, List.drop_append, List.drop_of_length_le (by omega)]
    simp

theorem wwBreak_shift (dbg : Bool) (p b : List Byte) (pre : List (List Byte)) (i : Nat) (st st' : Ww) (h : wwBreak dbg b i st = .ok st') :
    wwBreak dbg (p ++ b) (i + p.length) (st.shift p.length pre) = .ok (st'.shift p.length pre) := by
  have d : ∀ x y : Nat, ((x + p.length : Nat) : Int) - ((y + p.length : Nat) : Int) = (x : Int) - y := by intro x y; omega
  unfold wwBreak at h ⊢
  simp only [Ww.shift, rd_shift, substr_shift, d, Res.bind_eq, Res.pure_eq] at h ⊢
  cases hc : rd b st.sb with
  | ok c =>
    rw [hc] at h
    simp only [Res.ok_bind] at h ⊢
    by_cases hsp : c = ch ' '
    · rw [if_pos hsp] at h ⊢
      cases hwe : st.we with
      | true =>
        simp only [hwe, if_true] at h ⊢
        cases hs : substr b st.lb (sizeT ((st.sb : Int) - st.lb)) with
        | ok l =>
          rw [hs] at h
          simp only [Res.ok_bind, Res.ok.injEq] at h ⊢
          subst h; simp; omega
        | _ => rw [hs] at h; cases h
      | false =>
        simp only [hwe, Bool.false_eq_true, if_false, Res.ok.injEq] at h ⊢
        subst h; simp
    · rw [if_neg hsp] at h ⊢
      cases hwe : st.we with
      | true =>
        simp only [hwe, if_true] at h ⊢
        cases hA : ASSERT dbg (decide ((st.sb : Int) - st.lb ≥ 1)) with
        | ok _ =>
          rw [hA] at h
          simp only [Res.ok_bind] at h ⊢
          by_cases h0 : st.sb = 0
          · rw [if_pos h0] at h; cases h
          · rw [if_neg h0] at h
            rw [if_neg (by omega), show st.sb + p.length - 1 = st.sb - 1 + p.length by omega, d]
            cases hs : substr b st.lb (sizeT (((st.sb - 1 : Nat) : Int) - st.lb)) with
            | ok l =>
              rw [hs] at h
              simp only [Res.ok_bind, Res.ok.injEq] at h ⊢
              subst h; simp
            | _ => rw [hs] at h; cases h
        | _ => rw [hA] at h; cases h
      | false =>
        simp only [hwe, Bool.false_eq_true, if_false] at h ⊢
        cases hs : substr b st.lb (sizeT ((i : Int) - st.lb)) with
        | ok l =>
          rw [hs] at h
          simp only [Res.ok_bind, Res.ok.injEq] at h ⊢
          subst h; simp
        | _ => rw [hs] at h; cases h
  | _ => rw [hc] at h; cases h

theorem wwChar_shift (p b : List Byte) (pre : List (List Byte)) (i : Nat) (c : Byte) (st st' : Ww) (h : wwChar b i c st = .ok st') :
    wwChar (p ++ b) (i + p.length) c (st.shift p.length pre) = .ok (st'.shift p.length pre) := by
  have d : ∀ x y : Nat, ((x + p.length : Nat) : Int) - ((y + p.length : Nat) : Int) = (x : Int) - y := by intro x y; omega
  unfold wwChar at h ⊢
  simp only [Ww.shift, rd_shift, substr_shift, d, Res.bind_eq, Res.pure_eq] at h ⊢
  by_cases hsp : c = ch ' '
  · rw [if_pos hsp] at h ⊢
    cases hc : rd b st.sb with
    | ok x =>
      rw [hc] at h
      simp only [Res.ok_bind] at h ⊢
      by_cases hx : x ≠ ch ' '
      · rw [if_pos hx] at h ⊢
        cases h; rfl
      · rw [if_neg hx] at h ⊢
        cases h; rfl
    | _ => rw [hc] at h; cases h
  · rw [if_neg hsp] at h ⊢
    by_cases hnl : c = ch '\n'
    · rw [if_pos hnl] at h ⊢
      cases hs : substr b st.lb (sizeT ((i : Int) - st.lb)) with
      | ok l =>
        rw [hs] at h
        simp only [Res.ok_bind, Res.ok.injEq] at h ⊢
        subst h; simp; omega
      | _ => rw [hs] at h; cases h
    · rw [if_neg hnl] at h ⊢
      cases hc : rd b st.sb with
      | ok x =>
        rw [hc] at h
        simp only [Res.ok_bind] at h ⊢
        by_cases hx : x = ch ' '
        · rw [if_pos hx] at h ⊢
          cases h; rfl
        · rw [if_neg hx] at h ⊢
          cases h; rfl
      | _ => rw [hc] at h; cases h

theorem wwStep_shift (cpp20 dbg : Bool) (width : BitVec 32) (p b : List Byte) (pre : List (List Byte)) (i : Nat) (st st' : Ww)
    (h : wwStep cpp20 dbg width b i st = .ok st') :
    wwStep cpp20 dbg width (p ++ b) (i + p.length) (st.shift p.length pre) = .ok (st'.shift p.length pre) := by
  have d : ((i + p.length : Nat) : Int) - ((st.lb + p.length : Nat) : Int) = (i : Int) - st.lb := by omega
  unfold wwStep at h ⊢
  have hl : (st.shift p.length pre).lb = st.lb + p.length := rfl
  rw [hl, d, rd_shift]
  simp only [Res.bind_eq, Res.pure_eq] at h ⊢
  cases hA : ASSERT dbg (decide ((i : Int) - st.lb ≥ 0)) with
  | ok _ =>
    rw [hA] at h
    simp only [Res.ok_bind] at h ⊢
    cases hc : rd b i with
    | ok c =>
      rw [hc] at h
      simp only [Res.ok_bind] at h ⊢
      by_cases hb : c ≠ ch '\n' ∧ distEq cpp20 ((i : Int) - st.lb) width = true
      · rw [if_pos hb] at h ⊢
        cases hk : wwBreak dbg b i st with
        | ok st1 =>
          rw [hk] at h
          simp only [Res.ok_bind] at h ⊢
          rw [wwBreak_shift dbg p b pre i st st1 hk, Res.ok_bind]
          exact wwChar_shift p b pre i c st1 st' h
        | _ => rw [hk] at h; cases h
      · rw [if_neg hb] at h ⊢
        exact wwChar_shift p b pre i c st st' h
    | _ => rw [hc] at h; cases h
  | _ => rw [hA] at h; cases h

theorem wwLoop_shift (cpp20 dbg : Bool) (width : BitVec 32) (p b : List Byte) (pre : List (List Byte)) (fuel i : Nat) (st st' : Ww)
    (h : wwLoop cpp20 dbg width b fuel i st = .ok st') :
    wwLoop cpp20 dbg width (p ++ b) fuel (i + p.length) (st.shift p.length pre) = .ok (st'.shift p.length pre) := by
  induction fuel generalizing i st with
  | zero =>
    unfold wwLoop at h ⊢
    rw [List.length_append]
    by_cases hi : i = b.length
    · rw [if_pos hi] at h
      rw [if_pos (by omega)]
      cases h; rfl
    · rw [if_neg hi] at h; cases h
  | succ fuel ih =>
    unfold wwLoop at h ⊢
    rw [List.length_append]
    by_cases hi : i = b.length
    · rw [if_pos hi] at h
      rw [if_pos (by omega)]
      cases h; rfl
    · rw [if_neg hi] at h
      rw [if_neg (by omega)]
      simp only [Res.bind_eq] at h ⊢
      cases hk : wwStep cpp20 dbg width b i st with
      | ok st1 =>
        rw [hk] at h
        simp only [Res.ok_bind] at h ⊢
        rw [wwStep_shift cpp20 dbg width p b pre i st st1 hk, Res.ok_bind, show i + p.length + 1 = i + 1 + p.length by omega]
        exact ih (i + 1) st1 h
      | _ => rw [hk] at h; cases h

theorem wwLast_shift (p b : List Byte) (pre : List (List Byte)) (st : Ww) (ls : List (List Byte)) (h : wwLast b st = .ok ls) :
    wwLast (p ++ b) (st.shift p.length pre) = .ok (pre ++ ls) := by
  have d : ∀ x y : Nat, ((x + p.length : Nat) : Int) - ((y + p.length : Nat) : Int) = (x : Int) - y := by intro x y; omega
  have hlen : (p ++ b).length = b.length + p.length := by rw [List.length_append]; omega
  unfold wwLast at h ⊢
  have hne : (st.sb + p.length ≠ b.length + p.length) = (st.sb ≠ b.length) := by simp
  simp only [Ww.shift, hlen, hne, rd_shift] at h ⊢
  have fin : ∀ sp : Bool, (if sp = true then if st.we = true then do
          let l ← substr b st.lb (sizeT ((st.sb : Int) - st.lb))
          return st.ret ++ [l]
        else return st.ret
      else do
        let l ← substr b st.lb (sizeT ((b.length : Int) - st.lb))
        return st.ret ++ [l] : Res (List (List Byte))) = .ok ls →
      (if sp = true then if st.we = true then do
          let l ← substr (p ++ b) (st.lb + p.length) (sizeT (((st.sb + p.length : Nat) : Int) - ((st.lb + p.length : Nat) : Int)))
          return pre ++ st.ret ++ [l]
        else return pre ++ st.ret
      else do
        let l ← substr (p ++ b) (st.lb + p.length) (sizeT (((b.length + p.length : Nat) : Int) - ((st.lb + p.length : Nat) : Int)))
        return pre ++ st.ret ++ [l] : Res (List (List Byte))) = .ok (pre ++ ls) := by
    intro sp h
    simp only [substr_shift, d, Res.bind_eq, Res.pure_eq] at h ⊢
    cases sp with
    | true =>
      simp only [if_true] at h ⊢
      cases hwe : st.we with
      | true =>
        simp only [hwe, if_true] at h ⊢
        cases hs : substr b st.lb (sizeT ((st.sb : Int) - st.lb)) with
        | ok l =>
          rw [hs] at h
          simp only [Res.ok_bind, Res.ok.injEq] at h ⊢
          subst h; simp
        | _ => rw [hs] at h; cases h
      | false =>
        simp only [hwe, Bool.false_eq_true, if_false, Res.ok.injEq] at h ⊢
        rw [h]
    | false =>
      simp only [Bool.false_eq_true, if_false] at h ⊢
      cases hs : substr b st.lb (sizeT ((b.length : Int) - st.lb)) with
      | ok l =>
        rw [hs] at h
        simp only [Res.ok_bind, Res.ok.injEq] at h ⊢
        subst h; simp
      | _ => rw [hs] at h; cases h
  by_cases he : st.sb = b.length
  · simp only [he, ne_eq, not_true_eq_false, if_false, Res.pure_eq, Res.bind_eq, Res.ok_bind] at h ⊢
    have := fin false (by simpa only [Res.pure_eq, Res.bind_eq, Bool.false_eq_true, if_false] using h)
    simpa only [he, Res.pure_eq, Res.bind_eq, Bool.false_eq_true, if_false] using this
  · simp only [he, ne_eq, not_false_eq_true, if_true] at h ⊢
    cases hc : rd b st.sb with
    | ok c =>
      simp only [hc, Res.pure_eq, Res.bind_eq, Res.ok_bind] at h ⊢
      have := fin (decide (c = ch ' ')) (by simpa only [Res.pure_eq, Res.bind_eq] using h)
      exact this
    | _ => rw [hc] at h; cases h

/-- The lines of the first paragraph, ended by a newline, and then those of the rest. -/
theorem word_wrap_newline (cpp20 dbg : Bool) (a : List Byte) (width : BitVec 32) (hw : width ≠ 0) :
    ∃ ls, (∀ b lines, word_wrap cpp20 dbg b width = .ok lines → word_wrap cpp20 dbg (a ++ [ch '\n'] ++ b) width = .ok (ls ++ lines)) ∧
      (a.getLast? ≠ some (ch ' ') → word_wrap cpp20 dbg a width = .ok ls) := by
  have hw0 := pos_of_ne hw
  have hW := width.isLt
  obtain ⟨st, -, -, -⟩ := wwLoop_prefix cpp20 dbg width hw0 a [] a.length 0 (by omega) _ (wwInv_init _ a)
  obtain ⟨st, e1, hI⟩ := wwLoop_inv cpp20 dbg width hw0 a a.length 0 (by omega) _ (wwInv_init _ a)
  have hlb := hI.hlb
  have hsb := hI.hsb
  have hwd := hI.hw
  refine ⟨st.ret ++ [a.drop st.lb], fun b lines hb => ?_, fun hs => ?_⟩
  · obtain ⟨st2, f1, f2, f3⟩ := wwLoop_prefix cpp20 dbg width hw0 a ([ch '\n'] ++ b) a.length 0 (by omega) _ (wwInv_init _ a)
    rw [e1] at f1
    cases f1
    have hlen : (a ++ ([ch '\n'] ++ b)).length = a.length + (b.length + 1) := by simp
    have hI' : WwInv width.toNat (a ++ ([ch '\n'] ++ b)) a.length st := wwInv_agree (m := a.length) (by simp) (Nat.le_refl _) hI
    unfold word_wrap at hb ⊢
    rw [if_neg hw] at hb ⊢
    rw [List.append_assoc, hlen, f3 (b.length + 1)]
    have hn : (a ++ ([ch '\n'] ++ b))[a.length]'(by omega) = ch '\n' := by simp
    have hstep := wwStep_nl cpp20 dbg width _ a.length (by omega) st hI' hn
    conv => lhs; arg 1; unfold wwLoop
    rw [if_neg (by omega)]
    simp only [Res.bind_eq] at hb ⊢
    rw [hstep, Res.ok_bind]
    have hdt : ((a ++ ([ch '\n'] ++ b)).drop st.lb).take (a.length - st.lb) = a.drop st.lb := by
      rw [List.drop_append_of_le_length hlb, List.take_append_of_le_length (by simp), List.take_of_length_le (by simp)]
    rw [hdt]
    cases hk : wwLoop cpp20 dbg width b b.length 0 { lb := 0, sb := 0, we := false, ret := [] } with
    | ok st3 =>
      rw [hk] at hb
      simp only [Res.ok_bind] at hb
      have hs := wwLoop_shift cpp20 dbg width (a ++ [ch '\n']) b (st.ret ++ [a.drop st.lb]) b.length 0 _ st3 hk
      have hl : (a ++ [ch '\n']).length = a.length + 1 := by simp
      have hz : (Ww.shift (a.length + 1) (st.ret ++ [a.drop st.lb]) { lb := 0, sb := 0, we := false, ret := [] }) =
          { lb := a.length + 1, sb := a.length + 1, we := false, ret := st.ret ++ [a.drop st.lb] } := by
        simp [Ww.shift]
      rw [hl, hz, List.append_assoc, Nat.zero_add] at hs
      rw [hs, Res.ok_bind]
      have hq := wwLast_shift (a ++ [ch '\n']) b (st.ret ++ [a.drop st.lb]) st3 lines hb
      rw [hl, List.append_assoc] at hq
      exact hq
    | _ => rw [hk] at hb; cases hb
  · unfold word_wrap
    rw [if_neg hw, Res.bind_eq, e1, Res.ok_bind]
    have whole : (do
        let l ← substr a st.lb (sizeT ((a.length : Int) - st.lb))
        return st.ret ++ [l] : Res (List (List Byte))) = .ok (st.ret ++ [a.drop st.lb]) := by
      rw [Res.bind_eq, substr_piece a st.lb a.length hlb (Nat.le_refl _) (by omega), Res.ok_bind, Res.pure_eq]
      rw [List.take_of_length_le (by simp)]
    unfold wwLast
    by_cases he : st.sb = a.length
    · simp only [he, ne_eq, not_true_eq_false, if_false, Res.pure_eq, Res.bind_eq, Res.ok_bind, Bool.false_eq_true]
      exact whole
    · have hg : a[st.sb]? = some a[st.sb] := List.getElem?_eq_getElem (by omega)
      simp only [he, ne_eq, not_false_eq_true, if_true, rd_get? a st.sb _ hg, Res.pure_eq, Res.bind_eq, Res.ok_bind]
      have hc : a[st.sb] ≠ ch ' ' := by
        intro hc
        rw [hc] at hg
        have := (hI.space (by omega) hg).2.1 (a.length - 1) (by omega) (by omega)
        rw [← List.getLast?_eq_getElem?] at this
        exact hs this
      simp only [hc, decide_false, Bool.false_eq_true, if_false]
      exact whole

/-! ## The property -/

theorem join_append {α : Type} (xs ys : List (List α)) (d : α) (hx : xs ≠ []) (hy : ys ≠ []) : join (xs ++ ys) d = join xs d ++ [d] ++ join ys d := by
  induction xs with
  | nil => exact absurd rfl hx
  | cons x xs ih =>
    cases xs with
    | nil =>
      cases ys with
      | nil => exact absurd rfl hy
      | cons y ys =>
        rw [List.cons_append, List.nil_append, (C17_join_shape d x y ys).2.2, (C17_join_shape d x [] []).2.1]
    | cons x' xs =>
      rw [List.cons_append, List.cons_append, (C17_join_shape d x x' (xs ++ ys)).2.2, ← List.cons_append, ih (by simp), (C17_join_shape d x x' xs).2.2]
      simp

/-- C110: `join` of two non-empty collections one after the other is the first joined, the delimiter, and the second joined. -/
theorem C110_join {α : Type} (xs ys : List (List α)) (d : α) (hx : xs ≠ []) (hy : ys ≠ []) : join (xs ++ ys) d = join xs d ++ [d] ++ join ys d :=
  join_append xs ys d hx hy

/-- C110: `split` of two texts with the delimiter between them gives the fields of the first and then those of the second. -/
theorem C110_split {α : Type} [DecidableEq α] (a b : List α) (d : α) :
    ∃ fs gs, split a d = .ok fs ∧ split b d = .ok gs ∧ split (a ++ [d] ++ b) d = .ok (fs ++ gs) := by
  obtain ⟨fs, h1, h2⟩ := C15_join_split a d
  obtain ⟨gs, h3, h4⟩ := C15_join_split b d
  obtain ⟨fs', h5, h6, h7⟩ := C16_fields a d
  obtain ⟨gs', h8, h9, h10⟩ := C16_fields b d
  rw [h1] at h5; cases h5
  rw [h3] at h8; cases h8
  refine ⟨fs, gs, h1, h3, ?_⟩
  have hj : join (fs ++ gs) d = a ++ [d] ++ b := by
    rw [join_append fs gs d (by rintro rfl; simp at h6) (by rintro rfl; simp at h9), h2, h4]
  rw [← hj]
  refine C17_split_join _ d (by intro h; simp at h; rw [h.1] at h6; simp at h6) ?_
  intro x hx
  rcases List.mem_append.mp hx with h | h
  · exact h7 x h
  · exact h10 x h

/-- C110: the words of two texts with whitespace between them are the words of the first and then those of the second. -/
theorem C110_words (sgn : Bool) (a gap b : List Byte) (hdom : ∀ c ∈ a ++ gap ++ b, sgn = true → c.toNat < 128 ∨ c = 0xff) (hne : gap ≠ [])
    (hg : ∀ c ∈ gap, IsSpace c) :
    ∃ vs ws, splitWs sgn a = .ok vs ∧ splitWs sgn b = .ok ws ∧ splitWs sgn (a ++ gap ++ b) = .ok (vs ++ ws) := by
  obtain ⟨vs, h1, h2⟩ := C18_words sgn a (fun c hc => hdom c (by simp [hc]))
  obtain ⟨ws, h3, h4⟩ := C18_words sgn b (fun c hc => hdom c (by simp [hc]))
  obtain ⟨us, h5, h6⟩ := C18_words sgn _ hdom
  refine ⟨vs, ws, h1, h3, ?_⟩
  rw [h5, (C18_words_unique _ _ _ h6 (h2.append_sep h4 gap hne hg)).1]

/-- C110: `word_wrap` wraps what follows a newline as if nothing was before it; what is before, if it does not end with a space, as if nothing followed. -/
theorem C110_wrap (cpp20 dbg : Bool) (a b : List Byte) (width : BitVec 32) (hw : width ≠ 0) :
    ∃ ls ms, word_wrap cpp20 dbg b width = .ok ms ∧ word_wrap cpp20 dbg (a ++ [ch '\n'] ++ b) width = .ok (ls ++ ms) ∧
      (a.getLast? ≠ some (ch ' ') → word_wrap cpp20 dbg a width = .ok ls) := by
  obtain ⟨ls, h1, h2⟩ := word_wrap_newline cpp20 dbg a width hw
  obtain ⟨ms, h3, -⟩ := word_wrap_ok cpp20 dbg b width (pos_of_ne hw)
  exact ⟨ls, ms, h3, h1 b ms h3, h2⟩

/-- C110: paragraphs of which none but the last ends with a space are wrapped one after the other. -/
theorem C110_paragraphs (cpp20 dbg : Bool) (ps : List (List Byte)) (last : List Byte) (width : BitVec 32) (hw : width ≠ 0)
    (hp : ∀ p ∈ ps, p.getLast? ≠ some (ch ' ')) :
    ∃ (lss : List (List (List Byte))) (ls : List (List Byte)), (∀ i (h : i < ps.length), ∃ x, lss[i]? = some x ∧ word_wrap cpp20 dbg ps[i] width = .ok x) ∧ lss.length = ps.length ∧
      word_wrap cpp20 dbg last width = .ok ls ∧
      word_wrap cpp20 dbg ((ps.flatMap fun p => p ++ [ch '\n']) ++ last) width = .ok (lss.flatten ++ ls) := by
  induction ps with
  | nil =>
    obtain ⟨ms, h3, -⟩ := word_wrap_ok cpp20 dbg last width (pos_of_ne hw)
    exact ⟨[], ms, by simp, rfl, h3, by simpa using h3⟩
  | cons p ps ih =>
    obtain ⟨lss, ls, h1, h2, h3, h4⟩ := ih (fun q hq => hp q (by simp [hq]))
    obtain ⟨xs, g1, g2⟩ := word_wrap_newline cpp20 dbg p width hw
    refine ⟨xs :: lss, ls, ?_, by simp [h2], h3, ?_⟩
    · intro i hi
      cases i with
      | zero => exact ⟨xs, rfl, g2 (hp p (by simp))⟩
      | succ i => exact h1 i (by simpa using hi)
    · have := g1 _ _ h4
      simpa [List.append_assoc] using this

/-- C110: trailing spaces of a paragraph that is not the last are kept, those of the last are not. -/
theorem C110_spaces :
    word_wrap false true (str "ab \ncd ") 5 = .ok [str "ab ", str "cd"] ∧ word_wrap false true (str "ab ") 5 = .ok [str "ab"] := by decide +kernel

example : split (str "a,b" ++ [ch ','] ++ str "c") (ch ',') = .ok [str "a", str "b", str "c"] ∧
    (str "\t ").all (fun c => decide (c ∈ [32#8, 9#8])) = true ∧ splitWs true (str "a b" ++ str "\t " ++ str "c") = .ok [str "a", str "b", str "c"] ∧
    word_wrap true true (str "ab cd" ++ [ch '\n'] ++ str "efghi") 4 = .ok [str "ab", str "cd", str "efgh", str "i"] ∧
    word_wrap true true (str "ab cd") 4 = .ok [str "ab", str "cd"] ∧ (str "ab cd").getLast? ≠ some (ch ' ') ∧
    word_wrap true true (str "efghi") 4 = .ok [str "efgh", str "i"] := by decide +kernel

end Utki
