import Verif.Model.WordWrap
import Verif.Spec.Wrap
/-!
# Lemmas about `word_wrap`
-/
namespace Utki
open Spec

/-- What may be dropped between lines. -/
def Blank (c : Byte) : Prop := c = ch ' ' ∨ c = ch '\n'

theorem Spec.Pieces.append_gap {α : Type} {sep : α → Prop} {s : List α} {lines : List (List α)} (h : Pieces sep s lines)
    (gap : List α) (hg : ∀ c ∈ gap, sep c) : Pieces sep (s ++ gap) lines := by
  induction h with
  | nil g h0 =>
    refine .nil _ ?_
    intro c hc; rcases List.mem_append.mp hc with h | h
    · exact h0 c h
    · exact hg c h
  | cons g line rest lines h0 _ ih =>
    have := Pieces.cons g line _ lines h0 ih
    simpa [List.append_assoc] using this

theorem Spec.Pieces.append_line {α : Type} {sep : α → Prop} {s : List α} {lines : List (List α)} (h : Pieces sep s lines)
    (line : List α) : Pieces sep (s ++ line) (lines ++ [line]) := by
  induction h with
  | nil g h0 =>
    have := Pieces.cons g line [] [] h0 (.nil [] (by simp))
    simpa using this
  | cons g l rest lines h0 _ ih =>
    have := Pieces.cons g l _ _ h0 ih
    simpa [List.append_assoc] using this

theorem sizeT_sub (a b : Nat) (h : b ≤ a) (hlt : a - b < 2 ^ 32) : sizeT ((a : Int) - b) = a - b := by
  unfold sizeT; omega

theorem distEq_iff (cpp20 : Bool) (a b : Nat) (width : BitVec 32) (h : b ≤ a) (hw : a - b ≤ width.toNat) :
    distEq cpp20 ((a : Int) - b) width = true ↔ a - b = width.toNat := by
  have := width.isLt
  unfold distEq
  cases cpp20 with
  | true => simp only [if_true, beq_iff_eq]; omega
  | false =>
    simp only [Bool.false_eq_true, if_false, beq_iff_eq]
    rw [← BitVec.toNat_inj, BitVec.toNat_ofInt]
    constructor <;> intro h <;> omega

/-- Loop invariant at position `i`. -/
structure WwInv (w : Nat) (s : List Byte) (i : Nat) (st : Ww) : Prop where
  hlb : st.lb ≤ i
  hw : i - st.lb ≤ w
  hsb : st.sb ≤ i
  hnl : ∀ k, st.lb ≤ k → k < i → s[k]? ≠ some (ch '\n')
  fresh : st.sb = i → st.lb = i ∧ st.we = false
  space : st.sb < i → s[st.sb]? = some (ch ' ') → st.lb ≤ st.sb + 1 ∧ (∀ k, st.sb ≤ k → k < i → s[k]? = some (ch ' ')) ∧
    (st.we = true → st.lb < st.sb ∧ s[st.sb - 1]? ≠ some (ch ' ')) ∧
    (st.we = false → ∀ k, st.lb ≤ k → k < i → s[k]? = some (ch ' '))
  word : st.sb < i → s[st.sb]? ≠ some (ch ' ') → st.lb ≤ st.sb ∧ (∀ k, st.sb ≤ k → k < i → s[k]? ≠ some (ch ' ')) ∧
    (st.we = true → st.lb < st.sb ∧ s[st.sb - 1]? = some (ch ' '))
  pieces : Pieces Blank (s.take st.lb) st.ret
  lines : ∀ l ∈ st.ret, l.length ≤ w ∧ ch '\n' ∉ l

/-- The piece `[a, b)`. -/
theorem piece_facts (s : List Byte) (a b : Nat) (h : a ≤ b) (hb : b ≤ s.length) (P : Byte → Prop)
    (hP : ∀ k c, a ≤ k → k < b → s[k]? = some c → P c) :
    s.take b = s.take a ++ (s.drop a).take (b - a) ∧ (∀ c ∈ (s.drop a).take (b - a), P c) ∧
    ((s.drop a).take (b - a)).length = b - a := by
  refine ⟨?_, ?_, by simp; omega⟩
  · rw [← List.take_add]; congr 1; omega
  · intro c hc
    obtain ⟨k, hk, rfl⟩ := List.getElem_of_mem hc
    simp only [List.length_take, List.length_drop] at hk
    refine hP (a + k) _ (by omega) (by omega) ?_
    rw [List.getElem_take, List.getElem_drop]
    exact List.getElem?_eq_getElem _

theorem substr_piece (s : List Byte) (a b : Nat) (h : a ≤ b) (hb : b ≤ s.length) (hlt : b - a < 2 ^ 32) :
    substr s a (sizeT ((b : Int) - a)) = .ok ((s.drop a).take (b - a)) := by
  unfold substr
  rw [if_neg (by omega), sizeT_sub b a h hlt]

theorem rd_get? (s : List Byte) (i : Nat) (c : Byte) (h : s[i]? = some c) : rd s i = .ok c := by
  obtain ⟨hi, he⟩ := List.getElem?_eq_some_iff.mp h
  rw [rd_eq_ok hi, he]

theorem nl_ne_space : ch '\n' ≠ ch ' ' := by decide

/-- Emitting the piece `[lb, e)` and continuing at `b ≥ e`. -/
theorem emit_inv (w : Nat) (s : List Byte) (lb e b : Nat) (ret : List (List Byte)) (h1 : lb ≤ e) (h2 : e ≤ b)
    (hb : b ≤ s.length) (hw : e - lb ≤ w)
    (hp : Pieces Blank (s.take lb) ret) (hl : ∀ l ∈ ret, l.length ≤ w ∧ ch '\n' ∉ l)
    (hnl : ∀ k, lb ≤ k → k < e → s[k]? ≠ some (ch '\n'))
    (hgap : ∀ k c, e ≤ k → k < b → s[k]? = some c → Blank c) :
    Pieces Blank (s.take b) (ret ++ [(s.drop lb).take (e - lb)]) ∧
    ∀ l ∈ ret ++ [(s.drop lb).take (e - lb)], l.length ≤ w ∧ ch '\n' ∉ l := by
  obtain ⟨e1, e2, e3⟩ := piece_facts s lb e h1 (by omega) (fun c => c ≠ ch '\n')
    (by intro k c hk hk' hc he; subst he; exact hnl k hk hk' hc)
  obtain ⟨f1, f2, _⟩ := piece_facts s e b h2 hb Blank hgap
  constructor
  · rw [f1, e1]
    exact (hp.append_line _).append_gap _ f2
  · intro l hlm
    rcases List.mem_append.mp hlm with h | h
    · exact hl l h
    · rw [List.mem_singleton] at h
      subst h
      refine ⟨by omega, ?_⟩
      intro hc; exact e2 _ hc rfl

/-- The break keeps the invariant and leaves room on the line. -/
theorem wwBreak_inv (dbg : Bool) (width : BitVec 32) (hw0 : 0 < width.toNat) (s : List Byte) (i : Nat) (hi : i < s.length) (st : Ww)
    (h : WwInv width.toNat s i st) (hd : i - st.lb = width.toNat) :
    ∃ st', wwBreak dbg s i st = .ok st' ∧ WwInv width.toNat s i st' ∧ i - st'.lb < width.toNat := by
  have hW := width.isLt
  have hlt : st.sb < i := by
    rcases Nat.lt_or_ge st.sb i with h' | h'
    · exact h'
    · have := h.fresh (by have := h.hsb; omega); omega
  have hg : s[st.sb]? = some s[st.sb] := List.getElem?_eq_getElem (by omega)
  have hlb := h.hlb
  unfold wwBreak
  rw [Res.bind_eq, rd_get? s st.sb _ hg, Res.ok_bind]
  by_cases hc : s[st.sb] = ch ' '
  · rw [hc] at hg
    obtain ⟨a1, a2, a3, a4⟩ := h.space hlt hg
    rw [if_pos hc]
    cases hwe : st.we with
    | true =>
      obtain ⟨b1, b2⟩ := a3 hwe
      simp only [if_true]
      rw [Res.bind_eq, substr_piece s st.lb st.sb (by omega) (by omega) (by omega), Res.ok_bind, Res.pure_eq]
      obtain ⟨p1, p2⟩ := emit_inv width.toNat s st.lb st.sb (st.sb + 1) st.ret (by omega) (by omega) (by omega) (by omega) h.pieces
        h.lines (fun k hk hk' => h.hnl k hk (by omega))
        (by intro k c hk hk' hc'; obtain rfl : k = st.sb := by omega
            rw [hg] at hc'; cases hc'; exact .inl rfl)
      refine ⟨_, rfl, ⟨by simp; omega, by simp; omega, by simp; omega, ?_, ?_, ?_, ?_, p1, p2⟩, by simp; omega⟩
      · intro k hk hk'; exact h.hnl k (by simp at hk; omega) hk'
      · simp; omega
      · intro _ _
        exact ⟨Nat.le_refl _, a2, by simp, fun _ k hk hk' => a2 k (by simp at hk; omega) hk'⟩
      · intro _ hne; exact absurd hg hne
    | false =>
      simp only [Bool.false_eq_true, if_false]
      rw [Res.pure_eq]
      obtain ⟨f1, f2, _⟩ := piece_facts s st.lb i hlb (by omega) Blank
        (by intro k c hk hk' hc'; rw [a4 hwe k hk hk'] at hc'; cases hc'; exact .inl rfl)
      refine ⟨_, rfl, ⟨by simp, by simp, by simp, ?_, by simp, ?_, ?_, ?_, h.lines⟩, by simp; omega⟩
      · intro k hk hk'; simp at hk; omega
      · intro hk; simp at hk
      · intro hk; simp at hk
      · rw [f1]; exact h.pieces.append_gap _ f2
  · have hns : s[st.sb]? ≠ some (ch ' ') := by rw [hg]; simpa using hc
    obtain ⟨a1, a2, a3⟩ := h.word hlt hns
    rw [if_neg hc]
    cases hwe : st.we with
    | true =>
      obtain ⟨b1, b2⟩ := a3 hwe
      simp only [if_true]
      rw [show decide ((st.sb : Int) - st.lb ≥ 1) = true by simp; omega, ASSERT_true, Res.bind_eq, Res.ok_bind,
        if_neg (by omega), Res.bind_eq, substr_piece s st.lb (st.sb - 1) (by omega) (by omega) (by omega), Res.ok_bind, Res.pure_eq]
      obtain ⟨p1, p2⟩ := emit_inv width.toNat s st.lb (st.sb - 1) st.sb st.ret (by omega) (by omega) (by omega) (by omega) h.pieces
        h.lines (fun k hk hk' => h.hnl k hk (by omega))
        (by intro k c hk hk' hc'; obtain rfl : k = st.sb - 1 := by omega
            rw [b2] at hc'; cases hc'; exact .inl rfl)
      refine ⟨_, rfl, ⟨by simp; omega, by simp; omega, by simp; omega, ?_, ?_, ?_, ?_, p1, p2⟩, by simp; omega⟩
      · intro k hk hk'; exact h.hnl k (by simp at hk; omega) hk'
      · simp
      · intro _ he; exact absurd he hns
      · intro _ _; exact ⟨Nat.le_refl _, a2, by simp⟩
    | false =>
      simp only [Bool.false_eq_true, if_false]
      rw [Res.bind_eq, substr_piece s st.lb i (by omega) (by omega) (by omega), Res.ok_bind, Res.pure_eq]
      obtain ⟨p1, p2⟩ := emit_inv width.toNat s st.lb i i st.ret (by omega) (by omega) (by omega) (by omega) h.pieces
        h.lines (fun k hk hk' => h.hnl k hk (by omega)) (by intro k c hk hk'; omega)
      refine ⟨_, rfl, ⟨by simp, by simp, by simp, ?_, by simp, ?_, ?_, p1, p2⟩, by simp; omega⟩
      · intro k hk hk'; simp at hk; omega
      · intro hk; simp at hk
      · intro hk; simp at hk

theorem wwChar_inv (width : BitVec 32) (s : List Byte) (i : Nat) (hi : i < s.length) (st : Ww)
    (h : WwInv width.toNat s i st) (hd : s[i] = ch '\n' ∨ i - st.lb < width.toNat) :
    ∃ st', wwChar s i s[i] st = .ok st' ∧ WwInv width.toNat s (i + 1) st' := by
  have hW := width.isLt
  have hlb := h.hlb
  have hsb := h.hsb
  have hw := h.hw
  have hg : s[st.sb]? = some s[st.sb] := List.getElem?_eq_getElem (by omega)
  have hgi : s[i]? = some s[i] := List.getElem?_eq_getElem (by omega)
  unfold wwChar
  by_cases hc : s[i] = ch ' '
  · rw [if_pos hc, Res.bind_eq, rd_get? s st.sb _ hg, Res.ok_bind]
    rw [hc] at hgi
    have hd' : i - st.lb < width.toNat := by
      rcases hd with hd | hd
      · rw [hc] at hd; exact absurd hd.symm nl_ne_space
      · exact hd
    have hnl' : ∀ k, st.lb ≤ k → k < i + 1 → s[k]? ≠ some (ch '\n') := by
      intro k hk hk'
      rcases Nat.lt_or_ge k i with h' | h'
      · exact h.hnl k hk h'
      · obtain rfl : k = i := by omega
        rw [hgi]; intro he; exact nl_ne_space (Option.some.inj he).symm
    by_cases hs : s[st.sb] = ch ' '
    · rw [if_neg (by simpa using hs), Res.pure_eq]
      rw [hs] at hg
      refine ⟨st, rfl, ⟨by omega, by omega, by omega, hnl', by omega, ?_, ?_, h.pieces, h.lines⟩⟩
      · intro _ _
        rcases Nat.lt_or_ge st.sb i with h' | h'
        · obtain ⟨a1, a2, a3, a4⟩ := h.space h' hg
          refine ⟨a1, ?_, a3, ?_⟩
          · intro k hk hk'
            rcases Nat.lt_or_ge k i with h' | h'
            · exact a2 k hk h'
            · obtain rfl : k = i := by omega
              exact hgi
          · intro hwe k hk hk'
            rcases Nat.lt_or_ge k i with h' | h'
            · exact a4 hwe k hk h'
            · obtain rfl : k = i := by omega
              exact hgi
        · obtain ⟨f1, f2⟩ := h.fresh (by omega)
          refine ⟨by omega, ?_, by simp [f2], ?_⟩
          · intro k hk hk'; obtain rfl : k = i := by omega
            exact hgi
          · intro _ k hk hk'; obtain rfl : k = i := by omega
            exact hgi
      · intro _ hne; exact absurd hg hne
    · rw [if_pos hs, Res.pure_eq]
      have hns : s[st.sb]? ≠ some (ch ' ') := by rw [hg]; simpa using hs
      have hlt : st.sb < i := by
        rcases Nat.lt_or_ge st.sb i with h' | h'
        · exact h'
        · exact absurd hc (by simpa [show st.sb = i by omega] using hs)
      obtain ⟨a1, a2, a3⟩ := h.word hlt hns
      refine ⟨_, rfl, ⟨by simp; omega, by simp; omega, by simp, hnl', by simp, ?_, ?_, h.pieces, h.lines⟩⟩
      · intro _ _
        refine ⟨by simp; omega, ?_, ?_, by simp⟩
        · intro k hk hk'; simp at hk; obtain rfl : k = i := by omega
          exact hgi
        · intro _; exact ⟨by simp; omega, a2 _ (by simp; omega) (by simp; omega)⟩
      · intro _ hne; exact absurd hgi hne
  · rw [if_neg hc]
    by_cases hn : s[i] = ch '\n'
    · rw [if_pos hn, Res.bind_eq, substr_piece s st.lb i (by omega) (by omega) (by omega), Res.ok_bind, Res.pure_eq]
      obtain ⟨p1, p2⟩ := emit_inv width.toNat s st.lb i (i + 1) st.ret (by omega) (by omega) (by omega) (by omega) h.pieces
        h.lines (fun k hk hk' => h.hnl k hk (by omega))
        (by intro k c hk hk' hc'; obtain rfl : k = i := by omega
            rw [hgi, hn] at hc'; cases hc'; exact .inr rfl)
      refine ⟨_, rfl, ⟨by simp, by simp, by simp, ?_, by simp, ?_, ?_, p1, p2⟩⟩
      · intro k hk hk'; simp at hk; omega
      · intro hk; simp at hk
      · intro hk; simp at hk
    · rw [if_neg hn, Res.bind_eq, rd_get? s st.sb _ hg, Res.ok_bind]
      have hd' : i - st.lb < width.toNat := by
        rcases hd with hd | hd
        · exact absurd hd hn
        · exact hd
      have hnsi : s[i]? ≠ some (ch ' ') := by rw [hgi]; simpa using hc
      have hnl' : ∀ k, st.lb ≤ k → k < i + 1 → s[k]? ≠ some (ch '\n') := by
        intro k hk hk'
        rcases Nat.lt_or_ge k i with h' | h'
        · exact h.hnl k hk h'
        · obtain rfl : k = i := by omega
          rw [hgi]; simpa using hn
      by_cases hs : s[st.sb] = ch ' '
      · rw [if_pos hs, Res.pure_eq]
        rw [hs] at hg
        have hlt : st.sb < i := by
          rcases Nat.lt_or_ge st.sb i with h' | h'
          · exact h'
          · exact absurd hs (by simpa [show st.sb = i by omega] using hc)
        obtain ⟨a1, a2, a3, a4⟩ := h.space hlt hg
        refine ⟨_, rfl, ⟨by simp; omega, by simp; omega, by simp, hnl', by simp, ?_, ?_, h.pieces, h.lines⟩⟩
        · intro _ he; exact absurd he hnsi
        · intro _ _
          refine ⟨hlb, ?_, ?_⟩
          · intro k hk hk'; simp at hk; obtain rfl : k = i := by omega
            exact hnsi
          · intro hwe
            obtain ⟨b1, b2⟩ := a3 hwe
            exact ⟨by simp; omega, a2 _ (by simp; omega) (by simp; omega)⟩
      · rw [if_neg hs, Res.pure_eq]
        have hns : s[st.sb]? ≠ some (ch ' ') := by rw [hg]; simpa using hs
        refine ⟨st, rfl, ⟨by omega, by omega, by omega, hnl', by omega, ?_, ?_, h.pieces, h.lines⟩⟩
        · intro _ he; exact absurd he hns
        · intro _ _
          rcases Nat.lt_or_ge st.sb i with h' | h'
          · obtain ⟨a1, a2, a3⟩ := h.word h' hns
            refine ⟨a1, ?_, a3⟩
            intro k hk hk'
            rcases Nat.lt_or_ge k i with h' | h'
            · exact a2 k hk h'
            · obtain rfl : k = i := by omega
              exact hnsi
          · obtain ⟨f1, f2⟩ := h.fresh (by omega)
            refine ⟨by omega, ?_, by simp [f2]⟩
            intro k hk hk'; obtain rfl : k = i := by omega
            exact hnsi

theorem wwStep_inv (cpp20 dbg : Bool) (width : BitVec 32) (hw0 : 0 < width.toNat) (s : List Byte) (i : Nat) (hi : i < s.length)
    (st : Ww) (h : WwInv width.toNat s i st) :
    ∃ st', wwStep cpp20 dbg width s i st = .ok st' ∧ WwInv width.toNat s (i + 1) st' := by
  unfold wwStep
  have hlb := h.hlb
  rw [show decide ((i : Int) - st.lb ≥ 0) = true by simp; omega, ASSERT_true, Res.bind_eq, Res.ok_bind, Res.bind_eq,
    rd_eq_ok hi, Res.ok_bind]
  have hde := distEq_iff cpp20 i st.lb width h.hlb h.hw
  by_cases hb : s[i] ≠ ch '\n' ∧ distEq cpp20 ((i : Int) - st.lb) width = true
  · rw [if_pos hb]
    obtain ⟨st', e1, e2, e3⟩ := wwBreak_inv dbg width hw0 s i hi st h (hde.mp hb.2)
    rw [Res.bind_eq, e1, Res.ok_bind]
    exact wwChar_inv width s i hi st' e2 (.inr e3)
  · rw [if_neg hb, Res.bind_eq, Res.pure_eq, Res.ok_bind]
    refine wwChar_inv width s i hi st h ?_
    by_cases hn : s[i] = ch '\n'
    · exact .inl hn
    · right
      have := h.hw
      have : ¬ (i - st.lb = width.toNat) := fun he => hb ⟨hn, hde.mpr he⟩
      omega

theorem wwLoop_inv (cpp20 dbg : Bool) (width : BitVec 32) (hw0 : 0 < width.toNat) (s : List Byte) (fuel i : Nat)
    (hi : i + fuel = s.length) (st : Ww) (h : WwInv width.toNat s i st) :
    ∃ st', wwLoop cpp20 dbg width s fuel i st = .ok st' ∧ WwInv width.toNat s s.length st' := by
  induction fuel generalizing i st with
  | zero =>
    unfold wwLoop
    rw [if_pos (by omega)]
    obtain rfl : i = s.length := by omega
    exact ⟨st, rfl, h⟩
  | succ fuel ih =>
    unfold wwLoop
    rw [if_neg (by omega)]
    obtain ⟨st', e1, e2⟩ := wwStep_inv cpp20 dbg width hw0 s i (by omega) st h
    simp only [Res.bind_eq, e1, Res.ok_bind]
    exact ih (i + 1) (by omega) st' e2

theorem wwInv_init (w : Nat) (s : List Byte) : WwInv w s 0 { lb := 0, sb := 0, we := false, ret := [] } :=
  ⟨by simp, by simp, by simp, by intro k _ h; omega, by simp, by simp, by simp, .nil _ (by simp), by simp⟩

theorem wwLast_pieces (width : BitVec 32) (s : List Byte) (st : Ww) (h : WwInv width.toNat s s.length st) :
    ∃ lines, wwLast s st = .ok lines ∧ Pieces Blank s lines ∧ ∀ l ∈ lines, l.length ≤ width.toNat ∧ ch '\n' ∉ l := by
  have hW := width.isLt
  have hlb := h.hlb
  have hsb := h.hsb
  have hw := h.hw
  have whole : ∃ lines, (do
      let l ← substr s st.lb (sizeT ((s.length : Int) - st.lb))
      return st.ret ++ [l] : Res (List (List Byte))) = .ok lines ∧ Pieces Blank s lines ∧
        ∀ l ∈ lines, l.length ≤ width.toNat ∧ ch '\n' ∉ l := by
    rw [Res.bind_eq, substr_piece s st.lb s.length hlb (Nat.le_refl _) (by omega), Res.ok_bind, Res.pure_eq]
    obtain ⟨p1, p2⟩ := emit_inv width.toNat s st.lb s.length s.length st.ret (by omega) (by omega) (by omega) (by omega) h.pieces
      h.lines h.hnl (by intro k c hk hk'; omega)
    rw [List.take_length] at p1
    exact ⟨_, rfl, p1, p2⟩
  unfold wwLast
  by_cases he : st.sb = s.length
  · simp only [he, ne_eq, not_true_eq_false, if_false, Res.pure_eq, Res.bind_eq, Res.ok_bind, Bool.false_eq_true]
    exact whole
  · have hg : s[st.sb]? = some s[st.sb] := List.getElem?_eq_getElem (by omega)
    simp only [he, ne_eq, not_false_eq_true, if_true, rd_get? s st.sb _ hg, Res.pure_eq, Res.bind_eq, Res.ok_bind]
    by_cases hc : s[st.sb] = ch ' '
    · rw [hc] at hg
      obtain ⟨a1, a2, a3, a4⟩ := h.space (by omega) hg
      simp only [hc, decide_true, if_true]
      cases hwe : st.we with
      | true =>
        obtain ⟨b1, b2⟩ := a3 hwe
        simp only [if_true]
        rw [substr_piece s st.lb st.sb (by omega) (by omega) (by omega), Res.ok_bind]
        obtain ⟨p1, p2⟩ := emit_inv width.toNat s st.lb st.sb s.length st.ret (by omega) (by omega) (by omega) (by omega) h.pieces
          h.lines (fun k hk hk' => h.hnl k hk (by omega))
          (by intro k c hk hk' hc'; rw [a2 k hk hk'] at hc'; cases hc'; exact .inl rfl)
        rw [List.take_length] at p1
        exact ⟨_, rfl, p1, p2⟩
      | false =>
        simp only [Bool.false_eq_true, if_false]
        obtain ⟨f1, f2, _⟩ := piece_facts s st.lb s.length hlb (Nat.le_refl _) Blank
          (by intro k c hk hk' hc'; rw [a4 hwe k hk hk'] at hc'; cases hc'; exact .inl rfl)
        rw [List.take_length] at f1
        refine ⟨_, rfl, ?_, h.lines⟩
        rw [f1]; exact h.pieces.append_gap _ f2
    · simp only [hc, decide_false, Bool.false_eq_true, if_false]
      exact whole

theorem word_wrap_ok (cpp20 dbg : Bool) (s : List Byte) (width : BitVec 32) (hw0 : 0 < width.toNat) :
    ∃ lines, word_wrap cpp20 dbg s width = .ok lines ∧ Pieces Blank s lines ∧
      ∀ l ∈ lines, l.length ≤ width.toNat ∧ ch '\n' ∉ l := by
  unfold word_wrap
  rw [if_neg (by intro h; subst h; simp at hw0)]
  obtain ⟨st, e1, e2⟩ := wwLoop_inv cpp20 dbg width hw0 s s.length 0 (by omega) _ (wwInv_init _ s)
  rw [Res.bind_eq, e1, Res.ok_bind]
  exact wwLast_pieces width s st e2

end Utki
