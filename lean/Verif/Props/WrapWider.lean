import Verif.Props.WordWrap
/-!
# C112: wrapping with a greater width does not give more lines; C113: and no more than necessary
-/
namespace Utki
open Spec

/-! ## How many lines a single-spaced text gives -/

/-- Wrapping from position `a` on, where a line begins, gives `n` lines. -/
inductive Wraps (s : List Byte) (w : Nat) : Nat → Nat → Prop where
  | newline {a n : Nat} (p : Nat) (h1 : a ≤ p) (h2 : p ≤ a + w) (h3 : s[p]? = some (ch '\n'))
      (h4 : ∀ k, a ≤ k → k < p → s[k]? ≠ some (ch '\n')) (h : Wraps s w (p + 1) n) : Wraps s w a (n + 1)
  | full {a n : Nat} (h1 : a + w < s.length) (h2 : ∀ k, a ≤ k → k ≤ a + w → s[k]? ≠ some (ch '\n'))
      (h3 : s[a + w - 1]? = some (ch ' ') ∨ ∀ k, a < k → k < a + w → s[k]? ≠ some (ch ' ')) (h : Wraps s w (a + w) n) : Wraps s w a (n + 1)
  | word {a n : Nat} (u : Nat) (h1 : a + w < s.length) (h2 : ∀ k, a ≤ k → k ≤ a + w → s[k]? ≠ some (ch '\n')) (h3 : a + 1 < u) (h4 : u < a + w)
      (h5 : s[u - 1]? = some (ch ' ')) (h6 : ∀ k, u ≤ k → k < a + w → s[k]? ≠ some (ch ' ')) (h : Wraps s w u n) : Wraps s w a (n + 1)
  | drop {a n : Nat} (hw : w = 1) (h1 : s[a]? = some (ch ' ')) (h2 : a + 1 < s.length) (h3 : s[a + 1]? ≠ some (ch '\n')) (h : Wraps s w (a + 1) n) : Wraps s w a n
  | last {a : Nat} (h1 : s.length ≤ a + w) (h2 : a ≤ s.length) (h3 : ∀ k, a ≤ k → s[k]? ≠ some (ch '\n'))
      (h4 : a = s.length ∨ ∃ k, a ≤ k ∧ k < s.length ∧ s[k]? ≠ some (ch ' ')) : Wraps s w a 1
  | blank {a : Nat} (h1 : a < s.length) (h2 : ∀ k, a ≤ k → k < s.length → s[k]? = some (ch ' ')) : Wraps s w a 0

/-- What is known of the line in the making. -/
structure Lead (s : List Byte) (i : Nat) (st : Ww) : Prop where
  ge : st.lb ≤ st.sb
  word : st.we = true → st.sb < i → s[st.sb]? ≠ some (ch ' ') → st.lb + 1 < st.sb
  lead : st.we = false → ∃ m, st.lb ≤ m ∧ m ≤ i ∧ (∀ k, st.lb ≤ k → k < m → s[k]? = some (ch ' ')) ∧ ∀ k, m ≤ k → k < i → s[k]? ≠ some (ch ' ')

theorem wwStep_lead (cpp20 dbg : Bool) (width : BitVec 32) (s : List Byte) (i : Nat) (hi : i < s.length) (st st' : Ww)
    (h : WwInv width.toNat s i st) (hL : Lead s i st) (hn : s[i] ≠ ch '\n') (hd : i - st.lb < width.toNat)
    (he : wwStep cpp20 dbg width s i st = .ok st') : Lead s (i + 1) st' := by
  unfold wwStep at he
  have hlb := h.hlb
  have hsb := h.hsb
  have hde := distEq_iff cpp20 i st.lb width h.hlb h.hw
  rw [show decide ((i : Int) - st.lb ≥ 0) = true by simp; omega, ASSERT_true, Res.bind_eq, Res.ok_bind, Res.bind_eq,
    rd_eq_ok hi, Res.ok_bind, if_neg (fun hb => by have := hde.mp hb.2; omega), Res.bind_eq, Res.pure_eq, Res.ok_bind] at he
  have hg : s[st.sb]? = some s[st.sb] := List.getElem?_eq_getElem (by omega)
  have hgi : s[i]? = some s[i] := List.getElem?_eq_getElem hi
  change wwChar s i s[i] st = .ok st' at he
  unfold wwChar at he
  by_cases hc : s[i] = ch ' '
  · rw [if_pos hc, Res.bind_eq, rd_get? s st.sb _ hg, Res.ok_bind] at he
    rw [hc] at hgi
    by_cases hs : s[st.sb] ≠ ch ' '
    · rw [if_pos hs] at he
      cases he
      exact ⟨hlb, fun _ _ hne => absurd hgi hne, fun hf => by simp at hf⟩
    · rw [if_neg hs] at he
      cases he
      have hs' : s[st.sb] = ch ' ' := by simpa using hs
      rw [hs'] at hg
      refine ⟨hL.ge, fun _ _ hne => absurd hg hne, fun hf => ?_⟩
      refine ⟨i + 1, by omega, by omega, fun k hk hk' => ?_, fun k hk hk' => by omega⟩
      rcases Nat.lt_or_ge k i with hki | hki
      · rcases Nat.lt_or_ge st.sb i with hsi | hsi
        · exact (h.space hsi hg).2.2.2 hf k hk hki
        · have := h.fresh (by omega); omega
      · obtain rfl : k = i := by omega
        exact hgi
  · rw [if_neg hc, if_neg hn, Res.bind_eq, rd_get? s st.sb _ hg, Res.ok_bind] at he
    have hns : s[i]? ≠ some (ch ' ') := by rw [hgi]; simpa using hc
    by_cases hs : s[st.sb] = ch ' '
    · rw [if_pos hs] at he
      cases he
      rw [hs] at hg
      have hsi : st.sb < i := by
        rcases Nat.lt_or_ge st.sb i with hsi | hsi
        · exact hsi
        · obtain rfl : st.sb = i := by omega
          exact absurd hg hns
      have hsp := h.space hsi hg
      refine ⟨hlb, fun hf _ _ => ?_, fun hf => ?_⟩
      · have := (hsp.2.2.1 hf).1
        show st.lb + 1 < i
        omega
      · refine ⟨i, by omega, by omega, fun k hk hk' => hsp.2.2.2 hf k hk hk', fun k hk hk' => ?_⟩
        obtain rfl : k = i := by omega
        exact hns
    · rw [if_neg hs] at he
      cases he
      have hg' : s[st.sb]? ≠ some (ch ' ') := by rw [hg]; simpa using hs
      refine ⟨hL.ge, fun hf _ _ => ?_, fun hf => ?_⟩
      · rcases Nat.lt_or_ge st.sb i with hsi | hsi
        · exact hL.word hf hsi hg'
        · have := (h.fresh (by omega)).2
          rw [this] at hf; cases hf
      · obtain ⟨m, m1, m2, m3, m4⟩ := hL.lead hf
        refine ⟨m, m1, by omega, m3, fun k hk hk' => ?_⟩
        rcases Nat.lt_or_ge k i with hki | hki
        · exact m4 k hk hki
        · obtain rfl : k = i := by omega
          exact hns

/-- The variables where a line begins. -/
def freshAt (a : Nat) (r : List (List Byte)) : Ww := { lb := a, sb := a, we := false, ret := r }

theorem freshAt_inv {w : Nat} {s : List Byte} {a : Nat} {r : List (List Byte)} (hp : Pieces Blank (s.take a) r)
    (hl : ∀ l ∈ r, l.length ≤ w ∧ ch '\n' ∉ l) : WwInv w s a (freshAt a r) :=
  ⟨Nat.le_refl _, by simp [freshAt], Nat.le_refl _, fun k h1 h2 => by simp [freshAt] at h1; omega, fun _ => ⟨rfl, rfl⟩, fun h => by simp [freshAt] at h,
    fun h => by simp [freshAt] at h, hp, hl⟩

theorem freshAt_lead (s : List Byte) (a : Nat) (r : List (List Byte)) : Lead s a (freshAt a r) :=
  ⟨Nat.le_refl _, fun h => by simp [freshAt] at h, fun _ => ⟨a, Nat.le_refl _, Nat.le_refl _, fun k h1 h2 => by simp [freshAt] at h1; omega, fun k h1 h2 => by omega⟩⟩

/-- The loop inside of a line. -/
theorem wwLoop_line (cpp20 dbg : Bool) (width : BitVec 32) (hw0 : 0 < width.toNat) (s : List Byte) (n i : Nat)
    (hb : i + n ≤ s.length) (st : Ww) (h : WwInv width.toNat s i st) (hL : Lead s i st)
    (hn : ∀ k, i ≤ k → k < i + n → s[k]? ≠ some (ch '\n')) (hfit : i + n - st.lb ≤ width.toNat) :
    ∃ st', wwLoop cpp20 dbg width s (s.length - i) i st = wwLoop cpp20 dbg width s (s.length - (i + n)) (i + n) st' ∧
      WwInv width.toNat s (i + n) st' ∧ Lead s (i + n) st' ∧ st'.lb = st.lb ∧ st'.ret = st.ret := by
  induction n generalizing i st with
  | zero => exact ⟨st, rfl, h, hL, rfl, rfl⟩
  | succ n ih =>
    obtain ⟨st1, e1, e2⟩ := wwStep_inv cpp20 dbg width hw0 s i (by omega) st h
    have hlb := h.hlb
    have hnl : s[i] ≠ ch '\n' := by
      intro hc; exact hn i (by omega) (by omega) (by rw [List.getElem?_eq_getElem (by omega), hc])
    obtain ⟨e3, e4⟩ := wwStep_stay cpp20 dbg width s i (by omega) st st1 h hnl (by omega) e1
    have e5 := wwStep_lead cpp20 dbg width s i (by omega) st st1 h hL hnl (by omega) e1
    obtain ⟨st2, f1, f2, f5, f3, f4⟩ := ih (i + 1) (by omega) st1 e2 e5 (fun k hk hk' => hn k (by omega) (by omega)) (by omega)
    rw [show i + 1 + n = i + (n + 1) by omega] at f1 f2 f5
    refine ⟨st2, ?_, f2, f5, by omega, by rw [f4, e4]⟩
    rw [← f1, show s.length - i = (s.length - (i + 1)) + 1 by omega]
    conv => lhs; unfold wwLoop
    rw [if_neg (by omega)]
    simp only [Res.bind_eq, e1, Res.ok_bind]

/-- A step that breaks no line. -/
theorem wwStep_nobreak (cpp20 dbg : Bool) (width : BitVec 32) (s : List Byte) (i : Nat) (hi : i < s.length) (u : Nat) (r : List (List Byte)) (hu : u ≤ i)
    (hd : i - u < width.toNat) : wwStep cpp20 dbg width s i (freshAt u r) = wwChar s i s[i] (freshAt u r) := by
  unfold wwStep
  have hde := distEq_iff cpp20 i u width hu (by omega)
  rw [show decide ((i : Int) - ((freshAt u r).lb : Nat) ≥ 0) = true by simp [freshAt]; omega, ASSERT_true, Res.bind_eq, Res.ok_bind, Res.bind_eq,
    rd_eq_ok hi, Res.ok_bind, if_neg (fun hb => by have := hde.mp hb.2; omega), Res.bind_eq, Res.pure_eq, Res.ok_bind]

/-- The loop over the beginning of a word. -/
theorem wwLoop_word (cpp20 dbg : Bool) (width : BitVec 32) (s : List Byte) (u : Nat) (r : List (List Byte)) (n : Nat) (hb : u + n ≤ s.length)
    (hn : ∀ k, u ≤ k → k < u + n → s[k]? ≠ some (ch '\n') ∧ s[k]? ≠ some (ch ' ')) (hfit : n ≤ width.toNat) :
    wwLoop cpp20 dbg width s (s.length - u) u (freshAt u r) = wwLoop cpp20 dbg width s (s.length - (u + n)) (u + n) (freshAt u r) := by
  induction n with
  | zero => rfl
  | succ n ih =>
    rw [ih (by omega) (fun k hk hk' => hn k hk (by omega)) (by omega), show s.length - (u + n) = (s.length - (u + (n + 1))) + 1 by omega]
    conv => lhs; unfold wwLoop
    rw [if_neg (by omega)]
    have h1 := hn (u + n) (by omega) (by omega)
    have h0 := hn u (by omega) (by omega)
    have g1 : s[u + n]? = some s[u + n] := List.getElem?_eq_getElem (by omega)
    have g0 : s[u]? = some s[u] := List.getElem?_eq_getElem (by omega)
    rw [g1] at h1
    rw [g0] at h0
    have hstep : wwStep cpp20 dbg width s (u + n) (freshAt u r) = .ok (freshAt u r) := by
      rw [wwStep_nobreak cpp20 dbg width s (u + n) (by omega) u r (by omega) (by omega)]
      unfold wwChar
      rw [if_neg (by intro h; exact h1.2 (by rw [h])), if_neg (by intro h; exact h1.1 (by rw [h]))]
      show (rd s u).bind _ = _
      rw [rd_get? s u _ g0, Res.ok_bind, if_neg (by intro h; exact h0.2 (by rw [h])), Res.pure_eq]
    simp only [Res.bind_eq, hstep, Res.ok_bind]
    rfl

theorem single_run {s : List Byte} (hs : SingleSpaced s) {a b : Nat} (hab : a < b) (h : ∀ k, a ≤ k → k < b → s[k]? = some (ch ' ')) : b = a + 1 := by
  rcases Nat.lt_or_ge (a + 1) b with hlt | hge
  · obtain ⟨c, -, h2, h3, -⟩ := hs (a + 1) (h (a + 1) (by omega) hlt)
    have := h a (Nat.le_refl _) hab
    rw [Nat.add_sub_cancel, this] at h2
    cases h2
    exact absurd rfl h3
  · omega

/-- The loop from the beginning of a line, and the last line. -/
theorem wraps_from (cpp20 dbg : Bool) (width : BitVec 32) (hw0 : 0 < width.toNat) (s : List Byte) (hs : SingleSpaced s) (d : Nat) :
    ∀ (a : Nat) (r : List (List Byte)), a ≤ s.length → s.length - a = d → Pieces Blank (s.take a) r → (∀ l ∈ r, l.length ≤ width.toNat ∧ ch '\n' ∉ l) →
    ∃ n lines, (wwLoop cpp20 dbg width s (s.length - a) a (freshAt a r)).bind (wwLast s) = .ok lines ∧ lines.length = r.length + n ∧ Wraps s width.toNat a n := by
  induction d using Nat.strongRecOn with
  | ind d ih =>
  intro a r ha hd hp hl
  have hW := width.isLt
  have hI := freshAt_inv (w := width.toNat) hp hl
  have hL := freshAt_lead s a r
  -- is there a newline up to `a + w`?
  by_cases hnl : ∃ p, a ≤ p ∧ p ≤ a + width.toNat ∧ s[p]? = some (ch '\n') ∧ ∀ k, a ≤ k → k < p → s[k]? ≠ some (ch '\n')
  · obtain ⟨p, p1, p2, p3, p4⟩ := hnl
    obtain ⟨hpl, hpc⟩ := List.getElem?_eq_some_iff.mp p3
    obtain ⟨st, e1, e2, -, e3, e4⟩ := wwLoop_line cpp20 dbg width hw0 s (p - a) a (by omega) _ hI hL (fun k h1 h2 => p4 k h1 (by omega)) (by simp [freshAt]; omega)
    rw [show a + (p - a) = p by omega] at e1 e2
    have hstep := wwStep_nl cpp20 dbg width s p hpl st e2 hpc
    obtain ⟨st', f1, f2⟩ := wwStep_inv cpp20 dbg width hw0 s p hpl st e2
    rw [hstep] at f1
    cases f1
    obtain ⟨n, lines, g1, g2, g3⟩ := ih (s.length - (p + 1)) (by omega) (p + 1) _ (by omega) rfl f2.pieces f2.lines
    refine ⟨n + 1, lines, ?_, ?_, .newline p p1 p2 p3 p4 g3⟩
    · rw [← g1, e1, show s.length - p = (s.length - (p + 1)) + 1 by omega]
      conv => lhs; unfold wwLoop
      rw [if_neg (by omega)]
      simp only [Res.bind_eq, hstep, Res.ok_bind]
      rfl
    · rw [g2]; simp [e4, freshAt]; omega
  · have hno : ∀ k, a ≤ k → k ≤ a + width.toNat → s[k]? ≠ some (ch '\n') := by
      intro k
      induction k using Nat.strongRecOn with
      | ind k ihk =>
        intro h1 h2 h3
        exact hnl ⟨k, h1, h2, h3, fun j hj hj' => ihk j hj' hj (by omega)⟩
    by_cases hlen : s.length ≤ a + width.toNat
    · -- the last line
      obtain ⟨st, e1, e2, e5, e3, e4⟩ := wwLoop_line cpp20 dbg width hw0 s (s.length - a) a (by omega) _ hI hL (fun k h1 h2 => hno k h1 (by omega))
        (by simp [freshAt]; omega)
      rw [show a + (s.length - a) = s.length by omega] at e1 e2 e5
      have hend : wwLoop cpp20 dbg width s (s.length - s.length) s.length st = .ok st := by unfold wwLoop; rw [if_pos rfl]
      have hlb : st.lb = a := e3
      have hret : st.ret = r := e4
      have hsb := e2.hsb
      have hge := e5.ge
      have hnl' : ∀ k, a ≤ k → s[k]? ≠ some (ch '\n') := by
        intro k h1 h2
        exact hno k h1 (by have := (List.getElem?_eq_some_iff.mp h2).1; omega) h2
      rw [e1, hend, Res.ok_bind]
      have whole : (do
          let l ← substr s st.lb (sizeT ((s.length : Int) - st.lb))
          return st.ret ++ [l] : Res (List (List Byte))) = .ok (st.ret ++ [s.drop st.lb]) := by
        rw [Res.bind_eq, substr_piece s st.lb s.length (by omega) (Nat.le_refl _) (by omega), Res.ok_bind, Res.pure_eq]
        rw [List.take_of_length_le (by simp)]
      unfold wwLast
      by_cases he : st.sb = s.length
      · have := (e2.fresh he).1
        simp only [he, ne_eq, not_true_eq_false, if_false, Res.pure_eq, Res.bind_eq, Res.ok_bind, Bool.false_eq_true]
        exact ⟨1, _, whole, by simp [hret], .last hlen ha hnl' (.inl (by omega))⟩
      · have hg : s[st.sb]? = some s[st.sb] := List.getElem?_eq_getElem (by omega)
        simp only [he, ne_eq, not_false_eq_true, if_true, rd_get? s st.sb _ hg, Res.pure_eq, Res.bind_eq, Res.ok_bind]
        by_cases hc : s[st.sb] = ch ' '
        · rw [hc] at hg
          have hsp := e2.space (by omega) hg
          simp only [hc, decide_true, if_true]
          cases hwe : st.we with
          | true =>
            obtain ⟨b1, b2⟩ := hsp.2.2.1 hwe
            simp only [if_true]
            rw [substr_piece s st.lb st.sb (by omega) (by omega) (by omega), Res.ok_bind]
            exact ⟨1, _, rfl, by simp [hret], .last hlen ha hnl' (.inr ⟨st.sb - 1, by omega, by omega, b2⟩)⟩
          | false =>
            simp only [Bool.false_eq_true, if_false]
            refine ⟨0, _, rfl, by simp [hret], .blank (by omega) (fun k h1 h2 => hsp.2.2.2 hwe k (by omega) h2)⟩
        · simp only [hc, decide_false, Bool.false_eq_true, if_false]
          have hns : s[st.sb]? ≠ some (ch ' ') := by rw [hg]; simpa using hc
          have := e2.word (by omega) hns
          exact ⟨1, _, whole, by simp [hret], .last hlen ha hnl' (.inr ⟨st.sb, by omega, by omega, hns⟩)⟩
    · -- a full line
      obtain ⟨st, e1, e2, e5, e3, e4⟩ := wwLoop_line cpp20 dbg width hw0 s width.toNat a (by omega) _ hI hL (fun k h1 h2 => hno k h1 (by omega))
        (by simp [freshAt])
      have hlb : st.lb = a := e3
      have hret : st.ret = r := e4
      have hsb := e2.hsb
      obtain ⟨i, hi⟩ : ∃ i, i = a + width.toNat := ⟨_, rfl⟩
      rw [← hi] at e1 e2 e5 hsb hlen hno
      have hil : i < s.length := by omega
      have hgi : s[i]? = some s[i] := List.getElem?_eq_getElem hil
      have hci : s[i] ≠ ch '\n' := by
        intro hc; exact hno i (by omega) (by omega) (by rw [hgi, hc])
      have hlt : st.sb < i := by
        rcases Nat.lt_or_ge st.sb i with h' | h'
        · exact h'
        · have := e2.fresh (by omega); omega
      have hg : s[st.sb]? = some s[st.sb] := List.getElem?_eq_getElem (by omega)
      obtain ⟨st1, b1, b2, b3⟩ := wwBreak_inv dbg width hw0 s i hil st e2 (by omega)
      have hstep : wwStep cpp20 dbg width s i st = wwChar s i s[i] st1 := by
        unfold wwStep
        have hde := distEq_iff cpp20 i st.lb width (by omega) (by omega)
        rw [show decide ((i : Int) - st.lb ≥ 0) = true by simp; omega, ASSERT_true, Res.bind_eq, Res.ok_bind, Res.bind_eq,
          rd_eq_ok hil, Res.ok_bind, if_pos ⟨hci, hde.mpr (by omega)⟩, Res.bind_eq, b1, Res.ok_bind]
      -- what remains is a loop from the beginning of a line
      have cont : ∀ u r', u ≤ i → i - u < width.toNat → (∀ k, u ≤ k → k < i → s[k]? ≠ some (ch ' ')) → a ≤ u → wwChar s i s[i] st1 = wwChar s i s[i] (freshAt u r') →
          wwLoop cpp20 dbg width s (s.length - a) a (freshAt a r) = wwLoop cpp20 dbg width s (s.length - u) u (freshAt u r') := by
        intro u r' hu hd' hns hau hcc
        rw [wwLoop_word cpp20 dbg width s u r' (i - u) (by omega) (fun k h1 h2 => ⟨hno k (by omega) (by omega), hns k h1 (by omega)⟩) (by omega),
          show u + (i - u) = i by omega, e1, show s.length - i = (s.length - (i + 1)) + 1 by omega]
        conv => lhs; unfold wwLoop
        conv => rhs; unfold wwLoop
        rw [if_neg (by omega), if_neg (by omega)]
        simp only [hstep, hcc, wwStep_nobreak cpp20 dbg width s i hil u r' hu hd']
      unfold wwBreak at b1
      rw [Res.bind_eq, rd_get? s st.sb _ hg, Res.ok_bind] at b1
      by_cases hc : s[st.sb] = ch ' '
      · rw [hc] at hg
        have hsp := e2.space hlt hg
        rw [if_pos hc] at b1
        cases hwe : st.we with
        | true =>
          obtain ⟨c1, c2⟩ := hsp.2.2.1 hwe
          have hi1 : i = st.sb + 1 := single_run hs hlt hsp.2.1
          simp only [hwe, if_true] at b1
          rw [Res.bind_eq, substr_piece s st.lb st.sb (by omega) (by omega) (by omega), Res.ok_bind, Res.pure_eq] at b1
          cases b1
          obtain ⟨n, lines, g1, g2, g3⟩ := ih (s.length - i) (by omega) i _ (by omega) rfl (by rw [hi1]; exact b2.pieces) b2.lines
          refine ⟨n + 1, lines, ?_, ?_, ?_⟩
          · rw [← g1, cont i _ (Nat.le_refl _) (by omega) (fun k h1 h2 => by omega) (by omega) ?_]
            -- the variables differ, but not after the next character
            have hnsi : s[i] ≠ ch ' ' := by
              intro hsi
              obtain ⟨c, -, q2, q3, -⟩ := hs i (by rw [hgi, hsi])
              rw [hi1, Nat.add_sub_cancel, hg] at q2
              cases q2; exact q3 rfl
            unfold wwChar
            rw [if_neg hnsi, if_neg hnsi, if_neg hci, if_neg hci]
            simp only [freshAt, Res.bind_eq]
            rw [rd_get? s st.sb _ hg, rd_get? s i _ hgi, Res.ok_bind, Res.ok_bind, if_pos rfl, if_neg hnsi, hi1]
          · rw [g2]; simp [hret]; omega
          · rw [hi] at g3
            refine .full (by omega) (fun k h1 h2 => hno k h1 (by omega)) (.inl ?_) g3
            rw [← hi, hi1, Nat.add_sub_cancel]; exact hg
        | false =>
          have hall := hsp.2.2.2 hwe
          have hi1 : i = st.lb + 1 := single_run hs (by omega) hall
          simp only [hwe, Bool.false_eq_true, if_false, Res.pure_eq] at b1
          cases b1
          obtain ⟨n, lines, g1, g2, g3⟩ := ih (s.length - i) (by omega) i r (by omega) rfl (by rw [← hret]; exact b2.pieces) (by rw [← hret]; exact b2.lines)
          refine ⟨n, lines, ?_, g2, ?_⟩
          · rw [← g1, cont i r (Nat.le_refl _) (by omega) (fun k h1 h2 => by omega) (by omega) (by rw [hret]; rfl)]
          · have : i = a + 1 := by omega
            rw [this] at g3
            refine .drop (by omega) (by rw [← hlb]; exact hall _ (Nat.le_refl _) (by omega)) (by omega) (by rw [← this]; exact hno i (by omega) (by omega)) g3
      · have hns : s[st.sb]? ≠ some (ch ' ') := by rw [hg]; simpa using hc
        have hwd := e2.word hlt hns
        rw [if_neg hc] at b1
        cases hwe : st.we with
        | true =>
          obtain ⟨c1, c2⟩ := hwd.2.2 hwe
          have c3 := e5.word hwe hlt hns
          simp only [hwe, if_true] at b1
          rw [show decide ((st.sb : Int) - st.lb ≥ 1) = true by simp; omega, ASSERT_true, Res.bind_eq, Res.ok_bind,
            if_neg (by omega), Res.bind_eq, substr_piece s st.lb (st.sb - 1) (by omega) (by omega) (by omega), Res.ok_bind, Res.pure_eq] at b1
          cases b1
          obtain ⟨n, lines, g1, g2, g3⟩ := ih (s.length - st.sb) (by omega) st.sb _ (by omega) rfl b2.pieces b2.lines
          refine ⟨n + 1, lines, ?_, ?_, ?_⟩
          · rw [← g1, cont st.sb _ (by omega) (by omega) hwd.2.1 (by omega) rfl]
          · rw [g2]; simp [hret]; omega
          · exact .word st.sb (by omega) (fun k h1 h2 => hno k h1 (by omega)) (by omega) (by omega) c2 (fun k h1 h2 => hwd.2.1 k h1 (by omega)) g3
        | false =>
          simp only [hwe, Bool.false_eq_true, if_false] at b1
          rw [Res.bind_eq, substr_piece s st.lb i (by omega) (by omega) (by omega), Res.ok_bind, Res.pure_eq] at b1
          cases b1
          obtain ⟨m, m1, m2, m3, m4⟩ := e5.lead hwe
          have hm : m ≤ st.lb + 1 := by
            rcases Nat.lt_or_ge st.lb m with h' | h'
            · have := single_run hs h' m3; omega
            · omega
          obtain ⟨n, lines, g1, g2, g3⟩ := ih (s.length - i) (by omega) i _ (by omega) rfl b2.pieces b2.lines
          refine ⟨n + 1, lines, ?_, ?_, ?_⟩
          · rw [← g1, cont i _ (Nat.le_refl _) (by omega) (fun k h1 h2 => by omega) (by omega) rfl]
          · rw [g2]; simp [hret]; omega
          · rw [hi] at g3
            exact .full (by omega) (fun k h1 h2 => hno k h1 (by omega)) (.inr (fun k h1 h2 => m4 k (by omega) (by omega))) g3

/-- A greater width gives no more lines, from any later position. -/
theorem wraps_wider {s : List Byte} (hs : SingleSpaced s) {w w' : Nat} (hw0 : 0 < w) (hw : w < w') {a n : Nat} (h : Wraps s w a n) :
    ∀ b n', (a ≤ b ∨ (w = 1 ∧ a = b + 1 ∧ s[b]? = some (ch ' '))) → (b = s.length → s.length = 0 ∨ s[s.length - 1]? = some (ch '\n')) → Wraps s w' b n' → n' ≤ n := by
  have hne : ch ' ' ≠ ch '\n' := by decide
  have lt_of : ∀ {k : Nat} {c : Byte}, s[k]? = some c → k < s.length := fun h => (List.getElem?_eq_some_iff.mp h).1
  -- a newline from `b` on is a newline from `a` on
  have later : ∀ {a b p : Nat}, (a ≤ b ∨ (w = 1 ∧ a = b + 1 ∧ s[b]? = some (ch ' '))) → b ≤ p → s[p]? = some (ch '\n') → a ≤ p := by
    intro a b p hab hbp hp
    rcases hab with hab | ⟨-, hab, hsp⟩
    · omega
    · rcases Nat.lt_or_ge b p with h | h
      · omega
      · obtain rfl : b = p := by omega
        rw [hsp] at hp
        exact absurd (Option.some.inj hp) hne
  have ends : ∀ {p : Nat}, s[p]? = some (ch '\n') → p + 1 = s.length → s.length = 0 ∨ s[s.length - 1]? = some (ch '\n') := by
    intro p hp hl
    right; rw [← hl, Nat.add_sub_cancel]; exact hp
  induction h with
  | @newline a n p h1 h2 h3 h4 h ih =>
    intro b n' hab hH hb
    by_cases hpb : p + 1 ≤ b
    · exact Nat.le_succ_of_le (ih b n' (.inl hpb) hH hb)
    have hbp : b ≤ p := by omega
    have hp := lt_of h3
    cases hb with
    | newline p' g1 g2 g3 g4 g =>
      have hap := later hab g1 g3
      have hpp : p ≤ p' := by
        rcases Nat.lt_or_ge p' p with hlt | hge
        · exact absurd g3 (h4 p' hap hlt)
        · exact hge
      exact Nat.succ_le_succ (ih _ _ (.inl (by omega)) (ends g3) g)
    | full g1 g2 g3 g => exact absurd h3 (g2 p hbp (by omega))
    | word u g1 g2 g3 g4 g5 g6 g => exact absurd h3 (g2 p hbp (by omega))
    | drop g0 => omega
    | last g1 g2 g3 g4 => omega
    | blank g1 g2 => omega
  | @full a n h1 h2 h3 h ih =>
    intro b n' hab hH hb
    by_cases hpb : a + w ≤ b
    · exact Nat.le_succ_of_le (ih b n' (.inl hpb) hH hb)
    cases hb with
    | newline p' g1 g2 g3 g4 g =>
      have hap := later hab g1 g3
      have hpp : a + w < p' := by
        rcases Nat.lt_or_ge (a + w) p' with hlt | hge
        · exact hlt
        · exact absurd g3 (h2 p' hap hge)
      exact Nat.succ_le_succ (ih _ _ (.inl (by omega)) (ends g3) g)
    | full g1 g2 g3 g => exact Nat.succ_le_succ (ih _ _ (.inl (by omega)) (fun hh => by omega) g)
    | word u g1 g2 g3 g4 g5 g6 g =>
      refine Nat.succ_le_succ (ih _ _ (.inl ?_) (fun hh => by omega) g)
      rcases Nat.lt_or_ge u (a + w) with hlt | hge
      · rcases h3 with h3 | h3
        · exact absurd h3 (g6 _ (by omega) (by omega))
        · exact absurd g5 (h3 _ (by omega) (by omega))
      · exact hge
    | drop g0 => omega
    | last g1 g2 g3 g4 => omega
    | blank g1 g2 => omega
  | @word a n v h1 h2 h3 h4 h5 h6 h ih =>
    intro b n' hab hH hb
    by_cases hpb : v ≤ b
    · exact Nat.le_succ_of_le (ih b n' (.inl hpb) hH hb)
    cases hb with
    | newline p' g1 g2 g3 g4 g =>
      have hap := later hab g1 g3
      have hpp : a + w < p' := by
        rcases Nat.lt_or_ge (a + w) p' with hlt | hge
        · exact hlt
        · exact absurd g3 (h2 p' hap hge)
      exact Nat.succ_le_succ (ih _ _ (.inl (by omega)) (ends g3) g)
    | full g1 g2 g3 g => exact Nat.succ_le_succ (ih _ _ (.inl (by omega)) (fun hh => by omega) g)
    | word u g1 g2 g3 g4 g5 g6 g =>
      refine Nat.succ_le_succ (ih _ _ (.inl ?_) (fun hh => by omega) g)
      rcases Nat.lt_or_ge u v with hlt | hge
      · exact absurd h5 (g6 _ (by omega) (by omega))
      · exact hge
    | drop g0 => omega
    | last g1 g2 g3 g4 => omega
    | blank g1 g2 => omega
  | @drop a n h0 h1 h2 h3 h ih =>
    intro b n' hab hH hb
    rcases hab with hab | ⟨-, hab, hsp⟩
    · rcases Nat.lt_or_ge a b with hlt | hge
      · exact ih b n' (.inl hlt) hH hb
      · obtain rfl : a = b := by omega
        exact ih a n' (.inr ⟨h0, rfl, h1⟩) hH hb
    · obtain ⟨c, -, q2, q3, -⟩ := hs a h1
      rw [hab, Nat.add_sub_cancel, hsp] at q2
      cases q2; exact absurd rfl q3
  | @last a h1 h2 h3 h4 =>
    intro b n' hab hH hb
    cases hb with
    | newline p' g1 g2 g3 g4 g => exact absurd g3 (h3 p' (later hab g1 g3))
    | full g1 g2 g3 g => omega
    | word u g1 g2 g3 g4 g5 g6 g => omega
    | drop g0 => omega
    | last g1 g2 g3 g4 => omega
    | blank g1 g2 => omega
  | @blank a h1 h2 =>
    intro b n' hab hH hb
    have hlen : s.length = a + 1 := single_run hs h1 h2
    have hsp := h2 a (Nat.le_refl _) h1
    cases hb with
    | newline p' g1 g2 g3 g4 g =>
      have := h2 p' (later hab g1 g3) (lt_of g3)
      rw [this] at g3
      exact absurd (Option.some.inj g3) hne
    | full g1 g2 g3 g => omega
    | word u g1 g2 g3 g4 g5 g6 g => omega
    | drop g0 => omega
    | last g1 g2 g3 g4 =>
      exfalso
      rcases g4 with g4 | ⟨k, k1, k2, k3⟩
      · rcases hH g4 with h | h
        · omega
        · rw [hlen, Nat.add_sub_cancel, hsp] at h
          exact absurd (Option.some.inj h) hne
      · rcases Nat.lt_or_ge k a with hlt | hge
        · rcases hab with hab | ⟨-, hab, hb⟩
          · omega
          · obtain rfl : k = b := by omega
            exact k3 hb
        · exact k3 (h2 k hge k2)
    | blank g1 g2 => omega

theorem word_wrap_wraps (cpp20 dbg : Bool) (s : List Byte) (width : BitVec 32) (hw0 : 0 < width.toNat) (hs : SingleSpaced s) :
    ∃ n lines, word_wrap cpp20 dbg s width = .ok lines ∧ lines.length = n ∧ Wraps s width.toNat 0 n := by
  obtain ⟨n, lines, h1, h2, h3⟩ := wraps_from cpp20 dbg width hw0 s hs s.length 0 [] (Nat.zero_le _) rfl (by simpa using Pieces.nil [] (by simp)) (by simp)
  refine ⟨n, lines, ?_, by simpa using h2, h3⟩
  rw [← h1]
  unfold word_wrap
  rw [if_neg (by intro h; rw [h] at hw0; simp at hw0)]
  rfl

/-- The text from `b` on can be divided into lines shorter than the width: then there are no more lines from `a` on. -/
theorem wraps_fewest {s : List Byte} {w : Nat} (hw0 : 0 < w) {t : List Byte} {ls : List (List Byte)} (h : Divided (w - 1) t ls) :
    ∀ b a n, t = s.drop b → b ≤ s.length → b ≤ a → Wraps s w a n → n ≤ ls.length := by
  have lt_of : ∀ {k : Nat} {c : Byte}, s[k]? = some c → k < s.length := fun h => (List.getElem?_eq_some_iff.mp h).1
  induction h with
  | last l h1 h2 =>
    intro b a n ht hbs hba hn
    have hlen : l.length = s.length - b := by rw [ht]; simp
    have hno : ∀ k, b ≤ k → s[k]? ≠ some (ch '\n') := by
      intro k hk hc
      refine h2 (List.mem_iff_getElem?.mpr ⟨k - b, ?_⟩)
      rw [ht, List.getElem?_drop, show b + (k - b) = k by omega, hc]
    cases hn with
    | newline p g1 g2 g3 g4 g => exact absurd g3 (hno p (by omega))
    | full g1 g2 g3 g => omega
    | word u g1 g2 g3 g4 g5 g6 g => omega
    | drop g0 g1 g2 g3 g => omega
    | last g1 g2 g3 g4 => simp
    | blank g1 g2 => simp
  | line l c rest ls h1 h2 h3 h ih =>
    intro b a n ht hbs hba hn
    have hlen : l.length + 1 + rest.length = s.length - b := by
      have := congrArg List.length ht
      simp at this; omega
    have hc : s[b + l.length]? = some c := by
      have : (s.drop b)[l.length]? = some c := by rw [← ht]; simp
      rwa [List.getElem?_drop] at this
    have hin : ∀ k, b ≤ k → k < b + l.length → s[k]? ≠ some (ch '\n') := by
      intro k hk hk' hc
      refine h2 (List.mem_iff_getElem?.mpr ⟨k - b, ?_⟩)
      have : (s.drop b)[k - b]? = some (ch '\n') := by rw [List.getElem?_drop, show b + (k - b) = k by omega, hc]
      rw [← ht, List.getElem?_append_left (by omega)] at this
      exact this
    have hrest : rest = s.drop (b + l.length + 1) := by
      have := congrArg (List.drop (l.length + 1)) ht
      rw [List.drop_drop] at this
      rw [show b + l.length + 1 = b + (l.length + 1) by omega, ← this]
      simp
    by_cases hab : b + l.length + 1 ≤ a
    · exact Nat.le_succ_of_le (ih _ a n hrest (by omega) hab hn)
    cases hn with
    | newline p g1 g2 g3 g4 g =>
      refine Nat.succ_le_succ (ih _ (p + 1) _ hrest (by omega) ?_ g)
      rcases Nat.lt_or_ge p (b + l.length) with hlt | hge
      · exact absurd g3 (hin p (by omega) hlt)
      · omega
    | full g1 g2 g3 g => exact Nat.succ_le_succ (ih _ _ _ hrest (by omega) (by omega) g)
    | word u g1 g2 g3 g4 g5 g6 g =>
      refine Nat.succ_le_succ (ih _ _ _ hrest (by omega) ?_ g)
      rcases Nat.lt_or_ge (b + l.length) u with hlt | hge
      · omega
      · rcases h3 with rfl | rfl
        · exact absurd hc (g6 _ hge (by omega))
        · exact absurd hc (g2 _ (by omega) (by omega))
    | drop g0 g1 g2 g3 g => exact Nat.le_succ_of_le (ih _ _ _ hrest (by omega) (by omega) g)
    | last g1 g2 g3 g4 => simp
    | blank g1 g2 => simp

/-! ## The properties -/

/-- **C112.** A single-spaced text wrapped with a greater width gives no more lines. -/
theorem C112_wider (cpp20 dbg : Bool) (s : List Byte) (w w' : BitVec 32) (hw0 : 0 < w.toNat) (hw : w.toNat ≤ w'.toNat) (hs : Spec.SingleSpaced s) :
    ∃ ls ls', word_wrap cpp20 dbg s w = .ok ls ∧ word_wrap cpp20 dbg s w' = .ok ls' ∧ ls'.length ≤ ls.length := by
  obtain ⟨n, ls, h1, h2, h3⟩ := word_wrap_wraps cpp20 dbg s w hw0 hs
  obtain ⟨n', ls', g1, g2, g3⟩ := word_wrap_wraps cpp20 dbg s w' (by omega) hs
  refine ⟨ls, ls', h1, g1, ?_⟩
  by_cases he : w.toNat = w'.toNat
  · obtain rfl : w = w' := BitVec.eq_of_toNat_eq he
    rw [h1] at g1
    cases g1; exact Nat.le_refl _
  · rw [h2, g2]
    exact wraps_wider hs hw0 (by omega) h3 0 n' (.inl (Nat.le_refl _)) (fun h => .inl h.symm) g3

/-- **C112.** With spaces one after the other a greater width can give more lines. -/
theorem C112_double_spaces (cpp20 dbg : Bool) :
    word_wrap cpp20 dbg (str "a   aa") 2 = .ok [str "a", str "aa"] ∧
    word_wrap cpp20 dbg (str "a   aa") 3 = .ok [str "a", str "  a", str "a"] := by
  cases cpp20 <;> cases dbg <;> decide +kernel

/-- **C113.** A single-spaced text gives no more lines than any division of it into lines that are shorter than the width. -/
theorem C113_fewest (cpp20 dbg : Bool) (s : List Byte) (w : BitVec 32) (hw0 : 0 < w.toNat) (hs : Spec.SingleSpaced s) (ls : List (List Byte))
    (hd : Spec.Divided (w.toNat - 1) s ls) : ∃ lines, word_wrap cpp20 dbg s w = .ok lines ∧ lines.length ≤ ls.length := by
  obtain ⟨n, lines, h1, h2, h3⟩ := word_wrap_wraps cpp20 dbg s w hw0 hs
  refine ⟨lines, h1, ?_⟩
  rw [h2]
  exact wraps_fewest hw0 hd 0 0 n (by simp) (Nat.zero_le _) (Nat.le_refl _) h3

/-- **C113.** A division into lines that fill the width can have fewer lines. -/
theorem C113_full_lines (cpp20 dbg : Bool) : Spec.Divided 2 (str "aa bb") [str "aa", str "bb"] ∧
    word_wrap cpp20 dbg (str "aa bb") 2 = .ok [str "aa", str " b", str "b"] := by
  refine ⟨.line (str "aa") (ch ' ') (str "bb") _ (by decide) (by decide) (.inl rfl) (.last _ (by decide) (by decide)), ?_⟩
  cases cpp20 <;> cases dbg <;> decide +kernel

/-- The text of the examples: a newline, a word longer than the line, a space at the end. -/
theorem singleSpaced_example : Spec.SingleSpaced (str "ab c\ndefgh ij ") := by
  intro k hk
  have hlt : k < 14 := (List.getElem?_eq_some_iff.mp hk).1
  have : ∀ k, k < 14 → (str "ab c\ndefgh ij ")[k]? = some (ch ' ') →
      0 < k ∧ ((str "ab c\ndefgh ij ")[k - 1]?).all (fun c => decide (c ≠ ch ' ' ∧ c ≠ ch '\n')) = true ∧ ((str "ab c\ndefgh ij ")[k - 1]?).isSome = true := by
    decide +kernel
  obtain ⟨h1, h2, h3⟩ := this k hlt hk
  obtain ⟨c, hc⟩ := Option.isSome_iff_exists.mp h3
  rw [hc] at h2
  exact ⟨c, h1, hc, by simpa using h2⟩

example : ∃ ls ls', word_wrap true true (str "ab c\ndefgh ij ") 3 = .ok ls ∧ word_wrap true true (str "ab c\ndefgh ij ") 6 = .ok ls' ∧ ls'.length ≤ ls.length :=
  C112_wider true true _ 3 6 (by decide) (by decide) singleSpaced_example

example : word_wrap true true (str "ab c\ndefgh ij ") 3 = .ok [str "ab", str "c", str "def", str "gh", str "ij"] := by decide +kernel
example : word_wrap true true (str "ab c\ndefgh ij ") 6 = .ok [str "ab c", str "defgh", str "ij"] := by decide +kernel

example : ∃ lines, word_wrap true true (str "ab c\ndefgh ij ") 6 = .ok lines ∧ lines.length ≤ 3 :=
  C113_fewest true true _ 6 (by decide) singleSpaced_example [str "ab c", str "defgh", str "ij "]
    (.line (str "ab c") (ch '\n') (str "defgh ij ") _ (by decide) (by decide) (.inr rfl)
      (.line (str "defgh") (ch ' ') (str "ij ") _ (by decide) (by decide) (.inl rfl) (.last _ (by decide) (by decide))))

end Utki
