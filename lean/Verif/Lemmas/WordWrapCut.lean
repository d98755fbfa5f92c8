import Verif.Lemmas.WordWrap
/-!
# Where `word_wrap` divides words
-/
namespace Utki
open Spec

/-- A line end at `b` in the middle of a word. -/
def CutsWord (s : List Byte) (b : Nat) : Prop :=
  0 < b ∧ ∃ x y, s[b - 1]? = some x ∧ s[b]? = some y ∧ ¬ Blank x ∧ ¬ Blank y

/-- The line `[a, b)` may end there. -/
def GoodLine (w : Nat) (s : List Byte) (p : Nat × Nat) : Prop :=
  (CutsWord s p.2 → p.2 = p.1 + w ∧ ∃ m, p.1 ≤ m ∧ (∀ k, p.1 ≤ k → k < m → s[k]? = some (ch ' ')) ∧
    ∀ k c, m ≤ k → k < p.2 → s[k]? = some c → ¬ Blank c) ∧
  ∀ u v, WordAt Blank s u v → p.2 < u → (∀ k, p.2 ≤ k → k < u → s[k]? = some (ch ' ')) → p.1 + w ≤ v

/-- Everything before `lb` has been laid out. -/
structure LaidOut (w : Nat) (s : List Byte) (lb : Nat) (ret : List (List Byte)) (bounds : List (Nat × Nat)) : Prop where
  ret : ret = bounds.map (fun p => (s.drop p.1).take (p.2 - p.1))
  inside : ∀ p ∈ bounds, p.1 ≤ p.2 ∧ p.2 ≤ lb
  sorted : bounds.Pairwise (fun p q => p.2 ≤ q.1)
  rest : ∀ k c, k < lb → s[k]? = some c → Blank c ∨ ∃ p ∈ bounds, p.1 ≤ k ∧ k < p.2
  good : ∀ p ∈ bounds, GoodLine w s p

theorem LaidOut.skip {w : Nat} {s : List Byte} {lb lb' : Nat} {ret : List (List Byte)} {bounds : List (Nat × Nat)}
    (h : LaidOut w s lb ret bounds) (hle : lb ≤ lb') (hb : ∀ k c, lb ≤ k → k < lb' → s[k]? = some c → Blank c) :
    LaidOut w s lb' ret bounds := by
  refine ⟨h.ret, fun p hp => ⟨(h.inside p hp).1, by have := (h.inside p hp).2; omega⟩, h.sorted, ?_, h.good⟩
  intro k c hk hc
  rcases Nat.lt_or_ge k lb with h' | h'
  · exact h.rest k c h' hc
  · exact .inl (hb k c h' hk hc)

theorem LaidOut.emit {w : Nat} {s : List Byte} {lb : Nat} {ret : List (List Byte)} {bounds : List (Nat × Nat)}
    (h : LaidOut w s lb ret bounds) (e : Nat) (hle : lb ≤ e) (hg : GoodLine w s (lb, e)) :
    LaidOut w s e (ret ++ [(s.drop lb).take (e - lb)]) (bounds ++ [(lb, e)]) := by
  refine ⟨by simp [h.ret], ?_, ?_, ?_, ?_⟩
  · intro p hp
    rcases List.mem_append.mp hp with hp | hp
    · have := h.inside p hp; omega
    · rw [List.mem_singleton] at hp; subst hp; exact ⟨hle, Nat.le_refl _⟩
  · rw [List.pairwise_append]
    refine ⟨h.sorted, by simp, ?_⟩
    intro p hp q hq
    rw [List.mem_singleton] at hq; subst hq
    exact (h.inside p hp).2
  · intro k c hk hc
    rcases Nat.lt_or_ge k lb with h' | h'
    · rcases h.rest k c h' hc with h1 | ⟨p, hp, h1⟩
      · exact .inl h1
      · exact .inr ⟨p, List.mem_append_left _ hp, h1⟩
    · exact .inr ⟨(lb, e), by simp, h', hk⟩
  · intro p hp
    rcases List.mem_append.mp hp with hp | hp
    · exact h.good p hp
    · rw [List.mem_singleton] at hp; subst hp; exact hg

/-- A line followed by a blank. -/
theorem goodLine_blank (w : Nat) (s : List Byte) (a b : Nat) (c : Byte) (h : s[b]? = some c) (hc : Blank c)
    (hf : ∀ u v, WordAt Blank s u v → b < u → (∀ k, b ≤ k → k < u → s[k]? = some (ch ' ')) → a + w ≤ v) : GoodLine w s (a, b) := by
  refine ⟨?_, hf⟩
  rintro ⟨_, x, y, _, hy, _, hn⟩
  rw [h] at hy; cases hy; exact absurd hc hn

/-- A word does not begin at a space. -/
theorem word_not_space {s : List Byte} {u v k : Nat} (hW : WordAt Blank s u v) (hk : u ≤ k) (hk' : k < v)
    (h : s[k]? = some (ch ' ')) : False := hW.inside k _ hk hk' h (.inl rfl)

/-- The last line. -/
theorem goodLine_end (w : Nat) (s : List Byte) (a : Nat) : GoodLine w s (a, s.length) := by
  refine ⟨?_, ?_⟩
  · rintro ⟨_, x, y, _, hy, _, hn⟩
    simp at hy
  · intro u v hW hu _
    have := hW.lt; have := hW.le; simp only at hu; omega

/-- The additional invariant: the lines so far, and only spaces before the first word of the current line. -/
structure CutInv (w : Nat) (s : List Byte) (i : Nat) (st : Ww) : Prop where
  laid : ∃ bounds, LaidOut w s st.lb st.ret bounds
  lead : st.we = false → st.sb < i → s[st.sb]? ≠ some (ch ' ') → ∀ k, st.lb ≤ k → k < st.sb → s[k]? = some (ch ' ')

theorem wwBreak_cut (dbg : Bool) (width : BitVec 32) (hw0 : 0 < width.toNat) (s : List Byte) (i : Nat)
    (hi : i < s.length) (st st' : Ww) (h : WwInv width.toNat s i st) (hJ : CutInv width.toNat s i st)
    (hd : i - st.lb = width.toNat) (he : wwBreak dbg s i st = .ok st') : CutInv width.toNat s i st' := by
  have hW := width.isLt
  have hlt : st.sb < i := by
    rcases Nat.lt_or_ge st.sb i with h' | h'
    · exact h'
    · have := h.fresh (by have := h.hsb; omega); omega
  have hg : s[st.sb]? = some s[st.sb] := List.getElem?_eq_getElem (by omega)
  have hlb := h.hlb
  obtain ⟨bounds, hl⟩ := hJ.laid
  unfold wwBreak at he
  rw [Res.bind_eq, rd_get? s st.sb _ hg, Res.ok_bind] at he
  by_cases hc : s[st.sb] = ch ' '
  · rw [hc] at hg
    obtain ⟨a1, a2, a3, a4⟩ := h.space hlt hg
    rw [if_pos hc] at he
    cases hwe : st.we with
    | true =>
      obtain ⟨b1, b2⟩ := a3 hwe
      simp only [hwe, if_true] at he
      rw [Res.bind_eq, substr_piece s st.lb st.sb (by omega) (by omega) (by omega), Res.ok_bind, Res.pure_eq] at he
      cases he
      refine ⟨⟨_, (hl.emit st.sb (by omega) (goodLine_blank _ s _ _ _ hg (.inl rfl) ?_)).skip (by simp) ?_⟩, ?_⟩
      · intro u v hW hu _
        have hlt' := hW.lt
        rcases Nat.lt_or_ge u i with hui | hui
        · exact (word_not_space hW (Nat.le_refl _) hlt' (a2 u (by omega) hui)).elim
        · omega
      · intro k c hk hk' hc'
        simp only at hk'
        obtain rfl : k = st.sb := by omega
        rw [hg] at hc'; cases hc'; exact .inl rfl
      · intro _ _ hn; exact absurd hg hn
    | false =>
      simp only [hwe, Bool.false_eq_true, if_false] at he
      rw [Res.pure_eq] at he
      cases he
      refine ⟨⟨_, hl.skip hlb ?_⟩, ?_⟩
      · intro k c hk hk' hc'
        rw [a4 hwe k hk hk'] at hc'; cases hc'; exact .inl rfl
      · intro _ hk; simp at hk
  · have hns : s[st.sb]? ≠ some (ch ' ') := by rw [hg]; simpa using hc
    obtain ⟨a1, a2, a3⟩ := h.word hlt hns
    rw [if_neg hc] at he
    cases hwe : st.we with
    | true =>
      obtain ⟨b1, b2⟩ := a3 hwe
      simp only [hwe, if_true] at he
      rw [show decide ((st.sb : Int) - st.lb ≥ 1) = true by simp; omega, ASSERT_true, Res.bind_eq, Res.ok_bind,
        if_neg (by omega), Res.bind_eq, substr_piece s st.lb (st.sb - 1) (by omega) (by omega) (by omega), Res.ok_bind,
        Res.pure_eq] at he
      cases he
      refine ⟨⟨_, (hl.emit (st.sb - 1) (by omega) (goodLine_blank _ s _ _ _ b2 (.inl rfl) ?_)).skip (by simp) ?_⟩, ?_⟩
      · intro u v hW hu hsp
        have hlt' := hW.lt
        have hle' := hW.le
        have hu' : u = st.sb := by
          rcases Nat.lt_or_ge st.sb u with h' | h'
          · exact absurd (hsp st.sb (by omega) h') hns
          · omega
        rcases Nat.lt_or_ge v i with hvi | hvi
        · exfalso
          rcases hW.after with h' | ⟨c, hc', hb⟩
          · omega
          · rcases hb with rfl | rfl
            · exact a2 v (by omega) hvi hc'
            · exact h.hnl v (by omega) hvi hc'
        · omega
      · intro k c hk hk' hc'
        simp only at hk'
        obtain rfl : k = st.sb - 1 := by omega
        rw [b2] at hc'; cases hc'; exact .inl rfl
      · intro _ _ _ k hk hk'; simp only at hk hk'; omega
    | false =>
      simp only [hwe, Bool.false_eq_true, if_false] at he
      rw [Res.bind_eq, substr_piece s st.lb i (by omega) (by omega) (by omega), Res.ok_bind, Res.pure_eq] at he
      cases he
      refine ⟨⟨_, hl.emit i hlb ?_⟩, ?_⟩
      · refine ⟨fun _ => ?_, fun u v hW hu _ => by have := hW.lt; simp only at hu; omega⟩
        refine ⟨by simp only; omega, st.sb, a1, hJ.lead hwe hlt hns, ?_⟩
        rintro k c hk hk' hck (rfl | rfl)
        · exact a2 k hk hk' hck
        · exact h.hnl k (by omega) hk' hck
      · intro _ hk; simp at hk

theorem wwChar_cut (width : BitVec 32) (s : List Byte) (i : Nat) (hi : i < s.length) (st st' : Ww)
    (h : WwInv width.toNat s i st) (hJ : CutInv width.toNat s i st) (he : wwChar s i s[i] st = .ok st') :
    CutInv width.toNat s (i + 1) st' := by
  have hW := width.isLt
  have hlb := h.hlb
  have hsb := h.hsb
  have hw := h.hw
  have hg : s[st.sb]? = some s[st.sb] := List.getElem?_eq_getElem (by omega)
  have hgi : s[i]? = some s[i] := List.getElem?_eq_getElem (by omega)
  obtain ⟨bounds, hl⟩ := hJ.laid
  unfold wwChar at he
  by_cases hc : s[i] = ch ' '
  · rw [if_pos hc, Res.bind_eq, rd_get? s st.sb _ hg, Res.ok_bind] at he
    by_cases hsp : s[st.sb] = ch ' '
    · rw [if_neg (by simpa using hsp), Res.pure_eq] at he
      cases he
      refine ⟨⟨_, hl⟩, fun _ _ hn => absurd (by rw [hg, hsp]) hn⟩
    · rw [if_pos hsp, Res.pure_eq] at he
      cases he
      exact ⟨⟨_, hl⟩, by simp⟩
  · rw [if_neg hc] at he
    by_cases hn : s[i] = ch '\n'
    · rw [if_pos hn, Res.bind_eq, substr_piece s st.lb i (by omega) (by omega) (by omega), Res.ok_bind, Res.pure_eq] at he
      cases he
      refine ⟨⟨_, (hl.emit i hlb (goodLine_blank _ s _ _ _ hgi (.inr hn) ?_)).skip (by simp) ?_⟩, ?_⟩
      · intro u v hW hu hsp
        have := hsp i (Nat.le_refl _) hu
        rw [hgi, hn] at this
        exact absurd (Option.some.inj this) nl_ne_space
      · intro k c hk hk' hc'
        simp only at hk'
        obtain rfl : k = i := by omega
        rw [hgi] at hc'; cases hc'; exact .inr hn
      · intro _ hk; simp at hk
    · rw [if_neg hn, Res.bind_eq, rd_get? s st.sb _ hg, Res.ok_bind] at he
      by_cases hsp : s[st.sb] = ch ' '
      · rw [if_pos hsp, Res.pure_eq] at he
        cases he
        refine ⟨⟨_, hl⟩, ?_⟩
        intro hwe _ _ k hk hk'
        simp only at hwe hk hk'
        rw [hsp] at hg
        have hlt : st.sb < i := by
          rcases Nat.lt_or_ge st.sb i with h' | h'
          · exact h'
          · obtain rfl : i = st.sb := by omega
            exact absurd hsp hc
        exact (h.space hlt hg).2.2.2 hwe k hk hk'
      · rw [if_neg hsp, Res.pure_eq] at he
        cases he
        refine ⟨⟨_, hl⟩, ?_⟩
        intro hwe _ hns k hk hk'
        rcases Nat.lt_or_ge st.sb i with h' | h'
        · exact hJ.lead hwe h' hns k hk hk'
        · have := h.fresh (by omega); omega

theorem wwLoop_cut (cpp20 dbg : Bool) (width : BitVec 32) (hw0 : 0 < width.toNat) (s : List Byte)
    (fuel i : Nat) (hi : i + fuel = s.length) (st : Ww) (h : WwInv width.toNat s i st) (hJ : CutInv width.toNat s i st) :
    ∃ st', wwLoop cpp20 dbg width s fuel i st = .ok st' ∧ WwInv width.toNat s s.length st' ∧ CutInv width.toNat s s.length st' := by
  induction fuel generalizing i st with
  | zero =>
    unfold wwLoop
    rw [if_pos (by omega)]
    obtain rfl : i = s.length := by omega
    exact ⟨st, rfl, h, hJ⟩
  | succ fuel ih =>
    unfold wwLoop
    rw [if_neg (by omega)]
    obtain ⟨st', e1, e2⟩ := wwStep_inv cpp20 dbg width hw0 s i (by omega) st h
    have hi' : i < s.length := by omega
    have hJ' : CutInv width.toNat s (i + 1) st' := by
      have he := e1
      unfold wwStep at he
      have hlb := h.hlb
      rw [show decide ((i : Int) - st.lb ≥ 0) = true by simp; omega, ASSERT_true, Res.bind_eq, Res.ok_bind, Res.bind_eq,
        rd_eq_ok hi', Res.ok_bind] at he
      have hde := distEq_iff cpp20 i st.lb width h.hlb h.hw
      by_cases hb : s[i] ≠ ch '\n' ∧ distEq cpp20 ((i : Int) - st.lb) width = true
      · rw [if_pos hb] at he
        obtain ⟨st1, f1, f2, f3⟩ := wwBreak_inv dbg width hw0 s i hi' st h (hde.mp hb.2)
        rw [Res.bind_eq, f1, Res.ok_bind] at he
        exact wwChar_cut width s i hi' st1 st' f2
          (wwBreak_cut dbg width hw0 s i hi' st st1 h hJ (hde.mp hb.2) f1) he
      · rw [if_neg hb, Res.bind_eq, Res.pure_eq, Res.ok_bind] at he
        exact wwChar_cut width s i hi' st st' h hJ he
    simp only [Res.bind_eq, e1, Res.ok_bind]
    exact ih (i + 1) (by omega) st' e2 hJ'

theorem wwLast_cut (width : BitVec 32) (s : List Byte) (st : Ww) (h : WwInv width.toNat s s.length st)
    (hJ : CutInv width.toNat s s.length st) :
    ∃ lines bounds, wwLast s st = .ok lines ∧ LaidOut width.toNat s s.length lines bounds := by
  have hW := width.isLt
  have hlb := h.hlb
  have hsb := h.hsb
  have hw := h.hw
  obtain ⟨bounds, hl⟩ := hJ.laid
  have whole : ∃ lines bounds, (do
      let l ← substr s st.lb (sizeT ((s.length : Int) - st.lb))
      return st.ret ++ [l] : Res (List (List Byte))) = .ok lines ∧ LaidOut width.toNat s s.length lines bounds := by
    rw [Res.bind_eq, substr_piece s st.lb s.length hlb (Nat.le_refl _) (by omega), Res.ok_bind, Res.pure_eq]
    exact ⟨_, _, rfl, hl.emit s.length hlb (goodLine_end _ s _)⟩
  unfold wwLast
  by_cases he : st.sb = s.length
  · simp only [he, ne_eq, not_true_eq_false, if_false, Res.pure_eq, Res.bind_eq, Res.ok_bind, Bool.false_eq_true]
    exact whole
  · have hg : s[st.sb]? = some s[st.sb] := List.getElem?_eq_getElem (by omega)
    simp only [he, ne_eq, not_false_eq_true, if_true, rd_get? s st.sb _ hg, Res.pure_eq, Res.bind_eq, Res.ok_bind]
    by_cases hc : s[st.sb] = ch ' '
    · rw [hc] at hg
      obtain ⟨a1, a2, a3, a4⟩ := h.space (by omega) hg
      simp only [hc, decide_true, if_true]
      cases hwe : st.we with
      | true =>
        obtain ⟨b1, b2⟩ := a3 hwe
        simp only [if_true]
        rw [substr_piece s st.lb st.sb (by omega) (by omega) (by omega), Res.ok_bind]
        refine ⟨_, _, rfl, (hl.emit st.sb (by omega) (goodLine_blank _ s _ _ _ hg (.inl rfl) ?_)).skip hsb ?_⟩
        · intro u v hW hu _
          have hlt' := hW.lt
          have hle' := hW.le
          exact (word_not_space hW (Nat.le_refl _) hlt' (a2 u (by omega) (by omega))).elim
        intro k c hk hk' hc'; rw [a2 k hk hk'] at hc'; cases hc'; exact .inl rfl
      | false =>
        simp only [Bool.false_eq_true, if_false]
        refine ⟨_, _, rfl, hl.skip hlb ?_⟩
        intro k c hk hk' hc'; rw [a4 hwe k hk hk'] at hc'; cases hc'; exact .inl rfl
    · simp only [hc, decide_false, Bool.false_eq_true, if_false]
      exact whole

theorem word_wrap_laid (cpp20 dbg : Bool) (s : List Byte) (width : BitVec 32) (hw0 : 0 < width.toNat) :
    ∃ lines bounds, word_wrap cpp20 dbg s width = .ok lines ∧ LaidOut width.toNat s s.length lines bounds := by
  unfold word_wrap
  rw [if_neg (by intro h; subst h; simp at hw0)]
  obtain ⟨st, e1, e2, e3⟩ := wwLoop_cut cpp20 dbg width hw0 s s.length 0 (by omega) _ (wwInv_init _ s)
    ⟨⟨[], ⟨by simp, by simp, by simp, by simp, by simp⟩⟩, by simp⟩
  rw [Res.bind_eq, e1, Res.ok_bind]
  exact wwLast_cut width s st e2 e3

theorem LaidOut.layout {w : Nat} {s : List Byte} {lines : List (List Byte)} {bounds : List (Nat × Nat)}
    (h : LaidOut w s s.length lines bounds) : Layout Blank s lines bounds :=
  ⟨h.ret, h.inside, h.sorted, fun k c hc => h.rest k c (List.getElem?_eq_some_iff.mp hc).1 hc⟩

theorem LaidOut.words {w : Nat} {s : List Byte} {lines : List (List Byte)} {bounds : List (Nat × Nat)}
    (h : LaidOut w s s.length lines bounds) (u v : Nat) (hW : WordAt Blank s u v) :
    (∃ p ∈ bounds, p.1 ≤ u ∧ v ≤ p.2) ∨
    (∃ p ∈ bounds, p.1 ≤ u ∧ u < p.2 ∧ p.2 < v ∧ p.2 = p.1 + w ∧ ∀ k, p.1 ≤ k → k < u → s[k]? = some (ch ' ')) := by
  have hle := hW.le
  have hlt := hW.lt
  have hgu : s[u]? = some s[u] := List.getElem?_eq_getElem (by omega)
  have hnu := hW.inside u _ (Nat.le_refl _) hlt hgu
  rcases h.rest u _ (by omega) hgu with hb | ⟨p, hp, hp1, hp2⟩
  · exact absurd hb hnu
  rcases Nat.lt_or_ge p.2 v with hv | hv
  · right
    have hx : s[p.2 - 1]? = some s[p.2 - 1] := List.getElem?_eq_getElem (by omega)
    have hy : s[p.2]? = some s[p.2] := List.getElem?_eq_getElem (by omega)
    obtain ⟨e1, m, m1, m2, m3⟩ := (h.good p hp).1 ⟨by omega, _, _, hx, hy, hW.inside _ _ (by omega) (by omega) hx,
      hW.inside _ _ (by omega) hv hy⟩
    have hmu : u ≤ m := by
      rcases Nat.lt_or_ge m u with h' | h'
      · rcases hW.before with rfl | ⟨c, hc, hbc⟩
        · omega
        · exact absurd hbc (m3 (u - 1) c (by omega) (by omega) hc)
      · exact h'
    exact ⟨p, hp, hp1, hp2, hv, e1, fun k hk hk' => m2 k hk (by omega)⟩
  · exact .inl ⟨p, hp, hp1, hv⟩

end Utki
