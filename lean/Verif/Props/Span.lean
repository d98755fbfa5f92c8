import Verif.Lemmas.Span
import Verif.Spec.Lex
/-!
# Properties of `span` (C68, C69, C75)
-/
namespace Utki
open Spec
variable {α : Type}

/-! ## C68: access stays inside the span -/

/-- C68, `at`: element `i`, or `std::out_of_range` exactly for `i >= size()`; never undefined. -/
theorem C68_at (s : Span α) (h : s.Valid) (i : Nat) :
    (i < s.size → ∃ a, s.at_ i = .ok a ∧ s.contents[i]? = some a) ∧
    (s.size ≤ i → s.at_ i = .throw .out_of_range) := by
  constructor
  · intro hi
    refine ⟨_, ?_, List.getElem?_eq_getElem (by rw [Span.length_contents h]; exact hi)⟩
    have : ¬ (i ≥ s.size) := by omega
    simp only [Span.at_, this, if_false]
    exact Span.rd_contents h hi
  · intro hi
    simp [Span.at_, hi]

/-- C68, `operator[]`: for valid indices the element, in debug and release; an invalid index aborts in debug. -/
theorem C68_index (dbg : Bool) (s : Span α) (h : s.Valid) (i : Nat) :
    (i < s.size → ∃ a, s.get dbg i = .ok a ∧ s.contents[i]? = some a) ∧
    (s.size ≤ i → s.get true i = .abort) := by
  constructor
  · intro hi
    exact ⟨_, Span.get_ok dbg h hi, List.getElem?_eq_getElem (by rw [Span.length_contents h]; exact hi)⟩
  · intro hi
    have : decide (i < s.size) = false := by simp; omega
    simp [Span.get, this]

/-- C68, `front` and `back` of a non-empty span are its first and last element. -/
theorem C68_front_back (dbg : Bool) (s : Span α) (h : s.Valid) (hne : s.size ≠ 0) (hsz : s.mem.length < 2 ^ 64) :
    (∃ a, s.front dbg = .ok a ∧ s.contents.head? = some a) ∧
    (∃ a, s.back dbg = .ok a ∧ s.contents.getLast? = some a) := by
  have hl := Span.length_contents h
  have hv : s.off + s.size ≤ s.mem.length := h
  constructor
  · refine ⟨_, Span.front_ok dbg h (by omega), ?_⟩
    rw [List.head?_eq_getElem?]
    exact List.getElem?_eq_getElem (by omega)
  · have hm : (s.size + sizeMax) % 2 ^ 64 = s.size - 1 := by simp only [sizeMax]; omega
    have he : (!s.empty) = true := by simp [Span.empty]; omega
    refine ⟨s.contents[s.size - 1]'(by omega), ?_, ?_⟩
    · simp only [Span.back, he, ASSERT_true, Res.bind_eq, Res.ok_bind, hm]
      exact Span.get_ok dbg h (by omega)
    · simp only [List.getLast?_eq_getElem?, hl]
      exact List.getElem?_eq_getElem (by omega)

/-- C68: `front` and `back` of an empty span abort in a debug build. In a release build `front` gives an element of the object that is not in the
span, or is undefined if there is none there; `back` is always undefined. -/
theorem C68_front_back_empty (s : Span α) (he : s.size = 0) (hsz : s.mem.length < 2 ^ 64 - 1) :
    s.front true = .abort ∧ s.back true = .abort ∧
    s.front false = (match s.mem[s.off]? with | some a => .ok a | none => .ub .oob_read) ∧ s.back false = .ub .oob_read := by
  refine ⟨by simp [Span.front, Span.empty, he, ASSERT], by simp [Span.back, Span.empty, he, ASSERT], ?_, ?_⟩
  · simp only [Span.front, Span.get, ASSERT, rd, Res.bind_eq, Res.ok_bind, Bool.false_and, Bool.false_eq_true, if_false, Nat.add_zero]
    cases s.mem[s.off]? <;> rfl
  · have hn : s.mem[s.off + (s.size + sizeMax) % 2 ^ 64]? = none := by
      rw [List.getElem?_eq_none_iff, he]
      simp only [sizeMax]
      omega
    simp only [Span.back, Span.get, ASSERT, rd, Res.bind_eq, Res.ok_bind, Bool.false_and, Bool.false_eq_true, if_false, hn]

/-- C68, `subspan(o, n)` inside the span denotes elements `o .. o+n-1`, and is again a valid span of the same object. -/
theorem C68_subspan (dbg : Bool) (s : Span α) (h : s.Valid) (o n : Nat) (hin : o + n ≤ s.size) (hn : n ≠ sizeMax) :
    ∃ t, s.subspan dbg o n = .ok t ∧ t.Valid ∧ t.mem = s.mem ∧ t.size = n ∧ t.contents = (s.contents.drop o).take n := by
  refine ⟨_, Span.subspan_count dbg h hin hn, ?_, rfl, rfl, Span.contents_drop_take hin⟩
  simp only [Span.Valid] at *; omega

/-- C68, `subspan(o)` denotes everything from element `o` on. -/
theorem C68_subspan_rest (dbg : Bool) (s : Span α) (h : s.Valid) (o : Nat) (hin : o ≤ s.size) :
    ∃ t, s.subspan dbg o = .ok t ∧ t.Valid ∧ t.mem = s.mem ∧ t.size = s.size - o ∧ t.contents = s.contents.drop o := by
  refine ⟨_, Span.subspan_rest dbg h hin, ?_, rfl, rfl, Span.contents_drop⟩
  simp only [Span.Valid] at *; omega

/-- C68: nested subspans compose: the subspan `(o2, n2)` of the subspan `(o1, n1)` is the subspan `(o1 + o2, n2)`. -/
theorem C68_subspan_compose (dbg : Bool) (s : Span α) (h : s.Valid) (o1 n1 o2 n2 : Nat)
    (h1 : o1 + n1 ≤ s.size) (h2 : o2 + n2 ≤ n1) (hn1 : n1 ≠ sizeMax) (hn2 : n2 ≠ sizeMax) :
    (s.subspan dbg o1 n1).bind (fun t => t.subspan dbg o2 n2) = s.subspan dbg (o1 + o2) n2 := by
  have hv : Span.Valid (⟨s.mem, s.off + o1, n1⟩ : Span α) := by simp only [Span.Valid] at *; omega
  rw [Span.subspan_count dbg h h1 hn1, Res.ok_bind, Span.subspan_count dbg h (by omega) hn2,
    Span.subspan_count dbg hv h2 hn2, Nat.add_assoc]

/-- C68: a subspan that is not inside the span fails its assertion in a debug build whenever the pointer
arithmetic itself stays inside the underlying object. -/
theorem C68_subspan_bad_aborts (s : Span α) (h : s.Valid) (o n : Nat) (hbad : s.size < o + n) (hn : n ≠ sizeMax)
    (hobj : s.off + o + n ≤ s.mem.length) : s.subspan true o n = .abort := by
  have h1 : s.off + o ≤ s.mem.length := by omega
  by_cases ho : o ≤ s.size
  · have h5 : decide (s.off + o + n ≤ s.off + s.size) = false := by simp; omega
    simp [Span.subspan, Span.ptrAdd, h1, Span.end_ok h, hn, ho, hobj, h5]
  · simp [Span.subspan, Span.ptrAdd, h1, Span.end_ok h, ho]

/-- C68: iterating `begin()..end()` gives exactly the elements, `rbegin()..rend()` gives them backwards. -/
theorem C68_iteration (s : Span α) (h : s.Valid) :
    s.toList = .ok s.contents ∧ s.toListRev = .ok s.contents.reverse ∧ s.contents.length = s.size :=
  ⟨Span.toList_eq h, Span.toListRev_eq h, Span.length_contents h⟩

/-- C68: a span made of a whole container denotes all its elements. -/
theorem C68_make_span (l : List α) : (Span.ofList l).Valid ∧ (Span.ofList l).contents = l ∧ (Span.ofList l).size = l.length := by
  simp [Span.ofList, Span.Valid, Span.contents]

/-- C68: `overlaps` on a non-empty span decides whether the pointer points at one of its elements; on an empty
span the code dereferences `begin()`, which at the end of the object is undefined. -/
theorem C68_overlaps (s : Span α) (h : s.Valid) (p : Nat) :
    (0 < s.size → s.overlaps p = .ok (decide (s.off ≤ p ∧ p < s.off + s.size))) ∧
    (s.off = s.mem.length → s.overlaps p = .ub .oob_read) := by
  have hv : s.off + s.size ≤ s.mem.length := h
  constructor
  · intro hne
    have h0 : s.off + s.size ≠ 0 := by omega
    simp only [Span.overlaps, rd_eq_ok (show s.off < s.mem.length by omega), Span.end_ok h, Res.bind_eq, Res.ok_bind,
      h0, if_false, rd_eq_ok (show s.off + s.size - 1 < s.mem.length by omega), Res.pure_eq]
    congr 1
    apply decide_eq_decide.mpr
    omega
  · intro he
    simp [Span.overlaps, rd_oob (show s.mem.length ≤ s.off by omega)]

/-- A valid span in the middle of an object meets the hypotheses above. -/
example : Span.Valid (⟨[1, 2, 3, 4, 5, 6], 1, 4⟩ : Span Nat) ∧
    Span.contents (⟨[1, 2, 3, 4, 5, 6], 1, 4⟩ : Span Nat) = [2, 3, 4, 5] ∧
    (⟨[1, 2, 3, 4, 5, 6], 1, 4⟩ : Span Nat).subspan true 1 2 = .ok ⟨[1, 2, 3, 4, 5, 6], 2, 2⟩ ∧
    (⟨[1, 2, 3, 4, 5, 6], 1, 4⟩ : Span Nat).at_ 4 = .throw .out_of_range := by
  refine ⟨by simp [Span.Valid], by decide, by decide, by decide⟩

/-! ## C69: deep comparison -/

theorem isEqv_iff (eq : α → α → Bool) (l r : List α) :
    List.isEqv l r eq = true ↔ l.length = r.length ∧ ∀ (i : Nat) a b, l[i]? = some a → r[i]? = some b → eq a b = true := by
  induction l generalizing r with
  | nil => cases r <;> simp
  | cons x l ih =>
    cases r with
    | nil => simp
    | cons y r =>
      simp only [List.isEqv, Bool.and_eq_true, ih, List.length_cons, Nat.add_right_cancel_iff]
      constructor
      · rintro ⟨h1, h2, h3⟩
        refine ⟨h2, ?_⟩
        intro i a b ha hb
        cases i with
        | zero => simp at ha hb; subst ha; subst hb; exact h1
        | succ i => simp at ha hb; exact h3 i a b ha hb
      · rintro ⟨h2, h3⟩
        exact ⟨h3 0 x y (by simp) (by simp), h2, fun i a b ha hb => h3 (i + 1) a b (by simpa using ha) (by simpa using hb)⟩

/-- C69: `deep_equals` is equal length and pairwise equality, never reads outside either span; `deep_not_equals` is
its negation. -/
theorem C69_deep_equals (eq : α → α → Bool) (l r : Span α) (hl : l.Valid) (hr : r.Valid) :
    ∃ b, Span.deep_equals eq l r = .ok b ∧ Span.deep_not_equals eq l r = .ok (!b) ∧
      (b = true ↔ l.size = r.size ∧
        ∀ (i : Nat) x y, l.contents[i]? = some x → r.contents[i]? = some y → eq x y = true) := by
  by_cases hsz : l.size = r.size
  · have e : Span.deep_equals eq l r = .ok (List.isEqv l.contents r.contents eq) := by
      simp only [Span.deep_equals, hsz, ne_eq, not_true, if_false]
      rw [Span.equalLoop_eq _ _ _ _ _ _ (by have := hl; simp only [Span.Valid] at this; omega) hr]
      simp [Span.contents, hsz]
    refine ⟨_, e, by simp [Span.deep_not_equals, e], ?_⟩
    rw [isEqv_iff, Span.length_contents hl, Span.length_contents hr]
  · have e : Span.deep_equals eq l r = .ok false := by simp [Span.deep_equals, hsz]
    exact ⟨_, e, by simp [Span.deep_not_equals, e], by simp [hsz]⟩

theorem lexB_iff (lt : α → α → Bool) (l r : List α) : Span.lexB lt l r = true ↔ LexLess lt l r := by
  induction l generalizing r with
  | nil =>
    cases r with
    | nil =>
      simp only [Span.lexB, LexLess]
      simp
    | cons b r =>
      simp only [Span.lexB, LexLess]
      simp only [List.isEmpty_cons, Bool.not_false, true_iff]
      exact ⟨0, by intro i hi; omega, Or.inl ⟨rfl, by simp⟩⟩
  | cons a l ih =>
    cases r with
    | nil =>
      simp only [Span.lexB, LexLess]
      constructor
      · intro h; simp at h
      · rintro ⟨k, h1, h2 | ⟨x, y, _, h2, _⟩⟩
        · simp at h2
        · simp at h2
    | cons b r =>
      simp only [Span.lexB, Bool.or_eq_true, Bool.and_eq_true, Bool.not_eq_true', ih r]
      constructor
      · rintro (h | ⟨h1, k, h2, h3⟩)
        · exact ⟨0, by intro i hi; omega, Or.inr ⟨a, b, by simp, by simp, h⟩⟩
        · by_cases hab : lt a b = true
          · exact ⟨0, by intro i hi; omega, Or.inr ⟨a, b, by simp, by simp, hab⟩⟩
          · refine ⟨k + 1, ?_, ?_⟩
            · intro i hi
              cases i with
              | zero => exact ⟨a, b, by simp, by simp, by simpa using hab, h1⟩
              | succ i => simpa using h2 i (by omega)
            · simpa using h3
      · rintro ⟨k, h2, h3⟩
        cases k with
        | zero =>
          rcases h3 with h3 | ⟨x, y, hx, hy, h⟩
          · simp at h3
          · simp at hx hy; subst hx; subst hy; exact Or.inl h
        | succ k =>
          obtain ⟨x, y, hx, hy, h4, h5⟩ := h2 0 (by omega)
          simp at hx hy; subst hx; subst hy
          refine Or.inr ⟨h5, k, ?_, ?_⟩
          · intro i hi
            simpa using h2 (i + 1) (by omega)
          · simpa using h3

theorem deep_less_than_eq (lt : α → α → Bool) (l r : Span α) (hl : l.Valid) (hr : r.Valid) :
    Span.deep_less_than lt l r = .ok (Span.lexB lt l.contents r.contents) :=
  Span.lexLoop_eq lt _ _ _ _ _ _ hl hr

/-- C69: `deep_less_than` decides lexicographic order and the other three comparisons are derived from it;
no read outside either span. -/
theorem C69_deep_compare (lt : α → α → Bool) (l r : Span α) (hl : l.Valid) (hr : r.Valid) :
    ∃ less greater, Span.deep_less_than lt l r = .ok less ∧ Span.deep_greater_than lt l r = .ok greater ∧
      Span.deep_greater_or_equals lt l r = .ok (!less) ∧ Span.deep_less_or_equals lt l r = .ok (!greater) ∧
      (less = true ↔ LexLess lt l.contents r.contents) ∧ (greater = true ↔ LexLess lt r.contents l.contents) := by
  refine ⟨_, _, deep_less_than_eq lt l r hl hr, deep_less_than_eq lt r l hr hl, ?_, ?_, lexB_iff _ _ _, lexB_iff _ _ _⟩
  · simp [Span.deep_greater_or_equals, deep_less_than_eq lt l r hl hr]
  · simp [Span.deep_less_or_equals, Span.deep_greater_than, deep_less_than_eq lt r l hr hl]

theorem lexB_irrefl {lt : α → α → Bool} (h : StrictTotal lt) (l : List α) : Span.lexB lt l l = false := by
  induction l with
  | nil => rfl
  | cons a l ih => simp [Span.lexB, h.irrefl, ih]

theorem lexB_tri {lt : α → α → Bool} (h : StrictTotal lt) (l r : List α) :
    Span.lexB lt l r = true ∨ l = r ∨ Span.lexB lt r l = true := by
  induction l generalizing r with
  | nil => cases r <;> simp [Span.lexB]
  | cons a l ih =>
    cases r with
    | nil => simp [Span.lexB]
    | cons b r =>
      rcases h.tri a b with h1 | h1 | h1
      · left; simp [Span.lexB, h1]
      · subst h1
        rcases ih r with h2 | h2 | h2
        · left; simp [Span.lexB, h.irrefl, h2]
        · right; left; rw [h2]
        · right; right; simp [Span.lexB, h.irrefl, h2]
      · right; right; simp [Span.lexB, h1]

theorem lexB_trans {lt : α → α → Bool} (h : StrictTotal lt) (l r t : List α)
    (h1 : Span.lexB lt l r = true) (h2 : Span.lexB lt r t = true) : Span.lexB lt l t = true := by
  induction l generalizing r t with
  | nil =>
    cases t with
    | nil => cases r <;> simp [Span.lexB] at h2
    | cons => simp [Span.lexB]
  | cons a l ih =>
    cases r with
    | nil => simp [Span.lexB] at h1
    | cons b r =>
      cases t with
      | nil => simp [Span.lexB] at h2
      | cons c t =>
        have asym : ∀ x y, lt x y = true → lt y x = false := by
          intro x y hxy
          cases hyx : lt y x
          · rfl
          · have := h.trans x y x hxy hyx; rw [h.irrefl] at this; exact absurd this (by simp)
        simp only [Span.lexB, Bool.or_eq_true, Bool.and_eq_true, Bool.not_eq_true'] at h1 h2 ⊢
        rcases h1 with h1 | ⟨h1, h1'⟩
        · rcases h.tri b c with h3 | h3 | h3
          · left; exact h.trans _ _ _ h1 h3
          · subst h3; left; exact h1
          · rcases h2 with h2 | ⟨h2, _⟩
            · rw [asym _ _ h2] at h3; simp at h3
            · rw [h2] at h3; simp at h3
        · rcases h.tri a b with h3 | h3 | h3
          · rcases h.tri b c with h4 | h4 | h4
            · left; exact h.trans _ _ _ h3 h4
            · subst h4; left; exact h3
            · rcases h2 with h2 | ⟨h2, _⟩
              · rw [asym _ _ h2] at h4; simp at h4
              · rw [h2] at h4; simp at h4
          · subst h3
            rcases h2 with h2 | ⟨h2, h2'⟩
            · left; exact h2
            · right; exact ⟨h2, ih r t h1' h2'⟩
          · rw [h1] at h3; simp at h3

/-- C69: when the elements are totally ordered, the comparisons of valid spans form a total order on their contents:
exactly one of less / same contents / greater holds, and less is transitive. -/
theorem C69_total_order (lt : α → α → Bool) (h : StrictTotal lt) (a b c : Span α)
    (ha : a.Valid) (hb : b.Valid) (hc : c.Valid) :
    (Span.deep_less_than lt a b = .ok true ∨ a.contents = b.contents ∨ Span.deep_greater_than lt a b = .ok true) ∧
    (a.contents = b.contents → Span.deep_less_than lt a b = .ok false ∧ Span.deep_greater_than lt a b = .ok false) ∧
    (Span.deep_less_than lt a b = .ok true → Span.deep_greater_than lt a b = .ok false ∧ a.contents ≠ b.contents) ∧
    (Span.deep_less_than lt a b = .ok true → Span.deep_less_than lt b c = .ok true → Span.deep_less_than lt a c = .ok true) := by
  simp only [Span.deep_greater_than, deep_less_than_eq lt _ _ ha hb, deep_less_than_eq lt _ _ hb ha,
    deep_less_than_eq lt _ _ hb hc, deep_less_than_eq lt _ _ ha hc, Res.ok.injEq]
  refine ⟨lexB_tri h _ _, ?_, ?_, lexB_trans h _ _ _⟩
  · intro e; rw [e]; exact ⟨lexB_irrefl h _, lexB_irrefl h _⟩
  · intro hl
    constructor
    · cases hg : Span.lexB lt b.contents a.contents
      · rfl
      · have := lexB_trans h _ _ _ hl hg
        rw [lexB_irrefl h] at this; simp at this
    · intro e; rw [e, lexB_irrefl h] at hl; simp at hl

/-- Natural number order is a strict total order; spans `[2,3]` and `[2,5]` inside larger objects compare as expected. -/
example : StrictTotal (fun a b : Nat => decide (a < b)) ∧
    Span.deep_less_than (fun a b : Nat => decide (a < b)) ⟨[1, 2, 3], 1, 2⟩ ⟨[2, 5, 0], 0, 2⟩ = .ok true ∧
    Span.deep_less_than (fun a b : Nat => decide (a < b)) ⟨[1, 2, 3], 1, 1⟩ ⟨[2, 5, 0], 0, 2⟩ = .ok true ∧
    Span.deep_less_than (fun a b : Nat => decide (a < b)) ⟨[2, 5, 0], 0, 2⟩ ⟨[1, 2, 3], 1, 2⟩ = .ok false := by
  refine ⟨⟨by simp, ?_, ?_⟩, by decide, by decide, by decide⟩
  · intro a b c; simp; omega
  · intro a b; simp; omega

/-! ## C75: byte and string views are faithful -/

/-- C75: `make_string`, `make_string_view` and `make_vector` give exactly the elements of the span, embedded NULs
included, and `to_uint8_t`/`to_char` view exactly the same bytes. -/
theorem C75_views_faithful (s : Span Byte) (h : s.Valid) :
    make_string s = .ok s.contents ∧ make_string_view s = .ok s.contents ∧ s.make_vector = .ok s.contents ∧
    s.to_uint8_t.contents = s.contents ∧ s.to_char.contents = s.contents ∧
    s.to_uint8_t.to_char = s ∧ s.to_char.to_uint8_t = s :=
  ⟨Span.toList_eq h, Span.toList_eq h, Span.toList_eq h, rfl, rfl, rfl, rfl⟩

theorem strlenLoop_eq (mem : List Byte) (fuel p n : Nat) (hf : n < fuel)
    (hz : mem[p + n]? = some 0) (hnz : ∀ i, i < n → ∃ b, mem[p + i]? = some b ∧ b ≠ 0) :
    Span.strlenLoop mem fuel p = .ok n := by
  induction fuel generalizing p n with
  | zero => omega
  | succ fuel ih =>
    cases n with
    | zero =>
      have : mem[p]? = some 0 := by simpa using hz
      simp [Span.strlenLoop, rd, this]
    | succ n =>
      obtain ⟨b, hb, hb0⟩ := hnz 0 (by omega)
      have hb : mem[p]? = some b := by simpa using hb
      have := ih (p + 1) n (by omega) (by rw [Nat.add_assoc, Nat.add_comm 1]; exact hz) (by
        intro i hi
        have := hnz (i + 1) (by omega)
        rwa [Nat.add_assoc, Nat.add_comm 1])
      simp only [Span.strlenLoop, rd, hb, Res.bind_eq, Res.ok_bind, if_neg hb0, this, Res.pure_eq]

/-- C75: the `const char*` forms stop at the first NUL: for a pointer to `text` followed by NUL (and anything),
the span denotes exactly `text` if `text` has no NUL. -/
theorem C75_c_string (pre text post : List Byte) (hnz : ∀ b ∈ text, b ≠ 0) :
    ∃ s, Span.ofCStr (pre ++ text ++ 0 :: post) pre.length = .ok s ∧ s.Valid ∧ s.contents = text := by
  have hz : (pre ++ text ++ 0 :: post)[pre.length + text.length]? = some 0 := by simp
  have hn : ∀ i, i < text.length → ∃ b, (pre ++ text ++ 0 :: post)[pre.length + i]? = some b ∧ b ≠ 0 := by
    intro i hi
    refine ⟨text[i], ?_, hnz _ (List.getElem_mem hi)⟩
    rw [List.append_assoc, List.getElem?_append_right (by omega), List.getElem?_append_left (by omega)]
    simp [hi]
  refine ⟨⟨pre ++ text ++ 0 :: post, pre.length, text.length⟩, ?_, ?_, ?_⟩
  · simp only [Span.ofCStr]
    rw [strlenLoop_eq _ _ _ text.length (by simp; omega) hz hn]
    rfl
  · simp only [Span.Valid, List.length_append, List.length_cons]; omega
  · simp [Span.contents]

example : ∃ s, Span.ofCStr (str "xxhello" ++ 0 :: str "tail") 2 = .ok s ∧ s.contents = str "hello" := by
  refine ⟨⟨str "xxhello" ++ 0 :: str "tail", 2, 5⟩, by decide, by decide⟩

end Utki
