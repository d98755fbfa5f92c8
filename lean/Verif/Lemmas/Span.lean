import Verif.Model.Span
/-! Helper lemmas for spans. -/
namespace Utki
namespace Span
variable {α : Type}

theorem length_contents {s : Span α} (h : s.Valid) : s.contents.length = s.size := by
  simp [contents, Valid] at *; omega

theorem getElem_contents {s : Span α} {i : Nat} (hi : i < s.size) :
    s.contents[i]? = s.mem[s.off + i]? := by
  simp [contents, hi]

theorem rd_contents {s : Span α} (h : s.Valid) {i : Nat} (hi : i < s.size) :
    rd s.mem (s.off + i) = .ok (s.contents[i]'(by rw [length_contents h]; exact hi)) := by
  have h1 : s.off + i < s.mem.length := by simp [Valid] at h; omega
  rw [rd_eq_ok h1]
  simp [contents]

theorem end_ok {s : Span α} (h : s.Valid) : s.end_ = .ok (s.off + s.size) := by
  simp only [Valid] at h
  simp [end_, ptrAdd, h]

theorem subspan_rest (dbg) {s : Span α} (h : s.Valid) {o : Nat} (ho : o ≤ s.size) :
    s.subspan dbg o = .ok ⟨s.mem, s.off + o, s.size - o⟩ := by
  have hv := h
  simp only [Valid] at hv
  have h1 : s.off + o ≤ s.mem.length := by omega
  have h2 : s.off + o + (s.off + s.size - (s.off + o)) ≤ s.mem.length := by omega
  have h3 : s.off + s.size - (s.off + o) = s.size - o := by omega
  have h4 : s.off + o + (s.size - o) ≤ s.mem.length := by omega
  have h5 : s.off + o + (s.size - o) ≤ s.off + s.size := by omega
  cases dbg <;> simp [subspan, ptrAdd, h1, end_ok h, ho, h3, h4, h5]

theorem subspan_count (dbg) {s : Span α} (h : s.Valid) {o n : Nat} (ho : o + n ≤ s.size) (hn : n ≠ sizeMax) :
    s.subspan dbg o n = .ok ⟨s.mem, s.off + o, n⟩ := by
  have hv := h
  simp only [Valid] at hv
  have h1 : s.off + o ≤ s.mem.length := by omega
  have h4 : s.off + o + n ≤ s.mem.length := by omega
  have h5 : s.off + o + n ≤ s.off + s.size := by omega
  have h6 : o ≤ s.size := by omega
  cases dbg <;> simp [subspan, ptrAdd, h1, end_ok h, hn, h4, h5, h6]

theorem readFrom_eq (mem : List α) (n p : Nat) (h : p + n ≤ mem.length) :
    readFrom mem n p = .ok ((mem.drop p).take n) := by
  induction n generalizing p with
  | zero => simp [readFrom]
  | succ n ih =>
    have hp : p < mem.length := by omega
    rw [List.drop_eq_getElem_cons hp, List.take_succ_cons]
    simp [readFrom, rd_eq_ok hp, ih (p + 1) (by omega)]

theorem toList_eq {s : Span α} (h : s.Valid) : s.toList = .ok s.contents :=
  readFrom_eq _ _ _ h

theorem readBack_eq (mem : List α) (n p : Nat) (hn : n ≤ p) (h : p ≤ mem.length) :
    readBack mem n p = .ok (((mem.drop (p - n)).take n).reverse) := by
  induction n generalizing p with
  | zero => simp [readBack]
  | succ n ih =>
    cases p with
    | zero => omega
    | succ p =>
      have hp : p < mem.length := by omega
      have : p + 1 - (n + 1) = p - n := by omega
      have hpn : p - n + n = p := by omega
      simp only [readBack, rd_eq_ok hp, Res.bind_eq, Res.ok_bind, ih p (by omega) (by omega), this, Res.pure_eq]
      rw [List.take_add_one, List.reverse_append]
      simp [List.getElem?_drop, hpn, hp]

theorem toListRev_eq {s : Span α} (h : s.Valid) : s.toListRev = .ok s.contents.reverse := by
  simp only [toListRev, end_ok h, Res.bind_eq, Res.ok_bind]
  rw [readBack_eq _ _ _ (by omega) h]
  simp [contents]

theorem contents_drop {s : Span α} {o : Nat} :
    (⟨s.mem, s.off + o, s.size - o⟩ : Span α).contents = s.contents.drop o := by
  simp [contents, List.drop_take]

theorem contents_drop_take {s : Span α} {o n : Nat} (h : o + n ≤ s.size) :
    (⟨s.mem, s.off + o, n⟩ : Span α).contents = (s.contents.drop o).take n := by
  simp only [contents, List.drop_take, List.take_take, List.drop_drop]
  rw [Nat.min_eq_left (by omega)]

theorem get_ok (dbg) {s : Span α} (h : s.Valid) {i : Nat} (hi : i < s.size) :
    s.get dbg i = .ok (s.contents[i]'(by rw [length_contents h]; exact hi)) := by
  simp only [get, hi, decide_true, ASSERT_true, Res.bind_eq, Res.ok_bind]
  exact rd_contents h hi

theorem front_ok (dbg) {s : Span α} (h : s.Valid) (hi : 0 < s.size) :
    s.front dbg = .ok (s.contents[0]'(by rw [length_contents h]; exact hi)) := by
  have : (!s.empty) = true := by simp [empty]; omega
  simp only [front, this, ASSERT_true, Res.bind_eq, Res.ok_bind]
  exact get_ok dbg h hi

theorem equalLoop_eq (eq : α → α → Bool) (m1 m2 : List α) (n p q : Nat)
    (h1 : p + n ≤ m1.length) (h2 : q + n ≤ m2.length) :
    equalLoop eq m1 m2 n p q = .ok (List.isEqv ((m1.drop p).take n) ((m2.drop q).take n) eq) := by
  induction n generalizing p q with
  | zero => simp [equalLoop]
  | succ n ih =>
    have hp : p < m1.length := by omega
    have hq : q < m2.length := by omega
    rw [List.drop_eq_getElem_cons hp, List.drop_eq_getElem_cons hq]
    simp only [equalLoop, rd_eq_ok hp, rd_eq_ok hq, Res.bind_eq, Res.ok_bind, List.take_succ_cons, List.isEqv]
    cases eq m1[p] m2[q]
    · simp
    · simp [ih (p + 1) (q + 1) (by omega) (by omega)]

/-- Lexicographic "less" on lists. -/
def lexB (lt : α → α → Bool) : List α → List α → Bool
  | [], bs => !bs.isEmpty
  | _ :: _, [] => false
  | a :: as, b :: bs => lt a b || (!lt b a && lexB lt as bs)

theorem lexLoop_eq (lt : α → α → Bool) (m1 m2 : List α) (n k p q : Nat)
    (h1 : p + n ≤ m1.length) (h2 : q + k ≤ m2.length) :
    lexLoop lt m1 m2 n k p q = .ok (lexB lt ((m1.drop p).take n) ((m2.drop q).take k)) := by
  induction n generalizing p q k with
  | zero =>
    cases k with
    | zero => simp [lexLoop, lexB]
    | succ k =>
      rw [List.drop_eq_getElem_cons (show q < m2.length by omega), List.take_succ_cons]
      simp [lexLoop, lexB]
  | succ n ih =>
    have hp : p < m1.length := by omega
    rw [List.drop_eq_getElem_cons hp, List.take_succ_cons]
    cases k with
    | zero => simp [lexLoop, lexB]
    | succ k =>
      have hq : q < m2.length := by omega
      rw [List.drop_eq_getElem_cons hq]
      simp only [lexLoop, rd_eq_ok hp, rd_eq_ok hq, Res.bind_eq, Res.ok_bind, List.take_succ_cons, lexB]
      cases h : lt m1[p] m2[q]
      · cases h' : lt m2[q] m1[p]
        · simp [ih k (p + 1) (q + 1) (by omega) (by omega)]
        · simp
      · simp

end Span
end Utki
