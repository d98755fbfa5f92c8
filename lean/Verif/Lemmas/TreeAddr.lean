import Verif.Model.TreeAddr
import Verif.Lemmas.TreeEdit
/-! # Lemmas about forests with identities of places -/
namespace Utki.TreeAddr
open Spec
open Trav (LIter listAt canonL canonI canon Climb Step listAt_snoc_some back_snoc pop_snoc setBack_snoc canonL_length canonI_length isEmpty_snoc)
variable {α : Type}

/-! ## Places -/

theorem mem_placesList (n : Nat) : ∀ (ts : List (Tree α)) (pre : Path) (i : Nat) (x : LIter), sizeOf ts < n →
    (x ∈ placesList pre i ts ↔ (x.list = pre ∧ i ≤ x.idx ∧ x.idx ≤ i + ts.length) ∨
      ∃ j r t l, ts[j]? = some t ∧ x.list = pre ++ (i + j) :: r ∧ listAt t.children r = some l ∧ x.idx ≤ l.length) := by
  induction n with
  | zero => intro ts pre i x h; omega
  | succ n ih =>
    intro ts pre i x hn
    obtain ⟨xl, xi⟩ := x
    cases ts with
    | nil =>
      simp only [placesList, List.mem_singleton, LIter.mk.injEq, List.length_nil, List.getElem?_nil]
      constructor
      · rintro ⟨h1, h2⟩; exact .inl ⟨h1, by omega, by omega⟩
      · rintro (⟨h1, h2, h3⟩ | ⟨_, _, _, _, h, _⟩)
        · exact ⟨h1, by omega⟩
        · cases h
    | cons t ts =>
      obtain ⟨v, cs⟩ := t
      simp only [List.cons.sizeOf_spec, Tree.node.sizeOf_spec] at hn
      simp only [placesList, placesTree, List.mem_cons, List.mem_append, LIter.mk.injEq]
      rw [ih cs (pre ++ [i]) 0 ⟨xl, xi⟩ (by omega), ih ts pre (i + 1) ⟨xl, xi⟩ (by omega)]
      simp only []
      constructor
      · rintro (⟨h1, h2⟩ | (⟨h1, h2, h3⟩ | ⟨j, r, t, l, h1, h2, h3, h4⟩) | (⟨h1, h2, h3⟩ | ⟨j, r, t, l, h1, h2, h3, h4⟩))
        · exact .inl ⟨h1, by omega, by simp; omega⟩
        · exact .inr ⟨0, [], _, cs, rfl, by simpa using h1, rfl, by omega⟩
        · refine .inr ⟨0, j :: r, _, l, rfl, by simpa using h2, ?_, h4⟩
          show listAt cs (j :: r) = some l
          simp only [listAt, h1]; exact h3
        · exact .inl ⟨h1, by omega, by simp; omega⟩
        · exact .inr ⟨j + 1, r, t, l, by simpa using h1, by rw [h2]; congr 2; omega, h3, h4⟩
      · rintro (⟨h1, h2, h3⟩ | ⟨j, r, t, l, h1, h2, h3, h4⟩)
        · by_cases he : xi = i
          · exact .inl ⟨h1, he⟩
          · exact .inr (.inr (.inl ⟨h1, by omega, by simp at h3; omega⟩))
        · cases j with
          | zero =>
            simp only [List.getElem?_cons_zero, Option.some.injEq] at h1
            subst h1
            right; left
            cases r with
            | nil =>
              simp only [listAt, Tree.children, Option.some.injEq] at h3
              subst h3
              exact .inl ⟨by simpa using h2, by omega, by omega⟩
            | cons a r =>
              simp only [listAt, Tree.children] at h3
              cases ha : cs[a]? with
              | none => rw [ha] at h3; cases h3
              | some u => rw [ha] at h3; exact .inr ⟨a, r, u, l, ha, by simpa using h2, h3, h4⟩
          | succ j =>
            exact .inr (.inr (.inr ⟨j, r, t, l, by simpa using h1, by rw [h2]; congr 2; omega, h3, h4⟩))

theorem mem_places {f : List (Tree α)} {x : LIter} : x ∈ places f ↔ ∃ l, listAt f x.list = some l ∧ x.idx ≤ l.length := by
  rw [places, mem_placesList (sizeOf f + 1) f [] 0 x (by omega)]
  constructor
  · rintro (⟨h1, _, h3⟩ | ⟨j, r, t, l, h1, h2, h3, h4⟩)
    · exact ⟨f, by rw [h1]; rfl, by omega⟩
    · exact ⟨l, by rw [h2]; simp [listAt, h1, h3], h4⟩
  · rintro ⟨l, h1, h2⟩
    cases hx : x.list with
    | nil => rw [hx] at h1; cases h1; exact .inl ⟨rfl, by omega, by omega⟩
    | cons j r =>
      rw [hx] at h1
      simp only [listAt] at h1
      cases hj : f[j]? with
      | none => rw [hj] at h1; cases h1
      | some t => rw [hj] at h1; exact .inr ⟨j, r, t, l, hj, by simp, h1, h2⟩

/-- Different places have different identities, and none is from the future. -/
structure Inv (m : Mem α) : Prop where
  inj : ∀ x ∈ places m.forest, ∀ y ∈ places m.forest, m.tok x = m.tok y → x = y
  old : ∀ x ∈ places m.forest, (m.tok x).era < m.era

theorem inv_fresh (f : List (Tree α)) : Inv (fresh f) :=
  ⟨fun x _ y _ h => by simpa [fresh] using h, fun x _ => by simp [fresh]⟩

theorem locate_ok {m : Mem α} (h : Inv m) {x : LIter} (hx : x ∈ places m.forest) : locate m (m.tok x) = .ok x := by
  unfold locate
  cases hf : (places m.forest).find? (fun y => m.tok y == m.tok x) with
  | none =>
    rw [List.find?_eq_none] at hf
    have := hf x hx
    simp at this
  | some y =>
    have h1 := List.mem_of_find?_eq_some hf
    have h2 := List.find?_some hf
    rw [h.inj y h1 x hx (by simpa using h2)]

theorem locate_sound {m : Mem α} {t : Tok} {x : LIter} (hx : locate m t = .ok x) : x ∈ places m.forest ∧ m.tok x = t := by
  unfold locate at hx
  cases hf : (places m.forest).find? (fun y => m.tok y == t) with
  | none => rw [hf] at hx; cases hx
  | some y =>
    rw [hf] at hx
    cases hx
    exact ⟨List.mem_of_find?_eq_some hf, by simpa using List.find?_some hf⟩

/-! ## Iterators at a path -/

/-- The address of the list with a path. -/
def ptr (m : Mem α) (p : Path) : LPtr :=
  match p.getLast? with
  | none => .roots
  | some i => .childrenOf (m.tok ⟨p.dropLast, i⟩)

theorem ptr_snoc (m : Mem α) (q : Path) (k : Nat) : ptr m (q ++ [k]) = .childrenOf (m.tok ⟨q, k⟩) := by simp [ptr]
theorem ptr_nil (m : Mem α) : ptr m [] = .roots := rfl

/-- The iterator for a path. -/
def canonA (m : Mem α) (p : Path) : AIter := ⟨(canonL [] p).map (ptr m), (canonI [] p).map m.tok⟩

theorem canonA_snoc (m : Mem α) (q : Path) (k : Nat) :
    canonA m (q ++ [k]) = ⟨(canonL [] q).map (ptr m) ++ [ptr m q], (canonI [] q).map m.tok ++ [m.tok ⟨q, k⟩]⟩ := by
  simp [canonA, Trav.canonL_snoc, Trav.canonI_snoc]

section
variable {m : Mem α} (h : Inv m) {q : Path} {l : List (Tree α)} (hl : listAt m.forest q = some l)
include h hl

theorem locA {k : Nat} (hk : k ≤ l.length) : locate m (m.tok ⟨q, k⟩) = .ok ⟨q, k⟩ := locate_ok h (mem_places.mpr ⟨l, hl, hk⟩)

theorem listOf_ok : listOf m (ptr m q) = .ok q := by
  rcases List.eq_nil_or_concat q with rfl | ⟨q', j, rfl⟩
  · rfl
  · rw [List.concat_eq_append] at hl ⊢
    obtain ⟨L, t, h1, h2, h3⟩ := listAt_snoc_some hl
    have hj : j < L.length := by rw [List.getElem?_eq_some_iff] at h2; exact h2.1
    rw [ptr_snoc]
    simp only [listOf, Res.bind_eq, locA h h1 (show j ≤ L.length by omega), Res.ok_bind, Trav.deref_ok h1 h2, Res.pure_eq]

theorem endA : endOf m (ptr m q) = .ok (m.tok ⟨q, l.length⟩) := by
  simp only [endOf, listOf_ok h hl, Res.bind_eq, Res.ok_bind, Trav.endOf_ok hl, Res.pure_eq]
theorem beginA : beginOf m (ptr m q) = .ok (m.tok ⟨q, 0⟩) := by
  simp only [beginOf, listOf_ok h hl, Res.bind_eq, Res.ok_bind, Res.pure_eq, Trav.beginOf]
theorem eqA {k j : Nat} (hk : k ≤ l.length) (hj : j ≤ l.length) : iterEq m (m.tok ⟨q, k⟩) (m.tok ⟨q, j⟩) = .ok (k == j) := by
  simp only [iterEq, locA h hl hk, locA h hl hj, Res.bind_eq, Res.ok_bind, Trav.iterEq_same]
theorem ltA {k j : Nat} (hk : k ≤ l.length) (hj : j ≤ l.length) : iterLt m (m.tok ⟨q, k⟩) (m.tok ⟨q, j⟩) = .ok (decide (k < j)) := by
  simp only [iterLt, locA h hl hk, locA h hl hj, Res.bind_eq, Res.ok_bind, Trav.iterLt, if_true]
theorem derefA {k : Nat} {t : Tree α} (ht : l[k]? = some t) : deref m (m.tok ⟨q, k⟩) = .ok t := by
  have hk : k < l.length := by rw [List.getElem?_eq_some_iff] at ht; exact ht.1
  simp only [deref, locA h hl (show k ≤ l.length by omega), Res.bind_eq, Res.ok_bind, Trav.deref_ok hl ht]
theorem advA {k n : Nat} (hk : k + n ≤ l.length) : advance m (m.tok ⟨q, k⟩) n = .ok (m.tok ⟨q, k + n⟩) := by
  simp only [advance, locA h hl (show k ≤ l.length by omega), Res.bind_eq, Res.ok_bind, Trav.advance_ok hl hk, Res.pure_eq]
theorem retA {k : Nat} (hk : k + 1 ≤ l.length) : retreat m (m.tok ⟨q, k + 1⟩) = .ok (m.tok ⟨q, k⟩) := by
  simp only [retreat, locA h hl hk, Res.bind_eq, Res.ok_bind, Trav.retreat, Nat.succ_ne_zero, if_false, Nat.add_sub_cancel, Res.pure_eq]
end

/-! ## Moving -/

theorem climbLoop_eq {m : Mem α} (h : Inv m) {p r : Path} (hc : Climb m.forest p r) (fuel : Nat) (hf : p.length < fuel) :
    climbLoop m fuel (canonA m p) = .ok (canonA m r) := by
  induction hc generalizing fuel with
  | root k =>
    cases fuel with
    | zero => simp at hf
    | succ fuel => simp [climbLoop, canonA, canonI]
  | stop q k l hq hl hk =>
    cases fuel with
    | zero => simp at hf
    | succ fuel =>
      have : q.length ≠ 0 := by intro h; exact hq (List.length_eq_zero_iff.mp h)
      rw [canonA_snoc]
      unfold climbLoop
      simp only [List.length_append, List.length_map, canonI_length, List.length_singleton]
      rw [if_neg (by omega)]
      simp [endA h hl, eqA h hl (show k ≤ l.length by omega) (Nat.le_refl _), show k ≠ l.length by omega]
  | up q j l r hl hr ih =>
    cases fuel with
    | zero => simp at hf
    | succ fuel =>
      obtain ⟨L, t, h1, h2, h3⟩ := listAt_snoc_some hl
      have hj : j < L.length := by
        rw [List.getElem?_eq_some_iff] at h2; exact h2.1
      rw [canonA_snoc]
      unfold climbLoop
      simp only [List.length_append, List.length_map, canonI_length, List.length_singleton]
      rw [if_neg (by omega)]
      simp only [back_snoc, Res.bind_eq, Res.ok_bind, endA h hl, eqA h hl (Nat.le_refl _) (Nat.le_refl _), beq_self_eq_true, if_true, pop_snoc,
        Trav.canonI_snoc, Trav.canonL_snoc, List.nil_append, List.map_append, List.map_cons, List.map_nil, advA h h1 (show j + 1 ≤ L.length by omega), setBack_snoc]
      have := ih fuel (by simp at hf ⊢; omega)
      rw [canonA_snoc] at this
      exact this

theorem eraseLoop_eq (dbg : Bool) {m : Mem α} (h : Inv m) {p r : Path} (hc : Climb m.forest p r) (fuel : Nat) (hf : p.length < fuel) :
    eraseLoop dbg m fuel (canonA m p) = .ok (canonA m r) := by
  induction hc generalizing fuel with
  | root k =>
    cases fuel with
    | zero => simp at hf
    | succ fuel => simp [eraseLoop, canonA, canonI]
  | stop q k l hq hl hk =>
    cases fuel with
    | zero => simp at hf
    | succ fuel =>
      have : q.length ≠ 0 := by intro h; exact hq (List.length_eq_zero_iff.mp h)
      rw [canonA_snoc]
      unfold eraseLoop
      simp only [List.length_append, List.length_map, canonI_length, List.length_singleton]
      rw [if_pos (by omega)]
      simp [endA h hl, eqA h hl (show k ≤ l.length by omega) (Nat.le_refl _), show k ≠ l.length by omega]
  | up q j l r hl hr ih =>
    cases fuel with
    | zero => simp at hf
    | succ fuel =>
      obtain ⟨L, t, h1, h2, h3⟩ := listAt_snoc_some hl
      have hj : j < L.length := by
        rw [List.getElem?_eq_some_iff] at h2; exact h2.1
      rw [canonA_snoc]
      unfold eraseLoop
      simp only [List.length_append, List.length_map, canonI_length, List.length_singleton]
      rw [if_pos (by omega)]
      simp only [back_snoc, Res.bind_eq, Res.ok_bind, endA h hl, eqA h hl (Nat.le_refl _) (Nat.le_refl _), beq_self_eq_true, if_true, pop_snoc,
        Trav.canonI_snoc, Trav.canonL_snoc, List.nil_append, List.map_append, List.map_cons, List.map_nil, advA h h1 (show j + 1 ≤ L.length by omega), setBack_snoc,
        List.length_append, List.length_map, canonI_length, canonL_length, List.length_singleton, ASSERT_true]
      have := ih fuel (by simp at hf ⊢; omega)
      rw [canonA_snoc] at this
      exact this

theorem incr_step (dbg : Bool) {m : Mem α} (h : Inv m) {p r : Path} (hs : Step m.forest p r) : incr dbg m (canonA m p) = .ok (canonA m r) := by
  cases hs with
  | down q k l t hl ht hc =>
    have hk : k < l.length := by rw [List.getElem?_eq_some_iff] at ht; exact ht.1
    have hb : (k == l.length) = false := by simp; omega
    have hc' : t.children.isEmpty = false := by simpa using hc
    have hch : listAt m.forest (q ++ [k]) = some t.children := by rw [Trav.listAt_snoc hl, ht]; rfl
    have hbeg := beginA h hch
    rw [ptr_snoc] at hbeg
    rw [canonA_snoc, canonA_snoc, Trav.canonL_snoc, Trav.canonI_snoc]
    unfold incr notEnd
    cases dbg <;> simp only [isEmpty_snoc, Bool.not_false, ASSERT_true, ASSERT_false_false, List.length_append, List.length_map, canonI_length,
      canonL_length, beq_self_eq_true, back_snoc, Res.bind_eq, Res.ok_bind, endA h hl, eqA h hl (show k ≤ l.length by omega) (Nat.le_refl _), hb, derefA h hl ht, hc',
      List.nil_append, if_true, Res.pure_eq, if_false, Bool.false_eq_true, List.length_singleton, hbeg, ptr_snoc, List.map_append, List.map_cons, List.map_nil]
  | leaf q k l t r hl ht hc hr =>
    have hk : k < l.length := by rw [List.getElem?_eq_some_iff] at ht; exact ht.1
    have hb : (k == l.length) = false := by simp; omega
    have hc' : t.children.isEmpty = true := by simpa using hc
    have := climbLoop_eq h hr (q.length + 1 + 1) (by simp)
    rw [canonA_snoc] at this ⊢
    unfold incr notEnd
    cases dbg <;> simp only [isEmpty_snoc, Bool.not_false, ASSERT_true, ASSERT_false_false, List.length_append, List.length_map, canonI_length,
      canonL_length, beq_self_eq_true, back_snoc, Res.bind_eq, Res.ok_bind, endA h hl, eqA h hl (show k ≤ l.length by omega) (Nat.le_refl _), hb, derefA h hl ht, hc',
      if_true, Res.pure_eq, if_false, Bool.false_eq_true, List.length_singleton, Bool.not_true,
      advA h hl (show k + 1 ≤ l.length by omega), setBack_snoc, this, show decide (1 ≤ q.length + 1) = true by simp]

theorem descend_up (dbg : Bool) {m : Mem α} (h : Inv m) {q : Path} {j : Nat} {l : List (Tree α)} (hl : listAt m.forest (q ++ [j]) = some l)
    (hne : l ≠ []) (fuel : Nat) :
    descendLoop dbg m (fuel + 1) (canonA m (q ++ [j + 1])) = descendLoop dbg m fuel (canonA m (q ++ [j] ++ [l.length])) := by
  obtain ⟨L, t, h1, h2, h3⟩ := listAt_snoc_some hl
  have hj : j < L.length := by rw [List.getElem?_eq_some_iff] at h2; exact h2.1
  have hc' : t.children.isEmpty = false := by rw [h3]; simpa using hne
  have hb : (j + 1 == 0) = false := by simp
  have hend := endA h hl
  rw [ptr_snoc] at hend
  conv => lhs; unfold descendLoop notBegin
  rw [canonA_snoc, canonA_snoc, Trav.canonL_snoc, Trav.canonI_snoc]
  cases dbg <;> simp only [back_snoc, Res.bind_eq, Res.ok_bind, beginA h h1, eqA h h1 (show j + 1 ≤ L.length by omega) (show 0 ≤ L.length by omega), hb, Bool.not_false, ASSERT_true,
    retA h h1 (show j + 1 ≤ L.length by omega), setBack_snoc, derefA h h1 h2, hc', hend, ptr_snoc, if_true, if_false, List.nil_append, List.map_append, List.map_cons, List.map_nil,
    Bool.false_eq_true, Res.pure_eq]

theorem descend_leaf (dbg : Bool) {m : Mem α} (h : Inv m) {q : Path} {k : Nat} {l : List (Tree α)} {t : Tree α} (hl : listAt m.forest q = some l)
    (ht : l[k]? = some t) (hc : t.children = []) (fuel : Nat) :
    descendLoop dbg m (fuel + 1) (canonA m (q ++ [k + 1])) = .ok (canonA m (q ++ [k])) := by
  have hk : k < l.length := by rw [List.getElem?_eq_some_iff] at ht; exact ht.1
  have hc' : t.children.isEmpty = true := by simpa using hc
  have hb : (k + 1 == 0) = false := by simp
  unfold descendLoop notBegin
  rw [canonA_snoc, canonA_snoc]
  cases dbg <;> simp only [back_snoc, Res.bind_eq, Res.ok_bind, beginA h hl, eqA h hl (show k + 1 ≤ l.length by omega) (show 0 ≤ l.length by omega), hb, Bool.not_false, ASSERT_true,
    retA h hl (show k + 1 ≤ l.length by omega), setBack_snoc, derefA h hl ht, hc', if_true, if_false, Bool.not_true,
    Bool.false_eq_true, Res.pure_eq]

theorem descend_climb (dbg : Bool) {m : Mem α} (h : Inv m) {p r : Path} (hc : Climb m.forest p r) (q : Path) (k : Nat) (hp : p = q ++ [k + 1]) :
    (∃ q' k', r = q' ++ [k' + 1]) ∧ ∃ n, r.length + n = p.length ∧
      ∀ fuel, descendLoop dbg m (fuel + n) (canonA m r) = descendLoop dbg m fuel (canonA m p) := by
  induction hc generalizing q k with
  | root j => exact ⟨⟨q, k, hp⟩, 0, by simp, fun fuel => rfl⟩
  | stop => exact ⟨⟨q, k, hp⟩, 0, by simp, fun fuel => rfl⟩
  | up q' j l r hl hr ih =>
    obtain ⟨h1, n, h2, h3⟩ := ih q' j rfl
    have hne : l ≠ [] := by
      have := (Trav.snoc_inj hp).2
      intro h; subst h; simp at this
    refine ⟨h1, n + 1, by simp at h2 ⊢; omega, fun fuel => ?_⟩
    rw [show fuel + (n + 1) = (fuel + 1) + n by omega, h3, descend_up dbg h hl hne]

/-- The end of the climb is a place. -/
theorem climb_place {f : List (Tree α)} {p r : Path} (hc : Climb f p r) : ∀ (q : Path) (k : Nat) (l : List (Tree α)), p = q ++ [k] → listAt f q = some l → k ≤ l.length →
    ∃ q' k' l', r = q' ++ [k'] ∧ listAt f q' = some l' ∧ k' ≤ l'.length := by
  induction hc with
  | root j => exact fun q k l hp hl hk => ⟨q, k, l, hp, hl, hk⟩
  | stop => exact fun q k l hp hl hk => ⟨q, k, l, hp, hl, hk⟩
  | up q' j l r hl hr ih =>
    intro q k l0 hp hl0 hk
    obtain ⟨L, t, h1, h2, h3⟩ := listAt_snoc_some hl
    have hj : j < L.length := by rw [List.getElem?_eq_some_iff] at h2; exact h2.1
    exact ih q' (j + 1) L rfl h1 (by omega)

theorem decr_step (dbg : Bool) {m : Mem α} (h : Inv m) {p r : Path} (hs : Step m.forest p r) : decr dbg m (canonA m r) = .ok (canonA m p) := by
  cases hs with
  | down q k l t hl ht hc =>
    have hch : listAt m.forest (q ++ [k]) = some t.children := by rw [Trav.listAt_snoc hl, ht]; rfl
    rw [canonA_snoc]
    unfold decr
    simp only [isEmpty_snoc, Bool.not_false, ASSERT_true, back_snoc, Res.bind_eq, Res.ok_bind, beginA h hch, eqA h hch (show 0 ≤ t.children.length by omega) (show 0 ≤ t.children.length by omega),
      beq_self_eq_true, if_true, pop_snoc, Res.pure_eq]
    rfl
  | leaf q k l t r hl ht hc hr =>
    have hk : k < l.length := by rw [List.getElem?_eq_some_iff] at ht; exact ht.1
    obtain ⟨⟨q', k', he⟩, n, h2, h3⟩ := descend_climb dbg h hr q k rfl
    obtain ⟨q2, k2, l2, he2, hl2, hk2⟩ := climb_place hr q (k + 1) l rfl hl (by omega)
    have hh := Trav.path_height m.forest q l k hl hk
    have hd : descendLoop dbg m (Tree.heightList m.forest + 1) (canonA m r) = .ok (canonA m (q ++ [k])) := by
      have hn : n ≤ Tree.heightList m.forest := by simp at h2; omega
      have := h3 (Tree.heightList m.forest + 1 - n)
      rw [show Tree.heightList m.forest + 1 - n + n = Tree.heightList m.forest + 1 by omega] at this
      rw [this, show Tree.heightList m.forest + 1 - n = (Tree.heightList m.forest - n) + 1 by omega]
      exact descend_leaf dbg h hl ht hc _
    obtain ⟨e1, e2⟩ := Trav.snoc_inj (he.symm.trans he2)
    subst e1; subst e2
    subst he
    rw [canonA_snoc] at hd ⊢
    unfold decr
    have hb : (k' + 1 == 0) = false := by simp
    simp only [isEmpty_snoc, Bool.not_false, ASSERT_true, back_snoc, Res.bind_eq, Res.ok_bind, beginA h hl2, eqA h hl2 hk2 (show 0 ≤ l2.length by omega), hb, hd,
      Bool.false_eq_true, if_false]

end Utki.TreeAddr
