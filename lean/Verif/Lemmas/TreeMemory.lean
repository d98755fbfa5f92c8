import Verif.Model.TreeMemory
import Verif.Lemmas.TreeEdit
/-! # Lemmas about moving a traversal iterator when memory runs out -/
namespace Utki.Trav
open Spec
variable {α : Type}

/-- The iterator at the node `p` after the first of the two calls of `push_back` for its children. -/
def broken (p : Path) : Iter := ⟨canonL [] p ++ [p], canonI [] p⟩

theorem pushList_nil (p : Path) (it : Iter) : pushList p ⟨it, []⟩ = (.ok (), ⟨⟨it.list_stack ++ [p], it.iter_stack⟩, []⟩) := rfl
theorem pushList_true (p : Path) (it : Iter) (pl : List Bool) :
    pushList p ⟨it, true :: pl⟩ = (.ok (), ⟨⟨it.list_stack ++ [p], it.iter_stack⟩, pl⟩) := rfl
theorem pushList_false (p : Path) (it : Iter) (pl : List Bool) : pushList p ⟨it, false :: pl⟩ = (.throw .bad_alloc, ⟨it, pl⟩) := rfl
theorem pushIter_nil (i : LIter) (it : Iter) : pushIter i ⟨it, []⟩ = (.ok (), ⟨⟨it.list_stack, it.iter_stack ++ [i]⟩, []⟩) := rfl
theorem pushIter_true (i : LIter) (it : Iter) (pl : List Bool) :
    pushIter i ⟨it, true :: pl⟩ = (.ok (), ⟨⟨it.list_stack, it.iter_stack ++ [i]⟩, pl⟩) := rfl
theorem pushIter_false (i : LIter) (it : Iter) (pl : List Bool) : pushIter i ⟨it, false :: pl⟩ = (.throw .bad_alloc, ⟨it, pl⟩) := rfl
theorem setIt_bind {β : Type} (it : Iter) (g : Unit → Meth MSt β) (s : MSt) : (setIt it >>= g) s = g () { s with it := it } := rfl
theorem setIt_eval (it : Iter) (s : MSt) : setIt it s = (.ok (), { s with it := it }) := rfl

/-- Both calls of `push_back` for the children of `p`, with the three ways they can go. -/
def pushes (p : Path) (i : LIter) : Meth MSt Unit := do
  pushList p
  pushIter i

theorem pushes_cases (p : Path) (i : LIter) (ls : List Path) (is : List LIter) (pl : List Bool) :
    pushes p i ⟨⟨ls, is⟩, pl⟩ =
      if pl[0]? = some false then (.throw .bad_alloc, ⟨⟨ls, is⟩, pl.drop 1⟩)
      else if pl[1]? = some false then (.throw .bad_alloc, ⟨⟨ls ++ [p], is⟩, pl.drop 2⟩)
      else (.ok (), ⟨⟨ls ++ [p], is ++ [i]⟩, pl.drop 2⟩) := by
  unfold pushes
  match pl with
  | [] => rfl
  | false :: _ => rfl
  | [true] => rfl
  | true :: false :: _ => rfl
  | true :: true :: _ => rfl

theorem notEnd_ok (dbg : Bool) {f : List (Tree α)} {q : Path} {k : Nat} {l : List (Tree α)} (hl : listAt f q = some l) (hk : k < l.length) :
    notEnd dbg f (canon (q ++ [k])) ⟨q, k⟩ = .ok () := by
  have hb : (k == l.length) = false := by simp; omega
  rw [canon_snoc]
  cases dbg <;> simp [notEnd, endOf_ok hl, iterEq_same, hb, ASSERT_true]

theorem incrM_head (dbg : Bool) {f : List (Tree α)} {q : Path} {k : Nat} {l : List (Tree α)} {t : Tree α} (hl : listAt f q = some l)
    (ht : l[k]? = some t) (pl : List Bool) :
    incrM dbg f ⟨canon (q ++ [k]), pl⟩ =
      (if t.children.isEmpty then (do
        let it ← Meth.lift (incrLeaf dbg f (canon (q ++ [k])) ⟨q, k⟩)
        setIt it)
      else pushes (q ++ [k]) (beginOf (q ++ [k])) : Meth MSt Unit) ⟨canon (q ++ [k]), pl⟩ := by
  have hk : k < l.length := by rw [List.getElem?_eq_some_iff] at ht; exact ht.1
  have hn := notEnd_ok dbg hl hk
  have h1 : (canon (q ++ [k])).iter_stack = canonI [] q ++ [⟨q, k⟩] := by rw [canon_snoc]
  have h2 : (canon (q ++ [k])).iter_stack.length = (canon (q ++ [k])).list_stack.length := by simp [canon, canonI_length, canonL_length]
  have h3 : (canon (q ++ [k])).iter_stack.isEmpty = false := by rw [h1]; simp
  unfold incrM
  rw [Meth.get_bind]
  simp only [h2, h3, beq_self_eq_true, Bool.not_false, ASSERT_true, Meth.lift_ok_bind]
  rw [h1, back_snoc]
  simp only [Meth.lift_ok_bind, hn, deref_ok hl ht]
  rfl

theorem incrM_leaf (dbg : Bool) {f : List (Tree α)} {q : Path} {k : Nat} {l : List (Tree α)} {t : Tree α} {r : Path} (hl : listAt f q = some l)
    (ht : l[k]? = some t) (hc : t.children = []) (hr : Climb f (q ++ [k + 1]) r) (pl : List Bool) :
    incrM dbg f ⟨canon (q ++ [k]), pl⟩ = (.ok (), ⟨canon r, pl⟩) := by
  have hk : k < l.length := by rw [List.getElem?_eq_some_iff] at ht; exact ht.1
  rw [incrM_head dbg hl ht, if_pos (by simpa using hc)]
  have := climbLoop_eq hr (q.length + 1 + 1) (by simp)
  rw [canon_snoc] at this
  have h : incrLeaf dbg f (canon (q ++ [k])) ⟨q, k⟩ = .ok (canon r) := by
    rw [canon_snoc]
    simp only [incrLeaf, Res.bind_eq, advance_ok hl (show k + 1 ≤ l.length by omega), Res.ok_bind, setBack_snoc, List.length_append, canonI_length,
      List.length_singleton, show decide (1 ≤ q.length + 1) = true by simp, ASSERT_true, this]
  rw [h]
  rfl

theorem incrM_down (dbg : Bool) {f : List (Tree α)} {q : Path} {k : Nat} {l : List (Tree α)} {t : Tree α} (hl : listAt f q = some l)
    (ht : l[k]? = some t) (hc : t.children ≠ []) (pl : List Bool) :
    incrM dbg f ⟨canon (q ++ [k]), pl⟩ =
      if pl[0]? = some false then (.throw .bad_alloc, ⟨canon (q ++ [k]), pl.drop 1⟩)
      else if pl[1]? = some false then (.throw .bad_alloc, ⟨broken (q ++ [k]), pl.drop 2⟩)
      else (.ok (), ⟨canon (q ++ [k] ++ [0]), pl.drop 2⟩) := by
  rw [incrM_head dbg hl ht, if_neg (by simpa using hc)]
  have := pushes_cases (q ++ [k]) (beginOf (q ++ [k])) (canon (q ++ [k])).list_stack (canon (q ++ [k])).iter_stack pl
  rw [this, canon_snoc (q ++ [k]) 0]
  rfl

/-! ## Backwards -/

theorem notBegin_ok (dbg : Bool) (q : Path) (k : Nat) : notBegin dbg (canon (q ++ [k + 1])) ⟨q, k + 1⟩ = .ok () := by
  rw [canon_snoc]
  have hb : (k + 1 == 0) = false := by simp
  cases dbg <;> simp [notBegin, beginOf, iterEq_same, ASSERT_true]

theorem descendM_head (dbg : Bool) {f : List (Tree α)} {q : Path} {k : Nat} {l : List (Tree α)} {t : Tree α} (hl : listAt f q = some l)
    (ht : l[k]? = some t) (fuel : Nat) (pl : List Bool) :
    descendLoopM dbg f (fuel + 1) ⟨canon (q ++ [k + 1]), pl⟩ =
      (if t.children.isEmpty then pure ()
      else pushes (q ++ [k]) ⟨q ++ [k], t.children.length⟩ >>= fun _ => descendLoopM dbg f fuel : Meth MSt Unit) ⟨canon (q ++ [k]), pl⟩ := by
  have h1 : (canon (q ++ [k + 1])).iter_stack = canonI [] q ++ [⟨q, k + 1⟩] := by rw [canon_snoc]
  have h2 : (canon (q ++ [k + 1])).list_stack = canonL [] q ++ [q] := by rw [canon_snoc]
  have hcl : listAt f (q ++ [k]) = some t.children := by rw [listAt_snoc hl, ht]; rfl
  conv => lhs; unfold descendLoopM
  rw [Meth.get_bind]
  simp only [h1, back_snoc, Meth.lift_ok_bind, notBegin_ok, retreat, Nat.succ_ne_zero, if_false, Nat.add_sub_cancel, setBack_snoc, h2]
  rw [setIt_bind]
  simp only [deref_ok hl ht, Meth.lift_ok_bind]
  rw [show (⟨canonL [] q ++ [q], canonI [] q ++ [⟨q, k⟩]⟩ : Iter) = canon (q ++ [k]) by rw [canon_snoc]]
  by_cases he : t.children.isEmpty = true
  · rw [if_pos he, if_pos he]
  · rw [if_neg he, if_neg he, endOf_ok hcl, Meth.lift_ok_bind]
    unfold pushes
    rw [Meth.bind_apply, Meth.bind, Meth.bind_apply, Meth.bind, Meth.bind_apply, Meth.bind]
    cases pushList (q ++ [k]) ⟨canon (q ++ [k]), pl⟩ with
    | mk r s => cases r <;> rfl

theorem descendM_leaf (dbg : Bool) {f : List (Tree α)} {q : Path} {k : Nat} {l : List (Tree α)} {t : Tree α} (hl : listAt f q = some l)
    (ht : l[k]? = some t) (hc : t.children = []) (fuel : Nat) (pl : List Bool) :
    descendLoopM dbg f (fuel + 1) ⟨canon (q ++ [k + 1]), pl⟩ = (.ok (), ⟨canon (q ++ [k]), pl⟩) := by
  rw [descendM_head dbg hl ht, if_pos (by simpa using hc)]
  rfl

theorem descendM_up (dbg : Bool) {f : List (Tree α)} {q : Path} {j : Nat} {l : List (Tree α)} (hl : listAt f (q ++ [j]) = some l)
    (hne : l ≠ []) (fuel : Nat) (pl : List Bool) :
    descendLoopM dbg f (fuel + 1) ⟨canon (q ++ [j + 1]), pl⟩ =
      if pl[0]? = some false then (.throw .bad_alloc, ⟨canon (q ++ [j]), pl.drop 1⟩)
      else if pl[1]? = some false then (.throw .bad_alloc, ⟨broken (q ++ [j]), pl.drop 2⟩)
      else descendLoopM dbg f fuel ⟨canon (q ++ [j] ++ [l.length]), pl.drop 2⟩ := by
  obtain ⟨L, t, h1, h2, h3⟩ := listAt_snoc_some hl
  rw [descendM_head dbg h1 h2, if_neg (by rw [h3]; simpa using hne), h3]
  have := pushes_cases (q ++ [j]) ⟨q ++ [j], l.length⟩ (canon (q ++ [j])).list_stack (canon (q ++ [j])).iter_stack pl
  rw [Meth.bind_apply, Meth.bind, this, canon_snoc (q ++ [j]) l.length]
  by_cases h0 : pl[0]? = some false
  · rw [if_pos h0, if_pos h0]
  · by_cases h1 : pl[1]? = some false
    · rw [if_neg h0, if_neg h0, if_pos h1, if_pos h1]; rfl
    · rw [if_neg h0, if_neg h0, if_neg h1, if_neg h1]; rfl

/-- What `descendLoopM` does on the way from `r` down to `p`: it gets there, or the `i`-th call of `push_back` fails. -/
theorem descendM_climb (dbg : Bool) {f : List (Tree α)} {p r : Path} (h : Climb f p r) (q : Path) (k : Nat) (hp : p = q ++ [k + 1]) :
    (∃ q' k', r = q' ++ [k' + 1]) ∧ ∃ n, r.length + n = p.length ∧ ∀ fuel pl,
      ((∀ i, i < 2 * n → pl[i]? ≠ some false) →
        descendLoopM dbg f (fuel + n) ⟨canon r, pl⟩ = descendLoopM dbg f fuel ⟨canon p, pl.drop (2 * n)⟩) ∧
      (∀ i, i < 2 * n → pl[i]? = some false → (∀ j, j < i → pl[j]? ≠ some false) →
        descendLoopM dbg f (fuel + n) ⟨canon r, pl⟩ = (.throw .bad_alloc,
          ⟨if i % 2 = 0 then canon (p.take (r.length + i / 2)) else broken (p.take (r.length + i / 2)), pl.drop (i + 1)⟩)) := by
  induction h generalizing q k with
  | root j => exact ⟨⟨q, k, hp⟩, 0, by simp, fun fuel pl => ⟨fun _ => rfl, fun i hi => by omega⟩⟩
  | stop => exact ⟨⟨q, k, hp⟩, 0, by simp, fun fuel pl => ⟨fun _ => rfl, fun i hi => by omega⟩⟩
  | up q' j l r hl hr ih =>
    obtain ⟨h1, n, h2, h3⟩ := ih q' j rfl
    have hne : l ≠ [] := by
      have := (snoc_inj hp).2
      intro h; subst h; simp at this
    have hlen : r.length + n = q'.length + 1 := by simpa using h2
    refine ⟨h1, n + 1, by simp; omega, fun fuel pl => ⟨fun hok => ?_, fun i hi hf hj => ?_⟩⟩
    · rw [show fuel + (n + 1) = (fuel + 1) + n by omega, (h3 (fuel + 1) pl).1 (fun i hi => hok i (by omega)), descendM_up dbg hl hne]
      rw [if_neg (by rw [List.getElem?_drop]; exact hok _ (by omega)), if_neg (by rw [List.getElem?_drop]; exact hok _ (by omega)), List.drop_drop,
        show 2 * n + 2 = 2 * (n + 1) by omega]
    · have take_eq : ∀ m, m ≤ q'.length → (q' ++ [j] ++ [l.length]).take m = (q' ++ [j + 1]).take m := by
        intro m hm
        rw [List.append_assoc, List.take_append_of_le_length hm, List.take_append_of_le_length hm]
      by_cases hi2 : i < 2 * n
      · rw [show fuel + (n + 1) = (fuel + 1) + n by omega, (h3 (fuel + 1) pl).2 i hi2 hf hj, take_eq _ (by omega)]
      · rw [show fuel + (n + 1) = (fuel + 1) + n by omega, (h3 (fuel + 1) pl).1 (fun i' hi' => hj i' (by omega)), descendM_up dbg hl hne]
        have htake : (q' ++ [j] ++ [l.length]).take (r.length + i / 2) = q' ++ [j] := by
          rw [show r.length + i / 2 = (q' ++ [j]).length by simp; omega]
          exact List.take_left
        rw [htake]
        rcases (by omega : i = 2 * n ∨ i = 2 * n + 1) with rfl | rfl
        · rw [if_pos (by rw [List.getElem?_drop]; exact hf), if_pos (by omega), List.drop_drop]
        · rw [if_neg (by rw [List.getElem?_drop]; exact hj _ (by omega)), if_pos (by rw [List.getElem?_drop]; exact hf), if_neg (by omega), List.drop_drop]

theorem decrM_up (dbg : Bool) (f : List (Tree α)) (q : Path) (pl : List Bool) :
    decrM dbg f ⟨canon (q ++ [0]), pl⟩ = (.ok (), ⟨canon q, pl⟩) := by
  unfold decrM
  rw [Meth.get_bind, canon_snoc]
  simp only [isEmpty_snoc, Bool.not_false, ASSERT_true, Meth.lift_ok_bind, back_snoc, beginOf, iterEq_same, beq_self_eq_true, if_true, decrUp, pop_snoc,
    Res.bind_eq, Res.ok_bind, Res.pure_eq]
  rfl

theorem decrM_down (dbg : Bool) (f : List (Tree α)) (q : Path) (k : Nat) (pl : List Bool) :
    decrM dbg f ⟨canon (q ++ [k + 1]), pl⟩ = descendLoopM dbg f (Tree.heightList f + 1) ⟨canon (q ++ [k + 1]), pl⟩ := by
  have hb : (k + 1 == 0) = false := by simp
  unfold decrM
  rw [Meth.get_bind, canon_snoc]
  simp only [isEmpty_snoc, Bool.not_false, ASSERT_true, Meth.lift_ok_bind, back_snoc, beginOf, iterEq_same, hb, Bool.false_eq_true, if_false]

/-- `--` from `r` to the position `p` before it. -/
theorem decrM_step (dbg : Bool) {f : List (Tree α)} {p r : Path} (h : Step f p r) (pl : List Bool) :
    ((∀ i, i < 2 * (p.length - r.length) → pl[i]? ≠ some false) →
      decrM dbg f ⟨canon r, pl⟩ = (.ok (), ⟨canon p, pl.drop (2 * (p.length - r.length))⟩)) ∧
    (∀ i, i < 2 * (p.length - r.length) → pl[i]? = some false → (∀ j, j < i → pl[j]? ≠ some false) →
      decrM dbg f ⟨canon r, pl⟩ = (.throw .bad_alloc,
        ⟨if i % 2 = 0 then canon (p.take (r.length + i / 2)) else broken (p.take (r.length + i / 2)), pl.drop (i + 1)⟩)) := by
  cases h with
  | down q k l t hl ht hc =>
    have : (q ++ [k]).length - (q ++ [k] ++ [0]).length = 0 := by simp
    rw [this]
    exact ⟨fun _ => decrM_up dbg f (q ++ [k]) pl, fun i hi => by omega⟩
  | leaf q k l t r hl ht hc hr =>
    have hk : k < l.length := by rw [List.getElem?_eq_some_iff] at ht; exact ht.1
    obtain ⟨⟨q', k', he⟩, n, h2, h3⟩ := descendM_climb dbg hr q k rfl
    have hh := path_height f q l k hl hk
    have hlen : r.length + n = q.length + 1 := by simpa using h2
    have hn : (q ++ [k]).length - r.length = n := by simp; omega
    have hd : decrM dbg f ⟨canon r, pl⟩ = descendLoopM dbg f ((Tree.heightList f - n + 1) + n) ⟨canon r, pl⟩ := by
      rw [show (Tree.heightList f - n + 1) + n = Tree.heightList f + 1 by omega]
      subst he
      exact decrM_down dbg f q' k' pl
    rw [hn, hd]
    refine ⟨fun hok => ?_, fun i hi hf hj => ?_⟩
    · rw [(h3 _ pl).1 hok]
      exact descendM_leaf dbg hl ht hc _ _
    · rw [(h3 _ pl).2 i hi hf hj]
      have hr1 : r.length ≠ 0 := by rw [he]; simp
      have : r.length + i / 2 ≤ q.length := by omega
      rw [List.take_append_of_le_length this, List.take_append_of_le_length this]

end Utki.Trav
