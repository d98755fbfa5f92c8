import Verif.Spec.TreeIterAlloc
import Verif.Props.TreeAlloc
/-! # C141: making iterators and reading indices when memory runs out -/
namespace Utki
open Trav TreeAlloc Spec
variable {α : Type}

theorem alloc_plan (s : Mem) : (alloc s).2.plan <:+ s.plan ∧ ((alloc s).1 = .throw .bad_alloc → false ∈ s.plan) := by
  obtain ⟨plan, live, next⟩ := s
  match plan with
  | [] => exact ⟨List.suffix_rfl, fun h => by simp [alloc] at h⟩
  | false :: p => exact ⟨List.suffix_cons _ _, fun _ => by simp⟩
  | true :: p => exact ⟨List.suffix_cons _ _, fun h => by simp [alloc] at h⟩

theorem alloc_cases (s : Mem) (bs : List Nat) (h : InUse s bs) :
    (∃ b s', alloc s = (.ok b, s') ∧ InUse s' (b :: bs) ∧ s'.plan <:+ s.plan) ∨ (∃ s', alloc s = (.throw .bad_alloc, s') ∧ InUse s' bs ∧ false ∈ s.plan) := by
  obtain ⟨h1, h2⟩ := alloc_acquires s bs h
  obtain ⟨h3, h4⟩ := alloc_plan s
  by_cases g : granted 1 s.plan
  · obtain ⟨b, s', e, _, i, _⟩ := h1 g
    rw [e] at h3
    exact .inl ⟨b, s', e, i, h3⟩
  · obtain ⟨s', e, i⟩ := h2 g
    rw [e] at h4
    exact .inr ⟨s', e, i, h4 rfl⟩

theorem pushBuf_cases (grow : Nat → Nat) (v : Buf) (s : Mem) (bs : List Nat) (h : InUse s (v.blk.toList ++ bs)) :
    (∃ v' s', pushBuf grow v s = (.ok v', s') ∧ InUse s' (v'.blk.toList ++ bs) ∧ s'.plan <:+ s.plan) ∨
    (∃ s', pushBuf grow v s = (.throw .bad_alloc, s') ∧ InUse s' (v.blk.toList ++ bs) ∧ false ∈ s.plan) := by
  rw [pushBuf]
  split
  · exact .inl ⟨_, s, rfl, h, List.suffix_rfl⟩
  · rcases alloc_cases s _ h with ⟨b, s1, e1, i1, p1⟩ | ⟨s1, e1, i1, p1⟩
    · obtain ⟨s2, e2, i2, p2⟩ := freeAll_releases v.blk.toList s1 (b :: bs) (inUse_perm i1 (List.perm_middle.symm))
      refine .inl ⟨⟨some b, max (grow v.len) (v.len + 1), v.len + 1⟩, s2, ?_, i2, p2 ▸ p1⟩
      rw [Meth.bind_ok e1, Meth.bind_ok e2]; rfl
    · exact .inr ⟨s1, by rw [Meth.bind_throw e1], i1, p1⟩

theorem getList_cases (f : List (Tree α)) (p : Path) : (∃ l, getList f p = .ok l) ∨ ∃ u, getList f p = .ub u := by
  rw [getList]
  cases listAt f p with
  | some l => exact .inl ⟨l, rfl⟩
  | none => exact .inr ⟨_, rfl⟩

theorem advance_cases (f : List (Tree α)) (i : LIter) (k : Nat) : (∃ n, advance f i k = .ok n) ∨ ∃ u, advance f i k = .ub u := by
  rw [advance]
  rcases getList_cases f i.list with ⟨l, h⟩ | ⟨u, h⟩
  · rw [h]
    simp only [Res.bind_eq, Res.ok_bind]
    split
    · exact .inl ⟨_, rfl⟩
    · exact .inr ⟨_, rfl⟩
  · rw [h]; exact .inr ⟨u, rfl⟩

theorem destroyBIt_releases (i : BIt) : Releases (destroyBIt i) (blocksIt i) :=
  releases_perm (bind_releases (freeAll_releases _) (freeAll_releases _)) List.perm_append_comm

/-- A growing vector among the others; if this fails everything of `own` is given back. -/
theorem push_step (grow : Nat → Nat) (v : Buf) (c : Meth Mem Unit) (own rest : List Nat) (hc : Releases c own) (hp : own.Perm (v.blk.toList ++ rest)) (s : Mem) (others : List Nat) (h : InUse s (own ++ others)) :
    (∃ v' s', onFail (pushBuf grow v) c s = (.ok v', s') ∧ InUse s' (v'.blk.toList ++ (rest ++ others)) ∧ s'.plan <:+ s.plan) ∨
    (∃ s', onFail (pushBuf grow v) c s = (.throw .bad_alloc, s') ∧ InUse s' others ∧ false ∈ s.plan) := by
  have h' : InUse s (v.blk.toList ++ (rest ++ others)) := inUse_perm h (by rw [← List.append_assoc]; exact hp.append_right _)
  rcases pushBuf_cases grow v s _ h' with ⟨v', s1, e1, i1, p1⟩ | ⟨s1, e1, i1, p1⟩
  · exact .inl ⟨v', s1, onFail_ok e1, i1, p1⟩
  · obtain ⟨s2, e2, i2, _⟩ := hc s1 others (inUse_perm i1 (by rw [← List.append_assoc]; exact (hp.append_right _).symm))
    exact .inr ⟨s2, onFail_throw e1 e2, i2, p1⟩

theorem newIt_safe (grow : Nat → Nat) (i : LIter) (s : Mem) (others : List Nat) (h : InUse s others) :
    SameOrBadAlloc (newIt grow i) (.ok (⟨[[]], [i]⟩ : Iter)) BIt.it blocksIt s others := by
  rw [newIt]
  rcases push_step grow emptyBuf _ [] [] (destroyBIt_releases ⟨⟨[], []⟩, emptyBuf, emptyBuf⟩) .rfl s others h with ⟨ls, s1, e1, i1, p1⟩ | ⟨s1, e1, i1, p1⟩
  · rcases push_step grow emptyBuf _ ls.blk.toList ls.blk.toList (releases_perm (destroyBIt_releases ⟨⟨[[]], []⟩, ls, emptyBuf⟩) (by simp [blocksIt, emptyBuf])) .rfl s1 others i1 with
      ⟨is, s2, e2, i2, p2⟩ | ⟨s2, e2, i2, p2⟩
    · refine .inr ⟨s2, ⟨⟨[[]], [i]⟩, ls, is⟩, ?_, rfl, inUse_perm i2 ?_⟩
      · rw [Meth.bind_ok e1, Meth.bind_ok e2]; rfl
      · rw [← List.append_assoc]; exact List.perm_append_comm.append_right _
    · exact .inl ⟨s2, by rw [Meth.bind_ok e1, Meth.bind_throw e2], p1.subset p2, i2⟩
  · exact .inl ⟨s1, by rw [Meth.bind_throw e1], p1, i1⟩

/-- C141: `begin()` and `end()` give the iterators to the first position and the end, or throw `std::bad_alloc` and leave no memory in use. -/
theorem C141_begin_end (grow : Nat → Nat) (f : List (Tree α)) (s : Mem) (others : List Nat) (h : InUse s others) :
    SameOrBadAlloc (beginM grow) (.ok begin_) BIt.it blocksIt s others ∧ SameOrBadAlloc (endM grow f) (.ok (end_ f)) BIt.it blocksIt s others :=
  ⟨newIt_safe grow _ s others h, newIt_safe grow _ s others h⟩

theorem makeLoopM_safe (grow : Nat → Nat) (f : List (Tree α)) : ∀ (idx : List Nat) (list : Path) (iter : LIter) (ret : BIt) (s : Mem) (others : List Nat), InUse s (blocksIt ret ++ others) →
    SameOrBadAlloc (makeLoopM grow f idx list iter ret) (makeLoop f idx list iter ret.it) BIt.it blocksIt s others := by
  intro idx
  induction idx with
  | nil => intro list iter ret s others h; exact .inr ⟨s, ret, rfl, rfl, h⟩
  | cons i idx ih =>
    intro list iter ret s others h
    rw [makeLoopM, makeLoop]
    rcases push_step grow ret.lists _ _ ret.iters.blk.toList (destroyBIt_releases ret) .rfl s others h with ⟨lb, s1, e1, i1, p1⟩ | ⟨s1, e1, i1, p1⟩
    · have i1' : InUse s1 (blocksIt ⟨⟨ret.it.list_stack ++ [list], ret.it.iter_stack⟩, lb, ret.iters⟩ ++ others) := by rw [blocksIt, List.append_assoc]; exact i1
      have hr := destroyBIt_releases ⟨⟨ret.it.list_stack ++ [list], ret.it.iter_stack⟩, lb, ret.iters⟩
      rw [SameOrBadAlloc, Meth.bind_ok e1]
      rcases getList_cases f list with ⟨l, hl⟩ | ⟨u, hl⟩ <;> rw [hl]
      · simp only [Meth.lift_ok_bind, Res.bind_eq, Res.ok_bind]
        by_cases hi : i ≥ l.length
        · rw [if_pos hi, if_pos hi]
          obtain ⟨s2, e2, i2, _⟩ := hr s1 others i1'
          exact .inr ⟨s2, onFail_throw (s' := s1) rfl e2, i2⟩
        · rw [if_neg hi, if_neg hi]
          rcases advance_cases f iter i with ⟨n, hn⟩ | ⟨u, hn⟩ <;> rw [hn]
          · simp only [Meth.lift_ok_bind, Res.ok_bind]
            rcases push_step grow ret.iters _ _ lb.blk.toList hr List.perm_append_comm s1 others i1' with ⟨ib, s2, e2, i2, p2⟩ | ⟨s2, e2, i2, p2⟩
            · rw [Meth.bind_ok e2]
              have := ih (n.list ++ [n.idx]) (beginOf (n.list ++ [n.idx])) ⟨⟨ret.it.list_stack ++ [list], ret.it.iter_stack ++ [n]⟩, lb, ib⟩ s2 others
                (inUse_perm i2 (by rw [blocksIt, ← List.append_assoc]; exact List.perm_append_comm.append_right _))
              rcases this with ⟨s3, e3, m3, i3⟩ | ⟨s3, h3⟩
              · exact .inl ⟨s3, e3, p1.subset (p2.subset m3), i3⟩
              · exact .inr ⟨s3, h3⟩
            · exact .inl ⟨s2, by rw [Meth.bind_throw e2], p1.subset p2, i2⟩
          · exact .inr ⟨s1, rfl⟩
      · exact .inr ⟨s1, rfl⟩
    · exact .inl ⟨s1, by rw [Meth.bind_throw e1], p1, i1⟩

/-- C141: `make_iterator(index)` gives the iterator of C39 or throws `std::out_of_range` as there, or it throws `std::bad_alloc`; an exception leaves no memory in use. -/
theorem C141_make_iterator (grow : Nat → Nat) (f : List (Tree α)) (idx : List Nat) (s : Mem) (others : List Nat) (h : InUse s others) :
    SameOrBadAlloc (makeM grow f idx) (make_iterator f idx) BIt.it blocksIt s others :=
  makeLoopM_safe grow f idx [] (beginOf []) ⟨⟨[], []⟩, emptyBuf, emptyBuf⟩ s others h

/-- C141: an index given as a list in braces is a temporary vector, which is given back in any case, provided that this is so for the call it is made for. -/
theorem C141_braces {β γ : Type} (idx : List Nat) (call : Meth Mem β) (plain : Res γ) (view : β → γ) (own : β → List Nat)
    (hc : ∀ (s : Mem) (others : List Nat), InUse s others → SameOrBadAlloc call plain view own s others) (s : Mem) (others : List Nat) (h : InUse s others) :
    SameOrBadAlloc (withIndex idx call) plain view own s others := by
  rw [withIndex]
  have main : ∀ (b : List Nat) (s1 : Mem), copyBuf idx s = (.ok b, s1) → InUse s1 (b ++ others) → s1.plan <:+ s.plan → SameOrBadAlloc (withIndex idx call) plain view own s others := by
    intro b s1 e1 i1 p1
    rw [SameOrBadAlloc, withIndex, Meth.bind_ok e1]
    rcases hc s1 (b ++ others) i1 with ⟨s2, e2, m2, i2⟩ | ⟨s2, h2⟩
    · obtain ⟨s3, e3, i3, _⟩ := freeAll_releases b s2 others i2
      exact .inl ⟨s3, by rw [Meth.bind_throw (onFail_throw e2 e3)], p1.subset m2, i3⟩
    · cases plain with
      | ok c =>
        obtain ⟨r, e2, v2, i2⟩ := h2
        obtain ⟨s3, e3, i3, _⟩ := freeAll_releases b s2 (own r ++ others) (inUse_perm i2 (by rw [← List.append_assoc, ← List.append_assoc]; exact List.perm_append_comm.append_right _))
        exact .inr ⟨s3, r, by rw [Meth.bind_ok (onFail_ok e2), Meth.bind_ok e3]; rfl, v2, i3⟩
      | throw e =>
        obtain ⟨e2, i2⟩ := h2
        obtain ⟨s3, e3, i3, _⟩ := freeAll_releases b s2 others i2
        exact .inr ⟨s3, by rw [Meth.bind_throw (onFail_throw e2 e3)], i3⟩
      | _ => exact .inr ⟨s2, by simp only at h2 ⊢; rw [Meth.bind_apply, Meth.bind, onFail, h2]⟩
  by_cases hi : idx.isEmpty
  · exact main [] s (by rw [copyBuf, if_pos hi]; rfl) h List.suffix_rfl
  · rcases alloc_cases s others h with ⟨b, s1, e1, i1, p1⟩ | ⟨s1, e1, i1, p1⟩
    · exact main [b] s1 (by rw [copyBuf, if_neg hi, Meth.bind_ok e1]; rfl) i1 p1
    · exact .inl ⟨s1, by rw [copyBuf, if_neg hi, Meth.bind_throw (Meth.bind_throw e1)], p1, i1⟩

theorem indexLoopM_safe (grow : Nat → Nat) : ∀ (ls : List Path) (is : List LIter) (v : Buf) (s : Mem) (others : List Nat), InUse s (v.blk.toList ++ others) →
    SameOrBadAlloc (indexLoopM grow ls is v) (indexLoop ls is) (·.1) (·.2.blk.toList) s others := by
  intro ls is
  induction is generalizing ls with
  | nil => intro v s others h; rw [indexLoopM, indexLoop]; exact .inr ⟨s, _, rfl, rfl, h⟩
  | cons i is ih =>
    intro v s others h
    cases ls with
    | nil => exact .inr ⟨s, rfl⟩
    | cons l ls =>
      rw [indexLoopM, indexLoop]
      by_cases hl : l = i.list
      · rw [if_pos hl, if_pos hl, SameOrBadAlloc]
        rcases push_step grow v _ _ [] (freeAll_releases v.blk.toList) (by simp) s others h with ⟨v', s1, e1, i1, p1⟩ | ⟨s1, e1, i1, p1⟩
        · have e1' : onFail (pushBuf grow v) (destroyBuf v) s = (.ok v', s1) := e1
          rw [Meth.bind_ok e1']
          rcases ih ls v' s1 others i1 with ⟨s2, e2, m2, i2⟩ | ⟨s2, h2⟩
          · exact .inl ⟨s2, by rw [Meth.bind_throw e2], p1.subset m2, i2⟩
          · cases hp : indexLoop ls is with
            | ok c =>
              rw [hp] at h2
              obtain ⟨r, e2, v2, i2⟩ := h2
              subst v2
              exact .inr ⟨s2, (i.idx :: r.1, r.2), by rw [Meth.bind_ok e2]; rfl, rfl, i2⟩
            | throw e =>
              rw [hp] at h2
              exact .inr ⟨s2, by rw [Meth.bind_throw h2.1], h2.2⟩
            | _ =>
              rw [hp] at h2
              refine .inr ⟨s2, ?_⟩
              simp only at h2
              rw [Meth.bind_apply, Meth.bind, h2]; rfl
        · have e1' : onFail (pushBuf grow v) (destroyBuf v) s = (.throw .bad_alloc, s1) := e1
          exact .inl ⟨s1, by rw [Meth.bind_throw e1'], p1, i1⟩
      · rw [if_neg hl, if_neg hl]; exact .inr ⟨s, rfl⟩

/-- C141: `index()` gives the index of C39 or throws `std::bad_alloc`, which leaves no memory in use. -/
theorem C141_index (dbg : Bool) (grow : Nat → Nat) (it : Iter) (s : Mem) (others : List Nat) (h : InUse s others) :
    SameOrBadAlloc (indexM dbg grow it) (index dbg it) (·.1) (·.2.blk.toList) s others := by
  rw [indexM, index]
  by_cases ha : (dbg && !(it.iter_stack.length == it.list_stack.length)) = true
  · simp only [ASSERT, ha, if_true]
    exact .inr ⟨s, rfl⟩
  · simp only [ASSERT, ha]
    exact indexLoopM_safe grow _ _ emptyBuf s others h

theorem star_cases (f : List (Tree α)) (it : Iter) : (∃ t, star f it = .ok t) ∨ ∃ u, star f it = .ub u := by
  have hrd : ∀ (l : List (Tree α)) (k : Nat), (∃ t, rd l k = .ok t) ∨ ∃ u, rd l k = .ub u := by
    intro l k
    rw [rd]
    cases l[k]? with
    | some t => exact .inl ⟨t, rfl⟩
    | none => exact .inr ⟨_, rfl⟩
  rw [star, back]
  cases it.iter_stack.getLast? with
  | none => exact .inr ⟨_, rfl⟩
  | some i =>
    simp only [Res.bind_eq, Res.ok_bind, deref]
    rcases getList_cases f i.list with ⟨l, h⟩ | ⟨u, h⟩ <;> rw [h]
    · exact hrd l i.idx
    · exact .inr ⟨u, rfl⟩

/-- C141: `operator[](index)` gives the node of C39 or throws `std::out_of_range` as there, or it throws `std::bad_alloc`; no memory is left in use in any of these cases. -/
theorem C141_at (dbg : Bool) (grow : Nat → Nat) (f : List (Tree α)) (idx : List Nat) (s : Mem) (others : List Nat) (h : InUse s others) :
    SameOrBadAlloc (atM dbg grow f idx) (at_index dbg f idx) id (fun _ => []) s others := by
  have main : SameOrBadAlloc (do let i ← makeM grow f idx; let t ← Meth.lift (star f i.it); destroyBIt i; return t) (do let it ← make_iterator f idx; star f it) id (fun _ => []) s others := by
    rcases C141_make_iterator grow f idx s others h with ⟨s1, e1, m1, i1⟩ | ⟨s1, h1⟩
    · exact .inl ⟨s1, by rw [Meth.bind_throw e1], m1, i1⟩
    · cases hp : make_iterator f idx with
      | ok c =>
        rw [hp] at h1
        obtain ⟨r, e1, v1, i1⟩ := h1
        subst v1
        have hst := star_cases f r.it
        rw [SameOrBadAlloc, Meth.bind_ok e1]
        simp only [Res.bind_eq, Res.ok_bind]
        rcases hst with ⟨t, ht⟩ | ⟨u, ht⟩ <;> rw [ht]
        · obtain ⟨s2, e2, i2, _⟩ := destroyBIt_releases r s1 others i1
          exact .inr ⟨s2, t, by rw [Meth.lift_ok_bind, Meth.bind_ok e2]; rfl, rfl, i2⟩
        · exact .inr ⟨s1, rfl⟩
      | throw e =>
        rw [hp] at h1
        exact .inr ⟨s1, by rw [Meth.bind_throw h1.1], h1.2⟩
      | _ =>
        rw [hp] at h1
        refine .inr ⟨s1, ?_⟩
        simp only at h1
        rw [Meth.bind_apply, Meth.bind, h1]; rfl
  rw [atM, at_index]
  cases dbg with
  | false => exact main
  | true =>
    obtain ⟨b, hb, -⟩ := C39_is_valid f idx
    rw [hb]
    cases b with
    | false => exact .inr ⟨s, rfl⟩
    | true => exact main

/-! ### Examples -/

/-- An iterator to the second child of the first root: the vectors of two elements are grown by doubling, which takes four requests. -/
example : makeM (fun n => 2 * n) [Tree.node 1 [.node 2 [], .node 3 []]] [0, 1] ⟨[], [], 0⟩ = (.ok ⟨⟨[[], [0]], [⟨[], 0⟩, ⟨[0], 1⟩]⟩, ⟨some 2, 2, 2⟩, ⟨some 3, 2, 2⟩⟩, ⟨[], [3, 2], 4⟩) := by decide +kernel

/-- The fourth request fails. -/
example : makeM (fun n => 2 * n) [Tree.node 1 [.node 2 [], .node 3 []]] [0, 1] ⟨[true, true, true, false], [], 0⟩ = (.throw .bad_alloc, ⟨[], [], 3⟩) := by decide +kernel

/-- An index outside the tree, in braces. -/
example : withIndex [0, 7] (makeM (fun n => 2 * n) [Tree.node 1 [.node 2 [], .node 3 []]] [0, 7]) ⟨[], [], 0⟩ = (.throw .out_of_range, ⟨[], [], 4⟩) := by decide +kernel

example : InUse ⟨[true, true, true, false], [], 0⟩ [] := ⟨⟨by simp, by simp⟩, .rfl⟩

/-- The index of an iterator, and a node given by its index. -/
example : indexM true (fun n => 2 * n) (canon [0, 1]) ⟨[true, true], [], 0⟩ = (.ok ([0, 1], ⟨some 1, 2, 2⟩), ⟨[], [1], 2⟩) ∧
    indexM true (fun n => 2 * n) (canon [0, 1]) ⟨[true, false], [], 0⟩ = (.throw .bad_alloc, ⟨[], [], 1⟩) ∧
    atM true (fun n => 2 * n) [Tree.node 1 [.node 2 [], .node 3 []]] [0, 1] ⟨[], [], 0⟩ = (.ok (.node 3 []), ⟨[], [], 4⟩) := ⟨by decide +kernel, by decide +kernel, rfl⟩

end Utki
