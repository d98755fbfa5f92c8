import Verif.Model.TreeCost
import Verif.Props.Tree
/-!
# C97: the work done by traversal iterators
-/
namespace Utki
namespace Trav
variable {α : Type}
open Spec

/-- Forget the work. -/
def noWork (r : Res (Iter × Nat)) : Res Iter := r >>= fun x => .ok x.1

theorem noWork_bind {β : Type} (m : Res β) (g : β → Res (Iter × Nat)) : noWork (m >>= g) = m >>= fun x => noWork (g x) := by
  cases m <;> rfl

theorem climbLoopC_noWork (f : List (Tree α)) : ∀ (fuel : Nat) (it : Iter) (w : Nat), noWork (climbLoopC f fuel it w) = climbLoop f fuel it
  | 0, _, _ => rfl
  | fuel + 1, it, w => by
    unfold climbLoopC climbLoop
    split
    · rfl
    · simp only [noWork_bind]
      congr 1; funext top; congr 1; funext lst; congr 1; funext e; congr 1; funext b
      cases b with
      | false => rfl
      | true =>
        simp only [if_true, noWork_bind]
        congr 1; funext ls; congr 1; funext is; congr 1; funext up; congr 1; funext up'; congr 1; funext is'
        exact climbLoopC_noWork f fuel _ _

theorem incrC_noWork (dbg : Bool) (f : List (Tree α)) (it : Iter) : noWork (incrC dbg f it) = incr dbg f it := by
  unfold incrC incr
  simp only [noWork_bind]
  congr 1; funext _; congr 1; funext _; congr 1; funext iter
  have tail : ∀ u : Unit, noWork (do
      let t ← deref f iter
      if !t.children.isEmpty then
        let child := iter.list ++ [iter.idx]
        return (⟨it.list_stack ++ [child], it.iter_stack ++ [beginOf child]⟩, 1)
      else
        let iter ← advance f iter 1
        let is ← setBack it.iter_stack iter
        ASSERT dbg (decide (1 ≤ is.length))
        climbLoopC f (is.length + 1) ⟨it.list_stack, is⟩ 1) = (do
      let t ← deref f iter
      if !t.children.isEmpty then
        let child := iter.list ++ [iter.idx]
        return ⟨it.list_stack ++ [child], it.iter_stack ++ [beginOf child]⟩
      else
        let iter ← advance f iter 1
        let is ← setBack it.iter_stack iter
        ASSERT dbg (decide (1 ≤ is.length))
        climbLoop f (is.length + 1) ⟨it.list_stack, is⟩) := by
    intro _
    simp only [noWork_bind]
    congr 1; funext t
    cases t.children.isEmpty with
    | false => rfl
    | true =>
      simp only [Bool.not_true, Bool.false_eq_true, if_false, noWork_bind]
      congr 1; funext i; congr 1; funext is; congr 1; funext _
      exact climbLoopC_noWork f _ _ _
  cases dbg with
  | false => exact tail ()
  | true =>
    simp only [if_true, noWork_bind]
    congr 1; funext lst; congr 1; funext e; congr 1; funext b; congr 1; funext _
    have := tail ()
    simp only [noWork_bind] at this
    exact this

theorem descendLoopC_noWork (dbg : Bool) (f : List (Tree α)) : ∀ (fuel : Nat) (it : Iter) (w : Nat),
    noWork (descendLoopC dbg f fuel it w) = descendLoop dbg f fuel it
  | 0, _, _ => rfl
  | fuel + 1, it, w => by
    unfold descendLoopC descendLoop
    simp only [noWork_bind]
    congr 1; funext iter
    have tail : ∀ u : Unit, noWork (do
        let iter ← retreat iter
        let is ← setBack it.iter_stack iter
        let t ← deref f iter
        if !t.children.isEmpty then
          let child := iter.list ++ [iter.idx]
          let e ← endOf f child
          descendLoopC dbg f fuel ⟨it.list_stack ++ [child], is ++ [e]⟩ (w + 1)
        else return (⟨it.list_stack, is⟩, w)) = (do
        let iter ← retreat iter
        let is ← setBack it.iter_stack iter
        let t ← deref f iter
        if !t.children.isEmpty then
          let child := iter.list ++ [iter.idx]
          let e ← endOf f child
          descendLoop dbg f fuel ⟨it.list_stack ++ [child], is ++ [e]⟩
        else return ⟨it.list_stack, is⟩) := by
      intro _
      simp only [noWork_bind]
      congr 1; funext i; congr 1; funext is; congr 1; funext t
      cases t.children.isEmpty with
      | true => rfl
      | false =>
        simp only [Bool.not_false, if_true, noWork_bind]
        congr 1; funext e
        exact descendLoopC_noWork dbg f fuel _ _
    cases dbg with
    | false => exact tail ()
    | true =>
      simp only [if_true, noWork_bind]
      congr 1; funext lst; congr 1; funext b; congr 1; funext _
      have := tail ()
      simp only [noWork_bind] at this
      exact this

theorem decrC_noWork (dbg : Bool) (f : List (Tree α)) (it : Iter) : noWork (decrC dbg f it) = decr dbg f it := by
  unfold decrC decr
  simp only [noWork_bind]
  congr 1; funext _; congr 1; funext _; congr 1; funext iter; congr 1; funext lst; congr 1; funext b
  cases b with
  | true => simp only [if_true, noWork_bind]; rfl
  | false => exact descendLoopC_noWork dbg f _ _ _

/-- The work of the loop is the change of the depth. -/
theorem climbLoopC_work (f : List (Tree α)) : ∀ (fuel : Nat) (it : Iter) (w : Nat) (it' : Iter) (w' : Nat), climbLoopC f fuel it w = .ok (it', w') →
    w' + depth it' = w + depth it
  | 0, _, _, _, _, h => by cases h
  | fuel + 1, it, w, it', w', h => by
    unfold climbLoopC at h
    split at h
    · cases h; rfl
    · simp only [Res.bind_eq] at h
      cases h1 : back it.iter_stack <;> simp only [h1, Res.bind] at h <;> try cases h
      cases h2 : back it.list_stack <;> simp only [h2] at h <;> try cases h
      rename_i top lst
      cases h3 : endOf f lst <;> simp only [h3] at h <;> try cases h
      rename_i e
      cases h4 : iterEq top e <;> simp only [h4] at h <;> try cases h
      rename_i b
      cases b with
      | false => simp only [Bool.false_eq_true, if_false] at h; cases h; rfl
      | true =>
        simp only [if_true] at h
        cases h5 : pop it.list_stack <;> simp only [h5] at h <;> try cases h
        cases h6 : pop it.iter_stack <;> simp only [h6] at h <;> try cases h
        rename_i ls is
        cases h7 : back is <;> simp only [h7] at h <;> try cases h
        rename_i up
        cases h8 : advance f up 1 <;> simp only [h8] at h <;> try cases h
        rename_i up'
        cases h9 : setBack is up' <;> simp only [h9] at h <;> try cases h
        rename_i is'
        have := climbLoopC_work f fuel _ _ _ _ h
        have l1 : is.length + 1 = it.iter_stack.length := by
          unfold pop at h6
          split at h6
          · cases h6
          · cases h6
            rename_i hne
            have : it.iter_stack ≠ [] := by intro e; rw [e] at hne; simp at hne
            have := List.length_pos_iff.mpr this
            simp; omega
        have l2 : is'.length = is.length := by
          unfold setBack at h9
          split at h9
          · cases h9
          · cases h9
            rename_i hne
            have : is ≠ [] := by intro e; rw [e] at hne; simp at hne
            have := List.length_pos_iff.mpr this
            simp; omega
        simp only [depth] at this ⊢
        omega

theorem incrC_step (dbg : Bool) {f : List (Tree α)} {p r : Path} (h : Step f p r) :
    incrC dbg f (canon p) = .ok (canon r, 1 + (p.length - r.length)) := by
  have h0 := incrC_noWork dbg f (canon p)
  rw [incr_step dbg h] at h0
  obtain ⟨w, hw⟩ : ∃ w, incrC dbg f (canon p) = .ok (canon r, w) := by
    cases hc : incrC dbg f (canon p) with
    | ok x => rw [hc] at h0; obtain ⟨i, w⟩ := x; simp [noWork] at h0; exact ⟨w, by rw [h0]⟩
    | _ => rw [hc] at h0; simp [noWork] at h0
  rw [hw]
  suffices w = 1 + (p.length - r.length) by rw [this]
  cases h with
  | down q k l t hl ht hc =>
    have hk : k < l.length := by rw [List.getElem?_eq_some_iff] at ht; exact ht.1
    have hb : (k == l.length) = false := by simp; omega
    have hc' : t.children.isEmpty = false := by simpa using hc
    have : incrC dbg f (canon (q ++ [k])) = .ok (canon (q ++ [k] ++ [0]), 1) := by
      rw [canon_snoc, canon_snoc, canonL_snoc, canonI_snoc]
      unfold incrC
      cases dbg <;> simp only [isEmpty_snoc, Bool.not_false, ASSERT_true, ASSERT_false_false, List.length_append, canonI_length,
        canonL_length, beq_self_eq_true, back_snoc, Res.bind_eq, Res.ok_bind, endOf_ok hl, iterEq_same, hb, deref_ok hl ht, hc',
        beginOf, List.nil_append, if_true, Res.pure_eq, if_false, Bool.false_eq_true, List.length_singleton]
    rw [this] at hw
    cases hw
    simp
  | leaf q k l t r hl ht hc hr =>
    have hk : k < l.length := by rw [List.getElem?_eq_some_iff] at ht; exact ht.1
    have hb : (k == l.length) = false := by simp; omega
    have hc' : t.children.isEmpty = true := by simpa using hc
    have : incrC dbg f (canon (q ++ [k])) = climbLoopC f (q.length + 1 + 1) (canon (q ++ [k + 1])) 1 := by
      rw [canon_snoc, canon_snoc]
      unfold incrC
      cases dbg <;> simp only [isEmpty_snoc, Bool.not_false, ASSERT_true, ASSERT_false_false, List.length_append, canonI_length,
        canonL_length, beq_self_eq_true, back_snoc, Res.bind_eq, Res.ok_bind, endOf_ok hl, iterEq_same, hb, deref_ok hl ht, hc',
        if_true, Res.pure_eq, if_false, Bool.false_eq_true, List.length_singleton, Bool.not_true,
        advance_ok hl (show k + 1 ≤ l.length by omega), setBack_snoc, show decide (1 ≤ q.length + 1) = true by simp]
    rw [this] at hw
    have := climbLoopC_work f _ _ _ _ _ hw
    obtain ⟨_, n, h2, _⟩ := descend_climb dbg hr q k rfl
    simp only [depth, canon, canonI_length, List.length_append, List.length_singleton] at this h2 ⊢
    omega

theorem descendLoopC_work (dbg : Bool) (f : List (Tree α)) : ∀ (fuel : Nat) (it : Iter) (w : Nat) (it' : Iter) (w' : Nat),
    descendLoopC dbg f fuel it w = .ok (it', w') → w' + depth it = w + depth it'
  | 0, _, _, _, _, h => by cases h
  | fuel + 1, it, w, it', w', h => by
    unfold descendLoopC at h
    simp only [Res.bind_eq] at h
    cases h1 : back it.iter_stack <;> simp only [h1, Res.bind] at h <;> try cases h
    rename_i iter
    have tail : (do
        let iter ← retreat iter
        let is ← setBack it.iter_stack iter
        let t ← deref f iter
        if !t.children.isEmpty then
          let child := iter.list ++ [iter.idx]
          let e ← endOf f child
          descendLoopC dbg f fuel ⟨it.list_stack ++ [child], is ++ [e]⟩ (w + 1)
        else return (⟨it.list_stack, is⟩, w)) = .ok (it', w') := by
      cases dbg with
      | false => exact h
      | true =>
        simp only [if_true] at h
        cases h2 : back it.list_stack <;> simp only [h2] at h <;> try cases h
        rename_i lst
        cases h3 : iterEq iter (beginOf lst) <;> simp only [h3] at h <;> try cases h
        rename_i b
        cases b with
        | true => cases h
        | false => exact h
    clear h
    simp only [Res.bind_eq] at tail
    cases h2 : retreat iter <;> simp only [h2, Res.bind] at tail <;> try cases tail
    rename_i i'
    cases h3 : setBack it.iter_stack i' <;> simp only [h3] at tail <;> try cases tail
    rename_i is
    cases h4 : deref f i' <;> simp only [h4] at tail <;> try cases tail
    rename_i t
    have l1 : is.length = it.iter_stack.length := by
      unfold setBack at h3
      split at h3
      · cases h3
      · cases h3
        rename_i hne
        have : it.iter_stack ≠ [] := by intro e; rw [e] at hne; simp at hne
        have := List.length_pos_iff.mpr this
        simp; omega
    cases hc : t.children.isEmpty with
    | true =>
      simp only [hc, Bool.not_true, Bool.false_eq_true, if_false] at tail
      cases tail
      simp only [depth]; omega
    | false =>
      simp only [hc, Bool.not_false, if_true] at tail
      cases h5 : endOf f (i'.list ++ [i'.idx]) <;> simp only [h5] at tail <;> try cases tail
      have := descendLoopC_work dbg f fuel _ _ _ _ tail
      simp only [depth, List.length_append, List.length_singleton] at this ⊢
      omega

theorem decrC_step (dbg : Bool) {f : List (Tree α)} {p r : Path} (h : Step f p r) :
    decrC dbg f (canon r) = .ok (canon p, 1 + (p.length - r.length)) := by
  have h0 := decrC_noWork dbg f (canon r)
  rw [decr_step dbg h] at h0
  obtain ⟨w, hw⟩ : ∃ w, decrC dbg f (canon r) = .ok (canon p, w) := by
    cases hc : decrC dbg f (canon r) with
    | ok x => rw [hc] at h0; obtain ⟨i, w⟩ := x; simp [noWork] at h0; exact ⟨w, by rw [h0]⟩
    | _ => rw [hc] at h0; simp [noWork] at h0
  rw [hw]
  suffices w = 1 + (p.length - r.length) by rw [this]
  cases h with
  | down q k l t hl ht hc =>
    have : decrC dbg f (canon (q ++ [k] ++ [0])) = .ok (canon (q ++ [k]), 1) := by
      rw [canon_snoc]
      unfold decrC
      simp only [isEmpty_snoc, Bool.not_false, ASSERT_true, back_snoc, Res.bind_eq, Res.ok_bind, beginOf, iterEq_same,
        beq_self_eq_true, if_true, pop_snoc, Res.pure_eq]
      rfl
    rw [this] at hw
    cases hw
    simp
  | leaf q k l t r hl ht hc hr =>
    obtain ⟨⟨q', k', he⟩, n, h2, _⟩ := descend_climb dbg hr q k rfl
    have : decrC dbg f (canon r) = descendLoopC dbg f (Tree.heightList f + 1) (canon r) 1 := by
      subst he
      rw [canon_snoc]
      unfold decrC
      have hb : (k' + 1 == 0) = false := by simp
      simp only [isEmpty_snoc, Bool.not_false, ASSERT_true, back_snoc, Res.bind_eq, Res.ok_bind, beginOf, iterEq_same, hb,
        Bool.false_eq_true, if_false]
    rw [this] at hw
    have := descendLoopC_work dbg f _ _ _ _ _ hw
    simp only [depth, canon, canonI_length, List.length_append, List.length_singleton] at this h2 ⊢
    omega

end Trav
open Spec Trav
variable {α : Type}

/-- C97: counting the work changes nothing else: in every state, valid or not, the counting functions do what `++` and `--` do. -/
theorem C97_same (dbg : Bool) (f : List (Tree α)) (it : Iter) :
    (do let (it', _) ← incrC dbg f it; Res.ok it') = incr dbg f it ∧ (do let (it', _) ← decrC dbg f it; Res.ok it') = decr dbg f it :=
  ⟨incrC_noWork dbg f it, decrC_noWork dbg f it⟩

/-- C97: the work of `++` is one unit and one more for each level it goes up; that of `--` is one unit and one more for each level it goes down. -/
theorem C97_one_step (dbg : Bool) (f : List (Tree α)) (n : Nat) (it it' : Iter) (h : At f n it) (h' : At f (n + 1) it') :
    incrC dbg f it = .ok (it', 1 + (depth it - depth it')) ∧ decrC dbg f it' = .ok (it, 1 + (depth it - depth it')) := by
  obtain ⟨p, hp, rfl⟩ := h
  obtain ⟨r, hr, rfl⟩ := h'
  have hs := positions_step f n p r hp hr
  have hd : ∀ q : Path, depth (canon q) = q.length := by intro q; simp [depth, canon, canonI_length]
  rw [hd, hd]
  exact ⟨incrC_step dbg hs, decrC_step dbg hs⟩

/-- `k` times `++`, and the work of all of them. -/
def nextTimes (dbg : Bool) (f : List (Tree α)) : Nat → Iter → Res (Iter × Nat)
  | 0, it => .ok (it, 0)
  | k + 1, it => do
    let (it1, w) ← incrC dbg f it
    let (it2, ws) ← nextTimes dbg f k it1
    return (it2, w + ws)

/-- `k` times `--`, and the work of all of them. -/
def prevTimes (dbg : Bool) (f : List (Tree α)) : Nat → Iter → Res (Iter × Nat)
  | 0, it => .ok (it, 0)
  | k + 1, it => do
    let (it1, w) ← decrC dbg f it
    let (it2, ws) ← prevTimes dbg f k it1
    return (it2, w + ws)

theorem Trav.depth_step {f : List (Tree α)} {n : Nat} {it it' : Iter} (h : At f n it) (h' : At f (n + 1) it') : depth it' ≤ depth it + 1 := by
  obtain ⟨p, hp, rfl⟩ := h
  obtain ⟨r, hr, rfl⟩ := h'
  have hd : ∀ q : Path, depth (canon q) = q.length := by intro q; simp [depth, canon, canonI_length]
  rw [hd, hd]
  cases positions_step f n p r hp hr with
  | down => simp
  | leaf q k l t r hl ht hc hr =>
    obtain ⟨_, n, h2, _⟩ := descend_climb false hr q k rfl
    simp at h2 ⊢; omega

/-- C97: going forward `k` positions takes at most `2 * k` units of work and the difference of the depths, so `++` takes constant time on average. -/
theorem C97_forward (dbg : Bool) (f : List (Tree α)) : ∀ (k n : Nat) (it : Iter), At f n it → n + k ≤ (nodes f).length →
    ∃ it' w, nextTimes dbg f k it = .ok (it', w) ∧ At f (n + k) it' ∧ w + depth it' ≤ 2 * k + depth it
  | 0, n, it, h, _ => ⟨it, 0, rfl, h, by omega⟩
  | k + 1, n, it, h, hn => by
    obtain ⟨it1, _, h1⟩ := C37_next dbg f n it h (by omega)
    have hs := (C97_one_step dbg f n it it1 h h1).1
    have hd := Trav.depth_step h h1
    obtain ⟨it2, w, e2, h2, hw⟩ := C97_forward dbg f k (n + 1) it1 h1 (by omega)
    refine ⟨it2, 1 + (depth it - depth it1) + w, ?_, by rw [show n + (k + 1) = n + 1 + k by omega]; exact h2, ?_⟩
    · simp only [nextTimes, hs, Res.bind_eq, Res.ok_bind, e2]; rfl
    · omega

/-- C97: so does going backward. -/
theorem C97_backward (dbg : Bool) (f : List (Tree α)) : ∀ (k n : Nat) (it : Iter), At f (n + k) it →
    ∃ it' w, prevTimes dbg f k it = .ok (it', w) ∧ At f n it' ∧ w + depth it ≤ 2 * k + depth it'
  | 0, n, it, h => ⟨it, 0, rfl, h, by omega⟩
  | k + 1, n, it, h => by
    obtain ⟨it1, _, h1⟩ := C38_prev dbg f (n + k) it h
    have hs := (C97_one_step dbg f (n + k) it1 it h1 h).2
    have hd := Trav.depth_step h1 h
    obtain ⟨it2, w, e2, h2, hw⟩ := C97_backward dbg f k n it1 h1
    refine ⟨it2, 1 + (depth it1 - depth it) + w, ?_, h2, ?_⟩
    · simp only [prevTimes, hs, Res.bind_eq, Res.ok_bind, e2]; rfl
    · omega

/-- C97: a whole traversal of `n` nodes, in either direction, takes at most `2 * n` units of work, however deep the trees are. -/
theorem C97_traversal (dbg : Bool) (f : List (Tree α)) :
    (∃ w, nextTimes dbg f (nodes f).length begin_ = .ok (end_ f, w) ∧ w ≤ 2 * (nodes f).length) ∧
    (∃ w, prevTimes dbg f (nodes f).length (end_ f) = .ok (begin_, w) ∧ w ≤ 2 * (nodes f).length) := by
  obtain ⟨hb, he⟩ := C37_begin_end f
  have same : ∀ n (a b : Iter), At f n a → At f n b → a = b := by
    rintro n a b ⟨p, hp, rfl⟩ ⟨r, hr, rfl⟩
    rw [hp] at hr; cases hr; rfl
  constructor
  · obtain ⟨it', w, e, h, hw⟩ := C97_forward dbg f (nodes f).length 0 begin_ hb (by omega)
    rw [Nat.zero_add] at h
    have := same _ _ _ h he
    subst this
    exact ⟨w, e, by simp only [depth, begin_, end_, List.length_singleton] at hw; omega⟩
  · obtain ⟨it', w, e, h, hw⟩ := C97_backward dbg f (nodes f).length 0 (end_ f) (by rw [Nat.zero_add]; exact he)
    have := same _ _ _ h hb
    subst this
    exact ⟨w, e, by simp only [depth, begin_, end_, List.length_singleton] at hw; omega⟩

/-- `forest1`: 7 nodes, 4 of them leaves; 7 units for the calls and one for each of the 3 nodes with children. A single `--` from the end of a deep tree
takes as many units as the tree is deep. -/
example : nextTimes true forest1 7 begin_ = .ok (end_ forest1, 10) ∧ prevTimes true forest1 7 (end_ forest1) = .ok (begin_, 10) ∧
    (nodes forest1).length = 7 := by decide +kernel
example : decrC true [Tree.node 1 [.node 2 [.node 3 [.node 4 []]]]] (end_ [Tree.node 1 [.node 2 [.node 3 [.node 4 []]]]]) =
    .ok (canon [0, 0, 0, 0], 4) := by decide +kernel

end Utki
