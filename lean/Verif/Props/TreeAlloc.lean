import Verif.Lemmas.TreeAlloc
import Verif.Props.Tree
/-! # C132: copying and changing trees when memory runs out -/
namespace Utki
open Utki.Spec TreeAlloc Trav
variable {α : Type}

theorem inMem_eval {β : Type} {m : Meth Mem β} {s : St α} {r : Res β} {mem : Mem} (h : m s.mem = (r, mem)) : inMem m s = (r, { s with mem := mem }) := by
  simp [inMem, h]

theorem blocks_movedFrom (t : MTree α) : blocksTree (movedFrom t) = [] := by simp [movedFrom, blocksTree, blocksList]

theorem back_ok {β : Type} {v : List β} {x : β} (h : back v = .ok x) : v.getLast? = some x := by
  unfold back at h
  cases hv : v.getLast? with
  | none => simp [hv] at h
  | some y => simp [hv] at h; rw [h]

theorem getList_plain {v : Vec α} {p : Path} {l : List (Tree α)} (h : getList (plainList v.elems) p = .ok l) : ∃ w, v.at p = some w ∧ plainList w.elems = l := by
  rw [getList, listAt_plain] at h
  cases hv : v.at p with
  | none => simp [hv] at h
  | some w => simp [hv] at h; exact ⟨w, rfl, h⟩

/-- What `vecInsert` does. -/
theorem vecInsert_eval (grow : Nat → Nat) {lst : Path} {pos : LIter} {s : St α} {v : Vec α} (hv : s.roots.at lst = some v) (hl : pos.list = lst) (hp : pos.idx ≤ v.elems.length)
    {rest : List Nat} (hs : InUse s.mem (blocksVec s.roots ++ (blocksTree s.arg ++ rest))) :
    let n := if v.cap ≤ v.elems.length then 1 else 0
    (granted n s.mem.plan → ∃ s', vecInsert grow lst pos s = (.ok pos, s') ∧
      plainList s'.roots.elems = Trav.modify (fun l => l.insertIdx pos.idx (plainTree s.arg)) (plainList s.roots.elems) lst ∧
      InUse s'.mem (blocksVec s'.roots ++ (blocksTree s'.arg ++ rest)) ∧ s'.mem.plan = s.mem.plan.drop n ∧ blocksTree s'.arg = []) ∧
    (¬ granted n s.mem.plan → ∃ mem', vecInsert grow lst pos s = (.throw .bad_alloc, { s with mem := mem' }) ∧
      InUse mem' (blocksVec s.roots ++ (blocksTree s.arg ++ rest))) := by
  intro n
  unfold vecInsert
  simp only [Meth.get_bind, hv, hl, hp, and_self, if_true]
  by_cases hc : v.cap ≤ v.elems.length
  · have hn : n = 1 := if_pos hc
    rw [hn]
    simp only [Nat.not_lt.mpr hc, if_false]
    obtain ⟨a1, a2⟩ := alloc_acquires s.mem _ hs
    refine ⟨fun g => ?_, fun g => ?_⟩
    · obtain ⟨b, m1, e1, -, i1, p1⟩ := a1 g
      rw [Meth.bind_ok (inMem_eval e1)]
      simp only [Meth.get_bind, Meth.set_bind]
      have hcount := fun a => count_blocks_modify a (fun v => (⟨some b, max (grow v.elems.length) (v.elems.length + 1), v.elems.insertIdx pos.idx s.arg⟩ : Vec α)) s.roots lst v hv
      have i1' : InUse m1 (v.buf.toList ++ (blocksVec (s.roots.modify (fun v => (⟨some b, max (grow v.elems.length) (v.elems.length + 1), v.elems.insertIdx pos.idx s.arg⟩ : Vec α)) lst) ++
          (blocksTree (movedFrom s.arg) ++ rest))) := by
        refine inUse_perm i1 ?_
        rw [List.perm_iff_count]
        intro a
        have h1 := hcount a
        have h2 := count_blocksList_insertIdx a v.elems pos.idx s.arg hp
        simp only [blocks_movedFrom, blocksVec, List.count_append, Option.toList] at h1 h2 ⊢
        simp only [List.count_nil] at h1 ⊢
        omega
      obtain ⟨m2, e2, i2, p2⟩ := freeAll_releases _ m1 _ i1'
      refine ⟨_, by rw [Meth.bind_ok (inMem_eval e2)]; rfl, ?_, i2, by rw [← p1, ← p2], blocks_movedFrom _⟩
      exact modify_plain _ _ _ _ v hv (by simp only; rw [plainList_insertIdx])
    · obtain ⟨m1, e1, i1⟩ := a2 g
      exact ⟨m1, by rw [Meth.bind_throw (inMem_eval e1)], i1⟩
  · have hn : n = 0 := if_neg hc
    rw [hn]
    simp only [Nat.not_le.mp hc, if_true]
    refine ⟨fun _ => ?_, fun g => absurd (granted_zero _) g⟩
    refine ⟨_, rfl, ?_, ?_, rfl, blocks_movedFrom _⟩
    · exact modify_plain _ _ _ _ v hv (by simp only; rw [plainList_insertIdx])
    · refine inUse_perm hs ?_
      rw [List.perm_iff_count]
      intro a
      have h1 := count_blocks_modify a (fun v => { v with elems := v.elems.insertIdx pos.idx s.arg }) s.roots lst v hv
      have h2 := count_blocksList_insertIdx a v.elems pos.idx s.arg hp
      simp only [blocks_movedFrom, blocksVec, List.count_append] at h1 h2 ⊢
      simp only [List.count_nil] at h1 ⊢
      omega

/-- The operation without regard to memory. -/
def insertPlain (after : Bool) (f : List (Tree α)) (it : Iter) (t : Tree α) : Res (List (Tree α) × Iter) := if after then insert_after f it t else Trav.insert f it t

theorem advance_plain (v : Vec α) (iter : LIter) : advance v.elems iter 1 = advance (plainList v.elems) iter 1 := by
  unfold advance getList
  rw [listAt_plain]
  have : listAt v.elems iter.list = (v.at iter.list).map (·.elems) := by
    generalize iter.list = p
    induction p generalizing v with
    | nil => simp [listAt, Vec.at]
    | cons i p ih =>
      rw [listAt, Vec.at]
      cases v.elems[i]? with
      | none => simp
      | some t => simp only; rw [← ih (vecOf t)]; rfl
  rw [this]
  cases v.at iter.list with
  | none => rfl
  | some w => simp [plainList_length]

theorem res_bind_ok {β γ : Type} {r : Res β} {k : β → Res γ} {c : γ} (h : (r >>= k) = .ok c) : ∃ b, r = .ok b ∧ k b = .ok c := by
  cases r with
  | ok b => exact ⟨b, rfl, h⟩
  | _ => cases h

theorem setBack_inv {β : Type} {v w : List β} {x : β} (h : setBack v x = .ok w) : w = v.dropLast ++ [x] := by
  unfold setBack at h
  split at h
  · cases h
  · cases h; rfl

theorem insertPlain_inv {after : Bool} {v : Vec α} {i : Iter} {t : Tree α} {f : List (Tree α)} {it : Iter}
    (h : insertPlain after (plainList v.elems) i t = .ok (f, it)) :
    ∃ iter lst pos w is, back i.iter_stack = .ok iter ∧ back i.list_stack = .ok lst ∧ (if after then advance v.elems iter 1 else .ok iter) = .ok pos ∧
      v.at lst = some w ∧ pos.list = lst ∧ pos.idx ≤ w.elems.length ∧ setBack i.iter_stack pos = .ok is ∧
      f = Trav.modify (fun l => l.insertIdx pos.idx t) (plainList v.elems) lst ∧ it = ⟨i.list_stack, is⟩ := by
  have h' : (do
      let iter ← back i.iter_stack
      let lst ← back i.list_stack
      let pos ← (if after then advance (plainList v.elems) iter 1 else .ok iter)
      let (f', n) ← listInsert (plainList v.elems) lst pos t
      let is ← setBack i.iter_stack n
      return (f', (⟨i.list_stack, is⟩ : Iter))) = .ok (f, it) := by
    cases after <;> exact h
  obtain ⟨iter, h1, h'⟩ := res_bind_ok h'
  obtain ⟨lst, h2, h'⟩ := res_bind_ok h'
  obtain ⟨pos, h3, h'⟩ := res_bind_ok h'
  obtain ⟨⟨f', n⟩, h4, h'⟩ := res_bind_ok h'
  dsimp only at h'
  obtain ⟨is, h5, h'⟩ := res_bind_ok h'
  unfold listInsert at h4
  obtain ⟨l, h6, h4⟩ := res_bind_ok h4
  obtain ⟨w, hw, rfl⟩ := getList_plain h6
  split at h4
  · rename_i hc
    rw [plainList_length] at hc
    cases h4
    rw [h5] at h'
    cases h'
    refine ⟨iter, lst, pos, w, is, h1, h2, ?_, hw, hc.1, hc.2, h5, rfl, rfl⟩
    rw [advance_plain]; exact h3
  · cases h4

theorem full_eq {v w : Vec α} {i : Iter} {lst : Path} (h : back i.list_stack = .ok lst) (hw : v.at lst = some w) : full v i = decide (w.cap ≤ w.elems.length) := by
  simp [full, back_ok h, hw]

theorem onFail_ok {σ β : Type} {m : Meth σ β} {c : Meth σ Unit} {s s' : σ} {b : β} (h : m s = (.ok b, s')) : onFail m c s = (.ok b, s') := by
  simp [onFail, h]
theorem onFail_throw {σ β : Type} {m : Meth σ β} {c : Meth σ Unit} {s s' s'' : σ} {e : Err} (h : m s = (.throw e, s')) (hc : c s' = (.ok (), s'')) :
    onFail m c s = (.throw e, s'') := by
  simp [onFail, h, hc]

theorem insertMove_eval (after : Bool) (grow : Nat → Nat) (i : It) {s : St α} {f : List (Tree α)} {it : Iter}
    (h : insertPlain after (plainList s.roots.elems) i.it (plainTree s.arg) = .ok (f, it)) {rest : List Nat}
    (hs : InUse s.mem (blocksVec s.roots ++ (blocksTree s.arg ++ (i.mem ++ rest)))) :
    AllOrNothing (insertMove after grow i) (requestsInsert s.roots i.it) s f it rest true := by
  obtain ⟨iter, lst, pos, w, is, h1, h2, h3, hw, hl, hp, h5, rfl, rfl⟩ := insertPlain_inv h
  have hn : requestsInsert s.roots i.it = if w.cap ≤ w.elems.length then 1 else 0 := by simp [requestsInsert, full_eq h2 hw]
  obtain ⟨a1, a2⟩ := vecInsert_eval grow hw hl hp hs
  rw [hn]
  unfold insertMove
  refine ⟨fun g => ?_, fun g => ?_⟩
  · obtain ⟨s', e, hf, hu, hpl, harg⟩ := a1 g
    refine ⟨⟨⟨i.it.list_stack, is⟩, i.mem⟩, s', ?_, hf, rfl, hu, hpl, harg⟩
    apply onFail_ok
    simp only [h1, h2, Meth.lift_ok_bind, Meth.get_bind, h3]
    rw [Meth.bind_ok e, h5]; rfl
  · obtain ⟨m', e, hu⟩ := a2 g
    have hu' : InUse m' (i.mem ++ (blocksVec s.roots ++ (blocksTree s.arg ++ rest))) := by
      refine inUse_perm hu ?_
      rw [List.perm_iff_count]
      intro a
      simp only [List.count_append]
      omega
    obtain ⟨m2, e2, i2, -⟩ := freeAll_releases _ m' _ hu'
    refine ⟨m2, ?_, i2⟩
    refine onFail_throw (s' := { s with mem := m' }) ?_ (inMem_eval e2)
    simp only [h1, h2, Meth.lift_ok_bind, Meth.get_bind, h3]
    rw [Meth.bind_throw e]

/-- The parameter is a copy of the iterator. -/
theorem withIt_keep {call : It → Meth (St α) It} {n : Nat} {i : It} {s : St α} {f : List (Tree α)} {it : Iter} {rest : List Nat} {c : Bool}
    (h1 : i.it.list_stack ≠ []) (h2 : i.it.iter_stack ≠ []) (hs : InUse s.mem (blocksVec s.roots ++ (blocksTree s.arg ++ (i.mem ++ rest))))
    (hcall : ∀ j mem', j.it = i.it → InUse mem' (blocksVec s.roots ++ (blocksTree s.arg ++ (j.mem ++ (i.mem ++ rest)))) →
      AllOrNothing (call j) n { s with mem := mem' } f it (i.mem ++ rest) c) :
    AllOrNothing (withIt true i call) (2 + n) s f it (i.mem ++ rest) c := by
  unfold AllOrNothing
  rw [granted_add]
  obtain ⟨a1, a2⟩ := copyIt_acquires i h1 h2 s.mem _ hs
  unfold withIt
  simp only [if_true]
  by_cases g1 : granted 2 s.mem.plan
  · obtain ⟨j, m1, e1, hj, i1, p1⟩ := a1 g1
    have i1' : InUse m1 (blocksVec s.roots ++ (blocksTree s.arg ++ (j.mem ++ (i.mem ++ rest)))) := by
      refine inUse_perm i1 ?_
      rw [List.perm_iff_count]
      intro a
      simp only [List.count_append]
      omega
    obtain ⟨b1, b2⟩ := hcall j m1 hj i1'
    simp only [p1] at b1 b2
    rw [Meth.bind_ok (inMem_eval e1)]
    refine ⟨fun g => ?_, fun g => ?_⟩
    · obtain ⟨k, s', e, x1, x2, x3, x4, x5⟩ := b1 g.2
      exact ⟨k, s', e, x1, x2, x3, by rw [x4, List.drop_drop], x5⟩
    · exact b2 (fun h => g ⟨g1, h⟩)
  · refine ⟨fun g => absurd g.1 g1, fun _ => ?_⟩
    obtain ⟨m1, e1, i1⟩ := a2 g1
    exact ⟨m1, by rw [Meth.bind_throw (inMem_eval e1)], i1⟩

theorem withTemp_eval {m : Meth (St α) It} {n : Nat} {u : MTree α} {s : St α} {f : List (Tree α)} {it : Iter} {rest : List Nat}
    (h : AllOrNothing m n { s with arg := u } f it (blocksTree s.arg ++ rest) true) :
    AllOrNothing (withTemp u m) n s f it rest false := by
  obtain ⟨a1, a2⟩ := h
  refine ⟨fun g => ?_, fun g => ?_⟩
  · obtain ⟨j, s', e, x1, x2, x3, x4, x5⟩ := a1 g
    have x3' : InUse s'.mem (blocksTree s'.arg ++ (blocksVec s'.roots ++ (blocksTree s.arg ++ (j.mem ++ rest)))) := by
      refine inUse_perm x3 ?_
      rw [List.perm_iff_count]
      intro a
      simp only [List.count_append]
      omega
    obtain ⟨m2, e2, i2, p2⟩ := destroyTree_releases _ s'.mem _ x3'
    refine ⟨j, { s' with arg := s.arg, mem := m2 }, ?_, x1, x2, i2, by rw [← x4, ← p2], rfl⟩
    simp only [withTemp, e, e2]
  · obtain ⟨m1, e, i1⟩ := a2 g
    have i1' : InUse m1 (blocksTree u ++ (blocksVec s.roots ++ (blocksTree s.arg ++ rest))) := by
      refine inUse_perm i1 ?_
      rw [List.perm_iff_count]
      intro a
      simp only [List.count_append]
      omega
    obtain ⟨m2, e2, i2, -⟩ := destroyTree_releases _ m1 _ i1'
    refine ⟨m2, ?_, i2⟩
    simp only [withTemp, e, e2]

theorem pair_eval {A B : Type} {m1 : Meth Mem A} {m2 : Meth Mem B} {n1 n2 n : Nat} {own1 : A → List Nat} {own2 : B → List Nat} {good1 : A → Prop} {good2 : B → Prop}
    (h1 : Acquires m1 n1 own1 good1) (h2 : Acquires m2 n2 own2 good2) {r : A → Meth Mem Unit} (hr : ∀ a, good1 a → Releases (r a) (own1 a)) {k : A → B → Meth (St α) It}
    {s : St α} {f : List (Tree α)} {it : Iter} {rest : List Nat} {c : Bool} (hs : InUse s.mem (blocksVec s.roots ++ (blocksTree s.arg ++ rest)))
    (hk : ∀ a b mem', good1 a → good2 b → InUse mem' (blocksVec s.roots ++ (blocksTree s.arg ++ (own1 a ++ (own2 b ++ rest)))) →
      AllOrNothing (k a b) n { s with mem := mem' } f it rest c) :
    AllOrNothing (do let a ← inMem m1; let b ← onFail (inMem m2) (inMem (r a)); k a b) (n1 + n2 + n) s f it rest c := by
  unfold AllOrNothing
  rw [granted_add, granted_add]
  obtain ⟨a1, a2⟩ := h1 s.mem _ hs
  by_cases g1 : granted n1 s.mem.plan
  · obtain ⟨a, m1', e1, ga, i1, p1⟩ := a1 g1
    obtain ⟨b1, b2⟩ := h2 m1' _ i1
    rw [Meth.bind_ok (inMem_eval e1)]
    by_cases g2 : granted n2 (s.mem.plan.drop n1)
    · obtain ⟨b, m2', e2, gb, i2, p2⟩ := b1 (p1 ▸ g2)
      rw [Meth.bind_ok (onFail_ok (inMem_eval e2))]
      have i2' : InUse m2' (blocksVec s.roots ++ (blocksTree s.arg ++ (own1 a ++ (own2 b ++ rest)))) := by
        refine inUse_perm i2 ?_
        rw [List.perm_iff_count]
        intro a
        simp only [List.count_append]
        omega
      obtain ⟨c1, c2⟩ := hk a b m2' ga gb i2'
      simp only [p2, p1, List.drop_drop] at c1 c2
      refine ⟨fun g => c1 g.2, fun g => c2 (fun h => g ⟨⟨g1, g2⟩, h⟩)⟩
    · refine ⟨fun g => absurd g.1.2 g2, fun _ => ?_⟩
      obtain ⟨m2', e2, i2⟩ := b2 (p1 ▸ g2)
      obtain ⟨m3, e3, i3, -⟩ := hr a ga m2' _ i2
      refine ⟨m3, ?_, i3⟩
      rw [Meth.bind_throw (onFail_throw (inMem_eval e2) (inMem_eval e3))]
  · refine ⟨fun g => absurd g.1.1 g1, fun _ => ?_⟩
    obtain ⟨m1', e1, i1⟩ := a2 g1
    exact ⟨m1', by rw [Meth.bind_throw (inMem_eval e1)], i1⟩

theorem insertCopy_eval (after itFirst : Bool) (grow : Nat → Nat) (i : It) (t : MTree α) {s : St α} {f : List (Tree α)} {it : Iter}
    (h : insertPlain after (plainList s.roots.elems) i.it (plainTree t) = .ok (f, it)) {rest : List Nat}
    (hs : InUse s.mem (blocksVec s.roots ++ (blocksTree s.arg ++ (i.mem ++ rest)))) :
    AllOrNothing (insertCopy after itFirst grow i t) (2 + requestsTree t + requestsInsert s.roots i.it) s f it rest false := by
  obtain ⟨iter, lst, -, -, -, h1, h2, -⟩ := insertPlain_inv h
  have n1 : i.it.list_stack ≠ [] := by intro e; simp [e, back] at h2
  have n2 : i.it.iter_stack ≠ [] := by intro e; simp [e, back] at h1
  have key : ∀ j u mem', j.it = i.it → plainTree u = plainTree t → InUse mem' (blocksVec s.roots ++ (blocksTree s.arg ++ (j.mem ++ (blocksTree u ++ (i.mem ++ rest))))) →
      AllOrNothing (withTemp u (insertMove after grow j)) (requestsInsert s.roots i.it) { s with mem := mem' } f it (i.mem ++ rest) false := by
    intro j u mem' hj hu hm
    apply withTemp_eval
    rw [← hj]
    refine insertMove_eval (s := { mem := mem', roots := s.roots, arg := u }) after grow j ?_ ?_
    · simp only [hj, hu]; exact h
    · refine inUse_perm hm ?_
      rw [List.perm_iff_count]
      intro a
      simp only [List.count_append]
      omega
  have inner : AllOrNothing (if itFirst then do
      let j ← inMem (copyIt i)
      let u ← onFail (inMem (copyTree t)) (inMem (freeAll j.mem))
      withTemp u (insertMove after grow j)
    else do
      let u ← inMem (copyTree t)
      let j ← onFail (inMem (copyIt i)) (inMem (destroyTree u))
      withTemp u (insertMove after grow j)) (2 + requestsTree t + requestsInsert s.roots i.it) s f it (i.mem ++ rest) false := by
    cases itFirst with
    | true =>
      rw [if_pos rfl]
      exact pair_eval (copyIt_acquires i n1 n2) (copyTree_acquires t) (r := fun j => freeAll j.mem) (fun _ _ => freeAll_releases _) hs (fun j u mem' hj hu hm => key j u mem' hj hu hm)
    | false =>
      rw [if_neg (by decide), Nat.add_comm 2]
      refine pair_eval (copyTree_acquires t) (copyIt_acquires i n1 n2) (r := destroyTree) (fun _ _ => destroyTree_releases _) hs (fun u j mem' hu hj hm => key j u mem' hj hu (inUse_perm hm ?_))
      rw [List.perm_iff_count]
      intro a
      simp only [List.count_append]
      omega
  unfold insertCopy
  refine ⟨fun g => ?_, fun g => ?_⟩
  · obtain ⟨j, s', e, x1, x2, x3, x4, x5⟩ := inner.1 g
    have x3' : InUse s'.mem (i.mem ++ (blocksVec s'.roots ++ (blocksTree s'.arg ++ (j.mem ++ rest)))) := by
      refine inUse_perm x3 ?_
      rw [List.perm_iff_count]
      intro a
      simp only [List.count_append]
      omega
    obtain ⟨m2, e2, i2, p2⟩ := freeAll_releases _ s'.mem _ x3'
    refine ⟨j, { s' with mem := m2 }, ?_, x1, x2, i2, by rw [← x4, ← p2], x5⟩
    rw [Meth.bind_ok (onFail_ok e), Meth.bind_ok (inMem_eval e2)]; rfl
  · obtain ⟨m1, e, i1⟩ := inner.2 g
    have i1' : InUse m1 (i.mem ++ (blocksVec s.roots ++ (blocksTree s.arg ++ rest))) := by
      refine inUse_perm i1 ?_
      rw [List.perm_iff_count]
      intro a
      simp only [List.count_append]
      omega
    obtain ⟨m2, e2, i2, -⟩ := freeAll_releases _ m1 _ i1'
    refine ⟨m2, ?_, i2⟩
    rw [Meth.bind_throw (onFail_throw e (inMem_eval e2))]

theorem listAt_elems (v : Vec α) (p : Path) : listAt v.elems p = (v.at p).map (·.elems) := by
  induction p generalizing v with
  | nil => simp [listAt, Vec.at]
  | cons i p ih =>
    rw [listAt, Vec.at]
    cases v.elems[i]? with
    | none => simp
    | some t => simp only; rw [← ih (vecOf t)]; rfl

theorem endOf_plain (v : Vec α) (p : Path) : endOf v.elems p = endOf (plainList v.elems) p := by
  unfold endOf getList
  rw [listAt_plain, listAt_elems]
  cases v.at p <;> simp [plainList_length]

theorem eraseLoop_plain (dbg : Bool) (v : Vec α) (fuel : Nat) (it : Iter) : eraseLoop dbg v.elems fuel it = eraseLoop dbg (plainList v.elems) fuel it := by
  induction fuel generalizing it with
  | zero => rfl
  | succ n ih =>
    unfold eraseLoop
    simp only [endOf_plain, advance_plain, ih]

theorem erase_inv {dbg : Bool} {v : Vec α} {i : Iter} {f : List (Tree α)} {it : Iter} (h : erase dbg (plainList v.elems) i = .ok (f, it)) :
    ∃ iter lst w t is, back i.iter_stack = .ok iter ∧ back i.list_stack = .ok lst ∧ v.at lst = some w ∧ iter.list = lst ∧ w.elems[iter.idx]? = some t ∧
      setBack i.iter_stack iter = .ok is ∧ f = Trav.modify (fun l => l.eraseIdx iter.idx) (plainList v.elems) lst ∧
      eraseLoop dbg f (is.length + 1) ⟨i.list_stack, is⟩ = .ok it := by
  unfold erase at h
  obtain ⟨iter, h1, h⟩ := res_bind_ok h
  obtain ⟨lst, h2, h⟩ := res_bind_ok h
  obtain ⟨⟨f', n⟩, h4, h⟩ := res_bind_ok h
  unfold listErase at h4
  obtain ⟨l, h6, h4⟩ := res_bind_ok h4
  obtain ⟨w, hw, rfl⟩ := getList_plain h6
  split at h4
  · rename_i hc
    rw [plainList_length] at hc
    cases h4
    obtain ⟨is, h5, h⟩ := res_bind_ok h
    obtain ⟨r, h7, h⟩ := res_bind_ok h
    cases h
    exact ⟨iter, lst, w, w.elems[iter.idx]'hc.2, is, h1, h2, hw, hc.1, List.getElem?_eq_getElem hc.2, h5, rfl, h7⟩
  · cases h4

theorem eraseM_eval (dbg : Bool) (i : It) {s : St α} {f : List (Tree α)} {it : Iter}
    (h : erase dbg (plainList s.roots.elems) i.it = .ok (f, it)) {rest : List Nat}
    (hs : InUse s.mem (blocksVec s.roots ++ (blocksTree s.arg ++ (i.mem ++ rest)))) :
    AllOrNothing (eraseM dbg i) 0 s f it rest false := by
  obtain ⟨iter, lst, w, t, is, h1, h2, hw, hl, ht, h5, rfl, h7⟩ := erase_inv h
  refine ⟨fun _ => ?_, fun g => absurd (granted_zero _) g⟩
  have hm := modify_plain (fun v => { v with elems := v.elems.eraseIdx iter.idx }) (fun l => l.eraseIdx iter.idx) s.roots lst w hw (by simp only; rw [plainList_eraseIdx])
  have hu : InUse s.mem (blocksTree t ++ (blocksVec (s.roots.modify (fun v => { v with elems := v.elems.eraseIdx iter.idx }) lst) ++ (blocksTree s.arg ++ (i.mem ++ rest)))) := by
    refine inUse_perm hs ?_
    rw [List.perm_iff_count]
    intro a
    have h1 := count_blocks_modify a (fun v => { v with elems := v.elems.eraseIdx iter.idx }) s.roots lst w hw
    have h2 := count_blocksList_eraseIdx a w.elems iter.idx t ht
    simp only [blocksVec, List.count_append] at h1 h2 ⊢
    omega
  obtain ⟨m1, e1, i1, p1⟩ := destroyTree_releases t s.mem _ hu
  refine ⟨⟨it, i.mem⟩, { s with mem := m1, roots := s.roots.modify (fun v => { v with elems := v.elems.eraseIdx iter.idx }) lst }, ?_, hm, rfl, i1, by simpa using p1, rfl⟩
  apply onFail_ok
  simp only [h1, h2, Meth.lift_ok_bind]
  have e : vecErase lst iter s = (.ok iter, { s with mem := m1, roots := s.roots.modify (fun v => { v with elems := v.elems.eraseIdx iter.idx }) lst }) := by
    unfold vecErase
    simp only [Meth.get_bind, hw, ht, hl, if_true, Meth.set_bind]
    rw [Meth.bind_ok (inMem_eval (s := { s with roots := s.roots.modify (fun v => { v with elems := v.elems.eraseIdx iter.idx }) lst }) e1)]
    rfl
  rw [Meth.bind_ok e, h5]
  simp only [Meth.lift_ok_bind, Meth.get_bind]
  rw [eraseLoop_plain, hm, h7]; rfl

/-- A call with a copy of the iterator, or with the iterator itself. -/
theorem withIt_insertMove (keep after : Bool) (grow : Nat → Nat) (i : It) {s : St α} {f : List (Tree α)} {it : Iter}
    (h : insertPlain after (plainList s.roots.elems) i.it (plainTree s.arg) = .ok (f, it)) {rest : List Nat}
    (hs : InUse s.mem (blocksVec s.roots ++ (blocksTree s.arg ++ (i.mem ++ rest)))) :
    AllOrNothing (withIt keep i (insertMove after grow)) ((if keep then 2 else 0) + requestsInsert s.roots i.it) s f it (if keep then i.mem ++ rest else rest) true := by
  obtain ⟨iter, lst, -, -, -, h1, h2, -⟩ := insertPlain_inv h
  have n1 : i.it.list_stack ≠ [] := by intro e; simp [e, back] at h2
  have n2 : i.it.iter_stack ≠ [] := by intro e; simp [e, back] at h1
  cases keep with
  | false =>
    simp only [Bool.false_eq_true, if_false, Nat.zero_add, withIt]
    exact insertMove_eval after grow i h hs
  | true =>
    simp only [if_true]
    refine withIt_keep n1 n2 hs (fun j mem' hj hm => ?_)
    rw [← hj]
    exact insertMove_eval (s := { s with mem := mem' }) after grow j (by rw [hj]; exact h) hm

theorem withIt_insertCopy (keep after itFirst : Bool) (grow : Nat → Nat) (i : It) (t : MTree α) {s : St α} {f : List (Tree α)} {it : Iter}
    (h : insertPlain after (plainList s.roots.elems) i.it (plainTree t) = .ok (f, it)) {rest : List Nat}
    (hs : InUse s.mem (blocksVec s.roots ++ (blocksTree s.arg ++ (i.mem ++ rest)))) :
    AllOrNothing (withIt keep i (insertCopy after itFirst grow · t)) ((if keep then 2 else 0) + (2 + requestsTree t + requestsInsert s.roots i.it)) s f it
      (if keep then i.mem ++ rest else rest) false := by
  obtain ⟨iter, lst, -, -, -, h1, h2, -⟩ := insertPlain_inv h
  have n1 : i.it.list_stack ≠ [] := by intro e; simp [e, back] at h2
  have n2 : i.it.iter_stack ≠ [] := by intro e; simp [e, back] at h1
  cases keep with
  | false =>
    simp only [Bool.false_eq_true, if_false, Nat.zero_add, withIt]
    exact insertCopy_eval after itFirst grow i t h hs
  | true =>
    simp only [if_true]
    refine withIt_keep n1 n2 hs (fun j mem' hj hm => ?_)
    rw [← hj]
    exact insertCopy_eval (s := { s with mem := mem' }) after itFirst grow j t (by rw [hj]; exact h) hm

theorem withIt_erase (keep dbg : Bool) (i : It) {s : St α} {f : List (Tree α)} {it : Iter} (h : erase dbg (plainList s.roots.elems) i.it = .ok (f, it)) {rest : List Nat}
    (hs : InUse s.mem (blocksVec s.roots ++ (blocksTree s.arg ++ (i.mem ++ rest)))) :
    AllOrNothing (withIt keep i (eraseM dbg)) (if keep then 2 else 0) s f it (if keep then i.mem ++ rest else rest) false := by
  obtain ⟨iter, lst, -, -, -, h1, h2, -⟩ := erase_inv h
  have n1 : i.it.list_stack ≠ [] := by intro e; simp [e, back] at h2
  have n2 : i.it.iter_stack ≠ [] := by intro e; simp [e, back] at h1
  cases keep with
  | false =>
    simp only [Bool.false_eq_true, if_false, withIt]
    exact eraseM_eval dbg i h hs
  | true =>
    simp only [if_true]
    refine withIt_keep (n := 0) n1 n2 hs (fun j mem' hj hm => ?_)
    exact eraseM_eval (s := { s with mem := mem' }) dbg j (by rw [hj]; exact h) hm

/-- C132: copying a tree asks for memory once for each node with children and as often as its values do. If all requests succeed, the copy has the same values and shape and owns blocks of its own;
otherwise `std::bad_alloc` is thrown and everything requested has been given back. -/
theorem C132_copy (t : MTree α) {m : Mem} {others : List Nat} (h : InUse m others) :
    (granted (requestsTree t) m.plan → ∃ u m', copyTree t m = (.ok u, m') ∧ plainTree u = plainTree t ∧ InUse m' (blocksTree u ++ others)) ∧
    (¬ granted (requestsTree t) m.plan → ∃ m', copyTree t m = (.throw .bad_alloc, m') ∧ InUse m' others) := by
  obtain ⟨a1, a2⟩ := copyTree_acquires t m others h
  exact ⟨fun g => by obtain ⟨u, m', h1, h2, h3, _⟩ := a1 g; exact ⟨u, m', h1, h2, h3⟩, a2⟩

/-- C132: destroying a tree gives back every block it owns, once. -/
theorem C132_destroy (t : MTree α) {m : Mem} {others : List Nat} (h : InUse m (blocksTree t ++ others)) :
    ∃ m', destroyTree t m = (.ok (), m') ∧ InUse m' others := by
  obtain ⟨m', h1, h2, _⟩ := destroyTree_releases t m others h
  exact ⟨m', h1, h2⟩

/-- C132: `insert(i, std::move(t))` inserts the tree as C41 says, or throws and leaves the trees as they were. -/
theorem C132_insert (keep : Bool) (grow : Nat → Nat) (s : St α) (n : Nat) (i : It) (h : At (plainList s.roots.elems) n i.it) {others : List Nat}
    (hs : InUse s.mem (blocksVec s.roots ++ (blocksTree s.arg ++ (i.mem ++ others)))) :
    ∃ f it, outline f = (outline (plainList s.roots.elems)).take n ++ outlineTree (depth i.it) (plainTree s.arg) ++ (outline (plainList s.roots.elems)).drop n ∧ At f n it ∧
      AllOrNothing (withIt keep i (insertMove false grow)) ((if keep then 2 else 0) + requestsInsert s.roots i.it) s f it (if keep then i.mem ++ others else others) true := by
  obtain ⟨f, it, h1, h2, h3, -⟩ := C41_insert _ n i.it (plainTree s.arg) h
  exact ⟨f, it, h2, h3, withIt_insertMove keep false grow i h1 hs⟩

/-- C132: `insert(i, t)` inserts a copy of the tree, or throws and leaves the trees as they were. -/
theorem C132_insert_copy (keep itFirst : Bool) (grow : Nat → Nat) (s : St α) (n : Nat) (i : It) (t : MTree α) (h : At (plainList s.roots.elems) n i.it) {others : List Nat}
    (hs : InUse s.mem (blocksVec s.roots ++ (blocksTree s.arg ++ (i.mem ++ others)))) :
    ∃ f it, outline f = (outline (plainList s.roots.elems)).take n ++ outlineTree (depth i.it) (plainTree t) ++ (outline (plainList s.roots.elems)).drop n ∧ At f n it ∧
      AllOrNothing (withIt keep i (insertCopy false itFirst grow · t)) ((if keep then 2 else 0) + (2 + requestsTree t + requestsInsert s.roots i.it)) s f it
        (if keep then i.mem ++ others else others) false := by
  obtain ⟨f, it, h1, h2, h3, -⟩ := C41_insert _ n i.it (plainTree t) h
  exact ⟨f, it, h2, h3, withIt_insertCopy keep false itFirst grow i t h1 hs⟩

/-- C132: the same for `insert_after(i, std::move(t))`. -/
theorem C132_insert_after (keep : Bool) (grow : Nat → Nat) (s : St α) (n : Nat) (i : It) (u : Tree α) (h : At (plainList s.roots.elems) n i.it)
    (hu : star (plainList s.roots.elems) i.it = .ok u) (hn : n < (nodes (plainList s.roots.elems)).length) {others : List Nat}
    (hs : InUse s.mem (blocksVec s.roots ++ (blocksTree s.arg ++ (i.mem ++ others)))) :
    ∃ f it, outline f = (outline (plainList s.roots.elems)).take (n + (outlineTree 0 u).length) ++ outlineTree (depth i.it) (plainTree s.arg) ++
        (outline (plainList s.roots.elems)).drop (n + (outlineTree 0 u).length) ∧ At f (n + (outlineTree 0 u).length) it ∧
      AllOrNothing (withIt keep i (insertMove true grow)) ((if keep then 2 else 0) + requestsInsert s.roots i.it) s f it (if keep then i.mem ++ others else others) true := by
  obtain ⟨f, it, h1, h2, h3, -⟩ := C41_insert_after _ n i.it (plainTree s.arg) u h hu hn
  exact ⟨f, it, h2, h3, withIt_insertMove keep true grow i h1 hs⟩

/-- C132: the same for `insert_after(i, t)`. -/
theorem C132_insert_after_copy (keep itFirst : Bool) (grow : Nat → Nat) (s : St α) (n : Nat) (i : It) (t : MTree α) (u : Tree α) (h : At (plainList s.roots.elems) n i.it)
    (hu : star (plainList s.roots.elems) i.it = .ok u) (hn : n < (nodes (plainList s.roots.elems)).length) {others : List Nat}
    (hs : InUse s.mem (blocksVec s.roots ++ (blocksTree s.arg ++ (i.mem ++ others)))) :
    ∃ f it, outline f = (outline (plainList s.roots.elems)).take (n + (outlineTree 0 u).length) ++ outlineTree (depth i.it) (plainTree t) ++
        (outline (plainList s.roots.elems)).drop (n + (outlineTree 0 u).length) ∧ At f (n + (outlineTree 0 u).length) it ∧
      AllOrNothing (withIt keep i (insertCopy true itFirst grow · t)) ((if keep then 2 else 0) + (2 + requestsTree t + requestsInsert s.roots i.it)) s f it
        (if keep then i.mem ++ others else others) false := by
  obtain ⟨f, it, h1, h2, h3, -⟩ := C41_insert_after _ n i.it (plainTree t) u h hu hn
  exact ⟨f, it, h2, h3, withIt_insertCopy keep true itFirst grow i t h1 hs⟩

/-- C132: `erase(i)` asks for memory only to pass the iterator; then it cannot fail. It gives back what the erased subtree owned. -/
theorem C132_erase (keep dbg : Bool) (s : St α) (n : Nat) (i : It) (u : Tree α) (h : At (plainList s.roots.elems) n i.it)
    (hu : star (plainList s.roots.elems) i.it = .ok u) (hn : n < (nodes (plainList s.roots.elems)).length) {others : List Nat}
    (hs : InUse s.mem (blocksVec s.roots ++ (blocksTree s.arg ++ (i.mem ++ others)))) :
    ∃ f it, outline f = (outline (plainList s.roots.elems)).take n ++ (outline (plainList s.roots.elems)).drop (n + (outlineTree 0 u).length) ∧ At f n it ∧
      AllOrNothing (withIt keep i (eraseM dbg)) (if keep then 2 else 0) s f it (if keep then i.mem ++ others else others) false := by
  obtain ⟨f, it, h1, h2, h3⟩ := C42_erase dbg _ n i.it u h hu hn
  exact ⟨f, it, h2, h3, withIt_erase keep dbg i h1 hs⟩

/-! ### Examples -/

/-- Roots `a(b(c), d)` with strings that own memory for a and c; the vectors of the roots and of a are full, that of b is not. -/
def allocRoots : Vec Nat := ⟨some 0, 1, [.node ⟨10, [1], some 2, 2⟩ [.node ⟨11, [], some 3, 4⟩ [.node ⟨12, [4], none, 0⟩ []], .node ⟨13, [], none, 0⟩ []]]⟩
/-- The tree to be inserted. -/
def allocArg : MTree Nat := .node ⟨20, [5], some 6, 1⟩ [.node ⟨21, [], none, 0⟩ []]
/-- An iterator to d. -/
def allocIt : It := ⟨⟨[[], [0]], [⟨[], 0⟩, ⟨[0], 1⟩]⟩, [7, 8]⟩
/-- The memory, with which requests succeed. -/
def allocSt (plan : List Bool) : St Nat := ⟨⟨plan, [8, 7, 6, 5, 4, 3, 2, 1, 0, 9], 10⟩, allocRoots, allocArg⟩

/-- The hypotheses hold for it, with one more block, number 9, in use. -/
example (plan : List Bool) : InUse (allocSt plan).mem (blocksVec allocRoots ++ (blocksTree allocArg ++ (allocIt.mem ++ [9]))) := by
  refine ⟨⟨?_, ?_⟩, ?_⟩
  · show [8, 7, 6, 5, 4, 3, 2, 1, 0, 9].Nodup; decide
  · show ∀ b ∈ [8, 7, 6, 5, 4, 3, 2, 1, 0, 9], b < 10; decide
  · show [8, 7, 6, 5, 4, 3, 2, 1, 0, 9].Perm _; decide
example : At (plainList allocRoots.elems) 3 allocIt.it := ⟨[0, 1], by decide +kernel, rfl⟩
example : index true allocIt.it = .ok [0, 1] := by decide +kernel
example : requestsInsert allocRoots allocIt.it = 1 ∧ requestsTree allocArg = 2 := by decide +kernel
/-- The third of three requests fails: nothing has changed but what the requests took from the plan. -/
example : ((withIt true allocIt (insertMove false (· * 2)) (allocSt [true, true, false])).1 = .throw .bad_alloc) ∧
    (withIt true allocIt (insertMove false (· * 2)) (allocSt [true, true, false])).2.mem = ⟨[], [8, 7, 6, 5, 4, 3, 2, 1, 0, 9], 12⟩ := by decide +kernel
/-- With all of them the vector has a new buffer, number 12. -/
example : ((withIt true allocIt (insertMove false (· * 2)) (allocSt [true, true, true])).1 = .ok ⟨allocIt.it, [10, 11]⟩) ∧
    (withIt true allocIt (insertMove false (· * 2)) (allocSt [true, true, true])).2.mem = ⟨[], [12, 11, 10, 8, 7, 6, 5, 4, 3, 1, 0, 9], 13⟩ := by decide +kernel

end Utki
