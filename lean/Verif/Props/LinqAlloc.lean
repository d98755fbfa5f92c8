import Verif.Lemmas.LinqAlloc
import Verif.Props.Linq
/-! # `linq` when memory runs out (C135) -/
namespace Utki
open Spec TreeAlloc LinqAlloc
namespace LinqAlloc
variable {α β κ : Type}

theorem blocksBuf_none : blocksBuf (Buf.none : Buf α) = [] := rfl

theorem groupByLoop_fold (konst : Bool) (moved : α → α) (lt : κ → κ → Bool) (f : α → κ) (c : List α) : ∀ o : Linq.Out α (κ × List α),
    (Linq.groupByLoop konst moved lt ⟨f, false⟩ c o).ret = c.foldl (fun m v => OMap.upsert lt (f v) [] (fun g => g ++ [v]) m) o.ret := by
  induction c with
  | nil => intro o; rfl
  | cons v c ih => intro o; exact ih _

theorem takenFrom_const (moved : α → α) (takes : α → Bool) (a : List (Obj α)) : takenFrom true moved takes a = a := by simp [takenFrom]

/-- `copy_if` into a new vector, whichever elements are taken. -/
theorem collect_eval (konst : Bool) (moved : α → α) (grow : Nat → Nat) (f : α → Bool) (s : LSt α (Buf α)) (others : List Nat) (h : InUse s.mem (blocksBuf s.src ++ others)) :
    AllOrRest (where_ konst moved grow f) blocksBuf (fun ret => valuesOf ret.elems = (valuesOf s.src.elems).filter f) konst moved f s others := by
  rcases whereLoop_eval konst moved grow f s.src.elems [] ⟨s.mem, s.src, Buf.none⟩ others rfl rfl h with ⟨s', k1, k2, k3, k4⟩ | ⟨s', d, rest, k1, k2, k3, k4, k5⟩
  · exact .inl ⟨s', by unfold where_; rw [Meth.get_bind, Meth.set_bind, onFail]; simp only [List.length_nil] at k1; rw [k1], k2, k3, k4⟩
  · obtain ⟨m2, e2, i2⟩ := dropRet_eval s' _ k5
    refine .inr ⟨⟨m2, s'.src, Buf.none⟩, d, rest, ?_, k2, rfl, k3, k4, i2⟩
    unfold where_
    simp only [List.length_nil] at k1
    rw [Meth.get_bind, Meth.set_bind, onFail, k1]
    simp only [e2]

theorem sort_ordering {lt : κ → κ → Bool} (o : StrictTotalOrder lt) (key : α → κ) (sort : List (Obj α) → List (Obj α))
    (hs : SortContract (fun a b => lt (key a.val) (key b.val)) sort) (os : List (Obj α)) : IsOrdering lt key (valuesOf os) (valuesOf (sort os)) := by
  constructor
  · exact (hs os).1.map _
  · have hw : StrictWeakOrder (fun a b : Obj α => lt (key a.val) (key b.val)) := comparer_swo o (fun a : Obj α => key a.val)
    have := (hs os).2 hw
    unfold Sorted at this
    unfold valuesOf
    rw [List.pairwise_map]
    exact this

theorem selectLoop_once (grow : Nat → Nat) (g : α → β) (todo : List (Obj α)) : ∀ s : LSt α (Buf β), s.ret.elems.length + todo.length ≤ s.ret.cap →
    selectLoop grow (fun v => pure ⟨g v, []⟩) todo s = (.ok (), ⟨s.mem, s.src, { s.ret with elems := s.ret.elems ++ todo.map (fun o => ⟨g o.val, []⟩) }⟩) := by
  induction todo with
  | nil => intro s _; simp [selectLoop]
  | cons e es ih =>
    intro s h
    simp only [List.length_cons] at h
    have e1 : onFail (inMemL (pushBack grow s.ret (pure (⟨g e.val, []⟩ : Obj β)))) (inMemL (freeAll [])) s =
        (.ok { s.ret with elems := s.ret.elems ++ [⟨g e.val, []⟩] }, s) := by
      have : s.ret.elems.length < s.ret.cap := by omega
      unfold pushBack
      rw [if_pos this]
      rfl
    have e0 : inMemL (pure (⟨g e.val, []⟩ : Obj β)) s = (.ok ⟨g e.val, []⟩, s) := rfl
    rw [selectLoop, Meth.bind_ok e0, Meth.get_bind, Meth.bind_ok e1, Meth.get_bind, Meth.set_bind, ih _ (by simp; omega)]
    simp

end LinqAlloc
variable {α β κ : Type}

/-- C135: `where` gives the elements that satisfy the function, or fails since memory ran out and then leaves no memory in use but that of the collection, whose elements have been taken up to some
point; an lvalue is as it was in both cases. -/
theorem C135_where (konst : Bool) (moved : α → α) (grow : Nat → Nat) (f : α → Bool) (s : LSt α (Buf α)) (others : List Nat) (h : InUse s.mem (blocksBuf s.src ++ others)) :
    AllOrRest (where_ konst moved grow f) blocksBuf (fun ret => valuesOf ret.elems = (valuesOf s.src.elems).filter f) konst moved f s others :=
  LinqAlloc.collect_eval konst moved grow f s others h

/-- C135: `group_by` gives the map of the elements by their keys, or fails in the same way. -/
theorem C135_group_by {lt : κ → κ → Bool} (o : StrictTotalOrder lt) (konst : Bool) (moved : α → α) (grow : Nat → Nat) (f : α → κ) (s : LSt α (List (κ × Entry α))) (others : List Nat)
    (h : InUse s.mem (blocksBuf s.src ++ others)) :
    AllOrRest (groupBy konst moved lt grow f) blocksMap (fun ret => IsGrouping lt f (valuesOf s.src.elems) (plainMap ret)) konst moved (fun _ => true) s others := by
  rcases groupLoop_eval konst moved lt grow f s.src.elems [] ⟨s.mem, s.src, []⟩ others rfl rfl h with ⟨s', k1, k2, k3, k4⟩ | ⟨s', d, rest, k1, k2, k3, k4, k5⟩
  · refine .inl ⟨s', by unfold groupBy; rw [Meth.get_bind, Meth.set_bind, onFail]; simp only [List.length_nil] at k1; rw [k1], ?_, k3, k4⟩
    have := C48_group_by o konst moved ⟨f, false⟩ (valuesOf s.src.elems)
    rw [Linq.groupBy, LinqAlloc.groupByLoop_fold] at this
    show IsGrouping lt f (valuesOf s.src.elems) (plainMap s'.ret)
    rw [k2]
    exact this
  · obtain ⟨m2, e2, i2, -⟩ := destroyMap_releases s'.ret s'.mem _ k5
    refine .inr ⟨⟨m2, s'.src, []⟩, d, rest, ?_, k2, rfl, k3, k4, i2⟩
    unfold groupBy
    simp only [List.length_nil] at k1
    have : (do
      let s ← Meth.get
      inMemL (destroyMap s.ret)
      let s ← Meth.get
      Meth.set { s with ret := [] }) s' = (.ok (), (⟨m2, s'.src, []⟩ : LSt α (List (κ × Entry α)))) := by
      rw [Meth.get_bind, Meth.bind_ok (inMemL_eq e2), Meth.get_bind]
      rfl
    rw [Meth.get_bind, Meth.set_bind, onFail, k1]
    simp only [this]

/-- C135: `order_by` of an lvalue gives an ordering of its elements or fails and leaves nothing behind; the collection is as it was in both cases. -/
theorem C135_order_by_lvalue {lt : κ → κ → Bool} (o : StrictTotalOrder lt) (key : α → κ) (grow : Nat → Nat) (sort : List (Obj α) → List (Obj α))
    (hs : SortContract (fun a b => lt (key a.val) (key b.val)) sort) (s : LSt α (Buf α)) (others : List Nat) (h : InUse s.mem (blocksBuf s.src ++ others)) :
    AllOrRest (orderBy true grow sort) blocksBuf (fun ret => IsOrdering lt key (valuesOf s.src.elems) (valuesOf ret.elems)) true id (fun _ => true) s others := by
  have hc := LinqAlloc.collect_eval true id grow (fun _ => true) s others h
  have hw : (onFail (whereLoop true id grow (fun _ => true) s.src.elems 0) dropRet) ({ s with ret := Buf.none } : LSt α (Buf α)) =
      where_ true id grow (fun _ => true) s := by
    unfold where_; rw [Meth.get_bind, Meth.set_bind]
  rcases hc with ⟨s', k1, k2, k3, k4⟩ | ⟨s', d, rest, k1, k2, k3, k4, k5, k6⟩
  · refine .inl ⟨{ s' with ret := { s'.ret with elems := sort s'.ret.elems } }, ?_, ?_, k3, ?_⟩
    · unfold orderBy
      rw [Meth.get_bind, if_pos rfl, Meth.set_bind, Meth.bind_ok (hw.trans k1), Meth.get_bind]
      rfl
    · have k2' : valuesOf s'.ret.elems = valuesOf s.src.elems := by simpa using k2
      have := LinqAlloc.sort_ordering o key sort hs s'.ret.elems
      rwa [k2'] at this
    · refine inUse_perm k4 ?_
      refine List.Perm.append_right _ ?_
      exact List.Perm.append_left _ ((hs s'.ret.elems).1.symm.flatMap_right _)
  · refine .inr ⟨s', d, rest, ?_, k2, k3, k4, k5, k6⟩
    unfold orderBy
    rw [Meth.get_bind, if_pos rfl, Meth.set_bind, Meth.bind_throw (hw.trans k1)]

/-- C135: `order_by` of an rvalue never asks for memory, and so cannot fail: the vector itself, with its buffer, is the result. -/
theorem C135_order_by_rvalue {lt : κ → κ → Bool} (o : StrictTotalOrder lt) (key : α → κ) (grow : Nat → Nat) (sort : List (Obj α) → List (Obj α))
    (hs : SortContract (fun a b => lt (key a.val) (key b.val)) sort) (s : LSt α (Buf α)) :
    ∃ os, orderBy false grow sort s = (.ok (), ⟨s.mem, Buf.none, { s.src with elems := os }⟩) ∧ os.Perm s.src.elems ∧
      IsOrdering lt key (valuesOf s.src.elems) (valuesOf os) :=
  ⟨sort s.src.elems, rfl, (hs _).1, LinqAlloc.sort_ordering o key sort hs _⟩

/-- C135: `select` gives the results of the function, or fails and leaves nothing behind; functions that take constant references do not change the collection. -/
theorem C135_select (grow : Nat → Nat) (f : α → Meth Mem (Obj β)) (g : α → β) (hf : ∀ v, Makes (f v) (g v)) (s : LSt α (Buf β)) (others : List Nat)
    (h : InUse s.mem (blocksBuf s.src ++ others)) :
    AllOrRest (select grow f) blocksBuf (fun ret => valuesOf ret.elems = (valuesOf s.src.elems).map g) true id (fun _ => true) s others := by
  unfold AllOrRest
  simp only [LinqAlloc.takenFrom_const]
  have main : ∀ (v : Buf β) (m1 : Mem) (_ : v.elems = []) (_ : inMemL (reserve s.src.elems.length) (⟨s.mem, s.src, Buf.none⟩ : LSt α (Buf β)) = (.ok v, ⟨m1, s.src, Buf.none⟩))
      (_ : InUse m1 (blocksBuf v ++ (blocksBuf s.src ++ others))) (_ : m1.plan <:+ s.mem.plan), 
      (∃ s', select grow f s = (.ok (), s') ∧ valuesOf s'.ret.elems = (valuesOf s.src.elems).map g ∧ s'.src = s.src ∧
        InUse s'.mem (blocksBuf s'.ret ++ (blocksBuf s'.src ++ others))) ∨
      (∃ s' done rest, select grow f s = (.throw .bad_alloc, s') ∧ false ∈ s.mem.plan ∧ blocksBuf s'.ret = [] ∧ s.src.elems = done ++ rest ∧
        s'.src = { s.src with elems := done ++ rest } ∧ InUse s'.mem (blocksBuf s'.src ++ others)) := by
    intro v m1 hv he hi hp
    have e0 : select grow f s = onFail (selectLoop grow f s.src.elems) dropRet ⟨m1, s.src, v⟩ := by
      unfold select
      rw [Meth.get_bind, Meth.set_bind, Meth.bind_ok he, Meth.get_bind, Meth.set_bind]
    rw [e0]
    rcases selectLoop_eval grow f g hf s.src.elems ⟨m1, s.src, v⟩ _ hi with ⟨s', k1, k2, k3, k4⟩ | ⟨s', k1, k2, k3, k4⟩
    · refine .inl ⟨s', by rw [onFail, k1], by rw [k2, hv]; rfl, k3, ?_⟩
      rw [k3]; exact k4
    · obtain ⟨m2, e2, i2⟩ := dropRet_eval s' _ k4
      refine .inr ⟨⟨m2, s'.src, Buf.none⟩, s.src.elems, [], ?_, hp.subset k2, rfl, by simp, ?_, ?_⟩
      · rw [onFail, k1]; simp only [e2]
      · simpa using k3
      · rw [k3]; exact i2
  by_cases hn : s.src.elems.length = 0
  · exact main Buf.none s.mem rfl (by simp [inMemL, reserve, hn]) h (List.suffix_refl _)
  · obtain ⟨a1, a2⟩ := alloc_acquires s.mem _ h
    by_cases g1 : granted 1 s.mem.plan
    · obtain ⟨b, m1, e1, -, i1, p1⟩ := a1 g1
      refine main ⟨some b, s.src.elems.length, []⟩ m1 rfl ?_ i1 (p1 ▸ List.drop_suffix 1 _)
      refine inMemL_eq (s := (⟨s.mem, s.src, Buf.none⟩ : LSt α (Buf β))) ?_
      unfold reserve
      rw [if_neg hn, Meth.bind_ok e1]; rfl
    · obtain ⟨m1, e1, i1⟩ := a2 g1
      refine .inr ⟨⟨m1, s.src, Buf.none⟩, s.src.elems, [], ?_, not_granted g1, rfl, by simp, by simp, i1⟩
      unfold select
      rw [Meth.get_bind, Meth.set_bind, Meth.bind_throw (e := .bad_alloc) (s' := ⟨m1, s.src, Buf.none⟩)]
      refine inMemL_eq (s := (⟨s.mem, s.src, Buf.none⟩ : LSt α (Buf β))) ?_
      unfold reserve
      rw [if_neg hn, Meth.bind_throw e1]

/-- C135: the memory for the results is requested at once and first: if the request fails the function is not called at all, whatever it would do. -/
theorem C135_select_first (grow : Nat → Nat) (f : α → Meth Mem (Obj β)) (s : LSt α (Buf β)) (plan : List Bool) (hp : s.mem.plan = false :: plan) (hn : s.src.elems ≠ []) :
    select grow f s = (.throw .bad_alloc, ⟨{ s.mem with plan := plan }, s.src, Buf.none⟩) := by
  have hl : s.src.elems.length ≠ 0 := by simpa using hn
  unfold select
  rw [Meth.get_bind, Meth.set_bind, Meth.bind_throw (e := .bad_alloc) (s' := ⟨{ s.mem with plan := plan }, s.src, Buf.none⟩)]
  refine inMemL_eq (s := (⟨s.mem, s.src, Buf.none⟩ : LSt α (Buf β))) ?_
  unfold reserve
  rw [if_neg hl, Meth.bind_throw (e := .bad_alloc) (s' := { s.mem with plan := plan })]
  simp [alloc, hp]

/-- C135: and the vector of results never grows: if the function requests no memory, that one request is the only one, however many elements there are. -/
theorem C135_select_once (grow : Nat → Nat) (g : α → β) (s : LSt α (Buf β)) (hp : granted 1 s.mem.plan) :
    ∃ v mem', select grow (fun v => pure ⟨g v, []⟩) s = (.ok (), ⟨mem', s.src, v⟩) ∧ valuesOf v.elems = (valuesOf s.src.elems).map g ∧
      mem'.plan = s.mem.plan.drop (if s.src.elems = [] then 0 else 1) ∧
      mem'.live = (if s.src.elems = [] then s.mem.live else s.mem.next :: s.mem.live) := by
  by_cases hn : s.src.elems = []
  · refine ⟨Buf.none, s.mem, ?_, by simp [hn, valuesOf, Buf.none], by simp [hn], by simp [hn]⟩
    unfold select
    rw [Meth.get_bind, Meth.set_bind, Meth.bind_ok (a := Buf.none) (s' := ⟨s.mem, s.src, Buf.none⟩) (by simp [inMemL, reserve, hn]), Meth.get_bind, Meth.set_bind]
    simp only [hn]
    rfl
  · have hl : s.src.elems.length ≠ 0 := by simpa using hn
    have ha : alloc s.mem = (.ok s.mem.next, ⟨s.mem.plan.drop 1, s.mem.next :: s.mem.live, s.mem.next + 1⟩) := by
      unfold alloc
      cases h : s.mem.plan with
      | nil => rfl
      | cons b p => cases b with
        | true => rfl
        | false => rw [h] at hp; exact absurd (hp false (by simp)) (by simp)
    refine ⟨⟨some s.mem.next, s.src.elems.length, [] ++ s.src.elems.map (fun o => ⟨g o.val, []⟩)⟩, ⟨s.mem.plan.drop 1, s.mem.next :: s.mem.live, s.mem.next + 1⟩, ?_, ?_,
      by simp [hn], by simp [hn]⟩
    · unfold select
      rw [Meth.get_bind, Meth.set_bind, Meth.bind_ok (a := ⟨some s.mem.next, s.src.elems.length, []⟩)
        (s' := ⟨⟨s.mem.plan.drop 1, s.mem.next :: s.mem.live, s.mem.next + 1⟩, s.src, Buf.none⟩) ?_, Meth.get_bind, Meth.set_bind, onFail,
        LinqAlloc.selectLoop_once grow g _ _ (by simp)]
      refine inMemL_eq (s := (⟨s.mem, s.src, Buf.none⟩ : LSt α (Buf β))) ?_
      unfold reserve
      rw [if_neg hl, Meth.bind_ok ha]; rfl
    · simp [valuesOf]

/-! ## Examples -/

/-- Three elements; the second owns two blocks. -/
def linqSt (plan : List Bool) : LSt Nat (Buf Nat) := ⟨⟨plan, [4, 3, 2, 1, 0, 9], 10⟩, ⟨some 0, 4, [⟨5, [1]⟩, ⟨6, [2, 3]⟩, ⟨8, [4]⟩]⟩, Buf.none⟩

example (plan : List Bool) : InUse (linqSt plan).mem (blocksBuf (linqSt plan).src ++ [9]) := by
  refine ⟨⟨?_, ?_⟩, ?_⟩
  · show [4, 3, 2, 1, 0, 9].Nodup; decide
  · show ∀ b ∈ [4, 3, 2, 1, 0, 9], b < 10; decide
  · show [4, 3, 2, 1, 0, 9].Perm [0, 1, 2, 3, 4, 9]; decide
/-- An lvalue: the copy of the second element fails after one of its two blocks, and what `where` has asked for is given back. -/
example : (where_ true (fun _ => 0) (· * 2) (fun v => v % 2 == 0) (linqSt [true, true, false])).1 = .throw .bad_alloc ∧
    (where_ true (fun _ => 0) (· * 2) (fun v => v % 2 == 0) (linqSt [true, true, false])).2.mem = ⟨[], [4, 3, 2, 1, 0, 9], 12⟩ := by decide +kernel
/-- An rvalue: when the vector cannot grow for the second of the even elements, the first is lost. -/
example : (where_ false (fun _ => 0) id (fun v => v % 2 == 0) (linqSt [true, false])).1 = .throw .bad_alloc ∧
    (where_ false (fun _ => 0) id (fun v => v % 2 == 0) (linqSt [true, false])).2.src.elems = [⟨5, [1]⟩, ⟨0, []⟩, ⟨8, [4]⟩] ∧
    (where_ false (fun _ => 0) id (fun v => v % 2 == 0) (linqSt [true, false])).2.mem = ⟨[], [4, 1, 0, 9], 11⟩ := by decide +kernel
/-- With all requests granted. -/
example : (where_ false (fun _ => 0) id (fun v => v % 2 == 0) (linqSt [])).2.ret = ⟨some 11, 2, [⟨6, [2, 3]⟩, ⟨8, [4]⟩]⟩ := by decide +kernel
example : (groupBy true (fun _ => 0) (fun a b => decide (a < b)) id (fun v : Nat => v % 2) ⟨(linqSt [true, true, true, false]).mem, (linqSt []).src, []⟩).1 =
      .throw .bad_alloc ∧
    (groupBy true (fun _ => 0) (fun a b => decide (a < b)) id (fun v : Nat => v % 2) ⟨(linqSt [true, true, true, false]).mem, (linqSt []).src, []⟩).2.mem.live = [4, 3, 2, 1, 0, 9] := by
  decide +kernel
example : plainMap (groupBy true (fun _ => 0) (fun a b => decide (a < b)) id (fun v : Nat => v % 2) ⟨(linqSt []).mem, (linqSt []).src, []⟩).2.ret = [(0, [6, 8]), (1, [5])] := by
  decide +kernel
/-- A function that makes objects with one block. -/
example : Makes (copyObj (⟨7, [0]⟩ : Obj Nat)) 7 := copyObj_tries _

end Utki
