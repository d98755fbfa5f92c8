import Verif.Lemmas.TreeAddrKeep
import Verif.Props.Tree
/-!
# Which iterators survive changes of a tree (C98)

`AtA m n it`: the iterator is at the `n`-th position of the traversal of the forest as it is in memory, and all pointers and iterators in it are valid.
`Reach m`: the forest got into this state by calls of `insert`, `insert_after` and `erase` with iterators of it.
-/
namespace Utki
open Spec
open TreeAddr (Mem AIter canonA Inv)
variable {α : Type}

/-- The iterator is at the `n`-th position of the traversal, and valid. -/
def AtA (m : Mem α) (n : Nat) (it : AIter) : Prop := ∃ p, (positions m.forest)[n]? = some p ∧ it = canonA m p

/-- The states a forest can come to by calls of the functions that change it. `mv`, `cp`: whether the vector moved or copied its elements to a new buffer. -/
inductive Reach : Mem α → Prop where
  | fresh (f : List (Tree α)) : Reach (TreeAddr.fresh f)
  | insert {m m' : Mem α} {n : Nat} {it it' : AIter} (mv cp : Bool) (t : Tree α) : Reach m → AtA m n it → TreeAddr.insert mv cp m it t = .ok (m', it') → Reach m'
  | insert_after {m m' : Mem α} {n : Nat} {it it' : AIter} (mv cp : Bool) (t : Tree α) : Reach m → AtA m n it → n < (nodes m.forest).length →
      TreeAddr.insert_after mv cp m it t = .ok (m', it') → Reach m'
  | erase {m m' : Mem α} {n : Nat} {it it' : AIter} (dbg : Bool) : Reach m → AtA m n it → n < (nodes m.forest).length →
      TreeAddr.erase dbg m it = .ok (m', it') → Reach m'

/-! ## What the functions do, in full -/

section
open TreeAddr

theorem insertA (mv cp : Bool) {m : Mem α} (h : Inv m) {n : Nat} {it : AIter} (ha : AtA m n it) (t : Tree α) :
    ∃ q i l, it = canonA m (q ++ [i]) ∧ (positions m.forest)[n]? = some (q ++ [i]) ∧ Trav.listAt m.forest q = some l ∧ i ≤ l.length ∧
      let m' := after m (Trav.modify (fun l => l.insertIdx i t) m.forest q) (originInsert q i mv cp)
      TreeAddr.insert mv cp m it t = .ok (m', canonA m' (q ++ [i])) ∧ Inv m' := by
  obtain ⟨p, hp, rfl⟩ := ha
  obtain ⟨q, k, l, rfl, h1, h2, h3, h4⟩ := Trav.position_split hp
  exact ⟨q, k, l, rfl, hp, h1, h3, insert_eq h mv cp h1 h3 t⟩

theorem insert_afterA (mv cp : Bool) {m : Mem α} (h : Inv m) {n : Nat} {it : AIter} (ha : AtA m n it) (hn : n < (nodes m.forest).length) (t : Tree α) :
    ∃ q i l, it = canonA m (q ++ [i]) ∧ (positions m.forest)[n]? = some (q ++ [i]) ∧ Trav.listAt m.forest q = some l ∧ i + 1 ≤ l.length ∧
      let m' := after m (Trav.modify (fun l => l.insertIdx (i + 1) t) m.forest q) (originInsert q (i + 1) mv cp)
      TreeAddr.insert_after mv cp m it t = .ok (m', canonA m' (q ++ [i + 1])) ∧ Inv m' := by
  obtain ⟨p, hp, rfl⟩ := ha
  obtain ⟨q, k, l, rfl, h1, h2, h3, h4⟩ := Trav.position_split hp
  exact ⟨q, k, l, rfl, hp, h1, h4 hn, insert_after_eq h mv cp h1 (h4 hn) t⟩

theorem eraseA (dbg : Bool) {m : Mem α} (h : Inv m) {n : Nat} {it : AIter} (ha : AtA m n it) (hn : n < (nodes m.forest).length) :
    ∃ q i l r, it = canonA m (q ++ [i]) ∧ (positions m.forest)[n]? = some (q ++ [i]) ∧ Trav.listAt m.forest q = some l ∧ i < l.length ∧
      Trav.Climb (Trav.modify (fun l => l.eraseIdx i) m.forest q) (q ++ [i]) r ∧
      let m' := after m (Trav.modify (fun l => l.eraseIdx i) m.forest q) (originErase q i)
      TreeAddr.erase dbg m it = .ok (m', canonA m' r) ∧ Inv m' := by
  obtain ⟨p, hp, rfl⟩ := ha
  obtain ⟨q, k, l, rfl, h1, h2, h3, h4⟩ := Trav.position_split hp
  have hk := h4 hn
  have hl' := Trav.listAt_modify (fun l => l.eraseIdx k) m.forest q l h1
  obtain ⟨r, hr⟩ := Trav.climb_total _ q k _ hl' (by rw [List.length_eraseIdx_of_lt hk]; omega)
  exact ⟨q, k, l, r, rfl, hp, h1, hk, hr, erase_eq dbg h h1 hk hr⟩

theorem Reach.inv {m : Mem α} (h : Reach m) : Inv m := by
  induction h with
  | fresh f => exact inv_fresh f
  | insert mv cp t _ ha e ih =>
    obtain ⟨q, i, l, _, _, _, _, e', hi⟩ := insertA mv cp ih ha t
    rw [e] at e'; cases e'; exact hi
  | insert_after mv cp t _ ha hn e ih =>
    obtain ⟨q, i, l, _, _, _, _, e', hi⟩ := insert_afterA mv cp ih ha hn t
    rw [e] at e'; cases e'; exact hi
  | erase dbg _ ha hn e ih =>
    obtain ⟨q, i, l, r, _, _, _, _, _, e', hi⟩ := eraseA dbg ih ha hn
    rw [e] at e'; cases e'; exact hi

end

/-! ## C98: iterators of a reachable forest -/

/-- C98: whatever was inserted and erased before, `begin()` and `end()` are at the first position and behind all nodes. -/
theorem C98_begin_end (m : Mem α) : AtA m 0 (TreeAddr.begin_ m) ∧ AtA m (nodes m.forest).length (TreeAddr.end_ m) :=
  ⟨⟨[0], Trav.positions_head _, rfl⟩, ⟨[m.forest.length], Trav.positions_last _, rfl⟩⟩

/-- C98: whatever was inserted and erased before, a valid iterator has the index path of its position, moves to the next and the previous position, and
refers to the node at its position; nothing is undefined and no assertion fails. -/
theorem C98_iterator (dbg : Bool) (m : Mem α) (hm : Reach m) (n : Nat) (it : AIter) (h : AtA m n it) :
    ∃ p, (positions m.forest)[n]? = some p ∧ TreeAddr.index dbg m it = .ok p ∧
      (n < (nodes m.forest).length → ∃ t, TreeAddr.star m it = .ok t ∧ subtree m.forest p = some t) ∧
      (n < (nodes m.forest).length → ∃ it', TreeAddr.incr dbg m it = .ok it' ∧ AtA m (n + 1) it') ∧
      (0 < n → ∃ it', TreeAddr.decr dbg m it = .ok it' ∧ AtA m (n - 1) it') := by
  obtain ⟨p, hp, rfl⟩ := h
  have hi := hm.inv
  have hlt : n < (positions m.forest).length := by rw [List.getElem?_eq_some_iff] at hp; exact hp.1
  refine ⟨p, hp, TreeAddr.indexA dbg hi (TreeAddr.onPath_position hp), ?_, ?_, ?_⟩
  · intro hn
    rcases Trav.positions_cases hp with ⟨_, t, ht⟩ | ⟨e, _⟩
    · exact ⟨t, TreeAddr.starA hi ht, ht⟩
    · omega
  · intro hn
    have : n + 1 < (positions m.forest).length := by rw [Trav.positions_length]; omega
    have hr : (positions m.forest)[n + 1]? = some (positions m.forest)[n + 1] := List.getElem?_eq_getElem this
    exact ⟨_, TreeAddr.incr_step dbg hi (Trav.positions_step _ n p _ hp hr), _, hr, rfl⟩
  · intro hn
    obtain ⟨k, rfl⟩ : ∃ k, n = k + 1 := ⟨n - 1, by omega⟩
    have hr : (positions m.forest)[k]? = some (positions m.forest)[k] := List.getElem?_eq_getElem (by omega)
    exact ⟨_, TreeAddr.decr_step dbg hi (Trav.positions_step _ k _ p hr hp), _, hr, rfl⟩

/-- C98: whatever was inserted and erased before, the end iterator cannot be used: incrementing it aborts debug builds and is undefined in release builds, and there is no node to use. Stepping back
from `begin()` gives the iterator without levels. -/
theorem C98_limits (m : Mem α) (hm : Reach m) (n : Nat) (it : AIter) (h : AtA m n it) :
    (n = (nodes m.forest).length → TreeAddr.incr true m it = .abort ∧ TreeAddr.incr false m it = .ub .oob_read ∧ TreeAddr.star m it = .ub .oob_read) ∧
    (n = 0 → ∀ dbg, TreeAddr.decr dbg m it = .ok ⟨[], []⟩) := by
  obtain ⟨p, hp, rfl⟩ := h
  have hi := hm.inv
  have hl : Trav.listAt m.forest [] = some m.forest := rfl
  constructor
  · rintro rfl
    have e : p = [m.forest.length] := by
      have := Trav.positions_last m.forest
      rw [this] at hp; exact (Option.some.inj hp).symm
    subst e
    have hc : TreeAddr.canonA m [m.forest.length] = ⟨[.roots], [m.tok ⟨[], m.forest.length⟩]⟩ := rfl
    have e1 : TreeAddr.endOf m .roots = .ok (m.tok ⟨[], m.forest.length⟩) := TreeAddr.endA hi hl
    have e2 : TreeAddr.iterEq m (m.tok ⟨[], m.forest.length⟩) (m.tok ⟨[], m.forest.length⟩) = .ok true := by
      rw [TreeAddr.eqA hi hl (Nat.le_refl _) (Nat.le_refl _)]; simp
    have e3 : TreeAddr.deref m (m.tok ⟨[], m.forest.length⟩) = .ub .oob_read := by
      rw [TreeAddr.deref, TreeAddr.locA hi hl (Nat.le_refl _)]
      show Trav.deref m.forest ⟨[], m.forest.length⟩ = _
      have hg : Trav.getList m.forest [] = .ok m.forest := by simp [Trav.getList, hl]
      rw [Trav.deref, hg]
      show rd m.forest m.forest.length = _
      simp [rd]
    have e4 : Trav.back [m.tok ⟨[], m.forest.length⟩] = .ok (m.tok ⟨[], m.forest.length⟩) := rfl
    have e5 : Trav.back [TreeAddr.LPtr.roots] = .ok TreeAddr.LPtr.roots := rfl
    rw [hc]
    refine ⟨?_, ?_, ?_⟩
    · simp [TreeAddr.incr, TreeAddr.notEnd, e1, e2, e4, e5, ASSERT]
    · simp [TreeAddr.incr, TreeAddr.notEnd, e3, e4, ASSERT]
    · simp [TreeAddr.star, e3, e4]
  · rintro rfl dbg
    have e : p = [0] := by
      have := Trav.positions_head m.forest
      rw [this] at hp; exact (Option.some.inj hp).symm
    subst e
    have hc : TreeAddr.canonA m [0] = ⟨[.roots], [m.tok ⟨[], 0⟩]⟩ := rfl
    have e1 : TreeAddr.beginOf m .roots = .ok (m.tok ⟨[], 0⟩) := TreeAddr.beginA hi hl
    have e2 : TreeAddr.iterEq m (m.tok ⟨[], 0⟩) (m.tok ⟨[], 0⟩) = .ok true := by
      rw [TreeAddr.eqA hi hl (Nat.zero_le _) (Nat.zero_le _)]; simp
    have e4 : Trav.back [m.tok ⟨[], 0⟩] = .ok (m.tok ⟨[], 0⟩) := rfl
    have e5 : Trav.back [TreeAddr.LPtr.roots] = .ok TreeAddr.LPtr.roots := rfl
    have e6 : Trav.pop [m.tok ⟨[], 0⟩] = .ok [] := rfl
    have e7 : Trav.pop [TreeAddr.LPtr.roots] = .ok [] := rfl
    rw [hc]
    simp [TreeAddr.decr, e1, e2, e4, e5, e6, e7, ASSERT]

/-- C98: whatever was inserted and erased before, comparing valid iterators is defined and compares their positions. -/
theorem C98_compare (m : Mem α) (hm : Reach m) (n k : Nat) (a b : AIter) (ha : AtA m n a) (hb : AtA m k b) :
    TreeAddr.eq m a b = .ok (decide (n = k)) ∧ TreeAddr.lt m a b = .ok (decide (n < k)) := by
  obtain ⟨p, hp, rfl⟩ := ha
  obtain ⟨r, hr, rfl⟩ := hb
  have op := TreeAddr.onPath_position hp
  have or := TreeAddr.onPath_position hr
  constructor
  · rw [TreeAddr.eqCanonA hm.inv op or]
    by_cases h : n = k
    · subst h; rw [hp] at hr; cases hr; simp
    · have : p ≠ r := by rintro rfl; exact h (Trav.positions_inj _ n k p hp hr)
      simp [h, this]
  · rw [← Trav.positions_lex _ n k p r hp hr]
    exact TreeAddr.vecLtA hm.inv p r [] op or

/-! ## C98: returned iterators -/

/-- C98: `insert` through a valid iterator is defined, whether or not the vector gets a new buffer; the subtree is put before the iterator, and the returned
iterator is valid and at it. -/
theorem C98_insert (mv cp : Bool) (m : Mem α) (hm : Reach m) (n : Nat) (it : AIter) (t : Tree α) (h : AtA m n it) :
    ∃ m' it' p, TreeAddr.insert mv cp m it t = .ok (m', it') ∧ Reach m' ∧ (positions m.forest)[n]? = some p ∧
      outline m'.forest = (outline m.forest).take n ++ outlineTree p.length t ++ (outline m.forest).drop n ∧
      AtA m' n it' ∧ TreeAddr.star m' it' = .ok t := by
  have hh := h
  obtain ⟨q, i, l, rfl, hp, h1, h2, he, hi'⟩ := insertA mv cp hm.inv h t
  obtain ⟨f', it', e, o, a, _⟩ := C41_insert m.forest n (Trav.canon (q ++ [i])) t ⟨_, hp, rfl⟩
  rw [Trav.canon_snoc] at e
  unfold Trav.insert at e
  simp only [Trav.back_snoc, Res.bind_eq, Res.ok_bind, Trav.listInsert, Trav.getList_ok h1] at e
  rw [if_pos ⟨trivial, h2⟩] at e
  simp only [Res.ok_bind, Trav.setBack_snoc, Res.pure_eq, Res.ok.injEq, Prod.mk.injEq] at e
  obtain ⟨rfl, e2⟩ := e
  refine ⟨_, _, _, he, .insert mv cp t hm hh he, hp, ?_, ?_, ?_⟩
  · simpa [TreeAddr.after, Trav.depth, Trav.canon, Trav.canonI_length] using o
  · obtain ⟨p', hp', e3⟩ := a
    rw [← e2, ← Trav.canon_snoc] at e3
    have := congrArg (Trav.index false) e3
    rw [Trav.index_canon, Trav.index_canon] at this
    cases this
    exact ⟨_, hp', rfl⟩
  · apply TreeAddr.starA hi'
    show subtree (Trav.modify _ _ _) _ = _
    rw [Trav.subtree_snoc, Trav.listAt_modify _ _ _ _ h1]
    simp [List.getElem?_insertIdx_self, h2]

/-- C98: `insert_after` through a valid iterator at a node is defined; the subtree is put behind the subtree of the node, and the returned iterator is valid
and at it. -/
theorem C98_insert_after (mv cp : Bool) (m : Mem α) (hm : Reach m) (n : Nat) (it : AIter) (t u : Tree α) (h : AtA m n it) (hn : n < (nodes m.forest).length)
    (hu : TreeAddr.star m it = .ok u) :
    ∃ m' it' p, TreeAddr.insert_after mv cp m it t = .ok (m', it') ∧ Reach m' ∧ (positions m.forest)[n]? = some p ∧
      outline m'.forest = (outline m.forest).take (n + (outlineTree 0 u).length) ++ outlineTree p.length t ++ (outline m.forest).drop (n + (outlineTree 0 u).length) ∧
      AtA m' (n + (outlineTree 0 u).length) it' ∧ TreeAddr.star m' it' = .ok t := by
  have hh := h
  obtain ⟨q, i, l, rfl, hp, h1, h2, he, hi'⟩ := insert_afterA mv cp hm.inv h hn t
  have hs : subtree m.forest (q ++ [i]) = some u := by
    have : subtree m.forest (q ++ [i]) = some l[i] := by rw [Trav.subtree_snoc, h1]; simp [show i < l.length from h2]
    rw [TreeAddr.starA hm.inv this] at hu
    cases hu; exact this
  obtain ⟨f', it', e, o, a, _⟩ := C41_insert_after m.forest n (Trav.canon (q ++ [i])) t u ⟨_, hp, rfl⟩ (Trav.star_canon hs) hn
  rw [Trav.canon_snoc] at e
  unfold Trav.insert_after at e
  simp only [Trav.back_snoc, Res.bind_eq, Res.ok_bind, Trav.listInsert, Trav.getList_ok h1, Trav.advance_ok h1 h2] at e
  rw [if_pos ⟨trivial, h2⟩] at e
  simp only [Res.ok_bind, Trav.setBack_snoc, Res.pure_eq, Res.ok.injEq, Prod.mk.injEq] at e
  obtain ⟨rfl, e2⟩ := e
  refine ⟨_, _, _, he, .insert_after mv cp t hm hh hn he, hp, ?_, ?_, ?_⟩
  · simpa [TreeAddr.after, Trav.depth, Trav.canon, Trav.canonI_length] using o
  · obtain ⟨p', hp', e3⟩ := a
    rw [← e2, ← Trav.canon_snoc] at e3
    have := congrArg (Trav.index false) e3
    rw [Trav.index_canon, Trav.index_canon] at this
    cases this
    exact ⟨_, hp', rfl⟩
  · apply TreeAddr.starA hi'
    show subtree (Trav.modify _ _ _) _ = _
    rw [Trav.subtree_snoc, Trav.listAt_modify _ _ _ _ h1]
    simp [List.getElem?_insertIdx_self, h2]

/-- C98: `erase` through a valid iterator at a node is defined; exactly the subtree is removed, and the returned iterator is valid and at the node that
followed the subtree, or at the end. -/
theorem C98_erase (dbg : Bool) (m : Mem α) (hm : Reach m) (n : Nat) (it : AIter) (u : Tree α) (h : AtA m n it) (hn : n < (nodes m.forest).length)
    (hu : TreeAddr.star m it = .ok u) :
    ∃ m' it', TreeAddr.erase dbg m it = .ok (m', it') ∧ Reach m' ∧
      outline m'.forest = (outline m.forest).take n ++ (outline m.forest).drop (n + (outlineTree 0 u).length) ∧ AtA m' n it' := by
  have hh := h
  obtain ⟨q, i, l, r, rfl, hp, h1, h2, hr, he, hi'⟩ := eraseA dbg hm.inv h hn
  have hs : subtree m.forest (q ++ [i]) = some u := by
    have : subtree m.forest (q ++ [i]) = some l[i] := by rw [Trav.subtree_snoc, h1]; simp [h2]
    rw [TreeAddr.starA hm.inv this] at hu
    cases hu; exact this
  obtain ⟨f', it', e, o, a⟩ := C42_erase dbg m.forest n (Trav.canon (q ++ [i])) u ⟨_, hp, rfl⟩ (Trav.star_canon hs) hn
  have hloop := Trav.eraseLoop_eq dbg hr (q.length + 1 + 1) (by simp)
  rw [Trav.canon_snoc] at hloop e
  unfold Trav.erase at e
  simp only [Trav.back_snoc, Res.bind_eq, Res.ok_bind, Trav.listErase, Trav.getList_ok h1] at e
  rw [if_pos ⟨trivial, h2⟩] at e
  simp only [Res.ok_bind, Trav.setBack_snoc, Res.pure_eq, List.length_append, Trav.canonI_length, List.length_singleton, hloop, Res.ok.injEq, Prod.mk.injEq] at e
  obtain ⟨rfl, e2⟩ := e
  refine ⟨_, _, he, .erase dbg hm hh hn he, o, ?_⟩
  obtain ⟨p', hp', e3⟩ := a
  rw [← e2] at e3
  have := congrArg (Trav.index false) e3
  rw [Trav.index_canon, Trav.index_canon] at this
  cases this
  exact ⟨_, hp', rfl⟩

/-! ## C98: other iterators -/

/-- An iterator as it was before a change is still valid: at the same index path, and at a node with the same value, and with the same subtree unless it is
an ancestor of the changed list `q`. -/
def Stays (m m' : Mem α) (q p : Path) (o : AIter) : Prop :=
  (∃ n', AtA m' n' o) ∧ (∀ dbg, TreeAddr.index dbg m' o = .ok p) ∧
  ∀ u, TreeAddr.star m o = .ok u → ∃ u', TreeAddr.star m' o = .ok u' ∧ u'.value = u.value ∧ (¬ p <+: q → u' = u)

/-- An iterator as it was before a change is not valid: its `index()` and the node on the level of the changed list `q` are undefined, and so is dereferencing
and moving it if it is itself on that level. -/
def Invalid (m' : Mem α) (q p : Path) (o : AIter) : Prop :=
  TreeAddr.at_level m' o q.length = .ub .bad_iterator ∧ (∀ dbg, TreeAddr.index dbg m' o = .ub .bad_iterator) ∧
  (p.length = q.length + 1 → TreeAddr.star m' o = .ub .bad_iterator ∧ ∀ dbg, TreeAddr.incr dbg m' o = .ub .bad_iterator ∧ TreeAddr.decr dbg m' o = .ub .bad_iterator)

section
open TreeAddr

theorem stays_of (m : Mem α) (hi : Inv m) (q : Path) (i : Nat) (l : List (Tree α)) (all : Bool) (g : List (Tree α) → List (Tree α)) (origin : Trav.LIter → Option Trav.LIter)
    (hl : Trav.listAt m.forest q = some l) (hil : i ≤ l.length) (hg : ∀ j, j < i → (g l)[j]? = l[j]?)
    (hi' : Inv (after m (Trav.modify g m.forest q) origin)) (n : Nat) (p : Path) (hp : (positions m.forest)[n]? = some p) (ht : ¬ Touched q i all p)
    (keep : ∀ a k b, p = a ++ k :: b → origin ⟨a, k⟩ = some ⟨a, k⟩) : Stays m (after m (Trav.modify g m.forest q) origin) q p (canonA m p) := by
  have hc : canonA (after m (Trav.modify g m.forest q) origin) p = canonA m p := canonA_congr (fun a k b e => after_tok (keep a k b e))
  obtain ⟨n', hn'⟩ := position_stays g i all m.forest q p l hl hil hg ht hp
  refine ⟨⟨n', p, hn', hc.symm⟩, fun dbg => ?_, fun u hu => ?_⟩
  · rw [← hc]; exact indexA dbg hi' (onPath_position hn')
  · have hv := value_stays g i all m.forest q p (fun l' e => by rw [hl] at e; cases e; exact hg) ht
    have hs : subtree m.forest p = some u := by
      rcases Trav.positions_cases hp with ⟨_, t, h⟩ | ⟨_, rfl⟩
      · rw [starA hi h] at hu; cases hu; exact h
      · exfalso
        have e : canonA m [m.forest.length] = canonA m ([] ++ [m.forest.length]) := rfl
        rw [e, canonA_snoc] at hu
        simp only [star, Trav.back_snoc, Res.bind_eq, Res.ok_bind, deref, locA hi (show Trav.listAt m.forest [] = some m.forest from rfl) (Nat.le_refl _)] at hu
        simp [Trav.deref, Trav.getList, Trav.listAt, rd] at hu
    rw [hs] at hv
    cases hs' : subtree (Trav.modify g m.forest q) p with
    | none => rw [hs'] at hv; cases hv.1
    | some u' =>
      rw [hs'] at hv
      refine ⟨u', ?_, by simpa using hv.1, fun h => by simpa using hv.2 h⟩
      rw [← hc]
      exact starA hi' hs'

theorem invalid_of (m : Mem α) (hi : Inv m) (q : Path) (i : Nat) (l : List (Tree α)) (all : Bool) (g : List (Tree α) → List (Tree α)) (origin : Trav.LIter → Option Trav.LIter)
    (hl : Trav.listAt m.forest q = some l)
    (hi' : Inv (after m (Trav.modify g m.forest q) origin)) (n : Nat) (p : Path) (hp : (positions m.forest)[n]? = some p) (ht : Touched q i all p)
    (place : ∀ x ∈ places (Trav.modify g m.forest q), ∀ y, origin x = some y → y ∈ places m.forest)
    (keep : ∀ a k b, q = a ++ k :: b → origin ⟨a, k⟩ = some ⟨a, k⟩)
    (gone : ∀ k, all = true ∨ i ≤ k → ∀ x, origin x ≠ some ⟨q, k⟩) : Invalid (after m (Trav.modify g m.forest q) origin) q p (canonA m p) := by
  obtain ⟨k, r, rfl, hk⟩ := ht
  obtain ⟨l', h1, h2⟩ := onPath_position hp q k r rfl
  rw [hl] at h1; cases h1
  have hgone := locate_gone hi place (y := ⟨q, k⟩) (mem_places.mpr ⟨l, hl, h2⟩) (fun x _ => gone k hk x)
  have := fun dbg => gone_level (m := m) hi' (r := r) (k := k) (Trav.listAt_modify g m.forest q l hl) (fun a j b e => after_tok (keep a j b e)) hgone dbg
  refine ⟨(this false).1, fun dbg => (this dbg).2.1, fun e => ?_⟩
  have hr : r = [] := by
    cases r with
    | nil => rfl
    | cons => simp at e
  exact ⟨((this false).2.2 hr).1, fun dbg => ((this dbg).2.2 hr).2⟩

end

/-- C98: `insert` before the child `i` of the node `q` leaves the iterators valid that do not lead through a child of `q` from `i` on, or through any child
of `q` if the elements were moved to a new buffer. The others are invalid. -/
theorem C98_insert_others (mv cp : Bool) (m : Mem α) (hm : Reach m) (n : Nat) (it : AIter) (t : Tree α) (h : AtA m n it) (q : Path) (i : Nat)
    (hi : TreeAddr.index false m it = .ok (q ++ [i])) (m' : Mem α) (it' : AIter) (he : TreeAddr.insert mv cp m it t = .ok (m', it'))
    (k : Nat) (o : AIter) (ho : AtA m k o) (p : Path) (hp : TreeAddr.index false m o = .ok p) :
    (¬ Touched q i (mv || cp) p → Stays m m' q p o) ∧ (Touched q i (mv || cp) p → Invalid m' q p o) := by
  obtain ⟨q', i', l, rfl, hpos, h1, h2, he', hi'⟩ := insertA mv cp hm.inv h t
  rw [TreeAddr.indexA false hm.inv (TreeAddr.onPath_position hpos)] at hi
  obtain ⟨rfl, e2⟩ := List.append_inj' (Res.ok.inj hi) rfl
  cases e2
  obtain ⟨p', hpp, rfl⟩ := ho
  rw [TreeAddr.indexA false hm.inv (TreeAddr.onPath_position hpp)] at hp
  cases hp
  rw [he] at he'
  cases he'
  refine ⟨fun ht => ?_, fun ht => ?_⟩
  · exact stays_of m hm.inv _ _ l (mv || cp) (fun l => l.insertIdx _ t) _ h1 h2 (fun j hj => List.getElem?_insertIdx_of_lt hj) hi' k _ hpp ht (TreeAddr.originInsert_keep ht)
  · exact invalid_of m hm.inv _ _ l (mv || cp) (fun l => l.insertIdx _ t) _ h1 hi' k _ hpp ht (TreeAddr.originInsert_place h1 h2 t mv cp)
      (TreeAddr.originInsert_keep (TreeAddr.not_touched_self _ _ _)) (fun k hk => TreeAddr.originInsert_gone hk)

/-- C98: the same for `insert_after`: the place of insertion is behind the child `i`. -/
theorem C98_insert_after_others (mv cp : Bool) (m : Mem α) (hm : Reach m) (n : Nat) (it : AIter) (t : Tree α) (h : AtA m n it) (hn : n < (nodes m.forest).length) (q : Path) (i : Nat)
    (hi : TreeAddr.index false m it = .ok (q ++ [i])) (m' : Mem α) (it' : AIter) (he : TreeAddr.insert_after mv cp m it t = .ok (m', it'))
    (k : Nat) (o : AIter) (ho : AtA m k o) (p : Path) (hp : TreeAddr.index false m o = .ok p) :
    (¬ Touched q (i + 1) (mv || cp) p → Stays m m' q p o) ∧ (Touched q (i + 1) (mv || cp) p → Invalid m' q p o) := by
  obtain ⟨q', i', l, rfl, hpos, h1, h2, he', hi'⟩ := insert_afterA mv cp hm.inv h hn t
  rw [TreeAddr.indexA false hm.inv (TreeAddr.onPath_position hpos)] at hi
  obtain ⟨rfl, e2⟩ := List.append_inj' (Res.ok.inj hi) rfl
  cases e2
  obtain ⟨p', hpp, rfl⟩ := ho
  rw [TreeAddr.indexA false hm.inv (TreeAddr.onPath_position hpp)] at hp
  cases hp
  rw [he] at he'
  cases he'
  refine ⟨fun ht => ?_, fun ht => ?_⟩
  · exact stays_of m hm.inv _ _ l (mv || cp) (fun l => l.insertIdx _ t) _ h1 h2 (fun j hj => List.getElem?_insertIdx_of_lt hj) hi' k _ hpp ht (TreeAddr.originInsert_keep ht)
  · exact invalid_of m hm.inv _ _ l (mv || cp) (fun l => l.insertIdx _ t) _ h1 hi' k _ hpp ht (TreeAddr.originInsert_place h1 h2 t mv cp)
      (TreeAddr.originInsert_keep (TreeAddr.not_touched_self _ _ _)) (fun k hk => TreeAddr.originInsert_gone hk)

/-- C98: `erase` of the child `i` of the node `q` leaves the iterators valid that do not lead through a child of `q` from `i` on. The others are invalid:
those in the erased subtree, those at the next siblings of the erased node and below them, and if `q` is the list of roots the end iterators. -/
theorem C98_erase_others (dbg : Bool) (m : Mem α) (hm : Reach m) (n : Nat) (it : AIter) (h : AtA m n it) (hn : n < (nodes m.forest).length) (q : Path) (i : Nat)
    (hi : TreeAddr.index false m it = .ok (q ++ [i])) (m' : Mem α) (it' : AIter) (he : TreeAddr.erase dbg m it = .ok (m', it'))
    (k : Nat) (o : AIter) (ho : AtA m k o) (p : Path) (hp : TreeAddr.index false m o = .ok p) :
    (¬ Touched q i false p → Stays m m' q p o) ∧ (Touched q i false p → Invalid m' q p o) := by
  obtain ⟨q', i', l, r, rfl, hpos, h1, h2, hr, he', hi'⟩ := eraseA dbg hm.inv h hn
  rw [TreeAddr.indexA false hm.inv (TreeAddr.onPath_position hpos)] at hi
  obtain ⟨rfl, e2⟩ := List.append_inj' (Res.ok.inj hi) rfl
  cases e2
  obtain ⟨p', hpp, rfl⟩ := ho
  rw [TreeAddr.indexA false hm.inv (TreeAddr.onPath_position hpp)] at hp
  cases hp
  rw [he] at he'
  cases he'
  refine ⟨fun ht => ?_, fun ht => ?_⟩
  · exact stays_of m hm.inv _ _ l false (fun l => l.eraseIdx _) _ h1 (Nat.le_of_lt h2) (fun j hj => List.getElem?_eraseIdx_of_lt hj) hi' k _ hpp ht (TreeAddr.originErase_keep ht)
  · exact invalid_of m hm.inv _ _ l false (fun l => l.eraseIdx _) _ h1 hi' k _ hpp ht (TreeAddr.originErase_place h1 h2)
      (TreeAddr.originErase_keep (TreeAddr.not_touched_self _ _ _)) (fun k hk => TreeAddr.originErase_gone (by simpa using hk))

/-! ## C98: iterators that look valid -/

theorem star_gone (m : Mem α) (hi : Inv m) (q r : Path) (f' : List (Tree α)) (origin : Trav.LIter → Option Trav.LIter) (hr : r ≠ [])
    (hon : TreeAddr.OnPath m.forest (q ++ r))
    (place : ∀ x ∈ TreeAddr.places f', ∀ y, origin x = some y → y ∈ TreeAddr.places m.forest)
    (gone : ∀ s j, r = s ++ [j] → ∀ x, origin x ≠ some ⟨q ++ s, j⟩) : TreeAddr.star (TreeAddr.after m f' origin) (canonA m (q ++ r)) = .ub .bad_iterator := by
  rcases List.eq_nil_or_concat r with rfl | ⟨s, j, rfl⟩
  · exact absurd rfl hr
  · rw [List.concat_eq_append] at *
    rw [← List.append_assoc] at hon ⊢
    obtain ⟨l, h1, h2⟩ := hon (q ++ s) j [] rfl
    have := TreeAddr.locate_gone hi place (y := ⟨q ++ s, j⟩) (TreeAddr.mem_places.mpr ⟨l, h1, h2⟩) (fun x _ => gone s j rfl x)
    rw [TreeAddr.canonA_snoc]
    simp only [TreeAddr.star, Trav.back_snoc, Res.bind_eq, Res.ok_bind, TreeAddr.deref, this]
    rfl

/-- C98: an insertion that moves the elements of the list of `q` to another place, but does not copy them, leaves an iterator below such an element invalid,
although dereferencing it still gives the same node: only its outer levels dangle. -/
theorem C98_insert_deep (mv : Bool) (m : Mem α) (hm : Reach m) (n : Nat) (it : AIter) (t : Tree α) (h : AtA m n it) (q : Path) (i : Nat)
    (hi : TreeAddr.index false m it = .ok (q ++ [i])) (m' : Mem α) (it' : AIter) (he : TreeAddr.insert mv false m it t = .ok (m', it'))
    (k : Nat) (o : AIter) (ho : AtA m k o) (c : Nat) (s : Path) (j : Nat) (hp : TreeAddr.index false m o = .ok (q ++ c :: (s ++ [j]))) (u : Tree α)
    (hu : TreeAddr.star m o = .ok u) : TreeAddr.star m' o = .ok u := by
  obtain ⟨q', i', l, rfl, hpos, h1, h2, he', hi'⟩ := insertA mv false hm.inv h t
  rw [TreeAddr.indexA false hm.inv (TreeAddr.onPath_position hpos)] at hi
  obtain ⟨rfl, e2⟩ := List.append_inj' (Res.ok.inj hi) rfl
  cases e2
  obtain ⟨p', hpp, rfl⟩ := ho
  rw [TreeAddr.indexA false hm.inv (TreeAddr.onPath_position hpp)] at hp
  cases hp
  rw [he] at he'
  cases he'
  have hs : subtree m.forest (q' ++ c :: (s ++ [j])) = some u := by
    rcases Trav.positions_cases hpp with ⟨_, v, hv⟩ | ⟨_, e⟩
    · rw [TreeAddr.starA hm.inv hv] at hu; cases hu; exact hv
    · have := congrArg List.length e; simp at this; omega
  rw [show q' ++ c :: (s ++ [j]) = (q' ++ c :: s) ++ [j] by simp] at hs ⊢
  rw [Trav.subtree_snoc] at hs
  cases hL : Trav.listAt m.forest (q' ++ c :: s) with
  | none => rw [hL] at hs; cases hs
  | some L =>
    rw [hL] at hs
    simp only [Option.bind_some] at hs
    have hL2 : Trav.listAt l (c :: s) = some L := by rw [Trav.listAt_append, h1] at hL; exact hL
    obtain ⟨c', ho', hc'⟩ : ∃ c', TreeAddr.originInsert q' i mv false ⟨q' ++ c' :: s, j⟩ = some ⟨q' ++ c :: s, j⟩ ∧ (l.insertIdx i t)[c']? = l[c]? := by
      by_cases hci : c < i
      · refine ⟨c, ?_, List.getElem?_insertIdx_of_lt hci⟩
        simp [TreeAddr.originInsert, (TreeAddr.strip_some (q := q')).mpr rfl, hci, show c ≠ i by omega]
      · refine ⟨c + 1, ?_, by rw [List.getElem?_insertIdx_of_gt (by omega)]; rfl⟩
        simp [TreeAddr.originInsert, (TreeAddr.strip_some (q := q')).mpr rfl, show c + 1 ≠ i by omega, show ¬ c + 1 < i by omega]
    have hl' : Trav.listAt (Trav.modify (fun l => l.insertIdx i t) m.forest q') (q' ++ c' :: s) = some L := by
      rw [TreeAddr.listAt_modify_below _ _ _ l h1]
      simp only [Trav.listAt, hc'] at hL2 ⊢
      exact hL2
    rw [TreeAddr.canonA_snoc]
    simp only [TreeAddr.star, Trav.back_snoc, Res.bind_eq, Res.ok_bind]
    have := TreeAddr.derefA hi' hl' hs
    simp only [TreeAddr.after, ho'] at this
    exact this

/-- C98: if the vector copied its elements to a new buffer, dereferencing an iterator at any depth below the changed list is undefined: its node is gone. -/
theorem C98_insert_copied (mv : Bool) (m : Mem α) (hm : Reach m) (n : Nat) (it : AIter) (t : Tree α) (h : AtA m n it) (q : Path) (i : Nat)
    (hi : TreeAddr.index false m it = .ok (q ++ [i])) (m' : Mem α) (it' : AIter) (he : TreeAddr.insert mv true m it t = .ok (m', it'))
    (k : Nat) (o : AIter) (ho : AtA m k o) (r : Path) (hr : r ≠ []) (hp : TreeAddr.index false m o = .ok (q ++ r)) :
    TreeAddr.star m' o = .ub .bad_iterator := by
  obtain ⟨q', i', l, rfl, hpos, h1, h2, he', hi'⟩ := insertA mv true hm.inv h t
  rw [TreeAddr.indexA false hm.inv (TreeAddr.onPath_position hpos)] at hi
  obtain ⟨rfl, e2⟩ := List.append_inj' (Res.ok.inj hi) rfl
  cases e2
  obtain ⟨p', hpp, rfl⟩ := ho
  have hon := TreeAddr.onPath_position hpp
  rw [TreeAddr.indexA false hm.inv hon] at hp
  cases hp
  rw [he] at he'
  cases he'
  refine star_gone m hm.inv q' r _ _ hr hon (TreeAddr.originInsert_place h1 h2 t mv true) ?_
  intro s j e x ex
  unfold TreeAddr.originInsert at ex
  cases hs : TreeAddr.strip q' x.list with
  | none =>
    rw [hs] at ex
    simp only [Option.some.injEq] at ex
    subst ex
    have := (TreeAddr.strip_some (q := q') (p := q' ++ s) (r := s)).mpr rfl
    rw [this] at hs; cases hs
  | some w =>
    rw [hs] at ex
    cases w <;> simp at ex

/-- C98: after `erase` of the child `i` of `q`, dereferencing an iterator at or below the erased node is undefined; one below a later sibling still refers to
the same node, although it is invalid. -/
theorem C98_erase_deep (dbg : Bool) (m : Mem α) (hm : Reach m) (n : Nat) (it : AIter) (h : AtA m n it) (hn : n < (nodes m.forest).length) (q : Path) (i : Nat)
    (hi : TreeAddr.index false m it = .ok (q ++ [i])) (m' : Mem α) (it' : AIter) (he : TreeAddr.erase dbg m it = .ok (m', it'))
    (k : Nat) (o : AIter) (ho : AtA m k o) :
    (∀ r, TreeAddr.index false m o = .ok (q ++ i :: r) → TreeAddr.star m' o = .ub .bad_iterator) ∧
    (∀ c s j, i < c → TreeAddr.index false m o = .ok (q ++ c :: (s ++ [j])) → ∀ u, TreeAddr.star m o = .ok u → TreeAddr.star m' o = .ok u) := by
  obtain ⟨q', i', l, r', rfl, hpos, h1, h2, hr, he', hi'⟩ := eraseA dbg hm.inv h hn
  rw [TreeAddr.indexA false hm.inv (TreeAddr.onPath_position hpos)] at hi
  obtain ⟨rfl, e2⟩ := List.append_inj' (Res.ok.inj hi) rfl
  cases e2
  obtain ⟨p', hpp, rfl⟩ := ho
  have hon := TreeAddr.onPath_position hpp
  rw [he] at he'
  cases he'
  refine ⟨fun r hp => ?_, fun c s j hc hp u hu => ?_⟩
  · rw [TreeAddr.indexA false hm.inv hon] at hp
    cases hp
    refine star_gone m hm.inv q' (i :: r) _ _ (by simp) hon (TreeAddr.originErase_place h1 h2) ?_
    intro s j e x ex
    unfold TreeAddr.originErase at ex
    have hself : TreeAddr.strip q' (q' ++ s) = some s := TreeAddr.strip_some.mpr rfl
    have hsi : s = [] ∧ j = i ∨ ∃ s', s = i :: s' := by
      cases s with
      | nil => simp at e; exact .inl ⟨rfl, e.1.symm⟩
      | cons b s => simp at e; exact .inr ⟨s, by rw [e.1]⟩
    cases hs : TreeAddr.strip q' x.list with
    | none =>
      rw [hs] at ex
      simp only [Option.some.injEq] at ex
      subst ex
      rw [hself] at hs; cases hs
    | some w =>
      rw [hs] at ex
      cases w with
      | nil =>
        simp only at ex
        split at ex
        · cases ex
        · rename_i hx
          simp only [Option.some.injEq] at ex
          subst ex
          rw [hself] at hs
          simp only [Option.some.injEq] at hs
          subst hs
          rcases hsi with ⟨_, e'⟩ | ⟨_, e'⟩
          · exact hx (Nat.le_of_eq e'.symm)
          · cases e'
      | cons b w =>
        simp only at ex
        split at ex
        · rename_i hb
          simp only [Option.some.injEq] at ex
          subst ex
          rw [hself] at hs
          simp only [Option.some.injEq] at hs
          subst hs
          rcases hsi with ⟨e', _⟩ | ⟨_, e'⟩
          · cases e'
          · simp at e'; omega
        · rename_i hb
          simp only [Option.some.injEq, Trav.LIter.mk.injEq] at ex
          have := List.append_cancel_left ex.1
          subst this
          rcases hsi with ⟨e', _⟩ | ⟨_, e'⟩
          · cases e'
          · simp at e'; omega
  · rw [TreeAddr.indexA false hm.inv hon] at hp
    cases hp
    have hs : subtree m.forest (q' ++ c :: (s ++ [j])) = some u := by
      rcases Trav.positions_cases hpp with ⟨_, v, hv⟩ | ⟨_, e⟩
      · rw [TreeAddr.starA hm.inv hv] at hu; cases hu; exact hv
      · have := congrArg List.length e; simp at this; omega
    rw [show q' ++ c :: (s ++ [j]) = (q' ++ c :: s) ++ [j] by simp] at hs ⊢
    rw [Trav.subtree_snoc] at hs
    cases hL : Trav.listAt m.forest (q' ++ c :: s) with
    | none => rw [hL] at hs; cases hs
    | some L =>
      rw [hL] at hs
      simp only [Option.bind_some] at hs
      have hL2 : Trav.listAt l (c :: s) = some L := by rw [Trav.listAt_append, h1] at hL; exact hL
      obtain ⟨d, rfl⟩ : ∃ d, c = d + 1 := ⟨c - 1, by omega⟩
      have ho' : TreeAddr.originErase q' i ⟨q' ++ d :: s, j⟩ = some ⟨q' ++ (d + 1) :: s, j⟩ := by
        simp [TreeAddr.originErase, (TreeAddr.strip_some (q := q')).mpr rfl, show ¬ d < i by omega]
      have hc' : (l.eraseIdx i)[d]? = l[d + 1]? := List.getElem?_eraseIdx_of_ge (by omega)
      have hl' : Trav.listAt (Trav.modify (fun l => l.eraseIdx i) m.forest q') (q' ++ d :: s) = some L := by
        rw [TreeAddr.listAt_modify_below _ _ _ l h1]
        simp only [Trav.listAt, hc'] at hL2 ⊢
        exact hL2
      rw [TreeAddr.canonA_snoc]
      simp only [TreeAddr.star, Trav.back_snoc, Res.bind_eq, Res.ok_bind]
      have := TreeAddr.derefA hi' hl' hs
      simp only [TreeAddr.after, ho'] at this
      exact this

/-! ## C98: histories -/

/-- Any number of changes of a forest, none of which touches the path `p`. -/
inductive Untouched (p : Path) : Mem α → Mem α → Prop where
  | refl (m : Mem α) : Untouched p m m
  | insert {m₀ m m' : Mem α} {n : Nat} {it it' : AIter} {q : Path} {i : Nat} (mv cp : Bool) (t : Tree α) : Untouched p m₀ m → AtA m n it →
      TreeAddr.index false m it = .ok (q ++ [i]) → ¬ Touched q i (mv || cp) p → TreeAddr.insert mv cp m it t = .ok (m', it') → Untouched p m₀ m'
  | insert_after {m₀ m m' : Mem α} {n : Nat} {it it' : AIter} {q : Path} {i : Nat} (mv cp : Bool) (t : Tree α) : Untouched p m₀ m → AtA m n it →
      n < (nodes m.forest).length → TreeAddr.index false m it = .ok (q ++ [i]) → ¬ Touched q (i + 1) (mv || cp) p →
      TreeAddr.insert_after mv cp m it t = .ok (m', it') → Untouched p m₀ m'
  | erase {m₀ m m' : Mem α} {n : Nat} {it it' : AIter} {q : Path} {i : Nat} (dbg : Bool) : Untouched p m₀ m → AtA m n it →
      n < (nodes m.forest).length → TreeAddr.index false m it = .ok (q ++ [i]) → ¬ Touched q i false p →
      TreeAddr.erase dbg m it = .ok (m', it') → Untouched p m₀ m'

/-- C98: an iterator outlives any number of insertions and erasures that do not touch its path: it stays valid, at the same index path and at a node with the
same value. -/
theorem C98_history (m m' : Mem α) (hm : Reach m) (n : Nat) (o : AIter) (ho : AtA m n o) (p : Path) (hp : TreeAddr.index false m o = .ok p)
    (hr : Untouched p m m') : Reach m' ∧ (∃ n', AtA m' n' o) ∧ (∀ dbg, TreeAddr.index dbg m' o = .ok p) ∧
      ∀ u, TreeAddr.star m o = .ok u → ∃ u', TreeAddr.star m' o = .ok u' ∧ u'.value = u.value := by
  induction hr with
  | refl =>
    refine ⟨hm, ⟨n, ho⟩, fun dbg => ?_, fun u hu => ⟨u, hu, rfl⟩⟩
    obtain ⟨p', hpp, rfl⟩ := ho
    have ho := TreeAddr.onPath_position hpp
    rw [TreeAddr.indexA false hm.inv ho] at hp
    cases hp
    exact TreeAddr.indexA dbg hm.inv ho
  | insert mv cp t _ ha hi ht he ih =>
    obtain ⟨r1, ⟨n1, a1⟩, i1, s1⟩ := ih
    obtain ⟨a2, i2, s2⟩ := (C98_insert_others mv cp _ r1 _ _ t ha _ _ hi _ _ he _ o a1 p (i1 false)).1 ht
    refine ⟨.insert mv cp t r1 ha he, a2, i2, fun u hu => ?_⟩
    obtain ⟨u1, e1, v1⟩ := s1 u hu
    obtain ⟨u2, e2, v2, _⟩ := s2 u1 e1
    exact ⟨u2, e2, v2.trans v1⟩
  | insert_after mv cp t _ ha hn hi ht he ih =>
    obtain ⟨r1, ⟨n1, a1⟩, i1, s1⟩ := ih
    obtain ⟨a2, i2, s2⟩ := (C98_insert_after_others mv cp _ r1 _ _ t ha hn _ _ hi _ _ he _ o a1 p (i1 false)).1 ht
    refine ⟨.insert_after mv cp t r1 ha hn he, a2, i2, fun u hu => ?_⟩
    obtain ⟨u1, e1, v1⟩ := s1 u hu
    obtain ⟨u2, e2, v2, _⟩ := s2 u1 e1
    exact ⟨u2, e2, v2.trans v1⟩
  | erase dbg _ ha hn hi ht he ih =>
    obtain ⟨r1, ⟨n1, a1⟩, i1, s1⟩ := ih
    obtain ⟨a2, i2, s2⟩ := (C98_erase_others dbg _ r1 _ _ ha hn _ _ hi _ _ he _ o a1 p (i1 false)).1 ht
    refine ⟨.erase dbg r1 ha hn he, a2, i2, fun u hu => ?_⟩
    obtain ⟨u1, e1, v1⟩ := s1 u hu
    obtain ⟨u2, e2, v2, _⟩ := s2 u1 e1
    exact ⟨u2, e2, v2.trans v1⟩

/-! ## Cases -/

/-- The iterator at the node 6 of `forest1` (index path 1) and the one at 3 (index path 0, 0, 0), both valid. -/
example : AtA (TreeAddr.fresh forest1) 5 (canonA (TreeAddr.fresh forest1) [1]) ∧ AtA (TreeAddr.fresh forest1) 2 (canonA (TreeAddr.fresh forest1) [0, 0, 0]) :=
  ⟨⟨[1], by decide +kernel, rfl⟩, ⟨[0, 0, 0], by decide +kernel, rfl⟩⟩

/-- The end of `forest1`, and what incrementing it does. -/
example : TreeAddr.incr true (TreeAddr.fresh forest1) (TreeAddr.end_ (TreeAddr.fresh forest1)) = .abort :=
  ((C98_limits _ (.fresh _) _ _ (C98_begin_end (TreeAddr.fresh forest1)).2).1 rfl).1

/-- Erasing the node 6: the iterator at 3 is not touched and the one at the end is. -/
example : ¬ Touched [] 1 false [0, 0, 0] ∧ Touched [] 1 false [2] ∧ Touched [] 1 true [0, 0, 0] := by
  refine ⟨?_, ⟨2, [], rfl, .inr (by decide)⟩, ⟨0, [0, 0], rfl, .inl rfl⟩⟩
  rintro ⟨k, r, h, e⟩
  simp at h
  simp at e
  omega

/-- After erasing the node 2 (with 3 and 4), the old iterator at 5 is invalid, the one at 6 is valid, and the returned one is at 5. -/
example : (do
    let m := TreeAddr.fresh forest1
    let five := canonA m [0, 1]
    let six := canonA m [1]
    let (m', it) ← TreeAddr.erase true m (canonA m [0, 0])
    let a ← TreeAddr.index true m' it
    let b ← TreeAddr.star m' it
    let c ← TreeAddr.star m' six
    return (a, b.value, c.value, (TreeAddr.star m' five).bind fun t => .ok t.value)) = .ok ([0, 0], 5, 6, .ub .bad_iterator) := by decide +kernel

/-- Inserting a root before 6 with the vector getting a new buffer: the old iterator at 3 still refers to 3, but `++` from it is undefined once it has
to climb to the list of roots. -/
example : (do
    let m := TreeAddr.fresh forest1
    let five := canonA m [0, 1]
    let (m', _) ← TreeAddr.insert true false m (canonA m [1]) (.node 8 [])
    let a ← TreeAddr.star m' five
    return (a.value, TreeAddr.incr true m' five)) = .ok (5, .ub .bad_iterator) := by decide +kernel

end Utki
