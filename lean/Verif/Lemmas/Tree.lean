import Verif.Model.Tree
import Verif.Spec.Tree
import Mathlib.Data.List.Chain
/-! # Lemmas about tree traversal -/
namespace Utki.Trav
open Spec
variable {α : Type}

/-! ## The shape of iterators -/

/-- The list pointers on the way to a path. -/
def canonL (pre : Path) : Path → List Path
  | [] => []
  | i :: r => pre :: canonL (pre ++ [i]) r

/-- The list iterators on the way to a path. -/
def canonI (pre : Path) : Path → List LIter
  | [] => []
  | i :: r => ⟨pre, i⟩ :: canonI (pre ++ [i]) r

/-- The iterator for a path. -/
def canon (p : Path) : Iter := ⟨canonL [] p, canonI [] p⟩

theorem canonL_snoc (pre q : Path) (k : Nat) : canonL pre (q ++ [k]) = canonL pre q ++ [pre ++ q] := by
  induction q generalizing pre with
  | nil => simp [canonL]
  | cons i q ih => simp [canonL, ih]

theorem canonI_snoc (pre q : Path) (k : Nat) : canonI pre (q ++ [k]) = canonI pre q ++ [⟨pre ++ q, k⟩] := by
  induction q generalizing pre with
  | nil => simp [canonI]
  | cons i q ih => simp [canonI, ih]

theorem canonL_length (pre q : Path) : (canonL pre q).length = q.length := by
  induction q generalizing pre with
  | nil => rfl
  | cons i q ih => simp [canonL, ih]

theorem canonI_length (pre q : Path) : (canonI pre q).length = q.length := by
  induction q generalizing pre with
  | nil => rfl
  | cons i q ih => simp [canonI, ih]

theorem canon_snoc (q : Path) (k : Nat) : canon (q ++ [k]) = ⟨canonL [] q ++ [q], canonI [] q ++ [⟨q, k⟩]⟩ := by
  simp [canon, canonL_snoc, canonI_snoc]

@[simp] theorem back_snoc {β : Type} (v : List β) (x : β) : back (v ++ [x]) = .ok x := by simp [back]
@[simp] theorem pop_snoc {β : Type} (v : List β) (x : β) : pop (v ++ [x]) = .ok v := by simp [pop]
@[simp] theorem setBack_snoc {β : Type} (v : List β) (x y : β) : setBack (v ++ [x]) y = .ok (v ++ [y]) := by simp [setBack]

/-! ## Lists and subtrees -/

theorem listAt_append (f : List (Tree α)) (p q : Path) : listAt f (p ++ q) = (listAt f p).bind (fun l => listAt l q) := by
  induction p generalizing f with
  | nil => simp [listAt]
  | cons i p ih =>
    simp only [List.cons_append, listAt]
    cases f[i]? with
    | none => rfl
    | some t => exact ih t.children

theorem listAt_snoc {f : List (Tree α)} {p : Path} {l : List (Tree α)} (h : listAt f p = some l) (i : Nat) :
    listAt f (p ++ [i]) = (l[i]?).map (·.children) := by
  rw [listAt_append, h]
  simp only [Option.bind_some, listAt]
  cases l[i]? <;> rfl

theorem listAt_snoc_some {f : List (Tree α)} {p : Path} {i : Nat} {l : List (Tree α)} (h : listAt f (p ++ [i]) = some l) :
    ∃ L t, listAt f p = some L ∧ L[i]? = some t ∧ t.children = l := by
  rw [listAt_append] at h
  cases hl : listAt f p with
  | none => rw [hl] at h; cases h
  | some L =>
    rw [hl] at h
    simp only [Option.bind_some, listAt] at h
    cases ht : L[i]? with
    | none => rw [ht] at h; cases h
    | some t => rw [ht] at h; simp at h; exact ⟨L, t, rfl, ht, h⟩

theorem subtree_snoc (f : List (Tree α)) (q : Path) (k : Nat) : subtree f (q ++ [k]) = (listAt f q).bind (fun l => l[k]?) := by
  induction q generalizing f with
  | nil => simp [subtree, listAt]
  | cons i q ih =>
    cases q with
    | nil =>
      simp only [List.cons_append, List.nil_append, subtree, listAt]
      cases f[i]? with
      | none => rfl
      | some t => simp
    | cons j q =>
      simp only [List.cons_append, subtree, listAt]
      cases f[i]? with
      | none => rfl
      | some t =>
        simp only
        have := ih t.children
        simp only [List.cons_append, listAt] at this
        exact this

theorem getList_ok {f : List (Tree α)} {p : Path} {l : List (Tree α)} (h : listAt f p = some l) : getList f p = .ok l := by
  simp [getList, h]

theorem endOf_ok {f : List (Tree α)} {p : Path} {l : List (Tree α)} (h : listAt f p = some l) : endOf f p = .ok ⟨p, l.length⟩ := by
  simp [endOf, getList_ok h]

theorem deref_ok {f : List (Tree α)} {p : Path} {l : List (Tree α)} {k : Nat} {t : Tree α} (h : listAt f p = some l) (ht : l[k]? = some t) :
    deref f ⟨p, k⟩ = .ok t := by
  simp [deref, getList_ok h, rd, ht]

theorem advance_ok {f : List (Tree α)} {p : Path} {l : List (Tree α)} {k n : Nat} (h : listAt f p = some l) (hk : k + n ≤ l.length) :
    advance f ⟨p, k⟩ n = .ok ⟨p, k + n⟩ := by
  simp [advance, getList_ok h, hk]

theorem iterEq_same (p : Path) (i j : Nat) : iterEq ⟨p, i⟩ ⟨p, j⟩ = .ok (i == j) := by simp [iterEq]

/-! ## Climbing -/

/-- From a position just behind a child to the next position: as long as the list is exhausted, go behind the owner. -/
inductive Climb (f : List (Tree α)) : Path → Path → Prop where
  | root (k : Nat) : Climb f [k] [k]
  | stop (q : Path) (k : Nat) (l : List (Tree α)) : q ≠ [] → listAt f q = some l → k < l.length → Climb f (q ++ [k]) (q ++ [k])
  | up (q : Path) (j : Nat) (l : List (Tree α)) (r : Path) : listAt f (q ++ [j]) = some l → Climb f (q ++ [j + 1]) r →
      Climb f (q ++ [j] ++ [l.length]) r

theorem climb_total (f : List (Tree α)) (q : Path) (k : Nat) (l : List (Tree α)) (hl : listAt f q = some l) (hk : k ≤ l.length) :
    ∃ r, Climb f (q ++ [k]) r := by
  generalize hn : q.length = n
  induction n generalizing q k l with
  | zero =>
    have : q = [] := List.length_eq_zero_iff.mp hn
    subst this
    exact ⟨[k], .root k⟩
  | succ n ih =>
    by_cases hlt : k < l.length
    · exact ⟨_, .stop q k l (by intro h; subst h; simp at hn) hl hlt⟩
    · have : k = l.length := by omega
      subst this
      rcases List.eq_nil_or_concat q with h | ⟨q', j, h⟩
      · subst h; simp at hn
      · rw [List.concat_eq_append] at h
        subst h
        obtain ⟨L, t, h1, h2, h3⟩ := listAt_snoc_some hl
        have hj : j < L.length := by
          rw [List.getElem?_eq_some_iff] at h2; exact h2.1
        obtain ⟨r, hr⟩ := ih q' (j + 1) L h1 (by omega) (by simpa using hn)
        exact ⟨r, .up q' j l r hl hr⟩

theorem climb_self (f : List (Tree α)) (q : Path) (k : Nat) (l : List (Tree α)) (hl : listAt f q = some l) (hk : k < l.length) :
    Climb f (q ++ [k]) (q ++ [k]) := by
  cases q with
  | nil => exact .root k
  | cons i q => exact .stop (i :: q) k l (by simp) hl hk

theorem snoc_inj {q q' : Path} {k k' : Nat} (h : q ++ [k] = q' ++ [k']) : q = q' ∧ k = k' := by
  have := List.append_inj' h rfl
  simpa using this

theorem climb_fun {f : List (Tree α)} {p r r' : Path} (h : Climb f p r) (h' : Climb f p r') : r = r' := by
  induction h generalizing r' with
  | root k =>
    generalize hp : [k] = p at h'
    cases h' with
    | root k' => exact hp ▸ rfl
    | stop q k' l hq hl hk => rw [← hp]
    | up q j l r hl hr =>
      have := congrArg List.length hp; simp at this
  | stop q k l hq hl hk =>
    generalize hp : q ++ [k] = p at h'
    cases h' with
    | root k' => rfl
    | stop => rfl
    | up q' j l' r hl' hr =>
      obtain ⟨h1, h2⟩ := snoc_inj hp
      subst h1; rw [hl] at hl'; cases hl'; omega
  | up q j l r hl hr ih =>
    generalize hp : q ++ [j] ++ [l.length] = p at h'
    cases h' with
    | root k' => have := congrArg List.length hp; simp at this
    | stop q' k' l' hq' hl' hk' =>
      obtain ⟨h1, h2⟩ := snoc_inj hp
      subst h1; rw [hl] at hl'; cases hl'; omega
    | up q' j' l' r' hl' hr' =>
      obtain ⟨h1, h2⟩ := snoc_inj hp
      obtain ⟨h3, h4⟩ := snoc_inj h1
      subst h3; subst h4
      exact ih hr'

theorem climbLoop_eq {f : List (Tree α)} {p r : Path} (h : Climb f p r) (fuel : Nat) (hf : p.length < fuel) :
    climbLoop f fuel (canon p) = .ok (canon r) := by
  induction h generalizing fuel with
  | root k =>
    cases fuel with
    | zero => simp at hf
    | succ fuel => simp [climbLoop, canon, canonI]
  | stop q k l hq hl hk =>
    cases fuel with
    | zero => simp at hf
    | succ fuel =>
      have : q.length ≠ 0 := by intro h; exact hq (List.length_eq_zero_iff.mp h)
      rw [canon_snoc]
      unfold climbLoop
      simp only [List.length_append, canonI_length, List.length_singleton]
      rw [if_neg (by omega)]
      simp [endOf_ok hl, iterEq_same, show k ≠ l.length by omega]
  | up q j l r hl hr ih =>
    cases fuel with
    | zero => simp at hf
    | succ fuel =>
      obtain ⟨L, t, h1, h2, h3⟩ := listAt_snoc_some hl
      have hj : j < L.length := by
        rw [List.getElem?_eq_some_iff] at h2; exact h2.1
      rw [canon_snoc]
      unfold climbLoop
      simp only [List.length_append, canonI_length, List.length_singleton]
      rw [if_neg (by omega)]
      simp only [back_snoc, Res.bind_eq, Res.ok_bind, endOf_ok hl, iterEq_same, beq_self_eq_true, if_true, pop_snoc, canonI_snoc,
        canonL_snoc, List.nil_append, advance_ok h1 (show j + 1 ≤ L.length by omega), setBack_snoc]
      have := ih fuel (by simp at hf ⊢; omega)
      rw [canon_snoc] at this
      exact this

theorem eraseLoop_eq (dbg : Bool) {f : List (Tree α)} {p r : Path} (h : Climb f p r) (fuel : Nat) (hf : p.length < fuel) :
    eraseLoop dbg f fuel (canon p) = .ok (canon r) := by
  induction h generalizing fuel with
  | root k =>
    cases fuel with
    | zero => simp at hf
    | succ fuel => simp [eraseLoop, canon, canonI]
  | stop q k l hq hl hk =>
    cases fuel with
    | zero => simp at hf
    | succ fuel =>
      have : q.length ≠ 0 := by intro h; exact hq (List.length_eq_zero_iff.mp h)
      rw [canon_snoc]
      unfold eraseLoop
      simp only [List.length_append, canonI_length, List.length_singleton]
      rw [if_pos (by omega)]
      simp [endOf_ok hl, iterEq_same, show k ≠ l.length by omega]
  | up q j l r hl hr ih =>
    cases fuel with
    | zero => simp at hf
    | succ fuel =>
      obtain ⟨L, t, h1, h2, h3⟩ := listAt_snoc_some hl
      have hj : j < L.length := by
        rw [List.getElem?_eq_some_iff] at h2; exact h2.1
      rw [canon_snoc]
      unfold eraseLoop
      simp only [List.length_append, canonI_length, List.length_singleton]
      rw [if_pos (by omega)]
      simp only [back_snoc, Res.bind_eq, Res.ok_bind, endOf_ok hl, iterEq_same, beq_self_eq_true, if_true, pop_snoc, canonI_snoc,
        canonL_snoc, List.nil_append, advance_ok h1 (show j + 1 ≤ L.length by omega), setBack_snoc, List.length_append,
        canonI_length, canonL_length, List.length_singleton, ASSERT_true]
      have := ih fuel (by simp at hf ⊢; omega)
      rw [canon_snoc] at this
      exact this

/-! ## Steps -/

/-- One step of the traversal: to the first child, or behind a leaf. -/
inductive Step (f : List (Tree α)) : Path → Path → Prop where
  | down (q : Path) (k : Nat) (l : List (Tree α)) (t : Tree α) : listAt f q = some l → l[k]? = some t → t.children ≠ [] →
      Step f (q ++ [k]) (q ++ [k] ++ [0])
  | leaf (q : Path) (k : Nat) (l : List (Tree α)) (t : Tree α) (r : Path) : listAt f q = some l → l[k]? = some t → t.children = [] →
      Climb f (q ++ [k + 1]) r → Step f (q ++ [k]) r

theorem isEmpty_snoc {β : Type} (v : List β) (x : β) : (v ++ [x]).isEmpty = false := by simp

theorem incr_step (dbg : Bool) {f : List (Tree α)} {p r : Path} (h : Step f p r) : incr dbg f (canon p) = .ok (canon r) := by
  cases h with
  | down q k l t hl ht hc =>
    have hk : k < l.length := by rw [List.getElem?_eq_some_iff] at ht; exact ht.1
    have hb : (k == l.length) = false := by simp; omega
    have hc' : t.children.isEmpty = false := by simpa using hc
    rw [canon_snoc, canon_snoc, canonL_snoc, canonI_snoc]
    unfold incr
    cases dbg <;> simp only [isEmpty_snoc, Bool.not_false, ASSERT_true, ASSERT_false_false, List.length_append, canonI_length,
      canonL_length, beq_self_eq_true, back_snoc, Res.bind_eq, Res.ok_bind, endOf_ok hl, iterEq_same, hb, deref_ok hl ht, hc',
      beginOf, List.nil_append, if_true, Res.pure_eq, if_false, Bool.false_eq_true, List.length_singleton]
  | leaf q k l t r hl ht hc hr =>
    have hk : k < l.length := by rw [List.getElem?_eq_some_iff] at ht; exact ht.1
    have hb : (k == l.length) = false := by simp; omega
    have hc' : t.children.isEmpty = true := by simpa using hc
    have := climbLoop_eq hr (q.length + 1 + 1) (by simp)
    rw [canon_snoc] at this ⊢
    unfold incr
    cases dbg <;> simp only [isEmpty_snoc, Bool.not_false, ASSERT_true, ASSERT_false_false, List.length_append, canonI_length,
      canonL_length, beq_self_eq_true, back_snoc, Res.bind_eq, Res.ok_bind, endOf_ok hl, iterEq_same, hb, deref_ok hl ht, hc',
      if_true, Res.pure_eq, if_false, Bool.false_eq_true, List.length_singleton, Bool.not_true,
      advance_ok hl (show k + 1 ≤ l.length by omega), setBack_snoc, this, show decide (1 ≤ q.length + 1) = true by simp]

/-- Length of a path in a forest. -/
theorem path_height (f : List (Tree α)) (q : Path) (l : List (Tree α)) (k : Nat) (hl : listAt f q = some l) (hk : k < l.length) :
    q.length + 1 ≤ Tree.heightList f := by
  have hmem : ∀ (ts : List (Tree α)) (t : Tree α), t ∈ ts → t.height ≤ Tree.heightList ts := by
    intro ts
    induction ts with
    | nil => intro t ht; cases ht
    | cons a ts ih =>
      intro t ht
      simp only [Tree.heightList]
      rcases List.mem_cons.mp ht with h | h
      · subst h; omega
      · have := ih t h; omega
  have hh : ∀ t : Tree α, t.height = Tree.heightList t.children + 1 := by intro t; cases t; simp [Tree.height, Tree.children]
  induction q generalizing f with
  | nil =>
    simp [listAt] at hl; subst hl
    have h1 := hmem f f[k] (List.getElem_mem hk)
    have h2 := hh f[k]
    simp; omega
  | cons i q ih =>
    simp only [listAt] at hl
    cases ht : f[i]? with
    | none => rw [ht] at hl; cases hl
    | some t =>
      rw [ht] at hl; simp only at hl
      have h1 := ih t.children hl
      have h2 := hmem f t (List.mem_of_getElem? ht)
      have h3 := hh t
      simp; omega

theorem descend_up (dbg : Bool) {f : List (Tree α)} {q : Path} {j : Nat} {l : List (Tree α)} (hl : listAt f (q ++ [j]) = some l)
    (hne : l ≠ []) (fuel : Nat) :
    descendLoop dbg f (fuel + 1) (canon (q ++ [j + 1])) = descendLoop dbg f fuel (canon (q ++ [j] ++ [l.length])) := by
  obtain ⟨L, t, h1, h2, h3⟩ := listAt_snoc_some hl
  have hc' : t.children.isEmpty = false := by rw [h3]; simpa using hne
  have hb : (j + 1 == 0) = false := by simp
  conv => lhs; unfold descendLoop
  rw [canon_snoc, canon_snoc, canonL_snoc, canonI_snoc]
  cases dbg <;> simp only [back_snoc, Res.bind_eq, Res.ok_bind, beginOf, iterEq_same, hb, Bool.not_false, ASSERT_true, retreat,
    Nat.succ_ne_zero, Nat.add_sub_cancel, setBack_snoc, deref_ok h1 h2, hc', endOf_ok hl, if_true, if_false, List.nil_append,
    Bool.false_eq_true, Res.pure_eq]

theorem descend_leaf (dbg : Bool) {f : List (Tree α)} {q : Path} {k : Nat} {l : List (Tree α)} {t : Tree α} (hl : listAt f q = some l)
    (ht : l[k]? = some t) (hc : t.children = []) (fuel : Nat) :
    descendLoop dbg f (fuel + 1) (canon (q ++ [k + 1])) = .ok (canon (q ++ [k])) := by
  have hc' : t.children.isEmpty = true := by simpa using hc
  have hb : (k + 1 == 0) = false := by simp
  unfold descendLoop
  rw [canon_snoc, canon_snoc]
  cases dbg <;> simp only [back_snoc, Res.bind_eq, Res.ok_bind, beginOf, iterEq_same, hb, Bool.not_false, ASSERT_true, retreat,
    Nat.succ_ne_zero, Nat.add_sub_cancel, setBack_snoc, deref_ok hl ht, hc', if_true, if_false, Bool.not_true,
    Bool.false_eq_true, Res.pure_eq]

/-- Walking back from the end of the climb is walking back from its start. -/
theorem descend_climb (dbg : Bool) {f : List (Tree α)} {p r : Path} (h : Climb f p r) (q : Path) (k : Nat) (hp : p = q ++ [k + 1]) :
    (∃ q' k', r = q' ++ [k' + 1]) ∧ ∃ n, r.length + n = p.length ∧
      ∀ fuel, descendLoop dbg f (fuel + n) (canon r) = descendLoop dbg f fuel (canon p) := by
  induction h generalizing q k with
  | root j => exact ⟨⟨q, k, hp⟩, 0, by simp, fun fuel => rfl⟩
  | stop => exact ⟨⟨q, k, hp⟩, 0, by simp, fun fuel => rfl⟩
  | up q' j l r hl hr ih =>
    obtain ⟨h1, n, h2, h3⟩ := ih q' j rfl
    have hne : l ≠ [] := by
      have := (snoc_inj hp).2
      intro h; subst h; simp at this
    refine ⟨h1, n + 1, by simp at h2 ⊢; omega, fun fuel => ?_⟩
    rw [show fuel + (n + 1) = (fuel + 1) + n by omega, h3, descend_up dbg hl hne]

theorem decr_step (dbg : Bool) {f : List (Tree α)} {p r : Path} (h : Step f p r) : decr dbg f (canon r) = .ok (canon p) := by
  cases h with
  | down q k l t hl ht hc =>
    rw [canon_snoc]
    unfold decr
    simp only [isEmpty_snoc, Bool.not_false, ASSERT_true, back_snoc, Res.bind_eq, Res.ok_bind, beginOf, iterEq_same,
      beq_self_eq_true, if_true, pop_snoc, Res.pure_eq]
    rfl
  | leaf q k l t r hl ht hc hr =>
    have hk : k < l.length := by rw [List.getElem?_eq_some_iff] at ht; exact ht.1
    obtain ⟨⟨q', k', he⟩, n, h2, h3⟩ := descend_climb dbg hr q k rfl
    have hh := path_height f q l k hl hk
    have hd : descendLoop dbg f (Tree.heightList f + 1) (canon r) = .ok (canon (q ++ [k])) := by
      have hn : n ≤ Tree.heightList f := by simp at h2; omega
      have := h3 (Tree.heightList f + 1 - n)
      rw [show Tree.heightList f + 1 - n + n = Tree.heightList f + 1 by omega] at this
      rw [this, show Tree.heightList f + 1 - n = (Tree.heightList f - n) + 1 by omega]
      exact descend_leaf dbg hl ht hc _
    subst he
    rw [canon_snoc] at hd ⊢
    unfold decr
    have hb : (k' + 1 == 0) = false := by simp
    simp only [isEmpty_snoc, Bool.not_false, ASSERT_true, back_snoc, Res.bind_eq, Res.ok_bind, beginOf, iterEq_same, hb, hd,
      Bool.false_eq_true, if_false]

/-! ## The traversal order -/

/-- The paths of a list in pre-order followed by the position after the list are linked by steps. -/
theorem chain_list (n : Nat) (f : List (Tree α)) (pre : Path) (L : List (Tree α)) (i : Nat) (ts : List (Tree α)) (e : Path)
    (hn : sizeOf ts < n) (hL : listAt f pre = some L) (hi : L.drop i = ts) (hiL : i ≤ L.length)
    (he : Climb f (pre ++ [L.length]) e) :
    ∃ a rest, (nodesList pre i ts).map (·.1) ++ [e] = a :: rest ∧ List.IsChain (Step f) (a :: rest) ∧ Climb f (pre ++ [i]) a := by
  induction n generalizing pre L i ts e with
  | zero => omega
  | succ n ih =>
    cases ts with
    | nil =>
      have hil : i = L.length := by
        have := congrArg List.length hi; simp at this; omega
      subst hil
      exact ⟨e, [], by simp [nodesList], by simp, he⟩
    | cons t ts =>
      cases t with
      | node v cs =>
        have hlt : i < L.length := by
          have := congrArg List.length hi; simp at this; omega
        have ht : L[i]? = some (.node v cs) := by
          have := congrArg (fun l => l[0]?) hi
          simpa using this
        have hdrop : L.drop (i + 1) = ts := by
          rw [← List.drop_drop, hi]; rfl
        simp only [List.cons.sizeOf_spec, Tree.node.sizeOf_spec] at hn
        obtain ⟨a, rest, ha, c1, c2⟩ := ih pre L (i + 1) ts e (by omega) hL hdrop (by omega) he
        have hcs : listAt f (pre ++ [i]) = some cs := by rw [listAt_snoc hL, ht]; rfl
        have hup : Climb f (pre ++ [i] ++ [cs.length]) a := .up pre i cs _ hcs c2
        obtain ⟨b, crest, hb, d1, d2⟩ := ih (pre ++ [i]) cs 0 cs a (by omega) hcs rfl (by omega) hup
        refine ⟨pre ++ [i], (nodesList (pre ++ [i]) 0 cs).map (·.1) ++ a :: rest, ?_, ?_, climb_self f pre i L hL hlt⟩
        · rw [← ha]; simp [nodesList, nodesTree]
        · have hchild : List.IsChain (Step f) ((nodesList (pre ++ [i]) 0 cs).map (·.1) ++ a :: rest) := by
            rw [show (nodesList (pre ++ [i]) 0 cs).map (·.1) ++ a :: rest =
              ((nodesList (pre ++ [i]) 0 cs).map (·.1) ++ [a]) ++ rest by simp, List.isChain_append, hb]
            refine ⟨d1, c1.tail, ?_⟩
            intro x hx y hy
            rw [← hb] at hx
            simp at hx; subst hx
            exact (List.isChain_cons.mp c1).1 y hy
          rw [List.isChain_cons]
          refine ⟨?_, hchild⟩
          intro y hy
          cases cs with
          | nil =>
            simp [nodesList] at hy; subst hy
            exact .leaf pre i L _ _ hL ht rfl c2
          | cons c cs' =>
            have : y = pre ++ [i] ++ [0] := by
              cases c with
              | node w ds => simp [nodesList, nodesTree] at hy; simpa using hy.symm
            subst this
            exact .down pre i L _ hL ht (by simp [Tree.children])

/-- The positions of a forest are linked by steps. -/
theorem chain_positions (f : List (Tree α)) : List.IsChain (Step f) (positions f) := by
  obtain ⟨a, rest, h1, h2, _⟩ := chain_list (sizeOf f + 1) f [] f 0 f [f.length] (by omega) rfl rfl (by omega) (.root _)
  unfold positions nodes
  rw [h1]; exact h2

theorem positions_head (f : List (Tree α)) : (positions f)[0]? = some [0] := by
  cases f with
  | nil => rfl
  | cons t ts => cases t; simp [positions, nodes, nodesList, nodesTree]

theorem positions_length (f : List (Tree α)) : (positions f).length = (nodes f).length + 1 := by simp [positions]

theorem positions_last (f : List (Tree α)) : (positions f)[(nodes f).length]? = some [f.length] := by
  simp [positions]

theorem positions_step (f : List (Tree α)) (n : Nat) (p r : Path) (hp : (positions f)[n]? = some p) (hr : (positions f)[n + 1]? = some r) :
    Step f p r := by
  have := chain_positions f
  rw [List.isChain_iff_getElem] at this
  rw [List.getElem?_eq_some_iff] at hp hr
  obtain ⟨h1, rfl⟩ := hp
  obtain ⟨h2, rfl⟩ := hr
  exact this n h2

end Utki.Trav
