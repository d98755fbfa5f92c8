import Verif.Lemmas.TreeMemory
import Verif.Props.Tree
/-!
# C95: moving a traversal iterator when memory runs out

The iterator keeps two stacks that grow as it goes down the tree. `plan` says which of the following requests for memory succeed; after its end all do.
-/
namespace Utki
open Spec Trav
variable {α : Type}

/-- The iterator looks like one at the node with number `m`, which has children, but one of its stacks is longer than the other. `C95_broken` says what
that means for the user. -/
def Broken (f : List (Tree α)) (m : Nat) (it : Iter) : Prop :=
  ∃ it0 p t, At f m it0 ∧ (nodes f)[m]? = some (p, t.value) ∧ subtree f p = some t ∧ t.children ≠ [] ∧ it.iter_stack = it0.iter_stack ∧
    it.list_stack = it0.list_stack ++ [p]

theorem at_node {f : List (Tree α)} {n : Nat} {it : Iter} (h : At f n it) {t : Tree α} (ht : star f it = .ok t) :
    ∃ q k l, it = canon (q ++ [k]) ∧ (positions f)[n]? = some (q ++ [k]) ∧ listAt f q = some l ∧ l[k]? = some t ∧ subtree f (q ++ [k]) = some t := by
  obtain ⟨p, hp, rfl⟩ := h
  rcases positions_cases hp with ⟨_, t', ht'⟩ | ⟨_, rfl⟩
  · rw [star_canon ht'] at ht
    cases ht
    obtain ⟨q, k, l, rfl, h1, h2⟩ := subtree_split ht'
    exact ⟨q, k, l, rfl, hp, h1, h2, ht'⟩
  · rw [show canon [f.length] = end_ f from rfl] at ht
    simp [star, end_, back, deref, getList, listAt, rd] at ht

theorem node_of_position {f : List (Tree α)} {m : Nat} {p : Path} {t : Tree α} (hp : (positions f)[m]? = some p) (ht : subtree f p = some t) :
    (nodes f)[m]? = some (p, t.value) := by
  have hm : (p, t.value) ∈ nodes f := (mem_nodes f p t.value).mpr ⟨t, ht, rfl⟩
  obtain ⟨i, hi, he⟩ := List.getElem_of_mem hm
  have hi' : (positions f)[i]? = some p := by
    unfold positions
    rw [List.getElem?_append_left (by simpa using hi), List.getElem?_map, List.getElem?_eq_getElem hi, he]
    rfl
  have := positions_inj f m i p hp hi'
  subst this
  rw [List.getElem?_eq_getElem hi, he]

theorem broken_at {f : List (Tree α)} {m : Nat} {p : Path} {t : Tree α} (hp : (positions f)[m]? = some p) (ht : subtree f p = some t)
    (hc : t.children ≠ []) : Broken f m (broken p) :=
  ⟨canon p, p, t, ⟨p, hp, rfl⟩, node_of_position hp ht, ht, hc, rfl, rfl⟩

/-- A proper part of the path of a node leads to a node before it. -/
theorem ancestor_position {f : List (Tree α)} {n m : Nat} {p : Path} {t : Tree α} (hp : (positions f)[n]? = some p) (ht : subtree f p = some t)
    (hm : 0 < m) (hlt : m < p.length) :
    ∃ i u, i < n ∧ (positions f)[i]? = some (p.take m) ∧ subtree f (p.take m) = some u ∧ u.children ≠ [] := by
  have hsplit : p = p.take m ++ p.drop m := (List.take_append_drop m p).symm
  obtain ⟨j, rest, hd⟩ : ∃ j rest, p.drop m = j :: rest := by
    cases h : p.drop m with
    | nil => simp at h; omega
    | cons j rest => exact ⟨j, rest, rfl⟩
  obtain ⟨q, k, hqk⟩ : ∃ q k, p.take m = q ++ [k] := by
    rcases List.eq_nil_or_concat (p.take m) with h | ⟨q, k, h⟩
    · simp at h; rcases h with h | h
      · omega
      · subst h; simp at hlt
    · exact ⟨q, k, by rw [h, List.concat_eq_append]⟩
  obtain ⟨q', k', l', he, hl', hk'⟩ := subtree_split ht
  have hex : ∃ L, listAt f (p.take m) = some L ∧ L ≠ [] := by
    have hq' : ∃ r, q' = p.take m ++ r := by
      refine ⟨(p.drop m).dropLast, ?_⟩
      have : q' = p.dropLast := by rw [he]; simp
      rw [this]
      conv => lhs; rw [hsplit]
      rw [List.dropLast_append_of_ne_nil (by rw [hd]; simp)]
    obtain ⟨r, hr⟩ := hq'
    rw [hr, listAt_append] at hl'
    cases hL : listAt f (p.take m) with
    | none => rw [hL] at hl'; cases hl'
    | some L =>
      refine ⟨L, rfl, ?_⟩
      rintro rfl
      rw [hL] at hl'
      cases r with
      | nil => simp [listAt] at hl'; subst hl'; simp at hk'
      | cons a r => simp [listAt] at hl'
  obtain ⟨L, hL, hne⟩ := hex
  rw [hqk] at hL
  obtain ⟨L0, u, h1, h2, h3⟩ := listAt_snoc_some hL
  have hu : subtree f (p.take m) = some u := by rw [hqk, subtree_snoc, h1]; exact h2
  obtain ⟨i, hi⟩ := List.getElem?_of_mem (show p.take m ∈ positions f from
    List.mem_append_left _ ((mem_paths f _).mpr ⟨u, hu⟩))
  refine ⟨i, u, ?_, hi, hu, by rw [h3]; exact hne⟩
  have hlex := positions_lex f i n _ p hi hp
  have : lexB (p.take m) p = true := by
    conv => lhs; arg 2; rw [hsplit, hd]
    conv => lhs; arg 1; rw [← List.append_nil (p.take m)]
    rw [lexB_prefix]; rfl
  rw [this] at hlex
  simpa using hlex.symm

/-- C95: as long as there is memory, `++` and `--` move to the next and the previous position, as in C37 and C38. -/
theorem C95_enough_memory (dbg : Bool) (f : List (Tree α)) (n : Nat) (it : Iter) (h : At f n it) (plan : List Bool) (mem : ∀ b ∈ plan, b = true) :
    (n < (nodes f).length → ∃ s', incrM dbg f ⟨it, plan⟩ = (.ok (), s') ∧ At f (n + 1) s'.it ∧ incr dbg f it = .ok s'.it) ∧
    (0 < n → ∃ s', decrM dbg f ⟨it, plan⟩ = (.ok (), s') ∧ At f (n - 1) s'.it ∧ decr dbg f it = .ok s'.it) := by
  have hno : ∀ i : Nat, plan[i]? ≠ some false := by
    intro i hi
    have := mem false (List.mem_of_getElem? hi)
    cases this
  obtain ⟨p, hp, rfl⟩ := h
  constructor
  · intro hn
    have hlt : n + 1 < (positions f).length := by rw [positions_length]; omega
    have hr := List.getElem?_eq_getElem hlt
    have hs := positions_step f n p _ hp hr
    have h1 := incr_step dbg hs
    generalize (positions f)[n + 1] = r at *
    cases hs with
    | down q k l t hl ht hc =>
      rw [incrM_down dbg hl ht hc, if_neg (hno 0), if_neg (hno 1)]
      exact ⟨_, rfl, ⟨_, hr, rfl⟩, h1⟩
    | leaf q k l t r hl ht hc hcl =>
      rw [incrM_leaf dbg hl ht hc hcl]
      exact ⟨_, rfl, ⟨_, hr, rfl⟩, h1⟩
  · intro hn
    obtain ⟨m, rfl⟩ : ∃ m, n = m + 1 := ⟨n - 1, by omega⟩
    have hlt : m < (positions f).length := by rw [List.getElem?_eq_some_iff] at hp; have := hp.1; omega
    have hr := List.getElem?_eq_getElem hlt
    have hs := positions_step f m _ p hr hp
    exact ⟨_, (decrM_step dbg hs plan).1 (fun i _ => hno i), ⟨_, hr, rfl⟩, decr_step dbg hs⟩

/-- C95: at the end `++` asks for no memory: it aborts in a debug build and is undefined in a release build, as without regard to memory. -/
theorem C95_end (f : List (Tree α)) (it : Iter) (h : At f (nodes f).length it) (plan : List Bool) :
    incrM true f ⟨it, plan⟩ = (.abort, ⟨it, plan⟩) ∧ incrM false f ⟨it, plan⟩ = (.ub .oob_read, ⟨it, plan⟩) ∧
    incr true f it = .abort ∧ incr false f it = .ub .oob_read := by
  obtain ⟨p, hp, rfl⟩ := h
  have : p = [f.length] := by simpa [positions] using hp.symm
  subst this
  have hc : canon [f.length] = ⟨[[]], [⟨[], f.length⟩]⟩ := rfl
  rw [hc]
  have b1 : back [(⟨[], f.length⟩ : LIter)] = .ok ⟨[], f.length⟩ := rfl
  have b2 : back [([] : Path)] = .ok [] := rfl
  have b3 : endOf f [] = .ok ⟨[], f.length⟩ := rfl
  have b4 : iterEq ⟨[], f.length⟩ ⟨[], f.length⟩ = .ok true := by simp [iterEq]
  have b5 : deref f ⟨[], f.length⟩ = .ub .oob_read := by
    show rd f f.length = _
    simp [rd]
  refine ⟨?_, ?_, ?_, ?_⟩
  · simp [incrM, notEnd, b1, b2, b3, b4, ASSERT, Meth.bind_apply, Meth.bind]
  · simp [incrM, notEnd, b1, b5, Meth.bind_apply, Meth.bind]
  · simp [incr, b1, b2, b3, b4, ASSERT]
  · simp [incr, b1, b5]

/-- C95, part: `++` at a node without children asks for no memory; at a node with children, if the first request for memory fails, it throws
`std::bad_alloc` and the iterator is what it was. Missing: the second request (`C95_next_wrong`). -/
theorem C95_next_partial (dbg : Bool) (f : List (Tree α)) (n : Nat) (it : Iter) (h : At f n it) (t : Tree α) (ht : star f it = .ok t) (plan : List Bool) :
    (t.children = [] → ∃ it', incrM dbg f ⟨it, plan⟩ = (.ok (), ⟨it', plan⟩) ∧ At f (n + 1) it') ∧
    (t.children ≠ [] → plan[0]? = some false → incrM dbg f ⟨it, plan⟩ = (.throw .bad_alloc, ⟨it, plan.drop 1⟩)) ∧
    (t.children ≠ [] → plan[0]? ≠ some false → plan[1]? ≠ some false → ∃ it', incrM dbg f ⟨it, plan⟩ = (.ok (), ⟨it', plan.drop 2⟩) ∧ At f (n + 1) it') := by
  obtain ⟨q, k, l, rfl, hp, hl, hk, hs⟩ := at_node h ht
  have hn : n < (nodes f).length := by
    rcases positions_cases hp with ⟨h1, _⟩ | ⟨_, h2⟩
    · exact h1
    · have hq : q = [] := by
        have := congrArg List.length h2; simp at this; exact this
      subst hq
      simp at h2
      subst h2
      simp [listAt] at hl
      subst hl
      simp at hk
  have hlt : n + 1 < (positions f).length := by rw [positions_length]; omega
  have hr := List.getElem?_eq_getElem hlt
  have hst := positions_step f n _ _ hp hr
  have at' : ∀ r, Step f (q ++ [k]) r → At f (n + 1) (canon r) := by
    intro r hr'
    have h1 := incr_step dbg hr'
    have h2 := incr_step dbg hst
    rw [h1] at h2
    exact ⟨_, hr, by simpa using h2⟩
  refine ⟨fun hc => ?_, fun hc h0 => ?_, fun hc h0 h1 => ?_⟩
  · obtain ⟨r, hcl⟩ := climb_total f q (k + 1) l hl (by rw [List.getElem?_eq_some_iff] at hk; have := hk.1; omega)
    exact ⟨canon r, incrM_leaf dbg hl hk hc hcl plan, at' r (.leaf q k l t r hl hk hc hcl)⟩
  · rw [incrM_down dbg hl hk hc, if_pos h0]
  · refine ⟨_, by rw [incrM_down dbg hl hk hc, if_neg h0, if_neg h1], at' _ (.down q k l t hl hk hc)⟩

/-- C95 fails for `++`: if the second request for memory fails, the iterator is left broken. -/
theorem C95_next_wrong (dbg : Bool) (f : List (Tree α)) (n : Nat) (it : Iter) (h : At f n it) (t : Tree α) (ht : star f it = .ok t) (plan : List Bool)
    (hc : t.children ≠ []) (h0 : plan[0]? ≠ some false) (h1 : plan[1]? = some false) :
    ∃ it', incrM dbg f ⟨it, plan⟩ = (.throw .bad_alloc, ⟨it', plan.drop 2⟩) ∧ Broken f n it' := by
  obtain ⟨q, k, l, rfl, hp, hl, hk, hs⟩ := at_node h ht
  exact ⟨broken (q ++ [k]), by rw [incrM_down dbg hl hk hc, if_neg h0, if_pos h1], broken_at hp hs hc⟩

/-- C95, part: `--` goes down from the iterator's depth to that of the node before it, and asks for memory twice for each level. If the request with
the even number `i` (from 0) is the first one that fails, the iterator is left at a node it would have passed, an ancestor of the node it was to go to.
Missing: requests with odd numbers (`C95_prev_wrong`). -/
theorem C95_prev_partial (dbg : Bool) (f : List (Tree α)) (n : Nat) (it : Iter) (p : Path) (h : At f (n + 1) it) (hp : (positions f)[n]? = some p)
    (plan : List Bool) :
    ((∀ i, i < 2 * (p.length - depth it) → plan[i]? ≠ some false) →
      ∃ it', decrM dbg f ⟨it, plan⟩ = (.ok (), ⟨it', plan.drop (2 * (p.length - depth it))⟩) ∧ At f n it') ∧
    (∀ i, i < 2 * (p.length - depth it) → plan[i]? = some false → (∀ j, j < i → plan[j]? ≠ some false) → i % 2 = 0 →
      ∃ it' m, decrM dbg f ⟨it, plan⟩ = (.throw .bad_alloc, ⟨it', plan.drop (i + 1)⟩) ∧ m < n ∧ At f m it' ∧ index dbg it' = .ok (p.take (depth it + i / 2))) := by
  obtain ⟨r, hr, rfl⟩ := h
  have hd : depth (canon r) = r.length := by simp [depth, canon, canonI_length]
  have hst := positions_step f n p r hp hr
  rw [hd]
  refine ⟨fun hok => ⟨_, (decrM_step dbg hst plan).1 hok, p, hp, rfl⟩, fun i hi hf hj he => ?_⟩
  have := (decrM_step dbg hst plan).2 i hi hf hj
  rw [if_pos he] at this
  have hr0 : 0 < r.length := by
    cases hst with
    | down => simp
    | leaf q k l t r hl ht hc hcl =>
      obtain ⟨⟨q', k', he⟩, _⟩ := descendM_climb dbg hcl q k rfl
      rw [he]; simp
  have hnode : ∃ t, subtree f p = some t := by
    rcases positions_cases hp with ⟨_, h1⟩ | ⟨h2, _⟩
    · exact h1
    · have : n + 1 < (positions f).length := by rw [List.getElem?_eq_some_iff] at hr; exact hr.1
      rw [positions_length] at this; omega
  obtain ⟨t, ht⟩ := hnode
  obtain ⟨m, u, hm, hpm, _⟩ := ancestor_position hp ht (m := r.length + i / 2) (by omega) (by omega)
  exact ⟨_, m, this, hm, ⟨_, hpm, rfl⟩, index_canon dbg _⟩

/-- C95 fails for `--`: if the request with the odd number `i` is the first one that fails, the iterator is left broken. -/
theorem C95_prev_wrong (dbg : Bool) (f : List (Tree α)) (n : Nat) (it : Iter) (p : Path) (h : At f (n + 1) it) (hp : (positions f)[n]? = some p)
    (plan : List Bool) (i : Nat) (hi : i < 2 * (p.length - depth it)) (hf : plan[i]? = some false) (hj : ∀ j, j < i → plan[j]? ≠ some false)
    (odd : i % 2 = 1) :
    ∃ it' m, decrM dbg f ⟨it, plan⟩ = (.throw .bad_alloc, ⟨it', plan.drop (i + 1)⟩) ∧ m < n ∧ Broken f m it' := by
  obtain ⟨r, hr, rfl⟩ := h
  have hd : depth (canon r) = r.length := by simp [depth, canon, canonI_length]
  have hst := positions_step f n p r hp hr
  rw [hd] at hi
  have := (decrM_step dbg hst plan).2 i hi hf hj
  rw [if_neg (by omega)] at this
  have hr0 : 0 < r.length := by
    cases hst with
    | down => simp
    | leaf q k l t r hl ht hc hcl =>
      obtain ⟨⟨q', k', he⟩, _⟩ := descendM_climb dbg hcl q k rfl
      rw [he]; simp
  have hnode : ∃ t, subtree f p = some t := by
    rcases positions_cases hp with ⟨_, h1⟩ | ⟨h2, _⟩
    · exact h1
    · have : n + 1 < (positions f).length := by rw [List.getElem?_eq_some_iff] at hr; exact hr.1
      rw [positions_length] at this; omega
  obtain ⟨t, ht⟩ := hnode
  obtain ⟨m, u, hm, hpm, hu, huc⟩ := ancestor_position hp ht (m := r.length + i / 2) (by omega) (by omega)
  exact ⟨_, m, this, hm, broken_at hpm hu huc⟩

/-- C95: what can be done with a broken iterator. Dereferencing and comparing it is as if it were at its node. `++` and `index` abort in a debug build.
`--`, `is_last_child`, `insert`, `insert_after` and `erase` are undefined. -/
theorem C95_broken (dbg : Bool) (f : List (Tree α)) (m : Nat) (it : Iter) (h : Broken f m it) (plan : List Bool) :
    (∃ it0, At f m it0 ∧ star f it = star f it0 ∧ (∀ other, Trav.eq it other = Trav.eq it0 other ∧ Trav.lt it other = Trav.lt it0 other) ∧
      depth it = depth it0) ∧
    incrM true f ⟨it, plan⟩ = (.abort, ⟨it, plan⟩) ∧ index true it = .abort ∧
    decrM dbg f ⟨it, plan⟩ = (.ub .bad_iterator, ⟨it, plan⟩) ∧ is_last_child f it = .ub .bad_iterator ∧
    (∀ t, Trav.insert f it t = .ub .bad_iterator ∧ insert_after f it t = .ub .bad_iterator) ∧ erase dbg f it = .ub .bad_iterator := by
  obtain ⟨it0, p, t, ⟨p', hp', rfl⟩, hn, ht, hc, h1, h2⟩ := h
  have : p' = p := by
    have hlt : m < (nodes f).length := by rw [List.getElem?_eq_some_iff] at hn; exact hn.1
    unfold positions at hp'
    rw [List.getElem?_append_left (by simpa using hlt), List.getElem?_map, hn] at hp'
    simpa using hp'.symm
  subst this
  obtain ⟨q, k, l, rfl, hl, hk⟩ := subtree_split ht
  have hklt : k < l.length := by rw [List.getElem?_eq_some_iff] at hk; exact hk.1
  obtain ⟨ls, is⟩ := it
  simp only [] at h1 h2
  have h1' := h1
  have h2' := h2
  rw [canon_snoc] at h1' h2'
  simp only [] at h1' h2'
  have hcl : listAt f (q ++ [k]) = some t.children := by rw [listAt_snoc hl, hk]; rfl
  have hne : ∀ x y : Nat, iterEq ⟨q, x⟩ ⟨q ++ [k], y⟩ = .ub .bad_iterator := by
    intro x y
    simp only [iterEq]
    rw [if_neg]
    intro e
    have := congrArg List.length e
    simp at this
  have hlen : (is.length == ls.length) = false := by
    rw [h1', h2']; simp [canonI_length, canonL_length]
  have hbk : back is = .ok ⟨q, k⟩ := by rw [h1', back_snoc]
  have hbl : back ls = .ok (q ++ [k]) := by rw [h2', back_snoc]
  have hie : is.isEmpty = false := by rw [h1']; simp
  have hle : ls.isEmpty = false := by rw [h2']; simp
  have hins : ∀ (j : Nat) (x : Tree α), listInsert f (q ++ [k]) ⟨q, j⟩ x = .ub .bad_iterator := by
    intro j x
    simp only [listInsert, getList_ok hcl, Res.bind_eq, Res.ok_bind]
    rw [if_neg]
    rintro ⟨e, _⟩
    have := congrArg List.length e
    simp at this
  refine ⟨⟨_, ⟨_, hp', rfl⟩, by simp only [star, h1], fun other => ⟨by simp only [Trav.eq, h1], by simp only [Trav.lt, h1]⟩, by simp only [depth, h1]⟩,
    ?_, ?_, ?_, ?_, fun x => ⟨?_, ?_⟩, ?_⟩
  · unfold incrM
    rw [Meth.get_bind]
    simp only [hie, Bool.not_false, ASSERT_true, Meth.lift_ok_bind, hlen]
    rfl
  · simp only [index, hlen]; rfl
  · unfold decrM
    rw [Meth.get_bind]
    simp only [hie, hle, Bool.not_false, ASSERT_true, Meth.lift_ok_bind, hbk, hbl, beginOf, hne]
    rfl
  · simp only [is_last_child, hbk, hbl, Res.bind_eq, Res.ok_bind, endOf_ok hcl, hne, Res.ub_bind]
  · simp only [Trav.insert, hbk, hbl, Res.bind_eq, Res.ok_bind, hins, Res.ub_bind]
  · simp only [insert_after, hbk, hbl, Res.bind_eq, Res.ok_bind, advance_ok hl (show k + 1 ≤ l.length by omega), hins, Res.ub_bind]
  · simp only [erase, hbk, hbl, Res.bind_eq, Res.ok_bind, listErase, getList_ok hcl]
    rw [if_neg]
    · rfl
    · rintro ⟨e, _⟩
      have := congrArg List.length e
      simp at this

/-- C95 fails in a release build too: from the node 2 of `forest1`, an increment that runs out of memory and three that do not are undefined. -/
theorem C95_release_wrong : ∃ it, make_iterator forest1 [0, 0] = .ok it ∧
    ((incrM false forest1 ⟨it, [true, false]⟩).1 = .throw .bad_alloc) ∧
    ((do incrM false forest1; incrM false forest1; incrM false forest1 : Meth MSt Unit) (incrM false forest1 ⟨it, [true, false]⟩).2).1 = .ub .bad_iterator :=
  ⟨_, rfl, by decide +kernel, by decide +kernel⟩

/-- `forest1` again: the node 2 has children and is at position 1; before the end come 7 and its parent 6. -/
example : At forest1 1 (canon [0, 0]) ∧ (star forest1 (canon [0, 0])).isOk ∧ (nodes forest1)[1]? = some ([0, 0], 2) ∧
    incrM true forest1 ⟨canon [0, 0], [false]⟩ = (.throw .bad_alloc, ⟨canon [0, 0], []⟩) ∧
    incrM true forest1 ⟨canon [0, 0], [true, false]⟩ = (.throw .bad_alloc, ⟨broken [0, 0], []⟩) ∧
    incrM true forest1 ⟨canon [0, 0], [true, true, false]⟩ = (.ok (), ⟨canon [0, 0, 0], [false]⟩) :=
  ⟨⟨_, by decide +kernel, rfl⟩, by decide +kernel, by decide +kernel, by decide +kernel, by decide +kernel, by decide +kernel⟩
example : At forest1 7 (end_ forest1) ∧ (positions forest1)[6]? = some [1, 0] ∧ [1, 0].length - depth (end_ forest1) = 1 ∧
    decrM true forest1 ⟨end_ forest1, [false]⟩ = (.throw .bad_alloc, ⟨canon [1], []⟩) ∧
    decrM true forest1 ⟨end_ forest1, [true, false]⟩ = (.throw .bad_alloc, ⟨broken [1], []⟩) ∧
    decrM true forest1 ⟨end_ forest1, [true, true]⟩ = (.ok (), ⟨canon [1, 0], []⟩) :=
  ⟨⟨[2], by decide +kernel, rfl⟩, by decide +kernel, by decide +kernel, by decide +kernel, by decide +kernel, by decide +kernel⟩

end Utki
