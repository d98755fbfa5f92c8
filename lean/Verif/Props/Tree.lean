import Verif.Lemmas.TreeEdit
/-!
# Properties of `tree` and `traversal` (C37 – C44)

`positions f` are the places an iterator of the forest can be at, in traversal order: the nodes in pre-order and the end.
`At f n it` says that `it` is an iterator at the `n`-th of them: its index path is that position, and comparing it to any
other iterator goes by the path. The theorems show that every iterator obtained from the API is at a position.
-/
namespace Utki
open Spec Trav
variable {α : Type}

/-- The iterator is at the `n`-th position of the traversal. -/
def At (f : List (Tree α)) (n : Nat) (it : Iter) : Prop := ∃ p, (positions f)[n]? = some p ∧ it = canon p

/-- `At` is about observable things: the index path says which position it is, and determines the iterator. -/
theorem C37_at_index (dbg : Bool) (f : List (Tree α)) (n : Nat) (it : Iter) (h : At f n it) :
    ∃ p, (positions f)[n]? = some p ∧ index dbg it = .ok p ∧ depth it = p.length ∧ ∀ m it', At f m it' → (index dbg it' = .ok p ↔ it' = it) := by
  obtain ⟨p, h1, rfl⟩ := h
  refine ⟨p, h1, index_canon dbg p, by simp [depth, canon, canonI_length], ?_⟩
  rintro m it' ⟨p', h2, rfl⟩
  rw [index_canon]
  constructor
  · intro h; cases h; rfl
  · intro h
    have := congrArg (index dbg) h
    rw [index_canon, index_canon] at this; exact this

/-! ## C37: traversal -/

/-- C37: `begin()` is at the first position, `end()` behind all nodes. -/
theorem C37_begin_end (f : List (Tree α)) : At f 0 begin_ ∧ At f (nodes f).length (end_ f) :=
  ⟨⟨[0], positions_head f, rfl⟩, ⟨[f.length], positions_last f, rfl⟩⟩

/-- C37: `++` moves to the next position. -/
theorem C37_next (dbg : Bool) (f : List (Tree α)) (n : Nat) (it : Iter) (h : At f n it) (hn : n < (nodes f).length) :
    ∃ it', incr dbg f it = .ok it' ∧ At f (n + 1) it' := by
  obtain ⟨p, hp, rfl⟩ := h
  have : n + 1 < (positions f).length := by rw [positions_length]; omega
  have hr : (positions f)[n + 1]? = some (positions f)[n + 1] := List.getElem?_eq_getElem this
  exact ⟨_, incr_step dbg (positions_step f n p _ hp hr), _, hr, rfl⟩

/-- C37: dereferencing an iterator at a node gives the node. -/
theorem C37_star (f : List (Tree α)) (n : Nat) (it : Iter) (h : At f n it) (hn : n < (nodes f).length) :
    ∃ p t, star f it = .ok t ∧ subtree f p = some t ∧ (nodes f)[n]? = some (p, t.value) ∧ index true it = .ok p := by
  obtain ⟨p, hp, rfl⟩ := h
  have hp' : (nodes f)[n].1 = p := by
    unfold positions at hp
    rw [List.getElem?_append_left (by simpa using hn), List.getElem?_map, List.getElem?_eq_getElem hn] at hp
    simpa using hp
  have hm : (nodes f)[n] ∈ nodes f := List.getElem_mem hn
  obtain ⟨t, h1, h2⟩ := (mem_nodes f (nodes f)[n].1 (nodes f)[n].2).mp hm
  rw [hp'] at h1
  refine ⟨p, t, star_canon h1, h1, ?_, index_canon true p⟩
  rw [List.getElem?_eq_getElem hn, ← hp', h2]

/-- A loop over a traversal: collects the index path and the value of every node. -/
def forwardLoop (dbg : Bool) (f : List (Tree α)) : Nat → Iter → Res (List (Path × α))
  | 0, _ => .diverge
  | fuel + 1, it => do
    if ← ne it (end_ f) then
      let i ← index dbg it
      let t ← star f it
      let it ← incr dbg f it
      let rest ← forwardLoop dbg f fuel it
      return (i, t.value) :: rest
    else return []

theorem forwardLoop_from (dbg : Bool) (f : List (Tree α)) (k : Nat) (fuel n : Nat) (it : Iter) (h : At f n it) (hk : n + k = (nodes f).length)
    (hf : k < fuel) : forwardLoop dbg f fuel it = .ok ((nodes f).drop n) := by
  induction k generalizing fuel n it with
  | zero =>
    obtain ⟨p, hp, rfl⟩ := h
    have : n = (nodes f).length := by omega
    subst this
    rw [positions_last] at hp; cases hp
    cases fuel with
    | zero => omega
    | succ fuel => simp [forwardLoop, ne, end_eq, eq_canon]
  | succ k ih =>
    cases fuel with
    | zero => omega
    | succ fuel =>
      obtain ⟨it', h1, h2⟩ := C37_next dbg f n it h (by omega)
      obtain ⟨p, t, s1, s2, s3, s4⟩ := C37_star f n it h (by omega)
      have := ih fuel (n + 1) it' h2 (by omega) (by omega)
      obtain ⟨p', hp, rfl⟩ := h
      rw [index_canon] at s4
      obtain rfl : p' = p := by simpa using s4
      have hne : p' ≠ [f.length] := by
        intro e; subst e
        have := positions_inj f _ _ _ hp (positions_last f); omega
      unfold forwardLoop
      rw [List.getElem?_eq_some_iff] at s3
      obtain ⟨s5, s6⟩ := s3
      simp only [ne, end_eq, eq_canon, hne, Res.bind_eq, Res.ok_bind, Res.pure_eq, decide_false, Bool.not_false, if_true, index_canon, s1, h1,
        this]
      rw [List.drop_eq_getElem_cons s5, s6]

/-- C37: the loop from `begin()` until `end()` visits exactly the nodes in pre-order, each once, and ends after as many steps
as there are nodes, with nothing undefined and no assertion failing. -/
theorem C37_loop (dbg : Bool) (f : List (Tree α)) : forwardLoop dbg f ((nodes f).length + 1) begin_ = .ok (nodes f) := by
  have := forwardLoop_from dbg f (nodes f).length ((nodes f).length + 1) 0 begin_ (C37_begin_end f).1 (by omega) (by omega)
  rw [this, List.drop_zero]

/-- C37: the pre-order lists every node of the forest exactly once. -/
theorem C37_nodes (f : List (Tree α)) :
    (∀ p v, (p, v) ∈ nodes f ↔ ∃ t, subtree f p = some t ∧ t.value = v) ∧ ((nodes f).map (·.1)).Nodup := by
  refine ⟨mem_nodes f, ?_⟩
  have h := positions_pairwise f
  unfold positions at h
  rw [List.pairwise_append] at h
  refine h.1.imp ?_
  intro a b hab e
  subst e
  rw [lexB_irrefl] at hab; cases hab

/-- A forest for the examples: 1(2(3,4),5), 6(7). -/
def forest1 : List (Tree Nat) := [.node 1 [.node 2 [.node 3 [], .node 4 []], .node 5 []], .node 6 [.node 7 []]]

example : forwardLoop true forest1 8 begin_ =
    .ok [([0], 1), ([0, 0], 2), ([0, 0, 0], 3), ([0, 0, 1], 4), ([0, 1], 5), ([1], 6), ([1, 0], 7)] := by decide +kernel

/-! ## C38: reverse traversal -/

/-- C38: `--` moves to the previous position. -/
theorem C38_prev (dbg : Bool) (f : List (Tree α)) (n : Nat) (it : Iter) (h : At f (n + 1) it) :
    ∃ it', decr dbg f it = .ok it' ∧ At f n it' := by
  obtain ⟨p, hp, rfl⟩ := h
  have hlt : n + 1 < (positions f).length := by rw [List.getElem?_eq_some_iff] at hp; exact hp.1
  have hr : (positions f)[n]? = some (positions f)[n] := List.getElem?_eq_getElem (by omega)
  exact ⟨_, decr_step dbg (positions_step f n _ p hr hp), _, hr, rfl⟩

/-- C38: `++` and `--` undo each other. -/
theorem C38_inverse (dbg : Bool) (f : List (Tree α)) (n : Nat) (it : Iter) (h : At f n it) :
    (n < (nodes f).length → (do decr dbg f (← incr dbg f it)) = .ok it) ∧ (0 < n → (do incr dbg f (← decr dbg f it)) = .ok it) := by
  obtain ⟨p, hp, rfl⟩ := h
  have hlt : n < (positions f).length := by rw [List.getElem?_eq_some_iff] at hp; exact hp.1
  rw [positions_length] at hlt
  constructor
  · intro hn
    have hl : n + 1 < (positions f).length := by rw [positions_length]; omega
    have hs := positions_step f n p _ hp (List.getElem?_eq_getElem hl)
    have h1 := incr_step dbg hs
    have h2 := decr_step dbg hs
    simp only [Res.bind_eq]
    rw [h1, Res.ok_bind, h2]
  · intro hn
    obtain ⟨m, rfl⟩ : ∃ m, n = m + 1 := ⟨n - 1, by omega⟩
    have hl : m < (positions f).length := by rw [positions_length]; omega
    have hs := positions_step f m _ p (List.getElem?_eq_getElem hl) hp
    have h1 := incr_step dbg hs
    have h2 := decr_step dbg hs
    simp only [Res.bind_eq]
    rw [h2, Res.ok_bind, h1]

/-- A loop from `rbegin()` to `rend()`. The state of a `std::reverse_iterator` is its base iterator; it dereferences to the
element before the base. -/
def backwardLoop (dbg : Bool) (f : List (Tree α)) : Nat → Iter → Res (List (Path × α))
  | 0, _ => .diverge
  | fuel + 1, base => do
    if ← ne base begin_ then
      let it ← decr dbg f base
      let i ← index dbg it
      let t ← star f it
      let base ← decr dbg f base
      let rest ← backwardLoop dbg f fuel base
      return (i, t.value) :: rest
    else return []

/-- C38: the loop from `rbegin()` to `rend()` visits the nodes in exactly the reverse order. -/
theorem C38_loop (dbg : Bool) (f : List (Tree α)) : backwardLoop dbg f ((nodes f).length + 1) (end_ f) = .ok (nodes f).reverse := by
  suffices H : ∀ n fuel it, At f n it → n < fuel → backwardLoop dbg f fuel it = .ok ((nodes f).take n).reverse by
    rw [H _ _ _ (C37_begin_end f).2 (by omega), List.take_length]
  intro n
  induction n with
  | zero =>
    rintro fuel it ⟨p, hp, rfl⟩ hf
    rw [positions_head] at hp; cases hp
    cases fuel with
    | zero => omega
    | succ fuel => simp [backwardLoop, ne, begin_eq, eq_canon]
  | succ n ih =>
    intro fuel it h hf
    cases fuel with
    | zero => omega
    | succ fuel =>
      obtain ⟨it', h1, h2⟩ := C38_prev dbg f n it h
      have hn : n < (nodes f).length := by
        obtain ⟨p, hp, _⟩ := h
        rw [List.getElem?_eq_some_iff] at hp
        have := hp.1; rw [positions_length] at this; omega
      obtain ⟨p, t, s1, s2, s3, s4⟩ := C37_star f n it' h2 hn
      have hrec := ih fuel it' h2 (by omega)
      have hidx : index dbg it' = .ok p := by
        obtain ⟨p', _, rfl⟩ := h2
        rw [index_canon] at s4 ⊢; exact s4
      obtain ⟨p', hp, rfl⟩ := h
      have hne : p' ≠ [0] := by
        intro e; subst e
        have := positions_inj f _ _ _ hp (positions_head f); omega
      unfold backwardLoop
      rw [List.getElem?_eq_some_iff] at s3
      obtain ⟨s5, s6⟩ := s3
      simp only [ne, begin_eq, eq_canon, hne, Res.bind_eq, Res.ok_bind, Res.pure_eq, decide_false, Bool.not_false, if_true, hidx, s1, h1,
        hrec]
      rw [List.take_succ_eq_append_getElem s5, s6]
      simp

example : backwardLoop true forest1 8 (end_ forest1) =
    .ok [([1, 0], 7), ([1], 6), ([0, 1], 5), ([0, 0, 1], 4), ([0, 0, 0], 3), ([0, 0], 2), ([0], 1)] := by decide +kernel

/-! ## C39: index paths -/

/-- C39: `make_iterator(path)` for the path of a node is the iterator at that node; its `index()` is the path; every iterator
at a node is obtained that way from its `index()`. -/
theorem C39_make_iterator (dbg : Bool) (f : List (Tree α)) (p : Path) (t : Tree α) (h : subtree f p = some t) :
    ∃ it n, make_iterator f p = .ok it ∧ index dbg it = .ok p ∧ At f n it ∧ n < (nodes f).length ∧ star f it = .ok t := by
  have hm : p ∈ (nodes f).map (·.1) := (mem_paths f p).mpr ⟨t, h⟩
  obtain ⟨n, hn, he⟩ := List.mem_iff_getElem.mp hm
  refine ⟨canon p, n, by rw [make_iterator_eq, if_pos (.inr (by simp [h]))], index_canon dbg p, ⟨p, ?_, rfl⟩, by simpa using hn, star_canon h⟩
  unfold positions
  rw [List.getElem?_append_left hn, List.getElem?_eq_getElem hn, he]

/-- C39: the iterator at a node is recovered from its index path. -/
theorem C39_round_trip (dbg : Bool) (f : List (Tree α)) (n : Nat) (it : Iter) (h : At f n it) (hn : n < (nodes f).length) :
    (do make_iterator f (← index dbg it)) = .ok it := by
  obtain ⟨p, hp, rfl⟩ := h
  rcases positions_cases hp with ⟨_, t, ht⟩ | ⟨h1, _⟩
  · simp only [index_canon, Res.bind_eq, Res.ok_bind]
    rw [make_iterator_eq, if_pos (.inr (by simp [ht]))]
  · omega

/-- C39: `is_valid(path)` is true exactly for the paths of nodes. -/
theorem C39_is_valid (f : List (Tree α)) (p : Path) : ∃ b, is_valid f p = .ok b ∧ (b = true ↔ ∃ v, (p, v) ∈ nodes f) := by
  refine ⟨_, is_valid_eq f p, ?_⟩
  rw [Option.isSome_iff_exists]
  constructor
  · rintro ⟨t, h⟩; exact ⟨t.value, (mem_nodes f p _).mpr ⟨t, h, rfl⟩⟩
  · rintro ⟨v, h⟩
    obtain ⟨t, h, _⟩ := (mem_nodes f p v).mp h
    exact ⟨t, h⟩

/-- C39: `make_iterator` throws `std::out_of_range` exactly for non-empty paths that are not paths of nodes, and returns
otherwise. -/
theorem C39_throws_iff (f : List (Tree α)) (p : Path) :
    (make_iterator f p = .throw .out_of_range ↔ p ≠ [] ∧ subtree f p = none) ∧
    ((∃ it, make_iterator f p = .ok it) ↔ p = [] ∨ ∃ t, subtree f p = some t) := by
  rw [make_iterator_eq]
  cases h : subtree f p with
  | none => by_cases hp : p = [] <;> simp [hp]
  | some t => simp

/-- C39: `operator[]` gives the node at the path; for a path that is not one of a node it throws `std::out_of_range` in
release and aborts in debug builds (for the empty path it is undefined in release builds). -/
theorem C39_at_index (f : List (Tree α)) (p : Path) :
    (∀ t dbg, subtree f p = some t → at_index dbg f p = .ok t) ∧
    (subtree f p = none → at_index true f p = .abort ∧ (p ≠ [] → at_index false f p = .throw .out_of_range) ∧
      (p = [] → ∃ u, at_index false f p = .ub u)) := by
  refine ⟨?_, ?_⟩
  · intro t dbg h
    unfold at_index
    cases dbg <;> simp [is_valid_eq, make_iterator_eq, h, star_canon h]
  · intro h
    refine ⟨by simp [at_index, is_valid_eq, h], ?_, ?_⟩
    · intro hp; simp [at_index, make_iterator_eq, h, hp]
    · intro hp; subst hp; exact ⟨.oob_read, rfl⟩

/-- `At forest1 5` for the node 6 is met by an iterator from the API. -/
example : make_iterator forest1 [1] = .ok ⟨[[]], [⟨[], 1⟩]⟩ ∧ make_iterator forest1 [0, 0, 1] =
    .ok ⟨[[], [0], [0, 0]], [⟨[], 0⟩, ⟨[0], 0⟩, ⟨[0, 0], 1⟩]⟩ ∧ make_iterator forest1 [0, 2] = .throw .out_of_range := by decide +kernel

/-! ## C40: comparison -/

/-- C40: the comparison operators compare positions in the traversal; they are always defined for iterators of the same forest. -/
theorem C40_compare (f : List (Tree α)) (n m : Nat) (a b : Iter) (ha : At f n a) (hb : At f m b) :
    Trav.lt a b = .ok (decide (n < m)) ∧ Trav.gt a b = .ok (decide (n > m)) ∧ Trav.le a b = .ok (decide (n ≤ m)) ∧
    Trav.ge a b = .ok (decide (n ≥ m)) ∧ Trav.eq a b = .ok (decide (n = m)) ∧ Trav.ne a b = .ok (decide (n ≠ m)) := by
  obtain ⟨p, hp, rfl⟩ := ha
  obtain ⟨r, hr, rfl⟩ := hb
  have h1 := positions_lex f n m p r hp hr
  have h2 := positions_lex f m n r p hr hp
  have h3 : decide (p = r) = decide (n = m) := by
    by_cases h : n = m
    · subst h; rw [hp] at hr; cases hr; simp
    · have : p ≠ r := by intro e; subst e; exact h (positions_inj f n m p hp hr)
      simp [h, this]
  refine ⟨?_, ?_, ?_, ?_, ?_, ?_⟩
  · simp [Trav.lt, canon, vecLt_canon, h1]
  · simp [Trav.gt, canon, vecLt_canon, h2]
  · simp only [Trav.le, canon, vecLt_canon, h2, Res.bind_eq, Res.ok_bind, Res.pure_eq]; congr 1; by_cases h : m < n <;> simp [h] <;> omega
  · simp only [Trav.ge, canon, vecLt_canon, h1, Res.bind_eq, Res.ok_bind, Res.pure_eq]; congr 1; by_cases h : n < m <;> simp [h] <;> omega
  · rw [eq_canon, h3]
  · simp [Trav.ne, eq_canon, h3]

/-! ## C41, C42: modification -/

theorem insertIdx_eq (l : List (Tree α)) (k : Nat) (t : Tree α) (hk : k ≤ l.length) :
    l.insertIdx k t = l.take k ++ [t] ++ l.drop k := by
  induction l generalizing k with
  | nil => simp at hk; subst hk; rfl
  | cons a l ih =>
    cases k with
    | zero => rfl
    | succ k => simp [List.insertIdx_succ_cons, ih k (by simpa using hk)]

theorem modify_congr (g g' : List (Tree α) → List (Tree α)) (f : List (Tree α)) (q : Path) (l : List (Tree α)) (h : listAt f q = some l)
    (e : g l = g' l) : Trav.modify g f q = Trav.modify g' f q := by
  induction q generalizing f with
  | nil => simp [listAt] at h; subst h; simpa only [Trav.modify] using e
  | cons i q ih =>
    simp only [listAt] at h
    simp only [Trav.modify]
    cases hi : f[i]? with
    | none => rfl
    | some u => rw [hi] at h; simp only at h ⊢; rw [ih u.children h]

/-- C41: `insert(i, t)` puts the subtree immediately before `i` on the same level (`i` may be the end iterator): in the outline
(depth and value of every node in pre-order, which determines the forest) exactly the outline of `t` is added at the place of
`i`. The returned iterator is at the new node. -/
theorem C41_insert (f : List (Tree α)) (n : Nat) (it : Iter) (t : Tree α) (h : At f n it) :
    ∃ f' it', insert f it t = .ok (f', it') ∧
      outline f' = (outline f).take n ++ outlineTree (depth it) t ++ (outline f).drop n ∧
      At f' n it' ∧ star f' it' = .ok t := by
  obtain ⟨p, hp, rfl⟩ := h
  obtain ⟨q, k, l, rfl, h1, h2, h3, h4⟩ := position_split hp
  have hs := splice hp rfl h1 h2 0 0 (by omega) [t]
  simp only [List.take_zero, outlineList, List.length_nil, Nat.add_zero] at hs
  have hmod := modify_congr (fun l => l.insertIdx k t) (fun l => l.take k ++ [t] ++ l.drop k) f q l h1 (insertIdx_eq l k t h3)
  obtain ⟨o1, o2⟩ := hs
  have hl' := listAt_modify (fun l => l.take k ++ [t] ++ l.drop k) f q l h1
  have hlen : k < (l.take k ++ [t] ++ l.drop k).length := by simp; omega
  have hget : (l.take k ++ [t] ++ l.drop k)[k]? = some t := by
    rw [List.append_assoc, List.getElem?_append_right (by simp; omega)]
    simp [Nat.min_eq_left h3]
  refine ⟨modify (fun l => l.take k ++ [t] ++ l.drop k) f q, canon (q ++ [k]), ?_, ?_, ?_, ?_⟩
  · rw [canon_snoc]
    unfold Trav.insert
    simp only [back_snoc, Res.bind_eq, Res.ok_bind, listInsert, getList_ok h1]
    rw [if_pos ⟨trivial, h3⟩]
    simp only [Res.ok_bind, setBack_snoc, Res.pure_eq, hmod]
  · rw [o1]; simp [depth, canon, canonI_length]
  · exact ⟨q ++ [k], o2 _ (climb_self _ q k _ hl' hlen), rfl⟩
  · apply star_canon
    rw [subtree_snoc, hl']; exact hget

/-- C41: `insert_after(i, t)` puts the subtree as the next sibling of the node at `i`: behind all nodes of the subtree at `i`, on
the level of `i`. The returned iterator is at the new node. -/
theorem C41_insert_after (f : List (Tree α)) (n : Nat) (it : Iter) (t u : Tree α) (h : At f n it) (hu : star f it = .ok u)
    (hn : n < (nodes f).length) :
    ∃ f' it', insert_after f it t = .ok (f', it') ∧
      outline f' = (outline f).take (n + (outlineTree 0 u).length) ++ outlineTree (depth it) t ++
        (outline f).drop (n + (outlineTree 0 u).length) ∧
      At f' (n + (outlineTree 0 u).length) it' ∧ star f' it' = .ok t := by
  obtain ⟨p, hp, rfl⟩ := h
  obtain ⟨q, k, l, rfl, h1, h2, h3, h4⟩ := position_split hp
  have hk := h4 hn
  have hlu : l[k]? = some u := by
    have : subtree f (q ++ [k]) = some l[k] := by rw [subtree_snoc, h1]; simp [hk]
    rw [star_canon this] at hu; cases hu
    exact List.getElem?_eq_getElem hk
  have hseg : (l.drop k).take 1 = [u] := by
    rw [List.getElem?_eq_some_iff] at hlu
    obtain ⟨_, rfl⟩ := hlu
    rw [List.drop_eq_getElem_cons hk]; rfl
  have hulen : (outlineTree (q ++ [k]).length u).length = (outlineTree 0 u).length := by
    have h1 := (length_aux (sizeOf u + 1)).1 u [] (q ++ [k]).length (by omega)
    have h2 := (length_aux (sizeOf u + 1)).1 u [] 0 (by omega)
    omega
  obtain ⟨o1, o2⟩ := splice hp rfl h1 h2 1 0 (by omega) [t]
  simp only [List.take_zero, outlineList, List.length_nil, Nat.add_zero, hseg, List.append_nil, hulen] at o1 o2
  have hmod := modify_congr (fun l => l.insertIdx (k + 1) t) (fun l => l.take (k + 1) ++ [t] ++ l.drop (k + 1)) f q l h1
    (insertIdx_eq l (k + 1) t (by omega))
  have hl' := listAt_modify (fun l => l.take (k + 1) ++ [t] ++ l.drop (k + 1)) f q l h1
  have hlen : k + 1 < (l.take (k + 1) ++ [t] ++ l.drop (k + 1)).length := by simp; omega
  have hget : (l.take (k + 1) ++ [t] ++ l.drop (k + 1))[k + 1]? = some t := by
    rw [List.append_assoc, List.getElem?_append_right (by simp; omega)]
    simp [Nat.min_eq_left (show k + 1 ≤ l.length by omega)]
  refine ⟨modify (fun l => l.take (k + 1) ++ [t] ++ l.drop (k + 1)) f q, canon (q ++ [k + 1]), ?_, ?_, ?_, ?_⟩
  · rw [canon_snoc, canon_snoc]
    unfold insert_after
    simp only [back_snoc, Res.bind_eq, Res.ok_bind, listInsert, getList_ok h1, advance_ok h1 (show k + 1 ≤ l.length by omega)]
    rw [if_pos ⟨trivial, by omega⟩]
    simp only [Res.ok_bind, setBack_snoc, Res.pure_eq, hmod]
  · rw [o1]; simp [depth, canon, canonI_length]
  · exact ⟨q ++ [k + 1], o2 _ (climb_self _ q (k + 1) _ hl' hlen), rfl⟩
  · apply star_canon
    rw [subtree_snoc, hl']; exact hget

/-- C42: `erase(i)` removes exactly the nodes of the subtree at `i`; the returned iterator is at the position that the first
node behind the subtree now has, or at the end. -/
theorem C42_erase (dbg : Bool) (f : List (Tree α)) (n : Nat) (it : Iter) (u : Tree α) (h : At f n it) (hu : star f it = .ok u)
    (hn : n < (nodes f).length) :
    ∃ f' it', erase dbg f it = .ok (f', it') ∧
      outline f' = (outline f).take n ++ (outline f).drop (n + (outlineTree 0 u).length) ∧ At f' n it' := by
  obtain ⟨p, hp, rfl⟩ := h
  obtain ⟨q, k, l, rfl, h1, h2, h3, h4⟩ := position_split hp
  have hk := h4 hn
  have hlu : l[k]? = some u := by
    have : subtree f (q ++ [k]) = some l[k] := by rw [subtree_snoc, h1]; simp [hk]
    rw [star_canon this] at hu; cases hu
    exact List.getElem?_eq_getElem hk
  have hseg : (l.drop k).take 1 = [u] := by
    rw [List.getElem?_eq_some_iff] at hlu
    obtain ⟨_, rfl⟩ := hlu
    rw [List.drop_eq_getElem_cons hk]; rfl
  have hulen : (outlineTree (q ++ [k]).length u).length = (outlineTree 0 u).length := by
    have h1 := (length_aux (sizeOf u + 1)).1 u [] (q ++ [k]).length (by omega)
    have h2 := (length_aux (sizeOf u + 1)).1 u [] 0 (by omega)
    omega
  obtain ⟨o1, o2⟩ := splice hp rfl h1 h2 0 1 (by omega) []
  simp only [List.take_zero, outlineList, List.length_nil, Nat.add_zero, hseg, List.append_nil, hulen] at o1 o2
  have hmod : (fun l : List (Tree α) => l.eraseIdx k) = (fun l => l.take k ++ l.drop (k + 1)) := by
    funext l; rw [List.eraseIdx_eq_take_drop_succ]
  have hl' := listAt_modify (fun l => l.take k ++ l.drop (k + 1)) f q l h1
  obtain ⟨r, hr⟩ := climb_total _ q k _ hl' (by simp; omega)
  refine ⟨modify (fun l => l.take k ++ l.drop (k + 1)) f q, canon r, ?_, o1, ⟨r, o2 r hr, rfl⟩⟩
  have hloop := eraseLoop_eq dbg hr (q.length + 1 + 1) (by simp)
  rw [canon_snoc] at hloop ⊢
  unfold erase
  simp only [back_snoc, Res.bind_eq, Res.ok_bind, listErase, getList_ok h1]
  rw [if_pos ⟨trivial, hk⟩]
  simp only [Res.ok_bind, setBack_snoc, Res.pure_eq, hmod, List.length_append, canonI_length, List.length_singleton, hloop]

theorem outline_head_aux (d : Nat) (ts : List (Tree α)) : ∀ x, (outlineList d ts).head? = some x → x.1 = d := by
  intro x hx
  cases ts with
  | nil => cases hx
  | cons t ts => cases t; simp [outlineList, outlineTree] at hx; subst hx; rfl

theorem outline_inj_aux (n : Nat) (d : Nat) (ts us : List (Tree α)) (X Y : List (Nat × α)) (hn : sizeOf ts < n)
    (hX : ∀ x, X.head? = some x → x.1 < d) (hY : ∀ x, Y.head? = some x → x.1 < d)
    (h : outlineList d ts ++ X = outlineList d us ++ Y) : ts = us ∧ X = Y := by
  induction n generalizing d ts us X Y with
  | zero => omega
  | succ n ih =>
    cases ts with
    | nil =>
      cases us with
      | nil => exact ⟨rfl, h⟩
      | cons u us =>
        cases u
        simp [outlineList, outlineTree] at h; subst h
        have := hX _ rfl; simp at this
    | cons t ts =>
      cases us with
      | nil =>
        cases t
        simp [outlineList, outlineTree] at h; subst h
        have := hY _ rfl; simp at this
      | cons u us =>
        cases t with
        | node v cs =>
          cases u with
          | node w ds =>
            simp only [List.cons.sizeOf_spec, Tree.node.sizeOf_spec] at hn
            simp only [outlineList, outlineTree, List.cons_append, List.cons.injEq, Prod.mk.injEq, true_and, List.append_assoc] at h
            obtain ⟨rfl, h⟩ := h
            have hlow : ∀ (zs : List (Tree α)) (Z : List (Nat × α)), (∀ x, Z.head? = some x → x.1 < d) →
                ∀ x, (outlineList d zs ++ Z).head? = some x → x.1 < d + 1 := by
              intro zs Z hZ x hx
              cases zs with
              | nil => simp [outlineList] at hx; have := hZ x (by simpa using hx); omega
              | cons z zs =>
                rw [List.head?_append] at hx
                cases hz : (outlineList d (z :: zs)).head? with
                | none => cases z; simp [outlineList, outlineTree] at hz
                | some y =>
                  rw [hz] at hx; simp at hx; subst hx
                  have := outline_head_aux d _ _ hz; omega
            obtain ⟨h1, h2⟩ := ih (d + 1) cs ds (outlineList d ts ++ X) (outlineList d us ++ Y) (by omega) (hlow ts X hX) (hlow us Y hY) h
            obtain ⟨h3, h4⟩ := ih d ts us X Y (by omega) hX hY h2
            exact ⟨by rw [h1, h3], h4⟩

/-- C41, C42: the outline determines the forest, so the theorems above say what the whole forest is afterwards. -/
theorem C41_outline_determines (f g : List (Tree α)) (h : outline f = outline g) : f = g :=
  (outline_inj_aux (sizeOf f + 1) 1 f g [] [] (by omega) (by simp) (by simp) (by simpa [outline] using h)).1

example : (do let it ← make_iterator forest1 [0, 1]; let (f, it) ← insert forest1 it (.node 8 [.node 9 []]); return (outline f, ← index true it)) =
    .ok ([(1, 1), (2, 2), (3, 3), (3, 4), (2, 8), (3, 9), (2, 5), (1, 6), (2, 7)], [0, 1]) := by decide +kernel

example : (do let it ← make_iterator forest1 [0, 0, 1]; let (f, it) ← erase true forest1 it; return (outline f, ← index true it)) =
    .ok ([(1, 1), (2, 2), (3, 3), (2, 5), (1, 6), (2, 7)], [0, 1]) := by decide +kernel

example : (do let it ← make_iterator forest1 [1]; let (f, it) ← erase true forest1 it; return (outline f, ← index true it)) =
    .ok ([(1, 1), (2, 2), (3, 3), (3, 4), (2, 5)], [1]) := by decide +kernel

/-! ## C43 -/

/-- C43: `is_last_child()` is true exactly for the nodes without a next sibling; false at the end. -/
theorem C43_is_last_child (f : List (Tree α)) (n : Nat) (it : Iter) (h : At f n it) :
    (n < (nodes f).length → ∃ q k, index true it = .ok (q ++ [k]) ∧ is_last_child f it = .ok (decide (subtree f (q ++ [k + 1]) = none))) ∧
    (n = (nodes f).length → is_last_child f it = .ok false) := by
  obtain ⟨p, hp, rfl⟩ := h
  refine ⟨?_, ?_⟩
  · intro hn
    obtain ⟨q, k, l, rfl, h1, h2, h3, h4⟩ := position_split hp
    have hk := h4 hn
    refine ⟨q, k, index_canon true _, ?_⟩
    rw [canon_snoc, subtree_snoc, h1]
    have hne : (k == l.length) = false := by simp; omega
    simp only [is_last_child, back_snoc, Res.bind_eq, Res.ok_bind, endOf_ok h1, iterEq_same, hne, Bool.false_eq_true, if_false,
      advance_ok h1 (show k + 1 ≤ l.length by omega), Option.bind_some]
    congr 1
    by_cases hx : k + 1 = l.length
    · simp [hx]
    · simp [show k + 1 < l.length by omega]; omega
  · intro hn
    subst hn
    rw [positions_last] at hp; cases hp
    simp [is_last_child, canon, canonL, canonI, back, endOf, getList, listAt, iterEq]

/-- C43: `depth()` is the length of the index path, and `at_level(d)` is the ancestor (or the node itself) whose path has
`d + 1` elements; for other levels the program terminates, as `at_level` is `noexcept`. -/
theorem C43_at_level (f : List (Tree α)) (n : Nat) (it : Iter) (h : At f n it) (hn : n < (nodes f).length) :
    ∃ p, index true it = .ok p ∧ depth it = p.length ∧
      (∀ d, d < p.length → ∃ t, subtree f (p.take (d + 1)) = some t ∧ at_level f it d = .ok t) ∧
      (∀ d, p.length ≤ d → at_level f it d = .terminate) := by
  obtain ⟨p, hp, rfl⟩ := h
  have hsub : ∃ t, subtree f p = some t := by
    rcases positions_cases hp with ⟨_, h⟩ | ⟨h, _⟩
    · exact h
    · omega
  refine ⟨p, index_canon true p, by simp [depth, canon, canonI_length], ?_, ?_⟩
  · intro d hd
    have hget : ∀ pre (q : Path) d (hd : d < q.length), (canonI pre q)[d]? = some ⟨pre ++ q.take d, q[d]⟩ := by
      intro pre q
      induction q generalizing pre with
      | nil => intro d hd; simp at hd
      | cons i q ih =>
        intro d hd
        cases d with
        | zero => simp [canonI]
        | succ d => simp [canonI, ih (pre ++ [i]) d (by simpa using hd)]
    obtain ⟨t, ht⟩ := hsub
    obtain ⟨q, k, l, rfl, h1, h2⟩ := subtree_split ht
    have hanc : ∃ L u, listAt f ((q ++ [k]).take d) = some L ∧ L[(q ++ [k])[d]]? = some u := by
      by_cases hdq : d < q.length
      · have e : q = q.take d ++ [q[d]] ++ q.drop (d + 1) := by
          rw [List.append_assoc, List.singleton_append, List.getElem_cons_drop, List.take_append_drop]
        have h1' := h1
        rw [e, listAt_append] at h1'
        cases hx : listAt f (q.take d ++ [q[d]]) with
        | none => rw [hx] at h1'; cases h1'
        | some L' =>
          obtain ⟨L, u, g1, g2, _⟩ := listAt_snoc_some hx
          refine ⟨L, u, ?_, ?_⟩
          · rw [List.take_append_of_le_length (by omega)]; exact g1
          · rw [List.getElem_append_left hdq]; exact g2
      · have : d = q.length := by simp at hd; omega
        subst this
        exact ⟨l, t, by simp [h1], by simpa using h2⟩
    obtain ⟨L, u, g1, g2⟩ := hanc
    refine ⟨u, ?_, ?_⟩
    · rw [List.take_succ_eq_append_getElem hd, subtree_snoc, g1]; exact g2
    · unfold at_level
      simp only [canon, hget [] _ d hd, List.nil_append]
      exact deref_ok g1 g2
  · intro d hd
    unfold at_level
    rw [List.getElem?_eq_none (by simpa [canon, canonI_length] using hd)]

example : (do let it ← make_iterator forest1 [0, 0, 1]; return (← is_last_child forest1 it, depth it, (← at_level forest1 it 1).value)) =
    .ok (true, 3, 2) := by decide +kernel

/-! ## C44 -/

theorem eqTree_aux (eq : α → α → Bool) (n : Nat) :
    (∀ t u : Tree α, sizeOf t < n → (Tree.eqTree eq t u = true ↔ SameTree (fun a b => eq a b = true) t u)) ∧
    (∀ ts us : List (Tree α), sizeOf ts < n →
      ((ts.length == us.length && Tree.eqChildren eq ts us) = true ↔ SameList (fun a b => eq a b = true) ts us)) := by
  induction n with
  | zero => exact ⟨fun _ _ h => by omega, fun _ _ h => by omega⟩
  | succ n ih =>
    refine ⟨?_, ?_⟩
    · intro t u hn
      cases t with
      | node v cs =>
        cases u with
        | node w ds =>
          simp only [Tree.node.sizeOf_spec] at hn
          unfold Tree.eqTree
          rw [Bool.and_eq_true, ih.2 cs ds (by omega)]
          constructor
          · rintro ⟨h1, h2⟩; exact .node v w cs ds h1 h2
          · intro h; cases h with | node _ _ _ _ h1 h2 => exact ⟨h1, h2⟩
    · intro ts us hn
      cases ts with
      | nil =>
        cases us with
        | nil => simp [Tree.eqChildren]; exact .nil
        | cons u us => simp; intro h; cases h
      | cons t ts =>
        cases us with
        | nil => simp; intro h; cases h
        | cons u us =>
          simp only [List.cons.sizeOf_spec] at hn
          have h1 := ih.1 t u (by omega)
          have h2 := ih.2 ts us (by omega)
          simp only [Tree.eqChildren, List.length_cons]
          rw [show (ts.length + 1 == us.length + 1) = (ts.length == us.length) by simp]
          constructor
          · intro h
            simp only [Bool.and_eq_true] at h h2
            exact .cons _ _ _ _ (h1.mp h.2.1) (h2.mp ⟨h.1, h.2.2⟩)
          · intro h
            cases h with
            | cons _ _ _ _ g1 g2 =>
              have := h2.mpr g2
              simp only [Bool.and_eq_true] at this ⊢
              exact ⟨this.1, h1.mpr g1, this.2⟩

/-- C44: `==` of trees holds exactly if values and shapes agree everywhere. -/
theorem C44_eq (eq : α → α → Bool) (t u : Tree α) : Tree.eqTree eq t u = true ↔ SameTree (fun a b => eq a b = true) t u :=
  (eqTree_aux eq (sizeOf t + 1)).1 t u (by omega)

/-- C44: with the equality of values, `==` is equality of trees. -/
theorem C44_lawful [DecidableEq α] (t u : Tree α) : Tree.eqTree (fun a b => decide (a = b)) t u = true ↔ t = u := by
  rw [C44_eq]
  have aux : ∀ n, (∀ t u : Tree α, sizeOf t < n → (SameTree (fun a b => decide (a = b) = true) t u ↔ t = u)) ∧
      (∀ ts us : List (Tree α), sizeOf ts < n → (SameList (fun a b => decide (a = b) = true) ts us ↔ ts = us)) := by
    intro n
    induction n with
    | zero => exact ⟨fun _ _ h => by omega, fun _ _ h => by omega⟩
    | succ n ih =>
      refine ⟨?_, ?_⟩
      · intro t u hn
        cases t with
        | node v cs =>
          simp only [Tree.node.sizeOf_spec] at hn
          constructor
          · intro h
            cases h with
            | node _ w _ ds h1 h2 => rw [(ih.2 cs ds (by omega)).mp h2, of_decide_eq_true h1]
          · rintro rfl; exact .node _ _ _ _ (by simp) ((ih.2 cs cs (by omega)).mpr rfl)
      · intro ts us hn
        cases ts with
        | nil => exact ⟨fun h => by cases h; rfl, fun h => by subst h; exact .nil⟩
        | cons t ts =>
          simp only [List.cons.sizeOf_spec] at hn
          constructor
          · intro h
            cases h with
            | cons _ d _ ds h1 h2 => rw [(ih.1 t d (by omega)).mp h1, (ih.2 ts ds (by omega)).mp h2]
          · rintro rfl; exact .cons _ _ _ _ ((ih.1 t t (by omega)).mpr rfl) ((ih.2 ts ts (by omega)).mpr rfl)
  exact (aux (sizeOf t + 1)).1 t u (by omega)

/-- C44: if the equality of values is an equivalence relation, so is `==` of trees. -/
theorem C44_equivalence (eq : α → α → Bool) (h : Equivalence (fun a b => eq a b = true)) :
    Equivalence (fun t u : Tree α => Tree.eqTree eq t u = true) := by
  have aux : ∀ n, (∀ t : Tree α, sizeOf t < n → SameTree (fun a b => eq a b = true) t t ∧
        (∀ u, SameTree (fun a b => eq a b = true) t u → SameTree (fun a b => eq a b = true) u t ∧
          ∀ w, SameTree (fun a b => eq a b = true) u w → SameTree (fun a b => eq a b = true) t w)) ∧
      (∀ ts : List (Tree α), sizeOf ts < n → SameList (fun a b => eq a b = true) ts ts ∧
        (∀ us, SameList (fun a b => eq a b = true) ts us → SameList (fun a b => eq a b = true) us ts ∧
          ∀ ws, SameList (fun a b => eq a b = true) us ws → SameList (fun a b => eq a b = true) ts ws)) := by
    intro n
    induction n with
    | zero => exact ⟨fun _ h => by omega, fun _ h => by omega⟩
    | succ n ih =>
      refine ⟨?_, ?_⟩
      · intro t hn
        cases t with
        | node v cs =>
          simp only [Tree.node.sizeOf_spec] at hn
          obtain ⟨i1, i2⟩ := ih.2 cs (by omega)
          refine ⟨.node _ _ _ _ (h.refl v) i1, ?_⟩
          intro u hu
          cases hu with
          | node _ w _ ds e1 e2 =>
            obtain ⟨j1, j2⟩ := i2 ds e2
            refine ⟨.node _ _ _ _ (h.symm e1) j1, ?_⟩
            intro x hx
            cases hx with
            | node _ y _ es g1 g2 => exact .node _ _ _ _ (h.trans e1 g1) (j2 es g2)
      · intro ts hn
        cases ts with
        | nil =>
          refine ⟨.nil, ?_⟩
          intro us hu; cases hu
          exact ⟨.nil, fun ws hw => hw⟩
        | cons t ts =>
          simp only [List.cons.sizeOf_spec] at hn
          obtain ⟨i1, i2⟩ := ih.1 t (by omega)
          obtain ⟨k1, k2⟩ := ih.2 ts (by omega)
          refine ⟨.cons _ _ _ _ i1 k1, ?_⟩
          intro us hu
          cases hu with
          | cons _ d _ ds e1 e2 =>
            obtain ⟨j1, j2⟩ := i2 d e1
            obtain ⟨m1, m2⟩ := k2 ds e2
            refine ⟨.cons _ _ _ _ j1 m1, ?_⟩
            intro ws hw
            cases hw with
            | cons _ x _ xs g1 g2 => exact .cons _ _ _ _ (j2 x g1) (m2 xs g2)
  refine ⟨fun t => ?_, fun {t u} ht => ?_, fun {t u w} ht hu => ?_⟩
  · rw [C44_eq]; exact ((aux (sizeOf t + 1)).1 t (by omega)).1
  · rw [C44_eq] at ht ⊢; exact (((aux (sizeOf t + 1)).1 t (by omega)).2 u ht).1
  · rw [C44_eq] at ht hu ⊢; exact (((aux (sizeOf t + 1)).1 t (by omega)).2 u ht).2 w hu

example : Tree.eqTree (fun a b : Nat => a % 10 == b % 10) (.node 1 [.node 2 [], .node 13 []]) (.node 11 [.node 2 [], .node 3 []]) = true ∧
    Tree.eqTree (fun a b : Nat => a == b) (.node 1 [.node 2 []]) (.node 1 [.node 2 [], .node 3 []]) = false := by decide +kernel

end Utki
