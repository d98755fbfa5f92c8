import Verif.Lemmas.Tree
/-! # Traversal order, index paths, and modification of forests -/
namespace Utki.Trav
open Spec
variable {α : Type}

/-! ## Nodes and paths -/

/-- The subtree at a path relative to a tree. -/
def subT : Tree α → Path → Option (Tree α)
  | t, [] => some t
  | t, i :: r =>
    match t.children[i]? with
    | some c => subT c r
    | none => none

theorem subtree_cons (f : List (Tree α)) (i : Nat) (r : Path) : subtree f (i :: r) = (f[i]?).bind (fun t => subT t r) := by
  induction r generalizing f i with
  | nil => simp only [subtree, subT]; cases f[i]? <;> rfl
  | cons j r ih =>
    simp only [subtree]
    cases f[i]? with
    | none => rfl
    | some t =>
      simp only [Option.bind_some, subT]
      rw [ih]
      cases t.children[j]? <;> rfl

theorem mem_nodes_aux (n : Nat) :
    (∀ (t : Tree α) (p x : Path) (v : α), sizeOf t < n → ((x, v) ∈ nodesTree p t ↔ ∃ r s, x = p ++ r ∧ subT t r = some s ∧ s.value = v)) ∧
    (∀ (ts : List (Tree α)) (p : Path) (i : Nat) (x : Path) (v : α), sizeOf ts < n → ((x, v) ∈ nodesList p i ts ↔
      ∃ j r t s, x = p ++ (i + j) :: r ∧ ts[j]? = some t ∧ subT t r = some s ∧ s.value = v)) := by
  induction n with
  | zero => exact ⟨fun _ _ _ _ h => by omega, fun _ _ _ _ _ h => by omega⟩
  | succ n ih =>
    refine ⟨?_, ?_⟩
    · intro t p x v hn
      cases t with
      | node w cs =>
        simp only [Tree.node.sizeOf_spec] at hn
        simp only [nodesTree, List.mem_cons, Prod.mk.injEq]
        rw [ih.2 cs p 0 x v (by omega)]
        constructor
        · rintro (⟨rfl, rfl⟩ | ⟨j, r, t, s, h1, h2, h3, h4⟩)
          · exact ⟨[], _, by simp, rfl, rfl⟩
          · refine ⟨j :: r, s, by simpa using h1, ?_, h4⟩
            simp only [subT, Tree.children, h2]; exact h3
        · rintro ⟨r, s, h1, h2, h3⟩
          cases r with
          | nil => simp only [subT, Option.some.injEq] at h2; subst h2; left; exact ⟨by simpa using h1, h3.symm⟩
          | cons j r =>
            simp only [subT, Tree.children] at h2
            cases hc : cs[j]? with
            | none => rw [hc] at h2; cases h2
            | some c => rw [hc] at h2; right; exact ⟨j, r, c, s, by simpa using h1, hc, h2, h3⟩
    · intro ts p i x v hn
      cases ts with
      | nil => simp [nodesList]
      | cons t ts =>
        simp only [List.cons.sizeOf_spec] at hn
        simp only [nodesList, List.mem_append]
        have hlt : sizeOf t < n := by omega
        rw [ih.1 t (p ++ [i]) x v hlt, ih.2 ts p (i + 1) x v (by omega)]
        constructor
        · rintro (⟨r, s, h1, h2, h3⟩ | ⟨j, r, u, s, h1, h2, h3, h4⟩)
          · exact ⟨0, r, t, s, by simpa using h1, rfl, h2, h3⟩
          · exact ⟨j + 1, r, u, s, by rw [h1]; simp; omega, by simpa using h2, h3, h4⟩
        · rintro ⟨j, r, u, s, h1, h2, h3, h4⟩
          cases j with
          | zero => simp at h2; subst h2; left; exact ⟨r, s, by simpa using h1, h3, h4⟩
          | succ j => right; exact ⟨j, r, u, s, by rw [h1]; simp; omega, by simpa using h2, h3, h4⟩

theorem mem_nodesTree (t : Tree α) (p x : Path) (v : α) :
    (x, v) ∈ nodesTree p t ↔ ∃ r s, x = p ++ r ∧ subT t r = some s ∧ s.value = v :=
  (mem_nodes_aux (sizeOf t + 1)).1 t p x v (by omega)

theorem mem_nodesList (ts : List (Tree α)) (p : Path) (i : Nat) (x : Path) (v : α) : (x, v) ∈ nodesList p i ts ↔
    ∃ j r t s, x = p ++ (i + j) :: r ∧ ts[j]? = some t ∧ subT t r = some s ∧ s.value = v :=
  (mem_nodes_aux (sizeOf ts + 1)).2 ts p i x v (by omega)

theorem mem_nodes (f : List (Tree α)) (x : Path) (v : α) : (x, v) ∈ nodes f ↔ ∃ s, subtree f x = some s ∧ s.value = v := by
  unfold nodes
  rw [mem_nodesList]
  constructor
  · rintro ⟨j, r, t, s, h1, h2, h3, h4⟩
    simp at h1; subst h1
    refine ⟨s, ?_, h4⟩
    rw [subtree_cons, h2]; exact h3
  · rintro ⟨s, h1, h2⟩
    cases x with
    | nil => cases h1
    | cons i r =>
      rw [subtree_cons] at h1
      cases ht : f[i]? with
      | none => rw [ht] at h1; cases h1
      | some t => rw [ht] at h1; exact ⟨i, r, t, s, by simp, ht, h1, h2⟩

theorem mem_paths (f : List (Tree α)) (x : Path) : x ∈ (nodes f).map (·.1) ↔ ∃ s, subtree f x = some s := by
  simp only [List.mem_map, Prod.exists, exists_and_right, exists_eq_right]
  constructor
  · rintro ⟨v, h⟩; obtain ⟨s, h1, _⟩ := (mem_nodes f x v).mp h; exact ⟨s, h1⟩
  · rintro ⟨s, h⟩; exact ⟨s.value, (mem_nodes f x _).mpr ⟨s, h, rfl⟩⟩

/-- A node path has an owner list. -/
theorem subtree_split {f : List (Tree α)} {p : Path} {t : Tree α} (h : subtree f p = some t) :
    ∃ q k l, p = q ++ [k] ∧ listAt f q = some l ∧ l[k]? = some t := by
  rcases List.eq_nil_or_concat p with hp | ⟨q, k, hp⟩
  · subst hp; cases h
  · rw [List.concat_eq_append] at hp; subst hp
    rw [subtree_snoc] at h
    cases hl : listAt f q with
    | none => rw [hl] at h; cases h
    | some l => rw [hl] at h; exact ⟨q, k, l, rfl, hl, h⟩

theorem positions_cases {f : List (Tree α)} {n : Nat} {p : Path} (h : (positions f)[n]? = some p) :
    (n < (nodes f).length ∧ ∃ t, subtree f p = some t) ∨ (n = (nodes f).length ∧ p = [f.length]) := by
  unfold positions at h
  by_cases hn : n < (nodes f).length
  · left
    refine ⟨hn, ?_⟩
    rw [List.getElem?_append_left (by simpa using hn)] at h
    exact (mem_paths f p).mp (List.mem_of_getElem? h)
  · right
    rw [List.getElem?_append_right (by simpa using hn)] at h
    rw [List.getElem?_eq_some_iff] at h
    obtain ⟨h1, h2⟩ := h
    simp at h1 h2
    exact ⟨by omega, h2.symm⟩

/-! ## Order -/

/-- Lexicographic order of paths. -/
def lexB : Path → Path → Bool
  | _, [] => false
  | [], _ :: _ => true
  | a :: as, b :: bs => if a < b then true else if b < a then false else lexB as bs

theorem lexB_prefix (p a b : Path) : lexB (p ++ a) (p ++ b) = lexB a b := by
  induction p with
  | nil => rfl
  | cons i p ih => simp [lexB, ih]

theorem lexB_irrefl (p : Path) : lexB p p = false := by
  induction p with
  | nil => rfl
  | cons i p ih => simp [lexB, ih]

theorem lexB_asymm (p q : Path) (h : lexB p q = true) : lexB q p = false := by
  induction p generalizing q with
  | nil => cases q <;> simp_all [lexB]
  | cons i p ih =>
    cases q with
    | nil => simp [lexB] at h
    | cons j q =>
      simp only [lexB] at h ⊢
      by_cases h1 : i < j
      · simp [h1, show ¬ j < i by omega]
      · simp [h1] at h
        simp [h1, h.1]; exact ih q h.2

theorem pairwise_aux (n : Nat) :
    (∀ (t : Tree α) (p : Path), sizeOf t < n → (nodesTree p t).Pairwise (fun a b => lexB a.1 b.1 = true)) ∧
    (∀ (ts : List (Tree α)) (p : Path) (i : Nat), sizeOf ts < n → (nodesList p i ts).Pairwise (fun a b => lexB a.1 b.1 = true)) := by
  induction n with
  | zero => exact ⟨fun _ _ h => by omega, fun _ _ _ h => by omega⟩
  | succ n ih =>
    refine ⟨?_, ?_⟩
    · intro t p hn
      cases t with
      | node w cs =>
        simp only [Tree.node.sizeOf_spec] at hn
        simp only [nodesTree, List.pairwise_cons]
        refine ⟨?_, ih.2 cs p 0 (by omega)⟩
        rintro ⟨x, v⟩ hx
        obtain ⟨j, r, t, s, h1, _⟩ := (mem_nodesList _ _ _ _ _).mp hx
        subst h1
        have := lexB_prefix p [] ((0 + j) :: r)
        rw [List.append_nil] at this
        simp only [this, lexB]
    · intro ts p i hn
      cases ts with
      | nil => simp [nodesList]
      | cons t ts =>
        simp only [List.cons.sizeOf_spec] at hn
        simp only [nodesList, List.pairwise_append]
        refine ⟨ih.1 t _ (by omega), ih.2 ts p (i + 1) (by omega), ?_⟩
        rintro ⟨x, v⟩ hx ⟨y, w⟩ hy
        obtain ⟨r, s, h1, _⟩ := (mem_nodesTree _ _ _ _).mp hx
        obtain ⟨j, r', t', s', h2, _⟩ := (mem_nodesList _ _ _ _ _).mp hy
        subst h1; subst h2
        simp only [List.append_assoc, lexB_prefix]
        simp [lexB, show i < i + 1 + j by omega]

theorem positions_pairwise (f : List (Tree α)) : (positions f).Pairwise (fun a b => lexB a b = true) := by
  unfold positions
  rw [List.pairwise_append, List.pairwise_map]
  refine ⟨(pairwise_aux (sizeOf f + 1)).2 f [] 0 (by omega), by simp, ?_⟩
  intro x hx y hy
  simp only [List.mem_singleton] at hy; subst hy
  obtain ⟨⟨x', v⟩, hm, rfl⟩ := List.mem_map.mp hx
  obtain ⟨j, r, t, s, h1, h2, _⟩ := (mem_nodesList _ _ _ _ _).mp hm
  have hj : j < f.length := by rw [List.getElem?_eq_some_iff] at h2; exact h2.1
  simp only [h1]
  simp [lexB, hj]

theorem positions_lex (f : List (Tree α)) (n m : Nat) (a b : Path) (ha : (positions f)[n]? = some a) (hb : (positions f)[m]? = some b) :
    lexB a b = decide (n < m) := by
  have hpw := positions_pairwise f
  rw [List.pairwise_iff_getElem] at hpw
  rw [List.getElem?_eq_some_iff] at ha hb
  obtain ⟨h1, rfl⟩ := ha
  obtain ⟨h2, rfl⟩ := hb
  by_cases h : n < m
  · simp [h, hpw n m h1 h2 h]
  · by_cases h' : m < n
    · simp [h, lexB_asymm _ _ (hpw m n h2 h1 h')]
    · have : n = m := by omega
      subst this; simp [lexB_irrefl]

theorem positions_inj (f : List (Tree α)) (n m : Nat) (a : Path) (ha : (positions f)[n]? = some a) (hb : (positions f)[m]? = some a) : n = m := by
  have h1 := positions_lex f n m a a ha hb
  have h2 := positions_lex f m n a a hb ha
  rw [lexB_irrefl] at h1 h2
  simp at h1 h2; omega

theorem vecEq_canon (pre a b : Path) (h : a.length = b.length) : vecEq (canonI pre a) (canonI pre b) = .ok (decide (a = b)) := by
  induction a generalizing pre b with
  | nil => cases b with
    | nil => rfl
    | cons j b => simp at h
  | cons i a ih =>
    cases b with
    | nil => simp at h
    | cons j b =>
      simp only [canonI, vecEq, iterEq_same, Res.bind_eq, Res.ok_bind]
      by_cases hij : i = j
      · subst hij
        simp only [beq_self_eq_true, if_true, ih (pre ++ [i]) b (by simpa using h)]
        simp
      · simp [hij]

theorem eq_canon (a b : Path) : eq (canon a) (canon b) = .ok (decide (a = b)) := by
  unfold eq canon
  simp only [canonI_length]
  split
  · exact vecEq_canon [] a b ‹_›
  · rename_i h
    have : a ≠ b := by intro e; subst e; exact h rfl
    simp [this]

theorem vecLt_canon (pre a b : Path) : vecLt (canonI pre a) (canonI pre b) = .ok (lexB a b) := by
  induction a generalizing pre b with
  | nil => cases b <;> rfl
  | cons i a ih =>
    cases b with
    | nil => rfl
    | cons j b =>
      simp only [canonI, vecLt, iterLt, if_true, Res.bind_eq, Res.ok_bind, lexB]
      by_cases h1 : i < j
      · simp [h1]
      · by_cases h2 : j < i
        · simp [h1, h2]
        · have : i = j := by omega
          subst this
          simp [ih]

/-! ## Index paths -/

theorem index_canon (dbg : Bool) (p : Path) : index dbg (canon p) = .ok p := by
  have : ∀ pre q, indexLoop (canonL pre q) (canonI pre q) = .ok q := by
    intro pre q
    induction q generalizing pre with
    | nil => rfl
    | cons i q ih => simp [canonL, canonI, indexLoop, ih]
  unfold index canon
  simp [canonL_length, canonI_length, this]

theorem makeLoop_eq (f : List (Tree α)) (pre rest : Path) (l : List (Tree α)) (hl : listAt f pre = some l) :
    makeLoop f rest pre (beginOf pre) (canon pre) =
      (if rest = [] ∨ (subtree f (pre ++ rest)).isSome then .ok (canon (pre ++ rest)) else .throw .out_of_range) := by
  induction rest generalizing pre l with
  | nil => simp [makeLoop]
  | cons i rest ih =>
    unfold makeLoop
    simp only [getList_ok hl, Res.bind_eq, Res.ok_bind]
    by_cases hi : i ≥ l.length
    · rw [if_pos hi]
      have : subtree f (pre ++ i :: rest) = none := by
        cases h : subtree f (pre ++ i :: rest) with
        | none => rfl
        | some t =>
          exfalso
          obtain ⟨q, k, L, h1, h2, h3⟩ := subtree_split h
          -- the owner list of the last step passes through index `i` of `l`
          have : ∃ L', listAt f (pre ++ [i]) = some L' ∨ (rest = [] ∧ l[i]? = some t) := by
            rcases List.eq_nil_or_concat rest with hr | ⟨r', k', hr⟩
            · subst hr
              obtain ⟨e1, e2⟩ := snoc_inj h1
              subst e1; subst e2
              rw [hl] at h2; cases h2
              exact ⟨[], .inr ⟨rfl, h3⟩⟩
            · rw [List.concat_eq_append] at hr
              subst hr
              have h1' : (pre ++ [i] ++ r') ++ [k'] = q ++ [k] := by rw [← h1]; simp
              obtain ⟨e1, _⟩ := snoc_inj h1'
              rw [← e1, listAt_append] at h2
              cases hx : listAt f (pre ++ [i]) with
              | none => rw [hx] at h2; cases h2
              | some L' => exact ⟨L', .inl rfl⟩
          obtain ⟨L', h | ⟨_, h⟩⟩ := this
          · rw [listAt_snoc hl] at h
            rw [List.getElem?_eq_none hi] at h; cases h
          · rw [List.getElem?_eq_none hi] at h; cases h
      simp [this]
    · rw [if_neg hi]
      have hi' : i < l.length := by omega
      have hc : listAt f (pre ++ [i]) = some l[i].children := by rw [listAt_snoc hl, List.getElem?_eq_getElem hi']; rfl
      rw [show beginOf pre = ⟨pre, 0⟩ from rfl, advance_ok hl (show 0 + i ≤ l.length by omega)]
      simp only [Res.ok_bind, Nat.zero_add]
      have := ih (pre ++ [i]) _ hc
      rw [canon_snoc] at this
      rw [show canon pre = ⟨canonL [] pre, canonI [] pre⟩ from rfl]
      simp only
      rw [this]
      simp only [List.append_assoc, List.singleton_append]
      by_cases hr : rest = []
      · subst hr
        have : (subtree f (pre ++ [i])).isSome = true := by
          rw [subtree_snoc, hl]; simp [hi']
        simp [this]
      · simp [hr]

theorem make_iterator_eq (f : List (Tree α)) (p : Path) :
    make_iterator f p = (if p = [] ∨ (subtree f p).isSome then .ok (canon p) else .throw .out_of_range) :=
  makeLoop_eq f [] p f rfl

theorem validLoop_eq (f : List (Tree α)) (pre rest : Path) (l : List (Tree α)) (hl : listAt f pre = some l) :
    validLoop f rest pre = .ok (decide (rest = [] ∨ (subtree f (pre ++ rest)).isSome)) := by
  have hm := makeLoop_eq f pre rest l hl
  induction rest generalizing pre l with
  | nil => simp [validLoop]
  | cons i rest ih =>
    unfold validLoop
    simp only [getList_ok hl, Res.bind_eq, Res.ok_bind]
    unfold makeLoop at hm
    simp only [getList_ok hl, Res.bind_eq, Res.ok_bind] at hm
    by_cases hi : i ≥ l.length
    · rw [if_pos hi] at hm ⊢
      have : ¬ (i :: rest = [] ∨ (subtree f (pre ++ i :: rest)).isSome = true) := by
        intro h; rw [if_pos h] at hm; cases hm
      simp only [Res.pure_eq, decide_eq_false this]
    · rw [if_neg hi] at hm ⊢
      have hi' : i < l.length := by omega
      have hc : listAt f (pre ++ [i]) = some l[i].children := by rw [listAt_snoc hl, List.getElem?_eq_getElem hi']; rfl
      rw [ih (pre ++ [i]) _ hc (makeLoop_eq f _ _ _ hc)]
      simp only [List.append_assoc, List.singleton_append]
      by_cases hr : rest = []
      · subst hr
        have : (subtree f (pre ++ [i])).isSome = true := by
          rw [subtree_snoc, hl]; simp [hi']
        simp [this]
      · simp [hr]

theorem is_valid_eq (f : List (Tree α)) (p : Path) : is_valid f p = .ok (subtree f p).isSome := by
  unfold is_valid
  cases p with
  | nil => rfl
  | cons i p =>
    simp only [List.isEmpty_cons, Bool.false_eq_true, if_false]
    rw [validLoop_eq f [] _ f rfl]
    simp

theorem star_canon {f : List (Tree α)} {p : Path} {t : Tree α} (h : subtree f p = some t) : star f (canon p) = .ok t := by
  obtain ⟨q, k, l, rfl, h1, h2⟩ := subtree_split h
  rw [canon_snoc]
  simp [star, deref_ok h1 h2]

theorem begin_eq : begin_ = canon [0] := rfl
theorem end_eq (f : List (Tree α)) : end_ f = canon [f.length] := rfl

end Utki.Trav
