import Verif.Props.Tree
/-!
# C103: insertion and erasure in a tree undo each other
-/
namespace Utki
open Spec Trav
variable {α : Type}

theorem at_unique {f : List (Tree α)} {n : Nat} {it it' : Iter} (h : At f n it) (h' : At f n it') : it = it' := by
  obtain ⟨p, h1, rfl⟩ := h
  obtain ⟨p', h2, rfl⟩ := h'
  rw [h1] at h2; cases h2; rfl

theorem at_le {f : List (Tree α)} {n : Nat} {it : Iter} (h : At f n it) : n ≤ (outline f).length := by
  obtain ⟨p, h1, _⟩ := h
  have : n < (positions f).length := by
    rw [List.getElem?_eq_some_iff] at h1; exact h1.1
  rw [positions_length, length_nodes] at this
  omega

theorem outlineTree_length (d d' : Nat) (u : Tree α) : (outlineTree d u).length = (outlineTree d' u).length := by
  have h1 := (length_aux (sizeOf u + 1)).1 u [] d (by omega)
  have h2 := (length_aux (sizeOf u + 1)).1 u [] d' (by omega)
  omega

theorem outlineTree_pos (d : Nat) (u : Tree α) : 0 < (outlineTree d u).length := by cases u; simp [outlineTree]

theorem outline_depth (d d' : Nat) (X X' Y Y' : List (Nat × α)) (u : Tree α) (h : X ++ outlineTree d u ++ Y = X' ++ outlineTree d' u ++ Y')
    (hl : X.length = X'.length) : d = d' := by
  rw [List.append_assoc, List.append_assoc] at h
  have := List.append_inj_right h hl
  cases u
  simp [outlineTree] at this
  exact this.1

/-- C103: erasing the subtree that was inserted gives back the forest, and the iterator before which it was inserted. -/
theorem C103_insert_erase (dbg : Bool) (f : List (Tree α)) (n : Nat) (it : Iter) (t : Tree α) (h : At f n it) :
    ∃ f' it', insert f it t = .ok (f', it') ∧ erase dbg f' it' = .ok (f, it) := by
  obtain ⟨f', it', h1, h2, h3, h4⟩ := C41_insert f n it t h
  have hn := at_le h
  have hlen : (outline f').length = (outline f).length + (outlineTree (depth it) t).length := by
    rw [h2]; simp; omega
  have hpos := outlineTree_pos (depth it) t
  obtain ⟨f'', it'', e1, e2, e3⟩ := C42_erase dbg f' n it' t h3 h4 (by rw [length_nodes]; omega)
  have hf : f'' = f := by
    apply C41_outline_determines
    rw [e2, h2, outlineTree_length 0 (depth it) t]
    rw [List.append_assoc, List.take_left' (by simp; omega), ← List.drop_drop, List.drop_left' (by simp; omega), List.drop_left' rfl, List.take_append_drop]
  subst hf
  exact ⟨f', it', h1, by rw [e1, at_unique e3 h]⟩

/-- The place of a subtree in the outline. -/
theorem outline_segment (f : List (Tree α)) (n : Nat) (it : Iter) (u : Tree α) (h : At f n it) (hu : star f it = .ok u)
    (hn : n < (nodes f).length) :
    outline f = (outline f).take n ++ outlineTree (depth it) u ++ (outline f).drop (n + (outlineTree 0 u).length) := by
  obtain ⟨p, hp, rfl⟩ := h
  obtain ⟨q, k, l, rfl, h1, h2, h3, h4⟩ := position_split hp
  have hk := h4 hn
  have hlu : l[k]? = some u := by
    have : subtree f (q ++ [k]) = some l[k] := by rw [subtree_snoc, h1]; simp [hk]
    rw [star_canon this] at hu; cases hu
    exact List.getElem?_eq_getElem hk
  have hseg : (l.drop k).take 1 = [u] := by
    rw [List.getElem?_eq_some_iff] at hlu
    obtain ⟨_, rfl⟩ := hlu
    rw [List.drop_eq_getElem_cons hk]; rfl
  obtain ⟨o1, _⟩ := splice hp rfl h1 h2 0 1 (by omega) [u]
  simp only [List.take_zero, outlineList, List.length_nil, Nat.add_zero, hseg, List.append_nil] at o1
  rw [modify_congr _ (fun l => l) f q l h1 (by
    have e : (l.drop k).take 1 ++ l.drop (k + 1) = l.drop k := by rw [← List.drop_drop]; exact List.take_append_drop 1 _
    show l.take k ++ [u] ++ l.drop (k + 1) = l
    rw [List.append_assoc, ← hseg, e, List.take_append_drop]), modify_id, outlineTree_length (q ++ [k]).length 0 u] at o1
  simpa [depth, canon, canonI_length] using o1

/-- C103: the same for `insert_after`; the iterator is then at the node that follows the subtree after which it was inserted. -/
theorem C103_insert_after_erase (dbg : Bool) (f : List (Tree α)) (n : Nat) (it : Iter) (t u : Tree α) (h : At f n it) (hu : star f it = .ok u)
    (hn : n < (nodes f).length) :
    ∃ f' it' it'', insert_after f it t = .ok (f', it') ∧ erase dbg f' it' = .ok (f, it'') ∧ At f (n + (outlineTree 0 u).length) it'' := by
  obtain ⟨f', it', h1, h2, h3, h4⟩ := C41_insert_after f n it t u h hu hn
  have hm : n + (outlineTree 0 u).length ≤ (outline f).length := by
    have := congrArg List.length (outline_segment f n it u h hu hn)
    have h5 := at_le h
    simp only [List.length_append, List.length_take, List.length_drop, outlineTree_length (depth it) 0 u] at this
    omega
  have hlen : (outline f').length = (outline f).length + (outlineTree (depth it) t).length := by
    rw [h2]; simp; omega
  have hpos := outlineTree_pos (depth it) t
  obtain ⟨f'', it'', e1, e2, e3⟩ := C42_erase dbg f' _ it' t h3 h4 (by rw [length_nodes]; omega)
  have hf : f'' = f := by
    apply C41_outline_determines
    rw [e2, h2, outlineTree_length 0 (depth it) t]
    rw [List.append_assoc, List.take_left' (by simp; omega), ← List.drop_drop, List.drop_left' (by simp; omega), List.drop_left' rfl, List.take_append_drop]
  subst hf
  exact ⟨f', it', it'', h1, e1, e3⟩

theorem climb_length {f : List (Tree α)} {p r : Path} (h : Climb f p r) : r.length ≤ p.length := by
  induction h with
  | root k => simp
  | stop => simp
  | up q j l r _ _ ih => simp at ih ⊢; omega

theorem climb_end {f : List (Tree α)} {p r : Path} (h : Climb f p r) (q : Path) (k : Nat) (l : List (Tree α)) (hp : p = q ++ [k]) (hq : q ≠ [])
    (hl : listAt f q = some l) (hk : k = l.length) : r.length < p.length := by
  cases h with
  | root k' =>
    cases q with
    | nil => exact absurd rfl hq
    | cons a q => simp at hp
  | stop q' k' l' _ hl' hk' =>
    obtain ⟨rfl, rfl⟩ := snoc_inj hp
    rw [hl] at hl'; cases hl'; omega
  | up q' j l' _ hl' hc =>
    have := climb_length hc
    simp at this ⊢; omega

/-- Where `erase` leaves the iterator. -/
theorem erase_depth (dbg : Bool) (f : List (Tree α)) (n : Nat) (it : Iter) (h : At f n it) (hn : n < (nodes f).length)
    (f' : List (Tree α)) (it' : Iter) (he : erase dbg f it = .ok (f', it')) :
    (is_last_child f it = .ok false ∨ depth it = 1 → depth it' = depth it) ∧
    (is_last_child f it = .ok true → 1 < depth it → depth it' < depth it) := by
  obtain ⟨q, k, hi, hc⟩ := (C43_is_last_child f n it h).1 hn
  obtain ⟨p, hp, rfl⟩ := h
  rw [index_canon] at hi
  cases hi
  obtain ⟨q', k', l, e, h1, h2, h3, h4⟩ := position_split hp
  obtain ⟨rfl, rfl⟩ := snoc_inj e
  have hk := h4 hn
  have hmod : (fun l : List (Tree α) => l.eraseIdx k) = (fun l => l.take k ++ l.drop (k + 1)) := by
    funext l; rw [List.eraseIdx_eq_take_drop_succ]
  have hl' := listAt_modify (fun l => l.take k ++ l.drop (k + 1)) f q l h1
  obtain ⟨r, hr⟩ := climb_total _ q k _ hl' (by simp; omega)
  have he' : erase dbg f (canon (q ++ [k])) = .ok (modify (fun l => l.take k ++ l.drop (k + 1)) f q, canon r) := by
    have hloop := eraseLoop_eq dbg hr (q.length + 1 + 1) (by simp)
    rw [canon_snoc] at hloop ⊢
    unfold erase
    simp only [back_snoc, Res.bind_eq, Res.ok_bind, listErase, getList_ok h1]
    rw [if_pos ⟨trivial, hk⟩]
    simp only [Res.ok_bind, setBack_snoc, Res.pure_eq, hmod, List.length_append, canonI_length, List.length_singleton, hloop]
  rw [he'] at he
  cases he
  have hd : ∀ p, depth (canon p) = p.length := by intro p; simp [depth, canon, canonI_length]
  rw [hc, hd, hd, subtree_snoc, h1]
  constructor
  · intro hx
    have hself : Climb (modify (fun l => l.take k ++ l.drop (k + 1)) f q) (q ++ [k]) (q ++ [k]) := by
      by_cases hlast : k + 1 < l.length
      · exact climb_self _ q k _ hl' (by simp; omega)
      · rcases hx with hx | hx
        · simp [hlast] at hx
        · have : q = [] := List.length_eq_zero_iff.mp (by simpa using hx)
          subst this
          exact .root k
    rw [climb_fun hr hself]
  · intro hx hq
    have hlast : ¬ k + 1 < l.length := by
      intro hlt
      simp [hlt] at hx
    exact climb_end hr q k _ rfl (by rintro rfl; simp at hq) hl' (by simp; omega)

/-- C103: a subtree that was erased and is inserted again before the node that `erase` returned is at its old place if and only if it had a next sibling or
was a root: otherwise it is now on a higher level. -/
theorem C103_erase_insert (dbg : Bool) (f : List (Tree α)) (n : Nat) (it : Iter) (u : Tree α) (h : At f n it) (hu : star f it = .ok u)
    (hn : n < (nodes f).length) :
    ∃ f' it' f'' it'', erase dbg f it = .ok (f', it') ∧ insert f' it' u = .ok (f'', it'') ∧
      (is_last_child f it = .ok false ∨ depth it = 1 → f'' = f ∧ it'' = it) ∧
      (is_last_child f it = .ok true → 1 < depth it → f'' ≠ f ∧ depth it'' < depth it) := by
  obtain ⟨f', it', e1, e2, e3⟩ := C42_erase dbg f n it u h hu hn
  obtain ⟨f'', it'', i1, i2, i3, i4⟩ := C41_insert f' n it' u e3
  have hseg := outline_segment f n it u h hu hn
  obtain ⟨d1, d2⟩ := erase_depth dbg f n it h hn f' it' e1
  have hle := at_le h
  have ho : outline f'' = (outline f).take n ++ outlineTree (depth it') u ++ (outline f).drop (n + (outlineTree 0 u).length) := by
    rw [i2, e2, List.take_left' (by simp; omega), List.drop_left' (by simp; omega)]
  refine ⟨f', it', f'', it'', e1, i1, fun hx => ?_, fun hx hd => ?_⟩
  · have : f'' = f := by
      apply C41_outline_determines
      rw [ho, d1 hx, ← hseg]
    subst this
    exact ⟨rfl, at_unique i3 h⟩
  · have hlt := d2 hx hd
    constructor
    · rintro rfl
      have := outline_depth _ _ _ _ _ _ u (ho.symm.trans hseg) (by simp)
      omega
    · have hlen : n < (nodes f'').length := by
        have hpos := outlineTree_pos (depth it') u
        rw [length_nodes, ho]
        simp only [List.length_append, List.length_take]
        omega
      have hle' := at_le i3
      have := outline_depth _ _ _ _ _ _ u (ho.symm.trans (outline_segment f'' n it'' u i3 i4 hlen)) (by simp; omega)
      omega

/-! ## Examples -/

/-- Node 5 of `forest1` (`At`, the hypothesis of the theorems), and node 2, which has a next sibling. -/
example : At forest1 4 (canon [0, 1]) ∧ At forest1 1 (canon [0, 0]) ∧ star forest1 (canon [0, 0]) = .ok (.node 2 [.node 3 [], .node 4 []]) :=
  ⟨⟨_, by decide +kernel, rfl⟩, ⟨_, by decide +kernel, rfl⟩, rfl⟩
example : is_last_child forest1 (canon [0, 0]) = .ok false ∧ is_last_child forest1 (canon [0, 1]) = .ok true ∧ depth (canon [0, 1]) = 2 := by
  decide +kernel
example : ∃ f' it', insert forest1 (canon [0, 1]) (.node 8 [.node 9 []]) = .ok (f', it') ∧ erase true f' it' = .ok (forest1, canon [0, 1]) :=
  C103_insert_erase true forest1 4 _ _ ⟨_, by decide +kernel, rfl⟩
/-- Erased and inserted again: node 2 is back at its place; node 5, a last child, is a root now. -/
example : (do
    let (f, it) ← erase true forest1 (canon [0, 0])
    let (f, it) ← insert f it (.node 2 [.node 3 [], .node 4 []])
    return (outline f, ← index true it)) = .ok (outline forest1, [0, 0]) := by decide +kernel
example : (do
    let (f, it) ← erase true forest1 (canon [0, 1])
    let (f, it) ← insert f it (.node 5 [])
    return (outline f, ← index true it)) = .ok ([(1, 1), (2, 2), (3, 3), (3, 4), (1, 5), (1, 6), (2, 7)], [1]) := by decide +kernel

end Utki
