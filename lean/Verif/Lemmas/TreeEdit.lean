import Verif.Lemmas.TreeOrder
/-! # Modification of forests -/
namespace Utki.Trav
open Spec
variable {α : Type}

theorem modify_snoc (g : List (Tree α) → List (Tree α)) (f : List (Tree α)) (q : Path) (j : Nat) (l : List (Tree α)) (t : Tree α)
    (hl : listAt f q = some l) (ht : l[j]? = some t) :
    modify g f (q ++ [j]) = modify (fun l => l.set j (.node t.value (g t.children))) f q := by
  induction q generalizing f with
  | nil =>
    simp [listAt] at hl; subst hl
    simp [modify, ht]
  | cons i q ih =>
    simp only [listAt] at hl
    cases hi : f[i]? with
    | none => rw [hi] at hl; cases hl
    | some u =>
      rw [hi] at hl; simp only at hl
      simp only [List.cons_append, modify, hi]
      rw [ih u.children hl]

theorem listAt_modify (g : List (Tree α) → List (Tree α)) (f : List (Tree α)) (q : Path) (l : List (Tree α)) (hl : listAt f q = some l) :
    listAt (modify g f q) q = some (g l) := by
  induction q generalizing f with
  | nil => simp [listAt] at hl; subst hl; rfl
  | cons i q ih =>
    simp only [listAt] at hl
    cases hi : f[i]? with
    | none => rw [hi] at hl; cases hl
    | some u =>
      rw [hi] at hl; simp only at hl
      have hlt : i < f.length := by rw [List.getElem?_eq_some_iff] at hi; exact hi.1
      simp only [modify, hi, listAt]
      rw [List.getElem?_set_self hlt]
      exact ih u.children hl

theorem modify_id (f : List (Tree α)) (q : Path) : modify (fun l => l) f q = f := by
  induction q generalizing f with
  | nil => rfl
  | cons i q ih =>
    simp only [modify]
    cases hi : f[i]? with
    | none => rfl
    | some u =>
      simp only [ih]
      rw [List.getElem?_eq_some_iff] at hi
      obtain ⟨h1, rfl⟩ := hi
      cases he : f[i] with
      | node v cs =>
        simp only [Tree.value, Tree.children]
        rw [← he, List.set_getElem_self]

theorem outline_append (d : Nat) (a b : List (Tree α)) : outlineList d (a ++ b) = outlineList d a ++ outlineList d b := by
  induction a with
  | nil => simp [outlineList]
  | cons t a ih => simp [outlineList, ih]

theorem nodesList_append (p : Path) (i : Nat) (a b : List (Tree α)) :
    nodesList p i (a ++ b) = nodesList p i a ++ nodesList p (i + a.length) b := by
  induction a generalizing i with
  | nil => simp [nodesList]
  | cons t a ih => simp [nodesList, ih, show i + 1 + a.length = i + (a.length + 1) by omega]

theorem length_aux (n : Nat) :
    (∀ (t : Tree α) (p : Path) (d : Nat), sizeOf t < n → (nodesTree p t).length = (outlineTree d t).length) ∧
    (∀ (ts : List (Tree α)) (p : Path) (i d : Nat), sizeOf ts < n → (nodesList p i ts).length = (outlineList d ts).length) := by
  induction n with
  | zero => exact ⟨fun _ _ _ h => by omega, fun _ _ _ _ h => by omega⟩
  | succ n ih =>
    refine ⟨?_, ?_⟩
    · intro t p d hn
      cases t with
      | node w cs =>
        simp only [Tree.node.sizeOf_spec] at hn
        simp only [nodesTree, outlineTree, List.length_cons, ih.2 cs p 0 (d + 1) (by omega)]
    · intro ts p i d hn
      cases ts with
      | nil => simp [nodesList, outlineList]
      | cons t ts =>
        simp only [List.cons.sizeOf_spec] at hn
        simp only [nodesList, outlineList, List.length_append, ih.1 t _ d (by omega), ih.2 ts p (i + 1) d (by omega)]

theorem length_nodesList (ts : List (Tree α)) (p : Path) (i d : Nat) : (nodesList p i ts).length = (outlineList d ts).length :=
  (length_aux (sizeOf ts + 1)).2 ts p i d (by omega)

theorem length_nodes (f : List (Tree α)) : (nodes f).length = (outline f).length := length_nodesList f [] 0 1

/-- How a list inside a forest appears in its traversal, and what replacing the list does. -/
theorem region (f : List (Tree α)) (q : Path) (l : List (Tree α)) (hl : listAt f q = some l) :
    ∃ B A, ∀ g : List (Tree α) → List (Tree α),
      outline (modify g f q) = B ++ outlineList (q.length + 1) (g l) ++ A ∧
      ∃ B' a rest, positions (modify g f q) = B' ++ (nodesList q 0 (g l)).map (·.1) ++ a :: rest ∧ B'.length = B.length ∧
        Climb (modify g f q) (q ++ [(g l).length]) a := by
  generalize hn : q.length = n
  induction n generalizing q l with
  | zero =>
    have : q = [] := List.length_eq_zero_iff.mp hn
    subst this
    simp [listAt] at hl; subst hl
    refine ⟨[], [], fun g => ⟨by simp [outline, modify], [], [(g f).length], [], by simp [positions, nodes, modify], rfl, ?_⟩⟩
    simp only [modify, List.nil_append]
    exact .root _
  | succ n ih =>
    rcases List.eq_nil_or_concat q with h | ⟨q', j, h⟩
    · subst h; simp at hn
    · rw [List.concat_eq_append] at h
      subst h
      obtain ⟨L, t, h1, h2, h3⟩ := listAt_snoc_some hl
      subst h3
      have hj : j < L.length := by rw [List.getElem?_eq_some_iff] at h2; exact h2.1
      obtain ⟨B, A, H⟩ := ih q' L h1 (by simpa using hn)
      refine ⟨B ++ outlineList (n + 1) (L.take j) ++ [(n + 1, t.value)], outlineList (n + 1) (L.drop (j + 1)) ++ A, fun g => ?_⟩
      have hmod := modify_snoc g f q' j L t h1 h2
      obtain ⟨o1, B', a, rest, o2, o3, o4⟩ := H (fun l => l.set j (.node t.value (g t.children)))
      rw [hmod]
      generalize hf' : modify (fun l => l.set j (Tree.node t.value (g t.children))) f q' = f' at o1 o2 o4
      have hset : L.set j (.node t.value (g t.children)) = L.take j ++ .node t.value (g t.children) :: L.drop (j + 1) := by
        rw [List.set_eq_take_append_cons_drop, if_pos hj]
      have hL' : listAt f' q' = some (L.set j (.node t.value (g t.children))) := by
        rw [← hf']; exact listAt_modify _ f q' L h1
      have htk : (L.take j).length = j := by simp; omega
      have hcs : listAt f' (q' ++ [j]) = some (g t.children) := by
        rw [listAt_snoc hL', List.getElem?_set_self hj]; rfl
      refine ⟨?_, ?_⟩
      · rw [o1, hset, outline_append]
        simp [outlineList, outlineTree]
      · obtain ⟨a', rest', c1, c2, c3⟩ := chain_list (sizeOf (L.drop (j + 1)) + 1) f' q' (L.set j (.node t.value (g t.children))) (j + 1)
          (L.drop (j + 1)) a (by omega) hL' (by rw [List.drop_set]; simp) (by simp; omega) o4
        refine ⟨B' ++ (nodesList q' 0 (L.take j)).map (·.1) ++ [q' ++ [j]], a', rest' ++ rest, ?_, ?_, ?_⟩
        · rw [o2, hset, nodesList_append]
          simp only [nodesList, nodesTree, List.map_append, List.map_cons, htk, Nat.zero_add, List.append_assoc, List.cons_append,
            List.nil_append]
          have : (nodesList q' (j + 1) (L.drop (j + 1))).map (·.1) ++ a :: rest = a' :: (rest' ++ rest) := by
            rw [← List.cons_append, ← c1]; simp
          rw [this]
        · simp only [List.length_append, List.length_map, List.length_singleton, o3, length_nodesList _ _ _ (n + 1)]
        · exact .up q' j (g t.children) a' hcs c3

/-- The position of a list element, or of the place after the list, in the traversal. -/
theorem region_pos {f' : List (Tree α)} {q : Path} {l' : List (Tree α)} {B' : List Path} {a : Path} {rest : List Path} (hl : listAt f' q = some l')
    (h1 : positions f' = B' ++ (nodesList q 0 l').map (·.1) ++ a :: rest) (h2 : Climb f' (q ++ [l'.length]) a)
    (k : Nat) (hk : k ≤ l'.length) (r : Path) (hr : Climb f' (q ++ [k]) r) (d : Nat) :
    (positions f')[B'.length + (outlineList d (l'.take k)).length]? = some r := by
  obtain ⟨a', rest', c1, c2, c3⟩ := chain_list (sizeOf (l'.drop k) + 1) f' q l' k (l'.drop k) a (by omega) hl rfl hk h2
  have hra : r = a' := climb_fun hr c3
  subst hra
  have hsplit : nodesList q 0 l' = nodesList q 0 (l'.take k) ++ nodesList q k (l'.drop k) := by
    conv => lhs; rw [← List.take_append_drop k l']
    rw [nodesList_append]; simp [Nat.min_eq_left hk]
  rw [h1, hsplit]
  have e : B' ++ List.map (fun x => x.1) (nodesList q 0 (l'.take k) ++ nodesList q k (l'.drop k)) ++ a :: rest =
      (B' ++ (nodesList q 0 (l'.take k)).map (·.1)) ++ r :: (rest' ++ rest) := by
    rw [← List.cons_append, ← c1]; simp
  rw [e, List.getElem?_append_right (by simp [length_nodesList _ _ _ d])]
  simp [length_nodesList _ _ _ d]

/-- Splitting a position. -/
theorem position_split {f : List (Tree α)} {n : Nat} {p : Path} (h : (positions f)[n]? = some p) :
    ∃ q k l, p = q ++ [k] ∧ listAt f q = some l ∧ Climb f p p ∧ k ≤ l.length ∧ (n < (nodes f).length → k < l.length) := by
  rcases positions_cases h with ⟨h1, t, h2⟩ | ⟨h1, h2⟩
  · obtain ⟨q, k, l, rfl, h3, h4⟩ := subtree_split h2
    have hk : k < l.length := by rw [List.getElem?_eq_some_iff] at h4; exact h4.1
    exact ⟨q, k, l, rfl, h3, climb_self f q k l h3 hk, by omega, fun _ => hk⟩
  · subst h2
    exact ⟨[], f.length, f, rfl, rfl, .root _, by omega, fun h => by omega⟩

/-- Replacing a segment of the list that contains a position. -/
theorem splice {f : List (Tree α)} {n : Nat} {p q : Path} {k : Nat} {l : List (Tree α)} (h : (positions f)[n]? = some p) (hp : p = q ++ [k])
    (hl : listAt f q = some l) (hc : Climb f p p) (m m' : Nat) (hm : k + m + m' ≤ l.length) (new : List (Tree α)) :
    let f' := modify (fun l => l.take (k + m) ++ new ++ l.drop (k + m + m')) f q
    let s := n + (outlineList p.length ((l.drop k).take m)).length
    outline f' = (outline f).take s ++ outlineList p.length new ++
      (outline f).drop (s + (outlineList p.length ((l.drop (k + m)).take m')).length) ∧
    (∀ r, Climb f' (q ++ [k + m]) r → (positions f')[s]? = some r) := by
  obtain ⟨B, A, H⟩ := region f q l hl
  have hlen : p.length = q.length + 1 := by rw [hp]; simp
  intro f' s
  obtain ⟨o1, B1, a1, rest1, o2, o3, o4⟩ := H (fun l => l)
  rw [modify_id] at o1 o2 o4
  have hpos := region_pos hl o2 o4 k (by omega) p (by rw [← hp]; exact hc) (q.length + 1)
  have hn : n = B1.length + (outlineList (q.length + 1) (l.take k)).length := positions_inj f _ _ _ h hpos
  obtain ⟨w1, B2, a2, rest2, w2, w3, w4⟩ := H (fun l => l.take (k + m) ++ new ++ l.drop (k + m + m'))
  have hl' := listAt_modify (fun l => l.take (k + m) ++ new ++ l.drop (k + m + m')) f q l hl
  have htk : l.take (k + m) = l.take k ++ (l.drop k).take m := by rw [List.take_add]
  have hdr : l.drop (k + m) = (l.drop (k + m)).take m' ++ l.drop (k + m + m') := by
    conv => lhs; rw [← List.take_append_drop m' (l.drop (k + m)), List.drop_drop]
  have hs : s = (B ++ outlineList (q.length + 1) (l.take (k + m))).length := by
    simp only [s, hn, hlen, htk, outline_append, List.length_append, o3]; omega
  have ho : outline f = (B ++ outlineList (q.length + 1) (l.take (k + m))) ++ (outlineList (q.length + 1) ((l.drop (k + m)).take m') ++
      (outlineList (q.length + 1) (l.drop (k + m + m')) ++ A)) := by
    rw [o1]
    conv => lhs; rw [← List.take_append_drop (k + m) l, outline_append, hdr, outline_append]
    simp
  refine ⟨?_, ?_⟩
  · have t1 : (outline f).take s = B ++ outlineList (q.length + 1) (l.take (k + m)) := by rw [ho, hs, List.take_left]
    have t2 : (outline f).drop (s + (outlineList p.length ((l.drop (k + m)).take m')).length) =
        outlineList (q.length + 1) (l.drop (k + m + m')) ++ A := by
      rw [← List.drop_drop, ho, hs, List.drop_left, hlen, List.drop_left]
    rw [t1, t2, hlen]
    show outline (modify _ f q) = _
    rw [w1]
    simp only [outline_append, List.append_assoc]
  · intro r hr
    have := region_pos hl' w2 w4 (k + m) (by simp; omega) r hr (q.length + 1)
    have htk' : List.take (k + m) (List.take (k + m) l ++ new ++ List.drop (k + m + m') l) = List.take (k + m) l := by
      rw [List.append_assoc, List.take_append_of_le_length (by simp; omega), List.take_take]
      simp
    rw [htk', w3] at this
    rw [hs, List.length_append]
    exact this

end Utki.Trav
