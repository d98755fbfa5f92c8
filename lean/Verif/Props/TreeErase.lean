import Verif.Props.TreeAddr
import Verif.Spec.TreeErase
/-!
# Erasing nodes during a traversal (C99)

The usual loop: `for(auto i = t.begin(); i != t.end();) { if(pred(i->value)) i = t.erase(i); else ++i; }`.
-/
namespace Utki
open Spec
open TreeAddr (Mem AIter canonA Inv)
variable {α : Type}

/-- The loop over a traversal that erases the nodes that satisfy `pred`. -/
def eraseIfLoop (dbg : Bool) (pred : α → Bool) : Nat → Mem α → AIter → Res (Mem α)
  | 0, _, _ => .diverge
  | fuel + 1, m, it => do
    let b ← TreeAddr.eq m it (TreeAddr.end_ m)
    if b then return m
    else
      let t ← TreeAddr.star m it
      if pred t.value then
        let (m', it') ← TreeAddr.erase dbg m it
        eraseIfLoop dbg pred fuel m' it'
      else
        let it' ← TreeAddr.incr dbg m it
        eraseIfLoop dbg pred fuel m it'

/-! ## Lemmas -/

theorem prune_append (pred : α → Bool) (a b : List (Tree α)) : pruneList pred (a ++ b) = pruneList pred a ++ pruneList pred b := by
  induction a with
  | nil => rfl
  | cons t a ih => simp [pruneList, ih]

theorem prune_eraseIdx (pred : α → Bool) (l : List (Tree α)) (i : Nat) (u : Tree α) (hu : l[i]? = some u) (hp : pred u.value = true) :
    pruneList pred (l.eraseIdx i) = pruneList pred l := by
  induction l generalizing i with
  | nil => cases hu
  | cons t l ih =>
    cases i with
    | zero =>
      simp at hu; subst hu
      obtain ⟨v, cs⟩ := t
      simp only [Tree.value] at hp
      simp [pruneList, pruneTree, hp]
    | succ i => simp only [List.eraseIdx_cons_succ, pruneList, ih i (by simpa using hu)]

theorem prune_set (pred : α → Bool) (l : List (Tree α)) (i : Nat) (u w : Tree α) (hu : l[i]? = some u) (h : pruneTree pred w = pruneTree pred u) :
    pruneList pred (l.set i w) = pruneList pred l := by
  induction l generalizing i with
  | nil => cases hu
  | cons t l ih =>
    cases i with
    | zero => simp at hu; subst hu; simp [pruneList, h]
    | succ i => simp only [List.set_cons_succ, pruneList, ih i (by simpa using hu)]

theorem prune_modify (pred : α → Bool) (f : List (Tree α)) (q : Path) (i : Nat) (l : List (Tree α)) (u : Tree α) (hl : Trav.listAt f q = some l) (hu : l[i]? = some u)
    (hp : pred u.value = true) : pruneList pred (Trav.modify (fun l => l.eraseIdx i) f q) = pruneList pred f := by
  induction q generalizing f with
  | nil =>
    simp only [Trav.listAt, Option.some.injEq] at hl
    subst hl
    exact prune_eraseIdx pred f i u hu hp
  | cons c q ih =>
    simp only [Trav.listAt] at hl
    cases hc : f[c]? with
    | none => rw [hc] at hl; cases hl
    | some w =>
      rw [hc] at hl
      simp only at hl
      simp only [Trav.modify, hc]
      refine prune_set pred f c w _ hc ?_
      obtain ⟨v, cs⟩ := w
      simp only [pruneTree, Tree.value, Tree.children] at hl ⊢
      rw [ih cs hl]
      rfl

theorem values_aux (n : Nat) :
    (∀ (t : Tree α) (p : Path) (d : Nat), sizeOf t < n → (nodesTree p t).map (·.2) = (outlineTree d t).map (·.2)) ∧
    (∀ (ts : List (Tree α)) (p : Path) (i d : Nat), sizeOf ts < n → (nodesList p i ts).map (·.2) = (outlineList d ts).map (·.2)) := by
  induction n with
  | zero => exact ⟨fun _ _ _ h => by omega, fun _ _ _ _ h => by omega⟩
  | succ n ih =>
    refine ⟨fun t p d hn => ?_, fun ts p i d hn => ?_⟩
    · obtain ⟨v, cs⟩ := t
      simp only [Tree.node.sizeOf_spec] at hn
      simp only [nodesTree, outlineTree, List.map_cons, ih.2 cs p 0 (d + 1) (by omega)]
    · cases ts with
      | nil => rfl
      | cons t ts =>
        simp only [List.cons.sizeOf_spec] at hn
        simp only [nodesList, outlineList, List.map_append, ih.1 t _ d (by omega), ih.2 ts p (i + 1) d (by omega)]

theorem prune_none_aux (pred : α → Bool) (n : Nat) :
    (∀ (t : Tree α) (d : Nat), sizeOf t < n → (∀ x ∈ outlineTree d t, pred x.2 = false) → pruneTree pred t = [t]) ∧
    (∀ (ts : List (Tree α)) (d : Nat), sizeOf ts < n → (∀ x ∈ outlineList d ts, pred x.2 = false) → pruneList pred ts = ts) := by
  induction n with
  | zero => exact ⟨fun _ _ h => by omega, fun _ _ h => by omega⟩
  | succ n ih =>
    refine ⟨fun t d hn h => ?_, fun ts d hn h => ?_⟩
    · obtain ⟨v, cs⟩ := t
      simp only [Tree.node.sizeOf_spec] at hn
      simp only [outlineTree, List.mem_cons] at h
      have h1 : pred v = false := h (d, v) (.inl rfl)
      simp [pruneTree, h1, ih.2 cs (d + 1) (by omega) (fun x hx => h x (.inr hx))]
    · cases ts with
      | nil => rfl
      | cons t ts =>
        simp only [List.cons.sizeOf_spec] at hn
        simp only [outlineList, List.mem_append] at h
        simp [pruneList, ih.1 t d (by omega) (fun x hx => h x (.inl hx)), ih.2 ts d (by omega) (fun x hx => h x (.inr hx))]

theorem outlineTree_pos (d : Nat) (t : Tree α) : 0 < (outlineTree d t).length := by cases t; simp [outlineTree]

/-- What the erasing step does to the specification. -/
theorem erase_prune (dbg : Bool) (pred : α → Bool) (m m' : Mem α) (hi : Inv m) (n : Nat) (it it' : AIter) (h : AtA m n it) (hn : n < (nodes m.forest).length)
    (u : Tree α) (hu : TreeAddr.star m it = .ok u) (hp : pred u.value = true) (he : TreeAddr.erase dbg m it = .ok (m', it')) :
    pruneList pred m'.forest = pruneList pred m.forest := by
  obtain ⟨q, i, l, r, rfl, hpos, h1, h2, hr, he', _⟩ := eraseA dbg hi h hn
  have hs : l[i]? = some u := by
    have : subtree m.forest (q ++ [i]) = some l[i] := by rw [Trav.subtree_snoc, h1]; simp [h2]
    rw [TreeAddr.starA hi this] at hu
    cases hu
    exact List.getElem?_eq_getElem h2
  rw [he] at he'
  cases he'
  exact prune_modify pred m.forest q i l u h1 hs hp

theorem eraseIf_from (dbg : Bool) (pred : α → Bool) (fuel : Nat) : ∀ (m : Mem α) (n : Nat) (it : AIter), Reach m → AtA m n it →
    (nodes m.forest).length - n < fuel → (∀ x ∈ (outline m.forest).take n, pred x.2 = false) →
    ∃ m', eraseIfLoop dbg pred fuel m it = .ok m' ∧ Reach m' ∧ m'.forest = pruneList pred m.forest := by
  induction fuel with
  | zero => intro _ _ _ _ _ h; omega
  | succ fuel ih =>
    intro m n it hm h hf hv
    have hcmp := (C98_compare m hm n _ it _ h (C98_begin_end m).2).1
    have hle : n ≤ (nodes m.forest).length := by
      obtain ⟨p, hp, _⟩ := h
      rw [List.getElem?_eq_some_iff] at hp
      have := hp.1
      rw [Trav.positions_length] at this; omega
    by_cases he : n = (nodes m.forest).length
    · refine ⟨m, by simp [eraseIfLoop, hcmp, he], hm, ?_⟩
      rw [he, Trav.length_nodes, List.take_length] at hv
      exact ((prune_none_aux pred (sizeOf m.forest + 1)).2 m.forest 1 (by omega) hv).symm
    · have hn : n < (nodes m.forest).length := by omega
      obtain ⟨p, hp, _, hs, hinc, _⟩ := C98_iterator dbg m hm n it h
      obtain ⟨t, ht, hsub⟩ := hs hn
      by_cases hpr : pred t.value = true
      · obtain ⟨m', it', e1, e2, e3, e4⟩ := C98_erase dbg m hm n it t h hn ht
        have hlen : (nodes m'.forest).length - n < fuel := by
          have : (nodes m'.forest).length = n + ((nodes m.forest).length - (n + (outlineTree 0 t).length)) := by
            rw [Trav.length_nodes, e3, List.length_append, List.length_take, List.length_drop, ← Trav.length_nodes]
            omega
          have := outlineTree_pos 0 t
          omega
        obtain ⟨m'', r1, r2, r3⟩ := ih m' n it' e2 e4 hlen (by
          rw [e3, List.take_append_of_le_length (by rw [List.length_take, ← Trav.length_nodes]; omega), List.take_take, Nat.min_self]
          exact hv)
        refine ⟨m'', ?_, r2, ?_⟩
        · simp [eraseIfLoop, hcmp, he, ht, hpr, e1, r1]
        · rw [r3]; exact erase_prune dbg pred m m' hm.inv n it it' h hn t ht hpr e1
      · obtain ⟨it', e1, e2⟩ := hinc hn
        obtain ⟨m'', r1, r2, r3⟩ := ih m (n + 1) it' hm e2 (by omega) (by
          have hlo : n < (outline m.forest).length := by rw [← Trav.length_nodes]; exact hn
          rw [List.take_succ_eq_append_getElem hlo]
          intro x hx
          rw [List.mem_append, List.mem_singleton] at hx
          rcases hx with hx | rfl
          · exact hv x hx
          · have hval : (nodes m.forest)[n].2 = ((outline m.forest)[n]).2 := by
              have := (values_aux (sizeOf m.forest + 1)).2 m.forest [] 0 1 (by omega)
              have := congrArg (fun l => l[n]?) this
              simp only [List.getElem?_map] at this
              rw [show nodesList [] 0 m.forest = nodes m.forest from rfl, show outlineList 1 m.forest = outline m.forest from rfl,
                List.getElem?_eq_getElem hn, List.getElem?_eq_getElem hlo] at this
              simpa using this
            have hpn : (nodes m.forest)[n].1 = p := by
              unfold positions at hp
              rw [List.getElem?_append_left (by simpa using hn), List.getElem?_map, List.getElem?_eq_getElem hn] at hp
              simpa using hp
            obtain ⟨s, h1, h2⟩ := (Trav.mem_nodes m.forest (nodes m.forest)[n].1 (nodes m.forest)[n].2).mp (List.getElem_mem hn)
            rw [hpn, hsub] at h1
            cases h1
            rw [← hval, ← h2]
            simpa using hpr)
        exact ⟨m'', by simp [eraseIfLoop, hcmp, he, ht, hpr, e1, r1], r2, r3⟩

/-! ## C99 -/

/-- C99: the loop that erases nodes during a traversal ends after at most as many rounds as there are nodes, is always defined (no invalid iterator is used
and no assertion fails), and leaves the forest without exactly the nodes that satisfy the predicate and the nodes below them. -/
theorem C99_erase_if (dbg : Bool) (pred : α → Bool) (m : Mem α) (hm : Reach m) :
    ∃ m', eraseIfLoop dbg pred ((nodes m.forest).length + 1) m (TreeAddr.begin_ m) = .ok m' ∧ Reach m' ∧ m'.forest = pruneList pred m.forest :=
  eraseIf_from dbg pred _ m 0 _ hm (C98_begin_end m).1 (by omega) (by simp)

/-- C99: which nodes remain: those for which neither the node nor a node above it satisfies the predicate, in the same order. -/
theorem C99_remaining (pred : α → Bool) (f : List (Tree α)) (v : α) :
    (∃ d, (d, v) ∈ outline (pruneList pred f)) ↔
      ∃ p t, subtree f p = some t ∧ t.value = v ∧ ∀ r s, r <+: p → subtree f r = some s → pred s.value = false := by
  have aux : ∀ n, (∀ (t : Tree α) (d : Nat), sizeOf t < n → ∀ v, ((∃ e, (e, v) ∈ outlineList d (pruneTree pred t)) ↔
        ∃ p s, Trav.subT t p = some s ∧ s.value = v ∧ ∀ r w, r <+: p → Trav.subT t r = some w → pred w.value = false)) ∧
      (∀ (ts : List (Tree α)) (d : Nat), sizeOf ts < n → ∀ v, ((∃ e, (e, v) ∈ outlineList d (pruneList pred ts)) ↔
        ∃ (i : Nat) (t : Tree α) (p : Path) (s : Tree α), ts[i]? = some t ∧ Trav.subT t p = some s ∧ s.value = v ∧ ∀ r w, r <+: p → Trav.subT t r = some w → pred w.value = false)) := by
    intro n
    induction n with
    | zero => exact ⟨fun _ _ h => by omega, fun _ _ h => by omega⟩
    | succ n ih =>
      refine ⟨fun t d hn v => ?_, fun ts d hn v => ?_⟩
      · obtain ⟨w, cs⟩ := t
        simp only [Tree.node.sizeOf_spec] at hn
        by_cases hw : pred w = true
        · simp only [pruneTree, hw, if_true, outlineList, List.not_mem_nil, exists_false, false_iff]
          rintro ⟨p, s, _, _, h⟩
          have := h [] (.node w cs) List.nil_prefix rfl
          simp [Tree.value, hw] at this
        · simp only [pruneTree, hw, if_false, Bool.false_eq_true, outlineList, outlineTree, List.append_nil, List.mem_cons, Prod.mk.injEq]
          constructor
          · rintro ⟨e, ⟨_, rfl⟩ | he⟩
            · refine ⟨[], _, rfl, rfl, ?_⟩
              intro r x hr hx
              obtain rfl := List.prefix_nil.mp hr
              cases hx
              simpa [Tree.value] using hw
            · obtain ⟨i, t, p, s, h1, h2, h3, h4⟩ := (ih.2 cs (d + 1) (by omega) v).mp ⟨e, he⟩
              refine ⟨i :: p, s, by simp [Trav.subT, Tree.children, h1, h2], h3, ?_⟩
              intro r x hr hx
              cases r with
              | nil => cases hx; simpa [Tree.value] using hw
              | cons j r =>
                obtain ⟨rfl, hr2⟩ := List.cons_prefix_cons.mp hr
                simp only [Trav.subT, Tree.children, h1] at hx
                exact h4 r x hr2 hx
          · rintro ⟨p, s, h2, h3, h4⟩
            cases p with
            | nil => cases h2; exact ⟨d, .inl ⟨rfl, h3.symm⟩⟩
            | cons i p =>
              simp only [Trav.subT, Tree.children] at h2
              cases hi : cs[i]? with
              | none => rw [hi] at h2; cases h2
              | some t =>
                rw [hi] at h2
                obtain ⟨e, he⟩ := (ih.2 cs (d + 1) (by omega) v).mpr ⟨i, t, p, s, hi, h2, h3, fun r x hr hx =>
                  h4 (i :: r) x (List.cons_prefix_cons.mpr ⟨rfl, hr⟩) (by simp only [Trav.subT, Tree.children, hi]; exact hx)⟩
                exact ⟨e, .inr he⟩
      · cases ts with
        | nil => simp [pruneList, outlineList]
        | cons t ts =>
          simp only [List.cons.sizeOf_spec] at hn
          simp only [pruneList, Trav.outline_append, List.mem_append]
          constructor
          · rintro ⟨e, he | he⟩
            · obtain ⟨p, s, h2, h3, h4⟩ := (ih.1 t d (by omega) v).mp ⟨e, he⟩
              exact ⟨0, t, p, s, rfl, h2, h3, h4⟩
            · obtain ⟨i, u, p, s, h1, h2, h3, h4⟩ := (ih.2 ts d (by omega) v).mp ⟨e, he⟩
              exact ⟨i + 1, u, p, s, by simpa using h1, h2, h3, h4⟩
          · rintro ⟨i, u, p, s, h1, h2, h3, h4⟩
            cases i with
            | zero =>
              simp at h1; subst h1
              obtain ⟨e, he⟩ := (ih.1 t d (by omega) v).mpr ⟨p, s, h2, h3, h4⟩
              exact ⟨e, .inl he⟩
            | succ i =>
              obtain ⟨e, he⟩ := (ih.2 ts d (by omega) v).mpr ⟨i, u, p, s, by simpa using h1, h2, h3, h4⟩
              exact ⟨e, .inr he⟩
  have := (aux (sizeOf f + 1)).2 f 1 (by omega) v
  unfold outline
  rw [this]
  constructor
  · rintro ⟨i, t, p, s, h1, h2, h3, h4⟩
    refine ⟨i :: p, s, by rw [Trav.subtree_cons, h1]; exact h2, h3, ?_⟩
    intro r x hr hx
    cases r with
    | nil => simp [subtree] at hx
    | cons j r =>
      obtain ⟨rfl, hr2⟩ := List.cons_prefix_cons.mp hr
      rw [Trav.subtree_cons, h1] at hx
      exact h4 r x hr2 hx
  · rintro ⟨p, s, h2, h3, h4⟩
    cases p with
    | nil => simp [subtree] at h2
    | cons i p =>
      rw [Trav.subtree_cons] at h2
      cases hi : f[i]? with
      | none => rw [hi] at h2; cases h2
      | some t =>
        rw [hi] at h2
        exact ⟨i, t, p, s, hi, h2, h3, fun r x hr hx => h4 (i :: r) x (List.cons_prefix_cons.mpr ⟨rfl, hr⟩) (by rw [Trav.subtree_cons, hi]; exact hx)⟩

/-- Erasing the nodes 2, 4 and 7 from 1(2(3,4),5), 6(7) leaves 1(5), 6. -/
example : (do
    let m ← eraseIfLoop true (fun v => v == 2 || v == 4 || v == 7) 8 (TreeAddr.fresh forest1) (TreeAddr.begin_ (TreeAddr.fresh forest1))
    return outline m.forest) = .ok [(1, 1), (2, 5), (1, 6)] := by decide +kernel

/-- The loop has to ask for `end()` again after erasing: the old one dangles if a root was erased. -/
example : (do
    let m := TreeAddr.fresh forest1
    let e := TreeAddr.end_ m
    let (m', it) ← TreeAddr.erase true m (canonA m [0])
    TreeAddr.eq m' it e) = .ub .bad_iterator := by decide +kernel

end Utki
