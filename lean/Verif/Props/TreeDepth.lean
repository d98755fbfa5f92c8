import Verif.Model.TreeDepth
import Verif.Props.TreeAssign
/-! # C137: how deep calls are nested for trees -/
namespace Utki
open TreeAssign Spec
variable {α : Type}

theorem Meth.bind_diverge {σ β γ : Type} {m : Meth σ β} {f : β → Meth σ γ} {s : σ} (h : (m s).1 = .diverge) : ((m >>= f) s).1 = .diverge := by
  rcases hm : m s with ⟨r, s'⟩
  rw [hm] at h
  simp only at h
  subst h
  rw [Meth.bind_apply, Meth.bind, hm]

theorem copyElems_diverge {copy : Node α → Meth (Heap α) (Node α)} (stack : Nat) (ts : List (Tree α))
    (hc : ∀ t, t.height ≤ stack → ∀ (h : Heap α) (n : Node α) (own : List Nat), HeapOk h → IsNode h n t own →
      ∃ n' own' h', copy n h = (.ok n', h') ∧ IsNode h' n' t own' ∧ own'.Nodup ∧ Replaces h h' [] own')
    (hd : ∀ t, stack < t.height → ∀ (h : Heap α) (n : Node α) (own : List Nat), HeapOk h → IsNode h n t own → (copy n h).1 = .diverge) :
    ∀ (h : Heap α) (b : Nat) (pre ns : List (Node α)) (own : List Nat), HeapOk h → h.bufs b = some (pre ++ ns) → IsNodes h ns ts own → stack < Tree.heightList ts →
      (copyElems copy b pre.length ns.length h).1 = .diverge := by
  induction ts with
  | nil => intro h b pre ns own ok hb hn hs; simp [Tree.heightList] at hs
  | cons t ts ih =>
    intro h b pre ns own ok hb hn hs
    rw [IsNodes] at hn
    obtain ⟨n, ns', o1, o2, rfl, rfl, g1, g2⟩ := hn
    have e0 : load (b, pre.length) h = (.ok n, h) := load_eval hb (by simp)
    rw [copyElems, List.length_cons, collect]
    by_cases ht : t.height ≤ stack
    · obtain ⟨m, q1, h1, e1, i1, d1, r1⟩ := hc t ht h n o1 ok g1
      have hb1 : h1.bufs b = some ((pre ++ [n]) ++ ns') := by rw [r1.keep (used_lt ok hb) (by simp), hb]; simp
      have hs' : stack < Tree.heightList ts := by rw [Tree.heightList] at hs; omega
      have := ih h1 b (pre ++ [n]) ns' o2 r1.ok hb1 (isNodes_keep ok r1 g2 (by simp)) hs'
      rw [Meth.bind_ok (a := m) (s' := h1) (by rw [Meth.bind_ok e0]; exact e1)]
      rw [copyElems, List.length_append] at this
      exact Meth.bind_diverge this
    · refine Meth.bind_diverge ?_
      rw [Meth.bind_ok e0]
      exact hd t (by omega) h n o1 ok g1

theorem copyNode_diverge (stack : Nat) : ∀ (t : Tree α) (h : Heap α) (n : Node α) (own : List Nat), stack < t.height → HeapOk h → IsNode h n t own →
    (copyNode stack n h).1 = .diverge := by
  induction stack with
  | zero => intro t h n own _ _ _; rfl
  | succ stack ih =>
    intro t h n own ht ok hn
    obtain ⟨v, cs⟩ := t
    rw [Tree.height] at ht
    rw [IsNode] at hn
    obtain ⟨hv, hn⟩ := hn
    rw [copyNode]
    rcases hn with ⟨e1, e2, e3, e4⟩ | ⟨b, es, below, e1, e2, e3, e4, rfl⟩
    · subst e3; simp [Tree.heightList] at ht
    · rw [e1]
      simp only
      rw [Meth.bind_ok (elemsOf_eval e2)]
      have hlen := isNodes_length _ _ _ e4
      have hz : es.length ≠ 0 := by
        intro hz
        have : cs = [] := List.eq_nil_of_length_eq_zero (hlen ▸ hz)
        subst this; simp [Tree.heightList] at ht
      rw [if_neg hz]
      exact Meth.bind_diverge (copyElems_diverge stack cs (fun t ht h n own => copyNode_eval stack t h n own ht) (fun t ht h n own => ih t h n own ht) h b [] es below ok e2 e4 (by omega))

theorem destroyElems_diverge {destroy : Node α → Meth (Heap α) Unit} (stack : Nat) (ts : List (Tree α))
    (hc : ∀ t, t.height ≤ stack → ∀ (h : Heap α) (n : Node α) (own : List Nat), HeapOk h → IsNode h n t own → own.Nodup → ∃ h', destroy n h = (.ok (), h') ∧ Replaces h h' own [])
    (hd : ∀ t, stack < t.height → ∀ (h : Heap α) (n : Node α) (own : List Nat), HeapOk h → IsNode h n t own → own.Nodup → (destroy n h).1 = .diverge) :
    ∀ (h : Heap α) (b : Nat) (pre ns : List (Node α)) (own : List Nat), HeapOk h → h.bufs b = some (pre ++ ns) → IsNodes h ns ts own → own.Nodup → b ∉ own →
      stack < Tree.heightList ts → (each (fun k => do let m ← load (b, k); destroy m) pre.length ns.length h).1 = .diverge := by
  induction ts with
  | nil => intro h b pre ns own ok hb hn hn' hbo hs; simp [Tree.heightList] at hs
  | cons t ts ih =>
    intro h b pre ns own ok hb hn hnd hbo hs
    rw [IsNodes] at hn
    obtain ⟨n, ns', o1, o2, rfl, rfl, g1, g2⟩ := hn
    rw [List.nodup_append] at hnd
    simp only [List.mem_append, not_or] at hbo
    have e0 : load (b, pre.length) h = (.ok n, h) := load_eval hb (by simp)
    rw [List.length_cons, each]
    by_cases ht : t.height ≤ stack
    · obtain ⟨h1, e1, r1⟩ := hc t ht h n o1 ok g1 hnd.1
      have hb1 : h1.bufs b = some ((pre ++ [n]) ++ ns') := by rw [r1.keep (used_lt ok hb) hbo.1, hb]; simp
      have hs' : stack < Tree.heightList ts := by rw [Tree.heightList] at hs; omega
      have := ih h1 b (pre ++ [n]) ns' o2 r1.ok hb1 (isNodes_keep ok r1 g2 (fun c hc' hc'' => hnd.2.2 c hc'' c hc' rfl)) hnd.2.1 hbo.2 hs'
      rw [Meth.bind_ok (a := ()) (s' := h1) (by rw [Meth.bind_ok e0]; exact e1)]
      rw [List.length_append] at this
      exact this
    · refine Meth.bind_diverge ?_
      rw [Meth.bind_ok e0]
      exact hd t (by omega) h n o1 ok g1 hnd.1

theorem destroyNode_diverge (stack : Nat) : ∀ (t : Tree α) (h : Heap α) (n : Node α) (own : List Nat), stack < t.height → HeapOk h → IsNode h n t own → own.Nodup →
    (destroyNode stack n h).1 = .diverge := by
  induction stack with
  | zero => intro t h n own _ _ _ _; rfl
  | succ stack ih =>
    intro t h n own ht ok hn hnd
    obtain ⟨v, cs⟩ := t
    rw [Tree.height] at ht
    rw [IsNode] at hn
    obtain ⟨hv, hn⟩ := hn
    rw [destroyNode]
    rcases hn with ⟨e1, e2, e3, e4⟩ | ⟨b, es, below, e1, e2, e3, e4, rfl⟩
    · subst e3; simp [Tree.heightList] at ht
    · rw [e1]
      simp only
      rw [List.nodup_cons] at hnd
      rw [Meth.bind_ok (elemsOf_eval e2)]
      exact Meth.bind_diverge (destroyElems_diverge stack cs (fun t ht h n own => destroyNode_eval stack t h n own ht) (fun t ht h n own => ih t h n own ht) h b [] es below ok e2 e4 hnd.2 hnd.1 (by omega))

/-- C137: copying a tree needs room for just as many nested calls as the tree has levels, whatever the number of its nodes. -/
theorem C137_copy (stack : Nat) (h : Heap α) (l : Loc) (t : Tree α) (own : List Nat) (ok : HeapOk h) (ht : TreeAt h l t own) :
    ((load l >>= copyNode stack) h).1 = .diverge ↔ stack < t.height := by
  obtain ⟨n, d1, d3, d4, d5⟩ := ht
  rw [Meth.bind_ok (load_obj d1)]
  refine ⟨fun hd => ?_, fun hs => copyNode_diverge stack t h n own hs ok d3⟩
  by_cases hs : stack < t.height
  · exact hs
  · obtain ⟨n', own', h', e, -⟩ := copyNode_eval stack t h n own (by omega) ok d3
    rw [e] at hd
    exact nomatch hd

/-- C137: so does destroying it. -/
theorem C137_destroy (stack : Nat) (h : Heap α) (l : Loc) (t : Tree α) (own : List Nat) (ok : HeapOk h) (ht : TreeAt h l t own) :
    ((load l >>= destroyNode stack) h).1 = .diverge ↔ stack < t.height := by
  obtain ⟨n, d1, d3, d4, d5⟩ := ht
  rw [Meth.bind_ok (load_obj d1)]
  refine ⟨fun hd => ?_, fun hs => destroyNode_diverge stack t h n own hs ok d3 d4⟩
  by_cases hs : stack < t.height
  · exact hs
  · obtain ⟨h', e, -⟩ := destroyNode_eval stack t h n own (by omega) ok d3 d4
    rw [e] at hd
    exact nomatch hd

/-- C137: moving a tree to a leaf needs room for one call only, whatever the tree. -/
theorem C137_move (early : Bool) (moved : α → α) (h : Heap α) (dst src : Loc) (v : α) (st : Tree α) (dfp sfp : List Nat) (ok : HeapOk h) (hd : TreeAt h dst (.node v []) dfp)
    (hs : TreeAt h src st sfp) (ha : NoPart dst dfp src sfp) : ∃ h', moveNode early moved 1 dst src h = (.ok (), h') ∧ TreeAt h' dst st sfp := by
  obtain ⟨h', e, t, -⟩ := C136_move early moved 1 h dst src _ st dfp sfp ok hd hs ha (by simp [Tree.height, Tree.heightList])
  exact ⟨h', e, t⟩

/-- C137: assigning a tree to another needs room for no more nested calls than the higher one has levels, and one more. -/
theorem C137_assign (early : Bool) (stack : Nat) (h : Heap α) (dst src : Loc) (dt st : Tree α) (dfp sfp : List Nat) (ok : HeapOk h) (hd : TreeAt h dst dt dfp) (hs : TreeAt h src st sfp)
    (ha : NoPart dst dfp src sfp) (hf : max dt.height st.height < stack) : ∃ own' h', assignNode early stack dst src h = (.ok (), h') ∧ TreeAt h' dst st own' := by
  obtain ⟨own', h', e, t, -⟩ := C136_assign_partial early stack h dst src dt st dfp sfp ok hd hs ha (by omega) (by omega)
  exact ⟨own', h', e, t⟩

/-! ## Comparison -/

theorem compare_ok (eq : α → α → Bool) (stack : Nat) : ∀ t u : Tree α, min t.height u.height ≤ stack → TreeDepth.compare eq stack t u = .ok (Tree.eqTree eq t u) := by
  induction stack with
  | zero => intro t u hs; have := height_pos t; have := height_pos u; omega
  | succ stack ih =>
    rintro ⟨v, cs⟩ ⟨w, ds⟩ hs
    rw [Tree.height, Tree.height] at hs
    rw [TreeDepth.compare, Tree.eqTree]
    cases hvw : eq v w with
    | false => simp
    | true =>
      simp only [if_true, Bool.true_and]
      by_cases hl : cs.length = ds.length
      · rw [if_pos hl]
        have hl' : (cs.length == ds.length) = true := by simp [hl]
        rw [hl', Bool.true_and]
        have hs' : min (Tree.heightList cs) (Tree.heightList ds) ≤ stack := by omega
        clear hs hl hl' hvw
        have : ∀ cs ds : List (Tree α), (Tree.heightList cs ≤ stack ∨ Tree.heightList ds ≤ stack) →
            TreeDepth.equalList (TreeDepth.compare eq stack) cs ds = .ok (Tree.eqChildren eq cs ds) := by
          intro cs
          induction cs with
          | nil => intro ds _; cases ds <;> rfl
          | cons c cs ihc =>
            intro ds hd
            cases ds with
            | nil => rfl
            | cons d ds =>
              rw [Tree.heightList, Tree.heightList] at hd
              rw [TreeDepth.equalList, ih c d (by omega), Tree.eqChildren]
              cases hcd : Tree.eqTree eq c d with
              | false => rfl
              | true =>
                have := ihc ds (by omega)
                simpa using this
        exact this cs ds (by omega)
      · rw [if_neg hl]
        have hl' : (cs.length == ds.length) = false := by simp [hl]
        rw [hl']; rfl

theorem compare_diverge (eq : α → α → Bool) (stack : Nat) : ∀ t u : Tree α, Tree.eqTree eq t u = true → stack < t.height → TreeDepth.compare eq stack t u = .diverge := by
  induction stack with
  | zero => intro t u _ _; rw [TreeDepth.compare]
  | succ stack ih =>
    rintro ⟨v, cs⟩ ⟨w, ds⟩ he hs
    rw [Tree.height] at hs
    rw [Tree.eqTree] at he
    simp only [Bool.and_eq_true, beq_iff_eq] at he
    rw [TreeDepth.compare, he.1, if_pos rfl, if_pos he.2.1]
    have hs' : stack < Tree.heightList cs := by omega
    obtain ⟨-, hl, he⟩ := he
    clear hs
    induction cs generalizing ds with
    | nil => simp [Tree.heightList] at hs'
    | cons c cs ihc =>
      cases ds with
      | nil => simp at hl
      | cons d ds =>
        rw [Tree.eqChildren, Bool.and_eq_true] at he
        rw [TreeDepth.equalList]
        by_cases hc : stack < c.height
        · rw [ih c d he.1 hc]; rfl
        · have heq := compare_diverge_aux eq stack c d he.1 (by omega)
          rw [heq]
          have := ihc ds (by rw [Tree.heightList] at hs'; omega) (by simpa using hl) he.2
          simpa using this
where
  compare_diverge_aux (eq : α → α → Bool) (stack : Nat) (t u : Tree α) (he : Tree.eqTree eq t u = true) (hs : t.height ≤ stack) : TreeDepth.compare eq stack t u = .ok true := by
    rw [compare_ok eq stack t u (by omega), he]

/-- C137: comparing two trees needs room for no more nested calls than the lower one has levels. -/
theorem C137_compare (eq : α → α → Bool) (stack : Nat) (t u : Tree α) (hs : min t.height u.height ≤ stack) :
    TreeDepth.compare eq stack t u = .ok (Tree.eqTree eq t u) := compare_ok eq stack t u hs

/-- C137: and for equal trees it needs all of them. -/
theorem C137_compare_equal (eq : α → α → Bool) (stack : Nat) (t u : Tree α) (he : Tree.eqTree eq t u = true) :
    TreeDepth.compare eq stack t u = .diverge ↔ stack < t.height := by
  refine ⟨fun hd => ?_, compare_diverge eq stack t u he⟩
  by_cases hs : stack < t.height
  · exact hs
  · rw [compare_ok eq stack t u (by omega)] at hd
    exact nomatch hd

/-- A tree of `n + 1` nodes one below the other. -/
def chainOf (v : α) : Nat → Tree α
  | 0 => .node v []
  | n + 1 => .node v [chainOf v n]

/-- C137: there are trees of `n + 1` nodes for which there must be room for `n + 1` nested calls, and trees of `n + 1` nodes for which two are enough. -/
theorem C137_shapes (v : α) (n : Nat) : (chainOf v n).height = n + 1 ∧ (Tree.node v (List.replicate n (.node v []))).height ≤ 2 := by
  constructor
  · induction n with
    | zero => simp [chainOf, Tree.height, Tree.heightList]
    | succ n ih => simp [chainOf, Tree.height, Tree.heightList, ih]
  · rw [Tree.height]
    have : Tree.heightList (List.replicate n (Tree.node v [])) ≤ 1 := by
      induction n with
      | zero => simp [Tree.heightList]
      | succ n ih => rw [List.replicate_succ, Tree.heightList]; simp only [Tree.height, Tree.heightList]; omega
    omega

/-- Meets the hypotheses: the tree 1(2(4, 5), 3) has three levels. -/
example : ((load (0, 0) >>= copyNode 2) assignWitness).1 = .diverge ∧ ((load (0, 0) >>= destroyNode 2) assignWitness).1 = .diverge ∧
    ((load (0, 0) >>= destroyNode 3) assignWitness).1 ≠ .diverge :=
  ⟨(C137_copy 2 assignWitness (0, 0) assignTree [1, 2] assignWitness_ok assignWitness_tree).mpr (by decide +kernel),
   (C137_destroy 2 assignWitness (0, 0) assignTree [1, 2] assignWitness_ok assignWitness_tree).mpr (by decide +kernel),
   fun h => absurd ((C137_destroy 3 assignWitness (0, 0) assignTree [1, 2] assignWitness_ok assignWitness_tree).mp h) (by decide +kernel)⟩

example : TreeDepth.compare (fun a b : Nat => a == b) 2 assignTree assignTree = .diverge ∧ TreeDepth.compare (fun a b : Nat => a == b) 1 assignTree (.node 1 []) = .ok false :=
  ⟨(C137_compare_equal _ 2 _ _ (by decide +kernel)).mpr (by decide +kernel), (C137_compare _ 1 _ _ (by decide +kernel)).trans (by rfl)⟩

end Utki
