import Verif.Spec.TreeAssign
/-! # Lemmas about the assignment of trees -/
/-! ## Buffers -/

namespace Utki.Spec.Replaces
open TreeAssign
variable {α : Type}

theorem refl {h : Heap α} (ok : HeapOk h) (A : List Nat) : Replaces h h A A :=
  ⟨ok, Nat.le_refl _, fun _ hb => .inl hb, fun _ _ _ => rfl, fun _ h1 h2 => absurd h1 h2⟩

theorem frame {h h' : Heap α} {A B : List Nat} (r : Replaces h h' A B) (F : List Nat) : Replaces h h' (A ++ F) (B ++ F) := by
  refine ⟨r.ok, r.next, ?_, ?_, ?_⟩
  · intro b hb
    rcases List.mem_append.mp hb with hb | hb
    · exact (r.new b hb).imp (fun h => List.mem_append_left _ h) id
    · exact .inl (List.mem_append_right _ hb)
  · intro b h1 h2
    simp only [List.mem_append, not_or] at h1 h2
    exact r.same b h1.1 h2.1
  · intro b h1 h2
    simp only [List.mem_append, not_or] at h1 h2
    exact r.gone b (h1.resolve_right h2.2) h2.1

theorem trans {h h1 h2 : Heap α} {A B C : List Nat} (ok : HeapOk h) (r : Replaces h h1 A B) (q : Replaces h1 h2 B C) : Replaces h h2 A C := by
  refine ⟨q.ok, Nat.le_trans r.next q.next, ?_, ?_, ?_⟩
  · intro b hb
    rcases q.new b hb with hb | hb
    · exact r.new b hb
    · exact .inr (Nat.le_trans r.next hb)
  · intro b hA hC
    by_cases hB : b ∈ B
    · rw [q.gone b hB hC, ok b ((r.new b hB).resolve_left hA)]
    · rw [q.same b hB hC, r.same b hA hB]
  · intro b hA hC
    by_cases hB : b ∈ B
    · exact q.gone b hB hC
    · rw [q.same b hB hC, r.gone b hA hB]

theorem congr {h h' : Heap α} {A B A' B' : List Nat} (r : Replaces h h' A B) (hA : ∀ b, b ∈ A ↔ b ∈ A') (hB : ∀ b, b ∈ B ↔ b ∈ B') : Replaces h h' A' B' :=
  ⟨r.ok, r.next, fun b hb => (r.new b ((hB b).mpr hb)).imp (hA b).mp id, fun b h1 h2 => r.same b (fun h => h1 ((hA b).mp h)) (fun h => h2 ((hB b).mp h)),
    fun b h1 h2 => r.gone b ((hA b).mpr h1) (fun h => h2 ((hB b).mp h))⟩

/-- What is in use and not concerned stays. -/
theorem keep {h h' : Heap α} {A B : List Nat} (r : Replaces h h' A B) {b : Nat} (hb : b < h.next) (hA : b ∉ A) : h'.bufs b = h.bufs b :=
  r.same b hA (fun hB => by rcases r.new b hB with h | h; exact hA h; omega)
end Utki.Spec.Replaces

namespace Utki.TreeAssign
open Utki.Spec
variable {α : Type}

theorem used_lt {h : Heap α} (ok : HeapOk h) {b : Nat} {es : List (Node α)} (hb : h.bufs b = some es) : b < h.next := by
  rcases Nat.lt_or_ge b h.next with hc | hc
  · exact hc
  · rw [ok b hc] at hb
    exact nomatch hb

mutual
theorem isNode_lt {h : Heap α} (ok : HeapOk h) : ∀ (t : Tree α) (n : Node α) (own : List Nat), IsNode h n t own → ∀ b ∈ own, b < h.next
  | .node v cs, n, own, hn => by
    rw [IsNode] at hn
    rcases hn.2 with ⟨-, -, -, rfl⟩ | ⟨b, es, below, -, h2, -, h4, rfl⟩
    · simp
    · intro c hc
      rcases List.mem_cons.mp hc with rfl | hc
      · exact used_lt ok h2
      · exact isNodes_lt ok cs es below h4 c hc
theorem isNodes_lt {h : Heap α} (ok : HeapOk h) : ∀ (ts : List (Tree α)) (ns : List (Node α)) (own : List Nat), IsNodes h ns ts own → ∀ b ∈ own, b < h.next
  | [], ns, own, hn => by rw [IsNodes] at hn; rw [hn.2]; simp
  | t :: ts, ns, own, hn => by
    rw [IsNodes] at hn
    obtain ⟨n, ns', o1, o2, -, rfl, h1, h2⟩ := hn
    intro c hc
    rcases List.mem_append.mp hc with hc | hc
    · exact isNode_lt ok t n o1 h1 c hc
    · exact isNodes_lt ok ts ns' o2 h2 c hc
end

mutual
theorem isNode_of_same {h h' : Heap α} : ∀ (t : Tree α) (n : Node α) (own : List Nat), (∀ b ∈ own, h'.bufs b = h.bufs b) → IsNode h n t own → IsNode h' n t own
  | .node v cs, n, own, hs, hn => by
    rw [IsNode] at hn ⊢
    refine ⟨hn.1, ?_⟩
    rcases hn.2 with h0 | ⟨b, es, below, h1, h2, h3, h4, rfl⟩
    · exact .inl h0
    · exact .inr ⟨b, es, below, h1, by rw [hs b (by simp)]; exact h2, h3, isNodes_of_same cs es below (fun c hc => hs c (by simp [hc])) h4, rfl⟩
theorem isNodes_of_same {h h' : Heap α} : ∀ (ts : List (Tree α)) (ns : List (Node α)) (own : List Nat), (∀ b ∈ own, h'.bufs b = h.bufs b) → IsNodes h ns ts own → IsNodes h' ns ts own
  | [], ns, own, _, hn => by rw [IsNodes] at hn ⊢; exact hn
  | t :: ts, ns, own, hs, hn => by
    rw [IsNodes] at hn ⊢
    obtain ⟨n, ns', o1, o2, e1, rfl, h1, h2⟩ := hn
    exact ⟨n, ns', o1, o2, e1, rfl, isNode_of_same t n o1 (fun c hc => hs c (by simp [hc])) h1, isNodes_of_same ts ns' o2 (fun c hc => hs c (by simp [hc])) h2⟩
end

theorem isNode_keep {h h' : Heap α} {A B : List Nat} (ok : HeapOk h) (r : Replaces h h' A B) {t : Tree α} {n : Node α} {own : List Nat} (hn : IsNode h n t own)
    (hd : ∀ b ∈ own, b ∉ A) : IsNode h' n t own :=
  isNode_of_same t n own (fun b hb => r.keep (isNode_lt ok t n own hn b hb) (hd b hb)) hn

theorem isNodes_keep {h h' : Heap α} {A B : List Nat} (ok : HeapOk h) (r : Replaces h h' A B) {ts : List (Tree α)} {ns : List (Node α)} {own : List Nat} (hn : IsNodes h ns ts own)
    (hd : ∀ b ∈ own, b ∉ A) : IsNodes h' ns ts own :=
  isNodes_of_same ts ns own (fun b hb => r.keep (isNodes_lt ok ts ns own hn b hb) (hd b hb)) hn

theorem isNodes_length {h : Heap α} : ∀ (ts : List (Tree α)) (ns : List (Node α)) (own : List Nat), IsNodes h ns ts own → ns.length = ts.length
  | [], ns, own, hn => by rw [IsNodes] at hn; simp [hn.1]
  | t :: ts, ns, own, hn => by
    rw [IsNodes] at hn
    obtain ⟨n, ns', o1, o2, rfl, -, -, h2⟩ := hn
    simp [isNodes_length ts ns' o2 h2]

theorem isNodes_append {h : Heap α} : ∀ (ts us : List (Tree α)) (ns ms : List (Node α)) (o p : List Nat), IsNodes h ns ts o → IsNodes h ms us p → IsNodes h (ns ++ ms) (ts ++ us) (o ++ p)
  | [], us, ns, ms, o, p, h1, h2 => by rw [IsNodes] at h1; rw [h1.1, h1.2]; exact h2
  | t :: ts, us, ns, ms, o, p, h1, h2 => by
    rw [IsNodes] at h1
    obtain ⟨n, ns', o1, o2, rfl, rfl, g1, g2⟩ := h1
    show IsNodes h (n :: (ns' ++ ms)) (t :: (ts ++ us)) _
    rw [IsNodes]
    exact ⟨n, ns' ++ ms, o1, o2 ++ p, rfl, by simp, g1, isNodes_append ts us ns' ms o2 p g2 h2⟩

theorem isNodes_split {h : Heap α} : ∀ (k : Nat) (ts : List (Tree α)) (ns : List (Node α)) (own : List Nat), IsNodes h ns ts own →
    ∃ o p, own = o ++ p ∧ IsNodes h (ns.take k) (ts.take k) o ∧ IsNodes h (ns.drop k) (ts.drop k) p
  | 0, ts, ns, own, hn => ⟨[], own, rfl, by simp [IsNodes], hn⟩
  | k + 1, [], ns, own, hn => by
    rw [IsNodes] at hn
    obtain ⟨rfl, rfl⟩ := hn
    exact ⟨[], [], rfl, by simp [IsNodes], by simp [IsNodes]⟩
  | k + 1, t :: ts, ns, own, hn => by
    rw [IsNodes] at hn
    obtain ⟨n, ns', o1, o2, rfl, rfl, g1, g2⟩ := hn
    obtain ⟨o, p, rfl, h1, h2⟩ := isNodes_split k ts ns' o2 g2
    refine ⟨o1 ++ o, p, by simp, ?_, h2⟩
    rw [List.take_succ_cons, List.take_succ_cons, IsNodes]
    exact ⟨n, _, o1, o, rfl, rfl, g1, h1⟩

/-! ## Steps -/

theorem load_eval {h : Heap α} {b k : Nat} {es : List (Node α)} {n : Node α} (h1 : h.bufs b = some es) (h2 : es[k]? = some n) : load (b, k) h = (.ok n, h) := by
  simp [load, h1, h2]

theorem elemsOf_eval {h : Heap α} {b : Nat} {es : List (Node α)} (h1 : h.bufs b = some es) : elemsOf b h = (.ok es, h) := by
  simp [elemsOf, h1]

theorem store_eval {h : Heap α} {b k : Nat} {es : List (Node α)} {n : Node α} (h1 : h.bufs b = some es) (h2 : k < es.length) :
    store (b, k) n h = (.ok (), h.put b (some (es.set k n))) := by
  simp [store, h1, h2]

theorem put_replaces {h : Heap α} (ok : HeapOk h) {b : Nat} (hb : b < h.next) (v : List (Node α)) : Replaces h (h.put b (some v)) [b] [b] := by
  refine ⟨?_, Nat.le_refl _, fun _ hb => .inl hb, ?_, fun _ h1 h2 => absurd h1 h2⟩
  · intro c hc
    have : c ≠ b := fun e => by subst e; exact absurd hc (by simp [Heap.put]; omega)
    simpa [Heap.put, this] using ok c hc
  · intro c hc _
    simp only [List.mem_singleton] at hc
    simp [Heap.put, hc]

theorem newBuf_replaces {h : Heap α} (ok : HeapOk h) (es : List (Node α)) : ∃ h', newBuf es h = (.ok h.next, h') ∧ h'.bufs h.next = some es ∧ Replaces h h' [] [h.next] := by
  refine ⟨_, rfl, by simp, ?_, by simp, by simp, ?_, by simp⟩
  · intro c hc
    have hc' : h.next + 1 ≤ c := hc
    have : c ≠ h.next := by omega
    simpa [this] using ok c (by omega)
  · intro c _ hc
    simp only [List.mem_singleton] at hc
    simp [hc]

theorem dropBuf_replaces {h : Heap α} (ok : HeapOk h) {b : Nat} {es : List (Node α)} (hb : h.bufs b = some es) : ∃ h', dropBuf b h = (.ok (), h') ∧ Replaces h h' [b] [] := by
  refine ⟨h.put b none, by simp [dropBuf, hb], ?_, Nat.le_refl _, by simp, ?_, ?_⟩
  · intro c hc
    by_cases e : c = b
    · simp [Heap.put, e]
    · simpa [Heap.put, e] using ok c hc
  · intro c hc _
    simp only [List.mem_singleton] at hc
    simp [Heap.put, hc]
  · intro c hc _
    simp only [List.mem_singleton] at hc
    simp [Heap.put, hc]

/-! ## Copies -/

theorem copyElems_eval {copy : Node α → Meth (Heap α) (Node α)} (ts : List (Tree α))
    (hc : ∀ t ∈ ts, ∀ (h : Heap α) (n : Node α) (own : List Nat), HeapOk h → IsNode h n t own →
      ∃ n' own' h', copy n h = (.ok n', h') ∧ IsNode h' n' t own' ∧ own'.Nodup ∧ Replaces h h' [] own') :
    ∀ (h : Heap α) (b : Nat) (pre ns : List (Node α)) (own : List Nat), HeapOk h → h.bufs b = some (pre ++ ns) → IsNodes h ns ts own →
      ∃ ns' own' h', copyElems copy b pre.length ns.length h = (.ok ns', h') ∧ IsNodes h' ns' ts own' ∧ own'.Nodup ∧ Replaces h h' [] own' := by
  induction ts with
  | nil =>
    intro h b pre ns own ok hb hn
    rw [IsNodes] at hn
    obtain ⟨rfl, rfl⟩ := hn
    exact ⟨[], [], h, rfl, by simp [IsNodes], by simp, Replaces.refl ok []⟩
  | cons t ts ih =>
    intro h b pre ns own ok hb hn
    rw [IsNodes] at hn
    obtain ⟨n, ns', o1, o2, rfl, rfl, g1, g2⟩ := hn
    obtain ⟨m, q1, h1, e1, i1, d1, r1⟩ := hc t (by simp) h n o1 ok g1
    have hb1 : h1.bufs b = some ((pre ++ [n]) ++ ns') := by rw [r1.keep (used_lt ok hb) (by simp), hb]; simp
    obtain ⟨ms, q2, h2, e2, i2, d2, r2⟩ := ih (fun t ht => hc t (by simp [ht])) h1 b (pre ++ [n]) ns' o2 r1.ok hb1 (isNodes_keep ok r1 g2 (by simp))
    have q1lt := isNode_lt r1.ok t m q1 i1
    refine ⟨m :: ms, q1 ++ q2, h2, ?_, ?_, ?_, ?_⟩
    · have e0 : load (b, pre.length) h = (.ok n, h) := load_eval hb (by simp)
      rw [copyElems, List.length_cons, collect, Meth.bind_ok (a := m) (s' := h1) (by rw [Meth.bind_ok e0]; exact e1), Meth.bind_ok (a := ms) (s' := h2)]
      · rfl
      · rw [copyElems, List.length_append] at e2
        exact e2
    · rw [IsNodes]
      exact ⟨m, ms, q1, q2, rfl, rfl, isNode_keep r1.ok r2 i1 (by simp), i2⟩
    · rw [List.nodup_append]
      refine ⟨d1, d2, ?_⟩
      intro a ha c hc' e
      subst e
      have := q1lt a ha
      have := (r2.new a hc').resolve_left (by simp)
      omega
    · exact (r1.trans ok ((r2.frame q1).congr (by simp) (by simp [or_comm])))

theorem height_pos (t : Tree α) : 0 < t.height := by cases t; simp [Tree.height]

theorem height_le_list {t : Tree α} {ts : List (Tree α)} (h : t ∈ ts) : t.height ≤ Tree.heightList ts := by
  induction ts with
  | nil => exact nomatch h
  | cons u ts ih =>
    rw [Tree.heightList]
    rcases List.mem_cons.mp h with rfl | h
    · exact Nat.le_max_left _ _
    · exact Nat.le_trans (ih h) (Nat.le_max_right _ _)

/-- The copy of a tree is the same tree, in new buffers. -/
theorem copyNode_eval (fuel : Nat) : ∀ (t : Tree α) (h : Heap α) (n : Node α) (own : List Nat), t.height ≤ fuel → HeapOk h → IsNode h n t own →
    ∃ n' own' h', copyNode fuel n h = (.ok n', h') ∧ IsNode h' n' t own' ∧ own'.Nodup ∧ Replaces h h' [] own' := by
  induction fuel with
  | zero => intro t h n own ht; have := height_pos t; omega
  | succ fuel ih =>
    intro t h n own ht ok hn
    obtain ⟨v, cs⟩ := t
    rw [Tree.height] at ht
    rw [IsNode] at hn
    obtain ⟨hv, hn⟩ := hn
    have leaf : ∀ k : Nat, cs = [] → ∃ n' own' h', ((pure ⟨n.val, none, 0⟩ : Meth (Heap α) (Node α)) h) = (.ok n', h') ∧ IsNode h' n' (.node v cs) own' ∧ own'.Nodup ∧ Replaces h h' [] own' := by
      intro _ hcs
      exact ⟨_, [], h, rfl, by rw [IsNode]; exact ⟨hv, .inl ⟨rfl, rfl, hcs, rfl⟩⟩, by simp, Replaces.refl ok []⟩
    rw [copyNode]
    rcases hn with ⟨e1, e2, e3, e4⟩ | ⟨b, es, below, e1, e2, e3, e4, rfl⟩
    · rw [e1]; exact leaf 0 e3
    · rw [e1]
      simp only
      rw [Meth.bind_ok (elemsOf_eval e2)]
      have hlen := isNodes_length _ _ _ e4
      by_cases hz : es.length = 0
      · rw [if_pos hz]
        exact leaf 0 (List.eq_nil_of_length_eq_zero (hlen ▸ hz))
      · rw [if_neg hz]
        obtain ⟨ns, q, h1, k1, k2, k3, k4⟩ := copyElems_eval (copy := copyNode fuel) cs
          (fun t ht h n own => ih t h n own (by have := height_le_list ht; omega)) h b [] es below ok e2 e4
        obtain ⟨h2, k5, k6, k7⟩ := newBuf_replaces k4.ok ns
        refine ⟨⟨n.val, some h1.next, es.length⟩, h1.next :: q, h2, ?_, ?_, ?_, ?_⟩
        · have k1' : copyElems (copyNode fuel) b 0 es.length h = (.ok ns, h1) := k1
          rw [Meth.bind_ok k1', Meth.bind_ok k5]; rfl
        · rw [IsNode]
          refine ⟨hv, .inr ⟨h1.next, ns, q, rfl, k6, ?_, isNodes_keep k4.ok k7 k2 (by simp), rfl⟩⟩
          rw [isNodes_length _ _ _ k2, ← hlen]
          exact Nat.le_refl _
        · rw [List.nodup_cons]
          exact ⟨fun hc => absurd (isNodes_lt k4.ok _ _ _ k2 _ hc) (by omega), k3⟩
        · exact k4.trans ok ((k7.frame q).congr (by simp) (by simp))

/-! ## Destruction -/

theorem destroyElems_eval {destroy : Node α → Meth (Heap α) Unit} (ts : List (Tree α))
    (hc : ∀ t ∈ ts, ∀ (h : Heap α) (n : Node α) (own : List Nat), HeapOk h → IsNode h n t own → own.Nodup → ∃ h', destroy n h = (.ok (), h') ∧ Replaces h h' own []) :
    ∀ (h : Heap α) (b : Nat) (pre ns : List (Node α)) (own : List Nat), HeapOk h → h.bufs b = some (pre ++ ns) → IsNodes h ns ts own → own.Nodup → b ∉ own →
      ∃ h', each (fun k => do let m ← load (b, k); destroy m) pre.length ns.length h = (.ok (), h') ∧ Replaces h h' own [] := by
  induction ts with
  | nil =>
    intro h b pre ns own ok hb hn hd hbo
    rw [IsNodes] at hn
    obtain ⟨rfl, rfl⟩ := hn
    exact ⟨h, rfl, Replaces.refl ok []⟩
  | cons t ts ih =>
    intro h b pre ns own ok hb hn hd hbo
    rw [IsNodes] at hn
    obtain ⟨n, ns', o1, o2, rfl, rfl, g1, g2⟩ := hn
    rw [List.nodup_append] at hd
    simp only [List.mem_append, not_or] at hbo
    obtain ⟨h1, e1, r1⟩ := hc t (by simp) h n o1 ok g1 hd.1
    have hb1 : h1.bufs b = some ((pre ++ [n]) ++ ns') := by rw [r1.keep (used_lt ok hb) hbo.1, hb]; simp
    obtain ⟨h2, e2, r2⟩ := ih (fun t ht => hc t (by simp [ht])) h1 b (pre ++ [n]) ns' o2 r1.ok hb1 (isNodes_keep ok r1 g2 (fun c hc' hc'' => hd.2.2 c hc'' c hc' rfl)) hd.2.1 hbo.2
    refine ⟨h2, ?_, (r1.frame o2).trans ok r2⟩
    have e0 : load (b, pre.length) h = (.ok n, h) := load_eval hb (by simp)
    rw [List.length_cons, each, Meth.bind_ok (a := ()) (s' := h1) (by rw [Meth.bind_ok e0]; exact e1)]
    rw [List.length_append] at e2
    exact e2

/-- Destroying a tree gives its buffers back. -/
theorem destroyNode_eval (fuel : Nat) : ∀ (t : Tree α) (h : Heap α) (n : Node α) (own : List Nat), t.height ≤ fuel → HeapOk h → IsNode h n t own → own.Nodup →
    ∃ h', destroyNode fuel n h = (.ok (), h') ∧ Replaces h h' own [] := by
  induction fuel with
  | zero => intro t h n own ht; have := height_pos t; omega
  | succ fuel ih =>
    intro t h n own ht ok hn hd
    obtain ⟨v, cs⟩ := t
    rw [Tree.height] at ht
    rw [IsNode] at hn
    obtain ⟨hv, hn⟩ := hn
    rw [destroyNode]
    rcases hn with ⟨e1, e2, e3, rfl⟩ | ⟨b, es, below, e1, e2, e3, e4, rfl⟩
    · rw [e1]; exact ⟨h, rfl, Replaces.refl ok []⟩
    · rw [e1]
      simp only
      rw [List.nodup_cons] at hd
      obtain ⟨h1, k1, k2⟩ := destroyElems_eval (destroy := destroyNode fuel) cs (fun t ht h n own => ih t h n own (by have := height_le_list ht; omega)) h b [] es below ok e2 e4 hd.2 hd.1
      have hb1 : h1.bufs b = some es := by rw [k2.keep (used_lt ok e2) hd.1, e2]
      obtain ⟨h2, k3, k4⟩ := dropBuf_replaces k2.ok hb1
      refine ⟨h2, ?_, ?_⟩
      · have k1' : each (fun k => do let m ← load (b, k); destroyNode fuel m) 0 es.length h = (.ok (), h1) := k1
        rw [Meth.bind_ok (elemsOf_eval e2), Meth.bind_ok k1', k3]
      · exact ((k2.frame [b]).congr (by simp [or_comm]) (by simp)).trans ok k4

/-! ## Assignment -/

theorem destroyFrom_eval (fuel : Nat) (ts : List (Tree α)) (hf : Tree.heightList ts ≤ fuel) (h : Heap α) (b : Nat) (pre ns : List (Node α)) (own : List Nat) (ok : HeapOk h)
    (hb : h.bufs b = some (pre ++ ns)) (hn : IsNodes h ns ts own) (hd : own.Nodup) (hbo : b ∉ own) :
    ∃ h', destroyFrom fuel b pre.length h = (.ok (), h') ∧ h'.bufs b = some pre ∧ Replaces h h' (b :: own) [b] := by
  obtain ⟨h1, e1, r1⟩ := destroyElems_eval (destroy := destroyNode fuel) ts
    (fun t ht h n own ok hn hd => destroyNode_eval fuel t h n own (Nat.le_trans (height_le_list ht) hf) ok hn hd) h b pre ns own ok hb hn hd hbo
  have hb1 : h1.bufs b = some (pre ++ ns) := by rw [r1.keep (used_lt ok hb) hbo, hb]
  refine ⟨h1.put b (some pre), ?_, by simp [Heap.put], ?_⟩
  · unfold destroyFrom
    have : (pre ++ ns).length - pre.length = ns.length := by simp
    rw [Meth.bind_ok (elemsOf_eval hb), this, Meth.bind_ok e1, Meth.bind_ok (elemsOf_eval hb1)]
    simp [setElems]
  · exact ((r1.frame [b]).congr (by simp [or_comm]) (by simp)).trans ok (put_replaces r1.ok (used_lt r1.ok hb1) pre)

/-- What an assignment from an object outside of the tree does. -/
def Assigns (assign : Loc → Loc → Meth (Heap α) Unit) (dt st : Tree α) : Prop :=
  ∀ (h : Heap α) (db i sb j : Nat) (des ses : List (Node α)) (dn sn : Node α) (dfp sfp : List Nat), HeapOk h → h.bufs db = some des → des[i]? = some dn → IsNode h dn dt dfp →
    dfp.Nodup → db ∉ dfp → h.bufs sb = some ses → ses[j]? = some sn → IsNode h sn st sfp → db ∉ sfp → sb ∉ dfp → (∀ b ∈ dfp, b ∉ sfp) → (db, i) ≠ (sb, j) →
    ∃ n' own' h', assign (db, i) (sb, j) h = (.ok (), h') ∧ h'.bufs db = some (des.set i n') ∧ IsNode h' n' st own' ∧ own'.Nodup ∧ db ∉ own' ∧
      Replaces h h' (db :: dfp) (db :: own')

theorem assignLoop_eval {assign : Loc → Loc → Meth (Heap α) Unit} (c : Nat) : ∀ (dts sts : List (Tree α)) (_ : ∀ dt ∈ dts, ∀ st ∈ sts, Assigns assign dt st) (h : Heap α)
    (db sb : Nat) (pre ds spre ss : List (Node α)) (D S : List Nat), HeapOk h → h.bufs db = some (pre ++ ds) → h.bufs sb = some (spre ++ ss) → pre.length = spre.length → db ≠ sb →
    IsNodes h ds dts D → IsNodes h ss sts S → D.Nodup → db ∉ D → db ∉ S → sb ∉ D → (∀ b ∈ D, b ∉ S) → c ≤ ds.length → c ≤ ss.length →
    ∃ ns own' D2 h', each (fun k => assign (db, k) (sb, k)) pre.length c h = (.ok (), h') ∧ h'.bufs db = some (pre ++ (ns ++ ds.drop c)) ∧ ns.length = c ∧
      IsNodes h' ns (sts.take c) own' ∧ IsNodes h' (ds.drop c) (dts.drop c) D2 ∧ (own' ++ D2).Nodup ∧ db ∉ own' ∧ (∀ b ∈ D2, b ∈ D) ∧
      Replaces h h' (db :: D) (db :: (own' ++ D2)) := by
  induction c with
  | zero =>
    intro dts sts _ h db sb pre ds spre ss D S ok hb hsb hl hne hD hS hnd hdb hdS hsD hdis _ _
    exact ⟨[], [], D, h, rfl, by simpa using hb, rfl, by simp [IsNodes], by simpa using hD, by simpa using hnd, by simp, fun _ h => h, Replaces.refl ok _⟩
  | succ c ih =>
    intro dts sts hA h db sb pre ds spre ss D S ok hb hsb hl hne hD hS hnd hdb hdS hsD hdis hc1 hc2
    cases dts with
    | nil => have := isNodes_length _ _ _ hD; simp at this; subst this; simp at hc1
    | cons dt dts =>
      cases sts with
      | nil => have := isNodes_length _ _ _ hS; simp at this; subst this; simp at hc2
      | cons st sts =>
        rw [IsNodes] at hD hS
        obtain ⟨d, ds', f, g, rfl, rfl, hd1, hd2⟩ := hD
        obtain ⟨s, ss', f', g', rfl, rfl, hs1, hs2⟩ := hS
        rw [List.nodup_append] at hnd
        simp only [List.mem_append, not_or] at hdb hdS hsD hdis
        obtain ⟨n', q, h1, e1, b1, i1, nd1, db1, r1⟩ := hA dt (by simp) st (by simp) h db pre.length sb pre.length (pre ++ d :: ds') (spre ++ s :: ss') d s f f' ok hb (by simp) hd1
          hnd.1 hdb.1 hsb (by rw [hl]; simp) hs1 hdS.1 hsD.1 (fun b hb => (hdis b (.inl hb)).1) (by simp [hne])
        have glt := isNodes_lt ok _ _ _ hd2
        have g'lt := isNodes_lt ok _ _ _ hs2
        have k1 : IsNodes h1 ds' dts g := isNodes_keep ok r1 hd2 (fun b hb hc => by
          rcases List.mem_cons.mp hc with hx | hc
          · exact hdb.2 (hx ▸ hb)
          · exact hnd.2.2 b hc b hb rfl)
        have k2 : IsNodes h1 ss' sts g' := isNodes_keep ok r1 hs2 (fun b hb hc => by
          rcases List.mem_cons.mp hc with hx | hc
          · exact hdS.2 (hx ▸ hb)
          · exact (hdis b (.inl hc)).2 hb)
        have b1' : h1.bufs db = some ((pre ++ [n']) ++ ds') := by rw [b1]; simp
        have b2' : h1.bufs sb = some ((spre ++ [s]) ++ ss') := by
          rw [r1.keep (used_lt ok hsb) (by simp only [List.mem_cons, not_or]; exact ⟨fun h => hne h.symm, hsD.1⟩), hsb]; simp
        obtain ⟨ns, P, D2, h2, e2, c1, c2, c3, c4, c5, c6, c7, c8⟩ := ih dts sts (fun dt h1 st h2 => hA dt (by simp [h1]) st (by simp [h2])) h1 db sb (pre ++ [n']) ds' (spre ++ [s]) ss' g g'
          r1.ok b1' b2' (by simp [hl]) hne k1 k2 hnd.2.1 hdb.2 hdS.2 hsD.2 (fun b hb => (hdis b (.inr hb)).2) (by simpa using hc1) (by simpa using hc2)
        have qlt := isNode_lt r1.ok _ _ _ i1
        have qg : ∀ b ∈ q, b ∉ g := by
          intro b hb hbg
          rcases r1.new b (by simp [hb]) with h | h
          · rcases List.mem_cons.mp h with hx | h
            · exact db1 (hx ▸ hb)
            · exact hnd.2.2 b h b hbg rfl
          · have := glt b hbg; omega
        refine ⟨n' :: ns, q ++ P, D2, h2, ?_, ?_, ?_, ?_, ?_, ?_, ?_, ?_, ?_⟩
        · rw [List.length_append] at e2
          rw [each, Meth.bind_ok e1]
          exact e2
        · rw [c1]; simp
        · simp [c2]
        · rw [List.take_succ_cons, IsNodes]
          refine ⟨n', ns, q, P, rfl, rfl, isNode_keep r1.ok c8 i1 ?_, c3⟩
          intro b hb hc
          rcases List.mem_cons.mp hc with hx | hc
          · exact db1 (hx ▸ hb)
          · exact qg b hb hc
        · simpa using c4
        · rw [List.append_assoc, List.nodup_append]
          refine ⟨nd1, c5, ?_⟩
          intro b hb c hc e
          subst e
          rcases c8.new b (List.mem_cons_of_mem _ hc) with h | h
          · rcases List.mem_cons.mp h with hx | h
            · exact db1 (hx ▸ hb)
            · exact qg b hb h
          · have := qlt b hb; omega
        · simp only [List.mem_append, not_or]; exact ⟨db1, c6⟩
        · intro b hb; exact List.mem_append_right _ (c7 b hb)
        · have r1' := (r1.frame g).congr (A' := db :: (f ++ g)) (B' := db :: (g ++ q)) (by simp) (by intro b; simp; grind)
          have r2' := (c8.frame q).congr (A' := db :: (g ++ q)) (B' := db :: (q ++ P ++ D2)) (by simp) (by intro b; simp; grind)
          exact r1'.trans ok r2'

theorem sizeOf_eval {h : Heap α} {n : Node α} {v : α} {cs : List (Tree α)} {own : List Nat} (hn : IsNode h n (.node v cs) own) : sizeOf n h = (.ok cs.length, h) := by
  rw [IsNode] at hn
  unfold sizeOf
  rcases hn.2 with ⟨e1, -, rfl, -⟩ | ⟨b, es, below, e1, e2, -, e4, -⟩
  · rw [e1]; rfl
  · rw [e1]
    simp only
    rw [Meth.bind_ok (elemsOf_eval e2), isNodes_length _ _ _ e4]
    rfl

theorem set_same {β : Type} {l : List β} {i : Nat} {x : β} (h : l[i]? = some x) : l.set i x = l := by
  apply List.ext_getElem?
  intro k
  rw [List.getElem?_set]
  split
  · next e => subst e; rw [h]; split
              · rfl
              · next hl => rw [List.getElem?_eq_none (by omega)] at h; exact nomatch h
  · rfl

theorem lt_of_get {β : Type} {l : List β} {i : Nat} {x : β} (h : l[i]? = some x) : i < l.length := by
  rcases Nat.lt_or_ge i l.length with hl | hl
  · exact hl
  · rw [List.getElem?_eq_none hl] at h; exact nomatch h

theorem isNode_setVal {h : Heap α} {n : Node α} {v w : α} {cs : List (Tree α)} {own : List Nat} (hn : IsNode h n (.node v cs) own) :
    IsNode h { n with val := w } (.node w cs) own := by
  rw [IsNode] at hn ⊢
  exact ⟨rfl, hn.2⟩

/-- The vector has to grow. -/
theorem grow_eval (early : Bool) (fuel : Nat) {v : α} {dcs scs : List (Tree α)} (hfd : Tree.heightList dcs + 1 ≤ fuel) (hfs : Tree.heightList scs ≤ fuel) {h : Heap α}
    {db i sb : Nat} {des ses : List (Node α)} {dn : Node α} {dfp sfp : List Nat} (ok : HeapOk h) (hdb : h.bufs db = some des) (hdn : des[i]? = some dn)
    (hd : IsNode h dn (.node v dcs) dfp) (hnd : dfp.Nodup) (hdbo : db ∉ dfp) (hsb : h.bufs sb = some ses) (hs : IsNodes h ses scs sfp)
    (hout : early = true → db ≠ sb ∧ db ∉ sfp ∧ sb ∉ dfp ∧ ∀ b ∈ dfp, b ∉ sfp) :
    ∃ n' own' h', (if early then do
        destroyNode fuel dn
        store (db, i) { dn with buf := none, cap := 0 }
        let ns ← copyElems (copyNode fuel) sb 0 scs.length
        let b ← newBuf ns
        let d ← load (db, i)
        store (db, i) { d with buf := some b, cap := scs.length }
      else do
        let ns ← copyElems (copyNode fuel) sb 0 scs.length
        let b ← newBuf ns
        destroyNode fuel dn
        store (db, i) { dn with buf := some b, cap := scs.length }) h = (.ok (), h') ∧ h'.bufs db = some (des.set i n') ∧ IsNode h' n' (.node v scs) own' ∧ own'.Nodup ∧ db ∉ own' ∧
      Replaces h h' (db :: dfp) (db :: own') ∧ ∀ b ∈ own', h.next ≤ b := by
  have hi := lt_of_get hdn
  have dlt := used_lt ok hdb
  have dfplt := isNode_lt ok _ _ _ hd
  have slen := isNodes_length _ _ _ hs
  have hval : dn.val = v := by rw [IsNode] at hd; exact hd.1
  cases early with
  | false =>
    simp only [Bool.false_eq_true, if_false]
    obtain ⟨ns, P, h1, e1, i1, n1, r1⟩ := copyElems_eval (copy := copyNode fuel) scs
      (fun t ht h n own => copyNode_eval fuel t h n own (Nat.le_trans (height_le_list ht) hfs)) h sb [] ses sfp ok hsb hs
    obtain ⟨h2, e2, b2, r2⟩ := newBuf_replaces r1.ok ns
    have d2 : IsNode h2 dn (.node v dcs) dfp := isNode_keep r1.ok r2 (isNode_keep ok r1 hd (by simp)) (by simp)
    obtain ⟨h3, e3, r3⟩ := destroyNode_eval fuel (.node v dcs) h2 dn dfp (by rw [Tree.height]; exact hfd) r2.ok d2 hnd
    have n12 := r1.next
    have n23 := r2.next
    have b3 : h3.bufs db = some des := by
      rw [r3.keep (by omega) hdbo, r2.keep (by omega) (by simp), r1.keep dlt (by simp), hdb]
    have r4 := put_replaces r3.ok (used_lt r3.ok b3) (des.set i { dn with buf := some h1.next, cap := scs.length })
    have Pnew : ∀ b ∈ P, h.next ≤ b := fun b hb => (r1.new b hb).resolve_left (by simp)
    have Plt := isNodes_lt r1.ok _ _ _ i1
    refine ⟨{ dn with buf := some h1.next, cap := scs.length }, h1.next :: P, h3.put db (some (des.set i { dn with buf := some h1.next, cap := scs.length })), ?_, by simp [Heap.put], ?_, ?_, ?_, ?_, ?_⟩
    · rw [← slen]
      have e1' : copyElems (copyNode fuel) sb 0 ses.length h = (.ok ns, h1) := e1
      rw [Meth.bind_ok e1', Meth.bind_ok e2, Meth.bind_ok e3, store_eval b3 hi]
    · rw [IsNode]
      refine ⟨hval, .inr ⟨h1.next, ns, P, rfl, ?_, ?_, ?_, rfl⟩⟩
      · rw [r4.keep (by have := r3.next; have := used_lt r2.ok b2; omega) (by simp; omega), r3.keep (used_lt r2.ok b2) (fun hc => by have := dfplt _ hc; omega), b2]
      · show ns.length ≤ scs.length
        rw [isNodes_length _ _ _ i1]; exact Nat.le_refl _
      · refine isNodes_keep r3.ok r4 (isNodes_keep r2.ok r3 (isNodes_keep r1.ok r2 i1 (by simp)) ?_) ?_
        · intro b hb hc; have := dfplt b hc; have := Pnew b hb; omega
        · intro b hb hc; simp only [List.mem_singleton] at hc; have := Pnew b hb; omega
    · rw [List.nodup_cons]
      exact ⟨fun hc => absurd (Plt _ hc) (by omega), n1⟩
    · simp only [List.mem_cons, not_or]
      exact ⟨by omega, fun hc => by have := Pnew _ hc; omega⟩
    · have s1 := (r1.frame (db :: dfp)).congr (A' := db :: dfp) (B' := P ++ (db :: dfp)) (by simp) (by simp)
      have s2 := (r2.frame (P ++ (db :: dfp))).congr (A' := P ++ (db :: dfp)) (B' := h1.next :: (P ++ (db :: dfp))) (by simp) (by simp)
      have s3 := (r3.frame (db :: h1.next :: P)).congr (A' := h1.next :: (P ++ (db :: dfp))) (B' := db :: h1.next :: P) (by intro b; simp; grind) (by simp)
      have s4 := (r4.frame (h1.next :: P)).congr (A' := db :: h1.next :: P) (B' := db :: h1.next :: P) (by simp) (by simp)
      exact ((s1.trans ok s2).trans ok s3).trans ok s4
    · intro b hb
      rcases List.mem_cons.mp hb with rfl | hb
      · exact n12
      · exact Pnew b hb
  | true =>
    simp only [if_true]
    obtain ⟨o1, o2, o3, o4⟩ := hout rfl
    have sfplt := isNodes_lt ok _ _ _ hs
    obtain ⟨h1, e1, r1⟩ := destroyNode_eval fuel (.node v dcs) h dn dfp (by rw [Tree.height]; exact hfd) ok hd hnd
    have b1 : h1.bufs db = some des := by rw [r1.keep dlt hdbo, hdb]
    have r2 := put_replaces r1.ok (used_lt r1.ok b1) (des.set i { dn with buf := none, cap := 0 })
    have n01 := r1.next
    have s2 : (h1.put db (some (des.set i { dn with buf := none, cap := 0 }))).bufs sb = some ses := by
      rw [r2.keep (by have := used_lt ok hsb; omega) (by simp; exact fun e => o1 e.symm), r1.keep (used_lt ok hsb) o3, hsb]
    have hs2 := isNodes_keep r1.ok r2 (isNodes_keep ok r1 hs (fun b hb hc => o4 b hc hb)) (by intro b hb hc; simp only [List.mem_singleton] at hc; exact o2 (hc ▸ hb))
    obtain ⟨ns, P, h3, e3, i3, n3, r3⟩ := copyElems_eval (copy := copyNode fuel) scs
      (fun t ht h n own => copyNode_eval fuel t h n own (Nat.le_trans (height_le_list ht) hfs)) _ sb [] ses sfp r2.ok s2 hs2
    obtain ⟨h4, e4, b4, r4⟩ := newBuf_replaces r3.ok ns
    have n12 := r2.next
    have n23 := r3.next
    have n34 := r4.next
    have d4 : h4.bufs db = some (des.set i { dn with buf := none, cap := 0 }) := by
      rw [r4.keep (by omega) (by simp), r3.keep (by omega) (by simp)]; simp [Heap.put]
    have r5 := put_replaces r4.ok (used_lt r4.ok d4) ((des.set i { dn with buf := none, cap := 0 }).set i { dn with buf := some h3.next, cap := scs.length })
    have Pnew : ∀ b ∈ P, h.next ≤ b := fun b hb => by have := (r3.new b hb).resolve_left (by simp); omega
    have Plt := isNodes_lt r3.ok _ _ _ i3
    refine ⟨{ dn with buf := some h3.next, cap := scs.length }, h3.next :: P,
      h4.put db (some ((des.set i { dn with buf := none, cap := 0 }).set i { dn with buf := some h3.next, cap := scs.length })), ?_, ?_, ?_, ?_, ?_, ?_, ?_⟩
    rotate_left 1
    · simp [Heap.put]
    · rw [IsNode]
      refine ⟨hval, .inr ⟨h3.next, ns, P, rfl, ?_, ?_, ?_, rfl⟩⟩
      · rw [r5.keep (used_lt r4.ok b4) (by simp; omega), b4]
      · show ns.length ≤ scs.length
        rw [isNodes_length _ _ _ i3]; exact Nat.le_refl _
      · refine isNodes_keep r4.ok r5 (isNodes_keep r3.ok r4 i3 (by simp)) ?_
        intro b hb hc; simp only [List.mem_singleton] at hc; have := Pnew b hb; omega
    · rw [List.nodup_cons]
      exact ⟨fun hc => absurd (Plt _ hc) (by omega), n3⟩
    · simp only [List.mem_cons, not_or]
      exact ⟨by omega, fun hc => by have := Pnew _ hc; omega⟩
    · have s1 := (r1.frame [db]).congr (A' := db :: dfp) (B' := [db]) (by intro b; simp; grind) (by simp)
      have s3 := (r3.frame [db]).congr (A' := [db]) (B' := db :: P) (by simp) (by intro b; simp; grind)
      have s4 := (r4.frame (db :: P)).congr (A' := db :: P) (B' := db :: h3.next :: P) (by simp) (by intro b; simp; grind)
      have s5 := (r5.frame (h3.next :: P)).congr (A' := db :: h3.next :: P) (B' := db :: h3.next :: P) (by simp) (by simp)
      exact (((s1.trans ok r2).trans ok s3).trans ok s4).trans ok s5
    · intro b hb
      rcases List.mem_cons.mp hb with rfl | hb
      · omega
      · exact Pnew b hb
    · rw [← slen]
      have e3' : copyElems (copyNode fuel) sb 0 ses.length (h1.put db (some (des.set i { dn with buf := none, cap := 0 }))) = (.ok ns, h3) := e3
      have l4 : load (db, i) h4 = (.ok { dn with buf := none, cap := 0 }, h4) := load_eval d4 (by simp [hi])
      rw [Meth.bind_ok e1, Meth.bind_ok (store_eval b1 hi), Meth.bind_ok e3', Meth.bind_ok e4, Meth.bind_ok l4, store_eval d4 (by simpa using hi)]

/-- The elements of the vector are assigned to. -/
theorem reuse_eval (fuel : Nat) {assign : Loc → Loc → Meth (Heap α) Unit} {dcs scs : List (Tree α)} (hA : ∀ dt ∈ dcs, ∀ st ∈ scs, Assigns assign dt st)
    (hfd : Tree.heightList dcs ≤ fuel) (hfs : Tree.heightList scs ≤ fuel) {h : Heap α}
    {db sb : Nat} {des ses : List (Node α)} {D S : List Nat} (ok : HeapOk h) (hdb : h.bufs db = some des) (hd : IsNodes h des dcs D) (hnd : (db :: D).Nodup) (hsb : h.bufs sb = some ses)
    (hs : IsNodes h ses scs S) (hsD : sb ∉ db :: D) (hdis : ∀ b ∈ db :: D, b ∉ S) :
    ∃ ns own' h', (do
        each (fun k => assign (db, k) (sb, k)) 0 (min scs.length dcs.length)
        if scs.length ≤ dcs.length then destroyFrom fuel db scs.length
        else do
          let ns ← copyElems (copyNode fuel) sb dcs.length (scs.length - dcs.length)
          let es ← elemsOf db
          setElems db (es ++ ns)) h = (.ok (), h') ∧ h'.bufs db = some ns ∧ IsNodes h' ns scs own' ∧ (db :: own').Nodup ∧ Replaces h h' (db :: D) (db :: own') := by
  have dlen := isNodes_length _ _ _ hd
  have slen := isNodes_length _ _ _ hs
  rw [List.nodup_cons] at hnd
  have hne : db ≠ sb := fun e => hsD (by simp [e])
  obtain ⟨ns, P, D2, h1, e1, b1, l1, i1, i2, n1, db1, sub, r1⟩ := assignLoop_eval (min scs.length dcs.length) dcs scs hA h db sb [] des [] ses D S ok hdb hsb rfl hne hd hs hnd.2 hnd.1
    (hdis db (by simp)) (fun hc => hsD (by simp [hc])) (fun b hb => hdis b (by simp [hb])) (by rw [dlen]; exact Nat.min_le_right _ _) (by rw [slen]; exact Nat.min_le_left _ _)
  have e1' : each (fun k => assign (db, k) (sb, k)) 0 (min scs.length dcs.length) h = (.ok (), h1) := e1
  rw [Meth.bind_ok e1']
  rw [List.nodup_append] at n1
  by_cases hle : scs.length ≤ dcs.length
  · rw [if_pos hle]
    have hm : min scs.length dcs.length = scs.length := Nat.min_eq_left hle
    rw [hm] at b1 l1 i1 i2
    rw [List.take_of_length_le (Nat.le_refl _)] at i1
    have hD2 : Tree.heightList (dcs.drop scs.length) ≤ fuel := by
      refine Nat.le_trans ?_ hfd
      generalize scs.length = k
      clear hA hfd hd hnd hdis dlen e1 e1' i2 hle hm
      induction dcs generalizing k with
      | nil => simp
      | cons t ts ih => cases k with
        | zero => simp
        | succ k => rw [List.drop_succ_cons, Tree.heightList]; exact Nat.le_trans (ih k) (Nat.le_max_right _ _)
    have dbD2 : db ∉ D2 := fun hc => hnd.1 (sub db hc)
    obtain ⟨h2, e2, b2, r2⟩ := destroyFrom_eval fuel _ hD2 h1 db ns _ D2 r1.ok b1 i2 n1.2.1 dbD2
    rw [l1] at e2
    refine ⟨ns, P, h2, e2, b2, isNodes_keep r1.ok r2 i1 ?_, List.nodup_cons.mpr ⟨db1, n1.1⟩, ?_⟩
    · intro b hb hc
      rcases List.mem_cons.mp hc with hx | hc
      · exact db1 (hx ▸ hb)
      · exact n1.2.2 b hb b hc rfl
    · exact r1.trans ok ((r2.frame P).congr (by intro b; simp; grind) (by simp))
  · rw [if_neg hle]
    have hlt : dcs.length < scs.length := by omega
    have hm : min scs.length dcs.length = dcs.length := Nat.min_eq_right (by omega)
    rw [hm] at b1 l1 i1 i2
    have hdrop : des.drop dcs.length = [] := by rw [← dlen]; simp
    rw [List.drop_of_length_le (Nat.le_refl dcs.length), IsNodes] at i2
    obtain ⟨-, rfl⟩ := i2
    rw [hdrop] at b1
    simp only [List.append_nil, List.nil_append] at b1 r1
    obtain ⟨S1, S2, rfl, hs1, hs2⟩ := isNodes_split dcs.length scs ses S hs
    have sD : sb ∉ db :: D := hsD
    have hsb1 : h1.bufs sb = some (ses.take dcs.length ++ ses.drop dcs.length) := by rw [r1.keep (used_lt ok hsb) sD, hsb, List.take_append_drop]
    have hs2' : IsNodes h1 (ses.drop dcs.length) (scs.drop dcs.length) S2 := isNodes_keep ok r1 hs2 (fun b hb hc => hdis b hc (by simp [hb]))
    have hfs' : ∀ t ∈ scs.drop dcs.length, t.height ≤ fuel := fun t ht => Nat.le_trans (height_le_list (List.mem_of_mem_drop ht)) hfs
    obtain ⟨ms, Q, h2, e2, i3, n3, r2⟩ := copyElems_eval (copy := copyNode fuel) (scs.drop dcs.length)
      (fun t ht h n own => copyNode_eval fuel t h n own (hfs' t ht)) h1 sb (ses.take dcs.length) (ses.drop dcs.length) S2 r1.ok hsb1 hs2'
    have hk : (ses.take dcs.length).length = dcs.length := by simp; omega
    have hk2 : (ses.drop dcs.length).length = scs.length - dcs.length := by simp [slen]
    rw [hk, hk2] at e2
    have b2 : h2.bufs db = some ns := by rw [r2.keep (used_lt r1.ok b1) (by simp), b1]
    have r3 := put_replaces r2.ok (used_lt r2.ok b2) (ns ++ ms)
    have Plt := isNodes_lt r1.ok _ _ _ i1
    have Qnew : ∀ b ∈ Q, h1.next ≤ b := fun b hb => (r2.new b hb).resolve_left (by simp)
    have dlt := used_lt r1.ok b1
    have dbQ : db ∉ Q := fun hc => by have := Qnew db hc; omega
    refine ⟨ns ++ ms, P ++ Q, h2.put db (some (ns ++ ms)), ?_, by simp [Heap.put], ?_, ?_, ?_⟩
    · rw [Meth.bind_ok e2, Meth.bind_ok (elemsOf_eval b2)]; rfl
    · have j1 := isNodes_keep r2.ok r3 (isNodes_keep r1.ok r2 i1 (by simp)) (fun b hb hc => by simp only [List.mem_singleton] at hc; exact db1 (hc ▸ hb))
      have j2 := isNodes_keep r2.ok r3 i3 (fun b hb hc => by simp only [List.mem_singleton] at hc; exact dbQ (hc ▸ hb))
      have := isNodes_append _ _ _ _ _ _ j1 j2
      rwa [List.take_append_drop] at this
    · rw [List.nodup_cons, List.nodup_append]
      refine ⟨by simp only [List.mem_append, not_or]; exact ⟨db1, dbQ⟩, n1.1, n3, ?_⟩
      intro b hb c hc e
      subst e
      have := Plt b hb; have := Qnew b hc; omega
    · have s2 := (r2.frame (db :: P)).congr (A' := db :: P) (B' := db :: (P ++ Q)) (by simp) (by intro b; simp; grind)
      have s3 := (r3.frame (P ++ Q)).congr (A' := db :: (P ++ Q)) (B' := db :: (P ++ Q)) (by simp) (by simp)
      exact (r1.trans ok s2).trans ok s3

theorem assignNode_eval (early : Bool) (fuel : Nat) : ∀ dt st : Tree α, dt.height < fuel → st.height ≤ fuel → Assigns (assignNode early fuel) dt st := by
  induction fuel with
  | zero => intro dt st h; omega
  | succ fuel ih =>
    intro dt st hfd hfs h db i sb j des ses dn sn dfp sfp ok hdb hdn hd hnd hdbo hsb hsn hs hdbS hsbD hdis hne
    obtain ⟨dv, dcs⟩ := dt
    obtain ⟨sv, scs⟩ := st
    rw [Tree.height] at hfd hfs
    have hi := lt_of_get hdn
    have dlt := used_lt ok hdb
    have hsv : sn.val = sv := by rw [IsNode] at hs; exact hs.1
    have r0 := put_replaces ok dlt (des.set i { dn with val := sn.val })
    -- the value has been assigned
    have hdb1 : (h.put db (some (des.set i { dn with val := sn.val }))).bufs db = some (des.set i { dn with val := sn.val }) := by simp [Heap.put]
    have hdn1 : (des.set i { dn with val := sn.val })[i]? = some { dn with val := sn.val } := by simp [hi]
    have hd1 : IsNode (h.put db (some (des.set i { dn with val := sn.val }))) { dn with val := sn.val } (.node sv dcs) dfp := by
      rw [← hsv]
      exact isNode_setVal (isNode_keep ok r0 hd (fun b hb hc => by simp only [List.mem_singleton] at hc; exact hdbo (hc ▸ hb)))
    have hs1 : IsNode (h.put db (some (des.set i { dn with val := sn.val }))) sn (.node sv scs) sfp :=
      isNode_keep ok r0 hs (fun b hb hc => by simp only [List.mem_singleton] at hc; exact hdbS (hc ▸ hb))
    have hsn1 : load (sb, j) (h.put db (some (des.set i { dn with val := sn.val }))) = (.ok sn, h.put db (some (des.set i { dn with val := sn.val }))) := by
      by_cases e : sb = db
      · subst e
        have : i ≠ j := fun e => hne (by rw [e])
        rw [hdb] at hsb
        cases hsb
        exact load_eval hdb1 (by rw [List.getElem?_set_ne this]; exact hsn)
      · exact load_eval (es := ses) (by simp [Heap.put, e, hsb]) hsn
    have run : assignNode early (fuel + 1) (db, i) (sb, j) h =
        assignVec early fuel (assignNode early fuel) (db, i) (sb, j) (h.put db (some (des.set i { dn with val := sn.val }))) := by
      rw [assignNode, Meth.bind_ok (load_eval hsb hsn), Meth.bind_ok (load_eval hdb hdn), Meth.bind_ok (store_eval hdb hi)]
    rw [run]
    generalize hg : h.put db (some (des.set i { dn with val := sn.val })) = h1 at *
    unfold assignVec
    rw [if_neg hne, Meth.bind_ok hsn1, Meth.bind_ok (sizeOf_eval hs1), Meth.bind_ok (load_eval hdb1 hdn1), Meth.bind_ok (sizeOf_eval hd1)]
    have hset : ∀ n' : Node α, (des.set i { dn with val := sn.val }).set i n' = des.set i n' := fun n' => by simp
    have fin : ∀ {n' own' h'}, h'.bufs db = some ((des.set i { dn with val := sn.val }).set i n') ∧ IsNode h' n' (.node sv scs) own' ∧ own'.Nodup ∧ db ∉ own' ∧
        Replaces h1 h' (db :: dfp) (db :: own') → h'.bufs db = some (des.set i n') ∧ IsNode h' n' (.node sv scs) own' ∧ own'.Nodup ∧ db ∉ own' ∧ Replaces h h' (db :: dfp) (db :: own') := by
      intro n' own' h' ⟨k1, k2, k3, k4, k5⟩
      rw [hset] at k1
      exact ⟨k1, k2, k3, k4, ((r0.frame dfp).congr (by simp) (by simp)).trans ok k5⟩
    have hs1' := hs1
    rw [IsNode] at hs1'
    have hd1' := hd1
    rw [IsNode] at hd1'
    by_cases hcap : dn.cap < scs.length
    · rw [if_pos hcap]
      rcases hs1'.2 with ⟨-, -, rfl, -⟩ | ⟨b, es, S, g1, g2, g3, g4, rfl⟩
      · simp at hcap
      · rw [g1, Option.getD_some]
        simp only [List.mem_cons, not_or] at hdbS hdis
        obtain ⟨n', own', h', k1, k2, k3, k4, k5, k6, -⟩ := grow_eval early fuel (v := sv) (by omega) (by omega) r0.ok hdb1 hdn1 hd1 hnd hdbo g2 g4
          (fun _ => ⟨hdbS.1, hdbS.2, fun hc => (hdis b hc).1 rfl, fun c hc => (hdis c hc).2⟩)
        exact ⟨n', own', h', k1, fin ⟨k2, k3, k4, k5, k6⟩⟩
    · rw [if_neg hcap]
      rcases hd1'.2 with ⟨g1, g2, g3, rfl⟩ | ⟨b, es, D, g1, g2, g3, g4, rfl⟩
      · have hz : scs = [] := by
          have g2' : dn.cap = 0 := g2
          rw [g2'] at hcap
          exact List.eq_nil_of_length_eq_zero (by omega)
        subst hz
        refine ⟨{ dn with val := sn.val }, [], h1, ?_, fin ⟨by rw [set_same hdn1]; exact hdb1, ?_, by simp, by simp, Replaces.refl r0.ok _⟩⟩
        · have g1' : dn.buf = none := g1
          simp only [g1']; rfl
        · rw [IsNode]; exact ⟨hsv, .inl ⟨g1, g2, rfl, rfl⟩⟩
      · have g1' : dn.buf = some b := g1
        simp only [g1']
        simp only [List.mem_cons, not_or] at hdbo
        have fin2 : ∀ {ns own' h'}, h'.bufs b = some ns → IsNodes h' ns scs own' → (b :: own').Nodup → Replaces h1 h' (b :: D) (b :: own') →
            h'.bufs db = some (des.set i { dn with val := sn.val }) ∧ IsNode h' { dn with val := sn.val } (.node sv scs) (b :: own') ∧ (b :: own').Nodup ∧ db ∉ b :: own' ∧
              Replaces h h' (db :: b :: D) (db :: b :: own') := by
          intro ns own' h' k2 k3 k4 k5
          have dlt1 := used_lt r0.ok hdb1
          have dbn : db ∉ b :: own' := fun hc => by
            rcases k5.new db hc with hc | hc
            · rcases List.mem_cons.mp hc with hc | hc
              · exact hdbo.1 hc
              · exact hdbo.2 hc
            · omega
          refine fin ⟨?_, ?_, k4, dbn, ?_⟩
          · rw [set_same hdn1, k5.keep dlt1 (by simp only [List.mem_cons, not_or]; exact hdbo), hdb1]
          · rw [IsNode]
            refine ⟨hsv, .inr ⟨b, ns, own', g1, k2, ?_, k3, rfl⟩⟩
            show ns.length ≤ dn.cap
            rw [isNodes_length _ _ _ k3]; omega
          · exact (k5.frame [db]).congr (by intro c; simp; grind) (by intro c; simp; grind)
        rcases hs1'.2 with ⟨q1, -, rfl, rfl⟩ | ⟨b', es', S, q1, q2, q3, q4, rfl⟩
        · have hnd' := List.nodup_cons.mp hnd
          obtain ⟨h', k1, k2, k3⟩ := destroyFrom_eval fuel dcs (by omega) h1 b [] es D r0.ok g2 g4 hnd'.2 hnd'.1
          refine ⟨_, b :: [], h', ?_, fin2 k2 (by simp [IsNodes]) (by simp) k3⟩
          simp only [List.length_nil, Nat.zero_min, Nat.zero_le, if_true]
          exact k1
        · simp only [q1, Option.getD_some]
          have hdis' : ∀ c ∈ b :: D, c ≠ b' ∧ c ∉ S := fun c hc => by
            have := hdis c hc; simp only [List.mem_cons, not_or] at this; exact this
          obtain ⟨ns, own', h', k1, k2, k3, k4, k5⟩ := reuse_eval fuel (assign := assignNode early fuel) (fun dt h1 st h2 => ih dt st (by have := height_le_list h1; omega) (by have := height_le_list h2; omega))
            (by omega) (by omega) r0.ok g2 g4 hnd q2 q4 (fun hc => (hdis' b' hc).1 rfl) (fun c hc => (hdis' c hc).2)
          exact ⟨_, b :: own', h', k1, fin2 k2 k3 k4 k5⟩

end Utki.TreeAssign
