import Verif.Spec.SpanMem
import Verif.Lemmas.Span
/-!
# Properties of writing through spans (C115)
-/
namespace Utki
open Spec SpanMem
variable {α : Type}

/-! ## Helper lemmas -/

theorem view_of_valid {m : Objects α} {r : Ref} (h : RefValid m r) :
    ∃ l, m[r.obj]? = some l ∧ view m r = ⟨l, r.off, r.size⟩ ∧ r.off + r.size ≤ l.length ∧ l.length < 2 ^ 63 ∧ r.obj < m.length := by
  obtain ⟨l, h1, h2, h3⟩ := h
  exact ⟨l, h1, by simp [view, h1], h2, h3, (List.getElem?_eq_some_iff.mp h1).1⟩

theorem element_lt {size : Nat} {a : Access} {i : Nat} (h : element size a = some i) : i < size := by
  cases a <;> simp only [element] at h <;> (split at h <;> simp at h) <;> omega

theorem place_eq (dbg : Bool) {m : Objects α} {r : Ref} (h : RefValid m r) {a : Access} {i : Nat} (ha : element r.size a = some i) :
    place dbg m r a = .ok (r.off + i) := by
  obtain ⟨l, h1, h2, h3, h4, -⟩ := view_of_valid h
  cases a with
  | index j =>
    simp only [element] at ha
    split at ha <;> simp at ha
    subst ha
    rename_i hj
    simp [place, indexPlace, hj]
  | «at» j =>
    simp only [element] at ha
    split at ha <;> simp at ha
    subst ha
    have : ¬ (j ≥ r.size) := by omega
    simp only [place, this, if_false]
  | front =>
    simp only [element] at ha
    split at ha <;> simp at ha
    subst ha
    rename_i hj
    have : ¬ r.size = 0 := by omega
    simp [place, indexPlace, hj, show (r.size == 0) = false by simpa using this]
  | back =>
    simp only [element] at ha
    split at ha <;> simp at ha
    subst ha
    rename_i hj
    have h5 : ¬ r.size = 0 := by omega
    have h6 : (r.size + sizeMax) % 2 ^ 64 = r.size - 1 := by simp only [sizeMax]; omega
    have h7 : r.size - 1 < r.size := by omega
    simp only [place, indexPlace, h6, h7]
    simp [show (r.size == 0) = false by simpa using h5]
  | iter k =>
    simp only [element] at ha
    split at ha <;> simp at ha
    subst ha
    have : r.off + k ≤ l.length := by omega
    simp [place, h2, Span.ptrAdd, this]
  | riter k =>
    simp only [element] at ha
    split at ha <;> simp at ha
    subst ha
    have h5 : ¬ (r.off + r.size < k + 1) := by omega
    have h6 : r.off + r.size - (k + 1) = r.off + (r.size - 1 - k) := by omega
    simp only [place, h2, Span.end_, Span.ptrAdd, h3, if_true, Res.bind_eq, Res.ok_bind, h5, if_false, h6]

theorem read_eq (dbg : Bool) {m : Objects α} {r : Ref} (h : RefValid m r) {a : Access} {i : Nat} (ha : element r.size a = some i) :
    ∃ l x, m[r.obj]? = some l ∧ l[r.off + i]? = some x ∧ SpanMem.read dbg m r a = .ok x := by
  obtain ⟨l, h1, h2, h3, h4, -⟩ := view_of_valid h
  have hi := element_lt ha
  have hlt : r.off + i < l.length := by omega
  refine ⟨l, l[r.off + i], h1, List.getElem?_eq_getElem hlt, ?_⟩
  simp only [SpanMem.read, place_eq dbg h ha, Res.bind_eq, Res.ok_bind, h2]
  exact rd_eq_ok hlt

theorem write_eq (dbg : Bool) {m : Objects α} {r : Ref} (h : RefValid m r) {a : Access} {i : Nat} (ha : element r.size a = some i) (v : α) :
    ∃ l, m[r.obj]? = some l ∧ r.off + i < l.length ∧ write dbg r a v m = (.ok (), m.set r.obj (l.set (r.off + i) v)) := by
  obtain ⟨l, h1, h2, h3, h4, -⟩ := view_of_valid h
  have hi := element_lt ha
  have hlt : r.off + i < l.length := by omega
  refine ⟨l, h1, hlt, ?_⟩
  simp only [write, place_eq dbg h ha, h2, wr_eq_ok hlt]

theorem valid_set {m : Objects α} {t : Ref} {o : Nat} {l : List α} (k : Nat) (v : α) (ho : m[o]? = some l) :
    RefValid (m.set o (l.set k v)) t ↔ RefValid m t := by
  unfold RefValid
  by_cases hot : o = t.obj
  · subst hot
    have hlt := (List.getElem?_eq_some_iff.mp ho).1
    rw [List.getElem?_set_self hlt, ho]
    simp
  · simp [List.getElem?_set, hot]

/-! ## The properties -/

/-- C115: all ways to an element lead to the same place: `s[i]`, `s.at(i)`, `*(s.begin() + i)`, `*(s.rbegin() + (size - 1 - i))`, and `front` and `back`
for the first and the last element. `at` throws if there is no such element; the others fail their assertion in a debug build. -/
theorem C115_ways (dbg : Bool) (m : Objects α) (r : Ref) (h : RefValid m r) :
    (∀ a i, element r.size a = some i → place dbg m r a = .ok (r.off + i)) ∧
    (∀ i, element r.size (.at i) = none → place dbg m r (.at i) = .throw .out_of_range) ∧
    (∀ i, element r.size (.index i) = none → place true m r (.index i) = .abort) ∧
    (element r.size .front = none → place true m r .front = .abort) ∧ (element r.size .back = none → place true m r .back = .abort) := by
  refine ⟨fun a i ha => place_eq dbg h ha, ?_, ?_, ?_, ?_⟩
  · intro i hi
    simp only [element] at hi
    split at hi <;> simp at hi
    have : i ≥ r.size := by omega
    simp [place, this]
  · intro i hi
    simp only [element] at hi
    split at hi <;> simp at hi
    rename_i hj
    simp [place, indexPlace, hj]
  · intro hi
    simp only [element] at hi
    split at hi <;> simp at hi
    have : r.size = 0 := by omega
    simp [place, this]
  · intro hi
    simp only [element] at hi
    split at hi <;> simp at hi
    have : r.size = 0 := by omega
    simp [place, this]

/-- C115: an assignment through a span changes one element of one object. Every span, in whatever way it is read, sees the new value if it has this
element, and at all other elements what it saw before. No span becomes invalid. -/
theorem C115_write (dbg : Bool) (m : Objects α) (r : Ref) (h : RefValid m r) (a : Access) (i : Nat) (ha : element r.size a = some i) (v : α) :
    ∃ m', write dbg r a v m = (.ok (), m') ∧ m'.length = m.length ∧ (∀ t, RefValid m' t ↔ RefValid m t) ∧
      ∀ (dbg' : Bool) t b j, RefValid m t → element t.size b = some j →
        SpanMem.read dbg' m' t b = if placeOf t j = placeOf r i then .ok v else SpanMem.read dbg' m t b := by
  obtain ⟨l, h1, h2, h3⟩ := write_eq dbg h ha v
  refine ⟨_, h3, by simp, fun t => valid_set _ v h1, ?_⟩
  intro dbg' t b j ht hb
  have ht' := (valid_set (t := t) (r.off + i) v h1).mpr ht
  obtain ⟨l1, x1, e1, e2, e3⟩ := read_eq dbg' ht hb
  obtain ⟨l2, x2, f1, f2, f3⟩ := read_eq dbg' ht' hb
  rw [e3, f3]
  have hlt := (List.getElem?_eq_some_iff.mp h1).1
  by_cases hobj : r.obj = t.obj
  · rw [← hobj] at e1 f1
    rw [h1] at e1
    simp only [Option.some.injEq] at e1
    subst e1
    rw [List.getElem?_set_self hlt] at f1
    simp only [Option.some.injEq] at f1
    subst f1
    by_cases hp : r.off + i = t.off + j
    · rw [← hp, List.getElem?_set_self h2] at f2
      simp only [Option.some.injEq] at f2
      rw [if_pos (by unfold placeOf; rw [hobj, hp]), f2]
    · rw [List.getElem?_set_ne hp, e2] at f2
      simp only [Option.some.injEq] at f2
      rw [if_neg (by unfold placeOf; simp; omega), f2]
  · rw [List.getElem?_set_ne hobj, e1] at f1
    simp only [Option.some.injEq] at f1
    subst f1
    rw [e2] at f2
    simp only [Option.some.injEq] at f2
    rw [if_neg (by unfold placeOf; simp; omega), f2]

/-- C115: an assignment through `at` with a wrong index throws and changes nothing. -/
theorem C115_refused (dbg : Bool) (m : Objects α) (r : Ref) (i : Nat) (hi : r.size ≤ i) (v : α) :
    write dbg r (.at i) v m = (.throw .out_of_range, m) := by
  have : i ≥ r.size := hi
  simp [write, place, this]

/-- C115: after any number of assignments through any spans, each element is what was last assigned to it, through whatever span, or what it was at
first. -/
theorem C115_history (dbg : Bool) (ws : List (Ref × Access × α)) (m : Objects α)
    (hws : ∀ w ∈ ws, RefValid m w.1 ∧ (element w.1.size w.2.1).isSome) :
    ∃ m', writes dbg ws m = (.ok (), m') ∧ (∀ t, RefValid m' t ↔ RefValid m t) ∧
      ∀ (dbg' : Bool) t b j, RefValid m t → element t.size b = some j →
        SpanMem.read dbg' m' t b = match lastWritten ws (placeOf t j) with | some v => .ok v | none => SpanMem.read dbg' m t b := by
  induction ws generalizing m with
  | nil => exact ⟨m, rfl, fun _ => Iff.rfl, fun dbg' t b j _ _ => by simp [lastWritten]⟩
  | cons w ws ih =>
    obtain ⟨r, a, v⟩ := w
    obtain ⟨hv, he⟩ := hws (r, a, v) (by simp)
    obtain ⟨i, ha⟩ := Option.isSome_iff_exists.mp he
    obtain ⟨m1, w1, -, v1, r1⟩ := C115_write dbg m r hv a i ha v
    obtain ⟨m2, w2, v2, r2⟩ := ih m1 (fun w hw => ⟨(v1 _).mpr (hws w (by simp [hw])).1, (hws w (by simp [hw])).2⟩)
    refine ⟨m2, ?_, fun t => (v2 t).trans (v1 t), ?_⟩
    · show (Meth.bind (write dbg r a v) fun _ => writes dbg ws) m = _
      simp only [Meth.bind, w1, w2]
    · intro dbg' t b j ht hb
      rw [r2 dbg' t b j ((v1 t).mpr ht) hb, r1 dbg' t b j ht hb]
      have hl : lastWritten ((r, a, v) :: ws) (placeOf t j) =
          match lastWritten ws (placeOf t j) with | some x => some x | none => if placeOf t j = placeOf r i then some v else none := by
        unfold lastWritten
        rw [List.reverse_cons, List.find?_append]
        cases List.find? _ ws.reverse with
        | some x => simp
        | none =>
          by_cases hp : placeOf t j = placeOf r i
          · simp [ha, hp]
          · simp [ha, hp, Ne.symm hp]
      rw [hl]
      cases lastWritten ws (placeOf t j) with
      | some x => rfl
      | none =>
        by_cases hp : placeOf t j = placeOf r i
        · simp [hp]
        · simp [hp]

/-- C115: element `j` of `s.subspan(o, n)` is element `o + j` of `s`: the same place, so what is assigned through one is seen through the other. -/
theorem C115_subspan (dbg : Bool) (m : Objects α) (r : Ref) (h : RefValid m r) (o n : Nat) (hin : o + n ≤ r.size) :
    ∃ t, SpanMem.subspan dbg m r o n = .ok t ∧ RefValid m t ∧ t.size = n ∧ ∀ j < n, placeOf t j = placeOf r (o + j) := by
  obtain ⟨l, h1, h2, h3, h4, -⟩ := view_of_valid h
  have hv : (view m r).Valid := by rw [h2]; exact h3
  have hs : (view m r).size = r.size := rfl
  have hn : n ≠ sizeMax := by
    unfold sizeMax
    omega
  refine ⟨⟨r.obj, r.off + o, n⟩, ?_, ⟨l, h1, by simp only; omega, h4⟩, rfl, fun j _ => by simp [placeOf]; omega⟩
  simp only [SpanMem.subspan, Span.subspan_count dbg hv (by rw [hs]; exact hin) hn, Res.bind_eq, Res.ok_bind, Res.pure_eq]
  rfl

/-- C115: the same for `s.subspan(o)`, which has all elements of `s` from `o` on. -/
theorem C115_subspan_rest (dbg : Bool) (m : Objects α) (r : Ref) (h : RefValid m r) (o : Nat) (hin : o ≤ r.size) :
    ∃ t, SpanMem.subspan dbg m r o = .ok t ∧ RefValid m t ∧ t.size = r.size - o ∧ ∀ j < t.size, placeOf t j = placeOf r (o + j) := by
  obtain ⟨l, h1, h2, h3, h4, -⟩ := view_of_valid h
  have hv : (view m r).Valid := by rw [h2]; exact h3
  have hs : (view m r).size = r.size := rfl
  refine ⟨⟨r.obj, r.off + o, r.size - o⟩, ?_, ⟨l, h1, by simp only; omega, h4⟩, rfl, fun j _ => by simp [placeOf]; omega⟩
  simp only [SpanMem.subspan, Span.subspan_rest dbg hv (by rw [hs]; exact hin), Res.bind_eq, Res.ok_bind, Res.pure_eq]
  rfl

/-- C115: `make_span(container)` has the elements of the container, all of them and nothing else. -/
theorem C115_make_span (dbg : Bool) (m : Objects α) (o : Nat) (l : List α) (ho : m[o]? = some l) (hl : l.length < 2 ^ 63) :
    RefValid m (SpanMem.make_span m o) ∧ (SpanMem.make_span m o).size = l.length ∧ (∀ i, placeOf (SpanMem.make_span m o) i = (o, i)) ∧
    ∀ i x, l[i]? = some x → SpanMem.read dbg m (SpanMem.make_span m o) (.index i) = .ok x := by
  have hr : SpanMem.make_span m o = ⟨o, 0, l.length⟩ := by simp [SpanMem.make_span, ho]
  rw [hr]
  have hv : RefValid m ⟨o, 0, l.length⟩ := ⟨l, ho, by simp, hl⟩
  refine ⟨hv, rfl, fun i => by simp [placeOf], fun i x hx => ?_⟩
  have hi := (List.getElem?_eq_some_iff.mp hx).1
  obtain ⟨l', x', e1, e2, e3⟩ := read_eq dbg hv (a := .index i) (i := i) (by simp [element, hi])
  rw [ho] at e1
  cases e1
  rw [e3]
  simp only [Nat.zero_add] at e2
  rw [hx] at e2
  cases e2
  rfl

/-- C115: two subspans of one span that do not overlap are independent: no sequence of assignments through one changes what is read through the
other. The same goes for any spans without a common element. -/
theorem C115_disjoint (dbg : Bool) (ws : List (Access × α)) (m : Objects α) (r t : Ref) (hr : RefValid m r) (ht : RefValid m t) (hd : Disjoint r t)
    (hws : ∀ w ∈ ws, (element r.size w.1).isSome) :
    ∃ m', writes dbg (ws.map fun w => (r, w.1, w.2)) m = (.ok (), m') ∧
      ∀ (dbg' : Bool) b j, element t.size b = some j → SpanMem.read dbg' m' t b = SpanMem.read dbg' m t b := by
  obtain ⟨m', h1, -, h3⟩ := C115_history dbg (ws.map fun w => (r, w.1, w.2)) m (by
    intro w hw
    obtain ⟨w', hw', rfl⟩ := List.mem_map.mp hw
    exact ⟨hr, hws w' hw'⟩)
  refine ⟨m', h1, ?_⟩
  intro dbg' b j hb
  rw [h3 dbg' t b j ht hb]
  have : lastWritten (ws.map fun w => (r, w.1, w.2)) (placeOf t j) = none := by
    unfold lastWritten
    rw [Option.map_eq_none_iff, List.find?_eq_none]
    intro w hw
    rw [List.mem_reverse] at hw
    obtain ⟨w', hw', rfl⟩ := List.mem_map.mp hw
    obtain ⟨i, hi⟩ := Option.isSome_iff_exists.mp (hws w' hw')
    simp only [hi, beq_iff_eq]
    exact hd i (element_lt hi) j (element_lt hb)
  rw [this]

/-- C115: subspans that follow each other have no element in common. -/
theorem C115_split (dbg : Bool) (m : Objects α) (r : Ref) (h : RefValid m r) (o₁ n₁ o₂ n₂ : Nat) (h1 : o₁ + n₁ ≤ o₂) (h2 : o₂ + n₂ ≤ r.size) :
    ∃ t₁ t₂, SpanMem.subspan dbg m r o₁ n₁ = .ok t₁ ∧ SpanMem.subspan dbg m r o₂ n₂ = .ok t₂ ∧ Disjoint t₁ t₂ ∧ Disjoint t₂ t₁ := by
  obtain ⟨t₁, a1, -, a2, a3⟩ := C115_subspan dbg m r h o₁ n₁ (by omega)
  obtain ⟨t₂, b1, -, b2, b3⟩ := C115_subspan dbg m r h o₂ n₂ h2
  refine ⟨t₁, t₂, a1, b1, ?_, ?_⟩
  · intro i hi j hj
    rw [a3 i (by omega), b3 j (by omega)]
    simp only [placeOf, ne_eq, Prod.mk.injEq, true_and]
    omega
  · intro i hi j hj
    rw [a3 j (by omega), b3 i (by omega)]
    simp only [placeOf, ne_eq, Prod.mk.injEq, true_and]
    omega

/-- C115: `make_vector` copies: the elements are equal, all spans see what they saw before, and the new vector has no element in common with any span
there was. -/
theorem C115_make_vector (dbg : Bool) (m : Objects α) (r : Ref) (h : RefValid m r) :
    ∃ m' t, SpanMem.make_vector m r = .ok (m', t) ∧ RefValid m' t ∧ t.size = r.size ∧
      (∀ b, (element r.size b).isSome → SpanMem.read dbg m' t b = SpanMem.read dbg m r b) ∧
      (∀ s, RefValid m s → RefValid m' s ∧ Disjoint s t ∧ Disjoint t s ∧ ∀ b, (element s.size b).isSome → SpanMem.read dbg m' s b = SpanMem.read dbg m s b) := by
  obtain ⟨l, h1, h2, h3, h4, -⟩ := view_of_valid h
  have hv : (view m r).Valid := by rw [h2]; exact h3
  have hc : (view m r).contents = (l.drop r.off).take r.size := by rw [h2]; rfl
  have hlen : ((l.drop r.off).take r.size).length = r.size := by simp; omega
  refine ⟨m ++ [(l.drop r.off).take r.size], ⟨m.length, 0, r.size⟩, ?_, ?_, rfl, ?_, ?_⟩
  · simp only [SpanMem.make_vector, Span.make_vector, Span.toList_eq hv, hc, Res.bind_eq, Res.ok_bind, hlen, Res.pure_eq]
  · exact ⟨(l.drop r.off).take r.size, by simp, by rw [hlen]; simp, by omega⟩
  · intro b hb
    obtain ⟨i, hi⟩ := Option.isSome_iff_exists.mp hb
    have hv' : RefValid (m ++ [(l.drop r.off).take r.size]) ⟨m.length, 0, r.size⟩ :=
      ⟨(l.drop r.off).take r.size, by simp, by rw [hlen]; simp, by omega⟩
    obtain ⟨l1, x1, e1, e2, e3⟩ := read_eq dbg hv' (a := b) hi
    obtain ⟨l2, x2, f1, f2, f3⟩ := read_eq dbg h hi
    rw [e3, f3]
    simp only [List.getElem?_concat_length, Option.some.injEq] at e1
    rw [h1] at f1
    simp only [Option.some.injEq] at f1
    subst e1 f1
    simp only [Nat.zero_add] at e2
    rw [List.getElem?_take, if_pos (element_lt hi), List.getElem?_drop, f2] at e2
    simp only [Option.some.injEq] at e2
    rw [e2]
  · intro s hs
    obtain ⟨l', g1, g2, g3, g4, g5⟩ := view_of_valid hs
    have hs' : RefValid (m ++ [(l.drop r.off).take r.size]) s := ⟨l', by rw [List.getElem?_append_left g5]; exact g1, g3, g4⟩
    refine ⟨hs', ?_, ?_, ?_⟩
    · intro i _ j _ hc
      simp only [placeOf, Prod.mk.injEq] at hc
      omega
    · intro i _ j _ hc
      simp only [placeOf, Prod.mk.injEq] at hc
      omega
    · intro b hb
      obtain ⟨i, hi⟩ := Option.isSome_iff_exists.mp hb
      obtain ⟨l1, x1, e1, e2, e3⟩ := read_eq dbg hs' hi
      obtain ⟨l2, x2, f1, f2, f3⟩ := read_eq dbg hs hi
      rw [List.getElem?_append_left g5, f1] at e1
      simp only [Option.some.injEq] at e1
      subst e1
      rw [e2] at f2
      simp only [Option.some.injEq] at f2
      rw [e3, f3, f2]

/-- C115: reading here is reading in the model of C68. -/
theorem C115_reads (dbg : Bool) (m : Objects α) (r : Ref) (i : Nat) :
    SpanMem.read dbg m r (.index i) = (view m r).get dbg i ∧ SpanMem.read dbg m r (.at i) = (view m r).at_ i ∧
    SpanMem.read dbg m r .front = (view m r).front dbg ∧ SpanMem.read dbg m r .back = (view m r).back dbg := by
  have hs : (view m r).size = r.size := rfl
  have ho : (view m r).off = r.off := rfl
  refine ⟨?_, ?_, ?_, ?_⟩
  · simp only [SpanMem.read, place, indexPlace, Span.get, hs, ho]
    cases dbg <;> by_cases h : i < r.size <;> simp [ASSERT, h]
  · simp only [SpanMem.read, place, Span.at_, hs, ho]
    by_cases h : i ≥ r.size <;> simp [h]
  · simp only [SpanMem.read, place, indexPlace, Span.front, Span.get, Span.empty, hs, ho]
    cases dbg <;> by_cases h : r.size = 0 <;> simp [ASSERT, h, Nat.pos_iff_ne_zero]
  · simp only [SpanMem.read, place, indexPlace, Span.back, Span.get, Span.empty, hs, ho]
    cases dbg <;> by_cases h : r.size = 0 <;> by_cases h' : (r.size + sizeMax) % 2 ^ 64 < r.size <;> simp [ASSERT, h, h']

/-- A span of the middle of a vector, its subspan, and another vector: the hypotheses can be met. -/
example : RefValid [[1, 2, 3, 4, 5], [6, 7]] ⟨0, 1, 3⟩ ∧ RefValid [[1, 2, 3, 4, 5], [6, 7]] ⟨1, 0, 2⟩ ∧
    SpanMem.make_span [[1, 2, 3, 4, 5], [6, 7]] 1 = ⟨1, 0, 2⟩ ∧ SpanMem.subspan true [[1, 2, 3, 4, 5], [6, 7]] ⟨0, 1, 3⟩ 1 2 = .ok ⟨0, 2, 2⟩ ∧
    write true ⟨0, 2, 2⟩ .back 9 [[1, 2, 3, 4, 5], [6, 7]] = (.ok (), [[1, 2, 3, 9, 5], [6, 7]]) ∧
    SpanMem.read true [[1, 2, 3, 9, 5], [6, 7]] ⟨0, 1, 3⟩ (.index 2) = .ok 9 := by
  refine ⟨⟨_, rfl, by decide, by decide⟩, ⟨_, rfl, by decide, by decide⟩, by decide, by decide, by decide, by decide⟩

end Utki
