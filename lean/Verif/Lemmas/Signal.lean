import Verif.Spec.Signal
/-!
# Every run of a client of a signal has a valid log
-/
namespace Utki
namespace Signal
open Spec
variable {γ α σ : Type}

@[simp] theorem calls_append (k : Nat) (a b : List (Event α)) : calls k (a ++ b) = calls k a ++ calls k b := by
  simp [calls, callsOf]

theorem calls_nil (k : Nat) : calls k ([] : List (Event α)) = [] := rfl
theorem calls_connected (k i : Nat) : calls k ([.connected i] : List (Event α)) = [] := rfl
theorem calls_disconnected (k i : Nat) : calls k ([.disconnected i] : List (Event α)) = [] := rfl
theorem calls_returned (k m i : Nat) : calls k ([.returned m i] : List (Event α)) = [] := rfl
theorem calls_finished (k m : Nat) : calls k ([.finished m] : List (Event α)) = [] := rfl
theorem calls_called (k m i : Nat) (a : α) : calls k [Event.called m i a] = if m = k then [i] else [] := by
  by_cases h : m = k <;> simp [calls, callsOf, h]

theorem mem_calls (k i : Nat) (l : List (Event α)) : i ∈ calls k l ↔ ∃ a, Event.called k i a ∈ l := by
  simp only [calls, callsOf, List.mem_map, List.mem_filterMap, Prod.exists]
  constructor
  · rintro ⟨i', a, ⟨e, he, h⟩, rfl⟩
    cases e with
    | called k' j b =>
      simp only at h
      split at h
      · cases h; subst_vars; exact ⟨_, he⟩
      · cases h
    | _ => cases h
  · rintro ⟨a, h⟩
    exact ⟨i, a, ⟨_, h, by simp⟩, rfl⟩

theorem connect_bind (c : γ) {β : Type} (f : Nat → Meth (World γ α σ) β) (w : World γ α σ) : (connect c >>= f) w =
    f w.next { w with callbacks := w.callbacks ++ [(w.next, c)], next := w.next + 1, log := w.log ++ [.connected w.next] } := rfl

theorem start_bind {β : Type} (f : Nat × Option Nat → Meth (World γ α σ) β) (w : World γ α σ) : (start >>= f) w =
    f (w.emissions, w.callbacks.head?.map (·.1)) { w with emissions := w.emissions + 1 } := rfl

/-- The invariant that relates the list of callbacks to the log. -/
structure Inv (w : World γ α σ) : Prop where
  valid : Valid w.log
  sorted : (w.callbacks.map (·.1)).Pairwise (· < ·)
  live : ∀ i, i ∈ w.callbacks.map (·.1) ↔ Live w.log i
  bound : ∀ i, .connected i ∈ w.log → i < w.next
  dbound : ∀ i, .disconnected i ∈ w.log → i < w.next
  emis : ∀ k i a, Event.called k i a ∈ w.log → k < w.emissions

/-- Adding an event that does not change what is connected. -/
theorem Inv.event {w : World γ α σ} (h : Inv w) (e : Event α) (ha : Allowed w.log e) (he : ∀ k i a, e = .called k i a → k < w.emissions)
    (h1 : ∀ i, e ≠ .connected i) (h2 : ∀ i, e ≠ .disconnected i) : Inv { w with log := w.log ++ [e] } := by
  refine ⟨.snoc _ _ h.valid ha, h.sorted, ?_, ?_, ?_, ?_⟩
  · intro i
    rw [h.live]
    simp [Live, (h1 i).symm, (h2 i).symm]
  · intro i hi
    rw [List.mem_append, List.mem_singleton] at hi
    rcases hi with hi | hi
    · exact h.bound i hi
    · exact absurd hi.symm (h1 i)
  · intro i hi
    rw [List.mem_append, List.mem_singleton] at hi
    rcases hi with hi | hi
    · exact h.dbound i hi
    · exact absurd hi.symm (h2 i)
  · intro k i a hi
    rw [List.mem_append, List.mem_singleton] at hi
    rcases hi with hi | hi
    · exact h.emis k i a hi
    · exact he k i a hi.symm

theorem Inv.connect {w : World γ α σ} (h : Inv w) (c : γ) :
    Inv { w with callbacks := w.callbacks ++ [(w.next, c)], next := w.next + 1, log := w.log ++ [.connected w.next] } := by
  have hnd : Event.disconnected w.next ∉ w.log := fun hx => by have := h.dbound _ hx; omega
  refine ⟨.snoc _ _ h.valid ⟨h.bound, hnd⟩, ?_, ?_, ?_, ?_, ?_⟩
  · simp only [List.map_append, List.map_cons, List.map_nil]
    rw [List.pairwise_append]
    refine ⟨h.sorted, by simp, ?_⟩
    intro a ha b hb
    simp at hb; subst hb
    exact h.bound a ((h.live a).mp ha).1
  · intro i
    simp only [List.map_append, List.map_cons, List.map_nil, List.mem_append, List.mem_singleton, h.live i, Live]
    by_cases e : i = w.next
    · subst e; simp [hnd]
    · simp [e]
  · intro i hi
    simp at hi
    rcases hi with hi | hi
    · have := h.bound i hi; simp; omega
    · simp [hi]
  · intro i hi
    simp at hi
    have := h.dbound i hi; simp; omega
  · intro k i a hi
    simp at hi
    exact h.emis k i a hi

theorem Inv.disconnect {w : World γ α σ} (h : Inv w) (i : Nat) (hl : Live w.log i) :
    Inv { w with callbacks := w.callbacks.filter (fun n => n.1 != i), log := w.log ++ [.disconnected i] } := by
  refine ⟨.snoc _ _ h.valid hl, ?_, ?_, ?_, ?_, ?_⟩
  · exact h.sorted.sublist (List.Sublist.map _ List.filter_sublist)
  · intro j
    have := h.live j
    simp only [List.mem_map, List.mem_filter, bne_iff_ne, ne_eq] at this ⊢
    simp only [Live, List.mem_append, List.mem_singleton, Event.disconnected.injEq, reduceCtorEq, or_false]
    by_cases e : j = i
    · subst e
      simp only [or_true, not_true, and_false, iff_false]
      rintro ⟨x, ⟨_, hx⟩, rfl⟩; exact hx rfl
    · simp only [e, or_false]
      unfold Live at this
      rw [← this]
      constructor
      · rintro ⟨x, ⟨hx, _⟩, rfl⟩; exact ⟨x, hx, rfl⟩
      · rintro ⟨x, hx, rfl⟩; exact ⟨x, ⟨hx, e⟩, rfl⟩
  · intro j hj; simp at hj; exact h.bound j hj
  · intro j hj
    simp at hj
    rcases hj with hj | rfl
    · exact h.dbound j hj
    · exact h.bound _ hl.1
  · intro k j a hj; simp at hj; exact h.emis k j a hj

theorem any_iff (w : World γ α σ) (i : Nat) : w.callbacks.any (fun n => n.1 == i) = true ↔ i ∈ w.callbacks.map (·.1) := by
  simp [List.any_eq_true]

/-- What undefined behaviour means in terms of the log. -/
def Bad (l : List (Event α)) : Prop := Misuse l ∨ (Valid l ∧ DisconnectedWhileRunning l)

/-- What every piece of a client's program does to the world. `own` are the emissions that may be continued. -/
structure Post (own : Nat → Prop) (w : World γ α σ) (out : Res Unit × World γ α σ) : Prop where
  ex : ∃ ev, out.2.log = w.log ++ ev ∧ (∀ k i a, Event.called k i a ∈ ev → own k ∨ w.emissions ≤ k) ∧
    (∀ k i, Event.returned k i ∈ ev → own k ∨ w.emissions ≤ k) ∧
    ((∃ u, out.1 = .ub u) ∨ out.1 = .diverge ∨ ∀ e1 k i a e2, ev = e1 ++ Event.called k i a :: e2 → Event.returned k i ∈ e2)
  emis : w.emissions ≤ out.2.emissions
  inv : (∀ u, out.1 ≠ .ub u) → Inv out.2
  bad : ∀ u, out.1 = .ub u → Bad out.2.log
  quiet : out.1 ≠ .abort ∧ out.1 ≠ .terminate

theorem split_append {β : Type} {x y e1 e2 : List β} {c : β} (h : x ++ y = e1 ++ c :: e2) :
    (∃ m, x = e1 ++ c :: m ∧ e2 = m ++ y) ∨ (∃ m, e1 = x ++ m ∧ y = m ++ c :: e2) := by
  rcases List.append_eq_append_iff.mp h with ⟨m, h1, h2⟩ | ⟨m, h1, h2⟩
  · right; exact ⟨m, h1, h2⟩
  · cases m with
    | nil => right; exact ⟨[], by simpa using h1.symm, by simpa using h2.symm⟩
    | cons a m =>
      left
      simp only [List.cons_append, List.cons.injEq] at h2
      obtain ⟨rfl, h2⟩ := h2
      exact ⟨m, h1, h2⟩

theorem Post.seq {own : Nat → Prop} {w w1 : World γ α σ} {r : Res Unit} {out : Res Unit × World γ α σ} (h1 : Post own w (r, w1))
    (hr : r = .ok ()) (h2 : Post own w1 out) : Post own w out := by
  subst hr
  obtain ⟨ev1, a1, a2, a3, a4⟩ := h1.ex
  obtain ⟨ev2, b1, b2, b3, b4⟩ := h2.ex
  have he := h1.emis
  simp only at a1 he
  refine ⟨⟨ev1 ++ ev2, by rw [b1, a1, List.append_assoc], ?_, ?_, ?_⟩, by have := h2.emis; omega, h2.inv, h2.bad, h2.quiet⟩
  · intro k i a hm
    rcases List.mem_append.mp hm with hm | hm
    · exact a2 k i a hm
    · rcases b2 k i a hm with h | h
      · exact .inl h
      · right; omega
  · intro k i hm
    rcases List.mem_append.mp hm with hm | hm
    · exact a3 k i hm
    · rcases b3 k i hm with h | h
      · exact .inl h
      · right; omega
  · rcases b4 with h | h | h
    · exact .inl h
    · exact .inr (.inl h)
    · right; right
      intro e1 k i a e2 he
      rcases a4 with h' | h' | h'
      · obtain ⟨u, hu⟩ := h'; cases hu
      · cases h'
      · rcases split_append he with ⟨m, g1, g2⟩ | ⟨m, g1, g2⟩
        · rw [g2]; exact List.mem_append_left _ (h' _ _ _ _ _ g1)
        · exact h _ _ _ _ _ g2

theorem Post.weaken {own own' : Nat → Prop} {w : World γ α σ} {out : Res Unit × World γ α σ} (h : Post own w out) (ho : ∀ k, own k → own' k) :
    Post own' w out := by
  obtain ⟨ev, a1, a2, a3, a4⟩ := h.ex
  refine ⟨⟨ev, a1, fun k i a hm => ?_, fun k i hm => ?_, a4⟩, h.emis, h.inv, h.bad, h.quiet⟩
  · exact (a2 k i a hm).imp (ho k) id
  · exact (a3 k i hm).imp (ho k) id

/-- Events that are neither the start nor the end of a call. -/
theorem Post.event {own : Nat → Prop} {w w1 : World γ α σ} {e : Event α} {r : Res Unit} (hl : w1.log = w.log ++ [e]) (he : w1.emissions = w.emissions)
    (h1 : ∀ k i a, e ≠ .called k i a) (h2 : ∀ k i, e ≠ .returned k i) (hr : r = .ok ()) (hi : Inv w1) : Post own w (r, w1) := by
  subst hr
  refine ⟨⟨[e], hl, ?_, ?_, ?_⟩, by simp [he], fun _ => hi, by simp, by simp⟩
  · intro k i a h; simp at h; exact absurd h.symm (h1 k i a)
  · intro k i h; simp at h; exact absurd h.symm (h2 k i)
  · right; right
    intro e1 k i a e2 h
    have : Event.called k i a ∈ [e] := by rw [h]; simp
    simp at this; exact absurd this.symm (h1 k i a)

theorem Post.nil {own : Nat → Prop} {w : World γ α σ} {r : Res Unit} (hi : Inv w) (hr : (r = .ok ()) ∨ (∃ e, r = .throw e) ∨ r = .diverge) :
    Post own w (r, w) := by
  refine ⟨⟨[], by simp, by simp, by simp, ?_⟩, Nat.le_refl _, fun _ => hi, ?_, ?_⟩
  · right; right; intro e1 k i a e2 h; simp at h
  · intro u hu; rcases hr with rfl | ⟨e, rfl⟩ | rfl <;> cases hu
  · rcases hr with rfl | ⟨e, rfl⟩ | rfl <;> simp

theorem Inv.user {w : World γ α σ} (h : Inv w) (s : σ) : Inv { w with user := s } := ⟨h.valid, h.sorted, h.live, h.bound, h.dbound, h.emis⟩

theorem Inv.start {w : World γ α σ} (h : Inv w) : Inv { w with emissions := w.emissions + 1 } :=
  ⟨h.valid, h.sorted, h.live, h.bound, h.dbound, fun k i a hm => by have := h.emis k i a hm; simp; omega⟩

theorem bind_post {own : Nat → Prop} {w : World γ α σ} {m : Meth (World γ α σ) Unit} {f : Unit → Meth (World γ α σ) Unit}
    (h1 : Post own w (m w)) (h2 : ∀ w1, m w = (.ok (), w1) → Post own w1 (f () w1)) : Post own w ((m >>= f) w) := by
  rw [Meth.bind_apply, Meth.bind]
  generalize ho : m w = o at h1
  obtain ⟨r, w1⟩ := o
  cases r with
  | ok a => exact h1.seq rfl (h2 w1 ho)
  | _ => exact h1

theorem disconnect_post {own : Nat → Prop} (i : Nat) (w : World γ α σ) (hw : Inv w) : Post own w (disconnect i w) := by
  unfold Signal.disconnect
  split
  · have hl : Live w.log i := (hw.live i).mp ((any_iff w i).mp ‹_›)
    exact Post.event (e := .disconnected i) rfl rfl (by simp) (by simp) rfl (hw.disconnect i hl)
  · have hl : ¬ Live w.log i := fun h => ‹¬ _› ((any_iff w i).mpr ((hw.live i).mpr h))
    refine ⟨⟨[.disconnected i], rfl, by simp, by simp, .inl ⟨_, rfl⟩⟩, Nat.le_refl _, fun h => absurd rfl (h _), ?_, by simp⟩
    intro u _
    exact .inl ⟨w.log, i, rfl, hw.valid, hl⟩

theorem exec_post (own : Nat → Prop) (emitF : α → Meth (World γ α σ) Unit) (he : ∀ a w, Inv w → Post own w (emitF a w)) (p : Prog γ α σ)
    (w : World γ α σ) (hw : Inv w) : Post own w (exec emitF p w) := by
  induction p generalizing w with
  | ret => exact Post.nil hw (.inl rfl)
  | throw e => exact Post.nil hw (.inr (.inl ⟨e, rfl⟩))
  | upd f k ih =>
    have := ih _ (hw.user (f w.user))
    exact ⟨this.ex, this.emis, this.inv, this.bad, this.quiet⟩
  | read k ih => exact ih _ w hw
  | connect c k ih =>
    unfold exec
    rw [connect_bind]
    have hi := hw.connect c
    refine Post.seq (r := .ok ()) ?_ rfl (ih _ _ hi)
    exact Post.event (e := .connected w.next) rfl rfl (by simp) (by simp) rfl hi
  | disconnect i k ih =>
    unfold exec
    refine bind_post (disconnect_post i w hw) ?_
    intro w1 h1
    have := (disconnect_post (own := own) i w hw).inv (by rw [h1]; simp)
    rw [h1] at this
    exact ih w1 this
  | emit a k ih =>
    unfold exec
    refine bind_post (he a w hw) ?_
    intro w1 h1
    have := (he a w hw).inv (by rw [h1]; simp)
    rw [h1] at this
    exact ih w1 this

/-- The iterator of emission `k` is at the first connected callback behind those called. -/
def Cursor (k : Nat) (w : World γ α σ) : Option Nat → Prop
  | some i => Live w.log i ∧ (∀ j ∈ calls k w.log, j < i) ∧ (∀ j, Live w.log j → j < i → ∃ m ∈ calls k w.log, j ≤ m)
  | none => ∀ j, Live w.log j → ∃ m ∈ calls k w.log, j ≤ m

theorem head_least (l : List (Nat × γ)) (hs : (l.map (·.1)).Pairwise (· < ·)) :
    (∀ i, l.head?.map (·.1) = some i → i ∈ l.map (·.1) ∧ ∀ j ∈ l.map (·.1), i ≤ j) ∧ (l.head?.map (·.1) = none → l = []) := by
  cases l with
  | nil => simp
  | cons n l =>
    simp only [List.map_cons, List.pairwise_cons] at hs
    refine ⟨?_, by simp⟩
    intro i hi
    simp at hi; subst hi
    refine ⟨by simp, ?_⟩
    intro j hj
    rw [List.map_cons, List.mem_cons] at hj
    rcases hj with rfl | hj
    · omega
    · have := hs.1 j hj; omega

theorem following_spec (i : Nat) (l : List (Nat × γ)) (hs : (l.map (·.1)).Pairwise (· < ·)) :
    (following i l = none ↔ i ∉ l.map (·.1)) ∧
    (∀ n, following i l = some (some n) → i < n ∧ n ∈ l.map (·.1) ∧ ∀ j ∈ l.map (·.1), j < n → j ≤ i) ∧
    (following i l = some none → ∀ j ∈ l.map (·.1), j ≤ i) := by
  induction l with
  | nil => simp [following]
  | cons x l ih =>
    simp only [List.map_cons, List.pairwise_cons] at hs
    obtain ⟨i1, i2, i3⟩ := ih hs.2
    unfold following
    by_cases hx : x.1 = i
    · subst hx
      rw [if_pos rfl]
      have hl := head_least l hs.2
      refine ⟨by simp, ?_, ?_⟩
      · intro n hn
        simp only [Option.some.injEq] at hn
        obtain ⟨g1, g2⟩ := hl.1 n hn
        refine ⟨hs.1 n g1, by simp only [List.map_cons, List.mem_cons]; exact .inr g1, ?_⟩
        intro j hj hjn
        rw [List.map_cons, List.mem_cons] at hj
        rcases hj with rfl | hj
        · omega
        · have := g2 j hj; omega
      · intro hn
        simp only [Option.some.injEq] at hn
        have := hl.2 hn
        subst this; simp
    · rw [if_neg hx]
      refine ⟨?_, ?_, ?_⟩
      · rw [i1]; simp [Ne.symm hx]
      · intro n hn
        obtain ⟨g1, g2, g3⟩ := i2 n hn
        refine ⟨g1, by simp only [List.map_cons, List.mem_cons]; exact .inr g2, ?_⟩
        intro j hj hjn
        rw [List.map_cons, List.mem_cons] at hj
        rcases hj with rfl | hj
        · have hi : i ∈ l.map (·.1) := by
            apply Classical.byContradiction
            intro h; rw [i1.mpr h] at hn; cases hn
          have := hs.1 i hi; omega
        · exact g3 j hj hjn
      · intro hn j hj
        rw [List.map_cons, List.mem_cons] at hj
        rcases hj with rfl | hj
        · have hi : i ∈ l.map (·.1) := by
            apply Classical.byContradiction
            intro h; rw [i1.mpr h] at hn; cases hn
          have := hs.1 i hi; omega
        · exact i3 hn j hj

theorem start_cursor {w : World γ α σ} (hw : Inv w) :
    Cursor w.emissions { w with emissions := w.emissions + 1 } (w.callbacks.head?.map (·.1)) := by
  have hno : calls w.emissions w.log = [] := by
    rw [List.eq_nil_iff_forall_not_mem]
    intro i hi
    obtain ⟨a, ha⟩ := (mem_calls _ _ _).mp hi
    have := hw.emis _ _ _ ha; omega
  obtain ⟨h1, h2⟩ := head_least w.callbacks hw.sorted
  cases hh : w.callbacks.head?.map (·.1) with
  | none =>
    intro j hj
    have := (hw.live j).mpr hj
    rw [h2 hh] at this; simp at this
  | some i =>
    obtain ⟨g1, g2⟩ := h1 i hh
    refine ⟨(hw.live i).mp g1, by simp [hno], ?_⟩
    intro j hj hji
    have := g2 j ((hw.live j).mpr hj)
    omega

theorem loop_next {w w2 : World γ α σ} {k i : Nat} {a : α} {ev : List (Event α)} {nx : Option Nat} (_hw : Inv w) (hk : k < w.emissions)
    (hc : Cursor k w (some i)) (hemis : w.emissions ≤ w2.emissions) (hw2 : Inv w2) (x1 : w2.log = w.log ++ [Event.called k i a] ++ ev)
    (x2 : ∀ k i a, Event.called k i a ∈ ev → False ∨ w.emissions ≤ k) (hfl : following i w2.callbacks = some nx) :
    Inv { w2 with log := w2.log ++ [.returned k i] } ∧ Cursor k { w2 with log := w2.log ++ [.returned k i] } nx ∧ w.emissions ≤ w2.emissions := by
  obtain ⟨f1, f2, f3⟩ := following_spec i w2.callbacks hw2.sorted
  have hcalls : calls k w2.log = calls k w.log ++ [i] := by
    rw [x1, calls_append, calls_append, calls_called, if_pos rfl]
    have : calls k ev = [] := by
      rw [List.eq_nil_iff_forall_not_mem]
      intro j hj
      obtain ⟨b, hb⟩ := (mem_calls _ _ _).mp hj
      rcases x2 k j b hb with h | h
      · exact h
      · omega
    simp [this]
  have hlive : Live w2.log i := by
    rw [← hw2.live]
    apply Classical.byContradiction
    intro h; rw [f1.mpr h] at hfl; cases hfl
  have hw3 : Inv { w2 with log := w2.log ++ [.returned k i] } := hw2.event _ hlive (by simp) (by simp) (by simp)
  refine ⟨hw3, ?_, hemis⟩
  have hL : ∀ j, Live (w2.log ++ [Event.returned k i]) j ↔ Live w2.log j := by intro j; simp [Live]
  have hC : calls k (w2.log ++ [Event.returned k i]) = calls k w.log ++ [i] := by
    rw [calls_append, calls_returned, hcalls]; simp
  cases nx with
  | none =>
    intro j hj
    simp only at hj ⊢
    rw [hL] at hj
    rw [hC]
    exact ⟨i, by simp, f3 hfl j ((hw2.live j).mpr hj)⟩
  | some n' =>
    obtain ⟨g1, g2, g3⟩ := f2 n' hfl
    refine ⟨(hL n').mpr ((hw2.live n').mp g2), ?_, ?_⟩
    · intro j hj
      simp only at hj
      rw [hC] at hj
      rcases List.mem_append.mp hj with hj | hj
      · have := hc.2.1 j hj; omega
      · simp at hj; omega
    · intro j hj hjn
      simp only at hj ⊢
      rw [hL] at hj
      rw [hC]
      exact ⟨i, by simp, g3 j ((hw2.live j).mpr hj) hjn⟩

theorem loop_post (body : γ → α → Prog γ α σ) (moved : α → α) (fuel : Nat) (k : Nat) (cur : Option Nat) (a : α) (w : World γ α σ) (hw : Inv w)
    (hk : k < w.emissions) (hc : Cursor k w cur) : Post (· = k) w (emitLoop body moved fuel k cur a w) := by
  induction fuel generalizing k cur a w with
  | zero => exact Post.nil hw (.inr (.inr rfl))
  | succ fuel ih =>
    cases cur with
    | none =>
      refine Post.event (e := .finished k) rfl rfl (by simp) (by simp) rfl (hw.event _ hc (by simp) (by simp) (by simp))
    | some i =>
      unfold emitLoop
      have hli := hc.1
      have hmem := (hw.live i).mpr hli
      cases hf : w.callbacks.find? (fun n => n.1 == i) with
      | none =>
        exfalso
        rw [List.find?_eq_none] at hf
        obtain ⟨n, hn, rfl⟩ := List.mem_map.mp hmem
        exact hf n hn (by simp)
      | some n =>
        simp only
        -- the call
        have hw1 : Inv { w with log := w.log ++ [.called k i a] } :=
          hw.event _ hc (by rintro k' i' a' h; cases h; exact hk) (by simp) (by simp)
        have hexec := exec_post (fun _ => False) (fun a' => do
            let (k', b) ← start
            emitLoop body moved fuel k' b a') (by
          intro a' w2 hw2
          have hcur := start_cursor hw2
          have := ih w2.emissions (w2.callbacks.head?.map (·.1)) a' { w2 with emissions := w2.emissions + 1 } hw2.start (by simp) hcur
          rw [start_bind]
          obtain ⟨ev, a1, a2, a3, a4⟩ := this.ex
          refine ⟨⟨ev, a1, ?_, ?_, a4⟩, by have := this.emis; simp at this ⊢; omega, this.inv, this.bad, this.quiet⟩
          · intro k i a hm
            right
            rcases a2 k i a hm with rfl | h
            · omega
            · simp at h; omega
          · intro k i hm
            right
            rcases a3 k i hm with rfl | h
            · omega
            · simp at h; omega) (body n.2 a) _ hw1
        generalize hout : exec _ (body n.2 a) _ = out at hexec
        obtain ⟨ev, x1, x2, x3, x4⟩ := hexec.ex
        simp only at x1 x2 x3
        obtain ⟨r, w2⟩ := out
        replace x1 : w2.log = w.log ++ [Event.called k i a] ++ ev := x1
        have hcalls : calls k w2.log = calls k w.log ++ [i] := by
          rw [x1, calls_append, calls_append, calls_called, if_pos rfl]
          have : calls k ev = [] := by
            rw [List.eq_nil_iff_forall_not_mem]
            intro j hj
            obtain ⟨b, hb⟩ := (mem_calls _ _ _).mp hj
            rcases x2 k j b hb with h | h
            · exact h
            · omega
          simp [this]
        have hemis := hexec.emis
        have hnr : Event.returned k i ∉ ev := by
          intro h
          rcases x3 k i h with h | h
          · exact h
          · omega
        -- the post condition for outcomes that end the emission here
        have hgone : ∀ u, Inv w2 → following i w2.callbacks = none → Post (· = k) w ((.ub u : Res Unit), w2) := by
          intro u hw2 hfl
          have hnl : ¬ Live w2.log i := by rw [← hw2.live]; exact (following_spec i w2.callbacks hw2.sorted).1.mp hfl
          refine ⟨⟨[.called k i a] ++ ev, by simp [x1], ?_, ?_, .inl ⟨u, rfl⟩⟩, hemis, fun h => absurd rfl (h u), ?_, by simp⟩
          · intro k' i' a' hm
            simp at hm
            rcases hm with ⟨rfl, _⟩ | hm
            · exact .inl rfl
            · exact (x2 k' i' a' hm).imp False.elim id
          · intro k' i' hm
            simp at hm
            exact (x3 k' i' hm).imp False.elim id
          · intro _ _
            refine .inr ⟨hw2.valid, ?_⟩
            have hd : Event.disconnected i ∈ ev := by
              apply Classical.byContradiction
              intro hd
              apply hnl
              refine ⟨?_, ?_⟩
              · rw [x1]; simp [hli.1]
              · rw [x1]; simp [hd, hli.2]
            obtain ⟨e1, e2, rfl⟩ := List.append_of_mem hd
            refine ⟨w.log, k, i, a, e1, e2, by simp [x1], ?_⟩
            intro h; apply hnr; simp [h]
        cases r with
        | ok u =>
          have hw2 := hexec.inv (by simp)
          simp only at hw2
          obtain ⟨f1, f2, f3⟩ := following_spec i w2.callbacks hw2.sorted
          cases hfl : following i w2.callbacks with
          | none =>
            simp only [afterCall, hfl]
            exact hgone _ hw2 hfl
          | some nx =>
            simp only [afterCall, hfl]
            obtain ⟨hw3, hcur, _⟩ := loop_next hw hk hc hemis hw2 x1 x2 hfl
            have hrest := ih k nx (moved a) { w2 with log := w2.log ++ [.returned k i] } hw3 (by simp at hemis ⊢; omega) hcur
            refine Post.seq (r := .ok ()) (w1 := { w2 with log := w2.log ++ [.returned k i] }) ?_ rfl hrest
            refine ⟨⟨[.called k i a] ++ ev ++ [.returned k i], by simp [x1], ?_, ?_, ?_⟩, hemis, fun _ => hw3, by simp, by simp⟩
            · intro k' i' a' hm
              simp at hm
              rcases hm with ⟨rfl, _⟩ | hm
              · exact .inl rfl
              · exact (x2 k' i' a' hm).imp False.elim id
            · intro k' i' hm
              simp at hm
              rcases hm with hm | ⟨rfl, _⟩
              · exact (x3 k' i' hm).imp False.elim id
              · exact .inl rfl
            · right; right
              intro e1 k' i' a' e2 he
              rcases x4 with h | h | h
              · obtain ⟨u, hu⟩ := h; cases hu
              · cases h
              · rw [List.append_assoc] at he
                cases e1 with
                | nil =>
                  simp at he
                  obtain ⟨⟨rfl, rfl, rfl⟩, rfl⟩ := he
                  simp
                | cons b e1 =>
                  simp only [List.cons_append, List.nil_append, List.cons.injEq] at he
                  rcases split_append he.2 with ⟨m, g1, g2⟩ | ⟨m, g1, g2⟩
                  · rw [g2]; exact List.mem_append_left _ (h _ _ _ _ _ g1)
                  · exfalso
                    have : Event.called k' i' a' ∈ [Event.returned k i] := by rw [g2]; simp
                    simp at this
        | throw e =>
          have hw2 := hexec.inv (by simp)
          simp only at hw2
          obtain ⟨f1, f2, f3⟩ := following_spec i w2.callbacks hw2.sorted
          cases hfl : following i w2.callbacks with
          | none =>
            simp only [afterCall, hfl]
            exact hgone _ hw2 hfl
          | some nx =>
            simp only [afterCall, hfl]
            have hlive : Live w2.log i := by
              rw [← hw2.live]
              apply Classical.byContradiction
              intro h; rw [f1.mpr h] at hfl; cases hfl
            have hw3 : Inv { w2 with log := w2.log ++ [.returned k i] } := hw2.event _ hlive (by simp) (by simp) (by simp)
            change Post (· = k) w ((.throw e : Res Unit), { w2 with log := w2.log ++ [.returned k i] })
            refine ⟨⟨[.called k i a] ++ ev ++ [.returned k i], by simp [x1], ?_, ?_, ?_⟩, hemis, fun _ => hw3, by simp, by simp⟩
            · intro k' i' a' hm
              simp at hm
              rcases hm with ⟨rfl, _⟩ | hm
              · exact .inl rfl
              · exact (x2 k' i' a' hm).imp False.elim id
            · intro k' i' hm
              simp at hm
              rcases hm with hm | ⟨rfl, _⟩
              · exact (x3 k' i' hm).imp False.elim id
              · exact .inl rfl
            · right; right
              intro e1 k' i' a' e2 he
              rcases x4 with h | h | h
              · obtain ⟨u, hu⟩ := h; cases hu
              · cases h
              · rw [List.append_assoc] at he
                cases e1 with
                | nil =>
                  simp at he
                  obtain ⟨⟨rfl, rfl, rfl⟩, rfl⟩ := he
                  simp
                | cons b e1 =>
                  simp only [List.cons_append, List.nil_append, List.cons.injEq] at he
                  rcases split_append he.2 with ⟨m, g1, g2⟩ | ⟨m, g1, g2⟩
                  · rw [g2]; exact List.mem_append_left _ (h _ _ _ _ _ g1)
                  · exfalso
                    have : Event.called k' i' a' ∈ [Event.returned k i] := by rw [g2]; simp
                    simp at this
        | ub u =>
          change Post (· = k) w ((.ub u : Res Unit), w2)
          refine ⟨⟨[.called k i a] ++ ev, by simp [x1], ?_, ?_, .inl ⟨u, rfl⟩⟩, hemis, fun h => absurd rfl (h u), fun u' hu' => ?_, by simp⟩
          · intro k' i' a' hm
            simp at hm
            rcases hm with ⟨rfl, _⟩ | hm
            · exact .inl rfl
            · exact (x2 k' i' a' hm).imp False.elim id
          · intro k' i' hm
            simp at hm
            exact (x3 k' i' hm).imp False.elim id
          · exact hexec.bad u rfl
        | diverge =>
          change Post (· = k) w ((.diverge : Res Unit), w2)
          refine ⟨⟨[.called k i a] ++ ev, by simp [x1], ?_, ?_, .inr (.inl rfl)⟩, hemis, fun _ => hexec.inv (by simp), by simp, by simp⟩
          · intro k' i' a' hm
            simp at hm
            rcases hm with ⟨rfl, _⟩ | hm
            · exact .inl rfl
            · exact (x2 k' i' a' hm).imp False.elim id
          · intro k' i' hm
            simp at hm
            exact (x3 k' i' hm).imp False.elim id
        | abort => exact absurd rfl hexec.quiet.1
        | terminate => exact absurd rfl hexec.quiet.2

theorem emit_post (body : γ → α → Prog γ α σ) (moved : α → α) (fuel : Nat) (a : α) (w : World γ α σ) (hw : Inv w) :
    Post (fun _ => False) w (emit body moved fuel a w) := by
  have hcur := start_cursor hw
  have := loop_post body moved fuel w.emissions (w.callbacks.head?.map (·.1)) a { w with emissions := w.emissions + 1 } hw.start (by simp) hcur
  unfold emit
  rw [start_bind]
  obtain ⟨ev, a1, a2, a3, a4⟩ := this.ex
  refine ⟨⟨ev, a1, ?_, ?_, a4⟩, by have := this.emis; simp at this ⊢; omega, this.inv, this.bad, this.quiet⟩
  · intro k i a hm
    right
    rcases a2 k i a hm with rfl | h
    · omega
    · simp at h; omega
  · intro k i hm
    right
    rcases a3 k i hm with rfl | h
    · omega
    · simp at h; omega

theorem inv_new (s : σ) : Inv (new s : World γ α σ) :=
  ⟨.nil, by simp [new], by simp [new, Live], by simp [new], by simp [new], by simp [new]⟩

/-- A client of a signal: a program that connects, disconnects and emits. -/
def client (body : γ → α → Prog γ α σ) (moved : α → α) (fuel : Nat) (p : Prog γ α σ) : Meth (World γ α σ) Unit :=
  exec (emit body moved fuel) p

theorem client_post (body : γ → α → Prog γ α σ) (moved : α → α) (fuel : Nat) (p : Prog γ α σ) (s : σ) :
    Post (fun _ => False) (new s) (client body moved fuel p (new s)) :=
  exec_post _ _ (fun a w hw => emit_post body moved fuel a w hw) p _ (inv_new s)

end Signal
end Utki
