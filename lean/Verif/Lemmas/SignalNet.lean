import Verif.Spec.SignalNet
import Verif.Lemmas.Signal
/-!
# Every run of a program with several signals has a valid log
-/
namespace Utki
namespace SignalNet
open Spec.Net
variable {γ α σ : Type}

theorem history_append (t : Nat) (a b : List (Event α)) : history t (a ++ b) = history t a ++ history t b := by simp [history]

theorem history_on (t s : Nat) (e : Signal.Event α) : history t [Event.on s e] = if s = t then [e] else [] := by
  by_cases h : s = t <;> simp [history, h]

theorem history_created (t s : Nat) : history t ([.created s] : List (Event α)) = [] := rfl
theorem history_used (t s : Nat) : history t ([.used s] : List (Event α)) = [] := rfl
theorem history_destroyed (t s : Nat) : history t ([.destroyed s] : List (Event α)) = [] := rfl

theorem mem_history (t : Nat) (e : Signal.Event α) (l : List (Event α)) : e ∈ history t l ↔ .on t e ∈ l := by
  simp only [history, List.mem_filterMap]
  constructor
  · rintro ⟨x, hx, h⟩
    cases x with
    | on s e' =>
      simp only at h
      split at h
      · cases h; subst_vars; exact hx
      · cases h
    | _ => cases h
  · intro h
    exact ⟨_, h, by simp⟩

/-- The histories of the signals are valid ones. -/
theorem valid_history {l : List (Event α)} (h : Valid l) (t : Nat) : Spec.Valid (history t l) := by
  induction h with
  | nil => exact .nil
  | snoc l e hv ha ih =>
    rw [history_append]
    cases e with
    | on s e =>
      rw [history_on]
      by_cases hs : s = t
      · subst hs; rw [if_pos rfl]; exact .snoc _ _ ih ha.2.1
      · rw [if_neg hs]; simpa using ih
    | _ => simpa [history_created, history_used, history_destroyed] using ih

theorem net_valid_split {l1 l2 : List (Event α)} {e : Event α} (h : Valid (l1 ++ e :: l2)) : Valid l1 ∧ Allowed l1 e := by
  generalize hl : l1 ++ e :: l2 = l at h
  induction h generalizing l2 with
  | nil => simp at hl
  | snoc l e' hv ha ih =>
    rcases List.eq_nil_or_concat l2 with rfl | ⟨m, x, rfl⟩
    · have := List.append_inj' hl rfl
      obtain ⟨rfl, h2⟩ := this
      cases h2
      exact ⟨hv, ha⟩
    · rw [List.concat_eq_append, ← List.cons_append, ← List.append_assoc] at hl
      have := List.append_inj' hl rfl
      exact ih this.1

/-- What one signal is, seen alone. -/
def proj (w : World γ α σ) (s : Nat) (cs : List (Nat × γ)) : Signal.World γ α σ := ⟨cs, w.next, w.user, history s w.log, w.emissions⟩

theorem sig_mono {w : Signal.World γ α σ} (h : Signal.Inv w) {n m : Nat} {u : σ} (hn : w.next ≤ n) (hm : w.emissions ≤ m) :
    Signal.Inv ⟨w.callbacks, n, u, w.log, m⟩ :=
  ⟨h.valid, h.sorted, h.live, fun i hi => Nat.lt_of_lt_of_le (h.bound i hi) hn, fun i hi => Nat.lt_of_lt_of_le (h.dbound i hi) hn,
    fun k i a hi => Nat.lt_of_lt_of_le (h.emis k i a hi) hm⟩

/-- The invariant. -/
structure Inv (w : World γ α σ) : Prop where
  valid : Valid w.log
  sig : ∀ t cs, w.get t = some cs → Signal.Inv (proj w t cs)
  alive : ∀ t, (∃ cs, w.get t = some cs) ↔ Alive w.log t
  made : ∀ t, .created t ∈ w.log → t < w.sigs.length
  bound : ∀ t i, .on t (.connected i) ∈ w.log → i < w.next
  emis : ∀ t k i a, .on t (.called k i a) ∈ w.log → k < w.emissions

theorem Inv.on_made {w : World γ α σ} (h : Inv w) {t : Nat} {e : Signal.Event α} (he : .on t e ∈ w.log) : t < w.sigs.length := by
  obtain ⟨l1, l2, hl⟩ := List.append_of_mem he
  have hv := h.valid
  rw [hl] at hv
  have := (net_valid_split hv).2.1.1
  exact h.made t (by rw [hl]; simp [this])

theorem get_lt {w : World γ α σ} {s : Nat} {cs : List (Nat × γ)} (h : w.get s = some cs) : s < w.sigs.length := by
  unfold World.get at h
  refine Nat.lt_of_not_le fun hle => ?_
  rw [List.getElem?_eq_none hle] at h
  cases h

theorem get_put {w : World γ α σ} {s t : Nat} {x : Option (List (Nat × γ))} (hs : s < w.sigs.length) :
    (w.put s x).get t = if t = s then x else w.get t := by
  unfold World.put World.get
  rw [List.getElem?_set]
  by_cases h : s = t
  · subst h; simp [hs]
  · rw [if_neg h, if_neg (Ne.symm h)]

theorem new_inv (s : σ) : Inv (new s : World γ α σ) :=
  ⟨.nil, fun t cs h => by simp [new, World.get] at h, fun t => by simp [new, World.get, Alive], by simp [new], by simp [new], by simp [new]⟩

theorem Inv.user {w : World γ α σ} (h : Inv w) (u : σ) : Inv { w with user := u } :=
  ⟨h.valid, fun t cs hg => sig_mono (h.sig t cs hg) (Nat.le_refl _) (Nat.le_refl _), h.alive, h.made, h.bound, h.emis⟩

theorem Inv.emission {w : World γ α σ} (h : Inv w) : Inv { w with emissions := w.emissions + 1 } :=
  ⟨h.valid, fun t cs hg => sig_mono (h.sig t cs hg) (Nat.le_refl _) (Nat.le_succ _), h.alive, h.made, h.bound,
    fun t k i a hm => Nat.lt_succ_of_lt (h.emis t k i a hm)⟩

theorem Inv.used {w : World γ α σ} (h : Inv w) {s : Nat} {cs : List (Nat × γ)} (hg : w.get s = some cs) : Inv (w.add (.used s)) := by
  refine ⟨.snoc _ _ h.valid ((h.alive s).mp ⟨cs, hg⟩), fun t cs' hg' => ?_, fun t => ?_, fun t ht => ?_, fun t i hi => ?_, fun t k i a hm => ?_⟩
  · have := h.sig t cs' hg'
    simpa [proj, World.add, history_append, history_used] using this
  · have := h.alive t
    simpa [World.add, World.get, Alive] using this
  · exact h.made t (by simpa [World.add] using ht)
  · exact h.bound t i (by simpa [World.add] using hi)
  · exact h.emis t k i a (by simpa [World.add] using hm)

theorem Inv.created {w : World γ α σ} (h : Inv w) : Inv ({ w with sigs := w.sigs ++ [some []] }.add (.created w.sigs.length)) := by
  have hget : ∀ t, ({ w with sigs := w.sigs ++ [some []] }.add (.created w.sigs.length)).get t =
      if t = w.sigs.length then some [] else w.get t := by
    intro t
    unfold World.add World.get
    simp only
    by_cases ht : t = w.sigs.length
    · subst ht; simp
    · rw [if_neg ht]
      by_cases hlt : t < w.sigs.length
      · rw [List.getElem?_append_left hlt]
      · rw [List.getElem?_eq_none (by simp; omega), List.getElem?_eq_none (by omega)]
  have hno : ∀ e, Event.on w.sigs.length e ∉ w.log := fun e he => Nat.lt_irrefl _ (h.on_made he)
  refine ⟨.snoc _ _ h.valid h.made, fun t cs hg => ?_, fun t => ?_, fun t ht => ?_, fun t i hi => ?_, fun t k i a hm => ?_⟩
  · rw [hget] at hg
    by_cases ht : t = w.sigs.length
    · subst ht
      rw [if_pos rfl] at hg
      cases hg
      have : history w.sigs.length (w.log ++ [Event.created w.sigs.length]) = [] := by
        rw [history_append, history_created, List.append_nil, List.eq_nil_iff_forall_not_mem]
        intro e he
        exact hno e ((mem_history _ _ _).mp he)
      have e : proj ({ w with sigs := w.sigs ++ [some []] }.add (.created w.sigs.length)) w.sigs.length [] = ⟨[], w.next, w.user, [], w.emissions⟩ := by
        simp only [proj, World.add, this]
      rw [e]
      exact ⟨.nil, by simp, by simp [Spec.Live], by simp, by simp, by simp⟩
    · rw [if_neg ht] at hg
      have := h.sig t cs hg
      simpa [proj, World.add, history_append, history_created] using this
  · rw [hget]
    by_cases ht : t = w.sigs.length
    · subst ht
      have hnd : Event.destroyed w.sigs.length ∉ w.log := by
        intro he
        obtain ⟨l1, l2, hl⟩ := List.append_of_mem he
        have hv := h.valid
        rw [hl] at hv
        have := (net_valid_split hv).2.1
        exact Nat.lt_irrefl _ (h.made _ (by rw [hl]; simp [this]))
      simp [Alive, World.add, hnd]
    · rw [if_neg ht, h.alive t]
      simp [Alive, World.add, ht]
  · simp only [World.add, List.mem_append, List.mem_singleton, Event.created.injEq, List.length_append, List.length_cons, List.length_nil] at ht ⊢
    rcases ht with ht | rfl
    · have := h.made t ht; omega
    · omega
  · exact h.bound t i (by simpa [World.add] using hi)
  · exact h.emis t k i a (by simpa [World.add] using hm)

theorem Inv.destroyed {w : World γ α σ} (h : Inv w) {s : Nat} {cs : List (Nat × γ)} (hg : w.get s = some cs) : Inv ((w.put s none).add (.destroyed s)) := by
  have hget : ∀ t, ((w.put s none).add (.destroyed s)).get t = if t = s then none else w.get t := fun t => get_put (get_lt hg)
  refine ⟨.snoc _ _ h.valid ((h.alive s).mp ⟨cs, hg⟩), fun t cs' hg' => ?_, fun t => ?_, fun t ht => ?_, fun t i hi => ?_, fun t k i a hm => ?_⟩
  · rw [hget] at hg'
    by_cases ht : t = s
    · rw [if_pos ht] at hg'; cases hg'
    · rw [if_neg ht] at hg'
      have := h.sig t cs' hg'
      simpa [proj, World.add, World.put, history_append, history_destroyed] using this
  · rw [hget]
    by_cases ht : t = s
    · subst ht; simp [Alive, World.add]
    · rw [if_neg ht, h.alive t]
      simp [Alive, World.add, World.put, ht]
  · have := h.made t (by simpa [World.add, World.put] using ht)
    simpa [World.add, World.put] using this
  · exact h.bound t i (by simpa [World.add, World.put] using hi)
  · exact h.emis t k i a (by simpa [World.add, World.put] using hm)

/-- An event on one signal, which may change its callbacks. -/
theorem Inv.on {w : World γ α σ} (h : Inv w) {s : Nat} {cs cs' : List (Nat × γ)} (hg : w.get s = some cs) {e : Signal.Event α} {n : Nat}
    (hn : w.next ≤ n) (ha : Spec.Allowed (history s w.log) e) (hc : ∀ i, e = .connected i → i = w.next ∧ n = w.next + 1)
    (hi : Signal.Inv (⟨cs', n, w.user, history s w.log ++ [e], w.emissions⟩ : Signal.World γ α σ)) :
    Inv ({ w.put s (some cs') with next := n }.add (.on s e)) := by
  have hget : ∀ t, ({ w.put s (some cs') with next := n }.add (.on s e)).get t = if t = s then some cs' else w.get t := fun t => get_put (get_lt hg)
  have hal := (h.alive s).mp ⟨cs, hg⟩
  refine ⟨.snoc _ _ h.valid ⟨hal, ha, ?_⟩, fun t ds hg' => ?_, fun t => ?_, fun t ht => ?_, fun t i hi => ?_, fun t k i a hm => ?_⟩
  · rintro i hei t j hj
    rw [(hc i hei).1]
    exact h.bound t j hj
  · rw [hget] at hg'
    by_cases ht : t = s
    · subst ht
      rw [if_pos rfl] at hg'
      cases hg'
      have e : proj ({ w.put t (some cs') with next := n }.add (.on t e)) t cs' = ⟨cs', n, w.user, history t w.log ++ [e], w.emissions⟩ := by
        simp only [proj, World.add, World.put, history_append, history_on, if_pos]
      rw [e]; exact hi
    · rw [if_neg ht] at hg'
      have := sig_mono (h.sig t ds hg') (u := w.user) hn (Nat.le_refl _)
      simpa [proj, World.add, World.put, history_append, history_on, Ne.symm ht] using this
  · rw [hget]
    by_cases ht : t = s
    · subst ht
      have : Alive (w.log ++ [Event.on t e]) t := by simpa [Alive] using hal
      simp only [if_pos]
      exact ⟨fun _ => this, fun _ => ⟨_, rfl⟩⟩
    · rw [if_neg ht, h.alive t]
      simp [Alive, World.add, World.put]
  · have := h.made t (by simpa [World.add, World.put] using ht)
    simpa [World.add, World.put] using this
  · simp only [World.add, World.put, List.mem_append, List.mem_singleton, Event.on.injEq] at hi ⊢
    rcases hi with hi | ⟨_, hi⟩
    · exact Nat.lt_of_lt_of_le (h.bound t i hi) hn
    · obtain ⟨h1, h2⟩ := hc i hi.symm
      omega
  · simp only [World.add, World.put, List.mem_append, List.mem_singleton, Event.on.injEq] at hm ⊢
    rcases hm with hm | ⟨rfl, hm⟩
    · exact h.emis t k i a hm
    · exact hi.emis k i a (by simp [hm])

/-- An event on one signal that leaves its callbacks. -/
theorem Inv.event {w : World γ α σ} (h : Inv w) {s : Nat} {cs : List (Nat × γ)} (hg : w.get s = some cs) {e : Signal.Event α}
    (ha : Spec.Allowed (history s w.log) e) (he : ∀ k i a, e = .called k i a → k < w.emissions) (h1 : ∀ i, e ≠ .connected i) (h2 : ∀ i, e ≠ .disconnected i) :
    Inv (w.add (.on s e)) := by
  have := h.on hg (cs' := cs) (e := e) (Nat.le_refl _) ha (fun i hi => absurd hi (h1 i)) ((h.sig s cs hg).event e ha he h1 h2)
  have e : ({ w.put s (some cs) with next := w.next }.add (.on s e) : World γ α σ) = w.add (.on s e) := by
    have : w.sigs.set s (some cs) = w.sigs := by
      have hlt := get_lt hg
      have hg' : w.sigs[s]? = some (some cs) := by
        unfold World.get at hg
        cases hx : w.sigs[s]? with
        | none => rw [hx] at hg; cases hg
        | some y => rw [hx] at hg; simp at hg; rw [hg]
      apply List.ext_getElem?
      intro t
      rw [List.getElem?_set]
      by_cases ht : s = t
      · subst ht; rw [if_pos rfl, if_pos hlt, hg']
      · rw [if_neg ht]
    simp only [World.put, World.add, this]
  rwa [e] at this

/-! ## Runs -/

/-- Calls and returns in `ev` belong to emissions in `own` or to later ones. -/
def Fresh (own : Nat → Prop) (m : Nat) (ev : List (Event α)) : Prop :=
  (∀ t k i a, .on t (.called k i a) ∈ ev → own k ∨ m ≤ k) ∧ (∀ t k i, .on t (.returned k i) ∈ ev → own k ∨ m ≤ k)

/-- All calls in `ev` end in it. -/
def Closed (ev : List (Event α)) : Prop := ∀ e1 t k i a e2, ev = e1 ++ Event.on t (.called k i a) :: e2 → .on t (.returned k i) ∈ e2

theorem Fresh.append {own : Nat → Prop} {m n : Nat} {a b : List (Event α)} (h1 : Fresh own m a) (h2 : Fresh own n b) (hmn : m ≤ n) : Fresh own m (a ++ b) := by
  constructor
  · intro t k i x h
    rcases List.mem_append.mp h with h | h
    · exact h1.1 t k i x h
    · exact (h2.1 t k i x h).imp id (Nat.le_trans hmn)
  · intro t k i h
    rcases List.mem_append.mp h with h | h
    · exact h1.2 t k i h
    · exact (h2.2 t k i h).imp id (Nat.le_trans hmn)

theorem Closed.append {a b : List (Event α)} (h1 : Closed a) (h2 : Closed b) : Closed (a ++ b) := by
  intro e1 t k i x e2 he
  rcases Signal.split_append he with ⟨m, g1, g2⟩ | ⟨m, g1, g2⟩
  · rw [g2]; exact List.mem_append_left _ (h1 _ _ _ _ _ _ g1)
  · exact h2 _ _ _ _ _ _ g2

/-- Events that are neither the start nor the end of a call. -/
def Plain (e : Event α) : Prop := (∀ t k i a, e ≠ .on t (.called k i a)) ∧ ∀ t k i, e ≠ .on t (.returned k i)

theorem fresh_plain {own : Nat → Prop} {m : Nat} {e : Event α} (h : Plain e) : Fresh own m [e] := by
  constructor
  · intro t k i a hm; simp at hm; exact absurd hm.symm (h.1 t k i a)
  · intro t k i hm; simp at hm; exact absurd hm.symm (h.2 t k i)

theorem closed_plain {e : Event α} (h : Plain e) : Closed [e] := by
  intro e1 t k i a e2 he
  have : Event.on t (.called k i a) ∈ [e] := by rw [he]; simp
  simp at this; exact absurd this.symm (h.1 t k i a)

theorem closed_nil : Closed ([] : List (Event α)) := by intro e1 t k i a e2 he; simp at he

/-- A call from its start to its end. -/
theorem Closed.call {ev : List (Event α)} (h : Closed ev) (s k i : Nat) (a : α) : Closed (Event.on s (.called k i a) :: ev ++ [.on s (.returned k i)]) := by
  intro e1 t k' i' a' e2 he
  cases e1 with
  | nil =>
    simp only [List.cons_append, List.nil_append, List.cons.injEq, Event.on.injEq, Signal.Event.called.injEq] at he
    obtain ⟨⟨rfl, rfl, rfl, rfl⟩, rfl⟩ := he
    simp
  | cons b e1 =>
    simp only [List.cons_append, List.cons.injEq] at he
    rcases Signal.split_append he.2 with ⟨m, g1, g2⟩ | ⟨m, g1, g2⟩
    · rw [g2]; exact List.mem_append_left _ (h _ _ _ _ _ _ g1)
    · exfalso
      have : Event.on t (.called k' i' a') ∈ [Event.on s (.returned k i)] := by rw [g2]; simp
      simp at this

/-- Outcomes after which the program does not go on. -/
def Stuck (r : Res Unit) : Prop := (∃ u, r = .ub u) ∨ r = .diverge ∨ r = .abort

/-- What every piece of a program does to the world. `own` are the emissions that may be continued. -/
structure Post (dbg : Bool) (own : Nat → Prop) (w : World γ α σ) (out : Res Unit × World γ α σ) : Prop where
  ex : ∃ ev, out.2.log = w.log ++ ev ∧ Fresh own w.emissions ev ∧ (Stuck out.1 ∨ Closed ev)
  emis : w.emissions ≤ out.2.emissions
  inv : (∀ u, out.1 ≠ .ub u) → Inv out.2
  bad : ∀ u, out.1 = .ub u → Misuse out.2.log ∨ (Valid out.2.log ∧ PulledAway out.2.log)
  abort : out.1 = .abort → dbg = true ∧ DestroyedConnected out.2.log
  quiet : out.1 ≠ .terminate

theorem Post.seq {dbg : Bool} {own : Nat → Prop} {w w1 : World γ α σ} {out : Res Unit × World γ α σ} (h1 : Post dbg own w (.ok (), w1))
    (h2 : Post dbg own w1 out) : Post dbg own w out := by
  obtain ⟨ev1, a1, a2, a3⟩ := h1.ex
  obtain ⟨ev2, b1, b2, b3⟩ := h2.ex
  have he := h1.emis
  simp only at a1 he
  refine ⟨⟨ev1 ++ ev2, by rw [b1, a1, List.append_assoc], a2.append b2 he, ?_⟩, Nat.le_trans he h2.emis, h2.inv, h2.bad, h2.abort, h2.quiet⟩
  have hc : Closed ev1 := a3.resolve_left (by rintro (⟨u, h⟩ | h | h) <;> cases h)
  exact b3.imp id hc.append

/-- A step that notes one plain event. -/
theorem Post.event {dbg : Bool} {own : Nat → Prop} {w w1 : World γ α σ} {e : Event α} (hi : Inv w1) (hl : w1.log = w.log ++ [e])
    (he : w1.emissions = w.emissions) (h : Plain e) : Post dbg own w (.ok (), w1) :=
  ⟨⟨[e], hl, fresh_plain h, .inr (closed_plain h)⟩, by simp [he], fun _ => hi, by simp, by simp, by simp⟩

theorem Post.nil {dbg : Bool} {own : Nat → Prop} {w : World γ α σ} {r : Res Unit} (hi : Inv w) (hr : (r = .ok ()) ∨ (∃ e, r = .throw e) ∨ r = .diverge) :
    Post dbg own w (r, w) := by
  refine ⟨⟨[], by simp, ⟨by simp, by simp⟩, .inr closed_nil⟩, Nat.le_refl _, fun _ => hi, ?_, ?_, ?_⟩
  · intro u hu; rcases hr with rfl | ⟨e, rfl⟩ | rfl <;> cases hu
  · intro hu; rcases hr with rfl | ⟨e, rfl⟩ | rfl <;> cases hu
  · intro hu; rcases hr with rfl | ⟨e, rfl⟩ | rfl <;> cases hu

theorem bind_post {dbg : Bool} {own : Nat → Prop} {w : World γ α σ} {m : Meth (World γ α σ) Unit} {f : Unit → Meth (World γ α σ) Unit}
    (h1 : Post dbg own w (m w)) (h2 : ∀ w1, Inv w1 → Post dbg own w1 (f () w1)) : Post dbg own w ((m >>= f) w) := by
  rw [Meth.bind_apply, Meth.bind]
  generalize m w = o at h1
  obtain ⟨r, w1⟩ := o
  cases r with
  | ok a => exact h1.seq (h2 w1 (h1.inv (by simp)))
  | _ => exact h1

theorem plain_used (s : Nat) : Plain (.used s : Event α) := ⟨by simp, by simp⟩

/-- Using a signal that does not exist. -/
theorem use_dead {dbg : Bool} {own : Nat → Prop} {w : World γ α σ} (hw : Inv w) {s : Nat} (hg : w.get s = none) (u : UB) :
    Post dbg own w (.ub u, w.add (.used s)) := by
  refine ⟨⟨[.used s], rfl, fresh_plain (plain_used s), .inl (.inl ⟨u, rfl⟩)⟩, Nat.le_refl _, fun h => absurd rfl (h u), fun _ _ => .inl ?_, by simp, by simp⟩
  refine ⟨w.log, s, hw.valid, .inl ⟨rfl, ?_⟩⟩
  rw [← hw.alive]
  rintro ⟨cs, h⟩
  rw [hg] at h; cases h

/-- A member function that begins with `use` and does not change anything before. -/
theorem use_bind {β : Type} (s : Nat) (f : List (Nat × γ) → Meth (World γ α σ) β) (w : World γ α σ) : (use s >>= f) w =
    match w.get s with
    | some cs => f cs (w.add (.used s))
    | none => (.ub .use_after_free, w.add (.used s)) := by
  rw [Meth.bind_apply, Meth.bind, use]
  cases w.get s <;> rfl

theorem get_add (w : World γ α σ) (e : Event α) (t : Nat) : (w.add e).get t = w.get t := rfl

theorem destroy_eq (dbg : Bool) (s : Nat) (w : World γ α σ) : destroy dbg s w =
    match w.get s with
    | some cs => if dbg = true ∧ cs ≠ [] then (.abort, w.add (.used s)) else (.ok (), ((w.add (.used s)).put s none).add (.destroyed s))
    | none => (.ub .use_after_free, w.add (.used s)) := by
  show Meth.bind (use s) _ w = _
  unfold Meth.bind use
  cases w.get s with
  | none => rfl
  | some cs =>
    cases dbg with
    | false => simp; rfl
    | true =>
      cases cs with
      | nil => simp; rfl
      | cons n l => simp; rfl

theorem destroy_post {dbg : Bool} {own : Nat → Prop} (s : Nat) (w : World γ α σ) (hw : Inv w) : Post dbg own w (destroy dbg s w) := by
  rw [destroy_eq]
  cases hg : w.get s with
  | none => exact use_dead hw hg _
  | some cs =>
    have h1 := hw.used hg
    refine Post.seq (Post.event h1 rfl rfl (plain_used s)) ?_
    simp only
    by_cases ha : dbg = true ∧ cs ≠ []
    · rw [if_pos ha]
      obtain ⟨rfl, hne⟩ := ha
      have hi := hw.sig s cs hg
      obtain ⟨n, l, rfl⟩ := List.exists_cons_of_ne_nil hne
      refine ⟨⟨[], by simp, ⟨by simp, by simp⟩, .inr closed_nil⟩, Nat.le_refl _, fun _ => h1, by simp, fun _ => ⟨rfl, ?_⟩, by simp⟩
      exact ⟨w.log, s, n.1, rfl, hw.valid, (hw.alive s).mp ⟨_, hg⟩, (hi.live n.1).mp (by simp [proj])⟩
    · rw [if_neg ha]
      exact Post.event (h1.destroyed hg) rfl rfl ⟨by simp, by simp⟩

theorem connect_post {dbg : Bool} {own : Nat → Prop} (s : Nat) (c : γ) (f : Nat → Meth (World γ α σ) Unit)
    (hf : ∀ i w, Inv w → Post dbg own w (f i w)) (w : World γ α σ) (hw : Inv w) : Post dbg own w ((connect s c >>= f) w) := by
  have e : (connect s c >>= f) w = match w.get s with
      | some cs => f w.next ({ (w.add (.used s)).put s (some (cs ++ [(w.next, c)])) with next := w.next + 1 }.add (.on s (.connected w.next)))
      | none => (.ub .use_after_free, w.add (.used s)) := by
    show Meth.bind (Meth.bind (use s) _) f w = _
    unfold Meth.bind use
    cases w.get s <;> rfl
  rw [e]
  cases hg : w.get s with
  | none => exact use_dead hw hg _
  | some cs =>
    have h1 := hw.used hg
    have hs := (h1.sig s cs hg).connect c
    have hb : ∀ j, Signal.Event.connected j ∈ history s (w.add (.used s)).log → j < w.next := (h1.sig s cs hg).bound
    have hd : Signal.Event.disconnected w.next ∉ history s (w.add (.used s)).log := fun hx => Nat.lt_irrefl _ ((h1.sig s cs hg).dbound _ hx)
    have h2 : Inv ({ (w.add (.used s)).put s (some (cs ++ [(w.next, c)])) with next := w.next + 1 }.add (.on s (.connected w.next))) :=
      h1.on (n := w.next + 1) hg (Nat.le_succ _) ⟨hb, hd⟩ (fun i hi => by cases hi; exact ⟨rfl, rfl⟩) hs
    exact Post.seq (Post.event h1 rfl rfl (plain_used s)) (Post.seq (Post.event h2 rfl rfl ⟨by simp, by simp⟩) (hf _ _ h2))

theorem disconnect_eq (s i : Nat) (w : World γ α σ) : disconnect s i w =
    match w.get s with
    | some cs =>
      if cs.any (fun n => n.1 == i) = true then (.ok (), ((w.add (.used s)).put s (some (cs.filter (fun n => n.1 != i)))).add (.on s (.disconnected i)))
      else (.ub .use_after_free, (w.add (.used s)).add (.on s (.disconnected i)))
    | none => (.ub .use_after_free, w.add (.used s)) := by
  show Meth.bind (use s) _ w = _
  unfold Meth.bind use
  cases w.get s with
  | none => rfl
  | some cs =>
    simp only
    cases cs.any (fun n => n.1 == i) <;> rfl

theorem disconnect_post {dbg : Bool} {own : Nat → Prop} (s i : Nat) (w : World γ α σ) (hw : Inv w) : Post dbg own w (disconnect s i w) := by
  rw [disconnect_eq]
  cases hg : w.get s with
  | none => exact use_dead hw hg _
  | some cs =>
    have h1 := hw.used hg
    refine Post.seq (Post.event h1 rfl rfl (plain_used s)) ?_
    have hi := h1.sig s cs hg
    have hany := Signal.any_iff (proj (w.add (.used s)) s cs) i
    simp only
    by_cases hc : cs.any (fun n => n.1 == i) = true
    · rw [if_pos hc]
      have hl : Spec.Live (history s (w.add (.used s)).log) i := (hi.live i).mp (hany.mp hc)
      exact Post.event (h1.on hg (Nat.le_refl _) hl (by simp) (hi.disconnect i hl)) rfl rfl ⟨by simp, by simp⟩
    · rw [if_neg hc]
      refine ⟨⟨[.on s (.disconnected i)], rfl, fresh_plain ⟨by simp, by simp⟩, .inl (.inl ⟨_, rfl⟩)⟩, Nat.le_refl _, fun h => absurd rfl (h _),
        fun _ _ => .inl ?_, by simp, by simp⟩
      refine ⟨(w.add (.used s)).log, s, h1.valid, .inr ⟨i, rfl, ?_⟩⟩
      intro hl
      exact hc (hany.mpr ((hi.live i).mpr hl))

theorem exec_post (dbg : Bool) (own : Nat → Prop) (emitF : Nat → α → Meth (World γ α σ) Unit) (he : ∀ s a w, Inv w → Post dbg own w (emitF s a w)) (p : Prog γ α σ)
    (w : World γ α σ) (hw : Inv w) : Post dbg own w (exec dbg emitF p w) := by
  induction p generalizing w with
  | ret => exact Post.nil hw (.inl rfl)
  | throw e => exact Post.nil hw (.inr (.inl ⟨e, rfl⟩))
  | upd f k ih =>
    have := ih _ (hw.user (f w.user))
    exact ⟨this.ex, this.emis, this.inv, this.bad, this.abort, this.quiet⟩
  | read k ih => exact ih _ w hw
  | create k ih =>
    have h1 := hw.created
    exact Post.seq (Post.event h1 rfl rfl ⟨by simp, by simp⟩) (ih _ _ h1)
  | destroy s k ih => exact bind_post (destroy_post s w hw) ih
  | connect s c k ih => exact connect_post s c _ ih w hw
  | disconnect s i k ih => exact bind_post (disconnect_post s i w hw) ih
  | emit s a k ih => exact bind_post (he s a w hw) ih

/-- The iterator of emission `k` of the signal `s` is at the first connected callback behind those called. -/
def Cursor (s k : Nat) (w : World γ α σ) (cur : Option Nat) : Prop := ∃ cs, w.get s = some cs ∧ Signal.Cursor k (proj w s cs) cur

theorem start_post {dbg : Bool} (s : Nat) (f : Nat × Option Nat → Meth (World γ α σ) Unit) (w : World γ α σ) (hw : Inv w)
    (hf : ∀ k cur w, Inv w → k < w.emissions → Cursor s k w cur → Post dbg (· = k) w (f (k, cur) w)) : Post dbg (fun _ => False) w ((start s >>= f) w) := by
  have e : (start s >>= f) w = match w.get s with
      | some cs => f (w.emissions, cs.head?.map (·.1)) { w.add (.used s) with emissions := w.emissions + 1 }
      | none => (.ub .use_after_free, w.add (.used s)) := by
    show Meth.bind (Meth.bind (use s) _) f w = _
    unfold Meth.bind use
    cases w.get s <;> rfl
  rw [e]
  cases hg : w.get s with
  | none => exact use_dead hw hg _
  | some cs =>
    have h1 := hw.used hg
    refine Post.seq (Post.event h1 rfl rfl (plain_used s)) ?_
    have hc : Cursor s w.emissions ({ w.add (.used s) with emissions := w.emissions + 1 } : World γ α σ) (cs.head?.map (·.1)) :=
      ⟨cs, hg, Signal.start_cursor (h1.sig s cs hg)⟩
    have := hf w.emissions (cs.head?.map (·.1)) { w.add (.used s) with emissions := w.emissions + 1 } h1.emission (Nat.lt_succ_self _) hc
    obtain ⟨ev, a1, a2, a3⟩ := this.ex
    refine ⟨⟨ev, a1, ⟨?_, ?_⟩, a3⟩, Nat.le_trans (Nat.le_succ _) this.emis, this.inv, this.bad, this.abort, this.quiet⟩
    · intro t k i a hm
      right
      rcases a2.1 t k i a hm with rfl | h
      · exact Nat.le_refl _
      · exact Nat.le_trans (Nat.le_succ _) h
    · intro t k i hm
      right
      rcases a2.2 t k i hm with rfl | h
      · exact Nat.le_refl _
      · exact Nat.le_trans (Nat.le_succ _) h

/-- If a callback and its signal are still there after its call, the iterator goes to the right one. -/
theorem call_next {w w2 : World γ α σ} {s k i : Nat} {a : α} {ev : List (Event α)} {nx : Option Nat} (hw : Inv w) (hk : k < w.emissions)
    (hcu : Cursor s k w (some i)) (hemis : w.emissions ≤ w2.emissions) (hw2 : Inv w2) (x1 : w2.log = w.log ++ [Event.on s (.called k i a)] ++ ev)
    (x2 : ∀ t k i a, .on t (.called k i a) ∈ ev → w.emissions ≤ k) (hfl : (w2.get s).bind (Signal.following i) = some nx) :
    Inv (w2.add (.on s (.returned k i))) ∧ Cursor s k (w2.add (.on s (.returned k i))) nx := by
  obtain ⟨cs, hg, hc⟩ := hcu
  cases hg2 : w2.get s with
  | none => rw [hg2] at hfl; cases hfl
  | some cs2 =>
    rw [hg2, Option.bind_some] at hfl
    have hh : history s w2.log = history s w.log ++ [Signal.Event.called k i a] ++ history s ev := by
      rw [x1, history_append, history_append, history_on, if_pos rfl]
    obtain ⟨h3, hcur, _⟩ := Signal.loop_next (w := proj w s cs) (w2 := proj w2 s cs2) (k := k) (i := i) (a := a) (ev := history s ev) (nx := nx)
      (hw.sig s cs hg) hk hc hemis (hw2.sig s cs2 hg2) hh (fun k' i' a' hm => .inr (x2 s k' i' a' ((mem_history _ _ _).mp hm))) hfl
    have hlive : Spec.Live (history s w2.log) i := by
      have := Signal.following_spec i cs2 (hw2.sig s cs2 hg2).sorted
      refine ((hw2.sig s cs2 hg2).live i).mp ?_
      apply Classical.byContradiction
      intro h; rw [this.1.mpr h] at hfl; cases hfl
    refine ⟨hw2.event hg2 hlive (by simp) (by simp) (by simp), cs2, hg2, ?_⟩
    have e : proj (w2.add (.on s (.returned k i))) s cs2 = { proj w2 s cs2 with log := (proj w2 s cs2).log ++ [.returned k i] } := by
      simp only [proj, World.add, history_append, history_on, if_pos]
    rw [e]; exact hcur

theorem loop_post (dbg : Bool) (body : γ → α → Prog γ α σ) (moved : α → α) (fuel : Nat) (s k : Nat) (cur : Option Nat) (a : α) (w : World γ α σ) (hw : Inv w)
    (hk : k < w.emissions) (hcu : Cursor s k w cur) : Post dbg (· = k) w (emitLoop dbg body moved fuel s k cur a w) := by
  induction fuel generalizing s k cur a w with
  | zero => exact Post.nil hw (.inr (.inr rfl))
  | succ fuel ih =>
    obtain ⟨cs, hg, hc⟩ := hcu
    cases cur with
    | none =>
      exact Post.event (hw.event hg hc (by simp) (by simp) (by simp)) rfl rfl ⟨by simp, by simp⟩
    | some i =>
      unfold emitLoop
      have hli : Spec.Live (history s w.log) i := hc.1
      have hmem : i ∈ cs.map (·.1) := ((hw.sig s cs hg).live i).mpr hli
      rw [hg]
      cases hf : cs.find? (fun n => n.1 == i) with
      | none =>
        exfalso
        rw [List.find?_eq_none] at hf
        obtain ⟨n, hn, rfl⟩ := List.mem_map.mp hmem
        exact hf n hn (by simp)
      | some n =>
        simp only [Option.bind_some, hf]
        have hw1 : Inv (w.add (.on s (.called k i a))) := hw.event hg hc (by rintro k' i' a' h; cases h; exact hk) (by simp) (by simp)
        have hexec := exec_post dbg (fun _ => False) (fun s' a' => do
            let (k', b) ← start s'
            emitLoop dbg body moved fuel s' k' b a')
          (fun s' a' w2 hw2 => start_post s' _ w2 hw2 (fun k' cur' w3 h3 hk' hc' => ih s' k' cur' a' w3 h3 hk' hc')) (body n.2 a) _ hw1
        generalize exec dbg _ (body n.2 a) _ = out at hexec
        obtain ⟨ev, x1, x2, x3⟩ := hexec.ex
        obtain ⟨r, w2⟩ := out
        replace x1 : w2.log = w.log ++ [Event.on s (.called k i a)] ++ ev := x1
        have hemis : w.emissions ≤ w2.emissions := hexec.emis
        have hfr : Fresh (· = k) w.emissions (Event.on s (.called k i a) :: ev) := by
          constructor
          · intro t k' i' a' hm
            rcases List.mem_cons.mp hm with hm | hm
            · cases hm; exact .inl rfl
            · exact (x2.1 t k' i' a' hm).imp False.elim id
          · intro t k' i' hm
            rcases List.mem_cons.mp hm with hm | hm
            · cases hm
            · exact (x2.2 t k' i' hm).imp False.elim id
        have hfr' : Fresh (· = k) w.emissions (Event.on s (.called k i a) :: ev ++ [.on s (.returned k i)]) := by
          refine hfr.append (n := w.emissions) ⟨by simp, ?_⟩ (Nat.le_refl _)
          intro t k' i' hm
          simp only [List.mem_singleton, Event.on.injEq, Signal.Event.returned.injEq] at hm
          exact .inl hm.2.1
        have hnr : Event.on s (.returned k i) ∉ ev := by
          intro h
          rcases x2.2 s k i h with h | h
          · exact h
          · have : w.emissions ≤ k := h
            omega
        -- if the callback or the signal is gone
        have hgone : ∀ u, Inv w2 → (w2.get s).bind (Signal.following i) = none → Post dbg (· = k) w ((.ub u : Res Unit), w2) := by
          intro u hw2 hfl
          refine ⟨⟨Event.on s (.called k i a) :: ev, by simp [x1], hfr, .inl (.inl ⟨u, rfl⟩)⟩, hemis, fun h => absurd rfl (h u), fun _ _ => .inr ⟨hw2.valid, ?_⟩,
            by simp, by simp⟩
          have hex : ∃ e ∈ ev, e = .on s (.disconnected i) ∨ e = .destroyed s := by
            cases hg2 : w2.get s with
            | none =>
              have hal := (hw.alive s).mp ⟨cs, hg⟩
              have hna : ¬ Alive w2.log s := by rw [← hw2.alive]; rintro ⟨c, h⟩; rw [hg2] at h; cases h
              refine ⟨.destroyed s, ?_, .inr rfl⟩
              apply Classical.byContradiction
              intro hd
              apply hna
              refine ⟨by rw [x1]; simp [hal.1], by rw [x1]; simp [hd, hal.2]⟩
            | some cs2 =>
              rw [hg2, Option.bind_some] at hfl
              have hi2 := hw2.sig s cs2 hg2
              have hnl : ¬ Spec.Live (history s w2.log) i := by
                intro h
                exact (Signal.following_spec i cs2 hi2.sorted).1.mp hfl ((hi2.live i).mpr h)
              refine ⟨.on s (.disconnected i), ?_, .inl rfl⟩
              apply Classical.byContradiction
              intro hd
              apply hnl
              refine ⟨?_, ?_⟩
              · rw [mem_history, x1]; simp [(mem_history _ _ _).mp hli.1]
              · rw [mem_history, x1]
                have := hli.2
                rw [mem_history] at this
                simp [hd, this]
          obtain ⟨e, hm, he⟩ := hex
          obtain ⟨e1, e2, rfl⟩ := List.append_of_mem hm
          refine ⟨w.log, s, k, i, a, e1, e, e2, by simp [x1], ?_, he⟩
          intro h; apply hnr; simp [h]
        have hnext : ∀ nx, Inv w2 → (w2.get s).bind (Signal.following i) = some nx →
            Inv (w2.add (.on s (.returned k i))) ∧ Cursor s k (w2.add (.on s (.returned k i))) nx := fun nx hw2 hfl =>
          call_next hw hk ⟨cs, hg, hc⟩ hemis hw2 x1 (fun t k' i' a' hm => (x2.1 t k' i' a' hm).resolve_left id) hfl
        cases r with
        | ok u =>
          have hw2 : Inv w2 := hexec.inv (by simp)
          cases hfl : (w2.get s).bind (Signal.following i) with
          | none =>
            simp only [afterCall, hfl]
            exact hgone _ hw2 hfl
          | some nx =>
            simp only [afterCall, hfl]
            obtain ⟨hw3, hcur⟩ := hnext nx hw2 hfl
            have hrest := ih s k nx (moved a) _ hw3 (Nat.lt_of_lt_of_le hk hemis) hcur
            refine Post.seq (w1 := w2.add (.on s (.returned k i))) ?_ hrest
            refine ⟨⟨Event.on s (.called k i a) :: ev ++ [.on s (.returned k i)], by simp [World.add, x1], hfr', .inr ?_⟩, hemis, fun _ => hw3, by simp, by simp, by simp⟩
            exact (x3.resolve_left (by rintro (⟨u, h⟩ | h | h) <;> cases h)).call s k i a
        | throw e =>
          have hw2 : Inv w2 := hexec.inv (by simp)
          cases hfl : (w2.get s).bind (Signal.following i) with
          | none =>
            simp only [afterCall, hfl]
            exact hgone _ hw2 hfl
          | some nx =>
            simp only [afterCall, hfl]
            obtain ⟨hw3, hcur⟩ := hnext nx hw2 hfl
            change Post dbg (· = k) w ((.throw e : Res Unit), w2.add (.on s (.returned k i)))
            refine ⟨⟨Event.on s (.called k i a) :: ev ++ [.on s (.returned k i)], by simp [World.add, x1], hfr', .inr ?_⟩, hemis, fun _ => hw3, by simp, by simp, by simp⟩
            exact (x3.resolve_left (by rintro (⟨u, h⟩ | h | h) <;> cases h)).call s k i a
        | ub u =>
          change Post dbg (· = k) w ((.ub u : Res Unit), w2)
          exact ⟨⟨Event.on s (.called k i a) :: ev, by simp [x1], hfr, .inl (.inl ⟨u, rfl⟩)⟩, hemis, fun h => absurd rfl (h u), fun _ _ => hexec.bad u rfl, by simp, by simp⟩
        | diverge =>
          change Post dbg (· = k) w ((.diverge : Res Unit), w2)
          exact ⟨⟨Event.on s (.called k i a) :: ev, by simp [x1], hfr, .inl (.inr (.inl rfl))⟩, hemis, fun _ => hexec.inv (by simp), by simp, by simp, by simp⟩
        | abort =>
          change Post dbg (· = k) w ((.abort : Res Unit), w2)
          exact ⟨⟨Event.on s (.called k i a) :: ev, by simp [x1], hfr, .inl (.inr (.inr rfl))⟩, hemis, fun _ => hexec.inv (by simp), by simp, fun _ => hexec.abort rfl, by simp⟩
        | terminate => exact absurd rfl hexec.quiet

theorem emit_post (dbg : Bool) (body : γ → α → Prog γ α σ) (moved : α → α) (fuel : Nat) (s : Nat) (a : α) (w : World γ α σ) (hw : Inv w) :
    Post dbg (fun _ => False) w (emit dbg body moved fuel s a w) :=
  start_post s _ w hw (fun k cur w1 h1 hk hc => loop_post dbg body moved fuel s k cur a w1 h1 hk hc)

theorem program_post (dbg : Bool) (body : γ → α → Prog γ α σ) (moved : α → α) (fuel : Nat) (p : Prog γ α σ) (u : σ) :
    Post dbg (fun _ => False) (new u) (program dbg body moved fuel p (new u)) :=
  exec_post _ _ _ (fun s a w hw => emit_post dbg body moved fuel s a w hw) p _ (new_inv u)

end SignalNet
end Utki
