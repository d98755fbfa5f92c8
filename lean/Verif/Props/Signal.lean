import Verif.Lemmas.Signal
/-!
# Properties of `signal` (C55, C56, C57)

A client is any program that connects, disconnects and emits (`Prog`); callbacks are such programs as well, they may use the
signal while being called. `Signal.client body moved fuel p` runs it. The theorems speak about the log of events of a run, read with
the definitions of `Spec/Signal.lean`.
-/
namespace Utki
open Signal Spec
variable {γ α σ : Type}

theorem valid_split {l1 l2 : List (Event α)} {e : Event α} (h : Valid (l1 ++ e :: l2)) : Valid l1 ∧ Allowed l1 e := by
  generalize hl : l1 ++ e :: l2 = l at h
  induction h generalizing l2 with
  | nil => simp at hl
  | snoc l e' hv ha ih =>
    rcases List.eq_nil_or_concat l2 with rfl | ⟨m, x, rfl⟩
    · have := List.append_inj' hl rfl
      obtain ⟨rfl, h2⟩ := this
      cases h2
      exact ⟨hv, ha⟩
    · rw [List.concat_eq_append, ← List.cons_append, ← List.append_assoc] at hl
      have := List.append_inj' hl rfl
      exact ih this.1

theorem calls_sorted {l : List (Event α)} (h : Valid l) (k : Nat) : (calls k l).Pairwise (· < ·) := by
  induction h with
  | nil => simp [calls_nil]
  | snoc l e hv ha ih =>
    rw [calls_append]
    cases e with
    | called m i a =>
      rw [calls_called]
      by_cases hm : m = k
      · subst hm
        rw [if_pos rfl, List.pairwise_append]
        refine ⟨ih, by simp, ?_⟩
        intro j hj b hb
        simp at hb; subst hb
        exact ha.2.1 j hj
      · simpa [hm] using ih
    | _ => simpa [calls_connected, calls_disconnected, calls_returned, calls_finished] using ih

theorem live_called {l : List (Event α)} (h : Valid l) (k : Nat) :
    ∀ i m, i ≤ m → m ∈ calls k l → Live l i → i ∈ calls k l := by
  induction h with
  | nil => intro i m _ hm; simp [calls_nil] at hm
  | snoc l e hv ha ih =>
    intro i m him hm hl
    have hl' : Live l i ∨ e = .connected i := by
      obtain ⟨h1, h2⟩ := hl
      rw [List.mem_append, List.mem_singleton] at h1
      rw [List.mem_append] at h2
      rcases h1 with h1 | h1
      · exact .inl ⟨h1, fun h => h2 (.inl h)⟩
      · exact .inr h1.symm
    have hconn : ∀ j, j ∈ calls k l → Event.connected j ∈ l := by
      intro j hj
      obtain ⟨a, h⟩ := (mem_calls _ _ _).mp hj
      obtain ⟨l1, l2, rfl⟩ := List.append_of_mem h
      have := (valid_split hv).2.1.1
      simp [this]
    rw [calls_append, List.mem_append] at hm ⊢
    rcases hl' with hl' | rfl
    · rcases hm with hm | hm
      · exact .inl (ih i m him hm hl')
      · cases e with
        | called k' i' a =>
          rw [calls_called] at hm ⊢
          by_cases hk : k' = k
          · subst hk
            simp at hm; subst hm
            by_cases e : i = m
            · right; simp [e]
            · left
              obtain ⟨m', h1, h2⟩ := ha.2.2 i hl' (by omega)
              exact ih i m' h2 h1 hl'
          · simp [hk] at hm
        | _ => simp [calls_connected, calls_disconnected, calls_returned, calls_finished] at hm
    · rw [calls_connected] at hm
      simp at hm
      have := ha.1 m (hconn m hm)
      omega

/-! ## C55 -/

/-- The state of a signal in the course of a run of a client. -/
def Reachable (body : γ → α → Prog γ α σ) (moved : α → α) (w : World γ α σ) : Prop :=
  ∃ fuel p s, client body moved fuel p (new s) = (.ok (), w)

theorem reachable_inv {body : γ → α → Prog γ α σ} {moved : α → α} {w : World γ α σ} (h : Reachable body moved w) : Inv w := by
  obtain ⟨fuel, p, s, h⟩ := h
  have := (client_post body moved fuel p s).inv (by rw [h]; simp)
  rw [h] at this; exact this

/-- C55: after any run of a client, `size()` counts the callbacks connected and not disconnected, and `empty()` is true exactly if
there are none; the destructor is silent exactly then. -/
theorem C55_size (body : γ → α → Prog γ α σ) (moved : α → α) (fuel : Nat) (p : Prog γ α σ) (s : σ) (r : Res Unit) (w : World γ α σ)
    (h : client body moved fuel p (new s) = (r, w)) (hr : ∀ u, r ≠ .ub u) :
    (∃ ids : List Nat, ids.Nodup ∧ (∀ i, i ∈ ids ↔ Live w.log i) ∧ size w = ids.length) ∧ (empty w = true ↔ ∀ i, ¬ Live w.log i) ∧
    (destroy true w = .ok () ↔ ∀ i, ¬ Live w.log i) ∧ ((∃ i, Live w.log i) → destroy true w = .abort) := by
  have hi := (client_post body moved fuel p s).inv (by rw [h]; exact hr)
  rw [h] at hi; simp only at hi
  have hE : empty w = true ↔ ∀ i, ¬ Live w.log i := by
    simp only [← hi.live]
    cases hc : w.callbacks with
    | nil => simp [empty, size, hc]
    | cons n l =>
      simp only [empty, size, hc, List.length_cons, beq_iff_eq, Nat.add_eq_zero_iff]
      constructor
      · omega
      · intro h; exact absurd (by simp) (h n.1)
  refine ⟨⟨w.callbacks.map (·.1), ?_, hi.live, by simp [size]⟩, hE, ?_, ?_⟩
  · exact hi.sorted.imp (fun h => Nat.ne_of_lt h)
  · rw [← hE]; unfold destroy; cases empty w <;> simp
  · rintro ⟨i, hi⟩
    have : empty w = false := by
      cases he : empty w
      · rfl
      · exact absurd hi (hE.mp he i)
    simp [destroy, this]

/-- C55: an emission during which nothing is connected or disconnected calls exactly the callbacks that were connected when it
began, each once, in the order of their ids. -/
theorem C55_emit (body : γ → α → Prog γ α σ) (moved : α → α) (fuel : Nat) (p : Prog γ α σ) (s : σ) (r : Res Unit) (w : World γ α σ)
    (h : client body moved fuel p (new s) = (r, w)) (hr : ∀ u, r ≠ .ub u) (k : Nat) (l1 l2 l3 : List (Event α))
    (hl : w.log = l1 ++ l2 ++ Event.finished k :: l3) (h1 : calls k l1 = [])
    (h2 : ∀ i, Event.connected i ∉ l2 ∧ Event.disconnected i ∉ l2) :
    (calls k l2).Pairwise (· < ·) ∧ ∀ i, i ∈ calls k l2 ↔ Live l1 i := by
  have hi := (client_post body moved fuel p s).inv (by rw [h]; exact hr)
  rw [h] at hi; simp only at hi
  have hv := hi.valid
  rw [hl] at hv
  obtain ⟨v1, v2⟩ := valid_split hv
  have hc : calls k (l1 ++ l2) = calls k l2 := by rw [calls_append, h1]; rfl
  have hL : ∀ i, Live (l1 ++ l2) i ↔ Live l1 i := by
    intro i; simp [Live, (h2 i).1, (h2 i).2]
  refine ⟨by rw [← hc]; exact calls_sorted v1 k, ?_⟩
  intro i
  constructor
  · intro hm
    obtain ⟨a, ha⟩ := (mem_calls _ _ _).mp hm
    obtain ⟨m1, m2, rfl⟩ := List.append_of_mem ha
    rw [← List.append_assoc] at v1
    have := (valid_split v1).2.1
    have hn : ∀ j, Event.connected j ∉ m1 ∧ Event.disconnected j ∉ m1 :=
      fun j => ⟨fun h => (h2 j).1 (by simp [h]), fun h => (h2 j).2 (by simp [h])⟩
    simpa [Live, (hn i).1, (hn i).2] using this
  · intro hlive
    obtain ⟨m, g1, g2⟩ := v2 i ((hL i).mpr hlive)
    have := live_called v1 k i m g2 g1 ((hL i).mpr hlive)
    rwa [hc] at this

/-- C55: ids are given in the order of connection and never again. -/
theorem C55_ids (body : γ → α → Prog γ α σ) (moved : α → α) (fuel : Nat) (p : Prog γ α σ) (s : σ) (r : Res Unit) (w : World γ α σ)
    (h : client body moved fuel p (new s) = (r, w)) (hr : ∀ u, r ≠ .ub u) (i j : Nat) (l1 l2 l3 : List (Event α))
    (hl : w.log = l1 ++ Event.connected i :: l2 ++ Event.connected j :: l3) : i < j ∧ Event.disconnected j ∉ l1 ++ Event.connected i :: l2 := by
  have hi := (client_post body moved fuel p s).inv (by rw [h]; exact hr)
  rw [h] at hi; simp only at hi
  have hv := hi.valid
  rw [hl] at hv
  have := (valid_split hv).2
  exact ⟨this.1 i (by simp), this.2⟩

/-- C55: the connection id given by `connect` is the one its callback is called under; disconnecting an id leaves exactly
the other callbacks connected. -/
theorem C55_disconnect (body : γ → α → Prog γ α σ) (moved : α → α) (w : World γ α σ) (h : Reachable body moved w) :
    (∀ c, ∃ i w', Signal.connect c w = (.ok i, w') ∧ ¬ Live w.log i ∧ (∀ j, Live w'.log j ↔ Live w.log j ∨ j = i) ∧
      w'.callbacks = w.callbacks ++ [(i, c)]) ∧
    (∀ i, Live w.log i → ∃ w', Signal.disconnect i w = (.ok (), w') ∧ (∀ j, Live w'.log j ↔ Live w.log j ∧ j ≠ i) ∧
      w'.callbacks = w.callbacks.filter (fun n => n.1 != i)) := by
  have hi := reachable_inv h
  refine ⟨?_, ?_⟩
  · intro c
    refine ⟨_, _, rfl, ?_, ?_, rfl⟩
    · intro hl; have := hi.bound _ hl.1; omega
    · intro j
      have hi' := hi.connect c
      rw [← hi'.live, ← hi.live]
      simp
  · intro i hl
    have ha : w.callbacks.any (fun n => n.1 == i) = true := (any_iff w i).mpr ((hi.live i).mpr hl)
    refine ⟨{ w with callbacks := w.callbacks.filter (fun n => n.1 != i), log := w.log ++ [.disconnected i] }, ?_, ?_, rfl⟩
    · unfold Signal.disconnect; rw [if_pos ha]
    · intro j
      rw [← (hi.disconnect i hl).live, ← hi.live]
      simp only [List.mem_map, List.mem_filter, bne_iff_ne, ne_eq]
      constructor
      · rintro ⟨x, ⟨h1, h2⟩, rfl⟩; exact ⟨⟨x, h1, rfl⟩, h2⟩
      · rintro ⟨⟨x, h1, rfl⟩, h2⟩; exact ⟨x, ⟨h1, h2⟩, rfl⟩

/-- Programs that do not use the signal. -/
inductive Quiet : Prog γ α σ → Prop where
  | ret : Quiet .ret
  | throw (e : Err) : Quiet (.throw e)
  | upd (f : σ → σ) (k : Prog γ α σ) : Quiet k → Quiet (.upd f k)
  | read (k : σ → Prog γ α σ) : (∀ s, Quiet (k s)) → Quiet (.read k)

/-- What a quiet program does to the user's state. -/
def effect : Prog γ α σ → Meth σ Unit
  | .throw e => Meth.throw e
  | .upd f k => fun s => effect k (f s)
  | .read k => fun s => effect (k s) s
  | _ => pure ()

/-- Call one after the other, until one throws; each gets what is left of the argument by those before it. -/
def callAll (body : γ → α → Prog γ α σ) (moved : α → α) : List γ → α → Meth σ Unit
  | [], _ => pure ()
  | c :: cs, a => do
    effect (body c a)
    callAll body moved cs (moved a)

theorem exec_quiet (emitF : α → Meth (World γ α σ) Unit) (p : Prog γ α σ) (hp : Quiet p) (w : World γ α σ) :
    exec emitF p w = ((effect p w.user).1, { w with user := (effect p w.user).2 }) := by
  induction hp generalizing w with
  | ret => rfl
  | throw e => rfl
  | upd f k _ ih => unfold exec; rw [ih]; rfl
  | read k _ ih => unfold exec; rw [ih]; rfl

theorem find_mid (pre : List (Nat × γ)) (i : Nat) (c : γ) (rest : List (Nat × γ)) (hs : ((pre ++ (i, c) :: rest).map (·.1)).Pairwise (· < ·)) :
    (pre ++ (i, c) :: rest).find? (fun n => n.1 == i) = some (i, c) ∧ following i (pre ++ (i, c) :: rest) = some (rest.head?.map (·.1)) := by
  induction pre with
  | nil => simp [following]
  | cons x pre ih =>
    simp only [List.cons_append, List.map_cons, List.pairwise_cons] at hs
    have hx : x.1 ≠ i := by have := hs.1 i (by simp); omega
    obtain ⟨h1, h2⟩ := ih hs.2
    refine ⟨?_, ?_⟩
    · rw [List.cons_append, List.find?_cons, beq_false_of_ne hx]; exact h1
    · rw [List.cons_append]; unfold following; rw [if_neg hx]; exact h2

/-- C55: if the callbacks do not use the signal, `emit` calls them one after the other, in order of connection, until one throws,
and leaves the connections alone. -/
theorem C55_emit_quiet (body : γ → α → Prog γ α σ) (moved : α → α) (w : World γ α σ) (h : Reachable body moved w)
    (hq : ∀ c a, Quiet (body c a)) (fuel : Nat) (hf : size w < fuel) (a : α) :
    ∃ w', emit body moved fuel a w = ((callAll body moved (w.callbacks.map (·.2)) a w.user).1, w') ∧
      w'.user = (callAll body moved (w.callbacks.map (·.2)) a w.user).2 ∧ w'.callbacks = w.callbacks := by
  have hi := reachable_inv h
  have loop : ∀ (rest pre : List (Nat × γ)) (fuel k : Nat) (a : α) (w : World γ α σ), w.callbacks = pre ++ rest →
      (w.callbacks.map (·.1)).Pairwise (· < ·) → rest.length < fuel →
      ∃ w', emitLoop body moved fuel k (rest.head?.map (·.1)) a w = ((callAll body moved (rest.map (·.2)) a w.user).1, w') ∧
        w'.user = (callAll body moved (rest.map (·.2)) a w.user).2 ∧ w'.callbacks = w.callbacks := by
    intro rest
    induction rest with
    | nil =>
      intro pre fuel k a w _ _ hf
      cases fuel with
      | zero => omega
      | succ fuel => exact ⟨_, rfl, rfl, rfl⟩
    | cons n rest ih =>
      intro pre fuel k a w hw hs hf
      obtain ⟨i, c⟩ := n
      cases fuel with
      | zero => omega
      | succ fuel =>
        rw [hw] at hs
        obtain ⟨f1, f2⟩ := find_mid pre i c rest hs
        unfold emitLoop
        simp only [List.head?_cons, Option.map_some, hw, f1]
        rw [exec_quiet _ _ (hq c a)]
        generalize he : effect (body c a) w.user = eo
        obtain ⟨r, s'⟩ := eo
        simp only [he, callAll, List.map_cons, Meth.bind_apply, Meth.bind]
        cases r with
        | ok u =>
          have hfl : afterCall k i (α := α) ((Res.ok u : Res Unit), ⟨w.callbacks, w.next, s', w.log ++ [.called k i a], w.emissions⟩) =
              (.ok (rest.head?.map (·.1)), ⟨w.callbacks, w.next, s', w.log ++ [.called k i a] ++ [.returned k i], w.emissions⟩) := by
            simp only [afterCall, hw, f2]
          rw [hw] at hfl
          simp only [hfl]
          obtain ⟨w', g1, g2, g3⟩ := ih (pre ++ [(i, c)]) fuel k (moved a)
            ⟨pre ++ (i, c) :: rest, w.next, s', w.log ++ [.called k i a] ++ [.returned k i], w.emissions⟩ (by simp) hs (by simpa using hf)
          exact ⟨w', g1, g2, g3⟩
        | throw e =>
          have hfl : afterCall k i (α := α) ((Res.throw e : Res Unit), ⟨pre ++ (i, c) :: rest, w.next, s', w.log ++ [.called k i a], w.emissions⟩) =
              (.throw e, ⟨pre ++ (i, c) :: rest, w.next, s', w.log ++ [.called k i a] ++ [.returned k i], w.emissions⟩) := by
            simp only [afterCall, f2]
          simp only [hfl]
          exact ⟨_, rfl, rfl, rfl⟩
        | ub u => exact ⟨_, rfl, rfl, rfl⟩
        | abort => exact ⟨_, rfl, rfl, rfl⟩
        | terminate => exact ⟨_, rfl, rfl, rfl⟩
        | diverge => exact ⟨_, rfl, rfl, rfl⟩
  unfold emit
  rw [start_bind]
  exact loop w.callbacks [] fuel w.emissions a { w with emissions := w.emissions + 1 } rfl hi.sorted hf

/-! ## C56 -/

/-- C56: in any run, a call is made only to a callback that is connected at that moment; within an emission every callback is called
at most once, in order of connection. -/
theorem C56_calls (body : γ → α → Prog γ α σ) (moved : α → α) (fuel : Nat) (p : Prog γ α σ) (s : σ) (r : Res Unit) (w : World γ α σ)
    (h : client body moved fuel p (new s) = (r, w)) (hr : ∀ u, r ≠ .ub u) :
    (∀ k, (calls k w.log).Pairwise (· < ·)) ∧
    (∀ l1 k i a l2, w.log = l1 ++ Event.called k i a :: l2 → Event.connected i ∈ l1 ∧ Event.disconnected i ∉ l1) := by
  have hi := (client_post body moved fuel p s).inv (by rw [h]; exact hr)
  rw [h] at hi; simp only at hi
  refine ⟨fun k => calls_sorted hi.valid k, ?_⟩
  intro l1 k i a l2 hl
  have hv := hi.valid
  rw [hl] at hv
  exact (valid_split hv).2.1

/-- C56: when an emission comes to its end, every callback connected by then, before or during the emission, has been called in it or
has been disconnected. -/
theorem C56_complete (body : γ → α → Prog γ α σ) (moved : α → α) (fuel : Nat) (p : Prog γ α σ) (s : σ) (r : Res Unit) (w : World γ α σ)
    (h : client body moved fuel p (new s) = (r, w)) (hr : ∀ u, r ≠ .ub u) (l1 l2 : List (Event α)) (k i : Nat)
    (hl : w.log = l1 ++ Event.finished k :: l2) (hc : Event.connected i ∈ l1) :
    Event.disconnected i ∈ l1 ∨ ∃ a, Event.called k i a ∈ l1 := by
  have hi := (client_post body moved fuel p s).inv (by rw [h]; exact hr)
  rw [h] at hi; simp only at hi
  have hv := hi.valid
  rw [hl] at hv
  obtain ⟨v1, v2⟩ := valid_split hv
  by_cases hd : Event.disconnected i ∈ l1
  · exact .inl hd
  · right
    obtain ⟨m, g1, g2⟩ := v2 i ⟨hc, hd⟩
    exact (mem_calls _ _ _).mp (live_called v1 k i m g2 g1 ⟨hc, hd⟩)

/-- C56: nothing is undefined unless the client disconnects something that is not connected, or a callback is disconnected while a
call of it is running. -/
theorem C56_defined (body : γ → α → Prog γ α σ) (moved : α → α) (fuel : Nat) (p : Prog γ α σ) (s : σ) (u : UB) (w : World γ α σ)
    (h : client body moved fuel p (new s) = (.ub u, w)) : Misuse w.log ∨ DisconnectedWhileRunning w.log := by
  have := (client_post body moved fuel p s).bad u (by rw [h])
  rw [h] at this
  exact this.imp id And.right

/-- C56: and conversely, a run in which a callback is disconnected while a call of it is running does not come to a defined end. -/
theorem C56_self_disconnect (body : γ → α → Prog γ α σ) (moved : α → α) (fuel : Nat) (p : Prog γ α σ) (s : σ) (r : Res Unit) (w : World γ α σ)
    (h : client body moved fuel p (new s) = (r, w)) (hd : DisconnectedWhileRunning w.log) : r = .diverge ∨ ∃ u, r = .ub u := by
  have hp := client_post body moved fuel p s
  rw [h] at hp
  obtain ⟨ev, x1, _, _, x4⟩ := hp.ex
  simp only [new, List.nil_append] at x1
  obtain ⟨l1, k, i, a, l2, l3, hl, hnr⟩ := hd
  rcases x4 with hx | hx | hx
  · exact .inr hx
  · exact .inl hx
  · right
    apply Classical.byContradiction
    intro hu
    have hi := hp.inv (fun u hu' => hu ⟨u, hu'⟩)
    have hv := hi.valid
    have hm : Event.returned k i ∈ l2 ++ [Event.disconnected i] ++ l3 := by
      apply hx l1 k i a
      rw [← x1, hl]; simp
    simp only [List.mem_append, List.mem_singleton, reduceCtorEq, or_false] at hm
    rcases hm with hm | hm
    · exact hnr hm
    · obtain ⟨m1, m2, rfl⟩ := List.append_of_mem hm
      simp only at hv
      rw [hl] at hv
      have := (valid_split (l1 := l1 ++ [Event.called k i a] ++ l2 ++ [Event.disconnected i] ++ m1) (l2 := m2)
        (e := Event.returned k i) (by simpa using hv)).2
      exact this.2 (by simp)

/-! A run for the examples: callback 0 connects callback 2 and disconnects callback 1; then both remaining ones are called; callback 3
disconnects itself. -/

/-- What the callbacks of the examples do. -/
def body1 : Nat → Nat → Prog Nat Nat Unit
  | 0, _ => .connect 2 (fun _ => .disconnect 1 .ret)
  | 3, _ => .disconnect 0 .ret
  | _, _ => .ret

/-- The client of the examples. -/
def client1 : Prog Nat Nat Unit := .connect 0 (fun _ => .connect 1 (fun _ => .connect 7 (fun _ => .emit 5 .ret)))

example : (client body1 id 10 client1 (new ())).1 = .ok () ∧ (client body1 id 10 client1 (new ())).2.log =
    [.connected 0, .connected 1, .connected 2, .called 0 0 5, .connected 3, .disconnected 1, .returned 0 0, .called 0 2 5, .returned 0 2,
      .called 0 3 5, .returned 0 3, .finished 0] := by decide +kernel
example : (client body1 id 10 (.connect 3 (fun _ => .emit 5 .ret)) (new ())).1 = .ub .use_after_free ∧
    (client body1 id 10 (.connect 3 (fun _ => .emit 5 .ret)) (new ())).2.log = [.connected 0, .called 0 0 5, .disconnected 0] := by decide +kernel
/-- The hypotheses of `C55_emit` are met by a run in which nothing changes during the emission. -/
example : (client body1 id 10 (.connect 7 (fun _ => .connect 8 (fun _ => .disconnect 0 (.emit 5 .ret)))) (new ())).2.log =
    [.connected 0, .connected 1, .disconnected 0] ++ [.called 0 1 5, .returned 0 1] ++ Event.finished 0 :: [] := by decide +kernel

/-! ## C57 -/

/-- What is left of the argument after it was forwarded `n` times. -/
def leftAfter (moved : α → α) : Nat → α → α
  | 0, a => a
  | n + 1, a => leftAfter moved n (moved a)

theorem loop_args (body : γ → α → Prog γ α σ) (moved : α → α) (fuel : Nat) (k : Nat) (cur : Option Nat) (a : α) (w : World γ α σ) (hw : Inv w)
    (hk : k < w.emissions) (hc : Cursor k w cur) :
    ∃ ev n, (emitLoop body moved fuel k cur a w).2.log = w.log ++ ev ∧
      (callsOf k ev).map (·.2) = (List.range n).map (fun j => leftAfter moved j a) := by
  induction fuel generalizing cur a w with
  | zero => exact ⟨[], 0, by simp [emitLoop], rfl⟩
  | succ fuel ih =>
    cases cur with
    | none => exact ⟨[.finished k], 0, rfl, rfl⟩
    | some i =>
      unfold emitLoop
      cases hf : w.callbacks.find? (fun n => n.1 == i) with
      | none => exact ⟨[], 0, by simp, rfl⟩
      | some n =>
        simp only
        have hw1 : Inv { w with log := w.log ++ [.called k i a] } :=
          hw.event _ hc (by rintro k' i' a' h; cases h; exact hk) (by simp) (by simp)
        have hexec := exec_post (fun _ => False) (fun a' => do
            let (k', b) ← start
            emitLoop body moved fuel k' b a') (fun a' w2 hw2 => emit_post body moved fuel a' w2 hw2) (body n.2 a) _ hw1
        generalize hout : exec _ (body n.2 a) _ = out at hexec
        obtain ⟨ev, x1, x2, x3, x4⟩ := hexec.ex
        obtain ⟨r, w2⟩ := out
        replace x1 : w2.log = w.log ++ [Event.called k i a] ++ ev := x1
        have hno : callsOf k ev = [] := by
          rw [List.eq_nil_iff_forall_not_mem]
          rintro ⟨j, b⟩ hj
          unfold callsOf at hj
          rw [List.mem_filterMap] at hj
          obtain ⟨e, he, hm⟩ := hj
          cases e with
          | called k' j' b' =>
            simp only at hm
            split at hm
            · cases hm; subst_vars
              rcases x2 _ _ _ he with h | h
              · exact h
              · simp at h; omega
            · cases hm
          | _ => cases hm
        have hone : ∀ l, callsOf k (Event.called k i a :: l) = (i, a) :: callsOf k l := by intro l; simp [callsOf]
        have hstop : ∀ l, callsOf k l = [] → (callsOf k (Event.called k i a :: (ev ++ l))).map (·.2) =
            (List.range 1).map (fun j => leftAfter moved j a) := by
          intro l hl
          rw [hone, show callsOf k (ev ++ l) = callsOf k ev ++ callsOf k l from List.filterMap_append, hno, hl]; rfl
        cases r with
        | ok u =>
          have hw2 := hexec.inv (by simp)
          simp only at hw2
          cases hfl : following i w2.callbacks with
          | none =>
            refine ⟨Event.called k i a :: (ev ++ []), 1, ?_, hstop [] rfl⟩
            simp only [afterCall, hfl]
            change w2.log = _
            simp [x1]
          | some nx =>
            -- the state after the call is as in `loop_post`
            have hcur : Inv { w2 with log := w2.log ++ [.returned k i] } ∧ Cursor k { w2 with log := w2.log ++ [.returned k i] } nx ∧
                w.emissions ≤ w2.emissions := loop_next hw hk hc hexec.emis hw2 x1 x2 hfl
            obtain ⟨ev', n', h1, h2⟩ := ih nx (moved a) _ hcur.1 (by have := hcur.2.2; simp; omega) hcur.2.1
            refine ⟨Event.called k i a :: (ev ++ Event.returned k i :: ev'), n' + 1, ?_, ?_⟩
            · simp only [afterCall, hfl]
              change (emitLoop body moved fuel k nx (moved a) { w2 with log := w2.log ++ [.returned k i] }).2.log = _
              rw [h1, x1]; simp
            · rw [hone, show callsOf k (ev ++ Event.returned k i :: ev') = callsOf k ev ++ callsOf k ev' by simp [callsOf], hno]
              rw [List.nil_append, List.map_cons, h2, List.range_succ_eq_map]
              simp [leftAfter, Function.comp_def]
        | throw e =>
          cases hfl : following i w2.callbacks with
          | none =>
            refine ⟨Event.called k i a :: (ev ++ []), 1, ?_, hstop [] rfl⟩
            simp only [afterCall, hfl]
            change w2.log = _
            simp [x1]
          | some nx =>
            refine ⟨Event.called k i a :: (ev ++ [.returned k i]), 1, ?_, hstop _ rfl⟩
            simp only [afterCall, hfl]
            change w2.log ++ [.returned k i] = _
            simp [x1]
        | ub u =>
          refine ⟨Event.called k i a :: (ev ++ []), 1, ?_, hstop [] rfl⟩
          change w2.log = _
          simp [x1]
        | diverge =>
          refine ⟨Event.called k i a :: (ev ++ []), 1, ?_, hstop [] rfl⟩
          change w2.log = _
          simp [x1]
        | abort => exact absurd rfl hexec.quiet.1
        | terminate => exact absurd rfl hexec.quiet.2

/-- C57 (as far as it holds): the `n`-th callback called by an emission gets what is left of the given argument after it has been
forwarded to the `n` callbacks before it. -/
theorem C57_nth (body : γ → α → Prog γ α σ) (moved : α → α) (w : World γ α σ) (h : Reachable body moved w) (fuel : Nat) (a : α) :
    ∃ ev n, (emit body moved fuel a w).2.log = w.log ++ ev ∧
      (callsOf w.emissions ev).map (·.2) = (List.range n).map (fun j => leftAfter moved j a) := by
  have hi := reachable_inv h
  unfold emit
  rw [start_bind]
  exact loop_args body moved fuel w.emissions _ a _ hi.start (by simp) (start_cursor hi)

/-- C57 for arguments that forwarding leaves as they are (references, trivially copyable types): every callback called by the emission
gets the given argument. Missing: by-value arguments of types with a move constructor that changes the source, for which the
property is false (`C57_refuted`). -/
theorem C57_partial (body : γ → α → Prog γ α σ) (moved : α → α) (w : World γ α σ) (h : Reachable body moved w) (fuel : Nat) (a : α)
    (hm : moved a = a) :
    ∃ ev, (emit body moved fuel a w).2.log = w.log ++ ev ∧ ∀ i b, Event.called w.emissions i b ∈ ev → b = a := by
  obtain ⟨ev, n, h1, h2⟩ := C57_nth body moved w h fuel a
  have hl : ∀ j, leftAfter moved j a = a := by
    intro j
    induction j with
    | zero => rfl
    | succ j ih => simp [leftAfter, hm, ih]
  refine ⟨ev, h1, ?_⟩
  intro i b hb
  have : b ∈ (callsOf w.emissions ev).map (·.2) := by
    rw [List.mem_map]
    refine ⟨(i, b), ?_, rfl⟩
    unfold callsOf
    rw [List.mem_filterMap]
    exact ⟨_, hb, by simp⟩
  rw [h2, List.mem_map] at this
  obtain ⟨j, _, rfl⟩ := this
  exact hl j

/-- C57 is false for `signal<std::string>`: a moved-from string is empty, so the second callback does not get the text that was
emitted. -/
theorem C57_refuted :
    ∃ (p : Prog Unit (List Byte) Unit) (l : List (Event (List Byte))),
      client (fun _ _ => .ret) (fun _ => []) 10 p (new ()) =
        (.ok (), ⟨[(0, ()), (1, ())], 2, (), l ++ [.called 0 0 (str "abc"), .returned 0 0, .called 0 1 (str ""), .returned 0 1, .finished 0], 1⟩) :=
  ⟨.connect () (fun _ => .connect () (fun _ => .emit (str "abc") .ret)), [.connected 0, .connected 1], by rfl⟩

/-- Reachable worlds with several callbacks exist. -/
example : Reachable (fun (_ : Unit) (_ : Nat) => (.ret : Prog Unit Nat Unit)) id ⟨[(0, ()), (1, ())], 2, (), [.connected 0, .connected 1], 0⟩ :=
  ⟨1, .connect () (fun _ => .connect () (fun _ => .ret)), (), rfl⟩

end Utki
