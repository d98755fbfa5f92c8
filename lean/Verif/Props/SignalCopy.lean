import Verif.Lemmas.SignalCopy
/-!
# Copies of signals (C92)
-/
namespace Utki
open Spec SignalCopy

variable {γ α σ : Type}

/-- C92: copying a signal that exists succeeds; the new signal has the same callbacks in the same order, and nothing else changes: no signal, no
connection, and no callback is called. -/
theorem C92_copy (dbg : Bool) (call : γ → α → σ → Res Unit × γ × σ) (moved : α → α) (x : Sys γ σ) (s : Nat) (cs : List γ)
    (hs : callbacks x s = some cs) :
    ∃ x', step dbg call moved (.copy s) x = (.ok (), x') ∧ x'.sigs.length = x.sigs.length + 1 ∧ callbacks x' x.sigs.length = some cs ∧
      (∀ t < x.sigs.length, callbacks x' t = callbacks x t) ∧ x'.conns = x.conns ∧ x'.user = x.user := by
  obtain ⟨l, e, rfl⟩ := callbacks_some hs
  refine ⟨{ x with sigs := x.sigs ++ [some (fresh x.next (l.map (·.2)))], next := x.next + l.length }, ?_, by simp, ?_, ?_, rfl, rfl⟩
  · simp only [step]
    rw [Meth.bind_ok (show getSig s x = (.ok l, x) by simp [getSig, e])]
    rfl
  · rw [callbacks_append, if_pos rfl, fresh_snd]
  · intro t ht
    rw [callbacks_append, if_neg (by omega)]

/-- C92: the same for copy assignment: the callbacks of the target are replaced by those of the source. -/
theorem C92_assign (dbg : Bool) (call : γ → α → σ → Res Unit × γ × σ) (moved : α → α) (x : Sys γ σ) (s t : Nat) (cs ds : List γ)
    (hs : callbacks x s = some ds) (ht : callbacks x t = some cs) :
    ∃ x', step dbg call moved (.assign s t) x = (.ok (), x') ∧ x'.sigs.length = x.sigs.length ∧ callbacks x' s = some cs ∧
      (∀ t', t' ≠ s → callbacks x' t' = callbacks x t') ∧ x'.conns = x.conns ∧ x'.user = x.user := by
  obtain ⟨m, em, -⟩ := callbacks_some hs
  obtain ⟨l, e, rfl⟩ := callbacks_some ht
  refine ⟨{ x with sigs := x.sigs.set s (some (fresh x.next (l.map (·.2)))), next := x.next + l.length }, ?_, by simp, ?_, ?_, rfl, rfl⟩
  · simp only [step]
    rw [Meth.bind_ok (show getSig s x = (.ok m, x) by simp [getSig, em]), Meth.bind_ok (show getSig t x = (.ok l, x) by simp [getSig, e])]
    rfl
  · rw [callbacks_set em, if_pos rfl, fresh_snd]
  · intro t' h'
    rw [callbacks_set em, if_neg h']

/-- C92: connecting adds the callback at the end of that signal only, and calls nothing. -/
theorem C92_connect (dbg : Bool) (call : γ → α → σ → Res Unit × γ × σ) (moved : α → α) (x : Sys γ σ) (s : Nat) (c : γ) (cs : List γ)
    (hs : callbacks x s = some cs) :
    ∃ x', step dbg call moved (.connect s c) x = (.ok (), x') ∧ x'.sigs.length = x.sigs.length ∧ callbacks x' s = some (cs ++ [c]) ∧
      (∀ t, t ≠ s → callbacks x' t = callbacks x t) ∧ x'.conns.length = x.conns.length + 1 ∧ x'.user = x.user := by
  obtain ⟨l, e, rfl⟩ := callbacks_some hs
  refine ⟨{ x with sigs := x.sigs.set s (some (l ++ [(x.next, c)])), conns := x.conns ++ [x.next], next := x.next + 1 }, ?_, by simp, ?_, ?_,
    by simp, rfl⟩
  · simp only [step]
    rw [Meth.bind_ok (show getSig s x = (.ok l, x) by simp [getSig, e])]
    rfl
  · rw [callbacks_set e, if_pos rfl, List.map_append]; rfl
  · intro t h'
    rw [callbacks_set e, if_neg h']

/-- C92: a signal can be destroyed without callbacks, in a release build always; the other signals stay. -/
theorem C92_destroy (dbg : Bool) (call : γ → α → σ → Res Unit × γ × σ) (moved : α → α) (x : Sys γ σ) (s : Nat) (cs : List γ)
    (hs : callbacks x s = some cs) (hd : dbg = true → cs = []) :
    ∃ x', step dbg call moved (.destroy s) x = (.ok (), x') ∧ callbacks x' s = none ∧ (∀ t, t ≠ s → callbacks x' t = callbacks x t) ∧
      x'.user = x.user := by
  obtain ⟨l, e, rfl⟩ := callbacks_some hs
  refine ⟨{ x with sigs := x.sigs.set s none }, ?_, ?_, ?_, rfl⟩
  · simp only [step]
    rw [Meth.bind_ok (show getSig s x = (.ok l, x) by simp [getSig, e]), Meth.get_bind, show ASSERT dbg (l.length == 0) = .ok () by
      cases dbg
      · rfl
      · rw [List.map_eq_nil_iff.1 (hd rfl)]; rfl]
    rfl
  · simp [callbacks, sig_set e]
  · intro t h'
    simp [callbacks, sig_set e, h']

/-- C92: an emission calls the callbacks of the signal in order; what they change in themselves stays in that signal. With `C92_copy`: a copy does
what the original would do, and neither's callbacks are changed by emissions of the other. -/
theorem C92_emit (dbg : Bool) (call : γ → α → σ → Res Unit × γ × σ) (moved : α → α) (x : Sys γ σ) (s : Nat) (a : α) (cs : List γ)
    (hs : callbacks x s = some cs) :
    ∃ x', step dbg call moved (.emit s a) x = ((callEach call moved cs a x.user).1, x') ∧
      callbacks x' s = some (callEach call moved cs a x.user).2.1 ∧ x'.user = (callEach call moved cs a x.user).2.2 ∧
      (∀ t, t ≠ s → callbacks x' t = callbacks x t) ∧ x'.conns = x.conns := by
  obtain ⟨l, e, rfl⟩ := callbacks_some hs
  obtain ⟨q1, q2, q3⟩ := emitNodes_eq call moved l a x.user
  refine ⟨{ x with sigs := x.sigs.set s (some (emitNodes call moved l a x.user).2.1), user := (emitNodes call moved l a x.user).2.2 }, ?_, ?_, q3, ?_,
    rfl⟩
  · simp only [step]
    rw [Meth.bind_ok (show getSig s x = (.ok l, x) by simp [getSig, e]), ← q1]
    rfl
  · rw [callbacks_set e, if_pos rfl, q2]
  · intro t h'
    rw [callbacks_set e, if_neg h']

/-- C92: whatever is done with other signals, a signal keeps its callbacks as they are. -/
theorem C92_independent (dbg : Bool) (call : γ → α → σ → Res Unit × γ × σ) (moved : α → α) (ops : List (Op γ α)) (x x' : Sys γ σ)
    (h : run dbg call moved ops x = some x') (t : Nat) (ht : t < x.sigs.length) (ho : ∀ o ∈ ops, ¬ Target o t) :
    callbacks x' t = callbacks x t := by
  suffices hsig : x'.sigs[t]? = x.sigs[t]? by unfold callbacks; rw [hsig]
  induction ops generalizing x with
  | nil => cases h; rfl
  | cons o os ih =>
    obtain ⟨r, y, hs, hr, hrun⟩ := run_cons h
    have hub : ∀ e, r ≠ .ub e := by
      rintro e rfl; rcases hr with h | ⟨_, h⟩ <;> cases h
    have hab : r ≠ .abort := by
      rintro rfl; rcases hr with h | ⟨_, h⟩ <;> cases h
    have hT := ho o (by simp)
    have key : y.sigs[t]? = x.sigs[t]? ∧ t < y.sigs.length := by
      have h' := step_ok hs
      unfold StepSpec at h'
      cases o with
      | create =>
        obtain ⟨-, rfl⟩ := h'
        exact ⟨by rw [sig_append, if_neg (by omega)], by simp; omega⟩
      | copy s =>
        rcases h' with ⟨m, _, -, rfl⟩ | h'
        · exact ⟨by rw [sig_append, if_neg (by omega)], by simp; omega⟩
        · exact absurd h' (hub _)
      | assign s t0 =>
        rcases h' with ⟨m, m', em, _, -, rfl⟩ | h'
        · exact ⟨by rw [sig_set em, if_neg (show ¬ t = s from hT)], by simpa using ht⟩
        · exact absurd h' (hub _)
      | connect s c =>
        rcases h' with ⟨m, em, -, rfl⟩ | h'
        · exact ⟨by rw [sig_set em, if_neg (show ¬ t = s from hT)], by simpa using ht⟩
        · exact absurd h' (hub _)
      | disconnect s j0 =>
        rcases h' with ⟨m, i0, em, e0, hm, -, rfl⟩ | h'
        · exact ⟨by rw [sig_set em, if_neg (show ¬ t = s from hT)], by simpa using ht⟩
        · exact absurd h'.1 (hub _)
      | emit s a =>
        rcases h' with ⟨m, em, -, rfl⟩ | h'
        · exact ⟨by rw [sig_set em, if_neg (show ¬ t = s from hT)], by simpa using ht⟩
        · exact absurd h' (hub _)
      | destroy s =>
        rcases h' with ⟨m, em, -, -, rfl⟩ | h' | ⟨_, _, _, _, h'⟩
        · exact ⟨by rw [sig_set em, if_neg (show ¬ t = s from hT)], by simpa using ht⟩
        · exact absurd h' (hub _)
        · exact absurd h' hab
    rw [ih y hrun key.2 (fun o' hm => ho o' (List.mem_cons_of_mem _ hm)), key.1]

/-- C92: after every history, a connection disconnects exactly one callback of the signal it was made on, as long as it was not used before and
that signal was neither assigned to nor destroyed since; with every other signal, its copies included, or afterwards, it is undefined. -/
theorem C92_connections (dbg : Bool) (call : γ → α → σ → Res Unit × γ × σ) (moved : α → α) (ops : List (Op γ α)) (u : σ) (x : Sys γ σ)
    (h : run dbg call moved ops (init u) = some x) (t j : Nat) :
    ((j, t) ∈ (book ops).valid → ∃ x' l₁ c l₂, step dbg call moved (.disconnect t j) x = (.ok (), x') ∧
      callbacks x t = some (l₁ ++ c :: l₂) ∧ callbacks x' t = some (l₁ ++ l₂)) ∧
    ((j, t) ∉ (book ops).valid → ∃ x', step dbg call moved (.disconnect t j) x = (.ub .use_after_free, x')) := by
  have hi := run_inv (init_inv u) h
  rcases hs : step dbg call moved (.disconnect t j) x with ⟨r, x'⟩
  have h' := step_ok hs
  unfold StepSpec at h'
  constructor
  · intro hv
    have hv' := (hi.valid j t).1 hv
    rcases h' with ⟨m, i0, em, e0, hm, rfl, rfl⟩ | h'
    · obtain ⟨⟨i, c⟩, hc, rfl⟩ := List.mem_map.1 hm
      obtain ⟨l₁, l₂, rfl⟩ := List.append_of_mem hc
      have hnd := hi.node_nodup t _ em
      rw [List.map_append, List.map_cons, List.nodup_append] at hnd
      obtain ⟨-, n2, n3⟩ := hnd
      rw [List.nodup_cons] at n2
      refine ⟨_, l₁.map (·.2), c, l₂.map (·.2), rfl, ?_, ?_⟩
      · simp [callbacks, em]
      · rw [callbacks_set em, if_pos rfl]
        have f1 : l₁.filter (fun n => n.1 != i) = l₁ := by
          rw [List.filter_eq_self]
          intro n hn
          simpa using n3 n.1 (List.mem_map.2 ⟨n, hn, rfl⟩) i (by simp)
        have f2 : l₂.filter (fun n => n.1 != i) = l₂ := by
          rw [List.filter_eq_self]
          intro n hn
          have : n.1 ≠ i := by rintro rfl; exact n2.1 (List.mem_map.2 ⟨n, hn, rfl⟩)
          simpa using this
        simp [List.filter_append, f1, f2]
    · exact absurd hv' h'.2
  · intro hv
    rcases h' with ⟨m, i0, em, e0, hm, rfl, rfl⟩ | h'
    · exact absurd ((hi.valid j t).2 ⟨i0, e0, m, em, hm⟩) hv
    · exact ⟨x', by rw [h'.1]⟩

/-- C92: the callbacks a signal got by being copied cannot be disconnected: whatever is done afterwards, short of assigning to it, it has at least
as many callbacks, and destroying it in a debug build aborts if there were any. -/
theorem C92_copied_stay (dbg : Bool) (call : γ → α → σ → Res Unit × γ × σ) (moved : α → α) (ops more : List (Op γ α)) (u : σ)
    (x x₁ x₂ : Sys γ σ) (s : Nat) (cs : List γ) (h : run dbg call moved ops (init u) = some x) (hs : callbacks x s = some cs)
    (hc : step dbg call moved (.copy s) x = (.ok (), x₁)) (hm : run dbg call moved more x₁ = some x₂)
    (h1 : ∀ t, Op.assign x.sigs.length t ∉ more) (h2 : Op.destroy x.sigs.length ∉ more) :
    (∃ ds, callbacks x₂ x.sigs.length = some ds ∧ cs.length ≤ ds.length) ∧
    (cs ≠ [] → ∃ x₃, step true call moved (.destroy x.sigs.length) x₂ = (.abort, x₃)) := by
  have hi := run_inv (init_inv u) h
  have hi1 := step_inv hi hc (.inl rfl)
  have h' := step_ok hc
  unfold StepSpec at h'
  obtain ⟨k, ek, rfl⟩ := callbacks_some hs
  rcases h' with ⟨l, e, -, rfl⟩ | h'
  swap
  · cases h'
  rw [ek] at e; cases e
  have e1 : (x.sigs ++ [some (fresh x.next (k.map (·.2)))])[x.sigs.length]? = some (some (fresh x.next (k.map (·.2)))) := by
    rw [sig_append, if_pos rfl]
  obtain ⟨l', e', q⟩ := run_loose hi1 hm e1 h1 h2
  have hk : k.length ≤ l'.length := by
    refine Nat.le_trans ?_ (Nat.le_trans q (List.length_filter_le _ _))
    unfold loose
    rw [List.filter_eq_self.2]
    · have := congrArg List.length (fresh_fst x.next (k.map (·.2)))
      simp at this; simp [this]
    · rintro ⟨i, f⟩ hf
      have hr := (fresh_mem (n := x.next) (i := i) (cs := k.map (·.2))).1 (List.mem_map.2 ⟨_, hf, rfl⟩)
      have : i ∉ x.conns := fun hx => by have := hi.conn_lt i hx; omega
      simpa using this
  refine ⟨⟨l'.map (·.2), by simp [callbacks, e'], by simpa using hk⟩, ?_⟩
  intro hne
  rcases hd : step true call moved (.destroy x.sigs.length) x₂ with ⟨r, x₃⟩
  have h' := step_ok hd
  unfold StepSpec at h'
  have hl' : l' ≠ [] := by
    rintro rfl
    simp at hk; exact hne (by simp [hk])
  rcases h' with ⟨m, em, hb, -⟩ | h' | ⟨_, _, _, _, rfl⟩
  · rw [e'] at em; cases em; exact absurd (hb rfl) hl'
  · simp only [step] at hd
    rw [Meth.bind_ok (show getSig x.sigs.length x₂ = (.ok l', x₂) by simp [getSig, e']), Meth.get_bind,
      show (l'.length == 0) = false by simpa using hl'] at hd
    cases hd; cases h'
  · exact ⟨x₃, rfl⟩

/-- Two signals, one of them a copy made between two connections; callbacks count their calls and add to a log. -/
example :
    let call : Nat → Nat → List Nat → Res Unit × Nat × List Nat := fun c a u => (.ok (), c + 1, u ++ [c * 100 + a])
    let ops : List (Op Nat Nat) := [.create, .connect 0 1, .emit 0 7, .copy 0, .connect 0 5, .emit 1 8, .emit 0 9, .disconnect 0 0]
    ∃ x, run true call id ops (init []) = some x ∧ x.user = [107, 208, 209, 509] ∧ callbacks x 0 = some [6] ∧ callbacks x 1 = some [3] ∧
      (book ops).valid = [(1, 0)] ∧ (step true call id (.disconnect 1 0) x).1 = .ub .use_after_free ∧
      (step true call id (.destroy 1) x).1 = .abort :=
  ⟨_, rfl, rfl, rfl, rfl, rfl, rfl, rfl⟩

end Utki
