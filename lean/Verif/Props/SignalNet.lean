import Verif.Lemmas.SignalNet
import Verif.Props.Signal
/-!
# C118: several signals, whose callbacks use them

A program creates, destroys, connects, disconnects and emits signals, and so do the callbacks while they are called. The theorems speak about the log of events of a run, read
with the definitions of `Spec/SignalNet.lean`.
-/
namespace Utki
open SignalNet Spec.Net
open Spec (Live calls)
variable {γ α σ : Type}

/-- C118: everything that happens in a run without undefined behaviour is allowed by the specification; the signals that exist at the end are those created and not destroyed, and
their `size()` counts the callbacks connected to them and not disconnected. -/
theorem C118_allowed (dbg : Bool) (body : γ → α → Prog γ α σ) (moved : α → α) (fuel : Nat) (p : Prog γ α σ) (u : σ) (r : Res Unit) (w : World γ α σ)
    (h : program dbg body moved fuel p (new u) = (r, w)) (hr : ∀ u, r ≠ .ub u) :
    Valid w.log ∧ (∀ s, (∃ cs, w.get s = some cs) ↔ Alive w.log s) ∧
    ∀ s cs, w.get s = some cs → ∃ ids : List Nat, ids.Nodup ∧ (∀ i, i ∈ ids ↔ Connected w.log s i) ∧ cs.length = ids.length := by
  have hi := (program_post dbg body moved fuel p u).inv (by rw [h]; exact hr)
  rw [h] at hi
  refine ⟨hi.valid, hi.alive, fun s cs hg => ⟨cs.map (·.1), ?_, (hi.sig s cs hg).live, by simp⟩⟩
  exact (hi.sig s cs hg).sorted.imp (fun h => Nat.ne_of_lt h)

/-- C118: every call is made to a callback that is connected to an existing signal at that moment, and within an emission every callback of the signal is called at most once, in
order of connection. -/
theorem C118_calls (dbg : Bool) (body : γ → α → Prog γ α σ) (moved : α → α) (fuel : Nat) (p : Prog γ α σ) (u : σ) (r : Res Unit) (w : World γ α σ)
    (h : program dbg body moved fuel p (new u) = (r, w)) (hr : ∀ u, r ≠ .ub u) :
    (∀ s k, (calls k (history s w.log)).Pairwise (· < ·)) ∧
    (∀ l1 s k i a l2, w.log = l1 ++ Event.on s (.called k i a) :: l2 → Alive l1 s ∧ Connected l1 s i) := by
  have hv := (C118_allowed dbg body moved fuel p u r w h hr).1
  refine ⟨fun s k => calls_sorted (valid_history hv s) k, ?_⟩
  intro l1 s k i a l2 hl
  rw [hl] at hv
  have := (net_valid_split hv).2
  exact ⟨this.1, this.2.1.1⟩

/-- C118: when an emission comes to its end, every callback connected to the signal by then has been called in it or has been disconnected, whatever was done to other signals. -/
theorem C118_complete (dbg : Bool) (body : γ → α → Prog γ α σ) (moved : α → α) (fuel : Nat) (p : Prog γ α σ) (u : σ) (r : Res Unit) (w : World γ α σ)
    (h : program dbg body moved fuel p (new u) = (r, w)) (hr : ∀ u, r ≠ .ub u) (l1 l2 : List (Event α)) (s k i : Nat)
    (hl : w.log = l1 ++ Event.on s (.finished k) :: l2) (hc : .on s (.connected i) ∈ l1) :
    .on s (.disconnected i) ∈ l1 ∨ ∃ a, .on s (.called k i a) ∈ l1 := by
  have hv := (C118_allowed dbg body moved fuel p u r w h hr).1
  rw [hl] at hv
  obtain ⟨v1, v2⟩ := net_valid_split hv
  by_cases hd : Event.on s (.disconnected i) ∈ l1
  · exact .inl hd
  · right
    have hlive : Live (history s l1) i := ⟨(mem_history _ _ _).mpr hc, fun h => hd ((mem_history _ _ _).mp h)⟩
    obtain ⟨m, g1, g2⟩ := v2.2.1 i hlive
    obtain ⟨a, ha⟩ := (Signal.mem_calls _ _ _).mp (live_called (valid_history v1 s) k i m g2 g1 hlive)
    exact ⟨a, (mem_history _ _ _).mp ha⟩

/-- C118: an emission during which nothing is connected to or disconnected from that signal calls exactly the callbacks that were connected when it began, each once, in order; the
callbacks may connect to, disconnect from, emit, create and destroy other signals. -/
theorem C118_emit (dbg : Bool) (body : γ → α → Prog γ α σ) (moved : α → α) (fuel : Nat) (p : Prog γ α σ) (u : σ) (r : Res Unit) (w : World γ α σ)
    (h : program dbg body moved fuel p (new u) = (r, w)) (hr : ∀ u, r ≠ .ub u) (s k : Nat) (l1 l2 l3 : List (Event α))
    (hl : w.log = l1 ++ l2 ++ Event.on s (.finished k) :: l3) (h1 : ∀ i a, .on s (.called k i a) ∉ l1)
    (h2 : ∀ i, .on s (.connected i) ∉ l2 ∧ .on s (.disconnected i) ∉ l2) :
    (calls k (history s l2)).Pairwise (· < ·) ∧ ∀ i, i ∈ calls k (history s l2) ↔ Connected l1 s i := by
  have hv := (C118_allowed dbg body moved fuel p u r w h hr).1
  rw [hl] at hv
  obtain ⟨v1, v2⟩ := net_valid_split hv
  have hv1 := valid_history v1 s
  have hf := v2.2.1
  rw [history_append] at hv1 hf
  have h1' : calls k (history s l1) = [] := by
    rw [List.eq_nil_iff_forall_not_mem]
    intro i hi
    obtain ⟨a, ha⟩ := (Signal.mem_calls _ _ _).mp hi
    exact h1 i a ((mem_history _ _ _).mp ha)
  have h2' : ∀ i, Signal.Event.connected i ∉ history s l2 ∧ Signal.Event.disconnected i ∉ history s l2 :=
    fun i => ⟨fun hm => (h2 i).1 ((mem_history _ _ _).mp hm), fun hm => (h2 i).2 ((mem_history _ _ _).mp hm)⟩
  have hc : calls k (history s l1 ++ history s l2) = calls k (history s l2) := by rw [Signal.calls_append, h1']; rfl
  have hL : ∀ i, Live (history s l1 ++ history s l2) i ↔ Live (history s l1) i := by
    intro i; simp [Live, (h2' i).1, (h2' i).2]
  refine ⟨by rw [← hc]; exact calls_sorted hv1 k, fun i => ⟨fun hm => ?_, fun hlive => ?_⟩⟩
  · obtain ⟨a, ha⟩ := (Signal.mem_calls _ _ _).mp hm
    obtain ⟨m1, m2, hm12⟩ := List.append_of_mem ha
    rw [hm12, ← List.append_assoc] at hv1
    have hlv := (valid_split hv1).2.1
    have hn : ∀ j, Signal.Event.connected j ∉ m1 ∧ Signal.Event.disconnected j ∉ m1 :=
      fun j => ⟨fun h => (h2' j).1 (by rw [hm12]; simp [h]), fun h => (h2' j).2 (by rw [hm12]; simp [h])⟩
    simpa [Connected, Live, (hn i).1, (hn i).2] using hlv
  · obtain ⟨m, g1, g2⟩ := hf i ((hL i).mpr hlive)
    have := live_called hv1 k i m g2 g1 ((hL i).mpr hlive)
    rwa [hc] at this

/-- C118: a connection belongs to one signal. -/
theorem C118_connection_of_one (dbg : Bool) (body : γ → α → Prog γ α σ) (moved : α → α) (fuel : Nat) (p : Prog γ α σ) (u : σ) (r : Res Unit) (w : World γ α σ)
    (h : program dbg body moved fuel p (new u) = (r, w)) (hr : ∀ u, r ≠ .ub u) (s t i : Nat) (hs : Connected w.log s i) (ht : Connected w.log t i) : s = t := by
  have hv := (C118_allowed dbg body moved fuel p u r w h hr).1
  have h1 := (mem_history _ _ _).mp hs.1
  have h2 := (mem_history _ _ _).mp ht.1
  refine Classical.byContradiction fun hne => ?_
  obtain ⟨l1, l2, hl⟩ := List.append_of_mem h1
  rw [hl, List.mem_append, List.mem_cons] at h2
  rcases h2 with h2 | h2 | h2
  · rw [hl] at hv
    exact Nat.lt_irrefl _ ((net_valid_split hv).2.2.2 i rfl t i h2)
  · cases h2; exact hne rfl
  · obtain ⟨m1, m2, rfl⟩ := List.append_of_mem h2
    rw [hl, ← List.cons_append, ← List.append_assoc] at hv
    exact Nat.lt_irrefl _ ((net_valid_split hv).2.2.2 i rfl s i (by simp))

/-- C118: undefined behaviour has one of two causes: a signal that does not exist is used or something is disconnected that is not connected to that signal; or a callback is
disconnected, or its signal destroyed, while a call of it is running. -/
theorem C118_defined (dbg : Bool) (body : γ → α → Prog γ α σ) (moved : α → α) (fuel : Nat) (p : Prog γ α σ) (u : σ) (b : UB) (w : World γ α σ)
    (h : program dbg body moved fuel p (new u) = (.ub b, w)) : Misuse w.log ∨ PulledAway w.log := by
  have := (program_post dbg body moved fuel p u).bad b (by rw [h])
  rw [h] at this
  exact this.imp id And.right

/-- C118: and the first cause always leads to it. -/
theorem C118_misuse (dbg : Bool) (body : γ → α → Prog γ α σ) (moved : α → α) (fuel : Nat) (p : Prog γ α σ) (u : σ) (r : Res Unit) (w : World γ α σ)
    (h : program dbg body moved fuel p (new u) = (r, w)) (hm : Misuse w.log) : ∃ b, r = .ub b := by
  refine Classical.byContradiction fun hn => ?_
  have hv := (C118_allowed dbg body moved fuel p u r w h (fun b hb => hn ⟨b, hb⟩)).1
  obtain ⟨l, s, _, ⟨hl, ha⟩ | ⟨i, hl, ha⟩⟩ := hm
  · rw [hl] at hv
    exact ha (net_valid_split hv).2
  · rw [hl] at hv
    exact ha (net_valid_split hv).2.2.1

/-- C118: after the second cause the run does not come to a defined end; at most it is aborted, or goes on forever, before the call ends. -/
theorem C118_pulled_away (dbg : Bool) (body : γ → α → Prog γ α σ) (moved : α → α) (fuel : Nat) (p : Prog γ α σ) (u : σ) (r : Res Unit) (w : World γ α σ)
    (h : program dbg body moved fuel p (new u) = (r, w)) (hp : PulledAway w.log) : r = .diverge ∨ r = .abort ∨ ∃ b, r = .ub b := by
  have hpost := program_post dbg body moved fuel p u
  rw [h] at hpost
  obtain ⟨ev, x1, _, x3⟩ := hpost.ex
  simp only [new, List.nil_append] at x1
  rcases x3 with (⟨b, hb⟩ | hb | hb) | hx
  · exact .inr (.inr ⟨b, hb⟩)
  · exact .inl hb
  · exact .inr (.inl hb)
  · right; right
    refine Classical.byContradiction fun hn => ?_
    have hv := (hpost.inv (fun b hb => hn ⟨b, hb⟩)).valid
    obtain ⟨l1, s, k, i, a, l2, e, l3, hl, hnr, he⟩ := hp
    have hm : Event.on s (.returned k i) ∈ l2 ++ [e] ++ l3 := by
      apply hx l1 s k i a
      rw [← x1, hl]; simp
    have hne : Event.on s (.returned k i) ≠ e := by rcases he with rfl | rfl <;> simp
    simp only [List.mem_append, List.mem_singleton, hne, or_false, hnr, false_or] at hm
    obtain ⟨m1, m2, rfl⟩ := List.append_of_mem hm
    simp only at hv
    rw [hl] at hv
    have := (net_valid_split (l1 := l1 ++ [Event.on s (.called k i a)] ++ l2 ++ [e] ++ m1) (l2 := m2) (e := .on s (.returned k i)) (by simpa using hv)).2
    rcases he with rfl | rfl
    · exact this.2.1.2 ((mem_history _ _ _).mpr (by simp))
    · exact this.1.2 (by simp)

/-- C118: an abort means that a signal was destroyed in a debug build while a callback was connected to it; other exceptional ends do not occur. -/
theorem C118_abort (dbg : Bool) (body : γ → α → Prog γ α σ) (moved : α → α) (fuel : Nat) (p : Prog γ α σ) (u : σ) (r : Res Unit) (w : World γ α σ)
    (h : program dbg body moved fuel p (new u) = (r, w)) : (r = .abort → dbg = true ∧ DestroyedConnected w.log) ∧ r ≠ .terminate := by
  have hpost := program_post dbg body moved fuel p u
  rw [h] at hpost
  exact ⟨hpost.abort, hpost.quiet⟩

/-! ## What the operations do -/

/-- The state in the course of a run of a program. -/
def NetReachable (dbg : Bool) (body : γ → α → Prog γ α σ) (moved : α → α) (w : World γ α σ) : Prop :=
  ∃ fuel p u, program dbg body moved fuel p (new u) = (.ok (), w)

theorem net_reachable_inv {dbg : Bool} {body : γ → α → Prog γ α σ} {moved : α → α} {w : World γ α σ} (h : NetReachable dbg body moved w) : SignalNet.Inv w := by
  obtain ⟨fuel, p, u, h⟩ := h
  have := (program_post dbg body moved fuel p u).inv (by rw [h]; simp)
  rw [h] at this; exact this

/-- C118: creating a signal gives one that did not exist before and has no callbacks; `connect` adds the callback behind those of that signal, under a new id; `disconnect` removes
exactly that callback; destroying a signal without callbacks removes it, one with callbacks in a release build, too. Nothing else changes. -/
theorem C118_operations (dbg : Bool) (body : γ → α → Prog γ α σ) (moved : α → α) (w : World γ α σ) (h : NetReachable dbg body moved w) :
    (∃ s w', SignalNet.create w = (.ok s, w') ∧ ¬ Alive w.log s ∧ w'.get s = some [] ∧ (∀ t, t ≠ s → w'.get t = w.get t) ∧ w'.user = w.user) ∧
    (∀ s cs, w.get s = some cs →
      (∀ c, ∃ i w', SignalNet.connect s c w = (.ok i, w') ∧ (∀ t, ¬ Connected w.log t i) ∧ w'.get s = some (cs ++ [(i, c)]) ∧ (∀ t, t ≠ s → w'.get t = w.get t) ∧
        w'.user = w.user) ∧
      (∀ i, Connected w.log s i → ∃ w', SignalNet.disconnect s i w = (.ok (), w') ∧ w'.get s = some (cs.filter (fun n => n.1 != i)) ∧ (∀ t, t ≠ s → w'.get t = w.get t) ∧
        w'.user = w.user) ∧
      ((dbg = true → ∀ i, ¬ Connected w.log s i) → ∃ w', SignalNet.destroy dbg s w = (.ok (), w') ∧ w'.get s = none ∧ (∀ t, t ≠ s → w'.get t = w.get t) ∧ w'.user = w.user)) := by
  have hi := net_reachable_inv h
  refine ⟨⟨_, _, rfl, ?_, ?_, ?_, rfl⟩, fun s cs hg => ⟨fun c => ?_, fun i hc => ?_, fun hd => ?_⟩⟩
  · intro ha
    exact Nat.lt_irrefl _ (hi.made _ ha.1)
  · simp [World.add, World.get]
  · intro t ht
    unfold World.add World.get
    simp only
    by_cases hlt : t < w.sigs.length
    · rw [List.getElem?_append_left hlt]
    · rw [List.getElem?_eq_none (by simp; omega), List.getElem?_eq_none (by omega)]
  · refine ⟨w.next, { (w.add (.used s)).put s (some (cs ++ [(w.next, c)])) with next := w.next + 1 }.add (.on s (.connected w.next)), ?_, ?_, ?_, ?_, rfl⟩
    · show Meth.bind (use s) _ w = _
      unfold Meth.bind use
      rw [hg]; rfl
    · intro t ht
      exact Nat.lt_irrefl _ (hi.bound t _ ((mem_history _ _ _).mp ht.1))
    · have := get_put (w := w.add (.used s)) (s := s) (t := s) (x := some (cs ++ [(w.next, c)])) (get_lt (w := w) hg)
      rw [if_pos rfl] at this; exact this
    · intro t ht
      have := get_put (w := w.add (.used s)) (s := s) (t := t) (x := some (cs ++ [(w.next, c)])) (get_lt (w := w) hg)
      rw [if_neg ht] at this; exact this
  · have ha : cs.any (fun n => n.1 == i) = true := (Signal.any_iff (proj w s cs) i).mpr (((hi.sig s cs hg).live i).mpr hc)
    refine ⟨((w.add (.used s)).put s (some (cs.filter (fun n => n.1 != i)))).add (.on s (.disconnected i)), by rw [disconnect_eq, hg]; simp only; rw [if_pos ha], ?_, ?_, rfl⟩
    · have := get_put (w := w.add (.used s)) (s := s) (t := s) (x := some (cs.filter (fun n => n.1 != i))) (get_lt (w := w) hg)
      rw [if_pos rfl] at this; exact this
    · intro t ht
      have := get_put (w := w.add (.used s)) (s := s) (t := t) (x := some (cs.filter (fun n => n.1 != i))) (get_lt (w := w) hg)
      rw [if_neg ht] at this; exact this
  · have hn : ¬ (dbg = true ∧ cs ≠ []) := by
      rintro ⟨h1, h2⟩
      obtain ⟨n, l, rfl⟩ := List.exists_cons_of_ne_nil h2
      exact hd h1 n.1 (((hi.sig s _ hg).live n.1).mp (by simp [proj]))
    refine ⟨((w.add (.used s)).put s none).add (.destroyed s), by rw [destroy_eq, hg]; simp only; rw [if_neg hn], ?_, ?_, rfl⟩
    · have := get_put (w := w.add (.used s)) (s := s) (t := s) (x := none) (get_lt (w := w) hg)
      rw [if_pos rfl] at this; exact this
    · intro t ht
      have := get_put (w := w.add (.used s)) (s := s) (t := t) (x := none) (get_lt (w := w) hg)
      rw [if_neg ht] at this; exact this

theorem callsOf_history_none {s k : Nat} {own : Nat → Prop} {m : Nat} {ev : List (Event α)} (h : Fresh own m ev) (ho : ¬ own k) (hk : k < m) :
    Spec.callsOf k (history s ev) = [] := by
  rw [List.eq_nil_iff_forall_not_mem]
  rintro ⟨j, b⟩ hj
  unfold Spec.callsOf at hj
  rw [List.mem_filterMap] at hj
  obtain ⟨e, he, hm⟩ := hj
  cases e with
  | called k' j' b' =>
    simp only at hm
    split at hm
    · cases hm; subst_vars
      rcases h.1 s _ _ _ ((mem_history _ _ _).mp he) with h | h
      · exact ho h
      · omega
    · cases hm
  | _ => cases hm

theorem net_loop_args (dbg : Bool) (body : γ → α → Prog γ α σ) (moved : α → α) (fuel : Nat) (s k : Nat) (cur : Option Nat) (a : α) (w : World γ α σ) (hw : SignalNet.Inv w)
    (hk : k < w.emissions) (hcu : SignalNet.Cursor s k w cur) :
    ∃ ev n, (SignalNet.emitLoop dbg body moved fuel s k cur a w).2.log = w.log ++ ev ∧
      (Spec.callsOf k (history s ev)).map (·.2) = (List.range n).map (fun j => leftAfter moved j a) ∧
      ((SignalNet.emitLoop dbg body moved fuel s k cur a w).1 = .ok () → ∃ ev', ev = ev' ++ [.on s (.finished k)]) := by
  induction fuel generalizing cur a w with
  | zero => exact ⟨[], 0, by simp [SignalNet.emitLoop], rfl, by simp [SignalNet.emitLoop]⟩
  | succ fuel ih =>
    cases cur with
    | none => exact ⟨[.on s (.finished k)], 0, rfl, by rw [history_on, if_pos rfl]; rfl, fun _ => ⟨[], rfl⟩⟩
    | some i =>
      have hcu0 := hcu
      obtain ⟨cs, hg, hc⟩ := hcu
      unfold SignalNet.emitLoop
      have hli : Live (history s w.log) i := hc.1
      have hmem : i ∈ cs.map (·.1) := ((hw.sig s cs hg).live i).mpr hli
      rw [hg]
      cases hf : cs.find? (fun n => n.1 == i) with
      | none =>
        exfalso
        rw [List.find?_eq_none] at hf
        obtain ⟨n, hn, rfl⟩ := List.mem_map.mp hmem
        exact hf n hn (by simp)
      | some n =>
        simp only [Option.bind_some, hf]
        have hw1 : SignalNet.Inv (w.add (.on s (.called k i a))) := hw.event hg hc (by rintro k' i' a' h; cases h; exact hk) (by simp) (by simp)
        have hexec := SignalNet.exec_post dbg (fun _ => False) (fun s' a' => do
            let (k', b) ← SignalNet.start s'
            SignalNet.emitLoop dbg body moved fuel s' k' b a')
          (fun s' a' w2 hw2 => start_post s' _ w2 hw2 (fun k' cur' w3 h3 hk' hc' => SignalNet.loop_post dbg body moved fuel s' k' cur' a' w3 h3 hk' hc')) (body n.2 a) _ hw1
        generalize SignalNet.exec dbg _ (body n.2 a) _ = out at hexec
        obtain ⟨ev, x1, x2, x3⟩ := hexec.ex
        obtain ⟨r, w2⟩ := out
        replace x1 : w2.log = w.log ++ [Event.on s (.called k i a)] ++ ev := x1
        have hno : Spec.callsOf k (history s ev) = [] := callsOf_history_none x2 (by simp) hk
        have hone : ∀ l, Spec.callsOf k (history s (Event.on s (.called k i a) :: (ev ++ l))) = (i, a) :: Spec.callsOf k (history s l) := by
          intro l
          have : history s (Event.on s (.called k i a) :: (ev ++ l)) = [Signal.Event.called k i a] ++ (history s ev ++ history s l) := by
            rw [← history_append, ← if_pos (c := s = s) rfl (α := List (Signal.Event α)) (t := [Signal.Event.called k i a]) (e := []), ← history_on, ← history_append]; rfl
          rw [this]
          have happ : ∀ x y : List (Signal.Event α), Spec.callsOf k (x ++ y) = Spec.callsOf k x ++ Spec.callsOf k y := fun x y => List.filterMap_append
          rw [happ, happ, hno]
          simp [Spec.callsOf]
        have hstop : ∀ (r' : Res Unit) (l : List (Event α)), Spec.callsOf k (history s l) = [] → r' ≠ .ok () → ∃ ev' n', w2.log ++ l = w.log ++ ev' ∧
            (Spec.callsOf k (history s ev')).map (·.2) = (List.range n').map (fun j => leftAfter moved j a) ∧
            (r' = .ok () → ∃ ev'', ev' = ev'' ++ [Event.on s (.finished k)]) := by
          intro r' l hl hr
          refine ⟨Event.on s (.called k i a) :: (ev ++ l), 1, by simp [x1], ?_, fun h => absurd h hr⟩
          rw [hone, hl]; rfl
        have hret : Spec.callsOf k (history s [Event.on s (.returned k i) (α := α)]) = [] := by rw [history_on, if_pos rfl]; rfl
        have hnil := fun (r' : Res Unit) (hr : r' ≠ .ok ()) => by have := hstop r' [] rfl hr; rwa [List.append_nil] at this
        cases r with
        | ok u =>
          have hw2 : SignalNet.Inv w2 := hexec.inv (by simp)
          cases hfl : (w2.get s).bind (Signal.following i) with
          | none =>
            simp only [SignalNet.afterCall, hfl]
            exact hnil (.ub .use_after_free) (by simp)
          | some nx =>
            simp only [SignalNet.afterCall, hfl]
            obtain ⟨hw3, hcur⟩ := call_next hw hk hcu0 (show w.emissions ≤ w2.emissions from hexec.emis) hw2 x1 (fun t k' i' a' hm => (x2.1 t k' i' a' hm).resolve_left id) hfl
            obtain ⟨ev', n', h1, h2, h3⟩ := ih nx (moved a) _ hw3 (Nat.lt_of_lt_of_le hk hexec.emis) hcur
            refine ⟨Event.on s (.called k i a) :: (ev ++ Event.on s (.returned k i) :: ev'), n' + 1, ?_, ?_, ?_⟩
            · change (SignalNet.emitLoop dbg body moved fuel s k nx (moved a) (w2.add (.on s (.returned k i)))).2.log = _
              rw [h1]; simp [World.add, x1]
            · rw [hone]
              have : history s (Event.on s (.returned k i) :: ev') = Signal.Event.returned k i :: history s ev' := by
                simp [history]
              rw [this]
              have : Spec.callsOf k (Signal.Event.returned k i :: history s ev') = Spec.callsOf k (history s ev') := by simp [Spec.callsOf]
              rw [this, List.map_cons, h2, List.range_succ_eq_map]
              simp [leftAfter, Function.comp_def]
            · intro hok
              obtain ⟨ev'', h⟩ := h3 hok
              exact ⟨Event.on s (.called k i a) :: (ev ++ Event.on s (.returned k i) :: ev''), by rw [h]; simp⟩
        | throw e =>
          cases hfl : (w2.get s).bind (Signal.following i) with
          | none =>
            simp only [SignalNet.afterCall, hfl]
            exact hnil (.ub .use_after_free) (by simp)
          | some nx =>
            simp only [SignalNet.afterCall, hfl]
            exact hstop (.throw e) [.on s (.returned k i)] hret (by simp)
        | ub u => exact hnil (.ub u) (by simp)
        | diverge => exact hnil .diverge (by simp)
        | abort => exact hnil .abort (by simp)
        | terminate => exact absurd rfl hexec.quiet

/-- C118: an emission of a signal that exists gets a number that was not used before, calls callbacks of the signal with what is left of the argument after it was forwarded to those
before, and if it returns it has come to its end (`C118_complete`, `C118_emit` say what that means). -/
theorem C118_emission (dbg : Bool) (body : γ → α → Prog γ α σ) (moved : α → α) (w : World γ α σ) (h : NetReachable dbg body moved w) (fuel s : Nat) (a : α)
    (hs : Alive w.log s) : ∃ k ev n, (SignalNet.emit dbg body moved fuel s a w).2.log = w.log ++ Event.used s :: ev ∧ (∀ t i b, .on t (.called k i b) ∉ w.log) ∧
      (Spec.callsOf k (history s ev)).map (·.2) = (List.range n).map (fun j => leftAfter moved j a) ∧
      ((SignalNet.emit dbg body moved fuel s a w).1 = .ok () → ∃ ev', ev = ev' ++ [.on s (.finished k)]) := by
  have hi := net_reachable_inv h
  obtain ⟨cs, hg⟩ := (hi.alive s).mpr hs
  have h1 := hi.used hg
  have e : SignalNet.emit dbg body moved fuel s a w =
      SignalNet.emitLoop dbg body moved fuel s w.emissions (cs.head?.map (·.1)) a { w.add (.used s) with emissions := w.emissions + 1 } := by
    show Meth.bind (Meth.bind (use s) _) _ w = _
    unfold Meth.bind use
    rw [hg]; rfl
  obtain ⟨ev, n, g1, g2, g3⟩ := net_loop_args dbg body moved fuel s w.emissions (cs.head?.map (·.1)) a { w.add (.used s) with emissions := w.emissions + 1 } h1.emission
    (Nat.lt_succ_self _) ⟨cs, hg, by have := Signal.start_cursor (h1.sig s cs hg); exact this⟩
  rw [e]
  refine ⟨w.emissions, ev, n, by rw [g1]; simp [World.add], ?_, g2, g3⟩
  intro t i b hm
  exact Nat.lt_irrefl _ (hi.emis t _ i b hm)

theorem meth_bind_mono {β : Type} {m m' : Meth (World γ α σ) β} {f f' : β → Meth (World γ α σ) Unit} {w : World γ α σ}
    (hm : (m w).1 ≠ .diverge → m' w = m w) (hf : ∀ b w, (f b w).1 ≠ .diverge → f' b w = f b w) (h : ((m >>= f) w).1 ≠ .diverge) : (m' >>= f') w = (m >>= f) w := by
  change (Meth.bind m f w).1 ≠ .diverge at h
  show Meth.bind m' f' w = Meth.bind m f w
  unfold Meth.bind at h ⊢
  generalize ho : m w = o at h hm
  obtain ⟨r, w1⟩ := o
  cases r with
  | ok b => rw [hm (by simp)]; exact hf b w1 h
  | diverge => exact absurd rfl h
  | _ => rw [hm (by simp)]

theorem net_exec_mono (dbg : Bool) {emitF emitF' : Nat → α → Meth (World γ α σ) Unit} (he : ∀ s a w, (emitF s a w).1 ≠ .diverge → emitF' s a w = emitF s a w)
    (p : Prog γ α σ) (w : World γ α σ) (h : (SignalNet.exec dbg emitF p w).1 ≠ .diverge) : SignalNet.exec dbg emitF' p w = SignalNet.exec dbg emitF p w := by
  induction p generalizing w with
  | ret => rfl
  | throw e => rfl
  | upd f k ih => exact ih _ h
  | read k ih => exact ih _ _ h
  | create k ih => exact meth_bind_mono (fun _ => rfl) (fun b w => ih b w) h
  | destroy s k ih => exact meth_bind_mono (fun _ => rfl) (fun b w => ih w) h
  | connect s c k ih => exact meth_bind_mono (fun _ => rfl) (fun b w => ih b w) h
  | disconnect s i k ih => exact meth_bind_mono (fun _ => rfl) (fun b w => ih w) h
  | emit s a k ih => exact meth_bind_mono (he s a w) (fun b w => ih w) h

theorem net_loop_mono (dbg : Bool) (body : γ → α → Prog γ α σ) (moved : α → α) (fuel : Nat) (s k : Nat) (cur : Option Nat) (a : α) (w : World γ α σ)
    (h : (SignalNet.emitLoop dbg body moved fuel s k cur a w).1 ≠ .diverge) (fuel' : Nat) (hf : fuel ≤ fuel') :
    SignalNet.emitLoop dbg body moved fuel' s k cur a w = SignalNet.emitLoop dbg body moved fuel s k cur a w := by
  induction fuel generalizing s k cur a w fuel' with
  | zero => exact absurd rfl h
  | succ fuel ih =>
    obtain ⟨fuel', rfl⟩ : ∃ n, fuel' = n + 1 := ⟨fuel' - 1, by omega⟩
    cases cur with
    | none => rfl
    | some i =>
      unfold SignalNet.emitLoop at h ⊢
      cases hg : (w.get s).bind (fun cs => cs.find? (fun n => n.1 == i)) with
      | none => rfl
      | some n =>
        simp only [hg] at h ⊢
        refine meth_bind_mono ?_ (fun b w h => ih s k b (moved a) w h fuel' (by omega)) h
        intro hd
        rw [net_exec_mono dbg (fun s' a' w' => ?_) (body n.2 a)]
        · intro hx
          apply hd
          unfold SignalNet.afterCall
          rw [hx]
        · intro hd
          exact meth_bind_mono (fun _ => rfl) (fun b w h => ih s' b.1 b.2 a' w h fuel' (by omega)) hd

/-- The outcome of a program that ends does not depend on the bound of the model. -/
theorem net_program_mono (dbg : Bool) (body : γ → α → Prog γ α σ) (moved : α → α) (fuel : Nat) (p : Prog γ α σ) (w : World γ α σ)
    (h : (program dbg body moved fuel p w).1 ≠ .diverge) (fuel' : Nat) (hf : fuel ≤ fuel') : program dbg body moved fuel' p w = program dbg body moved fuel p w :=
  net_exec_mono dbg (fun _ _ _ hd => meth_bind_mono (fun _ => rfl) (fun b w h => net_loop_mono dbg body moved fuel _ b.1 b.2 _ w h fuel' hf) hd) p w h

theorem net_loop_in_turn (dbg : Bool) (body : γ → α → Prog γ α σ) (moved : α → α) (s k : Nat) (cs : List (Nat × γ)) (a : α) (w : World γ α σ) (out : Res Unit × World γ α σ)
    (h : InTurn dbg body moved s k cs a w out) (pre : List (Nat × γ)) (hg : w.get s = some (pre ++ cs)) (hs : ((pre ++ cs).map (·.1)).Pairwise (· < ·)) :
    ∃ fuel, ∀ fuel' ≥ fuel, SignalNet.emitLoop dbg body moved fuel' s k (cs.head?.map (·.1)) a w = out := by
  induction h generalizing pre with
  | done a w =>
    refine ⟨1, fun fuel' hf => ?_⟩
    obtain ⟨n, rfl⟩ : ∃ n, fuel' = n + 1 := ⟨fuel' - 1, by omega⟩
    rfl
  | call fuel i c cs a w w1 out hp hw hi ih =>
    obtain ⟨f, hf⟩ := ih (pre ++ [(i, c)]) (by change w1.get s = _; rw [hw, hg]; simp) (by simpa using hs)
    obtain ⟨hfind, hfol⟩ := find_mid pre i c cs hs
    refine ⟨max fuel f + 1, fun fuel' hf' => ?_⟩
    obtain ⟨n, rfl⟩ : ∃ n, fuel' = n + 1 := ⟨fuel' - 1, by omega⟩
    simp only [List.head?_cons, Option.map_some]
    unfold SignalNet.emitLoop
    rw [hg]
    simp only [Option.bind_some, hfind]
    have hx := net_program_mono dbg body moved fuel (body c a) (w.add (.on s (.called k i a))) (by rw [hp]; simp) n (by omega)
    rw [hp] at hx
    change Meth.bind (fun _ => SignalNet.afterCall s k i (program dbg body moved n (body c a) (w.add (.on s (.called k i a))))) _ w = out
    rw [hx]
    unfold Meth.bind SignalNet.afterCall
    simp only [hw, hg, Option.bind_some, hfol]
    exact hf n (by omega)
  | thrown fuel i c cs a w w1 e hp hw =>
    obtain ⟨hfind, hfol⟩ := find_mid pre i c cs hs
    refine ⟨fuel + 1, fun fuel' hf' => ?_⟩
    obtain ⟨n, rfl⟩ : ∃ n, fuel' = n + 1 := ⟨fuel' - 1, by omega⟩
    simp only [List.head?_cons, Option.map_some]
    unfold SignalNet.emitLoop
    rw [hg]
    simp only [Option.bind_some, hfind]
    have hx := net_program_mono dbg body moved fuel (body c a) (w.add (.on s (.called k i a))) (by rw [hp]; simp) n (by omega)
    rw [hp] at hx
    change Meth.bind (fun _ => SignalNet.afterCall s k i (program dbg body moved n (body c a) (w.add (.on s (.called k i a))))) _ w = _
    rw [hx]
    unfold Meth.bind SignalNet.afterCall
    simp only [hw, hg, Option.bind_some, hfol]

/-- C118: if each callback of a signal, run as a program of its own, leaves the callbacks of that signal as they are, then an emission runs them one after the other, in order of
connection, until one throws; whatever they do with other signals, they do it as outside of an emission. -/
theorem C118_in_turn (dbg : Bool) (body : γ → α → Prog γ α σ) (moved : α → α) (w : World γ α σ) (h : NetReachable dbg body moved w) (s : Nat) (cs : List (Nat × γ)) (a : α)
    (hg : w.get s = some cs) (out : Res Unit × World γ α σ)
    (ht : InTurn dbg body moved s w.emissions cs a { w.add (.used s) with emissions := w.emissions + 1 } out) :
    ∃ fuel, ∀ fuel' ≥ fuel, SignalNet.emit dbg body moved fuel' s a w = out := by
  obtain ⟨fuel, hf⟩ := net_loop_in_turn dbg body moved s w.emissions cs a _ out ht [] hg ((net_reachable_inv h).sig s cs hg).sorted
  refine ⟨fuel, fun fuel' hf' => ?_⟩
  rw [← hf fuel' hf']
  show Meth.bind (Meth.bind (use s) _) _ w = _
  unfold Meth.bind use
  rw [hg]; rfl

/-- What the callbacks of the examples do. 0: emits signal 1. 1: disconnects connection 1 from signal 0, creates a signal, connects to it, emits it, disconnects, destroys it.
2: nothing. 3: destroys signal 0. -/
def netBody : Nat → Nat → Prog Nat Nat Unit
  | 0, a => .emit 1 (a + 1) .ret
  | 1, _ => .disconnect 0 1 (.create (fun s => .connect s 2 (fun i => .emit s 9 (.disconnect s i (.destroy s .ret)))))
  | 3, _ => .destroy 0 .ret
  | _, _ => .ret

/-- Signals 0 and 1; callbacks 0, 2, 2 are connected to signal 0, callback `c` to signal 1; then signal 0 is emitted. -/
def netProgram (c : Nat) : Prog Nat Nat Unit :=
  .create (fun s => .create (fun t => .connect s 0 (fun _ => .connect s 2 (fun _ => .connect s 2 (fun _ => .connect t c (fun _ => .emit s 5 .ret))))))

/-- A callback of signal 0 emits signal 1, whose callback disconnects another callback of signal 0 and uses a third signal. -/
example : (program true netBody id 10 (netProgram 1) (new ())).1 = .ok () ∧ (program true netBody id 10 (netProgram 1) (new ())).2.log =
    [.created 0, .created 1, .used 0, .on 0 (.connected 0), .used 0, .on 0 (.connected 1), .used 0, .on 0 (.connected 2), .used 1, .on 1 (.connected 3), .used 0,
      .on 0 (.called 0 0 5), .used 1, .on 1 (.called 1 3 6), .used 0, .on 0 (.disconnected 1), .created 2, .used 2, .on 2 (.connected 4), .used 2, .on 2 (.called 2 4 9),
      .on 2 (.returned 2 4), .on 2 (.finished 2), .used 2, .on 2 (.disconnected 4), .used 2, .destroyed 2, .on 1 (.returned 1 3), .on 1 (.finished 1), .on 0 (.returned 0 0),
      .on 0 (.called 0 2 5), .on 0 (.returned 0 2), .on 0 (.finished 0)] := by decide +kernel

/-- A callback of signal 0 emits signal 1, whose callback destroys signal 0: undefined in a release build, an abort in a debug build. -/
example : (program false netBody id 10 (netProgram 3) (new ())).1 = .ub .use_after_free ∧ (program true netBody id 10 (netProgram 3) (new ())).1 = .abort ∧
    ((program false netBody id 10 (netProgram 3) (new ())).2.log.drop 11 =
      [.on 0 (.called 0 0 5), .used 1, .on 1 (.called 1 3 6), .used 0, .destroyed 0, .on 1 (.returned 1 3), .on 1 (.finished 1)]) := by decide +kernel

/-- The hypotheses of `C118_emit` for signal 1 in the first example, whose callback changes other signals. -/
example : let l := (program true netBody id 10 (netProgram 1) (new ())).2.log
    l = l.take 13 ++ (l.drop 13).take 15 ++ Event.on 1 (.finished 1) :: l.drop 29 ∧ (∀ e ∈ l.take 13, ∀ s k i a, e = Event.on s (.called k i a) → s ≠ 1) ∧
    calls 1 (history 1 ((l.drop 13).take 15)) = [3] := by
  refine ⟨by decide +kernel, ?_, by decide +kernel⟩
  have : (program true netBody id 10 (netProgram 1) (new ())).2.log.take 13 =
      [.created 0, .created 1, .used 0, .on 0 (.connected 0), .used 0, .on 0 (.connected 1), .used 0, .on 0 (.connected 2), .used 1, .on 1 (.connected 3), .used 0,
      .on 0 (.called 0 0 5), .used 1] := by decide +kernel
  rw [this]
  intro e he s k i a h
  subst h
  simp at he
  omega

/-- The hypotheses of `C118_in_turn`: signal 0 has the callbacks 0, which emits signal 1 and so runs callback 2 of that, and 2. -/
example : ∃ w out, NetReachable true netBody id w ∧ w.get 0 = some [(0, 0), (1, 2)] ∧
    InTurn true netBody id 0 w.emissions [(0, 0), (1, 2)] 5 { w.add (.used 0) with emissions := w.emissions + 1 } (.ok (), out) ∧
    .on 1 (.called 1 2 6) ∈ out.log := by
  refine ⟨(program true netBody id 10 (.create (fun s => .create (fun t => .connect s 0 (fun _ => .connect s 2 (fun _ => .connect t 2 (fun _ => .ret)))))) (new ())).2, _,
    ⟨10, .create (fun s => .create (fun t => .connect s 0 (fun _ => .connect s 2 (fun _ => .connect t 2 (fun _ => .ret))))), (), rfl⟩, by decide +kernel, .call 10 _ _ _ _ _ _ _ rfl (by decide +kernel) (.call 10 _ _ _ _ _ _ _ rfl (by decide +kernel) (.done _ _)), by decide +kernel⟩

/-- Using the connection of another signal is a misuse. -/
example : (program true netBody id 10 (.create (fun s => .create (fun t => .connect s 2 (fun i => .disconnect t i .ret)))) (new ())).1 = .ub .use_after_free := by decide +kernel

end Utki
