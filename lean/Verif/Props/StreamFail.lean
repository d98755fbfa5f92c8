import Verif.Model.StreamFail
import Verif.Props.Assert
import Verif.Props.ViewsLive
/-! # C146: logging and assertions when the standard streams fail -/
namespace Utki
open StreamFail
namespace Spec

/-- The text that is written by these operations. -/
def opsText : List Op → List Byte
  | [] => []
  | .put t :: ops => t ++ opsText ops
  | .flush :: ops => opsText ops

/-- All that was given to the stream is on the device, and the stream is usable. -/
def AllWritten (before after : Stream) (text : List Byte) : Prop := after.bad = false ∧ after.done = before.done ++ before.pending ++ text ∧ after.pending = []

/-- What is on the device afterwards is what was there before and, in order and without gaps, a part of what was in the buffer and of the new text. -/
def WrittenInOrder (before after : Stream) (text : List Byte) : Prop := before.done <+: after.done ∧ after.done <+: before.done ++ before.pending ++ text

end Spec
open Spec
namespace StreamFail

/-- What output leads to. -/
structure Ran (s : Stream) (text : List Byte) (r : Res Unit) (s' : Stream) : Prop where
  grows : s.done <+: s'.done
  order : s'.done ++ s'.pending <+: s.done ++ s.pending ++ text
  good : s'.bad = false → r = .ok () ∧ s.bad = false ∧ s'.done ++ s'.pending = s.done ++ s.pending ++ text
  lost : s.bad = true → s'.done = s.done ∧ s'.pending = s.pending ∧ s'.bad = true
  mask : s'.mask = s.mask
  quiet : s.mask = false → r = .ok ()
  told : s.mask = true → r = .ok () → s'.bad = s.bad
  ends : r = .ok () ∨ r = .throw failure

theorem Ran.refl (s : Stream) : Ran s [] (.ok ()) s := ⟨List.prefix_refl _, by simp, fun h => by simp [h], fun h => ⟨rfl, rfl, h⟩, rfl, fun _ => rfl, fun _ _ => rfl, .inl rfl⟩

theorem Ran.trans {s s1 s2 : Stream} {t1 t2 : List Byte} {r : Res Unit} (h1 : Ran s t1 (.ok ()) s1) (h2 : Ran s1 t2 r s2) : Ran s (t1 ++ t2) r s2 := by
  refine ⟨h1.grows.trans h2.grows, ?_, ?_, ?_, h2.mask.trans h1.mask, fun h => h2.quiet (h1.mask.trans h), ?_, h2.ends⟩
  · cases hb : s1.bad with
    | true =>
      obtain ⟨e1, e2, -⟩ := h2.lost hb
      rw [e1, e2, ← List.append_assoc]
      exact h1.order.trans (List.prefix_append _ _)
    | false =>
      rw [← List.append_assoc, ← (h1.good hb).2.2]
      exact h2.order
  · intro h
    obtain ⟨e1, e2, e3⟩ := h2.good h
    obtain ⟨-, e5, e6⟩ := h1.good e2
    exact ⟨e1, e5, by rw [e3, e6, List.append_assoc _ t1 t2]⟩
  · intro h
    obtain ⟨e1, e2, e3⟩ := h1.lost h
    obtain ⟨e4, e5, e6⟩ := h2.lost e3
    exact ⟨e4.trans e1, e5.trans e2, e6⟩
  · intro h hr
    exact (h2.told (h1.mask.trans h) hr).trans (h1.told h rfl)

theorem Ran.stop {s s1 : Stream} {t1 : List Byte} (t2 : List Byte) {r : Res Unit} (h1 : Ran s t1 r s1) (hr : r ≠ .ok ()) : Ran s (t1 ++ t2) r s1 := by
  refine ⟨h1.grows, ?_, fun h => absurd (h1.good h).1 hr, h1.lost, h1.mask, h1.quiet, h1.told, h1.ends⟩
  rw [← List.append_assoc]
  exact h1.order.trans (List.prefix_append _ _)

theorem refuse_ran (s : Stream) (h : s.bad = true) (t : List Byte) : Ran s t (refuse s).1 (refuse s).2 := by
  refine ⟨List.prefix_refl _, List.prefix_append _ _, fun h' => ?_, fun _ => ⟨rfl, rfl, h⟩, rfl, ?_, fun _ _ => rfl, ?_⟩
  · simp [refuse, h] at h'
  · intro hm; simp [refuse, hm]
  · cases hm : s.mask <;> simp [refuse, hm]

theorem transfer_ran (s : Stream) (h : s.bad = false) : Ran s [] (transfer s).1 (transfer s).2 ∧ ((transfer s).2.bad = false → (transfer s).2.pending = []) := by
  unfold transfer
  split
  · exact ⟨⟨List.prefix_append _ _, by simp, fun _ => by simp [h], fun h' => by simp [h] at h', rfl, fun _ => rfl, fun _ _ => rfl, .inl rfl⟩, fun _ => rfl⟩
  · exact ⟨⟨List.prefix_append _ _, by simp, fun _ => by simp [h], fun h' => by simp [h] at h', rfl, fun _ => rfl, fun _ _ => rfl, .inl rfl⟩, fun _ => rfl⟩
  · refine ⟨⟨List.prefix_append _ _, by simp [refuse], fun h' => by simp [refuse] at h', fun h' => by simp [h] at h', rfl, fun hm => by simp [refuse, hm], fun hm hr => ?_, ?_⟩, fun h' => by simp [refuse] at h'⟩
    · simp [refuse, hm] at hr
    · cases hm : s.mask <;> simp [refuse, hm]

theorem put_ran (t : List Byte) (s : Stream) : Ran s t (put t s).1 (put t s).2 := by
  unfold put
  split
  · rename_i h; exact refuse_ran s h t
  · rename_i h
    have h : s.bad = false := by simpa using h
    have base : Ran s t (.ok ()) { s with pending := s.pending ++ t, spill := s.spill.tail } :=
      ⟨List.prefix_refl _, by simp, fun _ => by simp [h], fun h' => by simp [h] at h', rfl, fun _ => rfl, fun _ _ => rfl, .inl rfl⟩
    dsimp only
    split
    · have := base.trans (transfer_ran { s with pending := s.pending ++ t, spill := s.spill.tail } h).1
      rwa [List.append_nil] at this
    · exact base

theorem flush_ran (s : Stream) : Ran s [] (flush s).1 (flush s).2 ∧ ((flush s).2.bad = false → (flush s).2.pending = []) := by
  unfold flush
  split
  · rename_i h; exact ⟨refuse_ran s h [], fun h' => by simp [refuse, h] at h'⟩
  · rename_i h; exact transfer_ran s (by simpa using h)

theorem bind_ran {m : Meth Stream Unit} {f : Meth Stream Unit} {s : Stream} {t1 t2 : List Byte} (h1 : Ran s t1 (m s).1 (m s).2) (h2 : ∀ s', Ran s' t2 (f s').1 (f s').2) :
    Ran s (t1 ++ t2) ((do m; f : Meth Stream Unit) s).1 ((do m; f : Meth Stream Unit) s).2 := by
  rw [Meth.bind_apply, Meth.bind]
  rcases hm : m s with ⟨r, s1⟩
  rw [hm] at h1
  rcases h1.ends with rfl | rfl
  · exact h1.trans (h2 s1)
  · exact h1.stop t2 (by simp)

theorem run_ran : ∀ (ops : List Op) (s : Stream), Ran s (opsText ops) (run ops s).1 (run ops s).2
  | [], s => Ran.refl s
  | .put t :: ops, s => bind_ran (put_ran t s) (run_ran ops)
  | .flush :: ops, s => by
    have := bind_ran (flush_ran s).1 (run_ran ops)
    rwa [List.nil_append] at this

theorem Ran.inOrder {s s' : Stream} {t : List Byte} {r : Res Unit} (h : Ran s t r s') : WrittenInOrder s s' t := ⟨h.grows, (List.prefix_append _ _).trans h.order⟩

theorem bind_flush (m : Meth Stream Unit) (s : Stream) (t : List Byte) (h1 : Ran s t (m s).1 (m s).2) :
    Ran s t ((do m; flush : Meth Stream Unit) s).1 ((do m; flush : Meth Stream Unit) s).2 ∧
      (((do m; flush : Meth Stream Unit) s).2.bad = false → ((do m; flush : Meth Stream Unit) s).2.pending = []) := by
  have h := bind_ran (f := flush) h1 (fun s' => (flush_ran s').1)
  rw [List.append_nil] at h
  refine ⟨h, fun hb => ?_⟩
  have hr := (h.good hb).1
  rcases hm : m s with ⟨r, s1⟩
  rw [hm] at h1
  rcases h1.ends with e | e
  · replace e : r = .ok () := e
    subst e
    rw [Meth.bind_ok hm] at hb ⊢
    exact (flush_ran s1).2 hb
  · replace e : r = .throw failure := e
    subst e
    rw [Meth.bind_throw hm] at hr
    simp at hr

theorem on_flush {σ : Type} (lift : Meth Stream Unit → Meth (World σ) Unit) (set : World σ → Stream → World σ) (get : World σ → Stream)
    (hl : ∀ m w, lift m w = ((m (get w)).1, set w (m (get w)).2)) (hg : ∀ w s, get (set w s) = s) (hs : ∀ w s s', set (set w s) s' = set w s') (ops : List Op) (w : World σ) :
    (do lift (run ops); lift flush : Meth (World σ) Unit) w = (((do run ops; flush : Meth Stream Unit) (get w)).1, set w ((do run ops; flush : Meth Stream Unit) (get w)).2) := by
  have hr := (run_ran ops (get w)).ends
  rcases h : run ops (get w) with ⟨r, s1⟩
  rw [h] at hr
  have e1 : lift (run ops) w = (r, set w s1) := by rw [hl, h]
  rcases hr with e | e
  · replace e : r = .ok () := e
    subst e
    rw [Meth.bind_ok e1, Meth.bind_ok h, hl, hg, hs]
  · replace e : r = .throw failure := e
    subst e
    rw [Meth.bind_throw e1, Meth.bind_throw h]

theorem log_some {σ : Type} (p : Printer σ) (ops : List Op) (u : σ) (w : World σ) (hp : p w.user = (ops, none, u)) :
    log (some p) w = (((do run ops; flush : Meth Stream Unit) w.out).1, ⟨((do run ops; flush : Meth Stream Unit) w.out).2, w.err, u⟩) := by
  have h := on_flush (σ := σ) onOut (fun w s => { w with out := s }) World.out (fun _ _ => rfl) (fun _ _ => rfl) (fun _ _ _ => rfl) ops { w with user := u }
  simp only [log, hp]
  refine Eq.trans ?_ h
  apply bind_congr_ok
  intro _ s' _
  exact Meth.bind_ok rfl

theorem report_eq {σ : Type} (ss : List Byte) (w : World σ) : ∃ r s', Ran w.err (ss ++ [0x0a#8]) r s' ∧ (s'.bad = false → s'.pending = []) ∧
    report ss w = (match r with | .ok _ => .abort | r => r, { w with err := s' }) := by
  have h := bind_flush (run [.put ss, .put [0x0a#8], .flush]) w.err (ss ++ [0x0a#8]) (by simpa [opsText] using run_ran [.put ss, .put [0x0a#8], .flush] w.err)
  have e := on_flush (σ := σ) onErr (fun w s => { w with err := s }) World.err (fun _ _ => rfl) (fun _ _ => rfl) (fun _ _ _ => rfl) [.put ss, .put [0x0a#8], .flush] w
  refine ⟨_, _, h.1, h.2, ?_⟩
  have assoc : report ss w = (do (do onErr (run [.put ss, .put [0x0a#8], .flush]); onErr flush : Meth (World σ) Unit); Meth.lift .abort : Meth (World σ) Unit) w := by
    rw [report]
    rcases h1 : (onErr (run [.put ss, .put [0x0a#8], .flush]) : Meth (World σ) Unit) w with ⟨r, w1⟩
    simp only [Meth.bind_apply, Meth.bind, h1]
    cases r <;> rfl
  rw [assoc]
  rcases h.1.ends with h' | h'
  · rw [h'] at e ⊢
    rw [Meth.bind_ok e]; rfl
  · rw [h'] at e ⊢
    rw [Meth.bind_throw e]

end StreamFail
variable {σ : Type}

/-- C146: whatever the device does, and whether or not the printing function throws in the end, what `log` leaves on the device is in order: no part of the text is written twice or before an earlier
one, and what was there remains. Only `std::cout` is touched. -/
theorem C146_log_order (p : Printer σ) (w : World σ) : WrittenInOrder w.out (StreamFail.log (some p) w).2.out (opsText (p w.user).1) ∧ (StreamFail.log (some p) w).2.err = w.err := by
  rcases hp : p w.user with ⟨ops, ex, u⟩
  cases ex with
  | none =>
    rw [log_some p ops u w hp]
    exact ⟨(bind_flush (run ops) w.out _ (run_ran ops w.out)).1.inOrder, rfl⟩
  | some e =>
    have hr := run_ran ops w.out
    simp only [StreamFail.log, hp, Meth.bind_apply, Meth.bind, onOut]
    rcases h : run ops w.out with ⟨r, s1⟩
    rw [h] at hr
    rcases hr.ends with h' | h'
    · simp only at h'; subst h'; exact ⟨hr.inOrder, rfl⟩
    · simp only at h'; subst h'; exact ⟨hr.inOrder, rfl⟩

/-- C146: if `std::cout` is usable after `log`, then all that was printed has reached the device, and `log` has returned. -/
theorem C146_log_complete (p : Printer σ) (ops : List Op) (u : σ) (w : World σ) (hp : p w.user = (ops, none, u)) (h : (StreamFail.log (some p) w).2.out.bad = false) :
    (StreamFail.log (some p) w).1 = .ok () ∧ AllWritten w.out (StreamFail.log (some p) w).2.out (opsText ops) := by
  rw [log_some p ops u w hp] at h ⊢
  obtain ⟨h1, h2⟩ := bind_flush (run ops) w.out _ (run_ran ops w.out)
  obtain ⟨e1, -, e3⟩ := h1.good h
  have e4 := h2 h
  rw [e4, List.append_nil] at e3
  exact ⟨e1, h, e3, e4⟩

/-- C146: unless the program asked for exceptions `log` returns whatever the device does: failures show in the state of the stream only. -/
theorem C146_log_quiet (p : Printer σ) (ops : List Op) (u : σ) (w : World σ) (hp : p w.user = (ops, none, u)) (hm : w.out.mask = false) : (StreamFail.log (some p) w).1 = .ok () := by
  rw [log_some p ops u w hp]
  exact (bind_flush (run ops) w.out _ (run_ran ops w.out)).1.quiet hm

/-- C146: if the program asked for exceptions, then `log` either has written everything or throws `std::ios_base::failure`. -/
theorem C146_log_told (p : Printer σ) (ops : List Op) (u : σ) (w : World σ) (hp : p w.user = (ops, none, u)) (hm : w.out.mask = true) (hb : w.out.bad = false) :
    ((StreamFail.log (some p) w).1 = .ok () ∧ AllWritten w.out (StreamFail.log (some p) w).2.out (opsText ops)) ∨
    ((StreamFail.log (some p) w).1 = .throw failure ∧ (StreamFail.log (some p) w).2.out.bad = true) := by
  have h := (bind_flush (run ops) w.out _ (run_ran ops w.out)).1
  cases hb' : (StreamFail.log (some p) w).2.out.bad with
  | false => exact .inl (C146_log_complete p ops u w hp hb')
  | true =>
    rw [log_some p ops u w hp] at hb' ⊢
    rcases h.ends with hr | hr
    · have := h.told hm hr
      rw [hb] at this
      exact absurd (hb'.symm.trans this) (by simp)
    · exact .inr ⟨hr, rfl⟩

/-- C146: once `std::cout` has failed all further text is lost, until the program clears its state. -/
theorem C146_log_lost (p : Printer σ) (ops : List Op) (u : σ) (w : World σ) (hp : p w.user = (ops, none, u)) (hb : w.out.bad = true) :
    (StreamFail.log (some p) w).2.out.done = w.out.done ∧ (StreamFail.log (some p) w).2.out.bad = true := by
  rw [log_some p ops u w hp]
  have h := (bind_flush (run ops) w.out _ (run_ran ops w.out)).1.lost hb
  exact ⟨h.1, h.2.2⟩

/-- C146: `logcat` is the same with the texts of its arguments. -/
theorem C146_logcat (s : List (List Byte)) (w : World σ) :
    WrittenInOrder w.out (StreamFail.logcat s w).2.out s.flatten ∧ (w.out.mask = false → (StreamFail.logcat s w).1 = .ok ()) ∧
    ((StreamFail.logcat s w).2.out.bad = false → AllWritten w.out (StreamFail.logcat s w).2.out s.flatten) := by
  have ht : ∀ s : List (List Byte), opsText (s.map .put ++ [.flush]) = s.flatten := by
    intro s
    induction s with
    | nil => rfl
    | cons t s ih => rw [List.map_cons, List.cons_append, opsText, ih]; rfl
  rw [StreamFail.logcat, ← ht s]
  exact ⟨(C146_log_order _ w).1, fun hm => C146_log_quiet _ _ _ w rfl hm, fun hb => (C146_log_complete _ _ _ w rfl hb).2⟩

/-- C146: an assertion whose condition is false does not return, whatever happens to `std::cerr`. Unless the program asked `std::cerr` for exceptions, it aborts. The message is complete on the device
if the stream is usable then, and a beginning of it otherwise. If the program asked for exceptions and the device fails, it throws `std::ios_base::failure` instead of aborting. -/
theorem C146_assert (tty : Bool) (line column : BitVec 32) (file : List Byte) (print : Option (Assert.Printer σ)) (w : World σ) (text : Option (List Byte)) (u : σ)
    (hp : match print with | none => text = none ∧ u = w.user | some p => ∃ t, text = some t ∧ p w.user = (t, none, u)) :
    ∃ r s', StreamFail.assertAlways tty false print ⟨line, column, some file⟩ w = (r, ⟨w.out, s', u⟩) ∧
      (r = .abort ∨ (r = .throw failure ∧ w.err.mask = true ∧ s'.bad = true)) ∧
      WrittenInOrder w.err s' (assertMessage tty file line.toNat text) ∧ (s'.bad = false → AllWritten w.err s' (assertMessage tty file line.toNat text)) := by
  have main : ∀ (ss : List Byte) (w' : World σ), w'.err = w.err → w'.out = w.out → w'.user = u → ss ++ [0x0a#8] = assertMessage tty file line.toNat text →
      ∃ r s', report ss w' = (r, ⟨w.out, s', u⟩) ∧ (r = .abort ∨ (r = .throw failure ∧ w.err.mask = true ∧ s'.bad = true)) ∧
      WrittenInOrder w.err s' (assertMessage tty file line.toNat text) ∧ (s'.bad = false → AllWritten w.err s' (assertMessage tty file line.toNat text)) := by
    rintro ss w' he ho hu hs
    obtain ⟨r, s', hran, hpend, hrep⟩ := report_eq ss w'
    rw [he, hs] at hran
    refine ⟨_, s', by rw [hrep, ← ho, ← hu], ?_, hran.inOrder, fun hb => ⟨hb, ?_, hpend hb⟩⟩
    · rcases hran.ends with rfl | rfl
      · exact .inl rfl
      · refine .inr ⟨rfl, ?_, ?_⟩
        · cases hm : w.err.mask with
          | true => rfl
          | false => exact absurd (hran.quiet hm) (by simp)
        · cases hb : s'.bad with
          | true => rfl
          | false => exact absurd (hran.good hb).1 (by simp)
    · have := (hran.good hb).2.2
      rwa [hpend hb, List.append_nil] at this
  cases print with
  | none =>
    obtain ⟨rfl, rfl⟩ := hp
    unfold StreamFail.assertAlways
    simp only [Bool.false_eq_true, if_false]
    exact main _ w rfl rfl rfl (by cases tty <;> simp [assertMessage, str])
  | some p =>
    obtain ⟨t, rfl, hpw⟩ := hp
    unfold StreamFail.assertAlways
    simp only [Bool.false_eq_true, if_false, hpw]
    exact main _ ⟨w.out, w.err, u⟩ rfl rfl rfl (by cases tty <;> simp [assertMessage, str])

/-- C146, limit: a program that asked `std::cerr` for exceptions sees an exception instead of an abort if the first transfer of the message fails. -/
theorem C146_assert_throws (tty : Bool) (line column : BitVec 32) (file : List Byte) (w : World σ) (hm : w.err.mask = true) (hb : w.err.bad = false) (hu : w.err.unit = true)
    (k : Nat) (rest : List (Option Nat)) (hd : w.err.plan = some k :: rest) :
    (StreamFail.assertAlways tty false none ⟨line, column, some file⟩ w).1 = .throw failure := by
  unfold StreamFail.assertAlways
  simp only [Bool.false_eq_true, if_false, report, Meth.bind_apply, Meth.bind, onErr, run, put, hb, hu, Bool.true_or, if_true, transfer, hd, refuse, hm]

/-- C146: an assertion returns only if its condition is true. -/
theorem C146_returns_iff (tty c : Bool) (print : Option (Assert.Printer σ)) (loc : Assert.Location) (w : World σ) :
    (StreamFail.assertAlways tty c print loc w).1 = .ok () ↔ c = true := by
  constructor
  · intro h
    cases c with
    | true => rfl
    | false =>
      exfalso
      have rep : ∀ ss (w : World σ), (report ss w).1 ≠ .ok () := by
        intro ss w
        obtain ⟨r, s', hran, -, hrep⟩ := report_eq ss w
        rw [hrep]
        rcases hran.ends with rfl | rfl <;> simp
      unfold StreamFail.assertAlways at h
      simp only [Bool.false_eq_true, if_false] at h
      rcases loc with ⟨l, c, _ | file⟩
      · simp at h
      · cases print with
        | none => exact rep _ _ h
        | some p =>
          simp only at h
          rcases hp : p w.user with ⟨t, _ | e, u⟩
          · rw [hp] at h; exact rep _ _ h
          · rw [hp] at h; simp at h
  · rintro rfl; rfl

/-! A device that takes three more bytes and fails. -/
private def exFull (mask unit : Bool) : Stream := ⟨str "ab", str "c", false, mask, unit, [], [some 3]⟩

/-- The first call of `log` fails at its end, and the second one is lost. -/
example : (do StreamFail.logcat [str "12", str "345"]; StreamFail.logcat [str "6"] : Meth (World Nat) Unit) ⟨exFull false false, exFull false true, 0⟩ =
    (.ok (), ⟨⟨str "abc12", str "345", true, false, false, [], []⟩, exFull false true, 0⟩) := by
  simp [StreamFail.logcat, StreamFail.log, Meth.bind_apply, Meth.bind, onOut, run, put, flush, transfer, refuse, exFull, str, Meth.lift]

example : (exFull true false).mask = true ∧ (exFull true false).bad = false := ⟨rfl, rfl⟩

/-- A failed assertion that throws. -/
example : (StreamFail.assertAlways false false none ⟨1, 0, some (str "f.cpp")⟩ (⟨exFull true false, exFull true true, 0⟩ : World Nat)).1 = .throw failure :=
  C146_assert_throws _ _ _ _ _ rfl rfl rfl 3 [] rfl

end Utki
