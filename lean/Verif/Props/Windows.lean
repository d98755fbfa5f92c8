import Verif.Model.Windows
import Verif.Spec.Windows
import Verif.Lemmas.Config
/-!
# C120: windows.hpp
-/
namespace Utki
open Cpp Windows

theorem undef_run {e : Env} (x : String) (r : Text) : ∃ e1, (IF (.defd x) [UNDEF x] [] r).run e = r.run e1 ∧ e1.lookup x = none ∧ ∀ y, y ≠ x → e1.lookup y = e.lookup y := by
  show ∃ e1, (Text.cond (.defd x) (.undef x .done) .done r).run e = _ ∧ _
  rw [run_cond_eq]
  cases h : isDef e x with
  | true =>
    refine ⟨e.filter (fun m => m.1 != x), ?_, lookup_filter_self, fun y hy => lookup_filter hy⟩
    simp [Cond.eval, h, Text.run]
  | false =>
    refine ⟨e, ?_, ?_, fun _ _ => rfl⟩
    · simp [Cond.eval, h, Text.run]
    · unfold isDef at h
      cases hl : e.lookup x with
      | none => rfl
      | some b => rw [hl] at h; cases h

theorem guard_run {e : Env} (x : String) (r : Text) : ∃ e1, (IF (.defd x) [] [DEFINE x 1234567890] r).run e = r.run e1 ∧
    e1.lookup x = some ((e.lookup x).getD (.num 1234567890)) ∧ ∀ y, y ≠ x → e1.lookup y = e.lookup y := by
  show ∃ e1, (Text.cond (.defd x) .done (.define x (.num 1234567890) .done) r).run e = _ ∧ _
  rw [run_cond_eq]
  cases hl : e.lookup x with
  | none =>
    refine ⟨(x, .num 1234567890) :: e, ?_, lookup_cons_self, fun y hy => lookup_cons_ne hy⟩
    rw [show (Cond.defd x).eval e = some false by simp [Cond.eval, isDef, hl, -List.lookup_eq_none_iff]]
    simp only [Option.bind_some, Bool.false_eq_true, if_false]
    rw [run_define_fresh hl]
    rfl
  | some b =>
    refine ⟨e, ?_, by rw [hl]; rfl, fun _ _ => rfl⟩
    simp [Cond.eval, isDef, hl, Text.run]

theorem unguard_run {e : Env} (x : String) (r : Text) (hs : Spec.Simple (e.lookup x)) :
    ∃ e1, (IF (.plus0 x) [IF (.eqn x 1234567890) [UNDEF x] []] [] r).run e = r.run e1 ∧
      e1.lookup x = (if e.lookup x = some (.num 1234567890) then none else e.lookup x) ∧ ∀ y, y ≠ x → e1.lookup y = e.lookup y := by
  show ∃ e1, (Text.cond (.plus0 x) (.cond (.eqn x 1234567890) (.undef x .done) .done .done) .done r).run e = _ ∧ _
  rw [run_cond_eq]
  rcases hs with hl | hl | ⟨n, hl⟩
  · refine ⟨e, ?_, by simp [hl, -List.lookup_eq_none_iff], fun _ _ => rfl⟩
    simp [Cond.eval, hl, value_none hl, Text.run, -List.lookup_eq_none_iff]
  · refine ⟨e, ?_, by simp [hl], fun _ _ => rfl⟩
    simp [Cond.eval, hl, Text.run]
  · by_cases hn : n = 1234567890
    · subst hn
      refine ⟨e.filter (fun m => m.1 != x), ?_, by rw [if_pos hl]; exact lookup_filter_self, fun y hy => lookup_filter hy⟩
      simp [Cond.eval, hl, value_num hl, Text.run]
    · refine ⟨e, ?_, by simp [hl, hn], fun _ _ => rfl⟩
      by_cases h0 : n = 0
      · simp [Cond.eval, hl, value_num hl, Text.run, h0]
      · simp [Cond.eval, hl, value_num hl, Text.run, h0, beq_false_of_ne hn]

/-- C120: on Windows, whatever `<windows.h>` and the program define: `<windows.h>` is included with both macros defined that keep it from including `<winsock.h>`, and otherwise with the macros of
the program. If it leaves these two alone, then afterwards they are defined as they were before; `min`, `max` and `DELETE` are not defined; and all others are as `<windows.h>` left them.
(The two macros are not defined before, or empty, or some number other than the one windows.hpp uses.) -/
theorem C120_windows {e : Env} (hw : Spec.OnWindows e) (hs : ∀ x ∈ Spec.winsock, Spec.Simple (e.lookup x) ∧ e.lookup x ≠ some (.num 1234567890)) :
    ∃ e1, (∀ x ∈ Spec.winsock, isDef e1 x = true ∧ (e.lookup x ≠ none → e1.lookup x = e.lookup x)) ∧ (∀ x, x ∉ Spec.winsock → e1.lookup x = e.lookup x) ∧
      ∀ system : Env → Option Env, (system e1 = none → windows system e = none) ∧
        ∀ e2, system e1 = some e2 → (∀ x ∈ Spec.winsock, e2.lookup x = e1.lookup x) →
          ∃ e', windows system e = some e' ∧ (∀ x ∈ Spec.winsock, e'.lookup x = e.lookup x) ∧ (∀ x ∈ Spec.disturbing, isDef e' x = false) ∧
            ∀ x, x ∉ Spec.winsock → x ∉ Spec.disturbing → e'.lookup x = e2.lookup x := by
  obtain ⟨e0, r0, g0, s0⟩ := guard_run (e := e) "_WINSOCKAPI_" (.cond (.defd "_WINSOCK_H") .done (.define "_WINSOCK_H" (.num 1234567890) .done) .done)
  obtain ⟨e1, r1, g1, s1⟩ := guard_run (e := e0) "_WINSOCK_H" .done
  have hb : before.run e = some e1 := r0.trans r1
  have la : e1.lookup "_WINSOCKAPI_" = some ((e.lookup "_WINSOCKAPI_").getD (.num 1234567890)) := by rw [s1 _ (by decide), g0]
  have lh : e1.lookup "_WINSOCK_H" = some ((e.lookup "_WINSOCK_H").getD (.num 1234567890)) := by rw [g1, s0 _ (by decide)]
  have lw : ∀ x ∈ Spec.winsock, e1.lookup x = some ((e.lookup x).getD (.num 1234567890)) := by
    intro x hx
    simp only [Spec.winsock, List.mem_cons, List.not_mem_nil, or_false] at hx
    rcases hx with rfl | rfl
    · exact la
    · exact lh
  refine ⟨e1, fun x hx => ⟨?_, fun hn => ?_⟩, fun x hx => ?_, fun system => ⟨fun hsys => ?_, fun e2 hsys hk => ?_⟩⟩
  · unfold isDef; rw [lw x hx]; rfl
  · rw [lw x hx]
    cases hl : e.lookup x with
    | none => exact absurd hl hn
    | some b => rfl
  · simp only [Spec.winsock, List.mem_cons, List.not_mem_nil, or_false, not_or] at hx
    rw [s1 _ hx.2, s0 _ hx.1]
  · simp [windows, show _ = some true from hw, hb, hsys]
  · have simple : ∀ x ∈ Spec.winsock, Spec.Simple (e1.lookup x) := by
      intro x hx
      rw [lw x hx]
      rcases (hs x hx).1 with h | h | ⟨n, h⟩ <;> rw [h]
      · exact .inr (.inr ⟨_, rfl⟩)
      · exact .inr (.inl rfl)
      · exact .inr (.inr ⟨_, rfl⟩)
    have back : ∀ x ∈ Spec.winsock, (if e1.lookup x = some (.num 1234567890) then none else e1.lookup x) = e.lookup x := by
      intro x hx
      rw [lw x hx]
      have h2 := (hs x hx).2
      rcases (hs x hx).1 with h | h | ⟨n, h⟩ <;> rw [h] at h2 ⊢ <;> simp_all
    have ha := hk "_WINSOCKAPI_" (by simp [Spec.winsock])
    have hh := hk "_WINSOCK_H" (by simp [Spec.winsock])
    have hrest : after = IF (.plus0 "_WINSOCKAPI_") [IF (.eqn "_WINSOCKAPI_" 1234567890) [UNDEF "_WINSOCKAPI_"] []] []
      (IF (.plus0 "_WINSOCK_H") [IF (.eqn "_WINSOCK_H" 1234567890) [UNDEF "_WINSOCK_H"] []] []
      (IF (.defd "max") [UNDEF "max"] [] (IF (.defd "min") [UNDEF "min"] [] (IF (.defd "DELETE") [UNDEF "DELETE"] [] .done)))) := rfl
    obtain ⟨e3, r3, g3, s3⟩ := unguard_run (e := e2) "_WINSOCKAPI_" (IF (.plus0 "_WINSOCK_H") [IF (.eqn "_WINSOCK_H" 1234567890) [UNDEF "_WINSOCK_H"] []] []
      (IF (.defd "max") [UNDEF "max"] [] (IF (.defd "min") [UNDEF "min"] [] (IF (.defd "DELETE") [UNDEF "DELETE"] [] .done)))) (by rw [ha]; exact simple _ (by simp [Spec.winsock]))
    obtain ⟨e4, r4, g4, s4⟩ := unguard_run (e := e3) "_WINSOCK_H" (IF (.defd "max") [UNDEF "max"] [] (IF (.defd "min") [UNDEF "min"] [] (IF (.defd "DELETE") [UNDEF "DELETE"] [] .done)))
      (by rw [s3 _ (by decide), hh]; exact simple _ (by simp [Spec.winsock]))
    obtain ⟨e5, r5, g5, s5⟩ := undef_run (e := e4) "max" (IF (.defd "min") [UNDEF "min"] [] (IF (.defd "DELETE") [UNDEF "DELETE"] [] .done))
    obtain ⟨e6, r6, g6, s6⟩ := undef_run (e := e5) "min" (IF (.defd "DELETE") [UNDEF "DELETE"] [] .done)
    obtain ⟨e7, r7, g7, s7⟩ := undef_run (e := e6) "DELETE" .done
    have hrun : after.run e2 = some e7 := by rw [hrest, r3, r4, r5, r6, r7]; rfl
    refine ⟨e7, ?_, ?_, ?_, ?_⟩
    · simp [windows, show _ = some true from hw, hb, hsys, hrun]
    · intro x hx
      have hx' := hx
      simp only [Spec.winsock, List.mem_cons, List.not_mem_nil, or_false] at hx'
      rcases hx' with rfl | rfl
      · rw [s7 _ (by decide), s6 _ (by decide), s5 _ (by decide), s4 _ (by decide), g3, ha, back _ hx]
      · rw [s7 _ (by decide), s6 _ (by decide), s5 _ (by decide), g4, s3 _ (by decide), hh, back _ hx]
    · intro x hx
      simp only [Spec.disturbing, List.mem_cons, List.not_mem_nil, or_false] at hx
      unfold isDef
      rcases hx with rfl | rfl | rfl
      · rw [s7 _ (by decide), g6]; rfl
      · rw [s7 _ (by decide), s6 _ (by decide), g5]; rfl
      · rw [g7]; rfl
    · intro x h1 h2
      simp only [Spec.winsock, Spec.disturbing, List.mem_cons, List.not_mem_nil, or_false, not_or] at h1 h2
      rw [s7 _ h2.2.2, s6 _ h2.1, s5 _ h2.2.1, s4 _ h1.2, s3 _ h1.1]

/-- C120: `min`, `max` and `DELETE` are never left defined on Windows, whatever else happens. -/
theorem C120_min_max (system : Env → Option Env) {e e' : Env} (hw : Spec.OnWindows e) (h : windows system e = some e') : ∀ x ∈ Spec.disturbing, isDef e' x = false := by
  simp only [windows, show _ = some true from hw, Option.bind_eq_bind, Option.bind_some, if_true] at h
  obtain ⟨e1, _, h⟩ := Option.bind_eq_some_iff.mp h
  obtain ⟨e2, _, h⟩ := Option.bind_eq_some_iff.mp h
  have seq : ∀ (c : Cond) (t f : List (Text → Text)) (r : Text) (a b : Env), (IF c t f r).run a = some b → ∃ m, r.run m = some b := by
    intro c t f r a b h
    have h : (Text.cond c (.of t) (.of f) r).run a = some b := h
    rw [run_cond_eq] at h
    obtain ⟨_, _, h⟩ := Option.bind_eq_some_iff.mp h
    obtain ⟨m, _, h⟩ := Option.bind_eq_some_iff.mp h
    exact ⟨m, h⟩
  obtain ⟨e3, h⟩ := seq _ _ _ _ _ _ h
  obtain ⟨e4, h⟩ := seq _ _ _ _ _ _ h
  have h : (IF (.defd "max") [UNDEF "max"] [] (IF (.defd "min") [UNDEF "min"] [] (IF (.defd "DELETE") [UNDEF "DELETE"] [] .done))).run e4 = some e' := h
  obtain ⟨e5, r5, g5, s5⟩ := undef_run (e := e4) "max" (IF (.defd "min") [UNDEF "min"] [] (IF (.defd "DELETE") [UNDEF "DELETE"] [] .done))
  obtain ⟨e6, r6, g6, s6⟩ := undef_run (e := e5) "min" (IF (.defd "DELETE") [UNDEF "DELETE"] [] .done)
  obtain ⟨e7, r7, g7, s7⟩ := undef_run (e := e6) "DELETE" .done
  rw [r5, r6, r7] at h
  cases h
  intro x hx
  simp only [Spec.disturbing, List.mem_cons, List.not_mem_nil, or_false] at hx
  unfold isDef
  rcases hx with rfl | rfl | rfl
  · rw [s7 _ (by decide), g6]; rfl
  · rw [s7 _ (by decide), s6 _ (by decide), g5]; rfl
  · rw [g7]; rfl

/-- C120: on other systems nothing is included and no macro changed. -/
theorem C120_elsewhere (system : Env → Option Env) {e : Env} (hw : (Cond.eq "CFG_OS" "CFG_OS_WINDOWS").eval e = some false) : windows system e = some e := by
  simp [windows, hw]

/-- C120: after config.hpp it is always told whether the program is compiled for Windows. -/
theorem C120_told {e e' : Env} {s : Spec.Config.System} {c : Spec.Config.Compiler} {n : Int} (h : Spec.Config.Compilation e s c n) (he : Config.config e = some e') :
    (s = .windows → Spec.OnWindows e') ∧ (s ≠ .windows → (Cond.eq "CFG_OS" "CFG_OS_WINDOWS").eval e' = some false) := by
  obtain ⟨e'', h1, _, k1, _, _, _, o1, _⟩ := Config.config_run h
  cases he.symm.trans h1
  have := Config.windows_eval o1 k1
  exact ⟨fun hs => by unfold Spec.OnWindows; rw [this, decide_eq_true hs], fun hs => by rw [this, decide_eq_false hs]⟩

/-- A `<windows.h>` that defines `min`, `max` and `DELETE`, and includes `<winsock.h>` unless that is prevented. -/
def sampleSystem (e : Env) : Option Env :=
  (Text.of [IF (.defd "_WINSOCKAPI_") [] [DEFINE "_WINSOCKAPI_" 1, DEFINE "winsock_1" 1], .define "min" (.text "(a < b ? a : b)"), .define "max" (.text "(a > b ? a : b)"), DEFINE "DELETE" 65536,
    DEFINE "_WINDOWS_" 1]).run e

example : Spec.OnWindows [("CFG_OS", .name "CFG_OS_WINDOWS"), ("CFG_OS_WINDOWS", .num 2), ("_WINSOCK_H", .blank)] ∧
    (windows sampleSystem [("CFG_OS", .name "CFG_OS_WINDOWS"), ("CFG_OS_WINDOWS", .num 2), ("_WINSOCK_H", .blank)]).map (fun e => ["min", "max", "DELETE", "_WINSOCKAPI_", "_WINSOCK_H", "winsock_1",
      "_WINDOWS_"].map (isDef e)) = some [false, false, false, false, true, false, true] := by
  unfold Spec.OnWindows
  decide +kernel

example : ∀ x ∈ Spec.winsock, Spec.Simple (List.lookup x [("CFG_OS", .name "CFG_OS_WINDOWS"), ("CFG_OS_WINDOWS", .num 2), ("_WINSOCK_H", .blank)]) ∧
    List.lookup x [("CFG_OS", Body.name "CFG_OS_WINDOWS"), ("CFG_OS_WINDOWS", .num 2), ("_WINSOCK_H", .blank)] ≠ some (.num 1234567890) := by
  intro x hx
  simp only [Spec.winsock, List.mem_cons, List.not_mem_nil, or_false] at hx
  rcases hx with rfl | rfl
  · exact ⟨.inl (by decide +kernel), by decide +kernel⟩
  · exact ⟨.inr (.inl (by decide +kernel)), by decide +kernel⟩

end Utki
