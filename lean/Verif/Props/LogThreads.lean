import Verif.Model.LogThreads
import Verif.Props.Assert
/-!
# C96: logging from several threads
-/
namespace Utki
namespace Spec

/-- The output consists of whole messages, those of each thread in their order; `rest` are the messages that are not in it. -/
inductive WholeMessages (texts : Nat → List (List Byte)) : List (Nat × Byte) → (Nat → List (List Byte)) → Prop where
  | none : WholeMessages texts [] texts
  | more (out : List (Nat × Byte)) (rest : Nat → List (List Byte)) (k : Nat) (m : List Byte) (r : List (List Byte)) :
      WholeMessages texts out rest → rest k = m :: r →
      WholeMessages texts (out ++ m.map (fun c => (k, c))) (fun j => if j = k then r else rest j)

end Spec
namespace LogThreads
open Spec

/-- The text that is still to be written. -/
def textOf : List Act → List Byte
  | [] => []
  | .write u :: as => u ++ textOf as
  | _ :: as => textOf as

theorem textOf_append (a b : List Act) : textOf (a ++ b) = textOf a ++ textOf b := by
  induction a with
  | nil => rfl
  | cons x a ih => cases x <;> simp [textOf, ih]

theorem textOf_writes (l : List (List Byte)) : textOf (l.map .write) = l.flatten := by
  induction l with
  | nil => rfl
  | cons x l ih => simp [textOf, ih]

theorem pieces_flatten (whole : Bool) (s : List (List Byte)) : (pieces whole s).flatten = s.flatten := by
  cases whole with
  | true => rfl
  | false =>
    simp only [pieces, Bool.false_eq_true, if_false]
    induction s.flatten with
    | nil => rfl
    | cons a t ih => simp [ih]

theorem textOf_call (locked whole : Bool) (s : List (List Byte)) : textOf (callActs locked whole s) = s.flatten := by
  cases locked with
  | false => simp only [callActs, Bool.false_eq_true, if_false]; rw [textOf_writes, pieces_flatten]
  | true => simp only [callActs, if_true, List.cons_append]; simp only [textOf]; rw [textOf_append, textOf_writes, pieces_flatten]; simp [textOf]

theorem textOf_thread (locked whole : Bool) (calls : List (List (List Byte))) : textOf (threadActs locked whole calls) = (calls.map List.flatten).flatten := by
  induction calls with
  | nil => rfl
  | cons c calls ih =>
    simp only [threadActs, List.map_cons, List.flatten_cons] at ih ⊢
    rw [textOf_append, textOf_call, ih]

/-- What thread `k` has written. -/
def by_ (k : Nat) (out : List (Nat × Byte)) : List Byte := (out.filter (fun x => x.1 == k)).map (·.2)

theorem by_append (k : Nat) (a b : List (Nat × Byte)) : by_ k (a ++ b) = by_ k a ++ by_ k b := by simp [by_]
theorem by_tag (k j : Nat) (u : List Byte) : by_ k (u.map (j, ·)) = if j = k then u else [] := by
  induction u with
  | nil => simp [by_]
  | cons a u ih =>
    simp only [by_] at ih ⊢
    by_cases h : j = k
    · simp [h] at ih ⊢; exact ih
    · simp [h]

theorem step_text (k j : Nat) (s : St) : by_ j (step k s).out ++ textOf ((step k s).todo j) = by_ j s.out ++ textOf (s.todo j) := by
  unfold step
  by_cases hjk : j = k
  · subst hjk
    cases h : s.todo j with
    | nil => simp [h, textOf]
    | cons a as =>
      cases a with
      | acquire =>
        simp only []
        by_cases hh : s.holder = none
        · simp [hh, upd, textOf]
        · simp [hh, h, textOf]
      | write u => simp [upd, by_append, by_tag, textOf]
      | release => simp [upd, textOf]
  · cases h : s.todo k with
    | nil => simp
    | cons a as =>
      cases a with
      | acquire =>
        simp only []
        by_cases hh : s.holder = none
        · simp [hh, upd, hjk]
        · simp [hh]
      | write u => simp [upd, hjk, by_append, by_tag, show ¬ k = j from fun e => hjk e.symm]
      | release => simp [upd, hjk]

theorem run_text (j : Nat) : ∀ (ks : List Nat) (s : St), by_ j (run ks s).out ++ textOf ((run ks s).todo j) = by_ j s.out ++ textOf (s.todo j)
  | [], _ => rfl
  | k :: ks, s => by rw [run, run_text j ks, step_text]

end LogThreads
open LogThreads Spec

/-- C96: whatever the threads log and however they are scheduled, what a thread has written is a beginning of what it was to write, in order, and all of it
when it is done: nothing is lost, doubled or reordered. -/
theorem C96_each_thread (locked whole : Bool) (calls : Nat → List (List (List Byte))) (ks : List Nat) (k : Nat) :
    let s := run ks (start locked whole calls)
    (∃ later, ((s.out.filter (fun x => x.1 == k)).map (·.2)) ++ later = ((calls k).map List.flatten).flatten) ∧
    (s.todo k = [] → (s.out.filter (fun x => x.1 == k)).map (·.2) = ((calls k).map List.flatten).flatten) := by
  have h := run_text k ks (start locked whole calls)
  rw [show by_ k (start locked whole calls).out = [] from rfl, List.nil_append,
    show (start locked whole calls).todo k = threadActs locked whole (calls k) from rfl, textOf_thread] at h
  refine ⟨⟨_, h⟩, fun hd => ?_⟩
  rw [hd] at h
  simpa [textOf, by_] using h

namespace LogThreads

/-- The invariant of calls that are one piece each. -/
def Single (texts : Nat → List (List Byte)) (s : St) : Prop :=
  ∃ rest, WholeMessages texts s.out rest ∧ ∀ k, s.todo k = (rest k).map .write

theorem step_single {texts : Nat → List (List Byte)} {s : St} (h : Single texts s) (k : Nat) : Single texts (step k s) := by
  obtain ⟨rest, hw, ht⟩ := h
  unfold step
  cases hr : rest k with
  | nil => rw [ht k, hr]; exact ⟨rest, hw, ht⟩
  | cons m r =>
    rw [ht k, hr]
    refine ⟨_, .more s.out rest k m r hw hr, fun j => ?_⟩
    by_cases hj : j = k
    · simp [upd, hj]
    · simp [upd, hj, ht j]

theorem run_single {texts : Nat → List (List Byte)} : ∀ (ks : List Nat) {s : St}, Single texts s → Single texts (run ks s)
  | [], _, h => h
  | k :: ks, _, h => run_single ks (step_single h k)

end LogThreads

/-- C96, part: if every call has one argument only, and the stream library writes it at once, the output consists of whole messages. Missing: calls with more
arguments, and libraries that promise no more than the standard (`C96_wrong`). -/
theorem C96_single_argument_partial (texts : Nat → List (List Byte)) (ks : List Nat) :
    let s := run ks (start false true (fun k => (texts k).map ([·])))
    ∃ rest, WholeMessages texts s.out rest ∧ ∀ k, (s.todo k = [] → rest k = []) := by
  have h0 : Single texts (start false true (fun k => (texts k).map ([·]))) := by
    refine ⟨texts, .none, fun k => ?_⟩
    simp only [start, threadActs, List.map_map]
    induction texts k with
    | nil => rfl
    | cons a l ih => simp [callActs, pieces] at ih ⊢; exact ih
  obtain ⟨rest, h1, h2⟩ := run_single ks h0
  refine ⟨rest, h1, fun k hk => ?_⟩
  rw [h2 k] at hk
  simpa using hk

namespace LogThreads

/-- The invariant of calls between locking and unlocking: while nobody holds the lock the output consists of whole messages, and the threads are between
calls; the holder has written a part of its message. -/
def Locked (whole : Bool) (calls : Nat → List (List (List Byte))) (s : St) : Prop :=
  match s.holder with
  | none => ∃ rest : Nat → List (List (List Byte)), WholeMessages (fun k => (calls k).map List.flatten) s.out (fun k => (rest k).map List.flatten) ∧
      ∀ k, s.todo k = threadActs true whole (rest k)
  | some h => ∃ (rest : Nat → List (List (List Byte))) (out : List (Nat × Byte)) (done todo : List (List Byte)) (m : List (List Byte)) (r : List (List (List Byte))),
      WholeMessages (fun k => (calls k).map List.flatten) out (fun k => (rest k).map List.flatten) ∧ rest h = m :: r ∧ done.flatten ++ todo.flatten = m.flatten ∧
      s.out = out ++ done.flatten.map (h, ·) ∧ s.todo h = todo.map .write ++ .release :: threadActs true whole r ∧
      ∀ k, k ≠ h → s.todo k = threadActs true whole (rest k)

theorem threadActs_cons (whole : Bool) (m : List (List Byte)) (r : List (List (List Byte))) :
    threadActs true whole (m :: r) = .acquire :: ((pieces whole m).map .write ++ .release :: threadActs true whole r) := by
  simp [threadActs, callActs]

theorem step_locked {whole : Bool} {calls : Nat → List (List (List Byte))} {s : St} (h : Locked whole calls s) (k : Nat) : Locked whole calls (step k s) := by
  obtain ⟨out0, todo0, holder⟩ := s
  cases holder with
  | none =>
    obtain ⟨rest, hw, ht⟩ := h
    simp only [] at hw ht
    cases hr : rest k with
    | nil =>
      have : step k ⟨out0, todo0, none⟩ = ⟨out0, todo0, none⟩ := by simp [step, ht k, hr, threadActs]
      rw [this]
      exact ⟨rest, hw, ht⟩
    | cons m r =>
      have hk := ht k
      rw [hr, threadActs_cons] at hk
      have : step k ⟨out0, todo0, none⟩ = ⟨out0, upd todo0 k ((pieces whole m).map .write ++ .release :: threadActs true whole r), some k⟩ := by
        simp [step, hk]
      rw [this]
      refine ⟨rest, out0, [], pieces whole m, m, r, hw, hr, by simp [pieces_flatten], by simp, by simp [upd], fun j hj => by simp [upd, hj, ht j]⟩
  | some h0 =>
    obtain ⟨rest, out, done, todo, m, r, hw, hr, hm, ho, hh, ht⟩ := h
    simp only [] at ho hh ht
    by_cases hk : k = h0
    · subst hk
      cases todo with
      | nil =>
        have hs : step k ⟨out0, todo0, some k⟩ = ⟨out0, upd todo0 k (threadActs true whole r), none⟩ := by
          simp [step, hh]
        rw [hs]
        refine ⟨fun j => if j = k then r else rest j, ?_, fun j => ?_⟩
        · have := WholeMessages.more out _ k m.flatten (r.map List.flatten) hw (by rw [hr]; rfl)
          have hm' : done.flatten = m.flatten := by simpa using hm
          rw [hm'] at ho
          simp only [ho]
          refine cast ?_ this
          congr 1
          funext j
          by_cases hj : j = k <;> simp [hj]
        · by_cases hj : j = k
          · subst hj; simp [upd]
          · simp [upd, hj, ht j hj]
      | cons u us =>
        have hs : step k ⟨out0, todo0, some k⟩ = ⟨out0 ++ u.map (k, ·), upd todo0 k (us.map .write ++ .release :: threadActs true whole r), some k⟩ := by
          simp [step, hh]
        rw [hs]
        refine ⟨rest, out, done ++ [u], us, m, r, hw, hr, by simpa using hm, by simp [ho], by simp [upd], fun j hj => by simp [upd, hj, ht j hj]⟩
    · have hs : step k ⟨out0, todo0, some h0⟩ = ⟨out0, todo0, some h0⟩ := by
        have := ht k hk
        cases hrk : rest k with
        | nil => simp [step, this, hrk, threadActs]
        | cons a b => rw [hrk, threadActs_cons] at this; simp [step, this]
      rw [hs]
      exact ⟨rest, out, done, todo, m, r, hw, hr, hm, ho, hh, ht⟩

theorem run_locked {whole : Bool} {calls : Nat → List (List (List Byte))} : ∀ (ks : List Nat) {s : St}, Locked whole calls s → Locked whole calls (run ks s)
  | [], _, h => h
  | k :: ks, _, h => run_locked ks (step_locked h k)

end LogThreads

/-- C96: if the threads log while they hold a common lock, then whenever nobody holds it the output consists of whole messages, whatever their arguments, even
if the stream writes single characters. -/
theorem C96_with_lock (whole : Bool) (calls : Nat → List (List (List Byte))) (ks : List Nat) :
    let s := run ks (start true whole calls)
    s.holder = none → ∃ rest, WholeMessages (fun k => (calls k).map List.flatten) s.out rest ∧ ∀ k, (s.todo k = [] → rest k = []) := by
  have h0 : Locked whole calls (start true whole calls) := ⟨calls, .none, fun _ => rfl⟩
  have h := run_locked ks h0
  intro s hn
  rw [show run ks (start true whole calls) = s from rfl] at h
  unfold Locked at h
  rw [hn] at h
  obtain ⟨rest, h1, h2⟩ := h
  refine ⟨_, h1, fun k hk => ?_⟩
  rw [h2 k] at hk
  cases hr : rest k with
  | nil => rfl
  | cons a b => rw [hr, threadActs_cons] at hk; cases hk

/-- C96 fails: `logcat("a", "b")` in one thread and `logcat("c", "d")` in another can come out as `acbd`, although each is described as concatenating its
arguments and then printing. So can `logcat("ab")` and `logcat("cd")` if the library promises no more than the standard. -/
theorem C96_wrong : ∃ (calls1 calls2 : Nat → List (List (List Byte))) (ks : List Nat),
    (calls1 0 = [[str "a", str "b"]] ∧ calls1 1 = [[str "c", str "d"]]) ∧ (calls2 0 = [[str "ab"]] ∧ calls2 1 = [[str "cd"]]) ∧
    ∀ s, s = run ks (start false true calls1) ∨ s = run ks (start false false calls2) →
      s.out.map (·.2) = str "acbd" ∧ s.todo 0 = [] ∧ s.todo 1 = [] ∧
      ¬ ∃ rest, WholeMessages (fun k => if k = 0 then [str "ab"] else if k = 1 then [str "cd"] else []) s.out rest := by
  refine ⟨fun k => if k = 0 then [[str "a", str "b"]] else if k = 1 then [[str "c", str "d"]] else [],
    fun k => if k = 0 then [[str "ab"]] else if k = 1 then [[str "cd"]] else [], [0, 1, 0, 1], ⟨rfl, rfl⟩, ⟨rfl, rfl⟩, ?_⟩
  intro s hs
  have ho : s.out = [(0, ch 'a'), (1, ch 'c'), (0, ch 'b'), (1, ch 'd')] := by rcases hs with rfl | rfl <;> rfl
  refine ⟨by rw [ho]; rfl, by rcases hs with rfl | rfl <;> rfl, by rcases hs with rfl | rfl <;> rfl, ?_⟩
  rw [ho]
  rintro ⟨rest, hw⟩
  generalize hout : [(0, ch 'a'), (1, ch 'c'), (0, ch 'b'), (1, ch 'd')] = out at hw
  have hin : ∀ {o r}, WholeMessages (fun k => if k = 0 then [str "ab"] else if k = 1 then [str "cd"] else []) o r →
      ∀ k, r k = [] ∨ (k = 0 ∧ r k = [str "ab"]) ∨ (k = 1 ∧ r k = [str "cd"]) := by
    intro o r h
    induction h with
    | none =>
      intro k
      by_cases h0 : k = 0
      · right; left; exact ⟨h0, by simp [h0]⟩
      · by_cases h1 : k = 1
        · right; right; exact ⟨h1, by simp [h1]⟩
        · left; simp [h0, h1]
    | more o r k m rr hh hr ih =>
      intro j
      by_cases hj : j = k
      · subst hj
        left
        rcases ih j with h | ⟨_, h⟩ | ⟨_, h⟩ <;> rw [hr] at h <;> simp at h <;> simp [h]
      · simp only [hj, if_false]; exact ih j
  cases hw with
  | none => simp at hout
  | more o r k m rr hh hr =>
    rcases hin hh k with h | ⟨rfl, h⟩ | ⟨rfl, h⟩ <;> rw [hr] at h
    · cases h
    · simp only [List.cons.injEq] at h
      obtain ⟨rfl, _⟩ := h
      have := congrArg List.getLast? hout
      simp [str] at this
    · simp only [List.cons.injEq] at h
      obtain ⟨rfl, _⟩ := h
      have := congrArg (fun l => l.reverse[1]?) hout
      simp [str] at this

theorem LogThreads.upToNul (t : List Byte) : 0#8 ∉ t.takeWhile (· ≠ 0) ∧
    (t.takeWhile (· ≠ 0) = t ∨ ∃ lost, t = t.takeWhile (· ≠ 0) ++ 0#8 :: lost) := by
  induction t with
  | nil => simp
  | cons a t ih =>
    by_cases ha : a = 0#8
    · subst ha; simp
    · rw [List.takeWhile_cons_of_pos (by simpa using ha)]
      refine ⟨?_, ?_⟩
      · intro hm
        rcases List.mem_cons.mp hm with hm | hm
        · exact ha hm.symm
        · exact ih.1 hm
      · rcases ih.2 with h | ⟨l, h⟩
        · left; rw [h]
        · right; exact ⟨l, by rw [List.cons_append, ← h]⟩

/-- C77 on Android: each call of `log` that returns gives one message, up to the first NUL character; if the function throws there is none. (On other systems,
`C77_log`, the text comes out in full, and if the function throws, what it has written before.) -/
theorem C77_android {σ : Type} (w : Android σ) (p : Assert.Printer σ) :
    logAndroid (none : Option (Assert.Printer σ)) w = (.ok (), w) ∧
    ((p w.user).2.1 = none → ∃ m, logAndroid (some p) w = (.ok (), ⟨w.messages ++ [m], (p w.user).2.2⟩) ∧ 0#8 ∉ m ∧
      (m = (p w.user).1 ∨ ∃ lost, (p w.user).1 = m ++ 0#8 :: lost)) ∧
    (∀ e, (p w.user).2.1 = some e → logAndroid (some p) w = (.throw e, ⟨w.messages, (p w.user).2.2⟩)) := by
  refine ⟨rfl, ?_, ?_⟩
  · rcases h : p w.user with ⟨t, e, u⟩
    rintro he
    simp only at he
    subst he
    exact ⟨t.takeWhile (· ≠ 0), by simp only [logAndroid, h], (upToNul t).1, (upToNul t).2⟩
  · rcases h : p w.user with ⟨t, e, u⟩
    rintro e' he
    simp only at he
    subst he
    simp only [logAndroid, h]

/-- Two threads of two calls each, with a lock, in a schedule in which both try to lock at the same time; then without lock. -/
example : let calls : Nat → List (List (List Byte)) := fun k => if k < 2 then [[str "x = ", str "1\n"], [str "y\n"]] else []
    (run [0, 1, 0, 1, 0, 0, 1, 1, 0, 1, 1, 0, 1, 0, 0, 0, 1, 1, 1, 1] (start true true calls)).holder = none ∧
    (run [0, 1, 0, 1, 0, 0, 1, 1, 0, 1, 1, 0, 1, 0, 0, 0, 1, 1, 1, 1] (start true true calls)).out.map (·.2) = str "x = 1\nx = 1\ny\ny\n" ∧
    (run [0, 1, 1, 0, 0, 1] (start false true calls)).out.map (·.2) = str "x = x = 1\n1\ny\ny\n" := by decide +kernel
example : (logAndroid (some (fun (u : Unit) => ([65#8, 0#8, 66#8], none, u))) ⟨[], ()⟩).2.messages = [str "A"] := by decide +kernel

end Utki
