import Verif.Lemmas.ExceptionText
import Verif.Props.Exception
/-!
# C93: the text `what()` points to

The C++ standard promises for every `std::exception` that the text `what()` points to stays available until the exception object is destroyed or a
non-const member function of it is called ([exception]/6), and `what()` itself is const.
-/
namespace Utki
open ExceptionText Exception Spec

/-- C93, part: after a call of `what()` of the exception `i`, the text it returned can be read, and is the report of that exception, as long as the
exception is neither destroyed nor asked again for its text, whatever else happens, other exceptions and copies of this one included.
Missing: asking again (`C93_wrong`). -/
theorem C93_text_stays_partial (h1 h2 : List Op) (s1 s2 : St) (i : Nat) (o : Obj) (text : List Byte)
    (r1 : run h1 init = some s1) (exists_ : s1.objs[i]? = some (some o)) (ht : Exception.what o.exc = .ok text)
    (r2 : run (.what i true :: h2) s1 = some s2) (kept : ∀ op ∈ h2, op ≠ .destroy i ∧ op ≠ .what i true) :
    (readText s1.ptrs.length s2).1 = .ok text := by
  have inv1 := run_inv h1 inv_init r1
  have inv2 := run_inv _ inv1 r2
  obtain ⟨m, hs, hr⟩ := run_cons r2
  have hl := lt_of_some exists_
  have d := step_did hs
  have key : ∃ b, m.objs[i]? = some (some ⟨o.exc, some b⟩) ∧ m.ptrs[s1.ptrs.length]? = some (.buf b) := by
    cases d with
    | what0 _ _ e t hi _ =>
      rw [exists_] at hi; simp only [Option.some.injEq] at hi; subst hi
      exact ⟨_, by simp only []; rw [List.getElem?_set_self hl], by simp⟩
    | what _ _ e b t u hi _ _ =>
      rw [exists_] at hi; simp only [Option.some.injEq] at hi; subst hi
      exact ⟨_, by simp only []; rw [List.getElem?_set_self hl], by simp⟩
  obtain ⟨b, ho, hp⟩ := key
  have ho2 := run_keeps h2 hr ho kept
  have hp2 := run_ptrs h2 hr hp
  obtain ⟨t, hb, hw⟩ := inv2.text i o.exc b ho2
  rw [ht] at hw
  simp only [Res.ok.injEq] at hw
  subst hw
  simp only [readText, hp2, textOf, hb]

/-- C93 fails: after a second call of the const function `what()`, the text returned by the first one has been freed, although the exception still
exists. -/
theorem C93_wrong (e : Exc) (text : List Byte) (ht : Exception.what e = .ok text) :
    ∃ s, run [.throwNested e, .what 0 true, .what 0 true] init = some s ∧ (∃ d, s.objs[0]? = some (some ⟨e, d⟩)) ∧
      (readText 0 s).1 = .ub .use_after_free ∧ (readText 1 s).1 = .ok text := by
  refine ⟨⟨[none, some text], [some ⟨e, some 1⟩], [.buf 0, .buf 1]⟩, ?_, ⟨_, rfl⟩, rfl, rfl⟩
  simp [run, step, throwObj, init, ExceptionText.what, obj_bind, alloc_bind, free_bind, free_none_bind, Meth.set, ht]

/-- C93: a call that finds no memory returns a text that can always be read, even after the exception was destroyed. (By
`C93_text_stays_partial` it leaves the texts returned before as they are.) -/
theorem C93_no_memory (h2 : List Op) (s1 s2 : St) (i : Nat) (r2 : run (.what i false :: h2) s1 = some s2) :
    (readText s1.ptrs.length s2).1 = .ok (str "std::bad_alloc") := by
  obtain ⟨m, hs, hr⟩ := run_cons r2
  have d := step_did hs
  have hp : m.ptrs[s1.ptrs.length]? = some (.lit (str "std::bad_alloc")) := by
    cases d with
    | failed => simp
  simp only [readText, run_ptrs h2 hr hp]

/-- C93: whatever happened before, `what()`, copying and destroying an exception that exists never free a buffer twice or touch a freed one. Only
`what()` of an exception thrown outside of any `catch` block can end the program (C64). -/
theorem C93_defined (h : List Op) (s : St) (r : run h init = some s) (i : Nat) (o : Obj) (exists_ : s.objs[i]? = some (some o)) :
    (∃ s', step (.copy i) s = (.ok (), s')) ∧ (∃ s', step (.destroy i) s = (.ok (), s')) ∧
    ∀ text, Exception.what o.exc = .ok text → ∀ memory, ∃ s', step (.what i memory) s = (.ok (), s') := by
  have inv := run_inv h inv_init r
  obtain ⟨e, d⟩ := o
  have hob : obj i s = (.ok ⟨e, d⟩, s) := by simp only [obj, exists_]
  have hbuf : ∀ b, d = some b → ∃ t, s.bufs[b]? = some (some t) := by
    rintro b rfl
    obtain ⟨t, ht, _⟩ := inv.text i e b exists_
    exact ⟨t, ht⟩
  refine ⟨?_, ?_, ?_⟩
  · simp only [step, copyObj]
    rw [Meth.bind_ok hob]
    cases d with
    | none => exact ⟨_, rfl⟩
    | some b =>
      obtain ⟨t, ht⟩ := hbuf b rfl
      simp only []
      rw [Meth.bind_ok (by simp only [textOf, ht]; rfl), Meth.bind_ok (by simp only [alloc]; rfl)]
      exact ⟨_, rfl⟩
  · simp only [step, ExceptionText.destroy]
    rw [Meth.bind_ok hob]
    cases d with
    | none => exact ⟨_, rfl⟩
    | some b =>
      obtain ⟨t, ht⟩ := hbuf b rfl
      rw [Meth.bind_ok (by simp only [free, ht]; rfl)]
      exact ⟨_, rfl⟩
  · intro text hw memory
    simp only [step, ExceptionText.what]
    rw [Meth.bind_ok hob]
    simp only [hw, Meth.lift_ok_bind]
    cases memory with
    | false => exact ⟨_, rfl⟩
    | true =>
      simp only [if_true]
      rw [Meth.bind_ok (by simp only [alloc]; rfl)]
      cases d with
      | none => exact ⟨_, rfl⟩
      | some b =>
        obtain ⟨t, ht⟩ := hbuf b rfl
        have ht' : (s.bufs ++ [some text])[b]? = some (some t) := by rw [List.getElem?_append_left (lt_of_some ht)]; exact ht
        rw [Meth.bind_ok (by simp only [free, ht']; rfl)]
        exact ⟨_, rfl⟩

/-- C93: when all exceptions have been destroyed, no buffer is left. -/
theorem C93_no_leak (h : List Op) (s : St) (r : run h init = some s) (gone : ∀ (i : Nat) (o : Obj), s.objs[i]? ≠ some (some o)) :
    ∀ (b : Nat) (t : List Byte), s.bufs[b]? ≠ some (some t) := by
  intro b t hb
  obtain ⟨i, e, hi⟩ := (run_inv h inv_init r).used b t hb
  exact gone i _ hi

/-- C93: the text never fits in the string object itself (up to 22 bytes, depending on the library), because it has at least 23 bytes. Type names
are not empty. -/
theorem C93_long_text (type : List Byte) (n i : Exc) (text : List Byte) (hn : typeName n ≠ []) (ht : Exception.what (.stack type n i) = .ok text) :
    23 ≤ text.length := by
  rw [what_stack] at ht
  cases hm : member (.stack type n i) (str "- ") with
  | ok m =>
    rw [hm] at ht
    replace ht : Res.ok (str "exception stack:\n" ++ m) = Res.ok text := ht
    simp only [Res.ok.injEq] at ht
    subst ht
    rw [member] at hm
    cases ha : Exception.toString n [] with
    | ok a =>
      rw [ha] at hm
      have la : 3 ≤ a.length := by
        rw [Exception.toString] at ha
        cases hw : Exception.what n with
        | ok w =>
          rw [hw] at ha
          have hpos : 1 ≤ (typeName n).length := by
            cases htn : typeName n with
            | nil => exact absurd htn hn
            | cons => simp
          have h2 : (str ": ").length = 2 := rfl
          have fin : ∀ x : List Byte, Res.ok (typeName n ++ str ": " ++ w ++ x) = Res.ok a → 3 ≤ a.length := by
            intro x hx
            simp only [Res.ok.injEq] at hx
            rw [← hx]
            simp only [List.length_append]
            omega
          cases n with
          | nest k t w' j =>
            simp only [bind, Res.bind, List.nil_append] at ha
            split at ha
            · cases hj : Exception.toString j [] with
              | ok x =>
                rw [hj] at ha
                simp only [pure] at ha
                rw [List.append_assoc _ (str "\n")] at ha
                exact fin _ ha
              | _ => rw [hj] at ha; simp at ha
            · cases hj : current j [] with
              | ok x =>
                rw [hj] at ha
                simp only [pure] at ha
                rw [List.append_assoc _ (str "\n")] at ha
                exact fin _ ha
              | _ => rw [hj] at ha; simp at ha
          | nestNull => simp [bind, Res.bind] at ha
          | _ =>
            simp only [bind, Res.bind, pure, List.nil_append] at ha
            exact fin [] (by rw [List.append_nil]; exact ha)
        | _ => rw [hw] at ha; simp [bind, Res.bind] at ha
      have fin : ∀ b : List Byte, Res.ok (str "- " ++ a ++ str "\n" ++ b) = Res.ok m → 23 ≤ (str "exception stack:\n" ++ m).length := by
        intro b hb
        simp only [Res.ok.injEq] at hb
        rw [← hb]
        have e1 : (str "- ").length = 2 := rfl
        have e2 : (str "\n").length = 1 := rfl
        have e3 : (str "exception stack:\n").length = 17 := rfl
        simp only [List.length_append, e1, e2, e3]
        omega
      simp only [bind, Res.bind] at hm
      split at hm
      · cases hb : member i (str "- ") with
        | ok b => rw [hb] at hm; exact fin b hm
        | _ => rw [hb] at hm; simp at hm
      · split at hm
        · cases hb : Exception.toString i (str "- ") with
          | ok b => rw [hb] at hm; exact fin b hm
          | _ => rw [hb] at hm; simp at hm
        · cases hb : current i (str "- ") with
          | ok b => rw [hb] at hm; exact fin b hm
          | _ => rw [hb] at hm; simp at hm
    | _ => rw [ha] at hm; simp [bind, Res.bind] at hm
  | _ => rw [hm] at ht; simp [Res.bind] at ht

/-- C93: threads that each call `what()` of an exception object of their own, any number of them and any number of times, never free a buffer
twice, in any schedule. -/
theorem C93_threads_partial (objOf : Nat → Nat) (own : ∀ i j, objOf i = objOf j → i = j) (ks : List Nat) :
    ∃ s, schedule objOf ks Shared.start = .ok s := by
  obtain ⟨s, h, _⟩ := schedule_ok own ks (sinv_start objOf)
  exact ⟨s, h⟩

/-- C93 fails for threads too: two threads that call `what()` of the same exception, for instance one that both got from the same
`std::exception_ptr`, can free the same buffer twice. -/
theorem C93_threads_wrong : ∃ ks : List Nat, (∀ k ∈ ks, k < 2) ∧ schedule (fun _ => 0) ks Shared.start = .ub .use_after_free :=
  ⟨[0, 0, 0, 0, 0, 0, 1, 1, 0, 0, 1, 1], by decide, rfl⟩

/-- The exception of three levels of C64: two objects, a copy, and a failed call; the first text stays while others come and go. -/
example : (∃ text, Exception.what threeLevels = .ok text) ∧
    ∀ op ∈ [Op.copy 0, .what 1 true, .what 0 false, .destroy 1], op ≠ .destroy 0 ∧ op ≠ .what 0 true := by
  refine ⟨?_, by simp⟩
  have h : Chain threeLevels := by simp [Chain, threeLevels, StdChain, isUtki]
  exact ⟨_, C64_what_format _ h⟩
example (e : Exc) (text : List Byte) (ht : Exception.what e = .ok text) :
    ∃ s, run [.throwNested e, .what 0 true, .copy 0, .what 1 true, .what 0 false, .destroy 1] init = some s ∧ (readText 0 s).1 = .ok text ∧
      (readText 1 s).1 = .ub .use_after_free ∧ (readText 2 s).1 = .ok (str "std::bad_alloc") := by
  refine ⟨⟨[some text, none, none], [some ⟨e, some 0⟩, none], [.buf 0, .buf 2, .lit (str "std::bad_alloc")]⟩, ?_, rfl, rfl, rfl⟩
  simp [run, step, throwObj, init, ExceptionText.what, copyObj, ExceptionText.destroy, obj_bind, alloc_bind, free_bind, free_none_bind, textOf_bind,
    Meth.set, ht]

/-- Two threads with their own exceptions. -/
example : ∃ s, schedule id [0, 0, 0, 0, 0, 0, 1, 1, 0, 0, 1, 1] Shared.start = .ok s := C93_threads_partial id (fun _ _ h => h) _

end Utki
