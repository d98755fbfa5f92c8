import Verif.Model.ExceptionText
/-!
# Invariant of the buffers of `description`
-/
namespace Utki
namespace ExceptionText
open Exception

/-- Buffer `b` belongs to object `i`. -/
def Owns (s : St) (i b : Nat) : Prop := ∃ e, s.objs[i]? = some (some ⟨e, some b⟩)

/-- Every `description` has its own existing buffer with the right text, and every existing buffer belongs to an object. -/
structure Inv (s : St) : Prop where
  text : ∀ (i : Nat) (e : Exc) (b : Nat), s.objs[i]? = some (some ⟨e, some b⟩) → ∃ t, s.bufs[b]? = some (some t) ∧ Exception.what e = .ok t
  own : ∀ i j b : Nat, Owns s i b → Owns s j b → i = j
  used : ∀ (b : Nat) (t : List Byte), s.bufs[b]? = some (some t) → ∃ i, Owns s i b

theorem inv_init : Inv init := ⟨by simp [init], by simp [Owns, init], by simp [init]⟩

theorem lt_of_some {α : Type} {l : List α} {n : Nat} {a : α} (h : l[n]? = some a) : n < l.length := by
  rcases Nat.lt_or_ge n l.length with h1 | h1
  · exact h1
  · rw [List.getElem?_eq_none h1] at h; cases h

theorem append_some {α : Type} {l : List α} {x a : α} {n : Nat} (h : (l ++ [x])[n]? = some a) : l[n]? = some a ∨ (n = l.length ∧ a = x) := by
  have hn := lt_of_some h
  simp only [List.length_append, List.length_singleton] at hn
  by_cases h1 : n < l.length
  · rw [List.getElem?_append_left h1] at h; exact .inl h
  · have : n = l.length := by omega
    subst this
    simp at h
    exact .inr ⟨rfl, h.symm⟩

theorem set_some {α : Type} {l : List α} {x a : α} {n i : Nat} (h : (l.set i x)[n]? = some a) : (n ≠ i ∧ l[n]? = some a) ∨ (n = i ∧ a = x) := by
  by_cases e : i = n
  · subst e
    have hn := lt_of_some h
    simp only [List.length_set] at hn
    rw [List.getElem?_set_self hn] at h
    exact .inr ⟨rfl, by simpa using h.symm⟩
  · rw [List.getElem?_set_ne e] at h
    exact .inl ⟨fun h => e h.symm, h⟩

/-- What a step that succeeds does. -/
inductive Did : Op → St → St → Prop where
  | throwNested (s e) : Did (.throwNested e) s { s with objs := s.objs ++ [some ⟨e, none⟩] }
  | copy0 (s i e) : s.objs[i]? = some (some ⟨e, none⟩) → Did (.copy i) s { s with objs := s.objs ++ [some ⟨e, none⟩] }
  | copy (s i e b t) : s.objs[i]? = some (some ⟨e, some b⟩) → s.bufs[b]? = some (some t) →
      Did (.copy i) s { s with bufs := s.bufs ++ [some t], objs := s.objs ++ [some ⟨e, some s.bufs.length⟩] }
  | what0 (s i e t) : s.objs[i]? = some (some ⟨e, none⟩) → Exception.what e = .ok t →
      Did (.what i true) s ⟨s.bufs ++ [some t], s.objs.set i (some ⟨e, some s.bufs.length⟩), s.ptrs ++ [.buf s.bufs.length]⟩
  | what (s i e b t u) : s.objs[i]? = some (some ⟨e, some b⟩) → Exception.what e = .ok t → (s.bufs ++ [some t])[b]? = some (some u) →
      Did (.what i true) s ⟨(s.bufs ++ [some t]).set b none, s.objs.set i (some ⟨e, some s.bufs.length⟩), s.ptrs ++ [.buf s.bufs.length]⟩
  | failed (s i o t) : s.objs[i]? = some (some o) → Exception.what o.exc = .ok t →
      Did (.what i false) s { s with ptrs := s.ptrs ++ [.lit (str "std::bad_alloc")] }
  | destroy0 (s i e) : s.objs[i]? = some (some ⟨e, none⟩) → Did (.destroy i) s { s with objs := s.objs.set i none }
  | destroy (s i e b t) : s.objs[i]? = some (some ⟨e, some b⟩) → s.bufs[b]? = some (some t) →
      Did (.destroy i) s { s with bufs := s.bufs.set b none, objs := s.objs.set i none }

theorem obj_cases (i : Nat) (s : St) : (∃ o, s.objs[i]? = some (some o) ∧ obj i s = (.ok o, s)) ∨
    ((∀ o, s.objs[i]? ≠ some (some o)) ∧ obj i s = (.ub .bad_pointer, s)) := by
  unfold obj
  split <;> rename_i h
  · exact .inl ⟨_, h, rfl⟩
  · exact .inr ⟨fun o ho => h o ho, rfl⟩

theorem step_did {op : Op} {s s' : St} (h : step op s = (.ok (), s')) : Did op s s' := by
  cases op with
  | throwNested e => simp only [step, throwObj, Prod.mk.injEq, true_and] at h; subst h; exact .throwNested s e
  | copy i =>
    simp only [step, copyObj] at h
    rcases obj_cases i s with ⟨o, ho, hr⟩ | ⟨_, hr⟩
    · obtain ⟨e, d⟩ := o
      rw [Meth.bind_ok hr] at h
      cases d with
      | none => simp only [throwObj, Prod.mk.injEq, true_and] at h; subst h; exact .copy0 s i e ho
      | some b =>
        simp only [] at h
        cases hb : s.bufs[b]? with
        | none => rw [Meth.bind_ub (by simp only [textOf, hb]; rfl)] at h; simp at h
        | some x =>
          cases x with
          | none => rw [Meth.bind_ub (by simp only [textOf, hb]; rfl)] at h; simp at h
          | some t =>
            rw [Meth.bind_ok (by simp only [textOf, hb]; rfl), Meth.bind_ok (by simp only [alloc]; rfl)] at h
            simp only [Meth.get_bind, Meth.set, Prod.mk.injEq, true_and] at h
            subst h
            exact .copy s i e b t ho hb
    · rw [Meth.bind_ub hr] at h; simp at h
  | what i m =>
    simp only [step, what] at h
    rcases obj_cases i s with ⟨o, ho, hr⟩ | ⟨_, hr⟩
    · obtain ⟨e, d⟩ := o
      rw [Meth.bind_ok hr] at h
      simp only [] at h
      cases ht : Exception.what e with
      | ok t =>
        rw [ht] at h
        simp only [Meth.lift_ok_bind] at h
        cases m with
        | false =>
          simp only [Bool.false_eq_true, if_false, Meth.get_bind, Meth.set, Prod.mk.injEq, true_and] at h
          subst h
          exact .failed s i ⟨e, d⟩ t ho ht
        | true =>
          simp only [if_true] at h
          rw [Meth.bind_ok (by simp only [alloc]; rfl)] at h
          cases d with
          | none =>
            simp only [free, Meth.pure_bind, Meth.get_bind, Meth.set, Prod.mk.injEq, true_and] at h
            subst h
            exact .what0 s i e t ho ht
          | some b =>
            cases hb : (s.bufs ++ [some t])[b]? with
            | none => rw [Meth.bind_ub (by simp only [free, hb]; rfl)] at h; simp at h
            | some x =>
              cases x with
              | none => rw [Meth.bind_ub (by simp only [free, hb]; rfl)] at h; simp at h
              | some u =>
                rw [Meth.bind_ok (by simp only [free, hb]; rfl)] at h
                simp only [Meth.get_bind, Meth.set, Prod.mk.injEq, true_and] at h
                subst h
                exact .what s i e b t u ho ht hb
      | throw x => rw [ht] at h; simp [Meth.bind_apply, Meth.bind, Meth.lift] at h
      | ub x => rw [ht] at h; simp [Meth.bind_apply, Meth.bind, Meth.lift] at h
      | abort => rw [ht] at h; simp [Meth.bind_apply, Meth.bind, Meth.lift] at h
      | terminate => rw [ht] at h; simp [Meth.bind_apply, Meth.bind, Meth.lift] at h
      | diverge => rw [ht] at h; simp [Meth.bind_apply, Meth.bind, Meth.lift] at h
    · rw [Meth.bind_ub hr] at h; simp at h
  | destroy i =>
    simp only [step, destroy] at h
    rcases obj_cases i s with ⟨o, ho, hr⟩ | ⟨_, hr⟩
    · obtain ⟨e, d⟩ := o
      rw [Meth.bind_ok hr] at h
      cases d with
      | none =>
        simp only [free, Meth.pure_bind, Meth.get_bind, Meth.set, Prod.mk.injEq, true_and] at h
        subst h
        exact .destroy0 s i e ho
      | some b =>
        cases hb : s.bufs[b]? with
        | none => rw [Meth.bind_ub (by simp only [free, hb]; rfl)] at h; simp at h
        | some x =>
          cases x with
          | none => rw [Meth.bind_ub (by simp only [free, hb]; rfl)] at h; simp at h
          | some u =>
            rw [Meth.bind_ok (by simp only [free, hb]; rfl)] at h
            simp only [Meth.get_bind, Meth.set, Prod.mk.injEq, true_and] at h
            subst h
            exact .destroy s i e b u ho hb
    · rw [Meth.bind_ub hr] at h; simp at h

theorem obj_bind {β : Type} {i : Nat} {s : St} {o : Obj} (h : s.objs[i]? = some (some o)) (f : Obj → Meth St β) : (obj i >>= f) s = f o s :=
  Meth.bind_ok (by simp only [obj, h])
theorem alloc_bind {β : Type} (t : List Byte) (s : St) (f : Nat → Meth St β) :
    (alloc t >>= f) s = f s.bufs.length { s with bufs := s.bufs ++ [some t] } := Meth.bind_ok rfl
theorem free_bind {β : Type} {b : Nat} {s : St} {t : List Byte} (h : s.bufs[b]? = some (some t)) (f : Unit → Meth St β) :
    (free (some b) >>= f) s = f () { s with bufs := s.bufs.set b none } := Meth.bind_ok (by simp only [free, h])
theorem free_none_bind {β : Type} (s : St) (f : Unit → Meth St β) : (free none >>= f) s = f () s := rfl
theorem textOf_bind {β : Type} {b : Nat} {s : St} {t : List Byte} (h : s.bufs[b]? = some (some t)) (f : List Byte → Meth St β) :
    (textOf b >>= f) s = f t s := Meth.bind_ok (by simp only [textOf, h])

theorem owns_lt {s : St} (h : Inv s) {i b : Nat} (ho : Owns s i b) : b < s.bufs.length := by
  obtain ⟨e, he⟩ := ho
  obtain ⟨t, ht, _⟩ := h.text i e b he
  exact lt_of_some ht

theorem did_inv {op : Op} {s s' : St} (d : Did op s s') (h : Inv s) : Inv s' := by
  cases d with
  | throwNested s e =>
    refine ⟨?_, ?_, ?_⟩
    · intro i e' b hi
      rcases append_some hi with hi | ⟨_, hi⟩
      · exact h.text i e' b hi
      · simp at hi
    · rintro i j b ⟨e1, h1⟩ ⟨e2, h2⟩
      rcases append_some h1 with h1 | ⟨_, h1⟩
      · rcases append_some h2 with h2 | ⟨_, h2⟩
        · exact h.own i j b ⟨e1, h1⟩ ⟨e2, h2⟩
        · simp at h2
      · simp at h1
    · intro b t hb
      obtain ⟨i, e', hi⟩ := h.used b t hb
      exact ⟨i, e', by rw [List.getElem?_append_left (lt_of_some hi)]; exact hi⟩
  | copy0 s k e hk =>
    refine ⟨?_, ?_, ?_⟩
    · intro i e' b hi
      rcases append_some hi with hi | ⟨_, hi⟩
      · exact h.text i e' b hi
      · simp at hi
    · rintro i j b ⟨e1, h1⟩ ⟨e2, h2⟩
      rcases append_some h1 with h1 | ⟨_, h1⟩
      · rcases append_some h2 with h2 | ⟨_, h2⟩
        · exact h.own i j b ⟨e1, h1⟩ ⟨e2, h2⟩
        · simp at h2
      · simp at h1
    · intro b t hb
      obtain ⟨i, e', hi⟩ := h.used b t hb
      exact ⟨i, e', by rw [List.getElem?_append_left (lt_of_some hi)]; exact hi⟩
  | copy s k e b0 t0 hk hb0 =>
    have hw : Exception.what e = .ok t0 := by
      obtain ⟨t, ht, hw⟩ := h.text k e b0 hk
      rw [hb0] at ht
      simp only [Option.some.injEq] at ht
      rw [ht]; exact hw
    refine ⟨?_, ?_, ?_⟩
    · intro i e' b hi
      rcases append_some hi with hi | ⟨_, hi⟩
      · obtain ⟨t, ht, hw⟩ := h.text i e' b hi
        exact ⟨t, by rw [List.getElem?_append_left (lt_of_some ht)]; exact ht, hw⟩
      · simp only [Option.some.injEq, Obj.mk.injEq] at hi
        obtain ⟨rfl, rfl⟩ := hi
        exact ⟨t0, by simp, hw⟩
    · rintro i j b ⟨e1, h1⟩ ⟨e2, h2⟩
      rcases append_some h1 with h1 | ⟨q1, h1⟩
      · have l1 := owns_lt h ⟨e1, h1⟩
        rcases append_some h2 with h2 | ⟨_, h2⟩
        · exact h.own i j b ⟨e1, h1⟩ ⟨e2, h2⟩
        · simp at h2; omega
      · rcases append_some h2 with h2 | ⟨q2, h2⟩
        · have l1 := owns_lt h ⟨e2, h2⟩
          simp at h1; omega
        · rw [q1, q2]
    · intro b t hb
      rcases append_some hb with hb | ⟨hb, _⟩
      · obtain ⟨i, e', hi⟩ := h.used b t hb
        exact ⟨i, e', by rw [List.getElem?_append_left (lt_of_some hi)]; exact hi⟩
      · subst hb
        exact ⟨s.objs.length, e, by simp⟩
  | what0 s k e t0 hk hw =>
    have hkl := lt_of_some hk
    refine ⟨?_, ?_, ?_⟩
    · intro i e' b hi
      rcases set_some hi with ⟨_, hi⟩ | ⟨_, hi⟩
      · obtain ⟨t, ht, hw⟩ := h.text i e' b hi
        exact ⟨t, by simp only []; rw [List.getElem?_append_left (lt_of_some ht)]; exact ht, hw⟩
      · simp only [Option.some.injEq, Obj.mk.injEq] at hi
        obtain ⟨rfl, rfl⟩ := hi
        exact ⟨t0, by simp, hw⟩
    · rintro i j b ⟨e1, h1⟩ ⟨e2, h2⟩
      rcases set_some h1 with ⟨_, h1⟩ | ⟨q1, h1⟩
      · have l1 := owns_lt h ⟨e1, h1⟩
        rcases set_some h2 with ⟨_, h2⟩ | ⟨_, h2⟩
        · exact h.own i j b ⟨e1, h1⟩ ⟨e2, h2⟩
        · simp at h2; omega
      · rcases set_some h2 with ⟨_, h2⟩ | ⟨q2, h2⟩
        · have l1 := owns_lt h ⟨e2, h2⟩
          simp at h1; omega
        · rw [q1, q2]
    · intro b t hb
      rcases append_some hb with hb | ⟨hb, _⟩
      · obtain ⟨i, e', hi⟩ := h.used b t hb
        have hne : k ≠ i := by rintro rfl; rw [hk] at hi; simp at hi
        exact ⟨i, e', by simp only []; rw [List.getElem?_set_ne hne]; exact hi⟩
      · subst hb
        exact ⟨k, e, by simp only []; rw [List.getElem?_set_self hkl]⟩
  | what s k e b0 t0 u hk hw hb0 =>
    have hkl := lt_of_some hk
    have hb0l := owns_lt h ⟨e, hk⟩
    refine ⟨?_, ?_, ?_⟩
    · intro i e' b hi
      rcases set_some hi with ⟨hik, hi⟩ | ⟨_, hi⟩
      · obtain ⟨t, ht, hw'⟩ := h.text i e' b hi
        have hne : b0 ≠ b := by rintro rfl; exact hik (h.own i k b0 ⟨e', hi⟩ ⟨e, hk⟩)
        exact ⟨t, by simp only []; rw [List.getElem?_set_ne hne, List.getElem?_append_left (lt_of_some ht)]; exact ht, hw'⟩
      · simp only [Option.some.injEq, Obj.mk.injEq] at hi
        obtain ⟨rfl, rfl⟩ := hi
        exact ⟨t0, by simp only []; rw [List.getElem?_set_ne (by omega)]; simp, hw⟩
    · rintro i j b ⟨e1, h1⟩ ⟨e2, h2⟩
      rcases set_some h1 with ⟨_, h1⟩ | ⟨q1, h1⟩
      · have l1 := owns_lt h ⟨e1, h1⟩
        rcases set_some h2 with ⟨_, h2⟩ | ⟨_, h2⟩
        · exact h.own i j b ⟨e1, h1⟩ ⟨e2, h2⟩
        · simp at h2; omega
      · rcases set_some h2 with ⟨_, h2⟩ | ⟨q2, h2⟩
        · have l1 := owns_lt h ⟨e2, h2⟩
          simp at h1; omega
        · rw [q1, q2]
    · intro b t hb
      rcases set_some hb with ⟨hbn, hb⟩ | ⟨_, hb⟩
      · rcases append_some hb with hb | ⟨hb, _⟩
        · obtain ⟨i, e', hi⟩ := h.used b t hb
          have hne : k ≠ i := by rintro rfl; rw [hk] at hi; simp at hi; exact hbn hi.2.symm
          exact ⟨i, e', by simp only []; rw [List.getElem?_set_ne hne]; exact hi⟩
        · subst hb
          exact ⟨k, e, by simp only []; rw [List.getElem?_set_self hkl]⟩
      · cases hb
  | failed s k o t hk hw => exact ⟨h.text, h.own, h.used⟩
  | destroy0 s k e hk =>
    refine ⟨?_, ?_, ?_⟩
    · intro i e' b hi
      rcases set_some hi with ⟨_, hi⟩ | ⟨_, hi⟩
      · exact h.text i e' b hi
      · simp at hi
    · rintro i j b ⟨e1, h1⟩ ⟨e2, h2⟩
      rcases set_some h1 with ⟨_, h1⟩ | ⟨_, h1⟩
      · rcases set_some h2 with ⟨_, h2⟩ | ⟨_, h2⟩
        · exact h.own i j b ⟨e1, h1⟩ ⟨e2, h2⟩
        · simp at h2
      · simp at h1
    · intro b t hb
      obtain ⟨i, e', hi⟩ := h.used b t hb
      have hne : k ≠ i := by rintro rfl; rw [hk] at hi; simp at hi
      exact ⟨i, e', by simp only []; rw [List.getElem?_set_ne hne]; exact hi⟩
  | destroy s k e b0 t0 hk hb0 =>
    refine ⟨?_, ?_, ?_⟩
    · intro i e' b hi
      rcases set_some hi with ⟨hik, hi⟩ | ⟨_, hi⟩
      · obtain ⟨t, ht, hw'⟩ := h.text i e' b hi
        have hne : b0 ≠ b := by rintro rfl; exact hik (h.own i k b0 ⟨e', hi⟩ ⟨e, hk⟩)
        exact ⟨t, by simp only []; rw [List.getElem?_set_ne hne]; exact ht, hw'⟩
      · simp at hi
    · rintro i j b ⟨e1, h1⟩ ⟨e2, h2⟩
      rcases set_some h1 with ⟨_, h1⟩ | ⟨_, h1⟩
      · rcases set_some h2 with ⟨_, h2⟩ | ⟨_, h2⟩
        · exact h.own i j b ⟨e1, h1⟩ ⟨e2, h2⟩
        · simp at h2
      · simp at h1
    · intro b t hb
      rcases set_some hb with ⟨hbn, hb⟩ | ⟨_, hb⟩
      · obtain ⟨i, e', hi⟩ := h.used b t hb
        have hne : k ≠ i := by rintro rfl; rw [hk] at hi; simp at hi; exact hbn hi.2.symm
        exact ⟨i, e', by simp only []; rw [List.getElem?_set_ne hne]; exact hi⟩
      · cases hb

theorem run_cons {op : Op} {ops : List Op} {s s' : St} (h : run (op :: ops) s = some s') : ∃ m, step op s = (.ok (), m) ∧ run ops m = some s' := by
  simp only [run] at h
  split at h
  · exact ⟨_, by assumption, h⟩
  · cases h

theorem run_inv : ∀ (ops : List Op) {s s' : St}, Inv s → run ops s = some s' → Inv s'
  | [], _, _, h, hr => by simp only [run, Option.some.injEq] at hr; exact hr ▸ h
  | _ :: ops, _, _, h, hr => by
    obtain ⟨m, h1, h2⟩ := run_cons hr
    exact run_inv ops (did_inv (step_did h1) h) h2

/-- Steps other than a new `what()` of the object or its destruction leave its buffer and the pointers given out alone. -/
theorem did_keeps {op : Op} {s s' : St} (d : Did op s s') {i : Nat} {o : Obj} (hi : s.objs[i]? = some (some o)) (h1 : op ≠ .destroy i)
    (h2 : op ≠ .what i true) : s'.objs[i]? = some (some o) := by
  have hl := lt_of_some hi
  cases d with
  | throwNested | copy0 | copy => simp only []; rw [List.getElem?_append_left hl]; exact hi
  | what0 _ k | what _ k =>
    have : k ≠ i := by rintro rfl; exact h2 rfl
    simp only []; rw [List.getElem?_set_ne this]; exact hi
  | failed => exact hi
  | destroy0 _ k | destroy _ k =>
    have : k ≠ i := by rintro rfl; exact h1 rfl
    simp only []; rw [List.getElem?_set_ne this]; exact hi

/-- Pointers given out stay in the list. -/
theorem did_ptrs {op : Op} {s s' : St} (d : Did op s s') {k : Nat} {p : Ptr} (hk : s.ptrs[k]? = some p) : s'.ptrs[k]? = some p := by
  have hl := lt_of_some hk
  cases d with
  | throwNested | copy0 | copy | destroy0 | destroy => exact hk
  | what0 | what | failed => simp only []; rw [List.getElem?_append_left hl]; exact hk

theorem run_ptrs : ∀ (ops : List Op) {s s' : St}, run ops s = some s' → ∀ {k : Nat} {p : Ptr}, s.ptrs[k]? = some p → s'.ptrs[k]? = some p
  | [], _, _, hr, _, _, hk => by simp only [run, Option.some.injEq] at hr; exact hr ▸ hk
  | _ :: ops, _, _, hr, _, _, hk => by
    obtain ⟨m, h1, h2⟩ := run_cons hr
    exact run_ptrs ops h2 (did_ptrs (step_did h1) hk)

theorem run_keeps : ∀ (ops : List Op) {s s' : St}, run ops s = some s' → ∀ {i : Nat} {o : Obj}, s.objs[i]? = some (some o) →
    (∀ op ∈ ops, op ≠ .destroy i ∧ op ≠ .what i true) → s'.objs[i]? = some (some o)
  | [], _, _, hr, _, _, hi, _ => by simp only [run, Option.some.injEq] at hr; exact hr ▸ hi
  | op :: ops, _, _, hr, _, _, hi, hk => by
    obtain ⟨m, h1, h2⟩ := run_cons hr
    have h0 := hk op (by simp)
    exact run_keeps ops h2 (did_keeps (step_did h1) hi h0.1 h0.2) (fun op h => hk op (by simp [h]))

/-! ## Several threads -/

/-- The buffers thread `k` uses. -/
def held (objOf : Nat → Nat) (s : Shared) (k : Nat) : List Nat :=
  match s.pc k with
  | .idle => (s.desc (objOf k)).toList
  | .built b => b :: (s.desc (objOf k)).toList
  | .loaded b _ => b :: (s.desc (objOf k)).toList
  | .stored old => (s.desc (objOf k)).toList ++ old.toList

/-- Every thread uses existing buffers of its own, and what it has read of `description` is still so. -/
structure SInv (objOf : Nat → Nat) (s : Shared) : Prop where
  live : ∀ k b, b ∈ held objOf s k → s.bufs[b]? = some true
  nodup : ∀ k, (held objOf s k).Nodup
  apart : ∀ j k b, b ∈ held objOf s j → b ∈ held objOf s k → j = k
  fresh : ∀ k b old, s.pc k = .loaded b old → old = s.desc (objOf k)

theorem sinv_start (objOf : Nat → Nat) : SInv objOf Shared.start :=
  ⟨by simp [held, Shared.start], by simp [held, Shared.start], by simp [held, Shared.start], by simp [Shared.start]⟩

/-- One thread changes what it holds; the others are as before. -/
theorem sinv_of {objOf : Nat → Nat} {s s' : Shared} (h : SInv objOf s) (k : Nat) (others : ∀ j, j ≠ k → held objOf s' j = held objOf s j)
    (opc : ∀ j, j ≠ k → s'.pc j = s.pc j ∧ s'.desc (objOf j) = s.desc (objOf j))
    (mine : ∀ b ∈ held objOf s' k, s'.bufs[b]? = some true ∧ (b ∈ held objOf s k ∨ s.bufs.length ≤ b)) (nd : (held objOf s' k).Nodup)
    (keep : ∀ b, b ∉ held objOf s k → s.bufs[b]? = some true → s'.bufs[b]? = some true)
    (fr : ∀ b old, s'.pc k = .loaded b old → old = s'.desc (objOf k)) : SInv objOf s' := by
  have hlt : ∀ j b, b ∈ held objOf s j → b < s.bufs.length := fun j b hb => lt_of_some (h.live j b hb)
  refine ⟨?_, ?_, ?_, ?_⟩
  · intro j b hb
    by_cases e : j = k
    · subst e; exact (mine b hb).1
    · rw [others j e] at hb
      exact keep b (fun hk => e (h.apart j k b hb hk)) (h.live j b hb)
  · intro j
    by_cases e : j = k
    · subst e; exact nd
    · rw [others j e]; exact h.nodup j
  · intro i j b hi hj
    by_cases ei : i = k
    · by_cases ej : j = k
      · rw [ei, ej]
      · subst ei
        rw [others j ej] at hj
        rcases (mine b hi).2 with hm | hm
        · exact h.apart i j b hm hj
        · exact absurd (hlt j b hj) (by omega)
    · rw [others i ei] at hi
      by_cases ej : j = k
      · subst ej
        rcases (mine b hj).2 with hm | hm
        · exact h.apart i j b hi hm
        · exact absurd (hlt i b hi) (by omega)
      · rw [others j ej] at hj
        exact h.apart i j b hi hj
  · intro j b old hp
    by_cases e : j = k
    · subst e; exact fr b old hp
    · rw [(opc j e).1] at hp
      rw [(opc j e).2]; exact h.fresh j b old hp

/-- The invariant is kept by the next step of any thread, which is not undefined. -/
theorem advance_ok {objOf : Nat → Nat} (inj : ∀ i j, objOf i = objOf j → i = j) {s : Shared} (h : SInv objOf s) (k : Nat) :
    ∃ s', advance objOf k s = .ok s' ∧ SInv objOf s' := by
  have hd : ∀ j, j ≠ k → objOf j ≠ objOf k := fun j hj e => hj (inj j k e)
  unfold advance
  cases hp : s.pc k with
  | idle =>
    refine ⟨_, rfl, sinv_of h k ?_ ?_ ?_ ?_ ?_ ?_⟩
    · intro j hj; simp [held, hj]
    · intro j hj; simp [hj]
    · intro b hb
      simp only [held, if_true, List.mem_cons] at hb
      rcases hb with rfl | hb
      · simp
      · have hb' : b ∈ held objOf s k := by simp only [held, hp]; exact hb
        refine ⟨?_, .inl hb'⟩
        have := h.live k b hb'
        rw [List.getElem?_append_left (lt_of_some this)]; exact this
    · have hn := h.nodup k
      simp only [held, hp] at hn
      simp only [held, if_true, List.nodup_cons]
      refine ⟨fun hb => ?_, hn⟩
      have := lt_of_some (h.live k s.bufs.length (by simp only [held, hp]; exact hb))
      omega
    · intro b _ hb
      simp only []
      rw [List.getElem?_append_left (lt_of_some hb)]; exact hb
    · intro b old he; simp at he
  | built b0 =>
    refine ⟨_, rfl, sinv_of h k ?_ ?_ ?_ ?_ ?_ ?_⟩
    · intro j hj; simp [held, hj]
    · intro j hj; simp [hj]
    · intro b hb
      have hb' : b ∈ held objOf s k := by simpa [held, hp] using hb
      exact ⟨h.live k b hb', .inl hb'⟩
    · have hn := h.nodup k
      simpa [held, hp] using hn
    · intro b _ hb; exact hb
    · intro b old he
      simp only [if_true, Pc.loaded.injEq] at he
      exact he.2.symm
  | loaded b0 old =>
    have ho := h.fresh k b0 old hp
    refine ⟨_, rfl, sinv_of h k ?_ ?_ ?_ ?_ ?_ ?_⟩
    · intro j hj; simp [held, hj, hd j hj]
    · intro j hj; simp [hj, hd j hj]
    · intro b hb
      have hb' : b ∈ held objOf s k := by
        simp only [held, if_true, Option.toList_some, List.singleton_append] at hb
        simp only [held, hp, ← ho]; exact hb
      exact ⟨h.live k b hb', .inl hb'⟩
    · have hn := h.nodup k
      simp only [held, hp, ← ho] at hn
      simpa [held] using hn
    · intro b _ hb; exact hb
    · intro b old he; simp at he
  | stored old =>
    cases old with
    | none =>
      refine ⟨_, rfl, sinv_of h k ?_ ?_ ?_ ?_ ?_ ?_⟩
      · intro j hj; simp [held, hj]
      · intro j hj; simp [hj]
      · intro b hb
        have hb' : b ∈ held objOf s k := by simpa [held, hp] using hb
        exact ⟨h.live k b hb', .inl hb'⟩
      · have hn := h.nodup k
        simpa [held, hp] using hn
      · intro b _ hb; exact hb
      · intro b old he; simp at he
    | some b0 =>
      have hm : b0 ∈ held objOf s k := by simp [held, hp]
      simp only []
      rw [if_pos (h.live k b0 hm)]
      have hn := h.nodup k
      simp only [held, hp, Option.toList_some, List.nodup_append] at hn
      refine ⟨_, rfl, sinv_of h k ?_ ?_ ?_ ?_ ?_ ?_⟩
      · intro j hj; simp [held, hj]
      · intro j hj; simp [hj]
      · intro b hb
        simp only [held, if_true] at hb
        have hb' : b ∈ held objOf s k := by simp [held, hp]; exact .inl (by simpa using hb)
        refine ⟨?_, .inl hb'⟩
        have : b0 ≠ b := fun e => hn.2.2 b hb b0 (by simp) e.symm
        simp only []
        rw [List.getElem?_set_ne this]; exact h.live k b hb'
      · simpa [held] using hn.1
      · intro b hb hb2
        have : b0 ≠ b := by rintro rfl; exact hb hm
        simp only []
        rw [List.getElem?_set_ne this]; exact hb2
      · intro b old he; simp at he

theorem schedule_ok {objOf : Nat → Nat} (inj : ∀ i j, objOf i = objOf j → i = j) : ∀ (ks : List Nat) {s : Shared}, SInv objOf s →
    ∃ s', schedule objOf ks s = .ok s' ∧ SInv objOf s'
  | [], s, h => ⟨s, rfl, h⟩
  | k :: ks, s, h => by
    obtain ⟨m, hm, him⟩ := advance_ok inj h k
    obtain ⟨s', hs, hi⟩ := schedule_ok inj ks him
    exact ⟨s', by rw [schedule, hm]; exact hs, hi⟩

end ExceptionText
end Utki
