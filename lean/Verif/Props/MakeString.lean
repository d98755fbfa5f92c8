import Verif.Spec.MakeString
import Verif.Props.TreeIterAlloc
import Verif.Props.String
/-! # C142: the lists of arguments and the memory of `make_string` -/
namespace Utki
open TreeAlloc MakeString Spec

theorem inMemW_bind_ok {β γ : Type} {m : Meth Mem β} {f : β → Meth W γ} {w : W} {b : β} {s : Mem} (h : m w.mem = (.ok b, s)) :
    (inMemW m >>= f) w = f b { w with mem := s } := Meth.bind_ok (by simp [inMemW, h])
theorem inMemW_bind_throw {β γ : Type} {m : Meth Mem β} {f : β → Meth W γ} {w : W} {e : Err} {s : Mem} (h : m w.mem = (.throw e, s)) :
    (inMemW m >>= f) w = (.throw e, { w with mem := s }) := Meth.bind_throw (by simp [inMemW, h])

theorem resizeStr_cases (grow : Nat → Nat) (n : Nat) (r : StrMem) (s : Mem) (bs : List Nat) (h : InUse s (r.blk.toList ++ bs)) :
    (∃ r' s', resizeStr grow n r s = (.ok r', s') ∧ InUse s' (r'.blk.toList ++ bs) ∧ s'.plan <:+ s.plan) ∨
    (∃ s', resizeStr grow n r s = (.throw .bad_alloc, s') ∧ InUse s' (r.blk.toList ++ bs) ∧ false ∈ s.plan) := by
  rw [resizeStr]
  split
  · exact .inl ⟨_, s, rfl, h, List.suffix_rfl⟩
  · rcases alloc_cases s _ h with ⟨b, s1, e1, i1, p1⟩ | ⟨s1, e1, i1, p1⟩
    · obtain ⟨s2, e2, i2, p2⟩ := freeAll_releases r.blk.toList s1 (b :: bs) (inUse_perm i1 (List.perm_middle.symm))
      refine .inl ⟨⟨some b, max (grow n) n⟩, s2, ?_, i2, p2 ▸ p1⟩
      rw [Meth.bind_ok e1, Meth.bind_ok e2]; rfl
    · exact .inr ⟨s1, by rw [Meth.bind_throw e1], i1, p1⟩

theorem newStr_cases (sso n : Nat) (s : Mem) (bs : List Nat) (h : InUse s bs) :
    (∃ r' s', newStr sso n s = (.ok r', s') ∧ InUse s' (r'.blk.toList ++ bs)) ∨
    (∃ s', newStr sso n s = (.throw .bad_alloc, s') ∧ InUse s' bs ∧ false ∈ s.plan) := by
  rw [newStr]
  split
  · exact .inl ⟨_, s, rfl, h⟩
  · rcases alloc_cases s _ h with ⟨b, s1, e1, i1, _⟩ | ⟨s1, e1, i1, p1⟩
    · exact .inl ⟨⟨some b, n⟩, s1, by rw [Meth.bind_ok e1]; rfl, i1⟩
    · exact .inr ⟨s1, by rw [Meth.bind_throw e1], i1, p1⟩

/-- The state within `make_string_va_list`. -/
def WithinCall (w : W) (others : List Nat) : Prop := ∃ u, Tidy w (.started false) (.started u) (w.ret.blk.toList ++ others)

/-- How the loop may end. -/
def LoopEnds (out : Res (List Byte) × W) (plain : Res (List Byte)) (mayFail : Prop) (others : List Nat) : Prop :=
  (out.1 = .throw .bad_alloc ∧ mayFail ∧ WithinCall out.2 others) ∨
  (out.1 = plain ∧ ((∃ t, plain = .ok t) ∨ (∃ e, plain = .throw e) → WithinCall out.2 others))

theorem loopM_ends (dbg : Bool) (sso : Nat) (grow : Nat → Nat) (vs : Nat → Vs) (others : List Nat) : ∀ (fuel i : Nat) (buf : List Byte) (n : Nat) (w : W),
    Tidy w (.started false) (.started false) (w.ret.blk.toList ++ others) →
    LoopEnds (loopM dbg sso grow vs fuel i buf n w) (makeStringLoop dbg vs fuel i buf n).1 (false ∈ w.mem.plan) others := by
  intro fuel
  induction fuel with
  | zero =>
    intro i buf n w h
    exact .inr ⟨rfl, by rintro (⟨t, h⟩ | ⟨e, h⟩) <;> cases h⟩
  | succ fuel ih =>
    rintro i buf n ⟨mem, _, _, ret⟩ ⟨rfl, rfl, hm⟩
    rw [loopM, makeStringLoop]
    cases hv : vs i with
    | error =>
      rw [Meth.bind_ok (a := none) (s' := ⟨mem, .started false, .started true, ret⟩) (by simp [vsnprintf, hv])]
      exact .inr ⟨rfl, fun _ => ⟨true, rfl, rfl, hm⟩⟩
    | text t =>
      have hw : (∃ b, vsWrite buf n t = .ok b) ∨ vsWrite buf n t = .ub .oob_write := by
        rw [vsWrite]; split
        · exact .inr rfl
        · split
          · exact .inl ⟨_, rfl⟩
          · exact .inl ⟨_, rfl⟩
      rcases hw with ⟨b, hb⟩ | hb
      · rw [Meth.bind_ok (a := some (t, b)) (s' := ⟨mem, .started false, .started true, ret⟩) (by simp [vsnprintf, hv, hb])]
        simp only [hb]
        split
        · rename_i hl
          rw [Meth.bind_ok (m := getRet) rfl]
          rcases resizeStr_cases grow t.length ret mem others hm with ⟨r', s', e, hm', hp⟩ | ⟨s', e, hm', hp⟩
          · rw [inMemW_bind_ok e, Meth.bind_ok (m := setRet r') rfl, Meth.bind_ok (m := va_end_cur) rfl, Meth.bind_ok (m := va_copy_cur) rfl]
            by_cases ha : ASSERT dbg (decide (i < 1)) = .ok ()
            · rw [ha, Meth.lift_ok_bind]
              rcases ih (i + 1) (List.replicate (t.length + 1) 0) (t.length + 1) ⟨s', .started false, .started false, r'⟩ ⟨rfl, rfl, hm'⟩ with ⟨e, hf, hw⟩ | h
              · exact .inl ⟨e, hp.subset hf, hw⟩
              · exact .inr h
            · have ha' : ASSERT dbg (decide (i < 1)) = .abort := by
                revert ha; cases dbg <;> cases decide (i < 1) <;> simp [ASSERT]
              rw [ha']
              exact .inr ⟨rfl, by rintro (⟨t, h⟩ | ⟨e, h⟩) <;> cases h⟩
          · rw [inMemW_bind_throw e]
            exact .inl ⟨rfl, hp, true, rfl, rfl, hm'⟩
        · split
          · exact .inr ⟨rfl, by rintro (⟨t, h⟩ | ⟨e, h⟩) <;> cases h⟩
          · rcases newStr_cases sso t.length mem _ hm with ⟨r', s', e, hm'⟩ | ⟨s', e, hm', hp⟩
            · rw [inMemW_bind_ok e, Meth.bind_ok (m := getRet) rfl]
              obtain ⟨s2, e2, i2, _⟩ := freeAll_releases ret.blk.toList s' (r'.blk.toList ++ others)
                (inUse_perm hm' (by simpa [List.append_assoc] using (List.perm_append_comm (l₁ := r'.blk.toList) (l₂ := ret.blk.toList)).append_right others))
              rw [inMemW_bind_ok e2, Meth.bind_ok (m := setRet r') rfl]
              exact .inr ⟨rfl, fun _ => ⟨true, rfl, rfl, i2⟩⟩
            · rw [inMemW_bind_throw e]
              exact .inl ⟨rfl, hp, true, rfl, rfl, hm'⟩
      · rw [Meth.bind_ub (e := .oob_write) (s' := ⟨mem, .started false, .started false, ret⟩) (by simp [vsnprintf, hv, hb])]
        simp only [hb]
        exact .inr ⟨rfl, by rintro (⟨t, h⟩ | ⟨e, h⟩) <;> cases h⟩

theorem unwind_ok {w : W} {others : List Nat} (h : WithinCall w others) : ∃ w', unwind w = (.ok (), w') ∧ Tidy w' (.started false) .ended others := by
  obtain ⟨mem, a, c, ret⟩ := w
  obtain ⟨u, rfl, rfl, hm⟩ := h
  obtain ⟨s2, e2, i2, _⟩ := freeAll_releases ret.blk.toList mem others hm
  refine ⟨⟨s2, .started false, .ended, ⟨none, 0⟩⟩, ?_, rfl, rfl, i2⟩
  rw [unwind, Meth.bind_ok (m := va_end_cur) rfl, Meth.bind_ok (m := getRet) rfl, inMemW_bind_ok e2]; rfl

/-- C142: `make_string_va_list`, whatever `vsnprintf` does and whichever requests for memory fail: the result is that of `make_string_va_list` with memory without limit (see C23) or `std::bad_alloc`. Each list
of arguments it copies is ended once, none is used twice, and the caller's list is as before, so that it can be used again; the string returned owns its memory, and an exception leaves no memory in use. -/
theorem C142_va_list (dbg : Bool) (sso : Nat) (grow : Nat → Nat) (junk : List Byte) (vs : Nat → Vs) (w : W) (others : List Nat) (h : Tidy w (.started false) .ended others) :
    EndsLike (make_string_va_listM dbg sso grow junk vs w) (make_string_va_list dbg junk vs).1 (false ∈ w.mem.plan) (.started false) (.started false) others := by
  obtain ⟨mem, a, c, ret⟩ := w
  obtain ⟨rfl, rfl, hm⟩ := h
  rw [make_string_va_listM, make_string_va_list, Meth.bind_ok (m := setRet _) rfl, Meth.bind_ok (m := va_copy_cur) rfl]
  have hl := loopM_ends dbg sso grow vs others 3 0 junk 1024 ⟨mem, .started false, .started false, ⟨none, sso⟩⟩ ⟨rfl, rfl, hm⟩
  dsimp only at hl ⊢
  generalize hx : loopM dbg sso grow vs 3 0 junk 1024 ⟨mem, .started false, .started false, ⟨none, sso⟩⟩ = out at hl
  obtain ⟨out, w'⟩ := out
  generalize (makeStringLoop dbg vs 3 0 junk 1024).1 = plain at hl
  rcases hl with ⟨ho, hf, hw⟩ | ⟨ho, hw⟩
  · dsimp only at ho; subst ho
    obtain ⟨w2, e2, t2⟩ := unwind_ok hw
    rw [Meth.bind_throw (onFail_throw hx e2)]
    exact .inl ⟨rfl, hf, t2⟩
  · dsimp only at ho; subst ho
    refine .inr ?_
    match out, hx, hw with
    | .ok t, hx, hw =>
      obtain ⟨mem', a', c', r'⟩ := w'
      obtain ⟨u, rfl, rfl, hm'⟩ := hw (.inl ⟨t, rfl⟩)
      rw [Meth.bind_ok (onFail_ok hx), Meth.bind_ok (m := getRet) rfl, Meth.bind_ok (m := va_end_cur) rfl, Meth.bind_ok (m := setRet _) rfl]
      exact ⟨r', rfl, rfl, rfl, hm'⟩
    | .throw e, hx, hw =>
      obtain ⟨w2, e2, t2⟩ := unwind_ok (hw (.inr ⟨e, rfl⟩))
      rw [Meth.bind_throw (onFail_throw hx e2)]
      exact ⟨rfl, t2⟩
    | .ub u, hx, _ => rw [Meth.bind_apply, Meth.bind, onFail, hx]
    | .abort, hx, _ => rw [Meth.bind_apply, Meth.bind, onFail, hx]
    | .terminate, hx, _ => rw [Meth.bind_apply, Meth.bind, onFail, hx]
    | .diverge, hx, _ => rw [Meth.bind_apply, Meth.bind, onFail, hx]

/-- C142 for `make_string`: when it returns, every list of arguments was ended; it returns the same texts and throws the same exceptions or `std::bad_alloc`. Missing: when an exception leaves `make_string` its
list `args` was started and is never ended. -/
theorem C142_make_string_partial (dbg : Bool) (sso : Nat) (grow : Nat → Nat) (junk : List Byte) (vs : Nat → Vs) (w : W) (others : List Nat) (h : Tidy w .ended .ended others) :
    EndsLike (make_stringM dbg sso grow junk vs w) (make_string_va_list dbg junk vs).1 (false ∈ w.mem.plan) .ended (.started false) others := by
  obtain ⟨mem, a, c, ret⟩ := w
  obtain ⟨rfl, rfl, hm⟩ := h
  have hv := C142_va_list dbg sso grow junk vs ⟨mem, .started false, .ended, ret⟩ others ⟨rfl, rfl, hm⟩
  rw [make_stringM, Meth.bind_ok (m := va_start) rfl]
  dsimp only
  generalize hx : make_string_va_listM dbg sso grow junk vs ⟨mem, .started false, .ended, ret⟩ = out at hv
  obtain ⟨out, w'⟩ := out
  rw [Meth.bind_apply, Meth.bind, hx]
  rcases hv with ⟨ho, hf, hw⟩ | hv
  · dsimp only at ho; subst ho
    exact .inl ⟨rfl, hf, hw⟩
  · refine .inr ?_
    revert hv
    cases (make_string_va_list dbg junk vs).1 with
    | ok t =>
      rintro ⟨r, ho, ht⟩
      obtain ⟨mem', a', c', r'⟩ := w'
      obtain ⟨rfl, rfl, hm'⟩ := ht
      dsimp only at ho; subst ho
      exact ⟨r, rfl, rfl, rfl, hm'⟩
    | throw e => rintro ⟨ho, ht⟩; dsimp only at ho; subst ho; exact ⟨rfl, ht⟩
    | ub u => intro ho; dsimp only at ho; subst ho; rfl
    | abort => intro ho; dsimp only at ho; subst ho; rfl
    | terminate => intro ho; dsimp only at ho; subst ho; rfl
    | diverge => intro ho; dsimp only at ho; subst ho; rfl

/-- C142 in words of C23: if `vsnprintf` makes the same text each time and no request for memory fails, `make_string` returns the text, all lists of arguments are ended and only the string's own memory is in use. -/
theorem C142_text (dbg : Bool) (sso : Nat) (grow : Nat → Nat) (junk : List Byte) (hj : junk.length = 1024) (vs : Nat → Vs) (t : List Byte) (hv : ∀ i, vs i = .text t)
    (w : W) (others : List Nat) (h : Tidy w .ended .ended others) (hm : false ∉ w.mem.plan) :
    ∃ r, (make_stringM dbg sso grow junk vs w).1 = .ok (t, r) ∧ Tidy (make_stringM dbg sso grow junk vs w).2 .ended .ended (r.blk.toList ++ others) := by
  rcases C142_make_string_partial dbg sso grow junk vs w others h with ⟨_, hf, _⟩ | h
  · exact absurd hf hm
  · rw [C23_text dbg junk hj t vs hv] at h
    exact h

/-- C142 is false when `make_string` throws: whatever the exception, the list of arguments that it started is not ended, which is undefined by the C standard. -/
theorem C142_not_ended (dbg : Bool) (sso : Nat) (grow : Nat → Nat) (junk : List Byte) (vs : Nat → Vs) (w : W) (others : List Nat) (h : Tidy w .ended .ended others) (e : Err)
    (he : (make_stringM dbg sso grow junk vs w).1 = .throw e) : (make_stringM dbg sso grow junk vs w).2.args = .started false := by
  rcases C142_make_string_partial dbg sso grow junk vs w others h with ⟨_, _, ht⟩ | h
  · exact ht.args
  · revert h
    cases (make_string_va_list dbg junk vs).1 with
    | ok t => rintro ⟨r, ho, _⟩; rw [he] at ho; cases ho
    | throw e' => intro h; exact h.2.args
    | ub u => intro ho; simp only [he] at ho; cases ho
    | abort => intro ho; simp only [he] at ho; cases ho
    | terminate => intro ho; simp only [he] at ho; cases ho
    | diverge => intro ho; simp only [he] at ho; cases ho

/-- And so it is whenever `vsnprintf` reports an error. -/
theorem C142_error (dbg : Bool) (sso : Nat) (grow : Nat → Nat) (junk : List Byte) (vs : Nat → Vs) (w : W) (others : List Nat) (h : Tidy w .ended .ended others) (hv : vs 0 = .error) :
    (make_stringM dbg sso grow junk vs w).1 = .throw .logic_error ∧ (make_stringM dbg sso grow junk vs w).2.args = .started false := by
  obtain ⟨mem, a, c, ret⟩ := w
  obtain ⟨rfl, rfl, hm⟩ := h
  have : make_stringM dbg sso grow junk vs ⟨mem, .ended, .ended, ret⟩ = (.throw .logic_error, ⟨mem, .started false, .ended, ⟨none, 0⟩⟩) := by
    rw [make_stringM, Meth.bind_ok (m := va_start) rfl]
    refine Meth.bind_throw ?_
    rw [make_string_va_listM, Meth.bind_ok (m := setRet _) rfl, Meth.bind_ok (m := va_copy_cur) rfl]
    refine Meth.bind_throw (onFail_throw (s' := ⟨mem, .started false, .started true, ⟨none, sso⟩⟩) ?_ rfl)
    rw [loopM, Meth.bind_ok (a := none) (s' := ⟨mem, .started false, .started true, ⟨none, sso⟩⟩) (by simp [vsnprintf, hv])]
    rfl
  rw [this]
  exact ⟨rfl, rfl⟩

/-- A short text that the string keeps within itself needs no memory, so no request can fail. -/
theorem C142_short (dbg : Bool) (sso : Nat) (grow : Nat → Nat) (junk : List Byte) (hj : junk.length = 1024) (vs : Nat → Vs) (t : List Byte) (hv : vs 0 = .text t) (ht : t.length < 1024) (hs : t.length ≤ sso)
    (w : W) (h : w.args = .ended ∧ w.cur = .ended) :
    (make_stringM dbg sso grow junk vs w).1 = .ok (t, ⟨none, sso⟩) ∧ (make_stringM dbg sso grow junk vs w).2.mem = w.mem := by
  obtain ⟨mem, a, c, ret⟩ := w
  obtain ⟨rfl, rfl⟩ := h
  have hw : vsWrite junk 1024 t = .ok (t ++ [0] ++ junk.drop (t.length + 1)) := by
    rw [vsWrite, if_neg (by omega), if_neg (by omega), List.take_of_length_le (by omega : t.length ≤ 1024 - 1), Nat.min_eq_right (by omega)]
  have hl : loopM dbg sso grow vs 3 0 junk 1024 ⟨mem, .started false, .started false, ⟨none, sso⟩⟩ = (.ok t, ⟨mem, .started false, .started true, ⟨none, sso⟩⟩) := by
    rw [loopM, Meth.bind_ok (a := some (t, _)) (s' := ⟨mem, .started false, .started true, ⟨none, sso⟩⟩) (by simp [vsnprintf, hv, hw]; rfl)]
    dsimp only
    rw [if_neg (by omega), if_neg (by simp), inMemW_bind_ok (b := ⟨none, sso⟩) (s := mem) (by rw [newStr, if_pos hs]; rfl)]
    rw [Meth.bind_ok (m := getRet) rfl, inMemW_bind_ok (b := ()) (s := mem) rfl, Meth.bind_ok (m := setRet _) rfl]
    simp
  have : make_stringM dbg sso grow junk vs ⟨mem, .ended, .ended, ret⟩ = (.ok (t, ⟨none, sso⟩), ⟨mem, .ended, .ended, ⟨none, 0⟩⟩) := by
    rw [make_stringM, Meth.bind_ok (m := va_start) rfl]
    rw [Meth.bind_ok (m := make_string_va_listM dbg sso grow junk vs) (a := (t, ⟨none, sso⟩)) (s' := ⟨mem, .started false, .ended, ⟨none, 0⟩⟩)]
    · rfl
    · rw [make_string_va_listM, Meth.bind_ok (m := setRet _) rfl, Meth.bind_ok (m := va_copy_cur) rfl, Meth.bind_ok (onFail_ok hl)]; rfl
  rw [this]
  exact ⟨rfl, rfl⟩

/-- Non-vacuity: nothing in use but block 0 of others, no lists started. -/
example : Tidy ⟨⟨[true, false], [0], 1⟩, .ended, .ended, ⟨none, 0⟩⟩ .ended .ended [0] := ⟨rfl, rfl, ⟨by simp, by simp⟩, .refl _⟩

/-- A text of 2000 characters: two requests; with the second one failing, all memory was given back and `cur_args` ended, but `args` was not. -/
example : (fun o : Res (List Byte × StrMem) × W => (o.1, o.2.args, o.2.cur, o.2.mem.live))
    (make_stringM true 15 (fun n => n) (List.replicate 1024 7) (fun _ => .text (List.replicate 2000 65)) ⟨⟨[true, false], [0], 1⟩, .ended, .ended, ⟨none, 0⟩⟩) =
    (.throw .bad_alloc, .started false, .ended, [0]) := by decide +kernel

/-- With memory for both. -/
example : (fun o : Res (List Byte × StrMem) × W => (o.1, o.2.args, o.2.cur, o.2.mem.live))
    (make_stringM true 15 (fun n => n) (List.replicate 1024 7) (fun _ => .text (List.replicate 2000 65)) ⟨⟨[], [0], 1⟩, .ended, .ended, ⟨none, 0⟩⟩) =
    (.ok (List.replicate 2000 65, ⟨some 2, 2000⟩), .ended, .ended, [2, 0]) := by decide +kernel

end Utki
