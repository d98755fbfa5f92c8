import Verif.Spec.ScopeExit
/-!
# Properties of `scope_exit` (C60)
-/
namespace Utki
open ScopeExit Spec

variable {σ : Type}

/-- The program came to its end: normally or by an exception. -/
def ProgEnded (r : Res Unit) : Prop := r = .ok () ∨ ∃ e, r = .throw e

theorem relsOf_append (i : Nat) (a b : List Ev) : relsOf i (a ++ b) = relsOf i a ++ relsOf i b := by
  induction a with
  | nil => rfl
  | cons e a ih => cases e <;> simp [relsOf, ih]; split <;> simp

theorem Spec.Scoped.append {live : List Nat} {lo m hi : Nat} {a b : List Ev} (h1 : Scoped live lo m a) (h2 : Scoped live m hi b) :
    Scoped live lo hi (a ++ b) := by
  induction h1 with
  | nil => exact h2
  | work t _ ih => exact .work t (ih h2)
  | release b hi _ ih => exact .release b hi (ih h2)
  | call hi _ ih => exact .call hi (ih h2)
  | runs ha hr hb hc _ _ ih => simpa using Scoped.runs ha hr hb (ih h2)
  | silent ha ho hf hc _ ih => simpa using Scoped.silent ha ho hf (ih h2)

theorem Spec.Scoped.le {live : List Nat} {lo hi : Nat} {l : List Ev} (h : Scoped live lo hi l) : lo ≤ hi := by
  induction h with
  | nil => omega
  | work => assumption
  | release => assumption
  | call => assumption
  | runs => omega
  | silent => omega

/-- The object after the events. -/
def objAfter (l : List Ev) (o : Obj σ) : Obj σ := ⟨o.id, if relsOf o.id l = [] then o.f else none⟩

/-- What running a program does. -/
structure ScopePost (w w' : World σ) (l : List Ev) : Prop where
  log : w'.log = w.log ++ l
  scop : Scoped (w.stack.map (·.id)) w.next w'.next l
  stack : w'.stack = w.stack.map (objAfter l)
  flags : ∀ o ∈ w.stack, FirstGets o.f.isSome (relsOf o.id l)

/-- The live objects have different numbers. -/
structure ScopeWf (w : World σ) : Prop where
  nodup : (w.stack.map (·.id)).Nodup
  lt : ∀ o ∈ w.stack, o.id < w.next

theorem map_id_after (l : List Ev) (s : List (Obj σ)) : (s.map (objAfter l)).map (·.id) = s.map (·.id) := by
  simp [objAfter, Function.comp_def]

theorem ScopePost.wf {w w' : World σ} {l : List Ev} (h : ScopePost w w' l) (hw : ScopeWf w) : ScopeWf w' := by
  refine ⟨?_, ?_⟩
  · rw [h.stack, map_id_after]; exact hw.nodup
  · rw [h.stack]
    intro o ho
    obtain ⟨o', ho', rfl⟩ := List.mem_map.mp ho
    have := hw.lt o' ho'
    have := h.scop.le
    simp [objAfter]; omega

theorem firstGets_append {f : Option (Prog σ)} {a b : List Bool} (h1 : FirstGets f.isSome a)
    (h2 : FirstGets (if a = [] then f else none).isSome b) : FirstGets f.isSome (a ++ b) := by
  rcases h1 with rfl | ⟨n, rfl⟩
  · simpa using h2
  · right
    rcases h2 with rfl | ⟨m, rfl⟩
    · exact ⟨n, by simp⟩
    · refine ⟨n + (m + 1), ?_⟩
      rw [List.cons_append, ← List.replicate_append_replicate]
      cases hf : f <;> simp [List.replicate_succ] 

theorem ScopePost.trans {w w1 w2 : World σ} {a b : List Ev} (h1 : ScopePost w w1 a) (h2 : ScopePost w1 w2 b) : ScopePost w w2 (a ++ b) := by
  have hs := h2.scop
  rw [h1.stack, map_id_after] at hs
  refine ⟨by rw [h2.log, h1.log, List.append_assoc], h1.scop.append hs, ?_, ?_⟩
  · rw [h2.stack, h1.stack, List.map_map]
    apply List.map_congr_left
    intro o _
    simp only [Function.comp, objAfter, relsOf_append, List.append_eq_nil_iff]
    by_cases e1 : relsOf o.id a = [] <;> by_cases e2 : relsOf o.id b = [] <;> simp [e1, e2]
  · intro o ho
    rw [relsOf_append]
    apply firstGets_append (h1.flags o ho)
    have := h2.flags (objAfter a o) (by rw [h1.stack]; exact List.mem_map_of_mem ho)
    exact this

theorem ScopePost.refl (w : World σ) : ScopePost w w [] := by
  refine ⟨by simp, .nil _ _, ?_, fun _ _ => .inl rfl⟩
  have : (objAfter [] : Obj σ → Obj σ) = id := by funext o; simp [objAfter, relsOf]
  rw [this, List.map_id]

/-- Events other than `release()` do not change objects. -/
theorem scopePost_quiet {w w' : World σ} {l : List Ev} (h1 : w'.log = w.log ++ l) (h2 : Scoped (w.stack.map (·.id)) w.next w'.next l)
    (h3 : w'.stack = w.stack) (h4 : ∀ o ∈ w.stack, relsOf o.id l = []) : ScopePost w w' l := by
  refine ⟨h1, h2, ?_, fun o ho => .inl (h4 o ho)⟩
  rw [h3]
  symm
  conv => rhs; rw [← List.map_id w.stack]
  apply List.map_congr_left
  intro o ho
  simp [objAfter, h4 o ho]

theorem eq_of_id {s : List (Obj σ)} (hn : (s.map (·.id)).Nodup) {k : Nat} {o : Obj σ} (hk : s[k]? = some o) (b : Bool) :
    s.set k ⟨o.id, none⟩ = s.map (objAfter [.released o.id b]) := by
  apply List.ext_getElem?
  intro j
  rw [List.getElem?_set, List.getElem?_map]
  by_cases e : k = j
  · subst e
    obtain ⟨hlt, ho⟩ := List.getElem?_eq_some_iff.mp hk
    simp [hlt, objAfter, relsOf, ho]
  · rw [if_neg e]
    cases hj : s[j]? with
    | none => rfl
    | some o' =>
      have hne : o.id ≠ o'.id := by
        intro he
        apply e
        obtain ⟨hlt, ho⟩ := List.getElem?_eq_some_iff.mp hk
        obtain ⟨hlt', ho'⟩ := List.getElem?_eq_some_iff.mp hj
        refine (List.getElem_inj (i := k) (j := j) (h₀ := by simpa using hlt) (h₁ := by simpa using hlt') hn).mp ?_
        simp [ho, ho', he]
      simp [objAfter, relsOf, hne]

theorem release_post {w : World σ} (hw : ScopeWf w) {k : Nat} {o : Obj σ} (hk : w.stack[k]? = some o) :
    ScopePost w { w with stack := w.stack.set k ⟨o.id, none⟩, log := w.log ++ [.released o.id o.f.isSome] } [.released o.id o.f.isSome] := by
  have hm : o ∈ w.stack := List.mem_of_getElem? hk
  refine ⟨rfl, .release _ (List.mem_map_of_mem hm) (.nil _ _), eq_of_id hw.nodup hk _, ?_⟩
  intro o' ho'
  by_cases e : o.id = o'.id
  · right
    have : o' = o := by
      obtain ⟨hlt, ho⟩ := List.getElem?_eq_some_iff.mp hk
      obtain ⟨j, hlt', hj⟩ := List.getElem_of_mem ho'
      have : k = j := by
        refine (List.getElem_inj (i := k) (j := j) (h₀ := by simpa using hlt) (h₁ := by simpa using hlt') hw.nodup).mp ?_
        simp [ho, hj, e]
      subst this
      rw [← ho, ← hj]
    subst this
    exact ⟨0, by simp [relsOf]⟩
  · left; simp [relsOf, e]

/-- The end of a scope. -/
theorem scope_post {w : World σ} (hw : ScopeWf w) (f : Option (Prog σ)) {w1 w2 : World σ} {a : List Ev} (h1 : ScopePost (construct f w) w1 a)
    {call : Prog σ → Meth (World σ) Unit}
    (hcall : ∀ g v r v', ScopeWf v → call g v = (r, v') → ProgEnded r → ∃ l, ScopePost v v' l)
    {r : Res Unit} (hd : destroy call w1 = (r, w2)) (hr : ProgEnded r) : r = .ok () ∧ ∃ l, ScopePost w w2 l := by
  have hstk := h1.stack
  simp only [construct, List.map_cons] at hstk
  have hlog := h1.log
  simp only [construct] at hlog
  have hsc := h1.scop
  simp only [construct, List.map_cons] at hsc
  have hno : ∀ o ∈ w.stack, o.id ≠ w.next := fun o ho => Nat.ne_of_lt (hw.lt o ho)
  have hflag := h1.flags ⟨w.next, f⟩ (by simp [construct])
  have hflags : ∀ o ∈ w.stack, FirstGets o.f.isSome (relsOf o.id a) := fun o ho => h1.flags o (by simp [construct, ho])
  rw [destroy, hstk] at hd
  simp only [objAfter] at hd
  cases hf : (if relsOf w.next a = [] then f else none) with
  | none =>
    rw [hf] at hd
    simp only [Prod.mk.injEq] at hd
    obtain ⟨rfl, rfl⟩ := hd
    refine ⟨rfl, .enter w.next f.isSome :: a ++ .leave w.next :: [], ?_, ?_, ?_, ?_⟩
    · simp [hlog]
    · refine .silent hsc ?_ hflag (.nil _ _)
      by_cases e : relsOf w.next a = []
      · left; rw [if_pos e] at hf; simp [hf]
      · right; exact e
    · apply List.map_congr_left
      intro o ho
      simp [objAfter, relsOf, relsOf_append]
    · intro o ho
      simpa [relsOf, relsOf_append] using hflags o ho
  | some g =>
    rw [hf] at hd
    simp only at hd
    have hrel : relsOf w.next a = [] := by
      by_cases e : relsOf w.next a = []
      · exact e
      · rw [if_neg e] at hf; cases hf
    rw [if_pos hrel] at hf
    subst hf
    generalize hv : World.emit { w1 with stack := w.stack.map (objAfter a), log := w1.log ++ [.leave w.next] } (.ran w.next) = v at hd
    have hvwf : ScopeWf v := by
      subst hv
      refine ⟨?_, ?_⟩
      · simp only [World.emit]; rw [map_id_after]; exact hw.nodup
      · intro o ho
        simp only [World.emit] at ho
        obtain ⟨o', ho', rfl⟩ := List.mem_map.mp ho
        have := hw.lt o' ho'
        have := hsc.le
        simp [objAfter, World.emit]; omega
    obtain ⟨r', v', hc, hr1, hw2, hend⟩ : ∃ r' v', call g v = (r', v') ∧ r = .ok () ∧ w2 = v' ∧ ProgEnded r' := by
      rcases hcv : call g v with ⟨r', v'⟩
      rw [hcv] at hd
      cases r' with
      | throw e => simp only [Prod.mk.injEq] at hd; exact ⟨_, _, rfl, hd.1.symm, hd.2.symm, .inr ⟨e, rfl⟩⟩
      | ok u => simp only [Prod.mk.injEq] at hd; exact ⟨_, _, rfl, hd.1.symm, hd.2.symm, .inl rfl⟩
      | _ => simp only [Prod.mk.injEq] at hd; rw [← hd.1] at hr; rcases hr with hr | ⟨e, hr⟩ <;> cases hr
    subst hw2
    refine ⟨hr1, ?_⟩
    obtain ⟨b, hb⟩ := hcall g v r' w2 hvwf hc hend
    have hvs : v.stack = w.stack.map (objAfter a) := by rw [← hv]; rfl
    have hvn : v.next = w1.next := by rw [← hv]; rfl
    have hvl : v.log = w1.log ++ [.leave w.next] ++ [.ran w.next] := by rw [← hv]; rfl
    have hbs := hb.scop
    rw [hvs, hvn, map_id_after] at hbs
    refine ⟨.enter w.next true :: a ++ .leave w.next :: .ran w.next :: b ++ [], ?_, ?_, ?_, ?_⟩
    · rw [hb.log, hvl, hlog]; simp
    · exact .runs hsc hrel hbs (.nil _ _)
    · rw [hb.stack, hvs, List.map_map]
      apply List.map_congr_left
      intro o ho
      simp only [Function.comp, objAfter, List.cons_append, List.append_nil, relsOf, relsOf_append, List.append_eq_nil_iff]
      by_cases e1 : relsOf o.id a = [] <;> by_cases e2 : relsOf o.id b = [] <;> simp [e1, e2]
    · intro o ho
      simp only [List.cons_append, List.append_nil, relsOf, relsOf_append]
      apply firstGets_append (hflags o ho)
      have := hb.flags (objAfter a o) (by rw [hvs]; exact List.mem_map_of_mem ho)
      exact this

theorem construct_wf {w : World σ} (hw : ScopeWf w) (f : Option (Prog σ)) : ScopeWf (construct f w) := by
  refine ⟨?_, ?_⟩
  · simp only [construct, List.map_cons, List.nodup_cons]
    refine ⟨?_, hw.nodup⟩
    intro hm
    obtain ⟨o, ho, he⟩ := List.mem_map.mp hm
    have := hw.lt o ho
    omega
  · intro o ho
    simp only [construct, List.mem_cons] at ho ⊢
    rcases ho with rfl | ho
    · simp
    · have := hw.lt o ho; omega

theorem exec_scope_post (n : Nat) (p : Prog σ) (w : World σ) (r : Res Unit) (w' : World σ) (hw : ScopeWf w) (h : exec n p w = (r, w'))
    (hr : ProgEnded r) : ∃ l, ScopePost w w' l := by
  induction n generalizing p w r w' with
  | zero =>
    simp only [exec, Prod.mk.injEq] at h
    rw [← h.1] at hr; rcases hr with hr | ⟨e, hr⟩ <;> cases hr
  | succ n ih =>
    cases p with
    | act tag m =>
      simp only [exec, Prod.mk.injEq] at h
      obtain ⟨_, rfl⟩ := h
      exact ⟨[.work tag], scopePost_quiet rfl (.work _ (.nil _ _)) rfl (by simp [relsOf])⟩
    | skip =>
      simp only [exec, Prod.mk.injEq] at h
      obtain ⟨_, rfl⟩ := h
      exact ⟨[], .refl _⟩
    | seq a b =>
      simp only [exec] at h
      rcases ha : exec n a w with ⟨ra, wa⟩
      rw [ha] at h
      cases ra with
      | ok u =>
        obtain ⟨l1, h1⟩ := ih a w _ wa hw ha (.inl rfl)
        obtain ⟨l2, h2⟩ := ih b wa r w' (h1.wf hw) h hr
        exact ⟨_, h1.trans h2⟩
      | _ =>
        simp only [Prod.mk.injEq] at h
        obtain ⟨rfl, rfl⟩ := h
        exact ih a w _ _ hw ha hr
    | ite c a b =>
      simp only [exec] at h
      split at h
      · exact ih a w r w' hw h hr
      · exact ih b w r w' hw h hr
    | loop c a =>
      simp only [exec] at h
      split at h
      · rcases ha : exec n a w with ⟨ra, wa⟩
        rw [ha] at h
        cases ra with
        | ok u =>
          obtain ⟨l1, h1⟩ := ih a w _ wa hw ha (.inl rfl)
          obtain ⟨l2, h2⟩ := ih _ wa r w' (h1.wf hw) h hr
          exact ⟨_, h1.trans h2⟩
        | _ =>
          simp only [Prod.mk.injEq] at h
          obtain ⟨rfl, rfl⟩ := h
          exact ih a w _ _ hw ha hr
      · simp only [Prod.mk.injEq] at h
        obtain ⟨_, rfl⟩ := h
        exact ⟨[], .refl _⟩
    | tryCatch a b =>
      simp only [exec] at h
      rcases ha : exec n a w with ⟨ra, wa⟩
      rw [ha] at h
      cases ra with
      | throw e =>
        obtain ⟨l1, h1⟩ := ih a w _ wa hw ha (.inr ⟨e, rfl⟩)
        obtain ⟨l2, h2⟩ := ih b wa r w' (h1.wf hw) h hr
        exact ⟨_, h1.trans h2⟩
      | _ =>
        simp only [Prod.mk.injEq] at h
        obtain ⟨rfl, rfl⟩ := h
        exact ih a w _ _ hw ha hr
    | guard f body =>
      simp only [exec] at h
      rcases hb : exec n body (construct f w) with ⟨rb, wb⟩
      rw [hb] at h
      cases rb with
      | ok u =>
        obtain ⟨a, ha⟩ := ih body _ _ wb (construct_wf hw f) hb (.inl rfl)
        exact (scope_post hw f ha ih h hr).2
      | throw e =>
        obtain ⟨a, ha⟩ := ih body _ _ wb (construct_wf hw f) hb (.inr ⟨e, rfl⟩)
        rcases hd : destroy (exec n) wb with ⟨rd, wd⟩
        simp only at h
        rw [hd] at h
        cases rd with
        | ok u =>
          simp only [Prod.mk.injEq] at h
          obtain ⟨_, rfl⟩ := h
          exact (scope_post hw f ha ih hd (.inl rfl)).2
        | _ =>
          simp only [Prod.mk.injEq] at h
          obtain ⟨rfl, rfl⟩ := h
          exact (scope_post hw f ha ih hd hr).2
      | _ =>
        simp only [Prod.mk.injEq] at h
        obtain ⟨rfl, rfl⟩ := h
        rcases hr with hr | ⟨e, hr⟩ <;> cases hr
    | release k call =>
      simp only [exec, releaseObj] at h
      cases hk : w.stack[k]? with
      | none =>
        rw [hk] at h
        simp only [Prod.mk.injEq] at h
        obtain ⟨_, rfl⟩ := h
        exact ⟨[], .refl _⟩
      | some o =>
        rw [hk] at h
        simp only at h
        have h1 := release_post hw hk
        cases hf : o.f with
        | none =>
          rw [hf] at h
          simp only [Prod.mk.injEq] at h
          obtain ⟨_, rfl⟩ := h
          rw [hf] at h1
          exact ⟨_, h1⟩
        | some g =>
          rw [hf] at h h1
          simp only at h
          split at h
          · have h2 : ScopePost w (World.emit { w with stack := w.stack.set k ⟨o.id, none⟩, log := w.log ++ [.released o.id true] } (.called o.id))
                [.released o.id true, .called o.id] := by
              refine ⟨?_, .call (List.mem_map_of_mem (List.mem_of_getElem? hk)) (.nil _ _), ?_, ?_⟩
              · simp [World.emit]
              · have := h1.stack
                simp only [Option.isSome_some] at this
                simp only [World.emit, this]
                apply List.map_congr_left
                intro o' _
                simp [objAfter, relsOf]
              · intro o' ho'
                have := h1.flags o' ho'
                simpa [relsOf] using this
            obtain ⟨l, h3⟩ := ih g _ r w' (h2.wf hw) h hr
            exact ⟨_, h2.trans h3⟩
          · simp only [Prod.mk.injEq] at h
            obtain ⟨_, rfl⟩ := h
            exact ⟨_, h1⟩

/-- The startWorld of a program. -/
def startWorld (u : σ) : World σ := ⟨u, [], 0, []⟩

/-- C60: the events of every program that ends, normally or by an exception, obey the rules of `Spec.Scoped`. -/
theorem C60_scopes (fuel : Nat) (p : Prog σ) (u : σ) (r : Res Unit) (w : World σ) (h : exec fuel p (startWorld u) = (r, w)) (hr : ProgEnded r) :
    Scoped [] 0 w.next w.log := by
  obtain ⟨l, hl⟩ := exec_scope_post fuel p (startWorld u) r w ⟨List.nodup_nil, fun _ h => nomatch h⟩ h hr
  have := hl.log
  simp only [startWorld, List.nil_append] at this
  rw [this]
  exact hl.scop

theorem scoped_old {live : List Nat} {lo hi : Nat} {l : List Ev} (h : Scoped live lo hi l) (i : Nat) (hi : i < lo ∨ hi ≤ i) :
    (∀ b, .enter i b ∉ l) ∧ .leave i ∉ l ∧ .ran i ∉ l ∧ (i ∉ live → relsOf i l = []) := by
  induction h with
  | nil => simp [relsOf]
  | work t _ ih => simpa [relsOf] using ih hi
  | @release live lo _ j _ b hj _ ih =>
    have := ih hi
    refine ⟨by simpa using this.1, by simpa using this.2.1, by simpa using this.2.2.1, ?_⟩
    intro hn
    have hne : j ≠ i := by rintro rfl; exact hn hj
    simpa [relsOf, hne] using this.2.2.2 hn
  | @call live lo _ j _ hj _ ih =>
    have := ih hi
    refine ⟨by simpa using this.1, by simpa using this.2.1, by simpa using this.2.2.1, ?_⟩
    intro hn
    have hne : j ≠ i := by rintro rfl; exact hn hj
    simpa [relsOf, hne] using this.2.2.2 hn
  | runs ha hrel hb hc iha ihb ihc =>
    have l1 := ha.le; have l2 := hb.le; have l3 := hc.le
    have h1 := iha (by omega); have h2 := ihb (by omega); have h3 := ihc (by omega)
    rename_i lo m m' hi' a b c
    have hne : i ≠ lo := by omega
    refine ⟨?_, ?_, ?_, ?_⟩
    · intro b; simp [h1.1, h2.1, h3.1, hne]
    · simp [h1.2.1, h2.2.1, h3.2.1, hne]
    · simp [h1.2.2.1, h2.2.2.1, h3.2.2.1, hne]
    · intro hn
      simp [relsOf, relsOf_append, h1.2.2.2 (by simp [hne, hn]), h2.2.2.2 hn, h3.2.2.2 hn]
  | silent ha ho hf hc iha ihc =>
    have l1 := ha.le; have l3 := hc.le
    have h1 := iha (by omega); have h3 := ihc (by omega)
    rename_i lo m hi' armed a c
    have hne : i ≠ lo := by omega
    refine ⟨?_, ?_, ?_, ?_⟩
    · intro b; simp [h1.1, h3.1, hne]
    · simp [h1.2.1, h3.2.1, hne]
    · simp [h1.2.2.1, h3.2.2.1]
    · intro hn
      simp [relsOf, relsOf_append, h1.2.2.2 (by simp [hne, hn]), h3.2.2.2 hn]

theorem count_zero {l : List Ev} {e : Ev} (h : e ∉ l) : l.count e = 0 := List.count_eq_zero.mpr h

/-- Which object an enter event in a piece of events belongs to. -/
theorem scoped_enter {live : List Nat} {lo hi : Nat} {l : List Ev} (h : Scoped live lo hi l) {i : Nat} {b : Bool} (he : .enter i b ∈ l) :
    lo ≤ i ∧ i < hi := by
  refine ⟨?_, ?_⟩
  · apply Nat.le_of_not_lt; intro hc; exact (scoped_old h i (.inl hc)).1 b he
  · apply Nat.lt_of_not_le; intro hc; exact (scoped_old h i (.inr hc)).1 b he

theorem scoped_count {live : List Nat} {lo hi : Nat} {l : List Ev} (h : Scoped live lo hi l) (hlive : ∀ j ∈ live, j < lo) (i : Nat) (armed : Bool)
    (he : .enter i armed ∈ l) : l.count (.enter i armed) = 1 ∧ l.count (.enter i (!armed)) = 0 ∧ l.count (.leave i) = 1 ∧
      l.count (.ran i) = (if armed = true ∧ relsOf i l = [] then 1 else 0) ∧ FirstGets armed (relsOf i l) := by
  induction h with
  | nil => simp at he
  | work t _ ih =>
    have := ih hlive (by simpa using he)
    obtain ⟨h1, h2, h3, h4, h5⟩ := this
    refine ⟨by simpa [List.count_cons] using h1, by simpa [List.count_cons] using h2, by simpa [List.count_cons] using h3, ?_, h5⟩
    rw [List.count_cons, h4]
    simp only [relsOf]
    rfl
  | @release live lo _ j _ b hj hl ih =>
    have he' := (by simpa using he : _)
    have := ih hlive he'
    have hlo := scoped_enter hl he'
    have := hlive j hj
    have hne : j ≠ i := by omega
    simpa [relsOf, List.count_cons, hne] using ih hlive he'
  | @call live lo _ j _ hj hl ih =>
    have he' := (by simpa using he : _)
    have hlo := scoped_enter hl he'
    have := hlive j hj
    have hne : j ≠ i := by omega
    simpa [relsOf, List.count_cons, hne] using ih hlive he'
  | @runs live lo m m' hi' a b c ha hrel hb hc iha ihb ihc =>
    have l1 := ha.le; have l2 := hb.le; have l3 := hc.le
    have hlo : ∀ j ∈ lo :: live, j < lo + 1 := by
      intro j hj; rcases List.mem_cons.mp hj with rfl | hj
      · omega
      · have := hlive j hj; omega
    have hnl : ∀ j, lo ≤ j → j ∉ live := fun j hj hm => by have := hlive j hm; omega
    rcases (by simpa using he : (i = lo ∧ armed = true) ∨ _) with ⟨rfl, rfl⟩ | hm | hm | hm
    · have oa := scoped_old ha i (by omega); have ob := scoped_old hb i (by omega); have oc := scoped_old hc i (by omega)
      have rb := ob.2.2.2 (hnl i (by omega)); have rc := oc.2.2.2 (hnl i (by omega))
      simp [List.count_append, count_zero (oa.1 _), count_zero (ob.1 _), count_zero (oc.1 _), count_zero oa.2.1, count_zero ob.2.1,
        count_zero oc.2.1, count_zero oa.2.2.1, count_zero ob.2.2.1, count_zero oc.2.2.1, relsOf, relsOf_append, hrel, rb, rc, FirstGets]
    · have hr := scoped_enter ha hm
      have hne : lo ≠ i := by omega
      have ob := scoped_old hb i (by omega); have oc := scoped_old hc i (by omega)
      have rb := ob.2.2.2 (hnl i (by omega)); have rc := oc.2.2.2 (hnl i (by omega))
      have := iha hlo hm
      simpa [List.count_cons, List.count_append, count_zero (ob.1 _), count_zero (oc.1 _), count_zero ob.2.1,
        count_zero oc.2.1, count_zero ob.2.2.1, count_zero oc.2.2.1, relsOf, relsOf_append, rb, rc, hne] using this
    · have hr := scoped_enter hb hm
      have hne : lo ≠ i := by omega
      have oa := scoped_old ha i (by omega); have oc := scoped_old hc i (by omega)
      have ra := oa.2.2.2 (by simp [Ne.symm hne, hnl i (by omega)]); have rc := oc.2.2.2 (hnl i (by omega))
      have := ihb (fun j hj => by have := hlive j hj; omega) hm
      simpa [List.count_cons, List.count_append, count_zero (oa.1 _), count_zero (oc.1 _), count_zero oa.2.1,
        count_zero oc.2.1, count_zero oa.2.2.1, count_zero oc.2.2.1, relsOf, relsOf_append, ra, rc, hne] using this
    · have hr := scoped_enter hc hm
      have hne : lo ≠ i := by omega
      have oa := scoped_old ha i (by omega); have ob := scoped_old hb i (by omega)
      have ra := oa.2.2.2 (by simp [Ne.symm hne, hnl i (by omega)]); have rb := ob.2.2.2 (hnl i (by omega))
      have := ihc (fun j hj => by have := hlive j hj; omega) hm
      simpa [List.count_cons, List.count_append, count_zero (oa.1 _), count_zero (ob.1 _), count_zero oa.2.1,
        count_zero ob.2.1, count_zero oa.2.2.1, count_zero ob.2.2.1, relsOf, relsOf_append, ra, rb, hne] using this
  | @silent live lo m hi' ar a c ha ho hf hc iha ihc =>
    have l1 := ha.le; have l3 := hc.le
    have hlo : ∀ j ∈ lo :: live, j < lo + 1 := by
      intro j hj; rcases List.mem_cons.mp hj with rfl | hj
      · omega
      · have := hlive j hj; omega
    have hnl : ∀ j, lo ≤ j → j ∉ live := fun j hj hm => by have := hlive j hm; omega
    rcases (by simpa using he : (i = lo ∧ armed = ar) ∨ _) with ⟨rfl, rfl⟩ | hm | hm
    · have oa := scoped_old ha i (by omega); have oc := scoped_old hc i (by omega)
      have rc := oc.2.2.2 (hnl i (by omega))
      have hz : (if armed = true ∧ relsOf i a = [] then 1 else 0) = 0 := by
        rw [if_neg]; rintro ⟨h1, h2⟩; rcases ho with h | h
        · rw [h1] at h; cases h
        · exact h h2
      have hb : (armed == !armed) = false := by cases armed <;> rfl
      simp [List.count_append, count_zero (oa.1 _), count_zero (oc.1 _), count_zero oa.2.1,
        count_zero oc.2.1, count_zero oa.2.2.1, count_zero oc.2.2.1, relsOf, relsOf_append, rc, hf]
      intro h1
      rcases ho with h | h
      · rw [h1] at h; cases h
      · exact h
    · have hr := scoped_enter ha hm
      have hne : lo ≠ i := by omega
      have oc := scoped_old hc i (by omega)
      have rc := oc.2.2.2 (hnl i (by omega))
      have := iha hlo hm
      simpa [List.count_cons, List.count_append, count_zero (oc.1 _),
        count_zero oc.2.1, count_zero oc.2.2.1, relsOf, relsOf_append, rc, hne] using this
    · have hr := scoped_enter hc hm
      have hne : lo ≠ i := by omega
      have oa := scoped_old ha i (by omega)
      have ra := oa.2.2.2 (by simp [Ne.symm hne, hnl i (by omega)])
      have := ihc (fun j hj => by have := hlive j hj; omega) hm
      simpa [List.count_cons, List.count_append, count_zero (oa.1 _), count_zero oa.2.1,
        count_zero oa.2.2.1, relsOf, relsOf_append, ra, hne] using this

/-- C60: exactly once. In every program that ends, normally or by an exception: the scope of every object ends once, its function is
run by the destructor exactly once if it is not empty and `release()` was not called, and not at all otherwise; the first `release()`
returns the function, later ones an empty one. -/
theorem C60_once (fuel : Nat) (p : Prog σ) (u : σ) (r : Res Unit) (w : World σ) (h : exec fuel p (startWorld u) = (r, w)) (hr : ProgEnded r)
    (i : Nat) (armed : Bool) (hi : .enter i armed ∈ w.log) :
    w.log.count (.leave i) = 1 ∧ w.log.count (.ran i) = (if armed = true ∧ relsOf i w.log = [] then 1 else 0) ∧
    FirstGets armed (relsOf i w.log) :=
  (scoped_count (C60_scopes fuel p u r w h hr) (fun _ h => nomatch h) i armed hi).2.2

theorem scoped_order {live : List Nat} {lo hi : Nat} {l : List Ev} (h : Scoped live lo hi l) (i : Nat) (armed : Bool) (he : .enter i armed ∈ l) :
    ∃ a b c, l = a ++ .enter i armed :: b ++ .leave i :: c ∧ (∀ j, .leave j ∈ b ∨ .ran j ∈ b → i < j) ∧
      (armed = true → relsOf i b = [] → ∃ d, c = .ran i :: d) := by
  have young : ∀ {live lo hi l}, Scoped live lo hi l → ∀ j, .leave j ∈ l ∨ .ran j ∈ l → lo ≤ j := by
    intro live lo hi l h j hj
    apply Nat.le_of_not_lt
    intro hc
    have := scoped_old h j (.inl hc)
    rcases hj with hj | hj
    · exact this.2.1 hj
    · exact this.2.2.1 hj
  induction h with
  | nil => simp at he
  | work t _ ih =>
    obtain ⟨a, b, c, rfl, h⟩ := ih (by simpa using he)
    exact ⟨.work t :: a, b, c, by simp, h⟩
  | @release _ _ _ j _ f _ _ ih =>
    obtain ⟨a, b, c, rfl, h⟩ := ih (by simpa using he)
    exact ⟨.released j f :: a, b, c, by simp, h⟩
  | @call _ _ _ j _ _ _ ih =>
    obtain ⟨a, b, c, rfl, h⟩ := ih (by simpa using he)
    exact ⟨.released j true :: .called j :: a, b, c, by simp, h⟩
  | @runs live lo m m' hi' a b c ha hrel hb hc iha ihb ihc =>
    rcases (by simpa using he : (i = lo ∧ armed = true) ∨ _) with ⟨rfl, rfl⟩ | hm | hm | hm
    · exact ⟨[], a, .ran i :: b ++ c, by simp, fun j hj => young ha j hj, fun _ _ => ⟨b ++ c, rfl⟩⟩
    · obtain ⟨x, y, z, rfl, h1, h2⟩ := iha hm
      refine ⟨.enter lo true :: x, y, z ++ .leave lo :: .ran lo :: b ++ c, by simp, h1, ?_⟩
      intro h3 h4; obtain ⟨d, rfl⟩ := h2 h3 h4; exact ⟨_, rfl⟩
    · obtain ⟨x, y, z, rfl, h1, h2⟩ := ihb hm
      refine ⟨.enter lo true :: a ++ .leave lo :: .ran lo :: x, y, z ++ c, by simp, h1, ?_⟩
      intro h3 h4; obtain ⟨d, rfl⟩ := h2 h3 h4; exact ⟨_, rfl⟩
    · obtain ⟨x, y, z, rfl, h1, h2⟩ := ihc hm
      exact ⟨.enter lo true :: a ++ .leave lo :: .ran lo :: b ++ x, y, z, by simp, h1, h2⟩
  | @silent live lo m hi' ar a c ha ho hf hc iha ihc =>
    rcases (by simpa using he : (i = lo ∧ armed = ar) ∨ _) with ⟨rfl, rfl⟩ | hm | hm
    · refine ⟨[], a, c, by simp, fun j hj => young ha j hj, ?_⟩
      intro h1 h2
      rcases ho with h | h
      · rw [h1] at h; cases h
      · exact absurd h2 h
    · obtain ⟨x, y, z, rfl, h1, h2⟩ := iha hm
      refine ⟨.enter lo ar :: x, y, z ++ .leave lo :: c, by simp, h1, ?_⟩
      intro h3 h4; obtain ⟨d, rfl⟩ := h2 h3 h4; exact ⟨_, rfl⟩
    · obtain ⟨x, y, z, rfl, h1, h2⟩ := ihc hm
      exact ⟨.enter lo ar :: a ++ .leave lo :: x, y, z, by simp, h1, h2⟩

/-- C60: reverse order. Between the construction of an object and the end of its scope only scopes of objects constructed later end and
only their functions run; the function of an object that was not released runs directly after the end of its scope. -/
theorem C60_order (fuel : Nat) (p : Prog σ) (u : σ) (r : Res Unit) (w : World σ) (h : exec fuel p (startWorld u) = (r, w)) (hr : ProgEnded r)
    (i : Nat) (armed : Bool) (hi : .enter i armed ∈ w.log) :
    ∃ a b c, w.log = a ++ .enter i armed :: b ++ .leave i :: c ∧ (∀ j, .leave j ∈ b ∨ .ran j ∈ b → i < j) ∧
      (armed = true → relsOf i b = [] → ∃ d, c = .ran i :: d) :=
  scoped_order (C60_scopes fuel p u r w h hr) i armed hi

/-- C60: a scope ends the way its body ends, whatever the function does: what the function throws does not escape, and does not replace
an exception that is on its way. -/
theorem C60_no_escape (fuel : Nat) (f : Option (Prog σ)) (body : Prog σ) (w w' : World σ) (r : Res Unit)
    (h : exec (fuel + 1) (.guard f body) w = (r, w')) (hr : ProgEnded r) : ∃ w1, exec fuel body (construct f w) = (r, w1) := by
  simp only [exec] at h
  rcases hb : exec fuel body (construct f w) with ⟨rb, wb⟩
  rw [hb] at h
  have hdes : ∀ (v v' : World σ) r', destroy (exec fuel) v = (r', v') → ProgEnded r' → r' = .ok () := by
    intro v v' r' hd he
    rcases he with rfl | ⟨e, rfl⟩
    · rfl
    · unfold destroy at hd
      split at hd
      · cases hd
      · simp only at hd
        split at hd
        · cases hd
        · split at hd
          · cases hd
          · rename_i hn
            exact absurd hd (hn _ _)
  cases rb with
  | ok u => exact ⟨wb, by rw [hdes _ _ _ h hr]⟩
  | throw e =>
    simp only at h
    rcases hd : destroy (exec fuel) wb with ⟨rd, wd⟩
    rw [hd] at h
    cases rd with
    | ok u => simp only [Prod.mk.injEq] at h; exact ⟨wb, by rw [h.1]⟩
    | _ =>
      simp only [Prod.mk.injEq] at h
      have := hdes _ _ _ hd (h.1 ▸ hr)
      cases this
  | _ =>
    simp only [Prod.mk.injEq] at h
    rw [← h.1] at hr
    rcases hr with hr | ⟨e, hr⟩ <;> cases hr

/-- Two nested objects; the inner function throws, the body throws, both functions run, inner first, and the exception of the body comes
out. -/
example : exec 10 (.guard (some (.act 1 (fun n => (.ok (), n + 1)))) (.guard (some (.act 2 (fun n => (.throw (.user 5), n * 10))))
    (.act 3 (fun n => (.throw .logic_error, n + 1))))) (startWorld 0) =
    (.throw .logic_error, ⟨11, [.enter 0 true, .enter 1 true, .work 3, .leave 1, .ran 1, .work 2, .leave 0, .ran 0, .work 1], 2, []⟩) := by
  rfl

/-- A released function does not run at the end of the scope, and can be called by the program. -/
example : exec 10 (.guard (some (.act 1 (fun n => (.ok (), n + 1)))) (.seq (.release 0 true) (.release 0 true))) (startWorld 0) =
    (.ok (), ⟨1, [.enter 0 true, .released 0 true, .called 0, .work 1, .released 0 false, .leave 0], 1, []⟩) := by
  rfl

end Utki
