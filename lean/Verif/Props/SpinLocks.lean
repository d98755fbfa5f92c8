import Verif.Model.SpinLocks
/-!
# C114: several spin locks
-/
namespace Utki
namespace SpinLocks
open Spec.Locks
open SpinLock (Order View)

/-- The invariant. -/
structure Inv (guard : Nat → Nat) (es : List Event) (s : State) : Prop where
  held : ∀ t k, k ∈ (s.threads t).held ↔ owner k es = some t
  nodup : ∀ t, (s.threads t).held.Nodup
  flag : ∀ k, (s.locks k).flag = (owner k es).isSome
  last : ∀ l, lastWrite l es = valueAt s l (s.mem l).length
  vle : ∀ t l, (s.threads t).view l ≤ (s.mem l).length
  lle : ∀ k l, (s.locks k).view l ≤ (s.mem l).length
  sees : ∀ t l, owner (guard l) es = some t → (s.threads t).view l = (s.mem l).length
  free : ∀ l, owner (guard l) es = none → (s.locks (guard l)).view l = (s.mem l).length

theorem owner_snoc (k : Nat) (es : List Event) (e : Event) : owner k (es ++ [e]) = match e with
    | .locked t j => if j = k then some t else owner k es
    | .unlocked _ j => if j = k then none else owner k es
    | _ => owner k es := by
  cases e <;> simp [owner, List.foldl_append]

theorem owner_locked (k : Nat) (es : List Event) (t j : Nat) : owner k (es ++ [.locked t j]) = if j = k then some t else owner k es := owner_snoc k es _

theorem owner_unlocked (k : Nat) (es : List Event) (t j : Nat) : owner k (es ++ [.unlocked t j]) = if j = k then none else owner k es := owner_snoc k es _

theorem last_snoc (l : Nat) (es : List Event) (e : Event) :
    lastWrite l (es ++ [e]) = match e with | .write _ m w => if m = l then w else lastWrite l es | _ => lastWrite l es := by
  cases e <;> simp [lastWrite, List.foldl_append]

theorem inv_init (guard : Nat → Nat) : Inv guard [] init :=
  ⟨fun t k => by simp [init, owner], fun t => by simp [init], fun k => by simp [init, owner], fun l => by simp [init, lastWrite, valueAt],
    fun t l => by simp [init], fun k l => by simp [init], fun t l h => by simp [owner] at h, fun l _ => by simp [init]⟩

theorem inv_step {guard : Nat → Nat} {may : List Nat → Nat → Prop} {es : List Event} {s s' : State} {e : Event} (h : Inv guard es s)
    (hs : Step guard may s e s') : Inv guard (es ++ [e]) s' := by
  cases hs with
  | call t k hw hm =>
    refine ⟨fun u j => ?_, fun u => ?_, fun j => ?_, fun l => ?_, fun u l => ?_, fun j l => ?_, fun u l hu => ?_, fun l hl => ?_⟩
    · rw [owner_snoc]; by_cases e : u = t <;> simp [setThread, e, h.held]
    · by_cases e : u = t <;> simp [setThread, e, h.nodup]
    · rw [owner_snoc]; exact h.flag j
    · rw [last_snoc]; exact h.last l
    · by_cases e : u = t <;> simp [setThread, e, h.vle]
    · exact h.lle j l
    · rw [owner_snoc] at hu
      have := h.sees u l hu
      by_cases e : u = t
      · subst e; simpa [setThread] using this
      · simpa [setThread, e] using this
    · rw [owner_snoc] at hl; exact h.free l hl
  | failed t k hw hf =>
    have hfl : (s.locks k).flag = true := by
      cases hc : (s.locks k).flag with
      | true => rfl
      | false => simp [attempt, testAndSet, hc] at hf
    have he : (attempt t k s).2 = setLock (setThread s t { s.threads t with view := (s.threads t).view.join (s.locks k).view }) k ⟨true, (s.locks k).view⟩ := by
      simp [attempt, testAndSet, hfl, Order.acquires, Order.releases]
    rw [he]
    refine ⟨fun u j => ?_, fun u => ?_, fun j => ?_, fun l => ?_, fun u l => ?_, fun j l => ?_, fun u l hu => ?_, fun l hl => ?_⟩
    · rw [owner_snoc]; by_cases e : u = t <;> simp [setThread, setLock, e, h.held]
    · by_cases e : u = t <;> simp [setThread, setLock, e, h.nodup]
    · rw [owner_snoc]
      by_cases e : j = k
      · subst e; have := h.flag j; rw [hfl] at this; simpa [setLock, setThread] using this
      · simpa [setLock, setThread, e] using h.flag j
    · rw [last_snoc]; exact h.last l
    · have h1 := h.vle t l; have h2 := h.lle k l
      by_cases e : u = t
      · simp only [setThread, setLock, e, if_true, View.join]; omega
      · simpa [setThread, setLock, e] using h.vle u l
    · by_cases e : j = k
      · subst e; simpa [setLock, setThread] using h.lle j l
      · simpa [setLock, setThread, e] using h.lle j l
    · rw [owner_snoc] at hu
      have h0 := h.sees u l hu
      have h2 := h.lle k l
      by_cases e : u = t
      · subst e; simp only [setThread, setLock, if_true, View.join]; omega
      · simpa [setThread, setLock, e] using h0
    · rw [owner_snoc] at hl
      by_cases e : guard l = k
      · have := h.free l hl
        rw [e] at this
        simpa [setLock, setThread, e] using this
      · simpa [setLock, setThread, e] using h.free l hl
  | locked t k hw hf =>
    have hfl : (s.locks k).flag = false := by
      cases hc : (s.locks k).flag with
      | false => rfl
      | true => simp [attempt, testAndSet, hc] at hf
    have hown : owner k es = none := by
      have := h.flag k
      rw [hfl] at this
      cases ho : owner k es with
      | none => rfl
      | some _ => rw [ho] at this; cases this
    have he : (attempt t k s).2 = setLock (setThread s t ⟨(s.threads t).view.join (s.locks k).view, none, k :: (s.threads t).held⟩) k ⟨true, (s.locks k).view⟩ := by
      simp only [attempt, testAndSet, hfl, Order.acquires, Order.releases, setThread, setLock, Bool.false_eq_true, if_false, if_true]
      congr 1
      funext u
      by_cases e : u = t <;> simp [e]
    rw [he]
    refine ⟨fun u j => ?_, fun u => ?_, fun j => ?_, fun l => ?_, fun u l => ?_, fun j l => ?_, fun u l hu => ?_, fun l hl => ?_⟩
    · rw [owner_locked]
      by_cases ej : j = k
      · subst ej
        by_cases e : u = t
        · subst e; simp [setThread, setLock]
        · have := h.held u j
          rw [hown] at this
          simp [setThread, setLock, e, this]
          exact fun hh => e hh.symm
      · have := h.held u j
        by_cases e : u = t
        · subst e; simp [setThread, setLock, ej, this, Ne.symm ej]
        · simp [setThread, setLock, e, this, Ne.symm ej]
    · by_cases e : u = t
      · subst e
        simp only [setThread, setLock, if_true, List.nodup_cons]
        exact ⟨fun hk => by have := (h.held u k).mp hk; simp [hown] at this, h.nodup u⟩
      · simp [setThread, setLock, e, h.nodup]
    · rw [owner_locked]
      by_cases e : j = k
      · simp [setLock, setThread, e]
      · simpa [setLock, setThread, e, Ne.symm e] using h.flag j
    · rw [last_snoc]; exact h.last l
    · have h1 := h.vle t l; have h2 := h.lle k l
      by_cases e : u = t
      · simp only [setThread, setLock, e, if_true, View.join]; omega
      · simpa [setThread, setLock, e] using h.vle u l
    · by_cases e : j = k
      · subst e; simpa [setLock, setThread] using h.lle j l
      · simpa [setLock, setThread, e] using h.lle j l
    · rw [owner_locked] at hu
      have h1 := h.vle t l; have h2 := h.lle k l
      by_cases eg : guard l = k
      · rw [if_pos eg.symm] at hu
        obtain rfl : t = u := by simpa using hu
        have := h.free l (by rw [eg]; exact hown)
        rw [eg] at this
        simp only [setThread, setLock, if_true, View.join]; omega
      · rw [if_neg (Ne.symm eg)] at hu
        have h0 := h.sees u l hu
        by_cases e : u = t
        · subst e; simp only [setThread, setLock, if_true, View.join]; omega
        · simpa [setThread, setLock, e] using h0
    · rw [owner_locked] at hl
      by_cases e : guard l = k
      · rw [if_pos e.symm] at hl; cases hl
      · rw [if_neg (Ne.symm e)] at hl
        simpa [setLock, setThread, e] using h.free l hl
  | unlocked t k hw hk =>
    have hown := (h.held t k).mp hk
    have he : unlock t k s = setThread (setLock s k ⟨false, (s.threads t).view⟩) t { s.threads t with held := (s.threads t).held.erase k } := by
      simp [unlock, clear, Order.releases, setLock]
    rw [he]
    refine ⟨fun u j => ?_, fun u => ?_, fun j => ?_, fun l => ?_, fun u l => ?_, fun j l => ?_, fun u l hu => ?_, fun l hl => ?_⟩
    · rw [owner_unlocked]
      have := h.held u j
      by_cases ej : j = k
      · subst ej
        by_cases e : u = t
        · subst e; simp [setThread, setLock, (h.nodup u).mem_erase_iff]
        · simp only [setThread, setLock, e, if_false, if_true, this, hown]
          simp
          exact fun hh => e hh.symm
      · by_cases e : u = t
        · subst e; simp [setThread, setLock, Ne.symm ej, ej, this, (h.nodup u).mem_erase_iff]
        · simp [setThread, setLock, e, this, Ne.symm ej]
    · by_cases e : u = t
      · subst e; simpa [setThread, setLock] using (h.nodup u).erase k
      · simp [setThread, setLock, e, h.nodup]
    · rw [owner_unlocked]
      by_cases e : j = k
      · simp [setLock, setThread, e]
      · simpa [setLock, setThread, e, Ne.symm e] using h.flag j
    · rw [last_snoc]; exact h.last l
    · by_cases e : u = t
      · subst e; simpa [setThread, setLock] using h.vle u l
      · simpa [setThread, setLock, e] using h.vle u l
    · by_cases e : j = k
      · subst e; simpa [setLock, setThread] using h.vle t l
      · simpa [setLock, setThread, e] using h.lle j l
    · rw [owner_unlocked] at hu
      by_cases eg : guard l = k
      · rw [if_pos eg.symm] at hu; cases hu
      · rw [if_neg (Ne.symm eg)] at hu
        have h0 := h.sees u l hu
        by_cases e : u = t
        · subst e; simpa [setThread, setLock] using h0
        · simpa [setThread, setLock, e] using h0
    · rw [owner_unlocked] at hl
      by_cases e : guard l = k
      · simpa [setLock, setThread, e] using h.sees t l (by rw [e]; exact hown)
      · rw [if_neg (Ne.symm e)] at hl
        simpa [setLock, setThread, e] using h.free l hl
  | read t l n hw hg hv hn =>
    exact ⟨fun u j => by rw [owner_snoc]; exact h.held u j, h.nodup, fun j => by rw [owner_snoc]; exact h.flag j, fun l => by rw [last_snoc]; exact h.last l,
      h.vle, h.lle, fun u l hu => by rw [owner_snoc] at hu; exact h.sees u l hu, fun l hl => by rw [owner_snoc] at hl; exact h.free l hl⟩
  | write t l v hw hg =>
    have hown := (h.held t _).mp hg
    refine ⟨fun u j => ?_, fun u => ?_, fun j => ?_, fun m => ?_, fun u m => ?_, fun j m => ?_, fun u m hu => ?_, fun m hm => ?_⟩
    · rw [owner_snoc]; by_cases e : u = t <;> simp [setThread, e, h.held]
    · by_cases e : u = t <;> simp [setThread, e, h.nodup]
    · rw [owner_snoc]; exact h.flag j
    · rw [last_snoc]
      by_cases e : l = m
      · subst e; simp [setThread, valueAt]
      · have := h.last m
        simp only [valueAt, setThread, e, Ne.symm e, if_false] at this ⊢
        exact this
    · have h1 := h.vle u m
      by_cases e : u = t
      · subst e
        by_cases em : m = l
        · subst em; simp [setThread]
        · simpa [setThread, em] using h1
      · by_cases em : m = l
        · subst em; simp only [setThread, e, if_false, if_true, List.length_append]; omega
        · simpa [setThread, em, e] using h1
    · have h1 := h.lle j m
      by_cases em : m = l
      · subst em; simp only [setThread, if_true, List.length_append]; omega
      · simpa [setThread, em] using h1
    · rw [owner_snoc] at hu
      have h0 := h.sees u m hu
      by_cases em : m = l
      · subst em
        obtain rfl : t = u := by rw [hown] at hu; simpa using hu
        simp [setThread]
      · by_cases e : u = t
        · subst e; simpa [setThread, em] using h0
        · simpa [setThread, em, e] using h0
    · rw [owner_snoc] at hm
      have h0 := h.free m hm
      by_cases em : m = l
      · subst em; rw [hown] at hm; cases hm
      · simpa [setThread, em] using h0
  | race t l hw hg hv =>
    exact ⟨fun u j => by rw [owner_snoc]; exact h.held u j, h.nodup, fun j => by rw [owner_snoc]; exact h.flag j, fun l => by rw [last_snoc]; exact h.last l,
      h.vle, h.lle, fun u l hu => by rw [owner_snoc] at hu; exact h.sees u l hu, fun l hl => by rw [owner_snoc] at hl; exact h.free l hl⟩

theorem inv_run {guard : Nat → Nat} {may : List Nat → Nat → Prop} {es : List Event} {s : State} (h : Run guard may es s) : Inv guard es s := by
  induction h with
  | nil => exact inv_init guard
  | snoc es s e s' _ hs ih => exact inv_step ih hs

/-! ## Taking the locks in an order -/

/-- With locks taken in order, a thread waits for a lock greater than those it holds. -/
theorem want_gt {guard : Nat → Nat} {es : List Event} {s : State} (h : Run guard InOrder es s) :
    ∀ t k, (s.threads t).want = some k → ∀ j ∈ (s.threads t).held, j < k := by
  induction h with
  | nil => intro t k hk; simp [init] at hk
  | snoc es s e s' _ hs ih =>
    intro u j hu i hi
    cases hs with
    | call t k hw hm =>
      by_cases e : u = t
      · subst e
        simp only [setThread, if_true] at hu hi
        obtain rfl : k = j := by simpa using hu
        exact hm i hi
      · simp only [setThread, e, if_false] at hu hi
        exact ih u j hu i hi
    | failed t k hw hf =>
      cases hc : (s.locks k).flag with
      | false => simp [attempt, testAndSet, hc] at hf
      | true =>
        simp only [attempt, testAndSet, hc, if_true, setLock, setThread] at hu hi
        by_cases e : u = t
        · subst e
          simp only [if_true] at hu hi
          exact ih u j hu i hi
        · simp only [e, if_false] at hu hi
          exact ih u j hu i hi
    | locked t k hw hf =>
      cases hc : (s.locks k).flag with
      | true => simp [attempt, testAndSet, hc] at hf
      | false =>
        simp only [attempt, testAndSet, hc, Bool.false_eq_true, if_false, setLock, setThread] at hu hi
        by_cases e : u = t
        · subst e
          simp at hu
        · simp only [e, if_false] at hu hi
          exact ih u j hu i hi
    | unlocked t k hw hk =>
      simp only [unlock, clear, setLock, setThread] at hu hi
      by_cases e : u = t
      · subst e
        simp only [if_true] at hu hi
        exact ih u j hu i (List.mem_of_mem_erase hi)
      · simp only [e, if_false] at hu hi
        exact ih u j hu i hi
    | read t l n hw hg hv hn => exact ih u j hu i hi
    | write t l v hw hg =>
      by_cases e : u = t
      · subst e
        simp only [setThread, if_true] at hu hi
        exact ih u j hu i hi
      · simp only [setThread, e, if_false] at hu hi
        exact ih u j hu i hi
    | race t l hw hg hv => exact ih u j hu i hi

/-- Only finitely many locks are held. -/
theorem owner_bound (es : List Event) : ∃ M, ∀ k t, owner k es = some t → k < M := by
  generalize hn : es.length = n
  induction n generalizing es with
  | zero => 
    obtain rfl := List.length_eq_zero_iff.mp hn
    exact ⟨0, fun k t h => by simp [owner] at h⟩
  | succ n ih =>
    rcases List.eq_nil_or_concat es with rfl | ⟨es', e, rfl⟩
    · simp at hn
    obtain ⟨M, hM⟩ := ih es' (by simpa using hn)
    cases e with
    | locked u j =>
      refine ⟨max M (j + 1), fun k t h => ?_⟩
      rw [List.concat_eq_append, owner_locked] at h
      by_cases e : j = k
      · omega
      · rw [if_neg e] at h; have := hM k t h; omega
    | unlocked u j =>
      refine ⟨M, fun k t h => ?_⟩
      rw [List.concat_eq_append, owner_unlocked] at h
      by_cases e : j = k
      · rw [if_pos e] at h; cases h
      · rw [if_neg e] at h; exact hM k t h
    | _ => exact ⟨M, fun k t h => hM k t (by rw [List.concat_eq_append, owner_snoc] at h; exact h)⟩

theorem step_locked {guard : Nat → Nat} {may : List Nat → Nat → Prop} {es : List Event} {s : State} (h : Run guard may es s) (t k : Nat)
    (hw : (s.threads t).want = some k) (hf : (s.locks k).flag = false) :
    ∃ s', Run guard may (es ++ [.locked t k]) s' ∧ (s'.threads t).want = none ∧ (s'.threads t).held = k :: (s.threads t).held ∧
      (∀ u, u ≠ t → s'.threads u = s.threads u) := by
  refine ⟨(attempt t k s).2, .snoc es s _ _ h (.locked s t k hw (by simp [attempt, testAndSet, hf])), ?_, ?_, ?_⟩
  · simp [attempt, testAndSet, hf, setThread, setLock]
  · simp [attempt, testAndSet, hf, setThread, setLock]
  · intro u hu; simp [attempt, testAndSet, hf, setThread, setLock, hu]

theorem step_unlocked {guard : Nat → Nat} {may : List Nat → Nat → Prop} {es : List Event} {s : State} (h : Run guard may es s) (t k : Nat)
    (hw : (s.threads t).want = none) (hk : k ∈ (s.threads t).held) :
    ∃ s', Run guard may (es ++ [.unlocked t k]) s' ∧ (s'.locks k).flag = false ∧ (∀ u, u ≠ t → s'.threads u = s.threads u) := by
  refine ⟨unlock t k s, .snoc es s _ _ h (.unlocked s t k hw hk), ?_, ?_⟩
  · simp [unlock, clear, setThread, setLock]
  · intro u hu; simp [unlock, clear, setThread, setLock, hu]

/-- A thread that waits for a lock can get it, while all threads that wait for the same or lesser ones stand still. -/
theorem gets {guard : Nat → Nat} {es : List Event} {s : State} (h : Run guard InOrder es s) (M : Nat) (hM : ∀ k t, owner k es = some t → k < M) (n : Nat) :
    ∀ t k, M - k ≤ n → (s.threads t).want = some k → ∃ es' s', Run guard InOrder (es ++ es' ++ [.locked t k]) s' ∧ (s'.threads t).want = none ∧
      (s'.threads t).held = k :: (s.threads t).held ∧ ∀ u j, u ≠ t → (s.threads u).want = some j → j ≤ k → s'.threads u = s.threads u := by
  have hI := inv_run h
  induction n with
  | zero =>
    intro t k hn hw
    have hf : (s.locks k).flag = false := by
      rw [hI.flag k]
      cases ho : owner k es with
      | none => rfl
      | some u => have := hM k u ho; omega
    obtain ⟨s', h1, h2, h3, h4⟩ := step_locked h t k hw hf
    exact ⟨[], s', by simpa using h1, h2, h3, fun u j hu _ _ => h4 u hu⟩
  | succ n ih =>
    intro t k hn hw
    cases ho : owner k es with
    | none =>
      have hf : (s.locks k).flag = false := by rw [hI.flag k, ho]; rfl
      obtain ⟨s', h1, h2, h3, h4⟩ := step_locked h t k hw hf
      exact ⟨[], s', by simpa using h1, h2, h3, fun u j hu _ _ => h4 u hu⟩
    | some u =>
      have hku := (hI.held u k).mpr ho
      have hut : u ≠ t := by
        rintro rfl
        have := want_gt h u k hw k hku; omega
      -- bring the holder to where it waits for nothing
      have free : ∃ es1 s1, Run guard InOrder (es ++ es1) s1 ∧ (s1.threads u).want = none ∧ k ∈ (s1.threads u).held ∧
          ∀ v j, v ≠ u → (s.threads v).want = some j → j ≤ k → s1.threads v = s.threads v := by
        cases hwu : (s.threads u).want with
        | none => exact ⟨[], s, by simpa using h, hwu, hku, fun _ _ _ _ _ => rfl⟩
        | some k' =>
          have hkk := want_gt h u k' hwu k hku
          obtain ⟨es', s', g1, g2, g3, g4⟩ := ih u k' (by have := hM k u ho; omega) hwu
          exact ⟨es' ++ [.locked u k'], s', by simpa using g1, g2, by rw [g3]; exact List.mem_cons_of_mem _ hku,
            fun v j hv hj hjk => g4 v j hv hj (by omega)⟩
      obtain ⟨es1, s1, r1, r2, r3, r4⟩ := free
      obtain ⟨s2, q1, q2, q3⟩ := step_unlocked r1 u k r2 r3
      have ht1 := r4 t k (Ne.symm hut) hw (Nat.le_refl _)
      have ht2 := q3 t (Ne.symm hut)
      obtain ⟨s3, p1, p2, p3, p4⟩ := step_locked q1 t k (by rw [ht2, ht1]; exact hw) q2
      refine ⟨es1 ++ [.unlocked u k], s3, by simpa using p1, p2, by rw [p3, ht2, ht1], fun v j hv hj hjk => ?_⟩
      have hvu : v ≠ u := by
        rintro rfl
        have := want_gt h v j hj k hku; omega
      rw [p4 v hv, q3 v hvu, r4 v j hvu hj hjk]

/-- A thread that has called `lock()` is in it until it returns. -/
theorem waits {guard : Nat → Nat} {may : List Nat → Nat → Prop} {s s' : State} {e : Event} (hs : Step guard may s e s') (t k : Nat)
    (hw : (s.threads t).want = some k) (he : e ≠ .locked t k) : (s'.threads t).want = some k ∧ (s'.threads t).held = (s.threads t).held := by
  cases hs with
  | call u j hu hm =>
    by_cases e : t = u
    · subst e; rw [hw] at hu; cases hu
    · simp [setThread, e, hw]
  | failed u j hu hf =>
    cases hc : (s.locks j).flag with
    | false => simp [attempt, testAndSet, hc] at hf
    | true =>
      by_cases e : t = u
      · subst e; simp [attempt, testAndSet, hc, setThread, setLock, hw]
      · simp [attempt, testAndSet, hc, setThread, setLock, e, hw]
  | locked u j hu hf =>
    cases hc : (s.locks j).flag with
    | true => simp [attempt, testAndSet, hc] at hf
    | false =>
      by_cases e : t = u
      · subst e; rw [hw] at hu; cases hu; exact absurd rfl he
      · simp [attempt, testAndSet, hc, setThread, setLock, e, hw]
  | unlocked u j hu hk =>
    by_cases e : t = u
    · subst e; rw [hw] at hu; cases hu
    · simp [unlock, clear, setThread, setLock, e, hw]
  | read u l n hu hg hv hn => exact ⟨hw, rfl⟩
  | write u l v hu hg =>
    by_cases e : t = u
    · subst e; rw [hw] at hu; cases hu
    · simp [setThread, e, hw]
  | race u l hu hg hv => exact ⟨hw, rfl⟩

theorem run_snoc {guard : Nat → Nat} {may : List Nat → Nat → Prop} {es : List Event} {e : Event} {s : State} (h : Run guard may (es ++ [e]) s) :
    ∃ s0, Run guard may es s0 ∧ Step guard may s0 e s := by
  generalize hE : es ++ [e] = E at h
  cases h with
  | nil => simp at hE
  | snoc es' s0 e' s' h0 hs =>
    obtain ⟨rfl, h2⟩ := List.append_inj' hE rfl
    cases h2
    exact ⟨s0, h0, hs⟩

theorem run_prefix {guard : Nat → Nat} {may : List Nat → Nat → Prop} {pre : List Event} (post : List Event) {s : State}
    (h : Run guard may (pre ++ post) s) : ∃ s0, Run guard may pre s0 := by
  generalize hn : post.length = n
  induction n generalizing post s with
  | zero => obtain rfl := List.length_eq_zero_iff.mp hn; exact ⟨s, by simpa using h⟩
  | succ n ih =>
    rcases List.eq_nil_or_concat post with rfl | ⟨post', e, rfl⟩
    · simp at hn
    · rw [List.concat_eq_append, ← List.append_assoc] at h
      obtain ⟨s0, h0, -⟩ := run_snoc h
      exact ih post' h0 (by simpa using hn)

theorem run_at {guard : Nat → Nat} {may : List Nat → Nat → Prop} {pre post : List Event} {e : Event} {s : State}
    (h : Run guard may (pre ++ e :: post) s) : ∃ s0 s1, Run guard may pre s0 ∧ Step guard may s0 e s1 := by
  rw [show pre ++ e :: post = (pre ++ [e]) ++ post by simp] at h
  obtain ⟨s1, h1⟩ := run_prefix post h
  obtain ⟨s0, h0, hs⟩ := run_snoc h1
  exact ⟨s0, s1, h0, hs⟩

theorem want_of_waiting {guard : Nat → Nat} {may : List Nat → Nat → Prop} {es : List Event} {s : State} (h : Run guard may es s) {t k : Nat}
    (hw : Waiting t k es) : (s.threads t).want = some k := by
  obtain ⟨pre, post, rfl, hp⟩ := hw
  generalize hn : post.length = n
  induction n generalizing post s with
  | zero =>
    obtain rfl := List.length_eq_zero_iff.mp hn
    obtain ⟨s0, -, hs⟩ := run_snoc h
    cases hs
    simp [setThread]
  | succ n ih =>
    rcases List.eq_nil_or_concat post with rfl | ⟨post', e, rfl⟩
    · simp at hn
    · rw [List.concat_eq_append, ← List.cons_append, ← List.append_assoc] at h
      obtain ⟨s0, h0, hs⟩ := run_snoc h
      have := ih post' (by intro hh; exact hp (by simp [hh])) h0 (by simpa using hn)
      exact (waits hs t k this (by intro hh; exact hp (by simp [hh]))).1

/-- Threads that wait for each other wait for ever. -/
theorem stuck {guard : Nat → Nat} {may : List Nat → Nat → Prop} {es : List Event} (T : Nat → Prop) {s : State}
    (hT : ∀ t, T t → ∃ k u, (s.threads t).want = some k ∧ k ∈ (s.threads u).held ∧ T u) {e : Event} {s' : State} (h : Run guard may es s)
    (hs : Step guard may s e s') : (T e.thread → ∃ k, e = .failed e.thread k) ∧ ∀ t, T t → ∃ k u, (s'.threads t).want = some k ∧ k ∈ (s'.threads u).held ∧ T u := by
  have hI := inv_run h
  have hno : ∀ t k, T t → e ≠ .locked t k := by
    rintro t k ht rfl
    cases hs with
    | locked _ _ hw hf =>
      obtain ⟨k', u, h1, h2, h3⟩ := hT t ht
      rw [h1] at hw
      obtain rfl : k' = k := by simpa using hw
      have hfl := hI.flag k'
      rw [(hI.held u k').mp h2] at hfl
      simp [attempt, testAndSet, hfl] at hf
  constructor
  · intro ht
    obtain ⟨k', u, h1, h2, h3⟩ := hT _ ht
    cases hs with
    | call t k hw _ => simp only [Event.thread] at h1; rw [h1] at hw; cases hw
    | failed t k _ _ => exact ⟨k, rfl⟩
    | locked t k _ _ => exact absurd rfl (hno t k ht)
    | unlocked t k hw _ => simp only [Event.thread] at h1; rw [h1] at hw; cases hw
    | read t l n hw => simp only [Event.thread] at h1; rw [h1] at hw; cases hw
    | write t l v hw => simp only [Event.thread] at h1; rw [h1] at hw; cases hw
    | race t l hw => simp only [Event.thread] at h1; rw [h1] at hw; cases hw
  · intro t ht
    obtain ⟨k, u, h1, h2, h3⟩ := hT t ht
    obtain ⟨k', u', g1, -, -⟩ := hT u h3
    refine ⟨k, u, (waits hs t k h1 (hno t k ht)).1, ?_, h3⟩
    rw [(waits hs u k' g1 (hno u k' h3)).2]
    exact h2

end SpinLocks
open SpinLocks Spec.Locks

/-- **C114.** Every lock has at most one holder, whatever other locks the threads hold: when `lock()` returns nobody holds the lock, a thread that unlocks
it holds it, and a thread that uses a memory location holds the lock that protects it. -/
theorem C114_exclusion (guard : Nat → Nat) (may : List Nat → Nat → Prop) (es : List Event) (s : State) (h : Run guard may es s) (pre post : List Event) (t k : Nat) :
    (es = pre ++ .locked t k :: post → owner k pre = none) ∧
    (es = pre ++ .unlocked t k :: post → owner k pre = some t) ∧
    (∀ l v, es = pre ++ .read t l v :: post → owner (guard l) pre = some t) ∧
    (∀ l v, es = pre ++ .write t l v :: post → owner (guard l) pre = some t) := by
  refine ⟨?_, ?_, ?_, ?_⟩
  · rintro rfl
    obtain ⟨s0, s1, h0, hs⟩ := run_at h
    have hI := inv_run h0
    cases hs with
    | locked _ _ hw hf =>
      have := hI.flag k
      cases ho : owner k pre with
      | none => rfl
      | some u =>
        rw [ho] at this
        simp [attempt, testAndSet, this] at hf
  · rintro rfl
    obtain ⟨s0, s1, h0, hs⟩ := run_at h
    have hI := inv_run h0
    cases hs with
    | unlocked _ _ hw hk => exact (hI.held t k).mp hk
  · rintro l v rfl
    obtain ⟨s0, s1, h0, hs⟩ := run_at h
    have hI := inv_run h0
    cases hs with
    | read _ _ n hw hg => exact (hI.held t _).mp hg
  · rintro l v rfl
    obtain ⟨s0, s1, h0, hs⟩ := run_at h
    have hI := inv_run h0
    cases hs with
    | write _ _ _ hw hg => exact (hI.held t _).mp hg

/-- **C114.** A location used only under its lock has no data races, and a read gives the value last written, whatever other locks were used. -/
theorem C114_visibility (guard : Nat → Nat) (may : List Nat → Nat → Prop) (es : List Event) (s : State) (h : Run guard may es s) (pre post : List Event) (t l : Nat) :
    (∀ v, es = pre ++ .read t l v :: post → v = lastWrite l pre) ∧ .race t l ∉ es := by
  constructor
  · rintro v rfl
    obtain ⟨s0, s1, h0, hs⟩ := run_at h
    have hI := inv_run h0
    cases hs with
    | read _ _ n hw hg hv hn =>
      have := hI.sees t l ((hI.held t _).mp hg)
      rw [hI.last l]
      congr 1; omega
  · intro hm
    obtain ⟨pre, post, rfl⟩ := List.append_of_mem hm
    obtain ⟨s0, s1, h0, hs⟩ := run_at h
    have hI := inv_run h0
    cases hs with
    | race _ _ hw hg hv => exact hv (hI.sees t l ((hI.held t _).mp hg))

/-- **C114.** If all threads take their locks in the order of their numbers, there is no deadlock: at any time every thread in `lock()` can still get the
lock. -/
theorem C114_in_order (guard : Nat → Nat) (es : List Event) (s : State) (h : Run guard InOrder es s) (t k : Nat) (hw : Waiting t k es) :
    ∃ es' s', Run guard InOrder (es ++ es' ++ [.locked t k]) s' := by
  obtain ⟨M, hM⟩ := owner_bound es
  obtain ⟨es', s', h1, -⟩ := gets h M hM (M - k) t k (Nat.le_refl _) (want_of_waiting h hw)
  exact ⟨es', s', h1⟩

/-- **C114.** Threads each of which waits for a lock that one of them holds wait for ever: whatever happens then, they only try in vain. This includes a single
thread that locks a lock it already holds. -/
theorem C114_cycle (guard : Nat → Nat) (may : List Nat → Nat → Prop) (T : Nat → Prop) (es es' : List Event) (s' : State)
    (hT : ∀ t, T t → ∃ k u, Waiting t k es ∧ owner k es = some u ∧ T u) (h' : Run guard may (es ++ es') s') :
    ∀ e ∈ es', T e.thread → ∃ k, e = .failed e.thread k := by
  have key : ∀ n es' s', es'.length = n → Run guard may (es ++ es') s' →
      (∀ e ∈ es', T e.thread → ∃ k, e = .failed e.thread k) ∧ ∀ t, T t → ∃ k u, (s'.threads t).want = some k ∧ k ∈ (s'.threads u).held ∧ T u := by
    intro n
    induction n with
    | zero =>
      intro es' s' hn hr
      obtain rfl := List.length_eq_zero_iff.mp hn
      refine ⟨by simp, fun t ht => ?_⟩
      rw [List.append_nil] at hr
      obtain ⟨k, u, h1, h2, h3⟩ := hT t ht
      exact ⟨k, u, want_of_waiting hr h1, ((inv_run hr).held u k).mpr h2, h3⟩
    | succ n ih =>
      intro es' s' hn hr
      rcases List.eq_nil_or_concat es' with rfl | ⟨es1, e, rfl⟩
      · simp at hn
      rw [List.concat_eq_append, ← List.append_assoc] at hr
      obtain ⟨s0, h0, hs⟩ := run_snoc hr
      obtain ⟨i1, i2⟩ := ih es1 s0 (by simpa using hn) h0
      obtain ⟨j1, j2⟩ := stuck T i2 h0 hs
      refine ⟨fun e' he' ht => ?_, j2⟩
      rw [List.concat_eq_append, List.mem_append] at he'
      rcases he' with he' | he'
      · exact i1 e' he' ht
      · obtain rfl : e' = e := by simpa using he'
        exact j1 ht
  exact (key _ es' s' rfl h').1

/-- **C114.** The lock is not recursive: a thread that locks a lock it already holds never gets further. -/
theorem C114_twice (guard : Nat → Nat) (may : List Nat → Nat → Prop) (es es' : List Event) (s' : State) (t k : Nat) (hw : Waiting t k es)
    (ho : owner k es = some t) (h' : Run guard may (es ++ es') s') : ∀ e ∈ es', e.thread = t → ∃ j, e = .failed t j := by
  intro e he ht
  obtain ⟨j, hj⟩ := C114_cycle guard may (· = t) es es' s' (fun u hu => ⟨k, t, by rw [hu]; exact hw, ho, rfl⟩) h' e he ht
  exact ⟨j, by rw [← ht]; exact hj⟩

example : ∃ s, Run id AnyOrder [.call 0 1, .locked 0 1, .call 0 1] s ∧ Waiting 0 1 [.call 0 1, .locked 0 1, .call 0 1] ∧
    owner 1 [.call 0 1, .locked 0 1, .call 0 1] = some 0 :=
  ⟨_, .snoc [.call 0 1, .locked 0 1] _ _ _ (.snoc [.call 0 1] _ _ _ (.snoc [] _ _ _ .nil (.call _ 0 1 rfl trivial)) (.locked _ 0 1 rfl rfl))
    (.call _ 0 1 rfl trivial), ⟨[.call 0 1, .locked 0 1], [], rfl, by decide⟩, rfl⟩

/-- What happens in the example: thread 0 takes lock 1, thread 1 takes lock 2, and each calls `lock()` of the other one. -/
def crossed : List Event := [.call 0 1, .locked 0 1, .call 1 2, .locked 1 2, .call 0 2, .call 1 1]

theorem crossed_run : ∃ s, Run id AnyOrder crossed s :=
  ⟨_, .snoc [.call 0 1, .locked 0 1, .call 1 2, .locked 1 2, .call 0 2] _ _ _ (.snoc [.call 0 1, .locked 0 1, .call 1 2, .locked 1 2] _ _ _
    (.snoc [.call 0 1, .locked 0 1, .call 1 2] _ _ _ (.snoc [.call 0 1, .locked 0 1] _ _ _ (.snoc [.call 0 1] _ _ _ (.snoc [] _ _ _ .nil
      (.call _ 0 1 rfl trivial)) (.locked _ 0 1 rfl rfl)) (.call _ 1 2 rfl trivial)) (.locked _ 1 2 rfl rfl)) (.call _ 0 2 rfl trivial)) (.call _ 1 1 rfl trivial)⟩

/-- **C114.** Without such an order there can be a deadlock: here two threads wait for each other, and whatever happens then, they only try in vain. -/
theorem C114_deadlock : (∃ s, Run id AnyOrder crossed s) ∧ Waiting 0 2 crossed ∧ Waiting 1 1 crossed ∧
    ∀ es' s', Run id AnyOrder (crossed ++ es') s' → ∀ e ∈ es', e.thread < 2 → ∃ k, e = .failed e.thread k := by
  have w0 : Waiting 0 2 crossed := ⟨[.call 0 1, .locked 0 1, .call 1 2, .locked 1 2], [.call 1 1], rfl, by decide⟩
  have w1 : Waiting 1 1 crossed := ⟨[.call 0 1, .locked 0 1, .call 1 2, .locked 1 2, .call 0 2], [], rfl, by decide⟩
  refine ⟨crossed_run, w0, w1, fun es' s' hr => ?_⟩
  refine C114_cycle id AnyOrder (fun t => t < 2) crossed es' s' (fun t ht => ?_) hr
  rcases t with _ | _ | t
  · exact ⟨2, 1, w0, rfl, by omega⟩
  · exact ⟨1, 0, w1, rfl, by omega⟩
  · omega

/-- A run with locks in order: thread 0 takes both locks while thread 1 waits for the second, then it is read there. -/
def ordered : List Event := [.call 0 1, .locked 0 1, .call 1 2, .locked 1 2, .call 0 2, .failed 0 2, .write 1 2 7, .unlocked 1 2, .locked 0 2, .read 0 2 7]

theorem ordered_run : ∃ s, Run id InOrder ordered s :=
  ⟨_, .snoc [.call 0 1, .locked 0 1, .call 1 2, .locked 1 2, .call 0 2, .failed 0 2, .write 1 2 7, .unlocked 1 2, .locked 0 2] _ _ _
    (.snoc [.call 0 1, .locked 0 1, .call 1 2, .locked 1 2, .call 0 2, .failed 0 2, .write 1 2 7, .unlocked 1 2] _ _ _
    (.snoc [.call 0 1, .locked 0 1, .call 1 2, .locked 1 2, .call 0 2, .failed 0 2, .write 1 2 7] _ _ _
    (.snoc [.call 0 1, .locked 0 1, .call 1 2, .locked 1 2, .call 0 2, .failed 0 2] _ _ _
    (.snoc [.call 0 1, .locked 0 1, .call 1 2, .locked 1 2, .call 0 2] _ _ _
    (.snoc [.call 0 1, .locked 0 1, .call 1 2, .locked 1 2] _ _ _
    (.snoc [.call 0 1, .locked 0 1, .call 1 2] _ _ _ (.snoc [.call 0 1, .locked 0 1] _ _ _ (.snoc [.call 0 1] _ _ _ (.snoc [] _ _ _ .nil
      (.call _ 0 1 rfl (by intro j hj; cases hj))) (.locked _ 0 1 rfl rfl)) (.call _ 1 2 rfl (by intro j hj; cases hj))) (.locked _ 1 2 rfl rfl))
      (.call _ 0 2 rfl (show ∀ j ∈ [1], j < 2 by decide))) (.failed _ 0 2 rfl rfl)) (.write _ 1 2 7 rfl (by decide))) (.unlocked _ 1 2 rfl (by decide))) (.locked _ 0 2 rfl rfl))
      (.read _ 0 2 1 rfl (by decide) (by decide) (by decide))⟩

example : ∃ s, Run id InOrder ordered s ∧ owner 1 ordered = some 0 ∧ owner 2 ordered = some 0 ∧ lastWrite 2 ordered = 7 :=
  ordered_run.imp fun _ h => ⟨h, rfl, rfl, rfl⟩

/-- A thread waits while another holds the lock and itself waits for nothing. -/
example : ∃ es s, Run id InOrder es s ∧ Waiting 0 2 es ∧ owner 2 es = some 1 := by
  obtain ⟨s, h⟩ := ordered_run
  obtain ⟨s0, h0⟩ := run_prefix (pre := [.call 0 1, .locked 0 1, .call 1 2, .locked 1 2, .call 0 2, .failed 0 2]) _ h
  exact ⟨_, s0, h0, ⟨[.call 0 1, .locked 0 1, .call 1 2, .locked 1 2], [.failed 0 2], rfl, by decide⟩, rfl⟩

end Utki
