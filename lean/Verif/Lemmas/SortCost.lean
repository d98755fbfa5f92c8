import Verif.Lemmas.Sort
import Verif.Spec.Order
import Mathlib.Data.Nat.Log
import Mathlib.Tactic.Ring
import Mathlib.Tactic.Linarith
/-! # Number of comparisons made by `utki::sort` -/
set_option linter.unusedSectionVars false
namespace Utki
variable {α σ : Type}

theorem Sat.and {m : Meth σ α} {s : σ} {Q Q' : α → σ → Prop} {A A' : Res Unit → σ → Prop} (h : Sat m s Q A) (h' : Sat m s Q' A') :
    Sat m s (fun a t => Q a t ∧ Q' a t) (fun r t => A r t ∧ A' r t) := by
  unfold Sat at h h' ⊢
  revert h h'
  generalize m s = r
  obtain ⟨r, s'⟩ := r
  intro h h'
  cases r <;> exact ⟨h, h'⟩

theorem Sat.always {m : Meth σ α} {s : σ} {Q : α → σ → Prop} {A : Res Unit → σ → Prop} (h : ∀ a, Q a (m s).2) (h' : ∀ r, A r (m s).2) :
    Sat m s Q A := by
  unfold Sat
  split
  · exact h _
  · exact h' _

namespace QSort

variable [QSort.MovedFrom α]

theorem load_state (i : Nat) (st : List α × σ) : Sat (load i) st (fun _ st' => st' = st) (fun _ st' => st' = st) :=
  Sat.always (fun _ => rfl) (fun _ => rfl)

theorem store_state (i : Nat) (x : α) (st : List α × σ) :
    Sat (store i x) st (fun _ st' => st'.2 = st.2) (fun _ st' => st'.2 = st.2) := by
  obtain ⟨mem, s⟩ := st
  unfold store
  refine Sat.bind (Sat.get ?_)
  refine Sat.bind (Sat.mono (Q := fun _ st' => st' = (mem, s)) (A := fun _ st' => st' = (mem, s))
    (Sat.always (fun _ => rfl) (fun _ => rfl)) ?_ ?_)
  · rintro m' st rfl
    exact Sat.set rfl
  · rintro r st rfl; rfl

theorem take_state (a : Nat) (st : List α × σ) :
    Sat (take a) st (fun _ st' => st'.2 = st.2) (fun _ st' => st'.2 = st.2) := by
  unfold take
  refine Sat.bind (Sat.mono (load_state a st) ?_ (by rintro r _ rfl; rfl))
  rintro x _ rfl
  refine Sat.bind (Sat.mono (store_state a _ _) ?_ (fun r st' h => h))
  intro _ st1 h1
  exact Sat.pure h1

theorem iter_swap_state (a b : Nat) (st : List α × σ) :
    Sat (iter_swap a b) st (fun _ st' => st'.2 = st.2) (fun _ st' => st'.2 = st.2) := by
  unfold iter_swap
  refine Sat.bind (Sat.mono (take_state a st) ?_ (fun r st' h => h))
  intro x st1 h1
  refine Sat.bind (Sat.mono (take_state b st1) ?_ (fun r st' h => h.trans h1))
  intro y st2 h2
  refine Sat.bind (Sat.mono (store_state a y st2) ?_ (fun r st' h => h.trans (h2.trans h1)))
  intro _ st3 h3
  exact Sat.mono (store_state b x st3) (fun _ _ h => h.trans (h3.trans (h2.trans h1))) (fun _ _ h => h.trans (h3.trans (h2.trans h1)))

section
variable {count : σ → Nat} {p : α → Meth σ Bool}

theorem find_if_not_count (hp : ∀ x s, count (p x s).2 = count s + 1) (fuel first last : Nat) (st : List α × σ) (hle : first ≤ last) :
    Sat (find_if_not p fuel first last) st
      (fun m st' => first ≤ m ∧ m ≤ last ∧ count st'.2 = count st.2 + (min (m + 1) last - first)) (fun _ _ => True) := by
  induction fuel generalizing first st with
  | zero => exact trivial
  | succ fuel ih =>
    unfold find_if_not
    refine Sat.ite (fun heq => Sat.pure ⟨hle, le_refl _, by omega⟩) (fun hne => ?_)
    refine Sat.bind (Sat.mono (load_state first st) ?_ (fun _ _ _ => trivial))
    intro x st1 h1
    subst h1
    obtain ⟨mem, s⟩ := st1
    refine Sat.bind (sat_call (Sat.always (Q := fun b s' => Sat _ (mem, s') _ _) (fun b => ?_) (fun _ => trivial)))
    have hc := hp x s
    refine Sat.ite (fun h => ?_) (fun h => ?_)
    · exact Sat.pure ⟨le_refl _, hle, by simp only [hc]; omega⟩
    · refine Sat.mono (ih (first + 1) (mem, (p x s).2) (by omega)) ?_ (fun _ _ _ => trivial)
      rintro m st' ⟨h1, h2, h3⟩
      exact ⟨by omega, h2, by simp only [hc] at h3; simp only; omega⟩

theorem partitionLoop_count (hp : ∀ x s, count (p x s).2 = count s + 1) (fuel i first last : Nat) (st : List α × σ) (hle : i ≤ last) :
    Sat (partitionLoop p fuel i first last) st
      (fun _ st' => count st'.2 = count st.2 + (last - i)) (fun _ _ => True) := by
  induction fuel generalizing i first st with
  | zero => exact trivial
  | succ fuel ih =>
    unfold partitionLoop
    refine Sat.ite (fun heq => Sat.pure (by omega)) (fun hne => ?_)
    refine Sat.bind (Sat.mono (load_state i st) ?_ (fun _ _ _ => trivial))
    intro x st1 h1
    subst h1
    obtain ⟨mem, s⟩ := st1
    refine Sat.bind (sat_call (Sat.always (Q := fun b s' => Sat _ (mem, s') _ _) (fun b => ?_) (fun _ => trivial)))
    have hc := hp x s
    refine Sat.ite (fun h => ?_) (fun h => ?_)
    · refine Sat.bind (Sat.mono (iter_swap_state i first _) ?_ (fun _ _ _ => trivial))
      intro _ st1 h1
      refine Sat.mono (ih (i + 1) (first + 1) st1 (by omega)) ?_ (fun _ _ _ => trivial)
      intro m st' h2
      rw [h2, h1]; simp only [hc]; omega
    · refine Sat.mono (ih (i + 1) first (mem, (p x s).2) (by omega)) ?_ (fun _ _ _ => trivial)
      intro m st' h2
      rw [h2]; simp only [hc]; omega

theorem partition_count (hp : ∀ x s, count (p x s).2 = count s + 1) (fuel first last : Nat) (st : List α × σ) (hle : first ≤ last) :
    Sat (partition p fuel first last) st (fun _ st' => count st'.2 = count st.2 + (last - first)) (fun _ _ => True) := by
  unfold partition
  refine Sat.bind (Sat.mono (find_if_not_count hp fuel first last st hle) ?_ (fun _ _ _ => trivial))
  rintro m st1 ⟨h1, h2, h3⟩
  refine Sat.ite (fun h => Sat.pure (by omega)) (fun h => ?_)
  refine Sat.mono (partitionLoop_count hp fuel (m + 1) m last st1 (by omega)) ?_ (fun _ _ _ => trivial)
  intro _ st2 h4
  rw [h4]; omega

theorem negated_count (hp : ∀ x s, count (p x s).2 = count s + 1) (x : α) (s : σ) : count (negated (p x) s).2 = count s + 1 := by
  have := hp x s
  unfold negated
  rw [Meth.bind_apply, Meth.bind]
  generalize p x s = r at this
  obtain ⟨r, s'⟩ := r
  cases r <;> exact this
end

/-- The bound: none for fewer than two elements, otherwise `n ^ 2 + n - 2`. -/
def costBound (n : Nat) : Nat := n * n + n - 2

theorem costBound_step (a b n : Nat) (h : a + b + 1 ≤ n) (hn : 2 ≤ n) : n + (n - a) + costBound a + costBound b ≤ costBound n := by
  unfold costBound
  have h1 : a * a + a - 2 ≤ a * a + a := Nat.sub_le _ _
  have hn1 : (a + b + 1) * (a + b + 1) ≤ n * n := Nat.mul_le_mul h h
  obtain ⟨k, rfl⟩ : ∃ k, n = a + b + 1 + k := ⟨n - (a + b + 1), by omega⟩
  have hx : (a + b + 1 + k) * (a + b + 1 + k) = a * a + b * b + 2 * (a * b) + 2 * a + 2 * b + 1 + 2 * (a * k) + 2 * (b * k) + 2 * k + k * k := by ring
  rw [hx]
  have hk : 2 * k + a * k + b * k ≤ 2 * k + 2 * (a * k) + 2 * (b * k) + k * k := by nlinarith [Nat.zero_le (a*k), Nat.zero_le (b*k), Nat.zero_le (k*k)]
  rcases Nat.eq_zero_or_pos a with rfl | ha
  · rcases Nat.eq_zero_or_pos b with rfl | hb
    · simp at *
      have : k ≤ k * k := Nat.le_mul_self k
      omega
    · have : b ≤ b * b := Nat.le_mul_self b
      simp at *
      have : k ≤ b * k := Nat.le_mul_of_pos_left k hb
      omega
  · have haa : a ≤ a * a := Nat.le_mul_self a
    rcases Nat.eq_zero_or_pos b with rfl | hb
    · simp at *
      have : k ≤ a * k := Nat.le_mul_of_pos_left k ha
      omega
    · have hbb : b ≤ b * b := Nat.le_mul_self b
      have hab : 1 ≤ a * b := Nat.mul_pos ha hb
      have : k ≤ a * k := Nat.le_mul_of_pos_left k ha
      omega

theorem quick_sort_count {count : σ → Nat} {cmp : α → α → Meth σ Bool} {Bad : Res Unit → Prop}
    (hc : Comparator cmp False (fun _ _ => True) True Bad) (hcount : ∀ x y s, count (cmp x y s).2 = count s + 1)
    (fuel first last : Nat) (pre seg post : List α) (s : σ) (hfirst : first = pre.length) (hlast : last = first + seg.length)
    (hfuel : seg.length < fuel ∨ Bad .diverge) :
    Sat (quick_sort cmp fuel first last) (pre ++ seg ++ post, s)
      (fun _ st => ∃ seg', st.1 = pre ++ seg' ++ post ∧ seg'.Perm seg ∧ count st.2 ≤ count s + costBound seg.length) (fun _ _ => True) := by
  induction fuel generalizing first last pre seg post s with
  | zero => exact trivial
  | succ fuel ih =>
    unfold quick_sort
    simp only
    refine Sat.ite (fun _ => Sat.pure ⟨seg, rfl, .refl _, Nat.le_add_right _ _⟩) (fun hn => ?_)
    have hn2 : 2 ≤ seg.length := by omega
    have hidx : ((((last : Nat) : Int) - ((first : Nat) : Int)) / 2).toNat = seg.length / 2 := by omega
    rw [hidx]
    have hlt : seg.length / 2 < seg.length := by omega
    obtain ⟨pivot, hpiv⟩ : ∃ pivot, seg[seg.length / 2]? = some pivot := ⟨_, List.getElem?_eq_getElem hlt⟩
    have hpm : pivot ∈ seg := List.mem_of_getElem? hpiv
    obtain ⟨X, Y, hXY, hXl⟩ : ∃ X Y, seg = X ++ pivot :: Y ∧ X.length = seg.length / 2 := by
      refine ⟨seg.take (seg.length / 2), seg.drop (seg.length / 2 + 1), ?_, by simp; omega⟩
      rw [List.getElem?_eq_getElem hlt] at hpiv
      cases hpiv
      rw [List.getElem_cons_drop, List.take_append_drop]
    have e : pre ++ seg ++ post = (pre ++ X) ++ pivot :: (Y ++ post) := by rw [hXY]; simp
    refine Sat.bind (Sat.ok (by rw [e]; exact load_eq (pre ++ X) (Y ++ post) pivot _ (by simp; omega) s) ?_)
    rw [← e]
    have ans1 : Answers (fun elem => cmp elem pivot) (fun x => (False → True) ∧ (True → x ≠ pivot)) (fun x => False → ¬ True) Bad :=
      ⟨fun x s => hc.sat x pivot s⟩
    have ans2 : Answers (fun elem => negated (cmp pivot elem)) (fun x => False → ¬ True)
        (fun x => (False → True) ∧ (True → pivot ≠ x)) Bad :=
      negated_answers ⟨fun x s => hc.sat pivot x s⟩
    refine Sat.bind (Sat.mono (Sat.and (partition_sat ans1 pre post seg (fuel + 1) first last s hfuel hfirst hlast)
      (partition_count (count := count) (p := fun elem => cmp elem pivot) (fun x s => hcount x pivot s) (fuel + 1) first last
        (pre ++ seg ++ post, s) (by omega))) ?_ (fun _ _ _ => trivial))
    rintro m1 ⟨mem, s1⟩ ⟨⟨A, B, h1, h2, h3, h4, h5⟩, c1⟩
    simp only at h1 c1; subst h1
    have hlenAB : A.length + B.length = seg.length := by rw [← h2.length_eq]; simp
    have e1 : pre ++ (A ++ B) ++ post = (pre ++ A) ++ B ++ post := by simp
    rw [e1]
    refine Sat.bind (Sat.mono (Sat.and (partition_sat ans2 (pre ++ A) post B (fuel + 1) m1 last s1 (by
        rcases hfuel with h | h; exact .inl (by omega); exact .inr h) (by simp [h3]) (by omega))
      (partition_count (count := count) (p := fun elem => negated (cmp pivot elem)) (negated_count (fun x s => hcount pivot x s)) (fuel + 1) m1 last
        ((pre ++ A) ++ B ++ post, s1) (by omega))) ?_ (fun _ _ _ => trivial))
    rintro m2 ⟨mem, s2⟩ ⟨⟨M, D, g1, g2, g3, g4, g5⟩, c2⟩
    simp only at g1 c2; subst g1
    have hlenMD : M.length + D.length = B.length := by rw [← g2.length_eq]; simp
    have hpB : pivot ∈ B := by
      have : pivot ∈ A ++ B := h2.symm.mem_iff.mp hpm
      rcases List.mem_append.mp this with h | h
      · exact absurd rfl ((h4 pivot h).2 trivial)
      · exact h
    have hpM : pivot ∈ M := by
      have : pivot ∈ M ++ D := g2.symm.mem_iff.mp hpB
      rcases List.mem_append.mp this with h | h
      · exact h
      · exact absurd rfl ((g5 pivot h).2 trivial)
    have hM : 0 < M.length := List.length_pos_of_mem hpM
    have e2 : (pre ++ A) ++ (M ++ D) ++ post = pre ++ A ++ (M ++ D ++ post) := by simp
    rw [e2]
    refine Sat.bind (Sat.mono (ih first m1 pre A (M ++ D ++ post) s2 hfirst (by omega)
      (by rcases hfuel with h | h; exact .inl (by omega); exact .inr h)) ?_ (fun _ _ _ => trivial))
    rintro _ ⟨mem, s3⟩ ⟨A', k1, k2, k3⟩
    simp only at k1 k3; subst k1
    have e3 : pre ++ A' ++ (M ++ D ++ post) = (pre ++ A' ++ M) ++ D ++ post := by simp
    rw [e3]
    have hlA' : A'.length = A.length := k2.length_eq
    refine Sat.mono (ih m2 last (pre ++ A' ++ M) D post s3 (by simp at g3 ⊢; omega) (by simp at g3; omega)
      (by rcases hfuel with h | h; exact .inl (by omega); exact .inr h)) ?_ (fun _ _ _ => trivial)
    rintro _ ⟨mem, s4⟩ ⟨D', l1, l2, l3⟩
    simp only at l1 l3; subst l1
    refine ⟨A' ++ M ++ D', by simp, ?_, ?_⟩
    · refine List.Perm.trans ?_ h2
      rw [List.append_assoc]
      exact k2.append (((l2.append_left M)).trans g2)
    · simp only
      have := costBound_step A.length D.length seg.length (by omega) hn2
      omega

/-! Runs with a counting comparator -/

/-- The counting predicate made from `q`. -/
def tally (q : α → Bool) : α → Meth Nat Bool := fun x n => (.ok (q x), n + 1)

theorem call_tally (q : α → Bool) (x : α) (mem : List α) (n : Nat) : call (tally q x) (mem, n) = (.ok (q x), (mem, n + 1)) := rfl

theorem negated_tally (q : α → Bool) (x : α) : negated (tally q x) = tally (fun y => !q y) x := rfl

theorem find_skip (q : α → Bool) (A : List α) (hA : ∀ x ∈ A, q x = true) (X Y : List α) (fuel first last n : Nat)
    (hfirst : first = X.length) (hlast : first + A.length ≤ last) :
    find_if_not (tally q) (fuel + A.length) first last (X ++ (A ++ Y), n) =
      find_if_not (tally q) fuel (first + A.length) last (X ++ (A ++ Y), n + A.length) := by
  induction A generalizing X first n with
  | nil => simp
  | cons a A ih =>
    simp only [List.length_cons] at hlast
    have e : X ++ (a :: A ++ Y) = X ++ [a] ++ (A ++ Y) := by simp
    conv => lhs; rw [List.length_cons, ← Nat.add_assoc]; unfold find_if_not
    rw [if_neg (by omega), List.cons_append, Meth.bind_ok (load_eq X (A ++ Y) a first hfirst n), Meth.bind_ok (call_tally q a _ n), hA a (by simp),
      if_neg (by decide), ← List.cons_append, e, ih (fun x hx => hA x (by simp [hx])) (X ++ [a]) (first + 1) (n + 1) (by simp [hfirst]) (by omega)]
    rw [List.length_cons, show first + 1 + A.length = first + (A.length + 1) by omega, show n + 1 + A.length = n + (A.length + 1) by omega]

theorem find_stop (q : α → Bool) (b : α) (hb : q b = false) (X Y : List α) (fuel first last n : Nat)
    (hfirst : first = X.length) (hlast : first < last) :
    find_if_not (tally q) (fuel + 1) first last (X ++ b :: Y, n) = (.ok first, (X ++ b :: Y, n + 1)) := by
  unfold find_if_not
  rw [if_neg (by omega), Meth.bind_ok (load_eq X Y b first hfirst n), Meth.bind_ok (call_tally q b _ n), hb, if_pos rfl]
  rfl

theorem loop_skip (q : α → Bool) (B : List α) (hB : ∀ x ∈ B, q x = false) (X Y : List α) (fuel i first last n : Nat)
    (hi : i = X.length) (hlast : i + B.length ≤ last) :
    partitionLoop (tally q) (fuel + B.length) i first last (X ++ (B ++ Y), n) =
      partitionLoop (tally q) fuel (i + B.length) first last (X ++ (B ++ Y), n + B.length) := by
  induction B generalizing X i n with
  | nil => simp
  | cons b B ih =>
    simp only [List.length_cons] at hlast
    have e : X ++ (b :: B ++ Y) = X ++ [b] ++ (B ++ Y) := by simp
    conv => lhs; rw [List.length_cons, ← Nat.add_assoc]; unfold partitionLoop
    rw [if_neg (by omega), List.cons_append, Meth.bind_ok (load_eq X (B ++ Y) b i hi n), Meth.bind_ok (call_tally q b _ n), hB b (by simp),
      if_neg (by decide), ← List.cons_append, e, ih (fun x hx => hB x (by simp [hx])) (X ++ [b]) (i + 1) (n + 1) (by simp [hi]) (by omega)]
    rw [List.length_cons, show i + 1 + B.length = i + (B.length + 1) by omega, show n + 1 + B.length = n + (B.length + 1) by omega]

theorem loop_end (q : α → Bool) (fuel last first : Nat) (st : List α × Nat) :
    partitionLoop (tally q) (fuel + 1) last first last st = (.ok first, st) := by
  unfold partitionLoop
  rw [if_pos rfl]; rfl

/-- A range that is partitioned already is left as it is. -/
theorem partition_done (q : α → Bool) (A B : List α) (hA : ∀ x ∈ A, q x = true) (hB : ∀ x ∈ B, q x = false) (pre post : List α)
    (fuel first last n : Nat) (hfirst : first = pre.length) (hlast : last = first + (A.length + B.length))
    (hf : A.length + B.length < fuel) :
    partition (tally q) fuel first last (pre ++ (A ++ (B ++ post)), n) =
      (.ok (first + A.length), (pre ++ (A ++ (B ++ post)), n + (A.length + B.length))) := by
  unfold partition
  obtain ⟨k, rfl⟩ : ∃ k, fuel = k + 1 + A.length := ⟨fuel - 1 - A.length, by omega⟩
  cases B with
  | nil =>
    have : find_if_not (tally q) (k + 1 + A.length) first last (pre ++ (A ++ ([] ++ post)), n) =
        (.ok last, (pre ++ (A ++ ([] ++ post)), n + A.length)) := by
      rw [find_skip q A hA pre _ (k + 1) first last n hfirst (by omega)]
      unfold find_if_not
      rw [if_pos (by simp at hlast; omega)]; rfl
    rw [Meth.bind_ok this, if_pos rfl]
    simp at hlast ⊢; omega
  | cons b B =>
    simp only [List.length_cons] at hlast hf
    have e : pre ++ (A ++ (b :: B ++ post)) = (pre ++ A) ++ b :: (B ++ post) := by simp
    have e' : pre ++ (A ++ (b :: B ++ post)) = (pre ++ A ++ [b]) ++ (B ++ post) := by simp
    have : find_if_not (tally q) (k + 1 + A.length) first last (pre ++ (A ++ (b :: B ++ post)), n) =
        (.ok (first + A.length), (pre ++ (A ++ (b :: B ++ post)), n + A.length + 1)) := by
      rw [find_skip q A hA pre _ (k + 1) first last n hfirst (by omega), e,
        find_stop q b (hB b (by simp)) _ _ k _ _ _ (by simp [hfirst]) (by omega)]
    rw [Meth.bind_ok this, if_neg (by omega), e']
    obtain ⟨j, hj⟩ : ∃ j, k + 1 + A.length = j + 1 + B.length := ⟨k + A.length - B.length, by omega⟩
    rw [hj, loop_skip q B (fun x hx => hB x (by simp [hx])) (pre ++ A ++ [b]) post (j + 1) (first + A.length + 1) _ last _
      (by simp [hfirst]; omega) (by omega), show first + A.length + 1 + B.length = last by omega, loop_end]
    simp; omega

theorem quick_sort_trivial (cmp : α → α → Meth σ Bool) (fuel first last : Nat) (h : last ≤ first + 1) (st : List α × σ) :
    quick_sort cmp (fuel + 1) first last st = (.ok (), st) := by
  unfold quick_sort
  simp only
  rw [if_pos (by omega)]; rfl

/-- One level of the recursion. -/
theorem quick_sort_step (lt : α → α → Bool) (pre post X Y : List α) (pivot : α) (fuel first last n : Nat) (hfirst : first = pre.length)
    (hlast : last = first + (X.length + 1 + Y.length)) (hn : 2 ≤ X.length + 1 + Y.length)
    (hX : X.length = (X.length + 1 + Y.length) / 2) :
    quick_sort (Spec.counting lt) (fuel + 1) first last (pre ++ (X ++ pivot :: Y) ++ post, n) =
      (do
        let middle1 ← partition (tally fun elem => lt elem pivot) (fuel + 1) first last
        let middle2 ← partition (tally fun elem => !lt pivot elem) (fuel + 1) middle1 last
        quick_sort (Spec.counting lt) fuel first middle1
        quick_sort (Spec.counting lt) fuel middle2 last) (pre ++ (X ++ pivot :: Y) ++ post, n) := by
  conv => lhs; unfold quick_sort
  simp only
  have hidx : ((((last : Nat) : Int) - ((first : Nat) : Int)) / 2).toNat = X.length := by omega
  have e : pre ++ (X ++ pivot :: Y) ++ post = (pre ++ X) ++ pivot :: (Y ++ post) := by simp
  rw [if_neg (by omega), hidx, e, Meth.bind_ok (load_eq (pre ++ X) (Y ++ post) pivot _ (by simp [hfirst]) n)]
  rfl

/-- A level of the recursion on a range in which nothing has to be moved. -/
theorem quick_sort_done (lt : α → α → Bool) (pre post A M D : List α) (pivot : α) (fuel first n : Nat) (hfirst : first = pre.length)
    (hn : 2 ≤ A.length + M.length + D.length) (hp : (A ++ M ++ D)[(A.length + M.length + D.length) / 2]? = some pivot)
    (hA : ∀ x ∈ A, lt x pivot = true) (hMD : ∀ x ∈ M ++ D, lt x pivot = false) (hM : ∀ x ∈ M, lt pivot x = false)
    (hD : ∀ x ∈ D, lt pivot x = true) (hf : A.length + M.length + D.length < fuel + 1) :
    quick_sort (Spec.counting lt) (fuel + 1) first (first + (A.length + M.length + D.length)) (pre ++ (A ++ M ++ D) ++ post, n) =
      (do
        quick_sort (Spec.counting lt) fuel first (first + A.length)
        quick_sort (Spec.counting lt) fuel (first + A.length + M.length) (first + (A.length + M.length + D.length)))
      (pre ++ (A ++ M ++ D) ++ post, n + (A.length + M.length + D.length) + (M.length + D.length)) := by
  have hlt : (A.length + M.length + D.length) / 2 < (A ++ M ++ D).length := by simp; omega
  obtain ⟨X, Y, hXY, hXl⟩ : ∃ X Y, A ++ M ++ D = X ++ pivot :: Y ∧ X.length = (A.length + M.length + D.length) / 2 := by
    refine ⟨(A ++ M ++ D).take ((A.length + M.length + D.length) / 2), (A ++ M ++ D).drop ((A.length + M.length + D.length) / 2 + 1), ?_, ?_⟩
    · rw [List.getElem?_eq_getElem hlt] at hp
      cases hp
      rw [List.getElem_cons_drop, List.take_append_drop]
    · rw [List.length_take]; omega
  have hl : X.length + 1 + Y.length = A.length + M.length + D.length := by
    have := congrArg List.length hXY
    simp at this; omega
  have h0 := quick_sort_step lt pre post X Y pivot fuel first (first + (A.length + M.length + D.length)) n hfirst (by omega) (by omega) (by omega)
  rw [← hXY] at h0
  rw [h0]
  have e1 : pre ++ (A ++ M ++ D) ++ post = pre ++ (A ++ ((M ++ D) ++ post)) := by simp
  have e2 : pre ++ (A ++ ((M ++ D) ++ post)) = (pre ++ A) ++ (M ++ (D ++ post)) := by simp
  have p1 := partition_done (fun elem => lt elem pivot) A (M ++ D) hA hMD pre post (fuel + 1) first
    (first + (A.length + M.length + D.length)) n hfirst (by simp; omega) (by simp; omega)
  have p2 := partition_done (fun elem => !lt pivot elem) M D (by intro x hx; simp [hM x hx]) (by intro x hx; simp [hD x hx]) (pre ++ A) post
    (fuel + 1) (first + A.length) (first + (A.length + M.length + D.length)) (n + (A.length + (M ++ D).length)) (by simp [hfirst]) (by omega) (by omega)
  rw [e1, Meth.bind_ok p1, e2, Meth.bind_ok p2]
  simp only [List.length_append]
  rw [show n + (A.length + (M.length + D.length)) + (M.length + D.length) = n + (A.length + M.length + D.length) + (M.length + D.length) by omega]

/-- The level of the recursion for the worst range: the pivot is its only smallest element. -/
theorem quick_sort_worst (lt : α → α → Bool) (pre post P S : List α) (c m : α) (fuel first n : Nat) (hfirst : first = pre.length)
    (hP : P.length + 1 = (P.length + S.length + 2) / 2) (hirr : lt m m = false)
    (hmin : ∀ x ∈ P ++ c :: S, lt m x = true ∧ lt x m = false) (hf : P.length + S.length + 2 < fuel + 1) :
    quick_sort (Spec.counting lt) (fuel + 1) first (first + (P.length + S.length + 2)) (pre ++ (c :: (P ++ m :: S)) ++ post, n) =
      quick_sort (Spec.counting lt) fuel (first + 1) (first + (P.length + S.length + 2))
        ((pre ++ [m]) ++ (P ++ c :: S) ++ post, n + 2 * (P.length + S.length + 2)) := by
  have h0 := quick_sort_step lt pre post (c :: P) S m fuel first (first + (P.length + S.length + 2)) n hfirst (by simp; omega) (by simp; omega)
    (by simp; omega)
  rw [List.cons_append] at h0
  rw [h0]
  have p1 := partition_done (fun elem => lt elem m) [] (c :: (P ++ m :: S)) (by simp) (by
    intro x hx
    simp at hx
    rcases hx with rfl | hx | rfl | hx
    · exact (hmin x (by simp)).2
    · exact (hmin x (by simp [hx])).2
    · exact hirr
    · exact (hmin x (by simp [hx])).2) pre post (fuel + 1) first (first + (P.length + S.length + 2)) n hfirst (by simp; omega) (by simp; omega)
  have e1 : pre ++ (c :: (P ++ m :: S)) ++ post = pre ++ ([] ++ (c :: (P ++ m :: S) ++ post)) := by simp
  rw [e1, Meth.bind_ok p1, ← e1]
  have p2 : partition (tally fun elem => !lt m elem) (fuel + 1) first (first + (P.length + S.length + 2))
      (pre ++ (c :: (P ++ m :: S)) ++ post, n + (P.length + S.length + 2)) =
      (.ok (first + 1), (pre ++ [m] ++ (P ++ c :: S) ++ post, n + 2 * (P.length + S.length + 2))) := by
    unfold partition
    have hq : ∀ x ∈ P ++ c :: S, (!lt m x) = false := fun x hx => by simp [(hmin x hx).1]
    rw [show pre ++ (c :: (P ++ m :: S)) ++ post = pre ++ c :: (P ++ m :: S ++ post) by simp,
      Meth.bind_ok (find_stop (fun elem => !lt m elem) c (hq c (by simp)) pre _ fuel first _ _ hfirst (by omega)), if_neg (by omega),
      show pre ++ c :: (P ++ m :: S ++ post) = (pre ++ [c]) ++ (P ++ (m :: S ++ post)) by simp]
    obtain ⟨j, hj⟩ : ∃ j, fuel + 1 = j + 1 + S.length + 1 + P.length := ⟨fuel - 1 - S.length - P.length, by omega⟩
    rw [hj, loop_skip _ P (fun x hx => hq x (by simp [hx])) (pre ++ [c]) _ _ (first + 1) _ _ _ (by simp [hfirst]) (by omega)]
    conv => lhs; unfold partitionLoop
    rw [if_neg (by omega), show (pre ++ [c]) ++ (P ++ (m :: S ++ post)) = (pre ++ [c] ++ P) ++ m :: (S ++ post) by simp,
      Meth.bind_ok (load_eq (pre ++ [c] ++ P) (S ++ post) m _ (by simp [hfirst]; omega) _), Meth.bind_ok (call_tally _ m _ _), hirr, if_pos (by rfl),
      show (pre ++ [c] ++ P) ++ m :: (S ++ post) = pre ++ c :: (P ++ m :: (S ++ post)) by simp,
      Meth.bind_ok (iter_swap_eq pre P (S ++ post) c m _ first (by omega) hfirst _),
      show pre ++ m :: (P ++ c :: (S ++ post)) = (pre ++ [m] ++ P ++ [c]) ++ (S ++ post) by simp,
      loop_skip _ S (fun x hx => hq x (by simp [hx])) (pre ++ [m] ++ P ++ [c]) post (j + 1) _ _ _ _ (by simp [hfirst]; omega) (by omega),
      show first + 1 + P.length + 1 + S.length = first + (P.length + S.length + 2) by omega, loop_end]
    simp; omega
  have hcnt : n + ([] : List α).length + 0 = n := by simp
  simp only [List.length_nil, List.length_cons, List.length_append, Nat.zero_add, Nat.add_zero] at p2 ⊢
  rw [show P.length + (S.length + 1) + 1 = P.length + S.length + 2 by omega, Meth.bind_ok p2]
  obtain ⟨k, rfl⟩ : ∃ k, fuel = k + 1 := ⟨fuel - 1, by omega⟩
  rw [Meth.bind_ok (quick_sort_trivial _ k first first (by omega) _)]

/-- A predicate that stays false once it is false splits a list. -/
theorem split_while {R : α → α → Prop} (q : α → Bool) (l : List α) (hl : l.Pairwise R) (hq : ∀ x y, R x y → q x = false → q y = false) :
    ∃ A B, l = A ++ B ∧ (∀ x ∈ A, q x = true) ∧ (∀ x ∈ B, q x = false) := by
  induction l with
  | nil => exact ⟨[], [], rfl, by simp, by simp⟩
  | cons a l ih =>
    rw [List.pairwise_cons] at hl
    cases ha : q a with
    | false =>
      refine ⟨[], a :: l, rfl, by simp, ?_⟩
      intro x hx
      rcases List.mem_cons.mp hx with rfl | hx
      · exact ha
      · exact hq a x (hl.1 x hx) ha
    | true =>
      obtain ⟨A, B, h1, h2, h3⟩ := ih hl.2
      refine ⟨a :: A, B, by rw [h1]; rfl, ?_, h3⟩
      intro x hx
      rcases List.mem_cons.mp hx with rfl | hx
      · exact ha
      · exact h2 x hx

theorem log_step (a d n : Nat) (ha : a ≤ n / 2) (hd : d + n / 2 + 1 ≤ n) (hn : 2 ≤ n) :
    n + (n - a) + 2 * a * Nat.log 2 a + 2 * d * Nat.log 2 d ≤ 2 * n * Nat.log 2 n := by
  have hlog : Nat.log 2 n = Nat.log 2 (n / 2) + 1 := Nat.log_of_one_lt_of_le (by norm_num) hn
  generalize hL : Nat.log 2 (n / 2) = L at hlog
  have h1 : Nat.log 2 a ≤ L := hL ▸ Nat.log_mono_right ha
  have h2 : Nat.log 2 d ≤ L := hL ▸ Nat.log_mono_right (by omega)
  have h3 : 2 * a * Nat.log 2 a ≤ 2 * a * L := Nat.mul_le_mul_left _ h1
  have h4 : 2 * d * Nat.log 2 d ≤ 2 * d * L := Nat.mul_le_mul_left _ h2
  rw [hlog]
  have h5 : 2 * a * L + 2 * d * L ≤ 2 * n * L := by
    rw [← Nat.add_mul]; exact Nat.mul_le_mul_right _ (by omega)
  have h6 : 2 * n * (L + 1) = 2 * n * L + 2 * n := by ring
  omega

end QSort
end Utki
