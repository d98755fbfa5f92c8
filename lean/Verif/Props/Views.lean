import Verif.Model.Views
/-!
# Properties of `next`, `prev` and the views (C51, C52, C65)
-/
namespace Utki
open Views

variable {α : Type}

theorem advance_ok {w len pos : Nat} {d : Int} {p : Nat} (h1 : -2 ^ (w - 1) ≤ d) (h2 : d < 2 ^ (w - 1)) (h3 : (pos : Int) + d = p) (h4 : p ≤ len) :
    advance w len pos d = .ok p := by
  unfold advance
  rw [if_neg (by omega), if_pos (by omega)]
  congr 1; omega

theorem advance_bad {w len pos : Nat} {d : Int} (h1 : -2 ^ (w - 1) ≤ d) (h2 : d < 2 ^ (w - 1)) (h3 : (pos : Int) + d < 0 ∨ (len : Int) < pos + d) :
    advance w len pos d = .ub .bad_iterator := by
  unfold advance
  rw [if_neg (by omega), if_neg (by omega)]

theorem sizeT_diffMax (w : Nat) : sizeT (diffMax w) = if w ≤ 64 then diffMax w else 2 ^ 64 - 1 := by
  unfold sizeT diffMax
  split
  · apply Nat.mod_eq_of_lt
    have : 2 ^ (w - 1) ≤ 2 ^ 64 := Nat.pow_le_pow_right (by omega) (by omega)
    have := Nat.two_pow_pos (w - 1)
    omega
  · have : ∃ k, 2 ^ (w - 1) = 2 ^ 64 * (k + 1) := by
      refine ⟨2 ^ (w - 1 - 64) - 1, ?_⟩
      rw [show 2 ^ (w - 1 - 64) - 1 + 1 = 2 ^ (w - 1 - 64) from Nat.sub_add_cancel (Nat.two_pow_pos _), ← Nat.pow_add]
      congr 1; omega
    obtain ⟨k, hk⟩ := this
    rw [hk]; omega

theorem diffMax_pos {w : Nat} (h : 2 ≤ w) : 1 ≤ diffMax w := by
  unfold diffMax
  have : 2 ^ 1 ≤ 2 ^ (w - 1) := Nat.pow_le_pow_right (by omega) (by omega)
  omega

theorem diffMax_int (w : Nat) : (diffMax w : Int) = 2 ^ (w - 1) - 1 := by
  unfold diffMax
  have := Nat.two_pow_pos (w - 1)
  rw [Int.ofNat_sub this]
  simp

/-- The loop moves by exactly `n`, in steps that fit. -/
theorem stepLoop_ok {w len : Nat} (hw : 2 ≤ w) {sign : Int} (hs : sign = 1 ∨ sign = -1) (fuel pos n p : Nat) (hn : n < 2 ^ 64) (hf : n < fuel)
    (hp : (pos : Int) + sign * n = p) (hpos : pos ≤ len) (hle : p ≤ len) :
    ∃ steps, stepLoop w len sign fuel pos n = .ok (p, steps) ∧ steps.sum = sign * n ∧ ∀ d ∈ steps, -2 ^ (w - 1) ≤ d ∧ d < 2 ^ (w - 1) := by
  induction fuel generalizing pos n with
  | zero => omega
  | succ fuel ih =>
    have hM := diffMax_pos hw
    have hMi := diffMax_int w
    have hSz := sizeT_diffMax w
    simp only [stepLoop]
    by_cases hc : sizeT (diffMax w) < n
    · have hw64 : w ≤ 64 := by
        apply Nat.le_of_not_lt; intro h
        rw [if_neg (by omega)] at hSz; omega
      rw [if_pos hw64] at hSz
      rw [hSz] at hc ⊢
      rw [if_pos hc]
      have hsub : (n + 2 ^ 64 - diffMax w) % 2 ^ 64 = n - diffMax w := by omega
      have hstep : ∃ q : Nat, (pos : Int) + sign * diffMax w = (q : Int) ∧ q ≤ len ∧ (q : Int) + sign * ↑(n - diffMax w) = p := by
        rcases hs with rfl | rfl
        · exact ⟨pos + diffMax w, by omega, by omega, by omega⟩
        · exact ⟨pos - diffMax w, by omega, by omega, by omega⟩
      obtain ⟨q, hq1, hq2, hq3⟩ := hstep
      have hfit : -2 ^ (w - 1) ≤ sign * (diffMax w : Int) ∧ sign * (diffMax w : Int) < 2 ^ (w - 1) := by
        rcases hs with rfl | rfl <;> omega
      obtain ⟨steps, h1, h2, h3⟩ := ih q (n - diffMax w) (by omega) (by omega) hq3 hq2
      refine ⟨sign * diffMax w :: steps, ?_, ?_, ?_⟩
      · rw [hsub, advance_ok hfit.1 hfit.2 hq1 hq2]
        simp [h1]
      · rw [List.sum_cons, h2, ← Int.mul_add]; congr 1; omega
      · intro d hd
        rcases List.mem_cons.mp hd with rfl | hd
        · exact hfit
        · exact h3 d hd
    · rw [if_neg hc]
      have hnM : n ≤ diffMax w := by
        rw [hSz] at hc
        split at hc
        · omega
        · rename_i h64
          have : 2 ^ 64 ≤ 2 ^ (w - 1) := Nat.pow_le_pow_right (by omega) (by omega)
          unfold diffMax; omega
      have hfit : -2 ^ (w - 1) ≤ sign * (n : Int) ∧ sign * (n : Int) < 2 ^ (w - 1) := by
        rcases hs with rfl | rfl <;> omega
      refine ⟨[sign * n], ?_, by simp, ?_⟩
      · rw [advance_ok hfit.1 hfit.2 hp hle]; rfl
      · intro d hd; rw [List.mem_singleton.mp hd]; exact hfit

/-- C65: `next(it, n)` moves forward by exactly `n`, for every `n` of type `size_t` and every difference type, in steps that fit the
difference type, and terminates. -/
theorem C65_next (w len pos n : Nat) (hw : 2 ≤ w) (hn : n < 2 ^ 64) (h : pos + n ≤ len) :
    ∃ steps, next w len pos n = .ok (pos + n, steps) ∧ steps.sum = n ∧ ∀ d ∈ steps, -2 ^ (w - 1) ≤ d ∧ d < 2 ^ (w - 1) := by
  have := stepLoop_ok (w := w) (len := len) hw (sign := 1) (.inl rfl) (n + 1) pos n (pos + n) hn (by omega) (by omega) (by omega) h
  simpa [next] using this

/-- C65: `prev(it, n)` moves backwards by exactly `n`. -/
theorem C65_prev (w len pos n : Nat) (hw : 2 ≤ w) (hn : n < 2 ^ 64) (hp : pos ≤ len) (h : n ≤ pos) :
    ∃ steps, prev w len pos n = .ok (pos - n, steps) ∧ steps.sum = -n ∧ ∀ d ∈ steps, -2 ^ (w - 1) ≤ d ∧ d < 2 ^ (w - 1) := by
  have := stepLoop_ok (w := w) (len := len) hw (sign := -1) (.inr rfl) (n + 1) pos n (pos - n) hn (by omega) (by omega) hp (by omega)
  simpa [prev] using this

/-- Moving out of the collection is undefined, never a hang. -/
theorem stepLoop_bad {w len : Nat} (hw : 2 ≤ w) {sign : Int} (hs : sign = 1 ∨ sign = -1) (fuel pos n : Nat) (hn : n < 2 ^ 64) (hf : n < fuel)
    (hpos : pos ≤ len) (hbad : (pos : Int) + sign * n < 0 ∨ (len : Int) < pos + sign * n) : stepLoop w len sign fuel pos n = .ub .bad_iterator := by
  induction fuel generalizing pos n with
  | zero => omega
  | succ fuel ih =>
    have hM := diffMax_pos hw
    have hMi := diffMax_int w
    have hSz := sizeT_diffMax w
    simp only [stepLoop]
    by_cases hc : sizeT (diffMax w) < n
    · have hw64 : w ≤ 64 := by
        apply Nat.le_of_not_lt; intro h
        rw [if_neg (by omega)] at hSz; omega
      rw [if_pos hw64] at hSz
      rw [hSz] at hc ⊢
      rw [if_pos hc]
      have hsub : (n + 2 ^ 64 - diffMax w) % 2 ^ 64 = n - diffMax w := by omega
      have hfit : -2 ^ (w - 1) ≤ sign * (diffMax w : Int) ∧ sign * (diffMax w : Int) < 2 ^ (w - 1) := by
        rcases hs with rfl | rfl <;> omega
      by_cases hin : 0 ≤ (pos : Int) + sign * diffMax w ∧ (pos : Int) + sign * diffMax w ≤ len
      · obtain ⟨q, hq⟩ := Int.eq_ofNat_of_zero_le hin.1
        have hmul : sign * (n : Int) = sign * diffMax w + sign * ↑(n - diffMax w) := by
          rw [← Int.mul_add]; congr 1; omega
        rw [hsub, advance_ok hfit.1 hfit.2 hq (by omega)]
        rw [hmul] at hbad
        simp [ih q (n - diffMax w) (by omega) (by omega) (by omega) (by omega)]
      · rw [advance_bad hfit.1 hfit.2 (by omega)]; rfl
    · rw [if_neg hc]
      have hnM : n ≤ diffMax w := by
        rw [hSz] at hc
        split at hc
        · omega
        · rename_i h64
          have : 2 ^ 64 ≤ 2 ^ (w - 1) := Nat.pow_le_pow_right (by omega) (by omega)
          unfold diffMax; omega
      have hfit : -2 ^ (w - 1) ≤ sign * (n : Int) ∧ sign * (n : Int) < 2 ^ (w - 1) := by
        rcases hs with rfl | rfl <;> omega
      rw [advance_bad hfit.1 hfit.2 hbad]; rfl

/-- C65: moving past the end or before the beginning is the usual undefined behaviour of the iterator, not an endless loop. -/
theorem C65_outside (w len pos n : Nat) (hw : 2 ≤ w) (hn : n < 2 ^ 64) (hp : pos ≤ len) :
    (len < pos + n → next w len pos n = .ub .bad_iterator) ∧ (pos < n → prev w len pos n = .ub .bad_iterator) :=
  ⟨fun h => stepLoop_bad hw (.inl rfl) _ _ _ hn (by omega) hp (by omega), fun h => stepLoop_bad hw (.inr rfl) _ _ _ hn (by omega) hp (by omega)⟩

/-- 300 steps with an 8 bit difference type. -/
example : next 8 1000 5 300 = .ok (305, [127, 127, 46]) := by decide
example : prev 8 1000 305 300 = .ok (5, [-127, -127, -46]) := by decide

theorem forward_eq (f : α → α) (b : List α) : ∀ (a : List α) (fuel : Nat), b.length ≤ fuel →
    forward f fuel a.length (a.length + b.length) (a ++ b) = .ok (b, a ++ b.map f) := by
  induction b with
  | nil => intro a fuel _; unfold forward; simp
  | cons x b ih =>
    intro a fuel hf
    obtain ⟨fuel, rfl⟩ : ∃ k, fuel = k + 1 := ⟨fuel - 1, by simp at hf; omega⟩
    unfold forward
    rw [if_neg (by simp)]
    have h1 : rd (a ++ x :: b) a.length = .ok x := by rw [rd_eq_ok (by simp)]; simp
    have h2 : wr (a ++ x :: b) a.length (f x) = .ok (a ++ f x :: b) := by rw [wr_eq_ok (by simp)]; simp
    have h3 : advance 64 (a ++ f x :: b).length a.length 1 = .ok (a.length + 1) := advance_ok (by omega) (by omega) (by simp) (by simp)
    have h4 := ih (a ++ [f x]) fuel (by simp at hf; omega)
    simp only [List.length_append, List.length_cons, List.length_nil, Nat.zero_add, List.append_assoc, List.singleton_append] at h4
    simp only [h1, h2, h3, Res.bind_eq, Res.ok_bind]
    rw [show a.length + (x :: b).length = a.length + 1 + b.length by simp; omega, h4]
    simp

/-- C52: `skip_front<n>(c)` visits `c` without its first `n` elements, in order, as references; with fewer elements debug builds abort
and in release builds it is undefined. -/
theorem C52_skip_front (dbg : Bool) (n : Nat) (f : α → α) (c : List α) (hn : n < 2 ^ 64) :
    (n ≤ c.length → skipFront dbg n f c = .ok (c.drop n, c.take n ++ (c.drop n).map f)) ∧
    (c.length < n → skipFront dbg n f c = if dbg then .abort else .ub .bad_iterator) := by
  constructor
  · intro h
    obtain ⟨steps, h1, -⟩ := C65_next 64 c.length 0 n (by omega) hn (by omega)
    have h2 := forward_eq f (c.drop n) (c.take n) c.length (by simp)
    simp only [List.take_append_drop, List.length_take, List.length_drop, Nat.min_eq_left h, Nat.add_sub_cancel' h] at h2
    simp only [skipFront, ASSERT_of (decide_eq_true h), Res.bind_eq, Res.ok_bind, h1, Nat.zero_add, h2]
  · intro h
    have h1 := (C65_outside 64 c.length 0 n (by omega) hn (by omega)).1 (by omega)
    have hd : decide (n ≤ c.length) = false := by simpa using h
    cases dbg
    · simp [skipFront, h1]
    · simp [skipFront, hd]

theorem backward_eq (f : α → α) (fuel : Nat) : ∀ (c d : List α), c.length ≤ fuel →
    backward f fuel c.length 0 (c ++ d) = .ok (c.reverse, c.map f ++ d) := by
  induction fuel with
  | zero => intro c d h; have : c = [] := by simpa using h
            subst this; unfold backward; simp
  | succ fuel ih =>
    intro c d hf
    rcases List.eq_nil_or_concat c with rfl | ⟨a, x, rfl⟩
    · unfold backward; simp
    · rw [List.concat_eq_append] at hf ⊢
      have hl : (a ++ [x]).length = a.length + 1 := by simp
      rw [hl]
      unfold backward
      rw [if_neg (by omega)]
      have h0 : ∀ y : α, advance 64 (a ++ [y] ++ d).length (a.length + 1) (-1) = .ok a.length := fun y =>
        advance_ok (by omega) (by omega) (by omega) (by simp)
      have h1 : rd (a ++ [x] ++ d) a.length = .ok x := by rw [rd_eq_ok (by simp)]; simp
      have h2 : wr (a ++ [x] ++ d) a.length (f x) = .ok (a ++ [f x] ++ d) := by rw [wr_eq_ok (by simp)]; simp
      have h4 := ih a (f x :: d) (by simp at hf; omega)
      simp only [h0, h1, h2, Res.bind_eq, Res.ok_bind]
      rw [show a ++ [f x] ++ d = a ++ f x :: d by simp, h4]
      simp

/-- C52: `reverse(c)` visits all elements, last first, as references. -/
theorem C52_reverse (f : α → α) (c : List α) : Views.reverse f c = .ok (c.reverse, c.map f) := by
  have := backward_eq f c.length c [] (Nat.le_refl _)
  simpa [Views.reverse] using this

/-- C52: the elements collected from the reverse of the elements collected from the reverse are those of `c`. -/
theorem C52_reverse_twice (c : List α) :
    (do let r ← Views.reverse id c; let r' ← Views.reverse id r.1; pure r'.1) = Res.ok c := by
  simp [C52_reverse]

example : skipFront true 2 (· + 1) [1, 2, 3, 4] = .ok ([3, 4], [1, 2, 4, 5]) := by decide
example : skipFront true 5 (· + 1) [1, 2, 3, 4] = .abort := by decide
example : Views.reverse (· + 1) [1, 2, 3] = .ok ([3, 2, 1], [2, 3, 4]) := by decide

theorem minSize_spec (cs : List (List α)) (m : Nat) : cs.foldl (fun m d => min m d.length) m ≤ m ∧
    (∀ c ∈ cs, cs.foldl (fun m d => min m d.length) m ≤ c.length) ∧
    (cs.foldl (fun m d => min m d.length) m = m ∨ ∃ c ∈ cs, cs.foldl (fun m d => min m d.length) m = c.length) := by
  induction cs generalizing m with
  | nil => simp
  | cons d cs ih =>
    obtain ⟨h1, h2, h3⟩ := ih (min m d.length)
    simp only [List.foldl_cons]
    refine ⟨by omega, ?_, ?_⟩
    · intro c hc
      rcases List.mem_cons.mp hc with rfl | hc
      · omega
      · exact h2 c hc
    · rcases h3 with h3 | ⟨c, hc, h3⟩
      · rw [h3]
        rcases Nat.le_total m d.length with h | h
        · left; omega
        · right; exact ⟨d, by simp, by omega⟩
      · exact .inr ⟨c, by simp [hc], h3⟩

theorem zipEnd_eq (n : Nat) (hn : n < 2 ^ 64) (cs : List (List α)) (h : ∀ c ∈ cs, n ≤ c.length) : zipEnd n cs = .ok (cs.map (fun _ => n)) := by
  induction cs with
  | nil => rfl
  | cons c cs ih =>
    obtain ⟨steps, h1, -⟩ := C65_next 64 c.length 0 n (by omega) hn (by have := h c (by simp); omega)
    simp [zipEnd, h1, ih (fun c hc => h c (by simp [hc]))]

theorem zipNext_eq (i : Nat) (cs : List (List α)) (h : ∀ c ∈ cs, i < c.length) : zipNext cs (cs.map (fun _ => i)) = .ok (cs.map (fun _ => i + 1)) := by
  induction cs with
  | nil => rfl
  | cons c cs ih =>
    have h1 : advance 64 c.length i 1 = .ok (i + 1) := advance_ok (by omega) (by omega) (by simp) (by have := h c (by simp); omega)
    simp [zipNext, h1, ih (fun c hc => h c (by simp [hc]))]

theorem zipDeref_eq (i : Nat) (cs : List (List α)) (h : ∀ c ∈ cs, i < c.length) :
    ∃ xs, zipDeref cs (cs.map (fun _ => i)) = .ok xs ∧ xs.map some = cs.map (·[i]?) := by
  induction cs with
  | nil => exact ⟨[], rfl, rfl⟩
  | cons c cs ih =>
    obtain ⟨xs, h1, h2⟩ := ih (fun c hc => h c (by simp [hc]))
    have hc := h c (by simp)
    exact ⟨c[i] :: xs, by simp [zipDeref, rd_eq_ok hc, h1], by simp [h2, hc]⟩

theorem zipAssign_eq (i : Nat) (cs : List (List α)) (ys : List α) (hl : ys.length = cs.length) (h : ∀ c ∈ cs, i < c.length) :
    zipAssign cs (cs.map (fun _ => i)) ys = .ok (List.zipWith (fun c y => c.set i y) cs ys) := by
  induction cs generalizing ys with
  | nil => cases ys with
    | nil => rfl
    | cons y ys => simp at hl
  | cons c cs ih =>
    cases ys with
    | nil => simp at hl
    | cons y ys =>
      have hc := h c (by simp)
      simp [zipAssign, wr_eq_ok hc, ih ys (by simpa using hl) (fun c hc => h c (by simp [hc]))]

/-- What the loop has done from position `i` on. -/
theorem zipLoop_eq (f : List α → List α) (hf : ∀ xs, (f xs).length = xs.length) (n : Nat) (k : Nat) : ∀ (i : Nat) (cs : List (List α)), cs ≠ [] →
    i + k = n → (∀ c ∈ cs, n ≤ c.length) →
    ∃ vs cs', zipLoop f (cs.map (fun _ => n)) k (cs.map (fun _ => i)) cs = .ok (vs, cs') ∧
      vs.length = k ∧ (∀ j, j < k → ∃ xs, vs[j]? = some xs ∧ xs.map some = cs.map (·[i + j]?)) ∧
      cs'.map List.length = cs.map List.length ∧
      (∀ j, cs'.map (·[j]?) = if i ≤ j ∧ j < n then ((vs.getD (j - i) []) |> f).map some else cs.map (·[j]?)) := by
  induction k with
  | zero =>
    intro i cs hne hik hle
    refine ⟨[], cs, ?_, rfl, by omega, rfl, ?_⟩
    · unfold zipLoop
      rw [if_pos]
      have : i = n := by omega
      subst this; rfl
    · intro j; rw [if_neg (by omega)]
  | succ k ih =>
    intro i cs hne hik hle
    have hlt : ∀ c ∈ cs, i < c.length := fun c hc => by have := hle c hc; omega
    obtain ⟨xs, h1, h2⟩ := zipDeref_eq i cs hlt
    have hxl : xs.length = cs.length := by have := congrArg List.length h2; simpa using this
    have h3 := zipAssign_eq i cs (f xs) (by rw [hf, hxl]) hlt
    generalize hds : List.zipWith (fun c y => c.set i y) cs (f xs) = ds at h3
    have hdl : ds.map List.length = cs.map List.length := by
      subst hds
      apply List.ext_getElem?
      intro m
      simp only [List.getElem?_map, List.getElem?_zipWith]
      rcases hc : cs[m]? with _ | c
      · rfl
      · have hm : m < (f xs).length := by
          rw [hf, hxl]; exact (List.getElem?_eq_some_iff.mp hc).1
        simp [List.getElem?_eq_getElem hm]
    have hmap : ∀ q : Nat, ds.map (fun _ => q) = cs.map (fun _ => q) := by
      intro q
      have hlen : ds.length = cs.length := by have := congrArg List.length hdl; simpa using this
      simp [List.map_const', hlen]
    have hall : ∀ P : Nat → Prop, (∀ c ∈ cs, P c.length) → ∀ c ∈ ds, P c.length := by
      intro P hP c hc
      have : c.length ∈ ds.map List.length := List.mem_map_of_mem hc
      rw [hdl] at this
      obtain ⟨c0, hc0, he⟩ := List.mem_map.mp this
      rw [← he]; exact hP c0 hc0
    have hdne : ds ≠ [] := by
      intro h; rw [h] at hdl; simp at hdl; exact hne hdl
    have h4 := zipNext_eq i ds (hall _ hlt)
    rw [hmap, hmap] at h4
    obtain ⟨vs, cs', g1, g2, g3, g4, g5⟩ := ih (i + 1) ds hdne (by omega) (hall _ hle)
    rw [hmap, hmap] at g1
    have hget : ∀ j, ds.map (·[j]?) = if j = i then (f xs).map some else cs.map (·[j]?) := by
      intro j
      subst hds
      by_cases hj : j = i
      · subst hj
        rw [if_pos rfl]
        apply List.ext_getElem?
        intro m
        simp only [List.getElem?_map, List.getElem?_zipWith]
        rcases hc : cs[m]? with _ | c
        · have hm : (f xs)[m]? = none := by
            rw [List.getElem?_eq_none_iff, hf, hxl]; exact List.getElem?_eq_none_iff.mp hc
          simp [hm]
        · obtain ⟨hmc, hce⟩ := List.getElem?_eq_some_iff.mp hc
          have hm : m < (f xs).length := by rw [hf, hxl]; exact hmc
          have hic : j < c.length := hlt c (hce ▸ List.getElem_mem hmc)
          simp [List.getElem?_eq_getElem hm, hic]
      · rw [if_neg hj]
        apply List.ext_getElem?
        intro m
        simp only [List.getElem?_map, List.getElem?_zipWith]
        rcases hc : cs[m]? with _ | c
        · simp
        · obtain ⟨hmc, hce⟩ := List.getElem?_eq_some_iff.mp hc
          have hm : m < (f xs).length := by rw [hf, hxl]; exact hmc
          simp [List.getElem?_eq_getElem hm, Ne.symm hj]
    refine ⟨xs :: vs, cs', ?_, by simp [g2], ?_, by rw [g4, hdl], ?_⟩
    · unfold zipLoop
      rw [if_neg]
      · simp only [Res.bind_eq, h1, h3, h4, g1, Res.ok_bind]; rfl
      · intro he
        cases cs with
        | nil => exact hne rfl
        | cons c cs => simp at he; omega
    · intro j hj
      cases j with
      | zero => exact ⟨xs, rfl, by simpa using h2⟩
      | succ j =>
        obtain ⟨ys, y1, y2⟩ := g3 j (by omega)
        refine ⟨ys, by simpa using y1, ?_⟩
        rw [y2, show i + 1 + j = i + (j + 1) by omega, hget, if_neg (by omega)]
    · intro j
      rw [g5]
      by_cases hj : i ≤ j ∧ j < n
      · rw [if_pos hj]
        by_cases e : j = i
        · subst e
          rw [if_neg (by omega), hget, if_pos rfl]
          simp
        · rw [if_pos (by omega)]
          obtain ⟨t, rfl⟩ : ∃ t, j = i + (t + 1) := ⟨j - i - 1, by omega⟩
          rw [show i + (t + 1) - (i + 1) = t by omega, show i + (t + 1) - i = t + 1 by omega]
          simp
      · rw [if_neg hj, if_neg (by omega), hget, if_neg (by omega)]

/-- C51: `zip(c1, ..., cn)` visits exactly as many tuples as the shortest collection has elements, the `i`th made of references to the
`i`th elements: they are read, and assigned, in all collections; elements behind are untouched. No iterator leaves its collection. -/
theorem C51_zip (f : List α → List α) (hf : ∀ xs, (f xs).length = xs.length) (cs : List (List α)) (hne : cs ≠ []) (hs : ∀ c ∈ cs, c.length < 2 ^ 64) :
    ∃ n vs cs', Views.zip f cs = .ok (vs, cs') ∧
      ((∀ c ∈ cs, n ≤ c.length) ∧ ∃ c ∈ cs, n = c.length) ∧
      vs.length = n ∧
      (∀ i, i < n → ∃ xs, vs[i]? = some xs ∧ xs.map some = cs.map (·[i]?) ∧ cs'.map (·[i]?) = (f xs).map some) ∧
      (∀ i, n ≤ i → cs'.map (·[i]?) = cs.map (·[i]?)) := by
  cases cs with
  | nil => exact absurd rfl hne
  | cons c cs =>
    obtain ⟨m1, m2, m3⟩ := minSize_spec cs c.length
    generalize hn : cs.foldl (fun m d => min m d.length) c.length = n at m1 m2 m3
    have hle : ∀ d ∈ c :: cs, n ≤ d.length := by
      intro d hd
      rcases List.mem_cons.mp hd with rfl | hd
      · exact m1
      · exact m2 d hd
    have h64 : n < 2 ^ 64 := by have := hs c (by simp); omega
    obtain ⟨vs, cs', g1, g2, g3, g4, g5⟩ := zipLoop_eq f hf n n 0 (c :: cs) hne (by omega) hle
    refine ⟨n, vs, cs', ?_, ⟨hle, ?_⟩, g2, ?_, ?_⟩
    · simp only [Views.zip, minSize, hn, Res.bind_eq, Res.ok_bind, zipEnd_eq n h64 (c :: cs) hle]
      exact g1
    · rcases m3 with h | ⟨d, hd, h⟩
      · exact ⟨c, by simp, h⟩
      · exact ⟨d, by simp [hd], h⟩
    · intro i hi
      obtain ⟨xs, h1, h2⟩ := g3 i hi
      refine ⟨xs, h1, by simpa using h2, ?_⟩
      rw [g5, if_pos (by omega)]
      simp [h1]
    · intro i hi
      rw [g5, if_neg (by omega)]

example : Views.zip (fun xs => xs.map (· * 2)) [[1, 2, 3], [10, 20], [100, 200, 300, 400]] =
    .ok ([[1, 10, 100], [2, 20, 200]], [[2, 4, 3], [20, 40], [200, 400, 300, 400]]) := by decide

end Utki
