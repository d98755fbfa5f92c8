import Verif.Model.Flags
/-!
# Properties of `flags` (C53, C54)

A flag is an enumerator `e` with `0 ≤ e < enum_size`. `Has f e v` says that reading the flag gives `v`, with each of the ways to
read it. Everything is stated through `Has`. The number of enumerators is below 2^64, as `size_t(enum_size)` is.
-/
namespace Utki
namespace Flags
variable {N : Nat}

theorem toIndex_nat (i : Nat) (h : i < 2 ^ 64) : toIndex (i : Int) = i := by
  unfold toIndex
  rw [Int.emod_eq_of_lt (by omega) (by omega)]; rfl

theorem toIndex_out (hN : N < 2 ^ 63) (e : Int) (h1 : -2 ^ 63 ≤ e) (h2 : e < 2 ^ 64) (h : ¬ (0 ≤ e ∧ e < N)) : N ≤ toIndex e := by
  unfold toIndex; omega

theorem put_bit (b : BitVec N) (i j : Nat) (hi : i < N) (v : Bool) (hj : j < N) : (put b i v).getLsbD j = if j = i then v else b.getLsbD j := by
  unfold put
  cases v
  · simp [hj]
    by_cases h : j = i
    · subst h; simp
    · simp [h]
  · simp [hj]
    by_cases h : j = i
    · subst h; simp
    · simp [h]

end Flags
open Flags
variable {N : Nat}

/-- Flag `i` reads as `v`: `get`, in debug and release builds, and `operator[]`. -/
def Has (f : Flags N) (i : Nat) (v : Bool) : Prop :=
  (∀ dbg, Flags.get dbg f (i : Int) = .ok v) ∧ Flags.index f (i : Int) = .ok v

theorem has_iff (hN : N < 2 ^ 64) (f : Flags N) (i : Nat) (hi : i < N) (v : Bool) : Has f i v ↔ f.bits.getLsbD i = v := by
  have : toIndex (i : Int) = i := toIndex_nat i (by omega)
  simp [Has, Flags.get, Flags.index, bitAt, this, hi]

/-- Every flag has exactly one value; a value is read without undefined behaviour. -/
theorem C53_read (hN : N < 2 ^ 64) (f : Flags N) (i : Nat) (hi : i < N) : ∃ v, Has f i v ∧ ∀ w, Has f i w → w = v := by
  refine ⟨f.bits.getLsbD i, (has_iff hN f i hi _).mpr rfl, ?_⟩
  intro w hw
  exact ((has_iff hN f i hi w).mp hw).symm

/-- C53: `~`, `&`, `|`, `^` and the assigning forms act on every flag as not, and, or, exclusive or. -/
theorem C53_flagwise (hN : N < 2 ^ 64) (f g : Flags N) (i : Nat) (hi : i < N) (a b : Bool) (ha : Has f i a) (hb : Has g i b) :
    Has (Flags.not f) i (!a) ∧ Has (invert f) i (!a) ∧
    Has (Flags.and f g) i (a && b) ∧ Has (andAssign f g) i (a && b) ∧
    Has (Flags.or f g) i (a || b) ∧ Has (orAssign f g) i (a || b) ∧
    Has (Flags.xor f g) i (a ^^ b) ∧ Has (xorAssign f g) i (a ^^ b) := by
  rw [has_iff hN _ i hi] at ha hb
  subst ha; subst hb
  simp only [has_iff hN _ i hi, Flags.not, invert, Flags.and, andAssign, Flags.or, orAssign, Flags.xor, xorAssign]
  simp [hi]

/-- C53: flags are equal exactly if all flags agree, and then they are the same object state; `!=` is the negation. -/
theorem C53_eq (hN : N < 2 ^ 64) (f g : Flags N) :
    (Flags.eq f g = true ↔ ∀ i, i < N → ∀ v, Has f i v ↔ Has g i v) ∧ (Flags.eq f g = true ↔ f = g) ∧ Flags.ne f g = !Flags.eq f g := by
  have e : Flags.eq f g = true ↔ f = g := by
    cases f; cases g; simp [Flags.eq]
  refine ⟨?_, e, rfl⟩
  rw [e]
  constructor
  · rintro rfl _ _ _; exact Iff.rfl
  · intro h
    have : f.bits = g.bits := by
      apply BitVec.eq_of_getLsbD_eq
      intro i hi
      have := (h i hi (f.bits.getLsbD i)).mp ((has_iff hN f i hi _).mpr rfl)
      exact ((has_iff hN g i hi _).mp this).symm
    cases f; cases g; simpa using this

/-- C53: `is_set()` is true exactly if all flags are set, `is_clear()` exactly if none is. -/
theorem C53_all_none (hN : N < 2 ^ 64) (f : Flags N) :
    (is_set f = true ↔ ∀ i, i < N → Has f i true) ∧ (is_clear f = true ↔ ∀ i, i < N → Has f i false) := by
  constructor
  · constructor
    · intro h i hi
      rw [has_iff hN f i hi, (by simpa [is_set] using h : f.bits = BitVec.allOnes N)]; simp [hi]
    · intro h
      simp only [is_set, beq_iff_eq]
      apply BitVec.eq_of_getLsbD_eq
      intro i hi
      rw [(has_iff hN f i hi _).mp (h i hi)]; simp [hi]
  · constructor
    · intro h i hi
      rw [has_iff hN f i hi, (by simpa [is_clear] using h : f.bits = 0#N)]; simp
    · intro h
      simp only [is_clear, beq_iff_eq]
      apply BitVec.eq_of_getLsbD_eq
      intro i hi
      rw [(has_iff hN f i hi _).mp (h i hi)]; simp

/-- C53: the constructors: no or all flags; exactly the listed flags, with `std::out_of_range` if one is not a flag. -/
theorem C53_construct (hN : N < 2 ^ 64) :
    (∀ v i, i < N → Has (ofBool v : Flags N) i v) ∧
    (∀ vs : List Nat, (∀ i ∈ vs, i < N) → ∃ f : Flags N, ofList (vs.map Int.ofNat) = .ok f ∧ ∀ i, i < N → Has f i (decide (i ∈ vs))) ∧
    (∀ i, i < N → ∃ f : Flags N, ofEnum (Int.ofNat i) = .ok f ∧ ∀ j, j < N → Has f j (decide (j = i))) ∧
    (∀ i j, i < N → j < N → ∃ f : Flags N, orEnums (Int.ofNat i) (Int.ofNat j) = .ok f ∧ ∀ k, k < N → Has f k (decide (k = i ∨ k = j))) := by
  have hl : ∀ (vs : List Nat), (∀ i ∈ vs, i < N) → ∃ f : Flags N, ofList (vs.map Int.ofNat) = .ok f ∧ ∀ i, i < N → Has f i (decide (i ∈ vs)) := by
    intro vs hvs
    have loop : ∀ (vs : List Nat) (b : BitVec N), (∀ i ∈ vs, i < N) →
        ∃ b', ofListLoop (vs.map Int.ofNat) b = .ok b' ∧ ∀ i, i < N → b'.getLsbD i = (decide (i ∈ vs) || b.getLsbD i) := by
      intro vs
      induction vs with
      | nil => intro b _; exact ⟨b, rfl, by simp⟩
      | cons v vs ih =>
        intro b h
        have hv : v < N := h v (by simp)
        obtain ⟨b', h1, h2⟩ := ih (put b v true) (fun i hi => h i (by simp [hi]))
        refine ⟨b', ?_, ?_⟩
        · have : toIndex (v : Int) = v := toIndex_nat v (by omega)
          simp [ofListLoop, bitsetSet, this, hv, h1]
        · intro i hi
          rw [h2 i hi, put_bit b v i hv true hi]
          by_cases e : i = v <;> simp [e]
    obtain ⟨b', h1, h2⟩ := loop vs 0#N hvs
    refine ⟨⟨b'⟩, by simp [ofList, h1], ?_⟩
    intro i hi
    rw [has_iff hN _ i hi, h2 i hi]; simp
  refine ⟨?_, hl, ?_, ?_⟩
  · intro v i hi
    rw [has_iff hN _ i hi]
    cases v <;> simp [ofBool, hi]
  · intro i hi
    obtain ⟨f, h1, h2⟩ := hl [i] (by simpa using hi)
    exact ⟨f, h1, by simpa using h2⟩
  · intro i j hi hj
    obtain ⟨f, h1, h2⟩ := hl [i, j] (by simp [hi, hj])
    exact ⟨f, h1, by simpa using h2⟩

/-- C53: a list with an enumerator that is not a flag is refused with `std::out_of_range`. -/
theorem C53_construct_throws (hN : N < 2 ^ 63) (vs : List Nat) (hvs : ∀ i ∈ vs, i < N) (e : Int) (rest : List Int)
    (h1 : -2 ^ 63 ≤ e) (h2 : e < 2 ^ 64) (h : ¬ (0 ≤ e ∧ e < N)) :
    (ofList (vs.map Int.ofNat ++ e :: rest) : Res (Flags N)) = .throw .out_of_range := by
  have ho := toIndex_out hN e h1 h2 h
  have loop : ∀ (vs : List Nat) (b : BitVec N), (∀ i ∈ vs, i < N) → ofListLoop (vs.map Int.ofNat ++ e :: rest) b = .throw .out_of_range := by
    intro vs
    induction vs with
    | nil => intro b _; simp [ofListLoop, bitsetSet, show ¬ toIndex e < N by omega]
    | cons v vs ih =>
      intro b h
      have hv : v < N := h v (by simp)
      have : toIndex (v : Int) = v := toIndex_nat v (by omega)
      simp [ofListLoop, bitsetSet, this, hv, ih _ (fun i hi => h i (by simp [hi]))]
  simp [ofList, loop vs 0#N hvs]

/-- C53: the laws of a Boolean algebra, as equalities of flags objects. -/
theorem C53_laws (f g h : Flags N) :
    Flags.and f g = Flags.and g f ∧ Flags.or f g = Flags.or g f ∧ Flags.xor f g = Flags.xor g f ∧
    Flags.and (Flags.and f g) h = Flags.and f (Flags.and g h) ∧ Flags.or (Flags.or f g) h = Flags.or f (Flags.or g h) ∧
    Flags.xor (Flags.xor f g) h = Flags.xor f (Flags.xor g h) ∧
    Flags.and f (Flags.or g h) = Flags.or (Flags.and f g) (Flags.and f h) ∧ Flags.or f (Flags.and g h) = Flags.and (Flags.or f g) (Flags.or f h) ∧
    Flags.and f (ofBool true) = f ∧ Flags.or f (ofBool false) = f ∧ Flags.and f (Flags.not f) = ofBool false ∧
    Flags.or f (Flags.not f) = ofBool true ∧ Flags.not (Flags.not f) = f ∧ Flags.xor f f = ofBool false ∧
    Flags.not (Flags.and f g) = Flags.or (Flags.not f) (Flags.not g) ∧ Flags.not (Flags.or f g) = Flags.and (Flags.not f) (Flags.not g) ∧
    Flags.not (ofBool true : Flags N) = ofBool false := by
  cases f; cases g; cases h
  simp only [Flags.and, andAssign, Flags.or, orAssign, Flags.xor, xorAssign, Flags.not, invert, ofBool, if_true, if_false,
    Bool.false_eq_true, Flags.mk.injEq]
  refine ⟨?_, ?_, ?_, ?_, ?_, ?_, ?_, ?_, ?_, ?_, ?_, ?_, ?_, ?_, ?_, ?_, ?_⟩ <;> (apply BitVec.eq_of_getLsbD_eq; intro i hi; simp [hi]) <;>
    (first | grind)

/-- C53: the printed form has one digit for each flag, the highest first. -/
theorem C53_print (hN : N < 2 ^ 64) (f : Flags N) :
    (print f).length = N ∧ ∀ i, i < N → ∀ v, Has f i v → (print f)[N - 1 - i]? = some (if v then ch '1' else ch '0') := by
  refine ⟨by simp [print], ?_⟩
  intro i hi v hv
  rw [has_iff hN f i hi] at hv
  subst hv
  simp [print, show N - 1 - i < N by omega, show N - 1 - (N - 1 - i) = i by omega]

/-- An object of an enum with five flags for the examples: flags 0 and 3. -/
def flags1 : Flags 5 := ⟨9#5⟩

example : Has flags1 3 true ∧ Has flags1 4 false ∧ Has (Flags.not flags1) 4 true := by
  refine ⟨⟨by decide, by decide⟩, ⟨by decide, by decide⟩, ⟨by decide, by decide⟩⟩
example : (ofList [0, 3] : Res (Flags 5)) = .ok flags1 ∧ (ofList [0, 5] : Res (Flags 5)) = .throw .out_of_range := by decide
example : print flags1 = str "01001" := by decide

/-! ## C54 -/

/-- The enumerators used in an operation are flags. -/
def OpOk {N : Nat} : Op N → Prop
  | .set e _ => 0 ≤ e ∧ e < N
  | .clear e => 0 ≤ e ∧ e < N
  | .indexAssign e _ => 0 ≤ e ∧ e < N
  | _ => True

/-- What an operation does to one flag. -/
inductive Does {N : Nat} (i : Nat) : Op N → (Bool → Bool) → Prop where
  | set (v : Bool) : Does i (.set i v) (fun _ => v)
  | set_other (e : Int) (v : Bool) : e ≠ i → Does i (.set e v) id
  | clear : Does i (.clear i) (fun _ => false)
  | clear_other (e : Int) : e ≠ i → Does i (.clear e) id
  | indexAssign (v : Bool) : Does i (.indexAssign i v) (fun _ => v)
  | indexAssign_other (e : Int) (v : Bool) : e ≠ i → Does i (.indexAssign e v) id
  | setAll (v : Bool) : Does i (.setAll v) (fun _ => v)
  | clearAll : Does i .clearAll (fun _ => false)
  | invert : Does i .invert (fun b => !b)
  | andAssign (g : Flags N) (v : Bool) : Has g i v → Does i (.andAssign g) (fun b => b && v)
  | orAssign (g : Flags N) (v : Bool) : Has g i v → Does i (.orAssign g) (fun b => b || v)
  | xorAssign (g : Flags N) (v : Bool) : Has g i v → Does i (.xorAssign g) (fun b => b ^^ v)
  | assign (g : Flags N) (v : Bool) : Has g i v → Does i (.assign g) (fun _ => v)

/-- C54: one operation does to each flag what `Does` says, and nothing else. -/
theorem C54_step (hN : N < 2 ^ 64) (dbg : Bool) (f : Flags N) (o : Op N) (ho : OpOk o) :
    ∃ f', step dbg f o = .ok f' ∧ ∀ i, i < N → ∃ t, Does i o t ∧ ∀ v, Has f i v → Has f' i (t v) := by
  have single : ∀ (e : Int) (v : Bool), 0 ≤ e ∧ e < N → ∃ k : Nat, e = k ∧ k < N ∧
      ∀ i, i < N → ∀ w, Has f i w → Has (⟨put f.bits k v⟩ : Flags N) i (if i = k then v else w) := by
    intro e v he
    refine ⟨e.toNat, by omega, by omega, ?_⟩
    intro i hi w hw
    rw [has_iff hN _ i hi] at hw ⊢
    rw [put_bit _ _ _ (by omega) _ hi, hw]
  cases o with
  | set e v =>
    obtain ⟨k, rfl, hk, h⟩ := single e v ho
    refine ⟨⟨put f.bits k v⟩, ?_, ?_⟩
    · simp [step, Flags.set, bitsetSet, toIndex_nat k (by omega), hk]
    · intro i hi
      by_cases hik : i = k
      · subst hik; exact ⟨_, .set v, fun w hw => by simpa using h i hi w hw⟩
      · exact ⟨_, .set_other k v (by omega), fun w hw => by simpa [hik] using h i hi w hw⟩
  | clear e =>
    obtain ⟨k, rfl, hk, h⟩ := single e false ho
    refine ⟨⟨put f.bits k false⟩, ?_, ?_⟩
    · simp [step, Flags.clear, bitsetSet, toIndex_nat k (by omega), hk]
    · intro i hi
      by_cases hik : i = k
      · subst hik; exact ⟨_, .clear, fun w hw => by simpa using h i hi w hw⟩
      · exact ⟨_, .clear_other k (by omega), fun w hw => by simpa [hik] using h i hi w hw⟩
  | indexAssign e v =>
    obtain ⟨k, rfl, hk, h⟩ := single e v ho
    refine ⟨⟨put f.bits k v⟩, ?_, ?_⟩
    · simp [step, Flags.indexAssign, toIndex_nat k (by omega), hk]
    · intro i hi
      by_cases hik : i = k
      · subst hik; exact ⟨_, .indexAssign v, fun w hw => by simpa using h i hi w hw⟩
      · exact ⟨_, .indexAssign_other k v (by omega), fun w hw => by simpa [hik] using h i hi w hw⟩
  | setAll v =>
    refine ⟨_, rfl, fun i hi => ⟨_, .setAll v, fun w _ => ?_⟩⟩
    rw [has_iff hN _ i hi]; cases v <;> simp [setAll, hi]
  | clearAll =>
    refine ⟨_, rfl, fun i hi => ⟨_, .clearAll, fun w _ => ?_⟩⟩
    rw [has_iff hN _ i hi]; simp [clearAll]
  | invert => exact ⟨_, rfl, fun i hi => ⟨_, .invert, fun w hw => (C53_flagwise hN f f i hi w w hw hw).2.1⟩⟩
  | andAssign g =>
    refine ⟨_, rfl, fun i hi => ?_⟩
    obtain ⟨v, hv, _⟩ := C53_read hN g i hi
    exact ⟨_, .andAssign g v hv, fun w hw => (C53_flagwise hN f g i hi w v hw hv).2.2.2.1⟩
  | orAssign g =>
    refine ⟨_, rfl, fun i hi => ?_⟩
    obtain ⟨v, hv, _⟩ := C53_read hN g i hi
    exact ⟨_, .orAssign g v hv, fun w hw => (C53_flagwise hN f g i hi w v hw hv).2.2.2.2.2.1⟩
  | xorAssign g =>
    refine ⟨_, rfl, fun i hi => ?_⟩
    obtain ⟨v, hv, _⟩ := C53_read hN g i hi
    exact ⟨_, .xorAssign g v hv, fun w hw => (C53_flagwise hN f g i hi w v hw hv).2.2.2.2.2.2.2⟩
  | assign g =>
    refine ⟨_, rfl, fun i hi => ?_⟩
    obtain ⟨v, hv, _⟩ := C53_read hN g i hi
    exact ⟨_, .assign g v hv, fun w _ => hv⟩

theorem does_unique (hN : N < 2 ^ 64) (i : Nat) (hi : i < N) (o : Op N) (t t' : Bool → Bool) (h : Does i o t) (h' : Does i o t') : t = t' := by
  have u : ∀ (g : Flags N) v w, Has g i v → Has g i w → v = w := by
    intro g v w hv hw
    rw [has_iff hN g i hi] at hv hw; rw [← hv, hw]
  cases h <;> cases h' <;> first | rfl | (exfalso; simp_all; done) | (rw [u _ _ _ ‹Has _ _ _› ‹Has _ i _›]) | grind

/-- The value of a flag after a history, from its value before: the composition of what each operation does to it. -/
inductive After {N : Nat} (i : Nat) : List (Op N) → Bool → Bool → Prop where
  | nil (v : Bool) : After i [] v v
  | cons (o : Op N) (t : Bool → Bool) (os : List (Op N)) (v w : Bool) : Does i o t → After i os (t v) w → After i (o :: os) v w

/-- C54: any history of operations is executed without undefined behaviour and failing assertion, and every flag then has the
value the history of that flag determines. -/
theorem C54_history (hN : N < 2 ^ 64) (dbg : Bool) (f : Flags N) (os : List (Op N)) (hos : ∀ o ∈ os, OpOk o) :
    ∃ f', run dbg f os = .ok f' ∧ ∀ i, i < N → ∀ v w, Has f i v → After i os v w → Has f' i w := by
  induction os generalizing f with
  | nil => exact ⟨f, rfl, fun i _ v w hv ha => by cases ha; exact hv⟩
  | cons o os ih =>
    obtain ⟨f1, h1, h2⟩ := C54_step hN dbg f o (hos o (by simp))
    obtain ⟨f2, h3, h4⟩ := ih f1 (fun o ho => hos o (by simp [ho]))
    refine ⟨f2, by simp [run, h1, h3], ?_⟩
    intro i hi v w hv ha
    cases ha with
    | cons _ t _ _ _ hd ha =>
      obtain ⟨t', g1, g2⟩ := h2 i hi
      rw [does_unique hN i hi o t t' hd g1] at ha
      exact h4 i hi _ w (g2 v hv) ha

/-- C54: after an operation that gives the flag the value `v` and then only operations that do not change it, the flag is `v`. -/
theorem C54_last_write (hN : N < 2 ^ 64) (dbg : Bool) (f : Flags N) (pre post : List (Op N)) (o : Op N) (i : Nat) (hi : i < N) (v : Bool)
    (hos : ∀ o' ∈ pre ++ o :: post, OpOk o') (hw : Does i o (fun _ => v)) (hp : ∀ o' ∈ post, ∃ t, Does i o' t ∧ t v = v) :
    ∃ f', run dbg f (pre ++ o :: post) = .ok f' ∧ Has f' i v := by
  obtain ⟨f', h1, h2⟩ := C54_history hN dbg f (pre ++ o :: post) hos
  refine ⟨f', h1, ?_⟩
  have tail : ∀ post : List (Op N), (∀ o' ∈ post, ∃ t, Does i o' t ∧ t v = v) → After i post v v := by
    intro post
    induction post with
    | nil => intro _; exact .nil v
    | cons o' post ih =>
      intro hp
      obtain ⟨t, g1, g2⟩ := hp o' (by simp)
      refine .cons o' t post v v g1 ?_
      rw [g2]; exact ih (fun o'' h => hp o'' (by simp [h]))
  have all : ∀ (pre : List (Op N)) (f : Flags N) (a : Bool), Has f i a → (∀ o' ∈ pre, OpOk o') → After i (pre ++ o :: post) a v := by
    intro pre
    induction pre with
    | nil => intro f a _ _; exact .cons o _ post a v hw (tail post hp)
    | cons p pre ih =>
      intro f a ha h
      obtain ⟨f1, _, g2⟩ := C54_step hN dbg f p (h p (by simp))
      obtain ⟨t, k1, k2⟩ := g2 i hi
      exact .cons p t _ a v k1 (ih f1 (t a) (k2 a ha) (fun o' h' => h o' (by simp [h'])))
  obtain ⟨a, ha, _⟩ := C53_read hN f i hi
  exact h2 i hi a v ha (all pre f a ha (fun o' h => hos o' (by simp [h])))

/-- C54: `set` and `clear` with an enumerator that is not a flag abort in debug builds and change nothing in release builds. -/
theorem C54_bad_enumerator (hN : N < 2 ^ 63) (f : Flags N) (e : Int) (h1 : -2 ^ 63 ≤ e) (h2 : e < 2 ^ 64) (h : ¬ (0 ≤ e ∧ e < N)) (v : Bool) :
    Flags.set true f e v = .abort ∧ Flags.set false f e v = .ok f ∧ Flags.clear true f e = .abort ∧ Flags.clear false f e = .ok f := by
  have ho := toIndex_out hN e h1 h2 h
  by_cases he : e < N <;> simp [Flags.set, Flags.clear, bitsetSet, show ¬ toIndex e < N by omega, he]

/-- C54, limit: `get` with an enumerator that is not a flag aborts in debug builds if it is too large; in release builds, and in all builds if
it is negative, the behaviour is undefined. -/
theorem C54_bad_get (hN : N < 2 ^ 63) (f : Flags N) (e : Int) (h1 : -2 ^ 63 ≤ e) (h2 : e < 2 ^ 64) (h : ¬ (0 ≤ e ∧ e < N)) :
    Flags.get true f e = (if e < 0 then .ub .oob_read else .abort) ∧ Flags.get false f e = .ub .oob_read ∧ Flags.index f e = .ub .oob_read := by
  have ho := toIndex_out hN e h1 h2 h
  by_cases he : e < 0
  · simp [Flags.get, Flags.index, bitAt, show ¬ toIndex e < N by omega, he, show e < (N : Int) by omega]
  · simp [Flags.get, Flags.index, bitAt, show ¬ toIndex e < N by omega, he, show ¬ e < (N : Int) by omega]

/-- `operator|(enum)` sets the flag in a copy. -/
theorem C54_or_enum (hN : N < 2 ^ 64) (dbg : Bool) (f : Flags N) (i : Nat) (hi : i < N) :
    ∃ f', orEnum dbg f i = .ok f' ∧ ∀ j, j < N → ∀ v, Has f j v → Has f' j (v || decide (j = i)) := by
  obtain ⟨f', h1, h2⟩ := C54_history hN dbg f [.set i true] (by simp [OpOk, hi])
  refine ⟨f', ?_, ?_⟩
  · simp only [run, step] at h1
    unfold orEnum
    cases hs : Flags.set dbg f i true <;> rw [hs] at h1 <;> simp_all
  · intro j hj v hv
    by_cases e : j = i
    · subst e
      have := h2 j hj v true hv (.cons _ _ _ _ _ (.set true) (.nil _))
      simpa using this
    · have := h2 j hj v v hv (.cons _ _ _ _ _ (.set_other _ _ (by omega)) (.nil _))
      simpa [e] using this

example : run true flags1 [.set 1 true, .clear 0, .invert, .set 4 false, .indexAssign 2 true] = .ok ⟨5#5⟩ := by decide +kernel
example : After 1 ([.set 1 true, .clear 0, .invert] : List (Op 5)) false false :=
  .cons _ _ _ _ _ (.set true) (.cons _ _ _ _ _ (.clear_other 0 (by decide)) (.cons _ _ _ _ _ .invert (.nil _)))

end Utki
