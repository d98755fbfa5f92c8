import Verif.Lemmas.TreeAddrEdit
/-! # Lemmas about iterators of a changed forest -/
namespace Utki.TreeAddr
open Spec
open Trav (LIter listAt canonL canonI canon Climb modify subT subtree_cons back_snoc canonL_length canonI_length)
variable {α : Type}

/-! ## Paths of places -/

/-- All levels of the path are places of the forest. -/
def OnPath (f : List (Tree α)) (p : Path) : Prop := ∀ a k b, p = a ++ k :: b → ∃ l, listAt f a = some l ∧ k ≤ l.length

theorem onPath_list {f : List (Tree α)} {q : Path} {l : List (Tree α)} (hl : listAt f q = some l) : OnPath f q := by
  rintro a k b rfl
  rw [show a ++ k :: b = (a ++ [k]) ++ b by simp, Trav.listAt_append] at hl
  cases h : listAt f (a ++ [k]) with
  | none => rw [h] at hl; cases hl
  | some L =>
    obtain ⟨L', t, h1, h2, _⟩ := Trav.listAt_snoc_some h
    rw [List.getElem?_eq_some_iff] at h2
    exact ⟨L', h1, Nat.le_of_lt h2.1⟩

theorem onPath_snoc {f : List (Tree α)} {q : Path} {k : Nat} {l : List (Tree α)} (hl : listAt f q = some l) (hk : k ≤ l.length) : OnPath f (q ++ [k]) := by
  intro a j b h
  rcases List.eq_nil_or_concat b with rfl | ⟨b, c, rfl⟩
  · obtain ⟨rfl, h2⟩ := List.append_inj' h rfl
    cases h2
    exact ⟨l, hl, hk⟩
  · rw [List.concat_eq_append, show a ++ j :: (b ++ [c]) = (a ++ j :: b) ++ [c] by simp] at h
    obtain ⟨rfl, _⟩ := List.append_inj' h rfl
    exact onPath_list hl a j b rfl

theorem onPath_position {f : List (Tree α)} {n : Nat} {p : Path} (h : (positions f)[n]? = some p) : OnPath f p := by
  obtain ⟨q, k, l, rfl, h1, _, h3, _⟩ := Trav.position_split h
  exact onPath_snoc h1 h3

/-! ## What iterators say -/

theorem indexLoop_prefix {m : Mem α} (h : Inv m) (s r : Path) : ∀ pre, OnPath m.forest (pre ++ s) →
    indexLoop m ((canonL pre s).map (ptr m) ++ (canonL (pre ++ s) r).map (ptr m)) ((canonI pre s).map m.tok ++ (canonI (pre ++ s) r).map m.tok) =
      (do return s ++ (← indexLoop m ((canonL (pre ++ s) r).map (ptr m)) ((canonI (pre ++ s) r).map m.tok))) := by
  induction s with
  | nil =>
    intro pre _
    simp only [canonL, canonI, List.map_nil, List.nil_append, List.append_nil, Res.bind_eq, Res.pure_eq]
    cases indexLoop m ((canonL pre r).map (ptr m)) ((canonI pre r).map m.tok) <;> rfl
  | cons i s ih =>
    intro pre hp
    obtain ⟨l, hl, hi⟩ := hp pre i s rfl
    have := ih (pre ++ [i]) (by simpa using hp)
    simp only [List.append_assoc, List.singleton_append] at this
    simp only [canonL, canonI, List.map_cons, List.cons_append, indexLoop, listOf_ok h hl, locA h hl hi, Res.bind_eq, Res.ok_bind, if_true, this, Res.pure_eq]
    cases indexLoop m ((canonL (pre ++ i :: s) r).map (ptr m)) ((canonI (pre ++ i :: s) r).map m.tok) <;> rfl

theorem indexA (dbg : Bool) {m : Mem α} (h : Inv m) {p : Path} (hp : OnPath m.forest p) : index dbg m (canonA m p) = .ok p := by
  have := indexLoop_prefix h p [] [] hp
  simp only [canonL, canonI, List.map_nil, List.append_nil, indexLoop, Res.bind_eq, Res.ok_bind, Res.pure_eq] at this
  simp [index, canonA, canonL_length, canonI_length, this]

theorem canonA_inj {m : Mem α} (h : Inv m) {p r : Path} (hp : OnPath m.forest p) (hr : OnPath m.forest r) (e : canonA m p = canonA m r) : p = r := by
  have := congrArg (index false m) e
  rw [indexA false h hp, indexA false h hr] at this
  exact Res.ok.inj this

theorem vecEqA {m : Mem α} (h : Inv m) : ∀ (a b pre : Path), a.length = b.length → OnPath m.forest (pre ++ a) → OnPath m.forest (pre ++ b) →
    vecEq m ((canonI pre a).map m.tok) ((canonI pre b).map m.tok) = .ok (decide (a = b)) := by
  intro a
  induction a with
  | nil =>
    intro b pre hl _ _
    cases b with
    | nil => rfl
    | cons => simp at hl
  | cons i a ih =>
    intro b pre hl ha hb
    cases b with
    | nil => simp at hl
    | cons j b =>
      obtain ⟨l, h1, h2⟩ := ha pre i a rfl
      obtain ⟨l', h1', h3⟩ := hb pre j b rfl
      rw [h1] at h1'; cases h1'
      simp only [canonI, List.map_cons, vecEq, eqA h h1 h2 h3, Res.bind_eq, Res.ok_bind, Res.pure_eq]
      by_cases hij : i = j
      · subst hij
        simp only [beq_self_eq_true, if_true, ih b (pre ++ [i]) (by simpa using hl) (by simpa using ha) (by simpa using hb)]
        simp
      · simp [hij]

theorem eqCanonA {m : Mem α} (h : Inv m) {a b : Path} (ha : OnPath m.forest a) (hb : OnPath m.forest b) : eq m (canonA m a) (canonA m b) = .ok (decide (a = b)) := by
  unfold eq canonA
  simp only [List.length_map, canonI_length]
  split
  · exact vecEqA h a b [] ‹_› ha hb
  · rename_i hn
    have : a ≠ b := by rintro rfl; exact hn rfl
    simp [this]

theorem vecLtA {m : Mem α} (h : Inv m) : ∀ (a b pre : Path), OnPath m.forest (pre ++ a) → OnPath m.forest (pre ++ b) →
    vecLt m ((canonI pre a).map m.tok) ((canonI pre b).map m.tok) = .ok (Trav.lexB a b) := by
  intro a
  induction a with
  | nil => intro b pre _ _; cases b <;> rfl
  | cons i a ih =>
    intro b pre ha hb
    cases b with
    | nil => rfl
    | cons j b =>
      obtain ⟨l, h1, h2⟩ := ha pre i a rfl
      obtain ⟨l', h1', h3⟩ := hb pre j b rfl
      rw [h1] at h1'; cases h1'
      simp only [canonI, List.map_cons, vecLt, ltA h h1 h2 h3, ltA h h1 h3 h2, Res.bind_eq, Res.ok_bind, Res.pure_eq, Trav.lexB]
      by_cases hij : i < j
      · simp [hij]
      · by_cases hji : j < i
        · simp [hij, hji]
        · have : i = j := by omega
          subst this
          simp only [hij, decide_false, Bool.false_eq_true, if_false]
          exact ih b (pre ++ [i]) (by simpa using ha) (by simpa using hb)

theorem starA {m : Mem α} (h : Inv m) {p : Path} {t : Tree α} (ht : subtree m.forest p = some t) : star m (canonA m p) = .ok t := by
  obtain ⟨q, k, l, rfl, h1, h2⟩ := Trav.subtree_split ht
  rw [canonA_snoc]
  simp only [star, back_snoc, Res.bind_eq, Res.ok_bind, derefA h h1 h2]

/-! ## Subtrees that stay -/

theorem value_stays (g : List (Tree α) → List (Tree α)) (i : Nat) (all : Bool) (f : List (Tree α)) (q p : Path)
    (hg : ∀ l, listAt f q = some l → ∀ j, j < i → (g l)[j]? = l[j]?) (h : ¬ Touched q i all p) :
    (subtree (modify g f q) p).map Tree.value = (subtree f p).map Tree.value ∧ (¬ p <+: q → subtree (modify g f q) p = subtree f p) := by
  induction q generalizing f p with
  | nil =>
    cases p with
    | nil => exact ⟨rfl, fun _ => rfl⟩
    | cons j r =>
      have hj : j < i := by
        apply Nat.lt_of_not_le
        intro e
        exact h ⟨j, r, rfl, .inr e⟩
      have : subtree (modify g f []) (j :: r) = subtree f (j :: r) := by
        rw [subtree_cons, subtree_cons, Trav.modify, hg f rfl j hj]
      exact ⟨by rw [this], fun _ => this⟩
  | cons c q ih =>
    cases hc : f[c]? with
    | none => simp only [Trav.modify, hc]; exact ⟨trivial, fun _ => trivial⟩
    | some u =>
      have hlt : c < f.length := by rw [List.getElem?_eq_some_iff] at hc; exact hc.1
      cases p with
      | nil => exact ⟨rfl, fun _ => rfl⟩
      | cons j r =>
        by_cases hj : c = j
        · subst hj
          cases r with
          | nil =>
            refine ⟨?_, fun e => absurd ⟨q, rfl⟩ e⟩
            simp [Trav.modify, hc, subtree_cons, List.getElem?_set_self hlt, subT, Tree.value]
          | cons b r =>
            have key : ∀ (v : α) (cs : List (Tree α)), subT (.node v cs) (b :: r) = subtree cs (b :: r) := by
              intro v cs
              rw [subtree_cons]
              simp only [subT, Tree.children]
              cases cs[b]? <;> rfl
            obtain ⟨v, cs⟩ := u
            have e1 : subtree (modify g f (c :: q)) (c :: b :: r) = subtree (modify g cs q) (b :: r) := by
              rw [subtree_cons]
              simp only [Trav.modify, hc, List.getElem?_set_self hlt, Option.bind_some, key, Tree.children]
            have e2 : subtree f (c :: b :: r) = subtree cs (b :: r) := by
              rw [subtree_cons]
              simp only [hc, Option.bind_some, key]
            rw [e1, e2]
            have hg' : ∀ l, listAt cs q = some l → ∀ j, j < i → (g l)[j]? = l[j]? := by
              intro l hl
              apply hg l
              simp only [listAt, hc]
              exact hl
            have := ih cs (b :: r) hg' (fun ⟨k, s, e, e'⟩ => h ⟨k, s, by rw [e]; rfl, e'⟩)
            exact ⟨this.1, fun e => this.2 (fun e' => e ((List.cons_prefix_cons).mpr ⟨rfl, e'⟩))⟩
        · have : subtree (modify g f (c :: q)) (j :: r) = subtree f (j :: r) := by
            rw [subtree_cons, subtree_cons]
            simp only [Trav.modify, hc, List.getElem?_set_ne hj]
          exact ⟨by rw [this], fun _ => this⟩

theorem modify_length (g : List (Tree α) → List (Tree α)) (f : List (Tree α)) (c : Nat) (q : Path) : (modify g f (c :: q)).length = f.length := by
  simp only [Trav.modify]
  cases f[c]? <;> simp

/-- A position that is not touched is a position afterwards. -/
theorem position_stays (g : List (Tree α) → List (Tree α)) (i : Nat) (all : Bool) (f : List (Tree α)) (q p : Path) (l : List (Tree α)) (hl : listAt f q = some l) (hi : i ≤ l.length)
    (hg : ∀ j, j < i → (g l)[j]? = l[j]?) (h : ¬ Touched q i all p) {n : Nat} (hp : (positions f)[n]? = some p) :
    ∃ n' : Nat, (positions (modify g f q))[n']? = some p := by
  rcases Trav.positions_cases hp with ⟨_, t, ht⟩ | ⟨_, rfl⟩
  · have hv := (value_stays g i all f q p (fun l' e => by rw [hl] at e; cases e; exact hg) h).1
    rw [ht] at hv
    cases hs : subtree (modify g f q) p with
    | none => rw [hs] at hv; cases hv
    | some t' =>
      have hm : p ∈ (nodes (modify g f q)).map (·.1) := (Trav.mem_paths _ p).mpr ⟨t', hs⟩
      obtain ⟨n', hn, he⟩ := List.mem_iff_getElem.mp hm
      refine ⟨n', ?_⟩
      unfold positions
      rw [List.getElem?_append_left hn, List.getElem?_eq_getElem hn, he]
  · cases q with
    | nil =>
      simp only [listAt, Option.some.injEq] at hl
      subst hl
      exact absurd ⟨f.length, [], rfl, .inr hi⟩ h
    | cons c q => exact ⟨_, by rw [← modify_length g f c q]; exact Trav.positions_last _⟩

/-! ## Iterators that do not -/

/-- A place that no place afterwards comes from is gone. -/
theorem locate_gone {m : Mem α} (h : Inv m) {f' : List (Tree α)} {origin : LIter → Option LIter}
    (hp : ∀ x ∈ places f', ∀ y, origin x = some y → y ∈ places m.forest) {y : LIter} (hy : y ∈ places m.forest)
    (hn : ∀ x ∈ places f', origin x ≠ some y) : locate (after m f' origin) (m.tok y) = .ub .bad_iterator := by
  cases hl : locate (after m f' origin) (m.tok y) with
  | ok x =>
    obtain ⟨h1, h2⟩ := locate_sound hl
    simp only [after] at h1 h2
    cases ho : origin x with
    | none =>
      rw [ho] at h2
      have := h.old y hy
      rw [← h2] at this
      simp at this
    | some z =>
      rw [ho] at h2
      have := h.inj z (hp x h1 z ho) y hy h2
      subst this
      exact absurd ho (hn x h1)
  | _ => unfold locate at hl; split at hl <;> simp_all

theorem originInsert_gone {q : Path} {i k : Nat} {mv cp : Bool} (h : (mv || cp) = true ∨ i ≤ k) : ∀ x, originInsert q i mv cp x ≠ some ⟨q, k⟩ := by
  intro x e
  unfold originInsert at e
  have self : ∀ {s : Path}, strip q q = some s → s = [] := fun h => by simpa using (strip_some.mp h).symm
  cases hs : strip q x.list with
  | none =>
    rw [hs] at e
    simp only [Option.some.injEq] at e
    subst e
    have := (strip_some (q := q) (p := q) (r := [])).mpr (by simp)
    simp only at hs
    rw [this] at hs; cases hs
  | some s =>
    rw [hs] at e
    cases s with
    | nil =>
      simp only at e
      split at e
      · cases e
      · rename_i hn
        simp only [Option.some.injEq] at e
        subst e
        simp at hn
        rcases h with h | h
        · simp [hn] at h
        · omega
    | cons j r =>
      simp only at e
      split at e
      · cases e
      · split at e
        · simp only [Option.some.injEq] at e
          subst e
          have := self hs
          cases this
        · simp only [Option.some.injEq, LIter.mk.injEq] at e
          have := congrArg List.length e.1
          simp at this

theorem originErase_gone {q : Path} {i k : Nat} (h : i ≤ k) : ∀ x, originErase q i x ≠ some ⟨q, k⟩ := by
  intro x e
  unfold originErase at e
  cases hs : strip q x.list with
  | none =>
    rw [hs] at e
    simp only [Option.some.injEq] at e
    subst e
    have := (strip_some (q := q) (p := q) (r := [])).mpr (by simp)
    simp only at hs
    rw [this] at hs; cases hs
  | some s =>
    rw [hs] at e
    cases s with
    | nil =>
      simp only at e
      split at e
      · cases e
      · simp only [Option.some.injEq] at e
        subst e
        simp at *
        omega
    | cons j r =>
      simp only at e
      split at e
      · simp only [Option.some.injEq] at e
        subst e
        have := strip_some.mp hs
        have := congrArg List.length this
        simp at this
      · simp only [Option.some.injEq, LIter.mk.injEq] at e
        have := congrArg List.length e.1
        simp at this

/-- The place at a level of the iterator. -/
theorem level_place (q r : Path) (k : Nat) (pre : Path) : (canonI pre (q ++ k :: r))[q.length]? = some ⟨pre ++ q, k⟩ := by
  induction q generalizing pre with
  | nil => simp [canonI]
  | cons c q ih =>
    simp only [List.cons_append, canonI, List.length_cons, List.getElem?_cons_succ, ih]
    simp

theorem canonL_append (pre s r : Path) : canonL pre (s ++ r) = canonL pre s ++ canonL (pre ++ s) r := by
  induction s generalizing pre with
  | nil => simp [canonL]
  | cons c s ih => simp [canonL, ih]

theorem canonI_append (pre s r : Path) : canonI pre (s ++ r) = canonI pre s ++ canonI (pre ++ s) r := by
  induction s generalizing pre with
  | nil => simp [canonI]
  | cons c s ih => simp [canonI, ih]

/-- An iterator with a place that is gone on one of its levels is not valid. -/
theorem gone_level {m m' : Mem α} (h' : Inv m') {q r : Path} {k : Nat} {l' : List (Tree α)} (hl' : listAt m'.forest q = some l')
    (keep : ∀ a j b, q = a ++ j :: b → m'.tok ⟨a, j⟩ = m.tok ⟨a, j⟩) (hg : locate m' (m.tok ⟨q, k⟩) = .ub .bad_iterator) (dbg : Bool) :
    at_level m' (canonA m (q ++ k :: r)) q.length = .ub .bad_iterator ∧ index dbg m' (canonA m (q ++ k :: r)) = .ub .bad_iterator ∧
    (r = [] → star m' (canonA m (q ++ k :: r)) = .ub .bad_iterator ∧ incr dbg m' (canonA m (q ++ k :: r)) = .ub .bad_iterator ∧
      decr dbg m' (canonA m (q ++ k :: r)) = .ub .bad_iterator) := by
  have hc : canonA m' q = canonA m q := canonA_congr keep
  have hp : ptr m' q = ptr m q := ptr_congr keep
  have hc2 := (AIter.mk.injEq .. ▸ hc : _ ∧ _)
  refine ⟨?_, ?_, ?_⟩
  · unfold at_level
    have : (canonA m (q ++ k :: r)).iter_stack[q.length]? = some (m.tok ⟨q, k⟩) := by
      simp only [canonA, List.getElem?_map, level_place, List.nil_append, Option.map_some]
    rw [this]
    simp only [deref, hg, Res.bind_eq]; rfl
  · have hloop : ∀ (ls : List LPtr) (is : List Tok),
        indexLoop m' ((canonL [] q).map (ptr m') ++ ptr m q :: ls) ((canonI [] q).map m'.tok ++ m.tok ⟨q, k⟩ :: is) = .ub .bad_iterator := by
      intro ls is
      have gen : ∀ (s pre : Path), pre ++ s = q →
          indexLoop m' ((canonL pre s).map (ptr m') ++ ptr m q :: ls) ((canonI pre s).map m'.tok ++ m.tok ⟨q, k⟩ :: is) = .ub .bad_iterator := by
        intro s
        induction s with
        | nil =>
          intro pre _
          simp only [canonL, canonI, List.map_nil, List.nil_append, indexLoop, ← hp, listOf_ok h' hl', hg, Res.bind_eq, Res.ok_bind]; rfl
        | cons c s ih =>
          intro pre e
          obtain ⟨L, h1, h2⟩ := onPath_list hl' pre c s e.symm
          simp only [canonL, canonI, List.map_cons, List.cons_append, indexLoop, listOf_ok h' h1, locA h' h1 h2, Res.bind_eq, Res.ok_bind, if_true,
            ih (pre ++ [c]) (by simpa using e)]
          rfl
      exact gen q [] rfl
    have := hloop ((canonL (q ++ [k]) r).map (ptr m)) ((canonI (q ++ [k]) r).map m.tok)
    rw [hc2.1, hc2.2] at this
    simp only [index, canonA, canonL_append [] q, canonI_append [] q, List.map_append, List.length_append, List.length_map, canonL_length, canonI_length, List.nil_append,
      canonL, canonI, List.map_cons, List.length_cons, beq_self_eq_true, ASSERT, Res.bind_eq, this]
    cases dbg <;> rfl
  · rintro rfl
    rw [show q ++ k :: [] = q ++ [k] from rfl, canonA_snoc]
    refine ⟨?_, ?_, ?_⟩
    · simp only [star, back_snoc, Res.bind_eq, Res.ok_bind, deref, hg]; rfl
    · simp only [incr, back_snoc, Res.bind_eq, Res.ok_bind, deref, hg, notEnd, ← hp, endA h' hl', iterEq, Trav.isEmpty_snoc, Bool.not_false, ASSERT,
        List.length_append, List.length_map, canonI_length, canonL_length, List.length_singleton, beq_self_eq_true, Bool.not_true, Bool.and_false, Bool.false_eq_true, if_false]
      cases dbg <;> rfl
    · simp only [decr, back_snoc, Res.bind_eq, Res.ok_bind, hg, ← hp, beginA h' hl', iterEq, Trav.isEmpty_snoc, Bool.not_false, ASSERT,
        Bool.not_true, Bool.and_false, Bool.false_eq_true, if_false]
      rfl

end Utki.TreeAddr
