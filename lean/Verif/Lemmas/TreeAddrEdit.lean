import Verif.Lemmas.TreeAddr
import Verif.Spec.TreeAddr
/-! # Lemmas about changes of forests with identities of places -/
namespace Utki.TreeAddr
open Spec
open Trav (LIter listAt canonL canonI canon Climb modify back_snoc pop_snoc setBack_snoc canonL_length canonI_length)
variable {α : Type}

theorem strip_some {q p r : Path} : strip q p = some r ↔ p = q ++ r := by
  induction q generalizing p with
  | nil => simp [strip]
  | cons a q ih =>
    cases p with
    | nil => simp [strip]
    | cons b p =>
      simp only [strip]
      by_cases h : a = b
      · subst h; simp [ih]
      · simp [h, show ¬ b = a from fun e => h e.symm]

/-- Lists that are not below the changed one keep their values. -/
theorem listAt_modify_other (g : List (Tree α) → List (Tree α)) (f : List (Tree α)) (q a : Path) (h : strip q a = none) :
    (listAt (modify g f q) a).map (·.map Tree.value) = (listAt f a).map (·.map Tree.value) := by
  induction q generalizing f a with
  | nil => simp [strip] at h
  | cons i q ih =>
    cases hi : f[i]? with
    | none => simp only [Trav.modify, hi]
    | some u =>
      simp only [Trav.modify, hi]
      cases a with
      | nil =>
        simp only [listAt, Option.map_some, List.map_set]
        congr 1
        rw [List.getElem?_eq_some_iff] at hi
        obtain ⟨hlt, rfl⟩ := hi
        apply List.ext_getElem?
        intro j
        by_cases hj : i = j
        · subst hj; rw [List.getElem?_set_self (by simpa using hlt)]; simp [Tree.value, hlt]
        · rw [List.getElem?_set_ne hj]
      | cons b a =>
        simp only [strip] at h
        by_cases hb : i = b
        · subst hb
          rw [if_pos rfl] at h
          have hlt : i < f.length := by rw [List.getElem?_eq_some_iff] at hi; exact hi.1
          simp only [listAt, List.getElem?_set_self hlt, hi]
          exact ih u.children a h
        · simp only [listAt, List.getElem?_set_ne hb]

theorem places_modify_other (g : List (Tree α) → List (Tree α)) (f : List (Tree α)) (q : Path) (x : LIter) (h : strip q x.list = none) :
    x ∈ places (modify g f q) ↔ x ∈ places f := by
  have := listAt_modify_other g f q x.list h
  rw [mem_places, mem_places]
  cases h1 : listAt (modify g f q) x.list with
  | none =>
    rw [h1] at this
    cases h2 : listAt f x.list with
    | none => simp
    | some l => rw [h2] at this; simp at this
  | some l' =>
    rw [h1] at this
    cases h2 : listAt f x.list with
    | none => rw [h2] at this; simp at this
    | some l =>
      rw [h2] at this
      simp only [Option.map_some, Option.some.injEq] at this
      have := congrArg List.length this
      simp only [List.length_map] at this
      simp [this]

theorem listAt_modify_below (g : List (Tree α) → List (Tree α)) (f : List (Tree α)) (q : Path) (l : List (Tree α)) (hl : listAt f q = some l) (r : Path) :
    listAt (modify g f q) (q ++ r) = listAt (g l) r := by
  rw [Trav.listAt_append, Trav.listAt_modify g f q l hl]; rfl

theorem inv_after {m : Mem α} (h : Inv m) {f' : List (Tree α)} {origin : LIter → Option LIter}
    (hp : ∀ x ∈ places f', ∀ y, origin x = some y → y ∈ places m.forest) (hi : ∀ x x' y, origin x = some y → origin x' = some y → x = x') :
    Inv (after m f' origin) := by
  refine ⟨fun x hx y hy he => ?_, fun x hx => ?_⟩
  · simp only [after] at hx hy he
    cases ox : origin x with
    | none =>
      cases oy : origin y with
      | none => rw [ox, oy] at he; simpa using he
      | some b =>
        rw [ox, oy] at he
        have := h.old b (hp y hy b oy)
        simp only at he
        rw [← he] at this
        simp at this
    | some a =>
      cases oy : origin y with
      | none =>
        rw [ox, oy] at he
        have := h.old a (hp x hx a ox)
        simp only at he
        rw [he] at this
        simp at this
      | some b =>
        rw [ox, oy] at he
        have := h.inj a (hp x hx a ox) b (hp y hy b oy) he
        subst this
        exact hi x y a ox oy
  · simp only [after] at hx ⊢
    cases ox : origin x with
    | none => simp
    | some a => have := h.old a (hp x hx a ox); simp only; omega

/-! ## Insertion -/

theorem originInsert_inj (q : Path) (i : Nat) (mv cp : Bool) : ∀ x x' y, originInsert q i mv cp x = some y → originInsert q i mv cp x' = some y → x = x' := by
  have key : ∀ x y, originInsert q i mv cp x = some y →
      (strip q x.list = none ∧ y = x) ∨ (strip q x.list = some [] ∧ y = x) ∨ (∃ j r, strip q x.list = some (j :: r) ∧ j < i ∧ y = x) ∨
      (∃ j r, strip q x.list = some (j :: r) ∧ i < j ∧ y = ⟨q ++ (j - 1) :: r, x.idx⟩) := by
    intro x y h
    unfold originInsert at h
    cases hs : strip q x.list with
    | none => rw [hs] at h; simp only [Option.some.injEq] at h; exact .inl ⟨rfl, h.symm⟩
    | some s =>
      rw [hs] at h
      cases s with
      | nil =>
        simp only at h
        split at h
        · cases h
        · simp only [Option.some.injEq] at h; exact .inr (.inl ⟨rfl, h.symm⟩)
      | cons j r =>
        simp only at h
        split at h
        · cases h
        · rename_i hn
          split at h
          · rename_i hji; simp only [Option.some.injEq] at h; exact .inr (.inr (.inl ⟨j, r, rfl, hji, h.symm⟩))
          · rename_i hji
            simp only [Option.some.injEq] at h
            simp at hn
            exact .inr (.inr (.inr ⟨j, r, rfl, by omega, h.symm⟩))
  intro x x' y h h'
  have strip_y : ∀ j r (z : LIter), y = ⟨q ++ j :: r, z.idx⟩ → strip q y.list = some (j :: r) := by
    intro j r z e; rw [e]; exact strip_some.mpr rfl
  have canon4 : ∀ z, originInsert q i mv cp z = some y → y = z ∨ ∃ j r, z = ⟨q ++ j :: r, y.idx⟩ ∧ i < j ∧ strip q y.list = some ((j - 1) :: r) := by
    intro z hz
    rcases key z y hz with ⟨_, e⟩ | ⟨_, e⟩ | ⟨_, _, _, _, e⟩ | ⟨j, r, h1, h2, e⟩
    · exact .inl e
    · exact .inl e
    · exact .inl e
    · refine .inr ⟨j, r, ?_, h2, strip_y _ _ z e⟩
      have := strip_some.mp h1
      obtain ⟨zl, zi⟩ := z
      simp only at this
      rw [this, e]
  have low : ∀ z, originInsert q i mv cp z = some y → y = z → ∀ j r, strip q y.list = some (j :: r) → j < i := by
    intro z hz e j r hs
    rcases key z y hz with ⟨h1, _⟩ | ⟨h1, _⟩ | ⟨j', r', h1, h2, _⟩ | ⟨j', r', h1, h2, e'⟩
    · rw [← e, hs] at h1; cases h1
    · rw [← e, hs] at h1; cases h1
    · rw [← e, hs] at h1; cases h1; exact h2
    · rw [← e, hs] at h1
      cases h1
      have := strip_y _ _ z e'
      rw [hs] at this
      simp at this
      omega
  rcases canon4 x h with e | ⟨j, r, e, h1, h2⟩ <;> rcases canon4 x' h' with e' | ⟨j', r', e', h1', h2'⟩
  · rw [← e, ← e']
  · have := low x h e _ _ h2'; omega
  · have := low x' h' e' _ _ h2; omega
  · rw [h2] at h2'
    simp only [Option.some.injEq, List.cons.injEq] at h2'
    rw [e, e', show j = j' by omega, h2'.2]

theorem originInsert_place {f : List (Tree α)} {q : Path} {l : List (Tree α)} (hl : listAt f q = some l) {i : Nat} (hi : i ≤ l.length) (t : Tree α) (mv cp : Bool) :
    ∀ x ∈ places (modify (fun l => l.insertIdx i t) f q), ∀ y, originInsert q i mv cp x = some y → y ∈ places f := by
  intro x hx y h
  unfold originInsert at h
  cases hs : strip q x.list with
  | none =>
    rw [hs] at h
    simp only [Option.some.injEq] at h
    subst h
    exact (places_modify_other _ f q x hs).mp hx
  | some s =>
    rw [hs] at h
    have hxl := strip_some.mp hs
    rw [mem_places] at hx
    obtain ⟨L, hL, hk⟩ := hx
    rw [hxl, listAt_modify_below _ f q l hl] at hL
    cases s with
    | nil =>
      simp only at h
      split at h
      · cases h
      · rename_i hn
        simp only [Option.some.injEq] at h
        subst h
        simp at hn
        rw [List.append_nil] at hxl
        exact mem_places.mpr ⟨l, by rw [hxl]; exact hl, by omega⟩
    | cons j r =>
      simp only at h
      split at h
      · cases h
      · rename_i hn
        simp at hn
        simp only [listAt] at hL
        split at h
        · rename_i hji
          simp only [Option.some.injEq] at h
          subst h
          rw [List.getElem?_insertIdx_of_lt hji] at hL
          refine mem_places.mpr ⟨L, ?_, hk⟩
          rw [hxl, Trav.listAt_append, hl]
          exact hL
        · rename_i hji
          simp only [Option.some.injEq] at h
          subst h
          rw [List.getElem?_insertIdx_of_gt (by omega)] at hL
          refine mem_places.mpr ⟨L, ?_, hk⟩
          simp only
          rw [Trav.listAt_append, hl]
          exact hL

/-! ## Erasing -/

theorem originErase_inj (q : Path) (i : Nat) : ∀ x x' y, originErase q i x = some y → originErase q i x' = some y → x = x' := by
  have key : ∀ x y, originErase q i x = some y →
      (y = x ∧ ∀ j r, strip q y.list = some (j :: r) → j < i) ∨
      (∃ j r, x = ⟨q ++ j :: r, y.idx⟩ ∧ i ≤ j ∧ strip q y.list = some ((j + 1) :: r)) := by
    intro x y h
    unfold originErase at h
    cases hs : strip q x.list with
    | none => rw [hs] at h; simp only [Option.some.injEq] at h; subst h; exact .inl ⟨rfl, fun j r e => by rw [hs] at e; cases e⟩
    | some s =>
      rw [hs] at h
      cases s with
      | nil =>
        simp only at h
        split at h
        · cases h
        · simp only [Option.some.injEq] at h; subst h; exact .inl ⟨rfl, fun j r e => by rw [hs] at e; cases e⟩
      | cons j r =>
        simp only at h
        split at h
        · rename_i hji
          simp only [Option.some.injEq] at h; subst h
          exact .inl ⟨rfl, fun j' r' e => by rw [hs] at e; cases e; exact hji⟩
        · rename_i hji
          simp only [Option.some.injEq] at h
          subst h
          refine .inr ⟨j, r, ?_, by omega, strip_some.mpr rfl⟩
          have := strip_some.mp hs
          obtain ⟨xl, xi⟩ := x
          simp only at this
          rw [this]
  intro x x' y h h'
  rcases key x y h with ⟨e, low⟩ | ⟨j, r, e, h1, h2⟩ <;> rcases key x' y h' with ⟨e', low'⟩ | ⟨j', r', e', h1', h2'⟩
  · rw [← e, ← e']
  · have := low _ _ h2'; omega
  · have := low' _ _ h2; omega
  · rw [h2] at h2'
    simp only [Option.some.injEq, List.cons.injEq] at h2'
    rw [e, e', show j = j' by omega, h2'.2]

theorem originErase_place {f : List (Tree α)} {q : Path} {l : List (Tree α)} (hl : listAt f q = some l) {i : Nat} (hi : i < l.length) :
    ∀ x ∈ places (modify (fun l => l.eraseIdx i) f q), ∀ y, originErase q i x = some y → y ∈ places f := by
  intro x hx y h
  unfold originErase at h
  cases hs : strip q x.list with
  | none =>
    rw [hs] at h
    simp only [Option.some.injEq] at h
    subst h
    exact (places_modify_other _ f q x hs).mp hx
  | some s =>
    rw [hs] at h
    have hxl := strip_some.mp hs
    rw [mem_places] at hx
    obtain ⟨L, hL, hk⟩ := hx
    rw [hxl, listAt_modify_below _ f q l hl] at hL
    cases s with
    | nil =>
      simp only at h
      split at h
      · cases h
      · rename_i hn
        simp only [Option.some.injEq] at h
        subst h
        rw [List.append_nil] at hxl
        exact mem_places.mpr ⟨l, by rw [hxl]; exact hl, by omega⟩
    | cons j r =>
      simp only at h
      simp only [listAt] at hL
      split at h
      · rename_i hji
        simp only [Option.some.injEq] at h
        subst h
        rw [List.getElem?_eraseIdx_of_lt hji] at hL
        refine mem_places.mpr ⟨L, ?_, hk⟩
        rw [hxl, Trav.listAt_append, hl]
        exact hL
      · rename_i hji
        simp only [Option.some.injEq] at h
        subst h
        rw [List.getElem?_eraseIdx_of_ge (by omega)] at hL
        refine mem_places.mpr ⟨L, ?_, hk⟩
        simp only
        rw [Trav.listAt_append, hl]
        exact hL

/-! ## Iterators that stay -/

theorem mem_canonI {pre p : Path} {x : LIter} (h : x ∈ canonI pre p) : ∃ b, pre ++ p = x.list ++ x.idx :: b := by
  induction p generalizing pre with
  | nil => cases h
  | cons i p ih =>
    simp only [canonI, List.mem_cons] at h
    rcases h with rfl | h
    · exact ⟨p, rfl⟩
    · obtain ⟨b, hb⟩ := ih h; exact ⟨b, by rw [← hb]; simp⟩

theorem mem_canonL {pre p a : Path} (h : a ∈ canonL pre p) : ∃ k b, pre ++ p = a ++ k :: b := by
  induction p generalizing pre with
  | nil => cases h
  | cons i p ih =>
    simp only [canonL, List.mem_cons] at h
    rcases h with rfl | h
    · exact ⟨i, p, rfl⟩
    · obtain ⟨k, b, hb⟩ := ih h; exact ⟨k, b, by rw [← hb]; simp⟩

theorem ptr_congr {m m' : Mem α} {p : Path} (h : ∀ a k b, p = a ++ k :: b → m'.tok ⟨a, k⟩ = m.tok ⟨a, k⟩) : ptr m' p = ptr m p := by
  rcases List.eq_nil_or_concat p with rfl | ⟨a, k, rfl⟩
  · rfl
  · rw [List.concat_eq_append, ptr_snoc, ptr_snoc, h a k [] (by simp)]

theorem canonA_congr {m m' : Mem α} {p : Path} (h : ∀ a k b, p = a ++ k :: b → m'.tok ⟨a, k⟩ = m.tok ⟨a, k⟩) : canonA m' p = canonA m p := by
  unfold canonA
  congr 1
  · apply List.map_congr_left
    intro a ha
    obtain ⟨k, b, hb⟩ := mem_canonL ha
    rw [List.nil_append] at hb
    exact ptr_congr (fun a' k' b' e => h a' k' (b' ++ k :: b) (by rw [hb, e]; simp))
  · apply List.map_congr_left
    intro x hx
    obtain ⟨b, hb⟩ := mem_canonI hx
    rw [List.nil_append] at hb
    exact h x.list x.idx b hb

theorem originInsert_keep {q p : Path} {i : Nat} {mv cp : Bool} (h : ¬ Touched q i (mv || cp) p) : ∀ a k b, p = a ++ k :: b →
    originInsert q i mv cp ⟨a, k⟩ = some ⟨a, k⟩ := by
  intro a k b hp
  unfold originInsert
  cases hs : strip q a with
  | none => rfl
  | some s =>
    have ha := strip_some.mp hs
    subst ha
    cases s with
    | nil =>
      have : ¬ ((mv || cp) = true ∨ i ≤ k) := fun e => h ⟨k, b, by simpa using hp, e⟩
      have h1 : (mv || cp) = false := by cases hh : (mv || cp) with | false => rfl | true => exact absurd (.inl hh) this
      have h2 : ¬ i ≤ k := fun e => this (.inr e)
      simp only [h1, h2, decide_false, Bool.or_self, Bool.false_eq_true, if_false]
    | cons j r =>
      have : ¬ ((mv || cp) = true ∨ i ≤ j) := fun e => h ⟨j, r ++ k :: b, by simpa using hp, e⟩
      have h1 : cp = false := by cases cp with | false => rfl | true => exact absurd (.inl (by simp)) this
      have h2 : ¬ i ≤ j := fun e => this (.inr e)
      simp only [h1, Bool.or_false, show decide (j = i) = false by simp; omega, Bool.false_eq_true, if_false, show j < i by omega, if_true]

theorem originErase_keep {q p : Path} {i : Nat} (h : ¬ Touched q i false p) : ∀ a k b, p = a ++ k :: b → originErase q i ⟨a, k⟩ = some ⟨a, k⟩ := by
  intro a k b hp
  unfold originErase
  cases hs : strip q a with
  | none => rfl
  | some s =>
    have ha := strip_some.mp hs
    subst ha
    cases s with
    | nil =>
      have : ¬ i ≤ k := fun e => h ⟨k, b, by simpa using hp, .inr e⟩
      simp only [this, if_false]
    | cons j r =>
      have : ¬ i ≤ j := fun e => h ⟨j, r ++ k :: b, by simpa using hp, .inr e⟩
      simp only [show j < i by omega, if_true]

theorem not_touched_self (q : Path) (i : Nat) (all : Bool) : ¬ Touched q i all q := by
  rintro ⟨k, r, h, _⟩
  have := congrArg List.length h
  simp at this

theorem after_tok {m : Mem α} {f' : List (Tree α)} {origin : LIter → Option LIter} {x : LIter} (h : origin x = some x) : (after m f' origin).tok x = m.tok x := by
  simp [after, h]

theorem insert_eq {m : Mem α} (h : Inv m) (mv cp : Bool) {q : Path} {l : List (Tree α)} (hl : listAt m.forest q = some l) {i : Nat} (hi : i ≤ l.length) (t : Tree α) :
    let m' := after m (modify (fun l => l.insertIdx i t) m.forest q) (originInsert q i mv cp)
    insert mv cp m (canonA m (q ++ [i])) t = .ok (m', canonA m' (q ++ [i])) ∧ Inv m' := by
  intro m'
  have keep : ∀ a k b, q = a ++ k :: b → m'.tok ⟨a, k⟩ = m.tok ⟨a, k⟩ :=
    fun a k b e => after_tok (originInsert_keep (not_touched_self q i _) a k b e)
  have h1 : canonA m' q = canonA m q := canonA_congr keep
  have h2 : ptr m' q = ptr m q := ptr_congr keep
  have h3 := (AIter.mk.injEq .. ▸ h1 : _ ∧ _)
  refine ⟨?_, inv_after h (originInsert_place hl hi t mv cp) (originInsert_inj q i mv cp)⟩
  rw [canonA_snoc, canonA_snoc, h3.1, h3.2, h2]
  simp only [insert, listInsert, back_snoc, Res.bind_eq, Res.ok_bind, listOf_ok h hl, locA h hl hi, Trav.listInsert, Trav.getList_ok hl, hi, and_self, if_true, Res.pure_eq, setBack_snoc]
  rfl

theorem insert_after_eq {m : Mem α} (h : Inv m) (mv cp : Bool) {q : Path} {l : List (Tree α)} (hl : listAt m.forest q = some l) {i : Nat} (hi : i + 1 ≤ l.length) (t : Tree α) :
    let m' := after m (modify (fun l => l.insertIdx (i + 1) t) m.forest q) (originInsert q (i + 1) mv cp)
    insert_after mv cp m (canonA m (q ++ [i])) t = .ok (m', canonA m' (q ++ [i + 1])) ∧ Inv m' := by
  intro m'
  have keep : ∀ a k b, q = a ++ k :: b → m'.tok ⟨a, k⟩ = m.tok ⟨a, k⟩ :=
    fun a k b e => after_tok (originInsert_keep (not_touched_self q (i + 1) _) a k b e)
  have h1 : canonA m' q = canonA m q := canonA_congr keep
  have h2 : ptr m' q = ptr m q := ptr_congr keep
  have h3 := (AIter.mk.injEq .. ▸ h1 : _ ∧ _)
  refine ⟨?_, inv_after h (originInsert_place hl hi t mv cp) (originInsert_inj q (i + 1) mv cp)⟩
  rw [canonA_snoc, canonA_snoc, h3.1, h3.2, h2]
  simp only [insert_after, listInsert, back_snoc, Res.bind_eq, Res.ok_bind, listOf_ok h hl, advA h hl hi, locA h hl hi, Trav.listInsert, Trav.getList_ok hl, hi, and_self, if_true, Res.pure_eq,
    setBack_snoc]
  rfl

theorem erase_eq (dbg : Bool) {m : Mem α} (h : Inv m) {q : Path} {l : List (Tree α)} (hl : listAt m.forest q = some l) {i : Nat} (hi : i < l.length) {r : Path}
    (hr : Climb (modify (fun l => l.eraseIdx i) m.forest q) (q ++ [i]) r) :
    let m' := after m (modify (fun l => l.eraseIdx i) m.forest q) (originErase q i)
    erase dbg m (canonA m (q ++ [i])) = .ok (m', canonA m' r) ∧ Inv m' := by
  intro m'
  have keep : ∀ a k b, q = a ++ k :: b → m'.tok ⟨a, k⟩ = m.tok ⟨a, k⟩ :=
    fun a k b e => after_tok (originErase_keep (not_touched_self q i _) a k b e)
  have h1 : canonA m' q = canonA m q := canonA_congr keep
  have h2 : ptr m' q = ptr m q := ptr_congr keep
  have h3 := (AIter.mk.injEq .. ▸ h1 : _ ∧ _)
  have hinv : Inv m' := inv_after h (originErase_place hl hi) (originErase_inj q i)
  refine ⟨?_, hinv⟩
  have hloop := eraseLoop_eq dbg hinv hr (q.length + 1 + 1) (by simp)
  rw [canonA_snoc, h3.1, h3.2, h2] at hloop
  rw [canonA_snoc]
  simp only [erase, listErase, back_snoc, Res.bind_eq, Res.ok_bind, listOf_ok h hl, locA h hl (Nat.le_of_lt hi), Trav.listErase, Trav.getList_ok hl, hi, and_self, if_true, Res.pure_eq,
    setBack_snoc, List.length_append, List.length_map, canonI_length, List.length_singleton]
  have : eraseLoop dbg m' (q.length + 1 + 1) ⟨(canonL [] q).map (ptr m) ++ [ptr m q], (canonI [] q).map m.tok ++ [m'.tok ⟨q, i⟩]⟩ = .ok (canonA m' r) := hloop
  exact (congrArg (fun z => Res.bind z fun x => .ok (m', x)) this)

end Utki.TreeAddr
