import Verif.Model.String
import Verif.Spec.Strings
/-! # Lemmas about the string utilities -/
namespace Utki

section
variable {α : Type} [DecidableEq α]

/-- The fields of a string, recursively. -/
def fields (d : α) : List α → List (List α)
  | [] => [[]]
  | c :: r => if c = d then [] :: fields d r else
    match fields d r with
    | f :: fs => (c :: f) :: fs
    | [] => [[c]]

theorem fields_ne_nil (d : α) (s : List α) : fields d s ≠ [] := by
  cases s with
  | nil => simp [fields]
  | cons c r => simp only [fields]; split; · simp
                split <;> simp

theorem fields_of_not_mem (d : α) (s : List α) (h : d ∉ s) : fields d s = [s] := by
  induction s with
  | nil => rfl
  | cons c r ih =>
    simp only [List.mem_cons, not_or] at h
    simp only [fields, ih h.2]
    rw [if_neg (fun e => h.1 e.symm)]

theorem fields_append (d : α) (u v : List α) (h : d ∉ u) : fields d (u ++ d :: v) = u :: fields d v := by
  induction u with
  | nil => simp [fields]
  | cons c r ih =>
    simp only [List.mem_cons, not_or] at h
    simp only [List.cons_append, fields, ih h.2]
    rw [if_neg (fun e => h.1 e.symm)]

theorem findIdx?_none_not_mem {d : α} {s : List α} (h : s.findIdx? (· == d) = none) : d ∉ s := by
  rw [List.findIdx?_eq_none_iff] at h
  intro hd
  simpa using h d hd

theorem findIdx?_some_split {d : α} {s : List α} {k : Nat} (h : s.findIdx? (· == d) = some k) :
    k < s.length ∧ s = s.take k ++ d :: s.drop (k + 1) ∧ d ∉ s.take k := by
  rw [List.findIdx?_eq_some_iff_getElem] at h
  obtain ⟨hk, h1, h2⟩ := h
  refine ⟨hk, ?_, ?_⟩
  · have : s[k] = d := by simpa using h1
    rw [← this, List.getElem_cons_drop, List.take_append_drop]
  · intro hm
    obtain ⟨j, hj, he⟩ := List.mem_take_iff_getElem.mp hm
    have := h2 j (by omega)
    simp [he] at this

theorem splitLoop_eq (s : List α) (d : α) : ∀ (fuel pos : Nat) (ret : List (List α)), pos ≤ s.length →
    (s.drop pos).length < fuel → splitLoop s d fuel pos ret = .ok (ret ++ fields d (s.drop pos)) := by
  intro fuel
  induction fuel with
  | zero => intro pos ret _ h; omega
  | succ fuel ih =>
    intro pos ret hp hf
    unfold splitLoop
    cases hfi : (s.drop pos).findIdx? (· == d) with
    | none =>
      have : findChar s d pos = none := by simp [findChar, hfi]
      rw [this]
      simp only [substr, if_neg (show ¬ s.length < pos by omega), Res.bind_eq, Res.ok_bind, Res.pure_eq]
      rw [fields_of_not_mem d _ (findIdx?_none_not_mem hfi), List.take_of_length_le (by simp)]
    | some k =>
      have : findChar s d pos = some (k + pos) := by simp [findChar, hfi]
      rw [this]
      obtain ⟨h1, h2, h3⟩ := findIdx?_some_split hfi
      have hlen : (s.drop pos).length = s.length - pos := by simp
      simp only [substr, if_neg (show ¬ s.length < pos by omega), Res.bind_eq, Res.ok_bind]
      rw [ih (k + pos + 1) _ (by omega) (by simp; omega)]
      congr 1
      rw [Nat.add_sub_cancel, List.append_assoc]
      congr 1
      conv => rhs; rw [h2]
      rw [fields_append d _ _ h3, List.drop_drop]
      simp; congr 2; omega

theorem split_eq (s : List α) (d : α) : split s d = .ok (fields d s) := by
  unfold split
  rw [splitLoop_eq s d _ 0 [] (by omega) (by simp)]
  simp

omit [DecidableEq α] in
theorem joinLoop_eq (d : α) : ∀ (l : List (List α)) (ss : List α), joinLoop d l ss = ss ++ l.flatMap (fun s => d :: s) := by
  intro l
  induction l with
  | nil => intro ss; simp [joinLoop]
  | cons s l ih => intro ss; simp [joinLoop, ih]

omit [DecidableEq α] in
theorem join_cons_cons (d : α) (a b : List α) (l : List (List α)) : join (a :: b :: l) d = a ++ d :: join (b :: l) d := by
  simp [join, joinLoop_eq]

theorem join_fields (d : α) (s : List α) : join (fields d s) d = s := by
  induction s with
  | nil => rfl
  | cons c r ih =>
    simp only [fields]
    split
    · next h =>
      subst h
      cases hf : fields c r with
      | nil => exact absurd hf (fields_ne_nil c r)
      | cons f fs => rw [join_cons_cons, ← hf, ih]; rfl
    · cases hf : fields d r with
      | nil => exact absurd hf (fields_ne_nil d r)
      | cons f fs =>
        simp only
        rw [hf] at ih
        simp only [join, joinLoop_eq] at ih ⊢
        rw [List.cons_append, ih]

theorem length_fields (d : α) (s : List α) : (fields d s).length = s.count d + 1 := by
  induction s with
  | nil => rfl
  | cons c r ih =>
    simp only [fields]
    split
    · next h => subst h; simp [ih]
    · next h =>
      cases hf : fields d r with
      | nil => exact absurd hf (fields_ne_nil d r)
      | cons f fs =>
        rw [hf] at ih
        simp only [List.length_cons] at ih ⊢
        rw [List.count_cons_of_ne h]; omega

theorem not_mem_fields (d : α) (s : List α) : ∀ f ∈ fields d s, d ∉ f := by
  induction s with
  | nil => simp [fields]
  | cons c r ih =>
    simp only [fields]
    split
    · intro f hf; simp at hf; rcases hf with h | h
      · subst h; simp
      · exact ih f h
    · next h =>
      cases hf : fields d r with
      | nil => exact absurd hf (fields_ne_nil d r)
      | cons g gs =>
        rw [hf] at ih
        intro f hfm
        simp only [List.mem_cons] at hfm
        rcases hfm with h' | h'
        · subst h'
          have := ih g (by simp)
          simp [this]; exact fun e => h e.symm
        · exact ih f (by simp [h'])

theorem fields_join (d : α) : ∀ (l : List (List α)), l ≠ [] → (∀ f ∈ l, d ∉ f) → fields d (join l d) = l := by
  intro l
  induction l with
  | nil => intro h; exact absurd rfl h
  | cons a l ih =>
    intro _ h
    cases l with
    | nil => simp only [join, joinLoop]; exact fields_of_not_mem d a (h a (by simp))
    | cons b l =>
      rw [join_cons_cons, fields_append d _ _ (h a (by simp)), ih (by simp) (fun f hf => h f (by simp [hf]))]

theorem findStr_some_zero (s t : List α) : findStr s t = some 0 ↔ t <+: s := by
  unfold findStr
  by_cases h : t.isPrefixOf s = true
  · rw [if_pos h]; simp [List.isPrefixOf_iff_prefix.mp h]
  · rw [if_neg h]
    have : ¬ t <+: s := fun hp => h (List.isPrefixOf_iff_prefix.mpr hp)
    simp only [this, iff_false]
    cases s with
    | nil => simp
    | cons c s => simp only [Option.map_eq_some_iff]; rintro ⟨a, _, h⟩; omega

theorem findStr_some (t : List α) : ∀ (s : List α) (k : Nat), findStr s t = some k ↔
    (t <+: s.drop k ∧ k ≤ s.length ∧ ∀ i < k, ¬ t <+: s.drop i) := by
  intro s
  induction s with
  | nil =>
    intro k
    unfold findStr
    by_cases h : t.isPrefixOf ([] : List α) = true
    · rw [if_pos h]
      have hp := List.isPrefixOf_iff_prefix.mp h
      constructor
      · intro h; cases h; simp [hp]
      · rintro ⟨_, h2, _⟩; simp at h2; simp [h2]
    · rw [if_neg h]
      have hp : ¬ t <+: [] := fun hp => h (List.isPrefixOf_iff_prefix.mpr hp)
      constructor
      · intro h; cases h
      · rintro ⟨h1, h2, _⟩; simp at h1; simp [h1] at hp
  | cons c s ih =>
    intro k
    unfold findStr
    by_cases h : t.isPrefixOf (c :: s) = true
    · rw [if_pos h]
      have hp := List.isPrefixOf_iff_prefix.mp h
      constructor
      · intro h; cases h; simp [hp]
      · rintro ⟨_, _, h3⟩
        cases k with
        | zero => rfl
        | succ k => exact absurd hp (h3 0 (by omega))
    · rw [if_neg h]
      have hp : ¬ t <+: (c :: s) := fun hp => h (List.isPrefixOf_iff_prefix.mpr hp)
      simp only [Option.map_eq_some_iff]
      constructor
      · rintro ⟨j, h1, rfl⟩
        obtain ⟨h2, h3, h4⟩ := (ih j).mp h1
        refine ⟨by simpa using h2, by simp; omega, ?_⟩
        intro i hi
        cases i with
        | zero => simpa using hp
        | succ i => simpa using h4 i (by omega)
      · rintro ⟨h1, h2, h3⟩
        cases k with
        | zero => exact absurd (by simpa using h1) hp
        | succ k =>
          refine ⟨k, (ih k).mpr ⟨by simpa using h1, by simp at h2; omega, ?_⟩, rfl⟩
          intro i hi
          simpa using h3 (i + 1) (by omega)

end

/-! ## Words -/
open Spec

/-- Space in the "C" locale, on bytes. -/
def IsSpace (c : Byte) : Prop := c = 0x20 ∨ (0x09 ≤ c ∧ c ≤ 0x0d)

instance : DecidablePred IsSpace := fun c => by unfold IsSpace; infer_instance

theorem words_word_nil {sp : Byte → Prop} (gap w : List Byte) (hg : ∀ c ∈ gap, sp c) (hw : w ≠ []) (hws : ∀ c ∈ w, ¬ sp c) :
    Words sp (gap ++ w) [w] := by
  have := Words.word gap w [] [] hg hw hws (by simp) (.none [] (by simp))
  simpa using this

/-- Appending to the text when the words so far are complete. -/
theorem Spec.Words.append_word {sp : Byte → Prop} {s : List Byte} {ws : List (List Byte)} (h : Words sp s ws) (gap w : List Byte)
    (hg : ∀ c ∈ gap, sp c) (hw : w ≠ []) (hws : ∀ c ∈ w, ¬ sp c) (hsep : gap ≠ [] ∨ ∀ c, s.getLast? = some c → sp c) :
    Words sp (s ++ gap ++ w) (ws ++ [w]) := by
  induction h with
  | none s hs =>
    have := words_word_nil (s ++ gap) w (by intro c hc; rcases List.mem_append.mp hc with h | h; exact hs c h; exact hg c h) hw hws
    simpa using this
  | word g v rest ws' hg' hv hvs hr hrest ih =>
    have hsep' : gap ≠ [] ∨ ∀ c, rest.getLast? = some c → sp c := by
      rcases hsep with h | h
      · exact .inl h
      · right; intro c hc; apply h; rw [List.getLast?_append]; simp [hc]
    have := ih hsep'
    have e : g ++ v ++ rest ++ gap ++ w = g ++ v ++ (rest ++ gap ++ w) := by simp
    rw [e]
    refine Words.word g v _ (ws' ++ [w]) hg' hv hvs ?_ this
    intro c hc
    cases rest with
    | cons r rs => simp at hc; subst hc; exact hr r rfl
    | nil =>
      cases gap with
      | cons x xs => simp at hc; subst hc; exact hg x (by simp)
      | nil =>
        exfalso
        rcases hsep with h | h
        · exact h rfl
        · obtain ⟨x, hx⟩ : ∃ x, (g ++ v).getLast? = some x ∧ x ∈ v := by
            have hne : v.getLast? ≠ Option.none := by simpa using hv
            cases hl : v.getLast? with
            | none => exact absurd hl hne
            | some x => exact ⟨x, by simp [List.getLast?_append, hl], List.mem_of_getLast? hl⟩
          exact hvs x hx.2 (h x (by simpa using hx.1))

theorem Spec.Words.append_space {sp : Byte → Prop} {s : List Byte} {ws : List (List Byte)} (h : Words sp s ws) (gap : List Byte)
    (hg : ∀ c ∈ gap, sp c) : Words sp (s ++ gap) ws := by
  induction h with
  | none s hs => exact .none _ (by intro c hc; rcases List.mem_append.mp hc with h | h; exact hs c h; exact hg c h)
  | word g v rest ws' hg' hv hvs hr hrest ih =>
    have e : g ++ v ++ rest ++ gap = g ++ v ++ (rest ++ gap) := by simp
    rw [e]
    refine Words.word g v _ ws' hg' hv hvs ?_ ih
    intro c hc
    cases rest with
    | cons r rs => simp at hc; subst hc; exact hr r rfl
    | nil =>
      cases gap with
      | cons x xs => simp at hc; subst hc; exact hg x (by simp)
      | nil => simp at hc

theorem isspace_ok {sgn : Bool} {c : Byte} (h : sgn = true → c.toNat < 128 ∨ c = 0xff) :
    isspace sgn c = .ok (decide (IsSpace c)) := by
  have hff : ¬ IsSpace (0xff : Byte) := by decide
  unfold isspace
  cases sgn with
  | false => exact congrArg Res.ok (decide_eq_decide.mpr Iff.rfl)
  | true =>
    rcases h rfl with h | h
    · have : c.msb = false := by rw [BitVec.msb_eq_decide]; simp; omega
      simp only [this, Bool.and_false, Bool.false_eq_true, if_false]
      exact congrArg Res.ok (decide_eq_decide.mpr Iff.rfl)
    · subst h; decide

/-- Invariant of the loop: `done` is the part of the text whose words are in `ret`, followed by the current word `buf`. -/
theorem splitWsLoop_words (sgn : Bool) : ∀ (s : List Byte) (ret : List (List Byte)) (buf done : List Byte),
    (∀ c ∈ s, sgn = true → c.toNat < 128 ∨ c = 0xff) →
    Words IsSpace done ret → (∀ c, done.getLast? = some c → IsSpace c) → (∀ c ∈ buf, ¬ IsSpace c) →
    ∃ ret' buf', splitWsLoop sgn s ret buf = .ok (ret', buf') ∧ (∀ c ∈ buf', ¬ IsSpace c) ∧
      ∃ done', done ++ buf ++ s = done' ++ buf' ∧ Words IsSpace done' ret' ∧ (∀ c, done'.getLast? = some c → IsSpace c) := by
  intro s
  induction s with
  | nil =>
    intro ret buf done _ hd hl hb
    exact ⟨ret, buf, rfl, hb, done, by simp, hd, hl⟩
  | cons c s ih =>
    intro ret buf done hs hd hl hb
    simp only [splitWsLoop, isspace_ok (hs c (by simp)), Res.bind_eq, Res.ok_bind]
    by_cases hc : IsSpace c
    · simp only [hc, decide_true, if_true]
      by_cases hbe : buf = []
      · subst hbe
        simp only [addStr, List.isEmpty_nil, if_true]
        have := ih ret [] (done ++ [c]) (fun x hx => hs x (by simp [hx])) (hd.append_space [c] (by simpa using hc))
          (by intro x hx; simp at hx; subst hx; exact hc) (by simp)
        simpa using this
      · have hemp : buf.isEmpty = false := by simpa using hbe
        simp only [addStr, hemp, Bool.false_eq_true, if_false]
        have hw := (hd.append_word [] buf (by simp) hbe hb (.inr hl)).append_space [c] (by simpa using hc)
        have := ih (ret ++ [buf]) [] (done ++ [] ++ buf ++ [c]) (fun x hx => hs x (by simp [hx])) hw
          (by intro x hx; simp at hx; subst hx; exact hc) (by simp)
        simpa using this
    · simp only [hc, decide_false, Bool.false_eq_true, if_false]
      have := ih ret (buf ++ [c]) done (fun x hx => hs x (by simp [hx])) hd hl
        (by intro x hx; rcases List.mem_append.mp hx with h | h
            · exact hb x h
            · simp at h; subst h; exact hc)
      simpa using this

end Utki
