import Verif.Spec.VirtualBases
/-! # C138: deleting objects with virtual bases -/
namespace Utki
open VirtualBases Spec

/-! ## Which virtual bases a class has -/

mutual
theorem shared_iff (c v : VClass) : v ∈ c.shared ↔ ∃ i sh b, c.bases.at i = some (sh, b) ∧ (v ∈ b.shared ∨ (sh = true ∧ v = b)) := by
  match c with
  | .mk n d m bs => rw [VClass.shared, sharedL_iff bs v]; rfl
theorem sharedL_iff (bs : VBases) (v : VClass) : v ∈ bs.shared ↔ ∃ i sh b, bs.at i = some (sh, b) ∧ (v ∈ b.shared ∨ (sh = true ∧ v = b)) := by
  match bs with
  | .nil => simp [VBases.shared, VBases.at]
  | .cons s b rest =>
    rw [VBases.shared]
    simp only [List.mem_append]
    rw [sharedL_iff rest v]
    constructor
    · rintro ((h | h) | ⟨i, sh, b', h1, h2⟩)
      · exact ⟨0, s, b, rfl, .inl h⟩
      · cases s
        · simp at h
        · exact ⟨0, true, b, rfl, .inr ⟨rfl, by simpa using h⟩⟩
      · exact ⟨i + 1, sh, b', h1, h2⟩
    · rintro ⟨i, sh, b', h1, h2⟩
      cases i with
      | zero =>
        simp only [VBases.at, Option.some.injEq, Prod.mk.injEq] at h1
        obtain ⟨rfl, rfl⟩ := h1
        rcases h2 with h2 | ⟨rfl, rfl⟩
        · exact .inl (.inl h2)
        · exact .inl (.inr (by simp))
      | succ i => exact .inr ⟨i, sh, b', h1, h2⟩
end

theorem at_size {bs : VBases} {i : Nat} {sh : Bool} {b : VClass} (h : bs.at i = some (sh, b)) : sizeOf b < sizeOf bs := by
  match bs, i with
  | .nil, _ => simp [VBases.at] at h
  | .cons s c rest, 0 =>
    simp only [VBases.at, Option.some.injEq, Prod.mk.injEq] at h
    rw [← h.2]; simp; omega
  | .cons s c rest, i + 1 =>
    have := at_size (bs := rest) h
    simp; omega

theorem base_size {c b : VClass} {i : Nat} {sh : Bool} (h : c.bases.at i = some (sh, b)) : sizeOf b < sizeOf c := by
  obtain ⟨n, d, m, bs⟩ := c
  have := at_size (bs := bs) h
  simp; omega

theorem shared_size (k : Nat) : ∀ c v : VClass, sizeOf c < k → v ∈ c.shared → sizeOf v < sizeOf c := by
  induction k with
  | zero => intro c v h; omega
  | succ k ih =>
    intro c v hk hv
    obtain ⟨i, sh, b, h1, h2⟩ := (shared_iff c v).mp hv
    have := base_size h1
    rcases h2 with h2 | ⟨-, rfl⟩
    · have := ih b v (by omega) h2; omega
    · exact this

theorem not_shared_self (v : VClass) : v ∉ v.shared := fun h => Nat.lt_irrefl _ (shared_size _ v v (Nat.lt_succ_self _) h)

theorem shared_trans (k : Nat) : ∀ c v w : VClass, sizeOf c < k → v ∈ c.shared → w ∈ v.shared → w ∈ c.shared := by
  induction k with
  | zero => intro c v w h; omega
  | succ k ih =>
    intro c v w hk hv hw
    obtain ⟨i, sh, b, h1, h2⟩ := (shared_iff c v).mp hv
    have := base_size h1
    refine (shared_iff c w).mpr ⟨i, sh, b, h1, .inl ?_⟩
    rcases h2 with h2 | ⟨-, rfl⟩
    · exact ih b v w (by omega) h2 hw
    · exact hw

theorem below_append (p q : List Nat) : ∀ c : VClass, c.reach (p ++ q) = (c.reach p).bind (fun d => d.reach q) := by
  induction p with
  | nil => intro c; simp [VClass.reach]
  | cons i p ih =>
    intro c
    simp only [List.cons_append, VClass.reach]
    split
    · exact ih _
    · simp

theorem below_one {d b : VClass} {i : Nat} (h : d.bases.at i = some (false, b)) : d.reach [i] = some b := by simp [VClass.reach, h]

/-- The virtual bases of a subobject are virtual bases of the object. -/
theorem below_shared {c : VClass} (p : List Nat) : ∀ {d v : VClass}, c.reach p = some d → v ∈ d.shared → v ∈ c.shared := by
  induction p generalizing c with
  | nil => intro d v h hv; simp only [VClass.reach, Option.some.injEq] at h; subst h; exact hv
  | cons i p ih =>
    intro d v h hv
    rw [VClass.reach] at h
    split at h
    · rename_i b hb
      exact (shared_iff c v).mpr ⟨i, false, b, hb, .inl (ih h hv)⟩
    · cases h

theorem base_shared {d b : VClass} {i : Nat} (h : d.bases.at i = some (true, b)) : b ∈ d.shared := (shared_iff d b).mpr ⟨i, true, b, h, .inr ⟨rfl, rfl⟩⟩

/-- Subobjects are reached from the whole object or from a virtual base. -/
theorem subOf_iff (c : VClass) (s : Sub) (d : VClass) :
    SubOf c s d ↔ (s.origin = none ∧ c.reach s.path = some d) ∨ ∃ v ∈ c.shared, s.origin = some v.name ∧ v.reach s.path = some d := by
  constructor
  · intro h
    induction h with
    | whole => exact .inl ⟨rfl, rfl⟩
    | @base s d b i _ hb ih =>
      rcases ih with ⟨h1, h2⟩ | ⟨v, hv, h1, h2⟩
      · exact .inl ⟨h1, by simp only; rw [below_append, h2]; exact below_one hb⟩
      · exact .inr ⟨v, hv, h1, by simp only; rw [below_append, h2]; exact below_one hb⟩
    | @shared s d b i _ hb ih =>
      refine .inr ⟨b, ?_, rfl, rfl⟩
      rcases ih with ⟨h1, h2⟩ | ⟨v, hv, h1, h2⟩
      · exact below_shared s.path h2 (base_shared hb)
      · exact shared_trans _ c v b (Nat.lt_succ_self _) hv (below_shared s.path h2 (base_shared hb))
  · have go : ∀ (q : List Nat) (s : Sub) (x y : VClass), SubOf c s x → x.reach q = some y → SubOf c ⟨s.origin, s.path ++ q⟩ y := by
      intro q
      induction q with
      | nil => intro s x y hs h; simp only [VClass.reach, Option.some.injEq] at h; subst h; simpa using hs
      | cons i q ih =>
        intro s x y hs h
        rw [VClass.reach] at h
        split at h
        · rename_i b hb
          have := ih _ b y (SubOf.base hs hb) h
          simpa using this
        · cases h
    have sh : ∀ (k : Nat) (s : Sub) (x v : VClass), sizeOf x < k → SubOf c s x → v ∈ x.shared → SubOf c ⟨some v.name, []⟩ v := by
      intro k
      induction k with
      | zero => intro s x v h; omega
      | succ k ih =>
        intro s x v hk hs hv
        obtain ⟨i, f, b, h1, h2⟩ := (shared_iff x v).mp hv
        have := base_size h1
        have hb : ∃ s', SubOf c s' b := by
          cases f with
          | false => exact ⟨_, SubOf.base hs h1⟩
          | true => exact ⟨_, SubOf.shared hs h1⟩
        rcases h2 with h2 | ⟨rfl, rfl⟩
        · obtain ⟨s', hs'⟩ := hb
          exact ih s' b v (by omega) hs' h2
        · exact SubOf.shared hs h1
    rintro (⟨h1, h2⟩ | ⟨v, hv, h1, h2⟩)
    · have := go s.path ⟨none, []⟩ c d .whole h2
      simp only [List.nil_append] at this
      rw [← h1] at this; exact this
    · have := go s.path ⟨some v.name, []⟩ v d (sh _ _ c v (Nat.lt_succ_self _) .whole hv) h2
      simp only [List.nil_append] at this
      rw [← h1] at this; exact this

/-! ## The first of each name -/

theorem firsts_mem {l : List VClass} : ∀ {seen : List Nat} {v : VClass}, v ∈ firsts seen l → v ∈ l ∧ v.name ∉ seen := by
  induction l with
  | nil => intro seen v h; simp [firsts] at h
  | cons c cs ih =>
    intro seen v h
    rw [firsts] at h
    split at h
    · obtain ⟨h1, h2⟩ := ih h; exact ⟨by simp [h1], h2⟩
    · rename_i hc
      rcases List.mem_cons.mp h with rfl | h
      · exact ⟨by simp, hc⟩
      · obtain ⟨h1, h2⟩ := ih h
        exact ⟨by simp [h1], fun hv => h2 (by simp [hv])⟩

theorem firsts_name {l : List VClass} : ∀ {seen : List Nat} {v : VClass}, v ∈ l → v.name ∉ seen → ∃ w ∈ firsts seen l, w.name = v.name := by
  induction l with
  | nil => intro seen v h; simp at h
  | cons c cs ih =>
    intro seen v h hn
    rw [firsts]
    by_cases hc : c.name ∈ seen
    · rw [if_pos hc]
      rcases List.mem_cons.mp h with hv | h
      · exact absurd (hv ▸ hc) hn
      · exact ih h hn
    · rw [if_neg hc]
      by_cases he : v.name = c.name
      · exact ⟨c, by simp, he.symm⟩
      · rcases List.mem_cons.mp h with hv | h
        · exact absurd (by rw [hv]) he
        · obtain ⟨w, h1, h2⟩ := ih (seen := c.name :: seen) h (by simp [he, hn])
          exact ⟨w, by simp [h1], h2⟩

theorem firsts_names (l : List VClass) : ∀ seen : List Nat, (firsts seen l).Pairwise (fun v w => v.name ≠ w.name) := by
  induction l with
  | nil => intro seen; simp [firsts]
  | cons c cs ih =>
    intro seen
    rw [firsts]
    split
    · exact ih seen
    · rw [List.pairwise_cons]
      exact ⟨fun w hw he => (firsts_mem hw).2 (by simp [he]), ih _⟩

/-- In the list each class comes after its virtual bases, those seen counted. -/
def Ready : List Nat → List VClass → Prop
  | _, [] => True
  | seen, v :: l => (∀ w ∈ v.shared, w.name ∈ seen) ∧ Ready (v.name :: seen) l

theorem ready_mono {l : List VClass} : ∀ {a b : List Nat}, (∀ x ∈ a, x ∈ b) → Ready a l → Ready b l := by
  induction l with
  | nil => intros; trivial
  | cons v l ih =>
    intro a b hab h
    exact ⟨fun w hw => hab _ (h.1 w hw), ih (by intro x hx; rcases List.mem_cons.mp hx with rfl | hx; simp; simp [hab x hx]) h.2⟩

theorem ready_append {l m : List VClass} : ∀ {seen : List Nat}, Ready seen l → Ready (l.map VClass.name ++ seen) m → Ready seen (l ++ m) := by
  induction l with
  | nil => intro seen _ h; exact h
  | cons v l ih =>
    intro seen h1 h2
    refine ⟨h1.1, ih h1.2 (ready_mono ?_ h2)⟩
    intro x hx
    simp only [List.map_cons, List.cons_append, List.mem_cons, List.mem_append] at hx ⊢
    grind

mutual
theorem shared_ready (c : VClass) (seen : List Nat) : Ready seen c.shared := by
  match c with
  | .mk n d m bs => exact sharedL_ready bs seen
theorem sharedL_ready (bs : VBases) (seen : List Nat) : Ready seen bs.shared := by
  match bs with
  | .nil => trivial
  | .cons s b rest =>
    rw [VBases.shared]
    refine ready_append (ready_append (shared_ready b seen) ?_) (sharedL_ready rest _)
    cases s with
    | false => trivial
    | true => exact ⟨fun w hw => List.mem_append_left _ (List.mem_map_of_mem hw), trivial⟩
end

theorem firsts_order (l : List VClass) : ∀ seen : List Nat, Ready seen l → (firsts seen l).Pairwise (fun v w => ∀ x ∈ v.shared, x.name ≠ w.name) := by
  induction l with
  | nil => intro seen _; simp [firsts]
  | cons c cs ih =>
    intro seen h
    rw [firsts]
    by_cases hc : c.name ∈ seen
    · rw [if_pos hc]
      exact ih seen (ready_mono (by intro x hx; rcases List.mem_cons.mp hx with rfl | hx; exact hc; exact hx) h.2)
    · rw [if_neg hc, List.pairwise_cons]
      exact ⟨fun w hw x hx he => (firsts_mem hw).2 (by rw [← he]; simp [h.1 x hx]), ih _ h.2⟩

theorem shared_first {c v : VClass} (hw : WellNamed c) (hv : v ∈ c.shared) : v ∈ firsts [] c.shared := by
  obtain ⟨w, h1, h2⟩ := firsts_name (seen := []) hv (by simp)
  have hw' := (firsts_mem h1).1
  have e : w = v := hw _ _ _ _ ((subOf_iff c ⟨some w.name, []⟩ w).mpr (.inr ⟨w, hw', rfl, rfl⟩)) ((subOf_iff c ⟨some v.name, []⟩ v).mpr (.inr ⟨v, hv, rfl, rfl⟩)) h2
  exact e ▸ h1

/-! ## The events -/

mutual
theorem part_mem (c : VClass) (s : Sub) (e : VEvent) : e ∈ c.destroyPart s ↔
    ∃ q d, c.reach q = some d ∧ (e = .body ⟨s.origin, s.path ++ q⟩ ∨ ∃ k < d.members, e = .member ⟨s.origin, s.path ++ q⟩ k) := by
  match c with
  | .mk n v m bs =>
    rw [VClass.destroyPart]
    simp only [List.mem_cons, List.mem_append, List.mem_map, List.mem_reverse, List.mem_range]
    rw [partL_mem bs s 0 e]
    constructor
    · rintro (rfl | ⟨k, hk, rfl⟩ | ⟨i, b, q, d, h1, h2, h3⟩)
      · exact ⟨[], _, rfl, .inl (by simp)⟩
      · exact ⟨[], _, rfl, .inr ⟨k, hk, by simp⟩⟩
      · exact ⟨i :: q, d, by rw [VClass.reach]; simp only [VClass.bases, h1]; exact h2, by simpa using h3⟩
    · rintro ⟨q, d, h1, h2⟩
      cases q with
      | nil =>
        simp only [VClass.reach, Option.some.injEq] at h1
        subst h1
        rcases h2 with rfl | ⟨k, hk, rfl⟩
        · left; simp
        · right; left; exact ⟨k, hk, by simp⟩
      | cons i q =>
        right; right
        rw [VClass.reach] at h1
        split at h1
        · rename_i b hb
          exact ⟨i, b, q, d, hb, h1, by simpa using h2⟩
        · cases h1
theorem partL_mem (bs : VBases) (s : Sub) (j : Nat) (e : VEvent) : e ∈ bs.destroyPart s j ↔
    ∃ i b q d, bs.at i = some (false, b) ∧ b.reach q = some d ∧ (e = .body ⟨s.origin, s.path ++ (j + i) :: q⟩ ∨ ∃ k < d.members, e = .member ⟨s.origin, s.path ++ (j + i) :: q⟩ k) := by
  match bs with
  | .nil => simp [VBases.destroyPart, VBases.at]
  | .cons sh b rest =>
    rw [VBases.destroyPart, List.mem_append, partL_mem rest s (j + 1) e]
    constructor
    · rintro (⟨i, b', q, d, h1, h2, h3⟩ | h)
      · exact ⟨i + 1, b', q, d, h1, h2, by rw [show j + (i + 1) = j + 1 + i by omega]; exact h3⟩
      · cases sh with
        | true => simp at h
        | false =>
          simp only [Bool.false_eq_true, if_false] at h
          obtain ⟨q, d, h1, h2⟩ := (part_mem b _ e).mp h
          exact ⟨0, b, q, d, rfl, h1, by simpa using h2⟩
    · rintro ⟨i, b', q, d, h1, h2, h3⟩
      cases i with
      | zero =>
        simp only [VBases.at, Option.some.injEq, Prod.mk.injEq] at h1
        obtain ⟨rfl, rfl⟩ := h1
        right
        simp only [Bool.false_eq_true, if_false]
        exact (part_mem b _ e).mpr ⟨q, d, h2, by simpa using h3⟩
      | succ i => exact .inl ⟨i, b', q, d, h1, h2, by rw [show j + 1 + i = j + (i + 1) by omega]; exact h3⟩
end

/-- The order in one part, without virtual bases. -/
inductive PartOrder : VEvent → VEvent → Prop
  | member (s : Sub) (k : Nat) : PartOrder (.body s) (.member s k)
  | members (s : Sub) (k l : Nat) : l < k → PartOrder (.member s k) (.member s l)
  | base (e e' : VEvent) (i : Nat) (q : List Nat) : eventSub e' = ⟨(eventSub e).origin, (eventSub e).path ++ i :: q⟩ → PartOrder e e'
  | bases (e e' : VEvent) (o : Option Nat) (p : List Nat) (i j : Nat) (q r : List Nat) : j < i → eventSub e = ⟨o, p ++ i :: q⟩ → eventSub e' = ⟨o, p ++ j :: r⟩ → PartOrder e e'

theorem partL_sub {bs : VBases} {s : Sub} {j : Nat} {e : VEvent} (h : e ∈ bs.destroyPart s j) : ∃ i q, j ≤ i ∧ eventSub e = ⟨s.origin, s.path ++ i :: q⟩ := by
  obtain ⟨i, b, q, d, -, -, h⟩ := (partL_mem bs s j e).mp h
  refine ⟨j + i, q, by omega, ?_⟩
  rcases h with rfl | ⟨k, -, rfl⟩ <;> rfl

theorem part_sub {c : VClass} {s : Sub} {e : VEvent} (h : e ∈ c.destroyPart s) : ∃ q, eventSub e = ⟨s.origin, s.path ++ q⟩ := by
  obtain ⟨q, d, -, h⟩ := (part_mem c s e).mp h
  exact ⟨q, by rcases h with rfl | ⟨k, -, rfl⟩ <;> rfl⟩

mutual
theorem part_order (c : VClass) (s : Sub) : (c.destroyPart s).Pairwise PartOrder := by
  match c with
  | .mk n v m bs =>
    have hb : ∀ e, eventSub e = s → ∀ e' ∈ bs.destroyPart s 0, PartOrder e e' := by
      intro e he e' he'
      obtain ⟨j, q, _, h⟩ := partL_sub he'
      exact .base e e' j q (by rw [h, he])
    rw [VClass.destroyPart]
    simp only [List.pairwise_cons, List.pairwise_append]
    refine ⟨fun e he => ?_, ?_, partL_order bs s 0, fun e he e' he' => ?_⟩
    · rcases List.mem_append.mp he with he | he
      · obtain ⟨k, _, rfl⟩ := List.mem_map.mp he
        exact .member s k
      · exact hb _ rfl e he
    · rw [List.pairwise_map, List.pairwise_reverse]
      exact List.pairwise_lt_range.imp (fun h => .members s _ _ h)
    · obtain ⟨k, _, rfl⟩ := List.mem_map.mp he
      exact hb _ rfl e' he'
theorem partL_order (bs : VBases) (s : Sub) (i : Nat) : (bs.destroyPart s i).Pairwise PartOrder := by
  match bs with
  | .nil => simp [VBases.destroyPart]
  | .cons sh b rest =>
    rw [VBases.destroyPart, List.pairwise_append]
    refine ⟨partL_order rest s (i + 1), ?_, fun e he e' he' => ?_⟩
    · cases sh with
      | true => simp
      | false => exact part_order b _
    · cases sh with
      | true => simp at he'
      | false =>
        obtain ⟨j, q, hj, h⟩ := partL_sub he
        obtain ⟨r, h'⟩ := part_sub (c := b) he'
        exact .bases e e' s.origin s.path j i q r (by omega) h (by simpa using h')
end

theorem partOrder_origin {e e' : VEvent} (h : PartOrder e e') : (eventSub e).origin = (eventSub e').origin := by
  cases h with
  | member s k => rfl
  | members s k l _ => rfl
  | base _ _ i q h => rw [h]
  | bases _ _ o p i j q r _ h1 h2 => rw [h1, h2]

/-- Comparing the paths position by position; a prefix is less, at the first difference the greater index is less. -/
def pathLt : List Nat → List Nat → Prop
  | [], [] => False
  | [], _ :: _ => True
  | _ :: _, [] => False
  | i :: p, j :: q => j < i ∨ (i = j ∧ pathLt p q)

theorem pathLt_prefix (p : List Nat) (i : Nat) (q : List Nat) : pathLt p (p ++ i :: q) := by
  induction p with
  | nil => trivial
  | cons a p ih => exact .inr ⟨rfl, ih⟩

theorem pathLt_bases (p : List Nat) {i j : Nat} (q r : List Nat) (h : j < i) : pathLt (p ++ i :: q) (p ++ j :: r) := by
  induction p with
  | nil => exact .inl h
  | cons a p ih => exact .inr ⟨rfl, ih⟩

theorem pathLt_asymm : ∀ {p q : List Nat}, pathLt p q → ¬ pathLt q p
  | [], [], h, _ => h
  | [], _ :: _, _, h => h
  | _ :: _, [], h, _ => h
  | i :: p, j :: q, h1, h2 => by
    rcases h1 with h1 | ⟨rfl, h1⟩
    · rcases h2 with h2 | ⟨rfl, h2⟩ <;> omega
    · rcases h2 with h2 | ⟨-, h2⟩
      · omega
      · exact pathLt_asymm h1 h2

/-- Rank of an event among those of one subobject. -/
def PartOrder.lt (e e' : VEvent) : Prop := pathLt (eventSub e).path (eventSub e').path ∨
  (eventSub e = eventSub e' ∧ match e, e' with
    | .body _, .member _ _ => True
    | .member _ k, .member _ l => l < k
    | _, _ => False)

theorem partOrder_lt {e e' : VEvent} (h : PartOrder e e') : PartOrder.lt e e' := by
  cases h with
  | member s k => exact .inr ⟨rfl, trivial⟩
  | members s k l h => exact .inr ⟨rfl, h⟩
  | base _ _ i q h => left; rw [h]; exact pathLt_prefix _ i q
  | bases _ _ o p i j q r hij h1 h2 => left; rw [h1, h2]; exact pathLt_bases p q r hij

theorem partLt_asymm {e e' : VEvent} (h1 : PartOrder.lt e e') (h2 : PartOrder.lt e' e) : False := by
  have irr : ∀ p, ¬ pathLt p p := fun p h => pathLt_asymm h h
  rcases h1 with h1 | ⟨h1, k1⟩ <;> rcases h2 with h2 | ⟨h2, k2⟩
  · exact pathLt_asymm h1 h2
  · rw [h2] at h1; exact irr _ h1
  · rw [h1] at h2; exact irr _ h2
  · cases e <;> cases e' <;> simp only at k1 k2
    omega

theorem must_cases {c : VClass} {e e' : VEvent} (h : MustPrecede c e e') :
    PartOrder e e' ∨ ∃ d b i, SubOf c (eventSub e) d ∧ d.bases.at i = some (true, b) ∧ (eventSub e').origin = some b.name := by
  cases h with
  | member s k => exact .inl (.member s k)
  | members s k l h => exact .inl (.members s k l h)
  | base _ _ i q h => exact .inl (.base _ _ i q h)
  | bases _ _ o p i j q r hij h1 h2 => exact .inl (.bases _ _ o p i j q r hij h1 h2)
  | shared _ _ d b i h1 h2 h3 => exact .inr ⟨d, b, i, h1, h2, h3⟩

/-- A subobject reached from a virtual base `v` has virtual bases of `v` only. -/
theorem sub_shared {c d b : VClass} {s : Sub} {i : Nat} (hs : SubOf c s d) (hb : d.bases.at i = some (true, b)) {v : VClass} (hw : WellNamed c) (hv : v ∈ c.shared)
    (ho : s.origin = some v.name) : b ∈ v.shared := by
  rcases (subOf_iff c s d).mp hs with ⟨h1, -⟩ | ⟨w, hw', h1, h2⟩
  · rw [ho] at h1; cases h1
  · have hn : w.name = v.name := by rw [ho] at h1; exact (Option.some.inj h1).symm
    have e : w = v := hw _ _ _ _ ((subOf_iff c ⟨some w.name, []⟩ w).mpr (.inr ⟨w, hw', rfl, rfl⟩)) ((subOf_iff c ⟨some v.name, []⟩ v).mpr (.inr ⟨v, hv, rfl, rfl⟩)) hn
    subst e
    exact below_shared s.path h2 (base_shared hb)

theorem vpart_iff (c : VClass) (e : VEvent) : VPart c e ↔ ∃ d, SubOf c (eventSub e) d ∧ (e = .body (eventSub e) ∨ ∃ k < d.members, e = .member (eventSub e) k) := by
  cases e with
  | body s => simp [VPart, eventSub]
  | member s k => simp [VPart, eventSub]

/-- C138: the destruction of an object destroys every subobject and every member exactly once, each virtual base once however many classes have it, and nothing before what must precede it. -/
theorem C138_all (c : VClass) (hw : WellNamed c) :
    (∀ e, e ∈ c.destroyAll ↔ VPart c e) ∧ c.destroyAll.Nodup ∧ c.destroyAll.Pairwise (fun e e' => ¬ MustPrecede c e' e) := by
  have org : ∀ {x : VClass} {s : Sub} {e : VEvent}, e ∈ x.destroyPart s → (eventSub e).origin = s.origin := by
    intro x s e h
    obtain ⟨q, hq⟩ := part_sub h
    rw [hq]
  have ord : c.destroyAll.Pairwise (fun e e' => e ≠ e' ∧ ¬ MustPrecede c e' e) := by
    have inner : ∀ (x : VClass) (s : Sub), (s.origin = none ∨ (x ∈ c.shared ∧ s.origin = some x.name)) → (x.destroyPart s).Pairwise (fun e e' => e ≠ e' ∧ ¬ MustPrecede c e' e) := by
      intro x s hx
      refine (List.Pairwise.imp_of_mem ?_ (part_order x s))
      intro e e' he he' h
      refine ⟨fun hee => ?_, fun hm => ?_⟩
      · subst hee; exact partLt_asymm (partOrder_lt h) (partOrder_lt h)
      · rcases must_cases hm with hm | ⟨d, b, i, h1, h2, h3⟩
        · exact partLt_asymm (partOrder_lt h) (partOrder_lt hm)
        · rw [org he] at h3
          rcases hx with hx | ⟨hx, ho⟩
          · rw [hx] at h3; cases h3
          · have hb := sub_shared h1 h2 hw hx (by rw [org he', ho])
            have hn : b.name = x.name := by rw [ho] at h3; exact (Option.some.inj h3).symm
            have e : b = x := hw _ _ _ _ (SubOf.shared h1 h2) ((subOf_iff c ⟨some x.name, []⟩ x).mpr (.inr ⟨x, hx, rfl, rfl⟩)) hn
            exact not_shared_self x (e ▸ hb)
    rw [VClass.destroyAll, List.pairwise_append]
    refine ⟨inner c _ (.inl rfl), ?_, ?_⟩
    · rw [List.pairwise_flatMap]
      refine ⟨fun v hv => inner v _ (.inr ⟨(firsts_mem (List.mem_reverse.mp hv)).1, rfl⟩), ?_⟩
      rw [List.pairwise_reverse]
      have h2 := firsts_order c.shared [] (shared_ready c [])
      refine List.Pairwise.imp_of_mem ?_ (h2.and (firsts_names c.shared []))
      rintro v w hv hw' ⟨h1, h2⟩ e he e' he'
      have oe := org he
      have oe' := org he'
      simp only at oe oe'
      refine ⟨fun hee => ?_, fun hm => ?_⟩
      · subst hee; rw [oe] at oe'; exact h2 (Option.some.inj oe').symm
      · rcases must_cases hm with hm | ⟨d, b, i, g1, g2, g3⟩
        · have := partOrder_origin hm
          rw [oe, oe'] at this
          exact h2 (Option.some.inj this)
        · have hb := sub_shared g1 g2 hw (firsts_mem hv).1 oe'
          rw [oe] at g3
          exact h1 b hb (Option.some.inj g3).symm
    · intro e he e' he'
      obtain ⟨v, hv, hev⟩ := List.mem_flatMap.mp he'
      have oe := org he
      have oe' := org hev
      simp only at oe oe'
      refine ⟨fun hee => ?_, fun hm => ?_⟩
      · subst hee; rw [oe] at oe'; cases oe'
      · rcases must_cases hm with hm | ⟨d, b, i, g1, g2, g3⟩
        · have := partOrder_origin hm
          rw [oe, oe'] at this
          cases this
        · rw [oe] at g3; cases g3
  refine ⟨fun e => ?_, ord.imp (fun h => h.1), ord.imp (fun h => h.2)⟩
  rw [vpart_iff, VClass.destroyAll, List.mem_append, List.mem_flatMap]
  constructor
  · rintro (h | ⟨v, hv, h⟩)
    · obtain ⟨q, d, h1, h2⟩ := (part_mem c _ e).mp h
      refine ⟨d, (subOf_iff c _ d).mpr (.inl ?_), ?_⟩
      · rcases h2 with rfl | ⟨k, -, rfl⟩ <;> exact ⟨rfl, by simpa [eventSub] using h1⟩
      · rcases h2 with rfl | ⟨k, hk, rfl⟩
        · exact .inl rfl
        · exact .inr ⟨k, hk, rfl⟩
    · obtain ⟨q, d, h1, h2⟩ := (part_mem v _ e).mp h
      refine ⟨d, (subOf_iff c _ d).mpr (.inr ⟨v, (firsts_mem (List.mem_reverse.mp hv)).1, ?_⟩), ?_⟩
      · rcases h2 with rfl | ⟨k, -, rfl⟩ <;> exact ⟨rfl, by simpa [eventSub] using h1⟩
      · rcases h2 with rfl | ⟨k, hk, rfl⟩
        · exact .inl rfl
        · exact .inr ⟨k, hk, rfl⟩
  · rintro ⟨d, hs, he⟩
    rcases (subOf_iff c _ d).mp hs with ⟨h1, h2⟩ | ⟨v, hv, h1, h2⟩
    · left
      refine (part_mem c _ e).mpr ⟨(eventSub e).path, d, h2, ?_⟩
      simp only [List.nil_append]
      rw [← h1]; exact he
    · right
      refine ⟨v, List.mem_reverse.mpr (shared_first hw hv), (part_mem v _ e).mpr ⟨(eventSub e).path, d, h2, ?_⟩⟩
      simp only [List.nil_append]
      rw [← h1]; exact he

/-! ## Deletion -/

theorem classOf_iff {c : VClass} (hw : WellNamed c) (s : Sub) (d : VClass) : c.classOf s = some d ↔ SubOf c s d := by
  rw [subOf_iff, VClass.classOf]
  rcases s with ⟨o, p⟩
  cases o with
  | none => simp
  | some n =>
    simp only
    constructor
    · intro h
      right
      split at h
      · rename_i v hv
        exact ⟨v, (firsts_mem (List.mem_of_find?_eq_some hv)).1, by have := List.find?_some hv; simp at this; rw [this], h⟩
      · cases h
    · rintro (⟨h1, -⟩ | ⟨v, hv, h1, h2⟩)
      · cases h1
      · have hn : n = v.name := Option.some.inj h1
        subst hn
        cases hf : (firsts [] c.shared).find? (fun w => w.name == v.name) with
        | none =>
          rw [List.find?_eq_none] at hf
          exact absurd (by simp) (hf v (shared_first hw hv))
        | some w =>
          have hwn : w.name = v.name := by have := List.find?_some hf; simpa using this
          have hws := (firsts_mem (List.mem_of_find?_eq_some hf)).1
          have e : w = v := hw _ _ _ _ ((subOf_iff c ⟨some w.name, []⟩ w).mpr (.inr ⟨w, hws, rfl, rfl⟩)) ((subOf_iff c ⟨some v.name, []⟩ v).mpr (.inr ⟨v, hv, rfl, rfl⟩)) hwn
          subst e
          exact h2

theorem anyVirtual_at {bs : VBases} {i : Nat} {sh : Bool} {b : VClass} (h : bs.at i = some (sh, b)) (hb : b.isVirtual = true) : bs.anyVirtual = true := by
  match bs, i with
  | .nil, _ => simp [VBases.at] at h
  | .cons s c rest, 0 =>
    simp only [VBases.at, Option.some.injEq, Prod.mk.injEq] at h
    rw [VBases.anyVirtual, h.2, hb]; rfl
  | .cons s c rest, i + 1 => rw [VBases.anyVirtual, anyVirtual_at (bs := rest) h hb]; simp

theorem isVirtual_base {c b : VClass} {i : Nat} {sh : Bool} (h : c.bases.at i = some (sh, b)) (hb : b.isVirtual = true) : c.isVirtual = true := by
  obtain ⟨n, d, m, bs⟩ := c
  rw [VClass.isVirtual, anyVirtual_at (bs := bs) h hb]; simp

theorem isVirtual_sub {c : VClass} {s : Sub} {d : VClass} (h : SubOf c s d) (hd : d.isVirtual = true) : c.isVirtual = true := by
  induction h with
  | whole => exact hd
  | base _ hb ih => exact ih (isVirtual_base hb hd)
  | shared _ hb ih => exact ih (isVirtual_base hb hd)

/-- C138: deleting an object of any class derived from `destructable`, virtually or not and by whatever ways, through a pointer to `destructable`, or to any class between, destroys the whole
object. -/
theorem C138_delete {c b : VClass} (hw : WellNamed c) {s q : Sub} (hs : SubOf c s b) (hq : SubOf b q vdestructable) : c.delete s = .ok c.destroyAll := by
  have hv : b.isVirtual = true := isVirtual_sub hq rfl
  rw [VClass.delete, (classOf_iff hw s b).mpr hs]
  simp [hv]

/-- C138: through a pointer to a base without a virtual destructor it is undefined. -/
theorem C138_undefined {c b : VClass} (hw : WellNamed c) {s : Sub} (hs : SubOf c s b) (hne : s ≠ ⟨none, []⟩) (hb : b.isVirtual = false) : ∃ u, c.delete s = .ub u := by
  rw [VClass.delete, (classOf_iff hw s b).mpr hs]
  exact ⟨.bad_pointer, by simp [hb, hne]⟩

/-- C138: if all classes are derived from `destructable` virtually, there is one `destructable` in the object. -/
theorem C138_one (c : VClass) (hv : ∀ s d i b, SubOf c s d → d.bases.at i = some (false, b) → b ≠ vdestructable) (hc : c ≠ vdestructable) (s s' : Sub)
    (h : SubOf c s vdestructable) (h' : SubOf c s' vdestructable) : s = s' := by
  have go : ∀ (s : Sub) (d : VClass), SubOf c s d → d = vdestructable → s = ⟨some 0, []⟩ := by
    intro s d hs
    cases hs with
    | whole => intro e; exact absurd e hc
    | base h1 h2 => intro e; exact absurd e (hv _ _ _ _ h1 h2)
    | shared h1 h2 => intro e; subst e; rfl
  rw [go s _ h rfl, go s' _ h' rfl]

/-- A class with one member. -/
def diamondA : VClass := .mk 1 false 1 (.cons true vdestructable .nil)
/-- A class with two members. -/
def diamondB : VClass := .mk 2 false 2 (.cons true vdestructable .nil)
/-- A class with both as bases, which share `destructable`. -/
def diamond : VClass := .mk 3 false 1 (.cons false diamondA (.cons false diamondB .nil))

theorem diamond_classes {s : Sub} {d : VClass} (h : SubOf diamond s d) : d = diamond ∨ d = diamondA ∨ d = diamondB ∨ d = vdestructable := by
  have step : ∀ (d b : VClass) (i : Nat) (sh : Bool), (d = diamond ∨ d = diamondA ∨ d = diamondB ∨ d = vdestructable) → d.bases.at i = some (sh, b) →
      (b = diamond ∨ b = diamondA ∨ b = diamondB ∨ b = vdestructable) := by
    intro d b i sh hd hb
    rcases hd with rfl | rfl | rfl | rfl
    · match i with
      | 0 => simp only [diamond, VClass.bases, VBases.at, Option.some.injEq, Prod.mk.injEq] at hb; exact .inr (.inl hb.2.symm)
      | 1 => simp only [diamond, VClass.bases, VBases.at, Option.some.injEq, Prod.mk.injEq] at hb; exact .inr (.inr (.inl hb.2.symm))
      | i + 2 => simp [diamond, VClass.bases, VBases.at] at hb
    · match i with
      | 0 => simp only [diamondA, VClass.bases, VBases.at, Option.some.injEq, Prod.mk.injEq] at hb; exact .inr (.inr (.inr hb.2.symm))
      | i + 1 => simp [diamondA, VClass.bases, VBases.at] at hb
    · match i with
      | 0 => simp only [diamondB, VClass.bases, VBases.at, Option.some.injEq, Prod.mk.injEq] at hb; exact .inr (.inr (.inr hb.2.symm))
      | i + 1 => simp [diamondB, VClass.bases, VBases.at] at hb
    · simp [vdestructable, VClass.bases, VBases.at] at hb
  induction h with
  | whole => exact .inl rfl
  | base _ hb ih => exact step _ _ _ _ ih hb
  | shared _ hb ih => exact step _ _ _ _ ih hb

theorem diamond_named : WellNamed diamond := by
  intro s s' d d' h h' hn
  rcases diamond_classes h with rfl | rfl | rfl | rfl <;> rcases diamond_classes h' with rfl | rfl | rfl | rfl <;>
    first | rfl | (simp [diamond, diamondA, diamondB, vdestructable, VClass.name] at hn)

/-- Meets the hypotheses: deleting a diamond through its one `destructable`. -/
example : diamond.delete ⟨some 0, []⟩ = .ok diamond.destroyAll ∧
    diamond.destroyAll = [.body ⟨none, []⟩, .member ⟨none, []⟩ 0, .body ⟨none, [1]⟩, .member ⟨none, [1]⟩ 1, .member ⟨none, [1]⟩ 0, .body ⟨none, [0]⟩, .member ⟨none, [0]⟩ 0,
      .body ⟨some 0, []⟩] :=
  ⟨C138_delete diamond_named (show SubOf diamond ⟨some vdestructable.name, []⟩ vdestructable from SubOf.shared (d := diamondA) (i := 0) (SubOf.base (i := 0) .whole rfl) rfl) .whole, by rfl⟩

/-- Meets the hypotheses of `C138_one`. -/
example (s : Sub) (h : SubOf diamond s vdestructable) : s = ⟨some 0, []⟩ := by
  refine C138_one diamond ?_ (by simp [diamond, vdestructable]) s _ h
    (show SubOf diamond ⟨some vdestructable.name, []⟩ vdestructable from SubOf.shared (d := diamondA) (i := 0) (SubOf.base (i := 0) .whole rfl) rfl)
  intro s d i b hs hb
  rcases diamond_classes hs with rfl | rfl | rfl | rfl
  · match i with
    | 0 => simp only [diamond, VClass.bases, VBases.at, Option.some.injEq, Prod.mk.injEq] at hb; rw [← hb.2]; simp [diamondA, vdestructable]
    | 1 => simp only [diamond, VClass.bases, VBases.at, Option.some.injEq, Prod.mk.injEq] at hb; rw [← hb.2]; simp [diamondB, vdestructable]
    | i + 2 => simp [diamond, VClass.bases, VBases.at] at hb
  · match i with
    | 0 => simp [diamondA, VClass.bases, VBases.at] at hb
    | i + 1 => simp [diamondA, VClass.bases, VBases.at] at hb
  · match i with
    | 0 => simp [diamondB, VClass.bases, VBases.at] at hb
    | i + 1 => simp [diamondB, VClass.bases, VBases.at] at hb
  · simp [vdestructable, VClass.bases, VBases.at] at hb

/-- Meets the hypotheses of `C138_undefined`: a virtual base without a virtual destructor. -/
example : ∃ u, (VClass.mk 5 false 0 (.cons true (.mk 4 false 0 .nil) .nil)).delete ⟨some 4, []⟩ = .ub u := by
  refine C138_undefined (b := .mk 4 false 0 .nil) ?_ (show SubOf _ ⟨some (VClass.mk 4 false 0 .nil).name, []⟩ _ from SubOf.shared (i := 0) .whole rfl) (by simp) rfl
  have cl : ∀ {s : Sub} {d : VClass}, SubOf (VClass.mk 5 false 0 (.cons true (.mk 4 false 0 .nil) .nil)) s d →
      d = .mk 5 false 0 (.cons true (.mk 4 false 0 .nil) .nil) ∨ d = .mk 4 false 0 .nil := by
    intro s d h
    have step : ∀ (d b : VClass) (i : Nat) (sh : Bool), (d = .mk 5 false 0 (.cons true (.mk 4 false 0 .nil) .nil) ∨ d = .mk 4 false 0 .nil) → d.bases.at i = some (sh, b) →
        b = .mk 4 false 0 .nil := by
      intro d b i sh hd hb
      rcases hd with rfl | rfl
      · match i with
        | 0 => simp only [VClass.bases, VBases.at, Option.some.injEq, Prod.mk.injEq] at hb; exact hb.2.symm
        | i + 1 => simp [VClass.bases, VBases.at] at hb
      · simp [VClass.bases, VBases.at] at hb
    induction h with
    | whole => exact .inl rfl
    | base _ hb ih => exact .inr (step _ _ _ _ ih hb)
    | shared _ hb ih => exact .inr (step _ _ _ _ ih hb)
  intro s s' d d' h h' hn
  rcases cl h with rfl | rfl <;> rcases cl h' with rfl | rfl <;> first | rfl | (simp [VClass.name] at hn)

end Utki
