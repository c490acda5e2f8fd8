import Verif.Spec.PeriodSpec

/-!
# Lemmas about the equality of periods and the sets of member periods
-/

namespace Rocketry.Period
open Rocketry.Spec

theorem within_iff (ps qs : List Period) :
    same.within ps qs = true ↔ ∀ p ∈ ps, ∃ q ∈ qs, same p q = true := by
  induction ps with
  | nil => simp [same.within]
  | cons p ps ih => simp [same.within, ih]

theorem among_iff (ps : List Period) (q : Period) : same.among ps q = true ↔ ∃ p ∈ ps, same p q = true := by
  induction ps with
  | nil => simp [same.among]
  | cons p ps ih => simp [same.among, ih]

/-- Equality of two sets of periods. -/
theorem sets_iff (ps qs : List Period) :
    (same.within ps qs && qs.all (fun q => same.among ps q)) = true ↔
      (∀ p ∈ ps, ∃ q ∈ qs, same p q = true) ∧ ∀ q ∈ qs, ∃ p ∈ ps, same p q = true := by
  simp only [Bool.and_eq_true, within_iff, List.all_eq_true, among_iff]

theorem same_refl : ∀ p : Period, same p p = true
  | .anchored a => by simp [same]
  | .static s e => by simp [same]
  | .always => by simp [same]
  | .delta p f => by simp [same]
  | .span n f => by simp [same]
  | .relday a b c => by simp [same]
  | .all ps => by
    simp only [same]
    rw [sets_iff]
    exact ⟨fun p hp => ⟨p, hp, same_refl p⟩, fun p hp => ⟨p, hp, same_refl p⟩⟩
  | .any ps => by
    simp only [same]
    rw [sets_iff]
    exact ⟨fun p hp => ⟨p, hp, same_refl p⟩, fun p hp => ⟨p, hp, same_refl p⟩⟩
termination_by p => sizeOf p
decreasing_by
  all_goals
    have := List.sizeOf_lt_of_mem ‹_ ∈ _›
    simp only [Period.all.sizeOf_spec, Period.any.sizeOf_spec]
    omega

theorem same_symm : ∀ p q : Period, same p q = true → same q p = true
  | .anchored a, q, h => by cases q <;> simp_all [same]
  | .static s e, q, h => by cases q <;> simp_all [same]
  | .always, q, h => by cases q <;> simp_all [same]
  | .delta p f, q, h => by cases q <;> simp_all [same]
  | .span n f, q, h => by cases q <;> simp_all [same]
  | .relday a b c, q, h => by cases q <;> simp_all [same]
  | .all ps, q, h => by
    cases q <;> simp only [same, Bool.false_eq_true] at h ⊢
    rw [sets_iff] at h ⊢
    refine ⟨fun x hx => ?_, fun x hx => ?_⟩
    · obtain ⟨p, hp, h'⟩ := h.2 x hx
      exact ⟨p, hp, same_symm p x h'⟩
    · obtain ⟨q, hq, h'⟩ := h.1 x hx
      exact ⟨q, hq, same_symm x q h'⟩
  | .any ps, q, h => by
    cases q <;> simp only [same, Bool.false_eq_true] at h ⊢
    rw [sets_iff] at h ⊢
    refine ⟨fun x hx => ?_, fun x hx => ?_⟩
    · obtain ⟨p, hp, h'⟩ := h.2 x hx
      exact ⟨p, hp, same_symm p x h'⟩
    · obtain ⟨q, hq, h'⟩ := h.1 x hx
      exact ⟨q, hq, same_symm x q h'⟩
termination_by p => sizeOf p
decreasing_by
  all_goals
    have := List.sizeOf_lt_of_mem ‹_ ∈ ps›
    simp only [Period.all.sizeOf_spec, Period.any.sizeOf_spec]
    omega

theorem same_trans : ∀ p q r : Period, same p q = true → same q r = true → same p r = true
  | .anchored a, q, r, h, h' => by cases q <;> cases r <;> simp_all [same]
  | .static s e, q, r, h, h' => by cases q <;> cases r <;> simp_all [same]
  | .always, q, r, h, h' => by cases q <;> cases r <;> simp_all [same]
  | .delta p f, q, r, h, h' => by cases q <;> cases r <;> simp_all [same]
  | .span n f, q, r, h, h' => by cases q <;> cases r <;> simp_all [same]
  | .relday a b c, q, r, h, h' => by cases q <;> cases r <;> simp_all [same]
  | .all ps, q, r, h, h' => by
    cases q <;> simp only [same, Bool.false_eq_true] at h h'
    cases r <;> simp only [same, Bool.false_eq_true] at h' ⊢
    rw [sets_iff] at h h' ⊢
    refine ⟨fun x hx => ?_, fun z hz => ?_⟩
    · obtain ⟨y, hy, h1⟩ := h.1 x hx
      obtain ⟨z, hz, h2⟩ := h'.1 y hy
      exact ⟨z, hz, same_trans x y z h1 h2⟩
    · obtain ⟨y, hy, h2⟩ := h'.2 z hz
      obtain ⟨x, hx, h1⟩ := h.2 y hy
      exact ⟨x, hx, same_trans x y z h1 h2⟩
  | .any ps, q, r, h, h' => by
    cases q <;> simp only [same, Bool.false_eq_true] at h h'
    cases r <;> simp only [same, Bool.false_eq_true] at h' ⊢
    rw [sets_iff] at h h' ⊢
    refine ⟨fun x hx => ?_, fun z hz => ?_⟩
    · obtain ⟨y, hy, h1⟩ := h.1 x hx
      obtain ⟨z, hz, h2⟩ := h'.1 y hy
      exact ⟨z, hz, same_trans x y z h1 h2⟩
    · obtain ⟨y, hy, h2⟩ := h'.2 z hz
      obtain ⟨x, hx, h1⟩ := h.2 y hy
      exact ⟨x, hx, same_trans x y z h1 h2⟩
termination_by p => sizeOf p
decreasing_by
  all_goals
    have := List.sizeOf_lt_of_mem ‹x ∈ ps›
    simp only [Period.all.sizeOf_spec, Period.any.sizeOf_spec]
    omega

/-! ### sets -/

theorem any_same (l : List Period) (p : Period) : l.any (fun q => same q p) = true ↔ ∃ q ∈ l, same q p = true := by
  simp

theorem setFrom_sub (l : List Period) : ∀ acc p, p ∈ setFrom acc l → p ∈ acc ∨ p ∈ l := by
  induction l with
  | nil => intro acc p h; exact Or.inl h
  | cons a l ih =>
    intro acc p h
    rw [setFrom] at h
    split at h
    · rcases ih acc p h with h | h
      · exact Or.inl h
      · exact Or.inr (List.mem_cons_of_mem _ h)
    · rcases ih _ p h with h | h
      · rcases List.mem_append.1 h with h | h
        · exact Or.inl h
        · exact Or.inr (by simp_all)
      · exact Or.inr (List.mem_cons_of_mem _ h)

theorem setFrom_acc (l : List Period) : ∀ acc p, p ∈ acc → p ∈ setFrom acc l := by
  induction l with
  | nil => intro acc p h; exact h
  | cons a l ih =>
    intro acc p h
    rw [setFrom]
    split
    · exact ih acc p h
    · exact ih _ p (List.mem_append_left _ h)

theorem setFrom_covers (l : List Period) : ∀ acc p, p ∈ l → ∃ q ∈ setFrom acc l, same q p = true := by
  induction l with
  | nil => intro acc p h; simp at h
  | cons a l ih =>
    intro acc p h
    rw [setFrom]
    rcases List.mem_cons.1 h with rfl | h
    · split
      · rename_i hc
        obtain ⟨q, hq, hs⟩ := (any_same acc p).1 hc
        exact ⟨q, setFrom_acc l acc q hq, hs⟩
      · exact ⟨p, setFrom_acc l _ p (by simp), same_refl p⟩
    · split
      · exact ih acc p h
      · exact ih _ p h

/-- The set has only given members … -/
theorem mem_setOf {l : List Period} {p : Period} (h : p ∈ setOf l) : p ∈ l := by
  rcases setFrom_sub l [] p h with h | h
  · simp at h
  · exact h

/-- … and one that is equal to each given one. -/
theorem setOf_covers {l : List Period} {p : Period} (h : p ∈ l) : ∃ q ∈ setOf l, same q p = true :=
  setFrom_covers l [] p h

theorem setFrom_distinct (l : List Period) : ∀ acc, acc.Pairwise (fun a b => same a b = false) →
    (setFrom acc l).Pairwise (fun a b => same a b = false) := by
  induction l with
  | nil => intro acc h; exact h
  | cons a l ih =>
    intro acc h
    rw [setFrom]
    split
    · exact ih acc h
    · rename_i hc
      refine ih _ (List.pairwise_append.2 ⟨h, List.pairwise_singleton _ _, fun x hx y hy => ?_⟩)
      rw [List.mem_singleton.1 hy]
      cases hs : same x a with
      | false => rfl
      | true => exact absurd ((any_same acc a).2 ⟨x, hx, hs⟩) hc

/-- No two members are equal. -/
theorem setOf_distinct (l : List Period) : (setOf l).Pairwise (fun a b => same a b = false) :=
  setFrom_distinct l [] List.Pairwise.nil

theorem setFrom_new (l : List Period) : ∀ acc, (acc ++ l).Pairwise (fun a b => same a b = false) →
    setFrom acc l = acc ++ l := by
  induction l with
  | nil => intro acc _; simp [setFrom]
  | cons a l ih =>
    intro acc h
    have hc : ¬ acc.any (fun q => same q a) = true := by
      intro hc
      obtain ⟨q, hq, hs⟩ := (any_same acc a).1 hc
      have := (List.pairwise_append.1 h).2.2 q hq a (by simp)
      rw [hs] at this
      exact absurd this (by simp)
    rw [setFrom, if_neg hc, ih (acc ++ [a]) (by simpa using h)]
    simp

/-- Distinct periods are all kept. -/
theorem setOf_new {l : List Period} (h : l.Pairwise (fun a b => same a b = false)) : setOf l = l :=
  setFrom_new l [] h

theorem setFrom_append (l l' : List Period) : ∀ acc, setFrom acc (l ++ l') = setFrom (setFrom acc l) l' := by
  induction l with
  | nil => intro acc; rfl
  | cons a l ih =>
    intro acc
    rw [List.cons_append, setFrom, setFrom]
    split
    · exact ih acc
    · exact ih _

theorem setFrom_setFrom (l : List Period) : ∀ acc d, setFrom acc (setFrom d l) = setFrom (setFrom acc d) l := by
  induction l with
  | nil => intro acc d; rfl
  | cons b l ih =>
    intro acc d
    rw [setFrom, setFrom]
    by_cases hd : d.any (fun q => same q b) = true
    · rw [if_pos hd, ih]
      obtain ⟨q, hq, hs⟩ := (any_same d b).1 hd
      obtain ⟨x, hx, hs'⟩ := setFrom_covers d acc q hq
      rw [if_pos ((any_same _ b).2 ⟨x, hx, same_trans x q b hs' hs⟩)]
    · rw [if_neg hd, ih, setFrom_append]
      rw [show setFrom (setFrom acc d) [b] =
        if (setFrom acc d).any (fun q => same q b) then setFrom acc d else setFrom acc d ++ [b] from rfl]
      split <;> rfl

/-- Collecting into sets in two steps is the same as in one. -/
theorem setOf_left (l l' : List Period) : setOf (setOf l ++ l') = setOf (l ++ l') := by
  unfold setOf
  rw [setFrom_append, setFrom_append, setFrom_setFrom]
  rfl

theorem setOf_right (l l' : List Period) : setOf (l ++ setOf l') = setOf (l ++ l') := by
  unfold setOf
  rw [setFrom_append, setFrom_append, setFrom_setFrom]
  rfl

theorem setOf_cons (p : Period) (l : List Period) : setOf (p :: setOf l) = setOf (p :: l) := setOf_right [p] l

/-- The set depends only on the members, up to equality. -/
theorem setOf_same {l l' : List Period} (h : ∀ p ∈ l, ∃ q ∈ l', same p q = true)
    (h' : ∀ q ∈ l', ∃ p ∈ l, same p q = true) :
    (∀ p ∈ setOf l, ∃ q ∈ setOf l', same p q = true) ∧ ∀ q ∈ setOf l', ∃ p ∈ setOf l, same p q = true := by
  refine ⟨fun p hp => ?_, fun q hq => ?_⟩
  · obtain ⟨q, hq, hs⟩ := h p (mem_setOf hp)
    obtain ⟨x, hx, hs'⟩ := setOf_covers hq
    exact ⟨x, hx, same_trans _ _ _ hs (same_symm _ _ hs')⟩
  · obtain ⟨p, hp, hs⟩ := h' q (mem_setOf hq)
    obtain ⟨x, hx, hs'⟩ := setOf_covers hp
    exact ⟨x, hx, same_trans _ _ _ hs' hs⟩

/-! ### meaning -/

/-- Equal periods mean the same times. -/
theorem same_sem (t : Int) : ∀ p q : Period, same p q = true → (sem p t ↔ sem q t)
  | .anchored a, q, h => by cases q <;> simp_all [same]
  | .static s e, q, h => by cases q <;> simp_all [same, sem]
  | .always, q, h => by cases q <;> simp_all [same, sem]
  | .delta p f, q, h => by cases q <;> simp_all [same, sem]
  | .span n f, q, h => by cases q <;> simp_all [same, sem]
  | .relday a b c, q, h => by cases q <;> simp_all [same, sem]
  | .all ps, q, h => by
    cases q <;> simp only [same, Bool.false_eq_true] at h
    rw [sets_iff] at h
    rw [sem, sem]
    refine ⟨fun hs x hx => ?_, fun hs x hx => ?_⟩
    · obtain ⟨p, hp, h'⟩ := h.2 x hx
      exact (same_sem t p x h').1 (hs p hp)
    · obtain ⟨q, hq, h'⟩ := h.1 x hx
      exact (same_sem t x q h').2 (hs q hq)
  | .any ps, q, h => by
    cases q <;> simp only [same, Bool.false_eq_true] at h
    rw [sets_iff] at h
    rw [sem, sem]
    refine ⟨fun ⟨x, hx, hs⟩ => ?_, fun ⟨x, hx, hs⟩ => ?_⟩
    · obtain ⟨q, hq, h'⟩ := h.1 x hx
      exact ⟨q, hq, (same_sem t x q h').1 hs⟩
    · obtain ⟨p, hp, h'⟩ := h.2 x hx
      exact ⟨p, hp, (same_sem t p x h').2 hs⟩
termination_by p => sizeOf p
decreasing_by
  all_goals
    have := List.sizeOf_lt_of_mem ‹_ ∈ ps›
    simp only [Period.all.sizeOf_spec, Period.any.sizeOf_spec]
    omega

theorem setOf_all (l : List Period) (t : Int) : (∀ p ∈ setOf l, sem p t) ↔ ∀ p ∈ l, sem p t := by
  refine ⟨fun h p hp => ?_, fun h p hp => h p (mem_setOf hp)⟩
  obtain ⟨q, hq, hs⟩ := setOf_covers hp
  exact (same_sem t q p hs).1 (h q hq)

theorem setOf_any (l : List Period) (t : Int) : (∃ p ∈ setOf l, sem p t) ↔ ∃ p ∈ l, sem p t := by
  refine ⟨fun ⟨p, hp, h⟩ => ⟨p, mem_setOf hp, h⟩, fun ⟨p, hp, h⟩ => ?_⟩
  obtain ⟨q, hq, hs⟩ := setOf_covers hp
  exact ⟨q, hq, (same_sem t q p hs).2 h⟩

end Rocketry.Period
