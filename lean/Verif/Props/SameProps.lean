import Verif.Props.PeriodProps

/-!
# C67: equality of periods, and what it does to collections of periods
-/

namespace Rocketry.Props
open Rocketry Spec

/-- Has no `RelativeDay` inside. -/
def NoRel : Period → Prop
  | .relday _ _ _ => False
  | .all ps => ∀ p, p ∈ ps → NoRel p
  | .any ps => ∀ p, p ∈ ps → NoRel p
  | _ => True
termination_by p => sizeOf p
decreasing_by
  all_goals
    have := List.sizeOf_lt_of_mem ‹_ ∈ _›
    simp only [Period.all.sizeOf_spec, Period.any.sizeOf_spec]
    omega

/-- Not a collection. -/
def Lone : Period → Prop
  | .all _ => False
  | .any _ => False
  | _ => True

theorem pyEq_same {p q : Period} {b : Bool} (h : p.pyEq q = .ok b) : p.same q = b := by
  cases p <;> cases q <;> simp_all [Period.pyEq]

/-- C67: a period equals itself, and the order of the two sides does not matter, for all periods. -/
theorem C67_symmetric (p q : Period) : p.pyEq p = .ok true ∧ p.pyEq q = q.pyEq p := by
  constructor
  · have := Period.same_refl p
    cases p <;> simp [Period.pyEq, this]
  · have : p.same q = q.same p := by
      cases h : p.same q with
      | true => rw [Period.same_symm p q h]
      | false =>
        cases h' : q.same p with
        | false => rfl
        | true => rw [Period.same_symm q p h'] at h; exact absurd h (by simp)
    cases p <;> cases q <;> simp [Period.pyEq, this]

/-- C67: periods equal to the same period are equal. -/
theorem C67_transitive (p q r : Period) (h : p.pyEq q = .ok true) (h' : q.pyEq r = .ok true) : p.pyEq r = .ok true := by
  have h1 := Period.same_trans p q r (pyEq_same h) (pyEq_same h')
  cases p <;> cases r <;> simp_all [Period.pyEq, Period.same]

/-- C67: equal periods have the same instants.  Periods without fixed instants are treated in `C67_rolls_partial`. -/
theorem C67_instants (p q : Period) (h : p.pyEq q = .ok true) (t : Int) : sem p t ↔ sem q t :=
  Period.same_sem t p q (pyEq_same h)

/-- C67: an equal period that is no collection is rolled to the same spans.  Missing: `RelativeDay`
(`C67_relative_day_violated`) and collections (`C67_order_violated`). -/
theorem C67_rolls_partial (p q : Period) (hs : Lone p) (hr : NoRel p) (h : p.pyEq q = .ok true) (n : Nat) (dt : Int) :
    p.rollforward n dt = q.rollforward n dt ∧ p.rollback n dt = q.rollback n dt := by
  have h := pyEq_same h
  cases p <;> cases q <;> simp [Period.same, Lone, NoRel] at h hs hr
  · subst h; exact ⟨rfl, rfl⟩
  · obtain ⟨rfl, rfl⟩ := h; exact ⟨rfl, rfl⟩
  · obtain ⟨rfl, rfl⟩ := h; cases n <;> exact ⟨rfl, rfl⟩
  · obtain ⟨rfl, rfl⟩ := h; cases n <;> exact ⟨rfl, rfl⟩
  · exact ⟨rfl, rfl⟩
  · obtain ⟨rfl, rfl⟩ := h; exact ⟨rfl, rfl⟩
  · obtain ⟨rfl, rfl⟩ := h; exact ⟨rfl, rfl⟩

/-- Membership, when it is answered, is the meaning of the period. -/
theorem contains_means {p : Period} (hp : Plain p) {dt : Int} (hd : dt < MAXT) (hc : Clean dt p) {n : Nat} {b : Bool}
    (h : p.contains n dt = .ok b) : b = true ↔ sem p dt := by
  have roll : ∀ i, p.rollforward n dt = .ok i → (b = true ↔ sem p dt) := by
    intro i hi
    rw [contains_of_span hp h hi]
    exact (((rollforward_weak n p dt i hp hi).2.2.2 hd).1 hc).symm
  cases p with
  | anchored a =>
    simp only [Period.contains, Except.ok.injEq] at h
    rw [sem, h]
  | delta _ _ => simp [Plain] at hp
  | span _ _ => simp [Plain] at hp
  | relday _ _ _ => simp [Plain] at hp
  | _ =>
    simp only [Period.contains] at h
    split at h
    · exact absurd h (by simp)
    · rename_i i hi
      exact roll i hi

/-- C67: equal periods give the same answer to `dt in period`, also collections, whatever the order of their members.
Excluded: instants at which a static member of a union ends (`C13_contains_violated`). -/
theorem C67_contains_partial (p q : Period) (h : p.pyEq q = .ok true) (hp : Plain p) (hq : Plain q) (dt : Int)
    (hd : dt < MAXT) (cp : Clean dt p) (cq : Clean dt q) (n m : Nat) (b c : Bool) (hb : p.contains n dt = .ok b)
    (hc : q.contains m dt = .ok c) : b = c := by
  rw [Bool.eq_iff_iff, contains_means hp hd cp hb, contains_means hq hd cq hc]
  exact C67_instants p q h dt

example : (Period.all [.anchored ⟨.day, 9 * HOUR, 12 * HOUR⟩, .static (datetime 2024 5 1) (datetime 2024 5 3)]).pyEq
      (.all [.static (datetime 2024 5 1) (datetime 2024 5 3), .anchored ⟨.day, 9 * HOUR, 12 * HOUR⟩]) = .ok true ∧
    (Period.all [.anchored ⟨.day, 9 * HOUR, 12 * HOUR⟩, .static (datetime 2024 5 1) (datetime 2024 5 3)]).contains
      5 (datetime 2024 5 2 10) = .ok true := by decide +kernel

/-- C67: a collection is made of its arguments: each argument that is no such collection itself and not `always` has
an equal member, each member is an argument or a member of one, and no two members are equal. -/
theorem C67_members (args ps : List Period) :
    (Period.mkAll args = .ok (.all ps) →
      (∀ a ∈ args, a ≠ .always → (∀ qs, a ≠ .all qs) → ∃ p ∈ ps, p.pyEq a = .ok true) ∧
      (∀ p ∈ ps, p ∈ args ∨ ∃ qs, .all qs ∈ args ∧ p ∈ qs) ∧
      ps.Pairwise (fun a b => a.pyEq b ≠ .ok true)) ∧
    (Period.mkAny args = .ok (.any ps) →
      ((∀ a ∈ args, (∀ qs, a ≠ .any qs) → ∃ p ∈ ps, p.pyEq a = .ok true) ∨ ps = [.always]) ∧
      (∀ p ∈ ps, p ∈ args ∨ ∃ qs, .any qs ∈ args ∧ p ∈ qs) ∧
      ps.Pairwise (fun a b => a.pyEq b ≠ .ok true)) := by
  have hpe : ∀ p q : Period, p.same q = true → p.pyEq q = .ok true := by
    intro p q h
    cases p <;> cases q <;> simp_all [Period.pyEq, Period.same]
  have hd : ∀ l : List Period, (Period.setOf l).Pairwise (fun a b => a.pyEq b ≠ .ok true) := by
    intro l
    refine (Period.setOf_distinct l).imp ?_
    intro a b h h'
    rw [pyEq_same h'] at h
    exact absurd h (by simp)
  have hall : ∀ l : List Period, (∀ a ∈ l, a ≠ .always → (∀ qs, a ≠ .all qs) → a ∈ Period.allMembers l) ∧
      (∀ p ∈ Period.allMembers l, p ∈ l ∨ ∃ qs, .all qs ∈ l ∧ p ∈ qs) := by
    intro l
    induction l with
    | nil => simp [Period.allMembers]
    | cons a l ih =>
      obtain ⟨ih1, ih2⟩ := ih
      refine ⟨fun x hx h1 h2 => ?_, fun p hp => ?_⟩
      · rcases List.mem_cons.1 hx with rfl | hx
        · cases x with
          | all qs => exact absurd rfl (h2 qs)
          | always => exact absurd rfl h1
          | _ => simp [Period.allMembers]
        · have := ih1 x hx h1 h2
          cases a <;> simp [Period.allMembers, this]
      · have up : (p ∈ l ∨ ∃ qs, .all qs ∈ l ∧ p ∈ qs) → (p ∈ a :: l ∨ ∃ qs, .all qs ∈ a :: l ∧ p ∈ qs) := by
          rintro (h | ⟨qs, h, h'⟩)
          · exact Or.inl (List.mem_cons_of_mem _ h)
          · exact Or.inr ⟨qs, List.mem_cons_of_mem _ h, h'⟩
        cases a with
        | all qs =>
          rcases List.mem_append.1 hp with hp | hp
          · exact Or.inr ⟨qs, by simp, hp⟩
          · exact up (ih2 p hp)
        | always => exact up (ih2 p hp)
        | _ =>
          rcases List.mem_cons.1 hp with rfl | hp
          · exact Or.inl (by simp)
          · exact up (ih2 p hp)
  have hany : ∀ (l acc : List Period), ((∀ a ∈ l, (∀ qs, a ≠ .any qs) → a ∈ Period.anyMembers acc l) ∧
        (∀ a ∈ acc, a ∈ Period.anyMembers acc l) ∨ Period.anyMembers acc l = [.always]) ∧
      (∀ p ∈ Period.anyMembers acc l, p ∈ acc ∨ p ∈ l ∨ ∃ qs, .any qs ∈ l ∧ p ∈ qs) := by
    intro l
    induction l with
    | nil => intro acc; simp [Period.anyMembers]
    | cons a l ih =>
      intro acc
      have step : (∀ qs, a ≠ .any qs) → Period.anyMembers acc (a :: l) = Period.anyMembers (acc ++ [a]) l →
          ((∀ x ∈ a :: l, (∀ qs, x ≠ .any qs) → x ∈ Period.anyMembers acc (a :: l)) ∧
            (∀ x ∈ acc, x ∈ Period.anyMembers acc (a :: l)) ∨ Period.anyMembers acc (a :: l) = [.always]) ∧
          (∀ p ∈ Period.anyMembers acc (a :: l), p ∈ acc ∨ p ∈ a :: l ∨ ∃ qs, .any qs ∈ a :: l ∧ p ∈ qs) := by
        intro _ he
        rw [he]
        obtain ⟨h1, h2⟩ := ih (acc ++ [a])
        refine ⟨?_, fun p hp => ?_⟩
        · rcases h1 with ⟨h1, h3⟩ | h1
          · refine Or.inl ⟨fun x hx hn => ?_, fun x hx => h3 x (by simp [hx])⟩
            rcases List.mem_cons.1 hx with rfl | hx
            · exact h3 x (by simp)
            · exact h1 x hx hn
          · exact Or.inr h1
        · rcases h2 p hp with h | h | ⟨qs, h, h'⟩
          · rcases List.mem_append.1 h with h | h
            · exact Or.inl h
            · exact Or.inr (Or.inl (by simp_all))
          · exact Or.inr (Or.inl (by simp [h]))
          · exact Or.inr (Or.inr ⟨qs, by simp [h], h'⟩)
      cases a with
      | any qs =>
        obtain ⟨h1, h2⟩ := ih (acc ++ qs)
        simp only [Period.anyMembers]
        refine ⟨?_, fun p hp => ?_⟩
        · rcases h1 with ⟨h1, h3⟩ | h1
          · refine Or.inl ⟨fun x hx hn => ?_, fun x hx => h3 x (by simp [hx])⟩
            rcases List.mem_cons.1 hx with rfl | hx
            · exact absurd rfl (hn qs)
            · exact h1 x hx hn
          · exact Or.inr h1
        · rcases h2 p hp with h | h | ⟨rs, h, h'⟩
          · rcases List.mem_append.1 h with h | h
            · exact Or.inl h
            · exact Or.inr (Or.inr ⟨qs, by simp, h⟩)
          · exact Or.inr (Or.inl (by simp [h]))
          · exact Or.inr (Or.inr ⟨rs, by simp [h], h'⟩)
      | always => simp [Period.anyMembers]
      | _ => exact step (by simp) rfl
  constructor
  · intro h
    unfold Period.mkAll at h
    split at h
    · exact absurd h (by simp)
    · simp only [Except.ok.injEq, Period.all.injEq] at h
      subst h
      refine ⟨fun a ha h1 h2 => ?_, fun p hp => (hall args).2 p (Period.mem_setOf hp), hd _⟩
      obtain ⟨p, hp, hs⟩ := Period.setOf_covers ((hall args).1 a ha h1 h2)
      exact ⟨p, hp, hpe _ _ hs⟩
  · intro h
    unfold Period.mkAny at h
    split at h
    · exact absurd h (by simp)
    · simp only [Except.ok.injEq, Period.any.injEq] at h
      subst h
      refine ⟨?_, fun p hp => ?_, hd _⟩
      · rcases (hany args []).1 with ⟨h1, -⟩ | h1
        · refine Or.inl fun a ha hn => ?_
          obtain ⟨p, hp, hs⟩ := Period.setOf_covers (h1 a ha hn)
          exact ⟨p, hp, hpe _ _ hs⟩
        · rw [h1]; exact Or.inr rfl
      · rcases (hany args []).2 p (Period.mem_setOf hp) with h | h
        · exact absurd h (by simp)
        · exact h

/-- C67 fails for `RelativeDay`: `RelativeDay("today") == RelativeDay("yesterday")` although their spans differ, and
therefore `RelativeDay("today") | RelativeDay("yesterday")` is only today. -/
theorem C67_relative_day_violated (n : Nat) (dt : Int) :
    (Period.relday 0 0 (DAY - 1)).pyEq (.relday DAY 0 (DAY - 1)) = .ok true ∧
    (Period.relday 0 0 (DAY - 1)).rollback (n + 1) dt ≠ (Period.relday DAY 0 (DAY - 1)).rollback (n + 1) dt ∧
    (Period.relday 0 0 (DAY - 1)).or (.relday DAY 0 (DAY - 1)) = .ok (.any [.relday 0 0 (DAY - 1)]) := by
  refine ⟨rfl, ?_, rfl⟩
  simp only [Period.rollback, Interval.make]
  rw [if_neg (by unfold DAY; omega), if_neg (by unfold DAY; omega)]
  intro h
  simp only [Except.ok.injEq, Interval.mk.injEq] at h
  have := h.1
  unfold DAY at this
  omega

/-- C67: a `TimeDelta` and a `TimeSpanDelta` cannot be compared at all, on either side. -/
theorem C67_span_violated (past future near : Int) (far : Option Int) :
    (Period.delta past future).pyEq (.span near far) = .error .attribute ∧
    (Period.span near far).pyEq (.delta past future) = .error .attribute := ⟨rfl, rfl⟩

/-- C67 fails for the spans of unions: equal unions are rolled to different spans, according to the order in which the
set happens to give its members (the hashes of dates and so this order differ from process to process). -/
theorem C67_order_violated :
    (Period.any [.static 0 5, .static 0 10, .static 7 20]).pyEq (.any [.static 0 10, .static 0 5, .static 7 20]) = .ok true ∧
    (Period.any [.static 0 5, .static 0 10, .static 7 20]).rollforward 5 0 = .ok ⟨0, 20, .left⟩ ∧
    (Period.any [.static 0 10, .static 0 5, .static 7 20]).rollforward 5 0 = .ok ⟨0, 10, .left⟩ := by decide +kernel

/-- Before the sets were part of the model: the set matters, because an empty span does not overlap itself. -/
example : (Period.static MAXT MAXT).and (.static MAXT MAXT) = .ok (.all [.static MAXT MAXT]) ∧
    (Period.all [.static MAXT MAXT]).rollforward 3 0 = .ok ⟨MAXT, MAXT, .left⟩ ∧
    (Period.all [.static MAXT MAXT, .static MAXT MAXT]).rollforward 3 0 = .error .recursion := ⟨rfl, by decide +kernel, by decide +kernel⟩

end Rocketry.Props
