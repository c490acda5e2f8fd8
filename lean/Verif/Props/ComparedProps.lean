import Verif.Spec.ComparedSpec

/-!
# C108: a comparison of a condition that counts is the condition that the number compares so
-/

namespace Rocketry.Props
open Rocketry Spec Compared

theorem stands_holds (op : Comp) (a b : Int) : op.holds a b = true ↔ Stands op a b := by
  cases op <;> simp [Comp.holds, Stands]

/-- **C108 (the part that holds).**  The comparison of `running`, `running('task')` or of a new counting condition with a
number, for every operator and number, is a condition that holds exactly if the number counted compares so. -/
theorem C108_tells_partial (op : Comp) (n : Int) :
    (∀ t, Tells (compareTo op (.running t) n) (.runs t none) op n) ∧
    (∀ c, Tells (compareTo op (.counting c []) n) c op n) := by
  constructor
  · intro t
    refine ⟨rfl, fun m other => ⟨_, rfl, ?_⟩⟩
    rw [show compState (Comps.set [] op n) (m (.runs t none)) = op.holds (m (.runs t none)) n by
      simp [compState, Comps.set]]
    exact stands_holds op _ n
  · intro c
    refine ⟨rfl, fun m other => ⟨_, rfl, ?_⟩⟩
    rw [show compState (Comps.set [] op n) (m c) = op.holds (m c) n by simp [compState, Comps.set]]
    exact stands_holds op _ n

example : compareTo .ge (.running (some "a")) 2 = .cond (.counting (.runs (some "a") none) [(.ge, 2)]) := rfl

/-- Two comparisons with different operators are both asked for; with the same operator the second counts. -/
theorem C108_twice (c : Counts) (op op' : Comp) (n n' : Int) (r : Written) (h : compareTo op (.counting c []) n = .cond r)
    (m : Counts → Int) (other : Written → Bool) :
    ∃ b, observe m other (compareTo op' r n') = some b ∧
      (b = true ↔ (op = op' ∨ Stands op (m c) n) ∧ Stands op' (m c) n') := by
  have hr : r = .counting c [(op, n)] := by
    have := Val.cond.inj h
    exact this.symm
  subst hr
  refine ⟨_, rfl, ?_⟩
  by_cases he : op = op'
  · subst he
    simp [Comps.set, compState, stands_holds]
  · simp [Comps.set, if_neg he, compState, he, stands_holds]

example : compareTo .ge (.counting .cycles []) 2 = .cond (.counting .cycles [(.ge, 2)]) := rfl

/-- **C108 is violated by `started`, `succeeded.today` etc.**  No comparison of these with a number gives a condition:
`==` gives False, `!=` gives True, and the others raise TypeError. -/
theorem C108_wrapper_violated (r : Written) (c : Counts) (hc : countedBy r = some c)
    (hr : (∃ v t, r = .action v t) ∨ ∃ v t p, r = .timed v t p) (op : Comp) (n : Int) :
    ¬ Tells (compareTo op r n) c op n ∧ accepted (compareTo op r n) = false ∧
    (op = .eq → compareTo op r n = .bool false) ∧ (op = .ne → compareTo op r n = .bool true) ∧
    (op ≠ .eq → op ≠ .ne → compareTo op r n = .typeError) := by
  have ha : accepted (compareTo op r n) = false := by
    rcases hr with ⟨v, t, rfl⟩ | ⟨v, t, p, rfl⟩ <;> cases op <;> rfl
  refine ⟨fun h => ?_, ha, ?_, ?_, ?_⟩
  · have := h.1
    rw [ha] at this; exact nomatch this
  · rintro rfl
    rcases hr with ⟨v, t, rfl⟩ | ⟨v, t, p, rfl⟩ <;> rfl
  · rintro rfl
    rcases hr with ⟨v, t, rfl⟩ | ⟨v, t, p, rfl⟩ <;> rfl
  · intro h1 h2
    rcases hr with ⟨v, t, rfl⟩ | ⟨v, t, p, rfl⟩ <;> cases op <;> first | rfl | exact absurd rfl h1 | exact absurd rfl h2

example : countedBy (.timed .succeeded none 0) = some (.actions .succeeded none (some 0)) := rfl

/-- **C108 is violated: combined conditions.**  `left & (succeeded.today == n)` is made without complaint, and raises
AttributeError whenever `left` is true; so the scheduler ends, or the task never runs if errors of conditions are
silenced. -/
theorem C108_combined_violated (left : Written) (v : Verb) (t : Option String) (p : Nat) (n : Int) (m : Counts → Int)
    (other : Written → Bool) (op : Comp) (hop : op = .eq ∨ op = .ne) :
    observeAnd m other left (compareTo op (.timed v t p) n) ≠ some true ∧
    (observe m other (.cond left) = some true → observeAnd m other left (compareTo op (.timed v t p) n) = none) ∧
    (observe m other (.cond left) = some false → observeAnd m other left (compareTo op (.timed v t p) n) = some false) := by
  have hv : observe m other (compareTo op (.timed v t p) n) = none := by rcases hop with rfl | rfl <;> rfl
  refine ⟨?_, ?_, ?_⟩
  · unfold observeAnd
    cases observe m other (.cond left) with
    | none => simp
    | some b => cases b <;> simp [hv]
  · intro h
    unfold observeAnd
    rw [h]
    exact hv
  · intro h
    unfold observeAnd
    rw [h]

/-- Conjunctions of conditions: both hold. -/
theorem C108_and (left right : Written) (m : Counts → Int) (other : Written → Bool) (a b : Bool)
    (ha : observe m other (.cond left) = some a) (hb : observe m other (.cond right) = some b) :
    observeAnd m other left (.cond right) = some (a && b) := by
  unfold observeAnd
  rw [ha]
  cases a <;> simp [hb]

example : observe (fun _ => 3) (fun _ => true) (.cond (.timed .succeeded none 0)) = some true := rfl

/- `daily & (succeeded.today == 0)`, when it is due. -/
example : observe (fun _ => 0) (fun _ => true) (.cond (.plain 0 0)) = some true := rfl

/-- **C108 is violated: `running == running`.**  A `RunningWrapper` is not equal to itself, and its equality with the
condition it stands for goes in one direction only.  All other conditions are equal to themselves. -/
theorem C108_self_violated (t : Option String) :
    equal (.running t) (.running t) = false ∧
    equal (.running t) (.counting (.runs t none) []) = true ∧
    equal (.counting (.runs t none) []) (.running t) = false := by
  refine ⟨?_, ?_, ?_⟩
  · simp [equal]
  · simp [equal]
  · simp [equal]

/-- For all but `RunningWrapper`s equality is an equivalence. -/
theorem C108_equal_partial (a b : Written) (ha : ∀ t, a ≠ .running t) (hb : ∀ t, b ≠ .running t) :
    equal a a = true ∧ (equal a b = equal b a) ∧ (equal a b = true → ∀ c, equal a c = equal b c) := by
  have h : ∀ x : Written, (∀ t, x ≠ .running t) → ∀ y, equal x y = decide (x = y) := by
    intro x hx y
    cases x with
    | running t => exact absurd rfl (hx t)
    | _ => rfl
  refine ⟨by rw [h a ha]; simp, ?_, ?_⟩
  · rw [h a ha, h b hb]; exact decide_eq_decide.2 eq_comm
  · intro he c
    rw [h a ha] at he
    rw [of_decide_eq_true he]

example : equal (.timed .succeeded (some "a") 3) (.timed .succeeded (some "a") 3) = true := by decide

end Rocketry.Props
