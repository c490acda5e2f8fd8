import Verif.Time.FixedLemmas
import Mathlib.Tactic.Tauto
import Mathlib.Tactic.ByContra

/-!
# C02-C06: clock periods with a fixed cycle (second, minute, hour, day, week)

`Bounds p L` are the bounds that the constructor guarantees (`_validate`); see `C02_constructor`.
-/

namespace Rocketry.Props
open Rocketry Spec

/-- The bounds every constructed period has. -/
structure Bounds (p : Anchored) (L : Int) : Prop where
  start_nonneg : 0 ≤ p.start
  start_le : p.start ≤ L
  stop_nonneg : 0 ≤ p.stop
  stop_le : p.stop ≤ L

/-- Every period the constructor returns has its bounds inside the cycle (any class, any arguments). -/
theorem C02_constructor (sc : Scope) (a b : Option AVal) (tp st rc : Bool) (p : Anchored)
    (h : Anchored.init sc a b tp st rc = .ok p) : p.scope = sc ∧ Bounds p sc.max := by
  unfold Anchored.init at h
  split at h
  · split at h
    · exact absurd h (by simp)
    · simp only [Except.ok.injEq] at h
      subst h
      refine ⟨rfl, ?_⟩
      have : 0 ≤ sc.max := by cases sc <;> decide
      constructor <;> simp <;> omega
  · simp only [bind, Except.bind] at h
    split at h
    · exact absurd h (by simp)
    · rename_i s hs
      split at h
      · exact absurd h (by simp)
      · rename_i e he
        simp only [pure, Except.pure, Except.ok.injEq] at h
        subst h
        refine ⟨rfl, ?_⟩
        have h1 := setStart_ok hs
        have h2 := setEnd_ok he
        exact ⟨h1.1, h1.2, h2.1, h2.2⟩

example : Anchored.init .day (some (.clock (10 * HOUR))) (some (.clock (15 * HOUR))) =
    .ok ⟨.day, 10 * HOUR, 15 * HOUR⟩ := rfl

/-- C02: membership is the arc condition on the cycle position. -/
theorem C02_contains (p : Anchored) (L : Int) (hL : cycleLen p.scope = some L) (hb : Bounds p L)
    (t : Int) : p.contains t = true ↔ InArc L p.start p.stop t := by
  by_cases hf : p.isFull = true
  · have := (isFull_iff hL).1 hf
    unfold Anchored.contains InArc
    simp only [hf, if_true, true_iff]
    tauto
  · have hf' : p.isFull = false := by simpa using hf
    have hn : ¬ (p.start = p.stop ∨ (p.start = 0 ∧ p.stop = L)) := fun h => hf ((isFull_iff hL).2 h)
    rw [contains_iff_inC hL hf' t]
    exact inC_iff_arc hL _ _ _ hb.1 hb.2 hb.3 hb.4 (fun h => hn (Or.inl h)) (fun h => hn (Or.inr h))

/-- Over-midnight period 22:00-02:00: contains 23:30 and 01:59 but not 12:00. -/
example : Bounds ⟨.day, 22 * HOUR, 2 * HOUR⟩ (24 * 60 * 60 * 1000000) ∧
    Anchored.contains ⟨.day, 22 * HOUR, 2 * HOUR⟩ (datetime 2024 5 1 23 30) = true ∧
    Anchored.contains ⟨.day, 22 * HOUR, 2 * HOUR⟩ (datetime 2024 5 2 1 59) = true ∧
    Anchored.contains ⟨.day, 22 * HOUR, 2 * HOUR⟩ (datetime 2024 5 2 12 0) = false :=
  ⟨⟨by decide, by decide, by decide, by decide⟩, by decide, by decide, by decide⟩

/-- C02: membership is unchanged by shifting any whole number of cycles. -/
theorem C02_periodic (p : Anchored) (L : Int) (hL : cycleLen p.scope = some L) (t k : Int) :
    p.contains (t + L * k) = p.contains t := by
  unfold Anchored.contains
  rw [anchorDt_fixed hL, anchorDt_fixed hL, Int.add_mul_emod_self_left]

example : cycleLen Scope.week = some 604800000000 := rfl

/-- The only constructible fixed-cycle period that contains no instant: start at the very end of the
cycle, end at its very beginning (e.g. `TimeOfHour("60:00", "00:00")`). -/
def Degenerate (p : Anchored) (L : Int) : Prop := p.start = L ∧ p.stop = 0

/-- C03: rolling forward a period that is not the full cycle gives the first run.  Missing: the degenerate period, for
which the claim is false (`C03_degenerate_violated`). -/
theorem C03_rollforward_partial (p : Anchored) (L : Int) (hL : cycleLen p.scope = some L) (hb : Bounds p L)
    (hf : p.isFull = false) (hd : ¬ Degenerate p L) (n : Nat) (dt : Int) :
    ∃ l r, Anchored.rollforward (n + 1) p dt = .ok ⟨l, r, .left⟩ ∧
      FirstRun (fun t => InArc L p.start p.stop t) dt l r := by
  have hLp := cycleLen_pos hL
  have hn : ¬ (p.start = p.stop ∨ (p.start = 0 ∧ p.stop = L)) := by
    intro h
    have := (isFull_iff hL).2 h
    rw [hf] at this
    exact absurd this (by simp)
  have hin : ∀ t, InC p.start p.stop (t % L) ↔ InArc L p.start p.stop t := fun t =>
    inC_iff_arc hL _ _ t hb.1 hb.2 hb.3 hb.4 (fun h => hn (Or.inl h)) (fun h => hn (Or.inr h))
  have key := Axis.forward (axis_fixed L hLp) p.start p.stop dt hb.1 hb.3 (fun _ => hb.2) (fun _ => hb.4)
    (fun h => hn (Or.inl h)) (fun _ h => hn (Or.inr h)) (fun _ h => hd h)
    (p.rollstart dt) (p.nextEnd dt)
    (by
      unfold Anchored.rollstart Anchored.nextStart
      rw [anchorDt_fixed hL, cycleLen_fwd hL]
      by_cases h : InC p.start p.stop (dt % L)
      · simp only [(contains_iff_inC hL hf dt).2 h, if_true, h]
      · have : ¬ p.contains dt = true := fun h' => h ((contains_iff_inC hL hf dt).1 h')
        simp only [this, h, if_false, Bool.false_eq_true])
    (by
      unfold Anchored.nextEnd
      rw [anchorDt_fixed hL, cycleLen_fwd hL])
  obtain ⟨k1, k2, k3, k4, k5⟩ := key
  refine ⟨p.rollstart dt, p.nextEnd dt, ?_, ?_⟩
  · unfold Anchored.rollforward
    rw [hf]
    simp only [Bool.false_eq_true, if_false]
    rw [if_neg (by omega)]
    exact Interval.make_ok.2 ⟨by omega, rfl⟩
  · refine ⟨k1, k2, ?_, ?_, ?_⟩
    · intro x hx1 hx2 hx3; exact k3 x hx1 hx2 ((hin x).2 hx3)
    · intro x hx1 hx2; exact (hin x).1 (k4 x hx1 hx2)
    · intro h; exact k5 ((hin _).2 h)

/-- 10:00-15:00 daily from 16:30: the next occurrence is tomorrow's. -/
example : Anchored.rollforward 1 ⟨.day, 10 * HOUR, 15 * HOUR⟩ (datetime 2024 2 28 16 30) =
    .ok ⟨datetime 2024 2 29 10, datetime 2024 2 29 15, .left⟩ ∧
    Anchored.isFull ⟨.day, 10 * HOUR, 15 * HOUR⟩ = false := by decide

/-- C03 (full cycle): rolling forward runs from `dt` to the next cycle boundary. -/
theorem C03_rollforward_full (p : Anchored) (L : Int) (hL : cycleLen p.scope = some L) (hb : Bounds p L)
    (hf : p.isFull = true) (n : Nat) (dt : Int) :
    ∃ r, Anchored.rollforward (n + 1) p dt = .ok ⟨dt, r, .left⟩ ∧ NextOccurrence L p.stop dt r := by
  rcases p with ⟨sc, s, e⟩
  obtain ⟨h1, h2, h3, h4⟩ := hb
  simp only [] at *
  refine ⟨Anchored.nextEnd ⟨sc, s, e⟩ dt, ?_, ?_⟩
  · unfold Anchored.rollforward
    rw [hf]
    simp only [if_true]
    have hlt : dt < Anchored.nextEnd ⟨sc, s, e⟩ dt := by
      unfold Anchored.nextEnd
      simp only []
      rw [anchorDt_fixed hL, cycleLen_fwd hL]
      have := Int.emod_lt_of_pos dt (cycleLen_pos hL)
      split <;> omega
    rw [if_neg (by omega)]
    exact Interval.make_ok.2 ⟨by omega, rfl⟩
  · unfold Anchored.nextEnd
    simp only []
    rw [anchorDt_fixed hL, cycleLen_fwd hL]
    cases sc <;> simp [cycleLen] at hL <;> subst hL <;> constructor <;> (try intro x hx1 hx2) <;>
      split at * <;> omega

example : Anchored.rollforward 1 ⟨.day, 0, 24 * HOUR⟩ (datetime 2024 2 28 16 30) =
    .ok ⟨datetime 2024 2 28 16 30, datetime 2024 2 29, .left⟩ := by decide

/-- The excluded degenerate period never returns from `rollforward`: every recursion budget is exhausted
(`RecursionError`). -/
theorem C03_degenerate_violated (p : Anchored) (L : Int) (hL : cycleLen p.scope = some L)
    (hd : Degenerate p L) (n : Nat) (dt : Int) : Anchored.rollforward n p dt = .error .recursion := by
  have hLp := cycleLen_pos hL
  obtain ⟨h1, h2⟩ := hd
  have hf : p.isFull = false := by
    by_contra h
    have := (isFull_iff hL).1 (by simpa using h)
    omega
  induction n generalizing dt with
  | zero => rfl
  | succ n ih =>
    unfold Anchored.rollforward
    rw [hf]
    simp only [Bool.false_eq_true, if_false]
    have hpos := Int.emod_nonneg dt (show L ≠ 0 by omega)
    have hlt := Int.emod_lt_of_pos dt hLp
    have e1 : p.rollstart dt = p.nextEnd dt := by
      unfold Anchored.rollstart Anchored.nextEnd Anchored.nextStart
      rw [anchorDt_fixed hL, cycleLen_fwd hL]
      have hc : ¬ p.contains dt = true := by
        rw [contains_iff_inC hL hf]
        unfold InC
        split <;> omega
      simp only [hc, if_false, Bool.false_eq_true]
      split <;> split <;> omega
    rw [if_pos e1]
    exact ih _

example : Anchored.init .hour (some (.clock (60 * MIN))) (some (.clock 0)) = .ok ⟨.hour, HOUR, 0⟩ ∧
    Degenerate ⟨.hour, HOUR, 0⟩ HOUR := ⟨rfl, rfl, rfl⟩

/-- C04: rolling back a period that is not the full cycle gives the latest run up to `dt`; a single
instant is closed on both sides.  Missing: the degenerate period, for which the claim is false
(`C04_degenerate_violated`). -/
theorem C04_rollback_partial (p : Anchored) (L : Int) (hL : cycleLen p.scope = some L) (hb : Bounds p L)
    (hf : p.isFull = false) (hd : ¬ Degenerate p L) (dt : Int) :
    ∃ l r, p.rollback dt = .ok ⟨l, r, if l = r then .both else .left⟩ ∧
      LastRun (fun t => InArc L p.start p.stop t) dt l r := by
  have hLp := cycleLen_pos hL
  have hn : ¬ (p.start = p.stop ∨ (p.start = 0 ∧ p.stop = L)) := by
    intro h
    have := (isFull_iff hL).2 h
    rw [hf] at this
    exact absurd this (by simp)
  have hin : ∀ t, InC p.start p.stop (t % L) ↔ InArc L p.start p.stop t := fun t =>
    inC_iff_arc hL _ _ t hb.1 hb.2 hb.3 hb.4 (fun h => hn (Or.inl h)) (fun h => hn (Or.inr h))
  have hcut : InC p.start p.stop (dt % L) → p.rollend dt = dt := by
    intro h
    unfold Anchored.rollend
    simp only [(contains_iff_inC hL hf dt).2 h, if_true]
  have key := Axis.backward (axis_fixed L hLp) p.start p.stop dt hb.1 hb.3 (fun _ => hb.2) (fun _ => hb.4)
    (fun h => hn (Or.inl h)) (fun _ h => hn (Or.inr h)) (fun _ h => hd h)
    (p.prevStart dt) (p.rollend dt)
    (by
      unfold Anchored.rollend Anchored.prevEnd
      rw [anchorDt_fixed hL, cycleLen_back hL]
      by_cases h : InC p.start p.stop (dt % L)
      · simp only [(contains_iff_inC hL hf dt).2 h, if_true, h]
      · have : ¬ p.contains dt = true := fun h' => h ((contains_iff_inC hL hf dt).1 h')
        simp only [this, h, if_false, Bool.false_eq_true])
    (by
      unfold Anchored.prevStart
      rw [anchorDt_fixed hL, cycleLen_back hL])
  obtain ⟨k1, k2, k3, k4, k5, k6, k7⟩ := key
  refine ⟨p.prevStart dt, p.rollend dt, ?_, ?_⟩
  · unfold Anchored.rollback
    rw [hf]
    simp only [Bool.false_eq_true, if_false]
    exact Interval.make_ok.2 ⟨k2, rfl⟩
  · refine ⟨k1, k2, ?_, ?_, ?_, ?_, ?_, ?_⟩
    · intro h; exact ⟨(k3 h).1, (hin _).1 (k3 h).2⟩
    · intro x hx1 hx2 hx3; exact k4 x hx1 hx2 ((hin x).2 hx3)
    · intro x hx1 hx2; exact (hin x).1 (k5 x hx1 hx2)
    · intro h; exact hcut ((hin _).2 h)
    · exact (hin _).1 k6
    · intro h; exact k7 ((hin _).2 h)

/-- From 01:15 the 22:00-02:00 period rolls back to yesterday 22:00. -/
example : Anchored.rollback ⟨.day, 22 * HOUR, 2 * HOUR⟩ (datetime 2024 3 1 1 15) =
    .ok ⟨datetime 2024 2 29 22, datetime 2024 3 1 1 15, .left⟩ := by decide

/-- C04 fails for the degenerate period, which contains no instant: rolling back gives the span that consists of the
latest start of the cycle alone. -/
theorem C04_degenerate_violated (p : Anchored) (L : Int) (hL : cycleLen p.scope = some L)
    (hd : Degenerate p L) (dt : Int) :
    ∃ l, p.rollback dt = .ok ⟨l, l, .both⟩ ∧ ∀ t, ¬ p.contains t = true := by
  have hLp := cycleLen_pos hL
  obtain ⟨h1, h2⟩ := hd
  have hf : p.isFull = false := by
    by_contra h
    have := (isFull_iff hL).1 (by simpa using h)
    omega
  have hno : ∀ t, ¬ p.contains t = true := by
    intro t
    have hpos := Int.emod_nonneg t (show L ≠ 0 by omega)
    have hlt := Int.emod_lt_of_pos t hLp
    unfold Anchored.contains
    simp only [hf, Bool.false_eq_true, if_false, anchorDt_fixed hL, h1, h2]
    rw [if_neg (by omega)]
    simp only [Bool.or_eq_true, decide_eq_true_eq]
    omega
  have hpos := Int.emod_nonneg dt (show L ≠ 0 by omega)
  have hlt := Int.emod_lt_of_pos dt hLp
  have e1 : p.prevStart dt = dt - dt % L := by
    unfold Anchored.prevStart
    simp only [anchorDt_fixed hL, cycleLen_back hL, h1]
    rw [if_pos (by omega)]
    omega
  have e2 : p.rollend dt = dt - dt % L := by
    unfold Anchored.rollend Anchored.prevEnd
    rw [if_neg (hno dt)]
    simp only [anchorDt_fixed hL, h2]
    rw [if_neg (by omega)]
    omega
  refine ⟨dt - dt % L, ?_, hno⟩
  unfold Anchored.rollback
  simp only [hf, Bool.false_eq_true, if_false, e1, e2, if_true]
  exact Interval.make_ok.2 ⟨by omega, rfl⟩

/-- C04 (full cycle): the span from the latest cycle boundary strictly before `dt` up to `dt`. -/
theorem C04_rollback_full (p : Anchored) (L : Int) (hL : cycleLen p.scope = some L) (hb : Bounds p L)
    (hf : p.isFull = true) (dt : Int) :
    ∃ l, p.rollback dt = .ok ⟨l, dt, .left⟩ ∧ PrevOccurrence L p.start (dt - 1) l := by
  rcases p with ⟨sc, s, e⟩
  obtain ⟨h1, h2, h3, h4⟩ := hb
  simp only [] at *
  have hfull := (isFull_iff hL).1 hf
  simp only [] at hfull
  refine ⟨if dt = Anchored.prevStart ⟨sc, s, e⟩ dt then Anchored.prevStart ⟨sc, s, e⟩ (dt - 1)
    else Anchored.prevStart ⟨sc, s, e⟩ dt, ?_, ?_⟩
  · unfold Anchored.rollback
    rw [hf]
    simp only [if_true]
    refine Interval.make_ok.2 ⟨?_, rfl⟩
    unfold Anchored.prevStart
    simp only []
    rw [anchorDt_fixed hL, anchorDt_fixed hL, cycleLen_back hL, cycleLen_back hL]
    have a1 := Int.emod_nonneg dt (show L ≠ 0 by have := cycleLen_pos hL; omega)
    have a2 := Int.emod_nonneg (dt - 1) (show L ≠ 0 by have := cycleLen_pos hL; omega)
    repeat' split
    all_goals omega
  · unfold Anchored.prevStart
    simp only []
    rw [anchorDt_fixed hL, anchorDt_fixed hL, cycleLen_back hL, cycleLen_back hL]
    cases sc <;> simp [cycleLen] at hL <;> subst hL <;> constructor <;> (try intro x hx1 hx2) <;>
      (repeat' split at *) <;> omega

/-- At midnight sharp the daily cycle rolls back over the whole previous day. -/
example : Anchored.rollback ⟨.day, 0, 24 * HOUR⟩ (datetime 2024 3 1) =
    .ok ⟨datetime 2024 2 29, datetime 2024 3 1, .left⟩ := by decide

end Rocketry.Props
