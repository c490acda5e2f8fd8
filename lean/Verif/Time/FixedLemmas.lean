import Verif.Time.Axis
import Verif.Spec.TimeSpec

/-! # Helper lemmas: the five classes with a fixed cycle length -/

namespace Rocketry
open Spec

theorem cycleLen_max {sc : Scope} {L : Int} (h : cycleLen sc = some L) : sc.max = L := by
  cases sc <;> simp [cycleLen] at h <;> subst h <;> rfl

theorem cycleLen_pos {sc : Scope} {L : Int} (h : cycleLen sc = some L) : 0 < L := by
  cases sc <;> simp [cycleLen] at h <;> omega

theorem cycleLen_fwd {sc : Scope} {L : Int} (h : cycleLen sc = some L) (t : Int) :
    scopeForward sc t = L := by
  cases sc <;> simp [cycleLen] at h <;> subst h <;> rfl

theorem cycleLen_back {sc : Scope} {L : Int} (h : cycleLen sc = some L) (t : Int) :
    scopeBack sc t = L := by
  cases sc <;> simp [cycleLen] at h <;> subst h <;> rfl

theorem anchorDt_fixed {sc : Scope} {L : Int} (h : cycleLen sc = some L) (t : Int) :
    anchorDt sc t = t % L := by
  cases sc <;> simp [cycleLen] at h <;> subst h <;>
    simp only [anchorDt, toMicroseconds, microsecond, second, minute, hour, weekday, dayOf,
      DAY, HOUR, MIN, SEC] <;> omega

/-- `InC` on positions is the arc condition. -/
theorem inC_iff_arc {sc : Scope} {L : Int} (h : cycleLen sc = some L) (s e t : Int)
    (hs : 0 ≤ s) (hsL : s ≤ L) (he : 0 ≤ e) (heL : e ≤ L) (_hse : s ≠ e) (hfull : ¬ (s = 0 ∧ e = L)) :
    InC s e (t % L) ↔ InArc L s e t := by
  unfold InC InArc
  cases sc <;> simp [cycleLen] at h <;> subst h <;> split <;> omega

theorem isFull_iff {p : Anchored} {L : Int} (h : cycleLen p.scope = some L) :
    p.isFull = true ↔ (p.start = p.stop ∨ (p.start = 0 ∧ p.stop = L)) := by
  unfold Anchored.isFull
  rw [cycleLen_max h]
  simp

theorem contains_iff_inC {p : Anchored} {L : Int} (h : cycleLen p.scope = some L)
    (hf : p.isFull = false) (t : Int) : p.contains t = true ↔ InC p.start p.stop (t % L) := by
  have hne : p.start ≠ p.stop := by
    intro he
    have := (isFull_iff h).2 (Or.inl he)
    rw [hf] at this
    exact absurd this (by simp)
  unfold Anchored.contains InC
  rw [hf, anchorDt_fixed h]
  simp only [Bool.false_eq_true, if_false]
  split <;> split <;> simp <;> omega

theorem validate_ok {sc : Scope} {n : Int} {u : Unit} (h : validate sc n = .ok u) :
    0 ≤ n ∧ n ≤ sc.max := by
  unfold validate at h
  split at h
  · exact absurd h (by simp)
  · omega

theorem setStart_ok {sc : Scope} {v : Option AVal} {s : Int} (h : setStart sc v = .ok s) :
    0 ≤ s ∧ s ≤ sc.max := by
  unfold setStart at h
  cases v with
  | none =>
    simp only [bind, Except.bind] at h
    cases hv : validate sc 0 with
    | error e => rw [hv] at h; exact absurd h (by simp)
    | ok u =>
      rw [hv] at h
      simp only [pure, Except.pure, Except.ok.injEq] at h
      subst h; exact validate_ok hv
  | some v =>
    simp only [bind, Except.bind] at h
    cases ha : anchorVal sc v .start with
    | error e => rw [ha] at h; exact absurd h (by simp)
    | ok n =>
      rw [ha] at h
      cases hv : validate sc n with
      | error e => simp only [hv] at h; exact absurd h (by simp)
      | ok u =>
        simp only [hv, pure, Except.pure, Except.ok.injEq] at h
        subst h; exact validate_ok hv

/-- The tail of `setEnd` after the raw value is known. -/
theorem setEnd_tail {sc : Scope} {x : Except PyErr Int} {rc : Bool} {e : Int}
    (h : (x.bind fun ms => (validate sc (if rc = true then ms + 1 else ms)).bind
      fun _ => (Except.ok (if rc = true then ms + 1 else ms) : Except PyErr Int)) = .ok e) :
    0 ≤ e ∧ e ≤ sc.max := by
  cases x with
  | error e => exact absurd h (by simp [Except.bind])
  | ok ms =>
    simp only [Except.bind] at h
    cases hv : validate sc (if rc = true then ms + 1 else ms) with
    | error e => simp only [hv] at h; exact absurd h (by simp)
    | ok u =>
      simp only [hv, Except.ok.injEq] at h
      rw [h] at hv; exact validate_ok hv

theorem setEnd_ok {sc : Scope} {s : Int} {v : Option AVal} {tp st rc : Bool} {e : Int}
    (h : setEnd sc s v tp st rc = .ok e) : 0 ≤ e ∧ e ≤ sc.max := by
  unfold setEnd at h
  cases v with
  | none =>
    cases tp with
    | true => exact setEnd_tail (x := toTimepoint sc s) h
    | false =>
      cases st with
      | true => exact setEnd_tail (x := .ok s) h
      | false => exact setEnd_tail (x := .ok sc.max) h
  | some v => exact setEnd_tail (x := anchorVal sc v .stop) h

end Rocketry
