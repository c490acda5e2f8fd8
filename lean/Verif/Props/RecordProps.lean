import Verif.Task.Records
import Verif.Props.RunTimesProps

/-!
# C94: a record read with times tells the times of the run

Instants are kept.  The duration is not: the number of seconds is read as a number of microseconds.
-/

namespace Rocketry.Props

open Rocketry Rocketry.Task Spec

theorem roundHalfEven_near (a b : Int) (hb : 0 < b) : 2 * (roundHalfEven a b * b - a) ≤ b ∧ 2 * (a - roundHalfEven a b * b) ≤ b := by
  have h1 := Int.emod_nonneg a (by omega : b ≠ 0)
  have h2 := Int.emod_lt_of_pos a hb
  have h3 : b * (a / b) + a % b = a := Int.mul_ediv_add_emod a b
  rw [roundHalfEven]
  have e1 : a / b * b = b * (a / b) := Int.mul_comm _ _
  have e2 : (a / b + 1) * b = b * (a / b) + b := by rw [Int.add_mul, e1, Int.one_mul]
  split
  · rw [e1]; omega
  · split
    · rw [e2]; omega
    · split
      · rw [e1]; omega
      · rw [e2]; omega

/-- An exact multiple is not rounded. -/
theorem roundHalfEven_exact (q b : Int) (hb : 0 < b) : roundHalfEven (q * b) b = q := by
  rw [roundHalfEven, Int.mul_emod_left, Int.mul_ediv_cancel _ (by omega)]
  simp [hb]

/-- C94: numbers with the unit of a second are read exactly, as for the timeout of a task. -/
theorem C94_seconds (n : Int) : numbToTimedelta n .second = n := roundHalfEven_exact n 1000000 (by decide)

/-- C94: every record of a log can be read with times; it has the action, the run and the time of the record, and its start
and end are the instants that were written. -/
theorem C94_instants_partial (r : TimedRec) : ∃ f, taskLogRecord (writtenFields r) = some f ∧
    f.action = r.action ∧ f.run = r.run ∧ f.created = r.created ∧
    f.start = r.start.map .time ∧ f.stop = r.stop.map .time ∧ (f.runtime.isSome = r.runtime.isSome) := by
  rcases r with ⟨a, i, s, e, d, c⟩
  cases s <;> cases e <;> cases d <;> exact ⟨_, rfl, rfl, rfl, rfl, rfl, rfl, rfl⟩

/-- C94: reading a record again changes nothing. -/
theorem C94_again (r f : RecFields) (h : taskLogRecord r = some f) : taskLogRecord f = some f := by
  rcases r with ⟨a, i, c, s, e, d⟩
  cases s with
  | none =>
    cases e with
    | none => rcases d with _ | (_ | _ | _) <;> simp [taskLogRecord, formatInstant, formatRuntime, toTimedelta] at h <;> subst h <;> rfl
    | some e =>
      cases e <;> rcases d with _ | (_ | _ | _) <;>
        simp [taskLogRecord, formatInstant, formatRuntime, toTimedelta, toDatetime] at h <;> subst h <;> rfl
  | some s =>
    cases e with
    | none =>
      cases s <;> rcases d with _ | (_ | _ | _) <;>
        simp [taskLogRecord, formatInstant, formatRuntime, toTimedelta, toDatetime] at h <;> subst h <;> rfl
    | some e =>
      cases s <;> cases e <;> rcases d with _ | (_ | _ | _) <;>
        simp [taskLogRecord, formatInstant, formatRuntime, toTimedelta, toDatetime] at h <;> subst h <;> rfl

/-- C94 does not hold for the duration: in every log, with a clock that does not go back, the duration of a record that has
a start and an end is a millionth of the time between them, up to rounding, and right only for runs that took no time. -/
theorem C94_runtime_violated (fromLogs : Bool) (es : List TimesEv) (hclock : (es.flatMap readings).Pairwise (· ≤ ·)) (r : TimedRec)
    (hr : r ∈ (TimesSt.init.run fromLogs es).log) (x y : Int) (hx : r.start = some x) (hy : r.stop = some y) :
    ∃ f d, taskLogRecord (writtenFields r) = some f ∧ f.start = some (.time x) ∧ f.stop = some (.time y) ∧
      f.runtime = some (.span d) ∧ 2 * (d * 1000000 - (y - x)) ≤ 1000000 ∧ 2 * ((y - x) - d * 1000000) ≤ 1000000 ∧
      (d = y - x ↔ x = y) := by
  obtain ⟨h1, h2⟩ := (C73_duration fromLogs es hclock r hr y hy).1 x hx
  have hn := roundHalfEven_near ((y - x) * 1) 1000000 (by decide)
  refine ⟨{ action := r.action, run := r.run, created := r.created, start := some (.time x), stop := some (.time y),
            runtime := some (.span (numbToTimedelta (y - x) .microsecond)) },
    numbToTimedelta (y - x) .microsecond, ?_, rfl, rfl, rfl, ?_, ?_, ?_⟩
  · simp only [taskLogRecord, writtenFields, hx, hy, h1]
    rfl
  · rw [numbToTimedelta, NumUnit.micros]; omega
  · rw [numbToTimedelta, NumUnit.micros]; omega
  · rw [numbToTimedelta, NumUnit.micros]; omega

/-- A run of ninety seconds. -/
def sampleTimes90 : List TimesEv := [.begin 0, .logRun 0 0 0, .logEnd (some 0) .success 90000000 90000000]

/-- A case for C94: the run took 90 seconds, its record says 90 microseconds. -/
example : ((TimesSt.init.run false sampleTimes90).log.getLast?).bind (fun r => (taskLogRecord (writtenFields r)).map (·.runtime)) =
    some (some (.span 90)) := by decide

example : (sampleTimes90.flatMap readings).Pairwise (· ≤ ·) := by decide

end Rocketry.Props
