import Verif.Task.Bare
import Verif.Props.PeriodicProps

/-!
# C63: status conditions without a period
-/

namespace Rocketry.Props
open Spec

/-- The records a verb is about. -/
def shownBy : Verb → List Action
  | .failed => [.fail]
  | .succeeded => [.success]
  | .finished => [.success, .fail, .terminate]
  | .terminated => [.terminate]
  | .inacted => [.inaction]
  | .started => [.run]

/-- Number of records of the task the verb is about, in the whole log. -/
def countEver (repo : List Record) (name : String) (v : Verb) : Nat :=
  (repo.filter (fun r => decide (r.task = name ∧ r.action ∈ shownBy v))).length

/-- Start conditions in which the task does not look for its period. -/
def PlainStart (c : Cond Builtin) : Prop :=
  (∀ task p comps, c ≠ .leaf (.status .succeeded task p comps) ∧ c ≠ .leaf (.status .finished task p comps)) ∧
  ∀ subs, c = .all subs → ∀ task p comps, Cond.leaf (.status .finished task p comps) ∉ subs

theorem acts_shown (v : Verb) (a : Action) : v.acts.has a = true ↔ a ∈ shownBy v := by
  cases v <;> simp [Verb.acts, Acts.has, shownBy, finishActs]

theorem period_plain {c : Cond Builtin} (h : PlainStart c) : taskPeriod c = .ok (.static MINT MAXT) := by
  obtain ⟨h1, h2⟩ := h
  have ho : c.ownStatus = false := by
    cases hb : c.ownStatus with
    | false => rfl
    | true =>
      unfold Cond.ownStatus at hb
      split at hb
      · exact absurd rfl (h1 _ _ _).1
      · exact absurd rfl (h1 _ _ _).2
      · cases hb
  unfold taskPeriod
  rw [ho, if_neg (by simp)]
  cases c with
  | all subs =>
    have : subs.any Cond.finishStatus = false := by
      rw [List.any_eq_false]
      intro x hx hb
      unfold Cond.finishStatus at hb
      split at hb
      · exact h2 subs rfl _ _ _ hx
      · cases hb
    simp only [this]
    rfl
  | _ => rfl

/-- C63: a status condition without a period is about the whole log up to now: for every history of successful log
writes (see C25), every verb and every set of comparisons it compares the number of all records of the task the verb
is about, with or without the cached times.  Missing: tasks whose own start condition is a success or finish condition
(`C63_period_violated`). -/
theorem C63_bare_partial (fuel : Nat) (mode fromLogs : Bool) (calls : List LogOp) (hf : ∀ op ∈ calls, op.Fine) (name : String)
    (hi : Increasing (runLogOps fromLogs .fresh calls).repo (Of name) ∨ ∀ op ∈ calls, op.NoStartup)
    (ho : Ordered (runLogOps fromLogs .fresh calls).repo (Of name)) (v : Verb) (ops : List (Comp × Int))
    (startCond : Cond Builtin) (hc : PlainStart startCond) (now : Int) (hn : MINT ≤ now) (hx : now ≤ MAXT)
    (hs : ∀ r ∈ (runLogOps fromLogs .fresh calls).repo, r.task = name →
      MINT ≤ r.noted ∧ r.noted ≤ now ∧ MINT ≤ r.created ∧ r.created ≤ now) :
    let w := runLogOps fromLogs .fresh calls
    ∃ b, bareStatus (fuel + 1) mode v.acts (chain ops) startCond now name (w.mem name) w.repo = .ok b ∧
      (b = true ↔ (ops = [] ∧ 0 < countEver w.repo name v) ∨
        (ops ≠ [] ∧ ∀ k x, lastBound ops k = some x → Rel k (countEver w.repo name v) x)) := by
  intro w
  have hcount : countIn w.repo name v.acts MINT now = countEver w.repo name v := by
    unfold countIn countEver
    congr 1
    apply List.filter_congr
    intro r hr
    rw [decide_eq_decide]
    constructor
    · rintro ⟨h1, h2, _⟩; exact ⟨h1, (acts_shown v _).1 h2⟩
    · rintro ⟨h1, h2⟩; exact ⟨h1, (acts_shown v _).2 h2, (hs r hr h1).2.2.1, (hs r hr h1).2.2.2⟩
  have h25 := C25_cached_partial fromLogs calls hf name hi ho v.acts ops MINT now (fun r hr h1 => by
    have := hs r hr h1
    constructor <;> constructor <;> intro _ <;> omega)
  have hspan : Period.periodSpan (fuel + 1) (some (.static MINT MAXT)) now = .ok (MINT, now) := by
    simp only [Period.periodSpan, Period.rollback, staticBack]
    rw [if_neg (by omega)]
    simp only [Interval.make]
    rw [if_neg (by omega)]
    simp; omega
  refine ⟨compState (chain ops) (countEver w.repo name v), ?_, ?_⟩
  · unfold bareStatus
    rw [period_plain hc]
    simp only [statusCond, hspan]
    rw [← hcount]
    cases mode
    · exact congrArg _ h25.1
    · exact congrArg _ h25.2
  · rw [C23_compare]
    simp

/-- Violated: if the start condition of the task itself is `TaskSucceeded` or `TaskFinished` (of any task, period and
comparison), or an `All` with a `TaskFinished` directly in it, every status condition about the task without a period
raises `AttributeError`, whatever the log. -/
theorem C63_period_violated (fuel : Nat) (mode : Bool) (v : Verb) (comps : Comps) (now : Int) (name : String) (t : TaskMem)
    (repo : List Record) (task : Option (List Char)) (p : Option Period) (cs : Comps) (l l' : List (Cond Builtin)) :
    bareStatus fuel mode v.acts comps (.leaf (.status .succeeded task p cs)) now name t repo = .error .attribute ∧
    bareStatus fuel mode v.acts comps (.leaf (.status .finished task p cs)) now name t repo = .error .attribute ∧
    bareStatus fuel mode v.acts comps (.all (l ++ .leaf (.status .finished task p cs) :: l')) now name t repo =
      .error .attribute := by
  refine ⟨rfl, rfl, ?_⟩
  unfold bareStatus taskPeriod
  simp [Cond.ownStatus, Cond.finishStatus]

/-- The exceptions are exactly these. -/
theorem C63_period_exact (c : Cond Builtin) : (∃ p, taskPeriod c = .ok p) ↔ PlainStart c := by
  constructor
  · rintro ⟨p, h⟩
    refine ⟨fun task q comps => ⟨?_, ?_⟩, ?_⟩
    · rintro rfl; cases h
    · rintro rfl; cases h
    · rintro subs rfl task q comps hm
      have : subs.any Cond.finishStatus = true := List.any_eq_true.2 ⟨_, hm, rfl⟩
      simp [taskPeriod, Cond.ownStatus, this] at h
  · exact fun h => ⟨_, period_plain h⟩

/-- A task started daily has a plain start condition; `failed("a") >= 1` about the log of C25's example holds. -/
example : PlainStart (.leaf (.wrapper .day)) ∧
    bareStatus 1 false (Verb.succeeded).acts (chain [(.ge, 1)]) (.leaf (.wrapper .day)) (datetime 2024 1 1 + 20) "a"
      ((runLogOps false .fresh [.set "a" .run (some "1") (datetime 2024 1 1) (datetime 2024 1 1) .ok,
        .set "a" .success (some "1") (datetime 2024 1 1 + 5) (datetime 2024 1 1 + 5) .ok]).mem "a")
      (runLogOps false .fresh [.set "a" .run (some "1") (datetime 2024 1 1) (datetime 2024 1 1) .ok,
        .set "a" .success (some "1") (datetime 2024 1 1 + 5) (datetime 2024 1 1 + 5) .ok]).repo = .ok true := by
  refine ⟨⟨fun _ _ _ => ⟨by simp, by simp⟩, fun _ h => by cases h⟩, by decide +kernel⟩

/-- C30 for the other bases: `every(d, based="success")` holds exactly if the task has no success record in the last `d`,
and so for failures and starts (for "finish": `C26_duration`), for every history of successful log writes whose times
are on the same side of the window (C25). -/
theorem C30_based (fuel : Nat) (mode fromLogs : Bool) (calls : List LogOp) (hf : ∀ op ∈ calls, op.Fine) (name : String)
    (hi : Increasing (runLogOps fromLogs .fresh calls).repo (Of name) ∨ ∀ op ∈ calls, op.NoStartup)
    (ho : Ordered (runLogOps fromLogs .fresh calls).repo (Of name)) (base : Action) (d now : Int)
    (hs : ∀ r ∈ (runLogOps fromLogs .fresh calls).repo, r.task = name →
      (now - (d.natAbs : Int) ≤ r.noted ↔ now - (d.natAbs : Int) ≤ r.created) ∧ (r.noted ≤ now ↔ r.created ≤ now)) :
    let w := runLogOps fromLogs .fresh calls
    ∃ b, everyBased (fuel + 1) mode base d now name (w.mem name) w.repo = .ok b ∧
      (b = true ↔ ∀ r ∈ w.repo, r.task = name → r.action = base →
        ¬ (now - (d.natAbs : Int) ≤ r.created ∧ r.created ≤ now)) := by
  intro w
  obtain ⟨h1, h2⟩ := C25_cached_partial fromLogs calls hf name hi ho (.one base) [(.eq, 0)] _ _ hs
  have hch : chain [(Comp.eq, 0)] = [(.eq, 0)] := rfl
  rw [hch] at h1 h2
  refine ⟨compState [(.eq, 0)] (countIn w.repo name (.one base) (now - (d.natAbs : Int)) now), ?_, ?_⟩
  · unfold everyBased
    simp only [statusCond, every_span]
    cases mode
    · exact congrArg _ h1
    · exact congrArg _ h2
  · have : compState [(.eq, 0)] (countIn w.repo name (.one base) (now - (d.natAbs : Int)) now : Int) = true ↔
        countIn w.repo name (.one base) (now - (d.natAbs : Int)) now = 0 := by
      simp [compState, Comp.holds]
    rw [this, countIn_zero]
    constructor
    · intro h r hr h1 h2 h3
      exact h r hr h1 (by simp [Acts.has, h2]) h3.1 h3.2
    · intro h r hr h1 h2 h3 h4
      exact h r hr h1 (by simpa [Acts.has] using h2) ⟨h3, h4⟩

/-- Two successes, ten seconds apart: `every("5 s", based="success")` does not hold three seconds later, but nine seconds
later. -/
example : let w := runLogOps false .fresh [.set "a" .success (some "1") (2 * SEC) (2 * SEC) .ok,
      .set "a" .success (some "2") (12 * SEC) (12 * SEC) .ok]
    everyBased 1 false .success (5 * SEC) (15 * SEC) "a" (w.mem "a") w.repo = .ok false ∧
    everyBased 1 false .success (5 * SEC) (21 * SEC) "a" (w.mem "a") w.repo = .ok true := by
  decide +kernel

end Rocketry.Props
