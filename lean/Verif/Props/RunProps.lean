import Verif.Spec.RunSpec

/-!
# C36: every run ends with one outcome record
-/

namespace Rocketry.Props
open Rocketry Rocketry.Run Rocketry.Spec

instance (a : Action) (l : List Rec) : Decidable (Complete a l) := inferInstanceAs (Decidable (_ = _))

theorem body_ordinary {c : Course} (h : Ordinary c) :
    (body c).recs = [⟨properOutcome c, true⟩] ∧ (body c).value = properValue c ∧
      (body c).raised = if c.postFails then some .other else none := by
  obtain ⟨hp, hq, hr, hd⟩ := h
  have h0 : ¬ (c.prerun = false ∨ c.params = false) := by rw [hp, hq]; simp
  have h1 : c.prerun = true ∧ c.params = true := ⟨hp, hq⟩
  unfold body finallyPost properValue properOutcome
  rw [if_neg h0, if_pos h1]
  rcases he : c.ending with v | _ | _ | _ | _ | _
  · dsimp only
    cases c.successFails <;> cases c.postFails <;> simp
  · exact absurd he hr
  all_goals first
    | exact absurd he hd
    | (dsimp only; cases c.postFails <;> exact ⟨rfl, rfl, rfl⟩)

theorem body_early {c : Course} (h : ¬ (c.prerun = true ∧ c.params = true)) : body c = ⟨[], none, some .other⟩ := by
  unfold body
  rw [if_pos]
  cases hp : c.prerun <;> cases hq : c.params <;> simp_all

theorem early_outcome {c : Course} (h : ¬ (c.prerun = true ∧ c.params = true)) : properOutcome c = .fail := by
  unfold properOutcome; rw [if_neg h]

theorem early_value {c : Course} (h : ¬ (c.prerun = true ∧ c.params = true)) : properValue c = none := by
  unfold properValue
  rw [early_outcome h]
  split <;> rfl

/-- C36, as far as it holds.  Whatever the execution, an ordinary run has one `run` record and one record of the proper
outcome, with the run's id, and the return value is stored exactly for a success.  A failing hook at the end disturbs
this in all but asyncio runs. -/
theorem C36_records_partial (c : Course) (h : Ordinary c) :
    (c.postFails = false → Complete (properOutcome c) (runMain c).1 ∧ (runMain c).2 = properValue c) ∧
    (Complete (properOutcome c) (runAsync false c).1 ∧ (runAsync false c).2 = properValue c) ∧
    (c.postFails = false → Complete (properOutcome c) (runThread c).1 ∧ (runThread c).2 = properValue c) ∧
    (c.postFails = false → Complete (properOutcome c) (runProcess none c).1 ∧ (runProcess none c).2 = properValue c) := by
  obtain ⟨h1, h2, h3⟩ := body_ordinary h
  unfold Complete runMain runAsync runThread runProcess processRecs
  dsimp only
  rw [h1, h2, h3]
  refine ⟨fun hp => ?_, ⟨rfl, rfl⟩, fun hp => ?_, fun hp => ?_⟩ <;> rw [hp] <;> exact ⟨rfl, rfl⟩

/-- A run of the main process whose function could not be called is a failure. -/
theorem C36_early_main (c : Course) (h : ¬ (c.prerun = true ∧ c.params = true)) :
    Complete .fail (runMain c).1 ∧ (runMain c).2 = none := by
  unfold runMain
  rw [body_early h]
  exact ⟨rfl, rfl⟩

/-- Exactly which runs have the proper records (an exception of a hook may replace a SystemExit). -/
theorem C36_exactly (c : Course) :
    (Complete (properOutcome c) (runMain c).1 ↔
      ¬ (c.prerun = true ∧ c.params = true) ∨ (Ordinary c ∧ c.postFails = false) ∨ (c.ending = .dies ∧ c.postFails = true)) ∧
    (Complete (properOutcome c) (runAsync false c).1 ↔ Ordinary c) ∧
    (Complete (properOutcome c) (runThread c).1 ↔ Ordinary c ∧ c.postFails = false) ∧
    (Complete (properOutcome c) (runProcess none c).1 ↔ Ordinary c ∧ c.postFails = false) := by
  have hord : Ordinary c ↔ (c.prerun = true ∧ c.params = true ∧ c.ending ≠ .restart ∧ c.ending ≠ .dies) :=
    ⟨fun ⟨a, b, d, e⟩ => ⟨a, b, d, e⟩, fun ⟨a, b, d, e⟩ => ⟨a, b, d, e⟩⟩
  rw [hord]
  obtain ⟨p, q, e, sf, pf⟩ := c
  cases p <;> cases q <;> cases e <;> cases sf <;> cases pf <;>
    simp [Complete, properOutcome, runMain, runAsync, runThread, runProcess, processRecs, body, finallyPost, setupError, statusAfter]

/-- C36 for terminations: an asyncio run that is cancelled before its first step has its record; a process has exactly
one outcome record if and only if it had sent none when it was terminated. -/
theorem C36_terminated (c : Course) :
    Complete .terminate (runAsync true c).1 ∧ (runAsync true c).2 = none ∧
    (∀ k, Complete .terminate (runProcess (some k) c).1 ↔ k = 0 ∨ processRecs c = []) ∧
    (runProcess (some 0) c).2 = none := by
  refine ⟨rfl, rfl, fun k => ?_, rfl⟩
  unfold Complete runProcess
  dsimp only
  constructor
  · intro h
    have h' : (processRecs c).take k = [] := by
      cases hl : (processRecs c).take k with
      | nil => rfl
      | cons a l => rw [hl] at h; simp at h
    rcases List.take_eq_nil_iff.1 h' with h | h
    · exact Or.inl h
    · exact Or.inr h
  · rintro (rfl | h)
    · rfl
    · rw [h]; simp

/-- A usual run, and the same in which one thing goes wrong. -/
def usual : Course := ⟨true, true, .returns "x", false, false⟩

example : Ordinary usual ∧ (runProcess none usual) = ([⟨.run, true⟩, ⟨.success, true⟩], some "x") ∧
    processRecs usual ≠ [] := ⟨⟨rfl, rfl, by decide, by decide⟩, by decide, by decide⟩

/-- C36 as stated fails in asyncio runs: if a hook or the parameters fail, there is no outcome record. -/
theorem C36_async_violated : (runAsync false { usual with prerun := false }).1 = [⟨.run, true⟩] ∧
    (runAsync false { usual with params := false }).1 = [⟨.run, true⟩] := by decide

/-- In a thread or process the failure has no run id then. -/
theorem C36_early_violated : (runThread { usual with params := false }).1 = [⟨.run, true⟩, ⟨.fail, false⟩] ∧
    (runProcess none { usual with params := false }).1 = [⟨.run, true⟩, ⟨.fail, false⟩] := by decide

/-- A request to restart or exit: the success has no run id, and in a thread or process a failure follows. -/
theorem C36_restart_violated : (runMain { usual with ending := .restart }).1 = [⟨.run, true⟩, ⟨.success, false⟩] ∧
    (runThread { usual with ending := .restart }).1 = [⟨.run, true⟩, ⟨.success, false⟩, ⟨.fail, false⟩] := by decide

/-- A process sends what a thread writes, whatever happens in the run. -/
theorem C36_process (c : Course) : runProcess none c = runThread c := rfl

/-- Exactly which records a run in a thread or process leaves besides the proper ones: a failure without id after all others
when something is raised that is an `Exception`. -/
theorem C36_extra (c : Course) : (runProcess none c).1 = ⟨.run, true⟩ :: (body c).recs ++
    (if c.postFails = true ∨ ¬ (c.prerun = true ∧ c.params = true) ∨ c.ending = .restart then [⟨.fail, false⟩] else []) := by
  obtain ⟨p, q, e, sf, pf⟩ := c
  cases p <;> cases q <;> cases e <;> cases sf <;> cases pf <;> rfl

example : (runProcess none { usual with ending := .restart }).1 = [⟨.run, true⟩, ⟨.success, false⟩, ⟨.fail, false⟩] := by decide

/-- SystemExit in a thread or process leaves no outcome record. -/
theorem C36_dies_violated : (runThread { usual with ending := .dies }).1 = [⟨.run, true⟩] ∧
    (runProcess none { usual with ending := .dies }).1 = [⟨.run, true⟩] := by decide

/-- A hook that fails after the run adds a second `run` and a failure to the success (main), or a failure. -/
theorem C36_post_violated :
    (runMain { usual with postFails := true }).1 = [⟨.run, true⟩, ⟨.success, true⟩, ⟨.run, true⟩, ⟨.fail, true⟩] ∧
    (runThread { usual with postFails := true }).1 = [⟨.run, true⟩, ⟨.success, true⟩, ⟨.fail, false⟩] := by decide

/-- A process that is terminated when its success was already sent has two outcomes. -/
theorem C36_kill_violated : (runProcess (some 1) usual).1 = [⟨.run, true⟩, ⟨.success, true⟩, ⟨.terminate, true⟩] := by decide

/-- A process that ends before its `run` record leaves a failure, a `run` and another failure; a failing setup of a task
that is running already leaves a failure without `run`. -/
theorem C36_setup_violated : runCrashed (some .success) = [⟨.fail, false⟩, ⟨.run, true⟩, ⟨.fail, true⟩] ∧
    runSetupFails (some .run) = [⟨.fail, true⟩] := by decide

/-- A task that cannot be pickled leaves a start without the run's id and two failures. -/
theorem C36_pickle_violated : runUnpicklable = [⟨.run, false⟩, ⟨.fail, false⟩, ⟨.fail, true⟩] ∧
    ¬ ∃ a, Complete a runUnpicklable := by
  refine ⟨rfl, ?_⟩
  rintro ⟨a, h⟩
  have := congrArg List.length h
  simp [runUnpicklable] at this

/-- A failing setup of a task that is not running leaves the proper records. -/
theorem C36_setup (status : Option Action) (h : status ≠ some .run) : Complete .fail (runSetupFails status) := by
  unfold Complete runSetupFails
  rw [if_pos h]; rfl

example : (none : Option Action) ≠ some .run := by decide

end Rocketry.Props
