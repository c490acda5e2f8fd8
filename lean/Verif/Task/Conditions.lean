import Verif.Task.Log

/-!
# Model of the task conditions (`rocketry/conditions/task/task.py`, `utils.py`, `rocketry/conditions/api.py`)

Every place where the code reads the clock takes a separate reading as an argument.
-/

namespace Rocketry

/-- `_action` of a status condition: one action or a list of actions (rocketry/conditions/task/task.py:32, 58, 84,
109, 135, 245). -/
inductive Acts where
  | one (a : Action)
  | many (as : List Action)

/-- `TaskFinished._action`, task.py:135. -/
def finishActs : Acts := .many [.success, .fail, .terminate]

/-- The query on `action` at rocketry/conditions/task/utils.py:106. -/
def Acts.has : Acts → Action → Bool
  | .one a, b => decide (b = a)
  | .many as, b => decide (b ∈ as)

/-- `_start_ <= last_occur <= _end_`, utils.py:73, 80. -/
def within (s e t : Int) : Bool := decide (s ≤ t) && decide (t ≤ e)

/-- The loop over several actions, utils.py:77-87: `(occurred_on_period, cannot_have_occurred)`. -/
def scanActions (last : Action → Option Int) (s e : Int) : List Action → Bool → Bool × Bool
  | [], cannot => (false, cannot)
  | a :: l, cannot =>
    match last a with
    | none => scanActions last s e l cannot
    | some t =>
      if within s e t then (true, false)
      else if t ≥ s then scanActions last s e l false
      else scanActions last s e l cannot

/-- `(occurred_on_period, cannot_have_occurred)`, utils.py:70-87. -/
def cachedFeatures (last : Action → Option Int) (s e : Int) : Acts → Bool × Bool
  | .one a =>
    match last a with
    | none => (false, true)
    | some t => (within s e t, decide (t < s))
  | .many as => scanActions last s e as true

/-- The times of the records found by the query, utils.py:104-111 (`between` of redbird includes both ends). -/
def measuredTimes (repo : List Record) (name : String) (acts : Acts) (s e : Int) : List Int :=
  (recordsBy repo name (fun r => within s e r.created && acts.has r.action)).map Record.created

/-- `TaskStatusMixin.get_measurement` (utils.py:62-111) followed by `BaseComparable.observe`
(rocketry/core/condition/base.py:265-288); the span is `get_period_span(period)`. -/
def statusObserve (fromLogs : Bool) (acts : Acts) (comps : Comps) (span : Int × Int) (name : String) (t : TaskMem)
    (repo : List Record) : Bool :=
  let counted := compState comps (measuredTimes repo name acts span.1 span.2).length
  if fromLogs then counted
  else
    let f := cachedFeatures t.last span.1 span.2 acts
    if isEqualZero comps && f.2 then true
    else if isEqualZero comps && f.1 then false
    else if isAnyOverZero comps && f.2 then false
    else if isAnyOverZero comps && f.1 then true
    else counted

/-- A status condition over a period: `get_period_span` (utils.py:64) with the clock reading `now`.  Without a period the
code asks the task for one, see `bareStatus`. -/
def statusCond (fuel : Nat) (fromLogs : Bool) (acts : Acts) (comps : Comps) (period : Option Period) (now : Int)
    (name : String) (t : TaskMem) (repo : List Record) : Except PyErr Bool :=
  match Period.periodSpan fuel period now with
  | .error e => .error e
  | .ok span => .ok (statusObserve fromLogs acts comps span name t repo)

/-- `isinstance(period, TimeDelta)` (`TimeSpanDelta` is a subclass), task.py:301, 354. -/
def Period.isDelta : Period → Bool
  | .delta _ _ => true
  | .span _ _ => true
  | _ => false

/-- `isin_period`, task.py:296-303, 352-356, with `IsPeriod.get_state`, rocketry/conditions/time.py:36-38. -/
def isinPeriod (fuel : Nat) (p : Period) (now : Int) : Except PyErr Bool :=
  if p.isDelta then .ok true else p.contains fuel now

/-- `a and b` where evaluating `a` may raise. -/
def andThen (a b : Except PyErr Bool) : Except PyErr Bool :=
  match a with
  | .ok true => b
  | r => r

/-- The clock readings of one evaluation of `TaskExecutable`. -/
structure ExecReads where
  isin : Int
  inacted : Int
  succeeded : Int
  failed : Int
  terminated : Int

/-- `TaskExecutable.get_state`, task.py:285-311. -/
def executable (fuel : Nat) (fromLogs : Bool) (retries : Option Int) (p : Period) (now : ExecReads) (name : String)
    (t : TaskMem) (repo : List Record) : Except PyErr Bool :=
  let retries := retries.getD 0
  andThen (isinPeriod fuel p now.isin)
    (andThen (statusCond fuel fromLogs (.one .inaction) [(.eq, 0)] (some p) now.inacted name t repo)
      (andThen (statusCond fuel fromLogs (.one .success) [(.eq, 0)] (some p) now.succeeded name t repo)
        (andThen (statusCond fuel fromLogs (.one .fail) [(.le, retries)] (some p) now.failed name t repo)
          (statusCond fuel fromLogs (.one .terminate) [(.eq, 0)] (some p) now.terminated name t repo))))

/-- `TaskRunnable.get_state`, task.py:346-361 (two clock readings). -/
def runnable (fuel : Nat) (fromLogs : Bool) (p : Period) (now now' : Int) (name : String) (t : TaskMem)
    (repo : List Record) : Except PyErr Bool :=
  andThen (isinPeriod fuel p now)
    (statusCond fuel fromLogs (.one .run) [(.eq, 0)] (some p) now' name t repo)

/-- `every(past)` (based on "run"), rocketry/conditions/api.py:221-224. -/
def everyRun (fuel : Nat) (fromLogs : Bool) (past : Int) (now : Int) (name : String) (t : TaskMem)
    (repo : List Record) : Except PyErr Bool :=
  statusCond fuel fromLogs (.one .run) [(.eq, 0)] (some (Period.mkDelta (some past) none)) now name t repo

/-- `every(past, based)` for the bases "run", "success" and "fail", rocketry/conditions/api.py:221-228 (for "finish" it is
`executable` over the duration, 229-230). -/
def everyBased (fuel : Nat) (fromLogs : Bool) (base : Action) (past : Int) (now : Int) (name : String) (t : TaskMem)
    (repo : List Record) : Except PyErr Bool :=
  statusCond fuel fromLogs (.one base) [(.eq, 0)] (some (Period.mkDelta (some past) none)) now name t repo

/-- `DependMixin.get_state`, utils.py:36-51, of the task `actual` on the task `depend` (both in the session). -/
def dependState (repo : List Record) (actual depend : String) (acts : List Action) : Bool :=
  match latestBy repo depend (fun r => decide (r.action ∈ acts)) with
  | none => false
  | some f =>
    match latestBy repo actual (isAction .run) with
    | none => true
    | some s => decide (f.created > s.created)

/-- `_dep_actions`: `DependFinish` task.py:389, `DependSuccess` 418, `DependFailure` 446. -/
def dependFinish : List Action := [.success, .fail]
def dependSuccess : List Action := [.success]
def dependFailure : List Action := [.fail]

/-- Timestamp 0, 1970-01-01. -/
def EPOCH : Int := datetime 1970 1 1

/-- `Retry.__init__`, task.py:459-461. -/
def retryN : Option Int → Int
  | none => -1
  | some n => n

/-- `Retry.get_state`, task.py:463-483. -/
def retryState (fromLogs : Bool) (n : Int) (name : String) (t : TaskMem) (repo : List Record) : Bool :=
  if n = 0 then false
  else if (getStatus fromLogs repo name t).1 ≠ some .fail then false
  else if n = -1 then true
  else
    let since := match latestBy repo name (fun r => decide (r.action ∈ [Action.success, .crash, .inaction, .terminate])) with
      | none => EPOCH
      | some r => r.created
    let fails := (recordsBy repo name (fun r => decide (r.created ≥ since) && isAction .fail r)).length
    decide (n ≥ fails)

/-! ### `TaskRunning` -/

/-- `sorted(records, key=created)`, task.py:184. -/
def byCreated (l : List Record) : List Record := pySorted (fun a b => decide (a.created ≤ b.created)) l

/-- The `finishes` list and the loop over the starts when records have run ids, task.py:188-192, 202-210; an empty or
missing run id of an outcome record is skipped (line 191). -/
def runningById (records : List Record) : List (Option String) :=
  let finishes := (records.filter (fun r => decide (r.runId ≠ none ∧ r.runId ≠ some "") && !isAction .run r)).map Record.runId
  (records.filter (fun r => isAction .run r && !decide (r.runId ∈ finishes))).map Record.runId

/-- `for finish in finishes.copy(): if finish >= created: finishes.remove(finish); break`, task.py:214-218: the
list without the first value not before `created`, or `none`. -/
def takeFinish (created : Int) : List Int → Option (List Int)
  | [] => none
  | f :: l => if f ≥ created then some l else (takeFinish created l).map (f :: ·)

/-- The loop over the starts when records have no run ids, task.py:202-221. -/
def matchStarts : List Int → List Int → List Int
  | [], _ => []
  | c :: starts, finishes =>
    match takeFinish c finishes with
    | some fs => matchStarts starts fs
    | none => c :: matchStarts starts finishes

/-- `runs` when records have no run ids, task.py:193-221. -/
def runningByTime (records : List Record) : List Int :=
  matchStarts ((records.filter (isAction .run)).map Record.created)
    ((records.filter (fun r => !isAction .run r)).map Record.created)

/-- The length of the list measured by `TaskRunning.get_measurement` from the log, task.py:181-222; `hasRunId`: the
records have a `run_id` field. -/
def runningCount (hasRunId : Bool) (repo : List Record) (name : String) (span : Int × Int) : Nat :=
  let records := byCreated (recordsBy repo name (fun r => within span.1 span.2 r.created))
  if hasRunId then (runningById records).length else (runningByTime records).length

end Rocketry
