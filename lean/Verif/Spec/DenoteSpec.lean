import Verif.Task.Situation
import Verif.Props.TimeTextProps
import Verif.Props.BareProps
import Verif.Props.RunningProps
import Verif.Spec.CycleSpec
import Verif.Spec.DurationSpec
import Verif.Props.CronRunProps
import Verif.Props.MonthlyProps

/-!
# What the condition texts say

Written from the documentation of the condition syntax: the phrases with their times, durations and cron fields spelled
out, and when each is true, in terms of the log, the runs, the clock, the scheduler and the parameters.
-/

namespace Rocketry.Spec
open Props

/-- The phrases whose meaning is known.  Durations come with their length in microseconds. -/
inductive Saying where
  /-- `[task '…'] has failed` -/
  | has (task : Option Txt) (v : Verb)
  /-- `[task '…'] has failed today between 10:00 and 12:00` -/
  | hasIn (task : Option Txt) (v : Verb) (sc : Scope) (w : TPart)
  /-- `[task '…'] has failed [in] past 2 hours` -/
  | hasPast (task : Option Txt) (v : Verb) (inn : Bool) (d : DText) (us : Int)
  /-- `time of day between 10:00 and 12:00` -/
  | timeOf (sc : Scope) (w : TPart)
  /-- `daily between 10:00 and 12:00` -/
  | exec (sc : Scope) (w : TPart)
  /-- `every 10 minutes` -/
  | every (d : DText) (us : Int)
  /-- `cron 0 12 * * 1-5` -/
  | cron (c : CronExpr)
  /-- `[while] task '…' is running` -/
  | running (whil : Bool) (t : Txt)
  /-- `after task '…' [succeeded]` etc. -/
  | afterTask (t : Txt) (k : DepKind) (said : Bool)
  /-- `after [any] tasks '…', '…'` etc. -/
  | afterTasks (isAny : Bool) (ts : List Txt) (k : DepKind) (said : Bool)
  /-- `env '…'` -/
  | env (e : Txt)
  /-- `scheduler has run over 2 hours` -/
  | schedOver (d : DText) (us : Int)
  /-- `scheduler started 2 hours ago` -/
  | schedAgo (d : DText) (us : Int)
  /-- `scheduler has more than 3 cycles` -/
  | schedMore (n : Nat)
  /-- `scheduler has less than 3 cycles` -/
  | schedLess (n : Nat)
  /-- `scheduler has 3 cycles` -/
  | schedCycles (n : Nat)
  /-- `[always] true`, `[always] false` -/
  | const (b : Bool) (long : Bool)

/-- The five fields of a cron text. -/
def cronTexts (c : CronExpr) : List Txt :=
  [(showField .hour c.minute).toList, (showField .day c.hour).toList, (showField .month c.dayOfMonth).toList,
   (showField .year c.month).toList, (showField .week c.dayOfWeek).toList]

namespace Saying

/-- As a phrase. -/
def phrase : Saying → Phrase
  | has task v => .has task v
  | hasIn task v sc w => .hasIn task v sc w.part
  | hasPast task v inn d _ => .hasPast task v inn d.text
  | timeOf sc w => .timeOf sc w.part
  | exec sc w => .exec sc w.part
  | every d _ => .every d.text
  | cron c => .cron (cronTexts c)
  | running whil t => .running whil t
  | afterTask t k said => .afterTask t k said
  | afterTasks isAny ts k said => .afterTasks isAny ts k said
  | env e => .env e
  | schedOver d _ => .schedOver d.text
  | schedAgo d _ => .schedAgo d.text
  | schedMore n => .schedMore n
  | schedLess n => .schedLess n
  | schedCycles n => .schedCycles n
  | const b long => .const b long

/-- The duration text has that length (its sign does not matter). -/
def Lasts (d : DText) (us : Int) : Prop :=
  (d.Valid ∧ Arg d.text) ∧ 0 ≤ us ∧ (d.val = (us : Rat) ∨ d.val = ((-us : Int) : Rat))

/-- A cron expression whose fields can be written, without month field and with days that every month has. -/
structure PlainCron (c : CronExpr) : Prop where
  valid : ValidCron c
  month : Unrestricted c.month
  days : ∀ i ∈ c.dayOfMonth, EarlyItem .month i
  writable : (∀ i ∈ c.minute, WritableItem .hour i) ∧ (∀ i ∈ c.hour, WritableItem .day i) ∧
    (∀ i ∈ c.dayOfMonth, WritableItem .month i) ∧ (∀ i ∈ c.month, WritableItem .year i) ∧
    (∀ i ∈ c.dayOfWeek, WritableItem .week i)

/-- The cycle is one of fixed length, or the month and the part begins before the 29th, which some months lack. -/
def Cyclic (sc : Scope) (w : TPart) : Prop := cycleLen sc ≠ none ∨ (sc = .month ∧ (w.span sc).1 < 28 * DAY)

/-- The same, or the part is of the month and does not go on in the next. -/
def Recurring (sc : Scope) (w : TPart) : Prop :=
  cycleLen sc ≠ none ∨ (sc = .month ∧ ((w.span sc).1 < 28 * DAY ∨ (w.span sc).1 < (w.span sc).2))

/-- Also the end of the part comes in every month, or it is the whole month. -/
def EndsInTime (sc : Scope) (w : TPart) : Prop := sc = .month →
  ((w.span sc).1 = (w.span sc).2 ∨ ((w.span sc).1 = 0 ∧ (w.span sc).2 = 31 * DAY)) ∨ (w.span sc).2 < 28 * DAY

/-- It can be written in the condition syntax; the cycles are those of fixed length, and months. -/
def Proper : Saying → Prop
  | has task _ => WhoProper task
  | hasIn task _ sc w =>
    WhoProper task ∧ w.Of sc ∧ Cyclic sc w ∧ EndsInTime sc w ∧ sc ≠ .second ∧
      ∀ a, w = .starting a → sc ≠ .week ∧ sc ≠ .month
  | hasPast task _ _ d us => WhoProper task ∧ Lasts d us
  | timeOf sc w => w.Of sc ∧ (cycleLen sc ≠ none ∨ sc = .month) ∧ (Phrase.timeOf sc w.part).InSyntax
  | exec sc w => w.Of sc ∧ Recurring sc w
  | every d us => Lasts d us
  | cron c => PlainCron c
  | running _ t => Arg t
  | afterTask t _ _ => Arg t
  | afterTasks _ ts _ _ => ts ≠ [] ∧ ∀ t ∈ ts, Arg t
  | env e => Arg e
  | schedOver d us => Lasts d us
  | schedAgo d us => Lasts d us
  | _ => True

end Saying

/-- `t` lies in the latest occurrence, seen from `now`, of the part from `s` to `e` of a cycle of length `L`. -/
def InLatest (L s e now t : Int) : Prop :=
  t ≤ now ∧ occurrence L s t = occurrence L s now ∧ (s = e ∨ (s = 0 ∧ e = L) ∨ (t - s) % L ≤ (e - s) % L)

/-- A written condition is true, given which of its items are. -/
def Written.Holds (P : Txt → Prop) : Written → Prop
  | .item _ w _ => P w
  | .group e => e.Holds P
  | .not _ _ e => ¬ e.Holds P
  | .and a _ _ b => a.Holds P ∧ b.Holds P
  | .or a _ _ b => a.Holds P ∨ b.Holds P

end Rocketry.Spec

namespace Rocketry.Sit
open Spec Props

/-- The task a phrase is about: the one named, or the one whose condition it is. -/
def who (v : Sit) : Option Txt → Option String
  | some t => some (String.ofList t)
  | none => v.self

/-- The log has a record of the task, of the kind the verb is about, made at such a time. -/
def Happened (v : Sit) (name : String) (vb : Verb) (P : Int → Prop) : Prop :=
  ∃ r ∈ v.repo, r.task = name ∧ r.action ∈ shownBy vb ∧ P r.created

/-- The task `d` has ended with that outcome since the task `a` last started. -/
def Since (v : Sit) (k : DepKind) (a d : String) : Prop :=
  ∃ c ∈ v.repo, c.task = d ∧
    (match k with
      | .success => c.action = .success
      | .failure => c.action = .fail
      | .finish => c.action = .success ∨ c.action = .fail) ∧
    ∀ r ∈ v.repo, r.task = a → r.action = .run → r.created < c.created

/-- The length of the cycle. -/
def len (sc : Scope) : Int := (cycleLen sc).getD 1

/-- `t` lies in the part from `s` to `e` of the cycle. -/
def InPart (sc : Scope) (s e t : Int) : Prop := if sc = .month then InMonth s e t else InArc (len sc) s e t

/-- `t` lies in the latest occurrence of the part from `s` to `e` of the cycle. -/
def Latest (sc : Scope) (s e now t : Int) : Prop :=
  if sc = .month then InLatestMonth s e now t else InLatest (len sc) s e now t

/-- The number of the occurrence to which `t` belongs; occurrences begin when the cycle is at `s`. -/
def occ (sc : Scope) (s t : Int) : Int := if sc = .month then monthOccurrence s t else occurrence (len sc) s t

/-- What a saying says. -/
def Says (v : Sit) : Saying → Prop
  | .has task vb => ∃ name, v.who task = some name ∧ v.Happened name vb (fun _ => True)
  | .hasIn task vb sc w => ∃ name, v.who task = some name ∧
      v.Happened name vb (Latest sc (w.span sc).1 (w.span sc).2 v.now)
  | .hasPast task vb _ _ us => ∃ name, v.who task = some name ∧ v.Happened name vb (fun t => v.now - us ≤ t ∧ t ≤ v.now)
  | .timeOf sc w => InPart sc (w.span sc).1 (w.span sc).2 v.now
  | .exec sc w => InPart sc (w.span sc).1 (w.span sc).2 v.now ∧ ∃ name, v.self = some name ∧
      ∀ r ∈ v.repo, r.task = name → r.action ∈ [.success, .fail, .inaction, .terminate] →
        occ sc (w.span sc).1 r.created ≠ occ sc (w.span sc).1 v.now
  | .every _ us => ∃ name, v.self = some name ∧ ¬ v.Happened name .started (fun t => v.now - us ≤ t ∧ t ≤ v.now)
  | .cron c => CronMatches c v.now ∧ ∃ name, v.self = some name ∧
      ¬ v.Happened name .started (fun t => t / 60000000 = v.now / 60000000)
  | .running _ t => if v.fromLogs then openRuns (String.ofList t) v.repo ≠ [] else ∃ r ∈ v.runs (String.ofList t), r.2 = true
  | .afterTask t k _ => ∃ a, v.self = some a ∧ v.Since k a (String.ofList t)
  | .afterTasks isAny ts k _ => ∃ a, v.self = some a ∧
      if isAny then ∃ t ∈ ts, v.Since k a (String.ofList t) else ∀ t ∈ ts, v.Since k a (String.ofList t)
  | .env e => ∃ p ∈ v.params, p = (c!"env", some e)
  | .schedOver _ us => ∃ s, v.startup = some s ∧ us < v.now - s
  | .schedAgo _ us => ∃ s, v.startup = some s ∧ v.now - s ≤ us
  | .schedMore n => n < v.nCycles
  | .schedLess n => v.nCycles < n
  | .schedCycles n => v.nCycles = n
  | .const b _ => b = true

/-- The state a session keeps: the log is in order of time, the times kept in the tasks are those of the log. -/
structure Kept (v : Sit) : Prop where
  self : ∀ n, v.self = some n → n ∈ v.tasks
  first : MINT ≤ v.now
  last : v.now ≤ MAXT
  times : ∀ r ∈ v.repo, MINT ≤ r.noted ∧ r.noted ≤ r.created ∧ r.created ≤ v.now
  ordered : ∀ name, Ordered v.repo (Of name)
  cache : v.fromLogs = false → ∀ name ∈ v.tasks, CacheOK ⟨v.mem, v.repo⟩ name
  runs : v.fromLogs = false → ∀ name, ∀ r ∈ v.runs name, MINT ≤ r.1 ∧ r.1 ≤ MAXT
  log : v.fromLogs = true → v.hasRunId = true ∧ ∀ name, RunLog name v.repo
  params : ∀ p ∈ v.params, ∀ q ∈ v.params, p.1 = q.1 → p = q

/-- Without forced reading of the log: no record was noted before the time `t` and logged at or after it. -/
def Clear (v : Sit) (t : Int) : Prop := v.fromLogs = false → ∀ r ∈ v.repo, t ≤ r.created → t ≤ r.noted

/-- No record was noted at or before the time `t` and logged after it. -/
def ClearTo (v : Sit) (t : Int) : Prop := v.fromLogs = false → ∀ r ∈ v.repo, r.noted ≤ t → r.created ≤ t

/-- The part is a whole cycle and begins just now. -/
def AtStart (v : Sit) (sc : Scope) (w : TPart) : Prop :=
  if sc = .month then
    ((w.span sc).1 = (w.span sc).2 ∨ ((w.span sc).1 = 0 ∧ (w.span sc).2 = 31 * DAY)) ∧ sinceMonthStart v.now = (w.span sc).1
  else
    ((w.span sc).1 = (w.span sc).2 ∨ ((w.span sc).1 = 0 ∧ (w.span sc).2 = len sc)) ∧ (v.now - (w.span sc).1) % len sc = 0

/-- The beginning of the latest occurrence. -/
def begins (v : Sit) (sc : Scope) (w : TPart) : Int :=
  if sc = .month then monthStartOf (monthOccurrence (w.span sc).1 v.now) + (w.span sc).1
  else (w.span sc).1 + len sc * occurrence (len sc) (w.span sc).1 v.now

/-- The end of the latest occurrence, if it is over. -/
def ends (v : Sit) (sc : Scope) (w : TPart) : Int :=
  if sc = .month then
    if (w.span sc).1 < (w.span sc).2 then monthStartOf (monthOccurrence (w.span sc).1 v.now) + (w.span sc).2
    else monthStartOf (monthOccurrence (w.span sc).1 v.now + 1) + (w.span sc).2
  else v.begins sc w + ((w.span sc).2 - (w.span sc).1) % len sc

/-- The tasks are in the session, there is a task whose condition it is, the clock is not at the first instant of a whole
cycle, the scheduler has been started (and the clock not been set back behind that). -/
def Ready (v : Sit) : Saying → Prop
  | .has task _ => ∃ name, v.who task = some name ∧ name ∈ v.tasks ∧ PlainStart (v.startCond name)
  | .hasIn task _ sc w => (∃ name, v.who task = some name ∧ name ∈ v.tasks) ∧ ¬ v.AtStart sc w ∧
      v.Clear (v.begins sc w) ∧ v.ClearTo (v.ends sc w)
  | .hasPast task _ _ _ us => (∃ name, v.who task = some name ∧ name ∈ v.tasks) ∧ v.Clear (v.now - us)
  | .timeOf _ _ => True
  | .exec sc w => v.self ≠ none ∧ ¬ v.AtStart sc w ∧ v.Clear (v.begins sc w)
  | .every _ us => v.self ≠ none ∧ v.Clear (v.now - us)
  | .cron _ => v.self ≠ none ∧ v.now % 60000000 ≠ 0 ∧ v.Clear (v.now - v.now % 60000000)
  | .running _ t => String.ofList t ∈ v.tasks
  | .afterTask t _ _ => v.self ≠ none ∧ String.ofList t ∈ v.tasks
  | .afterTasks _ ts _ _ => v.self ≠ none ∧ ∀ t ∈ ts, String.ofList t ∈ v.tasks
  | .schedOver _ _ => ∃ s, v.startup = some s ∧ s ≤ v.now
  | .schedAgo _ _ => ∃ s, v.startup = some s ∧ s ≤ v.now
  | _ => True

end Rocketry.Sit
