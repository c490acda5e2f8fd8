import Verif.Text.CondItems

/-!
# The phrases of the condition syntax and what they mean

Written from the documentation (docs/condition_syntax, docs/code/conds/syntax) and the examples of the condition
classes, independently of the table of patterns.
-/

namespace Rocketry.Spec

abbrev Txt := List Char

/-- The restriction of a cycle. -/
inductive Part where
  | whole
  | starting (a : Txt)
  | between (a b : Txt)
  | after (a : Txt)
  | before (b : Txt)
  | on (a : Txt)

/-- The phrases. -/
inductive Phrase where
  /-- `[task '…'] has failed` -/
  | has (task : Option Txt) (v : Verb)
  /-- `[task '…'] has failed today between … and …` -/
  | hasIn (task : Option Txt) (v : Verb) (sc : Scope) (w : Part)
  /-- `[task '…'] has failed [in] past …` -/
  | hasPast (task : Option Txt) (v : Verb) (inn : Bool) (d : Txt)
  /-- `time of day between … and …` -/
  | timeOf (sc : Scope) (w : Part)
  /-- `daily between … and …` -/
  | exec (sc : Scope) (w : Part)
  /-- `every …` -/
  | every (d : Txt)
  /-- `cron …`, the fields -/
  | cron (fs : List Txt)
  /-- `[while] task '…' is running` -/
  | running (whil : Bool) (t : Txt)
  /-- `after task '…' [succeeded]`, `after task '…' failed`, `after task '…' finished`; whether "succeeded" is said -/
  | afterTask (t : Txt) (k : DepKind) (said : Bool)
  /-- `after [any] tasks '…', '…' [succeeded]` etc. -/
  | afterTasks (isAny : Bool) (ts : List Txt) (k : DepKind) (said : Bool)
  | env (v : Txt)
  | paramExists (k : Txt)
  | paramIs (k v : Txt)
  /-- `scheduler has run over …` -/
  | schedOver (d : Txt)
  /-- `scheduler started … ago` -/
  | schedAgo (d : Txt)
  | schedMore (n : Nat)
  | schedLess (n : Nat)
  | schedCycles (n : Nat)
  /-- `true`, `false`, `always true`, `always false` -/
  | const (b : Bool) (long : Bool)

def verbText : Verb → Txt
  | .failed => c!"failed" | .succeeded => c!"succeeded" | .finished => c!"finished" | .terminated => c!"terminated"
  | .inacted => c!"inacted" | .started => c!"started"

/-- "this week" etc. -/
def thisText : Scope → Txt
  | .second => c!"this second" | .minute => c!"this minute" | .hour => c!"this hour" | .day => c!"today"
  | .week => c!"this week" | .month => c!"this month" | .year => c!"this year"

def unitWord : Scope → Txt
  | .second => c!"second" | .minute => c!"minute" | .hour => c!"hour" | .day => c!"day"
  | .week => c!"week" | .month => c!"month" | .year => c!"year"

def cycleText : Scope → Txt
  | .second => c!"secondly" | .minute => c!"minutely" | .hour => c!"hourly" | .day => c!"daily"
  | .week => c!"weekly" | .month => c!"monthly" | .year => c!"yearly"

/-- The outcome as said in an `after` phrase. -/
def outcomeText : DepKind → Bool → Txt
  | .success, false => [] | .success, true => c!" succeeded"
  | .failure, _ => c!" failed" | .finish, _ => c!" finished"

def Part.text : Part → Txt
  | .whole => []
  | .starting a => c!" starting " ++ a
  | .between a b => c!" between " ++ a ++ c!" and " ++ b
  | .after a => c!" after " ++ a
  | .before b => c!" before " ++ b
  | .on a => c!" on " ++ a

/-- `task '…' `, or nothing. -/
def whoText : Option Txt → Txt
  | none => []
  | some t => c!"task '" ++ t ++ c!"' "

/-- The phrase as written. -/
def Phrase.text : Phrase → Txt
  | .has task v => whoText task ++ c!"has " ++ verbText v
  | .hasIn task v sc w =>
    whoText task ++ c!"has " ++ verbText v ++ c!" " ++ thisText sc ++ w.text
  | .hasPast task v inn d =>
    whoText task ++ c!"has " ++ verbText v ++ (if inn then c!" in past " else c!" past ") ++ d
  | .timeOf sc w => c!"time of " ++ unitWord sc ++ w.text
  | .exec sc w => cycleText sc ++ w.text
  | .every d => c!"every " ++ d
  | .cron fs => c!"cron " ++ joinWith [' '] fs
  | .running whil t => (if whil then c!"while task '" else c!"task '") ++ t ++ c!"' is running"
  | .afterTask t k said => c!"after task '" ++ t ++ c!"'" ++ outcomeText k said
  | .afterTasks isAny ts k said =>
    (if isAny then c!"after any tasks '" else c!"after tasks '") ++ joinWith c!"', '" ts ++ c!"'" ++
      outcomeText k said
  | .env v => c!"env '" ++ v ++ c!"'"
  | .paramExists k => c!"param '" ++ k ++ c!"' exists"
  | .paramIs k v => c!"param '" ++ k ++ c!"' is '" ++ v ++ c!"'"
  | .schedOver d => c!"scheduler has run over " ++ d
  | .schedAgo d => c!"scheduler started " ++ d ++ c!" ago"
  | .schedMore n => c!"scheduler has more than " ++ showNat n ++ c!" cycles"
  | .schedLess n => c!"scheduler has less than " ++ showNat n ++ c!" cycles"
  | .schedCycles n => c!"scheduler has " ++ showNat n ++ c!" cycles"
  | .const b long => (if long then c!"always " else []) ++ (if b then c!"true" else c!"false")

/-- The part of a cycle that is meant: `TimeOfDay(a, b)`, `TimeOfDay.at(a)`, `TimeOfDay.starting(a)` …, where `val` is
the point of time named by a text. -/
def Part.meaning (val : Scope → Txt → AVal) (sc : Scope) : Part → Except PyErr Anchored
  | .whole => Anchored.init sc none none
  | .starting a => Anchored.starting sc (val sc a)
  | .between a b => Anchored.init sc (some (val sc a)) (some (val sc b))
  | .after a => Anchored.init sc (some (val sc a)) none
  | .before b => Anchored.init sc none (some (val sc b))
  | .on a => Anchored.at sc (val sc a)

/-- The length of a duration; the sign does not matter. -/
def span (d : Txt) : Except PyErr Int := (stringToTimedelta d).map (fun us => if us < 0 then -us else us)

/-- The condition a phrase means. -/
def Phrase.meaning (val : Scope → Txt → AVal) : Phrase → Except PyErr (Cond Builtin)
  | .has task v => .ok (.leaf (.status v task none []))
  | .hasIn task v sc w => (w.meaning val sc).map (fun p => .leaf (.status v task (some (.anchored p)) []))
  | .hasPast task v _ d => (span d).map (fun us => .leaf (.status v task (some (.delta us 0)) []))
  | .timeOf sc w => (w.meaning val sc).map (fun p => .leaf (.isPeriod p))
  | .exec sc w => (w.meaning val sc).map (fun p => .leaf (.executable p))
  | .every d => (span d).map (fun us => .leaf (.status .started none (some (.delta us 0)) [(.eq, 0)]))
  | .cron fs => .ok (.leaf (.cron (fs ++ List.replicate (5 - fs.length) ['*'])))
  | .running _ t => .ok (.leaf (.running t))
  | .afterTask t k _ => .ok (.leaf (.depend k t))
  | .afterTasks isAny ts k _ =>
    let cs := ts.map (fun t => Cond.leaf (Builtin.depend k t))
    .ok (if isAny then .any cs else .all cs)
  | .env v => .ok (.leaf (.env v))
  | .paramExists k => .ok (.leaf (.params [k]))
  | .paramIs k v => .ok (.leaf (.paramIs k v))
  | .schedOver d => (span d).map (fun us => .not (.leaf (.schedStarted us)))
  | .schedAgo d => (span d).map (fun us => .leaf (.schedStarted us))
  | .schedMore n => .ok (.leaf (.cycles [(.gt, n)]))
  | .schedLess n => .ok (.leaf (.cycles [(.lt, n)]))
  | .schedCycles n => .ok (.leaf (.cycles [(.eq, n)]))
  | .const b _ => .ok (if b then .alwaysTrue else .alwaysFalse)

/-- A text that can be put into a phrase: not empty, one line, no quote. -/
def Arg (t : Txt) : Prop := t ≠ [] ∧ '\n' ∉ t ∧ '\'' ∉ t

/-- A text that can end a phrase with "and": the word "and" does not occur in it. -/
def LastArg (t : Txt) : Prop := Arg t ∧ ¬ c!" and " <:+: ' ' :: t

def Part.Proper : Part → Prop
  | .whole => True
  | .starting a => Arg a
  | .between a b => Arg a ∧ LastArg b
  | .after a => Arg a
  | .before b => Arg b
  | .on a => Arg a

def WhoProper : Option Txt → Prop
  | none => True
  | some t => Arg t

/-- The arguments can be written in the phrase. -/
def Phrase.Proper : Phrase → Prop
  | .has task _ => WhoProper task
  | .hasIn task _ _ w => WhoProper task ∧ w.Proper
  | .hasPast task _ _ d => WhoProper task ∧ Arg d
  | .timeOf _ w => w.Proper
  | .exec _ w => w.Proper
  | .every d => Arg d
  | .cron fs => fs ≠ [] ∧ fs.length ≤ 5 ∧ ∀ f ∈ fs, Arg f ∧ ' ' ∉ f
  | .running _ t => Arg t
  | .afterTask t _ _ => Arg t
  | .afterTasks _ ts _ _ => ts ≠ [] ∧ ∀ t ∈ ts, Arg t
  | .env v => Arg v
  | .paramExists k => Arg k
  | .paramIs k v => Arg k ∧ Arg v
  | .schedOver d => Arg d
  | .schedAgo d => Arg d
  | .schedMore _ => True
  | .schedLess _ => True
  | .schedCycles _ => True
  | .const _ _ => True

/-- The units for which the syntax has words: no "this second", "this year", "time of second", "yearly"; `time of …`
needs a restriction, "starting" is not available there and "on" only with weeks and months. -/
def Phrase.InSyntax : Phrase → Prop
  | .hasIn _ _ sc _ => sc ≠ .second ∧ sc ≠ .year
  | .timeOf sc w =>
    sc ≠ .second ∧ sc ≠ .year ∧
    match w with
    | .whole => False
    | .starting _ => False
    | .on _ => sc = .week ∨ sc = .month
    | _ => True
  | .exec sc _ => sc ≠ .year
  | _ => True

/-- The texts in a phrase that name points of time. -/
def Part.times : Part → List Txt
  | .whole => []
  | .starting a => [a]
  | .between a b => [a, b]
  | .after a => [a]
  | .before b => [b]
  | .on a => [a]

def Phrase.times : Phrase → List (Scope × Txt)
  | .hasIn _ _ sc w => w.times.map (fun t => (sc, t))
  | .timeOf sc w => w.times.map (fun t => (sc, t))
  | .exec sc w => w.times.map (fun t => (sc, t))
  | _ => []

end Rocketry.Spec
