import Verif.Cond.Api
import Verif.Spec.PhraseSpec

/-!
# The Python expression written for a phrase

After docs/code/conds/api and docs/code/conds/syntax, which give the same examples in both forms.
-/

namespace Rocketry.Spec

/-- `daily.between("10:00", "12:00")` etc. -/
def Part.apply (val : Scope → Txt → AVal) (w : Api.TimeWrapper) : Part → Except PyErr (Cond Builtin)
  | .whole => w.whole
  | .starting a => w.starting (val w.sc a)
  | .between a b => w.between (val w.sc a) (val w.sc b)
  | .after a => w.after (val w.sc a)
  | .before b => w.before (val w.sc b)
  | .on a => w.at (val w.sc a)

/-- There are objects for these verbs. -/
def inApi : Verb → Bool
  | .started => true | .failed => true | .succeeded => true | .finished => true
  | .terminated => false | .inacted => false

/-- `failed`, `failed('task')`. -/
def actionOf (v : Verb) : Option Txt → Api.ActionWrapper
  | none => ⟨v, none⟩
  | some t => Api.ActionWrapper.call ⟨v, none⟩ t

/-- The expression for a phrase, if there is one. -/
def Phrase.api (val : Scope → Txt → AVal) : Phrase → Option (Except PyErr (Cond Builtin))
  | .has task v => if inApi v then some (.ok (actionOf v task).whole) else none
  | .hasIn task v sc w => if inApi v then some (w.apply val ((actionOf v task).this sc)) else none
  | .hasPast .. => none
  | .timeOf sc w => some (w.apply val (Api.timeOf sc))
  | .exec sc w => some (w.apply val (Api.executing sc))
  | .every d => some (Api.every d "run")
  | .cron fs => some (Api.cron (joinWith [' '] fs))
  | .running _ t => some (.ok (Api.running t))
  | .afterTask t k _ => some (.ok (Api.after k t))
  | .afterTasks isAny ts k _ => some (.ok (if isAny then Api.afterAny k ts else Api.afterAll k ts))
  | .env _ => none
  | .paramExists _ => none
  | .paramIs _ _ => none
  | .schedOver _ => none
  | .schedAgo _ => none
  | .schedMore n => some (.ok (Api.schedulerCycles (some n) none))
  | .schedLess n => some (.ok (Api.schedulerCycles none (some n)))
  | .schedCycles _ => none
  | .const b _ => some (.ok (Api.const b))

/-- The phrases of the time syntax. -/
inductive TimePhrase where
  | timeOf (sc : Scope) (w : Part)
  | every (d : Txt)
  | past (d : Txt)
  | always
  | never

def TimePhrase.text : TimePhrase → Txt
  | .timeOf sc w => c!"time of " ++ unitWord sc ++ w.text
  | .every d => c!"every " ++ d
  | .past d => c!"past " ++ d
  | .always => c!"always"
  | .never => c!"never"

/-- The period a phrase means. -/
def TimePhrase.meaning (val : Scope → Txt → AVal) : TimePhrase → Except PyErr Period
  | .timeOf sc w => (w.meaning val sc).map Period.anchored
  | .every d => (span d).map (fun us => .delta us 0)
  | .past d => (span d).map (fun us => .delta us 0)
  | .always => .ok .always
  | .never => .ok (.static MAXT MAXT)

def TimePhrase.Proper : TimePhrase → Prop
  | .timeOf _ w => w.Proper
  | .every d => Arg d
  | .past d => Arg d
  | _ => True

def TimePhrase.InSyntax : TimePhrase → Prop
  | .timeOf sc w => (Phrase.timeOf sc w).InSyntax
  | _ => True

def TimePhrase.times : TimePhrase → List (Scope × Txt)
  | .timeOf sc w => w.times.map (fun t => (sc, t))
  | _ => []

end Rocketry.Spec
