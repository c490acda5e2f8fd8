import Verif.Spec.DenoteSpec
import Verif.Props.DependProps

/-!
# What the start text of a task promises about its runs

Which phrases a condition text insists on, and what each of these phrases means for the log of the task.
-/

namespace Rocketry.Spec
open Props

/-- `e.Asks true w`: for the text `e` to be true, the phrase `w` must be found true; `e.Asks false w`: for `e` to be
false.  Read off the text from outside: one side of `&` is enough, both sides of `|` are needed, `~` turns it around. -/
def Written.Asks (w : Txt) : Bool → Written → Prop
  | b, .item _ x _ => b = true ∧ x = w
  | b, .group e => e.Asks w b
  | b, .not _ _ e => e.Asks w (!b)
  | true, .and a _ _ b => a.Asks w true ∨ b.Asks w true
  | false, .and a _ _ b => a.Asks w false ∧ b.Asks w false
  | true, .or a _ _ b => a.Asks w true ∧ b.Asks w true
  | false, .or a _ _ b => a.Asks w false ∨ b.Asks w false

/-- Every start of the task came after an instant with the property, which itself came after all earlier starts. -/
def StartsAfter (name : String) (P : Int → Prop) (repo : List Record) : Prop :=
  (∀ s ∈ repo, OfAction name .run s → ∃ t, P t ∧ t ≤ s.noted) ∧
  repo.Pairwise (fun r s => OfAction name .run r → OfAction name .run s → ∃ t, P t ∧ r.created ≤ t ∧ t ≤ s.noted)

/-- Every start of the task came after a record with the property, made after all earlier starts; the starts are not more
than these records. -/
def StartsServed (name : String) (Q : Record → Prop) (repo : List Record) : Prop :=
  (∀ s ∈ repo, OfAction name .run s → ∃ c ∈ repo, Q c ∧ c.created ≤ s.noted) ∧
  repo.Pairwise (fun r s => OfAction name .run r → OfAction name .run s →
    ∃ c ∈ repo, Q c ∧ r.created < c.created ∧ c.created ≤ s.noted) ∧
  ∃ cs : List Record, cs.Nodup ∧ (∀ c ∈ cs, c ∈ repo ∧ Q c) ∧
    cs.length = (repo.filter (fun r => decide (r.task = name ∧ r.action = .run))).length

/-- The task `d` has ended so. -/
def Ended (k : DepKind) (d : String) (c : Record) : Prop :=
  c.task = d ∧ match k with
    | .success => c.action = .success
    | .failure => c.action = .fail
    | .finish => c.action = .success ∨ c.action = .fail

/-- The record is of the task the phrase is about (the one named, or the task itself), and of the kind the verb is about. -/
def About (name : String) (task : Option Txt) (vb : Verb) (c : Record) : Prop :=
  c.task = (match task with | some t => String.ofList t | none => name) ∧ c.action ∈ shownBy vb

/-- The part is a whole cycle, and `t` the first instant of a cycle. -/
def Turn (sc : Scope) (w : TPart) (t : Int) : Prop :=
  if sc = .month then
    ((w.span sc).1 = (w.span sc).2 ∨ ((w.span sc).1 = 0 ∧ (w.span sc).2 = 31 * DAY)) ∧ sinceMonthStart t = (w.span sc).1
  else
    ((w.span sc).1 = (w.span sc).2 ∨ ((w.span sc).1 = 0 ∧ (w.span sc).2 = Sit.len sc)) ∧ (t - (w.span sc).1) % Sit.len sc = 0

/-- What a phrase, once insisted on, means for the records in the log (`repo`) and those still in the queue (`all`). -/
def Saying.Keeps (name : String) (repo all : List Record) : Saying → Prop
  /- "daily between 10:00 and 12:00": checked in that time, and at most one success in each occurrence -/
  | .exec sc w => StartsAfter name (Sit.InPart sc (w.span sc).1 (w.span sc).2) repo ∧
      all.Pairwise (fun r s => OfAction name .success r → OfAction name .success s →
        Sit.occ sc (w.span sc).1 r.noted < Sit.occ sc (w.span sc).1 s.noted)
  /- "time of day between 10:00 and 12:00": checked in that time -/
  | .timeOf sc w => StartsAfter name (Sit.InPart sc (w.span sc).1 (w.span sc).2) repo
  /- "every 10 minutes": starts more than 10 minutes apart -/
  | .every _ us => repo.Pairwise (fun r s => OfAction name .run r → OfAction name .run s → r.noted + us < s.noted)
  /- "cron …": checked at a minute that matches, and at most one start in each minute (but for the first instant of a minute) -/
  | .cron c => StartsAfter name (CronMatches c) repo ∧
      repo.Pairwise (fun r s => OfAction name .run r → OfAction name .run s →
        r.noted / 60000000 < s.noted / 60000000 ∨ (r.noted % 60000000 = 0 ∧ r.created = r.noted))
  /- "after task 'x'": every start after a new completion of x -/
  | .afterTask t k _ => StartsServed name (Ended k (String.ofList t)) repo
  | .afterTasks true ts k _ => StartsServed name (fun c => ∃ t ∈ ts, Ended k (String.ofList t) c) repo
  | .afterTasks false ts k _ => ∀ t ∈ ts, StartsServed name (Ended k (String.ofList t)) repo
  /- "has succeeded": there was such a record -/
  | .has task vb => StartsAfter name (fun t => ∃ c ∈ repo, About name task vb c ∧ c.created ≤ t) repo
  /- "has succeeded past 2 hours": in that time -/
  | .hasPast task vb _ _ us => StartsAfter name (fun t => ∃ c ∈ repo, About name task vb c ∧ t - us ≤ c.created ∧ c.created ≤ t) repo
  /- "has succeeded today after 10:00": made or noted in the latest such time (but for the first instant of a cycle) -/
  | .hasIn task vb sc w => StartsAfter name (fun t => ∃ c ∈ repo, About name task vb c ∧ c.created ≤ t ∧
      (Sit.Latest sc (w.span sc).1 (w.span sc).2 t c.created ∨ Sit.Latest sc (w.span sc).1 (w.span sc).2 t c.noted ∨ Turn sc w t)) repo
  /- "false": never -/
  | .const false _ => ∀ s ∈ repo, ¬ OfAction name .run s
  | _ => True

end Rocketry.Spec
