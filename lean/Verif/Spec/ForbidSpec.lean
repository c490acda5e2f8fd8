import Verif.Spec.PromiseSpec

/-!
# What the start text of a task forbids

Which phrases a condition text wants to be found false, and what that means for the starts in the log.
-/

namespace Rocketry.Spec
open Props

/-- `e.Denies w true`: for the text `e` to be true, the phrase `w` must be found false; `e.Denies w false`: for `e` to be
false. -/
def Written.Denies (w : Txt) : Bool → Written → Prop
  | b, .item _ x _ => b = false ∧ x = w
  | b, .group e => e.Denies w b
  | b, .not _ _ e => e.Denies w (!b)
  | true, .and a _ _ b => a.Denies w true ∨ b.Denies w true
  | false, .and a _ _ b => a.Denies w false ∧ b.Denies w false
  | true, .or a _ _ b => a.Denies w true ∧ b.Denies w true
  | false, .or a _ _ b => a.Denies w false ∨ b.Denies w false

/-- Before every start of the task there was a check, at a time `t` at which the log was `seen`, with the property.  All the
log has from the time between the check and the start (`new`) is of other tasks; if records may come late, it is at
least no start of the task. -/
def StartsChecked (name : String) (late : Bool) (P : List Record → Int → Prop) (repo : List Record) : Prop :=
  ∀ pre s post, repo = pre ++ s :: post → OfAction name .run s → ∃ seen new t, pre = seen ++ new ∧ P seen t ∧
    (∀ r ∈ seen, r.noted ≤ r.created ∧ r.created ≤ t) ∧ t ≤ s.noted ∧
    ∀ r ∈ new, ¬ (r.task = name ∧ (late = true → r.action = .run))

/-- The task `d` has ended so since the task `name` last started. -/
def EndedSince (name : String) (k : DepKind) (d : String) (seen : List Record) : Prop :=
  ∃ c ∈ seen, Ended k d c ∧ ∀ r ∈ seen, OfAction name .run r → r.created < c.created

/-- What a phrase, once forbidden, means for the starts in the log. -/
def Saying.Bars (name : String) (late : Bool) (repo : List Record) : Saying → Prop
  /- not "time of day between 10:00 and 12:00": checked outside that time -/
  | .timeOf sc w => StartsChecked name late (fun _ t => ¬ Sit.InPart sc (w.span sc).1 (w.span sc).2 t) repo
  /- not "daily between 10:00 and 12:00": checked outside that time, or a run has already ended in its occurrence -/
  | .exec sc w => StartsChecked name late (fun seen t => ¬ Sit.InPart sc (w.span sc).1 (w.span sc).2 t ∨
      ∃ c ∈ seen, c.task = name ∧ c.action ∈ [Action.success, .fail, .inaction, .terminate] ∧
        (sc = .month ∨ Turn sc w t ∨ Sit.occ sc (w.span sc).1 c.created = Sit.occ sc (w.span sc).1 t ∨
          Sit.occ sc (w.span sc).1 c.noted = Sit.occ sc (w.span sc).1 t)) repo
  /- not "every 10 minutes": a first start would need an earlier one -/
  | .every _ _ => ∀ s ∈ repo, ¬ OfAction name .run s
  /- not "cron …": checked at a minute that does not match, or the task has been started before -/
  | .cron c => StartsChecked name late (fun seen t => ¬ CronMatches c t ∨ ∃ r ∈ seen, OfAction name .run r) repo
  /- not "after task 'x'": x has not ended so since the last start -/
  | .afterTask t k _ => StartsChecked name late (fun seen _ => ¬ EndedSince name k (String.ofList t) seen) repo
  | .afterTasks true ts k _ =>
      StartsChecked name late (fun seen _ => ∀ t ∈ ts, ¬ EndedSince name k (String.ofList t) seen) repo
  | .afterTasks false ts k _ =>
      StartsChecked name late (fun seen _ => ∃ t ∈ ts, ¬ EndedSince name k (String.ofList t) seen) repo
  /- not "has failed past 2 hours": every failure the log had was more than 2 hours ago -/
  | .hasPast task vb _ _ us =>
      StartsChecked name late (fun seen t => ∀ c ∈ seen, About name task vb c → c.noted < t - us) repo
  /- not "has failed today after 10:00": no failure was made and noted in the latest such time (but for the first instant of
  a cycle) -/
  | .hasIn task vb sc w =>
      StartsChecked name late (fun seen t => Turn sc w t ∨ ∀ c ∈ seen, About name task vb c →
        ¬ (Sit.Latest sc (w.span sc).1 (w.span sc).2 t c.created ∧ Sit.Latest sc (w.span sc).1 (w.span sc).2 t c.noted)) repo
  /- not "true": never -/
  | .const true _ => ∀ s ∈ repo, ¬ OfAction name .run s
  | _ => True

/-- The task a phrase is about: the one named, or the task itself. -/
def whose (name : String) : Option Txt → String
  | some t => String.ofList t
  | none => name

/-- The check can see what the phrase is about: a session that does not read the log for statuses has read the times of the
task at startup (as it has for a task that it checks), and no records of it wait in the queue at a check. -/
def Saying.Visible (S : Setup) (name : String) : Saying → Prop
  | .hasPast task vb _ _ _ => Shown task vb
  | .hasIn task vb _ _ => Shown task vb
  | .afterTask t _ _ => S.isProc (String.ofList t) = false ∨ S.drained = true
  | .afterTasks _ ts _ _ => ∀ t ∈ ts, S.isProc (String.ofList t) = false ∨ S.drained = true
  | _ => True
where
  Shown (task : Option Txt) (vb : Verb) : Prop := S.fromLogs = true ∨
    ((whose name task = name ∨ ∀ reason first last w, S.start name reason first last w → CacheOK w (whose name task)) ∧
      (vb = .started ∨ S.isProc (whose name task) = false ∨ S.drained = true))

end Rocketry.Spec
