import Verif.Spec.ApiSpec
import Verif.Props.PhraseProps

/-!
# C61: the condition objects of the Python interface and the phrases of the syntax
-/

namespace Rocketry.Props

open Rocketry.Spec Rocketry.Phrases Cond

variable {read : Scope → List Char → Except PyErr AVal} {val : Scope → Txt → AVal}

theorem apply_meaning (w : Part) (tw : Api.TimeWrapper) :
    w.apply val tw = (w.meaning val tw.sc).map (fun p => .leaf (tw.make p)) := by
  cases w <;>
    simp only [Part.apply, Part.meaning, Api.TimeWrapper.whole, Api.TimeWrapper.starting, Api.TimeWrapper.between,
      Api.TimeWrapper.after, Api.TimeWrapper.before, Api.TimeWrapper.at, Api.TimeWrapper.cond, Anchored.at, bindE_map]

theorem flatMap_leaf {α : Type} (f : α → Builtin) (l : List α) :
    (l.map (fun x => Cond.leaf (f x))).flatMap Cond.allParts = l.map (fun x => Cond.leaf (f x)) ∧
    (l.map (fun x => Cond.leaf (f x))).flatMap Cond.anyParts = l.map (fun x => Cond.leaf (f x)) := by
  induction l with
  | nil => exact ⟨rfl, rfl⟩
  | cons x l ih => simp [Cond.allParts, Cond.anyParts, ih.1, ih.2]

/-- C61: every expression of the Python interface builds the condition that is meant: the class, the task, the part of
the cycle, the number of occurrences. -/
theorem C61_api (ph : Phrase) (hp : ph.Proper) {r : Except PyErr (Cond Builtin)} (hr : ph.api val = some r) :
    r = ph.meaning val := by
  cases ph with
  | has task v =>
    simp only [Phrase.api] at hr
    split at hr
    · cases hr; cases task <;> rfl
    · cases hr
  | hasIn task v sc w =>
    simp only [Phrase.api] at hr
    split at hr
    · cases hr
      rw [apply_meaning]
      cases task <;> rfl
    · cases hr
  | timeOf sc w => cases hr; rw [apply_meaning]; rfl
  | exec sc w => cases hr; rw [apply_meaning]; rfl
  | every d =>
    cases hr
    simp only [Api.every, if_true, readDelta_eq, bindE_map, Phrase.meaning]
  | cron fs =>
    cases hr
    have hne : joinWith [' '] fs ≠ [] := joinWith_ne_nil hp.1 (fun f hf => (hp.2.2 f hf).1.1)
    have hsp := splitChar_join (sep := ' ') hp.1 (fun f hf => (hp.2.2 f hf).2)
    simp only [Api.cron, if_neg hne, cronFields, hsp, if_pos hp.2.1, bindE_ok, Phrase.meaning]
  | afterTasks isAny ts k said =>
    cases hr
    simp only [Phrase.meaning, Api.afterAll, Api.afterAny, Cond.mkAll, Cond.mkAny]
    have := flatMap_leaf (Builtin.depend k) ts
    cases isAny
    · simp only [Bool.false_eq_true, if_false]; rw [← this.1]; rfl
    · simp only [if_true]; rw [← this.2]; rfl
  | running whil t => cases hr; rfl
  | afterTask t k said => cases hr; rfl
  | schedMore n => cases hr; rfl
  | schedLess n => cases hr; rfl
  | const b long => cases hr; cases b <;> rfl
  | _ => cases hr

/-- C61: a phrase and the Python expression documented for it are the same condition, for all arguments that can be
written.  What is missing (`SoundPhrase`): "has … starting" with a weekday or a day of the month
(`C61_starting_violated`). -/
theorem C61_same_partial (ph : Phrase) (hp : ph.Proper) (hin : ph.InSyntax) (hs : SoundPhrase val ph)
    (hrd : ∀ x ∈ ph.times, read x.1 x.2 = .ok (val x.1 x.2)) {r : Except PyErr (Cond Builtin)} (hr : ph.api val = some r) :
    (parseCondItem read ph.text).map resolve = r := by
  rw [C60_phrase_partial ph hp hin hs hrd, C61_api ph hp hr]

/-- Every clock time of the example is ten o'clock. -/
private def tenth : Scope → Txt → AVal := fun _ _ => .clock 36000000000

/-- `succeeded('fetch').today.starting("10:00")`. -/
example : (Phrase.hasIn (some c!"fetch") .succeeded .day (.starting c!"10:00")).Proper ∧
    (Phrase.hasIn (some c!"fetch") .succeeded .day (.starting c!"10:00")).InSyntax ∧
    SoundPhrase tenth (.hasIn (some c!"fetch") .succeeded .day (.starting c!"10:00")) ∧
    (Phrase.hasIn (some c!"fetch") .succeeded .day (.starting c!"10:00")).api tenth =
      some (.ok (.leaf (.status .succeeded (some c!"fetch") (some (.anchored ⟨.day, 36000000000, 36000000000⟩)) []))) :=
  ⟨⟨⟨by decide, by decide, by decide⟩, ⟨by decide, by decide, by decide⟩⟩, by simp [Phrase.InSyntax], ⟨_, rfl⟩, rfl⟩

/-- Violated: "has succeeded this week starting Mon" and `succeeded.this_week.starting("Mon")` are different
conditions: the first is about Mondays, the second about whole weeks. -/
theorem C61_starting_violated : ∃ (read : Scope → Txt → Except PyErr AVal) (val : Scope → Txt → AVal) (ph : Phrase)
    (r : Except PyErr (Cond Builtin)),
    ph.Proper ∧ ph.InSyntax ∧ (∀ x ∈ ph.times, read x.1 x.2 = .ok (val x.1 x.2)) ∧ ph.api val = some r ∧
    (parseCondItem read ph.text).map resolve ≠ r := by
  obtain ⟨read, val, ph, h1, h2, h3, h4, h5, h6⟩ := C60_starting_violated
  have hph : ∃ r, ph.api val = some r := by
    cases hr : ph.api val with
    | some r => exact ⟨r, rfl⟩
    | none =>
      exfalso
      cases ph <;> simp [Phrase.meaning] at h6
      case hasIn task v sc w =>
        have hv : v = .succeeded := by
          cases hm : w.meaning val sc with
          | error e => rw [hm] at h6; cases h6
          | ok a => rw [hm] at h6; cases h6; rfl
        rw [hv] at hr
        simp [Phrase.api, inApi] at hr
      case timeOf sc w => simp [Phrase.api] at hr
      case exec sc w => simp [Phrase.api] at hr
      case hasPast task v inn d =>
        cases hm : Spec.span d with
        | error e => rw [hm] at h6; cases h6
        | ok a => rw [hm] at h6; cases h6
      case schedOver d =>
        cases hm : Spec.span d with
        | error e => rw [hm] at h6; cases h6
        | ok a => rw [hm] at h6; cases h6
      case schedAgo d =>
        cases hm : Spec.span d with
        | error e => rw [hm] at h6; cases h6
        | ok a => rw [hm] at h6; cases h6
      all_goals simp [Phrase.api] at hr
  obtain ⟨r, hr⟩ := hph
  refine ⟨read, val, ph, r, h1, h2, h3, hr, ?_⟩
  rw [C61_api ph h1 hr, h5, h6]
  simp

/-! ### time phrases -/

theorem time_shape {σ : Nat → List Char} {st : Shape} {f : PeriodFn} {g : List (String × Shape)} {s : List Char}
    (hs : inst σ st = s) (hg : Good σ st) (hf : symFind isPeriodEntries st = some (.isPeriod f, g)) (ho : ∀ b, f ≠ .object b) :
    parseTimeItem read s = callPeriod read f (instG σ g) := by
  have h1 := symFind_sound hg hf
  rw [hs] at h1
  unfold parseTimeItem
  rw [h1]
  cases f with
  | object b => exact absurd rfl (ho b)
  | _ => rfl

theorem find_timeOf_period : (timeOfCases.all fun c =>
    decide (symFind isPeriodEntries (timeOfShape c.1 c.2) =
      some (.isPeriod c.2.fn, ("type_", chars (unitWord c.1)) :: c.2.times))) = true := by decide +kernel

theorem mem_timeOfCases {sc : Scope} {w : Part} (hin : (Phrase.timeOf sc w).InSyntax) : (sc, kindOf w) ∈ timeOfCases := by
  have h2 := hin.2.2
  cases w with
  | whole => exact h2.elim
  | starting a => exact h2.elim
  | on a => rcases h2 with h2 | h2 <;> (rw [h2]; simp only [kindOf]; decide)
  | _ =>
    have h0 := hin.1
    have h1 := hin.2.1
    cases sc <;> first | exact absurd rfl h0 | exact absurd rfl h1 | (simp only [kindOf]; decide)

/-- C61: every phrase of the time syntax is read as the period it means, for all arguments that can be written in it. -/
theorem C61_time (ph : TimePhrase) (hp : ph.Proper) (hin : ph.InSyntax)
    (hr : ∀ x ∈ ph.times, read x.1 x.2 = .ok (val x.1 x.2)) : parseTimeItem read ph.text = ph.meaning val := by
  cases ph with
  | timeOf sc w =>
    have hw := mem_timeOfCases hin
    have hf := of_decide_eq_true (List.all_eq_true.1 find_timeOf_period _ hw)
    have hi : inst (parts [] (arg1 w) (arg2 w)) (timeOfShape sc (kindOf w)) = (TimePhrase.timeOf sc w).text := by
      simp only [timeOfShape, inst_append, inst_chars', inst_part]; rfl
    rw [time_shape hi (by
      simp only [timeOfShape, good_append]
      exact ⟨⟨good_chars _, good_chars _⟩, good_part _ hp⟩) hf (by cases w <;> simp [kindOf, PK.fn])]
    exact period_timeOf w hw (mem_cycles5 hin.1 hin.2.1) (fun t ht => hr (sc, t) (by
      simp only [TimePhrase.times, List.mem_map]; exact ⟨t, ht, rfl⟩))
  | every d =>
    rw [time_shape (s := (TimePhrase.every d).text) (f := .delta) (g := [("past", [.var 0 .plain])])
      ((inst_around c!"every " [] d .plain).trans (List.append_nil _)) (good_around (holds_plain hp)) (by decide +kernel) (by simp)]
    simp [callPeriod, instG, kw, fits, inst, parts, TimePhrase.meaning, readDelta_eq]
    cases Spec.span d <;> rfl
  | past d =>
    rw [time_shape (s := (TimePhrase.past d).text) (f := .delta) (g := [("past", [.var 0 .plain])])
      ((inst_around c!"past " [] d .plain).trans (List.append_nil _)) (good_around (holds_plain hp)) (by decide +kernel) (by simp)]
    simp [callPeriod, instG, kw, fits, inst, parts, TimePhrase.meaning, readDelta_eq]
    cases Spec.span d <;> rfl
  | always =>
    have h : findParser isPeriodEntries c!"always" = some (.isPeriod (.object true), []) := by decide +kernel
    simp only [TimePhrase.text, parseTimeItem, h, TimePhrase.meaning]
  | never =>
    have h : findParser isPeriodEntries c!"never" = some (.isPeriod (.object false), []) := by decide +kernel
    simp only [TimePhrase.text, parseTimeItem, h, TimePhrase.meaning]

/-- `time of day between 10:00 and 12:00`. -/
example : (TimePhrase.timeOf .day (.between c!"10:00" c!"12:00")).Proper ∧
    (TimePhrase.timeOf .day (.between c!"10:00" c!"12:00")).InSyntax ∧
    (TimePhrase.timeOf .day (.between c!"10:00" c!"12:00")).text = c!"time of day between 10:00 and 12:00" :=
  ⟨⟨⟨by decide, by decide, by decide⟩, ⟨by decide, by decide, by decide⟩, by decide +kernel⟩,
    by simp [TimePhrase.InSyntax, Phrase.InSyntax], rfl⟩

/-- A phrase with fixed instants: "every …" and "past …" slide with the time of evaluation. -/
def FixedTime : TimePhrase → Prop
  | .timeOf _ _ => True
  | .never => True
  | _ => False

/-- The instants of a time phrase. -/
def phraseInstants (val : Scope → Txt → AVal) (ph : TimePhrase) (t : Int) : Prop :=
  match ph.meaning val with
  | .ok p => sem p t
  | .error _ => False

/-- C61 with C24: a whole time text — time phrases connected by `&`, `|` and brackets — is read as a period that
contains, on the supported time line, the instants of the written expression over the periods the phrases mean.  What is
missing: the phrase "always" in a text (`C24_always_violated`), sliding periods, and the blanks of `C24_time_partial`. -/
theorem C61_timetext_partial (e : Written) (he : e.Proper) (hn : e.NoNot) (phraseOf : Txt → TimePhrase)
    (hw : ∀ w ∈ e.words, (phraseOf w).text = w ∧ (phraseOf w).Proper ∧ (phraseOf w).InSyntax ∧ FixedTime (phraseOf w) ∧
      (∀ x ∈ (phraseOf w).times, read x.1 x.2 = .ok (val x.1 x.2)) ∧ ∃ p, (phraseOf w).meaning val = .ok p) :
    ∃ p, parseTime (parseTimeItem read) e.text = .ok (.val p) ∧
      ∀ t, MINT ≤ t → t < MAXT → (sem p t ↔ e.instants (fun w => phraseInstants val (phraseOf w)) t) := by
  apply C24_time_partial (parseTimeItem read) (fun w => phraseInstants val (phraseOf w)) e he hn
  intro w hwm
  obtain ⟨h1, h2, h3, h4, h5, p, h6⟩ := hw w hwm
  have := C61_time (phraseOf w) h2 h3 h5
  rw [h6, h1] at this
  refine ⟨p, this, ?_, fun t _ _ => by simp only [phraseInstants, h6]⟩
  revert h6 h4
  generalize phraseOf w = ph
  intro h4 h6
  cases ph with
  | timeOf sc u =>
    simp only [TimePhrase.meaning] at h6
    cases hm : u.meaning val sc with
    | error e => rw [hm] at h6; cases h6
    | ok a => rw [hm] at h6; cases h6; simp [Substantial]
  | every d => exact h4.elim
  | past d => exact h4.elim
  | always => exact h4.elim
  | never => cases h6; simp [Substantial]

/-- `time of day after 10:00 & time of hour before 45:00`: the hypotheses hold. -/
example : ∃ phraseOf : Txt → TimePhrase, ∃ e : Written, e.Proper ∧ e.NoNot ∧
    e.text = c!"time of day after 10:00 & time of hour before 45:00" ∧
    ∀ w ∈ e.words, (phraseOf w).text = w ∧ (phraseOf w).Proper ∧ (phraseOf w).InSyntax ∧ FixedTime (phraseOf w) ∧
      ∃ p, (phraseOf w).meaning (fun sc _ => .clock (if sc = .day then 36000000000 else 2700000000)) = .ok p := by
  refine ⟨fun w => if w = c!"time of day after 10:00" then .timeOf .day (.after c!"10:00") else .timeOf .hour (.before c!"45:00"),
    .and (.item [] c!"time of day after 10:00" []) [' '] [' '] (.item [] c!"time of hour before 45:00" []), ?_, ?_, rfl, ?_⟩
  · simp [Written.Proper, Written.Word, Written.Conj, Written.Tight, Written.Blank]
  · simp [Written.NoNot]
  · intro w hw
    simp only [Written.words, List.mem_append, List.mem_cons, List.not_mem_nil, or_false] at hw
    rcases hw with rfl | rfl
    · simp only [if_true]
      exact ⟨rfl, ⟨by decide, by decide, by decide⟩, by simp [TimePhrase.InSyntax, Phrase.InSyntax], trivial, _, rfl⟩
    · refine (?_ : (TimePhrase.timeOf .hour (.before c!"45:00")).text = _ ∧ _)
      exact ⟨rfl, ⟨by decide, by decide, by decide⟩, by simp [TimePhrase.InSyntax, Phrase.InSyntax], trivial, _, rfl⟩

end Rocketry.Props
