import Verif.Text.PhraseFind
import Verif.Base.ExceptEq
import Verif.Props.ParserProps

/-!
# C60: phrases of the condition syntax
-/

namespace Rocketry.Props

open Rocketry.Spec Rocketry.Phrases Cond

theorem instG_append (σ : Nat → List Char) (a b : List (String × Shape)) : instG σ (a ++ b) = instG σ a ++ instG σ b := by
  simp [instG]

theorem bindE_ok {α β : Type} (a : α) (f : α → Except PyErr β) : bindE (.ok a) f = f a := rfl

theorem bindE_error {α β : Type} (e : PyErr) (f : α → Except PyErr β) : bindE (.error e : Except PyErr α) f = .error e := rfl

/-- Readable texts: the construction from texts is the construction from their values. -/
theorem initText_eq {read : Scope → List Char → Except PyErr AVal} {sc : Scope} {a b : Option Txt}
    {va vb : Option AVal} (tp st : Bool) (ha : readOpt read sc a = .ok va) (hb : readOpt read sc b = .ok vb) :
    initText read sc a b tp st = Anchored.init sc va vb tp st := by
  have h1 : va.isNone = a.isNone := by
    cases a with
    | none => simp only [readOpt, Except.ok.injEq] at ha; rw [← ha]; rfl
    | some t =>
      simp only [readOpt] at ha
      cases hr : read sc t with
      | error e => rw [hr] at ha; cases ha
      | ok v => rw [hr, bindE_ok] at ha; cases ha; rfl
  have h2 : vb.isNone = b.isNone := by
    cases b with
    | none => simp only [readOpt, Except.ok.injEq] at hb; rw [← hb]; rfl
    | some t =>
      simp only [readOpt] at hb
      cases hr : read sc t with
      | error e => rw [hr] at hb; cases hb
      | ok v => rw [hr, bindE_ok] at hb; cases hb; rfl
  rw [initText, Anchored.init, h1, h2, ha, hb]
  split
  · rfl
  · rw [bindE_ok]
    cases setStart sc va with
    | error e => rfl
    | ok s =>
      rw [bindE_ok, bindE_ok]
      cases hs : setEnd sc s vb tp st false with
      | error e => simp [bindE_error, hs, bind, Except.bind]
      | ok e => simp [bindE_ok, hs, bind, Except.bind, pure, Except.pure]

theorem readDelta_eq (d : Txt) : readDelta d = span d := by
  unfold readDelta span
  cases stringToTimedelta d with
  | error e => rfl
  | ok us =>
    simp only [bindE_ok, Except.map]
    congr 1
    split <;> omega

theorem splitQuoted_no : ∀ {w : List Char}, '\'' ∉ w → splitQuoted w = [w] := by
  intro w
  induction w with
  | nil => intro _; rfl
  | cons c w ih =>
    intro h
    simp only [List.mem_cons, not_or] at h
    rw [splitQuoted]
    · rw [ih h.2]
    · intro s he
      exact absurd he.symm h.1

theorem splitQuoted_cons : ∀ {w : List Char} (rest : List Char), '\'' ∉ w →
    splitQuoted (w ++ (c!"', '" ++ rest)) = w :: splitQuoted rest := by
  intro w
  induction w with
  | nil => intro rest _; simp [splitQuoted]
  | cons c w ih =>
    intro rest h
    simp only [List.mem_cons, not_or] at h
    rw [List.cons_append, splitQuoted]
    · rw [ih rest h.2]
    · intro s he
      exact absurd he.symm h.1

theorem splitQuoted_join : ∀ {ws : List (List Char)}, ws ≠ [] → (∀ w ∈ ws, '\'' ∉ w) →
    splitQuoted (joinWith c!"', '" ws) = ws
  | [], h, _ => absurd rfl h
  | [w], _, h => by simp only [joinWith]; exact splitQuoted_no (h w (by simp))
  | w :: v :: ws, _, h => by
    have ih := splitQuoted_join (ws := v :: ws) (by simp) (fun x hx => h x (by simp [hx]))
    simp only [joinWith, List.append_assoc]
    rw [splitQuoted_cons _ (h w (by simp)), ih]

theorem mem_joinWith {sep : List Char} {c : Char} : ∀ {ws : List (List Char)}, c ∈ joinWith sep ws →
    c ∈ sep ∨ ∃ w ∈ ws, c ∈ w
  | [], h => by simp [joinWith] at h
  | [w], h => by simp only [joinWith] at h; exact Or.inr ⟨w, by simp, h⟩
  | w :: v :: ws, h => by
    simp only [joinWith, List.mem_append] at h
    rcases h with (h | h) | h
    · exact Or.inr ⟨w, by simp, h⟩
    · exact Or.inl h
    · rcases mem_joinWith h with h | ⟨u, hu, hc⟩
      · exact Or.inl h
      · exact Or.inr ⟨u, List.mem_cons_of_mem _ hu, hc⟩

theorem joinWith_ne_nil {sep : List Char} : ∀ {ws : List (List Char)}, ws ≠ [] → (∀ w ∈ ws, w ≠ []) →
    joinWith sep ws ≠ []
  | [], h, _ => absurd rfl h
  | [w], _, h => by simp only [joinWith]; exact h w (by simp)
  | w :: v :: ws, _, h => by simp [joinWith, h w (by simp)]

theorem mem_verbs (v : Verb) : v ∈ verbs := by cases v <;> decide

theorem mem_bools (b : Bool) : b ∈ [false, true] := by cases b <;> decide

theorem mem_pks (k : PK) : k ∈ pks := by cases k <;> decide

theorem mem_outcomes (k : DepKind) (b : Bool) : (k, b) ∈ outcomes := by cases k <;> cases b <;> decide

theorem mem_cycles5 {sc : Scope} (h1 : sc ≠ .second) (h2 : sc ≠ .year) : sc ∈ cycles5 := by
  cases sc <;> first | decide | exact absurd rfl h1 | exact absurd rfl h2

/-- A clock time, as opposed to a weekday or a day of a month, which as the end of an interval includes the day named. -/
def Clock (v : AVal) : Prop := ∃ n, v = .clock n

/-- What is missing in `C60_phrase_partial`: "has … starting" with a day, "param '…' exists" with a longer name. -/
def SoundPhrase (val : Scope → Txt → AVal) : Phrase → Prop
  | .hasIn _ _ sc (.starting a) => Clock (val sc a)
  | .paramExists k => ∃ c, k = [c]
  | _ => True

variable {read : Scope → List Char → Except PyErr AVal} {val : Scope → Txt → AVal}

theorem readOpt_some {sc : Scope} {t : Txt} (h : read sc t = .ok (val sc t)) :
    readOpt read sc (some t) = .ok (some (val sc t)) := by simp [readOpt, h, bindE_ok]

theorem readOpt_none (sc : Scope) : readOpt read sc none = .ok none := rfl

/-- `cls(a, a)` for a clock time is a full cycle starting there. -/
theorem init_clock (sc : Scope) (n : Int) :
    Anchored.init sc (some (.clock n)) (some (.clock n)) = Anchored.starting sc (.clock n) := by
  simp only [Anchored.starting, Anchored.init, Option.isNone_some, Bool.false_and, Bool.false_eq_true, if_false]
  cases hs : setStart sc (some (.clock n)) with
  | error e => rfl
  | ok s =>
    simp only [bind, Except.bind]
    have hv : anchorVal sc (.clock n) .start = .ok s := by
      simp only [setStart] at hs
      cases ha : anchorVal sc (.clock n) .start with
      | error e => rw [ha] at hs; cases hs
      | ok m =>
        rw [ha] at hs
        simp only [bind, Except.bind] at hs
        cases hval : validate sc m with
        | error e => rw [hval] at hs; cases hs
        | ok u => rw [hval] at hs; exact hs
    have hv2 : anchorVal sc (.clock n) .stop = .ok s := by
      rw [← hv]; cases sc <;> rfl
    have : setEnd sc s (some (.clock n)) false false false = setEnd sc s none false true false := by
      simp only [setEnd, hv2, Bool.false_eq_true, if_false, if_true]
    rw [this]

theorem init_whole (sc : Scope) : initText read sc none none false false = Part.meaning val sc .whole :=
  initText_eq false false (readOpt_none sc) (readOpt_none sc)

theorem init_between {sc : Scope} {a b : Txt} (ha : read sc a = .ok (val sc a)) (hb : read sc b = .ok (val sc b)) :
    initText read sc (some a) (some b) false false = Part.meaning val sc (.between a b) :=
  initText_eq false false (readOpt_some ha) (readOpt_some hb)

theorem init_after {sc : Scope} {a : Txt} (ha : read sc a = .ok (val sc a)) :
    initText read sc (some a) none false false = Part.meaning val sc (.after a) :=
  initText_eq false false (readOpt_some ha) (readOpt_none sc)

theorem init_before {sc : Scope} {b : Txt} (hb : read sc b = .ok (val sc b)) :
    initText read sc none (some b) false false = Part.meaning val sc (.before b) :=
  initText_eq false false (readOpt_none sc) (readOpt_some hb)

theorem init_on {sc : Scope} {a : Txt} (ha : read sc a = .ok (val sc a)) :
    initText read sc (some a) none true false = Part.meaning val sc (.on a) :=
  initText_eq true false (readOpt_some ha) (readOpt_none sc)

theorem init_starting {sc : Scope} {a : Txt} (ha : read sc a = .ok (val sc a)) :
    initText read sc (some a) none false true = Part.meaning val sc (.starting a) :=
  initText_eq false true (readOpt_some ha) (readOpt_none sc)

theorem init_cycle {sc : Scope} {a : Txt} (ha : read sc a = .ok (val sc a)) (hc : Clock (val sc a)) :
    initText read sc (some a) (some a) false false = Part.meaning val sc (.starting a) := by
  rw [init_between ha ha]
  obtain ⟨n, hn⟩ := hc
  simp only [Part.meaning, hn]
  exact init_clock sc n

theorem timeClass_this {sc : Scope} (hsc : sc ∈ cycles5) : timeClass (thisText sc) = .ok sc := by
  simp only [cycles5, List.mem_cons, List.not_mem_nil, or_false] at hsc
  rcases hsc with h | h | h | h | h <;> (rw [h]; decide)

theorem timeClass_unit {sc : Scope} (hsc : sc ∈ cycles5) : timeClass (unitWord sc) = .ok sc := by
  simp only [cycles5, List.mem_cons, List.not_mem_nil, or_false] at hsc
  rcases hsc with h | h | h | h | h <;> (rw [h]; decide)

theorem bindE_map {α β : Type} (x : Except PyErr α) (f : α → β) : (bindE x fun a => .ok (f a)) = x.map f := by
  cases x <;> rfl

/-- The condition of `[task '…'] has failed today …`. -/
theorem call_hasIn (w : Part) {sc : Scope} (v : Verb) (hs : ∀ a, w = .starting a → Clock (val sc a)) (hsc : sc ∈ cycles5)
    (hr : ∀ t ∈ w.times, read sc t = .ok (val sc t)) (task : Option Txt) :
    callHandler read (.statusIn v false) (instG (parts (task.getD []) (arg1 w) (arg2 w))
      (whoGroup task.isSome ++ ("type_", chars (thisText sc)) :: (kindOf w).spanGroups)) =
    (Phrase.hasIn task v sc w).meaning val := by
  have hcls := timeClass_this hsc
  have key : ∀ (x : Except PyErr Anchored), x = w.meaning val sc →
      (bindE (bindE x fun a => .ok (Period.anchored a)) fun p => .ok (.leaf (.status v task (some p) []))) =
        (Phrase.hasIn task v sc w).meaning val := by
    intro x hx
    rw [hx, Phrase.meaning]
    cases w.meaning val sc <;> rfl
  cases task <;> cases w <;>
    simp only [Part.times, List.mem_cons, List.not_mem_nil, or_false, forall_eq, forall_eq_or_imp] at hr <;>
    simp [callHandler, spanPeriod, instG, whoGroup, PK.spanGroups, kindOf, kw, spanFn, callPeriod, fits, inst, parts, arg1,
      arg2, bindE_ok, hcls, inst_chars'] <;>
    apply key
  · exact init_whole sc
  · exact init_cycle hr (hs _ rfl)
  · exact init_between hr.1 hr.2
  · exact init_after hr
  · exact init_before hr
  · exact init_on hr
  · exact init_whole sc
  · exact init_cycle hr (hs _ rfl)
  · exact init_between hr.1 hr.2
  · exact init_after hr
  · exact init_before hr
  · exact init_on hr

theorem period_timeOf (w : Part) {sc : Scope} (hw : (sc, kindOf w) ∈ timeOfCases) (hsc : sc ∈ cycles5)
    (hr : ∀ t ∈ w.times, read sc t = .ok (val sc t)) :
    callPeriod read (kindOf w).fn (instG (parts [] (arg1 w) (arg2 w))
      (("type_", chars (unitWord sc)) :: (kindOf w).times)) = (w.meaning val sc).map Period.anchored := by
  have hcls := timeClass_unit hsc
  have key : ∀ (x : Except PyErr Anchored), x = w.meaning val sc →
      (bindE x fun a => .ok (Period.anchored a)) = (w.meaning val sc).map Period.anchored := by
    intro x hx
    rw [hx, bindE_map]
  cases w with
  | whole => exfalso; revert hw; cases sc <;> decide
  | starting a => exfalso; revert hw; simp only [kindOf]; cases sc <;> decide
  | between a b =>
    simp only [Part.times, List.mem_cons, List.not_mem_nil, or_false, forall_eq, forall_eq_or_imp] at hr
    simp [instG, PK.times, PK.fn, kindOf, kw, callPeriod, fits, inst, parts, arg1,
      arg2, bindE_ok, hcls, inst_chars']
    exact key _ (init_between hr.1 hr.2)
  | after a =>
    simp only [Part.times, List.mem_cons, List.not_mem_nil, or_false, forall_eq, forall_eq_or_imp] at hr
    simp [instG, PK.times, PK.fn, kindOf, kw, callPeriod, fits, inst, parts, arg1,
      arg2, bindE_ok, hcls, inst_chars']
    exact key _ (init_after hr)
  | before b =>
    simp only [Part.times, List.mem_cons, List.not_mem_nil, or_false, forall_eq, forall_eq_or_imp] at hr
    simp [instG, PK.times, PK.fn, kindOf, kw, callPeriod, fits, inst, parts, arg1,
      arg2, bindE_ok, hcls, inst_chars']
    exact key _ (init_before hr)
  | on a =>
    simp only [Part.times, List.mem_cons, List.not_mem_nil, or_false, forall_eq, forall_eq_or_imp] at hr
    simp [instG, PK.times, PK.fn, kindOf, kw, callPeriod, fits, inst, parts, arg1,
      arg2, bindE_ok, hcls, inst_chars']
    exact key _ (init_on hr)

theorem call_timeOf (w : Part) {sc : Scope} (hw : (sc, kindOf w) ∈ timeOfCases) (hsc : sc ∈ cycles5)
    (hr : ∀ t ∈ w.times, read sc t = .ok (val sc t)) :
    callHandler read (.isPeriod (kindOf w).fn) (instG (parts [] (arg1 w) (arg2 w))
      (("type_", chars (unitWord sc)) :: (kindOf w).times)) = (Phrase.timeOf sc w).meaning val := by
  rw [callHandler, period_timeOf w hw hsc hr, Phrase.meaning]
  cases w.meaning val sc <;> rfl

theorem call_exec (w : Part) (sc : Scope) (hr : ∀ t ∈ w.times, read sc t = .ok (val sc t)) :
    (callHandler read ((kindOf w).execHandler sc) (instG (parts [] (arg1 w) (arg2 w)) (kindOf w).execTimes)).map resolve =
      (Phrase.exec sc w).meaning val := by
  have key : ∀ (x : Except PyErr Anchored), x = w.meaning val sc →
      (bindE x fun a => .ok (Cond.leaf (Builtin.executable a))).map resolve = (Phrase.exec sc w).meaning val := by
    intro x hx
    rw [hx, Phrase.meaning]
    cases w.meaning val sc <;> rfl
  cases w with
  | whole => rfl
  | starting a =>
    simp only [Part.times, List.mem_cons, List.not_mem_nil, or_false, forall_eq, forall_eq_or_imp] at hr
    simp [callHandler, instG, PK.times, PK.execTimes, PK.execHandler, kindOf, kw, fits, inst, parts, arg1]
    exact key _ (init_starting hr)
  | between a b =>
    simp only [Part.times, List.mem_cons, List.not_mem_nil, or_false, forall_eq, forall_eq_or_imp] at hr
    simp [callHandler, instG, PK.times, PK.execTimes, PK.execHandler, kindOf, kw, fits, inst, parts, arg1, arg2]
    exact key _ (init_between hr.1 hr.2)
  | after a =>
    simp only [Part.times, List.mem_cons, List.not_mem_nil, or_false, forall_eq, forall_eq_or_imp] at hr
    simp [callHandler, instG, PK.times, PK.execTimes, PK.execHandler, kindOf, kw, fits, inst, parts, arg1]
    exact key _ (init_after hr)
  | before b =>
    simp only [Part.times, List.mem_cons, List.not_mem_nil, or_false, forall_eq, forall_eq_or_imp] at hr
    simp [callHandler, instG, PK.times, PK.execTimes, PK.execHandler, kindOf, kw, fits, inst, parts, arg1]
    exact key _ (init_before hr)
  | on a =>
    simp only [Part.times, List.mem_cons, List.not_mem_nil, or_false, forall_eq, forall_eq_or_imp] at hr
    simp [callHandler, instG, PK.times, PK.execTimes, PK.execHandler, kindOf, kw, fits, inst, parts, arg1]
    exact key _ (init_on hr)

theorem holds_num (n : Nat) : Kind.num.Holds (showNat n) := by
  have h : ∀ c ∈ showNat n, isNum c = true := by
    intro c hc
    have := showNat_digits n c hc
    simp [isNum, this.1, this.2]
  refine ⟨showNat_ne_nil n, ?_, h⟩
  intro c hc
  have := h c hc
  simp only [notNewline, bne_iff_ne]
  rintro rfl
  revert this
  decide

/-- One text between two others. -/
theorem inst_around (a b t : Txt) (k : Kind) : inst (parts t [] []) (around a k b) = a ++ t ++ b := by
  simp [around, inst_append, inst_chars', inst, parts]

theorem good_around {a b t : Txt} {k : Kind} (h : k.Holds t) : Good (parts t [] []) (around a k b) := by
  simp only [around, good_append, good_var]
  exact ⟨⟨good_chars _, h⟩, good_chars _⟩

/-- C60: every phrase of the condition syntax is read as the condition it means, for all arguments that can be written
in it: the patterns tried before do not match it, and the arguments are taken out of it undamaged.  `read` is the reading
of times, which must give the times meant.  What is missing (`SoundPhrase`): "has … starting" with a weekday or a day of the
month (`C60_starting_violated`) and "param '…' exists" with a name of several characters (`C60_param_violated`). -/
theorem C60_phrase_partial (ph : Phrase) (hp : ph.Proper) (hin : ph.InSyntax) (hs : SoundPhrase val ph)
    (hr : ∀ x ∈ ph.times, read x.1 x.2 = .ok (val x.1 x.2)) :
    (parseCondItem read ph.text).map resolve = ph.meaning val := by
  cases ph with
  | has task v =>
    have hf := of_decide_eq_true (List.all_eq_true.1 (List.all_eq_true.1 find_has_all _ (mem_bools task.isSome)) _ (mem_verbs v))
    have hi : inst (parts (task.getD []) [] []) (hasShape task.isSome v) = (Phrase.has task v).text := by
      rw [hasShape, inst_append, inst_append, inst_whoShape, inst_chars', inst_chars']; rfl
    rw [parse_shape hi (by
      rw [hasShape, good_append, good_append]
      exact ⟨⟨good_whoShape hp _ _, good_chars _⟩, good_chars _⟩) hf]
    cases task <;> simp [callHandler, instG, whoGroup, kw, fits, inst, parts, Phrase.meaning, Except.map, resolve, Builtin.resolve]
  | hasIn task v sc w =>
    have hsc := mem_cycles5 hin.1 hin.2
    have hf := of_decide_eq_true (List.all_eq_true.1 (List.all_eq_true.1 (List.all_eq_true.1 (List.all_eq_true.1
      find_hasIn_all _ (mem_bools task.isSome)) _ (mem_verbs v)) _ hsc) _ (mem_pks (kindOf w)))
    have hi : inst (parts (task.getD []) (arg1 w) (arg2 w)) (hasInShape task.isSome v sc (kindOf w)) =
        (Phrase.hasIn task v sc w).text := by
      simp only [hasInShape, inst_append, inst_whoShape, inst_chars', inst_part]; rfl
    rw [parse_shape hi (by
      simp only [hasInShape, good_append]
      exact ⟨⟨⟨⟨⟨good_whoShape hp.1 _ _, good_chars _⟩, good_chars _⟩, good_chars _⟩, good_chars _⟩, good_part _ hp.2⟩) hf]
    rw [call_hasIn w v (fun a ha => by rw [ha] at hs; exact hs) hsc (fun t ht => hr (sc, t) (by
      simp only [Phrase.times, List.mem_map]; exact ⟨t, ht, rfl⟩)) task]
    rw [Phrase.meaning]
    cases w.meaning val sc <;> rfl
  | hasPast task v inn d =>
    have hf := of_decide_eq_true (List.all_eq_true.1 (List.all_eq_true.1 (List.all_eq_true.1
      find_hasPast_all _ (mem_bools task.isSome)) _ (mem_verbs v)) _ (mem_bools inn))
    have hi : inst (parts (task.getD []) d []) (hasPastShape task.isSome v inn) = (Phrase.hasPast task v inn d).text := by
      simp only [hasPastShape, inst_append, inst_whoShape, inst_chars', inst, parts, List.append_nil]; rfl
    rw [parse_shape hi (by
      simp only [hasPastShape, good_append, good_var]
      exact ⟨⟨⟨⟨good_whoShape hp.1 _ _, good_chars _⟩, good_chars _⟩, good_chars _⟩, holds_plain hp.2⟩) hf]
    cases task <;>
      simp [callHandler, spanPeriod, spanFn, callPeriod, instG, whoGroup, kw, fits, inst, parts, Phrase.meaning, bindE_ok,
        readDelta_eq] <;>
      cases Spec.span d <;> rfl
  | timeOf sc w =>
    have hsc := mem_cycles5 hin.1 hin.2.1
    have hw : (sc, kindOf w) ∈ timeOfCases := by
      have h2 := hin.2.2
      cases w with
      | whole => exact h2.elim
      | starting a => exact h2.elim
      | on a => rcases h2 with h2 | h2 <;> (rw [h2]; simp only [kindOf]; decide)
      | _ =>
        have h0 := hin.1
        have h1 := hin.2.1
        cases sc <;> first | exact absurd rfl h0 | exact absurd rfl h1 | (simp only [kindOf]; decide)
    have hf := of_decide_eq_true (List.all_eq_true.1 find_timeOf_all _ hw)
    have hi : inst (parts [] (arg1 w) (arg2 w)) (timeOfShape sc (kindOf w)) = (Phrase.timeOf sc w).text := by
      simp only [timeOfShape, inst_append, inst_chars', inst_part]; rfl
    rw [parse_shape hi (by
      simp only [timeOfShape, good_append]
      exact ⟨⟨good_chars _, good_chars _⟩, good_part _ hp⟩) hf]
    rw [call_timeOf w hw hsc (fun t ht => hr (sc, t) (by
      simp only [Phrase.times, List.mem_map]; exact ⟨t, ht, rfl⟩)), Phrase.meaning]
    cases w.meaning val sc <;> rfl
  | exec sc w =>
    have hsc : sc ∈ Scope.second :: cycles5 := by
      have h0 : sc ≠ .year := hin
      cases sc <;> first | decide | exact absurd rfl h0
    have hf := of_decide_eq_true (List.all_eq_true.1 (List.all_eq_true.1 find_exec_all _ hsc) _ (mem_pks (kindOf w)))
    have hi : inst (parts [] (arg1 w) (arg2 w)) (execShape sc (kindOf w)) = (Phrase.exec sc w).text := by
      simp only [execShape, inst_append, inst_chars', inst_part]; rfl
    rw [parse_shape hi (by
      simp only [execShape, good_append]
      exact ⟨good_chars _, good_part _ hp⟩) hf]
    exact call_exec w sc (fun t ht => hr (sc, t) (by simp only [Phrase.times, List.mem_map]; exact ⟨t, ht, rfl⟩))
  | every d =>
    rw [parse_shape (s := (Phrase.every d).text) ((inst_around c!"every " [] d .plain).trans (List.append_nil _)) (good_around (holds_plain hp)) find_every]
    simp [callHandler, instG, kw, inst, parts, Phrase.meaning, readDelta_eq]
    cases Spec.span d <;> rfl
  | cron fs =>
    have hne : joinWith [' '] fs ≠ [] := joinWith_ne_nil hp.1 (fun f hf => (hp.2.2 f hf).1.1)
    have harg : Arg (joinWith [' '] fs) := by
      refine ⟨hne, ?_, ?_⟩
      · intro hc
        rcases mem_joinWith hc with hc | ⟨w, hw, hc⟩
        · simp at hc
        · exact (hp.2.2 w hw).1.2.1 hc
      · intro hc
        rcases mem_joinWith hc with hc | ⟨w, hw, hc⟩
        · simp at hc
        · exact (hp.2.2 w hw).1.2.2 hc
    rw [parse_shape (s := (Phrase.cron fs).text) ((inst_around c!"cron " [] (joinWith [' '] fs) .plain).trans (List.append_nil _))
      (good_around (holds_plain harg)) find_cron]
    have hsp := splitChar_join (sep := ' ') hp.1 (fun f hf => (hp.2.2 f hf).2)
    simp [callHandler, instG, kw, inst, parts, cronFields, hsp, hp.2.1, bindE_ok, Phrase.meaning, Except.map, resolve,
      Builtin.resolve]
  | running whil t =>
    have hf := of_decide_eq_true (List.all_eq_true.1 find_running _ (mem_bools whil))
    rw [parse_shape (s := (Phrase.running whil t).text) (inst_around _ _ t .plain) (good_around (holds_plain hp)) hf]
    simp [callHandler, instG, kw, inst, parts, Phrase.meaning, Except.map, resolve, Builtin.resolve]
  | afterTask t k said =>
    have hf := of_decide_eq_true (List.all_eq_true.1 find_afterTask _ (mem_outcomes k said))
    rw [parse_shape (s := (Phrase.afterTask t k said).text) ((inst_around _ _ t .plain).trans (List.append_assoc _ _ _).symm) (good_around (holds_plain hp)) hf]
    simp [callHandler, instG, kw, inst, parts, Phrase.meaning, Except.map, resolve, Builtin.resolve]
  | afterTasks isAny ts k said =>
    have hf := of_decide_eq_true (List.all_eq_true.1 (List.all_eq_true.1 find_afterTasks _ (mem_bools isAny)) _ (mem_outcomes k said))
    have hw : Kind.wild.Holds (joinWith c!"', '" ts) := by
      refine ⟨joinWith_ne_nil hp.1 (fun t ht => (hp.2 t ht).1), ?_, trivial⟩
      intro c hc
      simp only [notNewline, bne_iff_ne]
      rintro rfl
      rcases mem_joinWith hc with hc | ⟨w, hw, hc⟩
      · simp at hc
      · exact (hp.2 w hw).2.1 hc
    rw [parse_shape (s := (Phrase.afterTasks isAny ts k said).text) ((inst_around _ _ (joinWith c!"', '" ts) .wild).trans (List.append_assoc _ _ _).symm) (good_around hw) hf]
    have hsp := splitQuoted_join hp.1 (fun t ht => (hp.2 t ht).2.2)
    simp [callHandler, instG, kw, inst, parts, Phrase.meaning, hsp, Except.map]
    have h1 : ∀ l : List Txt, (l.map (fun w => Cond.leaf (Builtin.depend k w))).flatMap Cond.anyParts =
        l.map (fun w => Cond.leaf (Builtin.depend k w)) := by
      intro l; induction l with
      | nil => rfl
      | cons x l ih => simp [Cond.anyParts, ih]
    have h2 : ∀ l : List Txt, (l.map (fun w => Cond.leaf (Builtin.depend k w))).flatMap Cond.allParts =
        l.map (fun w => Cond.leaf (Builtin.depend k w)) := by
      intro l; induction l with
      | nil => rfl
      | cons x l ih => simp [Cond.allParts, ih]
    cases isAny
    · simp only [Bool.false_eq_true, if_false, Cond.mkAll, h2, resolve]
    · simp only [if_true, Cond.mkAny, h1, resolve]
  | env v =>
    rw [parse_shape (s := (Phrase.env v).text) (inst_around _ _ v .plain) (good_around (holds_plain hp)) find_env]
    simp [callHandler, instG, kw, inst, parts, Phrase.meaning, Except.map, resolve, Builtin.resolve]
  | paramExists k =>
    obtain ⟨c, rfl⟩ := hs
    rw [parse_shape (s := (Phrase.paramExists [c]).text) (inst_around _ _ [c] .plain) (good_around (holds_plain hp)) find_paramExists]
    simp [callHandler, instG, kw, inst, parts, Phrase.meaning, Except.map, resolve, Builtin.resolve]
  | paramIs k v =>
    have hi : inst (parts k v []) (around c!"param '" .plain [] ++ chars c!"' is '" ++ [.var 1 .plain] ++ chars c!"'") =
        (Phrase.paramIs k v).text := by
      simp [around, inst_append, inst_chars', inst, parts, Phrase.text]
    rw [parse_shape hi (by
      simp only [around, good_append, good_var]
      exact ⟨⟨⟨⟨⟨good_chars _, holds_plain hp.1⟩, good_chars _⟩, good_chars _⟩, holds_plain hp.2⟩, good_chars _⟩) find_paramIs]
    simp [callHandler, instG, kw, inst, parts, Phrase.meaning, Except.map, resolve, Builtin.resolve]
  | schedOver d =>
    rw [parse_shape (s := (Phrase.schedOver d).text) ((inst_around c!"scheduler has run over " [] d .plain).trans (List.append_nil _))
      (good_around (holds_plain hp)) find_schedOver]
    simp [callHandler, spanPeriod, spanFn, callPeriod, fits, instG, kw, inst, parts, Phrase.meaning, bindE_ok, readDelta_eq]
    cases Spec.span d <;> rfl
  | schedAgo d =>
    rw [parse_shape (s := (Phrase.schedAgo d).text) (inst_around _ _ d .plain) (good_around (holds_plain hp)) find_schedAgo]
    simp [callHandler, spanPeriod, spanFn, callPeriod, fits, instG, kw, inst, parts, Phrase.meaning, bindE_ok, readDelta_eq]
    cases Spec.span d <;> rfl
  | schedMore n =>
    rw [parse_shape (s := (Phrase.schedMore n).text) (inst_around _ _ (showNat n) .num) (good_around (holds_num n)) find_schedMore]
    simp [callHandler, cyclesComps, compOf, mapE, instG, inst, parts, Phrase.meaning, bindE_ok, digitsVal_showNat, Except.map,
      resolve, Builtin.resolve]
  | schedLess n =>
    rw [parse_shape (s := (Phrase.schedLess n).text) (inst_around _ _ (showNat n) .num) (good_around (holds_num n)) find_schedLess]
    simp [callHandler, cyclesComps, compOf, mapE, instG, inst, parts, Phrase.meaning, bindE_ok, digitsVal_showNat, Except.map,
      resolve, Builtin.resolve]
  | schedCycles n =>
    rw [parse_shape (s := (Phrase.schedCycles n).text) (inst_around _ _ (showNat n) .num) (good_around (holds_num n)) find_schedCycles]
    simp [callHandler, cyclesComps, compOf, mapE, instG, inst, parts, Phrase.meaning, bindE_ok, digitsVal_showNat, Except.map,
      resolve, Builtin.resolve]
  | const b long =>
    have hf := of_decide_eq_true (List.all_eq_true.1 (List.all_eq_true.1 find_const _ (mem_bools b)) _ (mem_bools long))
    rw [parse_shape (s := (Phrase.const b long).text) (inst_chars' (parts [] [] []) _) (good_chars _) hf]
    cases b <;> rfl

/-- A time text for the examples: every text is read as ten o'clock. -/
private def ten : Scope → Txt → AVal := fun _ _ => .clock 36000000000

/-- `daily between 10:00 and 12:00`. -/
example : (Phrase.exec .day (.between c!"10:00" c!"12:00")).Proper ∧
    (Phrase.exec .day (.between c!"10:00" c!"12:00")).InSyntax ∧
    SoundPhrase ten (.exec .day (.between c!"10:00" c!"12:00")) ∧
    ((Phrase.exec .day (.between c!"10:00" c!"12:00")).text = c!"daily between 10:00 and 12:00") := by
  refine ⟨⟨⟨by decide, by decide, by decide⟩, ⟨by decide, by decide, by decide⟩, by decide +kernel⟩, ?_, trivial, rfl⟩
  simp [Phrase.InSyntax]

/-- `task 'fetch' has succeeded today starting 10:00`. -/
example : (Phrase.hasIn (some c!"fetch") .succeeded .day (.starting c!"10:00")).Proper ∧
    (Phrase.hasIn (some c!"fetch") .succeeded .day (.starting c!"10:00")).InSyntax ∧
    SoundPhrase ten (.hasIn (some c!"fetch") .succeeded .day (.starting c!"10:00")) ∧
    (Phrase.hasIn (some c!"fetch") .succeeded .day (.starting c!"10:00")).text =
      c!"task 'fetch' has succeeded today starting 10:00" :=
  ⟨⟨⟨by decide, by decide, by decide⟩, ⟨by decide, by decide, by decide⟩⟩, by simp [Phrase.InSyntax], ⟨_, rfl⟩, rfl⟩

/-- The same read by the parser. -/
example : (parseCondItem (fun sc t => .ok (ten sc t)) c!"task 'fetch' has succeeded today starting 10:00").map resolve =
    .ok (.leaf (.status .succeeded (some c!"fetch") (some (.anchored ⟨.day, 36000000000, 36000000000⟩)) [])) := by
  refine (C60_phrase_partial (val := ten) (.hasIn (some c!"fetch") .succeeded .day (.starting c!"10:00"))
    ⟨⟨by decide, by decide, by decide⟩, ⟨by decide, by decide, by decide⟩⟩ (by simp [Phrase.InSyntax]) ⟨_, rfl⟩
    (fun _ _ => rfl)).trans ?_
  rfl

/-! ### whole texts -/

/-- The condition of a phrase under an observation of the built-in conditions. -/
def phraseObs {σ : Type} (g : Builtin → Obs σ) (val : Scope → Txt → AVal) (ph : Phrase) : Obs σ :=
  match ph.meaning val with
  | .ok c => observe g c
  | .error e => fun s => (.error e, s)

theorem observe_resolve {σ : Type} (g : Builtin → Obs σ) (hg : ∀ b, g b.resolve = g b) (c : Cond Builtin) :
    observe g (resolve c) = observe g c := by
  cases c <;> simp [resolve, observe, hg]

/-- C60 with C24: a whole condition text — phrases of the syntax connected by `~`, `&`, `|` and brackets — is read as a
condition whose observation is the short-circuit evaluation of the written expression over the conditions the phrases
mean.  `phraseOf` gives the phrase written at each item.  What is missing: as in `C60_phrase_partial` and
`C24_condition_partial`. -/
theorem C60_text_partial {σ : Type} (strLeaf : Char → Builtin) (g : Builtin → Obs σ) (hg : ∀ b, g b.resolve = g b)
    (e : Written) (he : e.Proper) (phraseOf : Txt → Phrase)
    (hw : ∀ w ∈ e.words, (phraseOf w).text = w ∧ (phraseOf w).Proper ∧ (phraseOf w).InSyntax ∧ SoundPhrase val (phraseOf w) ∧
      (∀ x ∈ (phraseOf w).times, read x.1 x.2 = .ok (val x.1 x.2)) ∧ ∃ c, (phraseOf w).meaning val = .ok c) :
    ∃ c, parseCondition strLeaf (parseCondItem read) e.text = .ok c ∧
      observe g c = e.expr.eval (fun w => phraseObs g val (phraseOf w)) := by
  apply C24_condition_partial strLeaf (parseCondItem read) g (fun w => phraseObs g val (phraseOf w)) e he
  intro w hwm
  obtain ⟨h1, h2, h3, h4, h5, c, h6⟩ := hw w hwm
  have := C60_phrase_partial (phraseOf w) h2 h3 h4 h5
  rw [h6, h1] at this
  cases hp : parseCondItem read w with
  | error er => rw [hp] at this; cases this
  | ok d =>
    rw [hp] at this
    simp only [Except.map, Except.ok.injEq] at this
    refine ⟨d, rfl, ?_⟩
    simp only [phraseObs, h6]
    rw [← this, observe_resolve g hg]

/-- `daily & ~task 'b' is running`: the hypotheses hold. -/
example : ∃ phraseOf : Txt → Phrase, ∃ e : Written, e.Proper ∧ e.text = c!"daily & ~task 'b' is running" ∧
    ∀ w ∈ e.words, (phraseOf w).text = w ∧ (phraseOf w).Proper ∧ (phraseOf w).InSyntax ∧ SoundPhrase ten (phraseOf w) ∧
      (phraseOf w).times = [] ∧ ∃ c, (phraseOf w).meaning ten = .ok c := by
  refine ⟨fun w => if w = c!"daily" then .exec .day .whole else .running false c!"b",
    .and (.item [] c!"daily" []) [' '] [' '] (.not [] [] (.item [] c!"task 'b' is running" [])), ?_, rfl, ?_⟩
  · simp [Written.Proper, Written.Word, Written.Conj, Written.Tight, Written.Blank]
  · intro w hw
    simp only [Written.words, List.mem_append, List.mem_cons, List.not_mem_nil, or_false] at hw
    rcases hw with rfl | rfl
    · simp only [if_true]
      exact ⟨rfl, trivial, by simp [Phrase.InSyntax], trivial, rfl, _, rfl⟩
    · refine (?_ : (Phrase.running false c!"b").text = _ ∧ _)
      exact ⟨rfl, ⟨by decide, by decide, by decide⟩, trivial, trivial, rfl, _, rfl⟩

/-! ### where it fails -/

/-- Violated: "has succeeded this week starting Monday" is not the week starting on Monday (which is the whole week) but
Monday alone, since both ends of the interval are set to Monday and an end includes its day
(rocketry/time/construct.py:50-53). -/
theorem C60_starting_violated : ∃ (read : Scope → Txt → Except PyErr AVal) (val : Scope → Txt → AVal) (ph : Phrase),
    ph.Proper ∧ ph.InSyntax ∧ (∀ x ∈ ph.times, read x.1 x.2 = .ok (val x.1 x.2)) ∧
    ph.text = c!"has succeeded this week starting Mon" ∧
    (parseCondItem read ph.text).map resolve =
      .ok (.leaf (.status .succeeded none (some (.anchored ⟨.week, 0, 86400000000⟩)) [])) ∧
    ph.meaning val = .ok (.leaf (.status .succeeded none (some (.anchored ⟨.week, 0, 0⟩)) [])) := by
  refine ⟨fun _ _ => .ok (.named 0 none), fun _ _ => .named 0 none, .hasIn none .succeeded .week (.starting c!"Mon"),
    ⟨trivial, ⟨by decide, by decide, by decide⟩⟩, by simp [Phrase.InSyntax], fun _ _ => rfl, rfl, ?_, rfl⟩
  rw [parse_shape (σ := parts [] c!"Mon" []) (st := hasInShape false .succeeded .week .starting)
    (s := Phrase.text (.hasIn none .succeeded .week (.starting c!"Mon"))) rfl
    (by
      simp only [hasInShape, good_append]
      exact ⟨⟨⟨⟨⟨good_whoShape (task := none) trivial _ _, good_chars _⟩, good_chars _⟩, good_chars _⟩, good_chars _⟩,
        good_part (w := .starting c!"Mon") _ ⟨by decide, by decide, by decide⟩⟩)
    (of_decide_eq_true (List.all_eq_true.1 (List.all_eq_true.1 (List.all_eq_true.1 (List.all_eq_true.1
      find_hasIn_all _ (mem_bools false)) _ (mem_verbs .succeeded)) _ (by decide)) _ (mem_pks .starting)))]
  rfl

/-- Violated: "param '…' exists" tests, for every name of more than one character, the existence of the parameters named
by its single characters, since `_from_list` unpacks the text (rocketry/conditions/parameter.py:99-100). -/
theorem C60_param_violated (k : Txt) (hk : Arg k) (hl : 2 ≤ k.length) :
    parseCondItem read (Phrase.paramExists k).text = .ok (.leaf (.params (k.map (fun c => [c])))) ∧
    (parseCondItem read (Phrase.paramExists k).text).map resolve ≠ (Phrase.paramExists k).meaning val := by
  have h : parseCondItem read (Phrase.paramExists k).text = .ok (.leaf (.params (k.map (fun c => [c])))) := by
    rw [parse_shape (s := (Phrase.paramExists k).text) (inst_around _ _ k .plain) (good_around (holds_plain hk)) find_paramExists]
    simp [callHandler, instG, kw, inst, parts]
  refine ⟨h, ?_⟩
  rw [h]
  simp only [Phrase.meaning, Except.map, resolve, Builtin.resolve, ne_eq, Except.ok.injEq, Cond.leaf.injEq, Builtin.params.injEq]
  intro he
  have := congrArg List.length he
  simp at this
  omega

example : Arg c!"my_param" ∧ 2 ≤ (c!"my_param" : Txt).length := ⟨⟨by decide, by decide, by decide⟩, by decide⟩

/-- Violated: the time phrases "always" and "never" are in the table of conditions but raise `TypeError`, since their
entries are period objects and are called (rocketry/parse/_setup_cond_parsers.py:45-48). -/
theorem C60_always_violated : parseCondItem read c!"always" = .error .type ∧ parseCondItem read c!"never" = .error .type := by
  constructor
  · rw [parse_shape (s := c!"always") (inst_chars' (parts [] [] []) _) (good_chars _)
      (h := .isPeriod (.object true)) (g := []) (by decide +kernel)]
    rfl
  · rw [parse_shape (s := c!"never") (inst_chars' (parts [] [] []) _) (good_chars _)
      (h := .isPeriod (.object false)) (g := []) (by decide +kernel)]
    rfl

theorem find_past : symFind plainTable (around c!"past " .plain []) =
    some (.isPeriod .delta, [("past", [.var 0 .plain])]) := by decide +kernel

/-- Violated: "past …" is in the table of conditions but raises an exception for every duration, since `IsPeriod` does
not take time deltas (rocketry/conditions/time.py:31-34). -/
theorem C60_past_violated (d : Txt) (hd : Arg d) : ∃ e, parseCondItem read (c!"past " ++ d) = .error e := by
  rw [parse_shape ((inst_around c!"past " [] d .plain).trans (List.append_nil _)) (good_around (holds_plain hd)) find_past]
  simp [callHandler, callPeriod, fits, instG, kw, inst, parts]
  cases readDelta d with
  | error e => exact ⟨e, rfl⟩
  | ok us => exact ⟨.attribute, rfl⟩

example : Arg c!"2 hours" ∧ (span c!"2 hours").isOk := ⟨⟨by decide, by decide, by decide⟩, by decide +kernel⟩

/-- Violated: "after task '…' terminated", listed in docs/condition_syntax/dependence.rst:12, is not in the table: it
is refused whatever the name. -/
theorem C60_terminated_violated (t : Txt) (ht : Arg t) :
    parseCondItem read (c!"after task '" ++ t ++ c!"' terminated") = .error .parser := by
  exact parse_none (inst_around _ _ t .plain) (good_around (holds_plain ht)) (by decide +kernel)

example : Arg c!"fetch" := ⟨by decide, by decide, by decide⟩

/-- Violated: the example "after task 'do_things', 'do_stuff'" (docs/code/parameter/pipelining.py:14) is read as a
dependency on one task named `do_things', 'do_stuff`. -/
theorem C60_quoted_violated : parseCondItem read c!"after task 'do_things', 'do_stuff'" =
    .ok (.leaf (.depend .success c!"do_things', 'do_stuff")) := by
  rw [parse_found (h := .depend .success) (g := [("depend_task", c!"do_things', 'do_stuff")]) (by decide +kernel)]
  rfl

end Rocketry.Props
