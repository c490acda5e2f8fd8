import Verif.Task.Clocked
import Verif.Task.HistoryCache
import Verif.Spec.PromiseSpec
import Verif.Props.DenoteProps
import Verif.Props.RefineProps

/-!
# C81: what the start text of a task insists on is kept in every history and every execution of the scheduler
-/

namespace Rocketry.Props
open Spec Cond Sched

/-! ### the text -/

/-- If the text was found true (false), the phrases it insists on were found true. -/
theorem eval_asks {σ : Type} (f : Txt → Cond.Obs σ) (w : Txt) : ∀ (e : Written) (b : Bool) (s s' : σ), e.Asks w b →
    e.expr.eval f s = (.ok b, s') → ∃ s1 s2, f w s1 = (.ok true, s2)
  | .item _ x _, b, s, s', ha, h => by
    obtain ⟨rfl, rfl⟩ : b = true ∧ x = w := by simpa only [Written.Asks] using ha
    exact ⟨s, s', by simpa only [Written.expr, CExpr.eval] using h⟩
  | .group e, b, s, s', ha, h => eval_asks f w e b s s' (by simpa only [Written.Asks] using ha) (by simpa only [Written.expr] using h)
  | .not _ _ e, b, s, s', ha, h => by
    rw [Written.expr, CExpr.eval, negated] at h
    rcases hx : e.expr.eval f s with ⟨r, s1⟩
    rw [hx] at h
    cases r with
    | error er => simp [Except.map] at h
    | ok c =>
      simp only [Except.map, Prod.mk.injEq, Except.ok.injEq] at h
      have hc : c = !b := by rw [← h.1]; simp
      exact eval_asks f w e c s s1 (by rw [hc]; simpa only [Written.Asks] using ha) hx
  | .and a _ _ c, b, s, s', ha, h => by
    rw [Written.expr, CExpr.eval, thenAnd] at h
    rcases hx : a.expr.eval f s with ⟨r, s1⟩
    rw [hx] at h
    cases r with
    | error er => simp at h
    | ok x =>
      cases x with
      | false =>
        simp only [Prod.mk.injEq, Except.ok.injEq] at h
        rw [← h.1] at ha
        simp only [Written.Asks] at ha
        exact eval_asks f w a false s s1 ha.1 hx
      | true =>
        simp only [] at h
        cases b with
        | true =>
          simp only [Written.Asks] at ha
          rcases ha with ha | ha
          · exact eval_asks f w a true s s1 ha hx
          · exact eval_asks f w c true s1 s' ha h
        | false =>
          simp only [Written.Asks] at ha
          exact eval_asks f w c false s1 s' ha.2 h
  | .or a _ _ c, b, s, s', ha, h => by
    rw [Written.expr, CExpr.eval, thenOr] at h
    rcases hx : a.expr.eval f s with ⟨r, s1⟩
    rw [hx] at h
    cases r with
    | error er => simp at h
    | ok x =>
      cases x with
      | true =>
        simp only [Prod.mk.injEq, Except.ok.injEq] at h
        rw [← h.1] at ha
        simp only [Written.Asks] at ha
        exact eval_asks f w a true s s1 ha.1 hx
      | false =>
        simp only [] at h
        cases b with
        | false =>
          simp only [Written.Asks] at ha
          rcases ha with ha | ha
          · exact eval_asks f w a false s s1 ha hx
          · exact eval_asks f w c false s1 s' ha h
        | true =>
          simp only [Written.Asks] at ha
          exact eval_asks f w c true s1 s' ha.2 h

theorem asked_word (w : Txt) : ∀ (e : Written) (b : Bool), e.Asks w b → w ∈ e.words
  | .item _ x _, b, ha => by simp only [Written.Asks] at ha; simp [Written.words, ha.2]
  | .group e, b, ha => by simp only [Written.Asks] at ha; simpa [Written.words] using asked_word w e b ha
  | .not _ _ e, b, ha => by simp only [Written.Asks] at ha; simpa [Written.words] using asked_word w e _ ha
  | .and a _ _ c, true, ha => by
    simp only [Written.Asks] at ha
    rw [Written.words, List.mem_append]
    exact ha.imp (asked_word w a _) (asked_word w c _)
  | .and a _ _ c, false, ha => by
    simp only [Written.Asks] at ha
    rw [Written.words, List.mem_append]
    exact .inl (asked_word w a _ ha.1)
  | .or a _ _ c, true, ha => by
    simp only [Written.Asks] at ha
    rw [Written.words, List.mem_append]
    exact .inl (asked_word w a _ ha.1)
  | .or a _ _ c, false, ha => by
    simp only [Written.Asks] at ha
    rw [Written.words, List.mem_append]
    exact ha.imp (asked_word w a _) (asked_word w c _)

/-! ### the check of a task with a start text -/

/-- The text was found true for the task `name` in a check between `first` and `last`, with the log and the cached times of
`w`: read by the parser, and observed with readings of the clock that do not go back. -/
def TextHeld (lib : TextLib) (strLeaf : Char → Builtin) (fuel : Nat) (fromLogs : Bool) (text : Txt) (name : String)
    (first last : Int) (w : LogWorld) : Prop :=
  ∃ (v : Sit) (c : Cond Builtin) (r : Nat → Int) (n : Nat),
    v.self = some name ∧ v.fromLogs = fromLogs ∧ v.mem = w.mem ∧ v.repo = w.repo ∧
    (∀ i j, i ≤ j → r i ≤ r j) ∧ (∀ i, first ≤ r i ∧ r i ≤ last) ∧
    parseCondition strLeaf (parseCondItem (readTime lib)) text = .ok c ∧ observe (v.clocked fuel r) c 0 = (.ok true, n)

theorem saying_means (lib : TextLib) (x : Saying) (hp : x.Proper) : ∃ c, x.phrase.meaning (valOf lib) = .ok c := by
  cases x with
  | hasIn task vb sc w =>
    obtain ⟨_, h2, h3, h4, _, _⟩ := hp
    exact ⟨_, by simp only [Saying.phrase, Phrase.meaning, part_meaning lib (cyclic_ne_year (h3.imp id And.left)) w h2]; rfl⟩
  | hasPast task vb inn d us => exact ⟨_, by simp only [Saying.phrase, Phrase.meaning, span_lasts hp.2]; rfl⟩
  | timeOf sc w =>
    obtain ⟨h1, h2, _⟩ := hp
    exact ⟨_, by simp only [Saying.phrase, Phrase.meaning, part_meaning lib (cyclic_ne_year h2) w h1]; rfl⟩
  | exec sc w =>
    obtain ⟨h1, h2⟩ := hp
    exact ⟨_, by simp only [Saying.phrase, Phrase.meaning, part_meaning lib (cyclic_ne_year (h2.imp id And.left)) w h1]; rfl⟩
  | every d us => exact ⟨_, by simp only [Saying.phrase, Phrase.meaning, span_lasts hp]; rfl⟩
  | schedOver d us => exact ⟨_, by simp only [Saying.phrase, Phrase.meaning, span_lasts hp]; rfl⟩
  | schedAgo d us => exact ⟨_, by simp only [Saying.phrase, Phrase.meaning, span_lasts hp]; rfl⟩
  | _ => exact ⟨_, rfl⟩

/-- A phrase the text insists on was itself found true in the check. -/
theorem held_saying {lib : TextLib} {strLeaf : Char → Builtin} {fuel : Nat} {fromLogs : Bool} {e : Written} (he : e.Proper)
    {sayingOf : Txt → Saying} (hw : ∀ w ∈ e.words, (sayingOf w).phrase.text = w ∧ (sayingOf w).Proper)
    {x : Txt} (hx : e.Asks x true) {name : String} {first last : Int} {w : LogWorld}
    (h : TextHeld lib strLeaf fuel fromLogs e.text name first last w) :
    ∃ (v : Sit) (c : Cond Builtin) (r : Nat → Int) (m n : Nat),
      v.self = some name ∧ v.fromLogs = fromLogs ∧ v.mem = w.mem ∧ v.repo = w.repo ∧
      (∀ i j, i ≤ j → r i ≤ r j) ∧ (∀ i, first ≤ r i ∧ r i ≤ last) ∧
      (sayingOf x).phrase.meaning (valOf lib) = .ok c ∧ observe (v.clocked fuel r) c m = (.ok true, n) := by
  obtain ⟨v, c, r, n, h1, h2, h3, h4, h5, h6, h7, h8⟩ := h
  have hg : ∀ b, v.clocked fuel r b.resolve = v.clocked fuel r b := by intro b; cases b <;> rfl
  obtain ⟨c', hc', ho⟩ := C60_text_partial (read := readTime lib) (val := valOf lib) strLeaf (v.clocked fuel r) hg e he
    (fun w => (sayingOf w).phrase) (fun w hm => by
      obtain ⟨k1, k2, k3, k4⟩ := saying_phrase lib (sayingOf w) (hw w hm).2
      exact ⟨(hw w hm).1, k1, k2, k3, k4, saying_means lib _ (hw w hm).2⟩)
  cases h7.symm.trans hc'
  rw [ho] at h8
  obtain ⟨s1, s2, hs⟩ := eval_asks _ x e true 0 n hx h8
  obtain ⟨d, hd⟩ := saying_means lib (sayingOf x) (hw x (asked_word x e true hx)).2
  simp only [phraseObs, hd] at hs
  exact ⟨v, d, r, s1, s2, h1, h2, h3, h4, h5, h6, hd, hs⟩

/-! ### histories -/

/-- What a check may rely on: the records are of the past, the cached times come from them. -/
structure Past (w : LogWorld) (first : Int) : Prop where
  times : ∀ r ∈ w.repo, r.noted ≤ r.created ∧ r.created ≤ first
  cache : CacheFrom w

/-- Starts come after instants with a property that every check has; it may depend on the log, if it is not lost when
records are added. -/
theorem starts_seen (S : Setup) (name : String) (P : List Record → Int → Prop)
    (hP : ∀ repo new t, P repo t → P (repo ++ new) t)
    (hS : ∀ reason first last w, S.start name reason first last w → Past w first → ∃ t, P w.repo t ∧ first ≤ t ∧ t ≤ last)
    {es : List Ev} {h : HState} (hh : Hist S es h) : StartsAfter name (P h.log.repo) h.log.repo := by
  suffices H : StartsAfter name (P h.log.repo) h.log.repo ∧ (h.ready name ≠ none → ∃ t, P h.log.repo t ∧ t ≤ h.clock ∧
      ∀ r ∈ h.log.repo, OfAction name .run r → r.created ≤ t) from H.1
  induction hh with
  | init c => exact ⟨⟨by simp [HState.init, LogWorld.fresh], by simp [HState.init, LogWorld.fresh]⟩, by simp [HState.init]⟩
  | @step es h h' e hh hs ih =>
    obtain ⟨⟨i1, i2⟩, i3⟩ := ih
    have hi := rinv S name hh
    rcases step_kinds S name hs hi with hq | ⟨reason, hq⟩ | ⟨reason, _, hq⟩
    · obtain ⟨⟨new, hr, hn⟩, hclk, hready⟩ := hq
      rw [hr]
      refine ⟨⟨?_, ?_⟩, fun hg => ?_⟩
      · intro s hs' hsa
        rcases List.mem_append.1 hs' with hs' | hs'
        · obtain ⟨t, h1, h2⟩ := i1 s hs' hsa
          exact ⟨t, hP _ _ _ h1, h2⟩
        · exact absurd hsa (hn s hs')
      · rw [List.pairwise_append]
        refine ⟨i2.imp (fun h h1 h2 => ?_), ?_, ?_⟩
        · obtain ⟨t, k1, k2⟩ := h h1 h2
          exact ⟨t, hP _ _ _ k1, k2⟩
        · exact List.pairwise_of_forall_mem_list (fun r hr' s _ h1 _ => absurd h1 (hn r hr'))
        · intro r _ s hs' _ h2
          exact absurd h2 (hn s hs')
      · obtain ⟨t, k1, k2, k3⟩ := i3 (by rw [← hready hg]; exact hg)
        refine ⟨t, hP _ _ _ k1, by omega, ?_⟩
        intro r hr' hra
        rcases List.mem_append.1 hr' with hr' | hr'
        · exact k3 r hr' hra
        · exact absurd hra (hn r hr')
    · obtain ⟨⟨first, f1, f2, f3⟩, hlog, _, _⟩ := hq
      rw [hlog]
      refine ⟨⟨i1, i2⟩, fun _ => ?_⟩
      have ht : ∀ r ∈ h.log.repo, r.noted ≤ r.created ∧ r.created ≤ first := fun r hr => by
        have := hi.times r (by simp [HState.all, hr])
        omega
      obtain ⟨t, k1, k2, k3⟩ := hS _ _ _ _ f3 ⟨ht, cacheFrom_hist S hh⟩
      exact ⟨t, k1, k3, fun r hr _ => by have := (ht r hr).2; omega⟩
    · obtain ⟨hwas, ⟨id, noted, n1, n2, hr⟩, hready⟩ := hq
      obtain ⟨t, k1, k2, k3⟩ := i3 (by rw [hwas]; simp)
      rw [hr]
      refine ⟨⟨?_, ?_⟩, by rw [hready]; simp⟩
      · intro s hs' hsa
        rcases List.mem_append.1 hs' with hs' | hs'
        · obtain ⟨t, h1, h2⟩ := i1 s hs' hsa
          exact ⟨t, hP _ _ _ h1, h2⟩
        · rw [List.mem_singleton.1 hs']
          exact ⟨t, hP _ _ _ k1, by simp only []; omega⟩
      · rw [List.pairwise_append]
        refine ⟨i2.imp (fun h h1 h2 => ?_), List.pairwise_singleton _ _, ?_⟩
        · obtain ⟨t, k1, k2⟩ := h h1 h2
          exact ⟨t, hP _ _ _ k1, k2⟩
        · intro r hr' s hs' h1 h2
          rw [List.mem_singleton.1 hs']
          exact ⟨t, hP _ _ _ k1, k3 r hr' h1, by simp only []; omega⟩

/-- Starts come after instants with a property that every check has. -/
theorem starts_after (S : Setup) (name : String) (P : Int → Prop)
    (hS : ∀ reason first last w, S.start name reason first last w → ∃ t, P t ∧ first ≤ t ∧ t ≤ last)
    {es : List Ev} {h : HState} (hh : Hist S es h) : StartsAfter name P h.log.repo :=
  starts_seen S name (fun _ => P) (fun _ _ _ h => h) (fun reason first last w h _ => hS reason first last w h) hh

/-- Starts come after records with a property that every check finds. -/
theorem starts_served (S : Setup) (name : String) (Q : Record → Prop)
    (hS : ∀ reason first last w, S.start name reason first last w → Ordered w.repo (OfAction name .run) →
      ∃ c ∈ w.repo, Q c ∧ ∀ r ∈ w.repo, OfAction name .run r → r.created < c.created)
    {es : List Ev} {h : HState} (hh : Hist S es h) : StartsServed name Q h.log.repo := by
  obtain ⟨i1, i2, ⟨cs, k1, k2, k3⟩, _⟩ := served S name Q hS hh
  refine ⟨i1, i2, cs, ?_, fun c hc => ⟨(k3 c hc).1, (k3 c hc).2.1⟩, ?_⟩
  · exact k2.imp (fun {a b} h e => by rw [e] at h; exact absurd h (Int.lt_irrefl _))
  · rw [k1]; rfl

theorem ended_completion {k : DepKind} {d : String} {c : Record} (h : Completion d (Sit.depActs k) c) : Ended k d c := by
  obtain ⟨h1, h2⟩ := h
  refine ⟨h1, ?_⟩
  cases k <;> simpa [Sit.depActs, dependSuccess, dependFailure, dependFinish] using h2

/-! ### the phrases -/

theorem andThen_error {a : Except PyErr Bool} {e : PyErr} : andThen a (.error e) ≠ .ok true := fun h => by
  cases (andThen_true h).2

/-- "daily …" found true. -/
theorem executable_held {v : Sit} {name : String} (hn : v.self = some name) {w : LogWorld} (hm : v.mem = w.mem) (hr : v.repo = w.repo)
    {fuel : Nat} {p : Period} {r : Nat → Int} {first last : Int} (h1 : ∀ i j, i ≤ j → r i ≤ r j)
    (h2 : ∀ i, first ≤ r i ∧ r i ≤ last) {m : Nat}
    (h : v.executableAt fuel p ⟨r m, r (m + 1), r (m + 2), r (m + 3), r (m + 4)⟩ = .ok true) :
    Evaluated fuel v.fromLogs none p name first last w ⟨r m, r (m + 1), r (m + 2), r (m + 3), r (m + 4)⟩ := by
  unfold Sit.executableAt at h
  rw [hn] at h
  simp only [] at h
  split at h
  · rw [hm, hr] at h
    exact ⟨(h2 m).1, h1 _ _ (by omega), h1 _ _ (by omega), h1 _ _ (by omega), h1 _ _ (by omega), (h2 _).2, h⟩
  · exact absurd h andThen_error

theorem evaluated_inside {fuel : Nat} {fromLogs : Bool} {p : Anchored} {name : String} {first last : Int} {w : LogWorld}
    {now : ExecReads} (h : Evaluated fuel fromLogs none (.anchored p) name first last w now) : p.contains now.isin = true := by
  have h1 := h.holds
  unfold executable at h1
  have h2 := (andThen_true h1).1
  simpa [isinPeriod, Period.isDelta, Period.contains] using h2

theorem inside_part {sc : Scope} (w : TPart) (hw : w.Of sc) (hc : cycleLen sc ≠ none ∨ sc = .month) (t : Int)
    (h : Anchored.contains ⟨sc, (w.span sc).1, (w.span sc).2⟩ t = true) : Sit.InPart sc (w.span sc).1 (w.span sc).2 t := by
  rcases hc with hc | rfl
  · obtain ⟨hL, hm, hy⟩ := len_eq hc
    obtain ⟨hb, _⟩ := part_bounds hy w hw
    rw [← hm] at hb
    rw [Sit.InPart, if_neg (fixed_ne_month hc)]
    exact (C02_contains ⟨sc, (w.span sc).1, (w.span sc).2⟩ (Sit.len sc) hL hb t).1 h
  · rw [Sit.InPart, if_pos rfl]
    exact (C07_contains _ _ _).1 h

theorem all_true {v : Sit} {fuel : Nat} {r : Nat → Int} : ∀ (cs : List (Cond Builtin)) (m n : Nat),
    observe.observeAll (v.clocked fuel r) cs m = (.ok true, n) → ∀ c ∈ cs, ∃ m' n', observe (v.clocked fuel r) c m' = (.ok true, n')
  | [], _, _, _, c, hc => by simp at hc
  | d :: ds, m, n, h, c, hc => by
    simp only [observe.observeAll] at h
    rcases hx : observe (v.clocked fuel r) d m with ⟨x, m1⟩
    rw [hx] at h
    cases x with
    | error e => simp at h
    | ok b =>
      cases b with
      | false => simp at h
      | true =>
        rcases List.mem_cons.1 hc with rfl | hc
        · exact ⟨m, m1, hx⟩
        · exact all_true ds m1 n h c hc

theorem any_true {v : Sit} {fuel : Nat} {r : Nat → Int} : ∀ (cs : List (Cond Builtin)) (m n : Nat),
    observe.observeAny (v.clocked fuel r) cs m = (.ok true, n) → ∃ c ∈ cs, ∃ m' n', observe (v.clocked fuel r) c m' = (.ok true, n')
  | [], _, _, h => by simp [observe.observeAny] at h
  | d :: ds, m, n, h => by
    simp only [observe.observeAny] at h
    rcases hx : observe (v.clocked fuel r) d m with ⟨x, m1⟩
    rw [hx] at h
    cases x with
    | error e => simp at h
    | ok b =>
      cases b with
      | true => exact ⟨d, by simp, m, m1, hx⟩
      | false =>
        obtain ⟨c, h1, h2⟩ := any_true ds m1 n h
        exact ⟨c, by simp [h1], h2⟩

theorem depend_held {v : Sit} {name : String} (hn : v.self = some name) {w : LogWorld} (hr : v.repo = w.repo)
    {fuel : Nat} {r : Nat → Int} {k : DepKind} {t : Txt} {m n : Nat}
    (h : observe (v.clocked fuel r) (.leaf (.depend k t)) m = (.ok true, n)) :
    dependState w.repo name (String.ofList t) (Sit.depActs k) = true := by
  simp only [observe, Sit.clocked, Sit.leaf, Sit.depend, Sit.lookup, hn, hr, Prod.mk.injEq] at h
  split at h
  · simpa using h.1
  · simp at h

theorem cron_true {c : CronExpr} (hc : ValidCron c) (hmon : Unrestricted c.month) (hdom : ∀ i ∈ c.dayOfMonth, EarlyItem .month i)
    {fuel : Nat} {now : Int} (hcon : c.contains fuel now = .ok true) : CronMatches c now := by
  obtain ⟨ms, g1, g2⟩ := subperiod_ok c hc
  obtain ⟨N, hN⟩ := C18_answers c hc hmon hdom now
  obtain ⟨b, hb1, hb2⟩ := hN (max N fuel) (by omega)
  refine hb2.1 ?_
  simp only [CronExpr.contains, CronExpr.rollforward, g1, bindE] at hcon hb1
  cases hf : (joinP ms).rollforward fuel now with
  | error e => simp [hf] at hcon
  | ok j =>
    rw [rollforward_le (show fuel ≤ max N fuel by omega) hf] at hb1
    simp only [hf, Except.ok.injEq] at hcon hb1
    rw [← hb1]; exact hcon

theorem scan_true {last : Action → Option Int} {s e : Int} : ∀ (as : List Action) (b : Bool), (scanActions last s e as b).1 = true →
    ∃ a ∈ as, ∃ t, last a = some t ∧ within s e t = true
  | [], b, h => by simp [scanActions] at h
  | a :: as, b, h => by
    rw [scanActions] at h
    have more : ∀ c, (scanActions last s e as c).1 = true → ∃ x ∈ a :: as, ∃ t, last x = some t ∧ within s e t = true := by
      intro c hc
      obtain ⟨x, hx, h⟩ := scan_true as c hc
      exact ⟨x, by simp [hx], h⟩
    cases ha : last a with
    | none => rw [ha] at h; exact more _ h
    | some t =>
      rw [ha] at h
      simp only [] at h
      by_cases hw : within s e t = true
      · exact ⟨a, by simp, t, ha, hw⟩
      · rw [if_neg hw] at h
        split at h
        · exact more _ h
        · exact more _ h

/-- A status condition found true: there is a record, made or noted in the span. -/
theorem status_true {fuel : Nat} {fromLogs : Bool} {acts : Acts} {p : Option Period} {now : Int} {name : String} {w : LogWorld}
    (hc : CacheFrom w) (h : statusCond fuel fromLogs acts [] p now name (w.mem name) w.repo = .ok true) :
    ∃ s e, Period.periodSpan fuel p now = .ok (s, e) ∧ ∃ c ∈ w.repo, c.task = name ∧ acts.has c.action = true ∧
      ((s ≤ c.created ∧ c.created ≤ e) ∨ (s ≤ c.noted ∧ c.noted ≤ e)) := by
  unfold statusCond at h
  cases hs : Period.periodSpan fuel p now with
  | error er => rw [hs] at h; cases h
  | ok se =>
    obtain ⟨s, e⟩ := se
    rw [hs] at h
    simp only [Except.ok.injEq] at h
    refine ⟨s, e, rfl, ?_⟩
    have hcount : compState [] ((measuredTimes w.repo name acts s e).length : Int) = true →
        ∃ c ∈ w.repo, c.task = name ∧ acts.has c.action = true ∧ ((s ≤ c.created ∧ c.created ≤ e) ∨ (s ≤ c.noted ∧ c.noted ≤ e)) := by
      intro hp
      rw [measured_length] at hp
      obtain ⟨c, h1, h2, h3, h4⟩ := countIn_pos.1 ((compState_nil _).1 hp)
      exact ⟨c, h1, h2, h3, .inl h4⟩
    have hcache : ∀ a t, acts.has a = true → (w.mem name).last a = some t → within s e t = true →
        ∃ c ∈ w.repo, c.task = name ∧ acts.has c.action = true ∧ ((s ≤ c.created ∧ c.created ≤ e) ∨ (s ≤ c.noted ∧ c.noted ≤ e)) := by
      intro a t ha hl hw
      obtain ⟨c, h1, h2, h3⟩ := hc name a t hl
      simp only [within, Bool.and_eq_true, decide_eq_true_eq] at hw
      refine ⟨c, h1, h2.1, by rw [h2.2]; exact ha, ?_⟩
      rcases h3 with rfl | rfl
      · exact .inr hw
      · exact .inl hw
    have e0 : isEqualZero [] = false := by decide
    have a0 : isAnyOverZero [] = true := by decide
    unfold statusObserve at h
    simp only [e0, a0, Bool.true_and, Bool.false_and, Bool.false_eq_true, if_false] at h
    by_cases hf : fromLogs = true
    · rw [if_pos hf] at h; exact hcount h
    · rw [if_neg hf] at h
      split at h
      · cases h
      · split at h
        · rename_i h1
          cases acts with
          | one a =>
            simp only [cachedFeatures] at h1
            cases hl : (w.mem name).last a with
            | none => rw [hl] at h1; cases h1
            | some t => rw [hl] at h1; exact hcache a t (by simp [Acts.has]) hl h1
          | many as =>
            obtain ⟨a, ha, t, hl, hw⟩ := scan_true as _ h1
            exact hcache a t (by simp [Acts.has, ha]) hl hw
        · exact hcount h

/-- The same of the phrase. -/
theorem has_held {v : Sit} {name : String} (hn : v.self = some name) {w : LogWorld} (hm : v.mem = w.mem) (hr : v.repo = w.repo)
    (hc : CacheFrom w) {fuel : Nat} {r : Nat → Int} {vb : Verb} {task : Option Txt} {p : Option Period} {m n : Nat}
    (h : observe (v.clocked fuel r) (.leaf (.status vb task p [])) m = (.ok true, n)) :
    ∃ s e q, (p = none ∨ q = p) ∧ Period.periodSpan fuel q (r m) = .ok (s, e) ∧ ∃ c ∈ w.repo, About name task vb c ∧
      ((s ≤ c.created ∧ c.created ≤ e) ∨ (s ≤ c.noted ∧ c.noted ≤ e)) := by
  simp only [observe, Sit.clocked, Sit.leaf, Prod.mk.injEq] at h
  have h := h.1
  have key : ∀ d, Sit.statusOf { v with now := r m } fuel vb.acts [] p d = .ok true →
      ∃ s e q, (p = none ∨ q = p) ∧ Period.periodSpan fuel q (r m) = .ok (s, e) ∧ ∃ c ∈ w.repo, (c.task = d ∧ c.action ∈ shownBy vb) ∧
        ((s ≤ c.created ∧ c.created ≤ e) ∨ (s ≤ c.noted ∧ c.noted ≤ e)) := by
    intro d hd
    cases p with
    | some p =>
      simp only [Sit.statusOf, hm, hr] at hd
      obtain ⟨s, e, h1, c, h2, h3, h4, h5⟩ := status_true hc hd
      exact ⟨s, e, _, .inr rfl, h1, c, h2, ⟨h3, (acts_shown _ _).1 h4⟩, h5⟩
    | none =>
      simp only [Sit.statusOf, hm, hr, bareStatus] at hd
      split at hd
      · cases hd
      · obtain ⟨s, e, h1, c, h2, h3, h4, h5⟩ := status_true hc hd
        exact ⟨s, e, _, .inl rfl, h1, c, h2, ⟨h3, (acts_shown _ _).1 h4⟩, h5⟩
  cases task with
  | some t =>
    simp only [Sit.status, Sit.lookup] at h
    split at h
    · exact key _ h
    · cases h
  | none =>
    simp only [Sit.status, hn] at h
    exact key _ h

theorem span_pos {fuel : Nat} {p : Anchored} {now : Int} {x : Int × Int} (h : Period.periodSpan fuel (some (.anchored p)) now = .ok x) :
    ∃ k, fuel = k + 1 := by
  cases fuel with
  | zero => simp [Period.periodSpan, Period.rollback] at h
  | succ k => exact ⟨k, rfl⟩

/-- A time in the span of a part of a cycle is in its latest occurrence. -/
theorem span_latest {sc : Scope} (w : TPart) (hw : w.Of sc) (hc : Saying.Cyclic sc w) (he : Saying.EndsInTime sc w) {fuel : Nat}
    {now s e u : Int} (h : Period.periodSpan fuel (some (.anchored ⟨sc, (w.span sc).1, (w.span sc).2⟩)) now = .ok (s, e))
    (ht : ¬ Turn sc w now) (hu : u ≤ now) (h1 : s ≤ u) (h2 : u ≤ e) : Sit.Latest sc (w.span sc).1 (w.span sc).2 now u := by
  obtain ⟨k, rfl⟩ := span_pos h
  rcases hc with hc | ⟨rfl, hc⟩
  · have hnm := fixed_ne_month hc
    obtain ⟨hL, hm, hy⟩ := len_eq hc
    obtain ⟨hb, hlt⟩ := part_bounds hy w hw
    rw [← hm] at hb hlt
    have hLp := cycleLen_pos hL
    rw [Turn, if_neg hnm] at ht
    obtain ⟨b, g1, g2, g3⟩ := rollback_latest ⟨sc, (w.span sc).1, (w.span sc).2⟩ _ hL hb (fun h => absurd h.1 (by simp only; omega)) now
      (fun hf h0 => ht ⟨(isFull_iff (p := ⟨sc, (w.span sc).1, (w.span sc).2⟩) hL).1 hf, h0⟩) k
    rw [g1, Except.ok.injEq, Prod.mk.injEq] at h
    rw [Sit.Latest, if_neg hnm]
    exact (g3 u hu).1 ⟨by rw [h.1]; exact h1, by rw [h.2]; exact h2⟩
  · obtain ⟨h0, h0'⟩ := month_bounds w hw
    rw [Turn, if_pos rfl] at ht
    obtain ⟨b, g1, g2, g3⟩ := month_rollback_latest h0 hc h0' (he rfl) now (fun hf hs => ht ⟨hf, hs⟩) k
    rw [g1, Except.ok.injEq, Prod.mk.injEq] at h
    rw [Sit.Latest, if_pos rfl]
    exact (g3 u hu).1 ⟨by rw [h.1]; exact h1, by rw [h.2]; exact h2⟩

/-- C81: the start condition of the task is a text.  Then, in every history — any outcomes, durations, restarts, other tasks
and log records that come late — every phrase on which the text insists is kept by the records of the task: the starts
come after checks inside the time asked for, at most one success falls into each occurrence of a period, starts are
spaced, each start follows a new completion of the tasks it waits for, and a check at which the log had the record that a
status phrase asks for.  Missing: phrases outside `Saying`; the
successes of a task in a child process, which may be checked while its records wait in the queue, see
`C81_process_violated`. -/
theorem C81_history_partial (lib : TextLib) (strLeaf : Char → Builtin) (fuel : Nat) (S : Setup) (name : String)
    (e : Written) (he : e.Proper) (sayingOf : Txt → Saying)
    (hw : ∀ w ∈ e.words, (sayingOf w).phrase.text = w ∧ (sayingOf w).Proper)
    (hS : ∀ reason first last w, S.start name reason first last w → TextHeld lib strLeaf fuel S.fromLogs e.text name first last w)
    {es : List Ev} {h : HState} (hh : Hist S es h) (x : Txt) (hx : e.Asks x true)
    (hproc : ∀ sc w, sayingOf x = .exec sc w → S.isProc name = false ∨ S.drained = true) :
    (sayingOf x).Keeps name h.log.repo h.all := by
  have hp := (hw x (asked_word x e true hx)).2
  have held := fun reason first last w hst => held_saying he hw hx (hS reason first last w hst)
  generalize sayingOf x = y at hp held hproc ⊢
  cases y with
  | exec sc w =>
    obtain ⟨p1, p2⟩ := hp
    have hc : cycleLen sc ≠ none ∨ sc = .month := p2.imp id And.left
    have hev : ∀ reason first last l, S.start name reason first last l →
        ∃ now, Evaluated fuel S.fromLogs none (.anchored ⟨sc, (w.span sc).1, (w.span sc).2⟩) name first last l now := by
      intro reason first last l hst
      obtain ⟨v, c, r, m, n, h1, h2, h3, h4, h5, h6, h7, h8⟩ := held reason first last l hst
      simp only [Saying.phrase, Phrase.meaning, part_meaning lib (cyclic_ne_year hc) w p1, Except.map, Except.ok.injEq] at h7
      rw [← h7] at h8
      simp only [observe, Sit.clocked, Prod.mk.injEq] at h8
      have := executable_held h1 h3 h4 h5 h6 h8.1
      rw [h2] at this
      exact ⟨_, this⟩
    refine ⟨starts_after S name _ (fun reason first last l hst => ?_) hh, ?_⟩
    · obtain ⟨now, ev⟩ := hev reason first last l hst
      have := ev.r1; have := ev.r2; have := ev.r3; have := ev.r4; have := ev.r5; have := ev.r6
      exact ⟨now.isin, inside_part w p1 hc _ (evaluated_inside ev), by omega, by omega⟩
    · rcases p2 with p2 | ⟨rfl, p2⟩
      · obtain ⟨hL, hm, hy⟩ := len_eq p2
        obtain ⟨hb, _⟩ := part_bounds hy w p1
        rw [← hm] at hb
        simpa only [Sit.occ, if_neg (fixed_ne_month p2)] using
          C27_successes_partial S name (hproc _ _ rfl) fuel none ⟨sc, (w.span sc).1, (w.span sc).2⟩ (Sit.len sc) hL hb hev hh
      · obtain ⟨h0, h0'⟩ := month_bounds w p1
        simpa only [Sit.occ, if_true] using C27_month_partial S name (hproc _ _ rfl) fuel none _ _ h0 p2 h0' hev hh
  | timeOf sc w =>
    obtain ⟨p1, p2, _⟩ := hp
    refine starts_after S name _ (fun reason first last l hst => ?_) hh
    obtain ⟨v, c, r, m, n, h1, h2, h3, h4, h5, h6, h7, h8⟩ := held reason first last l hst
    simp only [Saying.phrase, Phrase.meaning, part_meaning lib (cyclic_ne_year p2) w p1, Except.map, Except.ok.injEq] at h7
    rw [← h7] at h8
    simp only [observe, Sit.clocked, Sit.leaf, Prod.mk.injEq] at h8
    refine ⟨r m, inside_part w p1 p2 _ ?_, h6 m⟩
    simpa [Period.contains] using h8.1
  | every d us =>
    have hd := hp.2.1
    have := C30_spacing S name fuel us (fun reason first last l hst => by
      obtain ⟨v, c, r, m, n, h1, h2, h3, h4, h5, h6, h7, h8⟩ := held reason first last l hst
      simp only [Saying.phrase, Phrase.meaning, span_lasts hp, Except.map, Except.ok.injEq] at h7
      rw [← h7] at h8
      simp only [observe, Sit.clocked, Sit.leaf, Sit.status, h1, Sit.statusOf, h2, h3, h4, Prod.mk.injEq] at h8
      refine ⟨r m, (h6 m).1, (h6 m).2, ?_⟩
      have hmk : Period.mkDelta (some us) none = .delta us 0 := by
        simp only [Period.mkDelta, Option.getD_some, Option.getD_none]
        congr 1
        omega
      rw [everyRun, hmk]
      exact h8.1) hh
    exact this.imp (fun h h1 h2 => by have := h h1 h2; omega)
  | cron c =>
    have hev : ∀ reason first last l, S.start name reason first last l → CronHeld fuel S.fromLogs c name first last l := by
      intro reason first last l hst
      obtain ⟨v, d, r, m, n, h1, h2, h3, h4, h5, h6, h7, h8⟩ := held reason first last l hst
      simp only [Saying.phrase, Phrase.meaning, Except.ok.injEq] at h7
      rw [← h7] at h8
      rw [show cronTexts c ++ List.replicate (5 - (cronTexts c).length) ['*'] = cronTexts c by simp [cronTexts]] at h8
      simp only [observe, Sit.clocked, cronOf_texts hp, bindE, Prod.mk.injEq] at h8
      refine ⟨r m, r (m + 1), (h6 _).1, h5 _ _ (by omega), (h6 _).2, ?_⟩
      have h9 := h8.1
      unfold Sit.cronAt at h9
      rw [h1] at h9
      simp only [] at h9
      split at h9
      · rw [h2, h3, h4] at h9
        exact h9
      · exact absurd h9 andThen_error
    refine ⟨starts_after S name _ (fun reason first last l hst => ?_) hh, ?_⟩
    · obtain ⟨now, now', k1, k2, k3, k4⟩ := hev reason first last l hst
      refine ⟨now, ?_, k1, by omega⟩
      exact cron_true hp.valid hp.month hp.days (andThen_true k4).1
    · exact C29_starts_partial S name fuel c hp.valid hp.month hp.days hev hh
  | afterTask t k said =>
    refine starts_served S name _ (fun reason first last l hst ho => ?_) hh
    obtain ⟨v, c, r, m, n, h1, h2, h3, h4, h5, h6, h7, h8⟩ := held reason first last l hst
    simp only [Saying.phrase, Phrase.meaning, Except.ok.injEq] at h7
    rw [← h7] at h8
    obtain ⟨c, k1, k2, k3⟩ := depend_true (depend_held h1 h4 h8) ho
    exact ⟨c, k1, ended_completion k2, k3⟩
  | afterTasks isAny ts k said =>
    cases isAny with
    | true =>
      refine starts_served S name _ (fun reason first last l hst ho => ?_) hh
      obtain ⟨v, c, r, m, n, h1, h2, h3, h4, h5, h6, h7, h8⟩ := held reason first last l hst
      simp only [Saying.phrase, Phrase.meaning, Except.ok.injEq, if_true] at h7
      rw [← h7, observe] at h8
      obtain ⟨d, hd, m', n', h9⟩ := any_true _ _ _ h8
      obtain ⟨t, ht, rfl⟩ := List.mem_map.1 hd
      obtain ⟨c, k1, k2, k3⟩ := depend_true (depend_held h1 h4 h9) ho
      exact ⟨c, k1, ⟨t, ht, ended_completion k2⟩, k3⟩
    | false =>
      intro t ht
      refine starts_served S name _ (fun reason first last l hst ho => ?_) hh
      obtain ⟨v, c, r, m, n, h1, h2, h3, h4, h5, h6, h7, h8⟩ := held reason first last l hst
      simp only [Saying.phrase, Phrase.meaning, Except.ok.injEq, Bool.false_eq_true, if_false] at h7
      rw [← h7, observe] at h8
      obtain ⟨m', n', h9⟩ := all_true _ _ _ h8 _ (List.mem_map.2 ⟨t, ht, rfl⟩)
      obtain ⟨c, k1, k2, k3⟩ := depend_true (depend_held h1 h4 h9) ho
      exact ⟨c, k1, ended_completion k2, k3⟩
  | const b long =>
    cases b with
    | true => trivial
    | false =>
      intro s hs hsa
      obtain ⟨t, ht, _⟩ := (starts_after S name (fun _ => False) (fun reason first last l hst => by
        obtain ⟨v, c, r, m, n, h1, h2, h3, h4, h5, h6, h7, h8⟩ := held reason first last l hst
        simp only [Saying.phrase, Phrase.meaning, Except.ok.injEq, Bool.false_eq_true, if_false] at h7
        rw [← h7, observe] at h8
        simp at h8) hh).1 s hs hsa
      exact ht
  | has task vb =>
    refine starts_seen S name (fun repo t => ∃ c ∈ repo, About name task vb c ∧ c.created ≤ t)
      (fun repo new t ⟨c, h1, h2⟩ => ⟨c, by simp [h1], h2⟩) (fun reason first last l hst hpast => ?_) hh
    obtain ⟨v, c, r, m, n, h1, h2, h3, h4, h5, h6, h7, h8⟩ := held reason first last l hst
    simp only [Saying.phrase, Phrase.meaning, Except.ok.injEq] at h7
    rw [← h7] at h8
    obtain ⟨_, _, _, _, _, d, k1, k2, _⟩ := has_held h1 h3 h4 hpast.cache h8
    have := (hpast.times d k1).2
    have := (h6 m).1
    exact ⟨r m, ⟨d, k1, k2, by omega⟩, h6 m⟩
  | hasPast task vb inn d us =>
    refine starts_seen S name (fun repo t => ∃ c ∈ repo, About name task vb c ∧ t - us ≤ c.created ∧ c.created ≤ t)
      (fun repo new t ⟨c, h1, h2⟩ => ⟨c, by simp [h1], h2⟩) (fun reason first last l hst hpast => ?_) hh
    obtain ⟨v, c, r, m, n, h1, h2, h3, h4, h5, h6, h7, h8⟩ := held reason first last l hst
    simp only [Saying.phrase, Phrase.meaning, span_lasts hp.2, Except.map, Except.ok.injEq] at h7
    rw [← h7] at h8
    obtain ⟨s, e, q, hq, hs, x, k1, k2, k3⟩ := has_held h1 h3 h4 hpast.cache h8
    obtain rfl : q = _ := hq.resolve_left (by simp)
    cases fuel with
    | zero => simp [Period.periodSpan, Period.rollback] at hs
    | succ k =>
      rw [delta_span k hp.2.2.1, Except.ok.injEq, Prod.mk.injEq] at hs
      have := hpast.times x k1
      have := (h6 m).1
      exact ⟨r m, ⟨x, k1, k2, by omega, by omega⟩, h6 m⟩
  | hasIn task vb sc w =>
    obtain ⟨_, p2, p3, p4, _, _⟩ := hp
    refine starts_seen S name (fun repo t => ∃ c ∈ repo, About name task vb c ∧ c.created ≤ t ∧
      (Sit.Latest sc (w.span sc).1 (w.span sc).2 t c.created ∨ Sit.Latest sc (w.span sc).1 (w.span sc).2 t c.noted ∨ Turn sc w t))
      (fun repo new t ⟨c, h1, h2⟩ => ⟨c, by simp [h1], h2⟩) (fun reason first last l hst hpast => ?_) hh
    obtain ⟨v, c, r, m, n, h1, h2, h3, h4, h5, h6, h7, h8⟩ := held reason first last l hst
    simp only [Saying.phrase, Phrase.meaning, part_meaning lib (cyclic_ne_year (p3.imp id And.left)) w p2, Except.map, Except.ok.injEq] at h7
    rw [← h7] at h8
    obtain ⟨s, e, q, hq, hs, x, k1, k2, k3⟩ := has_held h1 h3 h4 hpast.cache h8
    obtain rfl : q = _ := hq.resolve_left (by simp)
    have := hpast.times x k1
    have := (h6 m).1
    refine ⟨r m, ⟨x, k1, k2, by omega, ?_⟩, h6 m⟩
    by_cases ht : Turn sc w (r m)
    · exact .inr (.inr ht)
    · rcases k3 with k3 | k3
      · exact .inl (span_latest w p2 p3 p4 hs ht (by omega) k3.1 k3.2)
      · exact .inr (.inl (span_latest w p2 p3 p4 hs ht (by omega) k3.1 k3.2))
  | _ => trivial

/-- C81 with C69: the same in every execution of the scheduler, at any point and however often it is started. -/
theorem C81_execution_partial (lib : TextLib) (strLeaf : Char → Builtin) (fuel : Nat) (S : Setup) (K : String → Sched.Exec) (R : Nat)
    (s : Sys) (hs : Managed K s) (env : Nat → Choice) (he : ∀ i, Reliable (env i)) (ks : List Nat) {tr : List Sched.Obs}
    (hp : tr <+: (sessions ks (World.init s env)).2.trace) {es : List Ev} {h : HState} (hc : Coupled S K R tr es h)
    (name : String) (e : Written) (hep : e.Proper) (sayingOf : Txt → Saying)
    (hw : ∀ w ∈ e.words, (sayingOf w).phrase.text = w ∧ (sayingOf w).Proper)
    (hS : ∀ reason first last w, S.start name reason first last w → TextHeld lib strLeaf fuel S.fromLogs e.text name first last w)
    (x : Txt) (hx : e.Asks x true) (hproc : ∀ sc w, sayingOf x = .exec sc w → S.isProc name = false ∨ S.drained = true) :
    (sayingOf x).Keeps name h.log.repo h.all :=
  C81_history_partial lib strLeaf fuel S name e hep sayingOf hw hS (C69_history_partial S K R s hs env he ks hp hc) x hx hproc

/-! ### cases -/

/-- What can happen with a start condition can happen with a weaker one. -/
theorem hist_weaker {f : Bool} {st st' : StartCond} {p : String → Bool} {d : Bool}
    (hst : ∀ name reason first last w, st name reason first last w → st' name reason first last w) {es : List Ev} {h : HState}
    (hh : Hist ⟨f, st, p, d⟩ es h) : Hist ⟨f, st', p, d⟩ es h := by
  induction hh with
  | init c => exact .init c
  | step _ hs ih =>
    refine ih.step ?_
    cases hs with
    | tick c hc => exact .tick _ c hc
    | check name reason first last h1 h2 h3 h4 h5 h6 => exact .check _ name reason first last h1 h2 h3 h4 h5 (hst _ _ _ _ _ h6)
    | begin name reason id noted created h1 h2 h3 => exact .begin _ name reason id noted created h1 h2 h3
    | outcome name a id noted created h1 h2 h3 h4 => exact .outcome _ name a id noted created h1 h2 h3 h4
    | more name a id noted created h1 h2 h3 h4 h5 h6 => exact .more _ name a id noted created h1 h2 h3 h4 h5 h6
    | put name a id created h1 h2 h3 h4 => exact .put _ name a id created h1 h2 h3 h4
    | putMore name a id created h1 h2 h3 h4 h5 => exact .putMore _ name a id created h1 h2 h3 h4 h5
    | drain r q h1 => exact .drain _ r q h1
    | die name h1 => exact .die _ name h1
    | kill name a id noted created h1 h2 h3 h4 => exact .kill _ name a id noted created h1 h2 h3 h4
    | reboot c h1 => exact .reboot _ c h1
    | recover name noted created h1 h2 h3 => exact .recover _ name noted created h1 h2 h3
    | look op h1 => exact .look _ op h1

/-- A text is found true when its phrases evaluate so. -/
theorem text_held {lib : TextLib} {strLeaf : Char → Builtin} {fuel : Nat} {e : Written} (he : e.Proper)
    {sayingOf : Txt → Saying} (hw : ∀ w ∈ e.words, (sayingOf w).phrase.text = w ∧ (sayingOf w).Proper)
    {name : String} {t : Int} {w : LogWorld} (v : Sit) (h1 : v.self = some name) (h3 : v.mem = w.mem) (h4 : v.repo = w.repo) (n : Nat)
    (h : e.expr.eval (fun x => phraseObs (v.clocked fuel (fun _ => t)) (valOf lib) (sayingOf x).phrase) 0 = (.ok true, n)) :
    TextHeld lib strLeaf fuel v.fromLogs e.text name t t w := by
  have hg : ∀ b, v.clocked fuel (fun _ => t) b.resolve = v.clocked fuel (fun _ => t) b := by intro b; cases b <;> rfl
  obtain ⟨c, hc, ho⟩ := C60_text_partial (read := readTime lib) (val := valOf lib) strLeaf (v.clocked fuel (fun _ => t)) hg e he
    (fun w => (sayingOf w).phrase) (fun w hm => by
      obtain ⟨k1, k2, k3, k4⟩ := saying_phrase lib (sayingOf w) (hw w hm).2
      exact ⟨(hw w hm).1, k1, k2, k3, k4, saying_means lib _ (hw w hm).2⟩)
  exact ⟨v, c, fun _ => t, n, h1, rfl, h3, h4, fun _ _ _ => Int.le_refl _, fun _ => ⟨Int.le_refl _, Int.le_refl _⟩, hc, by rw [ho, h]⟩

/-- `daily & ~(~after task 'a' | false)`. -/
def chainText : Written :=
  .and (.item [] c!"daily" []) [' '] [' ']
    (.not [] [] (.group (.or (.not [] [] (.item [] c!"after task 'a'" [])) [' '] [' '] (.item [] c!"false" []))))

def chainSays (w : Txt) : Saying :=
  if w = c!"daily" then .exec .day .whole
  else if w = c!"false" then .const false false
  else .afterTask c!"a" .success false

theorem chain_proper : chainText.Proper := by
  simp [chainText, Written.Proper, Written.Word, Written.Conj, Written.Tight, Written.Blank]

theorem chain_says : ∀ w ∈ chainText.words, (chainSays w).phrase.text = w ∧ (chainSays w).Proper := by
  intro w hw
  simp only [chainText, Written.words, List.mem_append, List.mem_cons, List.not_mem_nil, or_false] at hw
  rcases hw with rfl | rfl | rfl
  · exact ⟨by decide +kernel, trivial, .inl (by decide)⟩
  · exact ⟨by decide +kernel, ⟨by decide, by decide, by decide⟩⟩
  · exact ⟨by decide +kernel, trivial⟩

/-- The situation of the task `t` at a check. -/
def sitOf (t : String) (w : LogWorld) : Sit where
  fromLogs := false
  now := 0
  self := some t
  tasks := ["a", "t"]
  repo := w.repo
  mem := w.mem
  startCond := fun _ => .alwaysTrue
  runs := fun _ => []
  hasRunId := true
  startup := none
  nCycles := 0
  params := []

/-- The session of the examples: "a" may always start, "t" has the text. -/
def textSetup (lib : TextLib) (strLeaf : Char → Builtin) (e : Written) (proc drained : Bool) : Setup where
  fromLogs := false
  start := fun name _ first last w => name = "a" ∨ (name = "t" ∧ TextHeld lib strLeaf 1 false e.text "t" first last w)
  isProc := fun _ => proc
  drained := drained

theorem chain_held (lib : TextLib) (strLeaf : Char → Builtin) (t : Int) (w : LogWorld)
    (h1 : executable 1 false none (.anchored ⟨.day, 0, DAY⟩) (oneReading t) "t" (w.mem "t") w.repo = .ok true)
    (h2 : dependState w.repo "t" "a" dependSuccess = true) : TextHeld lib strLeaf 1 false chainText.text "t" t t w := by
  refine text_held (sayingOf := chainSays) chain_proper chain_says (sitOf "t" w) rfl rfl rfl 6 ?_
  have e1 : phraseObs ((sitOf "t" w).clocked 1 (fun _ => t)) (valOf lib) (chainSays c!"daily").phrase = fun i => (.ok true, i + 5) := by
    funext i
    refine Prod.ext ?_ rfl
    exact h1
  have e2 : phraseObs ((sitOf "t" w).clocked 1 (fun _ => t)) (valOf lib) (chainSays c!"after task 'a'").phrase = fun i => (.ok true, i + 1) := by
    funext i
    refine Prod.ext ?_ rfl
    exact congrArg Except.ok h2
  have e3 : phraseObs ((sitOf "t" w).clocked 1 (fun _ => t)) (valOf lib) (chainSays c!"false").phrase = fun i => (.ok false, i) := rfl
  simp only [chainText, Written.expr, CExpr.eval, thenAnd, thenOr, negated, e1, e2, e3, Except.map]
  rfl

/-- Non-vacuity: the text insists on both phrases, and a history in which the task has started after "a". -/
example (lib : TextLib) (strLeaf : Char → Builtin) :
    chainText.text = c!"daily & ~(~after task 'a' | false)" ∧ chainText.Asks c!"daily" true ∧ chainText.Asks c!"after task 'a'" true ∧
    ∃ es h, Hist (textSetup lib strLeaf chainText false false) es h ∧
      (h.log.repo.filter (fun r => decide (r.task = "t" ∧ r.action = .success))).length = 1 := by
  refine ⟨rfl, by simp [chainText, Written.Asks], by simp [chainText, Written.Asks], ?_⟩
  suffices H : ∃ es h, Hist ⟨false, fun name _ first last w => name = "a" ∨ (name = "t" ∧ first = last ∧
      executable 1 false none (.anchored ⟨.day, 0, DAY⟩) (oneReading first) "t" (w.mem "t") w.repo = .ok true ∧
      dependState w.repo "t" "a" dependSuccess = true), fun _ => false, false⟩ es h ∧
      (h.log.repo.filter (fun r => decide (r.task = "t" ∧ r.action = .success))).length = 1 by
    obtain ⟨es, h, h1, h2⟩ := H
    refine ⟨es, h, hist_weaker ?_ h1, h2⟩
    rintro name reason first last w (h | ⟨h, rfl, h3, h4⟩)
    · exact .inl h
    · exact .inr ⟨h, chain_held lib strLeaf _ w h3 h4⟩
  have h0 := Hist.init (S := ⟨false, fun name _ first last w => name = "a" ∨ (name = "t" ∧ first = last ∧
      executable 1 false none (.anchored ⟨.day, 0, DAY⟩) (oneReading first) "t" (w.mem "t") w.repo = .ok true ∧
      dependState w.repo "t" "a" dependSuccess = true), fun _ => false, false⟩) 1
  have h1 := h0.step (.check _ "a" 0 2 2 (by decide) (by decide) (by decide) (by decide) (by simp) (.inl rfl))
  have h2 := h1.step (.begin _ "a" 0 none 3 3 (by decide) (by decide) (by decide))
  have h3 := h2.step (.outcome _ "a" .success none 4 4 (by decide) (by decide) (by decide) (by decide))
  have h4 := h3.step (.check _ "t" 0 5 5 (by decide) (by decide) (by decide) (by decide) (by simp)
    (.inr ⟨rfl, rfl, by decide +kernel, by decide +kernel⟩))
  have h5 := h4.step (.begin _ "t" 0 none 6 6 (by decide) (by decide) (by decide))
  have h6 := h5.step (.outcome _ "t" .success none 7 7 (by decide) (by decide) (by decide) (by decide))
  exact ⟨_, _, h6, by decide +kernel⟩

/-- `task 'a' has succeeded past 10 minutes`. -/
def recentText : Written := .item [] c!"task 'a' has succeeded past 10 minutes" []

def recentSays (_ : Txt) : Saying := .hasPast (some c!"a") .succeeded false tenMinutes (10 * MIN)

theorem recent_says : ∀ w ∈ recentText.words, (recentSays w).phrase.text = w ∧ (recentSays w).Proper := by
  intro w hw
  simp only [recentText, Written.words, List.mem_singleton] at hw
  subst hw
  exact ⟨by decide +kernel, ⟨by decide, by decide, by decide⟩, tenMinutes_lasts⟩

theorem recent_held (lib : TextLib) (strLeaf : Char → Builtin) (t : Int) (w : LogWorld)
    (h : statusCond 1 false (.one .success) [] (some (.delta (10 * MIN) 0)) t "a" (w.mem "a") w.repo = .ok true) :
    TextHeld lib strLeaf 1 false recentText.text "t" t t w := by
  refine text_held (sayingOf := recentSays) (by simp [recentText, Written.Proper, Written.Word, Written.Blank]) recent_says
    (sitOf "t" w) rfl rfl rfl 1 ?_
  have hm : (recentSays c!"task 'a' has succeeded past 10 minutes").phrase.meaning (valOf lib) =
      .ok (.leaf (.status .succeeded (some c!"a") (some (.delta (10 * MIN) 0)) [])) := by
    simp only [recentSays, Saying.phrase, Phrase.meaning, span_lasts tenMinutes_lasts]; rfl
  simp only [recentText, Written.expr, CExpr.eval, phraseObs, hm, observe]
  refine Prod.ext ?_ rfl
  exact h

/-- Non-vacuity: after a success of "a" the task is started; its status phrase is what the promise is about. -/
example (lib : TextLib) (strLeaf : Char → Builtin) :
    recentText.Asks c!"task 'a' has succeeded past 10 minutes" true ∧
    ∃ es h, Hist (textSetup lib strLeaf recentText false false) es h ∧
      (h.log.repo.filter (fun r => decide (r.task = "t" ∧ r.action = .run))).length = 1 := by
  refine ⟨by simp [recentText, Written.Asks], ?_⟩
  suffices H : ∃ es h, Hist ⟨false, fun name _ first last w => name = "a" ∨ (name = "t" ∧ first = last ∧
      statusCond 1 false (.one .success) [] (some (.delta (10 * MIN) 0)) first "a" (w.mem "a") w.repo = .ok true),
      fun _ => false, false⟩ es h ∧
      (h.log.repo.filter (fun r => decide (r.task = "t" ∧ r.action = .run))).length = 1 by
    obtain ⟨es, h, h1, h2⟩ := H
    refine ⟨es, h, hist_weaker ?_ h1, h2⟩
    rintro name reason first last w (h | ⟨h, rfl, h3⟩)
    · exact .inl h
    · exact .inr ⟨h, recent_held lib strLeaf _ w h3⟩
  have h0 := Hist.init (S := ⟨false, fun name _ first last w => name = "a" ∨ (name = "t" ∧ first = last ∧
      statusCond 1 false (.one .success) [] (some (.delta (10 * MIN) 0)) first "a" (w.mem "a") w.repo = .ok true),
      fun _ => false, false⟩) 1
  have h1 := h0.step (.check _ "a" 0 2 2 (by decide) (by decide) (by decide) (by decide) (by simp) (.inl rfl))
  have h2 := h1.step (.begin _ "a" 0 none 3 3 (by decide) (by decide) (by decide))
  have h3 := h2.step (.outcome _ "a" .success none 4 4 (by decide) (by decide) (by decide) (by decide))
  have h4 := h3.step (.check _ "t" 0 5 5 (by decide) (by decide) (by decide) (by decide) (by simp)
    (.inr ⟨rfl, rfl, by decide +kernel⟩))
  have h5 := h4.step (.begin _ "t" 0 none 6 6 (by decide) (by decide) (by decide))
  exact ⟨_, _, h5, by decide +kernel⟩

/-- `daily | after task 'a'`: the text insists on neither. -/
def eitherText : Written := .or (.item [] c!"daily" []) [' '] [' '] (.item [] c!"after task 'a'" [])

example : ¬ eitherText.Asks c!"daily" true ∧ ¬ eitherText.Asks c!"after task 'a'" true := by
  constructor <;> simp only [eitherText, Written.Asks] <;> decide

/-- `daily`. -/
def dailyText : Written := .item [] c!"daily" []

theorem daily_held (lib : TextLib) (strLeaf : Char → Builtin) (t : Int) (w : LogWorld)
    (h1 : executable 1 false none (.anchored ⟨.day, 0, DAY⟩) (oneReading t) "t" (w.mem "t") w.repo = .ok true) :
    TextHeld lib strLeaf 1 false dailyText.text "t" t t w := by
  refine text_held (sayingOf := fun _ => .exec .day .whole) ?_ ?_ (sitOf "t" w) rfl rfl rfl 5 ?_
  · simp [dailyText, Written.Proper, Written.Word, Written.Blank]
  · intro x hx
    simp only [dailyText, Written.words, List.mem_singleton] at hx
    subst hx
    exact ⟨by decide +kernel, trivial, .inl (by decide)⟩
  · refine Prod.ext ?_ rfl
    exact h1

/-- C81 fails for tasks in child processes: the text `daily` insists on `daily`, and yet the task succeeds twice in a day,
because the outcome of the first run was still in the queue at the second check. -/
theorem C81_process_violated (lib : TextLib) (strLeaf : Char → Builtin) : dailyText.Asks c!"daily" true ∧
    ∃ es h, Hist (textSetup lib strLeaf dailyText true false) es h ∧ ¬ (Saying.exec .day .whole).Keeps "t" h.log.repo h.all := by
  refine ⟨by simp [dailyText, Written.Asks], ?_⟩
  suffices H : ∃ es h, Hist ⟨false, fun name _ first last w => name = "t" ∧ first = last ∧
      executable 1 false none (.anchored ⟨.day, 0, DAY⟩) (oneReading first) "t" (w.mem "t") w.repo = .ok true,
      fun _ => true, false⟩ es h ∧ ¬ (Saying.exec .day .whole).Keeps "t" h.log.repo h.all by
    obtain ⟨es, h, h1, h2⟩ := H
    refine ⟨es, h, hist_weaker ?_ h1, h2⟩
    rintro name reason first last w ⟨h, rfl, h3⟩
    exact .inr ⟨h, daily_held lib strLeaf _ w h3⟩
  have h0 := Hist.init (S := ⟨false, fun name _ first last w => name = "t" ∧ first = last ∧
      executable 1 false none (.anchored ⟨.day, 0, DAY⟩) (oneReading first) "t" (w.mem "t") w.repo = .ok true,
      fun _ => true, false⟩) 1
  have h1 := h0.step (.check _ "t" 0 2 2 (by decide) (by decide) (by decide) (by decide) (by simp)
    ⟨rfl, rfl, by decide +kernel⟩)
  have h2 := h1.step (.begin _ "t" 0 none 3 3 (by decide) (by decide) (by decide))
  have h3 := h2.step (.put _ "t" .success none 4 (by decide) rfl (by decide) (by decide))
  have h4 := h3.step (.die _ "t" (by decide))
  have h5 := h4.step (.check _ "t" 0 5 5 (by decide) (by decide) (by decide) (by decide) (by simp)
    ⟨rfl, rfl, by decide +kernel⟩)
  have h6 := h5.step (.begin _ "t" 0 none 6 6 (by decide) (by decide) (by decide))
  have h7 := h6.step (.drain _ _ _ rfl)
  have h8 := h7.step (.put _ "t" .success none 7 (by decide) rfl (by decide) (by decide))
  refine ⟨_, _, h8, fun h => absurd h.2 ?_⟩
  decide +kernel

end Rocketry.Props
