import Verif.Spec.RunIdsSpec
import Verif.Props.RunningProps
import Verif.Props.NamesProps
import Verif.Props.EndTextProps

/-!
# C118: the runs that go on can be told from the log by their ids
-/

namespace Rocketry.Props
open Rocketry Rocketry.Spec Rocketry.RunIds

theorem openRuns_snoc_run {name : String} {x : Record} (h : OfAction name .run x) (l : List Record) :
    openRuns name (l ++ [x]) = openRuns name l ++ [x] := by
  induction l with
  | nil =>
    show (if _ then _ else _) = _
    rw [if_pos ⟨h, fun y hy => nomatch hy⟩]
    rfl
  | cons r rest ih =>
    have e : (OfAction name .run r ∧ ∀ y ∈ rest ++ [x], Of name y → y.runId = r.runId → y.action = .run) ↔
        (OfAction name .run r ∧ ∀ y ∈ rest, Of name y → y.runId = r.runId → y.action = .run) := by
      refine and_congr_right fun _ => ⟨fun hh y hy => hh y (List.mem_append_left _ hy), fun hh y hy => ?_⟩
      rcases List.mem_append.1 hy with hy | hy
      · exact hh y hy
      · rw [List.mem_singleton.1 hy]
        exact fun _ _ => h.2
    show (if (OfAction name .run r ∧ ∀ y ∈ rest ++ [x], Of name y → y.runId = r.runId → y.action = .run) then r :: openRuns name (rest ++ [x]) else openRuns name (rest ++ [x])) = (if _ then _ else _) ++ [x]
    by_cases hc : OfAction name .run r ∧ ∀ y ∈ rest, Of name y → y.runId = r.runId → y.action = .run
    · rw [if_pos (e.2 hc), if_pos hc, ih, List.cons_append]
    · rw [if_neg (fun hh => hc (e.1 hh)), if_neg hc, ih]

theorem openRuns_snoc_end {name : String} {x : Record} (h : Of name x) (ha : x.action ≠ .run) (l : List Record) :
    openRuns name (l ++ [x]) = (openRuns name l).filter (fun r => decide (r.runId ≠ x.runId)) := by
  induction l with
  | nil =>
    show (if _ then _ else _) = _
    rw [if_neg (fun hh => ha hh.1.2)]
    rfl
  | cons r rest ih =>
    have e : (OfAction name .run r ∧ ∀ y ∈ rest ++ [x], Of name y → y.runId = r.runId → y.action = .run) ↔
        (OfAction name .run r ∧ ∀ y ∈ rest, Of name y → y.runId = r.runId → y.action = .run) ∧ r.runId ≠ x.runId := by
      constructor
      · intro hh
        exact ⟨⟨hh.1, fun y hy => hh.2 y (List.mem_append_left _ hy)⟩,
          fun hid => ha (hh.2 x (List.mem_append_right _ (List.mem_singleton.2 rfl)) h hid.symm)⟩
      · rintro ⟨⟨h1, h2⟩, h3⟩
        refine ⟨h1, fun y hy => ?_⟩
        rcases List.mem_append.1 hy with hy | hy
        · exact h2 y hy
        · rw [List.mem_singleton.1 hy]
          exact fun _ hid => absurd hid.symm h3
    show (if (OfAction name .run r ∧ ∀ y ∈ rest ++ [x], Of name y → y.runId = r.runId → y.action = .run) then r :: openRuns name (rest ++ [x]) else openRuns name (rest ++ [x])) = List.filter _ (if _ then _ else _)
    by_cases hc : OfAction name .run r ∧ ∀ y ∈ rest, Of name y → y.runId = r.runId → y.action = .run
    · rw [if_pos hc]
      by_cases h3 : r.runId ≠ x.runId
      · rw [if_pos (e.2 ⟨hc, h3⟩), List.filter_cons, if_pos (decide_eq_true h3), ih]
      · rw [if_neg (fun hh => h3 (e.1 hh).2), List.filter_cons, if_neg (by simpa using h3), ih]
    · rw [if_neg (fun hh => hc (e.1 hh).1), if_neg hc, ih]

theorem openRuns_snoc_other {name : String} {x : Record} (h : ¬ Of name x) (l : List Record) :
    openRuns name (l ++ [x]) = openRuns name l := by
  induction l with
  | nil =>
    show (if _ then _ else _) = _
    rw [if_neg (fun hh => h hh.1.1)]
  | cons r rest ih =>
    have e : (OfAction name .run r ∧ ∀ y ∈ rest ++ [x], Of name y → y.runId = r.runId → y.action = .run) ↔
        (OfAction name .run r ∧ ∀ y ∈ rest, Of name y → y.runId = r.runId → y.action = .run) := by
      refine and_congr_right fun _ => ⟨fun hh y hy => hh y (List.mem_append_left _ hy), fun hh y hy => ?_⟩
      rcases List.mem_append.1 hy with hy | hy
      · exact hh y hy
      · rw [List.mem_singleton.1 hy]
        exact fun ho => absurd ho h
    show (if (OfAction name .run r ∧ ∀ y ∈ rest ++ [x], Of name y → y.runId = r.runId → y.action = .run) then r :: openRuns name (rest ++ [x]) else openRuns name (rest ++ [x])) = (if _ then _ else _)
    by_cases hc : OfAction name .run r ∧ ∀ y ∈ rest, Of name y → y.runId = r.runId → y.action = .run
    · rw [if_pos (e.2 hc), if_pos hc, ih]
    · rw [if_neg (fun hh => hc (e.1 hh)), if_neg hc, ih]

theorem openRuns_of {name : String} : ∀ {l : List Record} {r : Record}, r ∈ openRuns name l → Of name r
  | x :: l, r, h => by
    unfold openRuns at h
    split at h
    · next hc =>
      rcases List.mem_cons.1 h with rfl | h
      · exact hc.1.1
      · exact openRuns_of h
    · exact openRuns_of h

theorem idSteps_snoc (inc : Bool) (name : String) (l : List IdEv) (e : IdEv) :
    idSteps inc name (l ++ [e]) = idStep inc name (idSteps inc name l) e := by
  unfold idSteps
  rw [List.foldl_append]
  rfl

/-- C118, first part: whichever function gives the ids, the runs whose start no later record of the log has ended are,
in order, those that go on. -/
theorem C118_open (inc : Bool) (name : String) (l : List IdEv) :
    (openRuns name (idSteps inc name l).log).map Record.runId = (idSteps inc name l).stack.map some := by
  induction l using snoc_ind with
  | nil => rfl
  | snoc l e ih =>
    rw [idSteps_snoc]
    generalize idSteps inc name l = s at ih ⊢
    rcases e with ⟨u, now⟩ | ⟨i, a, now⟩ | r
    · show (openRuns name (match runId inc s u with | none => s | some i => _ : IdSt).log).map Record.runId = (match runId inc s u with | none => s | some i => _ : IdSt).stack.map some
      rcases runId inc s u with _ | i
      · exact ih
      · show (openRuns name (s.log ++ [_])).map Record.runId = (s.stack ++ [i]).map some
        rw [openRuns_snoc_run (x := ⟨name, .run, now, now, some i⟩) ⟨rfl, rfl⟩, List.map_append, ih, List.map_append]
        rfl
    · show (openRuns name (if i ∈ s.stack ∧ a ≠ .run then _ else s : IdSt).log).map Record.runId = (if i ∈ s.stack ∧ a ≠ .run then _ else s : IdSt).stack.map some
      by_cases h : i ∈ s.stack ∧ a ≠ .run
      · rw [if_pos h]
        show (openRuns name (s.log ++ [_])).map Record.runId = (s.stack.filter _).map some
        rw [openRuns_snoc_end (x := ⟨name, a, now, now, some i⟩) rfl h.2]
        have e1 : ∀ k : List Record, (k.filter (fun r => decide (r.runId ≠ some i))).map Record.runId =
            (k.map Record.runId).filter (fun o => decide (o ≠ some i)) := by
          intro k
          rw [List.filter_map]
          rfl
        have e2 : (s.stack.filter (fun j => decide (j ≠ i))).map some = (s.stack.map some).filter (fun o => decide (o ≠ some i)) := by
          rw [List.filter_map]
          congr 1
          apply List.filter_congr
          intro j _
          simp
        rw [e1, ih, e2]
      · rw [if_neg h]
        exact ih
    · show (openRuns name (if r.task ≠ name then _ else s : IdSt).log).map Record.runId = (if r.task ≠ name then _ else s : IdSt).stack.map some
      by_cases h : r.task ≠ name
      · rw [if_pos h]
        show (openRuns name (s.log ++ [_])).map Record.runId = s.stack.map some
        rw [openRuns_snoc_other h]
        exact ih
      · rw [if_neg h]
        exact ih

/-- Everything in the log of the task came from an event. -/
theorem randomIds_append (l l' : List IdEv) : randomIds (l ++ l') = randomIds l ++ randomIds l' := by
  induction l with
  | nil => rfl
  | cons e l ih => rcases e with ⟨u, now⟩ | ⟨i, a, now⟩ | r <;> simp [randomIds, ih]

theorem stepped_log (inc : Bool) (name : String) (s : IdSt) (e : IdEv) : idStep inc name s e = s ∨
    ∃ x, (idStep inc name s e).log = s.log ++ [x] ∧ x.created = eventTime e ∧
      (OfAction name .run x → ∃ u now i, e = .starts u now ∧ runId inc s u = some i ∧ x.runId = some i ∧
        (idStep inc name s e).stack = s.stack ++ [i]) ∧
      (Of name x → x.action ≠ .run → ∃ i, i ∈ s.stack ∧ x.runId = some i ∧
        (idStep inc name s e).stack = s.stack.filter (fun j => decide (j ≠ i))) ∧
      (¬ Of name x → (idStep inc name s e).stack = s.stack) := by
  rcases e with ⟨u, now⟩ | ⟨i, a, now⟩ | r
  · simp only [idStep]
    rcases h : runId inc s u with _ | i
    · exact .inl rfl
    · exact .inr ⟨_, rfl, rfl, fun _ => ⟨u, now, i, rfl, h, rfl, rfl⟩, fun _ hx => absurd rfl hx, fun hx => absurd rfl hx⟩
  · simp only [idStep]
    by_cases h : i ∈ s.stack ∧ a ≠ .run
    · rw [if_pos h]
      exact .inr ⟨_, rfl, rfl, fun hx => absurd hx.2 h.2, fun _ _ => ⟨i, h.1, rfl, rfl⟩, fun hx => absurd rfl hx⟩
    · rw [if_neg h]
      exact .inl rfl
  · simp only [idStep]
    by_cases h : r.task ≠ name
    · rw [if_pos h]
      exact .inr ⟨_, rfl, rfl, fun hx => absurd hx.1 h, fun hx => absurd hx h, fun _ => rfl⟩
    · rw [if_neg h]
      exact .inl rfl

/-- What holds of the log of a task with random ids. -/
theorem random_log (name : String) (l : List IdEv) (hc : ClockOn l) (hr : Random l) :
    RunLog name (idSteps false name l).log ∧
      (∀ x ∈ (idSteps false name l).log, Of name x → ∃ i ∈ randomIds l, x.runId = some i) ∧
      (∀ i ∈ (idSteps false name l).stack, i ∈ randomIds l) ∧
      (∀ x ∈ (idSteps false name l).log, ∃ e ∈ l, x.created = eventTime e) := by
  induction l using snoc_ind with
  | nil => exact ⟨⟨fun r hr => (nomatch hr), .nil, .nil⟩, fun r hr => (nomatch hr), fun r hr => (nomatch hr), fun r hr => (nomatch hr)⟩
  | snoc l e ih =>
    obtain ⟨hc1, -, hc2⟩ := List.pairwise_append.1 hc
    obtain ⟨hn, hne⟩ := hr
    rw [randomIds_append] at hn hne
    obtain ⟨hlog, hids, hst, htm⟩ := ih hc1 ⟨(List.nodup_append.1 hn).1, fun h => hne (List.mem_append_left _ h)⟩
    rw [idSteps_snoc, randomIds_append]
    generalize idSteps false name l = s at hlog hids hst htm ⊢
    rcases stepped_log false name s e with h | ⟨x, hx, hxt, hrun, hend, hoth⟩
    · rw [h]
      exact ⟨hlog, fun x hx ho => by obtain ⟨i, hi, h⟩ := hids x hx ho; exact ⟨i, List.mem_append_left _ hi, h⟩,
        fun i hi => List.mem_append_left _ (hst i hi), fun x hx => by obtain ⟨e', he', h⟩ := htm x hx; exact ⟨e', List.mem_append_left _ he', h⟩⟩
    · have hstart : OfAction name .run x → ∃ u, u ∈ randomIds [e] ∧ x.runId = some u ∧ (idStep false name s e).stack = s.stack ++ [u] := by
        intro hr
        obtain ⟨u, now, i, rfl, hi, hxi, hst'⟩ := hrun hr
        have hi : some u = some i := hi
        cases hi
        exact ⟨u, List.mem_singleton.2 rfl, hxi, hst'⟩
      have hxid : Of name x → ∃ i ∈ randomIds l ++ randomIds [e], x.runId = some i := by
        intro ho
        by_cases ha : x.action = .run
        · obtain ⟨u, hu, hxi, -⟩ := hstart ⟨ho, ha⟩
          exact ⟨u, List.mem_append_right _ hu, hxi⟩
        · obtain ⟨i, hi, hxi, -⟩ := hend ho ha
          exact ⟨i, List.mem_append_left _ (hst i hi), hxi⟩
      rw [hx]
      refine ⟨⟨?_, ?_, ?_⟩, ?_, ?_, ?_⟩
      · intro r hr ho
        rcases List.mem_append.1 hr with hr | hr
        · exact hlog.ids r hr ho
        · rw [List.mem_singleton.1 hr] at ho ⊢
          obtain ⟨i, hi, hxi⟩ := hxid ho
          rw [hxi]
          exact ⟨(fun h => nomatch h), fun h => hne (by cases h; exact hi)⟩
      · refine List.pairwise_append.2 ⟨hlog.ends, List.pairwise_singleton _ _, fun y hy z hz => ?_⟩
        rw [List.mem_singleton.1 hz]
        intro ho hr hid
        obtain ⟨u, hu, hxi, -⟩ := hstart hr
        obtain ⟨i, hi, hyi⟩ := hids y hy ho
        rw [hyi, hxi] at hid
        have hid : i = u := by injection hid
        exact absurd hid ((List.nodup_append.1 hn).2.2 i hi u hu)
      · refine List.pairwise_append.2 ⟨hlog.times, List.pairwise_singleton _ _, fun y hy z hz => ?_⟩
        rw [List.mem_singleton.1 hz]
        intro _ _ _
        obtain ⟨e', he', h⟩ := htm y hy
        rw [h, hxt]
        exact hc2 e' he' e (List.mem_singleton.2 rfl)
      · intro r hr ho
        rcases List.mem_append.1 hr with hr | hr
        · obtain ⟨i, hi, h⟩ := hids r hr ho
          exact ⟨i, List.mem_append_left _ hi, h⟩
        · rw [List.mem_singleton.1 hr] at ho ⊢
          exact hxid ho
      · intro i hi
        by_cases ho : Of name x
        · by_cases ha : x.action = .run
          · obtain ⟨u, hu, -, hs'⟩ := hstart ⟨ho, ha⟩
            rw [hs'] at hi
            rcases List.mem_append.1 hi with hi | hi
            · exact List.mem_append_left _ (hst i hi)
            · rw [List.mem_singleton.1 hi]
              exact List.mem_append_right _ hu
          · obtain ⟨j, -, -, hs'⟩ := hend ho ha
            rw [hs'] at hi
            exact List.mem_append_left _ (hst i (List.mem_filter.1 hi).1)
        · rw [hoth ho] at hi
          exact List.mem_append_left _ (hst i hi)
      · intro r hr
        rcases List.mem_append.1 hr with hr | hr
        · obtain ⟨e', he', h⟩ := htm r hr
          exact ⟨e', List.mem_append_left _ he', h⟩
        · rw [List.mem_singleton.1 hr]
          exact ⟨e, List.mem_append_right _ (List.mem_singleton.2 rfl), hxt⟩

/-- C118, as far as it holds for both functions: as long as no run is given the id of one that has ended, `running`
counts from the log exactly the runs that go on.  (`RunLog.ends`; C118_increment_violated shows that `increment` does so
at the second run already.) -/
theorem C118_unused_partial (inc : Bool) (name : String) (l : List IdEv) (hlog : RunLog name (idSteps inc name l).log)
    (s now : Int) (hspan : ∀ r ∈ (idSteps inc name l).log, s ≤ r.created ∧ r.created ≤ now) :
    runningCount true (idSteps inc name l).log name (s, now) = (idSteps inc name l).stack.length := by
  rw [C35_ids_partial _ name s now hlog (fun r hr _ => (hspan r hr).2)]
  have := congrArg List.length (C118_open inc name l)
  rw [List.length_map, List.length_map] at this
  rw [← this, List.filter_eq_self.2]
  exact fun r hr => decide_eq_true (hspan r (openRuns_mem hr)).1

example : RunLog "t" (idSteps true "t" [.starts "" 10, .starts "" 20, .ends "1" .success 30]).log ∧
    (idSteps true "t" [.starts "" 10, .starts "" 20, .ends "1" .success 30]).stack = ["2"] := by
  refine ⟨⟨?_, ?_, ?_⟩, by decide⟩
  · decide
  · decide
  · decide

/-- C118 with random ids (`func_run_id=uuid`, the default), as far as it holds: `running` counts from the log exactly the
runs that go on, in all histories in which the clock does not go back. -/
theorem C118_uuid_partial (name : String) (l : List IdEv) (hc : ClockOn l) (hr : Random l) (s now : Int)
    (hspan : ∀ e ∈ l, s ≤ eventTime e ∧ eventTime e ≤ now) :
    runningCount true (idSteps false name l).log name (s, now) = (idSteps false name l).stack.length := by
  obtain ⟨hlog, -, -, htm⟩ := random_log name l hc hr
  refine C118_unused_partial false name l hlog s now fun r hr => ?_
  obtain ⟨e, he, h⟩ := htm r hr
  rw [h]
  exact hspan e he

/-- Two runs that overlap, one that ended, and a record of another task. -/
def idHistory : List IdEv := [.starts "a" 10, .starts "b" 20, .ends "a" .success 30, .other ⟨"u", .fail, 35, 35, some "b"⟩, .starts "c" 40]

example : ClockOn idHistory ∧ Random idHistory ∧ (idSteps false "t" idHistory).stack = ["b", "c"] ∧
    runningCount true (idSteps false "t" idHistory).log "t" (0, 50) = 2 := by
  refine ⟨?_, ?_, by decide, by decide⟩
  · unfold ClockOn idHistory eventTime
    decide
  · exact ⟨by decide, by decide⟩

/-- What holds of the log of a task with incrementing ids. -/
theorem inc_log (name : String) (l : List IdEv) :
    (∀ r ∈ (idSteps true name l).log, OfAction name .run r → ∃ i, r.runId = some i ∧ i ≠ "" ∧ (i ∈ (idSteps true name l).stack ∨
        ∃ x ∈ (idSteps true name l).log, Of name x ∧ x.action ≠ .run ∧ x.runId = some i)) ∧
      (∀ r ∈ (idSteps true name l).log, Of name r →
        ∃ x ∈ (idSteps true name l).log, OfAction name .run x ∧ x.runId = some "1") := by
  induction l using snoc_ind with
  | nil => exact ⟨fun r hr => (nomatch hr), fun r hr => (nomatch hr)⟩
  | snoc l e ih =>
    have hopen := C118_open true name l
    rw [idSteps_snoc]
    generalize idSteps true name l = s at ih hopen ⊢
    obtain ⟨h1, h2⟩ := ih
    have hbusy : s.stack ≠ [] → ∃ r ∈ s.log, Of name r := by
      intro hs
      rcases ho : openRuns name s.log with _ | ⟨r, rest⟩
      · rw [ho] at hopen
        exact absurd (List.map_eq_nil_iff.1 hopen.symm) hs
      · have hm : r ∈ openRuns name s.log := by rw [ho]; exact List.mem_cons_self ..
        exact ⟨r, openRuns_mem hm, openRuns_of hm⟩
    rcases stepped_log true name s e with h | ⟨x, hx, -, hrun, hend, hoth⟩
    · rw [h]
      exact ⟨h1, h2⟩
    · have hnew : OfAction name .run x → ∃ i, x.runId = some i ∧ i ≠ "" ∧ (idStep true name s e).stack = s.stack ++ [i] ∧
          (s.stack = [] → i = "1") := by
        intro hr
        obtain ⟨u, now, i, -, hi, hxi, hst⟩ := hrun hr
        have hi : Session.increment (s.stack.map some) = some i := hi
        refine ⟨i, hxi, ?_, hst, ?_⟩
        · obtain ⟨k, -, hk, -⟩ := C51_least (s.stack.map some)
          rw [hi] at hk
          cases hk
          intro he
          have := congrArg String.length he
          simp at this
        · intro h0
          rw [h0] at hi
          have : Session.increment ([] : List (Option String)) = some "1" := by decide
          rw [List.map_nil, this] at hi
          cases hi
          rfl
      rw [hx]
      constructor
      · intro r hr ho
        rcases List.mem_append.1 hr with hr | hr
        · obtain ⟨i, hri, hne, h⟩ := h1 r hr ho
          refine ⟨i, hri, hne, ?_⟩
          rcases h with h | ⟨y, hy, h⟩
          · by_cases hox : Of name x
            · by_cases ha : x.action = .run
              · obtain ⟨j, -, -, hs, -⟩ := hnew ⟨hox, ha⟩
                rw [hs]
                exact .inl (List.mem_append_left _ h)
              · obtain ⟨j, -, hxj, hs⟩ := hend hox ha
                by_cases hij : i = j
                · exact .inr ⟨x, List.mem_append_right _ (List.mem_singleton.2 rfl), hox, ha, by rw [hxj, hij]⟩
                · rw [hs]
                  exact .inl (List.mem_filter.2 ⟨h, decide_eq_true hij⟩)
            · rw [hoth hox]
              exact .inl h
          · exact .inr ⟨y, List.mem_append_left _ hy, h⟩
        · rw [List.mem_singleton.1 hr] at ho ⊢
          obtain ⟨i, hxi, hne, hs, -⟩ := hnew ho
          refine ⟨i, hxi, hne, .inl ?_⟩
          rw [hs]
          exact List.mem_append_right _ (List.mem_singleton.2 rfl)
      · intro r hr ho
        have keep : (∃ r ∈ s.log, Of name r) → ∃ y ∈ s.log ++ [x], OfAction name .run y ∧ y.runId = some "1" := by
          rintro ⟨r, hr, ho⟩
          obtain ⟨y, hy, h⟩ := h2 r hr ho
          exact ⟨y, List.mem_append_left _ hy, h⟩
        rcases List.mem_append.1 hr with hr | hr
        · exact keep ⟨r, hr, ho⟩
        · rw [List.mem_singleton.1 hr] at ho
          by_cases hs : s.stack = []
          · by_cases ha : x.action = .run
            · obtain ⟨i, hxi, -, -, hi⟩ := hnew ⟨ho, ha⟩
              exact ⟨x, List.mem_append_right _ (List.mem_singleton.2 rfl), ⟨ho, ha⟩, by rw [hxi, hi hs]⟩
            · obtain ⟨j, hj, -⟩ := hend ho ha
              rw [hs] at hj
              exact nomatch hj
          · exact keep (hbusy hs)

/-- C118 is false with incrementing ids (`func_run_id=increment`): after any history of a task that has run before and
does not run now, a run that is started goes on and is not seen in the log: `running` counts none. -/
theorem C118_increment_violated (name : String) (l : List IdEv) (h0 : (idSteps true name l).stack = [])
    (hran : ∃ r ∈ (idSteps true name l).log, Of name r) (u : String) (now : Int) (s e : Int)
    (hspan : ∀ r ∈ (idSteps true name l).log, s ≤ r.created ∧ r.created ≤ e) :
    let st := idSteps true name (l ++ [.starts u now])
    st.stack = ["1"] ∧ runningCount true st.log name (s, e) = 0 := by
  obtain ⟨h1, h2⟩ := inc_log name l
  have hst : idSteps true name (l ++ [.starts u now]) =
      ⟨["1"], (idSteps true name l).log ++ [⟨name, .run, now, now, some "1"⟩]⟩ := by
    rw [idSteps_snoc]
    have hi : runId true (idSteps true name l) u = some "1" := by
      show Session.increment ((idSteps true name l).stack.map some) = some "1"
      rw [h0]
      decide
    simp only [idStep, hi, h0, List.nil_append]
  intro st
  have hst : st = _ := hst
  rw [hst]
  refine ⟨rfl, ?_⟩
  rw [runningCount_ids, List.length_eq_zero_iff, List.filter_eq_nil_iff]
  intro r hr
  rw [decide_eq_true_eq]
  rintro ⟨⟨ho, -, -⟩, hall⟩
  have hover : ∀ q ∈ (idSteps true name l).log, OfAction name .run q → q.runId = r.runId → False := by
    intro q hq hoq hid
    obtain ⟨i, hqi, hne, h⟩ := h1 q hq hoq
    rw [h0] at h
    rcases h with h | ⟨x, hx, hxo, hxa, hxi⟩
    · exact nomatch h
    · exact hxa (hall x (List.mem_append_left _ hx) hxo (hspan x hx).1 (hspan x hx).2 (by rw [hxi]; exact fun h => nomatch h)
        (by rw [hxi]; exact fun h => hne (by cases h; rfl)) (by rw [hxi, ← hqi, hid]))
  rcases List.mem_append.1 hr with hr | hr
  · exact hover r hr ho rfl
  · obtain ⟨q, hq, ho'⟩ := hran
    obtain ⟨y, hy, hyo, hyi⟩ := h2 q hq ho'
    refine hover y hy hyo ?_
    rw [List.mem_singleton.1 hr, hyi]

example : (idSteps true "t" [.starts "" 10, .ends "1" .success 20]).stack = [] ∧
    (idSteps true "t" [.starts "" 10, .ends "1" .success 20]).log ≠ [] ∧
    runningCount true (idSteps true "t" [.starts "" 10, .ends "1" .success 20, .starts "" 30]).log "t" (0, 100) = 0 ∧
    runningCount true (idSteps true "t" [.starts "" 10]).log "t" (0, 100) = 1 := by decide

/-- So the end condition `running.more_than(limit)` (C114) never ends such a run, however long it goes on. -/
theorem C118_endless_violated (name : String) (l : List IdEv) (h0 : (idSteps true name l).stack = [])
    (hran : ∃ r ∈ (idSteps true name l).log, Of name r) (htimes : ∀ r ∈ (idSteps true name l).log, MINT ≤ r.created)
    (u : String) (start : Int) (n : Nat) (limit now : Int) (hl : 0 ≤ limit) (hm : MINT ≤ now - limit)
    (hlate : ∀ r ∈ (idSteps true name l).log, r.created ≤ now - limit) (runs : List (Int × Bool)) :
    runningFor (n + 1) true true (some (runningPeriod (some limit) none)) now name runs
      (idSteps true name (l ++ [.starts u start])).log = .ok false := by
  unfold runningFor
  rw [more_than_span n now limit hl hm]
  simp only [if_true]
  rw [(C118_increment_violated name l h0 hran u start MINT (now - limit) (fun r hr => ⟨htimes r hr, hlate r hr⟩)).2]
  rfl

end Rocketry.Props
