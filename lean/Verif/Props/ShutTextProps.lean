import Verif.Spec.ShutTextSpec
import Verif.Props.DueProps
import Verif.Props.SilentProps
import Verif.Props.ServedProps
import Verif.Props.EndTextProps

/-!
# C115: the scheduler goes on exactly as long as what its shut text says does not hold
-/

namespace Rocketry.Props
open Spec Cond Sched

theorem hibernate_apply (w : World) : hibernate w = (.ok (), (choose w).2) := rfl

/-- A round of the loop whose shut condition could be evaluated. -/
theorem shuts_by {P : Prop} {b : Bool} (hP : b = true ↔ P) (n : Nat) (w : World) (hc : (w.env w.pos).cond = some b) :
    ShutsBy P w (serveLoop (n + 1) w) := by
  have hloop : serveLoop (n + 1) w = (if b = true then (pure () : M Unit)
      else do
        hibernate
        let s ← get
        if s.shutdown then pure ()
        else if s.restart then raise .restart
        else do
          runCycle
          serveLoop n) (choose w).2 := by
    rw [serveLoop, checkShutCond]
    simp only [bind_apply, choose, hc, pure_apply]
  refine ⟨fun h => ?_, fun h w2 h2 hs hr => ?_, fun h w2 h2 hf => ?_⟩
  · rw [hloop, if_pos (hP.2 h)]
    exact ⟨rfl, trace_events _ _⟩
  · rw [hloop, if_neg (fun hb => h (hP.1 hb)), bind_apply, h2]
    simp only [get_bind_apply, hs, hr, Bool.false_eq_true, if_false]
    have hg := steady_grows { w2 with trace := w2.trace ++ [.cycle] }
    have hc : Grows { w2 with trace := w2.trace ++ [.cycle] } (runCycle w2).2 := by
      rw [runCycle_split]
      refine (keeps_bind (keeps_forEach (fun n _ => keeps_inspectTask hg.toCalm (fun n => grows_launch _ n _) n)) (fun _ => ?_) :
        Keeps (Grows { w2 with trace := w2.trace ++ [.cycle] }) _) _ (.refl _)
      exact keeps_bind (keeps_handleLogs hg.toCalm) (fun _ => keeps_bind (keeps_checkThreadErrors hg.toCalm)
        (fun _ => keeps_bind (keeps_setCycles hg.toCalm _) (fun _ => keeps_note hg.toCalm rfl)))
    have hall : Grows { w2 with trace := w2.trace ++ [.cycle] } ((runCycle >>= fun _ => serveLoop n) w2).2 := by
      rw [bind_apply]
      rcases hrun : runCycle w2 with ⟨r, w3⟩
      rw [hrun] at hc
      cases r with
      | ok _ => exact keeps_serveLoop hg (grows_launch _) n w3 hc
      | raise e => exact hc
      | cut => exact hc
    obtain ⟨o, ho⟩ := hall.trace
    exact ⟨o, by rw [← ho]; simp⟩
  · rw [hloop, if_neg (fun hb => h (hP.1 hb)), bind_apply, h2]
    simp only [get_bind_apply]
    rcases hf with hf | hf
    · simp only [hf, if_true, pure_apply]
    · by_cases hs : w2.st.shutdown = true
      · simp only [hs, if_true, pure_apply]
      · simp only [hs, hf, if_true]
        rfl

/-- C115, one round of the loop, shut conditions given as texts: the situation is kept, the phrases of the text are written
out and can be answered; the answer of the environment to the question for the shut condition is the observation of the
condition that the text is read as. -/
theorem C115_text_partial (lib : TextLib) (strLeaf : Char → Builtin) (v : Sit) (hk : v.Kept) (e : Written) (he : e.Proper)
    (sayingOf : Txt → Saying)
    (hw : ∀ w ∈ e.words, (sayingOf w).phrase.text = w ∧ (sayingOf w).Proper ∧ v.Ready (sayingOf w)) :
    ∃ c, parseCondition strLeaf (parseCondItem (readTime lib)) e.text = .ok c ∧ ∃ N, ∀ fuel, N ≤ fuel →
      ∀ (n : Nat) (w : World), (w.env w.pos).cond = answered (observe (v.obs fuel) c ()).1 →
        ShutsBy (e.Holds (fun x => v.Says (sayingOf x))) w (serveLoop (n + 1) w) := by
  obtain ⟨c, hc, N, hN⟩ := C65_text_partial lib strLeaf v hk e he sayingOf hw
  refine ⟨c, hc, N, fun fuel hf n w henv => ?_⟩
  obtain ⟨b, hb, hiff⟩ := hN fuel hf
  rw [hb] at henv
  exact shuts_by hiff n w henv

/-- The situation of the session in a history of a program is one that the session has kept. -/
theorem session_kept (S : Setup) (hp : ∀ n, S.isProc n = false ∨ S.drained = true) {es : List Ev} {h : HState} (hh : Hist S es h)
    {v : Sit} (hv : SessionAt v S.fromLogs h.log h.clock) (hcold : ∀ n ∈ v.tasks, h.cold n = false) : v.Kept where
  self := fun n hn => by rw [hv.self] at hn; cases hn
  first := hv.first
  last := hv.last
  times := fun r hr => by
    have h1 := hv.times r hr
    rw [hv.repo] at hr
    have h2 := (hinv S "" (hp "") hh).times r (by simp [HState.all, hr])
    have h3 := hv.clock
    exact ⟨h1, h2.1, by omega⟩
  ordered := fun n => by
    rw [hv.repo]
    have hi := hinv S n (hp n) hh
    refine (List.pairwise_append.1 hi.ordered).1.imp_of_mem (fun {r s} _ hs h h1 h2 => ?_)
    have := h h1 h2
    have := (hi.times s (by simp [HState.all, hs])).1
    omega
  cache := fun _ n hn => by
    have := (hinv S n (hp n) hh).cache (hcold n hn)
    rw [hv.mem, hv.repo]
    exact this
  runs := hv.runs
  log := hv.log
  params := hv.params

/-- C115: at every point of every execution of the scheduler, however often it is started, at which the shut text is checked:
the loop ends if what the text says holds for the log and the clock; otherwise a cycle begins, unless a shutdown or restart was
requested.  Missing: phrases about an own task (`C115_own_violated`); the clock stands still while the condition is observed;
phrases as in C65; tasks in child processes only when their records are taken from the queue before checks. -/
theorem C115_execution_partial (lib : TextLib) (strLeaf : Char → Builtin) (S : Setup) (hproc : ∀ n, S.isProc n = false ∨ S.drained = true)
    (K : String → Sched.Exec) (R : Nat) (s : Sys) (hs : Managed K s) (env : Nat → Choice) (hrel : ∀ i, Reliable (env i)) (ks : List Nat)
    (w : World) (tr : List Obs) (hafter : tr <+: (choose w).2.trace)
    (hreach : (choose w).2.trace <+: (sessions ks (World.init s env)).2.trace)
    {es : List Ev} {h : HState} (hc : Coupled S K R tr es h) (v : Sit) (hv : SessionAt v S.fromLogs h.log h.clock)
    (hcached : ∀ n ∈ v.tasks, Obs.cached n ∈ tr) (e : Written) (he : e.Proper) (sayingOf : Txt → Saying)
    (hw : ∀ w ∈ e.words, (sayingOf w).phrase.text = w ∧ (sayingOf w).Proper ∧ v.Ready (sayingOf w)) :
    ∃ c, parseCondition strLeaf (parseCondItem (readTime lib)) e.text = .ok c ∧ ∃ N, ∀ fuel, N ≤ fuel → ∀ n,
      (w.env w.pos).cond = answered (observe (v.obs fuel) c ()).1 →
        ShutsBy (e.Holds (fun x => v.Says (sayingOf x))) w (serveLoop (n + 1) w) := by
  obtain ⟨rest, hrest⟩ := hafter.trans hreach
  have ho := C69_orderly K s hs.names hs.execution hs.single hs.stack env hrel ks
  have hpr := C69_prepared K s hs env hrel ks
  rw [← hrest] at ho hpr
  have hi := coupled_inv hc (orderly_prefix ho) (prepared_prefix hpr)
  have hk := session_kept S hproc hi.hist hv (fun n hn => (hi.cold n).1 (hcached n hn))
  obtain ⟨c, h1, N, h2⟩ := C115_text_partial lib strLeaf v hk e he sayingOf hw
  exact ⟨c, h1, N, fun fuel hf n => h2 fuel hf n w⟩

/-! ## Phrases about an own task -/

theorem statusNone_error (v : Sit) (fuel : Nat) (p : Option Period) : ∃ x, v.statusNone fuel p = .error x := by
  cases p with
  | none => exact ⟨_, rfl⟩
  | some p =>
    unfold Sit.statusNone
    simp only
    split <;> exact ⟨_, rfl⟩

theorem statusOwn_error (v : Sit) (hs : v.self = none) (fuel : Nat) (vb : Verb) (p : Option Period) (comps : Comps) :
    ∃ x, v.leaf fuel (.status vb none p comps) = .error x := by
  obtain ⟨x, hx⟩ := statusNone_error v fuel p
  exact ⟨x, by simp only [Sit.leaf, Sit.status, hs, hx]⟩

theorem depend_error (v : Sit) (hs : v.self = none) (fuel : Nat) (k : DepKind) (t : Txt) : ∃ x, v.leaf fuel (.depend k t) = .error x := by
  simp only [Sit.leaf, Sit.depend, Sit.lookup, hs]
  split <;> exact ⟨_, rfl⟩

theorem executableOwn_error (v : Sit) (hs : v.self = none) (fuel : Nat) (a : Anchored) (h : v.leaf fuel (.isPeriod a) = .ok true) :
    ∃ x, v.executable fuel (.anchored a) = .error x := by
  obtain ⟨x, hx⟩ := statusNone_error v fuel (some (.anchored a))
  refine ⟨x, ?_⟩
  simp only [Sit.leaf] at h
  simp [Sit.executable, hs, isinPeriod, Period.isDelta, h, andThen, hx]

/-- Without a task whose condition it is, a phrase about that task cannot be observed. -/
theorem own_error (lib : TextLib) (v : Sit) (hs : v.self = none) (s : Saying) (hp : s.Proper) (ho : AboutOwn v s) :
    ∃ c, s.phrase.meaning (valOf lib) = .ok c ∧ ∃ N, ∀ fuel, N ≤ fuel → ∃ x, observe (v.obs fuel) c () = (.error x, ()) := by
  have leaf : ∀ l, (∃ N, ∀ fuel, N ≤ fuel → ∃ x, v.leaf fuel l = .error x) →
      ∃ N, ∀ fuel, N ≤ fuel → ∃ x, observe (v.obs fuel) (.leaf l) () = (.error x, ()) := by
    rintro l ⟨N, h⟩
    refine ⟨N, fun fuel hf => ?_⟩
    obtain ⟨x, hx⟩ := h fuel hf
    exact ⟨x, by simp only [observe, Sit.obs, hx]⟩
  cases s with
  | has task vb =>
    cases (ho : task = none)
    exact ⟨_, rfl, leaf _ ⟨0, fun fuel _ => statusOwn_error v hs fuel _ _ _⟩⟩
  | hasIn task vb sc w =>
    cases (ho : task = none)
    obtain ⟨_, h2, h3, h4, _, _⟩ := hp
    exact ⟨_, by simp only [Saying.phrase, Phrase.meaning, part_meaning lib (cyclic_ne_year (h3.imp id And.left)) w h2]; rfl,
      leaf _ ⟨0, fun fuel _ => statusOwn_error v hs fuel _ _ _⟩⟩
  | hasPast task vb inn d us =>
    cases (ho : task = none)
    exact ⟨_, by simp only [Saying.phrase, Phrase.meaning, span_lasts hp.2]; rfl,
      leaf _ ⟨0, fun fuel _ => statusOwn_error v hs fuel _ _ _⟩⟩
  | exec sc w =>
    obtain ⟨h1, h2⟩ := hp
    refine ⟨_, by simp only [Saying.phrase, Phrase.meaning, part_meaning lib (cyclic_ne_year (h2.imp id And.left)) w h1]; rfl, ?_⟩
    have hin : Answers v (.isPeriod ⟨sc, (w.span sc).1, (w.span sc).2⟩) (v.Says (.timeOf sc w)) := by
      rcases h2 with h2 | ⟨rfl, _⟩
      · exact timeOf_answers w h1 h2
      · exact timeOf_month w
    obtain ⟨N, hN⟩ := hin
    refine leaf _ ⟨N, fun fuel hf => ?_⟩
    obtain ⟨b, hb, hiff⟩ := hN fuel hf
    rw [hiff.2 ho] at hb
    exact executableOwn_error v hs fuel _ hb
  | every d us =>
    exact ⟨_, by simp only [Saying.phrase, Phrase.meaning, span_lasts hp]; rfl,
      leaf _ ⟨0, fun fuel _ => statusOwn_error v hs fuel _ _ _⟩⟩
  | afterTask t k said =>
    exact ⟨_, rfl, leaf _ ⟨0, fun fuel _ => depend_error v hs fuel k t⟩⟩
  | afterTasks isAny ts k said =>
    refine ⟨_, rfl, 0, fun fuel _ => ?_⟩
    obtain ⟨t, ts, rfl⟩ := List.exists_cons_of_ne_nil hp.1
    obtain ⟨x, hx⟩ := depend_error v hs fuel k t
    refine ⟨x, ?_⟩
    cases isAny with
    | true => simp only [if_true, observe, List.map_cons, observe.observeAny, Sit.obs, hx]
    | false => simp only [Bool.false_eq_true, if_false, observe, List.map_cons, observe.observeAll, Sit.obs, hx]
  | timeOf _ _ => exact ho.elim
  | cron _ => exact ho.elim
  | running _ _ => exact ho.elim
  | env _ => exact ho.elim
  | schedOver _ _ => exact ho.elim
  | schedAgo _ _ => exact ho.elim
  | schedMore _ => exact ho.elim
  | schedLess _ => exact ho.elim
  | schedCycles _ => exact ho.elim
  | const _ _ => exact ho.elim

/-- C115 is false for phrases about an own task: `shut_cond="after task 'report'"`, `"daily"` or `"every 1 hour"` is accepted, but
there is no task whose condition it is; the first check raises, whatever has happened, before any cycle begins. -/
theorem C115_own_violated (lib : TextLib) (strLeaf : Char → Builtin) (v : Sit) (hs : v.self = none) (s : Saying) (hp : s.Proper)
    (ho : AboutOwn v s) (pre post : Txt) (he : (Written.item pre s.phrase.text post).Proper) :
    ∃ c, parseCondition strLeaf (parseCondItem (readTime lib)) (Written.item pre s.phrase.text post).text = .ok c ∧
      ∃ N, ∀ fuel, N ≤ fuel → ∀ (n : Nat) (w : World), (w.env w.pos).cond = answered (observe (v.obs fuel) c ()).1 →
        (serveLoop (n + 1) w).1 = .raise .other ∧
          (serveLoop (n + 1) w).2.trace = w.trace ++ (w.env w.pos).events.map Obs.env := by
  obtain ⟨m, hm, N, hN⟩ := own_error lib v hs s hp ho
  have hg : ∀ fuel b, v.obs fuel b.resolve = v.obs fuel b := by
    intro fuel b; cases b <;> rfl
  obtain ⟨g1, g2, g3, g4⟩ := saying_phrase lib s hp
  have htext := fun fuel => C60_text_partial (read := readTime lib) (val := valOf lib) strLeaf (v.obs fuel) (hg fuel)
    (.item pre s.phrase.text post) he (fun _ => s.phrase) (fun w hw => by
      simp only [Written.words, List.mem_singleton] at hw
      subst hw
      exact ⟨rfl, g1, g2, g3, g4, m, hm⟩)
  obtain ⟨c, hc, _⟩ := htext 0
  refine ⟨c, hc, N, fun fuel hf n w henv => ?_⟩
  obtain ⟨c', hc', hobs⟩ := htext fuel
  cases hc.symm.trans hc'
  obtain ⟨x, hx⟩ := hN fuel hf
  have : (observe (v.obs fuel) c ()).1 = .error x := by
    rw [hobs]
    simp only [Written.expr, CExpr.eval, phraseObs, hm, hx]
  rw [this] at henv
  have hl : serveLoop (n + 1) w = (.raise .other, (choose w).2) := by
    rw [serveLoop, checkShutCond]
    simp only [bind_apply, choose, henv, answered]
    rfl
  rw [hl]
  exact ⟨rfl, trace_events _ _⟩

/-! ## Cases -/

/-- `oneTask` again; the check of the shut condition after the first cycle finds it true. -/
def shutEnv (i : Nat) : Choice := quiet (decide (i = 1 ∨ i = 7 ∨ i = 11))

theorem shutEnv_trace : (sessions [3, 3] (World.init oneTask shutEnv)).2.trace =
    [.serve, .cached "t", .shutdown, .serve, .cached "t", .cycle, .inspected "t", .checked "t" false (some true), .started "t" 0 .cycle,
      .cycleDone, .shutdown] := by decide +kernel

/-- The moment of that check. -/
def shutMoment : World := ⟨{ sessionOf 1 false [running0] with nextId := 1, nCycles := 1 }, shutEnv, 11, [], endMoment.trace ++ [.cycleDone]⟩

/-- The shut text `task 't' has started`. -/
def startedText : Written := .item [] c!"task 't' has started" []

/-- The hypotheses of `C115_execution_partial` are met at this moment of an execution: the task has been started, the loop ends. -/
example (lib : TextLib) (strLeaf : Char → Builtin) : (serveLoop 2 shutMoment).1 = .ok () ∧
    (serveLoop 2 shutMoment).2.trace = shutMoment.trace := by
  have hproper : startedText.Proper := by simp [startedText, Written.Proper, Written.Word, Written.Blank]
  obtain ⟨es, hs, c5, hclock, hrepo, hcold⟩ := endMoment_coupled
  have c6 := coupled_aside c5 .cycleDone rfl
  let v : Sit := { firstNoon with mem := hs.log.mem, repo := hs.log.repo, self := none }
  have hv : SessionAt v everyDay.fromLogs hs.log hs.clock := by
    refine ⟨rfl, rfl, rfl, rfl, hclock, (by decide +kernel : firstNoon.now ≤ MAXT), fun r hr => ?_,
      (by decide +kernel : MINT ≤ firstNoon.now), by simp [v, firstNoon], by simp [v, firstNoon], by simp [v, firstNoon]⟩
    have hr : r ∈ hs.log.repo := hr
    rw [hrepo, List.mem_singleton] at hr
    rw [hr]
    decide +kernel
  have hw : ∀ w ∈ startedText.words, (Saying.has (some c!"t") .started).phrase.text = w ∧ (Saying.has (some c!"t") .started).Proper ∧
      v.Ready (.has (some c!"t") .started) := by
    intro w hm
    simp only [startedText, Written.words, List.mem_singleton] at hm
    subst hm
    exact ⟨by decide +kernel, by simp [Saying.Proper, WhoProper, Arg], "t", rfl, by simp [v, firstNoon],
      by simp [v, firstNoon, PlainStart]⟩
  have hholds : startedText.Holds (fun _ => v.Says (.has (some c!"t") .started)) :=
    ⟨"t", rfl, ⟨"t", .run, 738000 * DAY + 4, 738000 * DAY + 4, none⟩, by simp [v, hrepo], rfl, by decide, trivial⟩
  have hreach : (choose shutMoment).2.trace <+: (sessions [3, 3] (World.init oneTask shutEnv)).2.trace := by
    rw [shutEnv_trace]
    exact ⟨_, rfl⟩
  have hrel : ∀ i, Reliable (shutEnv i) := fun i => ⟨by simp [shutEnv, quiet], by simp [shutEnv, quiet], by simp [shutEnv, quiet]⟩
  obtain ⟨c, hc, N, h⟩ := C115_execution_partial lib strLeaf everyDay (fun _ => .inl rfl) (fun _ => .async) 1 oneTask oneTask_managed
    shutEnv hrel [3, 3] shutMoment shutMoment.trace ⟨[], by decide⟩ hreach c6 v hv
    (by simp [v, firstNoon, shutMoment, endMoment]) startedText hproper (fun _ => .has (some c!"t") .started) hw
  obtain ⟨c', hc', N', h'⟩ := C65_text_partial lib strLeaf v (session_kept everyDay (fun _ => .inl rfl)
    (C69_history_partial everyDay _ 1 oneTask oneTask_managed shutEnv hrel [3, 3] hreach c6) hv
      (by simpa [v, firstNoon] using hcold)) startedText hproper (fun _ => .has (some c!"t") .started) hw
  cases hc.symm.trans hc'
  obtain ⟨b, hb, hiff⟩ := h' (max N N') (Nat.le_max_right _ _)
  obtain ⟨h1, h2⟩ := (h (max N N') (Nat.le_max_left _ _) 1 (by rw [hb, hiff.2 hholds]; rfl)).stops hholds
  exact ⟨h1, by rw [h2]; rfl⟩

/-- With the text `after task 't'` the check raises. -/
example (lib : TextLib) (strLeaf : Char → Builtin) : ∃ c, parseCondition strLeaf (parseCondItem (readTime lib)) c!"after task 't'" = .ok c ∧
    ∃ N, ∀ fuel, N ≤ fuel → ∀ (n : Nat) (w : World),
      (w.env w.pos).cond = answered (observe (({ firstNoon with self := none } : Sit).obs fuel) c ()).1 →
        (serveLoop (n + 1) w).1 = .raise .other := by
  obtain ⟨c, hc, N, h⟩ := C115_own_violated lib strLeaf { firstNoon with self := none } rfl (.afterTask c!"t" .success false)
    (by simp [Saying.Proper, Arg]) trivial [] []
    (by simp [Written.Proper, Written.Word, Written.Blank, Saying.phrase, Phrase.text, outcomeText])
  exact ⟨c, hc, N, fun fuel hf n w hw => (h fuel hf n w hw).1⟩

end Rocketry.Props
