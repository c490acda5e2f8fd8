import Verif.Spec.MaintainSpec
import Verif.Sched.Emits
import Verif.Props.StartProps

/-!
# C120: a task that calls for the end of the scheduler ends it at once
-/

namespace Rocketry.Props
open Spec Sched

variable {α β : Type} {P : Obs → Prop}

/-! ### exceptions go up -/

theorem bind_raise {m : M α} {k : α → M β} {w w' : World} {e : Exc} (h : m w = (.raise e, w')) : (m >>= k) w = (.raise e, w') := by
  rw [bind_apply, h]

theorem bind_done {m : M α} {k : α → M β} {w w' : World} {a : α} (h : m w = (.ok a, w')) : (m >>= k) w = k a w' := by
  rw [bind_apply, h]

theorem forEach_raise {f : α → M Unit} {x : α} {post : List α} {e : Exc} : ∀ {pre : List α} {w w1 w2 : World},
    forEach pre f w = (.ok (), w1) → f x w1 = (.raise e, w2) → forEach (pre ++ x :: post) f w = (.raise e, w2)
  | [], w, w1, w2, h1, h2 => by
    cases h1
    exact bind_raise h2
  | y :: pre, w, w1, w2, h1, h2 => by
    show (f y >>= fun _ => forEach (pre ++ x :: post) f) w = _
    have h : (f y >>= fun _ => forEach pre f) w = (.ok (), w1) := h1
    rw [bind_apply] at h ⊢
    rcases hr : f y w with ⟨r, w'⟩
    rw [hr] at h
    cases r with
    | ok a => exact forEach_raise h h2
    | raise e' => cases h
    | cut => cases h

/-! ### the run -/

theorem happen_fold_trace : ∀ (l : List EnvEv) (w : World), (l.foldl World.happen w).trace = w.trace ++ l.map Obs.env
  | [], w => by simp
  | e :: l, w => by
    rw [List.foldl_cons, happen_fold_trace l, List.map_cons]
    show w.trace ++ [Obs.env e] ++ _ = _
    rw [List.append_assoc]; rfl

theorem happen_fold_pos : ∀ (l : List EnvEv) (w : World), (l.foldl World.happen w).pos = w.pos
  | [], _ => rfl
  | e :: l, w => by rw [List.foldl_cons, happen_fold_pos l]; rfl

theorem happen_fold_env : ∀ (l : List EnvEv) (w : World), (l.foldl World.happen w).env = w.env
  | [], _ => rfl
  | e :: l, w => by rw [List.foldl_cons, happen_fold_env l]; rfl

theorem choose_says (w : World) : ∃ w1, choose w = (.ok (w.env w.pos), w1) ∧ w1.env = w.env ∧ w1.pos = w.pos + 1 ∧
    w1.trace = w.trace ++ (w.env w.pos).events.map Obs.env := by
  refine ⟨_, rfl, ?_, ?_, ?_⟩
  · rw [happen_fold_env]
  · rw [happen_fold_pos]
  · rw [happen_fold_trace]

theorem popBatch_says (t : TaskSt) (w : World) : ∃ w1, popBatch t w = (.ok (), w1) ∧ w1.env = w.env ∧ w1.pos = w.pos ∧
    ∃ o, w1.trace = w.trace ++ o ∧ ∀ x ∈ o, ∃ b, x = .popped t.name b := by
  unfold popBatch
  cases t.batches with
  | nil => exact ⟨w, rfl, rfl, rfl, [], by simp, by simp⟩
  | cons b l => exact ⟨_, rfl, rfl, rfl, [.popped t.name b], rfl, by simp⟩

/-- The run ends with what the task raises, and then nothing else has happened. -/
theorem startAsync_call {name : String} {part : Part} {e : Exc} (he : IsCall e) {w : World} (h : RunsAndRaises name e w) :
    ∃ w' id o, startAsync name part w = (.raise e, w') ∧ w'.trace = w.trace ++ o ++ [.mainEnded name id] ∧
      .started name id part ∈ o ∧ ∀ x ∈ o, OfRun name part x := by
  obtain ⟨hc, hd, t, hf, hm⟩ := h
  obtain ⟨w1, h1, env1, pos1, tr1⟩ := choose_says w
  rw [h1] at hf
  dsimp only at hf
  have hname : t.name = name := by
    have := List.find?_some hf
    simpa using this
  obtain ⟨w2, h2, env2, pos2, o2, tr2, ho2⟩ := popBatch_says t w1
  let w3 : World := { w2 with
    st := { w2.st.upd name (fun t => { t with stack := t.stack ++ [⟨w2.st.nextId, .main, (w.env w.pos).time, true, false⟩] }) with nextId := w2.st.nextId + 1 }
    hist := w2.st :: w2.hist, trace := w2.trace ++ [.started name w2.st.nextId part] }
  have h3 : pushRun name .main (w.env w.pos).time part w2 = (.ok w2.st.nextId, w3) := rfl
  obtain ⟨w4, h4, env4, pos4, tr4⟩ := choose_says w3
  have e3 : w3.env w3.pos = w.env (w.pos + 1) := by
    show w2.env w2.pos = _
    rw [env2, pos2, env1, pos1]
  rw [e3] at h4 tr4
  refine ⟨((do emit (.mainEnded name w2.st.nextId); dropMain name false) w4).2, w2.st.nextId,
    (w.env w.pos).events.map Obs.env ++ o2 ++ [.started name w2.st.nextId part] ++ (w.env (w.pos + 1)).events.map Obs.env,
    ?_, ?_, ?_, ?_⟩
  · unfold startAsync
    rw [bind_done h1, get_bind_apply, hf]
    dsimp only
    rw [hc, if_neg (by simp), bind_done h2, if_neg (by simp), hm, bind_done h3]
    unfold runOn
    dsimp only
    rw [if_neg (by simp), bind_done h4, hd]
    rcases he with he | he <;> subst he <;> rfl
  · show w4.trace ++ [Obs.mainEnded name w2.st.nextId] = _
    have tr3 : w3.trace = w2.trace ++ [.started name w2.st.nextId part] := rfl
    rw [tr4, tr3, tr2, tr1]
    simp only [List.append_assoc]
  · simp
  · intro x hx
    simp only [List.mem_append, List.mem_map, List.mem_singleton] at hx
    rcases hx with ((⟨v, _, rfl⟩ | hx) | rfl) | ⟨v, _, rfl⟩
    · trivial
    · obtain ⟨b, rfl⟩ := ho2 x hx
      exact hname
    · exact ⟨rfl, rfl⟩
    · trivial

/-- It is not silenced. -/
theorem runTask_call {name : String} {part : Part} {e : Exc} (he : IsCall e) {w w' : World}
    (h : startAsync name part w = (.raise e, w')) : runTask name part w = (.raise e, w') := by
  unfold runTask Sched.tryCatch
  rw [h]
  rcases he with he | he <;> subst he <;> rfl

/-- C120, the cycle.  When a task that raises SchedulerExit or SchedulerRestart has come up in a cycle and is started in
the main process, the cycle is over with the end of its run, with this exception: no task that would have come next is
looked at, nothing is started and no run is terminated.  Missing: tasks of the other kinds of execution, for which it
is false (`C120_elsewhere_violated`). -/
theorem C120_cycle_partial (name : String) (post : List String) (e : Exc) (he : IsCall e) (w w' : World)
    (hc : ComesUp name post w w') (hr : RunsAndRaises name e w') :
    ∃ w4 id o, runCycle w = (.raise e, w4) ∧ w4.trace = w'.trace ++ o ++ [.mainEnded name id] ∧
      .started name id .cycle ∈ o ∧ ∀ x ∈ o, OfRun name .cycle x := by
  obtain ⟨pre, w1, w2, t, sorted, before, look, found, normal, enabled, runnable⟩ := hc
  obtain ⟨w4, id, o, h1, h2, h3, h4⟩ := startAsync_call (part := .cycle) he hr
  refine ⟨w4, id, o, ?_, h2, h3, h4⟩
  have hl : launch name .cycle w2 = (.raise e, w4) := by
    unfold launch
    rw [bind_done runnable, if_pos rfl]
    exact runTask_call he h1
  have hco : consider name w2 = (.raise e, w4) := by
    unfold consider
    rw [get_bind_apply, found]
    dsimp only
    rw [normal.1, normal.2, if_neg (by simp), if_pos enabled]
    exact hl
  have hi : inspectTask name w1 = (.raise e, w4) := by
    unfold inspectTask
    have hlook : (emit (.inspected name) >>= fun _ => handleLogs >>= fun _ => cleanRunStack name) w1 = (.ok (), w2) := look
    rw [bind_apply] at hlook ⊢
    rcases ha : emit (.inspected name) w1 with ⟨ra, wa⟩
    rw [ha] at hlook
    cases ra with
    | raise x => cases hlook
    | cut => cases hlook
    | ok a =>
      dsimp only at hlook ⊢
      rw [bind_apply] at hlook ⊢
      rcases hb : handleLogs wa with ⟨rb, wb⟩
      rw [hb] at hlook
      cases rb with
      | raise x => cases hlook
      | cut => cases hlook
      | ok b =>
        dsimp only at hlook ⊢
        rw [bind_done hlook]
        exact bind_raise hco
  unfold runCycle
  rw [get_bind_apply]
  have hb : (emit .cycle >>= fun _ => forEach pre inspectTask) w = (.ok (), w1) := before
  rw [bind_apply] at hb ⊢
  rcases ha : emit Obs.cycle w with ⟨ra, wa⟩
  rw [ha] at hb
  cases ra with
  | raise x => cases hb
  | cut => cases hb
  | ok a =>
    dsimp only at hb ⊢
    rw [sorted]
    exact bind_raise (forEach_raise hb hi)

theorem serveLoop_raise {n m : Nat} {w w' w2 w3 : World} {e : Exc} (hl : LoopsTo n w (m + 1) w') (hb : RoundBegins w' w2)
    (hr : runCycle w2 = (.raise e, w3)) : serveLoop n w = (.raise e, w3) := by
  generalize hk : m + 1 = k at hl
  induction hl with
  | here n w =>
    subst hk
    obtain ⟨w1, h1, h2, h3, h4⟩ := hb
    unfold serveLoop
    rw [bind_done h1, if_neg (by simp), bind_done h2, get_bind_apply, h3, h4, if_neg (by simp), if_neg (by simp)]
    exact bind_raise hr
  | round h1 h2 h3 h4 _ ih =>
    unfold serveLoop
    rw [bind_done h1, if_neg (by simp), bind_done h2, get_bind_apply, h3.1, h3.2, if_neg (by simp), if_neg (by simp), bind_done h4]
    exact ih hb hk

/-! ### the shutdown -/

theorem wind_cut : Emits P (cut : M α) := emits_same (fun _ => rfl)

theorem wind_finally {m q : M Unit} (hm : Emits P m) (hq : Emits P q) : Emits P (Sched.tryFinally m q) := by
  intro w
  unfold Sched.tryFinally
  obtain ⟨o, ho, hp⟩ := hm w
  rcases hr : m w with ⟨r, w'⟩
  rw [hr] at ho
  dsimp only at ho
  obtain ⟨o', ho', hp'⟩ := hq w'
  rcases hr' : q w' with ⟨r', w''⟩
  rw [hr'] at ho'
  dsimp only at ho'
  have both : ∃ o, w''.trace = w.trace ++ o ∧ ∀ x ∈ o, P x :=
    ⟨o ++ o', by rw [ho', ho, List.append_assoc], fun x hx => (List.mem_append.1 hx).elim (hp x) (hp' x)⟩
  cases r with
  | cut => exact ⟨o, ho, hp⟩
  | ok a => cases r' <;> simpa only [hr'] using both
  | raise x => cases r' <;> simpa only [hr'] using both

theorem winding_startAsync (name : String) : Emits Winding (startAsync name .shutdown) := by
  unfold startAsync
  refine emits_bind (emits_choose (fun _ => trivial)) (fun c => emits_bind emits_get (fun s => ?_))
  split
  · exact emits_raise _
  · rename_i t _
    refine emits_ite (emits_bind (emits_emit trivial) (fun _ => emits_raise _)) (emits_bind ?_ (fun _ =>
      emits_ite (emits_bind (emits_emit trivial) (fun _ => emits_raise _)) (emits_bind ?_ (fun id => ?_))))
    · unfold popBatch
      split
      · exact emits_pure _
      · exact emits_bind (emits_change _ _) (fun _ => emits_emit trivial)
    · unfold pushRun
      exact emits_bind emits_get (fun s => emits_bind (emits_put _) (fun _ => emits_bind (emits_emit rfl) (fun _ => emits_pure _)))
    · exact emits_runOn (fun _ => trivial) name id _ _ trivial

theorem winding_launch (name : String) : Emits Winding (launch name .shutdown) := by
  unfold launch
  refine emits_bind (emits_isTaskRunnable (fun _ => trivial) name (fun _ _ => trivial)) (fun b => emits_ite ?_ (emits_pure _))
  unfold runTask
  refine emits_tryCatch (winding_startAsync name) (fun e => emits_bind emits_get (fun s => ?_))
  split
  · exact emits_ite (emits_pure _) (emits_raise _)
  · exact emits_ite (emits_pure _) (emits_raise _)
  · exact emits_raise _

theorem winding_runShutdownTasks : Emits Winding runShutdownTasks := by
  unfold runShutdownTasks
  refine emits_bind emits_get (fun s => emits_forEach (fun t _ => emits_ite ?_ (emits_pure _)))
  unfold startSpecial
  refine emits_bind ?_ (fun _ => winding_launch _)
  unfold requestFirst
  refine emits_ite (emits_bind emits_get (fun s => ?_)) (emits_pure _)
  split
  · exact emits_pure _
  · refine emits_ite (emits_pure _) (fun w => ⟨[_], rfl, fun x hx => ?_⟩)
    rw [List.mem_singleton.1 hx]; trivial

theorem winding_schedTerminateAll : Emits Winding schedTerminateAll := by
  unfold schedTerminateAll
  refine emits_bind emits_get (fun s => emits_forEach (fun n _ => ?_))
  unfold terminateIfAlive
  refine emits_bind emits_get (fun s => ?_)
  split
  · exact emits_pure _
  · exact emits_ite (emits_terminateAll (fun _ => trivial) _ (fun _ => trivial)) (emits_pure _)

/-- After SchedulerExit running tasks are terminated without being waited for. -/
theorem exit_terminates (n : Nat) : shutDownTasks (n + 1) (some .exit) = schedTerminateAll := by
  funext w
  unfold shutDownTasks
  rw [get_bind_apply, if_neg]
  unfold waitForFinish
  simp

theorem winding_shutDownTasks (n : Nat) : Emits Winding (shutDownTasks n (some .exit)) := by
  cases n with
  | zero => unfold shutDownTasks; exact wind_cut
  | succ n => rw [exit_terminates]; exact winding_schedTerminateAll

theorem winding_waitAlive : ∀ n, Emits Winding (waitAlive n)
  | 0 => wind_cut
  | n + 1 => by
    unfold waitAlive
    refine emits_bind emits_get (fun s => emits_ite (emits_bind ?_ (fun _ => winding_waitAlive n)) (emits_pure _))
    unfold hibernate
    exact emits_bind (emits_choose (fun _ => trivial)) (fun _ => emits_pure _)

/-- What is seen after the word `shutdown`. -/
theorem winding_shutDown (again : M Unit) (n : Nat) (w : World) :
    ∃ o, (shutDown again n (some .exit) w).2.trace = w.trace ++ .shutdown :: o ∧ ∀ x ∈ o, Winding x := by
  have h : Emits Winding (do
      Sched.tryFinally (Sched.tryFinally runShutdownTasks (shutDownTasks n (some .exit))) (do waitAlive n; handleLogs; checkThreadErrors)
      if (some Exc.exit) = some .restart then do
        let s ← get
        if s.cfg.recall then again else emit .restarted
      else pure ()) := by
    refine emits_bind (wind_finally (wind_finally winding_runShutdownTasks (winding_shutDownTasks n))
      (emits_bind (winding_waitAlive n) (fun _ => emits_bind (emits_handleLogs (fun _ => trivial)) (fun _ =>
        emits_checkThreadErrors (fun _ => trivial))))) (fun _ => ?_)
    rw [if_neg (by simp)]
    exact emits_pure _
  obtain ⟨o, ho, hp⟩ := h (w.observe .shutdown)
  refine ⟨o, ?_, hp⟩
  unfold shutDown
  rw [bind_done (show emit .shutdown w = (.ok (), w.observe .shutdown) from rfl)]
  refine ho.trans ?_
  show w.trace ++ [Obs.shutdown] ++ o = _
  rw [List.append_assoc]; rfl

/-- The world in which a call of `serve` goes to its startup. -/
def servingFrom (w : World) : World := ((do emit .serve; clearFlags) w).2

/-- C120, the scheduler.  When in some round of the scheduler a task that raises SchedulerExit comes up and is run in the
main process, then all that follows the end of its run is the shutdown: no task is started but the shutdown tasks, there
is no further cycle and no restart.  Missing: that running tasks are waited for, which is false
(`C120_wait_violated`). -/
theorem C120_exit_partial (n m : Nat) (w w0 w1 w2 w3 : World) (name : String) (post : List String)
    (hs : startup (servingFrom w) = (.ok (), w0)) (hl : LoopsTo n w0 (m + 1) w1) (hb : RoundBegins w1 w2)
    (hc : ComesUp name post w2 w3) (hr : RunsAndRaises name .exit w3) :
    ∃ o id o', (serve (n + 1) w).2.trace = w3.trace ++ o ++ .mainEnded name id :: .shutdown :: o' ∧
      .started name id .cycle ∈ o ∧ (∀ x ∈ o, OfRun name .cycle x) ∧ ∀ x ∈ o', Winding x := by
  obtain ⟨w4, id, o, h1, h2, h3, h4⟩ := C120_cycle_partial name post .exit (.inl rfl) w2 w3 hc hr
  have hloop := serveLoop_raise hl hb h1
  obtain ⟨o', ho', hp'⟩ := winding_shutDown (serve n) n w4
  refine ⟨o, id, o', ?_, h3, h4, hp'⟩
  have hat : attempt (do startup; serveLoop n) (servingFrom w) = (.ok (some .exit), w4) := by
    have : (startup >>= fun _ => serveLoop n) (servingFrom w) = (.raise .exit, w4) := by
      rw [bind_done hs, hloop]
    unfold attempt
    show (match (startup >>= fun _ => serveLoop n) (servingFrom w) with
      | (.ok _, w') => (Res.ok none, w')
      | (.raise e, w') => (.ok (some e), w')
      | (.cut, w') => (.cut, w')) = _
    rw [this]
  have hserve : serve (n + 1) w = shutDown (serve n) n (some .exit) w4 := by
    conv => lhs; unfold serve
    rw [bind_done (show emit .serve w = (.ok (), w.observe .serve) from rfl),
      bind_done (show clearFlags (w.observe .serve) = (.ok (), servingFrom w) from rfl), bind_done hat]
  rw [hserve, ho', h2]
  simp only [List.append_assoc, List.cons_append, List.nil_append]

/-! ### a program -/

/-- A process is started, then a task in the main process comes up that raises SchedulerExit; a third task would be next. -/
def exitSession : Sys := sessionOf 2 false [requested (idleTask "p" .process), requested (idleTask "x" .main), requested (idleTask "c" .main)]

def exitChoices : List Choice := List.replicate 10 (quiet false) ++ [⟨[], some false, some (.exc .exit), 0⟩]

def exitWorld : World := World.init exitSession (envOf exitChoices)

theorem fst_ok {α : Type} {m : M α} {w : World} {a : α} (h : (m w).1 = .ok a) : m w = (.ok a, (m w).2) := Prod.ext h rfl

theorem found_task {s : Sys} {n : String} {p : TaskSt → Bool} (h : (s.find n).any p = true) : ∃ t, s.find n = some t ∧ p t = true := by
  rcases hf : s.find n with _ | t
  · rw [hf] at h; cases h
  · rw [hf] at h; exact ⟨t, rfl, h⟩

/-- The worlds on the way. -/
def exitW0 : World := (startup (servingFrom exitWorld)).2
def exitW1 : World := (checkShutCond exitW0).2
def exitW2 : World := (hibernate exitW1).2
def exitW3 : World := ((do emit .cycle; forEach ["p"] inspectTask : M Unit) exitW2).2
def exitW4 : World := ((do emit (.inspected "x"); handleLogs; cleanRunStack "x" : M Unit) exitW3).2
def exitW5 : World := (isTaskRunnable "x" exitW4).2

theorem exit_startup : startup (servingFrom exitWorld) = (.ok (), exitW0) := fst_ok (by decide +kernel)
theorem exit_shut : checkShutCond exitW0 = (.ok false, exitW1) := fst_ok (by decide +kernel)
theorem exit_rest : hibernate exitW1 = (.ok (), exitW2) := fst_ok (by decide +kernel)
theorem exit_flags : exitW2.st.shutdown = false ∧ exitW2.st.restart = false ∧ exitW4.st.enabled = true := by decide +kernel
theorem exit_sorted : exitW2.st.sorted.map TaskSt.name = ["p"] ++ "x" :: ["c"] := by decide +kernel
theorem exit_before : (do emit .cycle; forEach ["p"] inspectTask : M Unit) exitW2 = (.ok (), exitW3) := fst_ok (by decide +kernel)
theorem exit_look : (do emit (.inspected "x"); handleLogs; cleanRunStack "x" : M Unit) exitW3 = (.ok (), exitW4) :=
  fst_ok (by decide +kernel)
theorem exit_runnable : isTaskRunnable "x" exitW4 = (.ok true, exitW5) := fst_ok (by decide +kernel)
theorem exit_faults : (exitW5.env exitW5.pos).fault = none ∧ (exitW5.env (exitW5.pos + 1)).fault = some (.exc .exit) := by
  decide +kernel
theorem exit_found : ∃ t, exitW4.st.find "x" = some t ∧ decide (t.onStartup = false ∧ t.onShutdown = false) = true :=
  found_task (by decide +kernel)
theorem exit_main : ∃ t, (choose exitW5).2.st.find "x" = some t ∧ decide (t.execution = .main) = true :=
  found_task (by decide +kernel)

/-- The hypotheses are met: the task "x" comes up in the first round, after "p" and before "c". -/
example : startup (servingFrom exitWorld) = (.ok (), exitW0) ∧ LoopsTo 5 exitW0 (4 + 1) exitW0 ∧ RoundBegins exitW0 exitW2 ∧
    ComesUp "x" ["c"] exitW2 exitW5 ∧ RunsAndRaises "x" .exit exitW5 := by
  obtain ⟨t, ht, hp⟩ := exit_found
  obtain ⟨u, hu, hq⟩ := exit_main
  exact ⟨exit_startup, .here 5 exitW0, ⟨exitW1, exit_shut, exit_rest, exit_flags.1, exit_flags.2.1⟩,
    .mk ["p"] exitW3 exitW4 t exit_sorted exit_before exit_look ht (of_decide_eq_true hp) exit_flags.2.2 exit_runnable,
    exit_faults.1, exit_faults.2, u, hu, of_decide_eq_true hq⟩

/-- The task "c" is not looked at any more, and the process, which was running, is terminated at once. -/
example : (serve 6 exitWorld).1 = .ok () ∧ (serve 6 exitWorld).2.trace =
    [.serve, .cached "p", .cached "x", .cached "c", .cycle, .inspected "p", .checked "p" true (some true), .popped "p" [("x", "1")],
      .started "p" 0 .cycle, .inspected "x", .checked "x" true (some true), .popped "x" [("x", "1")], .started "x" 1 .cycle,
      .mainEnded "x" 1, .shutdown, .terminated "p" 0] := by decide +kernel

/-! ### what it does to running tasks, and where it is not heard -/

/-- SchedulerExit does not do what a request to shut down does: with `instant_shutdown` not set and no forced exit, the
shutdown after a request waits for the running tasks; after SchedulerExit it terminates them at once. -/
theorem C120_wait_violated (s : Sys) (h1 : s.cfg.instantShutdown = false) (h2 : s.forceExit = false) (n : Nat) :
    waitForFinish s none = true ∧ waitForFinish s (some .restart) = true ∧ waitForFinish s (some .exit) = false ∧
      shutDownTasks (n + 1) (some .exit) = schedTerminateAll := by
  refine ⟨?_, ?_, ?_, exit_terminates n⟩ <;> simp [waitForFinish, h1, h2]

example : exitSession.cfg.instantShutdown = false ∧ exitSession.forceExit = false := by decide

/-- The call of a task that does not run in the main process is not heard: its start returns and the scheduler goes on,
whatever the task raises; an asyncio task is logged to have succeeded, a thread to have succeeded and then to have
failed. -/
theorem C120_elsewhere_violated (name : String) (part : Part) (w : World) (h : RunsElsewhere name w) :
    (startAsync name part w).1 = .ok () ∧ (runTask name part w).1 = .ok () ∧
      ∀ c : Run.Course, c.prerun = true → c.params = true → c.postFails = false → c.ending = .restart →
        (Run.runAsync false c).1 = [⟨.run, true⟩, ⟨.success, false⟩] ∧
        (Run.runThread c).1 = [⟨.run, true⟩, ⟨.success, false⟩, ⟨.fail, false⟩] ∧
        Run.processRecs c = [⟨.success, false⟩, ⟨.fail, false⟩] := by
  have key : (startAsync name part w).1 = .ok () := by
    obtain ⟨hc, t, hf, hm⟩ := h
    obtain ⟨w1, h1, _⟩ := choose_says w
    rw [h1] at hf
    dsimp only at hf
    obtain ⟨w2, h2, _⟩ := popBatch_says t w1
    unfold startAsync
    rw [bind_done h1, get_bind_apply, hf]
    dsimp only
    rw [hc, if_neg (by simp), bind_done h2, if_neg (by simp)]
    cases hx : t.execution with
    | main => exact absurd hx hm
    | async => rfl
    | thread => rfl
    | process => rfl
  refine ⟨key, ?_, ?_⟩
  · unfold runTask Sched.tryCatch
    rcases hr : startAsync name part w with ⟨r, w'⟩
    rw [hr] at key
    cases key
    rfl
  · intro c h1 h2 h3 h4
    simp [Run.runAsync, Run.runThread, Run.processRecs, Run.body, Run.finallyPost, h1, h2, h3, h4]

example : RunsElsewhere "p" (World.init exitSession (fun _ => quiet false)) := by
  refine ⟨rfl, requested (idleTask "p" .process), by decide +kernel, by decide⟩

/-- Two shutdown tasks; the first raises SchedulerExit. -/
def closingSession : Sys := sessionOf 1 false [{ idleTask "x" .main with onShutdown := true, noCond := true },
  { idleTask "z" .main with onShutdown := true, noCond := true }]

/-- Run as a shutdown task, it does harm: the shutdown tasks after it are not started, and `serve` itself ends with the
exception. -/
theorem C120_closing_violated : ∃ (s : Sys) (env : Nat → Choice), Fresh s ∧ (serve 4 (World.init s env)).1 = .raise .exit ∧
    .started "x" 0 .shutdown ∈ (serve 4 (World.init s env)).2.trace ∧
    (∃ t ∈ s.tasks, t.name = "z" ∧ t.onShutdown = true ∧ t.noCond = true ∧ t.disabled = false) ∧
    ∀ id part, .started "z" id part ∉ (serve 4 (World.init s env)).2.trace := by
  refine ⟨closingSession, envOf [quiet false, quiet false, quiet true, quiet false, ⟨[], some false, some (.exc .exit), 0⟩], by decide,
    by decide +kernel, by decide +kernel, by decide +kernel, ?_⟩
  have h : (serve 4 (World.init closingSession (envOf [quiet false, quiet false, quiet true, quiet false,
      ⟨[], some false, some (.exc .exit), 0⟩]))).2.trace = [.serve, .cached "x", .cached "z", .shutdown, .env (.request "x" []),
        .checked "x" true (some true), .popped "x" [], .started "x" 0 .shutdown, .mainEnded "x" 0] := by decide +kernel
  rw [h]
  intro id part hm
  simp at hm

end Rocketry.Props
