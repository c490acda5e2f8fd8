import Verif.Sched.Hoare

/-!
# Invariants that depend on which runs are ended
-/

namespace Rocketry.Sched

variable {I : World → Prop}

/-- Changes of the session that end no run. -/
inductive Slight : Sys → Sys → Prop where
  | clean (s : Sys) (n : String) (cfg : Config) : Slight s (s.upd n (TaskSt.clean cfg))
  | reset (s : Sys) (n : String) (cfg : Config) : Slight s (s.upd n (fun t => { t.clean cfg with forceTerm := false }))
  | cycles (s : Sys) (k : Nat) : Slight s { s with nCycles := k }
  | flags (s : Sys) : Slight s { s with shutdown := false, restart := false, enabled := true }

/-- Observations that say nothing about a run or a check. -/
def Obs.dull : Obs → Bool
  | .inspected _ => true
  | .cycleDone => true
  | .restarted => true
  | .serve => true
  | .cycle => true
  | .shutdown => true
  | _ => false

/-- `I` survives everything but checks, starts and `set_cached`. -/
structure Core (I : World → Prop) : Prop where
  choose : Keeps I choose
  note : ∀ w o, o.dull = true → I w → I (w.observe o)
  stop : ∀ n id, Keeps I (terminateRun n id)
  errors : ∀ n, Keeps I (checkExceptions n)
  move : ∀ w s, Slight w.st s → I w → I { w with st := s, hist := w.st :: w.hist }
  request : ∀ w n, I w → I (w.happen (.request n []))

section Core
variable (hc : Core I)
include hc

theorem core_emit {o : Obs} (h : o.dull = true) : Keeps I (emit o) := fun w hw => hc.note w o h hw

theorem core_terminateAll (name : String) : Keeps I (terminateAll name) := by
  unfold terminateAll
  refine keeps_bind keeps_get (fun s => ?_)
  split
  · exact keeps_pure _
  · exact keeps_bind (keeps_forEach (fun _ _ => hc.stop _ _)) (fun _ => keeps_change (fun w hw => hc.move w _ (.reset _ _ _) hw))

theorem core_terminateOld (name : String) (now limit : Int) (id : Nat) : Keeps I (terminateOld name now limit id) := by
  unfold terminateOld
  refine keeps_bind keeps_get (fun s => ?_)
  split
  · exact keeps_pure _
  · split
    · exact keeps_pure _
    · exact keeps_ite (fun _ => hc.stop _ _) (fun _ => keeps_pure _)

theorem core_checkTermination (name : String) : Keeps I (checkTermination name) := by
  unfold checkTermination
  refine keeps_bind hc.choose (fun c => keeps_bind keeps_get (fun s => ?_))
  split
  · exact keeps_pure _
  · split
    · exact keeps_ite (fun _ => core_terminateAll hc _) (fun _ => keeps_raise _)
    · refine keeps_ite (fun _ => core_terminateAll hc _) (fun _ => ?_)
      refine keeps_ite (fun _ => core_terminateAll hc _) (fun _ => ?_)
      exact keeps_ite (fun _ => keeps_pure _) (fun _ => keeps_forEach (fun _ _ => core_terminateOld hc _ _ _ _))

theorem core_handleLogs : Keeps I handleLogs := by
  unfold handleLogs
  refine keeps_bind hc.choose (fun c => keeps_bind keeps_get (fun s => ?_))
  split
  · exact keeps_ite (fun _ => keeps_pure _) (fun _ => keeps_raise _)
  · exact keeps_raise _
  · exact keeps_pure _

theorem core_checkThreadErrors : Keeps I checkThreadErrors := by
  unfold checkThreadErrors
  refine keeps_bind keeps_get (fun s => ?_)
  exact keeps_ite (fun _ => keeps_pure _) (fun _ => keeps_forEach (fun _ _ => hc.errors _))

theorem core_hibernate : Keeps I hibernate := keeps_bind hc.choose (fun _ => keeps_pure _)

theorem core_schedTerminateAll : Keeps I schedTerminateAll := by
  unfold schedTerminateAll
  refine keeps_bind keeps_get (fun s => keeps_forEach (fun n _ => ?_))
  unfold terminateIfAlive
  refine keeps_bind keeps_get (fun s => ?_)
  split
  · exact keeps_pure _
  · exact keeps_ite (fun _ => core_terminateAll hc _) (fun _ => keeps_pure _)

theorem core_waitFinish : ∀ n, Keeps I (waitFinish n)
  | 0 => keeps_cut
  | n + 1 => by
    unfold waitFinish
    refine keeps_bind keeps_get (fun s => keeps_ite (fun _ => keeps_pure _) (fun _ => ?_))
    refine keeps_bind (core_hibernate hc) (fun _ => keeps_bind (core_handleLogs hc) (fun _ => ?_))
    refine keeps_bind keeps_get (fun s => keeps_bind (keeps_forEach (fun t _ => ?_)) (fun _ => core_waitFinish n))
    exact keeps_ite (fun _ => core_terminateAll hc _) (fun _ => core_checkTermination hc _)

theorem core_shutDownTasks : ∀ n e, Keeps I (shutDownTasks n e)
  | 0, _ => by unfold shutDownTasks; exact keeps_cut
  | n + 1, e => by
    unfold shutDownTasks
    refine keeps_bind keeps_get (fun s => keeps_ite (fun _ => ?_) (fun _ => core_schedTerminateAll hc))
    refine keeps_tryCatch (core_waitFinish hc n) (fun e' => ?_)
    cases e' <;> first
      | exact keeps_raise _
      | exact keeps_bind (core_shutDownTasks n _) (fun _ => keeps_raise _)

theorem core_waitAlive : ∀ n, Keeps I (waitAlive n)
  | 0 => keeps_cut
  | n + 1 => by
    unfold waitAlive
    exact keeps_bind keeps_get (fun s =>
      keeps_ite (fun _ => keeps_bind (core_hibernate hc) (fun _ => core_waitAlive n)) (fun _ => keeps_pure _))

theorem core_checkShutCond : Keeps I checkShutCond := by
  unfold checkShutCond
  refine keeps_bind hc.choose (fun c => ?_)
  split
  · exact keeps_pure _
  · exact keeps_raise _

theorem core_requestFirst (t : TaskSt) : Keeps I (requestFirst t) := by
  unfold requestFirst
  refine keeps_ite (fun _ => keeps_bind keeps_get (fun s => ?_)) (fun _ => keeps_pure _)
  split
  · exact keeps_pure _
  · exact keeps_ite (fun _ => keeps_pure _) (fun _ w hw => hc.request w _ hw)

theorem core_startSpecial (part : Part) (t : TaskSt) (hl : Keeps I (launch t.name part)) : Keeps I (startSpecial part t) :=
  keeps_bind (core_requestFirst hc t) (fun _ => hl)

theorem core_inspectTask (name : String) (hl : Keeps I (launch name .cycle)) : Keeps I (inspectTask name) := by
  unfold inspectTask
  refine keeps_bind (core_emit hc rfl) (fun _ => keeps_bind (core_handleLogs hc) (fun _ => ?_))
  refine keeps_bind (fun w hw => hc.move w _ (.clean _ _ _) hw) (fun _ => keeps_bind ?_ (fun _ => core_checkTermination hc _))
  unfold consider
  refine keeps_bind keeps_get (fun s => ?_)
  split
  · exact keeps_pure _
  · exact keeps_ite (fun _ => keeps_pure _) (fun _ => keeps_ite (fun _ => hl) (fun _ => keeps_pure _))

theorem core_setCycles (f : Nat → Nat) : Keeps I (setCycles f) := fun w hw => hc.move w _ (.cycles _ _) hw

theorem core_clearFlags : Keeps I clearFlags := fun w hw => hc.move w _ (.flags _) hw

/-- A cycle; `P`: what the tasks of the session have in common. -/
theorem core_runCycle {P : String → Prop} (hP : ∀ w, I w → ∀ t ∈ w.st.sorted, P t.name)
    (hl : ∀ name, P name → Keeps I (launch name .cycle)) : Keeps I runCycle := by
  unfold runCycle
  refine keeps_get_bind (fun w hw => ?_)
  have hs := hP w hw
  revert hw
  generalize w.st = s at hs
  revert w
  suffices H : Keeps I (do
      emit .cycle
      forEach (s.sorted.map TaskSt.name) inspectTask
      handleLogs
      checkThreadErrors
      setCycles (fun k => k + 1)
      emit .cycleDone) from H
  refine keeps_bind (core_emit hc rfl) (fun _ => ?_)
  refine keeps_bind (keeps_forEach (fun name hn => ?_)) (fun _ => ?_)
  · obtain ⟨t, ht, rfl⟩ := List.mem_map.1 hn
    exact core_inspectTask hc _ (hl _ (hs t ht))
  refine keeps_bind (core_handleLogs hc) (fun _ => keeps_bind (core_checkThreadErrors hc) (fun _ => ?_))
  exact keeps_bind (core_setCycles hc _) (fun _ => core_emit hc rfl)

theorem core_serveLoop {P : String → Prop} (hP : ∀ w, I w → ∀ t ∈ w.st.sorted, P t.name)
    (hl : ∀ name, P name → Keeps I (launch name .cycle)) : ∀ n, Keeps I (serveLoop n)
  | 0 => keeps_cut
  | n + 1 => by
    unfold serveLoop
    refine keeps_bind (core_checkShutCond hc) (fun b => keeps_ite (fun _ => keeps_pure _) (fun _ => ?_))
    refine keeps_bind (core_hibernate hc) (fun _ => keeps_bind keeps_get (fun s => ?_))
    refine keeps_ite (fun _ => keeps_pure _) (fun _ => keeps_ite (fun _ => keeps_raise _) (fun _ => ?_))
    exact keeps_bind (core_runCycle hc hP hl) (fun _ => core_serveLoop hP hl n)

theorem core_shutDown (hr : Keeps I runShutdownTasks) {again : M Unit}
    (ha : ∀ w, I w → w.st.cfg.recall = true → I (again w).2) (n : Nat) (e : Option Exc) : Keeps I (shutDown again n e) := by
  unfold shutDown
  refine keeps_bind (core_emit hc rfl) (fun _ => keeps_bind ?_ (fun _ => ?_))
  · refine keeps_tryFinally (keeps_tryFinally hr (core_shutDownTasks hc n e)) ?_
    exact keeps_bind (core_waitAlive hc n) (fun _ => keeps_bind (core_handleLogs hc) (fun _ => core_checkThreadErrors hc))
  · refine keeps_ite (fun _ => keeps_get_bind (fun w hw => ?_)) (fun _ => keeps_pure _)
    by_cases hrc : w.st.cfg.recall = true
    · rw [if_pos hrc]; exact ha w hw hrc
    · rw [if_neg hrc]; exact hc.note w _ rfl hw

theorem core_runShutdownTasks (hl : ∀ name, Keeps I (launch name .shutdown)) : Keeps I runShutdownTasks := by
  unfold runShutdownTasks
  refine keeps_bind keeps_get (fun s => keeps_forEach (fun t _ => ?_))
  exact keeps_ite (fun _ => core_startSpecial hc _ t (hl _)) (fun _ => keeps_pure _)

theorem core_startup (hl : ∀ name, Keeps I (launch name .startup)) (hk : ∀ name, Keeps I (emit (.cached name))) : Keeps I startup := by
  unfold startup
  refine keeps_bind (core_setCycles hc _) (fun _ => keeps_bind keeps_get (fun s => keeps_forEach (fun t _ => ?_)))
  unfold startupTask
  refine keeps_bind hc.choose (fun c => keeps_bind keeps_get (fun s => keeps_bind (hk _) (fun _ => ?_)))
  exact keeps_ite (fun _ => keeps_raise _)
    (fun _ => keeps_ite (fun _ => core_startSpecial hc _ t (hl _)) (fun _ => keeps_pure _))

/-- The parts of `serve`. -/
theorem core_serveStep {n : Nat} (hst : Keeps I (do startup; serveLoop n)) (hd : ∀ e, Keeps I (shutDown (serve n) n e)) :
    Keeps I (serve (n + 1)) := by
  unfold serve
  refine keeps_bind (core_emit hc rfl) (fun _ => keeps_bind (core_clearFlags hc) (fun _ => ?_))
  refine keeps_bind (keeps_attempt hst) (fun e => ?_)
  split <;> first
    | exact hd _
    | exact keeps_bind (hd _) (fun _ => keeps_raise _)

theorem core_serve (hl : ∀ name part, Keeps I (launch name part)) (hk : ∀ name, Keeps I (emit (.cached name))) :
    ∀ n, Keeps I (serve n)
  | 0 => keeps_cut
  | n + 1 => core_serveStep hc
      (keeps_bind (core_startup hc (fun n => hl n _) hk) (fun _ => core_serveLoop hc (P := fun _ => True) (fun _ _ _ _ => trivial) (fun n _ => hl n _) n))
      (fun e => core_shutDown hc (core_runShutdownTasks hc (fun n => hl n _)) (fun w hw _ => core_serve hl hk n w hw) n e)

end Core

end Rocketry.Sched
