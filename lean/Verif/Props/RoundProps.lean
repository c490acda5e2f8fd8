import Verif.Spec.RoundSpec
import Verif.Props.PhaseProps
import Verif.Props.StartProps
import Mathlib.Data.List.Induction

/-!
# C86: requests to restart and to shut down
-/

namespace Rocketry.Props
open Spec Sched

variable {α β : Type}

/-! ## Nothing but the loop of the scheduler asks for a restart -/

/-- The environment is `env`. -/
def EnvIs (env : Nat → Choice) (w : World) : Prop := w.env = env

theorem steady_envIs (env : Nat → Choice) : Steady (EnvIs env) :=
  ⟨⟨⟨fun _ _ h => h, fun _ _ _ h _ => h, fun _ _ _ h => h, fun _ _ _ h => h⟩, fun _ _ _ h => h⟩, fun _ _ _ h => h, fun _ h => h⟩

theorem base_envIs (env : Nat → Choice) : Base (EnvIs env) := (steady_envIs env).toStill.base

theorem envIs_launch (env : Nat → Choice) (name : String) (part : Part) : Keeps (EnvIs env) (launch name part) := fun w hw =>
  launch_rule' (I0 := EnvIs env) (I1 := EnvIs env) (base_envIs env) (base_envIs env) name part (fun _ h => h) (fun _ _ h => h)
    (fun _ _ _ h => h) (fun _ _ h => h) w hw

/-- `m` does not raise `SchedulerRestart`. -/
def StaysUp (env : Nat → Choice) (m : M α) : Prop := ∀ w, w.env = env → (m w).1 ≠ .raise .restart

section StaysUp
variable {env : Nat → Choice}

theorem stays_pure (a : α) : StaysUp env (pure a : M α) := fun _ _ h => nomatch h
theorem stays_raise {e : Exc} (he : e ≠ .restart) : StaysUp env (raise e : M α) := fun _ _ h => by
  simp only [raise, Res.raise.injEq] at h; exact he h
theorem stays_get : StaysUp env get := fun _ _ h => nomatch h
theorem stays_choose : StaysUp env choose := fun _ _ h => nomatch h
theorem stays_emit (o : Obs) : StaysUp env (emit o) := fun _ _ h => nomatch h
theorem stays_change (n : String) (f : TaskSt → TaskSt) : StaysUp env (change n f) := fun _ _ h => nomatch h

theorem stays_bind {m : M α} {k : α → M β} (hk : Keeps (EnvIs env) m) (hm : StaysUp env m) (hn : ∀ a, StaysUp env (k a)) :
    StaysUp env (m >>= k) := by
  intro w hw
  rw [bind_apply]
  have h1 := hk w hw
  have h2 := hm w hw
  rcases hr : m w with ⟨r, w'⟩
  rw [hr] at h1 h2
  cases r with
  | ok a => exact hn a w' h1
  | raise x => simp only [ne_eq, Res.raise.injEq] at h2 ⊢; exact h2
  | cut => intro h; exact nomatch h

/-- What comes out of the environment is one of its choices. -/
theorem stays_choose_bind {k : Choice → M β} (h : ∀ i, StaysUp env (k (env i))) : StaysUp env (choose >>= k) := by
  intro w hw
  rw [bind_apply]
  obtain ⟨w1, hcw, henv⟩ := choose_ok w
  rw [hcw]
  simp only
  rw [hw] at henv ⊢
  exact h w.pos w1 henv

theorem stays_ite {c : Prop} [Decidable c] {m k : M α} (hm : StaysUp env m) (hk : StaysUp env k) : StaysUp env (if c then m else k) := by
  by_cases h : c
  · rw [if_pos h]; exact hm
  · rw [if_neg h]; exact hk

theorem stays_forEach {l : List α} {f : α → M Unit} (hk : ∀ a, Keeps (EnvIs env) (f a)) (hf : ∀ a, StaysUp env (f a)) :
    StaysUp env (forEach l f) := by
  induction l with
  | nil => exact stays_pure ()
  | cons a l ih => exact stays_bind (hk a) (hf a) (fun _ => ih)

variable (hn : NoneRaised env)
include hn

theorem stays_handleLogs : StaysUp env handleLogs := by
  unfold handleLogs
  refine stays_choose_bind (fun i => stays_bind keeps_get stays_get (fun s => ?_))
  split
  · exact stays_ite (stays_pure _) (stays_raise (by simp))
  · rename_i e he
    exact stays_raise (fun h => hn i (by rw [he, h]))
  · exact stays_pure _

theorem stays_terminateRun (name : String) (id : Nat) : StaysUp env (terminateRun name id) := by
  unfold terminateRun
  refine stays_bind keeps_get stays_get (fun s => ?_)
  split
  · exact stays_pure _
  · split
    · exact stays_pure _
    · split
      · exact stays_raise (by simp)
      · exact stays_emit _
      · refine stays_bind (keeps_remark (base_envIs env) rfl (by simp)) (stays_emit _) (fun _ => stays_choose_bind (fun i =>
          stays_bind (keeps_change (fun _ h => h)) (stays_change _ _) (fun _ => ?_)))
        split
        · exact stays_raise (by simp)
        · rename_i e he
          exact stays_ite (stays_raise (fun h => hn i (by rw [he, h]))) (stays_pure _)
        · exact stays_pure _

theorem stays_terminateAll (name : String) : StaysUp env (terminateAll name) := by
  unfold terminateAll
  refine stays_bind keeps_get stays_get (fun s => ?_)
  split
  · exact stays_pure _
  · exact stays_bind (keeps_forEach (fun _ _ => keeps_terminateRun (base_envIs env) _ _))
      (stays_forEach (fun _ => keeps_terminateRun (base_envIs env) _ _) (fun _ => stays_terminateRun hn _ _)) (fun _ => stays_change _ _)

theorem stays_checkTermination (name : String) : StaysUp env (checkTermination name) := by
  unfold checkTermination
  refine stays_choose_bind (fun i => stays_bind keeps_get stays_get (fun s => ?_))
  split
  · exact stays_pure _
  · split
    · exact stays_ite (stays_terminateAll hn _) (stays_raise (by simp))
    · refine stays_ite (stays_terminateAll hn _) (stays_ite (stays_terminateAll hn _) (stays_ite (stays_pure _) (stays_forEach
        (fun _ => keeps_terminateOld (base_envIs env) _ _ _ _) (fun id => ?_))))
      unfold terminateOld
      refine stays_bind keeps_get stays_get (fun s => ?_)
      split
      · exact stays_pure _
      · split
        · exact stays_pure _
        · exact stays_ite (stays_terminateRun hn _ _) (stays_pure _)

theorem stays_checkThreadErrors : StaysUp env checkThreadErrors := by
  unfold checkThreadErrors
  refine stays_bind keeps_get stays_get (fun s => stays_ite (stays_pure _)
    (stays_forEach (fun n => keeps_checkExceptions (base_envIs env) n) (fun n => ?_)))
  unfold checkExceptions
  refine stays_bind keeps_get stays_get (fun s => ?_)
  split
  · exact stays_pure _
  · split
    · exact stays_pure _
    · exact stays_bind (keeps_change (fun _ h => h)) (stays_change _ _) (fun _ => stays_raise (by simp))

theorem stays_isTaskRunnable (name : String) : StaysUp env (isTaskRunnable name) := by
  unfold isTaskRunnable
  refine stays_bind keeps_get stays_get (fun s => ?_)
  split
  · exact stays_raise (by simp)
  · refine stays_ite (stays_pure _) (stays_ite (stays_pure _) ?_)
    rename_i t _
    intro w hw
    unfold checkTaskCond Sched.tryCatch
    have h : StaysUp env (isRunnable t) := by
      unfold isRunnable
      refine stays_ite (stays_bind (keeps_remark (base_envIs env) rfl (by simp)) (stays_emit _) (fun _ => stays_pure _))
        (stays_ite (stays_pure _) (stays_choose_bind (fun i => stays_bind (keeps_remark (base_envIs env) rfl (by simp)) (stays_emit _) (fun _ => ?_))))
      split
      · exact stays_pure _
      · exact stays_raise (by simp)
    have h1 := h w hw
    rcases hr : isRunnable t w with ⟨r, w'⟩
    rw [hr] at h1
    cases r with
    | ok a => exact fun h => nomatch h
    | cut => exact fun h => nomatch h
    | raise x =>
      simp only [get_bind_apply]
      split
      · exact fun h => nomatch h
      · simpa [raise] using h1

theorem stays_startAsync (name : String) (part : Part) : StaysUp env (startAsync name part) := by
  have hb := base_envIs env
  unfold startAsync
  refine stays_choose_bind (fun i => stays_bind keeps_get stays_get (fun s => ?_))
  split
  · exact stays_raise (by simp)
  · rename_i t _
    have hfail : StaysUp env (do emit (.failedSetup name); raise .setup : M Unit) :=
      stays_bind (keeps_remark hb rfl (by simp)) (stays_emit _) (fun _ => stays_raise (by simp))
    refine stays_ite hfail (stays_bind ?_ ?_ (fun _ => stays_ite hfail (stays_bind (fun _ h => h) (fun _ _ h => nomatch h) (fun id => ?_))))
    · unfold popBatch
      split
      · exact keeps_pure _
      · exact fun _ h => h
    · unfold popBatch
      split
      · exact stays_pure _
      · exact fun _ _ h => nomatch h
    · unfold runOn
      cases t.execution with
      | main =>
        refine stays_ite (stays_bind (fun _ h => h) (fun _ _ h => nomatch h) (fun _ => stays_raise (by simp)))
          (stays_choose_bind (fun j => stays_bind (keeps_remark hb rfl (by simp)) (stays_emit _) (fun _ =>
            stays_bind (fun _ h => h) (fun _ _ h => nomatch h) (fun _ => ?_))))
        have hj := hn j
        generalize (env j).fault = f at hj
        unfold mainEnd
        split <;> first
          | exact stays_pure _
          | exact absurd rfl hj
          | exact stays_raise (by simp)
      | async => exact stays_ite (stays_raise (by simp)) (stays_pure _)
      | thread => exact stays_ite (stays_change _ _) (stays_pure _)
      | process =>
        exact stays_ite (stays_bind (fun _ h => h) (stays_change _ _) (fun _ => stays_raise (by simp)))
          (stays_ite (stays_raise (by simp)) (stays_pure _))

theorem stays_launch (name : String) (part : Part) : StaysUp env (launch name part) := by
  unfold launch
  refine stays_bind (keeps_isTaskRunnable (base_envIs env) name) (stays_isTaskRunnable hn name) (fun b => stays_ite ?_ (stays_pure _))
  intro w hw
  unfold runTask Sched.tryCatch
  have h1 := stays_startAsync hn name part w hw
  rcases hr : startAsync name part w with ⟨r, w'⟩
  rw [hr] at h1
  cases r with
  | ok a => exact fun h => nomatch h
  | cut => exact fun h => nomatch h
  | raise x =>
    simp only [get_bind_apply]
    cases x <;> simp only <;> first
      | exact absurd rfl h1
      | (split <;> simp [raise, pure_apply])
      | simp [raise]

theorem stays_inspectTask (name : String) : StaysUp env (inspectTask name) := by
  have hb := base_envIs env
  unfold inspectTask
  refine stays_bind (keeps_remark hb rfl (by simp)) (stays_emit _) (fun _ => stays_bind (keeps_handleLogs hb) (stays_handleLogs hn) (fun _ => ?_))
  refine stays_bind (keeps_cleanRunStack hb _) (fun _ _ h => nomatch h) (fun _ => stays_bind ?_ ?_ (fun _ => stays_checkTermination hn _))
  · unfold consider
    refine keeps_bind keeps_get (fun s => ?_)
    split
    · exact keeps_pure _
    · exact keeps_ite (fun _ => keeps_pure _) (fun _ => keeps_ite (fun _ => envIs_launch env _ _) (fun _ => keeps_pure _))
  · unfold consider
    refine stays_bind keeps_get stays_get (fun s => ?_)
    split
    · exact stays_pure _
    · exact stays_ite (stays_pure _) (stays_ite (stays_launch hn _ _) (stays_pure _))

theorem stays_runCycle : StaysUp env runCycle := by
  have hb := base_envIs env
  have hi := fun n => keeps_inspectTask hb (fun m => envIs_launch env m .cycle) n
  unfold runCycle
  refine stays_bind keeps_get stays_get (fun s => stays_bind (fun _ h => h) (stays_emit _) (fun _ => ?_))
  refine stays_bind (keeps_forEach (fun n _ => hi n)) (stays_forEach hi (fun n => stays_inspectTask hn n)) (fun _ => ?_)
  refine stays_bind (keeps_handleLogs hb) (stays_handleLogs hn) (fun _ => ?_)
  refine stays_bind (keeps_checkThreadErrors hb) (stays_checkThreadErrors hn) (fun _ => ?_)
  exact stays_bind (fun _ h => h) (fun _ _ h => nomatch h) (fun _ => stays_emit _)

theorem stays_startup : StaysUp env startup := by
  have hb := base_envIs env
  have hc := (steady_envIs env).toCalm
  unfold startup
  refine stays_bind (fun _ h => h) (fun _ _ h => nomatch h) (fun _ => stays_bind keeps_get stays_get (fun s =>
    stays_forEach (fun t => keeps_startupTask hc t (envIs_launch env _ _)) (fun t => ?_)))
  unfold startupTask
  refine stays_choose_bind (fun i => stays_bind keeps_get stays_get (fun s => stays_bind (keeps_remark hb rfl (by simp)) (stays_emit _) (fun _ => ?_)))
  refine stays_ite (stays_raise (by simp)) (stays_ite ?_ (stays_pure _))
  unfold startSpecial
  refine stays_bind (keeps_requestFirst hc t) ?_ (fun _ => stays_launch hn _ _)
  unfold requestFirst
  refine stays_ite (stays_bind keeps_get stays_get (fun s => ?_)) (stays_pure _)
  split
  · exact stays_pure _
  · exact stays_ite (stays_pure _) (fun _ _ h => nomatch h)

end StaysUp

/-! ## The rounds -/

theorem rounds_snoc (recall free : Bool) (l : List Obs) (o : Obs) :
    rounds recall free (l ++ [o]) = (rounds recall free l).bind (fun p => p.step recall free o) := by
  unfold rounds
  rw [List.foldlM_append]
  cases List.foldlM (Round.step recall free) ⟨.off, false, false, false⟩ l with
  | none => rfl
  | some p =>
    show (List.foldlM (Round.step recall free) p [o]) = p.step recall free o
    rw [List.foldlM_cons]
    cases p.step recall free o <;> rfl

/-- The invariant: since `b`, everything came in order, the round satisfies `X`, and the flags of the session are those
of the round. -/
def Rd (env : Nat → Choice) (recall free : Bool) (b : List Obs) (X : Round → Prop) (w : World) : Prop :=
  (w.env = env ∧ w.st.cfg.recall = recall) ∧ ∃ o p, w.trace = b ++ o ∧ rounds recall free o = some p ∧ X p ∧
    p.wanted = w.st.restart ∧ p.asked = w.st.shutdown

/-- `X` does not speak about the requests. -/
def Deaf (X : Round → Prop) : Prop := ∀ p a b, X p → X { p with wanted := a, asked := b }

variable {env : Nat → Choice} {recall free : Bool} {b : List Obs} {X Y : Round → Prop}

theorem rd_trace {w w' : World} (h : Rd env recall free b X w) (o : Obs) (ho : ∀ p, Round.step recall free p o = some p)
    (ht : w'.trace = w.trace ++ [o]) (hc : w'.st.cfg = w.st.cfg) (hr : w'.st.restart = w.st.restart) (hs : w'.st.shutdown = w.st.shutdown)
    (he : w'.env = w.env) : Rd env recall free b X w' := by
  obtain ⟨h0, o1, p, h1, h2, h3, h4, h5⟩ := h
  refine ⟨by rw [hc, he]; exact h0, o1 ++ [o], p, by rw [ht, h1, List.append_assoc], ?_, h3, by rw [hr]; exact h4, by rw [hs]; exact h5⟩
  rw [rounds_snoc, h2]; exact ho p

theorem rd_same {w w' : World} (h : Rd env recall free b X w) (ht : w'.trace = w.trace) (hc : w'.st.cfg = w.st.cfg)
    (hr : w'.st.restart = w.st.restart) (hs : w'.st.shutdown = w.st.shutdown) (he : w'.env = w.env) : Rd env recall free b X w' := by
  obtain ⟨h0, o1, p, h1, h2, h3, h4, h5⟩ := h
  exact ⟨by rw [hc, he]; exact h0, o1, p, by rw [ht, h1], h2, h3, by rw [hr]; exact h4, by rw [hs]; exact h5⟩

/-- The event is a request to shut down. -/
def asksEnd : EnvEv → Bool
  | .shutDown _ => true
  | _ => false

theorem event_flags (s : Sys) (e : EnvEv) : (s.event e).cfg = s.cfg ∧
    (s.event e).restart = (s.restart || decide (e = .restart)) ∧
    (s.event e).shutdown = (s.shutdown || asksEnd e) := by
  cases e <;> simp only [Sys.event, Sys.upd] <;> first
    | (split <;> simp [asksEnd])
    | simp [asksEnd]

theorem rd_event (hX : Deaf X) {w : World} (h : Rd env recall free b X w) (e : EnvEv) : Rd env recall free b X (w.happen e) := by
  obtain ⟨h0, o1, p, h1, h2, h3, h4, h5⟩ := h
  obtain ⟨e1, e2, e3⟩ := event_flags w.st e
  refine ⟨⟨h0.1, by show (w.st.event e).cfg.recall = _; rw [e1]; exact h0.2⟩, o1 ++ [.env e],
    { p with wanted := p.wanted || decide (e = .restart), asked := p.asked || asksEnd e }, ?_, ?_, ?_, ?_, ?_⟩
  · show w.trace ++ [.env e] = _
    rw [h1, List.append_assoc]
  · rw [rounds_snoc, h2]
    cases e <;> simp [Round.step, asksEnd]
  · exact hX p _ _ h3
  · show _ = (w.st.event e).restart
    rw [e2, h4]
  · show _ = (w.st.event e).shutdown
    rw [e3, h5]

theorem tidy_cfg {s s' : Sys} (h : Tidy s s') : s'.cfg = s.cfg := by cases h <;> rfl

theorem calm_rd (hX : Deaf X) : Calm (Rd env recall free b X) where
  pos := fun _ _ h => rd_same h rfl rfl rfl rfl rfl
  env := fun _ _ e h _ => rd_event hX h e
  request := fun _ _ _ h => rd_event hX h _
  note := fun w o ho h => rd_trace h o (fun p => by cases o <;> first | rfl | simp [Obs.plain] at ho) rfl rfl rfl rfl rfl
  move := fun w s ht h => rd_same h rfl (tidy_cfg ht) (tidy_flags ht).2.2.1 (tidy_flags ht).1 rfl

theorem rd_launch (hX : Deaf X) (name : String) (part : Part) : Keeps (Rd env recall free b X) (launch name part) := fun w hw =>
  launch_rule' (I0 := Rd env recall free b X) (I1 := Rd env recall free b X) (calm_rd hX).toStill.base (calm_rd hX).toStill.base name part (fun _ h => h)
    (fun w b' h => rd_trace h (.popped name b') (fun _ => rfl) rfl rfl rfl rfl rfl)
    (fun w _ _ h => rd_trace h (.started name w.st.nextId part) (fun p => by cases part <;> rfl) rfl rfl rfl rfl rfl)
    (fun w _ h => rd_same h rfl rfl rfl rfl rfl) w hw

def Running (p : Round) : Prop := p.stage = .running
def Closing (d : Bool) (p : Round) : Prop := p.stage = .closing ∧ p.due = d

theorem deaf_running : Deaf Running := fun _ _ _ h => h
theorem deaf_closing (d : Bool) : Deaf (Closing d) := fun _ _ _ h => h

theorem rd_cycle (w : World) (h : Rd env recall free b Running w) (hr : w.st.restart = false) (hs : w.st.shutdown = false) :
    Rd env recall free b Running (runCycle w).2 := by
  have hc := calm_rd (env := env) (recall := recall) (free := free) (b := b) deaf_running
  unfold runCycle
  rw [get_bind_apply, bind_apply]
  have hem : emit .cycle w = (.ok (), { w with trace := w.trace ++ [.cycle] }) := rfl
  rw [hem]
  simp only
  have h1 : Rd env recall free b Running { w with trace := w.trace ++ [.cycle] } := by
    obtain ⟨h0, o1, p, h1, h2, h3, h4, h5⟩ := h
    refine ⟨h0, o1 ++ [.cycle], p, by simp [h1], ?_, h3, h4, h5⟩
    rw [rounds_snoc, h2]
    exact if_pos ⟨h3, h4.trans hr, h5.trans hs⟩
  refine keeps_bind (keeps_forEach (fun _ _ => keeps_inspectTask hc.toStill.base (fun n => rd_launch deaf_running n _) _)) (fun _ => ?_) _ h1
  refine keeps_bind (keeps_handleLogs hc.toStill.base) (fun _ => keeps_bind (keeps_checkThreadErrors hc.toStill.base) (fun _ => ?_))
  exact keeps_bind (keeps_setCycles hc.toStill _) (fun _ => keeps_note hc.toStill rfl)

theorem rd_serveLoop : ∀ (n : Nat) (w : World), Rd env recall free b Running w → Rd env recall free b Running (serveLoop n w).2
  | 0, _, h => h
  | n + 1, w, h => by
    have hc := (calm_rd (env := env) (recall := recall) (free := free) (b := b) deaf_running).toStill.base
    unfold serveLoop
    refine keeps_bind (keeps_checkShutCond hc) (fun stop => keeps_ite (fun _ => keeps_pure _) (fun _ => ?_)) w h
    refine keeps_bind (keeps_hibernate hc) (fun _ => keeps_get_bind (fun w hw => ?_))
    by_cases hs : w.st.shutdown = true
    · rw [if_pos hs]; exact hw
    rw [if_neg hs]
    by_cases hr : w.st.restart = true
    · rw [if_pos hr]; exact hw
    rw [if_neg hr, bind_apply]
    have h1 := rd_cycle w hw (by simpa using hr) (by simpa using hs)
    rcases hx : runCycle w with ⟨r, w'⟩
    rw [hx] at h1
    cases r with
    | ok _ => exact rd_serveLoop n w' h1
    | raise _ => exact h1
    | cut => exact h1

/-- The loop raises `SchedulerRestart` only if a restart was asked for and no shutdown. -/
theorem loop_restart (hn : NoneRaised env) : ∀ (n : Nat) (w : World), w.env = env →
    (serveLoop n w).1 = .raise .restart → (serveLoop n w).2.st.restart = true ∧ (serveLoop n w).2.st.shutdown = false
  | 0, _, _ => fun h => nomatch h
  | n + 1, w, he => by
    have hb := base_envIs env
    unfold serveLoop
    rw [bind_apply]
    have hk := keeps_checkShutCond hb w he
    have hst : StaysUp env checkShutCond := by
      unfold checkShutCond
      refine stays_choose_bind (fun i => ?_)
      split
      · exact stays_pure _
      · exact stays_raise (by simp)
    have h1 := hst w he
    rcases hx : checkShutCond w with ⟨r, w1⟩
    rw [hx] at hk h1
    cases r with
    | raise x => intro h; exact absurd (by simpa using h) h1
    | cut => intro h; exact nomatch h
    | ok stop =>
      simp only at hk ⊢
      cases stop with
      | true => intro h; exact nomatch h
      | false =>
        simp only [Bool.false_eq_true, if_false]
        rw [bind_apply]
        have hk2 := keeps_hibernate hb w1 hk
        have hst2 : ∃ w2, hibernate w1 = (.ok (), w2) := ⟨_, rfl⟩
        obtain ⟨w2, hx2⟩ := hst2
        rw [hx2] at hk2 ⊢
        simp only [get_bind_apply] at hk2 ⊢
        by_cases hs : w2.st.shutdown = true
        · rw [if_pos hs]; intro h; exact nomatch h
        rw [if_neg hs]
        by_cases hr : w2.st.restart = true
        · rw [if_pos hr]; exact fun _ => ⟨hr, by simpa [raise] using hs⟩
        rw [if_neg hr, bind_apply]
        have h3 := stays_runCycle hn w2 hk2
        have hk3 := keeps_runCycle (steady_envIs env) (envIs_launch env) w2 hk2
        rcases hx3 : runCycle w2 with ⟨r, w3⟩
        rw [hx3] at h3 hk3
        cases r with
        | raise x => intro h; exact absurd (by simpa using h) h3
        | cut => intro h; exact nomatch h
        | ok _ => exact loop_restart hn n w3 hk3

/-- A round may begin. -/
def MayBegin (recall free : Bool) (p : Round) : Prop :=
  p.stage = .off ∨ (p.stage = .closing ∧ recall = true ∧ (p.due = true ∨ free = true))

/-- Everything came in order. -/
def InOrder (recall free : Bool) (b : List Obs) (w : World) : Prop := ∃ o p, w.trace = b ++ o ∧ rounds recall free o = some p

theorem Rd.inOrder {w : World} (h : Rd env recall free b X w) : InOrder recall free b w := by
  obtain ⟨_, o, p, h1, h2, _⟩ := h; exact ⟨o, p, h1, h2⟩

theorem rd_shutDown {again : M Unit} (ha : ∀ w, Rd env recall free b (Closing true) w ∨ (free = true ∧ ∃ d, Rd env recall free b (Closing d) w) →
      recall = true → InOrder recall free b (again w).2)
    (n : Nat) (e : Option Exc) (w : World) (h : Rd env recall free b Running w)
    (he : e = some .restart → free = true ∨ (w.st.restart = true ∧ w.st.shutdown = false)) :
    InOrder recall free b (shutDown again n e w).2 := by
  unfold shutDown
  rw [bind_apply]
  have hem : emit .shutdown w = (.ok (), { w with trace := w.trace ++ [.shutdown] }) := rfl
  rw [hem]
  simp only
  obtain ⟨d, hd, h1⟩ : ∃ d, (e = some .restart → free = true ∨ d = true) ∧ Rd env recall free b (Closing d) { w with trace := w.trace ++ [.shutdown] } := by
    obtain ⟨h0, o1, p, h1, h2, h3, h4, h5⟩ := h
    refine ⟨p.wanted && !p.asked, fun hx => ?_, h0, o1 ++ [.shutdown], { p with stage := .closing, due := p.wanted && !p.asked },
      by simp [h1], ?_, ⟨rfl, rfl⟩, h4, h5⟩
    · rcases he hx with h | ⟨ha, hb⟩
      · exact .inl h
      · right; rw [h4, h5, ha, hb]; rfl
    · rw [rounds_snoc, h2]
      exact if_pos h3
  have hc := calm_rd (env := env) (recall := recall) (free := free) (b := b) (deaf_closing d)
  have hb := hc.toStill.base
  have hk := keeps_tryFinally (keeps_tryFinally (keeps_runShutdownTasks hc (fun n => rd_launch (deaf_closing d) n _)) (keeps_shutDownTasks hb n e))
    (keeps_bind (keeps_waitAlive hb n) (fun _ => keeps_bind (keeps_handleLogs hb) (fun _ => keeps_checkThreadErrors hb))) _ h1
  rw [bind_apply]
  generalize (Sched.tryFinally (Sched.tryFinally runShutdownTasks (shutDownTasks n e)) (do waitAlive n; handleLogs; checkThreadErrors)
    { w with trace := w.trace ++ [.shutdown] }) = x at hk ⊢
  obtain ⟨r, w1⟩ := x
  cases r with
  | raise _ => exact hk.inOrder
  | cut => exact hk.inOrder
  | ok _ =>
    simp only at hk ⊢
    by_cases hr : e = some .restart
    · rw [if_pos hr, get_bind_apply]
      by_cases hrc : w1.st.cfg.recall = true
      · rw [if_pos hrc]
        refine ha w1 ?_ (by rw [← hk.1.2]; exact hrc)
        rcases hd hr with h | h
        · exact .inr ⟨h, d, hk⟩
        · rw [h] at hk; exact .inl hk
      · rw [if_neg hrc]
        exact (hb.note w1 .restarted rfl (by simp) hk).inOrder
    · rw [if_neg hr]; exact hk.inOrder

theorem rd_serve (hn : free = false → NoneRaised env) : ∀ (n : Nat) (w : World), w.env = env → w.st.cfg.recall = recall →
    (∃ o p, w.trace = b ++ o ∧ rounds recall free o = some p ∧ MayBegin recall free p) → InOrder recall free b (serve n w).2
  | 0, w, _, _, ⟨o, p, h1, h2, _⟩ => ⟨o, p, h1, h2⟩
  | n + 1, w, he, hrc, ⟨o, p, h1, h2, h3⟩ => by
    unfold serve
    rw [bind_apply]
    have hem : emit .serve w = (.ok (), { w with trace := w.trace ++ [.serve] }) := rfl
    rw [hem]
    simp only
    rw [bind_apply]
    obtain ⟨w1, hw1, hrd, he1⟩ : ∃ w1, clearFlags { w with trace := w.trace ++ [.serve] } = (.ok (), w1) ∧ Rd env recall free b Running w1 ∧ w1.env = env := by
      refine ⟨_, rfl, ⟨⟨he, hrc⟩, o ++ [.serve], ⟨.running, false, false, false⟩, ?_, ?_, rfl, rfl, rfl⟩, he⟩
      · show w.trace ++ [.serve] = _
        rw [h1, List.append_assoc]
      · rw [rounds_snoc, h2]; exact if_pos h3
    rw [hw1]
    simp only
    rw [bind_apply]
    have hc := calm_rd (env := env) (recall := recall) (free := free) (b := b) deaf_running
    have hbe := base_envIs env
    have hs := steady_envIs env
    obtain ⟨r, w2, hx, hrd2, he2, hre⟩ : ∃ r w2, (do startup; serveLoop n : M Unit) w1 = (r, w2) ∧ Rd env recall free b Running w2 ∧ w2.env = env ∧
        (r = .raise .restart → free = true ∨ (w2.st.restart = true ∧ w2.st.shutdown = false)) := by
      rw [bind_apply]
      have k1 := keeps_startup hc (fun n => rd_launch deaf_running n _) w1 hrd
      have k2 := keeps_startup hs.toCalm (fun n => envIs_launch env n _) w1 he1
      have k3 := fun hf => stays_startup (hn hf) w1 he1
      rcases hst : startup w1 with ⟨r, w2⟩
      rw [hst] at k1 k2 k3
      cases r with
      | raise x =>
        refine ⟨_, _, rfl, k1, k2, fun h => ?_⟩
        by_cases hf : free = true
        · exact .inl hf
        · exact absurd (by simpa using h) (k3 (by simpa using hf))
      | cut => exact ⟨_, _, rfl, k1, k2, fun h => nomatch h⟩
      | ok _ =>
        simp only at k1 k2 ⊢
        refine ⟨_, _, rfl, rd_serveLoop n w2 k1, keeps_serveLoop hs (envIs_launch env) n w2 k2, fun h => ?_⟩
        by_cases hf : free = true
        · exact .inl hf
        · exact .inr (loop_restart (hn (by simpa using hf)) n w2 k2 h)
    have hagain : ∀ e, (e = some .restart → free = true ∨ (w2.st.restart = true ∧ w2.st.shutdown = false)) →
        InOrder recall free b (shutDown (serve n) n e w2).2 := by
      intro e hne
      refine rd_shutDown (fun w3 h3 hr => ?_) n e w2 hrd2 hne
      rcases h3 with ⟨⟨k1, k2⟩, o3, p3, k3, k4, k5, _⟩ | ⟨hf, d, ⟨k1, k2⟩, o3, p3, k3, k4, k5, _⟩
      · exact rd_serve hn n w3 k1 k2 ⟨o3, p3, k3, k4, .inr ⟨k5.1, hr, .inl k5.2⟩⟩
      · exact rd_serve hn n w3 k1 k2 ⟨o3, p3, k3, k4, .inr ⟨k5.1, hr, .inr hf⟩⟩
    unfold attempt
    rw [hx]
    cases r with
    | cut => exact hrd2.inOrder
    | ok _ => exact hagain none (fun h => nomatch h)
    | raise x =>
      simp only at hre ⊢
      have rethrow : ∀ e : Exc, InOrder recall free b (shutDown (serve n) n (some e) w2).2 →
          InOrder recall free b ((do shutDown (serve n) n (some e); raise e : M Unit) w2).2 := by
        intro e h
        rw [bind_apply]
        rcases hy : shutDown (serve n) n (some e) w2 with ⟨r, w3⟩
        rw [hy] at h
        cases r <;> exact h
      cases x <;> first
        | (refine hagain _ (fun h => ?_); simp at h; done)
        | exact hagain _ (fun _ => hre rfl)
        | (refine rethrow _ (hagain _ (fun h => ?_)); simp at h; done)

theorem begun_snoc (l : List Obs) (o : Obs) : begun (l ++ [o]) = begun l + if o = .serve then 1 else 0 := by
  unfold begun
  rw [List.countP_append]
  by_cases h : o = .serve <;> simp [h]

theorem restartRequests_snoc (l : List Obs) (o : Obs) :
    restartRequests (l ++ [o]) = restartRequests l + if o = .env .restart then 1 else 0 := by
  unfold restartRequests
  rw [List.countP_append]
  by_cases h : o = .env .restart <;> simp [h]

/-- In every order of rounds there are no more rounds than one and one for each request. -/
theorem rounds_counted (recall : Bool) : ∀ (l : List Obs) (p : Round), rounds recall false l = some p →
    (p.due = true → p.wanted = true) ∧ (p.stage = .off → begun l = 0) ∧
      begun l + (if p.wanted then 1 else 0) ≤ restartRequests l + 1 ∧ (recall = false → begun l ≤ 1) := by
  intro l
  induction l using List.reverseRecOn with
  | nil =>
    intro p hp
    obtain rfl : (⟨.off, false, false, false⟩ : Round) = p := by simpa [rounds] using hp
    exact ⟨by simp, fun _ => rfl, by decide, fun _ => by decide⟩
  | append_singleton l o ih =>
    intro p hp
    rw [rounds_snoc] at hp
    rcases hl : rounds recall false l with _ | q
    · rw [hl] at hp; exact nomatch hp
    rw [hl] at hp
    have hp : q.step recall false o = some p := hp
    obtain ⟨h1, h2, h3, h4⟩ := ih q hl
    rw [begun_snoc, restartRequests_snoc]
    have plain : q = p → o ≠ .serve → o ≠ .env .restart → (p.due = true → p.wanted = true) ∧
        (p.stage = .off → begun l + (if o = .serve then 1 else 0) = 0) ∧
        begun l + (if o = .serve then 1 else 0) + (if p.wanted then 1 else 0) ≤ restartRequests l + (if o = .env .restart then 1 else 0) + 1 ∧
        (recall = false → begun l + (if o = .serve then 1 else 0) ≤ 1) := fun hq h6 h7 => by
      subst hq
      rw [if_neg h6, if_neg h7]
      exact ⟨h1, h2, h3, h4⟩
    cases o with
    | serve =>
      simp only [Round.step] at hp
      split at hp
      · rename_i hb
        cases hp
        refine ⟨by simp, by simp, ?_, ?_⟩
        · rcases hb with hb | ⟨hb, _, hd | hd⟩
          · have := h2 hb; simp; omega
          · have := h1 hd; rw [if_pos this] at h3; simp; omega
          · simp at hd
        · intro hr
          rcases hb with hb | ⟨_, hb, _⟩
          · have := h2 hb; simp; omega
          · rw [hr] at hb; simp at hb
      · simp at hp
    | cycle =>
      simp only [Round.step] at hp
      split at hp
      · exact plain (by simpa using hp) (by simp) (by simp)
      · simp at hp
    | shutdown =>
      simp only [Round.step] at hp
      split at hp
      · rename_i hb
        cases hp
        exact ⟨fun h => by simp at h; exact h.1, fun h => by simp at h, by simpa using h3, by simpa using h4⟩
      · simp at hp
    | env e =>
      cases e with
      | restart =>
        simp only [Round.step, Option.some.injEq] at hp
        subst hp
        refine ⟨fun _ => rfl, by simpa using h2, ?_, by simpa using h4⟩
        simp only [if_pos, reduceCtorEq, if_false]
        split at h3 <;> simp <;> omega
      | shutDown f =>
        simp only [Round.step, Option.some.injEq] at hp
        subst hp
        exact ⟨h1, by simpa using h2, by simpa using h3, by simpa using h4⟩
      | _ => exact plain (by simpa [Round.step] using hp) (by simp) (by simp)
    | _ => exact plain (by simpa [Round.step] using hp) (by simp) (by simp)

/-- C86.  In a call of `serve` everything comes in order: a round begins only first of all or (if the scheduler is
configured to be called again) after the shutdown of a round in which a restart was asked for, but no shutdown, before its
shutdown began; and no cycle begins after either request was made in the round. -/
theorem C86_rounds_partial (n : Nat) (w : World) (hn : NoneRaised w.env) :
    ∃ o p, (serve n w).2.trace = w.trace ++ o ∧ rounds w.st.cfg.recall false o = some p :=
  rd_serve (env := w.env) (b := w.trace) (free := false) (fun _ => hn) n w rfl rfl ⟨[], _, by simp, rfl, .inl rfl⟩

/-- C86, if tasks raise `SchedulerRestart` themselves: there still is one shutdown between any two rounds, and no cycle
begins after a request in the round. -/
theorem C86_raised_partial (n : Nat) (w : World) :
    ∃ o p, (serve n w).2.trace = w.trace ++ o ∧ rounds w.st.cfg.recall true o = some p :=
  rd_serve (env := w.env) (b := w.trace) (free := true) (fun h => by simp at h) n w rfl rfl ⟨[], _, by simp, rfl, .inl rfl⟩

/-- C86.  Each request to restart leads to at most one further round; without `recall` there is none. -/
theorem C86_count (n : Nat) (w : World) (hn : NoneRaised w.env) :
    ∃ o, (serve n w).2.trace = w.trace ++ o ∧ begun o ≤ restartRequests o + 1 ∧ (w.st.cfg.recall = false → begun o ≤ 1) := by
  obtain ⟨o, p, h1, h2⟩ := C86_rounds_partial n w hn
  obtain ⟨_, _, h3, h4⟩ := rounds_counted _ o p h2
  exact ⟨o, h1, by omega, h4⟩

/-! ## Examples -/

/-- A session that is called again. -/
def recalled (l : List TaskSt) : Sys := { sessionOf 1 false l with cfg := { (sessionOf 1 false l).cfg with recall := true } }

/-- The events happen. -/
def happening (l : List EnvEv) : Choice := ⟨l, some false, none, 0⟩

/-- A restart is asked for after a cycle; in the second round the condition for shutting down is true after a cycle. -/
def restartOnce : List Choice :=
  [quiet false, quiet false, quiet false, quiet false, happening [.restart], quiet false, quiet false, quiet false, quiet false, quiet true]

/-- Two rounds with one cycle each. -/
example : NoneRaised (envOf restartOnce) ∧ (serve 6 (World.init (recalled []) (envOf restartOnce))).1 = .ok () ∧
    (serve 6 (World.init (recalled []) (envOf restartOnce))).2.trace =
      [.serve, .cycle, .cycleDone, .env .restart, .shutdown, .serve, .cycle, .cycleDone, .shutdown] := by
  refine ⟨fun i => ?_, by decide +kernel, by decide +kernel⟩
  have h : ∀ c ∈ restartOnce, c.fault ≠ some (.exc .restart) := by decide
  unfold envOf
  rw [List.getD_eq_getElem?_getD]
  rcases hc : restartOnce[i]? with _ | c
  · simp [quiet]
  · exact h c (List.mem_of_getElem? hc)

/-- A request to restart and one to shut down: no further round. -/
example : (serve 6 (World.init (recalled []) (envOf [quiet false, happening [.restart, .shutDown none]]))).2.trace =
    [.serve, .env .restart, .env (.shutDown none), .shutdown] := by decide +kernel

/-- C86: a request to shut down is not final.  It is forgotten if it is made while the scheduler shuts down for a restart:
`serve` clears the flags (schedule.py:112-114), and the cycles go on. -/
theorem C86_forgotten_violated : ∃ (s : Sys) (env : Nat → Choice), Fresh s ∧ (∀ i, (env i).fault = none) ∧
    ∃ l l', (serve 4 (World.init s env)).2.trace = l ++ .env (.shutDown none) :: .serve :: .cycle :: l' := by
  refine ⟨recalled [], envOf [quiet false, happening [.restart], happening [.shutDown none]], by decide, fun i => ?_,
    [.serve, .env .restart, .shutdown], [.cycleDone, .cycle, .cycleDone], by decide +kernel⟩
  match i with
  | 0 => rfl
  | 1 => rfl
  | 2 => rfl
  | i + 3 => rfl

/-- While the task `a` runs, shutdown is requested; then it raises `SchedulerRestart`. -/
def lateRestart : List Choice :=
  [quiet false, quiet false, quiet false, quiet false, quiet false, ⟨[.shutDown none], some false, some (.exc .restart), 0⟩]

/-- C86: nor does a request to shut down win over a task that raises `SchedulerRestart` in the same cycle. -/
theorem C86_late_violated : ∃ (s : Sys) (env : Nat → Choice), Fresh s ∧
    ∃ l l', (serve 4 (World.init s env)).2.trace = l ++ .env (.shutDown none) :: .mainEnded "a" 0 :: .shutdown :: .serve :: l' ∧ .cycle ∈ l' := by
  refine ⟨recalled [requested (idleTask "a" .main)], envOf lateRestart, by decide,
    (serve 4 (World.init (recalled [requested (idleTask "a" .main)]) (envOf lateRestart))).2.trace.take 7,
    (serve 4 (World.init (recalled [requested (idleTask "a" .main)]) (envOf lateRestart))).2.trace.drop 11, ?_, ?_⟩ <;> decide +kernel

end Rocketry.Props
