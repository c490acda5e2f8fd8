import Verif.Sched.Scheduler

/-!
# Invariants of executions
-/

namespace Rocketry.Sched

variable {α β : Type}

/-- The world after something is observed. -/
def World.observe (w : World) (o : Obs) : World := { w with trace := w.trace ++ [o] }

/-- Whatever its result, `m` keeps `I`. -/
def Keeps (I : World → Prop) (m : M α) : Prop := ∀ w, I w → I (m w).2

/-- From a world with `I` and `P`, `m` keeps `I`, and a result `a` comes with `Q a`. -/
def Triple (I P : World → Prop) (m : M α) (Q : α → World → Prop) : Prop :=
  ∀ w, I w → P w → I (m w).2 ∧ ∀ a, (m w).1 = .ok a → Q a (m w).2

variable {I P R : World → Prop}

theorem bind_apply (m : M α) (k : α → M β) (w : World) :
    (m >>= k) w = match m w with
      | (.ok a, w') => k a w'
      | (.raise e, w') => (.raise e, w')
      | (.cut, w') => (.cut, w') := rfl

theorem pure_apply (a : α) (w : World) : (pure a : M α) w = (.ok a, w) := rfl

theorem get_apply (w : World) : get w = (.ok w.st, w) := rfl

theorem get_bind_apply (k : Sys → M β) (w : World) : (get >>= k) w = k w.st w := rfl

theorem pure_bind_apply (a : α) (k : α → M β) (w : World) : ((pure a : M α) >>= k) w = k a w := rfl

theorem keeps_pure (a : α) : Keeps I (pure a : M α) := fun _ h => h
theorem keeps_raise (e : Exc) : Keeps I (raise e : M α) := fun _ h => h
theorem keeps_cut : Keeps I (cut : M α) := fun _ h => h
theorem keeps_get : Keeps I get := fun _ h => h

theorem keeps_bind {m : M α} {k : α → M β} (hm : Keeps I m) (hk : ∀ a, Keeps I (k a)) : Keeps I (m >>= k) := by
  intro w hw
  have h := hm w hw
  rw [bind_apply]
  rcases hm' : m w with ⟨r, w'⟩
  rw [hm'] at h
  cases r with
  | ok a => exact hk a w' h
  | raise e => exact h
  | cut => exact h

theorem keeps_get_bind {k : Sys → M β} (h : ∀ w, I w → I (k w.st w).2) : Keeps I (get >>= k) := h

theorem keeps_tryCatch {m : M α} {h : Exc → M α} (hm : Keeps I m) (hh : ∀ e, Keeps I (h e)) :
    Keeps I (tryCatch m h) := by
  intro w hw
  have h1 := hm w hw
  unfold tryCatch
  rcases hm' : m w with ⟨r, w'⟩
  rw [hm'] at h1
  cases r with
  | ok a => exact h1
  | raise e => exact hh e w' h1
  | cut => exact h1

theorem keeps_tryFinally {m q : M Unit} (hm : Keeps I m) (hq : Keeps I q) : Keeps I (tryFinally m q) := by
  intro w hw
  have h1 := hm w hw
  unfold tryFinally
  rcases hm' : m w with ⟨r, w'⟩
  rw [hm'] at h1
  have h2 := hq w' h1
  cases r with
  | cut => exact h1
  | ok a =>
    rcases hq' : q w' with ⟨r', w''⟩
    rw [hq'] at h2
    simp only [hq']
    cases r' <;> exact h2
  | raise e =>
    rcases hq' : q w' with ⟨r', w''⟩
    rw [hq'] at h2
    simp only [hq']
    cases r' <;> exact h2

theorem keeps_attempt {m : M Unit} (hm : Keeps I m) : Keeps I (attempt m) := by
  intro w hw
  have h1 := hm w hw
  unfold attempt
  rcases hm' : m w with ⟨r, w'⟩
  rw [hm'] at h1
  cases r <;> exact h1

theorem keeps_forEach {l : List α} {f : α → M Unit} (hf : ∀ a ∈ l, Keeps I (f a)) : Keeps I (forEach l f) := by
  induction l with
  | nil => exact keeps_pure ()
  | cons a l ih =>
    exact keeps_bind (hf a (List.mem_cons_self ..)) (fun _ => ih (fun b hb => hf b (List.mem_cons_of_mem _ hb)))

theorem keeps_ite {c : Prop} [Decidable c] {m k : M α} (hm : c → Keeps I m) (hk : ¬ c → Keeps I k) :
    Keeps I (if c then m else k) := by
  by_cases h : c
  · rw [if_pos h]; exact hm h
  · rw [if_neg h]; exact hk h

/-- `s = get(); put(f s)`. -/
theorem keeps_modify {f : Sys → Sys} (h : ∀ w, I w → I { w with st := f w.st, hist := w.st :: w.hist }) :
    Keeps I (do let s ← get; put (f s)) := fun w hw => h w hw

theorem keeps_change {name : String} {f : TaskSt → TaskSt}
    (h : ∀ w, I w → I { w with st := w.st.upd name f, hist := w.st :: w.hist }) : Keeps I (change name f) :=
  fun w hw => h w hw

theorem foldl_happen (h : ∀ w e, I w → I (w.happen e)) (l : List EnvEv) : ∀ w, I w → I (l.foldl World.happen w) := by
  induction l with
  | nil => exact fun _ h => h
  | cons e l ih => exact fun w hw => ih _ (h w e hw)

theorem foldl_happen_mem (l : List EnvEv) (h : ∀ e ∈ l, ∀ w, I w → I (w.happen e)) :
    ∀ w, I w → I (l.foldl World.happen w) := by
  induction l with
  | nil => exact fun _ h => h
  | cons e l ih =>
    exact fun w hw => ih (fun e he => h e (List.mem_cons_of_mem _ he)) _ (h e (List.mem_cons_self ..) w hw)

theorem foldl_happen_env (l : List EnvEv) (w : World) :
    (l.foldl World.happen w).env = w.env ∧ (l.foldl World.happen w).pos = w.pos := by
  induction l generalizing w with
  | nil => exact ⟨rfl, rfl⟩
  | cons e l ih => exact ih (w.happen e)

theorem triple_bind {m : M α} {k : α → M β} {Q : α → World → Prop} {S : β → World → Prop}
    (hm : Triple I P m Q) (hk : ∀ a, Triple I (Q a) (k a) S) : Triple I P (m >>= k) S := by
  intro w hw hp
  have h := hm w hw hp
  rw [bind_apply]
  rcases hm' : m w with ⟨r, w'⟩
  rw [hm'] at h
  cases r with
  | ok a => exact hk a w' h.1 (h.2 a rfl)
  | raise e => exact ⟨h.1, fun a ha => by simp at ha⟩
  | cut => exact ⟨h.1, fun a ha => by simp at ha⟩

theorem Triple.keeps {m : M α} {Q : α → World → Prop} (h : Triple I (fun _ => True) m Q) : Keeps I m :=
  fun w hw => (h w hw trivial).1

theorem Triple.weaken {m : M α} {P' : World → Prop} {Q Q' : α → World → Prop} (h : Triple I P m Q)
    (hp : ∀ w, I w → P' w → P w) (hq : ∀ a w, I w → Q a w → Q' a w) : Triple I P' m Q' :=
  fun w hw hp' => ⟨(h w hw (hp w hw hp')).1, fun a ha => hq a _ (h w hw (hp w hw hp')).1 ((h w hw (hp w hw hp')).2 a ha)⟩

theorem triple_get : Triple I P get (fun s w => s = w.st ∧ P w) :=
  fun w hw hp => ⟨hw, fun a ha => by simp only [get, Res.ok.injEq] at ha; exact ⟨ha.symm, hp⟩⟩

theorem keeps_put {s : Sys} (h : ∀ w, I w → I { w with st := s, hist := w.st :: w.hist }) : Keeps I (put s) := h

theorem keeps_emit {o : Obs} (h : ∀ w, I w → I { w with trace := w.trace ++ [o] }) : Keeps I (emit o) := h

/-! ## Everything but the starts of runs -/

/-- Changes of the session that the scheduler makes other than starting a run. -/
inductive Tidy : Sys → Sys → Prop where
  | clean (s : Sys) (n : String) (cfg : Config) : Tidy s (s.upd n (TaskSt.clean cfg))
  | finish (s : Sys) (n : String) (id : Nat) (exc : Bool) :
      Tidy s (s.upd n (fun t => { t with stack := endRun id exc t.stack }))
  | reset (s : Sys) (n : String) (cfg : Config) : Tidy s (s.upd n (fun t => { t.clean cfg with forceTerm := false }))
  | erase (s : Sys) (n : String) (r : Run) :
      Tidy s (s.upd n (fun t => { t with stack := t.stack.eraseP (fun x => decide (x = r)) }))
  | cycles (s : Sys) (k : Nat) : Tidy s { s with nCycles := k }

/-- Observations other than starts, the removal of requests and the beginnings of the parts of an execution. -/
def Obs.plain : Obs → Bool
  | .inspected _ => true
  | .terminated .. => true
  | .cycleDone => true
  | .restarted => true
  | .checked .. => true
  | .cached _ => true
  | .failedSetup _ => true
  | .mainEnded .. => true
  | _ => false

/-- The beginnings of the parts of an execution. -/
def Obs.mark : Obs → Bool
  | .serve => true
  | .cycle => true
  | .shutdown => true
  | _ => false

/-- `I` survives everything within a part of an execution but starts and requests made by the scheduler. -/
structure Still (I : World → Prop) : Prop where
  pos : ∀ w p, I w → I { w with pos := p }
  env : ∀ w i e, I w → e ∈ (w.env i).events → I (w.happen e)
  note : ∀ w o, o.plain = true → I w → I { w with trace := w.trace ++ [o] }
  move : ∀ w s, Tidy w.st s → I w → I { w with st := s, hist := w.st :: w.hist }

/-- `I` survives everything within a part of an execution but starts, requests made by the scheduler and the counting
of cycles. -/
structure Base (I : World → Prop) : Prop where
  pos : ∀ w p, I w → I { w with pos := p }
  env : ∀ w i e, I w → e ∈ (w.env i).events → I (w.happen e)
  note : ∀ w o, o.plain = true → o ≠ .cycleDone → I w → I { w with trace := w.trace ++ [o] }
  move : ∀ w s, Tidy w.st s → s.nCycles = w.st.nCycles → I w → I { w with st := s, hist := w.st :: w.hist }

theorem Still.base {I : World → Prop} (h : Still I) : Base I :=
  ⟨h.pos, h.env, fun w o ho _ hw => h.note w o ho hw, fun w s ht _ hw => h.move w s ht hw⟩

instance {I : World → Prop} : Coe (Still I) (Base I) := ⟨Still.base⟩

/-- `I` survives everything within a part of an execution but starts. -/
structure Calm (I : World → Prop) : Prop extends Still I where
  request : ∀ w n, (∃ t, w.st.find n = some t ∧ t.disabled = false) → I w → I (w.happen (.request n []))

instance {I : World → Prop} : Coe (Calm I) (Still I) := ⟨Calm.toStill⟩

/-- `I` survives everything but starts. -/
structure Steady (I : World → Prop) : Prop extends Calm I where
  mark : ∀ w o, o.mark = true → I w → I { w with trace := w.trace ++ [o] }
  flags : ∀ w, I w →
    I { w with st := { w.st with shutdown := false, restart := false, enabled := true }, hist := w.st :: w.hist }

section Base
variable (hs : Base I)
include hs

theorem keeps_choose : Keeps I choose := by
  intro w hw
  have h1 := hs.pos w (w.pos + 1) hw
  have : ∀ (l : List EnvEv), (∀ e ∈ l, e ∈ (w.env w.pos).events) → ∀ v : World, v.env = w.env → I v →
      I (l.foldl World.happen v) := by
    intro l
    induction l with
    | nil => exact fun _ _ _ h => h
    | cons e l ih =>
      intro hl v hv h
      refine ih (fun e he => hl e (List.mem_cons_of_mem _ he)) _ hv (hs.env v w.pos e h ?_)
      rw [hv]
      exact hl e (List.mem_cons_self ..)
  exact this _ (fun e he => he) { w with pos := w.pos + 1 } rfl h1

theorem keeps_remark {o : Obs} (h : o.plain = true) (hc : o ≠ .cycleDone) : Keeps I (emit o) := fun w hw => hs.note w o h hc hw

theorem keeps_terminateRun (name : String) (id : Nat) : Keeps I (terminateRun name id) := by
  unfold terminateRun
  refine keeps_bind keeps_get (fun s => ?_)
  split
  · exact keeps_pure _
  · split
    · exact keeps_pure _
    · split
      · exact keeps_raise _
      · exact keeps_remark hs rfl (by simp)
      · refine keeps_bind (keeps_remark hs rfl (by simp)) (fun _ => keeps_bind (keeps_choose hs) (fun c => ?_))
        refine keeps_bind (keeps_change (fun w hw => hs.move w _ (.finish _ _ _ _) rfl hw)) (fun _ => ?_)
        split
        · exact keeps_raise _
        · exact keeps_ite (fun _ => keeps_raise _) (fun _ => keeps_pure _)
        · exact keeps_pure _

theorem keeps_terminateAll (name : String) : Keeps I (terminateAll name) := by
  unfold terminateAll
  refine keeps_bind keeps_get (fun s => ?_)
  split
  · exact keeps_pure _
  · exact keeps_bind (keeps_forEach (fun _ _ => keeps_terminateRun hs _ _))
      (fun _ => keeps_change (fun w hw => hs.move w _ (.reset _ _ _) rfl hw))

theorem keeps_terminateOld (name : String) (now limit : Int) (id : Nat) : Keeps I (terminateOld name now limit id) := by
  unfold terminateOld
  refine keeps_bind keeps_get (fun s => ?_)
  split
  · exact keeps_pure _
  · split
    · exact keeps_pure _
    · exact keeps_ite (fun _ => keeps_terminateRun hs _ _) (fun _ => keeps_pure _)

theorem keeps_checkTermination (name : String) : Keeps I (checkTermination name) := by
  unfold checkTermination
  refine keeps_bind (keeps_choose hs) (fun c => keeps_bind keeps_get (fun s => ?_))
  split
  · exact keeps_pure _
  · split
    · exact keeps_ite (fun _ => keeps_terminateAll hs _) (fun _ => keeps_raise _)
    · refine keeps_ite (fun _ => keeps_terminateAll hs _) (fun _ => ?_)
      refine keeps_ite (fun _ => keeps_terminateAll hs _) (fun _ => ?_)
      exact keeps_ite (fun _ => keeps_pure _) (fun _ => keeps_forEach (fun _ _ => keeps_terminateOld hs _ _ _ _))

theorem keeps_handleLogs : Keeps I handleLogs := by
  unfold handleLogs
  refine keeps_bind (keeps_choose hs) (fun c => keeps_bind keeps_get (fun s => ?_))
  split
  · exact keeps_ite (fun _ => keeps_pure _) (fun _ => keeps_raise _)
  · exact keeps_raise _
  · exact keeps_pure _

theorem keeps_checkExceptions (name : String) : Keeps I (checkExceptions name) := by
  unfold checkExceptions
  refine keeps_bind keeps_get (fun s => ?_)
  split
  · exact keeps_pure _
  · split
    · exact keeps_pure _
    · exact keeps_bind (keeps_change (fun w hw => hs.move w _ (.erase _ _ _) rfl hw)) (fun _ => keeps_raise _)

theorem keeps_checkThreadErrors : Keeps I checkThreadErrors := by
  unfold checkThreadErrors
  refine keeps_bind keeps_get (fun s => ?_)
  exact keeps_ite (fun _ => keeps_pure _) (fun _ => keeps_forEach (fun _ _ => keeps_checkExceptions hs _))

theorem keeps_isTaskRunnable (name : String) : Keeps I (isTaskRunnable name) := by
  unfold isTaskRunnable
  refine keeps_bind keeps_get (fun s => ?_)
  split
  · exact keeps_raise _
  · refine keeps_ite (fun _ => keeps_pure _) (fun _ => keeps_ite (fun _ => keeps_pure _) (fun _ => ?_))
    unfold checkTaskCond isRunnable
    refine keeps_tryCatch ?_ (fun e => keeps_bind keeps_get (fun s => keeps_ite (fun _ => keeps_pure _) (fun _ => keeps_raise _)))
    refine keeps_ite (fun _ => keeps_bind (keeps_remark hs rfl (by simp)) (fun _ => keeps_pure _))
      (fun _ => keeps_ite (fun _ => keeps_pure _) (fun _ => ?_))
    refine keeps_bind (keeps_choose hs) (fun c => keeps_bind (keeps_remark hs rfl (by simp)) (fun _ => ?_))
    split
    · exact keeps_pure _
    · exact keeps_raise _

theorem keeps_cleanRunStack (name : String) : Keeps I (cleanRunStack name) :=
  fun w hw => hs.move w _ (.clean _ _ _) rfl hw

theorem keeps_hibernate : Keeps I hibernate := keeps_bind (keeps_choose hs) (fun _ => keeps_pure _)

theorem keeps_schedTerminateAll : Keeps I schedTerminateAll := by
  unfold schedTerminateAll
  refine keeps_bind keeps_get (fun s => keeps_forEach (fun n _ => ?_))
  unfold terminateIfAlive
  refine keeps_bind keeps_get (fun s => ?_)
  split
  · exact keeps_pure _
  · exact keeps_ite (fun _ => keeps_terminateAll hs _) (fun _ => keeps_pure _)

theorem keeps_waitFinish : ∀ n, Keeps I (waitFinish n)
  | 0 => keeps_cut
  | n + 1 => by
    unfold waitFinish
    refine keeps_bind keeps_get (fun s => keeps_ite (fun _ => keeps_pure _) (fun _ => ?_))
    refine keeps_bind (keeps_hibernate hs) (fun _ => keeps_bind (keeps_handleLogs hs) (fun _ => ?_))
    refine keeps_bind keeps_get (fun s => keeps_bind (keeps_forEach (fun t _ => ?_)) (fun _ => keeps_waitFinish n))
    exact keeps_ite (fun _ => keeps_terminateAll hs _) (fun _ => keeps_checkTermination hs _)

theorem keeps_shutDownTasks : ∀ n e, Keeps I (shutDownTasks n e)
  | 0, _ => by unfold shutDownTasks; exact keeps_cut
  | n + 1, e => by
    unfold shutDownTasks
    refine keeps_bind keeps_get (fun s => keeps_ite (fun _ => ?_) (fun _ => keeps_schedTerminateAll hs))
    refine keeps_tryCatch (keeps_waitFinish hs n) (fun e' => ?_)
    cases e' <;> first
      | exact keeps_raise _
      | exact keeps_bind (keeps_shutDownTasks n _) (fun _ => keeps_raise _)

theorem keeps_waitAlive : ∀ n, Keeps I (waitAlive n)
  | 0 => keeps_cut
  | n + 1 => by
    unfold waitAlive
    exact keeps_bind keeps_get (fun s =>
      keeps_ite (fun _ => keeps_bind (keeps_hibernate hs) (fun _ => keeps_waitAlive n)) (fun _ => keeps_pure _))

theorem keeps_checkShutCond : Keeps I checkShutCond := by
  unfold checkShutCond
  refine keeps_bind (keeps_choose hs) (fun c => ?_)
  split
  · exact keeps_pure _
  · exact keeps_raise _

theorem keeps_inspectTask' {name : String} (hc : Keeps I (consider name)) : Keeps I (inspectTask name) := by
  unfold inspectTask
  refine keeps_bind (keeps_remark hs rfl (by simp)) (fun _ => keeps_bind (keeps_handleLogs hs) (fun _ => ?_))
  exact keeps_bind (keeps_cleanRunStack hs _) (fun _ => keeps_bind hc (fun _ => keeps_checkTermination hs _))

theorem keeps_inspectTask (hl : ∀ name, Keeps I (launch name .cycle)) (name : String) : Keeps I (inspectTask name) := by
  apply keeps_inspectTask' hs
  unfold consider
  refine keeps_bind keeps_get (fun s => ?_)
  split
  · exact keeps_pure _
  · exact keeps_ite (fun _ => keeps_pure _) (fun _ => keeps_ite (fun _ => hl name) (fun _ => keeps_pure _))

end Base

section Still
variable (hs : Still I)
include hs

theorem keeps_note {o : Obs} (h : o.plain = true) : Keeps I (emit o) := fun w hw => hs.note w o h hw

theorem keeps_setCycles (f : Nat → Nat) : Keeps I (setCycles f) := fun w hw => hs.move w _ (.cycles _ _) hw

end Still

/-- `Base` with the requests made by the scheduler. -/
structure Mid (I : World → Prop) : Prop extends Base I where
  request : ∀ w n, (∃ t, w.st.find n = some t ∧ t.disabled = false) → I w → I (w.happen (.request n []))

theorem Calm.mid {I : World → Prop} (h : Calm I) : Mid I := ⟨h.toStill.base, h.request⟩

section Mid
variable (hs : Mid I)
include hs

theorem keeps_requestFirst' (t : TaskSt) : Keeps I (requestFirst t) := by
  unfold requestFirst
  refine keeps_ite (fun _ => keeps_get_bind (fun w hw => ?_)) (fun _ => keeps_pure _)
  rcases hf : w.st.find t.name with _ | u
  · exact hw
  · simp only
    by_cases hd : u.disabled = true
    · rw [if_pos hd]; exact hw
    · have hn : u.name = t.name := by simpa using List.find?_some hf
      rw [if_neg hd]
      exact hs.request w _ ⟨u, by rw [hn]; exact hf, by simpa using hd⟩ hw

theorem keeps_startSpecial' (part : Part) (t : TaskSt) (hl : Keeps I (launch t.name part)) : Keeps I (startSpecial part t) :=
  keeps_bind (keeps_requestFirst' hs t) (fun _ => hl)

theorem keeps_startupTask' (t : TaskSt) (hl : Keeps I (launch t.name .startup)) : Keeps I (startupTask t) := by
  unfold startupTask
  refine keeps_bind (keeps_choose hs.toBase) (fun c => keeps_bind keeps_get (fun s => keeps_bind (keeps_remark hs.toBase rfl (by simp)) (fun _ => ?_)))
  exact keeps_ite (fun _ => keeps_raise _)
    (fun _ => keeps_ite (fun _ => keeps_startSpecial' hs _ t hl) (fun _ => keeps_pure _))

theorem keeps_runShutdownTasks' (hl : ∀ name, Keeps I (launch name .shutdown)) : Keeps I runShutdownTasks := by
  unfold runShutdownTasks
  refine keeps_bind keeps_get (fun s => keeps_forEach (fun t _ => ?_))
  exact keeps_ite (fun _ => keeps_startSpecial' hs _ t (hl _)) (fun _ => keeps_pure _)

theorem keeps_shutDown' (hl : ∀ name, Keeps I (launch name .shutdown)) (hm : Keeps I (emit .shutdown)) {again : M Unit}
    (ha : Keeps I again) (n : Nat) (e : Option Exc) : Keeps I (shutDown again n e) := by
  unfold shutDown
  refine keeps_bind hm (fun _ => keeps_bind ?_ (fun _ => ?_))
  · refine keeps_tryFinally (keeps_tryFinally (keeps_runShutdownTasks' hs hl) (keeps_shutDownTasks hs.toBase n e)) ?_
    exact keeps_bind (keeps_waitAlive hs.toBase n)
      (fun _ => keeps_bind (keeps_handleLogs hs.toBase) (fun _ => keeps_checkThreadErrors hs.toBase))
  · exact keeps_ite (fun _ => keeps_bind keeps_get
      (fun s => keeps_ite (fun _ => ha) (fun _ => keeps_remark hs.toBase rfl (by simp)))) (fun _ => keeps_pure _)

end Mid

section Calm
variable (hs : Calm I)
include hs

theorem keeps_requestFirst (t : TaskSt) : Keeps I (requestFirst t) := keeps_requestFirst' hs.mid t

theorem keeps_startSpecial (part : Part) (t : TaskSt) (hl : Keeps I (launch t.name part)) : Keeps I (startSpecial part t) :=
  keeps_startSpecial' hs.mid part t hl

theorem keeps_startupTask (t : TaskSt) (hl : Keeps I (launch t.name .startup)) : Keeps I (startupTask t) :=
  keeps_startupTask' hs.mid t hl

theorem keeps_startup (hl : ∀ name, Keeps I (launch name .startup)) : Keeps I startup := by
  unfold startup
  refine keeps_bind (keeps_setCycles hs.toStill _) (fun _ => keeps_bind keeps_get (fun s => keeps_forEach (fun t _ => ?_)))
  exact keeps_startupTask hs t (hl _)

theorem keeps_runShutdownTasks (hl : ∀ name, Keeps I (launch name .shutdown)) : Keeps I runShutdownTasks :=
  keeps_runShutdownTasks' hs.mid hl

end Calm

variable (hs : Steady I)
include hs

theorem keeps_clearFlags : Keeps I clearFlags := fun w hw => hs.flags w hw

theorem keeps_mark {o : Obs} (h : o.mark = true) : Keeps I (emit o) := fun w hw => hs.mark w o h hw

variable (hl : ∀ name part, Keeps I (launch name part))
include hl

theorem keeps_runCycle : Keeps I runCycle := by
  unfold runCycle
  refine keeps_bind keeps_get (fun s => keeps_bind (keeps_mark hs rfl) (fun _ => ?_))
  refine keeps_bind (keeps_forEach (fun _ _ => keeps_inspectTask hs.toCalm (fun n => hl n _) _)) (fun _ => ?_)
  refine keeps_bind (keeps_handleLogs hs.toCalm) (fun _ => keeps_bind (keeps_checkThreadErrors hs.toCalm) (fun _ => ?_))
  exact keeps_bind (keeps_setCycles hs.toCalm _) (fun _ => keeps_note hs.toCalm rfl)

theorem keeps_shutDown {again : M Unit} (ha : Keeps I again) (n : Nat) (e : Option Exc) :
    Keeps I (shutDown again n e) :=
  keeps_shutDown' hs.toCalm.mid (fun n => hl n _) (keeps_mark hs rfl) ha n e

theorem keeps_serveLoop : ∀ n, Keeps I (serveLoop n)
  | 0 => keeps_cut
  | n + 1 => by
    unfold serveLoop
    refine keeps_bind (keeps_checkShutCond hs.toCalm) (fun b => keeps_ite (fun _ => keeps_pure _) (fun _ => ?_))
    refine keeps_bind (keeps_hibernate hs.toCalm) (fun _ => keeps_bind keeps_get (fun s => ?_))
    refine keeps_ite (fun _ => keeps_pure _) (fun _ => keeps_ite (fun _ => keeps_raise _) (fun _ => ?_))
    exact keeps_bind (keeps_runCycle hs hl) (fun _ => keeps_serveLoop n)

/-- An invariant that survives everything but starts, and starts, holds throughout. -/
theorem keeps_serve : ∀ n, Keeps I (serve n)
  | 0 => keeps_cut
  | n + 1 => by
    have hd := fun e => keeps_shutDown hs hl (keeps_serve n) n e
    unfold serve
    refine keeps_bind (keeps_mark hs rfl) (fun _ => keeps_bind (keeps_clearFlags hs) (fun _ => ?_))
    refine keeps_bind (keeps_attempt (keeps_bind (keeps_startup hs.toCalm (fun n => hl n _))
      (fun _ => keeps_serveLoop hs hl n))) (fun e => ?_)
    split <;> first
      | exact hd _
      | exact keeps_bind (hd _) (fun _ => keeps_raise _)

theorem keeps_sessions (ks : List Nat) : Keeps I (sessions ks) :=
  keeps_forEach (fun k _ => keeps_bind (keeps_attempt (keeps_serve hs hl k)) (fun _ => keeps_pure _))

end Rocketry.Sched
