import Verif.Spec.HookedSpec
import Verif.Sched.Emits

/-!
# C87: hooks around the startup, the cycles and the shutdown
-/

namespace Rocketry.Props
open Spec Sched

variable {α β : Type}

/-! ## What the parts without hooks show -/

/-- Not the beginning or end of a part. -/
def Inner : Obs → Prop
  | .serve => False
  | .cycle => False
  | .cycleDone => False
  | .shutdown => False
  | .restarted => False
  | _ => True

theorem inner_env (e : EnvEv) : Inner (.env e) := trivial

theorem emits_cut : Emits Inner (cut : M α) := emits_same (fun _ => rfl)

theorem emits_tryFinally {m q : M Unit} (hm : Emits Inner m) (hq : Emits Inner q) : Emits Inner (Sched.tryFinally m q) := by
  intro w
  unfold Sched.tryFinally
  obtain ⟨o, ho, hp⟩ := hm w
  rcases hr : m w with ⟨r, w'⟩
  rw [hr] at ho
  have hfin : ∃ o, (q w').2.trace = w.trace ++ o ∧ ∀ x ∈ o, Inner x := by
    obtain ⟨o', ho', hp'⟩ := hq w'
    refine ⟨o ++ o', by simp only at ho; rw [ho', ho, List.append_assoc], fun x hx => ?_⟩
    exact (List.mem_append.1 hx).elim (hp x) (hp' x)
  cases r with
  | cut => exact ⟨o, ho, hp⟩
  | ok a =>
    simp only
    rcases hr' : q w' with ⟨r', w''⟩
    rw [hr'] at hfin
    cases r' <;> exact hfin
  | raise e =>
    simp only
    rcases hr' : q w' with ⟨r', w''⟩
    rw [hr'] at hfin
    cases r' <;> exact hfin

theorem emits_launch (name : String) (part : Part) : Emits Inner (launch name part) := by
  unfold launch
  refine emits_bind (emits_isTaskRunnable inner_env name (fun _ _ => trivial)) (fun b => emits_ite ?_ (emits_pure _))
  unfold runTask
  refine emits_tryCatch ?_ (fun e => emits_bind emits_get (fun s => ?_))
  · unfold startAsync
    refine emits_bind (emits_choose inner_env) (fun c => emits_bind emits_get (fun s => ?_))
    split
    · exact emits_raise _
    · rename_i t _
      have hfail : Emits Inner (do emit (.failedSetup name); raise .setup : M Unit) :=
        emits_bind (emits_emit trivial) (fun _ => emits_raise _)
      refine emits_ite hfail (emits_bind ?_ (fun _ => emits_ite hfail (emits_bind ?_ (fun id => emits_runOn inner_env _ _ _ _ trivial))))
      · unfold popBatch
        split
        · exact emits_pure _
        · exact emits_bind (emits_change _ _) (fun _ => emits_emit trivial)
      · unfold pushRun
        exact emits_bind emits_get (fun s => emits_bind (emits_put _) (fun _ => emits_bind (emits_emit trivial) (fun _ => emits_pure _)))
  · cases e <;> simp only <;> first
      | exact emits_ite (emits_pure _) (emits_raise _)
      | exact emits_raise _

theorem emits_cycleBody (names : List String) : Emits Inner (cycleBody names) := by
  unfold cycleBody
  refine emits_bind (emits_forEach (fun n _ => ?_)) (fun _ => emits_bind (emits_handleLogs inner_env) (fun _ => emits_checkThreadErrors inner_env))
  unfold inspectTask
  refine emits_bind (emits_emit trivial) (fun _ => emits_bind (emits_handleLogs inner_env) (fun _ =>
    emits_bind (emits_cleanRunStack inner_env n) (fun _ => emits_bind ?_ (fun _ => emits_checkTermination inner_env n (fun _ => trivial)))))
  unfold consider
  refine emits_bind emits_get (fun s => ?_)
  split
  · exact emits_pure _
  · exact emits_ite (emits_pure _) (emits_ite (emits_launch _ _) (emits_pure _))

theorem emits_startSpecial (part : Part) (t : TaskSt) : Emits Inner (startSpecial part t) := by
  unfold startSpecial requestFirst
  refine emits_bind (emits_ite (emits_bind emits_get (fun s => ?_)) (emits_pure _)) (fun _ => emits_launch _ _)
  split
  · exact emits_pure _
  · exact emits_ite (emits_pure _) (fun w => ⟨[_], rfl, fun x hx => by rw [List.mem_singleton.1 hx]; trivial⟩)

theorem emits_startup : Emits Inner startup := by
  unfold startup
  refine emits_bind (emits_same (fun _ => rfl)) (fun _ => emits_bind emits_get (fun s => emits_forEach (fun t _ => ?_)))
  unfold startupTask
  refine emits_bind (emits_choose inner_env) (fun c => emits_bind emits_get (fun s => emits_bind (emits_emit trivial) (fun _ => ?_)))
  exact emits_ite (emits_raise _) (emits_ite (emits_startSpecial _ _) (emits_pure _))

theorem emits_hibernate : Emits Inner hibernate := emits_bind (emits_choose inner_env) (fun _ => emits_pure _)

theorem emits_waitFinish : ∀ n, Emits Inner (waitFinish n)
  | 0 => emits_cut
  | n + 1 => by
    unfold waitFinish
    refine emits_bind emits_get (fun s => emits_ite (emits_pure _) (emits_bind emits_hibernate (fun _ =>
      emits_bind (emits_handleLogs inner_env) (fun _ => emits_bind emits_get (fun s => emits_bind (emits_forEach (fun t _ => ?_))
        (fun _ => emits_waitFinish n))))))
    exact emits_ite (emits_terminateAll inner_env _ (fun _ => trivial)) (emits_checkTermination inner_env _ (fun _ => trivial))

theorem emits_shutDownTasks : ∀ n e, Emits Inner (shutDownTasks n e)
  | 0, _ => emits_cut
  | n + 1, e => by
    unfold shutDownTasks
    refine emits_bind emits_get (fun s => emits_ite (emits_tryCatch (emits_waitFinish n) (fun e' => ?_)) ?_)
    · split
      · exact emits_raise _
      · exact emits_raise _
      · exact emits_bind (emits_shutDownTasks n _) (fun _ => emits_raise _)
    · unfold schedTerminateAll
      refine emits_bind emits_get (fun s => emits_forEach (fun m _ => ?_))
      unfold terminateIfAlive
      refine emits_bind emits_get (fun s => ?_)
      split
      · exact emits_pure _
      · exact emits_ite (emits_terminateAll inner_env _ (fun _ => trivial)) (emits_pure _)

theorem emits_waitAlive : ∀ n, Emits Inner (waitAlive n)
  | 0 => emits_cut
  | n + 1 => by
    unfold waitAlive
    exact emits_bind emits_get (fun s => emits_ite (emits_bind emits_hibernate (fun _ => emits_waitAlive n)) (emits_pure _))

theorem emits_shutDownBody (n : Nat) (e : Option Exc) : Emits Inner (shutDownBody n e) := by
  unfold shutDownBody
  refine emits_tryFinally (emits_tryFinally ?_ (emits_shutDownTasks n e)) (emits_bind (emits_waitAlive n) (fun _ =>
    emits_bind (emits_handleLogs inner_env) (fun _ => emits_checkThreadErrors inner_env)))
  unfold runShutdownTasks
  exact emits_bind emits_get (fun s => emits_forEach (fun t _ => emits_ite (emits_startSpecial _ _) (emits_pure _)))

/-- Only events from outside. -/
def Outer : Obs → Prop
  | .env _ => True
  | _ => False

theorem emits_checkShutCond : Emits Outer checkShutCond := by
  unfold checkShutCond
  refine emits_bind (emits_choose (fun _ => trivial)) (fun c => ?_)
  split
  · exact emits_pure _
  · exact emits_raise _

/-! ## Without hooks -/

/-- `m` does to the session what `m'` does. -/
def Projects (m : HM α) (m' : M α) : Prop := ∀ h, (m h).1 = (m' h.w).1 ∧ (m h).2.w = (m' h.w).2

theorem hbind_apply {m : HM α} {k : α → HM β} (h : HWorld) : (m >>= k) h = match m h with
    | (.ok a, h') => k a h'
    | (.raise e, h') => (.raise e, h')
    | (.cut, h') => (.cut, h') := rfl

theorem proj_lift (m : M α) : Projects (HM.lift m) m := fun _ => ⟨rfl, rfl⟩
theorem proj_pure (a : α) : Projects (pure a : HM α) (pure a : M α) := fun _ => ⟨rfl, rfl⟩
theorem proj_raise (e : Exc) : Projects (HM.raise e : HM α) (Sched.raise e : M α) := fun _ => ⟨rfl, rfl⟩
theorem proj_cut : Projects (HM.cut : HM α) (Sched.cut : M α) := fun _ => ⟨rfl, rfl⟩

theorem proj_bind {m : HM α} {m' : M α} {k : α → HM β} {k' : α → M β} (hm : Projects m m') (hk : ∀ a, Projects (k a) (k' a)) :
    Projects (m >>= k) (m' >>= k') := by
  intro h
  rw [hbind_apply, bind_apply]
  obtain ⟨h1, h2⟩ := hm h
  rcases hr : m h with ⟨r, h'⟩
  rcases hr' : m' h.w with ⟨r', w'⟩
  rw [hr, hr'] at h1 h2
  simp only at h1 h2
  subst h1 h2
  cases r with
  | ok a => exact hk a h'
  | raise e => exact ⟨rfl, rfl⟩
  | cut => exact ⟨rfl, rfl⟩

/-- A step that only marks something. -/
theorem proj_skip {m : HM Unit} {k : Unit → HM β} {k' : M β} (hm : ∀ h, (m h).1 = .ok () ∧ (m h).2.w = h.w) (hk : Projects (k ()) k') :
    Projects (m >>= k) k' := by
  intro h
  rw [hbind_apply]
  obtain ⟨h1, h2⟩ := hm h
  rcases hr : m h with ⟨r, h'⟩
  rw [hr] at h1 h2
  simp only at h1 h2
  subst h1
  rw [← h2]
  exact hk h'

theorem proj_ite {c : Prop} [Decidable c] {m k : HM α} {m' k' : M α} (hm : Projects m m') (hk : Projects k k') :
    Projects (if c then m else k) (if c then m' else k') := by
  by_cases h : c
  · rw [if_pos h, if_pos h]; exact hm
  · rw [if_neg h, if_neg h]; exact hk

theorem proj_attempt {m : HM Unit} {m' : M Unit} (hm : Projects m m') : Projects (HM.attempt m) (Sched.attempt m') := by
  intro h
  unfold HM.attempt Sched.attempt
  obtain ⟨h1, h2⟩ := hm h
  rcases hr : m h with ⟨r, h'⟩
  rcases hr' : m' h.w with ⟨r', w'⟩
  rw [hr, hr'] at h1 h2
  simp only at h1 h2
  subst h1 h2
  cases r <;> exact ⟨rfl, rfl⟩

/-- `finally` with marks only. -/
theorem proj_finally {m q : HM Unit} {m' : M Unit} (hm : Projects m m') (hq : ∀ h, (q h).1 = .ok () ∧ (q h).2.w = h.w) :
    Projects (HM.tryFinally m q) m' := by
  intro h
  unfold HM.tryFinally
  obtain ⟨h1, h2⟩ := hm h
  rcases hr : m h with ⟨r, h'⟩
  rcases hr' : m' h.w with ⟨r', w'⟩
  rw [hr, hr'] at h1 h2
  simp only at h1 h2
  subst h1 h2
  obtain ⟨q1, q2⟩ := hq h'
  rcases hqr : q h' with ⟨s, h''⟩
  rw [hqr] at q1 q2
  simp only at q1 q2
  subst q1
  cases r with
  | cut => exact ⟨rfl, rfl⟩
  | ok _ => simp only [hqr]; exact ⟨trivial, q2⟩
  | raise _ => simp only [hqr]; exact ⟨trivial, q2⟩

def noHooks : HookSet := ⟨[], [], []⟩

theorem m_assoc {γ : Type} (m : M α) (k : α → M β) (l : β → M γ) : (m >>= k) >>= l = m >>= (fun a => k a >>= l) := by
  funext w
  simp only [bind_apply]
  rcases m w with ⟨r, w'⟩
  cases r <;> rfl

theorem runCycle_eq : runCycle = (do
    let s ← get
    emit .cycle
    cycleBody (s.sorted.map TaskSt.name)
    cycleEnd) := by
  unfold runCycle cycleBody cycleEnd
  simp only [m_assoc]

theorem proj_cycle : Projects (runCycleH noHooks) runCycle := by
  rw [runCycle_eq]
  unfold runCycleH
  refine proj_bind (proj_lift _) (fun s => proj_bind (proj_lift _) (fun _ => proj_skip (fun _ => ⟨rfl, rfl⟩)
    (proj_bind (proj_lift _) (fun _ => proj_skip (fun _ => ⟨rfl, rfl⟩) (proj_lift _)))))

theorem proj_startup : Projects (startupH noHooks) startup := by
  unfold startupH
  refine proj_skip (fun _ => ⟨rfl, rfl⟩) ?_
  intro h
  rw [hbind_apply]
  obtain ⟨h1, h2⟩ := proj_lift startup h
  rcases hr : HM.lift startup h with ⟨r, h'⟩
  rw [hr] at h1 h2
  simp only at h1 h2
  rw [← h1, ← h2]
  cases r <;> exact ⟨rfl, rfl⟩

theorem proj_loop : ∀ n, Projects (serveLoopH noHooks n) (serveLoop n)
  | 0 => proj_cut
  | n + 1 => by
    unfold serveLoopH serveLoop
    exact proj_bind (proj_lift _) (fun stop => proj_ite (proj_pure _) (proj_bind (proj_lift _) (fun _ => proj_bind (proj_lift _) (fun s =>
      proj_ite (proj_pure _) (proj_ite (proj_raise _) (proj_bind proj_cycle (fun _ => proj_loop n)))))))

theorem proj_shutDown {again : HM Unit} {again' : M Unit} (ha : Projects again again') (n : Nat) (e : Option Exc) :
    Projects (shutDownH noHooks again n e) (shutDown again' n e) := by
  unfold shutDownH shutDown
  refine proj_bind (proj_lift _) (fun _ => proj_skip (fun _ => ⟨rfl, rfl⟩) (proj_bind
    (proj_finally (m' := shutDownBody n e) (proj_lift _) (fun _ => ⟨rfl, rfl⟩)) (fun _ => ?_)))
  exact proj_ite (proj_bind (proj_lift _) (fun s => proj_ite ha (proj_lift _))) (proj_pure _)

theorem proj_serve : ∀ n, Projects (serveH noHooks n) (serve n)
  | 0 => proj_cut
  | n + 1 => by
    unfold serveH serve
    refine proj_bind (proj_lift _) (fun _ => proj_bind (proj_lift _) (fun _ => proj_skip (fun _ => ⟨rfl, rfl⟩)
      (proj_bind (proj_attempt (proj_bind proj_startup (fun _ => proj_loop n))) (fun e => ?_))))
    have hs := fun e => proj_shutDown (proj_serve n) n e
    rcases e with _ | e
    · exact hs _
    · cases e <;> first
        | exact hs _
        | exact proj_bind (hs _) (fun _ => proj_raise _)

/-! ## The order -/

theorem wraps_append (hk : HookSet) (l o : List Seen) : wraps hk (l ++ o) = (wraps hk l).bind (fun p => o.foldlM (Wrap.step hk) p) := by
  unfold wraps
  rw [List.foldlM_append]
  cases List.foldlM (Wrap.step hk) ⟨none, .inside⟩ l <;> rfl

variable {hk : HookSet}

/-- Everything seen came in order, and what is going on satisfies `φ`. -/
def FitsH (hk : HookSet) (φ : Wrap → Bool → Prop) (h : HWorld) : Prop := ∃ p, wraps hk h.seen = some p ∧ φ p h.alive

/-- What holds after `m`: `Q` when it returns, `R` when it raises an exception. -/
def Tri (hk : HookSet) (φ : Wrap → Bool → Prop) (m : HM α) (Q : α → Wrap → Bool → Prop) (R : Wrap → Bool → Prop) : Prop := ∀ h, FitsH hk φ h →
  match m h with
  | (.ok a, h') => FitsH hk (Q a) h'
  | (.raise _, h') => FitsH hk R h'
  | (.cut, h') => FitsH hk (fun _ _ => True) h'

variable {φ ψ R : Wrap → Bool → Prop}

theorem tri_pure (a : α) (hq : ∀ p b, φ p b → ψ p b) : Tri hk φ (pure a : HM α) (fun _ => ψ) R :=
  fun _ ⟨p, h1, h2⟩ => ⟨p, h1, hq _ _ h2⟩

theorem tri_raise (e : Exc) (hq : ∀ p b, φ p b → R p b) {Q : α → Wrap → Bool → Prop} : Tri hk φ (HM.raise e : HM α) Q R :=
  fun _ ⟨p, h1, h2⟩ => ⟨p, h1, hq _ _ h2⟩

theorem tri_cut {Q : α → Wrap → Bool → Prop} : Tri hk φ (HM.cut : HM α) Q R := fun _ ⟨p, h1, _⟩ => ⟨p, h1, trivial⟩

theorem tri_bind {m : HM α} {k : α → HM β} {Q : α → Wrap → Bool → Prop} {Q' : β → Wrap → Bool → Prop}
    (hm : Tri hk φ m Q R) (hq : ∀ a, Tri hk (Q a) (k a) Q' R) : Tri hk φ (m >>= k) Q' R := by
  intro h hf
  rw [hbind_apply]
  have h1 := hm h hf
  rcases hr : m h with ⟨r, h'⟩
  rw [hr] at h1
  cases r with
  | ok a => exact hq a h' h1
  | raise e => exact h1
  | cut => exact h1

theorem tri_mono {m : HM α} {Q Q' : α → Wrap → Bool → Prop} {R' φ' : Wrap → Bool → Prop} (hm : Tri hk φ m Q R)
    (h0 : ∀ p b, φ' p b → φ p b) (h1 : ∀ a p b, Q a p b → Q' a p b) (h2 : ∀ p b, R p b → R' p b) : Tri hk φ' m Q' R' := by
  intro h ⟨p, hp, hx⟩
  have h3 := hm h ⟨p, hp, h0 _ _ hx⟩
  rcases hr : m h with ⟨r, h'⟩
  rw [hr] at h3
  cases r with
  | ok a => obtain ⟨p, hp, hx⟩ := h3; exact ⟨p, hp, h1 _ _ _ hx⟩
  | raise e => obtain ⟨p, hp, hx⟩ := h3; exact ⟨p, hp, h2 _ _ hx⟩
  | cut => exact h3

theorem tri_ite {c : Prop} [Decidable c] {m k : HM α} {Q : α → Wrap → Bool → Prop} (hm : Tri hk φ m Q R) (hn : Tri hk φ k Q R) :
    Tri hk φ (if c then m else k) Q R := by
  by_cases h : c
  · rw [if_pos h]; exact hm
  · rw [if_neg h]; exact hn

/-- A part without hooks, when everything it shows is in order. -/
theorem tri_lift {m : M α} {P : Obs → Prop} (hm : Emits P m) (hs : ∀ o p b, P o → φ p b → ∃ q, p.step hk (.obs o) = some q ∧ φ q b) :
    Tri hk φ (HM.lift m) (fun _ => φ) φ := by
  intro h ⟨p, h1, h2⟩
  have hfit : FitsH hk φ (HM.lift m h).2 := by
    obtain ⟨o, ho, hp⟩ := hm h.w
    have hseen : (HM.lift m h).2.seen = h.seen ++ o.map .obs := by
      show h.seen ++ ((m h.w).2.trace.drop h.w.trace.length).map .obs = _
      rw [ho, List.drop_left]
    have halive : (HM.lift m h).2.alive = h.alive := rfl
    unfold FitsH
    rw [hseen, halive, wraps_append, h1]
    clear h1 hseen ho
    show ∃ q, (o.map Seen.obs).foldlM (Wrap.step hk) p = some q ∧ φ q h.alive
    induction o generalizing p with
    | nil => exact ⟨p, rfl, h2⟩
    | cons x o ih =>
      obtain ⟨q, hq, hφ⟩ := hs x p _ (hp x (List.mem_cons_self ..)) h2
      obtain ⟨q', hq', hφ'⟩ := ih q hφ (fun y hy => hp y (List.mem_cons_of_mem _ hy))
      refine ⟨q', ?_, hφ'⟩
      rw [List.map_cons, List.foldlM_cons, hq]
      exact hq'
  rcases hr : HM.lift m h with ⟨r, h'⟩
  rw [hr] at hfit
  cases r with
  | ok _ => exact hfit
  | raise _ => exact hfit
  | cut => obtain ⟨p, hp, _⟩ := hfit; exact ⟨p, hp, trivial⟩

/-- One mark. -/
theorem tri_emit (o : Obs) (hs : ∀ p b, φ p b → ∃ q, p.step hk (.obs o) = some q ∧ ψ q b) : Tri hk φ (HM.lift (emit o)) (fun _ => ψ) R := by
  intro h ⟨p, h1, h2⟩
  obtain ⟨q, hq, hψ⟩ := hs p _ h2
  refine ⟨q, ?_, hψ⟩
  show wraps hk (h.seen ++ ((h.w.trace ++ [o]).drop h.w.trace.length).map .obs) = some q
  rw [List.drop_left, wraps_append, h1]
  show [Seen.obs o].foldlM (Wrap.step hk) p = some q
  rw [List.foldlM_cons, hq]
  rfl

theorem tri_see (x : Seen) (hs : ∀ p b, φ p b → ∃ q, p.step hk x = some q ∧ ψ q b) : Tri hk φ (HM.see x) (fun _ => ψ) R := by
  intro h ⟨p, h1, h2⟩
  obtain ⟨q, hq, hψ⟩ := hs p _ h2
  refine ⟨q, ?_, hψ⟩
  show wraps hk (h.seen ++ [x]) = some q
  rw [wraps_append, h1]
  show [x].foldlM (Wrap.step hk) p = some q
  rw [List.foldlM_cons, hq]
  rfl

theorem outer_step {o : Obs} (ho : Outer o) (p : Wrap) (b : Bool) (hp : φ p b) : ∃ q, p.step hk (.obs o) = some q ∧ φ q b := by
  cases o <;> first
    | exact ⟨p, rfl, hp⟩
    | exact ho.elim

theorem tri_outer {m : M α} (hm : Emits Outer m) : Tri hk φ (HM.lift m) (fun _ => φ) φ := tri_lift hm (fun _ p b ho hp => outer_step ho p b hp)

theorem tri_silent {m : M α} (hm : ∀ w, (m w).2.trace = w.trace) : Tri hk φ (HM.lift m) (fun _ => φ) φ :=
  tri_outer (emits_same hm)

/-- The doings of a part. -/
def Busy (P : HookPoint) (p : Wrap) : Prop := p.part = some P ∧ (p.stand = .opening [] ∨ p.stand = .inside)

theorem inner_step {P : HookPoint} {o : Obs} (ho : Inner o) (p : Wrap) (hp : Busy P p) : ∃ q, p.step hk (.obs o) = some q ∧ Busy P q := by
  have hne : p.part ≠ none := by rw [hp.1]; simp
  cases o <;> first
    | exact ho.elim
    | exact ⟨p, rfl, hp⟩
    | exact ⟨{ p with stand := .inside }, if_pos ⟨hne, hp.2⟩, hp.1, Or.inr rfl⟩

theorem tri_inner {P : HookPoint} {a : Bool} {m : M α} (hm : Emits Inner m) :
    Tri hk (fun p b => Busy P p ∧ b = a) (HM.lift m) (fun _ p b => Busy P p ∧ b = a) (fun p b => Busy P p ∧ b = a) :=
  tri_lift hm (fun o p b ho hp => by
    obtain ⟨q, hq, hb⟩ := inner_step (hk := hk) ho p hp.1
    exact ⟨q, hq, hb, hp.2⟩)

theorem tri_choose : Tri hk φ (HM.lift choose) (fun _ => φ) R := fun h hf => tri_outer (hk := hk) (φ := φ) (emits_choose (fun _ => trivial)) h hf

theorem tri_callHook {part : Bool → Seen} (hs : ∀ ok p b, φ p b → ∃ q, p.step hk (part ok) = some q ∧ (if ok then ψ q b else R q b)) :
    Tri hk φ (callHook part) (fun _ => ψ) R := by
  unfold callHook
  refine tri_bind (Q := fun _ => φ) tri_choose (fun c => ?_)
  split
  · exact tri_bind (Q := fun _ => R) (tri_see _ (fun p b hp => by simpa using hs false p b hp)) (fun _ => tri_raise _ (fun _ _ h => h))
  · exact tri_see _ (fun p b hp => by simpa using hs true p b hp)

/-- A hook has raised an exception. -/
def Down (P : HookPoint) (p : Wrap) : Prop := p = ⟨some P, .failed⟩

/-- It is complete. -/
def Whole (hk : HookSet) (P : HookPoint) (p : Wrap) : Prop := p.part = some P ∧ p.complete hk = true

theorem tri_prerun (P : HookPoint) (a : Bool) : ∀ l, Tri hk (fun p b => p = ⟨some P, .opening l⟩ ∧ b = a) (prerunHooks P l)
    (fun _ p b => Busy P p ∧ b = a) (fun p b => Down P p ∧ b = a)
  | [] => tri_pure () (fun p b h => ⟨by rw [h.1]; exact ⟨rfl, Or.inl rfl⟩, h.2⟩)
  | f :: l => by
    refine tri_bind (Q := fun _ p b => p = ⟨some P, .opening l⟩ ∧ b = a) (tri_callHook (fun ok p b h => ?_)) (fun _ => tri_prerun P a l)
    refine ⟨⟨some P, if ok then .opening l else .failed⟩, by rw [h.1]; exact if_pos ⟨rfl, rfl⟩, ?_⟩
    cases ok
    · exact ⟨rfl, h.2⟩
    · exact ⟨rfl, h.2⟩

theorem whole_of_left {P : HookPoint} {p : Wrap} (h1 : p.part = some P) (h2 : p.stand.left (hk.at P) = some []) : Whole hk P p := by
  refine ⟨h1, ?_⟩
  unfold Wrap.complete
  rw [h1]
  simpa using h2

theorem tri_postrun (P : HookPoint) (a : Bool) : Tri hk (fun p b => Busy P p ∧ b = a) (postrunHooks P (hk.at P))
    (fun _ p b => Whole hk P p ∧ b = a) (fun p b => Down P p ∧ b = a) := by
  have key : ∀ l, Tri hk (fun p b => (p.part = some P ∧ p.stand.left (hk.at P) = some l) ∧ b = a)
      (HM.forEach l (fun f => callHook (.second P f))) (fun _ p b => Whole hk P p ∧ b = a) (fun p b => Down P p ∧ b = a) := by
    intro l
    induction l with
    | nil => exact tri_pure () (fun p b h => ⟨whole_of_left h.1.1 h.1.2, h.2⟩)
    | cons f l ih =>
      refine tri_bind (Q := fun _ p b => (p.part = some P ∧ p.stand.left (hk.at P) = some l) ∧ b = a) (tri_callHook (fun ok p b h => ?_)) (fun _ => ih)
      refine ⟨⟨some P, if ok then .closing l else .failed⟩, ?_, ?_⟩
      · show (match p.stand.left (hk.at P) with
          | some (g :: rest) => if p.part = some P ∧ f = g then some (⟨some P, if ok then .closing rest else .failed⟩ : Wrap) else none
          | _ => none) = _
        rw [h.1.2]
        exact if_pos ⟨h.1.1, rfl⟩
      · cases ok
        · exact ⟨rfl, h.2⟩
        · exact ⟨⟨rfl, rfl⟩, h.2⟩
  refine tri_mono (key _) (fun p b h => ⟨⟨h.1.1, ?_⟩, h.2⟩) (fun _ _ _ h => h) (fun _ _ h => h)
  rcases h.1.2 with h | h <;> rw [h] <;> rfl

/-- In the startup or in a cycle. -/
def Before (p : Wrap) : Prop := p.part = some .startup ∨ p.part = some .cycle

theorem tri_startup : Tri hk (fun p b => p = ⟨some .startup, .opening hk.startup⟩ ∧ b = true) (startupH hk)
    (fun _ p b => Whole hk .startup p ∧ b = true) (fun p b => Before p ∧ b = true) := by
  unfold startupH
  refine tri_bind (tri_mono (tri_prerun .startup true hk.startup) (fun _ _ h => h) (fun _ _ _ h => h)
    (fun p b h => ⟨Or.inl (by rw [h.1]), h.2⟩)) (fun _ => ?_)
  refine tri_bind (tri_mono (tri_inner emits_startup) (fun _ _ h => h) (fun _ _ _ h => h) (fun p b h => ⟨Or.inl h.1.1, h.2⟩)) (fun _ => ?_)
  exact tri_mono (tri_postrun .startup true) (fun _ _ h => h) (fun _ _ _ h => h) (fun p b h => ⟨Or.inl (by rw [h.1]), h.2⟩)

/-- The startup or the last cycle is complete. -/
def ReadyH (hk : HookSet) (p : Wrap) : Prop := Whole hk .startup p ∨ Whole hk .cycle p

theorem ReadyH.before {p : Wrap} (h : ReadyH hk p) : Before p := h.imp And.left And.left

theorem ReadyH.complete {p : Wrap} (h : ReadyH hk p) : p.complete hk = true := h.elim And.right And.right

theorem tri_cycle : Tri hk (fun p b => ReadyH hk p ∧ b = true) (runCycleH hk)
    (fun _ p b => ReadyH hk p ∧ b = true) (fun p b => Before p ∧ b = true) := by
  unfold runCycleH
  refine tri_bind (tri_mono (tri_silent (fun _ => rfl)) (fun _ _ h => h) (fun _ _ _ h => h) (fun p b h => ⟨h.1.before, h.2⟩)) (fun s => ?_)
  refine tri_bind (Q := fun _ p b => p = ⟨some .cycle, .opening hk.cycle⟩ ∧ b = true)
    (tri_emit _ (fun p b h => ⟨_, if_pos ⟨h.1.before, h.1.complete⟩, rfl, h.2⟩)) (fun _ => ?_)
  refine tri_bind (tri_mono (tri_prerun .cycle true hk.cycle) (fun _ _ h => h) (fun _ _ _ h => h)
    (fun p b h => ⟨Or.inr (by rw [h.1]), h.2⟩)) (fun _ => ?_)
  refine tri_bind (tri_mono (tri_inner (emits_cycleBody _)) (fun _ _ h => h) (fun _ _ _ h => h) (fun p b h => ⟨Or.inr h.1.1, h.2⟩)) (fun _ => ?_)
  refine tri_bind (tri_mono (tri_postrun .cycle true) (fun _ _ h => h) (fun _ _ _ h => h) (fun p b h => ⟨Or.inr (by rw [h.1]), h.2⟩)) (fun _ => ?_)
  have hend : Emits (fun o => o = .cycleDone) cycleEnd := emits_bind (emits_same (fun _ => rfl)) (fun _ => emits_emit rfl)
  exact tri_mono (tri_lift (φ := fun p b => Whole hk .cycle p ∧ b = true) hend (fun o p b ho h => ⟨p, by rw [ho]; exact if_pos h.1, h⟩))
    (fun _ _ h => h) (fun _ p b h => ⟨Or.inr h.1, h.2⟩) (fun p b h => ⟨Or.inr h.1.1, h.2⟩)

theorem tri_loop : ∀ n, Tri hk (fun p b => ReadyH hk p ∧ b = true) (serveLoopH hk n)
    (fun _ p b => Before p ∧ b = true) (fun p b => Before p ∧ b = true)
  | 0 => tri_cut
  | n + 1 => by
    have hb : ∀ (p : Wrap) (b : Bool), ReadyH hk p ∧ b = true → Before p ∧ b = true := fun p b h => ⟨h.1.before, h.2⟩
    unfold serveLoopH
    refine tri_bind (tri_mono (tri_outer emits_checkShutCond) (fun _ _ h => h) (fun _ _ _ h => h) hb) (fun stop => ?_)
    refine tri_ite (tri_pure _ hb) (tri_bind (tri_mono (tri_outer (emits_bind (emits_choose (fun _ => trivial)) (fun _ => emits_pure _)))
      (fun _ _ h => h) (fun _ _ _ h => h) hb) (fun _ => tri_bind (tri_mono (tri_silent (fun _ => rfl)) (fun _ _ h => h) (fun _ _ _ h => h) hb)
        (fun s => tri_ite (tri_pure _ hb) (tri_ite (tri_raise _ hb) (tri_bind tri_cycle (fun _ => tri_loop n))))))

/-- The end of `serve`: the last shutdown is complete and the scheduler is not alive, or one of its hooks raised an exception. -/
def OverH (hk : HookSet) (p : Wrap) (b : Bool) : Prop := (Whole hk .shutdown p ∧ b = false) ∨ (Down .shutdown p ∧ b = true)

theorem tri_finally {m q : HM Unit} {φ' : Wrap → Bool → Prop} (hm : Tri hk φ m (fun _ => φ') φ') (hq : Tri hk φ' q (fun _ => ψ) R)
    (hψ : ∀ p b, ψ p b → R p b) : Tri hk φ (HM.tryFinally m q) (fun _ => ψ) R := by
  intro h hf
  unfold HM.tryFinally
  have h1 := hm h hf
  rcases hr : m h with ⟨r, h'⟩
  rw [hr] at h1
  cases r with
  | cut => exact h1
  | ok a =>
    have h2 := hq h' h1
    simp only
    rcases hr' : q h' with ⟨r', h''⟩
    rw [hr'] at h2
    cases r' <;> exact h2
  | raise e =>
    have h2 := hq h' h1
    simp only
    rcases hr' : q h' with ⟨r', h''⟩
    rw [hr'] at h2
    cases r' with
    | ok _ => obtain ⟨p, hp, hx⟩ := h2; exact ⟨p, hp, hψ _ _ hx⟩
    | raise _ => exact h2
    | cut => exact h2

theorem tri_shutDown {again : HM Unit} (ha : Tri hk (fun p b => Whole hk .shutdown p ∧ b = false) again (fun _ => OverH hk) (OverH hk))
    (n : Nat) (e : Option Exc) :
    Tri hk (fun p b => Before p ∧ b = true) (shutDownH hk again n e) (fun _ => OverH hk) (OverH hk) := by
  unfold shutDownH
  refine tri_bind (Q := fun _ p b => p = ⟨some .shutdown, .opening hk.shutdown⟩ ∧ b = true)
    (tri_emit _ (fun p b h => ⟨_, if_pos h.1, rfl, h.2⟩)) (fun _ => ?_)
  refine tri_bind (tri_mono (tri_prerun .shutdown true hk.shutdown) (fun _ _ h => h) (fun _ _ _ h => h) (fun p b h => Or.inr h)) (fun _ => ?_)
  refine tri_bind (Q := fun _ p b => Whole hk .shutdown p ∧ b = false) (tri_finally (tri_inner (emits_shutDownBody n e))
    (tri_bind (tri_mono (tri_postrun .shutdown true) (fun _ _ h => h) (fun _ _ _ h => h) (fun p b h => Or.inr h)) (fun _ => ?_))
    (fun p b h => Or.inl h)) (fun _ => ?_)
  · rintro h ⟨p, hp, hx⟩
    exact ⟨p, hp, hx.1, rfl⟩
  · refine tri_ite (tri_bind (tri_mono (tri_silent (fun _ => rfl)) (fun _ _ h => h) (fun _ _ _ h => h) (fun p b h => Or.inl h)) (fun s => ?_))
      (tri_pure _ (fun p b h => Or.inl h))
    exact tri_ite ha (tri_emit _ (fun p b h => ⟨p, if_pos h.1, Or.inl h⟩))

theorem tri_serve : ∀ n, Tri hk (fun p _ => p.part = none ∨ Whole hk .shutdown p) (serveH hk n) (fun _ => OverH hk) (OverH hk)
  | 0 => tri_cut
  | n + 1 => by
    unfold serveH
    refine tri_bind (Q := fun _ p _ => p = ⟨some .startup, .opening hk.startup⟩)
      (tri_emit _ (fun p b h => ⟨_, if_pos h, rfl⟩)) (fun _ => ?_)
    refine tri_bind (Q := fun _ p _ => p = ⟨some .startup, .opening hk.startup⟩)
      (fun h hf => tri_silent (hk := hk) (m := clearFlags) (fun _ => rfl) h hf) (fun _ => ?_)
    refine tri_bind (Q := fun _ p b => p = ⟨some .startup, .opening hk.startup⟩ ∧ b = true)
      (fun h hf => by obtain ⟨p, hp, hx⟩ := hf; exact ⟨p, hp, hx, rfl⟩) (fun _ => ?_)
    refine tri_bind (Q := fun _ p b => Before p ∧ b = true) ?_ (fun e => ?_)
    · intro h hf
      unfold HM.attempt
      have h1 := tri_bind (hk := hk) tri_startup (fun _ => tri_mono (tri_loop n) (fun p b h => ⟨Or.inl h.1, h.2⟩) (fun _ _ _ h => h) (fun _ _ h => h)) h hf
      rcases hr : (startupH hk >>= fun _ => serveLoopH hk n) h with ⟨r, h'⟩
      rw [hr] at h1
      cases r <;> exact h1
    · have ha : Tri hk (fun p b => Whole hk .shutdown p ∧ b = false) (serveH hk n) (fun _ => OverH hk) (OverH hk) :=
        tri_mono (tri_serve n) (fun p b h => Or.inr h.1) (fun _ _ _ h => h) (fun _ _ h => h)
      have hs := fun e => tri_shutDown ha n e
      rcases e with _ | e
      · exact hs _
      · cases e <;> first
          | exact hs _
          | exact tri_bind (hs _) (fun _ => tri_raise _ (fun _ _ h => h))

/-- **C87** (partial: see the violations).  In every execution of the scheduler, whatever the tasks, the hooks and the
environment do, everything comes in order: a startup, cycle or shutdown does nothing before the first parts of all its hooks
were run, each once and in their order, and after the second parts have begun; a cycle begins only when the startup or cycle
before is complete, that is, all second parts were run. -/
theorem C87_order_partial (hk : HookSet) (s : Sys) (env : Nat → Choice) (n : Nat) :
    (wraps hk (serveH hk n (HWorld.init s env)).2.seen).isSome = true := by
  have h := tri_serve (hk := hk) n (HWorld.init s env) ⟨⟨none, .inside⟩, rfl, Or.inl rfl⟩
  rcases hr : serveH hk n (HWorld.init s env) with ⟨r, h'⟩
  rw [hr] at h
  cases r with
  | ok _ => obtain ⟨p, hp, _⟩ := h; rw [hp]; rfl
  | raise _ => obtain ⟨p, hp, _⟩ := h; rw [hp]; rfl
  | cut => obtain ⟨p, hp, _⟩ := h; rw [hp]; rfl

/-- `failed` comes from a hook. -/
theorem failed_of_hook {l : List Seen} {p q : Wrap} (h : l.foldlM (Wrap.step hk) p = some q) (hp : p.stand ≠ .failed) (hf : HooksFine l) :
    q.stand ≠ .failed := by
  induction l generalizing p with
  | nil =>
    simp only [List.foldlM_nil, pure, Option.some.injEq] at h
    rw [← h]; exact hp
  | cons x l ih =>
    rw [List.foldlM_cons] at h
    rcases hx : p.step hk x with _ | p'
    · rw [hx] at h; exact nomatch h
    rw [hx] at h
    refine ih h ?_ (fun y hy => hf y (List.mem_cons_of_mem _ hy))
    have h0 := hf x (List.mem_cons_self ..)
    cases x with
    | first P f ok =>
      have hok : ok = true := by
        cases ok
        · exact absurd rfl (h0 P f).1
        · rfl
      subst hok
      simp only [Wrap.step] at hx
      split at hx
      · split at hx
        · simp only [Option.some.injEq] at hx
          rw [← hx]; simp
        · exact nomatch hx
      · exact nomatch hx
    | second P f ok =>
      have hok : ok = true := by
        cases ok
        · exact absurd rfl (h0 P f).2
        · rfl
      subst hok
      simp only [Wrap.step] at hx
      split at hx
      · split at hx
        · simp only [Option.some.injEq] at hx
          rw [← hx]; simp
        · exact nomatch hx
      · exact nomatch hx
    | obs o =>
      cases o <;> simp [Wrap.step] at hx <;> first
        | (rw [← hx.2]; simp; done)
        | (rw [← hx.2]; exact hp)
        | (rw [← hx]; exact hp)

/-- **C87**, the end: when `serve` is over, whether it returns or raises an exception, the last thing was a shutdown with all
parts of its hooks, and the scheduler is no more alive — unless a hook raised an exception. -/
theorem C87_over_partial (hk : HookSet) (s : Sys) (env : Nat → Choice) (n : Nat)
    (hc : (serveH hk n (HWorld.init s env)).1 ≠ .cut) (hf : HooksFine (serveH hk n (HWorld.init s env)).2.seen) :
    ∃ p, wraps hk (serveH hk n (HWorld.init s env)).2.seen = some p ∧ p.part = some .shutdown ∧ p.complete hk = true ∧
      (serveH hk n (HWorld.init s env)).2.alive = false := by
  have h := tri_serve (hk := hk) n (HWorld.init s env) ⟨⟨none, .inside⟩, rfl, Or.inl rfl⟩
  have hover : FitsH hk (OverH hk) (serveH hk n (HWorld.init s env)).2 := by
    rcases hr : serveH hk n (HWorld.init s env) with ⟨r, h'⟩
    rw [hr] at h hc
    cases r with
    | ok _ => exact h
    | raise _ => exact h
    | cut => exact absurd rfl hc
  obtain ⟨p, hp, ho⟩ := hover
  refine ⟨p, hp, ?_⟩
  rcases ho with ho | ho
  · exact ⟨ho.1.1, ho.1.2, ho.2⟩
  · exact absurd (by rw [ho.1]) (failed_of_hook (hk := hk) hp (by simp) hf)

/-- **C87**, nothing else: without hooks the scheduler does what it does in the other theorems. -/
theorem C87_none (n : Nat) (h : HWorld) :
    (serveH noHooks n h).1 = (serve n h.w).1 ∧ (serveH noHooks n h).2.w = (serve n h.w).2 := proj_serve n h

/-! ## Examples and violations -/

/-- Three kinds of hooks. -/
def someHooks : HookSet := ⟨[⟨1, true⟩], [⟨2, false⟩, ⟨3, true⟩], [⟨4, true⟩]⟩

def hookedCfg : Config := ⟨4, false, false, false, false, false, 1000, false⟩

def hookedTask : TaskSt :=
  ⟨"A", 0, .process, none, false, false, false, false, none, false, [], false, [], [], true⟩

def hookedSys (l : List TaskSt) : Sys := ⟨hookedCfg, l, true, false, false, false, 0, 0⟩

/-- Conditions are true at the places `yes`, and the call at the place `bad` raises an exception. -/
def hookedEnv (yes : List Nat) (bad : Option Nat) (i : Nat) : Choice :=
  ⟨[], some (decide (i ∈ yes)), if some i = bad then some (.exc .other) else none, 0⟩

/-- One cycle, everything in order. -/
def hookedRun : Res Unit × HWorld := serveH someHooks 3 (HWorld.init (hookedSys []) (hookedEnv [8] none))

example : hookedRun.1 = .ok () ∧ hookedRun.2.alive = false ∧ hookedRun.2.seen =
    [.obs .serve, .first .startup ⟨1, true⟩ true, .second .startup ⟨1, true⟩ true,
      .obs .cycle, .first .cycle ⟨2, false⟩ true, .first .cycle ⟨3, true⟩ true, .second .cycle ⟨3, true⟩ true, .obs .cycleDone,
      .obs .shutdown, .first .shutdown ⟨4, true⟩ true, .second .shutdown ⟨4, true⟩ true] := by decide +kernel

/-- Its hypotheses are met. -/
example : hookedRun.1 ≠ .cut ∧ HooksFine hookedRun.2.seen := by
  have h : hookedRun.2.seen = [.obs .serve, .first .startup ⟨1, true⟩ true, .second .startup ⟨1, true⟩ true,
      .obs .cycle, .first .cycle ⟨2, false⟩ true, .first .cycle ⟨3, true⟩ true, .second .cycle ⟨3, true⟩ true, .obs .cycleDone,
      .obs .shutdown, .first .shutdown ⟨4, true⟩ true, .second .shutdown ⟨4, true⟩ true] := by decide +kernel
  refine ⟨by decide +kernel, ?_⟩
  rw [h]
  intro x hx p f
  simp only [List.mem_cons, List.not_mem_nil, or_false] at hx
  rcases hx with rfl | rfl | rfl | rfl | rfl | rfl | rfl | rfl | rfl | rfl | rfl <;> simp

/-- The order is not met by everything. -/
example : wraps someHooks [.obs .serve, .obs (.cached "A")] = none ∧
    wraps someHooks [.obs .serve, .first .startup ⟨1, true⟩ true, .obs .cycle] = none ∧
    wraps someHooks [.obs .serve, .first .startup ⟨1, true⟩ true, .second .startup ⟨1, true⟩ true, .obs .cycle,
      .first .cycle ⟨3, true⟩ true] = none := by decide +kernel

/-- **C87** fails for a cycle that fails: the second parts of its hooks are not run (the calls are not in a `finally`). -/
theorem C87_cycle_violated : (serveH someHooks 3 (HWorld.init (hookedSys []) (hookedEnv [] (some 6)))).1 = .raise .other ∧
    (serveH someHooks 3 (HWorld.init (hookedSys []) (hookedEnv [] (some 6)))).2.seen =
    [.obs .serve, .first .startup ⟨1, true⟩ true, .second .startup ⟨1, true⟩ true,
      .obs .cycle, .first .cycle ⟨2, false⟩ true, .first .cycle ⟨3, true⟩ true,
      .obs .shutdown, .first .shutdown ⟨4, true⟩ true, .second .shutdown ⟨4, true⟩ true] := by decide +kernel

/-- **C87** fails if a hook of the shutdown raises an exception in its first part: `serve` raises it at once, the running
process goes on without being waited for or terminated, and the scheduler still counts as alive. -/
theorem C87_shutdown_violated :
    (serveH someHooks 3 (HWorld.init (hookedSys [hookedTask]) (hookedEnv [8, 13] (some 14)))).1 = .raise .other ∧
    (serveH someHooks 3 (HWorld.init (hookedSys [hookedTask]) (hookedEnv [8, 13] (some 14)))).2.alive = true ∧
    (serveH someHooks 3 (HWorld.init (hookedSys [hookedTask]) (hookedEnv [8, 13] (some 14)))).2.w.st.tasks.map TaskSt.nAlive = [1] ∧
    (serveH someHooks 3 (HWorld.init (hookedSys [hookedTask]) (hookedEnv [8, 13] (some 14)))).2.seen.getLast? =
      some (.first .shutdown ⟨4, true⟩ false) := by decide +kernel

/-- **C87**, likewise in the second part: everything was shut down, but the scheduler counts as alive for ever. -/
theorem C87_alive_violated :
    (serveH someHooks 3 (HWorld.init (hookedSys []) (hookedEnv [8] (some 11)))).1 = .raise .other ∧
    (serveH someHooks 3 (HWorld.init (hookedSys []) (hookedEnv [8] (some 11)))).2.alive = true := by decide +kernel

end Rocketry.Props
