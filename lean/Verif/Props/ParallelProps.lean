import Verif.Sched.Evolve

/-!
# C37: the number of processes; C38: a task does not run in parallel with itself
-/

namespace Rocketry.Props
open Rocketry.Sched Rocketry.Spec

theorem liveRuns_length (t : TaskSt) : (liveRuns t).length = live (fun _ => true) t.stack + live (fun _ => true) t.strays := by
  unfold liveRuns live
  simp [List.filter_append, List.countP_eq_length_filter]

theorem liveRuns_process (t : TaskSt) : (liveRuns t).countP (fun r => decide (r.kind = .process)) =
    live (fun k => decide (k = .process)) t.stack + live (fun k => decide (k = .process)) t.strays := by
  unfold liveRuns live
  rw [List.filter_append, List.countP_append, List.countP_filter, List.countP_filter]

/-- Number of live processes of a task. -/
def processes (t : TaskSt) : Nat := (liveRuns t).countP (fun r => decide (r.kind = .process))

theorem processes_evolves {t t' : TaskSt} (h : Evolves t t') : processes t' ≤ processes t := by
  unfold processes
  rw [liveRuns_process, liveRuns_process]
  have := h.stack.live (fun k => decide (k = .process))
  have := h.strays.live (fun k => decide (k = .process))
  omega

theorem processes_empty {t : TaskSt} (h : t.stack = []) (h' : t.strays = []) : processes t = 0 := by
  unfold processes liveRuns; rw [h, h']; rfl

theorem sum_zero {α : Type} (f : α → Nat) (l : List α) (h : ∀ a ∈ l, f a = 0) : (l.map f).sum = 0 := by
  induction l with
  | nil => rfl
  | cons a l ih =>
    rw [List.map_cons, List.sum_cons, h a (List.mem_cons_self ..), ih (fun b hb => h b (List.mem_cons_of_mem _ hb))]

/-- The invariant for C37. -/
structure Capped (cfg : Config) (s : Sys) : Prop where
  names : (s.tasks.map TaskSt.name).Nodup
  members : ∀ t ∈ s.tasks, t.member = true
  strays : ∀ t ∈ s.tasks, ∀ r ∈ t.strays, r.kind = .main
  config : s.cfg = cfg
  cap : (liveProcesses s : Int) ≤ max 0 cfg.maxProcess

theorem capped_drift {cfg : Config} {s s' : Sys} (h : Capped cfg s) (hd : Drift s s') : Capped cfg s' where
  names := hd.nodup h.names
  members := by
    intro t' ht'
    rcases hd.back ht' with ⟨t, ht, _, hm⟩ | ⟨_, _, _, hm⟩
    · rw [hm]; exact h.members t ht
    · exact hm
  strays := by
    intro t' ht' r hr
    rcases hd.back ht' with ⟨t, ht, he, _⟩ | ⟨_, _, hs, _⟩
    · obtain ⟨x, hx, hk, _⟩ := he.strays.from_ r hr
      rw [hk]; exact h.strays t ht x hx
    · rw [hs] at hr; simp at hr
  config := hd.cfg.trans h.config
  cap := by
    have h1 : liveProcesses s' ≤ liveProcesses s := hd.weight (f := processes) (fun _ _ => processes_evolves)
      (fun _ => processes_empty)
    have := h.cap
    omega

/-- What the inspection of a task establishes. -/
def Slot (cfg : Config) (n : String) (s : Sys) : Prop :=
  ∃ t ∈ s.tasks, t.name = n ∧ (t.execution = .process → (liveProcesses s : Int) < cfg.maxProcess)

theorem slot_drift {cfg : Config} {n : String} {s s' : Sys} (h : Slot cfg n s) (hd : Drift s s') : Slot cfg n s' := by
  obtain ⟨t, ht, hn, hp⟩ := h
  obtain ⟨t', ht', he, _⟩ := hd.forth ht
  refine ⟨t', ht', he.name.trans hn, fun hx => ?_⟩
  have h1 : liveProcesses s' ≤ liveProcesses s := hd.weight (f := processes) (fun _ _ => processes_evolves)
      (fun _ => processes_empty)
  have := hp (he.execution ▸ hx)
  omega

theorem stray_process {cfg : Config} {s : Sys} (h : Capped cfg s) : s.processesAlive = liveProcesses s := by
  unfold Sys.processesAlive liveProcesses Sys.members
  have e : s.tasks.filter TaskSt.member = s.tasks := List.filter_eq_self.2 h.members
  rw [e]
  congr 1
  apply List.map_congr_left
  intro t ht
  rw [liveRuns_process]
  have hz : live (fun k => decide (k = .process)) t.strays = 0 := by
    unfold live
    rw [List.countP_eq_zero]
    intro r hr
    rw [h.strays t ht r hr]; simp
  rw [hz]
  rfl

theorem launches_capped (cfg : Config) :
    Launches (Capped cfg) (fun c => ∀ e ∈ c.events, ∀ n, e ≠ .remove n) (Slot cfg) where
  request := fun n s h => capped_drift h (drift_event _ _ (by simp))
  event := fun s c e hc he h => capped_drift h (drift_event _ _ (hc e he))
  eventA := fun n s c e hc he _ ha => slot_drift ha (drift_event _ _ (hc e he))
  tidy := fun s s' ht h => capped_drift h (drift_tidy ht)
  flags := fun s h => capped_drift h (drift_flags s)
  check := by
    intro n s t h _ hf h1 _
    obtain ⟨ht, hn⟩ := find_mem hf
    refine ⟨t, ht, hn, fun hp => ?_⟩
    have hfree : s.hasFree = true := by
      by_cases hf : s.hasFree = true
      · exact hf
      · exact absurd ⟨hp, by simpa using hf⟩ h1
    unfold Sys.hasFree at hfree
    rw [decide_eq_true_eq, stray_process h, h.config] at hfree
    exact hfree
  pop := fun n s h => capped_drift h (drift_pop s n)
  popA := fun n s _ ha => slot_drift ha (drift_pop s n)
  push := by
    intro n s time t h _ ha ht hn
    obtain ⟨u, hu, hun, hp⟩ := ha
    have e : u = t := name_inj h.names hu ht (hun.trans hn.symm)
    subst e
    refine ⟨?_, ?_, ?_, h.config, ?_⟩
    · show ((s.upd n _).tasks.map TaskSt.name).Nodup
      exact upd_nodup h.names (fun _ => rfl)
    · intro x hx
      rcases mem_upd hx with ⟨hx, _⟩ | ⟨y, hy, _, rfl⟩
      · exact h.members x hx
      · exact h.members y hy
    · intro x hx
      rcases mem_upd hx with ⟨hx, _⟩ | ⟨y, hy, _, rfl⟩
      · exact h.strays x hx
      · exact h.strays y hy
    · show ((weight processes (s.upd n _) : Nat) : Int) ≤ _
      by_cases hk : u.execution = .process
      · have h1 := weight_upd_add (s := s) (f := processes) n
          (fun t => { t with stack := t.stack ++ [⟨s.nextId, u.execution, time, true, false⟩] }) 1 h.names (by
            intro t
            unfold processes
            rw [liveRuns_process, liveRuns_process]
            unfold live
            dsimp only
            rw [List.countP_append, List.countP_singleton]
            split <;> omega)
        have h2 := hp hk
        unfold liveProcesses at h2
        unfold weight processes at h1 ⊢
        omega
      · have h1 := weight_upd_le (s := s) (f := processes) n
          (fun t => { t with stack := t.stack ++ [⟨s.nextId, u.execution, time, true, false⟩] }) (by
            intro t
            unfold processes
            rw [liveRuns_process, liveRuns_process]
            unfold live
            rw [List.countP_append, List.countP_singleton]
            simp [hk])
        have h2 := h.cap
        unfold liveProcesses at h2
        unfold weight processes at h1 ⊢
        omega
  drop := fun n s h => capped_drift h (drift_drop s n)
  stray := by
    intro n s _ _ _ h
    refine ⟨?_, ?_, ?_, h.config, ?_⟩
    · show ((s.upd n _).tasks.map TaskSt.name).Nodup
      exact upd_nodup h.names (fun _ => rfl)
    · intro x hx
      rcases mem_upd hx with ⟨hx, _⟩ | ⟨y, hy, _, rfl⟩
      · exact h.members x hx
      · exact h.members y hy
    · intro x hx r hr
      rcases mem_upd hx with ⟨hx, _⟩ | ⟨y, hy, _, rfl⟩
      · exact h.strays x hx r hr
      · rcases List.mem_append.1 hr with hr | hr
        · exact h.strays y hy r hr
        · simpa using (List.mem_filter.1 hr).2
    · have h1 := weight_upd_le (s := s) (f := processes) n (fun t => { t with
          stack := t.stack.filter (fun r => decide (r.kind ≠ .main)),
          strays := t.strays ++ t.stack.filter (fun r => decide (r.kind = .main)) }) (by
            intro t
            unfold processes
            rw [liveRuns_process, liveRuns_process]
            unfold live
            rw [List.countP_append, List.countP_filter, List.countP_filter]
            dsimp only
            have e1 : t.stack.countP (fun a => decide (a.kind = .process) && a.alive && decide (a.kind = .main)) = 0 := by
              rw [List.countP_eq_zero]
              intro r _
              cases r.kind <;> simp
            have e2 : t.stack.countP (fun a => decide (a.kind = .process) && a.alive && decide (a.kind ≠ .main)) ≤
                t.stack.countP (fun a => decide (a.kind = .process) && a.alive) :=
              List.countP_mono_left (fun r _ h => by simp only [Bool.and_eq_true] at h ⊢; exact h.1)
            omega)
      have h2 := h.cap
      unfold liveProcesses at h2
      show ((weight processes (s.upd n _) : Nat) : Int) ≤ _
      unfold weight processes at h1 ⊢
      simp only [if_true]
      omega

/-- C37: in every state of every execution (any number of sessions, any tasks, any events and faults) at most
`max_process_count` processes of tasks are alive.  Missing: tasks removed from the session while a process of them is
alive are not counted (`C37_removed_violated`). -/
theorem C37_cap_partial (s : Sys) (env : Nat → Choice) (hs : Fresh s)
    (hrem : ∀ i, ∀ e ∈ (env i).events, ∀ n, e ≠ .remove n) (ks : List Nat) :
    ∀ x ∈ (sessions ks (World.init s env)).2.moments,
      x.cfg = s.cfg ∧ (liveProcesses x : Int) ≤ max 0 s.cfg.maxProcess := by
  have hl := launches_capped s.cfg
  have h0 : Inv (Capped s.cfg) (fun c => ∀ e ∈ c.events, ∀ n, e ≠ .remove n) (World.init s env) := by
    refine ⟨⟨?_, hrem⟩, ?_⟩
    · intro x hx
      simp only [World.init, World.moments, List.mem_singleton] at hx
      rw [hx]
      refine ⟨hs.names, hs.members, ?_, rfl, ?_⟩
      · intro t ht r hr; rw [(hs.stacks t ht).2] at hr; simp at hr
      · have : liveProcesses s = 0 := by
          exact sum_zero processes _ (fun t ht => processes_empty (hs.stacks t ht).1 (hs.stacks t ht).2)
        omega
    · intro t ht r hr; rw [(hs.stacks t ht).1] at hr; simp at hr
  have h := keeps_sessions (steady_inv hl) (launch_inv hl) ks _ h0
  intro x hx
  exact ⟨(h.1.1 x hx).config, (h.1.1 x hx).cap⟩

/-! ## C38 -/

/-- The invariant for C38; `lf`: failures in writing `run` records are possible. -/
structure Single (cfg : Config) (lf : Prop) (s : Sys) : Prop where
  names : (s.tasks.map TaskSt.name).Nodup
  config : s.cfg = cfg
  kinds : ∀ t ∈ s.tasks, ∀ r ∈ t.stack, r.kind = t.execution
  strays : ∀ t ∈ s.tasks, t.strays ≠ [] → t.execution = .main ∧ lf
  one : ∀ t ∈ s.tasks, ¬ Multilaunch cfg t → (t.execution = .main → ¬ lf) → (liveRuns t).length ≤ 1

theorem multilaunch_same {cfg : Config} {t t' : TaskSt} (h : SameSet t t') : Multilaunch cfg t' ↔ Multilaunch cfg t := by
  unfold Multilaunch; rw [h.multilaunch]

theorem live_evolves {t t' : TaskSt} (h : Evolves t t') : (liveRuns t').length ≤ (liveRuns t).length := by
  rw [liveRuns_length, liveRuns_length]
  have := h.stack.live (fun _ => true)
  have := h.strays.live (fun _ => true)
  omega

theorem single_shift {cfg : Config} {lf : Prop} {s s' : Sys} (h : Single cfg lf s) (hd : Shift s s') : Single cfg lf s' where
  names := hd.nodup h.names
  config := hd.cfg.trans h.config
  kinds := by
    intro t' ht' r hr
    rcases hd.back t' ht' with ⟨t, ht, he⟩ | ⟨_, hs, _⟩
    · obtain ⟨x, hx, hk, _⟩ := he.stack.from_ r hr
      rw [hk, he.execution]; exact h.kinds t ht x hx
    · rw [hs] at hr; simp at hr
  strays := by
    intro t' ht' hr
    rcases hd.back t' ht' with ⟨t, ht, he⟩ | ⟨_, _, hs⟩
    · rw [he.execution]
      refine h.strays t ht (fun e => hr ?_)
      rcases hc : t'.strays with _ | ⟨r, l⟩
      · rfl
      · obtain ⟨x, hx, _⟩ := he.strays.from_ r (by rw [hc]; exact List.mem_cons_self ..)
        rw [e] at hx; simp at hx
    · exact absurd hs hr
  one := by
    intro t' ht' hm hl
    rcases hd.back t' ht' with ⟨t, ht, he⟩ | ⟨_, hs, hs'⟩
    · exact Nat.le_trans (live_evolves he)
        (h.one t ht (fun h => hm ((multilaunch_same he.toSameSet).2 h)) (fun e => hl (he.execution.trans e)))
    · unfold liveRuns; rw [hs, hs']; exact Nat.zero_le _

/-- What the inspection of a task establishes. -/
def Idle (cfg : Config) (n : String) (s : Sys) : Prop :=
  ∃ t ∈ s.tasks, t.name = n ∧ (¬ Multilaunch cfg t → t.execution ≠ .main → live (fun _ => true) t.stack = 0)

theorem idle_shift {cfg : Config} {n : String} {s s' : Sys} (h : Idle cfg n s) (hd : Shift s s') : Idle cfg n s' := by
  obtain ⟨t, ht, hn, hi⟩ := h
  obtain ⟨t', ht', he⟩ := hd.forth t ht
  refine ⟨t', ht', he.name.trans hn, fun hm hx => ?_⟩
  have h1 := he.stack.live (fun _ => true)
  have h2 := hi (fun h => hm ((multilaunch_same he.toSameSet).2 h)) (he.execution ▸ hx)
  omega

theorem allowMulti_iff (cfg : Config) (t : TaskSt) : t.allowMulti cfg = true ↔ Multilaunch cfg t := by
  unfold TaskSt.allowMulti Multilaunch
  rcases t.multilaunch with _ | b <;> simp

theorem launches_single (cfg : Config) (lf : Prop) :
    Launches (Single cfg lf) (fun c => c.fault = some .logging → lf) (Idle cfg) where
  request := fun n s h => single_shift h (shift_event _ _)
  event := fun s c e _ _ h => single_shift h (shift_event _ _)
  eventA := fun n s c e _ _ _ ha => idle_shift ha (shift_event _ _)
  tidy := fun s s' ht h => single_shift h (drift_tidy ht).shift
  flags := fun s h => single_shift h (drift_flags s).shift
  check := by
    intro n s t h _ hf _ h2
    obtain ⟨ht, hn⟩ := find_mem hf
    refine ⟨t, ht, hn, fun hm hx => ?_⟩
    have ha : t.isAlive = false := by
      by_cases hal : t.isAlive = true
      · refine absurd ⟨hx, ?_, hal⟩ h2
        rw [h.config]
        by_cases ha : t.allowMulti cfg = true
        · exact absurd ((allowMulti_iff cfg t).1 ha) hm
        · simpa using ha
      · simpa using hal
    unfold live
    rw [List.countP_eq_zero]
    intro r hr
    unfold TaskSt.isAlive at ha
    have := List.any_eq_false.1 ha r hr
    simpa using this
  pop := fun n s h => single_shift h (drift_pop s n).shift
  popA := fun n s _ ha => idle_shift ha (drift_pop s n).shift
  push := by
    intro n s time t h hnm ha ht hn
    obtain ⟨u, hu, hun, hi⟩ := ha
    have e : u = t := name_inj h.names hu ht (hun.trans hn.symm)
    subst e
    refine ⟨upd_nodup h.names (fun _ => rfl), h.config, ?_, ?_, ?_⟩
    · intro x hx r hr
      rcases mem_upd hx with ⟨hx, _⟩ | ⟨y, hy, hyn, rfl⟩
      · exact h.kinds x hx r hr
      · rcases List.mem_append.1 hr with hr | hr
        · exact h.kinds y hy r hr
        · rw [List.mem_singleton] at hr
          subst hr
          rw [name_inj h.names hy hu (hyn.trans hn.symm)]
    · intro x hx
      rcases mem_upd hx with ⟨hx, _⟩ | ⟨y, hy, hyn, rfl⟩
      · exact h.strays x hx
      · exact h.strays y hy
    · intro x hx hm hl
      rcases mem_upd hx with ⟨hx, _⟩ | ⟨y, hy, hyn, rfl⟩
      · exact h.one x hx hm hl
      · have e := name_inj h.names hy hu (hyn.trans hn.symm)
        subst e
        rw [liveRuns_length]
        have h0 : live (fun _ => true) y.strays = 0 := by
          by_cases hs : y.strays = []
          · rw [hs]; rfl
          · have := h.strays y hy hs
            exact absurd this.2 (hl this.1)
        have h1 : live (fun _ => true) y.stack = 0 := by
          by_cases hx : y.execution = .main
          · rcases hc : y.stack with _ | ⟨r, l⟩
            · rfl
            · have hr : r ∈ y.stack := by rw [hc]; exact List.mem_cons_self ..
              exact absurd ((h.kinds y hy r hr).trans hx) (hnm y hy r hr)
          · exact hi hm hx
        dsimp only
        rw [h0]
        unfold live at h1 ⊢
        rw [List.countP_append, h1, List.countP_singleton]
        split <;> omega
  drop := fun n s h => single_shift h (drift_drop s n).shift
  stray := by
    intro n s c hok hc h
    have hlf := hok hc
    refine ⟨upd_nodup h.names (fun _ => rfl), h.config, ?_, ?_, ?_⟩
    · intro x hx r hr
      rcases mem_upd hx with ⟨hx, _⟩ | ⟨y, hy, hyn, rfl⟩
      · exact h.kinds x hx r hr
      · exact h.kinds y hy r (List.mem_filter.1 hr).1
    · intro x hx hr
      rcases mem_upd hx with ⟨hx, _⟩ | ⟨y, hy, hyn, rfl⟩
      · exact h.strays x hx hr
      · by_cases hm : y.execution = .main
        · exact ⟨hm, hlf⟩
        · exfalso
          apply hr
          have e1 : y.strays = [] := by
            by_cases hs : y.strays = []
            · exact hs
            · exact absurd (h.strays y hy hs).1 hm
          have e2 : y.stack.filter (fun r => decide (r.kind = .main)) = [] := by
            rw [List.filter_eq_nil_iff]
            intro r hr
            rw [h.kinds y hy r hr]
            simpa using hm
          simp [e1, e2]
    · intro x hx hm hl
      rcases mem_upd hx with ⟨hx, _⟩ | ⟨y, hy, hyn, rfl⟩
      · exact h.one x hx hm hl
      · have hy1 := h.one y hy hm hl
        have hne : y.execution ≠ .main := fun e => hl e hlf
        have e1 : y.strays = [] := by
          by_cases hs : y.strays = []
          · exact hs
          · exact absurd (h.strays y hy hs).1 hne
        have e2 : y.stack.filter (fun r => decide (r.kind = .main)) = [] := by
          rw [List.filter_eq_nil_iff]
          intro r hr
          rw [h.kinds y hy r hr]
          simpa using hne
        refine Nat.le_trans ?_ hy1
        rw [liveRuns_length, liveRuns_length]
        have e3 : live (fun _ => true) (y.stack.filter (fun r => decide (r.kind ≠ .main))) ≤ live (fun _ => true) y.stack :=
          (Fades.sublist List.filter_sublist).live _
        simp only [e1, e2, if_true, List.append_nil]
        omega

theorem single_fresh {s : Sys} (hs : Fresh s) (lf : Prop) : Single s.cfg lf s where
  names := hs.names
  config := rfl
  kinds := fun t ht r hr => by rw [(hs.stacks t ht).1] at hr; simp at hr
  strays := fun t ht h => absurd (hs.stacks t ht).2 h
  one := fun t ht _ _ => by unfold liveRuns; rw [(hs.stacks t ht).1, (hs.stacks t ht).2]; exact Nat.zero_le _

theorem noMain_fresh {s : Sys} (hs : Fresh s) : NoMain s := by
  intro t ht r hr; rw [(hs.stacks t ht).1] at hr; simp at hr

/-- C38 for tasks executed as processes, threads or asyncio tasks: in every state of every execution (any number of
sessions; any events, manual requests, failures) a task for which multilaunch is off has at most one live run. -/
theorem C38_single (s : Sys) (env : Nat → Choice) (hs : Fresh s) (ks : List Nat) :
    ∀ x ∈ (sessions ks (World.init s env)).2.moments, ∀ t ∈ x.tasks, ¬ Multilaunch s.cfg t → t.execution ≠ .main →
      (liveRuns t).length ≤ 1 := by
  have hl := launches_single s.cfg True
  have h0 : Inv (Single s.cfg True) (fun c => c.fault = some .logging → True) (World.init s env) := by
    refine ⟨⟨?_, fun _ _ => trivial⟩, noMain_fresh hs⟩
    intro x hx
    simp only [World.init, World.moments, List.mem_singleton] at hx
    rw [hx]; exact single_fresh hs True
  have h := keeps_sessions (steady_inv hl) (launch_inv hl) ks _ h0
  intro x hx t ht hm hne
  exact (h.1.1 x hx).one t ht hm (fun e => absurd e hne)

/-- C38 for all tasks, also those executed in the main process.  Missing: executions in which the `run` record of a
`main` run cannot be written (`C38_untracked_violated`). -/
theorem C38_single_partial (s : Sys) (env : Nat → Choice) (hs : Fresh s) (hlog : ∀ i, (env i).fault ≠ some .logging)
    (ks : List Nat) :
    ∀ x ∈ (sessions ks (World.init s env)).2.moments, ∀ t ∈ x.tasks, ¬ Multilaunch s.cfg t → (liveRuns t).length ≤ 1 := by
  have hl := launches_single s.cfg False
  have h0 : Inv (Single s.cfg False) (fun c => c.fault = some .logging → False) (World.init s env) := by
    refine ⟨⟨?_, hlog⟩, noMain_fresh hs⟩
    intro x hx
    simp only [World.init, World.moments, List.mem_singleton] at hx
    rw [hx]; exact single_fresh hs False
  have h := keeps_sessions (steady_inv hl) (launch_inv hl) ks _ h0
  intro x hx t ht hm
  exact (h.1.1 x hx).one t ht hm (fun _ h => h)

/-! ## Examples -/

/-- A task without batches and runs. -/
def idleTask (name : String) (e : Exec) : TaskSt :=
  ⟨name, 0, e, none, false, false, false, false, none, false, [], false, [], [], true⟩

/-- A session with the given tasks. -/
def sessionOf (maxProcess : Int) (silence : Bool) (l : List TaskSt) : Sys :=
  ⟨⟨maxProcess, false, false, silence, false, false, 100, false⟩, l, true, false, false, false, 0, 0⟩

/-- Nothing happens; conditions are as given. -/
def quiet (b : Bool) : Choice := ⟨[], some b, none, 0⟩

/-- The given choices, then silence. -/
def envOf (l : List Choice) (i : Nat) : Choice := l.getD i (quiet false)

instance (s : Sys) : Decidable (Fresh s) :=
  decidable_of_iff ((s.tasks.map TaskSt.name).Nodup ∧ (∀ t ∈ s.tasks, t.stack = [] ∧ t.strays = []) ∧
      ∀ t ∈ s.tasks, t.member = true)
    ⟨fun h => ⟨h.1, h.2.1, h.2.2⟩, fun h => ⟨h.names, h.stacks, h.members⟩⟩

/-- Two process tasks, one slot. -/
def twoProcesses : Sys := sessionOf 1 false [idleTask "a" .process, idleTask "b" .process]

/-- Startup (two choices), shut condition, sleep, then for `a`: log queue, start condition, start. -/
def startA : List Choice :=
  [quiet false, quiet false, quiet false, quiet false, quiet false, quiet true, quiet false]

/-- `a` gets the only slot, `b` does not get one. -/
example : Fresh twoProcesses ∧ (∀ i, ∀ e ∈ (envOf startA i).events, ∀ n, e ≠ .remove n) ∧
    ((sessions [3] (World.init twoProcesses (envOf startA))).2.moments.map liveProcesses).max? = some 1 := by
  refine ⟨by decide, ?_, by decide +kernel⟩
  intro i e he
  have h : ∀ c ∈ startA, c.events = [] := by decide
  have h2 : (envOf startA i).events = [] := by
    unfold envOf
    rw [List.getD_eq_getElem?_getD]
    rcases hg : startA[i]? with _ | c
    · rfl
    · exact h c (List.mem_of_getElem? hg)
  rw [h2] at he; simp at he

/-- C37 fails for a task that is removed from the session while its process is alive: its slot is taken for free. -/
theorem C37_removed_violated : ∃ (s : Sys) (env : Nat → Choice) (k : Nat), Fresh s ∧
    ∃ x ∈ (serve k (World.init s env)).2.moments, ¬ ((liveProcesses x : Int) ≤ max 0 s.cfg.maxProcess) := by
  refine ⟨twoProcesses, envOf (startA ++ [⟨[.remove "a"], some false, none, 0⟩, quiet false, quiet true]), 3, by decide, ?_⟩
  decide +kernel

/-- A `main` task; log errors are silenced. -/
def mainTask : Sys := sessionOf 1 true [idleTask "a" .main]

/-- Two cycles start `a`; the `run` record of the first start cannot be written. -/
def mainTwice (f : Option Fault) : List Choice :=
  [quiet false, quiet false, quiet false, quiet false, quiet true, ⟨[], some false, f, 0⟩, quiet false, quiet false,
    quiet false, quiet false, quiet false, quiet true, quiet false]

/-- C38 fails for a `main` task whose `run` record cannot be written: the run goes on, but is no longer tracked. -/
theorem C38_untracked_violated : ∃ (s : Sys) (env : Nat → Choice) (k : Nat), Fresh s ∧
    ∃ x ∈ (serve k (World.init s env)).2.moments, ∃ t ∈ x.tasks, ¬ Multilaunch s.cfg t ∧ ¬ (liveRuns t).length ≤ 1 := by
  refine ⟨mainTask, envOf (mainTwice (some .logging)), 3, by decide, ?_⟩
  have h : ∃ x ∈ (serve 3 (World.init mainTask (envOf (mainTwice (some .logging))))).2.moments, ∃ t ∈ x.tasks,
      t.multilaunch = none ∧ (liveRuns t).length = 2 := by decide +kernel
  obtain ⟨x, hx, t, ht, hm, hl⟩ := h
  refine ⟨x, hx, t, ht, ?_, by omega⟩
  unfold Multilaunch
  rw [hm]
  simp [mainTask, sessionOf]

/-- Without the fault the task runs twice, one run at a time. -/
example : Fresh mainTask ∧ ((sessions [3] (World.init mainTask (envOf (mainTwice none)))).2.moments.map
      (fun x => (x.tasks.map (fun t => (liveRuns t).length)).sum)).max? = some 1 := by
  decide +kernel

/-- A thread that is requested twice while it runs. -/
example : let s := sessionOf 1 true [idleTask "a" .thread]
    let r : Choice := ⟨[.request "a" []], some false, none, 0⟩
    Fresh s ∧ ((sessions [3] (World.init s (envOf [quiet false, quiet false, r, r, r]))).2.moments.map
      (fun x => (x.tasks.map (fun t => (liveRuns t).length)).sum)).max? = some 1 := by
  decide +kernel

end Rocketry.Props
