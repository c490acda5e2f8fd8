import Verif.Spec.ServedSpec
import Verif.Props.CycleProps

/-!
# C106: a requested run is started in the next cycle
-/

namespace Rocketry.Props
open Rocketry.Sched Rocketry.Spec

/-! ## The turn of a task in a cycle -/

theorem grows_launch (w0 : World) (name : String) (part : Part) : Keeps (Grows w0) (launch name part) := fun w hw =>
  launch_rule' (I0 := Grows w0) (I1 := Grows w0) (steady_grows w0).toCalm (steady_grows w0).toCalm name part (fun _ h => h)
    (fun _ _ h => ⟨h.trace.trans (List.prefix_append ..), h.moments.trans (List.suffix_cons ..), h.env⟩)
    (fun _ _ _ h => ⟨h.trace.trans (List.prefix_append ..), h.moments.trans (List.suffix_cons ..), h.env⟩)
    (fun _ _ h => ⟨h.trace, h.moments.trans (List.suffix_cons ..), h.env⟩) w hw

theorem grows_inspect (w : World) (name : String) : Grows w (inspectTask name w).2 :=
  keeps_inspectTask (steady_grows w).toCalm (fun n => grows_launch w n _) name w (.refl w)

theorem grows_loop (w : World) (l : List String) : Grows w (forEach l inspectTask w).2 :=
  keeps_forEach (I := Grows w) (fun n _ => keeps_inspectTask (steady_grows w).toCalm (fun n => grows_launch w n _) n) w (.refl w)

theorem keeps_consider_of {J : World → Prop} {m : String} (h : Keeps J (launch m .cycle)) : Keeps J (consider m) := by
  unfold consider
  refine keeps_bind keeps_get (fun s => ?_)
  split
  · exact keeps_pure _
  · exact keeps_ite (fun _ => keeps_pure _) (fun _ => keeps_ite (fun _ => h) (fun _ => keeps_pure _))

/-- What survives everything but the start of the task `n` holds when its turn comes. -/
theorem loop_turn {J : World → Prop} (hb : Base J) {n : String} (hc : ∀ m, m ≠ n → Keeps J (launch m .cycle)) :
    ∀ (l : List String) (w : World), J w → n ∈ l → (forEach l inspectTask w).1 = .ok () →
      ∃ w1, J w1 ∧ Grows w w1 ∧ Grows (consider n w1).2 (forEach l inspectTask w).2
  | [], _, _, h, _ => by simp at h
  | m :: l, w, hJ, hm, hok => by
    unfold forEach at hok ⊢
    rw [bind_apply] at hok ⊢
    by_cases e : m = n
    · subst e
      have hg := fun w' => grows_loop w' l
      rcases hi : inspectTask m w with ⟨r, w2⟩
      rw [hi] at hok
      cases r with
      | raise x => simp at hok
      | cut => simp at hok
      | ok _ =>
        simp only at hok ⊢
        have g2 := hg w2
        -- inside the inspection
        unfold inspectTask at hi
        rw [bind_apply] at hi
        have hem : emit (.inspected m) w = (.ok (), { w with trace := w.trace ++ [.inspected m] }) := rfl
        rw [hem] at hi
        simp only at hi
        have hJ0 := hb.note w (.inspected m) rfl (by simp) hJ
        have g0 : Grows w { w with trace := w.trace ++ [.inspected m] } := ⟨List.prefix_append .., List.suffix_rfl, rfl⟩
        have hJ1 := keeps_handleLogs hb _ hJ0
        have g1 := g0.trans (keeps_handleLogs (steady_grows _).toCalm.toStill.base _ (.refl { w with trace := w.trace ++ [.inspected m] }))
        rw [bind_apply] at hi
        generalize ({ w with trace := w.trace ++ [Obs.inspected m] } : World) = w0 at hi hJ1 g1
        rcases hh : handleLogs w0 with ⟨r, w1⟩
        rw [hh] at hi hJ1 g1
        cases r with
        | raise x => simp at hi
        | cut => simp at hi
        | ok _ =>
          simp only at hi hJ1 g1
          rw [bind_apply] at hi
          have hcl : cleanRunStack m w1 = (.ok (), { w1 with st := w1.st.upd m (TaskSt.clean w1.st.cfg), hist := w1.st :: w1.hist }) := rfl
          rw [hcl] at hi
          simp only at hi
          have hJ3 := hb.move w1 _ (.clean w1.st m w1.st.cfg) rfl hJ1
          have g3 : Grows w { w1 with st := w1.st.upd m (TaskSt.clean w1.st.cfg), hist := w1.st :: w1.hist } :=
            g1.trans ⟨List.prefix_rfl, List.suffix_cons .., rfl⟩
          refine ⟨_, hJ3, g3, ?_⟩
          generalize ({ w1 with st := w1.st.upd m (TaskSt.clean w1.st.cfg), hist := w1.st :: w1.hist } : World) = w3 at hi
          rw [bind_apply] at hi
          rcases hco : consider m w3 with ⟨r, w4⟩
          rw [hco] at hi
          cases r with
          | raise x => simp at hi
          | cut => simp at hi
          | ok _ =>
            simp only at hi ⊢
            have g4 := keeps_checkTermination (steady_grows w4).toCalm.toStill.base m w4 (.refl w4)
            rw [hi] at g4
            exact g4.trans g2
    · have hJ' := keeps_inspectTask' hb (keeps_consider_of (hc m e)) w hJ
      have hg := grows_inspect w m
      rcases hi : inspectTask m w with ⟨r, w2⟩
      rw [hi] at hok hJ' hg
      cases r with
      | raise x => simp at hok
      | cut => simp at hok
      | ok _ =>
        simp only at hok hJ' hg ⊢
        obtain ⟨w1, h1, h2, h3⟩ := loop_turn hb hc l w2 hJ' ((List.mem_cons.1 hm).resolve_left (fun h => e h.symm)) hok
        exact ⟨w1, h1, hg.trans h2, h3⟩

/-! ## A task that waits -/

/-- The task `n` has a request. -/
structure Waiting (n : String) (cfg : Config) (x : Exec) (w : World) : Prop where
  named : (w.st.tasks.map TaskSt.name).Nodup
  config : w.st.cfg = cfg
  on : w.st.enabled = true
  env : ∀ i, ∀ e ∈ (w.env i).events, e ≠ .hold true
  task : ∃ t, w.st.find n = some t ∧ t.execution = x ∧ (t.onStartup = false ∧ t.onShutdown = false) ∧ t.batches ≠ [] ∧
    (t.execution ≠ .main → ¬ Multilaunch cfg t → ∀ r ∈ t.stack, r.alive = false)

/-- The changes of the waiting task. -/
structure Waits' (t t' : TaskSt) : Prop where
  name : t'.name = t.name
  execution : t'.execution = t.execution
  onStartup : t'.onStartup = t.onStartup
  onShutdown : t'.onShutdown = t.onShutdown
  multilaunch : t'.multilaunch = t.multilaunch
  batches : t.batches ≠ [] → t'.batches ≠ []
  stack : ∀ r' ∈ t'.stack, ∃ r ∈ t.stack, r'.alive = true → r.alive = true

theorem waits_upd {n : String} {cfg : Config} {x : Exec} {w w' : World} (h : Waiting n cfg x w) (m : String)
    (g : TaskSt → TaskSt) (ht : w'.st.tasks = (w.st.upd m g).tasks) (hc : w'.st.cfg = w.st.cfg) (ho : w'.st.enabled = w.st.enabled)
    (he : w'.env = w.env) (hn : ∀ t, (g t).name = t.name) (hg : m = n → ∀ t, Waits' t (g t)) : Waiting n cfg x w' := by
  obtain ⟨t, ht1, hx, hs, hb, hi⟩ := h.task
  have e : ∀ k, w'.st.find k = (w.st.upd m g).find k := fun k => by unfold Sys.find; rw [ht]
  refine ⟨by rw [ht]; exact upd_nodup h.named hn, hc.trans h.config, ho.trans h.on, by rw [he]; exact h.env, ?_⟩
  rw [e]
  by_cases hm : m = n
  · subst hm
    have hw := hg rfl t
    refine ⟨g t, find_upd_eq h.named hn ht1, hw.execution.trans hx, ⟨hw.onStartup.trans hs.1, hw.onShutdown.trans hs.2⟩,
      hw.batches hb, fun h1 h2 r hr => ?_⟩
    obtain ⟨r0, hr0, hl⟩ := hw.stack r hr
    have h3 := hi (by rw [← hw.execution]; exact h1) (by unfold Multilaunch at h2 ⊢; rw [← hw.multilaunch]; exact h2) r0 hr0
    rcases ha : r.alive with _ | _
    · rfl
    · rw [hl ha] at h3; cases h3
  · exact ⟨t, find_upd_ne h.named (fun e => hm e.symm) hn ht1, hx, hs, hb, hi⟩

theorem waits_same {n : String} {cfg : Config} {x : Exec} {w w' : World} (h : Waiting n cfg x w) (ht : w'.st.tasks = w.st.tasks)
    (hc : w'.st.cfg = w.st.cfg) (ho : w'.st.enabled = true) (he : w'.env = w.env) : Waiting n cfg x w' := by
  obtain ⟨t, ht1, hr⟩ := h.task
  refine ⟨by rw [ht]; exact h.named, hc.trans h.config, ho, by rw [he]; exact h.env, t, ?_, hr⟩
  unfold Sys.find at ht1 ⊢; rw [ht]; exact ht1

theorem endRun_alive (id : Nat) (exc : Bool) (l : List Run) : ∀ r' ∈ endRun id exc l, ∃ r ∈ l, r'.alive = true → r.alive = true := by
  intro r' h
  rcases mem_endRun h with h | ⟨x, hx, _, rfl⟩
  · exact ⟨r', h, fun h => h⟩
  · exact ⟨x, hx, fun h => by simp [Run.ended] at h⟩

theorem waits_clean (cfg : Config) (t : TaskSt) : Waits' t (t.clean cfg) := by
  unfold TaskSt.clean
  split
  · exact ⟨rfl, rfl, rfl, rfl, rfl, fun h => h, fun r hr => ⟨r, (List.mem_filter.1 hr).1, fun h => h⟩⟩
  · exact ⟨rfl, rfl, rfl, rfl, rfl, fun h => h, fun r hr => ⟨r, (List.mem_filter.1 hr).1, fun h => h⟩⟩

theorem waits_event {n : String} {cfg : Config} {x : Exec} {w : World} (h : Waiting n cfg x w) (e : EnvEv) (he : e ≠ .hold true) :
    Waiting n cfg x (w.happen e) := by
  have plain : ∀ (m : String) (g : TaskSt → TaskSt), (w.happen e).st = w.st.upd m g → (∀ t, Waits' t (g t)) →
      Waiting n cfg x (w.happen e) := fun m g hst hg =>
    waits_upd h m g (by rw [hst]) (by rw [hst]; rfl) (by rw [hst]; rfl) rfl (fun t => (hg t).name) (fun _ => hg)
  cases e with
  | ends m id exc => exact plain m _ rfl (fun t => ⟨rfl, rfl, rfl, rfl, rfl, fun h => h, endRun_alive id exc t.stack⟩)
  | request m b =>
    exact plain m _ rfl (fun t => ⟨rfl, rfl, rfl, rfl, rfl, fun h => by simp, fun r hr => ⟨r, hr, fun h => h⟩⟩)
  | terminate m => exact plain m _ rfl (fun t => ⟨rfl, rfl, rfl, rfl, rfl, fun h => h, fun r hr => ⟨r, hr, fun h => h⟩⟩)
  | disable m b => exact plain m _ rfl (fun t => ⟨rfl, rfl, rfl, rfl, rfl, fun h => h, fun r hr => ⟨r, hr, fun h => h⟩⟩)
  | remove m => exact plain m _ rfl (fun t => ⟨rfl, rfl, rfl, rfl, rfl, fun h => h, fun r hr => ⟨r, hr, fun h => h⟩⟩)
  | hold b =>
    rcases b with _ | _
    · exact waits_same h rfl rfl rfl rfl
    · exact absurd rfl he
  | shutDown f => exact waits_same h rfl rfl h.on rfl
  | restart => exact waits_same h rfl rfl h.on rfl
  | add u =>
    by_cases hu : u.name ∈ w.st.tasks.map TaskSt.name
    · refine waits_same h ?_ ?_ ?_ rfl <;> simp only [World.happen, Sys.event] <;> rw [if_pos hu]
      exact h.on
    · have hd := (shift_event w.st (.add u)).nodup h.named
      obtain ⟨t, ht, hr⟩ := h.task
      refine ⟨hd, (shift_event w.st (.add u)).cfg.trans h.config, ?_, h.env, t, ?_, hr⟩
      · simp only [World.happen, Sys.event]; rw [if_neg hu]; exact h.on
      · show (w.st.event (.add u)).find n = some t
        rw [find_iff hd]
        obtain ⟨h1, h2⟩ := (find_iff h.named).1 ht
        refine ⟨?_, h2⟩
        simp only [Sys.event]; rw [if_neg hu]; exact List.mem_cons_of_mem _ h1
  | reorder k =>
    have hd := (shift_event w.st (.reorder k)).nodup h.named
    obtain ⟨t, ht, hr⟩ := h.task
    refine ⟨hd, (shift_event w.st (.reorder k)).cfg.trans h.config, ?_, h.env, t, ?_, hr⟩
    · simp only [World.happen, Sys.event]; split <;> exact h.on
    · show (w.st.event (.reorder k)).find n = some t
      rw [find_iff hd]
      obtain ⟨h1, h2⟩ := (find_iff h.named).1 ht
      refine ⟨?_, h2⟩
      simp only [Sys.event]
      by_cases hk : k.isPerm w.st.tasks = true
      · rw [if_pos hk]; exact (List.isPerm_iff.1 hk).mem_iff.2 h1
      · rw [if_neg hk]; exact h1

theorem base_waiting (n : String) (cfg : Config) (x : Exec) : Base (Waiting n cfg x) where
  pos := fun _ _ h => ⟨h.named, h.config, h.on, h.env, h.task⟩
  env := fun w i e h he => waits_event h e (h.env i e he)
  note := fun _ _ _ _ h => ⟨h.named, h.config, h.on, h.env, h.task⟩
  move := fun w s ht _ h => by
    cases ht with
    | clean m c => exact waits_upd h m _ rfl rfl rfl rfl (fun t => (waits_clean c t).name) (fun _ => waits_clean c)
    | finish m id exc =>
      exact waits_upd h m _ rfl rfl rfl rfl (fun _ => rfl)
        (fun _ t => ⟨rfl, rfl, rfl, rfl, rfl, fun h => h, endRun_alive id exc t.stack⟩)
    | reset m c =>
      exact waits_upd h m _ rfl rfl rfl rfl (fun t => (waits_clean c t).name) (fun _ t =>
        have k := waits_clean c t
        ⟨k.name, k.execution, k.onStartup, k.onShutdown, k.multilaunch, k.batches, k.stack⟩)
    | erase m r =>
      exact waits_upd h m _ rfl rfl rfl rfl (fun _ => rfl)
        (fun _ t => ⟨rfl, rfl, rfl, rfl, rfl, fun h => h, fun r hr => ⟨r, List.mem_of_mem_eraseP hr, fun h => h⟩⟩)
    | cycles k => exact waits_same h rfl rfl h.on rfl

/-- The starts of other tasks. -/
theorem waiting_launch {n m : String} (hne : m ≠ n) (cfg : Config) (x : Exec) : Keeps (Waiting n cfg x) (launch m .cycle) :=
  fun w hw => launch_rule' (I0 := Waiting n cfg x) (I1 := Waiting n cfg x) (base_waiting n cfg x) (base_waiting n cfg x) m .cycle
    (fun _ h => h)
    (fun _ _ h => waits_upd h m _ rfl rfl rfl rfl (fun _ => rfl) (fun e => absurd e hne))
    (fun _ _ _ h => waits_upd h m _ rfl rfl rfl rfl (fun _ => rfl) (fun e => absurd e hne))
    (fun _ _ h => waits_upd h m _ rfl rfl rfl rfl (fun _ => rfl) (fun e => absurd e hne)) w hw

/-! ## Enough slots -/

/-- The number of tasks executed as processes. -/
def procTasks (s : Sys) : Nat := s.tasks.countP (fun t => decide (t.execution = .process))

/-- There are slots for all process tasks. -/
structure Ample (cfg : Config) (s : Sys) : Prop where
  config : s.cfg = cfg
  once : ∀ t ∈ s.tasks, t.execution = .process → ¬ Multilaunch cfg t
  slots : (procTasks s : Int) ≤ cfg.maxProcess

theorem procTasks_upd (s : Sys) (m : String) (g : TaskSt → TaskSt) (hg : ∀ t, (g t).execution = t.execution) :
    procTasks (s.upd m g) = procTasks s := by
  unfold procTasks Sys.upd
  rw [List.countP_map]
  congr 1
  funext t
  simp only [Function.comp]
  split
  · rw [hg]
  · rfl

theorem ample_upd {cfg : Config} {s s' : Sys} (h : Ample cfg s) (m : String) (g : TaskSt → TaskSt) (ht : s'.tasks = (s.upd m g).tasks)
    (hc : s'.cfg = s.cfg) (hg : ∀ t, (g t).execution = t.execution ∧ (g t).multilaunch = t.multilaunch) : Ample cfg s' where
  config := hc.trans h.config
  once := by
    intro t h1 h2
    rw [ht] at h1
    rcases mem_upd h1 with ⟨h1, _⟩ | ⟨u, hu, _, rfl⟩
    · exact h.once t h1 h2
    · rw [(hg u).1] at h2
      have := h.once u hu h2
      unfold Multilaunch at this ⊢
      rw [(hg u).2]; exact this
  slots := by
    have e : procTasks s' = procTasks s := by
      rw [← procTasks_upd s m g (fun t => (hg t).1)]; unfold procTasks; rw [ht]
    rw [e]; exact h.slots

theorem ample_same {cfg : Config} {s s' : Sys} (h : Ample cfg s) (ht : s'.tasks = s.tasks) (hc : s'.cfg = s.cfg) : Ample cfg s' :=
  ⟨hc.trans h.config, by rw [ht]; exact h.once, by unfold procTasks; rw [ht]; exact h.slots⟩

theorem ample_event {cfg : Config} {s : Sys} (h : Ample cfg s) (e : EnvEv) (he : ∀ t, e = .add t → t.execution ≠ .process) :
    Ample cfg (s.event e) := by
  cases e with
  | ends m id exc => exact ample_upd h m _ rfl rfl (fun _ => ⟨rfl, rfl⟩)
  | request m b => exact ample_upd h m _ rfl rfl (fun _ => ⟨rfl, rfl⟩)
  | terminate m => exact ample_upd h m _ rfl rfl (fun _ => ⟨rfl, rfl⟩)
  | disable m b => exact ample_upd h m _ rfl rfl (fun _ => ⟨rfl, rfl⟩)
  | remove m => exact ample_upd h m _ rfl rfl (fun _ => ⟨rfl, rfl⟩)
  | hold b => exact ample_same h rfl rfl
  | shutDown f => exact ample_same h rfl rfl
  | restart => exact ample_same h rfl rfl
  | add u =>
    have hu := he u rfl
    simp only [Sys.event]
    split
    · exact h
    · refine ⟨h.config, fun t ht hx => ?_, ?_⟩
      · rcases List.mem_cons.1 ht with rfl | ht
        · exact absurd hx hu
        · exact h.once t ht hx
      · have hs := h.slots
        unfold procTasks at hs ⊢
        rw [List.countP_cons]
        simpa [hu] using hs
  | reorder k =>
    simp only [Sys.event]
    split
    · rename_i hk
      have hp := List.isPerm_iff.1 hk
      refine ⟨h.config, fun t ht => h.once t (hp.mem_iff.1 ht), ?_⟩
      have hs := h.slots
      unfold procTasks at hs ⊢
      rw [hp.countP_eq]; exact hs
    · exact h

theorem clean_set (cfg : Config) (t : TaskSt) : (t.clean cfg).execution = t.execution ∧ (t.clean cfg).multilaunch = t.multilaunch :=
  ⟨(clean_same cfg t).execution, (clean_same cfg t).multilaunch⟩

/-- No process task is added. -/
def NoneAdded (c : Choice) : Prop := ∀ e ∈ c.events, ∀ t, e = .add t → t.execution ≠ .process

theorem launches_ample (cfg : Config) : Launches (Ample cfg) NoneAdded (fun _ _ => True) where
  request := fun n s h => ample_event h _ (fun _ h => by cases h)
  event := fun s c e hc he h => ample_event h e (hc e he)
  eventA := fun _ _ _ _ _ _ _ _ => trivial
  tidy := fun s s' ht h => by
    cases ht with
    | clean m c => exact ample_upd h m _ rfl rfl (clean_set c)
    | finish m id exc => exact ample_upd h m _ rfl rfl (fun _ => ⟨rfl, rfl⟩)
    | reset m c => exact ample_upd h m _ rfl rfl (fun t => clean_set c t)
    | erase m r => exact ample_upd h m _ rfl rfl (fun _ => ⟨rfl, rfl⟩)
    | cycles k => exact ample_same h rfl rfl
  flags := fun s h => ample_same h rfl rfl
  check := fun _ _ _ _ _ _ _ _ => trivial
  pop := fun n s h => ample_upd h n _ rfl rfl (fun _ => ⟨rfl, rfl⟩)
  popA := fun _ _ _ _ => trivial
  push := fun n s time t h _ _ _ _ => ample_upd h n _ rfl rfl (fun _ => ⟨rfl, rfl⟩)
  drop := fun n s h => ample_upd h n _ rfl rfl (fun _ => ⟨rfl, rfl⟩)
  stray := fun n s _ _ _ h => ample_upd h n _ rfl rfl (fun _ => ⟨rfl, rfl⟩)

theorem countP_lt {α : Type} (f : α → Nat) (p : α → Bool) (hle : ∀ l : List α, (∀ a ∈ l, f a ≤ if p a then 1 else 0) →
    (l.map f).sum ≤ l.countP p) : ∀ (l : List α), (∀ a ∈ l, f a ≤ if p a then 1 else 0) → ∀ t ∈ l, f t = 0 → p t = true →
    (l.map f).sum < l.countP p
  | [], _, t, h, _, _ => by simp at h
  | a :: l, h, t, ht, h0, hp => by
    rw [List.map_cons, List.sum_cons, List.countP_cons]
    have h1 := h a (List.mem_cons_self ..)
    have h2 := fun b hb => h b (List.mem_cons_of_mem a hb)
    rcases List.mem_cons.1 ht with rfl | ht
    · have := hle l h2
      rw [h0, hp]; simp only [if_true]; omega
    · have := countP_lt f p hle l h2 t ht h0 hp
      omega

theorem countP_le_sum {α : Type} (f : α → Nat) (p : α → Bool) : ∀ l : List α, (∀ a ∈ l, f a ≤ if p a then 1 else 0) →
    (l.map f).sum ≤ l.countP p
  | [], _ => Nat.le_refl _
  | a :: l, h => by
    rw [List.map_cons, List.sum_cons, List.countP_cons]
    have h1 := h a (List.mem_cons_self ..)
    have := countP_le_sum f p l (fun b hb => h b (List.mem_cons_of_mem a hb))
    omega

theorem sum_filter_le {α : Type} (f : α → Nat) (p : α → Bool) : ∀ l : List α, ((l.filter p).map f).sum ≤ (l.map f).sum
  | [] => Nat.le_refl _
  | a :: l => by
    have := sum_filter_le f p l
    rw [List.filter_cons]
    split <;> simp only [List.map_cons, List.sum_cons] <;> omega

/-- If every process task has room, an idle one finds a slot. -/
theorem ample_free {cfg : Config} {s : Sys} (h : Single cfg True s) (ha : Ample cfg s) {t : TaskSt} (ht : t ∈ s.tasks)
    (hx : t.execution = .process) (hi : ∀ r ∈ t.stack, r.alive = false) : FreeSlot s := by
  rw [← hasFree_iff]
  unfold Sys.hasFree
  rw [decide_eq_true_iff]
  have h1 : ∀ u ∈ s.tasks, u.countProcesses ≤ if decide (u.execution = .process) then 1 else 0 := by
    intro u hu
    unfold TaskSt.countProcesses
    by_cases hp : u.execution = .process
    · rw [if_pos (by simpa using hp)]
      have h2 := h.one u hu (ha.once u hu hp) (fun e => by rw [hp] at e; cases e)
      rw [liveRuns_length] at h2
      have h3 : u.stack.countP (fun r => decide (r.kind = .process) && r.alive) ≤ live (fun _ => true) u.stack := by
        unfold live
        exact List.countP_mono_left (fun r _ h => by simp only [Bool.and_eq_true, Bool.true_and] at h ⊢; exact h.2)
      omega
    · rw [if_neg (by simpa using hp)]
      rw [Nat.le_zero, List.countP_eq_zero]
      intro r hr
      rw [h.kinds u hu r hr]
      simp [hp]
  have h0 : t.countProcesses = 0 := by
    unfold TaskSt.countProcesses
    rw [List.countP_eq_zero]
    intro r hr
    rw [hi r hr]; simp
  have h2 := countP_lt TaskSt.countProcesses (fun u => decide (u.execution = .process)) (countP_le_sum _ _) s.tasks h1 t ht h0
    (by simpa using hx)
  have h3 := sum_filter_le TaskSt.countProcesses TaskSt.member s.tasks
  have h4 := ha.slots
  rw [← ha.config] at h4
  unfold Sys.processesAlive Sys.members
  unfold procTasks at h4
  omega

/-! ## The next cycle -/

theorem steady_both {I J : World → Prop} (hi : Base I) (hj : Base J) : Base (fun w => I w ∧ J w) where
  pos := fun w p h => ⟨hi.pos w p h.1, hj.pos w p h.2⟩
  env := fun w i e h he => ⟨hi.env w i e h.1 he, hj.env w i e h.2 he⟩
  note := fun w o ho hc h => ⟨hi.note w o ho hc h.1, hj.note w o ho hc h.2⟩
  move := fun w s ht hn h => ⟨hi.move w s ht hn h.1, hj.move w s ht hn h.2⟩

theorem mem_starts_of_prefix {a b : List Obs} {p : String × Part} (h : a <+: b) (hp : p ∈ starts a) : p ∈ starts b := by
  obtain ⟨c, rfl⟩ := h
  rw [starts_append]; exact List.mem_append_left _ hp

/-- What holds of the waiting task until its turn. -/
def Ahead (n : String) (cfg : Config) (x : Exec) (w : World) : Prop :=
  Waiting n cfg x w ∧ (x = .process → Inv (Single cfg True) (fun c => c.fault = some .logging → True) w ∧ Inv (Ample cfg) NoneAdded w)

theorem base_ahead (n : String) (cfg : Config) (x : Exec) : Base (Ahead n cfg x) := by
  have h1 := (steady_inv (launches_single cfg True)).toCalm.toStill.base
  have h2 := (steady_inv (launches_ample cfg)).toCalm.toStill.base
  have hb := steady_both h1 h2
  have hw := base_waiting n cfg x
  exact ⟨fun w p h => ⟨hw.pos w p h.1, fun e => hb.pos w p (h.2 e)⟩,
    fun w i e h he => ⟨hw.env w i e h.1 he, fun k => hb.env w i e (h.2 k) he⟩,
    fun w o ho hc h => ⟨hw.note w o ho hc h.1, fun k => hb.note w o ho hc (h.2 k)⟩,
    fun w s ht hn h => ⟨hw.move w s ht hn h.1, fun k => hb.move w s ht hn (h.2 k)⟩⟩

theorem ahead_launch {n m : String} (hne : m ≠ n) (cfg : Config) (x : Exec) : Keeps (Ahead n cfg x) (launch m .cycle) :=
  fun w h => ⟨waiting_launch hne cfg x w h.1, fun e =>
    ⟨launch_inv (launches_single cfg True) m .cycle w (h.2 e).1, launch_inv (launches_ample cfg) m .cycle w (h.2 e).2⟩⟩

theorem roomy_single {s : Sys} {env : Nat → Choice} (h : Roomy s env) : Single s.cfg True s where
  names := h.names
  config := rfl
  kinds := fun t ht r hr => (h.kinds t ht r hr).1
  strays := fun t ht hs => ⟨h.strays t ht hs, trivial⟩
  one := fun t ht hm hl => h.single t ht (fun e => hl e trivial) hm

/-- The end of a cycle. -/
def closing : M Unit := do
  handleLogs
  checkThreadErrors
  setCycles (fun k => k + 1)
  emit .cycleDone

theorem grows_closing (w : World) : Grows w (closing w).2 :=
  (keeps_bind (keeps_handleLogs (steady_grows w).toCalm) (fun _ => keeps_bind (keeps_checkThreadErrors (steady_grows w).toCalm)
    (fun _ => keeps_bind (keeps_setCycles (steady_grows w).toCalm _) (fun _ => keeps_note (steady_grows w).toCalm rfl))) :
    Keeps (Grows w) closing) w (.refl w)

theorem runCycle_split (w : World) : runCycle w = ((forEach (w.st.sorted.map TaskSt.name) inspectTask) >>= fun _ => closing)
    { w with trace := w.trace ++ [.cycle] } := rfl

/-- C106.  If a run of a task was requested and nothing keeps it from being started, every cycle that is completed starts
it, from whatever state, whatever happens to the other tasks and whatever their priorities are.  For a task executed as
a process this needs slots for all such tasks.  Missing: process tasks when there are fewer slots
(`C106_starved_violated`). -/
theorem C106_next_partial (s : Sys) (env : Nat → Choice) (n : String) (t : TaskSt) (hn : (s.tasks.map TaskSt.name).Nodup)
    (ht : s.find n = some t) (hr : Requested s t) (he : Untroubled env) (hp : t.execution = .process → Roomy s env)
    (hdone : (runCycle (World.init s env)).1 = .ok ()) : (n, .cycle) ∈ starts (runCycle (World.init s env)).2.trace := by
  rw [runCycle_split, bind_apply] at hdone ⊢
  have hJ : Ahead n s.cfg t.execution { World.init s env with trace := (World.init s env).trace ++ [.cycle] } := by
    refine ⟨⟨hn, rfl, hr.on, fun i => (he i).1, t, ht, rfl, hr.ordinary, hr.request, hr.idle⟩, fun hx => ?_⟩
    have h := hp hx
    have hm : NoMain s := fun u hu r hr => (h.kinds u hu r hr).2
    refine ⟨⟨⟨fun x hx => ?_, fun _ _ => trivial⟩, hm⟩, ⟨⟨fun x hx => ?_, h.added⟩, hm⟩⟩
    · rw [List.mem_singleton.1 hx]; exact roomy_single h
    · rw [List.mem_singleton.1 hx]; exact ⟨rfl, h.once, h.slots⟩
  have hmem : n ∈ (World.init s env).st.sorted.map TaskSt.name := by
    obtain ⟨h1, h2⟩ := find_mem ht
    exact List.mem_map.2 ⟨t, (pySorted_perm _).mem_iff.2 (List.mem_filter.2 ⟨h1, hr.inSession⟩), h2⟩
  have henv : ({ World.init s env with trace := (World.init s env).trace ++ [.cycle] } : World).env = env := rfl
  generalize ({ World.init s env with trace := (World.init s env).trace ++ [.cycle] } : World) = w at hJ hdone henv ⊢
  have turn := loop_turn (base_ahead n s.cfg t.execution) (fun m hm => ahead_launch hm s.cfg t.execution) _ w hJ hmem
  rcases hl : forEach ((World.init s env).st.sorted.map TaskSt.name) inspectTask w with ⟨r, w2⟩
  rw [hl] at hdone turn
  cases r with
  | raise e => simp at hdone
  | cut => simp at hdone
  | ok _ =>
    obtain ⟨w1, ⟨h1, h2⟩, g1, g2⟩ := turn rfl
    simp only at g2 ⊢
    obtain ⟨u, hu, hux, hus, hub, hui⟩ := h1.task
    have hmay : MayStart w1.st u (w1.env w1.pos).cond := by
      refine ⟨h1.on, hus, fun hx => ?_, ?_, Or.inl hub⟩
      · have h3 := h2 (by rw [← hux]; exact hx)
        refine ample_free h3.1.1.now h3.2.1.now (find_mem hu).1 hx (hui (by rw [hx]; simp) ?_)
        exact h3.2.1.now.once u (find_mem hu).1 hx
      · rw [h1.config]; exact hui
    obtain ⟨o, ho, _, hst⟩ := C39_exact n w1 h1.named u hu
    have hf : ∀ i, (w1.env i).fault ≠ some .params ∧ (w1.env i).fault ≠ some .setup := by
      intro i; rw [g1.env, henv]; exact (he i).2
    have hin : (n, Part.cycle) ∈ starts (consider n w1).2.trace := by
      rw [ho, starts_append, (hst hmay).2 (hf _)]
      exact List.mem_append_right _ (List.mem_singleton.2 rfl)
    exact mem_starts_of_prefix (g2.trace.trans (grows_closing w2).trace) hin

/-- A task with high priority, and one with a request. -/
def bothDue (x : Exec) (slots : Int) : Sys :=
  sessionOf slots false [{ idleTask "high" .process with priority := 1 }, { idleTask "low" x with batches := [[("x", "1")]] }]

/-- The hypotheses are met, and the cycle ends. -/
example : (bothDue .async 1).find "low" = some { idleTask "low" .async with batches := [[("x", "1")]] } ∧
    Requested (bothDue .async 1) { idleTask "low" .async with batches := [[("x", "1")]] } ∧
    Untroubled (fun _ => quiet true) ∧ (runCycle (World.init (bothDue .async 1) (fun _ => quiet true))).1 = .ok () ∧
    starts (runCycle (World.init (bothDue .async 1) (fun _ => quiet true))).2.trace = [("high", .cycle), ("low", .cycle)] :=
  ⟨rfl, ⟨rfl, rfl, ⟨rfl, rfl⟩, by decide, fun _ _ r hr => by simp [idleTask] at hr⟩,
    fun _ => ⟨fun e he => by simp [quiet] at he, by simp [quiet], by simp [quiet]⟩, by decide +kernel, by decide +kernel⟩

/-- For a process task: two slots are enough for both tasks. -/
example : Roomy (bothDue .process 2) (fun _ => quiet true) ∧
    (runCycle (World.init (bothDue .process 2) (fun _ => quiet true))).1 = .ok () := by
  have h : ∀ t ∈ (bothDue .process 2).tasks, t.stack = [] ∧ t.strays = [] := by decide
  have h2 : ∀ t ∈ (bothDue .process 2).tasks, t.multilaunch = none := by decide
  refine ⟨⟨by decide, fun t ht r hr => by rw [(h t ht).1] at hr; simp at hr, fun t ht hs => absurd (h t ht).2 hs,
    fun t ht _ _ => by unfold liveRuns; rw [(h t ht).1, (h t ht).2]; exact Nat.zero_le _, fun t ht _ hm => ?_, by decide,
    fun i e he => by simp [quiet] at he⟩, by decide +kernel⟩
  unfold Multilaunch at hm
  rw [h2 t ht] at hm
  simp [bothDue, sessionOf] at hm

/-! ## Starvation -/

/-- Two process tasks and one slot; the run stack of the first is given, a run of the second is requested. -/
def queueFor (l : List Run) (c i : Nat) : Sys :=
  ⟨⟨1, false, false, false, false, false, 100, false⟩,
    [⟨"high", 1, .process, none, false, false, false, false, none, false, [], false, l, [], true⟩,
     ⟨"low", 0, .process, none, false, false, false, false, none, false, [[]], false, [], [], true⟩],
    true, false, false, false, c, i⟩

/-- A run that goes on. -/
def ongoing (k : Nat) : Run := ⟨k, .process, 0, true, false⟩

/-- Before the cycle `k`. -/
def starving : Nat → Sys
  | 0 => queueFor [] 0 0
  | k + 1 => queueFor [ongoing k] (k + 1) (k + 1)

/-- The choices: after the startup the run of `high` ends before each cycle, and its start condition holds. -/
def starveEnv (p : Nat) : Choice :=
  ⟨if p % 9 = 3 then [.ends "high" (p / 9 - 1) false] else [], some (decide (p % 9 = 5)), none, 0⟩

theorem starveEnv_at (k r : Nat) (hr : r < 9) : starveEnv (9 * k + r) =
    ⟨if r = 3 then [.ends "high" (k - 1) false] else [], some (decide (r = 5)), none, 0⟩ := by
  unfold starveEnv
  rw [Nat.mul_add_mod, Nat.mul_add_div (by omega), Nat.mod_eq_of_lt hr, Nat.div_eq_of_lt hr, Nat.add_zero]

theorem choose_quiet {env : Nat → Choice} {p : Nat} {b : Bool} (he : env p = quiet b) (s : Sys) (h : List Sys) (t : List Obs) :
    choose ⟨s, env, p, h, t⟩ = (.ok (quiet b), ⟨s, env, p + 1, h, t⟩) := by
  unfold choose
  simp only
  rw [he]; rfl

theorem handleLogs_quiet {env : Nat → Choice} {p : Nat} {b : Bool} (he : env p = quiet b) (s : Sys) (h : List Sys) (t : List Obs) :
    handleLogs ⟨s, env, p, h, t⟩ = (.ok (), ⟨s, env, p + 1, h, t⟩) := by
  unfold handleLogs
  rw [bind_apply, choose_quiet he]; rfl

theorem old_high {env : Nat → Choice} {p : Nat} (he : env p = quiet false) (k c i : Nat) (h : List Sys) (t : List Obs) :
    checkTermination "high" ⟨queueFor [ongoing k] c i, env, p, h, t⟩ = (.ok (), ⟨queueFor [ongoing k] c i, env, p + 1, h, t⟩) := by
  unfold checkTermination
  rw [bind_apply, choose_quiet he]
  show forEach [k] (terminateOld "high" 0 100) _ = _
  unfold forEach
  rw [bind_apply]
  have e : terminateOld "high" 0 100 k ⟨queueFor [ongoing k] c i, env, p + 1, h, t⟩ = (.ok (), ⟨queueFor [ongoing k] c i, env, p + 1, h, t⟩) := by
    unfold terminateOld
    rw [get_bind_apply]
    show (match [ongoing k].find? (fun r => decide (r.id = k)) with | none => pure () | some r => if r.alive = true ∧ (0 : Int) - r.start > 100 then terminateRun "high" k else pure () : M Unit) _ = _
    have : [ongoing k].find? (fun r => decide (r.id = k)) = some (ongoing k) := by simp [ongoing]
    rw [this]; rfl
  rw [e]; rfl

theorem old_low {env : Nat → Choice} {p : Nat} (he : env p = quiet false) (l : List Run) (c i : Nat) (h : List Sys) (t : List Obs) :
    checkTermination "low" ⟨queueFor l c i, env, p, h, t⟩ = (.ok (), ⟨queueFor l c i, env, p + 1, h, t⟩) := by
  unfold checkTermination
  rw [bind_apply, choose_quiet he]; rfl

theorem consider_low {env : Nat → Choice} {p : Nat} (k c i : Nat) (h : List Sys) (t : List Obs) :
    consider "low" ⟨queueFor [ongoing k] c i, env, p, h, t⟩ = (.ok (), ⟨queueFor [ongoing k] c i, env, p, h, t⟩) := rfl

theorem consider_high {env : Nat → Choice} {p : Nat} (he : env p = quiet true) (he' : env (p + 1) = quiet false) (c i : Nat)
    (h : List Sys) (t : List Obs) :
    consider "high" ⟨queueFor [] c i, env, p, h, t⟩ = (.ok (), ⟨queueFor [ongoing i] c (i + 1), env, p + 2, queueFor [] c i :: h,
      t ++ [.checked "high" false (some true)] ++ [.started "high" i .cycle]⟩) := by
  have e1 : isTaskRunnable "high" ⟨queueFor [] c i, env, p, h, t⟩ =
      (.ok true, ⟨queueFor [] c i, env, p + 1, h, t ++ [.checked "high" false (some true)]⟩) := by
    show (tryCatch (choose >>= fun c => emit (.checked "high" false c.cond) >>= fun _ => match c.cond with | some b => pure b | none => raise .other) _ : M Bool) _ = _
    unfold Sched.tryCatch
    rw [bind_apply, choose_quiet he]; rfl
  have e2 : startAsync "high" .cycle ⟨queueFor [] c i, env, p + 1, h, t ++ [.checked "high" false (some true)]⟩ =
      (.ok (), ⟨queueFor [ongoing i] c (i + 1), env, p + 2, queueFor [] c i :: h,
      t ++ [.checked "high" false (some true)] ++ [.started "high" i .cycle]⟩) := by
    unfold startAsync
    rw [bind_apply, choose_quiet he']; rfl
  show launch "high" .cycle _ = _
  unfold launch
  rw [bind_apply, e1]
  simp only [if_true]
  unfold runTask Sched.tryCatch
  rw [e2]

theorem inspect_high {env : Nat → Choice} {p : Nat} (e0 : env p = quiet false) (e1 : env (p + 1) = quiet true)
    (e2 : env (p + 2) = quiet false) (e3 : env (p + 3) = quiet false) (l : List Run) (hl : ∀ r ∈ l, r.alive = false ∧ r.exc = false)
    (c i : Nat) (h : List Sys) (t : List Obs) :
    ∃ h', inspectTask "high" ⟨queueFor l c i, env, p, h, t⟩ = (.ok (), ⟨queueFor [ongoing i] c (i + 1), env, p + 4, h',
      t ++ [.inspected "high"] ++ [.checked "high" false (some true)] ++ [.started "high" i .cycle]⟩) := by
  have hc : l.filter (fun r => r.alive || r.exc) = [] := by
    rw [List.filter_eq_nil_iff]; intro r hr; rw [(hl r hr).1, (hl r hr).2]; decide
  refine ⟨queueFor [] c i :: queueFor l c i :: h, ?_⟩
  unfold inspectTask
  rw [bind_apply]
  show (handleLogs >>= _) (⟨queueFor l c i, env, p, h, t ++ [.inspected "high"]⟩ : World) = _
  rw [bind_apply, handleLogs_quiet e0]
  simp only
  rw [bind_apply]
  have ec : cleanRunStack "high" ⟨queueFor l c i, env, p + 1, h, t ++ [.inspected "high"]⟩ =
      (.ok (), ⟨queueFor [] c i, env, p + 1, queueFor l c i :: h, t ++ [.inspected "high"]⟩) := by
    have : cleanRunStack "high" ⟨queueFor l c i, env, p + 1, h, t ++ [.inspected "high"]⟩ =
      (.ok (), ⟨queueFor (l.filter (fun r => r.alive || r.exc)) c i, env, p + 1, queueFor l c i :: h, t ++ [.inspected "high"]⟩) := rfl
    rw [this, hc]
  rw [ec]
  simp only
  rw [bind_apply, consider_high e1 e2]
  simp only
  rw [old_high e3]

theorem inspect_low {env : Nat → Choice} {p : Nat} (e0 : env p = quiet false) (e1 : env (p + 1) = quiet false)
    (k c i : Nat) (h : List Sys) (t : List Obs) :
    ∃ h', inspectTask "low" ⟨queueFor [ongoing k] c i, env, p, h, t⟩ = (.ok (), ⟨queueFor [ongoing k] c i, env, p + 2, h',
      t ++ [.inspected "low"]⟩) := by
  refine ⟨queueFor [ongoing k] c i :: h, ?_⟩
  unfold inspectTask
  rw [bind_apply]
  show (handleLogs >>= _) (⟨queueFor [ongoing k] c i, env, p, h, t ++ [.inspected "low"]⟩ : World) = _
  rw [bind_apply, handleLogs_quiet e0]
  simp only
  rw [bind_apply]
  have ec : cleanRunStack "low" ⟨queueFor [ongoing k] c i, env, p + 1, h, t ++ [.inspected "low"]⟩ =
      (.ok (), ⟨queueFor [ongoing k] c i, env, p + 1, queueFor [ongoing k] c i :: h, t ++ [.inspected "low"]⟩) := rfl
  rw [ec]
  simp only
  rw [bind_apply, consider_low]
  simp only
  rw [old_low e1]

/-- One cycle. -/
theorem starve_cycle {env : Nat → Choice} {p : Nat} (e0 : env p = quiet false) (e1 : env (p + 1) = quiet true)
    (e2 : env (p + 2) = quiet false) (e3 : env (p + 3) = quiet false) (e4 : env (p + 4) = quiet false) (e5 : env (p + 5) = quiet false)
    (e6 : env (p + 6) = quiet false) (l : List Run) (hl : ∀ r ∈ l, r.alive = false ∧ r.exc = false) (c i : Nat) (h : List Sys) (t : List Obs) :
    ∃ h' o, starts o = [("high", .cycle)] ∧ runCycle ⟨queueFor l c i, env, p, h, t⟩ =
      (.ok (), ⟨queueFor [ongoing i] (c + 1) (i + 1), env, p + 7, h', t ++ o⟩) := by
  obtain ⟨h1, i1⟩ := inspect_high e0 e1 e2 e3 l hl c i h (t ++ [.cycle])
  obtain ⟨h2, i2⟩ := inspect_low (p := p + 4) e4 e5 i c (i + 1) h1
    (t ++ [.cycle] ++ [.inspected "high"] ++ [.checked "high" false (some true)] ++ [.started "high" i .cycle])
  refine ⟨queueFor [ongoing i] c (i + 1) :: h2, [.cycle, .inspected "high", .checked "high" false (some true), .started "high" i .cycle, .inspected "low", .cycleDone],
    rfl, ?_⟩
  have hso : (queueFor l c i).sorted.map TaskSt.name = ["high", "low"] := rfl
  rw [runCycle_split]
  simp only [hso]
  have ef : forEach ["high", "low"] inspectTask ⟨queueFor l c i, env, p, h, t ++ [.cycle]⟩ = (.ok (), ⟨queueFor [ongoing i] c (i + 1), env, p + 4 + 2, h2,
      t ++ [.cycle] ++ [.inspected "high"] ++ [.checked "high" false (some true)] ++ [.started "high" i .cycle] ++ [.inspected "low"]⟩) := by
    unfold forEach
    rw [bind_apply, i1]
    simp only
    unfold forEach
    rw [bind_apply, i2]; rfl
  rw [bind_apply, ef]
  simp only
  unfold closing
  rw [bind_apply, handleLogs_quiet (p := p + 4 + 2) e6]
  simp only
  have et : checkThreadErrors ⟨queueFor [ongoing i] c (i + 1), env, p + 4 + 2 + 1, h2,
      t ++ [.cycle] ++ [.inspected "high"] ++ [.checked "high" false (some true)] ++ [.started "high" i .cycle] ++ [.inspected "low"]⟩ = 
    (.ok (), ⟨queueFor [ongoing i] c (i + 1), env, p + 4 + 2 + 1, h2,
      t ++ [.cycle] ++ [.inspected "high"] ++ [.checked "high" false (some true)] ++ [.started "high" i .cycle] ++ [.inspected "low"]⟩) := rfl
  rw [bind_apply, et]
  have el : ∀ tr : List Obs, ((setCycles fun k => k + 1) >>= fun _ => emit .cycleDone)
      (⟨queueFor [ongoing i] c (i + 1), env, p + 4 + 2 + 1, h2, tr⟩ : World) =
      (.ok (), ⟨queueFor [ongoing i] (c + 1) (i + 1), env, p + 7, queueFor [ongoing i] c (i + 1) :: h2, tr ++ [.cycleDone]⟩) := fun _ => rfl
  simp only [el, List.append_assoc, List.cons_append, List.nil_append]

/-- What is left of the last run of `high` before a cycle. -/
def leftOver : Nat → List Run
  | 0 => []
  | k + 1 => [(ongoing k).ended false]

theorem leftOver_dead (k : Nat) : ∀ r ∈ leftOver k, r.alive = false ∧ r.exc = false := by
  cases k with
  | zero => simp [leftOver]
  | succ k => simp [leftOver, Run.ended, ongoing]

theorem starve_sleep (k : Nat) (h : List Sys) (t : List Obs) : hibernate ⟨starving k, starveEnv, 9 * k + 3, h, t⟩ =
    (.ok (), ⟨queueFor (leftOver k) k k, starveEnv, 9 * k + 4, starving k :: h, t ++ [.env (.ends "high" (k - 1) false)]⟩) := by
  show ((.ok (), (starveEnv (9 * k + 3)).events.foldl World.happen ⟨starving k, starveEnv, 9 * k + 3 + 1, h, t⟩) : Res Unit × World) = _
  rw [starveEnv_at k 3 (by omega)]
  cases k with
  | zero => rfl
  | succ k =>
    have e : endRun k false [ongoing k] = leftOver (k + 1) := by simp [endRun, leftOver, ongoing]
    rw [← e]; rfl

theorem starve_round (k n : Nat) (h : List Sys) (t : List Obs) : ∃ h' o, starts o = [("high", .cycle)] ∧
    serveLoop (n + 1) ⟨starving k, starveEnv, 9 * k + 2, h, t⟩ =
      serveLoop n ⟨starving (k + 1), starveEnv, 9 * (k + 1) + 2, h', t ++ o⟩ := by
  have e9 := starveEnv_at (k + 1) 0 (by omega)
  have e10 := starveEnv_at (k + 1) 1 (by omega)
  have e2 : starveEnv (9 * k + 2) = quiet false := starveEnv_at k 2 (by omega)
  simp only [Nat.mul_add, Nat.mul_one, Nat.add_assoc, Nat.add_zero] at e9 e10
  obtain ⟨h', o, ho, hc⟩ := starve_cycle (p := 9 * k + 4) (starveEnv_at k 4 (by omega)) (starveEnv_at k 5 (by omega))
    (starveEnv_at k 6 (by omega)) (starveEnv_at k 7 (by omega)) (starveEnv_at k 8 (by omega)) e9 e10 (leftOver k) (leftOver_dead k) k k
    (starving k :: h) (t ++ [.env (.ends "high" (k - 1) false)])
  refine ⟨h', [.env (.ends "high" (k - 1) false)] ++ o, by rw [starts_append, ho]; rfl, ?_⟩
  conv => lhs; unfold serveLoop
  have es : checkShutCond ⟨starving k, starveEnv, 9 * k + 2, h, t⟩ = (.ok false, ⟨starving k, starveEnv, 9 * k + 3, h, t⟩) := by
    unfold checkShutCond
    rw [bind_apply, choose_quiet e2]; rfl
  rw [bind_apply, es]
  show (hibernate >>= _) _ = _
  rw [bind_apply, starve_sleep]
  show (runCycle >>= fun _ => serveLoop n) _ = _
  rw [bind_apply, hc]
  simp only [List.append_assoc]
  rfl

theorem starve_loop : ∀ (n k : Nat) (h : List Sys) (t : List Obs), ∃ h' o, starts o = List.replicate n ("high", Part.cycle) ∧
    serveLoop n ⟨starving k, starveEnv, 9 * k + 2, h, t⟩ = (.cut, ⟨starving (k + n), starveEnv, 9 * (k + n) + 2, h', t ++ o⟩)
  | 0, k, h, t => ⟨h, [], rfl, by rw [List.append_nil]; rfl⟩
  | n + 1, k, h, t => by
    obtain ⟨h1, o1, ho1, e1⟩ := starve_round k n h t
    obtain ⟨h2, o2, ho2, e2⟩ := starve_loop n (k + 1) h1 (t ++ o1)
    refine ⟨h2, o1 ++ o2, by rw [starts_append, ho1, ho2]; rfl, ?_⟩
    rw [e1, e2, List.append_assoc, Nat.add_assoc, Nat.add_comm 1 n]

/-- C106 fails for tasks executed as processes when there are fewer slots than such tasks: with one slot and a task of
higher priority that is due in every cycle, a requested run of the other task is not started in any number of cycles. -/
theorem C106_starved_violated : ∃ (s : Sys) (env : Nat → Choice) (t : TaskSt), Fresh s ∧ s.find "low" = some t ∧
    Requested s t ∧ Untroubled env ∧ ∀ n, ∃ o,
      (serve (n + 1) (World.init s env)).2.trace = o ∧ (serve (n + 1) (World.init s env)).2.st.nCycles = n ∧
      starts o = List.replicate n ("high", .cycle) ∧
      ((serve (n + 1) (World.init s env)).2.st.find "low").map TaskSt.batches = some [[]] := by
  refine ⟨starving 0, starveEnv, ⟨"low", 0, .process, none, false, false, false, false, none, false, [[]], false, [], [], true⟩,
    by decide, rfl, ⟨rfl, rfl, ⟨rfl, rfl⟩, by decide, fun _ _ r hr => by simp at hr⟩, ?_, fun n => ?_⟩
  · intro i
    refine ⟨fun e he => ?_, by simp [starveEnv], by simp [starveEnv]⟩
    unfold starveEnv at he
    simp only at he
    split at he
    · rw [List.mem_singleton.1 he]; simp
    · simp at he
  · have e0 : starveEnv 0 = quiet false := rfl
    have e1 : starveEnv 1 = quiet false := rfl
    obtain ⟨h', o, ho, e⟩ := starve_loop n 0 [starving 0, starving 0] ([.serve] ++ [.cached "high"] ++ [.cached "low"])
    have es : startup ⟨starving 0, starveEnv, 0, [starving 0], [.serve]⟩ =
        (.ok (), ⟨starving 0, starveEnv, 2, [starving 0, starving 0], [.serve] ++ [.cached "high"] ++ [.cached "low"]⟩) := rfl
    have ev : serve (n + 1) (World.init (starving 0) starveEnv) =
        (.cut, ⟨starving n, starveEnv, 9 * n + 2, h', [.serve] ++ [.cached "high"] ++ [.cached "low"] ++ o⟩) := by
      unfold serve
      show ((attempt (startup >>= fun _ => serveLoop n)) >>= _) (⟨starving 0, starveEnv, 0, [starving 0], [.serve]⟩ : World) = _
      rw [bind_apply]
      have ea : attempt (startup >>= fun _ => serveLoop n) ⟨starving 0, starveEnv, 0, [starving 0], [.serve]⟩ =
          (.cut, ⟨starving n, starveEnv, 9 * n + 2, h', [.serve] ++ [.cached "high"] ++ [.cached "low"] ++ o⟩) := by
        unfold attempt
        rw [bind_apply, es]
        simp only
        rw [e]
        simp only [Nat.zero_add]
      rw [ea]
    rw [ev]
    refine ⟨_, rfl, ?_, by rw [starts_append, ho]; rfl, ?_⟩
    · cases n <;> rfl
    · cases n <;> rfl

end Rocketry.Props
