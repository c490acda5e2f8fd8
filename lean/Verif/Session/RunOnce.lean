import Verif.Props.RunOnlyProps

/-!
# One cycle in which nothing fails
-/

namespace Rocketry.Props
open Rocketry.Sched Rocketry.Spec

variable {α β : Type} {I : World → Prop}

/-- From a world with `I`, `m` has a result. -/
def Fine (I : World → Prop) (m : M α) : Prop := ∀ w, I w → ∃ a, (m w).1 = .ok a

theorem fine_pure (a : α) : Fine I (pure a : M α) := fun _ _ => ⟨a, rfl⟩

theorem fine_bind {m : M α} {k : α → M β} (hm : Fine I m) (hk : Keeps I m) (hf : ∀ a, Fine I (k a)) : Fine I (m >>= k) := by
  intro w hw
  obtain ⟨a, ha⟩ := hm w hw
  have h1 := hk w hw
  rw [bind_apply]
  rcases hm' : m w with ⟨r, w'⟩
  rw [hm'] at ha h1
  cases ha
  exact hf a w' h1

theorem fine_ite {c : Prop} [Decidable c] {m k : M α} (hm : c → Fine I m) (hk : ¬ c → Fine I k) : Fine I (if c then m else k) := by
  by_cases h : c
  · rw [if_pos h]; exact hm h
  · rw [if_neg h]; exact hk h

theorem fine_forEach {l : List α} {f : α → M Unit} (hf : ∀ a ∈ l, Fine I (f a)) (hk : ∀ a ∈ l, Keeps I (f a)) :
    Fine I (forEach l f) := by
  induction l with
  | nil => exact fine_pure ()
  | cons a l ih =>
    exact fine_bind (hf a (List.mem_cons_self ..)) (hk a (List.mem_cons_self ..))
      (fun _ => ih (fun b hb => hf b (List.mem_cons_of_mem _ hb)) (fun b hb => hk b (List.mem_cons_of_mem _ hb)))

/-- Nothing fails, and no run is a `main` run. -/
def Mild (w : World) : Prop := (∀ i, Gentle (w.env i)) ∧ NoMain w.st

theorem still_mild : Still Mild where
  pos := fun _ _ h => h
  env := fun w i e h _ => ⟨h.1, noMain_event h.2 e⟩
  note := fun _ _ _ h => h
  move := fun w s ht h => ⟨h.1, noMain_tidy h.2 ht⟩

/-- The next choice is a gentle one. -/
theorem mild_choose (w : World) (hw : Mild w) : ∃ c w1, choose w = (.ok c, w1) ∧ Gentle c ∧ Mild w1 :=
  ⟨_, _, rfl, hw.1 w.pos, keeps_choose still_mild.base w hw⟩

theorem fine_choose_bind {k : Choice → M β} (h : ∀ c, Gentle c → Fine Mild (k c)) : Fine Mild (choose >>= k) := by
  intro w hw
  obtain ⟨c, w1, hc, hg, h1⟩ := mild_choose w hw
  rw [bind_apply, hc]
  exact h c hg w1 h1

theorem fine_get_bind {k : Sys → M β} (h : ∀ w, I w → ∃ a, (k w.st w).1 = .ok a) : Fine I (get >>= k) := h

theorem fine_emit_bind {o : Obs} {k : Unit → M β} (ho : o.plain = true) (h : Fine Mild (k ())) : Fine Mild (emit o >>= k) :=
  fine_bind (fun _ _ => ⟨(), rfl⟩) (keeps_note still_mild ho) (fun _ => h)

theorem fine_terminateRun (name : String) (id : Nat) : Fine Mild (terminateRun name id) := by
  unfold terminateRun
  refine fine_get_bind (fun w hw => ?_)
  rcases hf : w.st.find name with _ | t
  · exact ⟨(), rfl⟩
  simp only
  rcases hr : t.stack.find? (fun r => decide (r.id = id)) with _ | r
  · simp only [hr]; exact ⟨(), rfl⟩
  simp only [hr]
  have hk := hw.2 t (find_mem hf).1 r (List.mem_of_find?_eq_some hr)
  have hend : Fine Mild (emit (.terminated name id) >>= fun _ => do
      let c ← choose
      change name (fun t => { t with stack := endRun id false t.stack })
      match c.fault with
      | some .logging => raise .logging
      | some (.exc e) => if r.kind = .async then raise e else pure ()
      | _ => pure ()) := by
    refine fine_emit_bind rfl (fine_choose_bind (fun c hc => ?_))
    refine fine_bind (fun _ _ => ⟨(), rfl⟩) (keeps_change (fun w hw => still_mild.move w _ (.finish _ _ _ _) hw)) (fun _ => ?_)
    rw [hc.fault]
    exact fine_pure ()
  rcases hkind : r.kind with _ | _ | _ | _
  · exact absurd hkind hk
  · rw [hkind] at hend; exact hend w hw
  · exact ⟨(), rfl⟩
  · rw [hkind] at hend; exact hend w hw

theorem fine_terminateAll (name : String) : Fine Mild (terminateAll name) := by
  unfold terminateAll
  refine fine_get_bind (fun w hw => ?_)
  rcases hf : w.st.find name with _ | t
  · exact ⟨(), rfl⟩
  simp only
  refine fine_bind (I := Mild) (fine_forEach (fun _ _ => fine_terminateRun name _) (fun _ _ => keeps_terminateRun still_mild.base _ _))
    (keeps_forEach (fun _ _ => keeps_terminateRun still_mild.base _ _)) (fun _ _ _ => ⟨(), rfl⟩) w hw

theorem fine_terminateOld (name : String) (now limit : Int) (id : Nat) : Fine Mild (terminateOld name now limit id) := by
  unfold terminateOld
  refine fine_get_bind (fun w hw => ?_)
  rcases hf : w.st.find name with _ | t
  · exact ⟨(), rfl⟩
  simp only
  rcases hr : t.stack.find? (fun r => decide (r.id = id)) with _ | r
  · simp only [hr]; exact ⟨(), rfl⟩
  simp only [hr]
  exact fine_ite (I := Mild) (fun _ => fine_terminateRun name id) (fun _ => fine_pure ()) w hw

theorem fine_checkTermination (name : String) : Fine Mild (checkTermination name) := by
  unfold checkTermination
  refine fine_choose_bind (fun c hc => fine_get_bind (fun w hw => ?_))
  rcases hf : w.st.find name with _ | t
  · exact ⟨(), rfl⟩
  simp only
  rcases hcond : c.cond with _ | b
  · exact absurd hcond hc.cond
  simp only
  refine fine_ite (I := Mild) (fun _ => fine_terminateAll name) (fun _ => fine_ite (fun _ => fine_terminateAll name)
    (fun _ => fine_ite (fun _ => fine_pure ()) (fun _ => ?_))) w hw
  exact fine_forEach (fun _ _ => fine_terminateOld _ _ _ _) (fun _ _ => keeps_terminateOld still_mild.base _ _ _ _)

theorem fine_handleLogs : Fine Mild handleLogs := by
  unfold handleLogs
  refine fine_choose_bind (fun c hc => fine_get_bind (fun w hw => ?_))
  rw [hc.fault]
  exact ⟨(), rfl⟩

/-! ## The invariant -/

/-- The tasks change without starts, requests, and changes of membership or of what is disabled. -/
structure Soft (s s' : Sys) : Prop where
  drift : Drift s s'
  names : (s'.tasks.map TaskSt.name).Perm (s.tasks.map TaskSt.name)
  back : ∀ t' ∈ s'.tasks, ∃ t ∈ s.tasks, Evolves t t' ∧ t'.member = t.member ∧ t'.batches = t.batches ∧ t'.disabled = t.disabled
  flags : s'.enabled = s.enabled ∧ s'.shutdown = s.shutdown ∧ s'.restart = s.restart

theorem soft_upd {s s' : Sys} {n : String} {g : TaskSt → TaskSt} (hd : Drift s s') (h : s'.tasks = (s.upd n g).tasks)
    (hg : ∀ t, Evolves t (g t) ∧ (g t).member = t.member ∧ (g t).batches = t.batches ∧ (g t).disabled = t.disabled)
    (hf : s'.enabled = s.enabled ∧ s'.shutdown = s.shutdown ∧ s'.restart = s.restart) : Soft s s' where
  drift := hd
  names := by rw [h, upd_names s n g (fun t => (hg t).1.name)]
  back := by
    intro t' ht'
    rw [h] at ht'
    rcases mem_upd ht' with ⟨ht, _⟩ | ⟨u, hu, _, rfl⟩
    · exact ⟨t', ht, .refl _, rfl, rfl, rfl⟩
    · exact ⟨u, hu, hg u⟩
  flags := hf

theorem soft_same {s s' : Sys} (hd : Drift s s') (h : s'.tasks = s.tasks)
    (hf : s'.enabled = s.enabled ∧ s'.shutdown = s.shutdown ∧ s'.restart = s.restart) : Soft s s' where
  drift := hd
  names := by rw [h]
  back := fun t ht => ⟨t, by rw [h] at ht; exact ht, .refl _, rfl, rfl, rfl⟩
  flags := hf

theorem soft_event {s : Sys} {e : EnvEv} (he : OnlyEnds e) : Soft s (s.event e) := by
  have hd : Drift s (s.event e) := drift_event s e (fun n hn => by rw [hn] at he; exact he)
  cases e with
  | ends n id exc =>
    refine soft_upd hd rfl (fun t => ⟨⟨⟨rfl, rfl, rfl, rfl, rfl, rfl, rfl, rfl, rfl⟩, fades_endRun id exc _, ?_⟩, rfl, rfl, rfl⟩) ⟨rfl, rfl, rfl⟩
    apply Fades.map
    intro r
    split
    · exact ⟨rfl, rfl, rfl, fun h => by simp [Run.ended] at h⟩
    · exact ⟨rfl, rfl, rfl, fun h => h⟩
  | terminate n =>
    exact soft_upd hd rfl (fun t => ⟨⟨⟨rfl, rfl, rfl, rfl, rfl, rfl, rfl, rfl, rfl⟩, .refl _, .refl _⟩, rfl, rfl, rfl⟩) ⟨rfl, rfl, rfl⟩
  | reorder l =>
    by_cases h : l.isPerm s.tasks = true
    · have hp : (s.event (.reorder l)).tasks = l := by simp only [Sys.event]; rw [if_pos h]
      have hl := List.isPerm_iff.1 h
      refine ⟨hd, by rw [hp]; exact hl.map _, fun t ht => ?_, ?_⟩
      · rw [hp] at ht; exact ⟨t, hl.mem_iff.1 ht, .refl _, rfl, rfl, rfl⟩
      · simp only [Sys.event]; rw [if_pos h]; exact ⟨rfl, rfl, rfl⟩
    · have hp : s.event (.reorder l) = s := by simp only [Sys.event]; rw [if_neg h]
      rw [hp] at hd ⊢
      exact soft_same hd rfl ⟨rfl, rfl, rfl⟩
  | _ => exact absurd he (fun h => h)

theorem soft_tidy {s s' : Sys} (h : Tidy s s') : Soft s s' := by
  have hd := drift_tidy h
  cases h with
  | clean n cfg =>
    exact soft_upd hd rfl (fun t => ⟨evolves_clean cfg t, clean_member cfg t, (clean_keeps cfg t).2, (clean_keeps cfg t).1⟩) ⟨rfl, rfl, rfl⟩
  | finish n id exc =>
    exact soft_upd hd rfl (fun t => ⟨⟨⟨rfl, rfl, rfl, rfl, rfl, rfl, rfl, rfl, rfl⟩, fades_endRun id exc _, .refl _⟩, rfl, rfl, rfl⟩) ⟨rfl, rfl, rfl⟩
  | reset n cfg =>
    refine soft_upd hd rfl (fun t => ⟨?_, clean_member cfg t, (clean_keeps cfg t).2, (clean_keeps cfg t).1⟩) ⟨rfl, rfl, rfl⟩
    have h := evolves_clean cfg t
    exact ⟨⟨h.name, h.priority, h.execution, h.multilaunch, h.onStartup, h.onShutdown, h.permanent, h.timeout, h.noCond⟩,
      h.stack, h.strays⟩
  | erase n r =>
    exact soft_upd hd rfl (fun t => ⟨⟨⟨rfl, rfl, rfl, rfl, rfl, rfl, rfl, rfl, rfl⟩, Fades.sublist List.eraseP_sublist, .refl _⟩, rfl, rfl, rfl⟩) ⟨rfl, rfl, rfl⟩
  | cycles k => exact soft_same hd rfl ⟨rfl, rfl, rfl⟩

theorem soft_drop (s : Sys) (n : String) : Soft s (s.drop n false) := by
  refine soft_upd (drift_drop s n) rfl (fun t => ⟨⟨⟨rfl, rfl, rfl, rfl, rfl, rfl, rfl, rfl, rfl⟩, Fades.sublist List.filter_sublist, ?_⟩, rfl, rfl, rfl⟩)
    ⟨rfl, rfl, rfl⟩
  show Fades t.strays (t.strays ++ (if false = true then _ else []))
  rw [if_neg (by simp), List.append_nil]
  exact .refl _

/-- The process slots that a task takes, or will take in this cycle. -/
def needs (names l : List String) (t : TaskSt) : Nat :=
  t.countProcesses + if t.name ∈ names ∧ t.name ∈ l ∧ t.execution = .process then 1 else 0

/-- In a cycle: the tasks `l` are still to be inspected. -/
structure Halfway (names L l : List String) (w : World) : Prop where
  env : ∀ i, Gentle (w.env i)
  perm : (w.st.tasks.map TaskSt.name).Perm L
  nodup : (w.st.tasks.map TaskSt.name).Nodup
  members : ∀ t ∈ w.st.tasks, t.member = true
  flags : w.st.enabled = true ∧ w.st.shutdown = false ∧ w.st.restart = false
  special : ∀ t ∈ w.st.tasks, t.name ∈ names → t.onStartup = false ∧ t.onShutdown = false
  others : OthersOff names w.st
  waiting : ∀ t ∈ w.st.tasks, t.name ∈ names → t.name ∈ l → t.batches = [[]] ∧ live (fun _ => true) t.stack = 0
  done : ∀ t ∈ w.st.tasks, t.name ∈ names → t.name ∉ l → t.batches = []
  count : ∀ n, startsOf n w.trace = if n ∈ names ∧ n ∈ L ∧ n ∉ l then 1 else 0
  room : (weight (needs names l) w.st : Int) ≤ w.st.cfg.maxProcess

variable {names L l : List String}

theorem countProcesses_eq (t : TaskSt) : t.countProcesses = live (fun k => decide (k = .process)) t.stack := rfl

theorem needs_evolves {t t' : TaskSt} (h : Evolves t t') : needs names l t' ≤ needs names l t := by
  unfold needs
  rw [h.name, h.execution]
  have := h.stack.live (fun k => decide (k = .process))
  rw [countProcesses_eq, countProcesses_eq]
  omega

theorem weight_soft {s s' : Sys} (h : Soft s s') : weight (needs names l) s' ≤ weight (needs names l) s := by
  rcases h.drift with ⟨n, g, he, hg, -, -, -⟩ | ⟨he, -, -⟩ | ⟨t, he, hn, -, -, -, -⟩ | ⟨he, -, -⟩
  · have : weight (needs names l) s' = weight (needs names l) (s.upd n g) := by unfold weight; rw [he]
    rw [this]
    exact weight_upd_le n g (fun t => needs_evolves (hg t))
  · unfold weight; rw [he]; exact Nat.le_refl _
  · have h1 := h.names.length_eq
    rw [he] at h1
    simp at h1
  · exact Nat.le_of_eq (weight_perm he)

theorem halfway_soft {w : World} {s : Sys} (h : Halfway names L l w) (hs : Soft w.st s) (o : List Obs) (hh : List Sys) (p : Nat)
    (ho : ∀ n, startsOf n o = startsOf n w.trace) : Halfway names L l { w with st := s, hist := hh, trace := o, pos := p } where
  env := h.env
  perm := hs.names.trans h.perm
  nodup := hs.names.nodup_iff.2 h.nodup
  members := by
    intro t' ht'
    obtain ⟨t, ht, _, hm, _⟩ := hs.back t' ht'
    rw [hm]; exact h.members t ht
  flags := by
    obtain ⟨h1, h2, h3⟩ := hs.flags
    exact ⟨h1.trans h.flags.1, h2.trans h.flags.2.1, h3.trans h.flags.2.2⟩
  special := by
    intro t' ht' hn
    obtain ⟨t, ht, he, _⟩ := hs.back t' ht'
    rw [he.onStartup, he.onShutdown]
    exact h.special t ht (he.name ▸ hn)
  others := by
    intro t' ht' hn
    obtain ⟨t, ht, he, _, hb, hd⟩ := hs.back t' ht'
    rw [hb, hd]
    exact h.others t ht (he.name ▸ hn)
  waiting := by
    intro t' ht' hn hl
    obtain ⟨t, ht, he, _, hb, hd⟩ := hs.back t' ht'
    obtain ⟨h1, h2⟩ := h.waiting t ht (he.name ▸ hn) (he.name ▸ hl)
    refine ⟨hb.trans h1, ?_⟩
    have := he.stack.live (fun _ => true)
    omega
  done := by
    intro t' ht' hn hl
    obtain ⟨t, ht, he, _, hb, hd⟩ := hs.back t' ht'
    rw [hb]
    exact h.done t ht (he.name ▸ hn) (he.name ▸ hl)
  count := fun n => (ho n).trans (h.count n)
  room := by
    have h1 := weight_soft (names := names) (l := l) hs
    have h2 := h.room
    have h3 : s.cfg = w.st.cfg := hs.drift.cfg
    show (weight (needs names l) s : Int) ≤ s.cfg.maxProcess
    rw [h3]
    omega

theorem soft_refl (s : Sys) : Soft s s := soft_same (.same rfl rfl rfl) rfl ⟨rfl, rfl, rfl⟩

theorem startsOf_note (n : String) (l : List Obs) {o : Obs} (ho : ∀ m id p, o ≠ .started m id p) :
    startsOf n (l ++ [o]) = startsOf n l := by
  unfold startsOf
  rw [List.countP_append]
  cases o <;> first | rfl | exact absurd rfl (ho _ _ _)

theorem still_halfway : Still (Halfway names L l) where
  pos := fun w p h => halfway_soft h (soft_refl _) _ _ p (fun _ => rfl)
  env := fun w i e h he => halfway_soft h (soft_event ((h.env i).events e he)) _ _ _ (fun n => startsOf_note n _ (by simp))
  note := fun w o ho h => halfway_soft h (soft_refl _) _ _ _
    (fun n => startsOf_note n _ (fun m id p e => by rw [e] at ho; simp [Obs.plain] at ho))
  move := fun w s ht h => halfway_soft h (soft_tidy ht) _ _ _ (fun _ => rfl)

theorem halfway_mark {w : World} {o : Obs} (ho : o.mark = true) (h : Halfway names L l w) :
    Halfway names L l { w with trace := w.trace ++ [o] } :=
  halfway_soft h (soft_refl _) _ _ _ (fun n => startsOf_note n _ (fun m id p e => by rw [e] at ho; simp [Obs.mark] at ho))

/-- Only which tasks are still to be inspected counts. -/
theorem halfway_congr {l l' : List String} {w : World} (h : Halfway names L l w) (hl : ∀ n, n ∈ l ↔ n ∈ l') : Halfway names L l' w := by
  refine ⟨h.env, h.perm, h.nodup, h.members, h.flags, h.special, h.others, fun t ht hn hm => h.waiting t ht hn ((hl _).2 hm),
    fun t ht hn hm => h.done t ht hn (fun hc => hm ((hl _).1 hc)), fun n => ?_, ?_⟩
  · simp only [h.count n, hl n]
  · have : needs names l' = needs names l := by
      funext t
      unfold needs
      simp only [hl t.name]
    rw [this]; exact h.room

/-- An unnamed task is passed over. -/
theorem halfway_skip {a : String} {w : World} (ha : a ∉ names) (h : Halfway names L (a :: l) w) : Halfway names L l w := by
  have hiff : ∀ n, n ∈ names → (n ∈ a :: l ↔ n ∈ l) := by
    intro n hn
    constructor
    · intro hm
      rcases List.mem_cons.1 hm with rfl | hm
      · exact absurd hn ha
      · exact hm
    · exact List.mem_cons_of_mem _
  refine ⟨h.env, h.perm, h.nodup, h.members, h.flags, h.special, h.others, fun t ht hn hm => h.waiting t ht hn ((hiff _ hn).2 hm),
    fun t ht hn hm => h.done t ht hn (fun hc => hm ((hiff _ hn).1 hc)), fun n => ?_, ?_⟩
  · rw [h.count n]
    by_cases hn : n ∈ names
    · simp only [hiff n hn]
    · simp [hn]
  · have : needs names l = needs names (a :: l) := by
      funext t
      unfold needs
      by_cases hn : t.name ∈ names
      · simp only [hiff _ hn]
      · simp [hn]
    rw [this]; exact h.room

theorem sum_map_lt {f g : TaskSt → Nat} : ∀ {l : List TaskSt}, (∀ t ∈ l, f t ≤ g t) → (∃ t ∈ l, f t < g t) →
    (l.map f).sum < (l.map g).sum
  | [], _, h => by obtain ⟨t, ht, _⟩ := h; simp at ht
  | a :: l, h, hx => by
    obtain ⟨t, ht, hlt⟩ := hx
    rw [List.map_cons, List.sum_cons, List.map_cons, List.sum_cons]
    have ha := h a (List.mem_cons_self ..)
    have hl := sum_map_le l (fun t ht => h t (List.mem_cons_of_mem _ ht))
    rcases List.mem_cons.1 ht with rfl | ht
    · omega
    · have := sum_map_lt (l := l) (fun t ht => h t (List.mem_cons_of_mem _ ht)) ⟨t, ht, hlt⟩
      omega

/-- There is a slot for a task that waits for its run. -/
theorem halfway_free {a : String} {w : World} (h : Halfway names L (a :: l) w) (ha : a ∈ names) {t : TaskSt} (ht : t ∈ w.st.tasks)
    (hn : t.name = a) (hp : t.execution = .process) : w.st.hasFree = true := by
  unfold Sys.hasFree Sys.processesAlive Sys.members
  have e : w.st.tasks.filter TaskSt.member = w.st.tasks := List.filter_eq_self.2 h.members
  rw [e, decide_eq_true_eq]
  have h1 := h.room
  have h2 : (w.st.tasks.map TaskSt.countProcesses).sum < weight (needs names (a :: l)) w.st := by
    refine sum_map_lt (fun t _ => Nat.le_add_right _ _) ⟨t, ht, ?_⟩
    unfold needs
    rw [if_pos ⟨hn ▸ ha, hn ▸ List.mem_cons_self .., hp⟩]
    omega
  omega

theorem live_alive {t : TaskSt} (h : live (fun _ => true) t.stack = 0) : t.isAlive = false := by
  unfold TaskSt.isAlive
  rw [List.any_eq_false]
  intro r hr
  have := List.countP_eq_zero.1 h r hr
  simpa using this

/-- A named task that waits is runnable. -/
theorem halfway_runnable {a : String} {w : World} (h : Halfway names L (a :: l) w) (ha : a ∈ names) (hL : a ∈ L) :
    isTaskRunnable a w = (.ok true, w.observe (.checked a true (some true))) := by
  unfold isTaskRunnable
  rw [get_bind_apply]
  have hm : a ∈ w.st.tasks.map TaskSt.name := h.perm.mem_iff.2 hL
  obtain ⟨t, ht, hn⟩ := List.mem_map.1 hm
  rw [(find_iff h.nodup).2 ⟨ht, hn⟩]
  simp only
  obtain ⟨hb, hlv⟩ := h.waiting t ht (hn ▸ ha) (hn ▸ List.mem_cons_self ..)
  rw [if_neg (fun hc => by rw [halfway_free h ha ht hn hc.1] at hc; simp at hc),
    if_neg (fun hc => by rw [live_alive hlv] at hc; simp at hc)]
  unfold checkTaskCond Sched.tryCatch isRunnable
  rw [if_pos (by rw [hb]; simp)]
  show (Res.ok true, w.observe (.checked t.name true (some true))) = _
  rw [hn]

/-- The run of a named task. -/
theorem halfway_push {a : String} {w : World} (h : Halfway names L (a :: l) w) (ha : a ∈ names) (hL : a ∈ L) (hl : a ∉ l) {t : TaskSt}
    (ht : t ∈ w.st.tasks) (hn : t.name = a) (time : Int) (part : Part) :
    Halfway names L l ((w.pop a []).push a t.execution time part) := by
  have htasks : ∀ t' ∈ ((w.st.pop a).push a t.execution time).tasks, ∃ u ∈ w.st.tasks, t'.name = u.name ∧
      t'.execution = u.execution ∧ t'.member = u.member ∧ t'.onStartup = u.onStartup ∧ t'.onShutdown = u.onShutdown ∧
      t'.disabled = u.disabled ∧ (u.name ≠ a → t' = u) ∧ (u.name = a → t'.batches = u.batches.tail) := by
    intro t' ht'
    rcases mem_upd ht' with ⟨h1, h2⟩ | ⟨v, hv, hvn, rfl⟩
    · rcases mem_upd h1 with ⟨h1, _⟩ | ⟨v, hv, hvn, rfl⟩
      · exact ⟨t', h1, rfl, rfl, rfl, rfl, rfl, rfl, fun _ => rfl, fun hc => absurd hc h2⟩
      · exact absurd hvn h2
    · rcases mem_upd hv with ⟨h1, h2⟩ | ⟨x, hx, hxn, rfl⟩
      · exact absurd hvn h2
      · exact ⟨x, hx, rfl, rfl, rfl, rfl, rfl, rfl, fun hc => absurd hxn hc, fun _ => rfl⟩
  have hnames : ((w.st.pop a).push a t.execution time).tasks.map TaskSt.name = w.st.tasks.map TaskSt.name := by
    show ((Sys.upd (Sys.upd w.st a _) a _).tasks).map TaskSt.name = _
    refine (upd_names _ a _ (fun _ => ?_)).trans (upd_names w.st a _ (fun _ => ?_)) <;> rfl
  refine ⟨h.env, ?_, ?_, ?_, h.flags, ?_, ?_, ?_, ?_, ?_, ?_⟩
  · show (((w.st.pop a).push a t.execution time).tasks.map TaskSt.name).Perm L
    rw [hnames]; exact h.perm
  · show (((w.st.pop a).push a t.execution time).tasks.map TaskSt.name).Nodup
    rw [hnames]; exact h.nodup
  · intro t' ht'
    obtain ⟨u, hu, _, _, hm, _⟩ := htasks t' ht'
    rw [hm]; exact h.members u hu
  · intro t' ht' hk
    obtain ⟨u, hu, hun, _, _, h1, h2, _⟩ := htasks t' ht'
    rw [h1, h2]; exact h.special u hu (hun ▸ hk)
  · intro t' ht' hk
    obtain ⟨u, hu, hun, _, _, _, _, _, he, _⟩ := htasks t' ht'
    have : u.name ≠ a := fun hc => hk (hun ▸ hc ▸ ha)
    rw [he this]; exact h.others u hu (hun ▸ hk)
  · intro t' ht' hk hm
    obtain ⟨u, hu, hun, _, _, _, _, _, he, _⟩ := htasks t' ht'
    have : u.name ≠ a := fun hc => hl (by rw [← hc, ← hun]; exact hm)
    rw [he this] at hk hm ⊢
    exact h.waiting u hu hk (List.mem_cons_of_mem _ hm)
  · intro t' ht' hk hm
    obtain ⟨u, hu, hun, _, _, _, _, _, he, hb⟩ := htasks t' ht'
    by_cases hua : u.name = a
    · rw [hb hua, (h.waiting u hu (hua ▸ ha) (hua ▸ List.mem_cons_self ..)).1]; rfl
    · rw [he hua] at hk hm ⊢
      exact h.done u hu hk (by
        intro hc
        rcases List.mem_cons.1 hc with hc | hc
        · exact hua hc
        · exact hm hc)
  · intro n
    show startsOf n ((w.trace ++ [.popped a []]) ++ [.started a _ part]) = _
    have h1 : startsOf n ((w.trace ++ [.popped a []]) ++ [.started a (w.pop a []).st.nextId part]) =
        startsOf n w.trace + if a = n then 1 else 0 := by
      unfold startsOf
      rw [List.countP_append, List.countP_append, List.countP_singleton, List.countP_singleton]
      simp
    rw [h1, h.count n]
    by_cases hna : a = n
    · subst hna
      simp [ha, hL, hl]
    · have : n ∈ a :: l ↔ n ∈ l := ⟨fun hm => by
        rcases List.mem_cons.1 hm with hm | hm
        · exact absurd hm.symm hna
        · exact hm, List.mem_cons_of_mem _⟩
      simp only [this, if_neg hna]; rfl
  · have hle : weight (needs names l) ((w.st.pop a).push a t.execution time) ≤ weight (needs names (a :: l)) w.st := by
      show ((((w.st.tasks.map _).map _).map _).sum) ≤ _
      rw [List.map_map, List.map_map]
      apply sum_map_le
      intro u hu
      simp only [Function.comp]
      by_cases hua : u.name = a
      · have hut : u = t := name_inj h.nodup hu ht (hua.trans hn.symm)
        subst hut
        rw [if_pos hua, if_pos hua]
        unfold needs TaskSt.countProcesses
        dsimp only
        rw [List.countP_append, List.countP_singleton]
        have e1 : ¬ (u.name ∈ names ∧ u.name ∈ l ∧ u.execution = .process) := fun hc => hl (hua ▸ hc.2.1)
        rw [if_neg e1]
        by_cases hp : u.execution = .process
        · have e2 : u.name ∈ names ∧ u.name ∈ a :: l ∧ u.execution = .process := ⟨hua ▸ ha, hua ▸ List.mem_cons_self .., hp⟩
          simp only [if_pos e2]
          split <;> omega
        · simp [hp]
      · rw [if_neg hua, if_neg hua]
        unfold needs
        split
        · rename_i hc
          rw [if_pos ⟨hc.1, List.mem_cons_of_mem _ hc.2.1, hc.2.2⟩]
          exact Nat.le_refl _
        · exact Nat.add_le_add_left (Nat.zero_le _) _
    have := h.room
    show (weight (needs names l) ((w.st.pop a).push a t.execution time) : Int) ≤ w.st.cfg.maxProcess
    omega

/-- No `main` run in the stacks of the other tasks, nothing fails. -/
theorem still_but (a : String) : Still (fun w => NoMainBut a w.st) where
  pos := fun _ _ h => h
  env := fun w i e h _ => noMainBut_event h e
  note := fun _ _ _ h => h
  move := fun w s ht h => stackAll_tidy (q := fun t => t.name ≠ a) (p := fun r => r.kind ≠ .main)
    (fun _ _ h hn => by rw [← hn]; exact h) (fun _ _ hk h => by rw [← hk]; exact h) h ht

theorem halfway_runOn {a : String} {w : World} (h : Halfway names L l w) (hb : NoMainBut a w.st) (id : Nat) (kind : Exec)
    (hk : kind ≠ .main → NoMain w.st) : ∃ w', runOn a id kind none w = (.ok (), w') ∧ Halfway names L l w' ∧ NoMain w'.st := by
  unfold runOn
  cases kind with
  | main =>
    simp only
    rw [if_neg (by simp), bind_apply]
    obtain ⟨w1, hcw, henv⟩ := choose_ok w
    have h1 := keeps_choose still_halfway.base w h
    have hb1 := keeps_choose (still_but a).base w hb
    have hg := (h.env w.pos).fault
    rw [hcw] at h1 hb1 ⊢
    generalize w.env w.pos = c at hg
    refine ⟨(w1.observe (.mainEnded a id)).drop a false, ?_, halfway_soft h1 (soft_drop _ _) _ _ _
      (fun n => startsOf_note n _ (by simp)), ?_⟩
    · show (dropMain a false >>= fun _ => mainEnd c.fault) (w1.observe (.mainEnded a id)) = _
      rw [hg]; rfl
    · intro x hx r hr
      rcases mem_upd hx with ⟨hx, hxn⟩ | ⟨y, hy, hyn, rfl⟩
      · exact hb1 x hx hxn r hr
      · simpa using (List.mem_filter.1 hr).2
  | async => exact ⟨w, rfl, h, hk (by simp)⟩
  | thread => exact ⟨w, rfl, h, hk (by simp)⟩
  | process => exact ⟨w, rfl, h, hk (by simp)⟩

theorem halfway_start {a : String} {w : World} (h : Halfway names L (a :: l) w) (hm : NoMain w.st) (ha : a ∈ names) (hL : a ∈ L)
    (hl : a ∉ l) (part : Part) : ∃ w', startAsync a part w = (.ok (), w') ∧ Halfway names L l w' ∧ NoMain w'.st := by
  unfold startAsync
  rw [bind_apply]
  obtain ⟨w1, hcw, henv⟩ := choose_ok w
  have h1 := keeps_choose still_halfway.base w h
  have hm1 := (keeps_choose still_mild.base w ⟨h.env, hm⟩).2
  have hg := (h.env w.pos).fault
  rw [hcw] at h1 hm1 ⊢
  generalize w.env w.pos = c at hg
  simp only [get_bind_apply] at h1 hm1 ⊢
  obtain ⟨t, ht, hn⟩ := List.mem_map.1 (h1.perm.mem_iff.2 hL)
  rw [(find_iff h1.nodup).2 ⟨ht, hn⟩]
  simp only
  rw [if_neg (by rw [hg]; simp), bind_apply]
  have hb := (h1.waiting t ht (hn ▸ ha) (hn ▸ List.mem_cons_self ..)).1
  have hpop : popBatch t w1 = (.ok (), w1.pop a []) := by
    unfold popBatch
    rw [hb]
    show (Res.ok (), w1.pop t.name []) = _
    rw [hn]
  rw [hpop]
  simp only
  rw [if_neg (by rw [hg]; simp), bind_apply]
  have hpush : pushRun a t.execution c.time part (w1.pop a []) =
      (.ok (w1.pop a []).st.nextId, (w1.pop a []).push a t.execution c.time part) := rfl
  rw [hpush, hg]
  have hstack : ∀ x ∈ ((w1.pop a []).push a t.execution c.time part).st.tasks, ∀ r ∈ x.stack,
      r.kind ≠ .main ∨ (x.name = a ∧ r.kind = t.execution) := by
    intro x hx r hr
    rcases mem_upd hx with ⟨hx, _⟩ | ⟨y, hy, hyn, rfl⟩
    · obtain ⟨v, hv, _, _, hst⟩ := pop_same w1.st a x hx
      exact Or.inl (hm1 v hv r (hst ▸ hr))
    · rcases List.mem_append.1 hr with hr | hr
      · obtain ⟨v, hv, _, _, hst⟩ := pop_same w1.st a y hy
        exact Or.inl (hm1 v hv r (hst ▸ hr))
      · rw [List.mem_singleton.1 hr]; exact Or.inr ⟨hyn, rfl⟩
  refine halfway_runOn (halfway_push h1 ha hL hl ht hn c.time part) ?_ _ _ ?_
  · intro x hx hxn r hr
    rcases hstack x hx r hr with h | ⟨h, _⟩
    · exact h
    · exact absurd h hxn
  · intro hk x hx r hr
    rcases hstack x hx r hr with h | ⟨_, h⟩
    · exact h
    · rw [h]; exact hk

theorem halfway_launch {a : String} {w : World} (h : Halfway names L (a :: l) w) (hm : NoMain w.st) (ha : a ∈ names) (hL : a ∈ L)
    (hl : a ∉ l) (part : Part) : ∃ w', launch a part w = (.ok (), w') ∧ Halfway names L l w' ∧ NoMain w'.st := by
  obtain ⟨w', hw', h1, h2⟩ := halfway_start (w := w.observe (.checked a true (some true))) (still_halfway.note w _ rfl h) hm ha hL hl part
  refine ⟨w', ?_, h1, h2⟩
  unfold launch
  rw [bind_apply, halfway_runnable h ha hL]
  show runTask a part (w.observe (.checked a true (some true))) = _
  unfold runTask Sched.tryCatch
  rw [hw']

theorem halfway_off {a : String} {w : World} (h : Halfway names L l w) (ha : a ∉ names) (hL : a ∈ L) (part : Part) :
    launch a part w = (.ok (), w) := by
  have h1 := launch_off (n := a) (fun t ht htn => h.others t ht (htn ▸ ha)) part
  obtain ⟨t, ht, hn⟩ := List.mem_map.1 (h.perm.mem_iff.2 hL)
  exact Prod.ext (h1.2 ⟨t, ht, hn⟩) h1.1

theorem halfway_consider {a : String} {w : World} (h : Halfway names L (a :: l) w) (hm : NoMain w.st) (hL : a ∈ L) (hl : a ∉ l) :
    ∃ w', consider a w = (.ok (), w') ∧ Halfway names L l w' ∧ NoMain w'.st := by
  unfold consider
  rw [get_bind_apply]
  obtain ⟨t, ht, hn⟩ := List.mem_map.1 (h.perm.mem_iff.2 hL)
  rw [(find_iff h.nodup).2 ⟨ht, hn⟩]
  simp only
  by_cases ha : a ∈ names
  · obtain ⟨h1, h2⟩ := h.special t ht (hn ▸ ha)
    rw [if_neg (by rw [h1, h2]; simp), if_pos h.flags.1]
    exact halfway_launch h hm ha hL hl .cycle
  · refine ⟨w, ?_, halfway_skip ha h, hm⟩
    by_cases hs : (t.onStartup || t.onShutdown) = true
    · rw [if_pos hs]; rfl
    · rw [if_neg hs, if_pos h.flags.1]; exact halfway_off h ha hL .cycle

theorem fine_step {α : Type} {I : World → Prop} {m : M α} (hk : Keeps I m) (hf : Fine Mild m) (hm : Keeps Mild m) {w : World}
    (h : I w) (hw : Mild w) : ∃ a w', m w = (.ok a, w') ∧ I w' ∧ Mild w' := by
  obtain ⟨a, ha⟩ := hf w hw
  exact ⟨a, (m w).2, Prod.ext ha rfl, hk w h, hm w hw⟩

theorem halfway_inspect {a : String} {w : World} (h : Halfway names L (a :: l) w) (hm : NoMain w.st) (hL : a ∈ L) (hl : a ∉ l) :
    ∃ w', inspectTask a w = (.ok (), w') ∧ Halfway names L l w' ∧ NoMain w'.st := by
  unfold inspectTask
  rw [bind_apply]
  have h0 := still_halfway.note w (.inspected a) rfl h
  have hm0 : Mild { w with trace := w.trace ++ [.inspected a] } := ⟨h.env, hm⟩
  show ∃ w', (handleLogs >>= _) { w with trace := w.trace ++ [.inspected a] } = _ ∧ _
  rw [bind_apply]
  obtain ⟨_, w1, e1, h1, hm1⟩ := fine_step (keeps_handleLogs still_halfway.base) fine_handleLogs (keeps_handleLogs still_mild.base) h0 hm0
  rw [e1]
  simp only
  rw [bind_apply]
  obtain ⟨_, w2, e2, h2, hm2⟩ := fine_step (keeps_cleanRunStack still_halfway.base a) (fun _ _ => ⟨(), rfl⟩)
    (keeps_cleanRunStack still_mild.base a) h1 hm1
  rw [e2]
  simp only
  rw [bind_apply]
  obtain ⟨w3, e3, h3, hm3⟩ := halfway_consider h2 hm2.2 hL hl
  rw [e3]
  simp only
  obtain ⟨_, w4, e4, h4, hm4⟩ := fine_step (keeps_checkTermination still_halfway.base a) (fine_checkTermination a)
    (keeps_checkTermination still_mild.base a) h3 ⟨h3.env, hm3⟩
  exact ⟨w4, e4, h4, hm4.2⟩

theorem halfway_all : ∀ (l : List String) (w : World), Halfway names L l w → NoMain w.st → (∀ a ∈ l, a ∈ L) → l.Nodup →
    ∃ w', forEach l inspectTask w = (.ok (), w') ∧ Halfway names L [] w' ∧ NoMain w'.st
  | [], w, h, hm, _, _ => ⟨w, rfl, h, hm⟩
  | a :: l, w, h, hm, hL, hn => by
    obtain ⟨w1, e1, h1, hm1⟩ := halfway_inspect h hm (hL a (List.mem_cons_self ..)) (List.nodup_cons.1 hn).1
    obtain ⟨w2, e2, h2, hm2⟩ := halfway_all l w1 h1 hm1 (fun b hb => hL b (List.mem_cons_of_mem _ hb)) (List.nodup_cons.1 hn).2
    refine ⟨w2, ?_, h2, hm2⟩
    unfold forEach
    rw [bind_apply, e1]
    exact e2

/-! ## The whole run -/

theorem errors_logging (w : World) : (checkThreadErrors w).1 = .ok () ∨ (checkThreadErrors w).1 = .raise .logging := by
  have step : ∀ a (v : World), (checkExceptions a v).1 = .ok () ∨ (checkExceptions a v).1 = .raise .logging := by
    intro a v
    unfold checkExceptions
    rw [get_bind_apply]
    rcases hf : v.st.find a with _ | t
    · exact Or.inl rfl
    · simp only
      rcases hr : t.stack.find? Run.exc with _ | r
      · simp only; exact Or.inl rfl
      · simp only; exact Or.inr rfl
  have all : ∀ l (v : World), (forEach l checkExceptions v).1 = .ok () ∨ (forEach l checkExceptions v).1 = .raise .logging := by
    intro l
    induction l with
    | nil => exact fun _ => Or.inl rfl
    | cons a l ih =>
      intro v
      unfold forEach
      rw [bind_apply]
      have h1 := step a v
      rcases hm : checkExceptions a v with ⟨r, v'⟩
      rw [hm] at h1
      rcases h1 with h1 | h1
      · simp only at h1; subst h1; exact ih v'
      · simp only at h1; subst h1; exact Or.inr rfl
  unfold checkThreadErrors
  rw [get_bind_apply]
  by_cases hc : w.st.cfg.silenceLogging = true
  · rw [if_pos hc]; exact Or.inl rfl
  · rw [if_neg hc]; exact all _ w

theorem sorted_names {w : World} (h : Halfway names L l w) : (w.st.sorted.map TaskSt.name).Perm L := by
  refine ((pySorted_perm _).map _).trans ?_
  have e : w.st.members = w.st.tasks := List.filter_eq_self.2 h.members
  rw [e]; exact h.perm

/-- One cycle: all named tasks are started. -/
theorem halfway_cycle {w : World} (h : Halfway names L L w) (hm : NoMain w.st) : Halfway names L [] (runCycle w).2 ∧
    ((runCycle w).1 = .raise .logging ∨ ((runCycle w).1 = .ok () ∧ 1 ≤ (runCycle w).2.st.nCycles)) := by
  unfold runCycle
  rw [get_bind_apply, bind_apply]
  have h0 : Halfway names L L { w with trace := w.trace ++ [.cycle] } := halfway_mark rfl h
  show Halfway names L [] ((forEach (w.st.sorted.map TaskSt.name) inspectTask >>= _) { w with trace := w.trace ++ [.cycle] }).2 ∧ _
  have hp := sorted_names h
  obtain ⟨w1, e1, h1, hm1⟩ := halfway_all (w.st.sorted.map TaskSt.name) { w with trace := w.trace ++ [.cycle] }
    (halfway_congr h0 (fun n => hp.mem_iff.symm)) hm (fun a ha => hp.mem_iff.1 ha) (hp.nodup_iff.2 (h.perm.nodup_iff.1 h.nodup))
  have e0 : emit .cycle w = (.ok (), { w with trace := w.trace ++ [.cycle] }) := rfl
  rw [e0]
  simp only
  rw [bind_apply, e1]
  simp only
  rw [bind_apply]
  obtain ⟨_, w2, e2, h2, hm2⟩ := fine_step (keeps_handleLogs still_halfway.base) fine_handleLogs (keeps_handleLogs still_mild.base) h1 ⟨h1.env, hm1⟩
  rw [e2]
  simp only
  rw [bind_apply]
  have h3 := keeps_checkThreadErrors still_halfway.base w2 h2
  have hr := errors_logging w2
  rcases hc : checkThreadErrors w2 with ⟨r, w3⟩
  rw [hc] at h3 hr
  rcases hr with hr | hr
  · simp only at hr
    subst hr
    have h4 := keeps_setCycles still_halfway (fun k => k + 1) w3 h3
    exact ⟨still_halfway.note _ .cycleDone rfl h4, Or.inr ⟨rfl, Nat.le_add_left _ _⟩⟩
  · simp only at hr
    subst hr
    exact ⟨h3, Or.inl rfl⟩

theorem event_cycles (s : Sys) (e : EnvEv) : (s.event e).nCycles = s.nCycles := by
  cases e <;> first | rfl | (simp only [Sys.event]; split <;> rfl)

theorem choose_cycles (w : World) : (choose w).2.st.nCycles = w.st.nCycles := by
  have : ∀ (l : List EnvEv) (v : World), (l.foldl World.happen v).st.nCycles = v.st.nCycles := by
    intro l
    induction l with
    | nil => exact fun _ => rfl
    | cons e l ih => exact fun v => (ih _).trans (event_cycles v.st e)
  exact this _ _

/-- A task that is disabled and not requested is not started at startup or shutdown. -/
theorem halfway_special {w : World} (h : Halfway names L l w) {t : TaskSt} (ht : t.name ∈ L) (hn : t.name ∉ names) (part : Part) :
    startSpecial part t w = (.ok (), w) := by
  have hr : requestFirst t w = (.ok (), w) := by
    unfold requestFirst
    by_cases hc : t.noCond = true
    · rw [if_pos hc, get_bind_apply]
      obtain ⟨u, hu, hun⟩ := List.mem_map.1 (h.perm.mem_iff.2 ht)
      rw [(find_iff h.nodup).2 ⟨hu, hun⟩]
      simp only
      rw [if_pos (h.others u hu (hun ▸ hn)).1]
      rfl
    · rw [if_neg hc]; rfl
  unfold startSpecial
  rw [bind_apply, hr]
  exact halfway_off h hn ht part

/-- Before the first cycle. -/
def Primed (names L : List String) (w : World) : Prop := Halfway names L L w ∧ NoMain w.st ∧ w.st.nCycles = 0

theorem primed_choose {w : World} (h : Primed names L w) : ∃ c w', choose w = (.ok c, w') ∧ Gentle c ∧ Primed names L w' :=
  ⟨_, _, rfl, h.1.env w.pos, keeps_choose still_halfway.base w h.1, (keeps_choose still_mild.base w ⟨h.1.env, h.2.1⟩).2,
    (choose_cycles w).trans h.2.2⟩

theorem primed_startup {w : World} (h : Halfway names L L w) (hm : NoMain w.st) : ∃ w', startup w = (.ok (), w') ∧ Primed names L w' := by
  have h0 : Primed names L { w with st := { w.st with nCycles := 0 }, hist := w.st :: w.hist } :=
    ⟨keeps_setCycles still_halfway (fun _ => 0) w h, hm, rfl⟩
  have key : ∀ (l : List TaskSt), (∀ t ∈ l, t.name ∈ L ∧ (t.onStartup = true → t.name ∉ names)) → ∀ v, Primed names L v →
      ∃ v', forEach l startupTask v = (.ok (), v') ∧ Primed names L v' := by
    intro l
    induction l with
    | nil => exact fun _ v hv => ⟨v, rfl, hv⟩
    | cons t l ih =>
      intro hl v hv
      obtain ⟨c, v1, e1, hc, h1⟩ := primed_choose hv
      replace h1 : Primed names L (v1.observe (.cached t.name)) := ⟨still_halfway.note v1 _ rfl h1.1, h1.2⟩
      have e2 : startupTask t v = (.ok (), v1.observe (.cached t.name)) := by
        unfold startupTask
        rw [bind_apply, e1]
        simp only [get_bind_apply]
        rw [if_neg (by rw [hc.fault]; simp)]
        show (if t.onStartup = true then startSpecial .startup t else pure ()) (v1.observe (.cached t.name)) = _
        by_cases ho : t.onStartup = true
        · rw [if_pos ho]
          have := hl t (List.mem_cons_self ..)
          exact halfway_special h1.1 this.1 (this.2 ho) .startup
        · rw [if_neg ho]; rfl
      obtain ⟨v2, e3, h3⟩ := ih (fun t ht => hl t (List.mem_cons_of_mem _ ht)) _ h1
      refine ⟨v2, ?_, h3⟩
      unfold forEach
      rw [bind_apply, e2]
      exact e3
  refine key _ (fun t ht => ?_) _ h0
  have hmem := (List.mem_filter.1 ((pySorted_perm _).mem_iff.1 ht)).1
  refine ⟨h0.1.perm.mem_iff.1 (List.mem_map.2 ⟨t, hmem, rfl⟩), fun ho hn => ?_⟩
  rw [(h0.1.special t hmem hn).1] at ho
  simp at ho

theorem primed_loop {w : World} (h : Primed names L w) (k : Nat) : Halfway names L [] (serveLoopWith cyclesDone (k + 1) w).2 ∧
    ((serveLoopWith cyclesDone (k + 1) w).1 = .raise .logging ∨ (serveLoopWith cyclesDone (k + 1) w).1 = .ok () ∨
      (serveLoopWith cyclesDone (k + 1) w).1 = .cut) := by
  unfold serveLoopWith
  have e0 : cyclesDone w = (.ok false, w) := by
    show (Res.ok (decide (1 ≤ w.st.nCycles)), w) = _
    rw [h.2.2]; rfl
  rw [bind_apply, e0]
  simp only
  rw [if_neg (by simp), bind_apply]
  obtain ⟨c, w1, e1, _, h1⟩ := primed_choose h
  have e2 : hibernate w = (.ok (), w1) := by unfold hibernate; rw [bind_apply, e1]; rfl
  rw [e2]
  simp only [get_bind_apply]
  rw [if_neg (by rw [h1.1.flags.2.1]; simp), if_neg (by rw [h1.1.flags.2.2]; simp), bind_apply]
  obtain ⟨h2, hr⟩ := halfway_cycle h1.1 h1.2.1
  rcases hw2 : runCycle w1 with ⟨r, w2⟩
  rw [hw2] at h2 hr
  rcases hr with hr | ⟨hr, hc⟩
  · simp only at hr; subst hr; exact ⟨h2, Or.inl rfl⟩
  · simp only at hr hc; subst hr
    simp only
    cases k with
    | zero => exact ⟨h2, Or.inr (Or.inr rfl)⟩
    | succ k =>
      unfold serveLoopWith
      have e0 : cyclesDone w2 = (.ok true, w2) := by
        show (Res.ok (decide (1 ≤ w2.st.nCycles)), w2) = _
        rw [decide_eq_true hc]
      rw [bind_apply, e0]
      exact ⟨h2, Or.inr (Or.inl rfl)⟩

theorem halfway_shutDown (again : M Unit) (n : Nat) (e : Option Exc) (he : e ≠ some .restart) :
    Keeps (Halfway names L []) (shutDown again n e) := by
  unfold shutDown
  refine keeps_bind (fun w h => halfway_mark rfl h) (fun _ => keeps_bind ?_ (fun _ => ?_))
  · refine keeps_tryFinally (keeps_tryFinally ?_ (keeps_shutDownTasks still_halfway.base n e)) ?_
    · intro w h
      unfold runShutdownTasks
      rw [get_bind_apply]
      have : ∀ t ∈ w.st.sorted, Keeps (Halfway names L []) (if t.onShutdown then startSpecial .shutdown t else pure ()) := by
        intro t ht
        refine keeps_ite (fun ho v hv => ?_) (fun _ => keeps_pure _)
        have hmem := (List.mem_filter.1 ((pySorted_perm _).mem_iff.1 ht)).1
        rw [halfway_special hv (h.perm.mem_iff.1 (List.mem_map.2 ⟨t, hmem, rfl⟩)) (fun hn => ?_)]
        · exact hv
        · rw [(h.special t hmem hn).2] at ho
          simp at ho
      exact keeps_forEach this w h
    · exact keeps_bind (keeps_waitAlive still_halfway.base n)
        (fun _ => keeps_bind (keeps_handleLogs still_halfway.base) (fun _ => keeps_checkThreadErrors still_halfway.base))
  · rw [if_neg he]; exact keeps_pure _

theorem halfway_serve {w : World} (k : Nat)
    (h : Halfway names L L { w with st := { w.st with shutdown := false, restart := false, enabled := true }, hist := w.st :: w.hist, trace := w.trace ++ [.serve] })
    (hm : NoMain w.st) : Halfway names L [] (serveWith cyclesDone (k + 2) w).2 := by
  unfold serveWith
  have e0 : emit .serve w = (.ok (), { w with trace := w.trace ++ [.serve] }) := rfl
  rw [bind_apply, e0]
  simp only
  have e1 : clearFlags { w with trace := w.trace ++ [.serve] } = (.ok (), { w with st := { w.st with shutdown := false, restart := false, enabled := true }, hist := w.st :: w.hist, trace := w.trace ++ [.serve] }) := rfl
  rw [bind_apply, e1]
  simp only
  have hmv : NoMain ({ w with st := { w.st with shutdown := false, restart := false, enabled := true }, hist := w.st :: w.hist, trace := w.trace ++ [.serve] } : World).st := hm
  generalize ({ w with st := { w.st with shutdown := false, restart := false, enabled := true }, hist := w.st :: w.hist, trace := w.trace ++ [.serve] } : World) = v at h hmv
  obtain ⟨v1, e2, h1⟩ := primed_startup h hmv
  obtain ⟨h2, hr⟩ := primed_loop h1 k
  have hbody : (startup >>= fun _ => serveLoopWith cyclesDone (k + 1)) v = serveLoopWith cyclesDone (k + 1) v1 := by
    rw [bind_apply, e2]
  rw [bind_apply]
  unfold attempt
  rw [hbody]
  rcases hw2 : serveLoopWith cyclesDone (k + 1) v1 with ⟨r, w2⟩
  rw [hw2] at h2 hr
  rcases hr with hr | hr | hr <;> (simp only at hr; subst hr; simp only)
  · exact keeps_bind (halfway_shutDown _ (k + 1) (some .logging) (by simp)) (fun _ => keeps_raise _) w2 h2
  · exact halfway_shutDown _ (k + 1) none (by simp) w2 h2
  · exact h2

/-- The session as `session.run` hands it to the scheduler, if it is idle. -/
theorem halfway_init (s : Sys) (env : Nat → Choice) (execution : Option Exec) (hn : (s.tasks.map TaskSt.name).Nodup)
    (hm : ∀ t ∈ s.tasks, t.member = true) (hidle : ∀ t ∈ s.tasks, t.stack = [] ∧ t.batches = [])
    (hsp : ∀ t ∈ s.tasks, t.name ∈ names → t.onStartup = false ∧ t.onShutdown = false)
    (hroom : ((s.tasks.countP (fun t => decide (t.name ∈ names ∧ execution.getD t.execution = .process)) : Nat) : Int) ≤ s.cfg.maxProcess)
    (hg : ∀ i, Gentle (env i)) (hh : List Sys) (p : Nat) :
    Halfway names (s.tasks.map TaskSt.name) (s.tasks.map TaskSt.name)
      ⟨{ s.only names execution false with shutdown := false, restart := false, enabled := true }, env, p, hh, [.serve]⟩ := by
  have hback : ∀ t ∈ (s.only names execution false).tasks, ∃ u ∈ s.tasks, t = u.only names execution false := by
    intro t ht
    obtain ⟨u, hu, rfl⟩ := List.mem_map.1 ht
    exact ⟨u, hu, by rw [if_pos (hm u hu)]⟩
  have hnamed : ∀ u ∈ s.tasks, u.name ∈ names → u.only names execution false =
      { u with batches := [[]], execution := execution.getD u.execution } := by
    intro u hu hun
    unfold TaskSt.only
    rw [if_pos hun, (hidle u hu).2]
    cases execution <;> rfl
  refine ⟨hg, ?_, ?_, ?_, ⟨rfl, rfl, rfl⟩, ?_, ?_, ?_, ?_, ?_, ?_⟩
  · show ((s.only names execution false).tasks.map TaskSt.name).Perm _
    rw [only_names]
  · show ((s.only names execution false).tasks.map TaskSt.name).Nodup
    rw [only_names]; exact hn
  · intro t ht
    obtain ⟨u, hu, rfl⟩ := hback t ht
    rw [(only_name names execution false u).2]; exact hm u hu
  · intro t ht hk
    obtain ⟨u, hu, rfl⟩ := hback t ht
    rw [(only_name names execution false u).1] at hk
    rw [hnamed u hu hk]
    exact hsp u hu hk
  · exact off_only hm (fun t ht _ => (hidle t ht).2) execution false
  · intro t ht hk _
    obtain ⟨u, hu, rfl⟩ := hback t ht
    rw [(only_name names execution false u).1] at hk
    rw [hnamed u hu hk]
    refine ⟨rfl, ?_⟩
    show live _ u.stack = 0
    rw [(hidle u hu).1]; rfl
  · intro t ht hk hc
    obtain ⟨u, hu, rfl⟩ := hback t ht
    rw [(only_name names execution false u).1] at hc
    exact absurd (List.mem_map.2 ⟨u, hu, rfl⟩) hc
  · intro n
    show 0 = _
    rw [if_neg (fun hc => hc.2.2 hc.2.1)]
  · refine Int.le_trans ?_ hroom
    apply Int.ofNat_le.2
    show (((s.tasks.map _).map _).sum) ≤ _
    rw [List.map_map]
    have hmem : ∀ t ∈ s.tasks, t.name ∈ s.tasks.map TaskSt.name := fun t ht => List.mem_map.2 ⟨t, ht, rfl⟩
    generalize s.tasks.map TaskSt.name = L at hmem
    generalize s.tasks = l at hm hidle hmem
    induction l with
    | nil => exact Nat.le_refl _
    | cons t l ih =>
      rw [List.map_cons, List.sum_cons, List.countP_cons]
      have h1 := ih (fun u hu => hm u (List.mem_cons_of_mem _ hu)) (fun u hu => hidle u (List.mem_cons_of_mem _ hu))
        (fun u hu => hmem u (List.mem_cons_of_mem _ hu))
      have h2 : (needs names L ∘ fun t => if t.member = true then t.only names execution false else t) t ≤
          if decide (t.name ∈ names ∧ execution.getD t.execution = .process) = true then 1 else 0 := by
        simp only [Function.comp]
        rw [if_pos (hm t (List.mem_cons_self ..))]
        unfold needs
        have hst : (t.only names execution false).stack = t.stack := by unfold TaskSt.only; split <;> rfl
        have hc : (t.only names execution false).countProcesses = 0 := by
          unfold TaskSt.countProcesses
          rw [hst, (hidle t (List.mem_cons_self ..)).1]; rfl
        rw [hc, (only_name names execution false t).1]
        by_cases hk : t.name ∈ names
        · have he : (t.only names execution false).execution = execution.getD t.execution := by
            unfold TaskSt.only
            rw [if_pos hk]
            cases execution <;> rfl
          rw [he]
          by_cases hp : execution.getD t.execution = .process
          · simp [hk, hp, hmem t (List.mem_cons_self ..)]
          · simp [hp]
        · simp [hk]
      omega

end Rocketry.Props
