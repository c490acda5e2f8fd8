import Verif.Sched.Others
import Verif.Props.TerminateProps

/-!
# C43: shutting down
-/

namespace Rocketry.Props
open Rocketry.Sched Rocketry.Spec

/-! ## Nothing is alive afterwards -/

theorem noneTracked_shift {s s' : Sys} (h : NoneTracked s) (hd : Shift s s')
    (hm : ∀ t ∈ s.tasks, ∀ t' ∈ s'.tasks, t.name = t'.name → t'.member = true → t.member = true) : NoneTracked s' := by
  intro t' ht' hmem r hr
  rcases hd.back t' ht' with ⟨t, ht, he⟩ | ⟨_, hs, _⟩
  · obtain ⟨x, hx, _, _, _, ha⟩ := he.stack.from_ r hr
    have := h t ht (hm t ht t' ht' he.name.symm hmem) x hx
    by_cases hra : r.alive = true
    · rw [ha hra] at this; simp at this
    · simpa using hra
  · rw [hs] at hr; simp at hr

/-- The invariant: names are distinct and no tracked run is alive. -/
def Quiet (w : World) : Prop := (w.st.tasks.map TaskSt.name).Nodup ∧ NoneTracked w.st

theorem quiet_drift {w : World} {s : Sys} (h : Quiet w) (hd : Drift w.st s) :
    (s.tasks.map TaskSt.name).Nodup ∧ NoneTracked s := by
  refine ⟨hd.nodup h.1, noneTracked_shift h.2 hd.shift (fun t ht t' ht' hn hm => ?_)⟩
  rcases hd.back ht' with ⟨u, hu, he, hum⟩ | ⟨hx, _⟩
  · rw [name_inj h.1 ht hu (hn.trans he.name), ← hum]; exact hm
  · exact absurd (List.mem_map.2 ⟨t, ht, hn⟩) hx

theorem quiet_event {w : World} (h : Quiet w) (e : EnvEv) : Quiet (w.happen e) := by
  by_cases he : ∃ n, e = .remove n
  · obtain ⟨n, rfl⟩ := he
    refine ⟨upd_nodup h.1 (fun _ => rfl), fun t ht hm r hr => ?_⟩
    rcases mem_upd ht with ⟨ht, _⟩ | ⟨u, _, _, rfl⟩
    · exact h.2 t ht hm r hr
    · simp at hm
  · exact quiet_drift h (drift_event _ e (fun n hn => he ⟨n, hn⟩))

theorem calm_quiet : Calm Quiet where
  pos := fun _ _ h => h
  env := fun _ _ e h _ => quiet_event h e
  request := fun _ _ _ h => quiet_event h _
  note := fun _ _ _ h => h
  move := fun _ _ ht h => quiet_drift h (drift_tidy ht)

/-- Names are distinct. -/
def Named (w : World) : Prop := (w.st.tasks.map TaskSt.name).Nodup

theorem calm_named : Steady Named where
  pos := fun _ _ h => h
  env := fun w _ e h _ => (shift_event w.st e).nodup h
  request := fun w n _ h => (shift_event w.st (.request n [])).nodup h
  note := fun _ _ _ h => h
  move := fun _ _ ht h => (drift_tidy ht).nodup h
  mark := fun _ _ _ h => h
  flags := fun _ h => h

theorem named_launch (name : String) (part : Part) : Keeps Named (launch name part) := fun w hw =>
  launch_rule' (I0 := Named) (I1 := Named) calm_named.toCalm calm_named.toCalm name part (fun _ h => h)
    (fun w b h => (drift_pop w.st name).nodup h) (fun w _ _ h => upd_nodup (s := w.st) h (fun _ => rfl))
    (fun w _ h => upd_nodup (s := w.st) h (fun _ => rfl)) w hw

theorem noneTracked_iff (s : Sys) : NoneTracked s ↔ s.nAlive = 0 := by
  unfold NoneTracked Sys.nAlive Sys.members TaskSt.nAlive
  constructor
  · intro h
    refine sum_zero _ _ (fun t ht => ?_)
    rw [List.mem_filter] at ht
    rw [List.countP_eq_zero]
    intro r hr
    rw [h t ht.1 ht.2 r hr]; simp
  · intro h t ht hm r hr
    have hmem : t.stack.countP Run.alive ∈ (s.tasks.filter TaskSt.member).map (fun t => t.stack.countP Run.alive) :=
      List.mem_map.2 ⟨t, List.mem_filter.2 ⟨ht, hm⟩, rfl⟩
    have h0 : t.stack.countP Run.alive = 0 := by
      have : ∀ (l : List Nat) (a : Nat), a ∈ l → l.sum = 0 → a = 0 := by
        intro l a ha hs
        induction l with
        | nil => simp at ha
        | cons b l ih =>
          rw [List.sum_cons] at hs
          rcases List.mem_cons.1 ha with rfl | ha
          · omega
          · exact ih ha (by omega)
      exact this _ _ hmem h
    have := List.countP_eq_zero.1 h0 r hr
    simpa using this

theorem waitAlive_quiet : ∀ (n : Nat) (w : World), Named w → (waitAlive n w).1 ≠ .cut →
    (waitAlive n w).1 = .ok () ∧ Quiet (waitAlive n w).2
  | 0, _, _, h => absurd rfl h
  | n + 1, w, hw, h => by
    unfold waitAlive at h ⊢
    rw [get_bind_apply] at h ⊢
    by_cases hn : w.st.nAlive > 0
    · rw [if_pos hn] at h ⊢
      have hk := keeps_hibernate calm_named.toCalm w hw
      rw [bind_apply] at h ⊢
      have : hibernate w = (.ok (), (hibernate w).2) := rfl
      rw [this] at h ⊢
      exact waitAlive_quiet n _ hk h
    · rw [if_neg hn]
      exact ⟨rfl, hw, (noneTracked_iff _).2 (by show w.st.nAlive = 0; omega)⟩

/-- The end of `shut_down`: unless cut, the session is quiet then. -/
theorem final_quiet (n : Nat) (w : World) (hw : Named w)
    (h : ((do waitAlive n; handleLogs; checkThreadErrors : M Unit) w).1 ≠ .cut) :
    Quiet ((do waitAlive n; handleLogs; checkThreadErrors : M Unit) w).2 := by
  rw [bind_apply] at h ⊢
  have hq := waitAlive_quiet n w hw
  rcases hr : waitAlive n w with ⟨r, w1⟩
  rw [hr] at hq h
  cases r with
  | cut => exact absurd rfl h
  | raise e => have := (hq (by simp)).1; simp at this
  | ok _ =>
    simp only
    exact keeps_bind (keeps_handleLogs calm_quiet) (fun _ => keeps_checkThreadErrors calm_quiet) w1 (hq (by simp)).2

theorem tryFinally_quiet {m q : M Unit} (hm : Keeps Named m) (hq : ∀ w, Named w → (q w).1 ≠ .cut → Quiet (q w).2) (w : World)
    (hw : Named w) (h : (Sched.tryFinally m q w).1 ≠ .cut) : Quiet (Sched.tryFinally m q w).2 := by
  unfold Sched.tryFinally at h ⊢
  have h2 := hm w hw
  rcases hr : m w with ⟨r, w2⟩
  rw [hr] at h2 h
  have hq := hq w2 h2
  rcases hr2 : q w2 with ⟨r2, w3⟩
  rw [hr2] at hq
  cases r with
  | cut => exact absurd rfl h
  | ok a =>
    simp only at h ⊢
    rw [hr2] at h ⊢
    cases r2 with
    | ok _ => exact hq (by simp)
    | raise _ => exact hq (by simp)
    | cut => exact absurd rfl h
  | raise a =>
    simp only at h ⊢
    rw [hr2] at h ⊢
    cases r2 with
    | ok _ => exact hq (by simp)
    | raise _ => exact hq (by simp)
    | cut => exact absurd rfl h

theorem shutDown_quiet (again : M Unit) (ha : ∀ w, Named w → (again w).1 ≠ .cut → Quiet (again w).2)
    (n : Nat) (e : Option Exc) (w : World) (hw : Named w) (h : (shutDown again n e w).1 ≠ .cut) : Quiet (shutDown again n e w).2 := by
  unfold shutDown at h ⊢
  rw [bind_apply] at h ⊢
  have he : emit .shutdown w = (.ok (), { w with trace := w.trace ++ [.shutdown] }) := rfl
  rw [he] at h ⊢
  simp only at h ⊢
  generalize hw1 : ({ w with trace := w.trace ++ [.shutdown] } : World) = w1 at h ⊢
  have hn1 : Named w1 := by rw [← hw1]; exact hw
  rw [bind_apply] at h ⊢
  have hm : Keeps Named (Sched.tryFinally runShutdownTasks (shutDownTasks n e)) :=
    keeps_tryFinally (keeps_runShutdownTasks calm_named.toCalm (fun _ => named_launch _ _)) (keeps_shutDownTasks calm_named.toCalm n e)
  -- the result of the two `finally` clauses
  have hfin : (Sched.tryFinally (Sched.tryFinally runShutdownTasks (shutDownTasks n e)) (do
        waitAlive n; handleLogs; checkThreadErrors) w1).1 ≠ .cut →
      Quiet (Sched.tryFinally (Sched.tryFinally runShutdownTasks (shutDownTasks n e)) (do
        waitAlive n; handleLogs; checkThreadErrors) w1).2 := by
    exact tryFinally_quiet hm (final_quiet n) w1 hn1
  rcases hr : Sched.tryFinally (Sched.tryFinally runShutdownTasks (shutDownTasks n e)) (do
        waitAlive n; handleLogs; checkThreadErrors) w1 with ⟨r, w2⟩
  rw [hr] at hfin h
  cases r with
  | cut => exact absurd rfl h
  | raise _ => exact hfin (by simp)
  | ok _ =>
    have hq := hfin (by simp)
    simp only at h hq ⊢
    by_cases hre : e = some .restart
    · rw [if_pos hre] at h ⊢
      rw [get_bind_apply] at h ⊢
      by_cases hrc : w2.st.cfg.recall = true
      · rw [if_pos hrc] at h ⊢
        exact ha w2 hq.1 h
      · rw [if_neg hrc]; exact hq
    · rw [if_neg hre]; exact hq

theorem serve_quiet : ∀ (n : Nat) (w : World), Named w → (serve n w).1 ≠ .cut → Quiet (serve n w).2
  | 0, _, _, h => absurd rfl h
  | n + 1, w, hw, h => by
    unfold serve at h ⊢
    have he : emit .serve w = (.ok (), { w with trace := w.trace ++ [.serve] }) := rfl
    rw [bind_apply, he] at h ⊢
    simp only at h ⊢
    generalize hw1 : ({ w with trace := w.trace ++ [.serve] } : World) = w1 at h ⊢
    have hn1 : Named w1 := by rw [← hw1]; exact hw
    rw [bind_apply] at h ⊢
    have hcl : clearFlags w1 = (.ok (), (clearFlags w1).2) := rfl
    have hn2 := keeps_clearFlags calm_named w1 hn1
    rw [hcl] at h ⊢
    simp only at h ⊢
    generalize (clearFlags w1).2 = w2 at h hn2 ⊢
    rw [bind_apply] at h ⊢
    have hn3 : Named (attempt (do startup; serveLoop n) w2).2 := keeps_attempt
      (keeps_bind (keeps_startup calm_named.toCalm (fun _ => named_launch _ _))
        (fun _ => keeps_serveLoop calm_named named_launch n)) w2 hn2
    rcases hr : attempt (do startup; serveLoop n) w2 with ⟨r, w3⟩
    rw [hr] at hn3 h
    have key : ∀ e, (shutDown (serve n) n e w3).1 ≠ .cut → Quiet (shutDown (serve n) n e w3).2 :=
      fun e => shutDown_quiet _ (serve_quiet n) n e w3 hn3
    have key2 : ∀ e e', ((do shutDown (serve n) n e; raise e' : M Unit) w3).1 ≠ .cut →
        Quiet ((do shutDown (serve n) n e; raise e' : M Unit) w3).2 := by
      intro e e' hc
      rw [bind_apply] at hc ⊢
      have := key e
      rcases hs : shutDown (serve n) n e w3 with ⟨r, w4⟩
      rw [hs] at this hc
      cases r with
      | ok _ => exact this (by simp)
      | raise _ => exact this (by simp)
      | cut => exact absurd rfl hc
    cases r with
    | cut => exact absurd rfl h
    | raise e =>
      exfalso
      unfold attempt at hr
      rcases hx : (do startup; serveLoop n : M Unit) w2 with ⟨y, w4⟩
      rw [hx] at hr
      cases y <;> simp at hr
    | ok o =>
      simp only at h ⊢
      rcases o with _ | e
      · exact key none h
      · cases e with
        | systemExit => exact key _ h
        | exit => exact key _ h
        | restart => exact key _ h
        | interrupt => exact key _ h
        | logging => exact key2 _ _ h
        | setup => exact key2 _ _ h
        | other => exact key2 _ _ h

/-- C43: when `serve` is over, however it ends, no tracked run of a task of the session is alive. -/
theorem C43_tracked (s : Sys) (env : Nat → Choice) (hs : Fresh s) (ks : List Nat) (n : Nat)
    (h : (serve n (sessions ks (World.init s env)).2).1 ≠ .cut) :
    NoneTracked (serve n (sessions ks (World.init s env)).2).2.st :=
  (serve_quiet n _ (keeps_sessions calm_named named_launch ks (World.init s env) hs.names) h).2

/-- C43: nothing at all is alive.  Missing: executions in which tasks are removed from the session or in which a `run`
record of a task cannot be written (`C43_removed_violated`, `C43_untracked_violated`). -/
theorem C43_none_partial (s : Sys) (env : Nat → Choice) (hs : Fresh s)
    (hrem : ∀ i, ∀ e ∈ (env i).events, ∀ n, e ≠ .remove n) (hlog : ∀ i, (env i).fault ≠ some .logging) (ks : List Nat) (n : Nat)
    (h : (serve n (sessions ks (World.init s env)).2).1 ≠ .cut) :
    ∀ t ∈ (serve n (sessions ks (World.init s env)).2).2.st.tasks, liveRuns t = [] := by
  have hc := launches_capped s.cfg
  have hl := launches_single s.cfg False
  have hci : Inv (Capped s.cfg) (fun c => ∀ e ∈ c.events, ∀ n, e ≠ .remove n) (World.init s env) := by
    refine ⟨⟨?_, hrem⟩, noMain_fresh hs⟩
    intro x hx
    simp only [World.init, World.moments, List.mem_singleton] at hx
    rw [hx]
    refine ⟨hs.names, hs.members, ?_, rfl, ?_⟩
    · intro t ht r hr; rw [(hs.stacks t ht).2] at hr; simp at hr
    · have : liveProcesses s = 0 := sum_zero processes _ (fun t ht => processes_empty (hs.stacks t ht).1 (hs.stacks t ht).2)
      omega
  have hli : Inv (Single s.cfg False) (fun c => c.fault = some .logging → False) (World.init s env) := by
    refine ⟨⟨?_, hlog⟩, noMain_fresh hs⟩
    intro x hx
    simp only [World.init, World.moments, List.mem_singleton] at hx
    rw [hx]; exact single_fresh hs False
  have h1 := keeps_serve (steady_inv hc) (launch_inv hc) n _ (keeps_sessions (steady_inv hc) (launch_inv hc) ks _ hci)
  have h2 := keeps_serve (steady_inv hl) (launch_inv hl) n _ (keeps_sessions (steady_inv hl) (launch_inv hl) ks _ hli)
  have hq := C43_tracked s env hs ks n h
  intro t ht
  have hst : t.strays = [] := by
    by_cases hst : t.strays = []
    · exact hst
    · exact absurd (h2.1.now.strays t ht hst).2 (fun h => h)
  unfold liveRuns
  rw [hst, List.append_nil, List.filter_eq_nil_iff]
  intro r hr
  rw [hq t ht (h1.1.now.members t ht) r hr]
  simp

/-! ## Waiting or terminating -/

theorem sound_terminateIfAlive (name : String) : Keeps Sound (terminateIfAlive name) := by
  unfold terminateIfAlive
  refine keeps_get_bind (fun w hw => ?_)
  rcases w.st.find name with _ | t
  · exact hw
  · exact keeps_ite (I := Sound) (fun _ => keeps_terminateAll (steady_inv launches_distinct).toStill.base name) (fun _ => keeps_pure _) w hw

/-- The loop of `terminate_all`: the live runs of all tasks in the list are terminated. -/
theorem terminate_loop : ∀ (l : List String) (w : World), Sound w → l.Nodup → (forEach l terminateIfAlive w).1 = .ok () →
    ∃ o, (forEach l terminateIfAlive w).2.trace = w.trace ++ o ∧
      ∀ n ∈ l, ∀ t, w.st.find n = some t → ∀ r ∈ t.stack, r.alive = true → EndedIn n r.id o
  | [], w, _, _, _ => ⟨[], (List.append_nil _).symm, fun _ h => by simp at h⟩
  | m :: l, w, hw, hn, h => by
    unfold forEach at h ⊢
    rw [bind_apply] at h ⊢
    have hs1 := sound_terminateIfAlive m w hw
    have hother : ∀ n, n ≠ m → ∃ o, Follow n o w (terminateIfAlive m w).2 := fun n hne => by
      have : Follows n (terminateIfAlive m) := by
        unfold terminateIfAlive
        refine follows_bind follows_get (fun s => ?_)
        split
        · exact follows_pure _
        · exact follows_ite (follows_terminateAll hne) (follows_pure _)
      exact this w
    have hgr := (show Keeps (Grows w) (terminateIfAlive m) by
      unfold terminateIfAlive
      refine keeps_bind keeps_get (fun s => ?_)
      split
      · exact keeps_pure _
      · exact keeps_ite (fun _ => keeps_terminateAll (steady_grows w).toStill m) (fun _ => keeps_pure _)) w (Grows.refl w)
    have hhead : (terminateIfAlive m w).1 = .ok () → ∀ o, (terminateIfAlive m w).2.trace = w.trace ++ o →
        ∀ t, w.st.find m = some t → ∀ r ∈ t.stack, r.alive = true → EndedIn m r.id o := by
      intro hok o ho t ht r hr ha
      unfold terminateIfAlive at hok ho
      rw [get_bind_apply, ht] at hok ho
      have hal : t.isAlive = true := List.any_eq_true.2 ⟨r, hr, ha⟩
      simp only [hal, if_true] at hok ho
      have hd := hw.1.now
      obtain ⟨o', ho', _, hterms, _⟩ := terminateAll_terms m w t hd.names ht (hw.2 t (find_mem ht).1)
      rw [ho', List.append_cancel_left_eq] at ho
      subst ho
      refine Or.inr (mem_terms.1 ?_)
      rw [hterms hok]
      exact List.mem_map.2 ⟨r, hr, rfl⟩
    rcases hr : terminateIfAlive m w with ⟨a, w1⟩
    rw [hr] at h hs1 hother hgr hhead
    cases a with
    | raise e => simp at h
    | cut => simp at h
    | ok _ =>
      simp only at h hs1 hother hgr hhead ⊢
      obtain ⟨hml, hn'⟩ := List.nodup_cons.1 hn
      obtain ⟨o2, ho2, hrest⟩ := terminate_loop l w1 hs1 hn' h
      obtain ⟨o1, ho1⟩ := hgr.trace
      refine ⟨o1 ++ o2, by rw [ho2, ← ho1, List.append_assoc], fun n hnm t ht r hrt ha => ?_⟩
      rcases List.mem_cons.1 hnm with rfl | hnl
      · exact (hhead trivial o1 ho1.symm t ht r hrt ha).mono (fun x hx => List.mem_append_left _ hx)
      · obtain ⟨o, hf⟩ := hother n (fun e => hml (e ▸ hnl))
        have he : o = o1 := by
          have := hf.trace
          rw [← ho1, List.append_cancel_left_eq] at this
          exact this.symm
        subst he
        obtain ⟨t', ht', _, hall⟩ := hf.task hw.1.now.names t ht
        obtain ⟨r', hr', hl⟩ := all2_mem hall hrt
        rcases hl.gone ha with ha' | he
        · have := hrest n hnl t' ht' r' hr' ha'
          rw [hl.id] at this
          exact this.mono (fun x hx => List.mem_append_right _ hx)
        · exact he.mono (fun x hx => List.mem_append_left _ hx)

/-- The execution from `w` to `w'`: what is terminated must be. -/
structure Justified (w w' : World) : Prop where
  grows : Grows w w'
  why : ∃ o, w'.trace = w.trace ++ o ∧ ∀ p ∈ terms o, Why w'.moments w.env p

theorem why_mono {l l' : List Sys} {env : Nat → Choice} {p : String × Nat} (h : Why l env p) (hl : ∀ x ∈ l, x ∈ l') : Why l' env p := by
  obtain ⟨x, hx, h⟩ := h
  exact ⟨x, hl x hx, h⟩

theorem Justified.refl (w : World) : Justified w w := ⟨.refl _, [], (List.append_nil _).symm, fun _ h => by simp [terms] at h⟩

theorem Justified.trans {a b c : World} (h : Justified a b) (h' : Justified b c) : Justified a c := by
  refine ⟨h.grows.trans h'.grows, ?_⟩
  obtain ⟨o, ho, hw⟩ := h.why
  obtain ⟨o', ho', hw'⟩ := h'.why
  refine ⟨o ++ o', by rw [ho', ho, List.append_assoc], fun p hp => ?_⟩
  rw [terms_append] at hp
  rcases List.mem_append.1 hp with hp | hp
  · exact why_mono (hw p hp) (fun x hx => h'.grows.moments.subset hx)
  · have := hw' p hp
    rw [h.grows.env] at this
    exact this

/-- `m` keeps `Sound` and terminates only what must be terminated. -/
def Just {α : Type} (S : World → Prop) (m : M α) : Prop := ∀ w, S w → S (m w).2 ∧ Justified w (m w).2

theorem just_bind {α β : Type} {S : World → Prop} {m : M α} {k : α → M β} (hm : Just S m) (hk : ∀ a, Just S (k a)) :
    Just S (m >>= k) := by
  intro w hw
  rw [bind_apply]
  have h1 := hm w hw
  rcases hr : m w with ⟨r, w1⟩
  rw [hr] at h1
  cases r with
  | ok a =>
    have h2 := hk a w1 h1.1
    exact ⟨h2.1, h1.2.trans h2.2⟩
  | raise e => exact h1
  | cut => exact h1

theorem just_forEach {α : Type} {S : World → Prop} {f : α → M Unit} : ∀ {l : List α}, (∀ a ∈ l, Just S (f a)) → Just S (forEach l f)
  | [], _ => fun w hw => ⟨hw, .refl w⟩
  | _ :: _, h => just_bind (h _ (List.mem_cons_self ..)) (fun _ => just_forEach (fun b hb => h b (List.mem_cons_of_mem _ hb)))

theorem just_choose {S : World → Prop} (hS : Calm S) : Just S choose := by
  intro w hw
  refine ⟨keeps_choose hS w hw, keeps_choose (steady_grows w).toStill w (.refl w), ?_⟩
  obtain ⟨w1, hc, hf⟩ := follow_choose "" w
  rw [hc]
  exact ⟨_, hf.trace, fun p hp => by rw [terms_env] at hp; simp at hp⟩

theorem just_same {α : Type} {S : World → Prop} {m : M α} (h : ∀ w, (m w).2 = w) : Just S m := fun w hw => by
  rw [h]; exact ⟨hw, .refl w⟩

theorem just_handleLogs {S : World → Prop} (hS : Calm S) : Just S handleLogs := by
  unfold handleLogs
  refine just_bind (just_choose hS) (fun c => just_bind (just_same (fun _ => rfl)) (fun s => just_same (fun w => ?_)))
  rcases c.fault with _ | f
  · rfl
  · cases f with
    | logging => simp only; split <;> rfl
    | _ => rfl

/-- The settings of the tasks of `s0` are known. -/
def Kept (s0 : Sys) (w : World) : Prop := ∀ t ∈ s0.tasks, ∃ t' ∈ w.st.tasks, SameSet t t'

theorem kept_shift {s0 : Sys} {w : World} {s : Sys} (h : Kept s0 w) (hd : Shift w.st s) : ∀ t ∈ s0.tasks, ∃ t' ∈ s.tasks, SameSet t t' := by
  intro t ht
  obtain ⟨u, hu, hs⟩ := h t ht
  obtain ⟨v, hv, he⟩ := hd.forth u hu
  exact ⟨v, hv, hs.trans he.toSameSet⟩

theorem calm_both (s0 : Sys) : Calm (fun w => Sound w ∧ Kept s0 w) where
  pos := fun _ _ h => h
  env := fun w i e h he => ⟨(steady_inv launches_distinct).env w i e h.1 he, kept_shift h.2 (shift_event _ _)⟩
  request := fun w n hd h => ⟨(steady_inv launches_distinct).request w n hd h.1, kept_shift h.2 (shift_event w.st (.request n []))⟩
  note := fun _ _ _ h => h
  move := fun w s ht h => ⟨(steady_inv launches_distinct).move w s ht h.1, kept_shift h.2 (drift_tidy ht).shift⟩

theorem just_check (s0 : Sys) (name : String) : Just (fun w => Sound w ∧ Kept s0 w) (checkTermination name) := by
  intro w hw
  refine ⟨keeps_checkTermination (calm_both s0).toStill.base name w hw, keeps_checkTermination (steady_grows w).toStill.base name w (.refl w), ?_⟩
  rcases hf : (choose w).2.st.find name with _ | t
  · have : (checkTermination name w).2 = (choose w).2 := by
      unfold checkTermination
      rw [bind_apply]
      obtain ⟨w1, hc, _⟩ := follow_choose name w
      rw [hc] at hf ⊢
      simp only [get_bind_apply] at hf ⊢
      rw [hf]; rfl
    rw [this]
    exact (just_choose (calm_both s0) w hw).2.why
  · have hs1 : Sound (choose w).2 := keeps_choose (steady_inv launches_distinct).toStill.base w hw.1
    obtain ⟨w1, hc, hfl⟩ := follow_choose name w
    -- the state in which the task is looked at is kept in the record
    have hmom : (choose w).2.st ∈ (checkTermination name w).2.moments := by
      have hg : Grows (choose w).2 (checkTermination name w).2 := by
        unfold checkTermination
        rw [bind_apply, hc]
        simp only
        have hcalm := (steady_grows w1).toStill
        refine (keeps_bind keeps_get (fun s => ?_) : Keeps (Grows w1) _) w1 (.refl w1)
        split
        · exact keeps_pure _
        · split
          · exact keeps_ite (fun _ => keeps_terminateAll hcalm _) (fun _ => keeps_raise _)
          · refine keeps_ite (fun _ => keeps_terminateAll hcalm _) (fun _ => ?_)
            refine keeps_ite (fun _ => keeps_terminateAll hcalm _) (fun _ => ?_)
            exact keeps_ite (fun _ => keeps_pure _) (fun _ => keeps_forEach (fun _ _ => keeps_terminateOld hcalm _ _ _ _))
      exact hg.moments.subset (List.mem_cons_self ..)
    have htm := find_mem hf
    by_cases hz : t.timeout = some 0
    · -- the runs terminated are runs of the task
      obtain ⟨o, ho, hsub⟩ : ∃ o, (checkTermination name w).2.trace = (choose w).2.trace ++ o ∧
          ∀ p ∈ terms o, ∃ r ∈ t.stack, p = (name, r.id) := by
        have hall := terminateAll_terms name (choose w).2 t hs1.1.now.names hf (hs1.2 t htm.1)
        have htm' := htm.1
        unfold checkTermination
        rw [bind_apply]
        rw [hc] at hs1 hf hall htm' ⊢
        simp only at hs1 hf hall htm' ⊢
        rw [get_bind_apply, hf]
        simp only
        have hta : ∃ o, (terminateAll name w1).2.trace = w1.trace ++ o ∧ ∀ p ∈ terms o, ∃ r ∈ t.stack, p = (name, r.id) := by
          obtain ⟨o, ho, hp, _⟩ := hall
          refine ⟨o, ho, fun p hpo => ?_⟩
          obtain ⟨r, hr, rfl⟩ := List.mem_map.1 (hp.subset hpo)
          exact ⟨r, hr, rfl⟩
        have hno : ∃ o, w1.trace = w1.trace ++ o ∧ ∀ p ∈ terms o, ∃ r ∈ t.stack, p = (name, r.id) :=
          ⟨[], (List.append_nil _).symm, fun _ h => by simp [terms] at h⟩
        rcases (w.env w.pos).cond with _ | b
        · simp only
          by_cases hsc : w1.st.cfg.silenceCond = true
          · rw [if_pos hsc]; exact hta
          · rw [if_neg hsc]; exact hno
        · simp only
          by_cases h1 : t.forceTerm = true
          · rw [if_pos h1]; exact hta
          rw [if_neg h1]
          by_cases h2 : b = true
          · rw [if_pos h2]; exact hta
          rw [if_neg h2]
          by_cases h3 : t.permanent = true
          · rw [if_pos h3]; exact hno
          rw [if_neg h3]
          obtain ⟨o, hfo, hso, _⟩ := terminate_old_loop name (w.env w.pos).time (t.timeoutOf w1.st.cfg) (t.stack.map Run.id) w1 t
            hs1.1.now.names hf (fun _ h => h) (hs1.1.now.ids t htm') (hs1.2 t htm')
          refine ⟨o, hfo.trace, fun p hpo => ?_⟩
          obtain ⟨i, hi, rfl⟩ := List.mem_map.1 (hso.subset hpo)
          obtain ⟨r, hr, rfl⟩ := List.mem_map.1 hi
          exact ⟨r, hr, rfl⟩
      refine ⟨(w.env w.pos).events.map Obs.env ++ o, ?_, fun p hp => ?_⟩
      · rw [ho, hc]; simp only; rw [hfl.trace, List.append_assoc]
      · rw [terms_append, terms_env, List.nil_append] at hp
        obtain ⟨r, hr, rfl⟩ := hsub p hp
        exact ⟨_, hmom, t, htm.1, htm.2, r, hr, rfl, Or.inr (Or.inl hz)⟩
    · obtain ⟨o, ho, _, hmust, _, _⟩ := C42_cycle_partial name w hw.1 t hf hz
      refine ⟨(w.env w.pos).events.map Obs.env ++ o, ?_, fun p hp => ?_⟩
      · rw [ho, hc]; simp only; rw [hfl.trace, List.append_assoc]
      · rw [terms_append, terms_env, List.nil_append] at hp
        obtain ⟨r, hr, rfl, hme, _⟩ := hmust p hp
        exact ⟨_, hmom, t, htm.1, htm.2, r, hr, rfl, Or.inr (Or.inr ⟨_, hme⟩)⟩

theorem just_permanent (s0 : Sys) (t0 : TaskSt) (ht0 : t0 ∈ s0.tasks) (hp : t0.permanent = true) :
    Just (fun w => Sound w ∧ Kept s0 w) (terminateAll t0.name) := by
  intro w hw
  have hg := keeps_terminateAll (steady_grows w).toStill.base t0.name w (.refl w)
  refine ⟨keeps_terminateAll (calm_both s0).toStill.base t0.name w hw, hg, ?_⟩
  obtain ⟨t, ht, hs⟩ := hw.2 t0 ht0
  have hf : w.st.find t0.name = some t := (find_iff hw.1.1.now.names).2 ⟨ht, hs.name⟩
  obtain ⟨o, ho, hpre, _, _⟩ := terminateAll_terms t0.name w t hw.1.1.now.names hf (hw.1.2 t ht)
  refine ⟨o, ho, fun p hpo => ?_⟩
  obtain ⟨r, hr, rfl⟩ := List.mem_map.1 (hpre.subset hpo)
  exact ⟨w.st, hg.moments.subset (List.mem_cons_self ..), t, ht, hs.name, r, hr, rfl, Or.inl (hs.permanent.trans hp)⟩

/-- Waiting for the tasks terminates only what must be. -/
theorem just_waitFinish : ∀ n, Just Sound (waitFinish n)
  | 0 => just_same (fun _ => rfl)
  | n + 1 => by
    unfold waitFinish
    have hcalm : Calm Sound := (steady_inv launches_distinct).toCalm
    intro w hw
    rw [get_bind_apply]
    by_cases h0 : w.st.nAlive = 0
    · rw [if_pos h0]; exact ⟨hw, .refl w⟩
    rw [if_neg h0]
    refine (just_bind (S := Sound) ?_ (fun _ => just_bind (just_handleLogs hcalm) (fun _ => ?_))) w hw
    · exact just_bind (just_choose hcalm) (fun _ => just_same (fun _ => rfl))
    · intro w1 hw1
      rw [get_bind_apply]
      have hloop := just_forEach (S := fun w => Sound w ∧ Kept w1.st w) (l := w1.st.sorted)
        (f := fun t => if t.permanent then terminateAll t.name else checkTermination t.name) (fun t ht => by
          have ht' : t ∈ w1.st.tasks := (List.mem_filter.1 ((pySorted_perm _).mem_iff.1 ht)).1
          by_cases hp : t.permanent = true
          · simp only [hp, if_true]; exact just_permanent w1.st t ht' hp
          · simp only [hp]; exact just_check w1.st t.name) w1 ⟨hw1, fun t ht => ⟨t, ht, .refl t⟩⟩
      rw [bind_apply]
      rcases hr : forEach w1.st.sorted (fun t => if t.permanent then terminateAll t.name else checkTermination t.name) w1 with ⟨r, w2⟩
      rw [hr] at hloop
      cases r with
      | ok _ =>
        have := just_waitFinish n w2 hloop.1.1
        exact ⟨this.1, hloop.2.trans this.2⟩
      | raise e => exact ⟨hloop.1.1, hloop.2⟩
      | cut => exact ⟨hloop.1.1, hloop.2⟩

theorem waitFinish_done : ∀ (n : Nat) (w : World), (waitFinish n w).1 = .ok () → (waitFinish n w).2.st.nAlive = 0
  | 0, _, h => by simp [waitFinish, cut] at h
  | n + 1, w, h => by
    unfold waitFinish at h ⊢
    rw [get_bind_apply] at h ⊢
    by_cases h0 : w.st.nAlive = 0
    · rw [if_pos h0]; exact h0
    rw [if_neg h0] at h ⊢
    rw [bind_apply] at h ⊢
    rcases hr : hibernate w with ⟨r, w1⟩
    rw [hr] at h
    cases r with
    | raise e => simp at h
    | cut => simp at h
    | ok _ =>
      simp only at h ⊢
      rw [bind_apply] at h ⊢
      rcases hr : handleLogs w1 with ⟨r, w2⟩
      rw [hr] at h
      cases r with
      | raise e => simp at h
      | cut => simp at h
      | ok _ =>
        simp only at h ⊢
        rw [get_bind_apply, bind_apply] at h ⊢
        rcases hr : forEach w2.st.sorted (fun t => if t.permanent then terminateAll t.name else checkTermination t.name) w2 with ⟨r, w3⟩
        rw [hr] at h
        cases r with
        | raise e => simp at h
        | cut => simp at h
        | ok _ => exact waitFinish_done n w3 h

theorem waits_iff (s : Sys) (e : Option Exc) : waitForFinish s e = true ↔ Waits s e := by
  unfold waitForFinish Waits
  simp only [Bool.and_eq_true, Bool.not_eq_true', Bool.or_eq_true, decide_eq_true_eq]
  constructor
  · rintro ⟨⟨h1, h2⟩, h3⟩; exact ⟨h1, h3, h2⟩
  · rintro ⟨h1, h3, h2⟩; exact ⟨⟨h1, h2⟩, h3⟩

/-- C43: if the shutdown waits and nothing goes wrong, only runs of permanent tasks and those that must end anyway are
terminated, and no tracked run is alive at the end.  (`Sound`: see `C42_states`.) -/
theorem C43_waits (n : Nat) (e : Option Exc) (w : World) (hw : Sound w) (hwait : Waits w.st e)
    (h : (shutDownTasks n e w).1 = .ok ()) :
    NoneTracked (shutDownTasks n e w).2.st ∧
      ∃ o, (shutDownTasks n e w).2.trace = w.trace ++ o ∧ ∀ p ∈ terms o, Why (shutDownTasks n e w).2.moments w.env p := by
  cases n with
  | zero => simp [shutDownTasks, cut] at h
  | succ n =>
    unfold shutDownTasks at h ⊢
    rw [get_bind_apply, if_pos ((waits_iff _ _).2 hwait)] at h ⊢
    have hj := just_waitFinish n w hw
    have hd := waitFinish_done n w
    unfold Sched.tryCatch at h ⊢
    rcases hr : waitFinish n w with ⟨r, w1⟩
    rw [hr] at hj h hd
    cases r with
    | ok _ => exact ⟨(noneTracked_iff _).2 (hd rfl), hj.2.why⟩
    | cut => simp at h
    | raise e' =>
      exfalso
      have key : ∀ (m : M Unit) (x : World), ((do m; raise e' : M Unit) x).1 ≠ .ok () := by
        intro m x hx
        rw [bind_apply] at hx
        rcases hm : m x with ⟨r, y⟩
        rw [hm] at hx
        cases r <;> simp [raise] at hx
      cases e' <;> simp only at h <;> first | exact key _ _ h | simp [raise] at h

/-- C43: if the shutdown does not wait, all live runs are terminated (unless they end by themselves meanwhile or an
error is raised). -/
theorem C43_forced (n : Nat) (e : Option Exc) (w : World) (hw : Sound w) (hwait : ¬ Waits w.st e)
    (h : (shutDownTasks n e w).1 = .ok ()) :
    ∃ o, (shutDownTasks n e w).2.trace = w.trace ++ o ∧
      ∀ t ∈ w.st.tasks, t.member = true → ∀ r ∈ t.stack, r.alive = true → EndedIn t.name r.id o := by
  cases n with
  | zero => simp [shutDownTasks, cut] at h
  | succ n =>
    unfold shutDownTasks at h ⊢
    rw [get_bind_apply, if_neg (fun h => hwait ((waits_iff _ _).1 h))] at h ⊢
    unfold schedTerminateAll at h ⊢
    rw [get_bind_apply] at h ⊢
    have hd := hw.1.now
    obtain ⟨o, ho, hall⟩ := terminate_loop (w.st.sorted.map TaskSt.name) w hw (sorted_nodup hd.names) h
    refine ⟨o, ho, fun t ht hm r hr ha => hall t.name ?_ t ((find_iff hd.names).2 ⟨ht, rfl⟩) r hr ha⟩
    exact List.mem_map.2 ⟨t, (pySorted_perm _).mem_iff.2 (List.mem_filter.2 ⟨ht, hm⟩), rfl⟩

/-- The flags a session starts from. -/
theorem C43_flags_partial (w : World) : (clearFlags w).2.st.shutdown = false ∧ (clearFlags w).2.st.restart = false ∧
    (clearFlags w).2.st.enabled = true := ⟨rfl, rfl, rfl⟩

/-! ## Examples -/

/-- `a` runs, is removed from the session, which is shut down then. -/
def removeA : List Choice :=
  startA ++ [quiet false, quiet false, quiet false, quiet false, quiet false, ⟨[.remove "a", .shutDown none], some false, none, 0⟩]

/-- C43 is false if a running task is removed: its process is alive when `serve` is over. -/
theorem C43_removed_violated : ∃ (s : Sys) (env : Nat → Choice) (k : Nat), Fresh s ∧ (serve k (World.init s env)).1 = .ok () ∧
    ∃ t ∈ (serve k (World.init s env)).2.st.tasks, liveRuns t ≠ [] := by
  refine ⟨twoProcesses, envOf removeA, 3, by decide, by decide +kernel, by decide +kernel⟩

/-- C43 is false if the `run` record of a `main` run cannot be written: the run goes on when `serve` is over. -/
theorem C43_untracked_violated : ∃ (s : Sys) (env : Nat → Choice) (k : Nat), Fresh s ∧ (serve k (World.init s env)).1 = .ok () ∧
    ∃ t ∈ (serve k (World.init s env)).2.st.tasks, liveRuns t ≠ [] := by
  refine ⟨mainTask, envOf ((mainTwice (some .logging)).take 8 ++ [quiet true]), 3, by decide, by decide +kernel, by decide +kernel⟩

/-- A forced shutdown in the first sleep of a session. -/
def forcedStop : List Choice := [quiet false, quiet false, quiet false, ⟨[.shutDown (some true)], some false, none, 0⟩]

/-- C43 is false for the flag of a forced shutdown: it is still set in the next session, which therefore does not wait for
its tasks. -/
theorem C43_flags_violated : ∃ (s : Sys) (env : Nat → Choice) (ks : List Nat), Fresh s ∧
    (clearFlags (sessions ks (World.init s env)).2).2.st.forceExit = true ∧
    ¬ Waits (clearFlags (sessions ks (World.init s env)).2).2.st none := by
  have h : (clearFlags (sessions [2] (World.init twoProcesses (envOf forcedStop))).2).2.st.forceExit = true := by decide +kernel
  exact ⟨twoProcesses, envOf forcedStop, [2], by decide, h, fun hw => by rw [hw.2.1] at h; simp at h⟩

/-- `a` runs until it is over in the shutdown. -/
example : let env := envOf (startA ++ [quiet false, quiet false, quiet false, quiet false, quiet false,
      ⟨[.shutDown none], some false, none, 0⟩, ⟨[.ends "a" 0 false], some false, none, 0⟩])
    Fresh twoProcesses ∧ (serve 4 (World.init twoProcesses env)).1 = .ok () ∧
      Obs.started "a" 0 .cycle ∈ (serve 4 (World.init twoProcesses env)).2.trace ∧
      terms (serve 4 (World.init twoProcesses env)).2.trace = [] := by
  decide +kernel

def waitWorld : World := World.init { sessionOf 1 false [oldRuns (some 20)] with nextId := 3 }
  (envOf [quiet false, quiet false, ⟨[], some false, none, 75⟩, ⟨[.ends "a" 0 false], some false, none, 75⟩])

/-- The shutdown waits for both runs, but they get too old. -/
example : Waits waitWorld.st none ∧ (shutDownTasks 4 none waitWorld).1 = .ok () ∧
    terms (shutDownTasks 4 none waitWorld).2.trace = [("a", 0), ("a", 1)] := by
  refine ⟨⟨rfl, rfl, Or.inl rfl⟩, by decide +kernel, by decide +kernel⟩

/-- The shutdown does not wait. -/
example : ¬ Waits waitWorld.st (some .exit) ∧ (shutDownTasks 4 (some .exit) waitWorld).1 = .ok () ∧
    terms (shutDownTasks 4 (some .exit) waitWorld).2.trace = [("a", 0), ("a", 1), ("a", 2)] := by
  refine ⟨fun h => by rcases h.2.2 with h | h <;> simp at h, by decide +kernel, by decide +kernel⟩

/-- A request to shut down at once: one that says so, or one that does not say otherwise and follows another
request (`earlier`: there was one before). -/
def AsksForce (earlier : Bool) (evs : List EnvEv) : Prop :=
  ∃ pre f post, evs = pre ++ EnvEv.shutDown f :: post ∧
    (f = some true ∨ f = none ∧ (earlier = true ∨ ∃ g, EnvEv.shutDown g ∈ pre))

theorem asksForce_cons {e : EnvEv} {earlier : Bool} {evs : List EnvEv} : AsksForce earlier (e :: evs) ↔
    (∃ f, e = .shutDown f ∧ (f = some true ∨ f = none ∧ earlier = true)) ∨
      AsksForce (earlier || (match e with | .shutDown _ => true | _ => false)) evs := by
  constructor
  · rintro ⟨pre, f, post, h, hf⟩
    cases pre with
    | nil =>
      simp only [List.nil_append, List.cons.injEq] at h
      refine .inl ⟨f, h.1, ?_⟩
      simpa using hf
    | cons d pre =>
      simp only [List.cons_append, List.cons.injEq] at h
      obtain ⟨rfl, rfl⟩ := h
      refine .inr ⟨pre, f, post, rfl, ?_⟩
      rcases hf with hf | ⟨hf, h | ⟨g, hg⟩⟩
      · exact .inl hf
      · exact .inr ⟨hf, .inl (by simp [h])⟩
      · rcases List.mem_cons.1 hg with rfl | hg
        · exact .inr ⟨hf, .inl (by simp)⟩
        · exact .inr ⟨hf, .inr ⟨g, hg⟩⟩
  · rintro (⟨f, rfl, hf⟩ | ⟨pre, f, post, rfl, hf⟩)
    · refine ⟨[], f, evs, rfl, ?_⟩
      rcases hf with hf | ⟨hf, h⟩
      · exact .inl hf
      · exact .inr ⟨hf, .inl h⟩
    · refine ⟨e :: pre, f, post, rfl, ?_⟩
      rcases hf with hf | ⟨hf, h | ⟨g, hg⟩⟩
      · exact .inl hf
      · rw [Bool.or_eq_true] at h
        rcases h with h | h
        · exact .inr ⟨hf, .inl h⟩
        · cases e with
          | shutDown g => exact .inr ⟨hf, .inr ⟨g, by simp⟩⟩
          | _ => simp at h
      · exact .inr ⟨hf, .inr ⟨g, by simp [hg]⟩⟩

/-- C43: the shutdown is forced exactly by a request that says so or by a second request. -/
theorem C43_twice (evs : List EnvEv) (s : Sys) :
    (evs.foldl Sys.event s).forceExit = true ↔ s.forceExit = true ∨ AsksForce s.shutdown evs := by
  induction evs generalizing s with
  | nil => simp [AsksForce]
  | cons e evs ih =>
    rw [List.foldl_cons, ih, asksForce_cons]
    cases e with
    | shutDown f =>
      simp only [Sys.event, Bool.or_true, Bool.or_eq_true, EnvEv.shutDown.injEq]
      rw [or_assoc]
      refine or_congr_right (or_congr_left ?_)
      cases f with
      | none => simp
      | some b => simp
    | add t => simp only [Sys.event]; split <;> simp
    | reorder l => simp only [Sys.event]; split <;> simp
    | _ => simp [Sys.event, Sys.upd]

/-- Two plain requests. -/
example : AsksForce false [.shutDown none, .hold true, .shutDown none] ∧ ¬ AsksForce false [.shutDown none, .hold true] := by
  constructor
  · exact ⟨[.shutDown none, .hold true], none, [], rfl, .inr ⟨rfl, .inr ⟨none, by simp⟩⟩⟩
  · have := C43_twice [.shutDown none, .hold true] { twoProcesses with forceExit := false, shutdown := false }
    intro h
    have := this.2 (.inr h)
    simp [Sys.event] at this

end Rocketry.Props
