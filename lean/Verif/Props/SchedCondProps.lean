import Verif.Sched.Cycles
import Verif.Spec.CycleSpec
import Verif.Props.PhraseProps
import Verif.Props.ShutdownProps
import Mathlib.Data.List.Induction

/-!
# C62: conditions about the scheduler
-/

namespace Rocketry.Props

open Rocketry.Sched Rocketry.Spec

/-! ## Traces -/

theorem stops_snoc {P : Nat → Bool} {o : List Obs} {x : Obs} (h : StopsInTime (fun j => P j = true) o) (hx : x ≠ .cycle) :
    StopsInTime (fun j => P j = true) (o ++ [x]) := by
  intro pre mid post he hs
  rcases List.eq_nil_or_concat post with rfl | ⟨post, y, rfl⟩
  · have := List.append_inj_right' he rfl
    simp only [List.cons.injEq, and_true] at this
    exact absurd this hx
  · have he' : o ++ [x] = (pre ++ .serve :: mid ++ .cycle :: post) ++ [y] := by simpa using he
    exact h pre mid post (List.append_inj_left' he' rfl) hs

theorem sinceServe_snoc (o : List Obs) (x : Obs) :
    sinceServe (o ++ [x]) = if x = .serve then [] else sinceServe o ++ [x] := by
  unfold sinceServe
  by_cases hx : x = .serve <;> simp [hx, List.takeWhile_cons]

theorem takeWhile_serve {o : List Obs} (h : .serve ∉ o) (l : List Obs) :
    (o.reverse ++ l).takeWhile (fun x => decide (x ≠ .serve)) = o.reverse ++ l.takeWhile (fun x => decide (x ≠ .serve)) := by
  apply List.takeWhile_append_of_pos
  intro a ha
  refine decide_eq_true (fun he => h ?_)
  rw [← he]; exact List.mem_reverse.1 ha

theorem sinceServe_split {pre mid : List Obs} (h : .serve ∉ mid) : sinceServe (pre ++ .serve :: mid) = mid := by
  unfold sinceServe
  simp only [List.reverse_append, List.reverse_cons, List.append_assoc]
  rw [takeWhile_serve h]
  simp

theorem sinceServe_all {o : List Obs} (h : .serve ∉ o) : sinceServe o = o := by
  have := takeWhile_serve h []
  unfold sinceServe
  rw [List.append_nil] at this
  rw [this]; simp

theorem stops_cycle {P : Nat → Bool} {o : List Obs} (h : StopsInTime (fun j => P j = true) o)
    (hp : ∀ j ≤ (sinceServe o).count .cycle, P j = false) : StopsInTime (fun j => P j = true) (o ++ [.cycle]) := by
  intro pre mid post he hs
  rcases List.eq_nil_or_concat post with rfl | ⟨post, y, rfl⟩
  · have := List.append_inj_left' he rfl
    rw [this, sinceServe_split hs] at hp
    exact fun j hj => by simp [hp j hj]
  · have he' : o ++ [.cycle] = (pre ++ .serve :: mid ++ .cycle :: post) ++ [y] := by simpa using he
    exact h pre mid post (List.append_inj_left' he' rfl) hs

/-! ## The count in the state and in the trace -/

/-- The scheduler counts `a` cycles, the trace since `t` has `b` beginnings of cycles in its latest session (and no
beginning of a session, if `m`). -/
def Cnt (P : Nat → Bool) (t : List Obs) (m : Bool) (a b : Nat) (w : World) : Prop :=
  w.st.nCycles = a ∧ ∃ o, w.trace = t ++ o ∧ StopsInTime (fun j => P j = true) o ∧ (sinceServe o).count .cycle = b ∧ (m = true → .serve ∉ o)

theorem cnt_snoc {P : Nat → Bool} {t : List Obs} {m : Bool} {a b : Nat} {w : World} {x : Obs} (s : Sys) (p : Nat) (h : List Sys)
    (hw : Cnt P t m a b w) (hn : s.nCycles = w.st.nCycles) (hc : x ≠ .cycle) (hs : x ≠ .serve) :
    Cnt P t m a b { st := s, env := w.env, pos := p, hist := h, trace := w.trace ++ [x] } := by
  obtain ⟨ha, o, ho, hst, hb, hm⟩ := hw
  refine ⟨hn.trans ha, o ++ [x], by rw [ho, List.append_assoc], stops_snoc hst hc, ?_, fun h => ?_⟩
  · rw [sinceServe_snoc, if_neg hs, List.count_append, hb]
    simp [hc]
  · simpa using ⟨hm h, fun h => hs h.symm⟩

theorem cnt_same {P : Nat → Bool} {t : List Obs} {m : Bool} {a b : Nat} {w : World} (s : Sys) (p : Nat) (h : List Sys)
    (hw : Cnt P t m a b w) (hn : s.nCycles = w.st.nCycles) :
    Cnt P t m a b { st := s, env := w.env, pos := p, hist := h, trace := w.trace } := ⟨hn.trans hw.1, hw.2⟩

theorem event_cycles (s : Sys) (e : EnvEv) : (s.event e).nCycles = s.nCycles := by
  cases e <;> first | rfl | (simp only [Sys.event]; split <;> rfl)

theorem mid_cnt (P : Nat → Bool) (t : List Obs) (m : Bool) (a b : Nat) : Mid (Cnt P t m a b) where
  pos := fun w p h => cnt_same _ _ _ h rfl
  env := fun w i e h _ => cnt_snoc _ _ _ h (event_cycles _ _) (by simp) (by simp)
  request := fun w n _ h => cnt_snoc _ _ _ h (event_cycles _ _) (by simp) (by simp)
  note := fun w o ho _ h => cnt_snoc _ _ _ h rfl (by rintro rfl; cases ho) (by rintro rfl; cases ho)
  move := fun w s _ hn h => cnt_same _ _ _ h hn

theorem launch_cnt (P : Nat → Bool) (t : List Obs) (m : Bool) (a b : Nat) (name : String) (part : Sched.Part) :
    Keeps (Cnt P t m a b) (launch name part) :=
  launch_rule' (mid_cnt P t m a b).toBase (mid_cnt P t m a b).toBase name part (fun _ h => h)
    (fun w b h => cnt_snoc _ _ _ h rfl (by simp) (by simp)) (fun w k tm h => cnt_snoc _ _ _ h rfl (by simp) (by simp))
    (fun w b h => cnt_same _ _ _ h rfl)

theorem cnt_cycle {P : Nat → Bool} {t : List Obs} {m : Bool} {a : Nat} {w : World} (hw : Cnt P t m a a w)
    (hp : ∀ j ≤ a, P j = false) : Cnt P t m a (a + 1) { w with trace := w.trace ++ [.cycle] } := by
  obtain ⟨ha, o, ho, hst, hb, hm⟩ := hw
  refine ⟨ha, o ++ [.cycle], by simp only [ho, List.append_assoc], stops_cycle hst (by rw [hb]; exact hp), ?_, fun h => ?_⟩
  · rw [sinceServe_snoc, if_neg (by simp), List.count_append, hb]
    rfl
  · simpa using hm h

/-- A cycle is counted if it comes to its end. -/
theorem runCycle_cnt {P : Nat → Bool} {t : List Obs} {m : Bool} {a : Nat} {w : World} (hw : Cnt P t m a a w)
    (hp : ∀ j ≤ a, P j = false) :
    ((runCycle w).1 = .ok () ∧ Cnt P t m (a + 1) (a + 1) (runCycle w).2) ∨
      ((runCycle w).1 ≠ .ok () ∧ Cnt P t m a (a + 1) (runCycle w).2) := by
  have hb := (mid_cnt P t m a (a + 1)).toBase
  have h1 := cnt_cycle hw hp
  have h2 : Keeps (Cnt P t m a (a + 1)) (do
      forEach (w.st.sorted.map TaskSt.name) inspectTask
      handleLogs
      checkThreadErrors) :=
    keeps_bind (keeps_forEach (fun _ _ => keeps_inspectTask hb (fun n => launch_cnt P t m a (a + 1) n .cycle) _))
      (fun _ => keeps_bind (keeps_handleLogs hb) (fun _ => keeps_checkThreadErrors hb))
  have h3 := h2 _ h1
  have he : runCycle w = ((do
      forEach (w.st.sorted.map TaskSt.name) inspectTask
      handleLogs
      checkThreadErrors) >>= fun _ => (do setCycles (fun k => k + 1); emit .cycleDone))
        { w with trace := w.trace ++ [Obs.cycle] } := by
    have : runCycle w = (do
      forEach (w.st.sorted.map TaskSt.name) inspectTask
      handleLogs
      checkThreadErrors
      setCycles (fun k => k + 1)
      emit .cycleDone : M Unit) { w with trace := w.trace ++ [.cycle] } := rfl
    rw [this]
    simp only [bind_apply]
    rcases forEach (w.st.sorted.map TaskSt.name) inspectTask { w with trace := w.trace ++ [.cycle] } with ⟨r, w1⟩
    cases r with
    | raise e => rfl
    | cut => rfl
    | ok _ =>
      simp only
      rcases handleLogs w1 with ⟨r, w2⟩
      cases r <;> rfl
  rw [he, bind_apply]
  rcases hr : (do
      forEach (w.st.sorted.map TaskSt.name) inspectTask
      handleLogs
      checkThreadErrors : M Unit) { w with trace := w.trace ++ [.cycle] } with ⟨r, w1⟩
  rw [hr] at h3
  cases r with
  | raise e => exact Or.inr ⟨by simp, h3⟩
  | cut => exact Or.inr ⟨by simp, h3⟩
  | ok _ =>
    left
    refine ⟨rfl, ?_⟩
    have h4 : Cnt P t m (a + 1) (a + 1) { w1 with st := { w1.st with nCycles := w1.st.nCycles + 1 }, hist := w1.st :: w1.hist } :=
      ⟨congrArg (· + 1) h3.1, h3.2⟩
    exact cnt_snoc _ _ _ h4 rfl (by simp) (by simp)

/-- The loop ends by itself at the first number of cycles at which the condition holds. -/
theorem loop_cnt {P : Nat → Bool} {t : List Obs} {m : Bool} : ∀ (n : Nat) {a : Nat} {w : World}, Cnt P t m a a w →
    (∀ j < a, P j = false) →
    (∃ b c, Cnt P t m b c (serveLoopWith (stopAt P) n w).2) ∧
      ((serveLoopWith (stopAt P) n w).1 = .ok () → (serveLoopWith (stopAt P) n w).2.st.shutdown = true ∨
        ∃ b, Cnt P t m b b (serveLoopWith (stopAt P) n w).2 ∧ FirstWith (fun j => P j = true) b)
  | 0, a, w, hw, _ => ⟨⟨a, a, hw⟩, fun h => by cases h⟩
  | n + 1, a, w, hw, hp => by
    have hu : serveLoopWith (stopAt P) (n + 1) w = (if P a then pure () else do
      hibernate
      let s ← get
      if s.shutdown then pure ()
      else if s.restart then raise .restart
      else do
        runCycle
        serveLoopWith (stopAt P) n : M Unit) w := by
      rw [serveLoopWith]
      simp only [stopAt, bind_apply, pure_apply, get_apply, hw.1]
    rw [hu]
    by_cases hpa : P a = true
    · rw [if_pos hpa]
      exact ⟨⟨a, a, hw⟩, fun _ => Or.inr ⟨a, hw, hpa, fun j hj => by simp [hp j hj]⟩⟩
    · rw [if_neg hpa, bind_apply]
      have h1 := keeps_hibernate (mid_cnt P t m a a).toBase w hw
      rcases hh : hibernate w with ⟨r, w1⟩
      rw [hh] at h1
      cases r with
      | raise e => exact ⟨⟨a, a, h1⟩, fun h => by cases h⟩
      | cut => exact ⟨⟨a, a, h1⟩, fun h => by cases h⟩
      | ok _ =>
        simp only [get_bind_apply]
        by_cases hs : w1.st.shutdown = true
        · rw [if_pos hs]; exact ⟨⟨a, a, h1⟩, fun _ => Or.inl hs⟩
        · rw [if_neg hs]
          by_cases hre : w1.st.restart = true
          · rw [if_pos hre]; exact ⟨⟨a, a, h1⟩, fun h => by cases h⟩
          · rw [if_neg hre, bind_apply]
            have hp' : ∀ j < a + 1, P j = false := fun j hj => by
              rcases Nat.lt_succ_iff_lt_or_eq.1 hj with h | rfl
              · exact hp j h
              · simpa using hpa
            have h2 := runCycle_cnt h1 (fun j hj => hp' j (Nat.lt_succ_of_le hj))
            rcases hc : runCycle w1 with ⟨r, w2⟩
            rw [hc] at h2
            cases r with
            | raise e =>
              rcases h2 with ⟨h, _⟩ | ⟨_, h⟩
              · cases h
              · exact ⟨⟨_, _, h⟩, fun h => by cases h⟩
            | cut =>
              rcases h2 with ⟨h, _⟩ | ⟨_, h⟩
              · cases h
              · exact ⟨⟨_, _, h⟩, fun h => by cases h⟩
            | ok _ =>
              rcases h2 with ⟨_, h⟩ | ⟨h, _⟩
              · exact loop_cnt n h hp'
              · exact absurd rfl h

theorem startup_cnt {P : Nat → Bool} {t : List Obs} {m : Bool} {w : World} {o : List Obs} (ho : w.trace = t ++ o)
    (hst : StopsInTime (fun j => P j = true) o) (hb : (sinceServe o).count .cycle = 0) (hm : m = true → .serve ∉ o) :
    Cnt P t m 0 0 (startup w).2 := by
  have h0 : Cnt P t m 0 0 { w with st := { w.st with nCycles := 0 }, hist := w.st :: w.hist } := ⟨rfl, o, ho, hst, hb, hm⟩
  have h1 : Keeps (Cnt P t m 0 0) (do let s ← get; forEach s.sorted startupTask) :=
    keeps_bind keeps_get (fun s => keeps_forEach (fun t' _ => keeps_startupTask' (mid_cnt P t m 0 0) t'
      (launch_cnt P t m 0 0 _ _)))
  exact h1 _ h0

/-- Startup and loop. -/
theorem body_cnt {P : Nat → Bool} {t : List Obs} {m : Bool} {w : World} {o : List Obs} (n : Nat) (ho : w.trace = t ++ o)
    (hst : StopsInTime (fun j => P j = true) o) (hb : (sinceServe o).count .cycle = 0) (hm : m = true → .serve ∉ o) :
    (∃ b c, Cnt P t m b c ((do startup; serveLoopWith (stopAt P) n) w).2) ∧
      (((do startup; serveLoopWith (stopAt P) n) w).1 = .ok () →
        ((do startup; serveLoopWith (stopAt P) n) w).2.st.shutdown = true ∨
        ∃ b, Cnt P t m b b ((do startup; serveLoopWith (stopAt P) n) w).2 ∧ FirstWith (fun j => P j = true) b) := by
  have h0 := startup_cnt ho hst hb hm
  rw [bind_apply]
  rcases hs : startup w with ⟨r, w1⟩
  rw [hs] at h0
  cases r with
  | raise e => exact ⟨⟨0, 0, h0⟩, fun h => by cases h⟩
  | cut => exact ⟨⟨0, 0, h0⟩, fun h => by cases h⟩
  | ok _ => exact loop_cnt n h0 (fun j hj => absurd hj (Nat.not_lt_zero j))

/-- The trace since `t` stops in time. -/
def Timely (P : Nat → Bool) (t : List Obs) (w : World) : Prop :=
  ∃ o, w.trace = t ++ o ∧ StopsInTime (fun j => P j = true) o

theorem timely_snoc {P : Nat → Bool} {t : List Obs} {w : World} {x : Obs} (s : Sys) (p : Nat) (h : List Sys)
    (hw : Timely P t w) (hc : x ≠ .cycle) :
    Timely P t { st := s, env := w.env, pos := p, hist := h, trace := w.trace ++ [x] } := by
  obtain ⟨o, ho, hst⟩ := hw
  exact ⟨o ++ [x], by simp only [ho, List.append_assoc], stops_snoc hst hc⟩

theorem mid_timely (P : Nat → Bool) (t : List Obs) : Mid (Timely P t) where
  pos := fun _ _ h => h
  env := fun w i e h _ => timely_snoc _ _ _ h (by simp)
  request := fun w n _ h => timely_snoc _ _ _ h (by simp)
  note := fun w o ho _ h => timely_snoc _ _ _ h (by rintro rfl; cases ho)
  move := fun _ _ _ _ h => h

theorem launch_timely (P : Nat → Bool) (t : List Obs) (name : String) (part : Sched.Part) :
    Keeps (Timely P t) (launch name part) :=
  launch_rule' (mid_timely P t).toBase (mid_timely P t).toBase name part (fun _ h => h)
    (fun w b h => timely_snoc _ _ _ h (by simp)) (fun w k tm h => timely_snoc _ _ _ h (by simp)) (fun _ _ h => h)

/-- All sessions of an execution. -/
theorem serve_timely (P : Nat → Bool) (t : List Obs) : ∀ n, Keeps (Timely P t) (serveWith (stopAt P) n)
  | 0 => keeps_cut
  | n + 1 => by
    have hd := fun e => keeps_shutDown' (mid_timely P t) (fun n => launch_timely P t n _)
      (fun w h => timely_snoc _ _ _ h (by simp)) (serve_timely P t n) n e
    intro w hw
    obtain ⟨o, ho, hst⟩ := hw
    have hb := body_cnt (P := P) (t := t) (m := false) (o := o ++ [Obs.serve]) (w := { w with
      st := { w.st with shutdown := false, restart := false, enabled := true }, hist := w.st :: w.hist,
      trace := w.trace ++ [Obs.serve] }) n (by simp only [ho, List.append_assoc]) (stops_snoc hst (by simp))
      (by rw [sinceServe_snoc, if_pos rfl]; rfl) (by simp)
    obtain ⟨⟨b, c, hc⟩, _⟩ := hb
    have ht : Timely P t ((do startup; serveLoopWith (stopAt P) n : M Unit) { w with
      st := { w.st with shutdown := false, restart := false, enabled := true }, hist := w.st :: w.hist,
      trace := w.trace ++ [Obs.serve] }).2 := by
      obtain ⟨_, o', h1, h2, _⟩ := hc
      exact ⟨o', h1, h2⟩
    have he : Keeps (Timely P t) (fun (_ : World) => attempt (do startup; serveLoopWith (stopAt P) n) { w with
      st := { w.st with shutdown := false, restart := false, enabled := true }, hist := w.st :: w.hist,
      trace := w.trace ++ [Obs.serve] }) := by
      intro v _
      revert ht
      unfold attempt
      rcases (do startup; serveLoopWith (stopAt P) n : M Unit) { w with
        st := { w.st with shutdown := false, restart := false, enabled := true }, hist := w.st :: w.hist,
        trace := w.trace ++ [Obs.serve] } with ⟨r, w1⟩
      cases r <;> exact id
    have hk := keeps_bind he (fun e => (?_ : Keeps (Timely P t) (match e with
      | none => shutDown (serveWith (stopAt P) n) n none
      | some .systemExit => shutDown (serveWith (stopAt P) n) n (some .systemExit)
      | some .exit => shutDown (serveWith (stopAt P) n) n (some .exit)
      | some .restart => shutDown (serveWith (stopAt P) n) n (some .restart)
      | some .interrupt => shutDown (serveWith (stopAt P) n) n (some .interrupt)
      | some e => do
        shutDown (serveWith (stopAt P) n) n (some e)
        raise e))) 
    · exact hk w ⟨o, ho, hst⟩
    · split <;> first
      | exact hd _
      | exact keeps_bind (hd _) (fun _ => keeps_raise _)

/-! ## The claim: cycles -/

theorem reached_iff (comps : Comps) (k : Nat) : cyclesState comps k = true ↔ Reached comps k := by
  have hc : ∀ c : Comp × Int, c.1.holds (k : Int) c.2 = true ↔ Compares c k := by
    rintro ⟨c, v⟩
    cases c <;> simp [Comp.holds, Compares]
  unfold cyclesState compState Reached
  cases comps with
  | nil => simp
  | cons c l =>
    rw [if_neg (by simp), List.all_eq_true]
    simp only [hc, reduceCtorEq, false_implies, true_and]

theorem stops_congr {P Q : Nat → Prop} {o : List Obs} (h : ∀ j, P j ↔ Q j) (hs : StopsInTime P o) : StopsInTime Q o :=
  fun pre mid post he hn j hj hq => hs pre mid post he hn j hj ((h j).2 hq)

/-- C62: with a shut condition on the number of cycles, in every session of every execution (whatever fails, with
restarts) a cycle begins only if the condition was never met before: the number is that of the session alone. -/
theorem C62_cycles (comps : Comps) (n : Nat) (w : World) :
    ∃ o, (serveWith (stopAt (cyclesState comps)) n w).2.trace = w.trace ++ o ∧ StopsInTime (Reached comps) o := by
  obtain ⟨o, ho, hs⟩ := serve_timely (cyclesState comps) w.trace n w
    ⟨[], by simp, fun pre mid post h => by simp at h⟩
  exact ⟨o, ho, stops_congr (reached_iff comps) hs⟩

theorem stops_count {k : Nat} {o : List Obs} (h : StopsInTime (fun j => k ≤ j) o) :
    ∀ (mid : List Obs) (pre post : List Obs), o = pre ++ .serve :: mid ++ post → .serve ∉ mid → mid.count .cycle ≤ k := by
  intro mid
  induction mid using List.reverseRecOn with
  | nil => intro _ _ _ _; simp
  | append_singleton mid x ih =>
    intro pre post he hs
    by_cases hx : x = .cycle
    · subst hx
      have hm : Obs.serve ∉ mid := fun h => hs (List.mem_append_left _ h)
      have := h pre mid post (by rw [he]; simp) hm (mid.count .cycle) (Nat.le_refl _)
      rw [List.count_append]
      simp only [List.count_singleton_self]
      omega
    · have := ih pre (x :: post) (by rw [he]; simp) (fun h => hs (List.mem_append_left _ h))
      rw [List.count_append, List.count_singleton]
      simp only [beq_iff_eq, hx, if_false]
      omega

/-- C62: with the shut condition `SchedulerCycles() >= k` no session has more than `k` cycles. -/
theorem C62_limit (k : Nat) (n : Nat) (w : World) :
    ∃ o, (serveWith (stopAt (cyclesState [(.ge, (k : Int))])) n w).2.trace = w.trace ++ o ∧
      ∀ pre mid post, o = pre ++ .serve :: mid ++ post → .serve ∉ mid → mid.count .cycle ≤ k := by
  obtain ⟨o, ho, hs⟩ := C62_cycles [(.ge, (k : Int))] n w
  refine ⟨o, ho, fun pre mid post => stops_count (stops_congr (fun j => ?_) hs) mid pre post⟩
  simp [Reached, Compares]

/-- C62: if startup and cycles end by themselves, either a shutdown was asked for or the number of cycles begun (none of
them in an earlier session) is the first that meets the condition. -/
theorem C62_exact (comps : Comps) (n : Nat) (w : World)
    (h : ((do startup; serveLoopWith (stopAt (cyclesState comps)) n : M Unit) w).1 = .ok ()) :
    ∃ o, ((do startup; serveLoopWith (stopAt (cyclesState comps)) n : M Unit) w).2.trace = w.trace ++ o ∧ .serve ∉ o ∧
      (((do startup; serveLoopWith (stopAt (cyclesState comps)) n : M Unit) w).2.st.shutdown = true ∨
        FirstWith (Reached comps) (o.count .cycle)) := by
  obtain ⟨⟨b, c, hc⟩, hb⟩ := body_cnt (P := cyclesState comps) (t := w.trace) (m := true) (o := []) (w := w) n (by simp)
    (fun pre mid post h => by simp at h) rfl (by simp)
  rcases hb h with hs | ⟨b, hc, hf⟩
  · obtain ⟨_, o, h1, _, _, h4⟩ := hc
    exact ⟨o, h1, h4 rfl, Or.inl hs⟩
  · obtain ⟨_, o, h1, _, h3, h4⟩ := hc
    refine ⟨o, h1, h4 rfl, Or.inr ?_⟩
    rw [sinceServe_all (h4 rfl)] at h3
    rw [h3]
    exact ⟨(reached_iff _ _).1 hf.1, fun j hj hr => hf.2 j hj ((reached_iff _ _).2 hr)⟩

/-- The shut condition of `session.run` is of this form, so C62 also bounds its cycles to one. -/
theorem C62_run (n : Nat) (w : World) :
    ∃ o, (serveWith cyclesDone n w).2.trace = w.trace ++ o ∧
      ∀ pre mid post, o = pre ++ .serve :: mid ++ post → .serve ∉ mid → mid.count .cycle ≤ 1 := by
  have h : cyclesDone = stopAt (cyclesState [(.ge, ((1 : Nat) : Int))]) := by
    funext w
    simp [cyclesDone, stopAt, cyclesState, compState, Comp.holds, bind_apply, get_apply, pure_apply]
    omega
  rw [h]
  exact C62_limit 1 n w

/-! ## The claim: the time since the startup -/

theorem absDur_eq (d : Int) : ((d.natAbs : Int)) = absDur d := by
  unfold absDur; split <;> omega

/-- C62: `scheduler_running(more_than, less_than)` holds exactly if the scheduler has been running for at least the one
and at most the other (bounds included). -/
theorem C62_running_partial (fuel : Nat) (more less : Option Int) (startup now : Int) (hs : MINT ≤ startup)
    (hn : MINT ≤ now - absDur (more.getD 0)) (hle : ∀ l, less = some l → absDur (more.getD 0) ≤ absDur l) :
    ∃ b, schedulerRunning (fuel + 1) more less (some startup) now = .ok b ∧
      (b = true ↔ RunningFor (more.map absDur) (less.map absDur) startup now) := by
  have h0 : 0 ≤ absDur (more.getD 0) := by rw [← absDur_eq]; omega
  unfold schedulerRunning schedulerStarted Period.periodSpan Period.mkSpan
  simp only [Period.rollback, absDur_eq]
  cases less with
  | none =>
    simp only [Option.map_none, Interval.make, gt_iff_lt]
    rw [if_neg (by omega)]
    refine ⟨_, rfl, ?_⟩
    simp only [Bool.and_eq_true, decide_eq_true_eq, RunningFor]
    cases more with
    | none => simp [absDur]; omega
    | some m => simp at h0 ⊢; omega
  | some l =>
    have := hle l rfl
    simp only [Option.map_some, Interval.make, gt_iff_lt]
    rw [if_neg (by omega)]
    refine ⟨_, rfl, ?_⟩
    simp only [Bool.and_eq_true, decide_eq_true_eq, RunningFor]
    cases more with
    | none => simp [absDur]; omega
    | some m => simp at h0 ⊢; omega

/-- Twenty minutes after the startup `scheduler_running("10 min", "30 min")` holds. -/
example : MINT ≤ datetime 2024 1 1 ∧ MINT ≤ (datetime 2024 1 1 + 1200000000) - absDur ((some 600000000).getD 0) ∧
    (∀ l, some (1800000000 : Int) = some l → absDur ((some 600000000 : Option Int).getD 0) ≤ absDur l) ∧
    RunningFor ((some 600000000).map absDur) ((some 1800000000).map absDur) (datetime 2024 1 1) (datetime 2024 1 1 + 1200000000) := by
  refine ⟨by decide, by decide, fun l h => ?_, ?_⟩
  · cases h; decide
  · simp [RunningFor, absDur]; omega

/-- Violated: with `more_than` over `less_than` the condition is not false but raises a `ValueError`, whatever the
time. -/
theorem C62_running_violated (fuel : Nat) (m l startup now : Int) (h : absDur l < absDur m) :
    schedulerRunning (fuel + 1) (some m) (some l) (some startup) now = .error .value ∧
      ¬ RunningFor (some (absDur m)) (some (absDur l)) startup now := by
  constructor
  · unfold schedulerRunning schedulerStarted Period.periodSpan Period.mkSpan
    simp only [Period.rollback, absDur_eq, Option.getD_some, Option.map_some, Interval.make]
    rw [if_pos (by omega)]
  · intro ⟨h1, h2, _⟩
    have := h1 _ rfl
    have := h2 _ rfl
    omega

example : absDur 60 < absDur 120 := by decide

/-- The built-in conditions observed at a time; the scheduler counts `k` cycles. -/
def schedLeaf (fuel : Nat) (startup : Int) (k : Nat) (now : Int) (b : Builtin) : Cond.Obs Unit :=
  fun s => ((b.schedObs fuel (some startup) k now).getD (.error .attribute), s)

/-- C62: the phrases about the scheduler say what they are read as (C60), if the clock was not set back behind the
startup. -/
theorem C62_phrase_partial (fuel : Nat) (val : Scope → Txt → AVal) (ph : Phrase) (dt : Option Txt) (d : Int)
    (hp : schedPhrase ph = some dt) (hd : ∀ x, dt = some x → span x = .ok d) (startup now : Int) (k : Nat)
    (hc : startup ≤ now) :
    ∃ c b, ph.meaning val = .ok c ∧ Cond.observe (schedLeaf (fuel + 1) startup k now) c () = (.ok b, ()) ∧
      (b = true ↔ SchedSays d startup now k ph) := by
  have hpos : ∀ x, span x = .ok d → 0 ≤ d := by
    intro x hx
    unfold span at hx
    cases hsd : stringToTimedelta x with
    | error e => rw [hsd] at hx; cases hx
    | ok us =>
      rw [hsd] at hx
      simp only [Except.map, Except.ok.injEq] at hx
      split at hx <;> omega
  have hst : 0 ≤ d → schedLeaf (fuel + 1) startup k now (.schedStarted d) () =
      (.ok (decide (now - d ≤ startup) && decide (startup ≤ now)), ()) := by
    intro h0
    have ha : ((d.natAbs : Int).natAbs : Int) = d := by omega
    unfold schedLeaf Builtin.schedObs schedulerStarted Period.periodSpan Period.mkDelta
    simp only [Period.rollback, Option.getD_some, Interval.make, ha]
    rw [if_neg (by omega)]
  cases ph <;> simp only [schedPhrase, reduceCtorEq, Option.some.injEq] at hp
  case schedOver x =>
    have hx := hd x hp.symm
    have h0 := hpos x hx
    refine ⟨_, _, by simp [Phrase.meaning, hx, Except.map]; rfl, by simp only [Cond.observe, hst h0]; rfl, ?_⟩
    simp [SchedSays]; omega
  case schedAgo x =>
    have hx := hd x hp.symm
    have h0 := hpos x hx
    refine ⟨_, _, by simp [Phrase.meaning, hx, Except.map]; rfl, by simp only [Cond.observe, hst h0]; rfl, ?_⟩
    simp [SchedSays]; omega
  all_goals
    refine ⟨_, _, rfl, rfl, ?_⟩
    simp only [SchedSays, cyclesState, compState, Comp.holds, List.isEmpty_cons, Bool.false_eq_true, if_false, List.all_cons,
      List.all_nil, Bool.and_true, decide_eq_true_eq]
    omega

example : schedPhrase (.schedOver c!"10 minutes") = some (some c!"10 minutes") ∧ span c!"10 minutes" = .ok 600000000 ∧
    SchedSays 600000000 0 700000000 3 (.schedOver c!"10 minutes") ∧ ¬ SchedSays 600000000 0 500000000 3 (.schedOver c!"10 minutes") := by
  refine ⟨rfl, by decide +kernel, ?_, ?_⟩ <;> simp [SchedSays]

/-- Violated: if the clock was set back behind the startup, "scheduler has run over …" holds for every duration. -/
theorem C62_clock_violated (fuel : Nat) (val : Scope → Txt → AVal) (x : Txt) (d : Int) (hd : span x = .ok d)
    (startup now : Int) (k : Nat) (hc : now < startup) :
    ∃ c, (Phrase.schedOver x).meaning val = .ok c ∧
      Cond.observe (schedLeaf (fuel + 1) startup k now) c () = (.ok true, ()) ∧
      (0 ≤ d → ¬ SchedSays d startup now k (.schedOver x)) := by
  refine ⟨_, by simp [Phrase.meaning, hd, Except.map]; rfl, ?_, fun h0 => by simp only [SchedSays]; omega⟩
  simp only [Cond.observe, schedLeaf, Builtin.schedObs, schedulerStarted, Period.periodSpan, Period.mkDelta, Period.rollback,
    Option.getD_some, Interval.make]
  rw [if_neg (by omega)]
  simp only [Prod.mk.injEq, Except.ok.injEq, and_true, Bool.not_eq_true', Bool.and_eq_false_iff,
    decide_eq_false_iff_not]
  omega

example : span c!"10 minutes" = .ok 600000000 := by decide +kernel

/-- A session with the shut condition `SchedulerCycles() >= 2` that ends by itself after two cycles; the scheduler
starts again and has two more. -/
example : let stop := stopAt (cyclesState [(.ge, 2)])
    let w := World.init twoProcesses (envOf [])
    ((do startup; serveLoopWith stop 4 : M Unit) w).1 = .ok () ∧
      ((do startup; serveLoopWith stop 4 : M Unit) w).2.st.shutdown = false ∧
      ((do startup; serveLoopWith stop 4 : M Unit) w).2.trace.count .cycle = 2 ∧
      (serveWith stop 5 (serveWith stop 5 w).2).2.trace.count .cycle = 4 := by
  decide +kernel

end Rocketry.Props
