import Verif.Spec.RemovedSpec
import Verif.Sched.Trace
import Verif.Props.RunOnlyProps
import Verif.Props.PhaseProps
import Verif.Props.ShutdownProps

/-!
# C99: a task that was removed from the session is not started in later rounds
-/

namespace Rocketry.Props
open Rocketry.Sched Rocketry.Spec

variable {n : String}

theorem standing_snoc (n : String) (l : List Obs) (o : Obs) : standing n (l ++ [o]) = (standing n l).step n o := by
  unfold standing; rw [List.foldl_append]; rfl

theorem leftAlone_snoc {l : List Obs} {o : Obs} (h : LeftAlone n l) (ho : standing n l = .gone → ¬ Begins n o) :
    LeftAlone n (l ++ [o]) := by
  intro pre a suf e hg
  rcases List.eq_nil_or_concat suf with rfl | ⟨suf', b, rfl⟩
  · have := List.append_inj' e rfl
    obtain ⟨rfl, e2⟩ := this
    cases e2
    exact ho hg
  · rw [List.concat_eq_append, ← List.cons_append, ← List.append_assoc] at e
    obtain ⟨e1, _⟩ := List.append_inj' e rfl
    exact h pre a suf' e1 hg

/-- No task called `n` is in the session. -/
def Away (n : String) (s : Sys) : Prop := ∀ t ∈ s.tasks, t.member = true → t.name ≠ n

theorem out_upd {s : Sys} {m : String} {f : TaskSt → TaskSt} (h : Away n s) (hf : ∀ t, (f t).name = t.name)
    (hm : ∀ t, (f t).member = true → t.member = true) : Away n (s.upd m f) := by
  intro t ht hk
  rcases mem_upd ht with ⟨ht, _⟩ | ⟨u, hu, _, rfl⟩
  · exact h t ht hk
  · rw [hf]; exact h u hu (hm u hk)

theorem out_remove (s : Sys) (n : String) : Away n (s.event (.remove n)) := by
  intro t ht hk
  rcases mem_upd ht with ⟨_, hn⟩ | ⟨u, hu, _, rfl⟩
  · exact hn
  · simp at hk

theorem out_event {s : Sys} (h : Away n s) {e : EnvEv} (he : ∀ t, e = .add t → t.name ≠ n) : Away n (s.event e) := by
  cases e with
  | ends m id exc => exact out_upd h (fun _ => rfl) (fun _ h => h)
  | request m b => exact out_upd h (fun _ => rfl) (fun _ h => h)
  | terminate m => exact out_upd h (fun _ => rfl) (fun _ h => h)
  | disable m b => exact out_upd h (fun _ => rfl) (fun _ h => h)
  | hold b => exact h
  | shutDown f => exact h
  | restart => exact h
  | add t =>
    simp only [Sys.event]
    split
    · exact h
    · intro u hu hk
      rcases List.mem_cons.1 hu with rfl | hu
      · exact he t rfl
      · exact h u hu hk
  | remove m => exact out_upd h (fun _ => rfl) (fun _ h => by simp at h)
  | reorder l =>
    simp only [Sys.event]
    split
    · rename_i hl
      exact fun u hu => h u ((List.isPerm_iff.1 hl).mem_iff.1 hu)
    · exact h

theorem out_tidy {s s' : Sys} (h : Away n s) (ht : Tidy s s') : Away n s' := by
  cases ht with
  | clean m cfg => exact out_upd h (clean_name cfg) (fun t ht => by rw [clean_member] at ht; exact ht)
  | finish m id exc => exact out_upd h (fun _ => rfl) (fun _ h => h)
  | reset m cfg =>
    exact out_upd h (fun t => clean_name cfg t) (fun t ht => by
      have : (t.clean cfg).member = true := ht
      rw [clean_member] at this; exact this)
  | erase m r => exact out_upd h (fun _ => rfl) (fun _ h => h)
  | cycles k => exact h

/-- The invariant while the tasks of the list `l` are gone through. -/
structure Going (n : String) (l : List String) (w : World) : Prop where
  left : LeftAlone n w.trace
  out : standing n w.trace ≠ .present → Away n w.st
  list : standing n w.trace = .gone → n ∉ l

theorem going_begin {w : World} (h : Going n [] w) : Going n (w.st.sorted.map TaskSt.name) w := by
  refine ⟨h.left, h.out, fun hg hm => ?_⟩
  obtain ⟨t, ht, hn⟩ := List.mem_map.1 hm
  obtain ⟨h1, h2⟩ := sorted_mem ht
  exact h.out (by rw [hg]; simp) t h1 h2 hn

theorem going_end {l : List String} {w : World} (h : Going n l w) : Going n [] w := ⟨h.left, h.out, fun _ => by simp⟩

/-- An observation that neither begins a run nor matters for how the task stands. -/
theorem going_note {l : List String} {w : World} {o : Obs} {s : Sys} {hist : List Sys} (h : Going n l w)
    (hb : standing n w.trace = .gone → ¬ Begins n o) (hs : ∀ p : Standing, p.step n o = p)
    (ho : standing n w.trace ≠ .present → Away n s) :
    Going n l { w with st := s, hist := hist, trace := w.trace ++ [o] } := by
  refine ⟨leftAlone_snoc h.left hb, ?_, ?_⟩
  · show standing n (w.trace ++ [o]) ≠ .present → _
    rw [standing_snoc, hs]; exact ho
  · show standing n (w.trace ++ [o]) = .gone → _
    rw [standing_snoc, hs]; exact h.list

theorem going_happen {l : List String} {w : World} (h : Going n l w) (e : EnvEv) : Going n l (w.happen e) := by
  by_cases ha : ∃ t, e = .add t ∧ t.name = n
  · obtain ⟨t, rfl, ht⟩ := ha
    have hp : standing n (w.trace ++ [.env (.add t)]) = .present := by
      rw [standing_snoc]
      simp [Standing.step, ht]
    refine ⟨leftAlone_snoc h.left (fun _ => id), fun hc => absurd hp hc, fun hc => ?_⟩
    have : standing n (w.trace ++ [.env (.add t)]) = .gone := hc
    rw [hp] at this
    simp at this
  · have ha : ∀ t, e = .add t → t.name ≠ n := fun t he hn => ha ⟨t, he, hn⟩
    by_cases hr : e = .remove n
    · subst hr
      refine ⟨leftAlone_snoc h.left (fun _ => id), fun _ => out_remove w.st n, fun hc => h.list ?_⟩
      have hc : standing n (w.trace ++ [.env (.remove n)]) = .gone := hc
      rw [standing_snoc] at hc
      generalize standing n w.trace = p at hc ⊢
      cases p <;> simp [Standing.step] at hc ⊢
    · refine going_note (o := .env e) h (fun _ => id) (fun p => ?_) (fun hp => out_event (h.out hp) ha)
      cases e with
      | remove m =>
        have : m ≠ n := fun hm => hr (by rw [hm])
        simp [Standing.step, this]
      | add t => simp [Standing.step, ha t rfl]
      | _ => rfl

theorem plain_step {o : Obs} (h : o.plain = true) (p : Standing) : p.step n o = p := by
  cases o <;> first | rfl | simp [Obs.plain] at h

theorem plain_begins {o : Obs} (h : o.plain = true) : ¬ Begins n o := by
  cases o <;> first | exact id | simp [Obs.plain] at h

theorem calm_going {l : List String} : Calm (Going n l) where
  pos := fun _ _ h => ⟨h.left, h.out, h.list⟩
  env := fun w _ e h _ => going_happen h e
  request := fun w m _ h => going_happen h _
  note := fun w o ho h => going_note (s := w.st) (hist := w.hist) h (fun _ => plain_begins ho) (plain_step ho) h.out
  move := fun w s ht h => ⟨h.left, fun hp => out_tidy (h.out hp) ht, h.list⟩

theorem going_mark {w : World} {o : Obs} (ho : o.mark = true) (h : Going n [] w) : Going n [] (w.observe o) := by
  refine ⟨leftAlone_snoc h.left (fun _ => ?_), fun hp => h.out (fun hc => hp ?_), fun _ => by simp⟩
  · cases o <;> first | exact id | simp [Obs.mark] at ho
  · show standing n (w.trace ++ [o]) = .present
    rw [standing_snoc, hc]
    cases o <;> first | rfl | simp [Obs.mark] at ho

theorem going_launch {l : List String} {m : String} (hm : m ∈ l) (part : Part) : Keeps (Going n l) (launch m part) := by
  have key : ∀ w, Going n l w → standing n w.trace = .gone → m ≠ n := fun w h hg he => h.list hg (he ▸ hm)
  refine launch_rule' (I0 := Going n l) (I1 := Going n l) calm_going.toStill.base calm_going.toStill.base m part
    (fun _ h => h) ?_ ?_ ?_
  · exact fun w b h => going_note h (fun hg => key w h hg) (fun _ => rfl) (fun hp => out_upd (h.out hp) (fun _ => rfl) (fun _ h => h))
  · exact fun w kind time h => going_note h (fun hg => key w h hg) (fun _ => rfl)
      (fun hp => out_upd (h.out hp) (fun _ => rfl) (fun _ h => h))
  · exact fun w b h => ⟨h.left, fun hp => out_upd (h.out hp) (fun _ => rfl) (fun _ h => h), h.list⟩

/-! ## The parts of an execution -/

theorem going_runCycle : Keeps (Going n []) runCycle := by
  intro w hw
  unfold runCycle
  rw [get_bind_apply]
  have h1 : Going n (w.st.sorted.map TaskSt.name) (w.observe .cycle) := going_begin (going_mark rfl hw)
  refine going_end (l := w.st.sorted.map TaskSt.name) ?_
  generalize w.st.sorted.map TaskSt.name = l at h1 ⊢
  have hc : Calm (Going n l) := calm_going
  have hk : Keeps (Going n l) (do
      forEach l inspectTask
      handleLogs
      checkThreadErrors
      setCycles (fun k => k + 1)
      emit .cycleDone) := by
    refine keeps_bind (keeps_forEach (fun m hm => keeps_inspectTask' hc.toStill.base ?_)) (fun _ => ?_)
    · unfold consider
      refine keeps_bind keeps_get (fun s => ?_)
      split
      · exact keeps_pure _
      · exact keeps_ite (fun _ => keeps_pure _) (fun _ => keeps_ite (fun _ => going_launch hm _) (fun _ => keeps_pure _))
    · refine keeps_bind (keeps_handleLogs hc.toStill.base) (fun _ => keeps_bind (keeps_checkThreadErrors hc.toStill.base) (fun _ => ?_))
      exact keeps_bind (keeps_setCycles hc.toStill _) (fun _ => keeps_note hc.toStill rfl)
  exact hk _ h1

theorem going_startup : Keeps (Going n []) startup := by
  unfold startup
  refine keeps_bind (keeps_setCycles calm_going.toStill _) (fun _ => keeps_get_bind (fun w hw => ?_))
  refine going_end (l := w.st.sorted.map TaskSt.name) ?_
  have hk : Keeps (Going n (w.st.sorted.map TaskSt.name)) (forEach w.st.sorted startupTask) :=
    keeps_forEach (fun t ht => keeps_startupTask calm_going t (going_launch (List.mem_map_of_mem ht) _))
  exact hk _ (going_begin hw)

theorem going_runShutdownTasks : Keeps (Going n []) runShutdownTasks := by
  unfold runShutdownTasks
  refine keeps_get_bind (fun w hw => ?_)
  refine going_end (l := w.st.sorted.map TaskSt.name) ?_
  have hk : Keeps (Going n (w.st.sorted.map TaskSt.name))
      (forEach w.st.sorted (fun t => if t.onShutdown then startSpecial .shutdown t else pure ())) :=
    keeps_forEach (fun t ht => keeps_ite
      (fun _ => keeps_startSpecial calm_going _ t (going_launch (List.mem_map_of_mem ht) _)) (fun _ => keeps_pure _))
  exact hk _ (going_begin hw)

theorem going_shutDown {again : M Unit} (ha : Keeps (Going n []) again) (k : Nat) (e : Option Exc) :
    Keeps (Going n []) (shutDown again k e) := by
  have hb : Base (Going n []) := calm_going.toStill.base
  unfold shutDown
  refine keeps_bind (fun w hw => going_mark rfl hw) (fun _ => keeps_bind ?_ (fun _ => ?_))
  · refine keeps_tryFinally (keeps_tryFinally going_runShutdownTasks (keeps_shutDownTasks hb k e)) ?_
    exact keeps_bind (keeps_waitAlive hb k) (fun _ => keeps_bind (keeps_handleLogs hb) (fun _ => keeps_checkThreadErrors hb))
  · exact keeps_ite (fun _ => keeps_bind keeps_get
      (fun s => keeps_ite (fun _ => ha) (fun _ => keeps_remark hb rfl (by simp)))) (fun _ => keeps_pure _)

theorem going_serveLoop : ∀ k, Keeps (Going n []) (serveLoop k)
  | 0 => keeps_cut
  | k + 1 => by
    have hb : Base (Going n []) := calm_going.toStill.base
    unfold serveLoop
    refine keeps_bind (keeps_checkShutCond hb) (fun b => keeps_ite (fun _ => keeps_pure _) (fun _ => ?_))
    refine keeps_bind (keeps_hibernate hb) (fun _ => keeps_bind keeps_get (fun s => ?_))
    refine keeps_ite (fun _ => keeps_pure _) (fun _ => keeps_ite (fun _ => keeps_raise _) (fun _ => ?_))
    exact keeps_bind going_runCycle (fun _ => going_serveLoop k)

theorem going_serve : ∀ k, Keeps (Going n []) (serve k)
  | 0 => keeps_cut
  | k + 1 => by
    have hd := fun e => going_shutDown (n := n) (going_serve k) k e
    unfold serve
    refine keeps_bind (fun w hw => going_mark rfl hw) (fun _ => keeps_bind (fun w hw => ⟨hw.left, hw.out, hw.list⟩) (fun _ => ?_))
    refine keeps_bind (keeps_attempt (keeps_bind going_startup (fun _ => going_serveLoop k))) (fun e => ?_)
    split <;> first
      | exact hd _
      | exact keeps_bind (hd _) (fun _ => keeps_raise _)

/-- C99: whatever happens, once a task was removed from the session and the round of the scheduler in which that happened
is over, none of its runs is started and none of its requests is taken, in no later round, startup or shutdown (of this
or a later call of `serve`), unless a task of that name is added again. -/
theorem C99_removed (ks : List Nat) (s : Sys) (env : Nat → Choice) (n : String) :
    LeftAlone n (sessions ks (World.init s env)).2.trace := by
  have h0 : Going n [] (World.init s env) :=
    ⟨fun pre o suf e => by simp [World.init] at e, fun hp => absurd rfl hp, fun _ => by simp⟩
  exact (keeps_forEach (fun k _ => keeps_bind (keeps_attempt (going_serve k)) (fun _ => keeps_pure _)) _ h0).left

/-! ## Cases -/

/-- `b` is removed while the scheduler looks at it; its run ends and it is requested again later. -/
def removeB : List Choice :=
  startA ++ [quiet false, ⟨[.remove "b"], some false, none, 0⟩, quiet true, quiet false, quiet false, quiet false,
    quiet false, ⟨[.ends "b" 1 false, .request "b" []], some false, none, 0⟩]

/-- Two tasks that run as processes, with room for both. -/
def roomy : Sys := sessionOf 5 false [idleTask "a" .process, idleTask "b" .process]

/-- The round in which it was removed may still start it; none of the later ones does, although it was requested. -/
example : let l := (sessions [4] (World.init roomy (envOf removeB))).2.trace
    standing "b" l = .gone ∧ Obs.env (.request "b" []) ∈ l ∧
      l.filter (fun o => match o with | .started .. => true | .cycle => true | .env (.remove _) => true | _ => false) =
        [.cycle, .started "a" 0 .cycle, .env (.remove "b"), .started "b" 1 .cycle, .cycle, .cycle] ∧
      (standing "b" (l.takeWhile (fun o => decide (o ≠ .started "b" 1 .cycle)))) = .leaving := by
  decide +kernel

/-- The same execution without the removal: the request is carried out. -/
example : let l := (sessions [4] (World.init roomy (envOf (removeB.map (fun c => { c with events := c.events.filter (fun e => decide (e ≠ .remove "b")) }))))).2.trace
    Obs.popped "b" [] ∈ l := by
  decide +kernel

end Rocketry.Props
