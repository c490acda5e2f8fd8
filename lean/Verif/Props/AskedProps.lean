import Verif.Spec.AskedSpec
import Verif.Props.TerminateProps
import Verif.Props.ServedProps

/-!
# C121: `task.terminate()` ends the runs that go on, and nothing else
-/

namespace Rocketry.Props
open Rocketry.Sched Rocketry.Spec

variable {n : String} {id : Nat} {pre : List Obs}

/-! ## Until the check of the task -/

/-- Since `pre` was observed the run is over, or it still goes on and termination is asked for. -/
structure Doomed (n : String) (id : Nat) (pre : List Obs) (w : World) : Prop where
  names : (w.st.tasks.map TaskSt.name).Nodup
  below : id < w.st.nextId
  fate : ∃ l, w.trace = pre ++ l ∧ (EndedIn n id l ∨
    ∃ t, w.st.find n = some t ∧ t.forceTerm = true ∧ ∃ r ∈ t.stack, r.id = id ∧ r.alive = true ∧ r.kind ≠ .main)

/-- A change of the task that neither ends the run nor forgets that termination is asked for. -/
structure LeavesRun (id : Nat) (t t' : TaskSt) : Prop where
  name : t'.name = t.name
  asked : t.forceTerm = true → t'.forceTerm = true
  run : ∀ r ∈ t.stack, r.id = id → r.alive = true → r.kind ≠ .main → r ∈ t'.stack

theorem doomed_same {w w' : World} (h : Doomed n id pre w) (ht : w'.st.tasks = w.st.tasks) (hi : w'.st.nextId = w.st.nextId)
    {o : List Obs} (ho : w'.trace = w.trace ++ o) : Doomed n id pre w' := by
  obtain ⟨l, hl, hf⟩ := h.fate
  refine ⟨by rw [ht]; exact h.names, by rw [hi]; exact h.below, l ++ o, by rw [ho, hl, List.append_assoc], ?_⟩
  rcases hf with hf | ⟨t, h1, h2⟩
  · exact Or.inl (hf.mono (fun _ => List.mem_append_left _))
  · refine Or.inr ⟨t, ?_, h2⟩
    unfold Sys.find at h1 ⊢; rw [ht]; exact h1

theorem doomed_upd {w w' : World} (h : Doomed n id pre w) (m : String) (g : TaskSt → TaskSt)
    (ht : w'.st.tasks = (w.st.upd m g).tasks) (hi : w.st.nextId ≤ w'.st.nextId) {o : List Obs} (ho : w'.trace = w.trace ++ o)
    (hn : ∀ t, (g t).name = t.name) (hg : m = n → ∀ t, LeavesRun id t (g t)) : Doomed n id pre w' := by
  obtain ⟨l, hl, hf⟩ := h.fate
  refine ⟨by rw [ht]; exact upd_nodup h.names hn, Nat.lt_of_lt_of_le h.below hi, l ++ o,
    by rw [ho, hl, List.append_assoc], ?_⟩
  have e : ∀ k, w'.st.find k = (w.st.upd m g).find k := fun k => by unfold Sys.find; rw [ht]
  rcases hf with hf | ⟨t, h1, h2, r, h3, h4, h5, h6⟩
  · exact Or.inl (hf.mono (fun _ => List.mem_append_left _))
  · rw [e]
    by_cases hm : m = n
    · subst hm
      exact Or.inr ⟨g t, find_upd_eq h.names hn h1, (hg rfl t).asked h2, r, (hg rfl t).run r h3 h4 h5 h6, h4, h5, h6⟩
    · exact Or.inr ⟨t, find_upd_ne h.names (fun e => hm e.symm) hn h1, h2, r, h3, h4, h5, h6⟩

theorem leavesRun_endRun {i : Nat} (hi : i ≠ id) (exc : Bool) (t : TaskSt) : LeavesRun id t { t with stack := endRun i exc t.stack } where
  name := rfl
  asked := fun h => h
  run := fun r hr h1 _ _ => by
    refine List.mem_map.2 ⟨r, hr, if_neg (fun h => hi ?_)⟩
    rw [← h.1, h1]

theorem leavesRun_clean (id : Nat) (cfg : Config) (t : TaskSt) : LeavesRun id t (t.clean cfg) := by
  unfold TaskSt.clean
  split <;> exact ⟨rfl, fun h => h, fun r hr _ ha _ => List.mem_filter.2 ⟨hr, by simp [ha]⟩⟩

theorem doomed_event {w : World} (h : Doomed n id pre w) (e : EnvEv) : Doomed n id pre (w.happen e) := by
  have plain : ∀ (m : String) (g : TaskSt → TaskSt), (w.happen e).st = w.st.upd m g → (∀ t, LeavesRun id t (g t)) →
      Doomed n id pre (w.happen e) := fun m g hst hg =>
    doomed_upd h m g (by rw [hst]) (by rw [hst]; exact Nat.le_refl _) (o := [.env e]) rfl (fun t => (hg t).name) (fun _ => hg)
  cases e with
  | ends m i exc =>
    by_cases hc : m = n ∧ i = id
    · obtain ⟨rfl, rfl⟩ := hc
      obtain ⟨l, hl, _⟩ := h.fate
      refine ⟨upd_nodup h.names (fun _ => rfl), h.below, l ++ [.env (.ends m i exc)], ?_, Or.inl (Or.inl ⟨exc, by simp⟩)⟩
      show w.trace ++ _ = _
      rw [hl, List.append_assoc]
    · refine doomed_upd h m _ (o := [.env (.ends m i exc)]) rfl (Nat.le_refl _) rfl (fun _ => rfl) (fun hm t => ?_)
      have hk := leavesRun_endRun (id := id) (fun hi => hc ⟨hm, hi⟩) exc t
      exact ⟨rfl, hk.asked, hk.run⟩
  | request m b => exact plain m _ rfl (fun t => ⟨rfl, fun h => h, fun r hr _ _ _ => hr⟩)
  | terminate m => exact plain m _ rfl (fun t => ⟨rfl, fun _ => rfl, fun r hr _ _ _ => hr⟩)
  | disable m b => exact plain m _ rfl (fun t => ⟨rfl, fun h => h, fun r hr _ _ _ => hr⟩)
  | remove m => exact plain m _ rfl (fun t => ⟨rfl, fun h => h, fun r hr _ _ _ => hr⟩)
  | hold b => exact doomed_same h rfl rfl (o := [.env (.hold b)]) rfl
  | shutDown f => exact doomed_same h rfl rfl (o := [.env (.shutDown f)]) rfl
  | restart => exact doomed_same h rfl rfl (o := [.env .restart]) rfl
  | add u =>
    by_cases hu : u.name ∈ w.st.tasks.map TaskSt.name
    · refine doomed_same h ?_ ?_ (o := [.env (.add u)]) rfl <;> simp only [World.happen, Sys.event] <;> rw [if_pos hu]
    · have hd := (shift_event w.st (.add u)).nodup h.names
      obtain ⟨l, hl, hf⟩ := h.fate
      refine ⟨hd, ?_, l ++ [.env (.add u)], ?_, ?_⟩
      · simp only [World.happen, Sys.event]; rw [if_neg hu]; exact h.below
      · show w.trace ++ _ = _
        rw [hl, List.append_assoc]
      · rcases hf with hf | ⟨t, h1, h2⟩
        · exact Or.inl (hf.mono (fun _ => List.mem_append_left _))
        · refine Or.inr ⟨t, ?_, h2⟩
          show (w.st.event (.add u)).find n = some t
          rw [find_iff hd]
          obtain ⟨h3, h4⟩ := (find_iff h.names).1 h1
          refine ⟨?_, h4⟩
          simp only [Sys.event]; rw [if_neg hu]; exact List.mem_cons_of_mem _ h3
  | reorder k =>
    have hd := (shift_event w.st (.reorder k)).nodup h.names
    obtain ⟨l, hl, hf⟩ := h.fate
    refine ⟨hd, ?_, l ++ [.env (.reorder k)], ?_, ?_⟩
    · simp only [World.happen, Sys.event]; split <;> exact h.below
    · show w.trace ++ _ = _
      rw [hl, List.append_assoc]
    · rcases hf with hf | ⟨t, h1, h2⟩
      · exact Or.inl (hf.mono (fun _ => List.mem_append_left _))
      · refine Or.inr ⟨t, ?_, h2⟩
        show (w.st.event (.reorder k)).find n = some t
        rw [find_iff hd]
        obtain ⟨h3, h4⟩ := (find_iff h.names).1 h1
        refine ⟨?_, h4⟩
        simp only [Sys.event]
        by_cases hk : k.isPerm w.st.tasks = true
        · rw [if_pos hk]; exact (List.isPerm_iff.1 hk).mem_iff.2 h3
        · rw [if_neg hk]; exact h3

theorem doomed_choose : Keeps (Doomed n id pre) choose := fun w hw => by
  have h0 : Doomed n id pre { w with pos := w.pos + 1 } := doomed_same hw rfl rfl (o := []) (List.append_nil _).symm
  exact foldl_happen (I := Doomed n id pre) (fun _ e h => doomed_event h e) _ _ h0

theorem doomed_emit (o : Obs) : Keeps (Doomed n id pre) (emit o) := fun _ hw => doomed_same hw rfl rfl rfl

theorem doomed_change {m : String} {g : TaskSt → TaskSt} (hn : ∀ t, (g t).name = t.name) (hg : m = n → ∀ t, LeavesRun id t (g t)) :
    Keeps (Doomed n id pre) (change m g) := fun _ hw =>
  doomed_upd hw m g rfl (Nat.le_refl _) (o := []) (List.append_nil _).symm hn hg

theorem doomed_handleLogs : Keeps (Doomed n id pre) handleLogs := by
  unfold handleLogs
  refine keeps_bind doomed_choose (fun c => keeps_bind keeps_get (fun s => ?_))
  split
  · exact keeps_ite (fun _ => keeps_pure _) (fun _ => keeps_raise _)
  · exact keeps_raise _
  · exact keeps_pure _

theorem doomed_clean (m : String) : Keeps (Doomed n id pre) (cleanRunStack m) := fun w hw =>
  doomed_upd hw m (TaskSt.clean w.st.cfg) rfl (Nat.le_refl _) (o := []) (List.append_nil _).symm (fun t => clean_name _ t)
    (fun _ t => leavesRun_clean id _ t)

theorem doomed_runnable (m : String) : Keeps (Doomed n id pre) (isTaskRunnable m) := by
  unfold isTaskRunnable
  refine keeps_bind keeps_get (fun s => ?_)
  split
  · exact keeps_raise _
  · refine keeps_ite (fun _ => keeps_pure _) (fun _ => keeps_ite (fun _ => keeps_pure _) (fun _ => ?_))
    unfold checkTaskCond isRunnable
    refine keeps_tryCatch ?_ (fun e => keeps_bind keeps_get (fun s => keeps_ite (fun _ => keeps_pure _) (fun _ => keeps_raise _)))
    refine keeps_ite (fun _ => keeps_bind (doomed_emit _) (fun _ => keeps_pure _)) (fun _ => keeps_ite (fun _ => keeps_pure _) (fun _ => ?_))
    refine keeps_bind doomed_choose (fun c => keeps_bind (doomed_emit _) (fun _ => ?_))
    split
    · exact keeps_pure _
    · exact keeps_raise _

theorem doomed_drop (m : String) (b : Bool) : Keeps (Doomed n id pre) (dropMain m b) :=
  doomed_change (fun _ => rfl) (fun _ t => ⟨rfl, fun h => h, fun r hr _ _ hk => List.mem_filter.2 ⟨hr, by simpa using hk⟩⟩)

theorem doomed_runOn (m : String) {i : Nat} (hi : i ≠ id) (kind : Exec) (f : Option Fault) :
    Keeps (Doomed n id pre) (runOn m i kind f) := by
  have hend : ∀ exc, Keeps (Doomed n id pre) (change m (fun t => { t with stack := endRun i exc t.stack })) := fun exc =>
    doomed_change (fun _ => rfl) (fun _ t => leavesRun_endRun hi exc t)
  unfold runOn
  cases kind with
  | main =>
    refine keeps_ite (fun _ => keeps_bind (doomed_drop _ _) (fun _ => keeps_raise _)) (fun _ => ?_)
    refine keeps_bind doomed_choose (fun c => keeps_bind (doomed_emit _) (fun _ => keeps_bind (doomed_drop _ _) (fun _ w hw => ?_)))
    rw [mainEnd_apply]; exact hw
  | async => exact keeps_ite (fun _ => keeps_raise _) (fun _ => keeps_pure _)
  | thread => exact keeps_ite (fun _ => hend _) (fun _ => keeps_pure _)
  | process =>
    exact keeps_ite (fun _ => keeps_bind (hend _) (fun _ => keeps_raise _))
      (fun _ => keeps_ite (fun _ => keeps_raise _) (fun _ => keeps_pure _))

theorem doomed_launch (m : String) (part : Part) : Keeps (Doomed n id pre) (launch m part) := by
  unfold launch
  refine keeps_bind (doomed_runnable m) (fun b => keeps_ite (fun _ => ?_) (fun _ => keeps_pure _))
  unfold runTask
  refine keeps_tryCatch ?_ (fun e => keeps_bind keeps_get (fun s => ?_))
  · unfold startAsync
    refine keeps_bind doomed_choose (fun c => keeps_bind keeps_get (fun s => ?_))
    split
    · exact keeps_raise _
    · rename_i t _
      refine keeps_ite (fun _ => keeps_bind (doomed_emit _) (fun _ => keeps_raise _)) (fun _ => keeps_bind ?_ (fun _ => ?_))
      · unfold popBatch
        split
        · exact keeps_pure _
        · exact keeps_bind (doomed_change (fun _ => rfl) (fun _ t => ⟨rfl, fun h => h, fun r hr _ _ _ => hr⟩)) (fun _ => doomed_emit _)
      · refine keeps_ite (fun _ => keeps_bind (doomed_emit _) (fun _ => keeps_raise _)) (fun _ w hw => ?_)
        have hp : Doomed n id pre (pushRun m t.execution c.time part w).2 :=
          doomed_upd hw m (fun u => { u with stack := u.stack ++ [⟨w.st.nextId, t.execution, c.time, true, false⟩] }) rfl (Nat.le_succ _)
            (o := [.started m w.st.nextId part]) rfl (fun _ => rfl)
            (fun _ u => ⟨rfl, fun h => h, fun r hr _ _ _ => List.mem_append_left _ hr⟩)
        exact doomed_runOn m (Nat.ne_of_gt hw.below) t.execution c.fault _ hp
  · split
    · exact keeps_ite (fun _ => keeps_pure _) (fun _ => keeps_raise _)
    · exact keeps_ite (fun _ => keeps_pure _) (fun _ => keeps_raise _)
    · exact keeps_raise _

/-- The terminations of another task. -/
theorem doomed_terminateRun {m : String} (hm : m ≠ n) (i : Nat) : Keeps (Doomed n id pre) (terminateRun m i) := by
  unfold terminateRun
  refine keeps_bind keeps_get (fun s => ?_)
  split
  · exact keeps_pure _
  · split
    · exact keeps_pure _
    · rename_i r _
      split
      · exact keeps_raise _
      · exact doomed_emit _
      · refine keeps_bind (doomed_emit _) (fun _ => keeps_bind doomed_choose (fun c =>
          keeps_bind (doomed_change (fun _ => rfl) (fun e => absurd e hm)) (fun _ => ?_)))
        split
        · exact keeps_raise _
        · exact keeps_ite (fun _ => keeps_raise _) (fun _ => keeps_pure _)
        · exact keeps_pure _

theorem doomed_checkOther {m : String} (hm : m ≠ n) : Keeps (Doomed n id pre) (checkTermination m) := by
  have hall : Keeps (Doomed n id pre) (terminateAll m) := by
    unfold terminateAll
    refine keeps_bind keeps_get (fun s => ?_)
    split
    · exact keeps_pure _
    · exact keeps_bind (keeps_forEach (fun _ _ => doomed_terminateRun hm _))
        (fun _ => doomed_change (fun t => clean_name _ t) (fun e => absurd e hm))
  have hold : ∀ now limit i, Keeps (Doomed n id pre) (terminateOld m now limit i) := fun now limit i => by
    unfold terminateOld
    refine keeps_bind keeps_get (fun s => ?_)
    split
    · exact keeps_pure _
    · split
      · exact keeps_pure _
      · exact keeps_ite (fun _ => doomed_terminateRun hm _) (fun _ => keeps_pure _)
  unfold checkTermination
  refine keeps_bind doomed_choose (fun c => keeps_bind keeps_get (fun s => ?_))
  split
  · exact keeps_pure _
  · split
    · exact keeps_ite (fun _ => hall) (fun _ => keeps_raise _)
    · refine keeps_ite (fun _ => hall) (fun _ => keeps_ite (fun _ => hall) (fun _ => keeps_ite (fun _ => keeps_pure _) (fun _ => ?_)))
      exact keeps_forEach (fun _ _ => hold _ _ _)

theorem doomed_other {m : String} (hm : m ≠ n) : Keeps (Doomed n id pre) (inspectTask m) := by
  unfold inspectTask
  exact keeps_bind (doomed_emit _) (fun _ => keeps_bind doomed_handleLogs (fun _ => keeps_bind (doomed_clean m) (fun _ =>
    keeps_bind (keeps_consider_of (doomed_launch m .cycle)) (fun _ => doomed_checkOther hm))))

/-! ## The turn of the task -/

theorem bind_fine {α β : Type} {m : M α} {k : α → M β} {w : World} {b : β} (h : ((m >>= k) w).1 = .ok b) :
    ∃ a w1, m w = (.ok a, w1) ∧ (m >>= k) w = k a w1 := by
  rw [bind_apply] at h ⊢
  rcases hm : m w with ⟨r, w1⟩
  rw [hm] at h
  cases r with
  | ok a => exact ⟨a, w1, rfl, rfl⟩
  | raise e => simp at h
  | cut => simp at h

/-- The parts of an inspection that is completed. -/
theorem inspect_parts {m : String} {w : World} (h : (inspectTask m w).1 = .ok ()) :
    ∃ w1 w2, handleLogs { w with trace := w.trace ++ [.inspected m] } = (.ok (), w1) ∧
      consider m (cleanRunStack m w1).2 = (.ok (), w2) ∧ inspectTask m w = checkTermination m w2 := by
  have e : inspectTask m w = (do handleLogs; cleanRunStack m; consider m; checkTermination m : M Unit)
      { w with trace := w.trace ++ [.inspected m] } := rfl
  rw [e] at h
  obtain ⟨_, w1, h1, e1⟩ := bind_fine h
  rw [e1] at h
  have e2 : (do cleanRunStack m; consider m; checkTermination m : M Unit) w1 =
      (do consider m; checkTermination m : M Unit) (cleanRunStack m w1).2 := rfl
  rw [e2] at h
  obtain ⟨_, w2, h3, e3⟩ := bind_fine h
  exact ⟨w1, w2, h1, h3, by rw [e, e1, e2, e3]⟩

/-- Right before the check of its termination. -/
theorem sound_before {m : String} {w w1 w2 : World} (hw : Sound w) (h1 : handleLogs { w with trace := w.trace ++ [.inspected m] } = (.ok (), w1))
    (h2 : consider m (cleanRunStack m w1).2 = (.ok (), w2)) : Sound w2 := by
  obtain ⟨_, _, _, _, _, _, k1, k2, k3, _⟩ := C42_states [] 0 m
  have a1 := k1 { w with trace := w.trace ++ [.inspected m] } hw
  rw [h1] at a1
  have a2 := k3 _ (k2 w1 a1)
  rw [h2] at a2
  exact a2

/-- A check that is completed ends the run. -/
theorem doomed_check {w : World} (hs : Sound w) (hw : Doomed n id pre w) (hok : (checkTermination n w).1 = .ok ()) :
    ∃ l, (checkTermination n w).2.trace = pre ++ l ∧ EndedIn n id l := by
  have hs1 : Sound (choose w).2 := keeps_choose (steady_inv launches_distinct).toStill.base w hs
  have hw1 := doomed_choose w hw
  have hc : choose w = (.ok (w.env w.pos), (choose w).2) := rfl
  generalize (choose w).2 = w1 at hc hs1 hw1
  have e : checkTermination n w = (match w1.st.find n with
      | none => pure ()
      | some t => match (w.env w.pos).cond with
        | none => if w1.st.cfg.silenceCond then terminateAll n else raise .other
        | some b =>
          if t.forceTerm then terminateAll n
          else if b then terminateAll n
          else if t.permanent then pure ()
          else forEach (t.stack.map Run.id) (terminateOld n (w.env w.pos).time (t.timeoutOf w1.st.cfg)) : M Unit) w1 := by
    unfold checkTermination
    rw [bind_apply, hc]
    rfl
  obtain ⟨l, hl, hf⟩ := hw1.fate
  have g : Grows w1 (checkTermination n w).2 := by
    rw [e]
    rcases w1.st.find n with _ | t
    · exact .refl _
    · have ht : Keeps (Grows w1) (terminateAll n) := keeps_terminateAll (steady_grows w1).toCalm.toStill.base n
      rcases (w.env w.pos).cond with _ | b
      · exact keeps_ite (I := Grows w1) (fun _ => ht) (fun _ => keeps_raise _) w1 (.refl _)
      · exact keeps_ite (I := Grows w1) (fun _ => ht) (fun _ => keeps_ite (fun _ => ht) (fun _ => keeps_ite (fun _ => keeps_pure _)
          (fun _ => keeps_forEach (fun _ _ => keeps_terminateOld (steady_grows w1).toCalm.toStill.base _ _ _ _)))) w1 (.refl _)
  rcases hf with hf | ⟨t, ht, hfo, r, hr, hi, ha, hk⟩
  · obtain ⟨o, ho⟩ := g.trace
    exact ⟨l ++ o, by rw [← ho, hl, List.append_assoc], hf.mono (fun _ => List.mem_append_left _)⟩
  · rw [ht] at e
    have e' : checkTermination n w = terminateAll n w1 := by
      rw [e] at hok ⊢
      rcases hcond : (w.env w.pos).cond with _ | b
      · rw [hcond] at hok
        simp only at hok ⊢
        by_cases hsil : w1.st.cfg.silenceCond = true
        · rw [if_pos hsil]
        · rw [if_neg hsil] at hok; simp [raise] at hok
      · simp only
        rw [if_pos hfo]
    obtain ⟨o, ho, _, hall, _⟩ := terminateAll_terms n w1 t hw1.names ht (hs1.2 t (find_mem ht).1)
    rw [e'] at hok ⊢
    refine ⟨l ++ o, by rw [ho, hl, List.append_assoc], Or.inr (List.mem_append_right _ (mem_terms.1 ?_))⟩
    rw [hall hok]
    exact List.mem_map.2 ⟨r, hr, by rw [hi]⟩

theorem doomed_turn {w : World} (hs : Sound w) (hw : Doomed n id pre w) (hok : (inspectTask n w).1 = .ok ()) :
    ∃ l, (inspectTask n w).2.trace = pre ++ l ∧ EndedIn n id l := by
  obtain ⟨w1, w2, h1, h2, e⟩ := inspect_parts hok
  have a1 := doomed_handleLogs _ (doomed_emit (.inspected n) w hw)
  have e1 : (emit (.inspected n) w).2 = { w with trace := w.trace ++ [.inspected n] } := rfl
  rw [e1, h1] at a1
  have a2 := keeps_consider_of (doomed_launch (n := n) (id := id) (pre := pre) n .cycle) _ (doomed_clean n w1 a1)
  rw [h2] at a2
  rw [e] at hok ⊢
  exact doomed_check (sound_before hs h1 h2) a2 hok

theorem doomed_loop : ∀ (l : List String) (w : World), Sound w → Doomed n id pre w → n ∈ l → (forEach l inspectTask w).1 = .ok () →
    ∃ o, (forEach l inspectTask w).2.trace = pre ++ o ∧ EndedIn n id o
  | [], _, _, _, h, _ => by simp at h
  | m :: l, w, hs, hw, hm, hok => by
    unfold forEach at hok ⊢
    obtain ⟨_, w1, h1, e1⟩ := bind_fine hok
    rw [e1] at hok ⊢
    have hs1 : Sound w1 := by
      have := (C42_states [] 0 m).2.2.2.2.2.1 w hs
      rw [h1] at this; exact this
    by_cases e : m = n
    · subst e
      obtain ⟨o, ho, he⟩ := doomed_turn hs hw (by rw [h1])
      rw [h1] at ho
      obtain ⟨o', ho'⟩ := (grows_loop w1 l).trace
      exact ⟨o ++ o', by rw [← ho', ho, List.append_assoc], he.mono (fun _ => List.mem_append_left _)⟩
    · have hw1 := doomed_other e w hw
      rw [h1] at hw1
      exact doomed_loop l w1 hs1 hw1 ((List.mem_cons.1 hm).resolve_left (fun h => e h.symm)) hok

/-- C121, the runs that go on.  When the termination of a task of the session is asked for, then every run of it that
goes on is ended in the next cycle that is completed, or has ended by itself meanwhile: whatever else happens, also if
its start condition is true, its end condition is false and it may run for ever.
Missing: cycles that are not completed (`C121_cond_violated`), and tasks that were removed (`C121_removed_violated`). -/
theorem C121_ended_partial (w : World) (hs : Sound w) (n : String) (id : Nat) (h : AskedToEnd w.st n id)
    (hdone : (runCycle w).1 = .ok ()) : ∃ l, (runCycle w).2.trace = w.trace ++ l ∧ EndedIn n id l := by
  obtain ⟨t, ht, hm, hf, r, hr, hi, ha⟩ := h.task
  obtain ⟨h1, h2⟩ := find_mem ht
  have hd := hs.1.now
  have hw : Doomed n id w.trace { w with trace := w.trace ++ [.cycle] } :=
    ⟨hd.names, by rw [← hi]; exact hd.below t h1 r hr, [.cycle], rfl, Or.inr ⟨t, ht, hf, r, hr, hi, ha, hs.2 t h1 r hr⟩⟩
  have hmem : n ∈ w.st.sorted.map TaskSt.name :=
    List.mem_map.2 ⟨t, (pySorted_perm _).mem_iff.2 (List.mem_filter.2 ⟨h1, hm⟩), h2⟩
  rw [runCycle_split] at hdone ⊢
  obtain ⟨_, w1, k1, e1⟩ := bind_fine hdone
  rw [e1]
  obtain ⟨o, ho, he⟩ := doomed_loop _ _ (show Sound { w with trace := w.trace ++ [.cycle] } from hs) hw hmem (by rw [k1])
  rw [k1] at ho
  obtain ⟨o', ho'⟩ := (grows_closing w1).trace
  exact ⟨o ++ o', by rw [← ho', ho, List.append_assoc], he.mono (fun _ => List.mem_append_left _)⟩

/-! ## Afterwards -/

/-- Since `pre` was observed termination was asked for again, or it is not asked for. -/
def Unasked (n : String) (pre : List Obs) (w : World) : Prop :=
  ∃ l, w.trace = pre ++ l ∧ (Obs.env (.terminate n) ∈ l ∨ NotAsked w.st n)

theorem unasked_step {w w' : World} (h : Unasked n pre w) {o : List Obs} (ho : w'.trace = w.trace ++ o)
    (hs : NotAsked w.st n → Obs.env (.terminate n) ∈ o ∨ NotAsked w'.st n) : Unasked n pre w' := by
  obtain ⟨l, hl, hf⟩ := h
  refine ⟨l ++ o, by rw [ho, hl, List.append_assoc], ?_⟩
  rcases hf with hf | hf
  · exact Or.inl (List.mem_append_left _ hf)
  · exact (hs hf).imp (List.mem_append_right _) (fun h => h)

theorem notAsked_upd {s : Sys} (h : NotAsked s n) (m : String) (g : TaskSt → TaskSt)
    (hg : ∀ t, (g t).name = t.name ∧ (m = n → t.forceTerm = false → (g t).forceTerm = false)) : NotAsked (s.upd m g) n := by
  intro t ht hn
  rcases mem_upd ht with ⟨ht, _⟩ | ⟨u, hu, hum, rfl⟩
  · exact h t ht hn
  · have hk := hg u
    have hun : u.name = n := hk.1.symm.trans hn
    exact hk.2 (hum.symm.trans hun) (h u hu hun)

theorem unasked_event {w : World} (h : Unasked n pre w) (e : EnvEv) : Unasked n pre (w.happen e) := by
  refine unasked_step h (o := [.env e]) rfl (fun hn => ?_)
  have plain : ∀ (m : String) (g : TaskSt → TaskSt), (w.happen e).st = w.st.upd m g →
      (∀ t, (g t).name = t.name ∧ (g t).forceTerm = t.forceTerm) → NotAsked (w.happen e).st n := fun m g hst hg => by
    rw [hst]; exact notAsked_upd hn m g (fun t => ⟨(hg t).1, fun _ h => (hg t).2.trans h⟩)
  cases e with
  | ends m i exc => exact Or.inr (plain m _ rfl (fun t => ⟨rfl, rfl⟩))
  | request m b => exact Or.inr (plain m _ rfl (fun t => ⟨rfl, rfl⟩))
  | terminate m =>
    by_cases hm : m = n
    · subst hm; exact Or.inl (List.mem_singleton.2 rfl)
    · exact Or.inr (notAsked_upd hn m _ (fun t => ⟨rfl, fun h => absurd h hm⟩))
  | disable m b => exact Or.inr (plain m _ rfl (fun t => ⟨rfl, rfl⟩))
  | remove m => exact Or.inr (plain m _ rfl (fun t => ⟨rfl, rfl⟩))
  | hold b => exact Or.inr hn
  | shutDown f => exact Or.inr hn
  | restart => exact Or.inr hn
  | add u =>
    refine Or.inr ?_
    show NotAsked (w.st.event (.add u)) n
    simp only [Sys.event]
    split
    · exact hn
    · intro t ht he
      rcases List.mem_cons.1 ht with rfl | ht
      · rfl
      · exact hn t ht he
  | reorder k =>
    refine Or.inr ?_
    show NotAsked (w.st.event (.reorder k)) n
    simp only [Sys.event]
    split
    · rename_i hk
      exact fun t ht => hn t ((List.isPerm_iff.1 hk).mem_iff.1 ht)
    · exact hn

theorem clean_force (cfg : Config) (t : TaskSt) : (t.clean cfg).forceTerm = t.forceTerm := by
  unfold TaskSt.clean; split <;> rfl

theorem steady_unasked (n : String) (pre : List Obs) : Steady (Unasked n pre) where
  pos := fun w p h => unasked_step h (o := []) (List.append_nil _).symm Or.inr
  env := fun w i e h _ => unasked_event h e
  request := fun w m _ h => unasked_event h _
  note := fun w o _ h => unasked_step h (o := [o]) rfl Or.inr
  move := fun w s ht h => by
    refine unasked_step h (o := []) (List.append_nil _).symm (fun hn => Or.inr ?_)
    show NotAsked s n
    cases ht with
    | clean m cfg => exact notAsked_upd hn m _ (fun t => ⟨clean_name cfg t, fun _ h => (clean_force cfg t).trans h⟩)
    | finish m i exc => exact notAsked_upd hn m _ (fun t => ⟨rfl, fun _ h => h⟩)
    | reset m cfg => exact notAsked_upd hn m _ (fun t => ⟨clean_name cfg t, fun _ _ => rfl⟩)
    | erase m r => exact notAsked_upd hn m _ (fun t => ⟨rfl, fun _ h => h⟩)
    | cycles k => exact hn
  mark := fun w o _ h => unasked_step h (o := [o]) rfl Or.inr
  flags := fun w h => unasked_step h (o := []) (List.append_nil _).symm Or.inr

theorem unasked_launch (n : String) (pre : List Obs) (m : String) (part : Part) : Keeps (Unasked n pre) (launch m part) := fun w hw =>
  launch_rule' (I0 := Unasked n pre) (I1 := Unasked n pre) (steady_unasked n pre).toCalm (steady_unasked n pre).toCalm m part
    (fun _ h => h)
    (fun _ _ h => unasked_step h rfl (fun hn => Or.inr (notAsked_upd hn m _ (fun _ => ⟨rfl, fun _ h => h⟩))))
    (fun _ _ _ h => unasked_step h rfl (fun hn => Or.inr (notAsked_upd hn m _ (fun _ => ⟨rfl, fun _ h => h⟩))))
    (fun _ _ h => unasked_step h (o := []) (List.append_nil _).symm
      (fun hn => Or.inr (notAsked_upd hn m _ (fun _ => ⟨rfl, fun _ h => h⟩)))) w hw

theorem unasked_refl {w : World} (h : NotAsked w.st n) : Unasked n w.trace w := ⟨[], (List.append_nil _).symm, Or.inr h⟩

/-- After `_terminate_all` termination is not asked for any longer. -/
theorem terminateAll_resets {w : World} (h : (terminateAll n w).1 = .ok ()) : NotAsked (terminateAll n w).2.st n := by
  unfold terminateAll at h ⊢
  rw [get_bind_apply] at h ⊢
  rcases hf : w.st.find n with _ | t
  · intro u hu hn
    have := List.find?_eq_none.1 hf u hu
    simp [hn] at this
  · rw [hf] at h
    simp only at h ⊢
    obtain ⟨_, w1, _, e1⟩ := bind_fine h
    rw [e1]
    intro u hu hn
    rcases mem_upd (s := w1.st) (n := n) hu with ⟨_, hne⟩ | ⟨v, _, _, rfl⟩
    · exact absurd hn hne
    · rfl

/-- C121, the call is used up.  When the turn of a task in a cycle is over, its termination is no longer asked for,
unless `terminate` was called meanwhile. -/
theorem C121_spent (w : World) (hs : Sound w) (n : String) (hok : (inspectTask n w).1 = .ok ()) :
    ∃ l, (inspectTask n w).2.trace = w.trace ++ l ∧ (Obs.env (.terminate n) ∈ l ∨ NotAsked (inspectTask n w).2.st n) := by
  obtain ⟨o, ho⟩ := (grows_inspect w n).trace
  refine ⟨o, ho.symm, ?_⟩
  obtain ⟨w1, w2, h1, h2, e⟩ := inspect_parts hok
  have hs2 := sound_before hs h1 h2
  have g2 : Grows w w2 := by
    have a1 := keeps_handleLogs (steady_grows w).toCalm.toStill.base { w with trace := w.trace ++ [.inspected n] }
      ⟨List.prefix_append .., List.suffix_rfl, rfl⟩
    rw [h1] at a1
    have a2 := keeps_consider_of (grows_launch w n .cycle) _ (keeps_cleanRunStack (steady_grows w).toCalm.toStill.base n w1 a1)
    rw [h2] at a2
    exact a2
  rw [e] at hok ho ⊢
  have hs3 : Sound (choose w2).2 := keeps_choose (steady_inv launches_distinct).toStill.base w2 hs2
  have g3 : Grows w (choose w2).2 := keeps_choose (steady_grows w).toCalm.toStill.base w2 g2
  unfold checkTermination at hok ho ⊢
  have hc : choose w2 = (.ok (w2.env w2.pos), (choose w2).2) := rfl
  rw [bind_apply, hc] at hok ho ⊢
  generalize (choose w2).2 = w3 at hok ho hs3 g3 ⊢
  generalize w2.env w2.pos = c at hok ho ⊢
  simp only [get_bind_apply] at hok ho ⊢
  rcases hf : w3.st.find n with _ | t
  · refine Or.inr (fun u hu hn => ?_)
    have := List.find?_eq_none.1 hf u hu
    simp [hn] at this
  · rw [hf] at hok ho
    simp only at hok ho ⊢
    rcases hcond : c.cond with _ | b
    · rw [hcond] at hok
      simp only at hok ⊢
      by_cases hsil : w3.st.cfg.silenceCond = true
      · rw [if_pos hsil] at hok ⊢; exact Or.inr (terminateAll_resets hok)
      · rw [if_neg hsil] at hok; simp [raise] at hok
    · rw [hcond] at hok ho
      simp only at hok ho ⊢
      by_cases hft : t.forceTerm = true
      · rw [if_pos hft] at hok ⊢; exact Or.inr (terminateAll_resets hok)
      · rw [if_neg hft] at hok ho ⊢
        by_cases hb : b = true
        · rw [if_pos hb] at hok ⊢; exact Or.inr (terminateAll_resets hok)
        · rw [if_neg hb] at hok ho ⊢
          have hna : NotAsked w3.st n := by
            intro u hu hun
            obtain ⟨ht1, ht2⟩ := find_mem hf
            rw [name_inj hs3.1.now.names hu ht1 (hun.trans ht2.symm)]
            simpa using hft
          by_cases hp : t.permanent = true
          · rw [if_pos hp]; exact Or.inr hna
          · rw [if_neg hp] at ho ⊢
            have hb := (steady_unasked n w3.trace).toCalm.toStill.base
            obtain ⟨o', ho', hr⟩ := keeps_forEach (I := Unasked n w3.trace)
              (fun i (_ : i ∈ t.stack.map Run.id) => keeps_terminateOld hb n c.time (t.timeoutOf w3.st.cfg) i) w3 (unasked_refl hna)
            refine hr.imp (fun hr => ?_) (fun h => h)
            obtain ⟨q, hq⟩ := g3.trace
            rw [ho', ← hq, List.append_assoc] at ho
            rw [List.append_cancel_left ho]
            exact List.mem_append_right _ hr

/-- C121, nothing else asks.  Over any number of runs of the scheduler, and over each of its parts: a task whose
termination is not asked for stays so unless `terminate` is called. -/
theorem C121_only (w : World) (n : String) (h : NotAsked w.st n) (ks : List Nat) (k : Nat) :
    Unasked n w.trace (sessions ks w).2 ∧ Unasked n w.trace (serveLoop k w).2 ∧ Unasked n w.trace (runCycle w).2 := by
  have hs := steady_unasked n w.trace
  have hl := unasked_launch n w.trace
  exact ⟨keeps_sessions hs hl ks w (unasked_refl h), keeps_serveLoop hs hl k w (unasked_refl h), keeps_runCycle hs hl w (unasked_refl h)⟩

/-- C121, nothing else is ended on its account.  In a check of a task whose termination is not asked for, only runs are
terminated that the end condition or their age concerns. -/
theorem C121_spared (w : World) (hs : Sound w) (n : String) (h : NotAsked w.st n)
    (hc : EnvEv.terminate n ∉ (w.env w.pos).events) (t : TaskSt) (ht : (choose w).2.st.find n = some t) (hz : t.timeout ≠ some 0) :
    ∃ l, (checkTermination n w).2.trace = (choose w).2.trace ++ l ∧ ∀ p ∈ terms l, ∃ r ∈ t.stack, p = (n, r.id) ∧
      (EndCond (choose w).2.st.cfg (w.env w.pos) ∨
        (t.permanent = false ∧ ∃ x, TimeoutIs (choose w).2.st.cfg t x ∧ (w.env w.pos).time - r.start > x)) := by
  obtain ⟨l, hl, _, hm, _, _⟩ := C42_cycle_partial n w hs t ht hz
  have hna : t.forceTerm = false := by
    have hu : Unasked n w.trace (choose w).2 := keeps_choose (steady_unasked n w.trace).toCalm.toStill.base w (unasked_refl h)
    obtain ⟨o, ho, hr⟩ := hu
    rcases hr with hr | hr
    · obtain ⟨w1, h1, hf⟩ := follow_choose n w
      have e : (choose w).2 = w1 := by rw [h1]
      rw [e, hf.trace] at ho
      rw [← List.append_cancel_left ho] at hr
      obtain ⟨e, he, hee⟩ := List.mem_map.1 hr
      cases hee
      exact absurd he hc
    · exact hr t (find_mem ht).1 (find_mem ht).2
  refine ⟨l, hl, fun p hp => ?_⟩
  obtain ⟨r, hr, e, hme, _⟩ := hm p hp
  refine ⟨r, hr, e, ?_⟩
  rcases hme with hme | hme | hme
  · rw [hna] at hme; exact absurd hme.1 (by simp)
  · exact Or.inl hme
  · exact Or.inr hme.2

/-! ## Examples -/

/-- A task with a process and a thread that go on; termination was asked for, its end condition is false, and it is
permanent. -/
def askedTask : TaskSt := { idleTask "a" .process with
  multilaunch := some true, forceTerm := true, permanent := true,
  stack := [⟨0, .process, 0, true, false⟩, ⟨1, .thread, 0, true, false⟩] }

def askedWorld : World := World.init { sessionOf 3 false [idleTask "b" .process, askedTask] with nextId := 2 } (envOf [])

theorem asked_sound : Sound askedWorld := by
  refine ⟨⟨fun x hx => ?_, fun _ => trivial⟩, ?_⟩
  · simp only [askedWorld, World.init, World.moments, List.mem_singleton] at hx
    rw [hx]
    exact ⟨by decide, by decide, by decide⟩
  · show ∀ t ∈ _, _; decide

example : AskedToEnd askedWorld.st "a" 0 ∧ AskedToEnd askedWorld.st "a" 1 ∧ (runCycle askedWorld).1 = .ok () ∧
    terms (runCycle askedWorld).2.trace = [("a", 0), ("a", 1)] :=
  ⟨⟨askedTask, by decide, by decide, by decide, by decide⟩, ⟨askedTask, by decide, by decide, by decide, by decide⟩,
    by decide +kernel, by decide +kernel⟩

/-- The call is used up, and with it the hypothesis of `C121_only` and `C121_spared` holds. -/
example : (inspectTask "a" askedWorld).1 = .ok () ∧ NotAsked (inspectTask "a" askedWorld).2.st "a" ∧ NotAsked askedWorld.st "b" :=
  ⟨by decide +kernel, by unfold NotAsked; decide +kernel, by unfold NotAsked; decide +kernel⟩

/-! ## Where it fails -/

/-- C121 fails: the call ends a run that is started after it.  A task that does not run is asked to end; its start
condition is true at its next turn: it is started, and this run is terminated in the same turn.  Without the call it
would go on. -/
theorem C121_fresh_violated : ∃ (s : Sys) (c : Choice), Fresh s ∧ (∀ t ∈ s.tasks, t.stack = []) ∧
    (inspectTask "a" (World.init s (envOf [c, quiet true]))).2.trace = [.inspected "a", .env (.terminate "a"),
      .checked "a" false (some true), .started "a" 0 .cycle, .terminated "a" 0] ∧
    (inspectTask "a" (World.init s (envOf [{ c with events := [] }, quiet true]))).2.trace = [.inspected "a",
      .checked "a" false (some true), .started "a" 0 .cycle] :=
  ⟨sessionOf 1 false [idleTask "a" .process], ⟨[.terminate "a"], some false, none, 0⟩, by decide, by decide, by decide +kernel,
    by decide +kernel⟩

/-- C121 fails for a task that was removed from the session: whoever holds it may call `terminate`, but nobody checks it
any more; however long the scheduler goes on, its turn does not come. -/
theorem C121_removed_violated (w : World) (n : String) (h : ∀ t ∈ w.st.tasks, t.name = n → t.member = false) :
    n ∉ w.st.sorted.map TaskSt.name := by
  intro hm
  obtain ⟨t, ht, hn⟩ := List.mem_map.1 hm
  obtain ⟨h1, h2⟩ := sorted_mem ht
  rw [h t h1 hn] at h2
  cases h2

/-- Its run goes on. -/
theorem C121_removed_goes_on_violated :
    let w := World.init { askedWorld.st with tasks := [idleTask "b" .process, { askedTask with member := false }] } (envOf [])
    (runCycle w).1 = .ok () ∧ terms (runCycle w).2.trace = [] ∧
      ((runCycle w).2.st.find "a").map (fun t => (t.forceTerm, t.stack)) = some (true, askedTask.stack) := by
  decide +kernel

/-- C121 fails if the end condition of the task cannot be evaluated: the cycle ends with this error before the call is
looked at, and the runs go on. -/
theorem C121_cond_violated : ∃ (env : Nat → Choice), (∃ t ∈ askedWorld.st.tasks, t.name = "a" ∧ t.forceTerm = true) ∧
    (runCycle { askedWorld with env := env }).1 = .raise .other ∧ terms (runCycle { askedWorld with env := env }).2.trace = [] ∧
    ((runCycle { askedWorld with env := env }).2.st.find "a").map TaskSt.stack = some askedTask.stack :=
  ⟨fun i => if i < 5 then quiet false else ⟨[], none, none, 0⟩, ⟨askedTask, by decide, rfl, rfl⟩, by decide +kernel,
    by decide +kernel, by decide +kernel⟩

end Rocketry.Props
