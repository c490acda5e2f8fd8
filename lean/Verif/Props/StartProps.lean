import Verif.Props.ShutdownProps

/-!
# C39: a cycle starts exactly the tasks that are due
-/

namespace Rocketry.Props
open Rocketry.Sched Rocketry.Spec

theorem starts_append (a b : List Obs) : starts (a ++ b) = starts a ++ starts b := List.filterMap_append

theorem starts_env (es : List EnvEv) : starts (es.map Obs.env) = [] := by
  induction es with
  | nil => rfl
  | cons e es ih => exact ih

/-- What `m` adds to the record has the given starts. -/
def Adds {α : Type} (m : M α) (w : World) (l : List (String × Part)) : Prop :=
  ∃ o, (m w).2.trace = w.trace ++ o ∧ starts o = l

theorem adds_same {α : Type} {m : M α} {w : World} (h : (m w).2.trace = w.trace) : Adds m w [] :=
  ⟨[], by rw [h, List.append_nil], rfl⟩

theorem adds_choose (w : World) : Adds choose w [] := by
  obtain ⟨w1, hc, hf⟩ := follow_choose "" w
  exact ⟨_, by rw [hc]; exact hf.trace, starts_env _⟩

theorem adds_bind {α β : Type} {m : M α} {k : α → M β} {w w' : World} {a : α} {l l' : List (String × Part)}
    (hm : m w = (.ok a, w')) (h : Adds m w l) (h' : Adds (k a) w' l') : Adds (m >>= k) w (l ++ l') := by
  obtain ⟨o, ho, hs⟩ := h
  obtain ⟨o', ho', hs'⟩ := h'
  rw [hm] at ho
  refine ⟨o ++ o', ?_, by rw [starts_append, hs, hs']⟩
  rw [bind_apply, hm]
  simp only
  rw [ho', ho, List.append_assoc]

theorem adds_bind' {α β : Type} {m : M α} {k : α → M β} {w w' : World} {a : α} {l : List (String × Part)}
    (hm : m w = (.ok a, w')) (h : Adds m w []) (h' : Adds (k a) w' l) : Adds (m >>= k) w l := adds_bind hm h h'

/-- After the start nothing more is started. -/
theorem adds_runOn (name : String) (id : Nat) (kind : Exec) (f : Option Fault) (w : World) : Adds (runOn name id kind f) w [] := by
  unfold runOn
  cases kind with
  | main =>
    by_cases hf : f = some .logging
    · simp only [hf, if_true]
      exact adds_same rfl
    · simp only [hf, if_false]
      obtain ⟨w1, hc, _⟩ := follow_choose "" w
      have h2 : Adds (do emit (.mainEnded name id); dropMain name false; mainEnd (w.env w.pos).fault : M Unit) w1 [] := by
        refine ⟨[.mainEnded name id], ?_, rfl⟩
        show (mainEnd _ (({ w1 with trace := w1.trace ++ [.mainEnded name id] } : World).drop name false)).2.trace = _
        rw [mainEnd_apply]; rfl
      exact adds_bind (k := fun d => (do emit (.mainEnded name id); dropMain name false; mainEnd d.fault : M Unit)) hc (adds_choose w) h2
  | async => exact adds_same (by simp only; split <;> rfl)
  | thread => exact adds_same (by simp only; split <;> rfl)
  | process =>
    apply adds_same
    simp only
    split
    · rfl
    · split <;> rfl

/-- A start that is due takes place, unless the setup fails. -/
theorem adds_startAsync (name : String) (part : Part) (w : World) (hn : Named w) (t : TaskSt) (ht : w.st.find name = some t) :
    Adds (startAsync name part) w
      (if (w.env w.pos).fault = some .params ∨ (w.env w.pos).fault = some .setup then [] else [(name, part)]) := by
  unfold startAsync
  obtain ⟨w1, hc, hf⟩ := follow_choose name w
  obtain ⟨t1, ht1, _⟩ := hf.task hn t ht
  refine adds_bind' hc (adds_choose w) ?_
  generalize w.env w.pos = c
  refine adds_bind' (w' := w1) (a := w1.st) rfl (adds_same rfl) ?_
  rw [ht1]
  simp only
  by_cases hp : c.fault = some .params
  · rw [if_pos hp, if_pos (Or.inl hp)]; exact ⟨[.failedSetup name], rfl, rfl⟩
  rw [if_neg hp]
  obtain ⟨w2, hp2, ha2⟩ : ∃ w2, popBatch t1 w1 = (.ok (), w2) ∧ Adds (popBatch t1) w1 [] := by
    unfold popBatch
    rcases t1.batches with _ | ⟨b, bs⟩
    · exact ⟨w1, rfl, adds_same rfl⟩
    · exact ⟨w1.pop t1.name b, rfl, ⟨_, rfl, rfl⟩⟩
  refine adds_bind' hp2 ha2 ?_
  by_cases hse : c.fault = some .setup
  · rw [if_pos hse, if_pos (Or.inr hse)]; exact ⟨[.failedSetup name], rfl, rfl⟩
  rw [if_neg hse, if_neg (fun h => h.elim hp hse)]
  have hpush : pushRun name t1.execution c.time part w2 = (.ok w2.st.nextId, w2.push name t1.execution c.time part) := rfl
  refine adds_bind (l := [(name, part)]) (l' := []) hpush ⟨[.started name w2.st.nextId part], rfl, rfl⟩ ?_
  exact adds_runOn _ _ _ _ _

theorem adds_runTask (name : String) (part : Part) (w : World) {l : List (String × Part)} (h : Adds (startAsync name part) w l) :
    Adds (runTask name part) w l := by
  obtain ⟨o, ho, hs⟩ := h
  refine ⟨o, ?_, hs⟩
  rw [← ho]
  unfold runTask Sched.tryCatch
  rcases hr : startAsync name part w with ⟨r, w1⟩
  cases r with
  | ok a => rfl
  | cut => rfl
  | raise e =>
    simp only [get_bind_apply]
    cases e <;> simp only <;> first | rfl | (split <;> rfl)

theorem sum_flatMap (l : List TaskSt) : (l.map TaskSt.countProcesses).sum =
    (l.flatMap TaskSt.stack).countP (fun r => decide (r.kind = .process) && r.alive) := by
  induction l with
  | nil => rfl
  | cons t l ih => rw [List.map_cons, List.sum_cons, ih, List.flatMap_cons, List.countP_append]; rfl

theorem hasFree_iff (s : Sys) : s.hasFree = true ↔ FreeSlot s := by
  unfold Sys.hasFree Sys.processesAlive FreeSlot Sys.members
  rw [sum_flatMap, decide_eq_true_iff]

theorem isAlive_iff (t : TaskSt) : t.isAlive = false ↔ ∀ r ∈ t.stack, r.alive = false := by
  unfold TaskSt.isAlive
  rw [List.any_eq_false]
  simp

/-- Where the start reads the environment: after the start condition, if that was looked at. -/
def startPos (t : TaskSt) (w : World) : Nat := if t.batches = [] then w.pos + 1 else w.pos

theorem choose_pos (w : World) : (choose w).2.pos = w.pos + 1 ∧ (choose w).2.env = w.env :=
  ⟨(foldl_happen_env _ _).2, (foldl_happen_env _ _).1⟩

/-- What a launch starts. -/
def Exactly (name : String) (part : Part) (w : World) (t : TaskSt) (l : List (String × Part)) : Prop :=
  (¬ Ready w.st t (w.env w.pos).cond → l = []) ∧ (Ready w.st t (w.env w.pos).cond →
    l = (if (w.env (startPos t w)).fault = some .params ∨ (w.env (startPos t w)).fault = some .setup then [] else [(name, part)]))

theorem launch_exact (name : String) (part : Part) (w : World) (hn : (w.st.tasks.map TaskSt.name).Nodup) (t : TaskSt)
    (ht : w.st.find name = some t) : ∃ l, Adds (launch name part) w l ∧ Exactly name part w t l := by
  have hcons : ∀ l, Adds (launch name part) w l → (¬ Ready w.st t (w.env w.pos).cond → l = []) →
      (Ready w.st t (w.env w.pos).cond →
        l = (if (w.env (startPos t w)).fault = some .params ∨ (w.env (startPos t w)).fault = some .setup then [] else [(name, part)])) →
      ∃ l, Adds (launch name part) w l ∧ Exactly name part w t l := fun l h h1 h2 => ⟨l, h, h1, h2⟩
  -- nothing happens
  have hnone : ∀ l, Adds (launch name part) w l → l = [] → ¬ Ready w.st t (w.env w.pos).cond →
      ∃ l, Adds (launch name part) w l ∧ Exactly name part w t l :=
    fun l h hl hm => hcons l h (fun _ => hl) (fun h => absurd h hm)
  -- the inspection
  have hstop : ∀ w', isTaskRunnable name w = (.ok false, w') → Adds (isTaskRunnable name) w [] → Adds (launch name part) w [] := by
    intro w' hr ha
    unfold launch
    exact adds_bind (l := []) (l' := []) hr ha (adds_same rfl)
  have hgo : ∀ w', isTaskRunnable name w = (.ok true, w') → Adds (isTaskRunnable name) w [] → Named w' →
      (∃ t', w'.st.find name = some t') → w'.env = w.env → w'.pos = startPos t w →
      Adds (launch name part) w
        (if (w.env (startPos t w)).fault = some .params ∨ (w.env (startPos t w)).fault = some .setup then [] else [(name, part)]) := by
    intro w' hr ha hn' ⟨t', ht'⟩ he hp
    unfold launch
    have := adds_runTask name part w' (adds_startAsync name part w' hn' t' ht')
    rw [he, hp] at this
    exact adds_bind' hr ha this
  by_cases h1 : t.execution = .process ∧ w.st.hasFree = false
  · have hr : isTaskRunnable name w = (.ok false, w) := by
      unfold isTaskRunnable; rw [get_bind_apply, ht]; simp only; rw [if_pos h1]; rfl
    refine hnone [] (hstop w hr (adds_same (by rw [hr]))) rfl (fun h => ?_)
    have := (hasFree_iff w.st).2 (h.slot h1.1)
    rw [h1.2] at this; simp at this
  by_cases h2 : t.execution ≠ .main ∧ t.allowMulti w.st.cfg = false ∧ t.isAlive = true
  · have hr : isTaskRunnable name w = (.ok false, w) := by
      unfold isTaskRunnable; rw [get_bind_apply, ht]; simp only; rw [if_neg h1, if_pos h2]; rfl
    refine hnone [] (hstop w hr (adds_same (by rw [hr]))) rfl (fun h => ?_)
    have := (isAlive_iff t).2 (h.idle h2.1 (fun hm => by rw [(allowMulti_iff _ _).2 hm] at h2; simp at h2))
    rw [h2.2.2] at this; simp at this
  have hmay : (t.batches ≠ [] ∨ (t.disabled = false ∧ (w.env w.pos).cond = some true)) → Ready w.st t (w.env w.pos).cond := by
    refine fun hd => ⟨fun hx => (hasFree_iff _).1 ?_, fun hx hm => (isAlive_iff t).1 ?_, hd⟩
    · by_cases hfr : w.st.hasFree = true
      · exact hfr
      · exact absurd ⟨hx, by simpa using hfr⟩ h1
    · by_cases hal : t.isAlive = true
      · refine absurd ⟨hx, ?_, hal⟩ h2
        by_cases ha : t.allowMulti w.st.cfg = true
        · exact absurd ((allowMulti_iff _ _).1 ha) hm
        · simpa using ha
      · simpa using hal
  have hchk : isTaskRunnable name w = checkTaskCond t w := by
    unfold isTaskRunnable; rw [get_bind_apply, ht]; simp only; rw [if_neg h1, if_neg h2]
  by_cases hb : ¬ t.batches = []
  · have hr : isTaskRunnable name w = (.ok true, { w with trace := w.trace ++ [.checked t.name true (some true)] }) := by
      rw [hchk]; unfold checkTaskCond isRunnable Sched.tryCatch; simp only [ne_eq, hb, not_false_eq_true, if_true]; rfl
    have hm := hmay (Or.inl hb)
    have hsp' : w.pos = startPos t w := by unfold startPos; rw [if_neg hb]
    exact hcons _ (hgo _ hr ⟨_, by rw [hr], rfl⟩ hn ⟨t, ht⟩ rfl hsp') (fun h => absurd hm h) (fun _ => rfl)
  have hb := Classical.not_not.1 hb
  by_cases hdis : t.disabled = true
  · have hr : isTaskRunnable name w = (.ok false, w) := by
      rw [hchk]; unfold checkTaskCond isRunnable Sched.tryCatch; simp only [ne_eq, hb, not_true_eq_false, if_false, hdis, if_true]; rfl
    refine hnone [] (hstop w hr (adds_same (by rw [hr]))) rfl (fun h => ?_)
    rcases h.due with h | h
    · exact h hb
    · rw [hdis] at h; simp at h
  -- the condition
  obtain ⟨w1, hc, hf⟩ := follow_choose name w
  have hcp := choose_pos w
  rw [hc] at hcp
  obtain ⟨t1, ht1, _⟩ := hf.task hn t ht
  have hrun : isTaskRunnable name w = Sched.tryCatch (do
      let c ← choose
      emit (.checked t.name false c.cond)
      match c.cond with
      | some b => pure b
      | none => raise .other) (fun e => do
        let s ← get
        if s.cfg.silenceCond then pure false else raise e) w := by
    rw [hchk]; unfold checkTaskCond isRunnable; simp only [ne_eq, hb, not_true_eq_false, if_false, hdis]; rfl
  have happ : isTaskRunnable name w = (match (w.env w.pos).cond with
      | some b => (.ok b, w1.observe (.checked t.name false (w.env w.pos).cond))
      | none => if w1.st.cfg.silenceCond then (.ok false, w1.observe (.checked t.name false (w.env w.pos).cond))
        else (.raise .other, w1.observe (.checked t.name false (w.env w.pos).cond))) := by
    rw [hrun]
    unfold Sched.tryCatch
    rw [bind_apply, hc]
    simp only
    rw [bind_apply]
    rcases (w.env w.pos).cond with _ | b
    · simp only [emit, raise, get_bind_apply]
      split <;> rfl
    · rfl
  have hadd : (isTaskRunnable name w).2 = w1.observe (.checked t.name false (w.env w.pos).cond) := by
    rw [happ]
    rcases (w.env w.pos).cond with _ | b
    · simp only; split <;> rfl
    · rfl
  have ha : Adds (isTaskRunnable name) w [] := by
    refine ⟨(w.env w.pos).events.map Obs.env ++ [.checked t.name false (w.env w.pos).cond],
      by rw [hadd]; show w1.trace ++ [_] = _; rw [hf.trace, List.append_assoc], ?_⟩
    rw [starts_append, starts_env]; rfl
  rcases hcond : (w.env w.pos).cond with _ | b
  · rw [hcond] at happ
    simp only at happ
    have hnm : ¬ Ready w.st t (w.env w.pos).cond := fun h => by
      rcases h.due with h | h
      · exact h hb
      · rw [hcond] at h; simp at h
    by_cases hs : w1.st.cfg.silenceCond = true
    · rw [if_pos hs] at happ
      exact hnone [] (hstop _ happ ha) rfl hnm
    · rw [if_neg hs] at happ
      refine hnone [] ?_ rfl hnm
      obtain ⟨o, ho, hso⟩ := ha
      refine ⟨o, ?_, hso⟩
      rw [happ] at ho
      unfold launch
      rw [bind_apply, happ]
      exact ho
  · rw [hcond] at happ
    simp only at happ
    cases b with
    | false =>
      refine hnone [] (hstop _ happ ha) rfl (fun h => ?_)
      rcases h.due with h | h
      · exact h hb
      · rw [hcond] at h; simp at h
    | true =>
      have hm := hmay (Or.inr ⟨by simpa using hdis, hcond⟩)
      have hsp' : (w1.observe (.checked t.name false (w.env w.pos).cond)).pos = startPos t w := by unfold startPos; rw [if_pos hb]; exact hcp.1
      exact hcons _ (hgo _ happ ha (hf.nodup hn) ⟨t1, ht1⟩ hf.env hsp') (fun h => absurd hm h) (fun _ => rfl)

theorem mayStart_iff (s : Sys) (t : TaskSt) (c : Option Bool) :
    MayStart s t c ↔ s.enabled = true ∧ (t.onStartup = false ∧ t.onShutdown = false) ∧ Ready s t c :=
  ⟨fun h => ⟨h.on, h.ordinary, h.slot, h.idle, h.due⟩, fun h => ⟨h.1, h.2.1, h.2.2.slot, h.2.2.idle, h.2.2.due⟩⟩

theorem consider_exact (name : String) (w : World) (hn : (w.st.tasks.map TaskSt.name).Nodup) (t : TaskSt)
    (ht : w.st.find name = some t) : ∃ l, Adds (consider name) w l ∧ (¬ MayStart w.st t (w.env w.pos).cond → l = []) ∧
      (MayStart w.st t (w.env w.pos).cond →
        l = (if (w.env (startPos t w)).fault = some .params ∨ (w.env (startPos t w)).fault = some .setup then [] else [(name, .cycle)])) := by
  have hno : (consider name w).2.trace = w.trace → ¬ MayStart w.st t (w.env w.pos).cond →
      ∃ l, Adds (consider name) w l ∧ (¬ MayStart w.st t (w.env w.pos).cond → l = []) ∧
        (MayStart w.st t (w.env w.pos).cond → l =
          (if (w.env (startPos t w)).fault = some .params ∨ (w.env (startPos t w)).fault = some .setup then [] else [(name, .cycle)])) :=
    fun h hm => ⟨[], adds_same h, fun _ => rfl, fun h => absurd h hm⟩
  by_cases hsp : t.onStartup = false ∧ t.onShutdown = false
  · by_cases hen : w.st.enabled = true
    · obtain ⟨l, ha, h1, h2⟩ := launch_exact name .cycle w hn t ht
      refine ⟨l, ?_, fun h => h1 (fun hr => h ((mayStart_iff ..).2 ⟨hen, hsp, hr⟩)), fun h => h2 ((mayStart_iff ..).1 h).2.2⟩
      obtain ⟨o, ho, hs⟩ := ha
      refine ⟨o, ?_, hs⟩
      unfold consider
      rw [get_bind_apply, ht]
      simp only [hen, hsp.1, hsp.2]
      exact ho
    · refine hno ?_ (fun h => hen h.on)
      unfold consider
      rw [get_bind_apply, ht]
      simp only [hsp.1, hsp.2, Bool.or_self, Bool.false_eq_true, if_false, hen]; rfl
  · refine hno ?_ (fun h => hsp h.ordinary)
    unfold consider
    rw [get_bind_apply, ht]
    have : (t.onStartup || t.onShutdown) = true := by
      cases h1 : t.onStartup <;> cases h2 : t.onShutdown <;> simp [h1, h2] at hsp ⊢
    simp only [this, if_true]; rfl

/-- C39.  When the loop of a cycle comes to a task, exactly one run of it is started if the task is due (and its setup
does not fail), and nothing is started otherwise. -/
theorem C39_exact (name : String) (w : World) (hn : (w.st.tasks.map TaskSt.name).Nodup) (t : TaskSt)
    (ht : w.st.find name = some t) :
    ∃ o, (consider name w).2.trace = w.trace ++ o ∧
      (¬ MayStart w.st t (w.env w.pos).cond → starts o = []) ∧
      (MayStart w.st t (w.env w.pos).cond →
        ((w.env (startPos t w)).fault = some .params ∨ (w.env (startPos t w)).fault = some .setup → starts o = []) ∧
        ((w.env (startPos t w)).fault ≠ some .params ∧ (w.env (startPos t w)).fault ≠ some .setup →
          starts o = [(name, .cycle)])) := by
  obtain ⟨l, ⟨o, ho, hs⟩, h1, h2⟩ := consider_exact name w hn t ht
  refine ⟨o, ho, fun hm => by rw [hs]; exact h1 hm, fun hm => ⟨fun hf => ?_, fun hf => ?_⟩⟩
  · rw [hs, h2 hm, if_pos hf]
  · rw [hs, h2 hm, if_neg (fun h => h.elim hf.1 hf.2)]

/-- A task with a pending request. -/
def requested (t : TaskSt) : TaskSt := { t with batches := [[("x", "1")]] }

/-- A disabled task with a pending request is started; without the request it is not, although its condition holds;
nor is a task for which there is no slot. -/
example : let s := sessionOf 1 false [requested { idleTask "a" .process with disabled := true }]
    let s' := sessionOf 1 false [{ idleTask "a" .process with disabled := true }]
    let s'' := sessionOf 0 false [requested (idleTask "a" .process)]
    starts (consider "a" (World.init s (fun _ => quiet true))).2.trace = [("a", .cycle)] ∧
      starts (consider "a" (World.init s' (fun _ => quiet true))).2.trace = [] ∧
      starts (consider "a" (World.init s'' (fun _ => quiet true))).2.trace = [] := by
  decide

/-- A case in which the task is due. -/
example : let s := sessionOf 1 false [requested { idleTask "a" .process with disabled := true }]
    MayStart s (requested { idleTask "a" .process with disabled := true }) (some false) :=
  ⟨rfl, ⟨rfl, rfl⟩, fun _ => by unfold FreeSlot; decide, fun _ _ r hr => by simp [requested, idleTask] at hr, Or.inl (by decide)⟩

end Rocketry.Props
