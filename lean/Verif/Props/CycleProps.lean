import Verif.Sched.Emits
import Verif.Props.StartProps

/-!
# C41: the order of inspection in a cycle
-/

namespace Rocketry.Props
open Rocketry.Sched Rocketry.Spec

theorem inspections_append (a b : List Obs) : inspections (a ++ b) = inspections a ++ inspections b := List.filterMap_append

/-- Nothing is inspected or started. -/
def Neutral (o : Obs) : Prop := match o with | .inspected _ => False | .started .. => False | _ => True

theorem neutral_views {o : List Obs} (h : ∀ x ∈ o, Neutral x) : inspections o = [] ∧ starts o = [] := by
  constructor
  · unfold inspections
    rw [List.filterMap_eq_nil_iff]
    intro x hx
    have := h x hx
    cases x <;> first | rfl | exact this.elim
  · unfold starts
    rw [List.filterMap_eq_nil_iff]
    intro x hx
    have := h x hx
    cases x <;> first | rfl | exact this.elim

/-- Nothing is inspected. -/
theorem consider_inspects (name : String) : Emits (fun o => ∀ n, o ≠ .inspected n) (consider name) := by
  have he : ∀ e, (fun o => ∀ n, o ≠ Obs.inspected n) (.env e) := fun e n h => by simp at h
  unfold consider
  refine emits_bind emits_get (fun s => ?_)
  split
  · exact emits_pure _
  · refine emits_ite (emits_pure _) (emits_ite ?_ (emits_pure _))
    unfold launch
    refine emits_bind (emits_isTaskRunnable he _ (fun _ _ n h => by simp at h)) (fun b => emits_ite ?_ (emits_pure _))
    unfold runTask
    refine emits_tryCatch ?_ (fun e => emits_bind emits_get (fun s => ?_))
    · unfold startAsync
      refine emits_bind (emits_choose he) (fun c => emits_bind emits_get (fun s => ?_))
      split
      · exact emits_raise _
      · have hx : Emits (fun o => ∀ n, o ≠ Obs.inspected n) (emit (.failedSetup name) >>= fun _ => raise .setup : M Unit) :=
          emits_bind (emits_emit (fun n h => by simp at h)) (fun _ => emits_raise _)
        refine emits_ite hx (emits_bind ?_ (fun _ => emits_ite hx
          (emits_bind ?_ (fun _ => emits_runOn he _ _ _ _ (fun n h => by simp at h)))))
        · unfold popBatch
          split
          · exact emits_pure _
          · exact emits_bind (emits_change _ _) (fun _ => emits_emit (fun n h => by simp at h))
        · unfold pushRun
          exact emits_bind emits_get (fun s => emits_bind (emits_put _) (fun _ => emits_bind (emits_emit (fun n h => by simp at h))
            (fun _ => emits_pure _)))
    · split
      · exact emits_ite (emits_pure _) (emits_raise _)
      · exact emits_ite (emits_pure _) (emits_raise _)
      · exact emits_raise _

/-- At most one run is started. -/
theorem consider_starts (name : String) (w : World) (hn : Named w) :
    ∃ o, (consider name w).2.trace = w.trace ++ o ∧ (starts o = [] ∨ starts o = [(name, .cycle)]) := by
  rcases ht : w.st.find name with _ | t
  · refine ⟨[], ?_, Or.inl rfl⟩
    unfold consider
    rw [get_bind_apply, ht, List.append_nil]; rfl
  · obtain ⟨l, ⟨o, ho, hs⟩, h1, h2⟩ := consider_exact name w hn t ht
    refine ⟨o, ho, ?_⟩
    rw [hs]
    by_cases hm : MayStart w.st t (w.env w.pos).cond
    · rw [h2 hm]
      split
      · exact Or.inl rfl
      · exact Or.inr rfl
    · exact Or.inl (h1 hm)

theorem consider_named (name : String) : Keeps Named (consider name) := by
  unfold consider
  refine keeps_bind keeps_get (fun s => ?_)
  split
  · exact keeps_pure _
  · exact keeps_ite (fun _ => keeps_pure _) (fun _ => keeps_ite (fun _ => named_launch _ _) (fun _ => keeps_pure _))

/-- The inspection of one task. -/
def One (name : String) (o : List Obs) : Prop := inspections o = [name] ∧ (starts o = [] ∨ starts o = [(name, .cycle)])

theorem one_append {name : String} {o o' : List Obs} (h : One name o) (h' : ∀ x ∈ o', Neutral x) : One name (o ++ o') := by
  have hv := neutral_views h'
  unfold One
  rw [inspections_append, starts_append, hv.1, hv.2, List.append_nil, List.append_nil]; exact h

theorem inspectTask_one (name : String) (w : World) (hn : Named w) :
    ∃ o, (inspectTask name w).2.trace = w.trace ++ o ∧ One name o := by
  have he : ∀ e, Neutral (.env e) := fun _ => trivial
  unfold inspectTask
  -- step by step
  have step : ∀ {α : Type} (m : M α) (k : α → M Unit) (w' : World) (o : List Obs), w'.trace = w.trace ++ o → One name o → Named w' →
      Emits Neutral m → Keeps Named m →
      (∀ a w'' o', w''.trace = w.trace ++ o' → One name o' → starts o' = starts o → Named w'' →
        ∃ o, (k a w'').2.trace = w.trace ++ o ∧ One name o) →
      ∃ o, ((m >>= k) w').2.trace = w.trace ++ o ∧ One name o := by
    intro α m k w' o ho h1 hn' hm hk hrest
    rw [bind_apply]
    obtain ⟨o', ho', hp⟩ := hm w'
    have hk' := hk w' hn'
    rcases hr : m w' with ⟨r, w''⟩
    rw [hr] at ho' hk'
    have ht : w''.trace = w.trace ++ (o ++ o') := by simp only at ho'; rw [ho', ho, List.append_assoc]
    cases r with
    | ok a => exact hrest a w'' _ ht (one_append h1 hp) (by rw [starts_append, (neutral_views hp).2, List.append_nil]) hk'
    | raise e => exact ⟨_, ht, one_append h1 hp⟩
    | cut => exact ⟨_, ht, one_append h1 hp⟩
  rw [bind_apply]
  have hem : emit (.inspected name) w = (.ok (), { w with trace := w.trace ++ [.inspected name] }) := rfl
  rw [hem]
  simp only
  refine step handleLogs _ _ [.inspected name] rfl ⟨rfl, Or.inl rfl⟩ hn (emits_handleLogs he) (keeps_handleLogs calm_named.toCalm)
    (fun _ w1 o1 ho1 h1 hs1 hn1 => ?_)
  refine step (cleanRunStack name) _ w1 o1 ho1 h1 hn1 (emits_cleanRunStack he name) (keeps_cleanRunStack calm_named.toCalm name)
    (fun _ w2 o2 ho2 h2 hs2 hn2 => ?_)
  have hst : starts o2 = [] := hs2.trans hs1
  obtain ⟨o3, ho3, hs3⟩ := consider_starts name w2 hn2
  obtain ⟨o3', ho3', hi3⟩ := consider_inspects name w2
  have e3 : o3' = o3 := by rw [ho3, List.append_cancel_left_eq] at ho3'; exact ho3'.symm
  subst e3
  have hn3 := consider_named name w2 hn2
  have h3 : One name (o2 ++ o3') := by
    refine ⟨?_, by rw [starts_append, hst, List.nil_append]; exact hs3⟩
    rw [inspections_append, h2.1]
    have : inspections o3' = [] := by
      unfold inspections
      rw [List.filterMap_eq_nil_iff]
      intro x hx
      have := hi3 x hx
      cases x <;> first | rfl | exact absurd rfl (this _)
    rw [this, List.append_nil]
  rw [bind_apply]
  rcases hr : consider name w2 with ⟨r, w3⟩
  rw [hr] at ho3 hn3
  have ht3 : w3.trace = w.trace ++ (o2 ++ o3') := by simp only at ho3; rw [ho3, ho2, List.append_assoc]
  cases r with
  | raise e => exact ⟨_, ht3, h3⟩
  | cut => exact ⟨_, ht3, h3⟩
  | ok _ =>
    simp only
    obtain ⟨o4, ho4, hp4⟩ := emits_checkTermination (P := Neutral) he name (fun _ => trivial) w3
    exact ⟨o2 ++ o3' ++ o4, by rw [ho4, ht3, List.append_assoc], one_append h3 hp4⟩

/-- What is seen of a cycle over the given tasks. -/
def Seen (l : List String) (o : List Obs) : Prop :=
  inspections o <+: l ∧ ((starts o).map Prod.fst).Sublist (inspections o) ∧ ∀ p ∈ starts o, p.2 = .cycle

theorem loop_seen : ∀ (l : List String) (w : World), Named w →
    ∃ o, (forEach l inspectTask w).2.trace = w.trace ++ o ∧ Seen l o ∧
      ((forEach l inspectTask w).1 = .ok () → inspections o = l)
  | [], w, _ => ⟨[], (List.append_nil _).symm, ⟨List.prefix_rfl, List.Sublist.refl _, fun _ h => by simp [starts] at h⟩, fun _ => rfl⟩
  | n :: l, w, hn => by
    unfold forEach
    rw [bind_apply]
    obtain ⟨o, ho, h1, h2⟩ := inspectTask_one n w hn
    have hn' : Named (inspectTask n w).2 := keeps_inspectTask' calm_named.toCalm (consider_named n) w hn
    have hsub : ((starts o).map Prod.fst).Sublist (inspections o) := by
      rw [h1]
      rcases h2 with h | h <;> rw [h]
      · exact List.nil_sublist _
      · exact List.Sublist.refl _
    have hcyc : ∀ p ∈ starts o, p.2 = .cycle := by
      intro p hp
      rcases h2 with h | h <;> rw [h] at hp
      · simp at hp
      · rw [List.mem_singleton.1 hp]
    rcases hr : inspectTask n w with ⟨r, w'⟩
    rw [hr] at ho hn'
    cases r with
    | ok _ =>
      obtain ⟨o', ho', ⟨hp', hs', hc'⟩, hok⟩ := loop_seen l w' hn'
      simp only at ho ⊢
      refine ⟨o ++ o', by rw [ho', ho, List.append_assoc], ⟨?_, ?_, ?_⟩, fun h => ?_⟩
      · rw [inspections_append, h1]; exact (List.prefix_cons_inj _).2 hp'
      · rw [inspections_append, starts_append, List.map_append]; exact hsub.append hs'
      · intro p hp
        rw [starts_append] at hp
        exact (List.mem_append.1 hp).elim (hcyc p) (hc' p)
      · rw [inspections_append, h1, hok h]; rfl
    | raise e => exact ⟨o, ho, ⟨by rw [h1]; exact ⟨l, rfl⟩, hsub, hcyc⟩, fun h => by simp at h⟩
    | cut => exact ⟨o, ho, ⟨by rw [h1]; exact ⟨l, rfl⟩, hsub, hcyc⟩, fun h => by simp at h⟩

/-- C41.  A cycle inspects the tasks of the session in an order of non-increasing priority, each once (all of them, if
nothing is raised); what it starts it starts in this order, each at most once, and it starts nothing else. -/
theorem C41_order (w : World) (hn : (w.st.tasks.map TaskSt.name).Nodup) :
    ∃ order : List TaskSt, order.Perm (w.st.tasks.filter TaskSt.member) ∧ order.Pairwise (fun a b => a.priority ≥ b.priority) ∧
      ∃ o, (runCycle w).2.trace = w.trace ++ o ∧ inspections o <+: order.map TaskSt.name ∧
        ((runCycle w).1 = .ok () → inspections o = order.map TaskSt.name) ∧
        ((starts o).map Prod.fst).Sublist (order.map TaskSt.name) ∧ (∀ p ∈ starts o, p.2 = .cycle) := by
  refine ⟨w.st.sorted, pySorted_perm _, ?_, ?_⟩
  · exact (pySorted_pairwise (le := fun a b : TaskSt => decide (a.priority ≥ b.priority))
      (fun a b c h1 h2 => by simp only [decide_eq_true_eq] at *; omega) (fun a b => by simp only [decide_eq_true_eq]; omega) _).imp
      (fun h => by simpa using h)
  · unfold runCycle
    rw [get_bind_apply, bind_apply]
    have hem : emit .cycle w = (.ok (), { w with trace := w.trace ++ [.cycle] }) := rfl
    rw [hem]
    simp only
    obtain ⟨o, ho, ⟨hp, hs, hc⟩, hok⟩ := loop_seen (w.st.sorted.map TaskSt.name) { w with trace := w.trace ++ [.cycle] } hn
    have hcy : ∀ o' : List Obs, inspections ([.cycle] ++ o ++ o') = inspections o ++ inspections o' := by
      intro o'; rw [inspections_append, inspections_append]; rfl
    have hcs : ∀ o' : List Obs, starts ([.cycle] ++ o ++ o') = starts o ++ starts o' := by
      intro o'; rw [starts_append, starts_append]; rfl
    rw [bind_apply]
    rcases hr : forEach (w.st.sorted.map TaskSt.name) inspectTask { w with trace := w.trace ++ [.cycle] } with ⟨r, w1⟩
    rw [hr] at ho hok
    simp only at ho
    have ht1 : w1.trace = w.trace ++ ([.cycle] ++ o ++ []) := by rw [ho, List.append_nil, List.append_assoc]
    have done : ∀ o' : List Obs, (∀ x ∈ o', Neutral x) → Seen (w.st.sorted.map TaskSt.name) ([.cycle] ++ o ++ o') ∧
        inspections ([.cycle] ++ o ++ o') = inspections o := by
      intro o' h'
      have hv := neutral_views h'
      unfold Seen
      rw [hcy, hcs, hv.1, hv.2, List.append_nil, List.append_nil]
      exact ⟨⟨hp, hs, hc⟩, rfl⟩
    have fin : ∀ (r' : Res Unit) (w2 : World) (o' : List Obs), w2.trace = w.trace ++ ([.cycle] ++ o ++ o') → (∀ x ∈ o', Neutral x) →
        (r' = .ok () → r = .ok ()) →
        ∃ o, ((r', w2) : Res Unit × World).2.trace = w.trace ++ o ∧ inspections o <+: w.st.sorted.map TaskSt.name ∧
          (((r', w2) : Res Unit × World).1 = .ok () → inspections o = w.st.sorted.map TaskSt.name) ∧
          ((starts o).map Prod.fst).Sublist (w.st.sorted.map TaskSt.name) ∧ (∀ p ∈ starts o, p.2 = .cycle) := by
      intro r' w2 o' ho' h' hres
      have hd := done o' h'
      exact ⟨_, ho', hd.1.1, fun h => by rw [hd.2]; exact hok (hres h), hd.1.2.1.trans hd.1.1.sublist, hd.1.2.2⟩
    cases r with
    | raise e => exact fin _ w1 [] ht1 (fun _ h => by simp at h) (fun h => by simp at h)
    | cut => exact fin _ w1 [] ht1 (fun _ h => by simp at h) (fun h => by simp at h)
    | ok a =>
      simp only
      have he : ∀ e, Neutral (.env e) := fun _ => trivial
      have hrest : Emits Neutral (do handleLogs; checkThreadErrors; setCycles (fun k => k + 1); emit .cycleDone : M Unit) :=
        emits_bind (emits_handleLogs he) (fun _ => emits_bind (emits_checkThreadErrors he) (fun _ =>
          emits_bind (emits_same (fun _ => rfl)) (fun _ => emits_emit trivial)))
      obtain ⟨o2, ho2, hp2⟩ := hrest w1
      have ht2 := ho2
      rw [ht1, List.append_nil, List.append_assoc] at ht2
      exact fin _ _ o2 ht2 hp2 (fun _ => rfl)

/-- Two tasks want the only slot: the one with the higher priority gets it, although it comes later in the session. -/
def contenders : World :=
  World.init (sessionOf 1 false [requested { idleTask "low" .process with priority := 1 },
      requested { idleTask "high" .process with priority := 2 }]) (fun _ => quiet false)

example : (contenders.st.tasks.map TaskSt.name).Nodup ∧ inspections (runCycle contenders).2.trace = ["high", "low"] ∧
    starts (runCycle contenders).2.trace = [("high", .cycle)] ∧ (runCycle contenders).1 = .ok () := by
  decide +kernel

end Rocketry.Props
