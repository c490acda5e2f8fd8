import Verif.Sched.Others

/-!
# What is observed while a part of the scheduler runs
-/

namespace Rocketry.Sched

variable {α β : Type} {P : Obs → Prop}

/-- All that is observed while `m` runs satisfies `P`. -/
def Emits (P : Obs → Prop) (m : M α) : Prop := ∀ w, ∃ o, (m w).2.trace = w.trace ++ o ∧ ∀ x ∈ o, P x

theorem emits_same {m : M α} (h : ∀ w, (m w).2.trace = w.trace) : Emits P m :=
  fun w => ⟨[], by rw [h, List.append_nil], fun _ hx => by simp at hx⟩

theorem emits_pure (a : α) : Emits P (pure a : M α) := emits_same (fun _ => rfl)
theorem emits_raise (e : Exc) : Emits P (raise e : M α) := emits_same (fun _ => rfl)
theorem emits_get : Emits P get := emits_same (fun _ => rfl)
theorem emits_put (s : Sys) : Emits P (put s) := emits_same (fun _ => rfl)
theorem emits_change (n : String) (f : TaskSt → TaskSt) : Emits P (change n f) := emits_same (fun _ => rfl)

theorem emits_emit {o : Obs} (h : P o) : Emits P (emit o) :=
  fun w => ⟨[o], rfl, fun x hx => by rw [List.mem_singleton.1 hx]; exact h⟩

theorem emits_bind {m : M α} {k : α → M β} (hm : Emits P m) (hk : ∀ a, Emits P (k a)) : Emits P (m >>= k) := by
  intro w
  rw [bind_apply]
  obtain ⟨o, ho, hp⟩ := hm w
  rcases hr : m w with ⟨r, w'⟩
  rw [hr] at ho
  cases r with
  | ok a =>
    obtain ⟨o', ho', hp'⟩ := hk a w'
    refine ⟨o ++ o', by simp only at ho ⊢; rw [ho', ho, List.append_assoc], fun x hx => ?_⟩
    exact (List.mem_append.1 hx).elim (hp x) (hp' x)
  | raise e => exact ⟨o, ho, hp⟩
  | cut => exact ⟨o, ho, hp⟩

theorem emits_bind_get {k : Sys → M β} (hk : ∀ w : World, Emits P (k w.st)) : Emits P (get >>= k) := fun w => hk w w

theorem emits_ite {c : Prop} [Decidable c] {m k : M α} (hm : Emits P m) (hk : Emits P k) : Emits P (if c then m else k) := by
  split
  · exact hm
  · exact hk

theorem emits_tryCatch {m : M α} {h : Exc → M α} (hm : Emits P m) (hh : ∀ e, Emits P (h e)) : Emits P (tryCatch m h) := by
  intro w
  unfold tryCatch
  obtain ⟨o, ho, hp⟩ := hm w
  rcases hr : m w with ⟨r, w'⟩
  rw [hr] at ho
  cases r with
  | ok a => exact ⟨o, ho, hp⟩
  | cut => exact ⟨o, ho, hp⟩
  | raise e =>
    obtain ⟨o', ho', hp'⟩ := hh e w'
    refine ⟨o ++ o', by simp only at ho ⊢; rw [ho', ho, List.append_assoc], fun x hx => ?_⟩
    exact (List.mem_append.1 hx).elim (hp x) (hp' x)

theorem emits_forEach {l : List α} {f : α → M Unit} (hf : ∀ a ∈ l, Emits P (f a)) : Emits P (forEach l f) := by
  induction l with
  | nil => exact emits_pure _
  | cons a l ih =>
    exact emits_bind (hf a (List.mem_cons_self ..)) (fun _ => ih (fun b hb => hf b (List.mem_cons_of_mem _ hb)))

theorem Emits.mono {Q : Obs → Prop} {m : M α} (h : Emits P m) (hq : ∀ x, P x → Q x) : Emits Q m := fun w => by
  obtain ⟨o, ho, hp⟩ := h w
  exact ⟨o, ho, fun x hx => hq x (hp x hx)⟩

section Env
variable (he : ∀ e, P (.env e))
include he

theorem emits_choose : Emits P choose := fun w => by
  obtain ⟨w1, hc, hf⟩ := follow_choose "" w
  refine ⟨_, by rw [hc]; exact hf.trace, fun x hx => ?_⟩
  obtain ⟨e, _, rfl⟩ := List.mem_map.1 hx
  exact he e

theorem emits_handleLogs : Emits P handleLogs := by
  unfold handleLogs
  refine emits_bind (emits_choose he) (fun c => emits_bind emits_get (fun s => ?_))
  split
  · exact emits_ite (emits_pure _) (emits_raise _)
  · exact emits_raise _
  · exact emits_pure _

theorem emits_cleanRunStack (name : String) : Emits P (cleanRunStack name) := emits_same (fun _ => rfl)

theorem emits_checkThreadErrors : Emits P checkThreadErrors := by
  unfold checkThreadErrors
  refine emits_bind emits_get (fun s => emits_ite (emits_pure _) (emits_forEach (fun n _ => ?_)))
  unfold checkExceptions
  refine emits_bind emits_get (fun s => ?_)
  split
  · exact emits_pure _
  · split
    · exact emits_pure _
    · exact emits_bind (emits_change _ _) (fun _ => emits_raise _)

theorem emits_isTaskRunnable (name : String) (hk : ∀ m b, P (.checked name m b)) : Emits P (isTaskRunnable name) := by
  unfold isTaskRunnable
  refine emits_bind_get (fun w => ?_)
  rcases hf : w.st.find name with _ | t
  · exact emits_raise _
  · have hn : t.name = name := by simpa using List.find?_some hf
    refine emits_ite (emits_pure _) (emits_ite (emits_pure _) ?_)
    unfold checkTaskCond isRunnable
    refine emits_tryCatch ?_ (fun e => emits_bind emits_get (fun s => emits_ite (emits_pure _) (emits_raise _)))
    refine emits_ite (emits_bind (emits_emit (hn ▸ hk _ _)) (fun _ => emits_pure _))
      (emits_ite (emits_pure _) (emits_bind (emits_choose he) (fun c => emits_bind (emits_emit (hn ▸ hk _ _)) (fun _ => ?_))))
    split
    · exact emits_pure _
    · exact emits_raise _

theorem emits_terminateRun (name : String) (id : Nat) (ht : ∀ i, P (.terminated name i)) : Emits P (terminateRun name id) := by
  unfold terminateRun
  refine emits_bind emits_get (fun s => ?_)
  split
  · exact emits_pure _
  · split
    · exact emits_pure _
    · split
      · exact emits_raise _
      · exact emits_emit (ht _)
      · refine emits_bind (emits_emit (ht _)) (fun _ => emits_bind (emits_choose he) (fun c => emits_bind (emits_change _ _) (fun _ => ?_)))
        split
        · exact emits_raise _
        · exact emits_ite (emits_raise _) (emits_pure _)
        · exact emits_pure _

theorem emits_terminateAll (name : String) (ht : ∀ i, P (.terminated name i)) : Emits P (terminateAll name) := by
  unfold terminateAll
  refine emits_bind emits_get (fun s => ?_)
  split
  · exact emits_pure _
  · exact emits_bind (emits_forEach (fun _ _ => emits_terminateRun he _ _ ht)) (fun _ => emits_change _ _)

theorem emits_checkTermination (name : String) (ht : ∀ i, P (.terminated name i)) : Emits P (checkTermination name) := by
  unfold checkTermination
  refine emits_bind (emits_choose he) (fun c => emits_bind emits_get (fun s => ?_))
  split
  · exact emits_pure _
  · split
    · exact emits_ite (emits_terminateAll he _ ht) (emits_raise _)
    · refine emits_ite (emits_terminateAll he _ ht) (emits_ite (emits_terminateAll he _ ht) (emits_ite (emits_pure _) ?_))
      refine emits_forEach (fun id _ => ?_)
      unfold terminateOld
      refine emits_bind emits_get (fun s => ?_)
      split
      · exact emits_pure _
      · split
        · exact emits_pure _
        · exact emits_ite (emits_terminateRun he _ _ ht) (emits_pure _)

theorem emits_runOn (name : String) (id : Nat) (kind : Exec) (f : Option Fault) (hm : P (.mainEnded name id)) : Emits P (runOn name id kind f) := by
  unfold runOn
  cases kind with
  | main =>
    refine emits_ite (emits_bind (emits_same (fun _ => rfl)) (fun _ => emits_raise _)) ?_
    refine emits_bind (emits_choose he) (fun d => emits_bind (emits_emit hm) (fun _ => emits_bind (emits_same (fun _ => rfl)) (fun _ => emits_same (fun w => ?_))))
    rw [mainEnd_apply]
  | async => exact emits_ite (emits_raise _) (emits_pure _)
  | thread => exact emits_ite (emits_change _ _) (emits_pure _)
  | process => exact emits_ite (emits_bind (emits_change _ _) (fun _ => emits_raise _)) (emits_ite (emits_raise _) (emits_pure _))

end Env

end Rocketry.Sched
