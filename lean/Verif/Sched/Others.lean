import Verif.Sched.Follow

/-!
# Steps that do not concern a task
-/

namespace Rocketry.Sched

variable {α β : Type} {name : String}

/-- While `m` runs, runs of the task called `name` only end by themselves. -/
def Follows (name : String) (m : M α) : Prop := ∀ w, ∃ l, Follow name l w (m w).2

theorem follows_same {m : M α} (h : ∀ w, (m w).2 = w) : Follows name m := fun w => ⟨[], by rw [h]; exact .refl _ _⟩

theorem follows_pure (a : α) : Follows name (pure a : M α) := follows_same (fun _ => rfl)
theorem follows_raise (e : Exc) : Follows name (raise e : M α) := follows_same (fun _ => rfl)
theorem follows_get : Follows name get := follows_same (fun _ => rfl)

theorem follows_bind {m : M α} {k : α → M β} (hm : Follows name m) (hk : ∀ a, Follows name (k a)) : Follows name (m >>= k) := by
  intro w
  rw [bind_apply]
  obtain ⟨l, hl⟩ := hm w
  rcases hr : m w with ⟨r, w'⟩
  rw [hr] at hl
  cases r with
  | ok a =>
    obtain ⟨l', hl'⟩ := hk a w'
    exact ⟨l ++ l', hl.trans hl'⟩
  | raise e => exact ⟨l, hl⟩
  | cut => exact ⟨l, hl⟩

theorem follows_ite {c : Prop} [Decidable c] {m k : M α} (hm : Follows name m) (hk : Follows name k) :
    Follows name (if c then m else k) := by
  split
  · exact hm
  · exact hk

theorem follows_emit (o : Obs) : Follows name (emit o) := fun _ => ⟨[o], follow_same rfl rfl rfl rfl⟩

theorem follows_choose : Follows name choose := fun w => by
  obtain ⟨w1, h, hf⟩ := follow_choose name w
  exact ⟨_, by rw [h]; exact hf⟩

theorem follows_change {m : String} (hne : name ≠ m) {g : TaskSt → TaskSt} (hg : ∀ t, SameSet t (g t)) :
    Follows name (change m g) := fun w =>
  ⟨[], follow_upd (m := m) (g := g) rfl (List.append_nil _).symm rfl hg (fun h => absurd h.symm hne)⟩

theorem follows_forEach {l : List α} {f : α → M Unit} (hf : ∀ a ∈ l, Follows name (f a)) : Follows name (forEach l f) := by
  induction l with
  | nil => exact follows_pure _
  | cons a l ih =>
    exact follows_bind (hf a (List.mem_cons_self ..)) (fun _ => ih (fun b hb => hf b (List.mem_cons_of_mem _ hb)))

theorem clean_same (cfg : Config) (t : TaskSt) : SameSet t (t.clean cfg) := (evolves_clean cfg t).toSameSet

theorem follows_terminateRun {m : String} (hne : name ≠ m) (id : Nat) : Follows name (terminateRun m id) := by
  unfold terminateRun
  refine follows_bind follows_get (fun s => ?_)
  split
  · exact follows_pure _
  · split
    · exact follows_pure _
    · split
      · exact follows_raise _
      · exact follows_emit _
      · refine follows_bind (follows_emit _) (fun _ => follows_bind follows_choose (fun c => ?_))
        refine follows_bind (follows_change hne (fun t => ⟨rfl, rfl, rfl, rfl, rfl, rfl, rfl, rfl, rfl⟩)) (fun _ => ?_)
        split
        · exact follows_raise _
        · exact follows_ite (follows_raise _) (follows_pure _)
        · exact follows_pure _

theorem follows_terminateAll {m : String} (hne : name ≠ m) : Follows name (terminateAll m) := by
  unfold terminateAll
  refine follows_bind follows_get (fun s => ?_)
  split
  · exact follows_pure _
  · refine follows_bind (follows_forEach (fun id _ => follows_terminateRun hne id)) (fun _ => ?_)
    refine follows_change hne (fun t => ?_)
    have h := clean_same s.cfg t
    exact ⟨h.name, h.priority, h.execution, h.multilaunch, h.onStartup, h.onShutdown, h.permanent, h.timeout, h.noCond⟩

/-- What was observed and passed through is kept: a record of an execution from `w0` on. -/
structure Grows (w0 w : World) : Prop where
  trace : w0.trace <+: w.trace
  moments : w0.moments <:+ w.moments
  env : w.env = w0.env

theorem Grows.refl (w : World) : Grows w w := ⟨List.prefix_rfl, List.suffix_rfl, rfl⟩

theorem Grows.trans {a b c : World} (h : Grows a b) (h' : Grows b c) : Grows a c :=
  ⟨h.trace.trans h'.trace, h.moments.trans h'.moments, h'.env.trans h.env⟩

theorem steady_grows (w0 : World) : Steady (Grows w0) where
  pos := fun _ _ h => ⟨h.trace, h.moments, h.env⟩
  env := fun _ _ _ h _ => ⟨h.trace.trans (List.prefix_append ..), h.moments.trans (List.suffix_cons ..), h.env⟩
  request := fun _ _ _ h => ⟨h.trace.trans (List.prefix_append ..), h.moments.trans (List.suffix_cons ..), h.env⟩
  note := fun _ _ _ h => ⟨h.trace.trans (List.prefix_append ..), h.moments, h.env⟩
  move := fun _ _ _ h => ⟨h.trace, h.moments.trans (List.suffix_cons ..), h.env⟩
  mark := fun _ _ _ h => ⟨h.trace.trans (List.prefix_append ..), h.moments, h.env⟩
  flags := fun _ h => ⟨h.trace, h.moments.trans (List.suffix_cons ..), h.env⟩

end Rocketry.Sched
