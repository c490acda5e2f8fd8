import Verif.Sched.Launch
import Verif.Spec.SchedSpec

/-!
# How the tasks change when no run is started
-/

namespace Rocketry.Sched

/-- Number of live runs of the given kinds. -/
def live (k : Exec → Bool) (l : List Run) : Nat := l.countP (fun r => k r.kind && r.alive)

/-- Runs in `l'` are those of `l`, some of them ended, some of them dropped. -/
structure Fades (l l' : List Run) : Prop where
  live : ∀ k, live k l' ≤ live k l
  from_ : ∀ r' ∈ l', ∃ r ∈ l, r'.kind = r.kind ∧ r'.id = r.id ∧ r'.start = r.start ∧ (r'.alive = true → r.alive = true)
  ids : (l'.map Run.id).Sublist (l.map Run.id)

theorem Fades.refl (l : List Run) : Fades l l :=
  ⟨fun _ => Nat.le_refl _, fun r hr => ⟨r, hr, rfl, rfl, rfl, id⟩, List.Sublist.refl _⟩

theorem Fades.sublist {l l' : List Run} (h : l'.Sublist l) : Fades l l' :=
  ⟨fun _ => h.countP_le, fun r hr => ⟨r, h.subset hr, rfl, rfl, rfl, id⟩, h.map _⟩

theorem Fades.map {l : List Run} {g : Run → Run}
    (hg : ∀ r, (g r).kind = r.kind ∧ (g r).id = r.id ∧ (g r).start = r.start ∧ ((g r).alive = true → r.alive = true)) :
    Fades l (l.map g) := by
  constructor
  · intro k
    induction l with
    | nil => exact Nat.le_refl _
    | cons r l ih =>
      unfold Sched.live at ih ⊢
      rw [List.map_cons, List.countP_cons, List.countP_cons]
      have hr := hg r
      have : (if (k (g r).kind && (g r).alive) = true then 1 else 0) ≤ (if (k r.kind && r.alive) = true then 1 else 0) := by
        rw [hr.1]
        by_cases h1 : (g r).alive = true
        · rw [h1, hr.2.2.2 h1]; exact Nat.le_refl _
        · simp [h1]
      omega
  · intro r' hr'
    obtain ⟨r, hr, rfl⟩ := List.mem_map.1 hr'
    exact ⟨r, hr, hg r⟩
  · rw [List.map_map]
    have : Run.id ∘ g = Run.id := funext (fun r => (hg r).2.1)
    rw [this]; exact List.Sublist.refl _

theorem Fades.trans {a b c : List Run} (h1 : Fades a b) (h2 : Fades b c) : Fades a c := by
  refine ⟨fun k => Nat.le_trans (h2.live k) (h1.live k), fun r hr => ?_, h2.ids.trans h1.ids⟩
  obtain ⟨x, hx, h⟩ := h2.from_ r hr
  obtain ⟨y, hy, h'⟩ := h1.from_ x hx
  exact ⟨y, hy, h.1.trans h'.1, h.2.1.trans h'.2.1, h.2.2.1.trans h'.2.2.1, fun ha => h'.2.2.2 (h.2.2.2 ha)⟩

theorem fades_endRun (id : Nat) (exc : Bool) (l : List Run) : Fades l (endRun id exc l) := by
  apply Fades.map
  intro r
  split
  · exact ⟨rfl, rfl, rfl, fun h => by simp [Run.ended] at h⟩
  · exact ⟨rfl, rfl, rfl, fun h => h⟩

theorem fades_clean (cfg : Config) (t : TaskSt) : Fades t.stack (t.clean cfg).stack := by
  unfold TaskSt.clean
  split <;> exact Fades.sublist List.filter_sublist

/-- The settings of a task that do not change. -/
structure SameSet (t t' : TaskSt) : Prop where
  name : t'.name = t.name
  priority : t'.priority = t.priority
  execution : t'.execution = t.execution
  multilaunch : t'.multilaunch = t.multilaunch
  onStartup : t'.onStartup = t.onStartup
  onShutdown : t'.onShutdown = t.onShutdown
  permanent : t'.permanent = t.permanent
  timeout : t'.timeout = t.timeout
  noCond : t'.noCond = t.noCond

theorem SameSet.refl (t : TaskSt) : SameSet t t := ⟨rfl, rfl, rfl, rfl, rfl, rfl, rfl, rfl, rfl⟩

/-- A task changes without a start. -/
structure Evolves (t t' : TaskSt) : Prop extends SameSet t t' where
  stack : Fades t.stack t'.stack
  strays : Fades t.strays t'.strays

theorem Evolves.refl (t : TaskSt) : Evolves t t := ⟨SameSet.refl t, .refl _, .refl _⟩

theorem evolves_clean (cfg : Config) (t : TaskSt) : Evolves t (t.clean cfg) := by
  have h := fades_clean cfg t
  unfold TaskSt.clean at h ⊢
  split
  · rename_i hc; rw [if_pos hc] at h; exact ⟨⟨rfl, rfl, rfl, rfl, rfl, rfl, rfl, rfl, rfl⟩, h, .refl _⟩
  · rename_i hc; rw [if_neg hc] at h; exact ⟨⟨rfl, rfl, rfl, rfl, rfl, rfl, rfl, rfl, rfl⟩, h, .refl _⟩

/-- The ways in which the tasks of a session change without a start. -/
inductive Drift (s s' : Sys) : Prop where
  | upd (n : String) (g : TaskSt → TaskSt) (h : s'.tasks = (s.upd n g).tasks) (hg : ∀ t, Evolves t (g t))
      (hm : ∀ t, (g t).member = t.member) (hi : s'.nextId = s.nextId) (hc : s'.cfg = s.cfg)
  | same (h : s'.tasks = s.tasks) (hi : s'.nextId = s.nextId) (hc : s'.cfg = s.cfg)
  | add (t : TaskSt) (h : s'.tasks = t :: s.tasks) (hn : t.name ∉ s.tasks.map TaskSt.name)
      (hs : t.stack = [] ∧ t.strays = []) (hm : t.member = true) (hi : s'.nextId = s.nextId) (hc : s'.cfg = s.cfg)
  | perm (h : s'.tasks.Perm s.tasks) (hi : s'.nextId = s.nextId) (hc : s'.cfg = s.cfg)

theorem drift_event (s : Sys) (e : EnvEv) (he : ∀ n, e ≠ .remove n) : Drift s (s.event e) := by
  cases e with
  | ends n id exc =>
    refine .upd n _ rfl (fun t => ⟨⟨rfl, rfl, rfl, rfl, rfl, rfl, rfl, rfl, rfl⟩, fades_endRun id exc _, ?_⟩) (fun _ => rfl) rfl rfl
    apply Fades.map
    intro r
    split
    · exact ⟨rfl, rfl, rfl, fun h => by simp [Run.ended] at h⟩
    · exact ⟨rfl, rfl, rfl, fun h => h⟩
  | request n b => exact .upd n _ rfl (fun t => ⟨⟨rfl, rfl, rfl, rfl, rfl, rfl, rfl, rfl, rfl⟩, .refl _, .refl _⟩) (fun _ => rfl) rfl rfl
  | terminate n => exact .upd n _ rfl (fun t => ⟨⟨rfl, rfl, rfl, rfl, rfl, rfl, rfl, rfl, rfl⟩, .refl _, .refl _⟩) (fun _ => rfl) rfl rfl
  | disable n b => exact .upd n _ rfl (fun t => ⟨⟨rfl, rfl, rfl, rfl, rfl, rfl, rfl, rfl, rfl⟩, .refl _, .refl _⟩) (fun _ => rfl) rfl rfl
  | hold b => exact .same rfl rfl rfl
  | shutDown f => exact .same rfl rfl rfl
  | restart => exact .same rfl rfl rfl
  | add t =>
    simp only [Sys.event]
    by_cases h : t.name ∈ s.tasks.map TaskSt.name
    · rw [if_pos h]; exact .same rfl rfl rfl
    · rw [if_neg h]; exact .add _ rfl h ⟨rfl, rfl⟩ rfl rfl rfl
  | remove n => exact absurd rfl (he n)
  | reorder l =>
    simp only [Sys.event]
    by_cases h : l.isPerm s.tasks = true
    · rw [if_pos h]; exact .perm (List.isPerm_iff.1 h) rfl rfl
    · rw [if_neg h]; exact .same rfl rfl rfl

theorem drift_tidy {s s' : Sys} (h : Tidy s s') : Drift s s' := by
  cases h with
  | clean n cfg => exact .upd n _ rfl (evolves_clean cfg) (fun t => by unfold TaskSt.clean; split <;> rfl) rfl rfl
  | finish n id exc =>
    exact .upd n _ rfl (fun t => ⟨⟨rfl, rfl, rfl, rfl, rfl, rfl, rfl, rfl, rfl⟩, fades_endRun id exc _, .refl _⟩) (fun _ => rfl) rfl rfl
  | reset n cfg =>
    refine .upd n _ rfl (fun t => ?_) (fun t => ?_) rfl rfl
    · have h := evolves_clean cfg t
      exact ⟨⟨h.name, h.priority, h.execution, h.multilaunch, h.onStartup, h.onShutdown, h.permanent, h.timeout, h.noCond⟩,
        h.stack, h.strays⟩
    · show (t.clean cfg).member = t.member
      unfold TaskSt.clean; split <;> rfl
  | erase n r =>
    exact .upd n _ rfl (fun t => ⟨⟨rfl, rfl, rfl, rfl, rfl, rfl, rfl, rfl, rfl⟩, Fades.sublist List.eraseP_sublist, .refl _⟩)
      (fun _ => rfl) rfl rfl
  | cycles k => exact .same rfl rfl rfl

theorem drift_flags (s : Sys) : Drift s { s with shutdown := false, restart := false, enabled := true } :=
  .same rfl rfl rfl

theorem drift_pop (s : Sys) (n : String) : Drift s (s.pop n) :=
  .upd n _ rfl (fun t => ⟨⟨rfl, rfl, rfl, rfl, rfl, rfl, rfl, rfl, rfl⟩, .refl _, .refl _⟩) (fun _ => rfl) rfl rfl

theorem drift_drop (s : Sys) (n : String) : Drift s (s.drop n false) := by
  refine .upd n _ rfl (fun t => ⟨⟨rfl, rfl, rfl, rfl, rfl, rfl, rfl, rfl, rfl⟩, Fades.sublist List.filter_sublist, ?_⟩)
    (fun _ => rfl) rfl rfl
  show Fades t.strays (t.strays ++ (if false = true then _ else []))
  rw [if_neg (by simp), List.append_nil]
  exact .refl _

theorem upd_names (s : Sys) (n : String) (g : TaskSt → TaskSt) (hg : ∀ t, (g t).name = t.name) :
    (s.upd n g).tasks.map TaskSt.name = s.tasks.map TaskSt.name := by
  unfold Sys.upd
  rw [List.map_map]
  apply List.map_congr_left
  intro t _
  simp only [Function.comp]
  split
  · exact hg t
  · rfl

theorem upd_nodup {s : Sys} {n : String} {g : TaskSt → TaskSt} (h : (s.tasks.map TaskSt.name).Nodup)
    (hg : ∀ t, (g t).name = t.name) : ((s.upd n g).tasks.map TaskSt.name).Nodup := by
  rw [upd_names s n g hg]; exact h

variable {s s' : Sys}

theorem Drift.nodup (h : Drift s s') (hn : (s.tasks.map TaskSt.name).Nodup) : (s'.tasks.map TaskSt.name).Nodup := by
  cases h with
  | upd n g h hg hm => rw [h, upd_names s n g (fun t => (hg t).name)]; exact hn
  | same h => rw [h]; exact hn
  | add t h ht hs hm => rw [h, List.map_cons]; exact List.nodup_cons.2 ⟨ht, hn⟩
  | perm h => exact (h.map _).nodup_iff.2 hn

/-- Each task afterwards comes from one before, or is new. -/
theorem Drift.back (h : Drift s s') {t' : TaskSt} (ht : t' ∈ s'.tasks) :
    (∃ t ∈ s.tasks, Evolves t t' ∧ t'.member = t.member) ∨
      (t'.name ∉ s.tasks.map TaskSt.name ∧ t'.stack = [] ∧ t'.strays = [] ∧ t'.member = true) := by
  cases h with
  | upd n g h hg hm =>
    rw [h] at ht
    rcases mem_upd ht with ⟨ht, _⟩ | ⟨u, hu, _, rfl⟩
    · exact Or.inl ⟨t', ht, .refl _, rfl⟩
    · exact Or.inl ⟨u, hu, hg u, hm u⟩
  | same h => rw [h] at ht; exact Or.inl ⟨t', ht, .refl _, rfl⟩
  | add t h hn hs hm =>
    rw [h] at ht
    rcases List.mem_cons.1 ht with rfl | ht
    · exact Or.inr ⟨hn, hs.1, hs.2, hm⟩
    · exact Or.inl ⟨t', ht, .refl _, rfl⟩
  | perm h => exact Or.inl ⟨t', h.mem_iff.1 ht, .refl _, rfl⟩

/-- Each task before is still there. -/
theorem Drift.forth (h : Drift s s') {t : TaskSt} (ht : t ∈ s.tasks) : ∃ t' ∈ s'.tasks, Evolves t t' ∧ t'.member = t.member := by
  cases h with
  | upd n g h hg hm =>
    rw [h]
    by_cases hn : t.name = n
    · exact ⟨g t, List.mem_map.2 ⟨t, ht, if_pos hn⟩, hg t, hm t⟩
    · exact ⟨t, List.mem_map.2 ⟨t, ht, if_neg hn⟩, .refl _, rfl⟩
  | same h => rw [h]; exact ⟨t, ht, .refl _, rfl⟩
  | add u h hn hs hm => rw [h]; exact ⟨t, List.mem_cons_of_mem _ ht, .refl _, rfl⟩
  | perm h => exact ⟨t, h.mem_iff.2 ht, .refl _, rfl⟩

theorem Drift.cfg (h : Drift s s') : s'.cfg = s.cfg := by cases h <;> assumption

theorem Drift.nextId (h : Drift s s') : s'.nextId = s.nextId := by cases h <;> assumption

/-- The sum of a weight of the tasks. -/
def weight (f : TaskSt → Nat) (s : Sys) : Nat := (s.tasks.map f).sum

theorem sum_map_le {f g : TaskSt → Nat} : ∀ l : List TaskSt, (∀ t ∈ l, f t ≤ g t) → (l.map f).sum ≤ (l.map g).sum
  | [], _ => Nat.le_refl _
  | t :: l, h => by
    have := sum_map_le l (fun u hu => h u (List.mem_cons_of_mem _ hu))
    have := h t (List.mem_cons_self ..)
    simp only [List.map_cons, List.sum_cons]
    omega

theorem weight_upd_le {f : TaskSt → Nat} (n : String) (g : TaskSt → TaskSt) (h : ∀ t, f (g t) ≤ f t) :
    weight f (s.upd n g) ≤ weight f s := by
  unfold weight Sys.upd
  rw [List.map_map]
  apply sum_map_le
  intro t _
  simp only [Function.comp]
  split
  · exact h t
  · exact Nat.le_refl _

theorem weight_upd_add {f : TaskSt → Nat} (n : String) (g : TaskSt → TaskSt) (k : Nat)
    (hn : (s.tasks.map TaskSt.name).Nodup) (h : ∀ t, f (g t) ≤ f t + k) : weight f (s.upd n g) ≤ weight f s + k := by
  unfold weight Sys.upd
  rw [List.map_map]
  generalize s.tasks = l at hn
  induction l with
  | nil => simp
  | cons t l ih =>
    have hn' := List.nodup_cons.1 hn
    simp only [List.map_cons, List.sum_cons, Function.comp]
    by_cases ht : t.name = n
    · rw [if_pos ht]
      have : (l.map (f ∘ fun t => if t.name = n then g t else t)).sum = (l.map f).sum := by
        congr 1
        apply List.map_congr_left
        intro u hu
        simp only [Function.comp]
        rw [if_neg]
        intro hun
        exact hn'.1 (List.mem_map.2 ⟨u, hu, by rw [hun, ht]⟩)
      have h1 := h t
      rw [this]
      omega
    · rw [if_neg ht]
      have := ih hn'.2
      omega

theorem weight_perm {f : TaskSt → Nat} (h : s'.tasks.Perm s.tasks) : weight f s' = weight f s := by
  unfold weight
  exact (h.map f).sum_nat

theorem Drift.weight (h : Drift s s') {f : TaskSt → Nat} (hf : ∀ t t', Evolves t t' → f t' ≤ f t)
    (hz : ∀ t, t.stack = [] → t.strays = [] → f t = 0) : weight f s' ≤ weight f s := by
  cases h with
  | upd n g h hg hm =>
    have := weight_upd_le (s := s) n g (fun t => hf _ _ (hg t))
    unfold Sched.weight at this ⊢
    rw [h]; exact this
  | same h => unfold Sched.weight; rw [h]; exact Nat.le_refl _
  | add t h hn hs hm => unfold Sched.weight; rw [h, List.map_cons, List.sum_cons, hz t hs.1 hs.2]; omega
  | perm h => rw [weight_perm h]; exact Nat.le_refl _

/-- The tasks with a given name are the same. -/
theorem name_inj {l : List TaskSt} (hn : (l.map TaskSt.name).Nodup) {t u : TaskSt} (ht : t ∈ l) (hu : u ∈ l)
    (h : t.name = u.name) : t = u := by
  induction l with
  | nil => simp at ht
  | cons a l ih =>
    have hn' := List.nodup_cons.1 hn
    rcases List.mem_cons.1 ht with rfl | ht' <;> rcases List.mem_cons.1 hu with rfl | hu'
    · rfl
    · exact absurd (List.mem_map.2 ⟨u, hu', h.symm⟩) hn'.1
    · exact absurd (List.mem_map.2 ⟨t, ht', h⟩) hn'.1
    · exact ih hn'.2 ht' hu'

/-- A drift or a removal from the session. -/
structure Shift (s s' : Sys) : Prop where
  nodup : (s.tasks.map TaskSt.name).Nodup → (s'.tasks.map TaskSt.name).Nodup
  back : ∀ t' ∈ s'.tasks, (∃ t ∈ s.tasks, Evolves t t') ∨
    (t'.name ∉ s.tasks.map TaskSt.name ∧ t'.stack = [] ∧ t'.strays = [])
  forth : ∀ t ∈ s.tasks, ∃ t' ∈ s'.tasks, Evolves t t'
  cfg : s'.cfg = s.cfg
  nextId : s'.nextId = s.nextId

theorem Drift.shift {s s' : Sys} (h : Drift s s') : Shift s s' where
  nodup := h.nodup
  back := fun _ ht => (h.back ht).imp (fun ⟨t, ht, he, _⟩ => ⟨t, ht, he⟩) (fun ⟨a, b, c, _⟩ => ⟨a, b, c⟩)
  forth := fun _ ht => (h.forth ht).imp (fun _ ⟨ht, he, _⟩ => ⟨ht, he⟩)
  cfg := h.cfg
  nextId := h.nextId

theorem shift_event (s : Sys) (e : EnvEv) : Shift s (s.event e) := by
  by_cases he : ∃ n, e = .remove n
  · obtain ⟨n, rfl⟩ := he
    refine ⟨fun h => upd_nodup h (fun _ => rfl), fun t' ht' => ?_, fun t ht => ?_, rfl, rfl⟩
    · rcases mem_upd ht' with ⟨ht, _⟩ | ⟨u, hu, _, rfl⟩
      · exact Or.inl ⟨t', ht, .refl _⟩
      · exact Or.inl ⟨u, hu, ⟨⟨rfl, rfl, rfl, rfl, rfl, rfl, rfl, rfl, rfl⟩, .refl _, .refl _⟩⟩
    · by_cases hn : t.name = n
      · exact ⟨_, List.mem_map.2 ⟨t, ht, if_pos hn⟩, ⟨⟨rfl, rfl, rfl, rfl, rfl, rfl, rfl, rfl, rfl⟩, .refl _, .refl _⟩⟩
      · exact ⟨t, List.mem_map.2 ⟨t, ht, if_neg hn⟩, .refl _⟩
  · exact (drift_event s e (fun n hn => he ⟨n, hn⟩)).shift

end Rocketry.Sched
