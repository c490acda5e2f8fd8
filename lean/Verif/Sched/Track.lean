import Verif.Sched.Core
import Verif.Sched.Follow
import Verif.Props.CoupleProps

/-!
# The runs that go on according to the record of an execution are alive in the run stacks
-/

namespace Rocketry.Sched
open Rocketry.Spec Rocketry.Props

variable {s s' : Sys} {x : String → Nat → Prop}

/-- No task is added and no run started; runs that are alive and not in `x` stay. -/
structure Wane (x : String → Nat → Prop) (s s' : Sys) : Prop where
  names : (s'.tasks.map TaskSt.name).Perm (s.tasks.map TaskSt.name)
  cfg : s'.cfg = s.cfg
  back : ∀ t' ∈ s'.tasks, ∃ t ∈ s.tasks, SameSet t t' ∧ (t'.member = true → t.member = true) ∧
    ∀ r' ∈ t'.stack, ∃ r ∈ t.stack, r'.kind = r.kind
  keep : ∀ t ∈ s.tasks, ∃ t' ∈ s'.tasks, t'.name = t.name ∧
    ∀ r ∈ t.stack, r.alive = true → r.exc = false → ¬ x t.name r.id → r ∈ t'.stack

theorem wane_upd (n : String) (g : TaskSt → TaskSt) (h : s'.tasks = (s.upd n g).tasks) (hc : s'.cfg = s.cfg)
    (hg : ∀ t, SameSet t (g t)) (hk : ∀ t, ∀ r' ∈ (g t).stack, ∃ r ∈ t.stack, r'.kind = r.kind)
    (ha : ∀ t : TaskSt, ∀ r ∈ t.stack, r.alive = true → r.exc = false → ¬ x n r.id → r ∈ (g t).stack)
    (hm : ∀ t : TaskSt, (g t).member = true → t.member = true := by intro t h; exact h) : Wane x s s' where
  names := by rw [h, upd_names s n g (fun t => (hg t).name)]
  cfg := hc
  back := fun t' ht' => by
    rw [h] at ht'
    rcases mem_upd ht' with ⟨ht, _⟩ | ⟨u, hu, _, rfl⟩
    · exact ⟨t', ht, .refl _, id, fun r hr => ⟨r, hr, rfl⟩⟩
    · exact ⟨u, hu, hg u, hm u, hk u⟩
  keep := fun t ht => by
    rw [h]
    by_cases hn : t.name = n
    · exact ⟨g t, List.mem_map.2 ⟨t, ht, if_pos hn⟩, (hg t).name, by rw [hn]; exact ha t⟩
    · exact ⟨t, List.mem_map.2 ⟨t, ht, if_neg hn⟩, rfl, fun r hr _ _ _ => hr⟩

theorem wane_same (h : s'.tasks = s.tasks) (hc : s'.cfg = s.cfg) : Wane x s s' where
  names := by rw [h]
  cfg := hc
  back := fun t ht => ⟨t, h ▸ ht, .refl _, id, fun r hr => ⟨r, hr, rfl⟩⟩
  keep := fun t ht => ⟨t, h ▸ ht, rfl, fun r hr _ _ _ => hr⟩

theorem wane_endRun (n : String) (id : Nat) (exc : Bool) (s : Sys) :
    Wane (fun m i => m = n ∧ i = id) s (s.upd n (fun t => { t with stack := endRun id exc t.stack })) := by
  refine wane_upd n _ rfl rfl (fun t => ⟨rfl, rfl, rfl, rfl, rfl, rfl, rfl, rfl, rfl⟩) (fun t r' hr' => ?_)
    (fun t r hr _ _ hx => ?_)
  · rcases mem_endRun hr' with h | ⟨y, hy, _, rfl⟩
    · exact ⟨r', h, rfl⟩
    · exact ⟨y, hy, rfl⟩
  · exact List.mem_map.2 ⟨r, hr, if_neg (fun h => hx ⟨rfl, h.1⟩)⟩

/-- Which runs an event may end. -/
def endsRun (e : EnvEv) (n : String) (i : Nat) : Prop := ∃ exc, e = .ends n i exc

theorem wane_event (s : Sys) (e : EnvEv) (he : ∀ t, e ≠ .add t) : Wane (endsRun e) s (s.event e) := by
  have plain : ∀ (n : String) (g : TaskSt → TaskSt), (s.event e).tasks = (s.upd n g).tasks → (s.event e).cfg = s.cfg →
      (∀ t, SameSet t (g t)) → (∀ t : TaskSt, (g t).stack = t.stack) → (∀ t : TaskSt, (g t).member = true → t.member = true) →
      Wane (endsRun e) s (s.event e) :=
    fun n g h hc hg hst hm => wane_upd n g h hc hg (fun t r hr => ⟨r, by rw [← hst t]; exact hr, rfl⟩)
      (fun t r hr _ _ _ => by rw [hst t]; exact hr) hm
  cases e with
  | ends n id exc =>
    refine wane_upd n _ rfl rfl (fun t => ⟨rfl, rfl, rfl, rfl, rfl, rfl, rfl, rfl, rfl⟩) (fun t r' hr' => ?_)
      (fun t r hr _ _ hx => ?_)
    · rcases mem_endRun hr' with h | ⟨y, hy, _, rfl⟩
      · exact ⟨r', h, rfl⟩
      · exact ⟨y, hy, rfl⟩
    · exact List.mem_map.2 ⟨r, hr, if_neg (fun h => hx ⟨exc, by rw [h.1]⟩)⟩
  | request n b => exact plain n _ rfl rfl (fun t => ⟨rfl, rfl, rfl, rfl, rfl, rfl, rfl, rfl, rfl⟩) (fun _ => rfl) (fun _ h => h)
  | terminate n => exact plain n _ rfl rfl (fun t => ⟨rfl, rfl, rfl, rfl, rfl, rfl, rfl, rfl, rfl⟩) (fun _ => rfl) (fun _ h => h)
  | disable n b => exact plain n _ rfl rfl (fun t => ⟨rfl, rfl, rfl, rfl, rfl, rfl, rfl, rfl, rfl⟩) (fun _ => rfl) (fun _ h => h)
  | hold b => exact wane_same rfl rfl
  | shutDown f => exact wane_same rfl rfl
  | restart => exact wane_same rfl rfl
  | add t => exact absurd rfl (he t)
  | remove n => exact plain n _ rfl rfl (fun t => ⟨rfl, rfl, rfl, rfl, rfl, rfl, rfl, rfl, rfl⟩) (fun _ => rfl) (fun _ h => by simp at h)
  | reorder l =>
    simp only [Sys.event]
    split
    · rename_i hl
      have hp := List.isPerm_iff.1 hl
      exact ⟨hp.map _, rfl, fun t ht => ⟨t, hp.mem_iff.1 ht, .refl _, id, fun r hr => ⟨r, hr, rfl⟩⟩,
        fun t ht => ⟨t, hp.mem_iff.2 ht, rfl, fun r hr _ _ _ => hr⟩⟩
    · exact wane_same rfl rfl

theorem sameSet_clean (cfg : Config) (t : TaskSt) : SameSet t (t.clean cfg) := (evolves_clean cfg t).toSameSet

theorem clean_keeps (cfg : Config) (t : TaskSt) (r : Run) (hr : r ∈ t.stack) (ha : r.alive = true) : r ∈ (t.clean cfg).stack := by
  unfold TaskSt.clean
  split <;> simp [hr, ha]

theorem clean_member (cfg : Config) (t : TaskSt) (h : (t.clean cfg).member = true) : t.member = true := by
  unfold TaskSt.clean at h
  split at h <;> exact h

theorem wane_slight (h : Slight s s') : Wane x s s' := by
  cases h with
  | clean n cfg =>
    exact wane_upd n _ rfl rfl (sameSet_clean cfg) (fun t r hr => ⟨r, clean_stack hr, rfl⟩)
      (fun t r hr ha _ _ => clean_keeps cfg t r hr ha) (clean_member cfg)
  | reset n cfg =>
    refine wane_upd n _ rfl rfl (fun t => ?_) (fun t r hr => ⟨r, clean_stack hr, rfl⟩)
      (fun t r hr ha _ _ => clean_keeps cfg t r hr ha) (clean_member cfg)
    have := sameSet_clean cfg t
    exact ⟨this.1, this.2, this.3, this.4, this.5, this.6, this.7, this.8, this.9⟩
  | cycles k => exact wane_same rfl rfl
  | flags => exact wane_same rfl rfl

theorem wane_erase (s : Sys) (n : String) (r : Run) (hr : r.exc = true) :
    Wane x s (s.upd n (fun t => { t with stack := t.stack.eraseP (fun y => decide (y = r)) })) := by
  refine wane_upd n _ rfl rfl (fun t => ⟨rfl, rfl, rfl, rfl, rfl, rfl, rfl, rfl, rfl⟩)
    (fun t r' hr' => ⟨r', List.mem_of_mem_eraseP hr', rfl⟩) (fun t y hy _ he _ => ?_)
  refine (List.mem_eraseP_of_neg ?_).2 hy
  simp only [decide_eq_true_eq]
  rintro rfl
  rw [hr] at he
  cases he

theorem wane_pop (s : Sys) (n : String) : Wane x s (s.pop n) :=
  wane_upd n _ rfl rfl (fun _ => ⟨rfl, rfl, rfl, rfl, rfl, rfl, rfl, rfl, rfl⟩) (fun _ r hr => ⟨r, hr, rfl⟩)
    (fun _ _ hr _ _ _ => hr)

/-- The invariant; `b`: the `main` run that is going on. -/
structure TrackInv (K : String → Exec) (b : Option (String × Nat)) (w : World) : Prop where
  nodup : (w.st.tasks.map TaskSt.name).Nodup
  env : ∀ i, Reliable (w.env i)
  execution : ∀ t ∈ w.st.tasks, t.execution = K t.name
  single : ∀ t ∈ w.st.tasks, t.allowMulti w.st.cfg = false
  kinds : ∀ t ∈ w.st.tasks, ∀ r ∈ t.stack, r.kind = K t.name
  track : ∀ n, K n ≠ .main → ∀ i ∈ going K w.trace n,
    ∃ t ∈ w.st.tasks, t.name = n ∧ ∃ r ∈ t.stack, r.id = i ∧ r.alive = true ∧ r.exc = false
  mains : ∀ n, K n = .main → ∀ i ∈ going K w.trace n, b = some (n, i)
  orderly : Orderly K w.trace

variable {K : String → Exec} {b : Option (String × Nat)} {w w' : World}

theorem track_next (h : TrackInv K b w) (hw : Wane x w.st w'.st) (he : w'.env = w.env)
    (hg : ∀ n, ∀ i ∈ going K w'.trace n, i ∈ going K w.trace n ∧ (K n ≠ .main → ¬ x n i))
    (ho : Orderly K w'.trace) : TrackInv K b w' where
  nodup := hw.names.nodup_iff.2 h.nodup
  env := by rw [he]; exact h.env
  execution := fun t' ht' => by
    obtain ⟨t, ht, hs, _⟩ := hw.back t' ht'
    rw [hs.execution, hs.name]; exact h.execution t ht
  single := fun t' ht' => by
    obtain ⟨t, ht, hs, _⟩ := hw.back t' ht'
    unfold TaskSt.allowMulti
    rw [hs.multilaunch, hw.cfg]; exact h.single t ht
  kinds := fun t' ht' r' hr' => by
    obtain ⟨t, ht, hs, _, hk⟩ := hw.back t' ht'
    obtain ⟨r, hr, hkr⟩ := hk r' hr'
    rw [hkr, hs.name]; exact h.kinds t ht r hr
  track := fun n hn i hi => by
    obtain ⟨h1, h2⟩ := hg n i hi
    obtain ⟨t, ht, rfl, r, hr, rfl, ha, hx⟩ := h.track n hn i h1
    obtain ⟨t', ht', hn', hk⟩ := hw.keep t ht
    exact ⟨t', ht', hn', r, hk r hr ha hx (h2 hn), rfl, ha, hx⟩
  mains := fun n hn i hi => h.mains n hn i (hg n i hi).1
  orderly := ho

/-- The observation starts no run and makes no demand. -/
def Obs.mild : Obs → Bool
  | .checked _ _ (some true) => false
  | .started .. => false
  | .failedSetup _ => false
  | _ => true

theorem going_mild {o : Obs} (ho : o.mild = true) (tr : List Obs) (n : String) (i : Nat) (h : i ∈ going K (tr ++ [o]) n) :
    i ∈ going K tr n := by
  rw [going_append] at h
  cases o with
  | started m id p => simp [Obs.mild] at ho
  | env e =>
    cases e with
    | ends m id exc =>
      simp only [goingStep] at h
      split at h
      · exact (List.mem_filter.1 h).1
      · exact h
    | _ => exact h
  | terminated m id =>
    simp only [goingStep] at h
    split at h
    · exact (List.mem_filter.1 h).1
    · exact h
  | mainEnded m id =>
    simp only [goingStep] at h
    split at h
    · exact (List.mem_filter.1 h).1
    · exact h
  | _ => exact h

theorem fits_mild {o : Obs} (ho : o.mild = true) (tr : List Obs) : FitsIn K tr o := by
  cases o with
  | checked n m r =>
    rcases r with _ | _ | _
    · trivial
    · trivial
    · simp [Obs.mild] at ho
  | started => simp [Obs.mild] at ho
  | failedSetup => simp [Obs.mild] at ho
  | _ => trivial

theorem track_mild (h : TrackInv K b w) {o : Obs} (ho : o.mild = true) : TrackInv K b (w.observe o) :=
  track_next (x := fun _ _ => False) h (wane_same rfl rfl) rfl (fun n i hi => ⟨going_mild ho _ n i hi, fun _ => id⟩)
    (orderly_append h.orderly (fits_mild ho _))

theorem track_happen (h : TrackInv K b w) (e : EnvEv) (he : ∀ t, e ≠ .add t) : TrackInv K b (w.happen e) := by
  refine track_next h (wane_event w.st e he) rfl (fun n i hi => ⟨going_mild rfl _ n i hi, fun hn hx => ?_⟩)
    (orderly_append h.orderly trivial)
  obtain ⟨exc, rfl⟩ := hx
  have hi : i ∈ going K (w.trace ++ [.env (.ends n i exc)]) n := hi
  rw [going_append] at hi
  simp only [goingStep] at hi
  rw [if_pos ⟨trivial, hn⟩] at hi
  simp at hi

/-- The environment moves. -/
theorem keeps_choose' {I : World → Prop} (pos : ∀ w p, I w → I { w with pos := p })
    (env : ∀ w i e, I w → e ∈ (w.env i).events → I (w.happen e)) : Keeps I choose := by
  intro w hw
  have h1 := pos w (w.pos + 1) hw
  have : ∀ (l : List EnvEv), (∀ e ∈ l, e ∈ (w.env w.pos).events) → ∀ v : World, v.env = w.env → I v →
      I (l.foldl World.happen v) := by
    intro l
    induction l with
    | nil => exact fun _ _ _ h => h
    | cons e l ih =>
      intro hl v hv h
      refine ih (fun e he => hl e (List.mem_cons_of_mem _ he)) _ hv (env v w.pos e h ?_)
      rw [hv]
      exact hl e (List.mem_cons_self ..)
  exact this _ (fun e he => he) { w with pos := w.pos + 1 } rfl h1

/-- `choose` keeps the invariant with a property of the record that events do not harm. -/
theorem track_choose (P : List Obs → Prop) (hP : ∀ tr e, P tr → P (tr ++ [.env e])) :
    Keeps (fun w => TrackInv K b w ∧ P w.trace) choose :=
  keeps_choose' (fun _ _ h => ⟨track_next (x := fun _ _ => False) h.1 (wane_same rfl rfl) rfl (fun _ _ hi => ⟨hi, fun _ => id⟩)
    h.1.orderly, h.2⟩) (fun _ i e h he =>
    ⟨track_happen h.1 e (fun t ht => (h.1.env i).add t (ht ▸ he)), hP _ _ h.2⟩)

theorem track_terminateRun (n : String) (id : Nat) : Keeps (TrackInv K b) (terminateRun n id) := by
  unfold terminateRun
  refine keeps_get_bind (fun w hw => ?_)
  rcases hf : w.st.find n with _ | t
  · exact hw
  obtain ⟨P, hP⟩ : ∃ P : M Unit → Prop, ∀ m, P m ↔ TrackInv K b (m w).2 := ⟨_, fun _ => Iff.rfl⟩
  refine (hP _).1 ?_
  simp only
  split
  · exact (hP _).2 hw
  rename_i r hr
  obtain ⟨ht, htn⟩ := find_mem hf
  have hk : r.kind = K n := by rw [← htn]; exact hw.kinds t ht r (List.mem_of_find?_eq_some hr)
  have main : r.kind ≠ .main → r.kind ≠ .thread → ∀ k : Choice → M Unit, (∀ c, Keeps (TrackInv K b) (k c)) →
      TrackInv K b ((do
        emit (.terminated n id)
        let c ← choose
        change n (fun t => { t with stack := endRun id false t.stack })
        k c) w).2 := by
    intro h1 h2 k hkk
    rw [hk] at h1 h2
    have hw1 : TrackInv K b (w.observe (.terminated n id)) := track_mild hw rfl
    have hid : id ∉ going K (w.observe (.terminated n id)).trace n := by
      show id ∉ going K (w.trace ++ [.terminated n id]) n
      rw [going_append]
      simp [goingStep, h2]
    have hP := track_choose (K := K) (b := b) (fun tr => id ∉ going K tr n)
      (fun tr e h hx => h (going_mild rfl _ n id hx)) _ ⟨hw1, hid⟩
    have he : emit (.terminated n id) w = (.ok (), w.observe (.terminated n id)) := rfl
    rw [bind_apply, he]
    simp only
    rw [bind_apply]
    obtain ⟨w1, hcw, _⟩ := choose_ok (w.observe (.terminated n id))
    rw [hcw] at hP ⊢
    simp only at hP ⊢
    obtain ⟨hw2, hid2⟩ := hP
    show TrackInv K b (k _ { w1 with st := _, hist := _ }).2
    refine hkk _ _ (track_next hw2 (wane_endRun n id false w1.st) rfl (fun m i hi => ⟨hi, fun _ hx => ?_⟩) hw2.orderly)
    obtain ⟨rfl, rfl⟩ := hx
    exact hid2 hi
  have fin : ∀ c : Choice, Keeps (TrackInv K b) (match c.fault with
        | some .logging => raise .logging
        | some (.exc e) => if r.kind = .async then raise e else pure ()
        | _ => pure () : M Unit) := by
    intro c
    split
    · exact keeps_raise _
    · exact keeps_ite (fun _ => keeps_raise _) (fun _ => keeps_pure _)
    · exact keeps_pure _
  split
  · exact (hP _).2 hw
  · exact (hP _).2 (track_mild hw rfl)
  · rename_i h1 h2
    exact (hP _).2 (main h1 h2 _ fin)

theorem track_checkExceptions (n : String) : Keeps (TrackInv K b) (checkExceptions n) := by
  unfold checkExceptions
  refine keeps_get_bind (fun w hw => ?_)
  rcases hf : w.st.find n with _ | t
  · exact hw
  obtain ⟨P, hP⟩ : ∃ P : M Unit → Prop, ∀ m, P m ↔ TrackInv K b (m w).2 := ⟨_, fun _ => Iff.rfl⟩
  refine (hP _).1 ?_
  simp only
  split
  · exact (hP _).2 hw
  rename_i r hr
  refine (hP _).2 ?_
  exact track_next (x := fun _ _ => False) (w' := { w with st := _, hist := _ }) hw
    (wane_erase w.st n r (by simpa using List.find?_some hr)) rfl (fun _ _ hi => ⟨hi, fun _ => id⟩) hw.orderly

theorem dull_mild {o : Obs} (h : o.dull = true) : o.mild = true := by
  cases o <;> first | rfl | simp [Obs.dull] at h

theorem core_track : Core (TrackInv K b) where
  choose := fun w hw => (track_choose (fun _ => True) (fun _ _ _ => trivial) w ⟨hw, trivial⟩).1
  note := fun w o ho hw => track_mild hw (dull_mild ho)
  stop := track_terminateRun
  errors := track_checkExceptions
  move := fun w s hs hw => track_next (x := fun _ _ => False) (w' := { w with st := s, hist := w.st :: w.hist }) hw
    (wane_slight hs) rfl (fun _ _ hi => ⟨hi, fun _ => id⟩) hw.orderly
  request := fun w n hw => track_happen hw _ (fun t => by simp)

/-! ## Starts -/

theorem track_observe (h : TrackInv K b w) {o : Obs} (hg : ∀ n, going K (w.trace ++ [o]) n = going K w.trace n)
    (ho : FitsIn K w.trace o) : TrackInv K b (w.observe o) :=
  track_next (x := fun _ _ => False) h (wane_same rfl rfl) rfl (fun n i hi => ⟨by rw [← hg n]; exact hi, fun _ => id⟩)
    (orderly_append h.orderly ho)

theorem track_none (h : TrackInv K none w) {name : String} {t : TaskSt} (hf : w.st.find name = some t)
    (ha : ¬ (t.execution ≠ .main ∧ t.allowMulti w.st.cfg = false ∧ t.isAlive = true)) : going K w.trace name = [] := by
  obtain ⟨ht, rfl⟩ := find_mem hf
  by_cases hk : K t.name = .main
  · rcases hg : going K w.trace t.name with _ | ⟨i, l⟩
    · rfl
    · have := h.mains t.name hk i (by rw [hg]; exact List.mem_cons_self ..)
      simp at this
  · rcases hg : going K w.trace t.name with _ | ⟨i, l⟩
    · rfl
    · obtain ⟨u, hu, hun, r, hr, _, hal, _⟩ := h.track t.name hk i (by rw [hg]; exact List.mem_cons_self ..)
      obtain rfl := name_inj h.nodup hu ht hun
      refine absurd ⟨?_, h.single u hu, List.any_eq_true.2 ⟨r, hr, hal⟩⟩ ha
      rw [h.execution u hu]
      exact hk

/-- What the inspection of a task that is found runnable leaves behind. -/
def Ready (K : String → Exec) (name : String) (tr : List Obs) : Prop := armed tr name = true ∧ going K tr name = []

theorem ready_env {name : String} {tr : List Obs} (e : EnvEv) (h : Ready K name tr) : Ready K name (tr ++ [.env e]) := by
  refine ⟨by rw [armed_append]; exact h.1, ?_⟩
  rcases hg : going K (tr ++ [.env e]) name with _ | ⟨i, l⟩
  · exact hg
  · have := going_mild (K := K) (o := .env e) rfl tr name i (by rw [hg]; exact List.mem_cons_self ..)
    rw [h.2] at this
    cases this

theorem track_isRunnable (name : String) (t : TaskSt) (hn : t.name = name) (w : World) (hw : TrackInv K none w)
    (hg : going K w.trace name = []) :
    TrackInv K none (isRunnable t w).2 ∧ ((isRunnable t w).1 = .ok true → Ready K name (isRunnable t w).2.trace) := by
  subst hn
  have found : ∀ v : World, TrackInv K none v → going K v.trace t.name = [] → ∀ m,
      TrackInv K none (v.observe (.checked t.name m (some true))) ∧
        Ready K t.name (v.observe (.checked t.name m (some true))).trace := by
    intro v hv hvg m
    refine ⟨track_observe hv (fun n => by rw [going_append]; rfl) hvg, ?_, ?_⟩
    · show armed (v.trace ++ [_]) t.name = true
      rw [armed_append]; simp [armedStep]
    · show going K (v.trace ++ [_]) t.name = []
      rw [going_append]; exact hvg
  unfold isRunnable
  by_cases hb : t.batches ≠ []
  · rw [if_pos hb]
    exact ⟨(found w hw hg true).1, fun _ => (found w hw hg true).2⟩
  rw [if_neg hb]
  by_cases hd : t.disabled = true
  · rw [if_pos hd]
    exact ⟨hw, fun h => by simp [pure_apply] at h⟩
  rw [if_neg hd, bind_apply]
  have hc := track_choose (K := K) (b := none) (fun tr => going K tr t.name = []) (fun tr e h => by
    rcases hx : going K (tr ++ [.env e]) t.name with _ | ⟨i, l⟩
    · exact hx
    · have := going_mild (K := K) (o := .env e) rfl tr t.name i (by rw [hx]; exact List.mem_cons_self ..)
      rw [h] at this
      cases this) w ⟨hw, hg⟩
  obtain ⟨w1, hcw, _⟩ := choose_ok w
  rw [hcw] at hc ⊢
  simp only at hc ⊢
  have he : emit (.checked t.name false (w.env w.pos).cond) w1 = (.ok (), w1.observe (.checked t.name false (w.env w.pos).cond)) := rfl
  rw [bind_apply, he]
  simp only
  rcases (w.env w.pos).cond with _ | _ | _
  · exact ⟨track_mild hc.1 rfl, fun h => by simp [raise] at h⟩
  · exact ⟨track_mild hc.1 rfl, fun h => by simp [pure_apply] at h⟩
  · exact ⟨(found w1 hc.1 hc.2 false).1, fun _ => (found w1 hc.1 hc.2 false).2⟩

theorem track_isTaskRunnable (name : String) (w : World) (hw : TrackInv K none w) :
    TrackInv K none (isTaskRunnable name w).2 ∧
      ((isTaskRunnable name w).1 = .ok true → Ready K name (isTaskRunnable name w).2.trace) := by
  unfold isTaskRunnable
  rw [get_bind_apply]
  rcases hf : w.st.find name with _ | t
  · exact ⟨hw, fun h => by simp [raise] at h⟩
  simp only
  by_cases h1 : t.execution = .process ∧ w.st.hasFree = false
  · rw [if_pos h1]; exact ⟨hw, fun h => by simp [pure_apply] at h⟩
  rw [if_neg h1]
  by_cases h2 : t.execution ≠ .main ∧ t.allowMulti w.st.cfg = false ∧ t.isAlive = true
  · rw [if_pos h2]; exact ⟨hw, fun h => by simp [pure_apply] at h⟩
  rw [if_neg h2]
  have h := track_isRunnable name t (find_mem hf).2 w hw (track_none hw hf h2)
  unfold checkTaskCond tryCatch
  rcases hr : isRunnable t w with ⟨r, w'⟩
  rw [hr] at h
  cases r with
  | ok a => exact h
  | cut => exact ⟨h.1, fun h => by simp at h⟩
  | raise e =>
    simp only [get_bind_apply]
    by_cases hsc : w'.st.cfg.silenceCond = true
    · rw [if_pos hsc]; exact ⟨h.1, fun h => by simp [pure_apply] at h⟩
    · rw [if_neg hsc]; exact ⟨h.1, fun h => by simp [raise] at h⟩

theorem track_push (name : String) (hw : TrackInv K none w) (hr : Ready K name w.trace) {t : TaskSt}
    (hf : w.st.find name = some t) (time : Int) (part : Part) {c : Option (String × Nat)}
    (hc : K name = .main → c = some (name, w.st.nextId)) :
    TrackInv K c (w.push name (K name) time part) := by
  obtain ⟨ht, htn⟩ := find_mem hf
  have hgo : ∀ n, going K (w.push name (K name) time part).trace n =
      if name = n then [w.st.nextId] else going K w.trace n := by
    intro n
    show going K (w.trace ++ [_]) n = _
    rw [going_append]
    simp only [goingStep]
    split
    · rename_i e; rw [← e, hr.2]; rfl
    · rfl
  refine ⟨?_, hw.env, ?_, ?_, ?_, ?_, ?_, ?_⟩
  · exact upd_nodup (s := w.st) hw.nodup (fun _ => rfl)
  · intro u hu
    rcases mem_upd (s := w.st) hu with ⟨hu, _⟩ | ⟨v, hv, _, rfl⟩
    · exact hw.execution u hu
    · exact hw.execution v hv
  · intro u hu
    rcases mem_upd (s := w.st) hu with ⟨hu, _⟩ | ⟨v, hv, _, rfl⟩
    · exact hw.single u hu
    · exact hw.single v hv
  · intro u hu r hr
    rcases mem_upd (s := w.st) hu with ⟨hu, _⟩ | ⟨v, hv, hvn, rfl⟩
    · exact hw.kinds u hu r hr
    · rcases List.mem_append.1 hr with h | h
      · exact hw.kinds v hv r h
      · rw [List.mem_singleton] at h
        subst h
        exact hvn ▸ rfl
  · intro n hn i hi
    rw [hgo n] at hi
    by_cases he : name = n
    · rw [if_pos he, List.mem_singleton] at hi
      subst hi he
      exact ⟨_, List.mem_map.2 ⟨t, ht, if_pos htn⟩, htn, _, List.mem_append_right _ (List.mem_singleton.2 rfl), rfl, rfl, rfl⟩
    · rw [if_neg he] at hi
      obtain ⟨u, hu, hun, r, hr, h⟩ := hw.track n hn i hi
      exact ⟨u, List.mem_map.2 ⟨u, hu, if_neg (fun e => he (e.symm.trans hun))⟩, hun, r, hr, h⟩
  · intro n hn i hi
    rw [hgo n] at hi
    by_cases he : name = n
    · rw [if_pos he, List.mem_singleton] at hi
      subst hi he
      exact hc hn
    · rw [if_neg he] at hi
      have := hw.mains n hn i hi
      simp at this
  · exact orderly_append hw.orderly hr.1

theorem track_weaken (h : TrackInv K none w) : TrackInv K b w :=
  ⟨h.nodup, h.env, h.execution, h.single, h.kinds, h.track, fun n hn i hi => by have := h.mains n hn i hi; simp at this, h.orderly⟩

theorem track_runOn (name : String) (hw : TrackInv K none w) (hr : Ready K name w.trace) {t : TaskSt}
    (hf : w.st.find name = some t) (time : Int) (part : Part) (f : Option Fault) (h1 : f ≠ some .logging)
    (h2 : f ≠ some .spawn) :
    TrackInv K none (runOn name w.st.nextId (K name) f (w.push name (K name) time part)).2 := by
  rcases hk : K name with _ | _ | _ | _
  · have hrun : runOn name w.st.nextId .main f = (do
        let d ← choose
        emit (.mainEnded name w.st.nextId)
        dropMain name false
        mainEnd d.fault) := by
      unfold runOn
      simp only [if_neg h1]
    rw [hrun]
    have hp : TrackInv K (some (name, w.st.nextId)) (w.push name .main time part) := by
      have := track_push (c := some (name, w.st.nextId)) name hw hr hf time part (fun _ => rfl)
      rw [hk] at this; exact this
    have hgo : ∀ i ∈ going K (w.push name .main time part).trace name, i = w.st.nextId := by
      intro i hi
      have : i ∈ going K (w.trace ++ [.started name w.st.nextId part]) name := hi
      rw [going_append, hr.2] at this
      simpa [goingStep] using this
    have hch := track_choose (K := K) (b := some (name, w.st.nextId)) (fun tr => ∀ i ∈ going K tr name, i = w.st.nextId)
      (fun tr e h i hi => h i (going_mild rfl _ name i hi)) _ ⟨hp, hgo⟩
    rw [bind_apply]
    obtain ⟨w1, hcw, _⟩ := choose_ok (w.push name .main time part)
    rw [hcw] at hch ⊢
    simp only at hch ⊢
    obtain ⟨hw1, hg1⟩ := hch
    have hend : TrackInv K none (w1.observe (.mainEnded name w.st.nextId)) := by
      have h3 := track_mild hw1 (o := .mainEnded name w.st.nextId) rfl
      refine ⟨h3.nodup, h3.env, h3.execution, h3.single, h3.kinds, h3.track, fun n hn i hi => ?_, h3.orderly⟩
      have hb := h3.mains n hn i hi
      rw [Option.some.injEq, Prod.mk.injEq] at hb
      obtain ⟨rfl, rfl⟩ := hb
      have : w.st.nextId ∈ going K (w1.trace ++ [.mainEnded name w.st.nextId]) name := hi
      rw [going_append] at this
      simp [goingStep] at this
    have hdrop : TrackInv K none ((w1.observe (.mainEnded name w.st.nextId)).drop name false) := by
      refine track_next (x := fun m _ => m = name) hend ?_ rfl (fun n i hi => ⟨hi, fun hn e => hn (e ▸ hk)⟩) hend.orderly
      exact wane_upd name _ rfl rfl (fun t => ⟨rfl, rfl, rfl, rfl, rfl, rfl, rfl, rfl, rfl⟩)
        (fun t r hr => ⟨r, (List.mem_filter.1 hr).1, rfl⟩) (fun t r _ _ _ hx => absurd rfl hx)
    show TrackInv K none (mainEnd _ ((w1.observe (.mainEnded name w.st.nextId)).drop name false)).2
    rw [mainEnd_apply]
    exact hdrop
  all_goals
    have hp : TrackInv K none (w.push name (K name) time part) :=
      track_push name hw hr hf time part (fun h => by rw [hk] at h; cases h)
    rw [hk] at hp
    unfold runOn
    first
      | (simp only; rw [if_neg h2, if_neg h1]; exact hp)
      | (simp only; rw [if_neg h1]; exact hp)

theorem track_startAsync (name : String) (part : Part) (w : World) (hw : TrackInv K none w) (hr : Ready K name w.trace) :
    TrackInv K none (startAsync name part w).2 := by
  have failed : ∀ v : World, TrackInv K none v → Ready K name v.trace → TrackInv K none (v.observe (.failedSetup name)) :=
    fun v hv hvr => track_observe hv (fun n => by rw [going_append]; rfl) hvr.1
  unfold startAsync
  rw [bind_apply]
  have hc := track_choose (K := K) (b := none) (Ready K name) (fun _ e h => ready_env e h) w ⟨hw, hr⟩
  obtain ⟨w1, hcw, _⟩ := choose_ok w
  have hrel := hw.env w.pos
  rw [hcw] at hc ⊢
  simp only [get_bind_apply] at hc ⊢
  obtain ⟨hw1, hr1⟩ := hc
  generalize w.env w.pos = c at hrel
  rcases hf : w1.st.find name with _ | t
  · exact hw1
  simp only
  by_cases hp : c.fault = some .params
  · rw [if_pos hp]; exact failed w1 hw1 hr1
  rw [if_neg hp, bind_apply]
  obtain ⟨ht, htn⟩ := find_mem hf
  have hpop : ∃ w2 t2, popBatch t w1 = (.ok (), w2) ∧ TrackInv K none w2 ∧ Ready K name w2.trace ∧ w2.st.find name = some t2 := by
    unfold popBatch
    rcases hb : t.batches with _ | ⟨b, bs⟩
    · exact ⟨w1, t, rfl, hw1, hr1, hf⟩
    · rw [htn]
      refine ⟨w1.pop name b, _, rfl, ?_, ⟨?_, ?_⟩, find_upd_eq (g := fun t => { t with batches := t.batches.tail }) hw1.nodup (fun _ => rfl) hf⟩
      · exact track_next (x := fun _ _ => False) hw1 (wane_pop w1.st name) rfl
          (fun n i hi => ⟨going_mild rfl _ n i hi, fun _ => id⟩) (orderly_append hw1.orderly trivial)
      · show armed (w1.trace ++ [_]) name = true
        rw [armed_append]; exact hr1.1
      · show going K (w1.trace ++ [_]) name = []
        rw [going_append]; exact hr1.2
  obtain ⟨w2, t2, hpw, hw2, hr2, hf2⟩ := hpop
  rw [hpw]
  simp only
  by_cases hse : c.fault = some .setup
  · rw [if_pos hse]; exact failed w2 hw2 hr2
  rw [if_neg hse, bind_apply]
  have hx : t.execution = K name := by rw [hw1.execution t ht, htn]
  rw [hx]
  have hpush : pushRun name (K name) c.time part w2 = (.ok w2.st.nextId, w2.push name (K name) c.time part) := rfl
  rw [hpush]
  exact track_runOn name hw2 hr2 hf2 c.time part c.fault hrel.logging hrel.spawn

theorem track_launch (name : String) (part : Part) : Keeps (TrackInv K none) (launch name part) := by
  intro w hw
  unfold launch
  rw [bind_apply]
  have h := track_isTaskRunnable name w hw
  rcases hm : isTaskRunnable name w with ⟨r, w'⟩
  rw [hm] at h
  cases r with
  | cut => exact h.1
  | raise e => exact h.1
  | ok b =>
    simp only
    by_cases hb : b = true
    · rw [if_pos hb]
      have hs := track_startAsync name part w' h.1 (h.2 (by rw [hb]))
      unfold runTask tryCatch
      rcases hst : startAsync name part w' with ⟨r, w''⟩
      rw [hst] at hs
      cases r with
      | ok a => exact hs
      | cut => exact hs
      | raise e =>
        simp only [get_bind_apply]
        cases e <;> simp only <;> first | exact hs | (split <;> exact hs)
    · rw [if_neg hb]; exact h.1

theorem track_serve (n : Nat) : Keeps (TrackInv K none) (serve n) :=
  core_serve core_track track_launch (fun _ _ hw => track_mild hw rfl) n

theorem track_sessions (ks : List Nat) : Keeps (TrackInv K none) (sessions ks) :=
  keeps_forEach (fun k _ => keeps_bind (keeps_attempt (track_serve k)) (fun _ => keeps_pure _))

end Rocketry.Sched
