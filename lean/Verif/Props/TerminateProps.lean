import Verif.Sched.Follow
import Verif.Props.PhaseProps

/-!
# C42: a run is terminated exactly when it must be
-/

namespace Rocketry.Props
open Rocketry.Sched Rocketry.Spec

theorem all2_mem {R : Run → Run → Prop} {l l' : List Run} (h : All2 R l l') {r : Run} (hr : r ∈ l) : ∃ r' ∈ l', R r r' := by
  induction h with
  | nil => simp at hr
  | cons hab _ ih =>
    rcases List.mem_cons.1 hr with rfl | hr
    · exact ⟨_, List.mem_cons_self .., hab⟩
    · obtain ⟨r', hr', h⟩ := ih hr
      exact ⟨r', List.mem_cons_of_mem _ hr', h⟩

theorem all2_mem' {R : Run → Run → Prop} {l l' : List Run} (h : All2 R l l') {r' : Run} (hr : r' ∈ l') : ∃ r ∈ l, R r r' := by
  induction h with
  | nil => simp at hr
  | cons hab _ ih =>
    rcases List.mem_cons.1 hr with rfl | hr
    · exact ⟨_, List.mem_cons_self .., hab⟩
    · obtain ⟨r', hr', h⟩ := ih hr
      exact ⟨r', List.mem_cons_of_mem _ hr', h⟩

theorem all2_ids {name : String} {o : List Obs} {l l' : List Run} (h : All2 (Later name o) l l') : l'.map Run.id = l.map Run.id := by
  induction h with
  | nil => rfl
  | cons hab _ ih => rw [List.map_cons, List.map_cons, hab.id, ih]

theorem id_inj {l : List Run} (h : (l.map Run.id).Nodup) {r x : Run} (hr : r ∈ l) (hx : x ∈ l) (e : r.id = x.id) : r = x := by
  induction l with
  | nil => simp at hr
  | cons a l ih =>
    rw [List.map_cons, List.nodup_cons] at h
    rcases List.mem_cons.1 hr with h1 | h1 <;> rcases List.mem_cons.1 hx with h2 | h2
    · rw [h1, h2]
    · exact absurd (List.mem_map.2 ⟨x, h2, by rw [← e, h1]⟩) h.1
    · exact absurd (List.mem_map.2 ⟨r, h1, by rw [e, h2]⟩) h.1
    · exact ih h.2 h1 h2

/-- All runs are terminated, in order. -/
theorem terminate_all_loop (name : String) : ∀ (ids : List Nat) (w : World) (t : TaskSt),
    (w.st.tasks.map TaskSt.name).Nodup → w.st.find name = some t → (∀ i ∈ ids, i ∈ t.stack.map Run.id) →
    (∀ x ∈ t.stack, x.kind ≠ .main) →
    ∃ l, Follow name l w (forEach ids (terminateRun name) w).2 ∧ terms l <+: ids.map (fun i => (name, i)) ∧
      ((forEach ids (terminateRun name) w).1 = .ok () → terms l = ids.map (fun i => (name, i)))
  | [], w, _, _, _, _, _ => ⟨[], .refl _ _, List.prefix_rfl, fun _ => rfl⟩
  | i :: ids, w, t, hn, ht, hi, hm => by
    obtain ⟨r, hr, rfl⟩ := List.mem_map.1 (hi i (List.mem_cons_self ..))
    obtain ⟨l, hf, hl⟩ := terminateRun_follow name w hn t ht r hr hm
    unfold forEach
    rw [bind_apply]
    rcases hres : terminateRun name r.id w with ⟨a, w1⟩
    rw [hres] at hf
    simp only at hf
    cases a with
    | ok _ =>
      simp only
      obtain ⟨t1, ht1, _, hall⟩ := hf.task hn t ht
      obtain ⟨l', hf', hp, hok⟩ := terminate_all_loop name ids w1 t1 (hf.nodup hn) ht1
        (fun j hj => by rw [all2_ids hall]; exact hi j (List.mem_cons_of_mem _ hj))
        (fun x hx => by obtain ⟨y, hy, hxy⟩ := all2_mem' hall hx; rw [hxy.kind]; exact hm y hy)
      refine ⟨l ++ l', hf.trans hf', ?_, fun h => ?_⟩
      · rw [terms_append, hl, List.map_cons, List.singleton_append]
        exact (List.prefix_cons_inj _).2 hp
      · rw [terms_append, hl, hok h]; rfl
    | raise e =>
      refine ⟨l, hf, ?_, fun h => by simp at h⟩
      rw [hl, List.map_cons]; exact ⟨_, rfl⟩
    | cut =>
      refine ⟨l, hf, ?_, fun h => by simp at h⟩
      rw [hl, List.map_cons]; exact ⟨_, rfl⟩

/-- The runs that are too old are terminated. -/
theorem terminate_old_loop (name : String) (now limit : Int) : ∀ (ids : List Nat) (w : World) (t : TaskSt),
    (w.st.tasks.map TaskSt.name).Nodup → w.st.find name = some t → (∀ i ∈ ids, i ∈ t.stack.map Run.id) →
    (t.stack.map Run.id).Nodup → (∀ x ∈ t.stack, x.kind ≠ .main) →
    ∃ l, Follow name l w (forEach ids (terminateOld name now limit) w).2 ∧
      (terms l).Sublist (ids.map (fun i => (name, i))) ∧
      (∀ r ∈ t.stack, (name, r.id) ∈ terms l → r.alive = true ∧ now - r.start > limit) ∧
      ((forEach ids (terminateOld name now limit) w).1 = .ok () → ∀ r ∈ t.stack, r.id ∈ ids → r.alive = true →
        now - r.start > limit → EndedIn name r.id l)
  | [], w, _, _, _, _, _, _ => ⟨[], .refl _ _, List.Sublist.refl _, fun r _ h => by simp [terms] at h, fun _ r _ h => by simp at h⟩
  | i :: ids, w, t, hn, ht, hi, hid, hm => by
    obtain ⟨r, hr, rfl⟩ := List.mem_map.1 (hi i (List.mem_cons_self ..))
    -- the first run
    have h1 : ∃ l, Follow name l w (terminateOld name now limit r.id w).2 ∧
        ((r.alive = true ∧ now - r.start > limit ∧ terms l = [(name, r.id)]) ∨
          (¬ (r.alive = true ∧ now - r.start > limit) ∧ terms l = [])) := by
      unfold terminateOld
      rw [get_bind_apply, ht]
      simp only
      obtain ⟨x, hx⟩ : ∃ x, t.stack.find? (fun y => decide (y.id = r.id)) = some x := by
        rcases hf : t.stack.find? (fun y => decide (y.id = r.id)) with _ | x
        · have := List.find?_eq_none.1 hf r hr; simp at this
        · exact ⟨x, hf⟩
      have hxr : x = r := id_inj hid (List.mem_of_find?_eq_some hx) hr (by simpa using List.find?_some hx)
      subst hxr
      rw [hx]
      simp only
      by_cases hc : x.alive = true ∧ now - x.start > limit
      · rw [if_pos hc]
        obtain ⟨l, hf, hl⟩ := terminateRun_follow name w hn t ht x hr hm
        exact ⟨l, hf, Or.inl ⟨hc.1, hc.2, hl⟩⟩
      · rw [if_neg hc]; exact ⟨[], .refl _ _, Or.inr ⟨hc, rfl⟩⟩
    obtain ⟨l, hf, hl⟩ := h1
    have hsub : (terms l).Sublist [(name, r.id)] := by
      rcases hl with ⟨_, _, h⟩ | ⟨_, h⟩ <;> rw [h]
      · exact List.Sublist.refl _
      · exact List.nil_sublist _
    have hsound : ∀ x ∈ t.stack, (name, x.id) ∈ terms l → x.alive = true ∧ now - x.start > limit := by
      intro x hx hxl
      rcases hl with ⟨h1, h2, h⟩ | ⟨_, h⟩ <;> rw [h] at hxl
      · simp only [List.mem_singleton, Prod.mk.injEq, true_and] at hxl
        rw [id_inj hid hx hr hxl]; exact ⟨h1, h2⟩
      · simp at hxl
    unfold forEach
    rw [bind_apply]
    rcases hres : terminateOld name now limit r.id w with ⟨a, w1⟩
    rw [hres] at hf
    simp only at hf
    cases a with
    | ok _ =>
      simp only
      obtain ⟨t1, ht1, _, hall⟩ := hf.task hn t ht
      obtain ⟨l', hf', hp, hs, hok⟩ := terminate_old_loop name now limit ids w1 t1 (hf.nodup hn) ht1
        (fun j hj => by rw [all2_ids hall]; exact hi j (List.mem_cons_of_mem _ hj))
        (by rw [all2_ids hall]; exact hid)
        (fun x hx => by obtain ⟨y, hy, hxy⟩ := all2_mem' hall hx; rw [hxy.kind]; exact hm y hy)
      refine ⟨l ++ l', hf.trans hf', ?_, fun x hx hxl => ?_, fun h x hx hxi hxa hxo => ?_⟩
      · rw [terms_append, List.map_cons]
        exact List.Sublist.append hsub hp
      · rw [terms_append] at hxl
        rcases List.mem_append.1 hxl with hxl | hxl
        · exact hsound x hx hxl
        · obtain ⟨y, hy, hxy⟩ := all2_mem hall hx
          rw [← hxy.id] at hxl
          have := hs y hy hxl
          rw [hxy.start] at this
          exact ⟨hxy.back this.1, this.2⟩
      · rcases List.mem_cons.1 hxi with he | hxi
        · have := id_inj hid hx hr he
          subst this
          rcases hl with ⟨_, _, h⟩ | ⟨h, _⟩
          · refine Or.inr (List.mem_append_left _ (mem_terms.1 ?_))
            rw [h]; exact List.mem_singleton.2 rfl
          · exact absurd ⟨hxa, hxo⟩ h
        · obtain ⟨y, hy, hxy⟩ := all2_mem hall hx
          rcases hxy.gone hxa with hya | hye
          · have := hok h y hy (by rw [hxy.id]; exact hxi) hya (by rw [hxy.start]; exact hxo)
            rw [hxy.id] at this
            exact this.mono (fun o ho => List.mem_append_right _ ho)
          · exact hye.mono (fun o ho => List.mem_append_left _ ho)
    | raise e =>
      refine ⟨l, hf, ?_, hsound, fun h => by simp at h⟩
      rw [List.map_cons]
      exact hsub.trans (List.sublist_append_left [(name, r.id)] _)
    | cut =>
      refine ⟨l, hf, ?_, hsound, fun h => by simp at h⟩
      rw [List.map_cons]
      exact hsub.trans (List.sublist_append_left [(name, r.id)] _)

/-- The runs of a task that have not ended are still alive. -/
def Left (name : String) (l : List Obs) (t : TaskSt) (w' : World) : Prop :=
  ∀ r ∈ t.stack, r.alive = true → ¬ EndedIn name r.id l →
    ∃ t', w'.st.find name = some t' ∧ ∃ r' ∈ t'.stack, r'.id = r.id ∧ r'.alive = true

theorem left_follow {name : String} {l : List Obs} {w w' : World} (h : Follow name l w w')
    (hn : (w.st.tasks.map TaskSt.name).Nodup) {t : TaskSt} (ht : w.st.find name = some t) : Left name l t w' := by
  obtain ⟨t', ht', _, hall⟩ := h.task hn t ht
  intro r hr ha he
  obtain ⟨r', hr', hl⟩ := all2_mem hall hr
  exact ⟨t', ht', r', hr', hl.id, (hl.gone ha).resolve_right he⟩

/-- `_terminate_all`: all tracked runs are terminated, in order. -/
theorem terminateAll_terms (name : String) (w : World) (t : TaskSt) (hn : (w.st.tasks.map TaskSt.name).Nodup)
    (ht : w.st.find name = some t) (hm : ∀ x ∈ t.stack, x.kind ≠ .main) :
    ∃ l, (terminateAll name w).2.trace = w.trace ++ l ∧ terms l <+: t.stack.map (fun r => (name, r.id)) ∧
      ((terminateAll name w).1 = .ok () → terms l = t.stack.map (fun r => (name, r.id))) ∧
      Left name l t (terminateAll name w).2 := by
  unfold terminateAll
  rw [get_bind_apply, ht]
  simp only
  obtain ⟨l, hf, hp, hok⟩ := terminate_all_loop name (t.stack.map Run.id) w t hn ht (fun _ h => h) hm
  rw [bind_apply]
  rcases hres : forEach (t.stack.map Run.id) (terminateRun name) w with ⟨a, w1⟩
  rw [hres] at hf hok
  rw [List.map_map] at hp hok
  have hlf := left_follow hf hn ht
  cases a with
  | ok _ =>
    refine ⟨l, hf.trace, hp, fun _ => hok rfl, fun r hr ha he => ?_⟩
    obtain ⟨t', ht', r', hr', hid, hal⟩ := hlf r hr ha he
    refine ⟨_, find_upd_eq (g := fun t => { t.clean w.st.cfg with forceTerm := false }) (hf.nodup hn) (fun t => clean_name _ t) ht', r', ?_, hid, hal⟩
    show r' ∈ (t'.clean w.st.cfg).stack
    unfold TaskSt.clean
    split <;> exact List.mem_filter.2 ⟨hr', by simp [hal]⟩
  | raise e => exact ⟨l, hf.trace, hp, fun h => by simp at h, hlf⟩
  | cut => exact ⟨l, hf.trace, hp, fun h => by simp at h, hlf⟩

/-- C42.  In a check of the task, with the state of the end condition and the clock from the environment: only tracked
runs that must end are terminated, each at most once (of runs that are over only those that a request or the end condition
concerns); unless an error is raised, each live run that must end is terminated or ends by itself meanwhile; and runs
that neither are terminated nor end by themselves stay alive.
Missing: an own timeout of zero is taken as none (`C42_zero_violated`). -/
theorem C42_exact_partial (name : String) (w : World) (t : TaskSt) (hn : ((choose w).2.st.tasks.map TaskSt.name).Nodup)
    (ht : (choose w).2.st.find name = some t) (hid : (t.stack.map Run.id).Nodup) (hm : ∀ x ∈ t.stack, x.kind ≠ .main)
    (hz : t.timeout ≠ some 0) :
    ∃ l, (checkTermination name w).2.trace = (choose w).2.trace ++ l ∧
      (terms l).Sublist (t.stack.map (fun r => (name, r.id))) ∧
      (∀ r ∈ t.stack, (name, r.id) ∈ terms l → MustEnd (choose w).2.st.cfg (w.env w.pos) t r) ∧
      (∀ r ∈ t.stack, (name, r.id) ∈ terms l → r.alive = false → t.forceTerm = true ∨ EndCond (choose w).2.st.cfg (w.env w.pos)) ∧
      ((checkTermination name w).1 = .ok () → ∀ r ∈ t.stack, r.alive = true →
        MustEnd (choose w).2.st.cfg (w.env w.pos) t r → EndedIn name r.id l) ∧
      Left name l t (checkTermination name w).2 := by
  unfold checkTermination
  rw [bind_apply]
  obtain ⟨w1, hc, _⟩ := follow_choose name w
  rw [hc] at hn ht ⊢
  simp only at hn ht ⊢
  rw [get_bind_apply, ht]
  simp only
  generalize w.env w.pos = c
  obtain ⟨la, hta, hpa, hoka, hlfa⟩ := terminateAll_terms name w1 t hn ht hm
  have hmem : ∀ r ∈ t.stack, (name, r.id) ∈ t.stack.map (fun r => (name, r.id)) := fun r hr => List.mem_map.2 ⟨r, hr, rfl⟩
  have hto : ∀ x, TimeoutIs w1.st.cfg t x ↔ x = t.timeoutOf w1.st.cfg := by
    intro x
    unfold TimeoutIs TaskSt.timeoutOf
    rcases hto : t.timeout with _ | y
    · simp
    · have : y ≠ 0 := fun h => hz (by rw [hto, h])
      simp [this, eq_comm]
  rcases hcc : c.cond with _ | b
  · simp only
    by_cases hs : w1.st.cfg.silenceCond = true
    · rw [if_pos hs]
      have he : EndCond w1.st.cfg c := Or.inr ⟨hcc, hs⟩
      exact ⟨la, hta, hpa.sublist, fun _ _ _ => Or.inr (Or.inl he), fun _ _ _ _ => Or.inr he,
        fun h r hr _ _ => Or.inr (mem_terms.1 (by rw [hoka h]; exact hmem r hr)), hlfa⟩
    · rw [if_neg hs]
      exact ⟨[], (List.append_nil _).symm, List.nil_sublist _, fun _ _ h => by simp [terms] at h,
        fun _ _ h => by simp [terms] at h, fun h => by simp [raise] at h, left_follow (.refl _ _) hn ht⟩
  · simp only
    by_cases hf : t.forceTerm = true
    · rw [if_pos hf]
      exact ⟨la, hta, hpa.sublist, fun _ _ _ => Or.inl ⟨hf, Or.inl (by rw [hcc]; simp)⟩, fun _ _ _ _ => Or.inl hf,
        fun h r hr _ _ => Or.inr (mem_terms.1 (by rw [hoka h]; exact hmem r hr)), hlfa⟩
    rw [if_neg hf]
    by_cases hb : b = true
    · rw [if_pos hb]
      have he : EndCond w1.st.cfg c := Or.inl (by rw [hcc, hb])
      exact ⟨la, hta, hpa.sublist, fun _ _ _ => Or.inr (Or.inl he), fun _ _ _ _ => Or.inr he,
        fun h r hr _ _ => Or.inr (mem_terms.1 (by rw [hoka h]; exact hmem r hr)), hlfa⟩
    rw [if_neg hb]
    have hne : ¬ EndCond w1.st.cfg c := by
      rintro (h | h)
      · rw [hcc] at h; exact hb (by simpa using h)
      · rw [hcc] at h; simp at h
    by_cases hp : t.permanent = true
    · rw [if_pos hp]
      refine ⟨[], (List.append_nil _).symm, List.nil_sublist _, fun _ _ h => by simp [terms] at h,
        fun _ _ h => by simp [terms] at h, fun _ r _ _ h => ?_, left_follow (.refl _ _) hn ht⟩
      rcases h with h | h | h
      · exact absurd h.1 hf
      · exact absurd h hne
      · rw [hp] at h; simp at h
    · rw [if_neg hp]
      obtain ⟨l, hfl, hsub, hs, hok⟩ := terminate_old_loop name c.time (t.timeoutOf w1.st.cfg) (t.stack.map Run.id) w1 t hn ht
        (fun _ h => h) hid hm
      rw [List.map_map] at hsub
      refine ⟨l, hfl.trace, hsub, fun r hr h => ?_, fun r hr h ha => ?_, fun h r hr ha hme => ?_, left_follow hfl hn ht⟩
      · exact Or.inr (Or.inr ⟨by rw [hcc]; simp, by simpa using hp, _, (hto _).2 rfl, (hs r hr h).2⟩)
      · rw [(hs r hr h).1] at ha; simp at ha
      · refine hok h r hr (List.mem_map.2 ⟨r, hr, rfl⟩) ha ?_
        rcases hme with hme | hme | ⟨_, _, x, hx, hgt⟩
        · exact absurd hme.1 hf
        · exact absurd hme hne
        · rw [(hto x).1 hx] at hgt; exact hgt

/-! ## The hypotheses hold in all executions -/

/-- Names of tasks are distinct, and so are the runs of a task. -/
structure Distinct (s : Sys) : Prop where
  names : (s.tasks.map TaskSt.name).Nodup
  ids : ∀ t ∈ s.tasks, (t.stack.map Run.id).Nodup
  below : ∀ t ∈ s.tasks, ∀ r ∈ t.stack, r.id < s.nextId

theorem distinct_shift {s s' : Sys} (h : Distinct s) (hd : Shift s s') : Distinct s' where
  names := hd.nodup h.names
  ids := by
    intro t' ht'
    rcases hd.back t' ht' with ⟨t, ht, he⟩ | ⟨_, hs, _⟩
    · exact (h.ids t ht).sublist he.stack.ids
    · rw [hs]; exact List.nodup_nil
  below := by
    intro t' ht' r hr
    rw [hd.nextId]
    rcases hd.back t' ht' with ⟨t, ht, he⟩ | ⟨_, hs, _⟩
    · obtain ⟨x, hx, _, hi, _⟩ := he.stack.from_ r hr
      rw [hi]; exact h.below t ht x hx
    · rw [hs] at hr; simp at hr

theorem launches_distinct : Launches Distinct (fun _ => True) (fun _ _ => True) where
  request := fun n s h => distinct_shift h (shift_event _ _)
  event := fun s c e _ _ h => distinct_shift h (shift_event _ _)
  eventA := fun _ _ _ _ _ _ _ _ => trivial
  tidy := fun s s' ht h => distinct_shift h (drift_tidy ht).shift
  flags := fun s h => distinct_shift h (drift_flags s).shift
  check := fun _ _ _ _ _ _ _ _ => trivial
  pop := fun n s h => distinct_shift h (drift_pop s n).shift
  popA := fun _ _ _ _ => trivial
  push := by
    intro n s time t h _ _ ht hn
    refine ⟨upd_nodup h.names (fun _ => rfl), fun x hx => ?_, fun x hx r hr => ?_⟩
    · rcases mem_upd hx with ⟨hx, _⟩ | ⟨y, hy, _, rfl⟩
      · exact h.ids x hx
      · show ((y.stack ++ [_]).map Run.id).Nodup
        rw [List.map_append, List.nodup_append]
        refine ⟨h.ids y hy, by simp, fun a ha b hb => ?_⟩
        obtain ⟨r, hr, rfl⟩ := List.mem_map.1 ha
        have := h.below y hy r hr
        simp only [List.map_cons, List.map_nil, List.mem_singleton] at hb
        omega
    · show r.id < s.nextId + 1
      rcases mem_upd hx with ⟨hx, _⟩ | ⟨y, hy, _, rfl⟩
      · have := h.below x hx r hr; omega
      · rcases List.mem_append.1 hr with hr | hr
        · have := h.below y hy r hr; omega
        · rw [List.mem_singleton.1 hr]; exact Nat.lt_succ_self _
  drop := fun n s h => distinct_shift h (drift_drop s n).shift
  stray := by
    intro n s c _ _ h
    refine ⟨upd_nodup h.names (fun _ => rfl), fun x hx => ?_, fun x hx r hr => ?_⟩
    · rcases mem_upd hx with ⟨hx, _⟩ | ⟨y, hy, _, rfl⟩
      · exact h.ids x hx
      · exact (h.ids y hy).sublist (List.filter_sublist.map _)
    · rcases mem_upd hx with ⟨hx, _⟩ | ⟨y, hy, _, rfl⟩
      · exact h.below x hx r hr
      · exact h.below y hy r (List.mem_filter.1 hr).1

/-- What holds between any two steps of the loops of the scheduler. -/
def Sound (w : World) : Prop := Inv Distinct (fun _ => True) w

theorem sound_init {s : Sys} (hs : Fresh s) (env : Nat → Choice) : Sound (World.init s env) := by
  refine ⟨⟨fun x hx => ?_, fun _ => trivial⟩, noMain_fresh hs⟩
  simp only [World.init, World.moments, List.mem_singleton] at hx
  rw [hx]
  exact ⟨hs.names, fun t ht => by rw [(hs.stacks t ht).1]; exact List.nodup_nil,
    fun t ht r hr => by rw [(hs.stacks t ht).1] at hr; simp at hr⟩

/-- Any session keeps `Sound`, and so does each step before a check of a task (so that `C42_cycle_partial` and
`C42_exact_partial` apply to every check made in an execution). -/
theorem C42_states (ks : List Nat) (n : Nat) (name : String) :
    Keeps Sound (sessions ks) ∧ Keeps Sound (serve n) ∧ Keeps Sound startup ∧ Keeps Sound (serveLoop n) ∧ Keeps Sound runCycle ∧
      Keeps Sound (inspectTask name) ∧ Keeps Sound handleLogs ∧ Keeps Sound (cleanRunStack name) ∧ Keeps Sound (consider name) ∧
      Keeps Sound runShutdownTasks ∧ Keeps Sound hibernate ∧ Keeps Sound (checkTermination name) ∧
      Keeps Sound (terminateAll name) := by
  have hl := launches_distinct
  have hs := steady_inv hl
  have hk : ∀ name, Keeps Sound (launch name .cycle) := fun name => launch_inv hl name .cycle
  refine ⟨keeps_sessions hs (launch_inv hl) ks, keeps_serve hs (launch_inv hl) n, keeps_startup hs.toCalm (fun _ => launch_inv hl _ _),
    keeps_serveLoop hs (launch_inv hl) n, keeps_runCycle hs (launch_inv hl), keeps_inspectTask hs.toStill.base hk name,
    keeps_handleLogs hs.toStill.base, keeps_cleanRunStack hs.toStill.base name, ?_, keeps_runShutdownTasks hs.toCalm (fun _ => launch_inv hl _ _),
    keeps_hibernate hs.toStill.base, keeps_checkTermination hs.toStill.base name, keeps_terminateAll hs.toStill.base name⟩
  unfold consider
  refine keeps_get_bind (fun w hw => ?_)
  rcases w.st.find name with _ | t
  · exact hw
  · simp only
    refine keeps_ite (I := Sound) (fun _ => keeps_pure _) (fun _ => keeps_ite (fun _ => hk name) (fun _ => keeps_pure _)) w hw

/-- C42 for the checks of an execution (see `C42_states`). -/
theorem C42_cycle_partial (name : String) (w : World) (hw : Sound w) (t : TaskSt)
    (ht : (choose w).2.st.find name = some t) (hz : t.timeout ≠ some 0) :
    ∃ l, (checkTermination name w).2.trace = (choose w).2.trace ++ l ∧
      (terms l).Nodup ∧ (∀ p ∈ terms l, ∃ r ∈ t.stack, p = (name, r.id) ∧ MustEnd (choose w).2.st.cfg (w.env w.pos) t r ∧
        (r.alive = false → t.forceTerm = true ∨ EndCond (choose w).2.st.cfg (w.env w.pos))) ∧
      ((checkTermination name w).1 = .ok () → ∀ r ∈ t.stack, r.alive = true →
        MustEnd (choose w).2.st.cfg (w.env w.pos) t r → EndedIn name r.id l) ∧
      Left name l t (checkTermination name w).2 := by
  have h1 : Sound (choose w).2 := keeps_choose (steady_inv launches_distinct).toStill.base w hw
  have hd := h1.1.now
  have hm := find_mem ht
  obtain ⟨l, htr, hsub, hmust, hdead, hcomp, hleft⟩ := C42_exact_partial name w t hd.names ht (hd.ids t hm.1) (h1.2 t hm.1) hz
  refine ⟨l, htr, ?_, fun p hp => ?_, hcomp, hleft⟩
  · refine List.Nodup.sublist hsub ?_
    have : t.stack.map (fun r => (name, r.id)) = (t.stack.map Run.id).map (fun i => (name, i)) := by rw [List.map_map]; rfl
    rw [this]
    exact List.Pairwise.map _ (fun a b h e => h (Prod.mk.inj e).2) (hd.ids t hm.1)
  · obtain ⟨r, hr, rfl⟩ := List.mem_map.1 (hsub.subset hp)
    exact ⟨r, hr, rfl, hmust r hr hp, hdead r hr hp⟩

/-! ## Examples -/

/-- Three runs started at different times; the last one is over. -/
def oldRuns (timeout : Option Int) : TaskSt := { idleTask "a" .thread with
  timeout := timeout, multilaunch := some true,
  stack := [⟨0, .thread, 0, true, false⟩, ⟨1, .process, 50, true, false⟩, ⟨2, .thread, 0, false, false⟩] }

def oldWorld (timeout : Option Int) (c : Choice) : World :=
  World.init { sessionOf 1 false [oldRuns timeout] with nextId := 3 } (envOf [c])

/-- The age of the first run is above the timeout of the task. -/
example : terms (checkTermination "a" (oldWorld (some 20) ⟨[], some false, none, 60⟩)).2.trace = [("a", 0)] := by decide

/-- The end condition concerns all. -/
example : terms (checkTermination "a" (oldWorld (some 20) ⟨[], some true, none, 0⟩)).2.trace = [("a", 0), ("a", 1), ("a", 2)] := by
  decide

/-- At the time of the check termination is requested. -/
example : terms (checkTermination "a" (oldWorld none ⟨[.terminate "a"], some false, none, 0⟩)).2.trace =
    [("a", 0), ("a", 1), ("a", 2)] := by decide

example : Sound (oldWorld (some 20) ⟨[], some false, none, 60⟩) := by
  refine ⟨⟨fun x hx => ?_, fun _ => trivial⟩, ?_⟩
  · simp only [oldWorld, World.init, World.moments, List.mem_singleton] at hx
    rw [hx]
    exact ⟨by decide, by decide, by decide⟩
  · show ∀ t ∈ _, _; decide

/-- C42 is false for a timeout of zero: the run is older than that but left alone until it is older than the timeout of
the session. -/
theorem C42_zero_violated : ∃ (w : World) (t : TaskSt) (r : Run), Sound w ∧ (choose w).2.st.find "a" = some t ∧ r ∈ t.stack ∧
    r.alive = true ∧ MustEnd (choose w).2.st.cfg (w.env w.pos) t r ∧ (checkTermination "a" w).1 = .ok () ∧
    ¬ EndedIn "a" r.id (checkTermination "a" w).2.trace := by
  refine ⟨oldWorld (some 0) ⟨[], some false, none, 60⟩, oldRuns (some 0), ⟨0, .thread, 0, true, false⟩, ?_, by decide, by decide,
    rfl, Or.inr (Or.inr ⟨by decide, rfl, 0, Or.inl rfl, by decide⟩), by decide, ?_⟩
  · refine ⟨⟨fun x hx => ?_, fun _ => trivial⟩, ?_⟩
    · simp only [oldWorld, World.init, World.moments, List.mem_singleton] at hx
      rw [hx]
      exact ⟨by decide, by decide, by decide⟩
    · show ∀ t ∈ _, _; decide
  · have : (checkTermination "a" (oldWorld (some 0) ⟨[], some false, none, 60⟩)).2.trace = [] := by decide
    rw [this]
    rintro (⟨_, h⟩ | h) <;> simp at h

/-- A run that is over is terminated (and gets a record of that) when the end condition becomes true before it is
dropped from the stack. -/
theorem C42_dead_violated : ∃ (w : World) (t : TaskSt) (r : Run), Sound w ∧ (choose w).2.st.find "a" = some t ∧ r ∈ t.stack ∧
    r.alive = false ∧ ("a", r.id) ∈ terms (checkTermination "a" w).2.trace := by
  refine ⟨oldWorld none ⟨[], some true, none, 60⟩, oldRuns none, ⟨2, .thread, 0, false, false⟩, ?_, by decide, by decide, rfl, by decide⟩
  refine ⟨⟨fun x hx => ?_, fun _ => trivial⟩, ?_⟩
  · simp only [oldWorld, World.init, World.moments, List.mem_singleton] at hx
    rw [hx]
    exact ⟨by decide, by decide, by decide⟩
  · show ∀ t ∈ _, _; decide

end Rocketry.Props
