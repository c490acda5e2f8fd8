import Verif.Sched.Track
import Mathlib.Data.List.Nodup

/-!
# When `set_cached` is called
-/

namespace Rocketry.Sched
open Rocketry.Spec Rocketry.Props

/-- No task is added, settings stay. -/
structure Kin (s s' : Sys) : Prop where
  names : (s'.tasks.map TaskSt.name).Perm (s.tasks.map TaskSt.name)
  cfg : s'.cfg = s.cfg
  back : ∀ t' ∈ s'.tasks, ∃ t ∈ s.tasks, SameSet t t' ∧ (t'.member = true → t.member = true)

theorem Wane.kin {x : String → Nat → Prop} {s s' : Sys} (h : Wane x s s') : Kin s s' :=
  ⟨h.names, h.cfg, fun t' ht' => by obtain ⟨t, ht, hs, hm, _⟩ := h.back t' ht'; exact ⟨t, ht, hs, hm⟩⟩

theorem kin_upd {s s' : Sys} (n : String) (g : TaskSt → TaskSt) (h : s'.tasks = (s.upd n g).tasks) (hc : s'.cfg = s.cfg)
    (hg : ∀ t, SameSet t (g t)) (hm : ∀ t : TaskSt, (g t).member = true → t.member = true) : Kin s s' where
  names := by rw [h, upd_names s n g (fun t => (hg t).name)]
  cfg := hc
  back := fun t' ht' => by
    rw [h] at ht'
    rcases mem_upd ht' with ⟨ht, _⟩ | ⟨u, hu, _, rfl⟩
    · exact ⟨t', ht, .refl _, id⟩
    · exact ⟨u, hu, hg u, hm u⟩

/-- The invariant: `set_cached` may not have been called for the tasks `todo`; the tasks `gone` were removed from the
session. -/
structure CacheInv (gone todo : List String) (w : World) : Prop where
  nodup : (w.st.tasks.map TaskSt.name).Nodup
  env : ∀ i t, EnvEv.add t ∉ (w.env i).events
  ending : ∀ t ∈ w.st.tasks, t.onShutdown = false
  done : ∀ t ∈ w.st.tasks, t.name ∉ todo → Obs.cached t.name ∈ w.trace
  out : ∀ t ∈ w.st.tasks, t.member = true → t.name ∉ gone
  prepared : Prepared w.trace

/-- Neither a check that succeeds nor a call of `set_cached`. -/
def Obs.light : Obs → Bool
  | .checked _ _ (some true) => false
  | .cached _ => false
  | _ => true

variable {gone todo : List String} {w w' : World}

theorem cache_next (h : CacheInv gone todo w) (hk : Kin w.st w'.st) (he : w'.env = w.env) {l : List Obs}
    (ht : w'.trace = w.trace ++ l) (hl : ∀ o ∈ l, o.light = true) : CacheInv gone todo w' where
  nodup := hk.names.nodup_iff.2 h.nodup
  env := by rw [he]; exact h.env
  ending := fun t' ht' => by
    obtain ⟨t, ht, hs, _⟩ := hk.back t' ht'
    rw [hs.onShutdown]; exact h.ending t ht
  done := fun t' ht' hn => by
    obtain ⟨t, ht0, hs, _⟩ := hk.back t' ht'
    rw [ht, hs.name]
    exact List.mem_append_left _ (h.done t ht0 (by rw [← hs.name]; exact hn))
  out := fun t' ht' hm => by
    obtain ⟨t, ht0, hs, hmm⟩ := hk.back t' ht'
    rw [hs.name]
    exact h.out t ht0 (hmm hm)
  prepared := by
    rw [ht]
    clear ht
    have key : ∀ l : List Obs, (∀ o ∈ l, o.light = true) → ∀ a, Prepared a → Prepared (a ++ l) := by
      intro l
      induction l with
      | nil => intro _ a ha; simpa using ha
      | cons o l ih =>
        intro hl a ha
        have e : a ++ o :: l = (a ++ [o]) ++ l := by simp
        rw [e]
        refine ih (fun p hp => hl p (List.mem_cons_of_mem _ hp)) _ (prepared_append ha (fun n m e => ?_))
        have := hl o (List.mem_cons_self ..)
        simp [e, Obs.light] at this
    exact key l hl _ h.prepared

theorem cache_emit {o : Obs} (ho : o.light = true) : Keeps (CacheInv gone todo) (emit o) := fun w hw =>
  cache_next (w' := w.observe o) hw (wane_same (x := fun _ _ => True) rfl rfl).kin rfl rfl (by simpa using ho)

theorem cache_change {n : String} {g : TaskSt → TaskSt} (hg : ∀ t, SameSet t (g t))
    (hm : ∀ t : TaskSt, (g t).member = true → t.member = true := by intro t h; exact h) : Keeps (CacheInv gone todo) (change n g) :=
  fun w hw => cache_next (w' := { w with st := _, hist := _ }) (l := []) hw (kin_upd n g rfl rfl hg hm) rfl (by simp) (by simp)

theorem cache_choose : Keeps (CacheInv gone todo) choose :=
  keeps_choose' (fun w p h => cache_next (w' := { w with pos := p }) (l := []) h
      (wane_same (x := fun _ _ => True) rfl rfl).kin rfl (by simp) (by simp))
    (fun w i e h he => cache_next (w' := w.happen e) (l := [.env e]) h
      (wane_event w.st e (fun t ht => h.env i t (ht ▸ he))).kin rfl rfl (by simp [Obs.light]))

theorem cache_terminateRun (n : String) (id : Nat) : Keeps (CacheInv gone todo) (terminateRun n id) := by
  unfold terminateRun
  refine keeps_bind keeps_get (fun s => ?_)
  split
  · exact keeps_pure _
  · split
    · exact keeps_pure _
    · split
      · exact keeps_raise _
      · exact cache_emit rfl
      · refine keeps_bind (cache_emit rfl) (fun _ => keeps_bind cache_choose (fun c => ?_))
        refine keeps_bind (cache_change (fun _ => ⟨rfl, rfl, rfl, rfl, rfl, rfl, rfl, rfl, rfl⟩)) (fun _ => ?_)
        split
        · exact keeps_raise _
        · exact keeps_ite (fun _ => keeps_raise _) (fun _ => keeps_pure _)
        · exact keeps_pure _

theorem cache_checkExceptions (n : String) : Keeps (CacheInv gone todo) (checkExceptions n) := by
  unfold checkExceptions
  refine keeps_bind keeps_get (fun s => ?_)
  split
  · exact keeps_pure _
  · split
    · exact keeps_pure _
    · exact keeps_bind (cache_change (fun _ => ⟨rfl, rfl, rfl, rfl, rfl, rfl, rfl, rfl, rfl⟩)) (fun _ => keeps_raise _)

theorem dull_light {o : Obs} (h : o.dull = true) : o.light = true := by
  cases o <;> first | rfl | simp [Obs.dull] at h

theorem core_cache : Core (CacheInv gone todo) where
  choose := cache_choose
  note := fun w o ho hw => cache_emit (dull_light ho) w hw
  stop := cache_terminateRun
  errors := cache_checkExceptions
  move := fun w s hs hw => cache_next (w' := { w with st := s, hist := w.st :: w.hist }) (l := []) hw
    (wane_slight (x := fun _ _ => True) hs).kin rfl (by simp) (by simp)
  request := fun w n hw => cache_next (w' := w.happen (.request n [])) (l := [.env (.request n [])]) hw
      (wane_event w.st (.request n []) (fun t => by simp)).kin rfl rfl (by simp [Obs.light])

theorem cache_startAsync (name : String) (part : Part) : Keeps (CacheInv gone todo) (startAsync name part) := by
  have drop : ∀ b, Keeps (CacheInv gone todo) (dropMain name b) := fun b =>
    cache_change (fun _ => ⟨rfl, rfl, rfl, rfl, rfl, rfl, rfl, rfl, rfl⟩)
  unfold startAsync
  refine keeps_bind cache_choose (fun c => keeps_bind keeps_get (fun s => ?_))
  split
  · exact keeps_raise _
  rename_i t ht
  have failed : Keeps (CacheInv gone todo) (do emit (.failedSetup name); raise .setup : M Unit) :=
    keeps_bind (cache_emit rfl) (fun _ => keeps_raise _)
  refine keeps_ite (fun _ => failed) (fun _ => keeps_bind ?_ (fun _ => keeps_ite (fun _ => failed) (fun _ => keeps_bind ?_ (fun id => ?_))))
  · unfold popBatch
    split
    · exact keeps_pure _
    · exact keeps_bind (cache_change (fun _ => ⟨rfl, rfl, rfl, rfl, rfl, rfl, rfl, rfl, rfl⟩)) (fun _ => cache_emit rfl)
  · intro w hw
    exact cache_next (w' := w.push name t.execution c.time part) (l := [.started name w.st.nextId part]) hw
      (kin_upd name _ rfl rfl (fun _ => ⟨rfl, rfl, rfl, rfl, rfl, rfl, rfl, rfl, rfl⟩) (fun _ h => h)) rfl rfl (by simp [Obs.light])
  · unfold runOn
    split
    · refine keeps_ite (fun _ => keeps_bind (drop _) (fun _ => keeps_raise _)) (fun _ => ?_)
      refine keeps_bind cache_choose (fun d => keeps_bind (cache_emit rfl) (fun _ => keeps_bind (drop _) (fun _ w hw => ?_)))
      rw [mainEnd_apply]; exact hw
    · exact keeps_ite (fun _ => keeps_raise _) (fun _ => keeps_pure _)
    · exact keeps_ite (fun _ => cache_change (fun _ => ⟨rfl, rfl, rfl, rfl, rfl, rfl, rfl, rfl, rfl⟩)) (fun _ => keeps_pure _)
    · refine keeps_ite (fun _ => keeps_bind (cache_change (fun _ => ⟨rfl, rfl, rfl, rfl, rfl, rfl, rfl, rfl, rfl⟩))
        (fun _ => keeps_raise _)) (fun _ => keeps_ite (fun _ => keeps_raise _) (fun _ => keeps_pure _))

/-- A task whose `set_cached` was called may be checked. -/
theorem cache_checked {n : String} {m : Bool} {r : Option Bool} (h : CacheInv gone todo w) (hn : Obs.cached n ∈ w.trace) :
    CacheInv gone todo (w.observe (.checked n m r)) := by
  refine ⟨h.nodup, h.env, h.ending, fun t ht htn => List.mem_append_left _ (h.done t ht htn), h.out, ?_⟩
  refine prepared_append h.prepared (fun k m' e => ?_)
  obtain ⟨rfl, _, _⟩ := by simpa using e
  exact hn

theorem cache_trace_choose (n : String) : Keeps (fun w => CacheInv gone todo w ∧ Obs.cached n ∈ w.trace) choose :=
  keeps_choose' (fun w p h => ⟨cache_next (w' := { w with pos := p }) (l := []) h.1
      (wane_same (x := fun _ _ => True) rfl rfl).kin rfl (by simp) (by simp), h.2⟩)
    (fun w i e h he => ⟨cache_next (w' := w.happen e) (l := [.env e]) h.1
      (wane_event w.st e (fun t ht => h.1.env i t (ht ▸ he))).kin rfl rfl (by simp [Obs.light]), List.mem_append_left _ h.2⟩)

theorem cache_launch (name : String) (hn : name ∉ todo) (part : Part) : Keeps (CacheInv gone todo) (launch name part) := by
  unfold launch
  refine keeps_bind ?_ (fun b => keeps_ite (fun _ => ?_) (fun _ => keeps_pure _))
  · unfold isTaskRunnable
    refine keeps_get_bind (fun w hw => ?_)
    rcases hf : w.st.find name with _ | t
    · exact hw
    obtain ⟨ht, rfl⟩ := find_mem hf
    have hc := hw.done t ht hn
    simp only
    split
    · exact hw
    split
    · exact hw
    have hr : CacheInv gone todo (isRunnable t w).2 := by
      unfold isRunnable
      split
      · exact cache_checked hw hc
      split
      · exact hw
      rw [bind_apply]
      have h1 := cache_trace_choose (todo := todo) t.name w ⟨hw, hc⟩
      obtain ⟨w1, hcw, _⟩ := choose_ok w
      rw [hcw] at h1 ⊢
      simp only at h1 ⊢
      have he : emit (.checked t.name false (w.env w.pos).cond) w1 = (.ok (), w1.observe (.checked t.name false (w.env w.pos).cond)) := rfl
      rw [bind_apply, he]
      simp only
      have h2 := cache_checked (m := false) (r := (w.env w.pos).cond) h1.1 h1.2
      generalize (w.env w.pos).cond = c at h2 ⊢
      cases c <;> exact h2
    unfold checkTaskCond tryCatch
    rcases hm : isRunnable t w with ⟨r, w'⟩
    rw [hm] at hr
    cases r with
    | ok a => exact hr
    | cut => exact hr
    | raise e =>
      simp only [get_bind_apply]
      split <;> exact hr
  · unfold runTask
    refine keeps_tryCatch (cache_startAsync name part) (fun e => keeps_bind keeps_get (fun s => ?_))
    cases e <;> first
      | exact keeps_raise _
      | exact keeps_ite (fun _ => keeps_pure _) (fun _ => keeps_raise _)

/-- `set_cached` is called for the first of the tasks that are left. -/
theorem cache_startupTask (t : TaskSt) (l : List String) (hnl : t.name ∉ l) (w : World)
    (hw : CacheInv gone (t.name :: l) w) : CacheInv gone l (startupTask t w).2 := by
  unfold startupTask
  rw [bind_apply]
  have h1 := cache_choose w hw
  obtain ⟨w1, hcw, _⟩ := choose_ok w
  rw [hcw] at h1 ⊢
  simp only [get_bind_apply] at h1 ⊢
  have he : emit (.cached t.name) w1 = (.ok (), w1.observe (.cached t.name)) := rfl
  rw [bind_apply, he]
  simp only
  have h2 : CacheInv gone l (w1.observe (.cached t.name)) := by
    refine ⟨h1.nodup, h1.env, h1.ending, fun u hu hun => ?_, h1.out, ?_⟩
    · by_cases e : u.name = t.name
      · exact List.mem_append_right _ (by simp [e])
      · exact List.mem_append_left _ (h1.done u hu (by simp [e, hun]))
    · exact prepared_append h1.prepared (fun k m e => (by cases e))
  have hk : Keeps (CacheInv gone l) (if (w.env w.pos).fault = some .logging ∧ w1.st.cfg.silenceLogging = false then raise .logging
      else if t.onStartup then startSpecial .startup t else pure () : M Unit) :=
    keeps_ite (fun _ => keeps_raise _) (fun _ => keeps_ite (fun _ => core_startSpecial core_cache _ t (cache_launch t.name hnl _))
      (fun _ => keeps_pure _))
  exact hk _ h2

/-- Some calls may be left. -/
def CacheSome (w : World) : Prop := ∃ gone todo, CacheInv gone todo w

theorem cache_startupTasks : ∀ (l : List TaskSt), (l.map TaskSt.name).Nodup → (∀ t ∈ l, t.name ∉ gone) →
    ∀ w, CacheInv gone (l.map TaskSt.name ++ gone) w →
    CacheSome (forEach l startupTask w).2 ∧
      ((forEach l startupTask w).1 = .ok () → CacheInv gone gone (forEach l startupTask w).2)
  | [], _, _, w, hw => ⟨⟨_, _, hw⟩, fun _ => hw⟩
  | t :: l, hl, hg, w, hw => by
    obtain ⟨hnl, hnd⟩ := List.nodup_cons.1 hl
    have h1 := cache_startupTask t (l.map TaskSt.name ++ gone)
      (fun h => (List.mem_append.1 h).elim hnl (hg t (List.mem_cons_self ..))) w hw
    unfold forEach
    rw [bind_apply]
    rcases hm : startupTask t w with ⟨r, w'⟩
    rw [hm] at h1
    cases r with
    | ok _ => exact cache_startupTasks l hnd (fun u hu => hg u (List.mem_cons_of_mem _ hu)) w' h1
    | raise e => exact ⟨⟨_, _, h1⟩, fun h => by simp at h⟩
    | cut => exact ⟨⟨_, _, h1⟩, fun h => by simp at h⟩

theorem keeps_some {α : Type} {m : M α} (h : ∀ gone todo, Keeps (CacheInv gone todo) m) : Keeps CacheSome m :=
  fun w ⟨gone, todo, hw⟩ => ⟨gone, todo, h gone todo w hw⟩

theorem core_some : Core CacheSome where
  choose := keeps_some (fun _ _ => cache_choose)
  note := fun w o ho ⟨gone, todo, hw⟩ => ⟨gone, todo, core_cache.note w o ho hw⟩
  stop := fun n id => keeps_some (fun _ _ => cache_terminateRun n id)
  errors := fun n => keeps_some (fun _ _ => cache_checkExceptions n)
  move := fun w s hs ⟨gone, todo, hw⟩ => ⟨gone, todo, core_cache.move w s hs hw⟩
  request := fun w n ⟨gone, todo, hw⟩ => ⟨gone, todo, core_cache.request w n hw⟩

theorem mem_sorted_iff {s : Sys} {t : TaskSt} : t ∈ s.sorted ↔ t ∈ s.tasks ∧ t.member = true := by
  unfold Sys.sorted Sys.members
  rw [(pySorted_perm _).mem_iff, List.mem_filter]

theorem mem_sorted {s : Sys} {t : TaskSt} (h : t ∈ s.sorted) : t ∈ s.tasks := (mem_sorted_iff.1 h).1

/-- The tasks that were removed from the session. -/
def Sys.removed (s : Sys) : List String := (s.tasks.filter (fun t => !t.member)).map TaskSt.name

theorem member_removed {s : Sys} (hn : (s.tasks.map TaskSt.name).Nodup) {t : TaskSt} (ht : t ∈ s.tasks) (hm : t.member = true) :
    t.name ∉ s.removed := by
  intro h
  obtain ⟨u, hu, e⟩ := List.mem_map.1 h
  obtain ⟨hu, hum⟩ := List.mem_filter.1 hu
  obtain rfl := List.inj_on_of_nodup_map hn hu ht e
  simp [hm] at hum

/-- Whatever was done before: at the start of `startup` all calls of `set_cached` are still to be done. -/
theorem cache_anew {w : World} (h : CacheSome w) :
    CacheInv w.st.removed (w.st.sorted.map TaskSt.name ++ w.st.removed) w := by
  obtain ⟨gone, todo, h⟩ := h
  refine ⟨h.nodup, h.env, h.ending, fun t ht hnt => absurd ?_ hnt, fun t ht hm => member_removed h.nodup ht hm, h.prepared⟩
  by_cases hm : t.member = true
  · exact List.mem_append_left _ (List.mem_map_of_mem (mem_sorted_iff.2 ⟨ht, hm⟩))
  · exact List.mem_append_right _ (List.mem_map_of_mem (List.mem_filter.2 ⟨ht, by simpa using hm⟩))

/-- `startup` and the cycles. -/
theorem cache_loop (n : Nat) : Keeps CacheSome (do startup; serveLoop n) := by
  intro w hw
  have hst : CacheSome (startup w).2 ∧ ((startup w).1 = .ok () → ∃ gone, CacheInv gone gone (startup w).2) := by
    have e : startup w = forEach (Sys.sorted { w.st with nCycles := 0 }) startupTask
        { w with st := { w.st with nCycles := 0 }, hist := w.st :: w.hist } := rfl
    rw [e]
    have h0 : CacheSome { w with st := { w.st with nCycles := 0 }, hist := w.st :: w.hist } := core_some.move w _ (.cycles _ _) hw
    generalize hw1 : ({ w with st := { w.st with nCycles := 0 }, hist := w.st :: w.hist } : World) = w1 at h0
    have hs1 : ({ w.st with nCycles := 0 } : Sys) = w1.st := by rw [← hw1]
    rw [hs1]
    have h1 := cache_anew h0
    have hnd : (w1.st.sorted.map TaskSt.name).Nodup := by
      have hp : (w1.st.sorted.map TaskSt.name).Perm (w1.st.members.map TaskSt.name) := (pySorted_perm _).map _
      exact hp.nodup_iff.2 ((List.filter_sublist.map _).nodup h1.nodup)
    have h2 := cache_startupTasks w1.st.sorted hnd
      (fun t ht => member_removed h1.nodup (mem_sorted_iff.1 ht).1 (mem_sorted_iff.1 ht).2) w1 h1
    exact ⟨h2.1, fun h => ⟨_, h2.2 h⟩⟩
  rw [bind_apply]
  rcases hm' : startup w with ⟨r, w'⟩
  rw [hm'] at hst
  cases r with
  | ok _ =>
    obtain ⟨gone, hg⟩ := hst.2 rfl
    exact ⟨gone, gone, core_serveLoop core_cache (P := fun name => name ∉ gone)
      (fun w hw t ht => hw.out t (mem_sorted_iff.1 ht).1 (mem_sorted_iff.1 ht).2) (fun name hn => cache_launch name hn _) n w' hg⟩
  | raise e => exact hst.1
  | cut => exact hst.1

theorem cache_serve : ∀ n, Keeps CacheSome (serve n)
  | 0 => keeps_cut
  | n + 1 => by
    have hshut : Keeps CacheSome runShutdownTasks := by
      rintro w ⟨gone, todo, hw⟩
      refine ⟨gone, todo, ?_⟩
      unfold runShutdownTasks
      rw [get_bind_apply]
      refine keeps_forEach (fun t ht => ?_) w hw
      rw [if_neg (by rw [hw.ending t (mem_sorted ht)]; simp)]
      exact keeps_pure _
    exact core_serveStep core_some (cache_loop n) (fun e => core_shutDown core_some hshut (fun w hw _ => cache_serve n w hw) n e)

/-- Any number of calls of `serve` in a new process. -/
theorem prepared_sessions (s : Sys) (env : Nat → Choice) (hn : (s.tasks.map TaskSt.name).Nodup)
    (hsd : ∀ t ∈ s.tasks, t.onShutdown = false) (ha : ∀ i t, EnvEv.add t ∉ (env i).events) (ks : List Nat) :
    Prepared (sessions ks (World.init s env)).2.trace := by
  have h0 : CacheSome (World.init s env) := ⟨[], s.tasks.map TaskSt.name, hn, ha, hsd,
    fun t ht hnt => absurd (List.mem_map_of_mem ht) hnt, fun _ _ _ h => by simp at h, fun a o b e => by simp [World.init] at e⟩
  have h : Keeps CacheSome (sessions ks) := by
    unfold sessions
    exact keeps_forEach (fun k _ => keeps_bind (keeps_attempt (cache_serve k)) (fun _ => keeps_pure _))
  obtain ⟨_, _, h⟩ := h _ h0
  exact h.prepared

end Rocketry.Sched
