import Verif.Session.RunOnly
import Verif.Spec.RunOnlySpec
import Verif.Sched.Others
import Verif.Props.ManualProps

/-!
# C48: `session.run` runs only the named tasks and restores the session
-/

namespace Rocketry.Props
open Rocketry.Sched Rocketry.Spec

/-! ## No other task is run -/

/-- The tasks that are not named are disabled and not requested. -/
def OthersOff (names : List String) (s : Sys) : Prop :=
  ∀ t ∈ s.tasks, t.name ∉ names → t.disabled = true ∧ t.batches = []

/-- The invariant. -/
structure Alone (names : List String) (w : World) : Prop where
  off : OthersOff names w.st
  starts : ∀ n id p, .started n id p ∈ w.trace → n ∈ names
  env : ∀ i, ∀ e ∈ (w.env i).events, LeavesAlone names e

variable {names : List String}

theorem off_upd {s : Sys} {n : String} {f : TaskSt → TaskSt} (h : OthersOff names s) (hf : ∀ t, (f t).name = t.name)
    (hk : n ∉ names → ∀ t, t.disabled = true → t.batches = [] → (f t).disabled = true ∧ (f t).batches = []) :
    OthersOff names (s.upd n f) := by
  intro t ht hn
  rcases mem_upd ht with ⟨ht, _⟩ | ⟨u, hu, hun, rfl⟩
  · exact h t ht hn
  · rw [hf] at hn
    obtain ⟨h1, h2⟩ := h u hu hn
    exact hk (hun ▸ hn) u h1 h2

theorem off_event {s : Sys} (h : OthersOff names s) {e : EnvEv} (he : LeavesAlone names e) : OthersOff names (s.event e) := by
  cases e with
  | ends n id exc => exact off_upd h (fun _ => rfl) (fun _ t h1 h2 => ⟨h1, h2⟩)
  | request n b => exact off_upd h (fun _ => rfl) (fun hn => absurd he hn)
  | terminate n => exact off_upd h (fun _ => rfl) (fun _ t h1 h2 => ⟨h1, h2⟩)
  | disable n b =>
    refine off_upd h (fun _ => rfl) (fun hn t _ h2 => ⟨?_, h2⟩)
    rcases he with he | he
    · exact absurd he hn
    · exact he
  | hold b => exact h
  | shutDown f => exact h
  | restart => exact h
  | add t =>
    simp only [Sys.event]
    split
    · exact h
    · intro u hu hn
      rcases List.mem_cons.1 hu with rfl | hu
      · exact absurd he hn
      · exact h u hu hn
  | remove n => exact off_upd h (fun _ => rfl) (fun _ t h1 h2 => ⟨h1, h2⟩)
  | reorder l =>
    simp only [Sys.event]
    split
    · rename_i hl
      exact fun u hu => h u ((List.isPerm_iff.1 hl).mem_iff.1 hu)
    · exact h

theorem clean_keeps (cfg : Config) (t : TaskSt) : (t.clean cfg).disabled = t.disabled ∧ (t.clean cfg).batches = t.batches := by
  unfold TaskSt.clean; split <;> exact ⟨rfl, rfl⟩

theorem off_tidy {s s' : Sys} (h : OthersOff names s) (ht : Tidy s s') : OthersOff names s' := by
  cases ht with
  | clean n cfg =>
    exact off_upd h (clean_name cfg) (fun _ t h1 h2 => ⟨(clean_keeps cfg t).1.trans h1, (clean_keeps cfg t).2.trans h2⟩)
  | finish n id exc => exact off_upd h (fun _ => rfl) (fun _ t h1 h2 => ⟨h1, h2⟩)
  | reset n cfg =>
    exact off_upd h (fun t => clean_name cfg t) (fun _ t h1 h2 => ⟨(clean_keeps cfg t).1.trans h1, (clean_keeps cfg t).2.trans h2⟩)
  | erase n r => exact off_upd h (fun _ => rfl) (fun _ t h1 h2 => ⟨h1, h2⟩)
  | cycles k => exact h

theorem alone_note {w : World} {o : Obs} (h : Alone names w) (ho : ∀ n id p, o ≠ .started n id p) :
    ∀ n id p, Obs.started n id p ∈ w.trace ++ [o] → n ∈ names := by
  intro n id p hm
  rcases List.mem_append.1 hm with hm | hm
  · exact h.starts n id p hm
  · exact absurd (List.mem_singleton.1 hm).symm (ho n id p)

theorem steady_alone : Steady (Alone names) where
  pos := fun _ _ h => ⟨h.off, h.starts, h.env⟩
  env := fun w i e h he => ⟨off_event h.off (h.env i e he), alone_note h (by simp), h.env⟩
  request := fun w n hd h => by
    obtain ⟨t, hf, hd⟩ := hd
    obtain ⟨ht, hn⟩ := find_mem hf
    refine ⟨off_event h.off (e := .request n []) ?_, alone_note h (by simp), h.env⟩
    apply Classical.byContradiction
    intro hc
    have := (h.off t ht (hn ▸ hc)).1
    rw [hd] at this
    simp at this
  note := fun w o ho h => ⟨h.off, alone_note h (fun n id p e => by rw [e] at ho; simp [Obs.plain] at ho), h.env⟩
  move := fun w s ht h => ⟨off_tidy h.off ht, h.starts, h.env⟩
  mark := fun w o ho h => ⟨h.off, alone_note h (fun n id p e => by rw [e] at ho; simp [Obs.mark] at ho), h.env⟩
  flags := fun w h => ⟨h.off, h.starts, h.env⟩

/-- A task that is disabled and not requested is not runnable. -/
theorem launch_off {n : String} {w : World} (h : ∀ t ∈ w.st.tasks, t.name = n → t.disabled = true ∧ t.batches = [])
    (part : Part) : (launch n part w).2 = w ∧ ((∃ t ∈ w.st.tasks, t.name = n) → (launch n part w).1 = .ok ()) := by
  unfold launch isTaskRunnable
  rw [bind_apply, get_bind_apply]
  rcases hf : w.st.find n with _ | t
  · refine ⟨rfl, fun ⟨t, ht, hn⟩ => ?_⟩
    exact absurd hn (by simpa using List.find?_eq_none.1 hf t ht)
  · obtain ⟨ht, hn⟩ := find_mem hf
    obtain ⟨hd, hb⟩ := h t ht hn
    have key : checkTaskCond t w = (.ok false, w) := by
      unfold checkTaskCond Sched.tryCatch isRunnable
      rw [if_neg (by rw [hb]; simp), if_pos hd]
      rfl
    simp only
    by_cases h1 : t.execution = .process ∧ w.st.hasFree = false
    · rw [if_pos h1]; exact ⟨rfl, fun _ => rfl⟩
    · rw [if_neg h1]
      by_cases h2 : t.execution ≠ .main ∧ t.allowMulti w.st.cfg = false ∧ t.isAlive = true
      · rw [if_pos h2]; exact ⟨rfl, fun _ => rfl⟩
      · rw [if_neg h2, key]; exact ⟨rfl, fun _ => rfl⟩

theorem alone_launch (n : String) (part : Part) : Keeps (Alone names) (launch n part) := by
  intro w hw
  by_cases hn : n ∈ names
  · have hst := (steady_alone (names := names)).toCalm
    refine launch_rule' (I0 := Alone names) (I1 := Alone names) hst hst n part (fun _ h => h) ?_ ?_ ?_ w hw
    · exact fun w b h => ⟨off_upd h.off (fun _ => rfl) (fun hc => absurd hn hc), alone_note h (by simp), h.env⟩
    · intro w kind time h
      refine ⟨off_upd h.off (fun _ => rfl) (fun hc => absurd hn hc), ?_, h.env⟩
      intro m id p hm
      rcases List.mem_append.1 hm with hm | hm
      · exact h.starts m id p hm
      · cases List.mem_singleton.1 hm; exact hn
    · exact fun w b h => ⟨off_upd h.off (fun _ => rfl) (fun hc => absurd hn hc), h.starts, h.env⟩
  · rw [(launch_off (fun t ht htn => hw.off t ht (htn ▸ hn)) part).1]; exact hw

theorem restore_trace (orig : List TaskSt) (w : World) : (restoreTasks orig w).2.trace = w.trace := by
  have step : ∀ n (v : World), (restoreTask orig n v).2.trace = v.trace := by
    intro n v
    unfold restoreTask
    rcases h : orig.find? (fun t => decide (t.name = n)) with _ | o <;> simp only [h] <;> rfl
  unfold restoreTasks
  rw [get_bind_apply]
  have : ∀ l (v : World), (forEach l (restoreTask orig) v).2.trace = v.trace := by
    intro l
    induction l with
    | nil => exact fun _ => rfl
    | cons a l ih =>
      intro v
      unfold forEach
      rw [bind_apply]
      have h1 := step a v
      rcases hm : restoreTask orig a v with ⟨r, v'⟩
      rw [hm] at h1
      cases r with
      | ok _ => exact (ih v').trans h1
      | raise _ => exact h1
      | cut => exact h1
  exact this _ w

/-- The record of `session.run` is that of the scheduler. -/
theorem sessionRun_trace (names : List String) (execution : Option Exec) (obey : Bool) (n : Nat) (w : World) :
    (sessionRun names execution obey n w).2.trace =
      (serveWith cyclesDone n { w with st := w.st.only names execution obey, hist := w.st :: w.hist }).2.trace := by
  show (Sched.tryFinally (serveWith cyclesDone n) (restoreTasks w.st.members)
    { w with st := w.st.only names execution obey, hist := w.st :: w.hist }).2.trace = _
  unfold Sched.tryFinally
  rcases serveWith cyclesDone n { w with st := w.st.only names execution obey, hist := w.st :: w.hist } with ⟨r, w'⟩
  have h := restore_trace w.st.members w'
  rcases hm : restoreTasks w.st.members w' with ⟨r', w''⟩
  rw [hm] at h
  cases r <;> simp only [hm] <;> cases r' <;> first | exact h | rfl

theorem off_only {s : Sys} (hm : ∀ t ∈ s.tasks, t.member = true)
    (hb : ∀ t ∈ s.tasks, t.name ∉ names → t.batches = []) (execution : Option Exec) (obey : Bool) :
    OthersOff names (s.only names execution obey) := by
  intro t ht hn
  obtain ⟨u, hu, rfl⟩ := List.mem_map.1 ht
  rw [if_pos (hm u hu)] at hn ⊢
  unfold TaskSt.only at hn ⊢
  by_cases hu' : u.name ∈ names
  · rw [if_pos hu'] at hn; exact absurd hu' hn
  · rw [if_neg hu']; exact ⟨rfl, hb u hu hu'⟩

/-- C48, as far as it holds: whatever happens (faults, exceptions, a restart), `session.run` starts no task that is not
named, if no such task has a pending request and nobody meanwhile requests, enables or adds one.  Missing: pending
requests of the others are carried out although they are disabled (`C48_pending_violated`). -/
theorem C48_only_partial (names : List String) (execution : Option Exec) (obey : Bool) (n : Nat) (s : Sys)
    (env : Nat → Choice) (hm : ∀ t ∈ s.tasks, t.member = true)
    (hb : ∀ t ∈ s.tasks, t.name ∉ names → t.batches = [])
    (henv : ∀ i, ∀ e ∈ (env i).events, LeavesAlone names e) (m : String) (hn : m ∉ names) :
    startsOf m (sessionRun names execution obey n (World.init s env)).2.trace = 0 := by
  rw [sessionRun_trace]
  have h0 : Alone names { World.init s env with st := s.only names execution obey, hist := [s] } :=
    ⟨off_only hm hb execution obey, by simp [World.init], henv⟩
  have h := keeps_serveWith steady_alone alone_launch keeps_cyclesDone n _ h0
  unfold startsOf
  rw [List.countP_eq_zero]
  intro o ho hc
  cases o with
  | started k id p =>
    simp only [decide_eq_true_eq] at hc
    exact hn (hc ▸ h.starts k id p ho)
  | _ => simp at hc

/-! ## The session is restored -/

/-- The tasks in the session are among those that were there before. -/
structure Kin (L : List String) (w : World) : Prop where
  names : (w.st.tasks.map TaskSt.name).Nodup
  kin : ∀ t ∈ w.st.tasks, t.member = true → t.name ∈ L
  env : ∀ i, ∀ e ∈ (w.env i).events, ∀ t, e ≠ .add t

theorem kin_upd {L : List String} {s : Sys} {n : String} {f : TaskSt → TaskSt}
    (h : ∀ t ∈ s.tasks, t.member = true → t.name ∈ L) (hf : ∀ t, (f t).name = t.name)
    (hm : ∀ t, (f t).member = true → t.member = true) : ∀ t ∈ (s.upd n f).tasks, t.member = true → t.name ∈ L := by
  intro t ht hk
  rcases mem_upd ht with ⟨ht, _⟩ | ⟨u, hu, _, rfl⟩
  · exact h t ht hk
  · rw [hf]; exact h u hu (hm u hk)

theorem kin_event {L : List String} {s : Sys} (h : ∀ t ∈ s.tasks, t.member = true → t.name ∈ L) {e : EnvEv}
    (he : ∀ t, e ≠ .add t) : ∀ t ∈ (s.event e).tasks, t.member = true → t.name ∈ L := by
  cases e with
  | ends n id exc => exact kin_upd h (fun _ => rfl) (fun _ h => h)
  | request n b => exact kin_upd h (fun _ => rfl) (fun _ h => h)
  | terminate n => exact kin_upd h (fun _ => rfl) (fun _ h => h)
  | disable n b => exact kin_upd h (fun _ => rfl) (fun _ h => h)
  | hold b => exact h
  | shutDown f => exact h
  | restart => exact h
  | add t => exact absurd rfl (he t)
  | remove n => exact kin_upd h (fun _ => rfl) (fun _ h => by simp at h)
  | reorder l =>
    simp only [Sys.event]
    split
    · rename_i hl
      exact fun u hu => h u ((List.isPerm_iff.1 hl).mem_iff.1 hu)
    · exact h

theorem clean_member (cfg : Config) (t : TaskSt) : (t.clean cfg).member = t.member := by
  unfold TaskSt.clean; split <;> rfl

theorem kin_tidy {L : List String} {s s' : Sys} (h : ∀ t ∈ s.tasks, t.member = true → t.name ∈ L) (ht : Tidy s s') :
    ∀ t ∈ s'.tasks, t.member = true → t.name ∈ L := by
  cases ht with
  | clean n cfg => exact kin_upd h (clean_name cfg) (fun t ht => by rw [clean_member] at ht; exact ht)
  | finish n id exc => exact kin_upd h (fun _ => rfl) (fun _ h => h)
  | reset n cfg =>
    exact kin_upd h (fun t => clean_name cfg t) (fun t ht => by
      have : (t.clean cfg).member = true := ht
      rw [clean_member] at this; exact this)
  | erase n r => exact kin_upd h (fun _ => rfl) (fun _ h => h)
  | cycles k => exact h

theorem steady_kin {L : List String} : Steady (Kin L) where
  pos := fun _ _ h => ⟨h.names, h.kin, h.env⟩
  env := fun w i e h he => ⟨(shift_event w.st e).nodup h.names, kin_event h.kin (h.env i e he), h.env⟩
  request := fun w n _ h => ⟨(shift_event w.st (.request n [])).nodup h.names, kin_event h.kin (by simp), h.env⟩
  note := fun _ _ _ h => ⟨h.names, h.kin, h.env⟩
  move := fun w s ht h => ⟨(drift_tidy ht).nodup h.names, kin_tidy h.kin ht, h.env⟩
  mark := fun _ _ _ h => ⟨h.names, h.kin, h.env⟩
  flags := fun _ h => ⟨h.names, h.kin, h.env⟩

theorem kin_launch {L : List String} (n : String) (part : Part) : Keeps (Kin L) (launch n part) := by
  have hst := (steady_kin (L := L)).toCalm
  refine fun w hw => launch_rule' (I0 := Kin L) (I1 := Kin L) hst hst n part (fun _ h => h) ?_ ?_ ?_ w hw
  · exact fun w b h => ⟨upd_nodup h.names (fun _ => rfl), kin_upd h.kin (fun _ => rfl) (fun _ h => h), h.env⟩
  · exact fun w kind time h => ⟨upd_nodup h.names (fun _ => rfl), kin_upd h.kin (fun _ => rfl) (fun _ h => h), h.env⟩
  · exact fun w b h => ⟨upd_nodup h.names (fun _ => rfl), kin_upd h.kin (fun _ => rfl) (fun _ h => h), h.env⟩

/-- `t` has the settings of a task of `orig`. -/
def Put (orig : List TaskSt) (t : TaskSt) : Prop :=
  ∃ o ∈ orig, t = { o with batches := t.batches, stack := t.stack, strays := t.strays, member := t.member }

theorem restore_step {orig : List TaskSt} {n : String} {w : World} (hn : n ∈ orig.map TaskSt.name) :
    ∃ w', restoreTask orig n w = (.ok (), w') ∧
      ∀ t' ∈ w'.st.tasks, ∃ t ∈ w.st.tasks, t.name = t'.name ∧ t.member = t'.member ∧ (t.name = n → Put orig t') ∧
        (Put orig t → Put orig t') := by
  unfold restoreTask
  rcases hf : orig.find? (fun t => decide (t.name = n)) with _ | o
  · obtain ⟨o, ho, hon⟩ := List.mem_map.1 hn
    exact absurd hon (by simpa using List.find?_eq_none.1 hf o ho)
  · have ho := List.mem_of_find?_eq_some hf
    have hon : o.name = n := by simpa using List.find?_some hf
    simp only [hf]
    refine ⟨_, rfl, fun t' ht' => ?_⟩
    rcases mem_upd ht' with ⟨ht, hne⟩ | ⟨u, hu, hun, rfl⟩
    · exact ⟨t', ht, rfl, rfl, fun h => absurd h hne, fun h => h⟩
    · exact ⟨u, hu, hun.trans hon.symm, rfl, fun _ => ⟨o, ho, rfl⟩, fun _ => ⟨o, ho, rfl⟩⟩

theorem restore_all {orig : List TaskSt} : ∀ (l : List String) (w : World), (∀ n ∈ l, n ∈ orig.map TaskSt.name) →
    ∃ w', forEach l (restoreTask orig) w = (.ok (), w') ∧
      ∀ t' ∈ w'.st.tasks, ∃ t ∈ w.st.tasks, t.name = t'.name ∧ t.member = t'.member ∧ (t.name ∈ l → Put orig t') ∧
        (Put orig t → Put orig t')
  | [], w, _ => ⟨w, rfl, fun t ht => ⟨t, ht, rfl, rfl, fun h => by simp at h, fun h => h⟩⟩
  | a :: l, w, hl => by
    obtain ⟨w1, hw1, h1⟩ := restore_step (w := w) (hl a (List.mem_cons_self ..))
    obtain ⟨w2, hw2, h2⟩ := restore_all l w1 (fun n hn => hl n (List.mem_cons_of_mem _ hn))
    refine ⟨w2, ?_, fun t' ht' => ?_⟩
    · unfold forEach; rw [bind_apply, hw1]; exact hw2
    · obtain ⟨u, hu, hun, hum, hul, hup⟩ := h2 t' ht'
      obtain ⟨t, ht, htn, htm, htl, htp⟩ := h1 u hu
      refine ⟨t, ht, htn.trans hun, htm.trans hum, fun hm => ?_, fun h => hup (htp h)⟩
      rcases List.mem_cons.1 hm with hm | hm
      · exact hup (htl hm)
      · exact hul (htn ▸ hm)

theorem only_name (names : List String) (execution : Option Exec) (obey : Bool) (t : TaskSt) :
    (t.only names execution obey).name = t.name ∧ (t.only names execution obey).member = t.member := by
  unfold TaskSt.only; split <;> exact ⟨rfl, rfl⟩

theorem only_back {s : Sys} {names : List String} {execution : Option Exec} {obey : Bool} {t : TaskSt}
    (ht : t ∈ (s.only names execution obey).tasks) : ∃ u ∈ s.tasks, t.name = u.name ∧ t.member = u.member := by
  obtain ⟨u, hu, rfl⟩ := List.mem_map.1 ht
  refine ⟨u, hu, ?_⟩
  split
  · exact only_name names execution obey u
  · exact ⟨rfl, rfl⟩

theorem only_names (s : Sys) (names : List String) (execution : Option Exec) (obey : Bool) :
    (s.only names execution obey).tasks.map TaskSt.name = s.tasks.map TaskSt.name := by
  unfold Sys.only
  rw [List.map_map]
  apply List.map_congr_left
  intro t _
  show (if t.member = true then _ else _ : TaskSt).name = _
  split
  · exact (only_name names execution obey t).1
  · rfl

theorem attributes_of {s : Sys} (hn : (s.tasks.map TaskSt.name).Nodup) {t : TaskSt} (ht : t ∈ s.tasks) (hm : t.member = true) :
    attributes s t.name = some ⟨t.priority, t.execution, t.multilaunch, t.disabled, t.onStartup, t.onShutdown, t.permanent,
      t.timeout, t.noCond, t.forceTerm, t.batches⟩ := by
  unfold attributes
  rcases hf : s.tasks.find? (fun u => u.member && decide (u.name = t.name)) with _ | u
  · have := List.find?_eq_none.1 hf t ht
    simp [hm] at this
  · have hu := List.mem_of_find?_eq_some hf
    have hun : u.name = t.name := by
      have := List.find?_some hf
      simp at this
      exact this.2
    rw [hf, name_inj hn hu ht hun]
    rfl

/-- C48, as far as it holds: however the scheduler ends (also by an exception), every task that is still in the session
has the attributes it had before `session.run` except for its pending requests, if no task is added meanwhile.
Missing: a task added meanwhile leaves others disabled (`C48_added_violated`), and requests made for the run may be left
(`C48_slot_violated`, `C48_special_violated`). -/
theorem C48_restored_partial (names : List String) (execution : Option Exec) (obey : Bool) (n : Nat) (s : Sys)
    (env : Nat → Choice) (hn : (s.tasks.map TaskSt.name).Nodup) (henv : ∀ i, ∀ e ∈ (env i).events, ∀ t, e ≠ .add t)
    (hc : (sessionRun names execution obey n (World.init s env)).1 ≠ .cut) (m : String) (a' : Attributes)
    (ha : attributes (sessionRun names execution obey n (World.init s env)).2.st m = some a') :
    ∃ a, attributes s m = some a ∧ { a' with requests := a.requests } = a := by
  have h0 : Kin (s.members.map TaskSt.name) { World.init s env with st := s.only names execution obey, hist := [s] } := by
    refine ⟨by rw [only_names]; exact hn, fun t ht hm => ?_, henv⟩
    obtain ⟨u, hu, hun, hum⟩ := only_back ht
    exact List.mem_map.2 ⟨u, List.mem_filter.2 ⟨hu, hum ▸ hm⟩, hun.symm⟩
  have h := keeps_serveWith steady_kin kin_launch keeps_cyclesDone n _ h0
  have hrun : sessionRun names execution obey n (World.init s env) =
      Sched.tryFinally (serveWith cyclesDone n) (restoreTasks s.members)
        { World.init s env with st := s.only names execution obey, hist := [s] } := rfl
  rw [hrun] at hc ha
  unfold Sched.tryFinally at hc ha
  rcases hw : serveWith cyclesDone n { World.init s env with st := s.only names execution obey, hist := [s] } with ⟨r, w⟩
  rw [hw] at h hc ha
  obtain ⟨w', hw', hr⟩ := restore_all (orig := s.members) (w.st.members.map TaskSt.name) w (fun k hk => by
    obtain ⟨t, ht, rfl⟩ := List.mem_map.1 hk
    exact h.kin t (List.mem_filter.1 ht).1 (List.mem_filter.1 ht).2)
  have hrest : restoreTasks s.members w = (.ok (), w') := hw'
  have hst : attributes w'.st m = some a' := by
    cases r with
    | cut => simp at hc
    | ok _ => simpa only [hrest] using ha
    | raise _ => simpa only [hrest] using ha
  -- the task
  unfold attributes at hst
  rcases hf : w'.st.tasks.find? (fun t => t.member && decide (t.name = m)) with _ | t'
  · rw [hf] at hst; simp at hst
  · rw [hf] at hst
    have ht' := List.mem_of_find?_eq_some hf
    have hp := List.find?_some hf
    simp only [Bool.and_eq_true, decide_eq_true_eq] at hp
    obtain ⟨t, ht, htn, htm, htl, _⟩ := hr t' ht'
    obtain ⟨o, ho, heq⟩ := htl (List.mem_map.2 ⟨t, List.mem_filter.2 ⟨ht, htm.trans hp.1⟩, rfl⟩)
    obtain ⟨ho, hom⟩ := List.mem_filter.1 ho
    have hon : o.name = m := by rw [← hp.2, heq]
    refine ⟨_, by rw [← hon]; exact attributes_of hn ho hom, ?_⟩
    simp only [Option.map_some, Option.some.injEq] at hst
    rw [← hst, heq]

end Rocketry.Props
