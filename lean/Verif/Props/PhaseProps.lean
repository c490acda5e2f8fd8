import Verif.Sched.Trace
import Verif.Props.ParallelProps

/-!
# C44: startup and shutdown tasks; C43: no cycle after a request to shut down
-/

namespace Rocketry.Props
open Rocketry.Sched Rocketry.Spec

theorem progress_snoc (l : List Obs) (o : Obs) : progress (l ++ [o]) = (progress l).bind (fun p => p.step o) := by
  unfold progress
  rw [List.foldlM_append]
  cases List.foldlM Progress.step ⟨.off, [], false⟩ l with
  | none => rfl
  | some p =>
    show (List.foldlM Progress.step p [o]) = p.step o
    rw [List.foldlM_cons]
    cases p.step o <;> rfl

/-- All that was started belongs where it was started. -/
structure Placed (w : World) : Prop where
  names : (w.st.tasks.map TaskSt.name).Nodup
  placed : ∀ n id part, Obs.started n id part ∈ w.trace →
    n ∈ w.st.tasks.map TaskSt.name ∧ ∀ t ∈ w.st.tasks, t.name = n → Belongs part t

/-- The task called `n` is known to belong to the part. -/
def Known (n : String) (part : Part) (s : Sys) : Prop :=
  n ∈ s.tasks.map TaskSt.name ∧ ∀ t ∈ s.tasks, t.name = n → Belongs part t

theorem belongs_same {part : Part} {t t' : TaskSt} (h : SameSet t t') (hb : Belongs part t) : Belongs part t' := by
  cases part <;> simp only [Belongs, h.onStartup, h.onShutdown] at hb ⊢ <;> exact hb

theorem known_shift {n : String} {part : Part} {s s' : Sys} (h : Known n part s) (hd : Shift s s') : Known n part s' := by
  obtain ⟨hn, hb⟩ := h
  obtain ⟨t, ht, htn⟩ := List.mem_map.1 hn
  obtain ⟨t', ht', he⟩ := hd.forth t ht
  refine ⟨List.mem_map.2 ⟨t', ht', he.name.trans htn⟩, fun u hu hun => ?_⟩
  rcases hd.back u hu with ⟨v, hv, hev⟩ | ⟨hx, _⟩
  · exact belongs_same hev.toSameSet (hb v hv (hev.name.symm.trans hun))
  · rw [hun] at hx; exact absurd hn hx

theorem placed_iff (w : World) : Placed w ↔ (w.st.tasks.map TaskSt.name).Nodup ∧
    ∀ n id part, Obs.started n id part ∈ w.trace → Known n part w.st :=
  ⟨fun h => ⟨h.names, h.placed⟩, fun h => ⟨h.1, h.2⟩⟩

theorem placed_shift {w w' : World} (h : Placed w) (hd : Shift w.st w'.st)
    (ht : ∀ n id part, Obs.started n id part ∈ w'.trace → Obs.started n id part ∈ w.trace ∨ Known n part w'.st) : Placed w' :=
  ⟨hd.nodup h.names, fun n id part hm => by
    rcases ht n id part hm with hm | hk
    · exact known_shift (h.placed n id part hm) hd
    · exact hk⟩

/-- The invariant: everything came in order, so that the progress satisfies `X`. -/
structure Ph (X : Progress → Prop) (w : World) : Prop where
  placed : Placed w
  prog : ∃ p, progress w.trace = some p ∧ X p ∧ (p.asked = true → w.st.shutdown = true)

/-- `X` does not speak about `asked`. -/
def Ind (X : Progress → Prop) : Prop := ∀ p b, X p → X { p with asked := b }

theorem ph_mono {X Y : Progress → Prop} (h : ∀ p, X p → Y p) {w : World} (hw : Ph X w) : Ph Y w :=
  ⟨hw.placed, hw.prog.imp (fun _ hp => ⟨hp.1, h _ hp.2.1, hp.2.2⟩)⟩

theorem event_shutdown (s : Sys) (e : EnvEv) (he : ∀ f, e ≠ .shutDown f) : (s.event e).shutdown = s.shutdown := by
  cases e <;> simp only [Sys.event, Sys.upd] <;> first
    | rfl
    | (split <;> rfl)
    | exact absurd rfl (he _)

theorem ph_event {X : Progress → Prop} (hX : Ind X) {w : World} (hw : Ph X w) (e : EnvEv) : Ph X (w.happen e) := by
  refine ⟨placed_shift hw.placed (shift_event _ _) (fun n id part hm => ?_), ?_⟩
  · simp only [World.happen, List.mem_append, List.mem_singleton] at hm
    rcases hm with hm | hm
    · exact Or.inl hm
    · simp at hm
  · obtain ⟨p, hp, hx, ha⟩ := hw.prog
    by_cases he : ∃ f, e = .shutDown f
    · obtain ⟨f, rfl⟩ := he
      refine ⟨{ p with asked := true }, ?_, hX p true hx, fun _ => rfl⟩
      show progress (w.trace ++ [_]) = _
      rw [progress_snoc, hp]; rfl
    · refine ⟨p, ?_, hx, fun h => ?_⟩
      · show progress (w.trace ++ [_]) = _
        rw [progress_snoc, hp]
        cases e <;> first | rfl | exact absurd ⟨_, rfl⟩ he
      · show (w.st.event e).shutdown = true
        rw [event_shutdown _ _ (fun f hf => he ⟨f, hf⟩)]; exact ha h

theorem calm_ph {X : Progress → Prop} (hX : Ind X) : Calm (Ph X) where
  pos := fun _ _ h => ⟨⟨h.placed.names, h.placed.placed⟩, h.prog⟩
  env := fun w _ e h _ => ph_event hX h e
  request := fun w n _ h => ph_event hX h _
  note := by
    intro w o ho h
    refine ⟨⟨h.placed.names, fun n id part hm => ?_⟩, ?_⟩
    · rcases List.mem_append.1 hm with hm | hm
      · exact h.placed.placed n id part hm
      · rw [List.mem_singleton] at hm; subst hm; simp [Obs.plain] at ho
    · obtain ⟨p, hp, hx, ha⟩ := h.prog
      refine ⟨p, ?_, hx, ha⟩
      show progress (w.trace ++ [_]) = _
      rw [progress_snoc, hp]
      cases o <;> first | rfl | simp [Obs.plain] at ho
  move := by
    intro w s ht h
    refine ⟨placed_shift h.placed (drift_tidy ht).shift (fun _ _ _ hm => Or.inl hm), ?_⟩
    obtain ⟨p, hp, hx, ha⟩ := h.prog
    exact ⟨p, hp, hx, fun h => by rw [(tidy_flags ht).1]; exact ha h⟩

theorem shift_push (s : Sys) (n : String) (k : Exec) (time : Int) {part : Part} {m : String} (h : Known m part s) :
    Known m part (s.push n k time) := by
  obtain ⟨hn, hb⟩ := h
  refine ⟨?_, fun t ht htn => ?_⟩
  · show m ∈ (s.upd n _).tasks.map TaskSt.name
    rw [upd_names]
    · exact hn
    · exact fun _ => rfl
  · rcases mem_upd ht with ⟨ht, _⟩ | ⟨u, hu, _, rfl⟩
    · exact hb t ht htn
    · have := hb u hu htn
      cases part <;> exact this

theorem known_drop (s : Sys) (n : String) (b : Bool) {part : Part} {m : String} (h : Known m part s) :
    Known m part (s.drop n b) := by
  obtain ⟨hn, hb⟩ := h
  refine ⟨?_, fun t ht htn => ?_⟩
  · show m ∈ (s.upd n _).tasks.map TaskSt.name
    rw [upd_names]
    · exact hn
    · exact fun _ => rfl
  · rcases mem_upd ht with ⟨ht, _⟩ | ⟨u, hu, _, rfl⟩
    · exact hb t ht htn
    · have := hb u hu htn
      cases part <;> exact this

theorem ph_pop {X : Progress → Prop} {w : World} (h : Ph X w) (n : String) (b : Batch) : Ph X (w.pop n b) := by
  refine ⟨placed_shift h.placed (drift_pop _ _).shift (fun m id part hm => ?_), ?_⟩
  · rcases List.mem_append.1 hm with hm | hm
    · exact Or.inl hm
    · simp at hm
  · obtain ⟨p, hp, hx, ha⟩ := h.prog
    refine ⟨p, ?_, hx, ha⟩
    show progress (w.trace ++ [_]) = _
    rw [progress_snoc, hp]; rfl

theorem ph_drop {X : Progress → Prop} {w : World} (h : Ph X w) (n : String) (b : Bool) : Ph X (w.drop n b) :=
  ⟨⟨upd_nodup h.placed.names (fun _ => rfl), fun m id part hm => known_drop _ n b (h.placed.placed m id part hm)⟩, h.prog⟩

theorem ph_push {X Y : Progress → Prop} {w : World} (h : Ph X w) (n : String) (k : Exec) (time : Int) (part : Part)
    (hk : Known n part w.st) (hy : ∀ p id, X p → ∃ q, p.step (.started n id part) = some q ∧ q.asked = p.asked ∧ Y q) :
    Ph Y (w.push n k time part) := by
  refine ⟨⟨upd_nodup h.placed.names (fun _ => rfl), fun m id part' hm => ?_⟩, ?_⟩
  · rcases List.mem_append.1 hm with hm | hm
    · exact shift_push _ _ _ _ (h.placed.placed m id part' hm)
    · rw [List.mem_singleton] at hm
      injection hm with h1 h2 h3
      subst h1 h3
      exact shift_push _ _ _ _ hk
  · obtain ⟨p, hp, hx, ha⟩ := h.prog
    obtain ⟨q, hq, hqa, hyq⟩ := hy p w.st.nextId hx
    refine ⟨q, ?_, hyq, fun h => ha (hqa ▸ h)⟩
    show progress (w.trace ++ [_]) = _
    rw [progress_snoc, hp]; exact hq

theorem calm_and_known {I : World → Prop} (h : Calm I) (n : String) (part : Part) :
    Calm (fun w => I w ∧ Known n part w.st) where
  pos := fun w p hw => ⟨h.pos w p hw.1, hw.2⟩
  env := fun w i e hw he => ⟨h.env w i e hw.1 he, known_shift hw.2 (shift_event _ _)⟩
  request := fun w n hd hw => ⟨h.request w n hd hw.1, known_shift hw.2 (shift_event w.st (.request _ []))⟩
  note := fun w o ho hw => ⟨h.note w o ho hw.1, hw.2⟩
  move := fun w s ht hw => ⟨h.move w s ht hw.1, known_shift hw.2 (drift_tidy ht).shift⟩

/-- A start in the right part. -/
theorem launch_ph {X Y : Progress → Prop} (hX : Ind X) (hY : Ind Y) (hxy : ∀ p, X p → Y p) (n : String) (part : Part)
    (hy : ∀ p id, X p → ∃ q, p.step (.started n id part) = some q ∧ q.asked = p.asked ∧ Y q)
    (w : World) (hw : Ph X w) (hk : Known n part w.st) : Ph Y (launch n part w).2 :=
  launch_rule' (I0 := fun w => Ph X w ∧ Known n part w.st) (calm_and_known (calm_ph hX) n part) (calm_ph hY) n part
    (fun _ h => ph_mono hxy h.1) (fun _ b h => ⟨ph_pop h.1 n b, known_shift h.2 (drift_pop _ _).shift⟩)
    (fun _ k tm h => ph_push h.1 n k tm part h.2 hy) (fun _ b h => ph_drop h n b) w ⟨hw, hk⟩

theorem known_of_mem {part : Part} {s : Sys} (hn : (s.tasks.map TaskSt.name).Nodup) {t : TaskSt} (ht : t ∈ s.tasks)
    (hb : Belongs part t) : Known t.name part s :=
  ⟨List.mem_map.2 ⟨t, ht, rfl⟩, fun u hu hun => by rw [name_inj hn hu ht hun]; exact hb⟩

/-- In the cycles. -/
theorem consider_ph (n : String) : Keeps (Ph (fun p => p.phase = .cycles)) (consider n) := by
  have hX : Ind (fun p => p.phase = .cycles) := fun p b h => h
  intro w hw
  unfold consider
  rw [get_bind_apply]
  rcases hf : w.st.find n with _ | t
  · exact hw
  simp only
  by_cases ho : (t.onStartup || t.onShutdown) = true
  · rw [if_pos ho]; exact hw
  rw [if_neg ho]
  by_cases he : w.st.enabled = true
  · rw [if_pos he]
    obtain ⟨htm, htn⟩ := find_mem hf
    have hb : Belongs .cycle t := by simpa [Belongs, not_or] using ho
    refine launch_ph hX hX (fun _ h => h) n .cycle (fun p id hp => ⟨p, ?_, rfl, hp⟩) w hw
      (htn ▸ known_of_mem hw.placed.names htm hb)
    exact if_pos hp
  · rw [if_neg he]; exact hw

/-- The startup or shutdown tasks still to come are fit to be started. -/
def Rest (ph : Phase) (part : Part) (l : List TaskSt) (w : World) : Prop :=
  Ph (fun p => p.phase = ph ∧ ∀ t ∈ l, t.name ∉ p.seen) w ∧ (l.map TaskSt.name).Nodup ∧
    ∀ t ∈ l, Belongs part t → Known t.name part w.st

theorem calm_rest (ph : Phase) (part : Part) (l : List TaskSt) : Calm (Rest ph part l) := by
  have h : Calm (Ph (fun p => p.phase = ph ∧ ∀ t ∈ l, t.name ∉ p.seen)) := calm_ph (fun p b h => h)
  exact {
    pos := fun w p hw => ⟨h.pos w p hw.1, hw.2⟩
    env := fun w i e hw he => ⟨h.env w i e hw.1 he, hw.2.1, fun t ht hb => known_shift (hw.2.2 t ht hb) (shift_event _ _)⟩
    request := fun w n hd hw => ⟨h.request w n hd hw.1, hw.2.1, fun t ht hb => known_shift (hw.2.2 t ht hb) (shift_event w.st (.request _ []))⟩
    note := fun w o ho hw => ⟨h.note w o ho hw.1, hw.2⟩
    move := fun w s ht hw => ⟨h.move w s ht hw.1, hw.2.1, fun t htl hb => known_shift (hw.2.2 t htl hb) (drift_tidy ht).shift⟩ }

theorem rest_tail {ph : Phase} {part : Part} {t : TaskSt} {l : List TaskSt} {w : World} (h : Rest ph part (t :: l) w) :
    Rest ph part l w :=
  ⟨ph_mono (fun _ hp => ⟨hp.1, fun u hu => hp.2 u (List.mem_cons_of_mem _ hu)⟩) h.1, (List.nodup_cons.1 h.2.1).2,
    fun u hu => h.2.2 u (List.mem_cons_of_mem _ hu)⟩

theorem rest_nil {ph : Phase} {part : Part} {l : List TaskSt} {w : World} (h : Rest ph part l w) : Rest ph part [] w :=
  ⟨ph_mono (fun _ hp => ⟨hp.1, fun u hu => by simp at hu⟩) h.1, List.nodup_nil, fun u hu => by simp at hu⟩

theorem special_rest {ph : Phase} {part : Part} (hp : ∀ (p : Progress) n id, p.phase = ph → n ∉ p.seen →
      p.step (.started n id part) = some { p with seen := n :: p.seen })
    (t : TaskSt) (l : List TaskSt) (hb : Belongs part t) (w : World) (h : Rest ph part (t :: l) w) :
    Rest ph part l (startSpecial part t w).2 := by
  unfold startSpecial
  rw [bind_apply]
  have h1 := keeps_requestFirst (calm_rest ph part (t :: l)) t w h
  rcases hm : requestFirst t w with ⟨r, w'⟩
  rw [hm] at h1
  have hr : ∃ a, r = .ok a := by
    have : ∀ v, (∃ a, (requestFirst t v).1 = .ok a) := by
      intro v
      unfold requestFirst
      by_cases hc : t.noCond = true
      · rw [if_pos hc, get_bind_apply]
        rcases v.st.find t.name with _ | u
        · exact ⟨(), rfl⟩
        · simp only
          by_cases hd : u.disabled = true
          · rw [if_pos hd]; exact ⟨(), rfl⟩
          · rw [if_neg hd]; exact ⟨(), rfl⟩
      · rw [if_neg hc]; exact ⟨(), rfl⟩
    have := this w
    rw [hm] at this
    exact this
  obtain ⟨a, rfl⟩ := hr
  simp only
  refine launch_rule' (I0 := Rest ph part (t :: l)) (calm_rest ph part (t :: l)) (calm_rest ph part l) t.name part
    (fun _ h => rest_tail h) (fun w b h => ⟨ph_pop h.1 _ b, h.2.1, fun u hu hb => known_shift (h.2.2 u hu hb) (drift_pop _ _).shift⟩)
    (fun w k tm h => ?_)
    (fun w b h => ⟨ph_drop h.1 _ b, h.2.1, fun u hu hb => known_drop _ _ _ (h.2.2 u hu hb)⟩) w' h1
  refine ⟨ph_push h.1 t.name k tm part (h.2.2 t (List.mem_cons_self ..) hb) (fun p id hx => ?_), (List.nodup_cons.1 h.2.1).2,
    fun u hu hb => shift_push _ _ _ _ (h.2.2 u (List.mem_cons_of_mem _ hu) hb)⟩
  refine ⟨_, hp p t.name id hx.1 (hx.2 t (List.mem_cons_self ..)), rfl, hx.1, fun u hu hus => ?_⟩
  rcases List.mem_cons.1 hus with hus | hus
  · exact (List.nodup_cons.1 h.2.1).1 (List.mem_map.2 ⟨u, hu, hus⟩)
  · exact hx.2 u (List.mem_cons_of_mem _ hu) hus

theorem startup_step (p : Progress) (n : String) (id : Nat) (h : p.phase = .startup) (hn : n ∉ p.seen) :
    p.step (.started n id .startup) = some { p with seen := n :: p.seen } := if_pos ⟨h, hn⟩

theorem closing_step (p : Progress) (n : String) (id : Nat) (h : p.phase = .closing) (hn : n ∉ p.seen) :
    p.step (.started n id .shutdown) = some { p with seen := n :: p.seen } := if_pos ⟨h, hn⟩

theorem sorted_mem {s : Sys} {t : TaskSt} (h : t ∈ s.sorted) : t ∈ s.tasks ∧ t.member = true :=
  List.mem_filter.1 ((pySorted_perm _).mem_iff.1 h)

theorem sorted_nodup {s : Sys} (h : (s.tasks.map TaskSt.name).Nodup) : (s.sorted.map TaskSt.name).Nodup :=
  ((pySorted_perm s.members).map _).nodup_iff.2 (List.Sublist.nodup (List.filter_sublist.map _) h)

theorem rest_init {ph : Phase} {part : Part} {w : World} (h : Ph (fun p => p.phase = ph ∧ p.seen = []) w) :
    Rest ph part w.st.sorted w :=
  ⟨ph_mono (fun p hp => ⟨hp.1, fun t _ => by rw [hp.2]; simp⟩) h, sorted_nodup h.placed.names,
    fun _ ht hb => known_of_mem h.placed.names (sorted_mem ht).1 hb⟩

theorem startup_ph (w : World) (h : Ph (fun p => p.phase = .startup ∧ p.seen = []) w) :
    Ph (fun p => p.phase = .startup) (startup w).2 := by
  have h1 := keeps_setCycles (calm_ph (X := fun p => p.phase = .startup ∧ p.seen = []) (fun p b h => h)) (fun _ => 0) w h
  have h2 := forEach_rule (S := Rest .startup .startup) (f := startupTask) (fun _ _ h => rest_nil h) (fun t l w h => by
    unfold startupTask
    rw [bind_apply]
    have h1 := keeps_choose (calm_rest _ _ _).toStill.base w h
    obtain ⟨w1, hc, _⟩ := choose_ok w
    rw [hc] at h1 ⊢
    simp only [get_bind_apply]
    replace h1 := (calm_rest _ _ _).note _ (.cached t.name) rfl h1
    rw [bind_apply]
    show Rest _ _ _ ((if _ then _ else _ : M Unit) { w1 with trace := w1.trace ++ [.cached t.name] }).2
    split
    · exact rest_tail h1
    · by_cases ho : t.onStartup = true
      · rw [if_pos ho]; exact special_rest startup_step t l ho _ h1
      · rw [if_neg ho]; exact rest_tail h1) _ _ (rest_init h1)
  exact ph_mono (fun _ hp => hp.1) h2.1

theorem runShutdownTasks_ph (w : World) (h : Ph (fun p => p.phase = .closing ∧ p.seen = []) w) :
    Ph (fun p => p.phase = .closing) (runShutdownTasks w).2 := by
  have h2 := forEach_rule (S := Rest .closing .shutdown)
    (f := fun t : TaskSt => if t.onShutdown then startSpecial .shutdown t else pure ()) (fun _ _ h => rest_nil h) (fun t l w h => by
      by_cases ho : t.onShutdown = true
      · rw [if_pos ho]; exact special_rest closing_step t l ho w h
      · rw [if_neg ho]; exact rest_tail h) _ _ (rest_init h)
  exact ph_mono (fun _ hp => hp.1) h2.1

/-- Before the shutdown. -/
def Open (p : Progress) : Prop := p.phase = .startup ∨ p.phase = .cycles

theorem ind_open : Ind Open := fun _ _ h => h

theorem ind_phase (ph : Phase) : Ind (fun p => p.phase = ph) := fun _ _ h => h

theorem runCycle_ph (w : World) (h : Ph Open w) (hs : w.st.shutdown = false) : Ph Open (runCycle w).2 := by
  have h0 : Ph (fun p => p.phase = .cycles) { w with trace := w.trace ++ [.cycle] } := by
    refine ⟨⟨h.placed.names, fun n id part hm => ?_⟩, ?_⟩
    · rcases List.mem_append.1 hm with hm | hm
      · exact h.placed.placed n id part hm
      · simp at hm
    · obtain ⟨p, hp, hx, ha⟩ := h.prog
      have haf : p.asked = false := by
        cases hpa : p.asked
        · rfl
        · have := ha hpa; rw [hs] at this; simp at this
      refine ⟨{ p with phase := .cycles }, ?_, rfl, fun h => ?_⟩
      · show progress (w.trace ++ [_]) = _
        rw [progress_snoc, hp]
        exact if_pos ⟨hx, haf⟩
      · rw [haf] at h; simp at h
  have hc := calm_ph (ind_phase .cycles)
  have hk : Keeps (Ph (fun p => p.phase = .cycles)) (do
      forEach (w.st.sorted.map TaskSt.name) inspectTask
      handleLogs
      checkThreadErrors
      setCycles (fun k => k + 1)
      emit .cycleDone) :=
    keeps_bind (keeps_forEach (fun n _ => keeps_inspectTask' hc (consider_ph n))) (fun _ => keeps_bind (keeps_handleLogs hc)
      (fun _ => keeps_bind (keeps_checkThreadErrors hc) (fun _ => keeps_bind (keeps_setCycles hc _) (fun _ => keeps_note hc rfl))))
  exact ph_mono (fun _ hp => Or.inr hp) (hk _ h0)

theorem serveLoop_ph : ∀ n, Keeps (Ph Open) (serveLoop n)
  | 0 => keeps_cut
  | n + 1 => by
    have hc := calm_ph ind_open
    unfold serveLoop
    refine keeps_bind (keeps_checkShutCond hc) (fun b => keeps_ite (fun _ => keeps_pure _) (fun _ => ?_))
    refine keeps_bind (keeps_hibernate hc) (fun _ => keeps_get_bind (fun w hw => ?_))
    by_cases h1 : w.st.shutdown = true
    · rw [if_pos h1]; exact hw
    rw [if_neg h1]
    by_cases h2 : w.st.restart = true
    · rw [if_pos h2]; exact hw
    rw [if_neg h2, bind_apply]
    have h3 := runCycle_ph w hw (by simpa using h1)
    rcases hm : runCycle w with ⟨r, w'⟩
    rw [hm] at h3
    cases r with
    | ok _ => exact serveLoop_ph n w' h3
    | raise e => exact h3
    | cut => exact h3

/-- After a session: all came in order; if it is over, its shutdown is. -/
def Over (r : Res Unit) (w : World) : Prop :=
  Ph (fun _ => True) w ∧ (r ≠ .cut → Ph (fun p => p.phase = .closing) w)

theorem over_of {w : World} (h : Ph (fun p => p.phase = .closing) w) (r : Res Unit) : Over r w :=
  ⟨ph_mono (fun _ _ => trivial) h, fun _ => h⟩

theorem shutDown_ph {again : M Unit} (ha : ∀ w, Ph (fun p => p.phase = .closing) w → Over (again w).1 (again w).2)
    (n : Nat) (e : Option Exc) (w : World) (h : Ph Open w) :
    Over (shutDown again n e w).1 (shutDown again n e w).2 := by
  unfold shutDown
  have h0 : Ph (fun p => p.phase = .closing ∧ p.seen = []) { w with trace := w.trace ++ [.shutdown] } := by
    refine ⟨⟨h.placed.names, fun n id part hm => ?_⟩, ?_⟩
    · rcases List.mem_append.1 hm with hm | hm
      · exact h.placed.placed n id part hm
      · simp at hm
    · obtain ⟨p, hp, hx, ha⟩ := h.prog
      refine ⟨{ p with phase := .closing, seen := [] }, ?_, ⟨rfl, rfl⟩, ha⟩
      show progress (w.trace ++ [_]) = _
      rw [progress_snoc, hp]
      exact if_pos hx
  have hc := calm_ph (ind_phase .closing)
  have hfin : ∀ v, Ph (fun p => p.phase = .closing ∧ p.seen = []) v →
      Ph (fun p => p.phase = .closing) (tryFinally (tryFinally runShutdownTasks (shutDownTasks n e)) (do
        waitAlive n
        handleLogs
        checkThreadErrors) v).2 := by
    intro v hv
    have h1 := runShutdownTasks_ph v hv
    have hk : Keeps (Ph (fun p => p.phase = .closing)) (tryFinally (tryFinally (fun u => ((runShutdownTasks v).1, u)) (shutDownTasks n e)) (do
        waitAlive n
        handleLogs
        checkThreadErrors)) :=
      keeps_tryFinally (keeps_tryFinally (fun u hu => hu) (keeps_shutDownTasks hc n e))
        (keeps_bind (keeps_waitAlive hc n) (fun _ => keeps_bind (keeps_handleLogs hc) (fun _ => keeps_checkThreadErrors hc)))
    have h2 := hk _ h1
    unfold Sched.tryFinally at h2 ⊢
    exact h2
  rw [bind_apply]
  have he : emit .shutdown w = (.ok (), { w with trace := w.trace ++ [.shutdown] }) := rfl
  rw [he]
  simp only
  have h1 := hfin _ h0
  rw [bind_apply]
  rcases hm : (tryFinally (tryFinally runShutdownTasks (shutDownTasks n e)) (do
        waitAlive n
        handleLogs
        checkThreadErrors)) { w with trace := w.trace ++ [.shutdown] } with ⟨r, w'⟩
  rw [hm] at h1
  cases r with
  | cut => exact over_of h1 _
  | raise _ => exact over_of h1 _
  | ok _ =>
    simp only
    by_cases hr : e = some .restart
    · rw [if_pos hr, get_bind_apply]
      by_cases hcf : w'.st.cfg.recall = true
      · rw [if_pos hcf]; exact ha w' h1
      · rw [if_neg hcf]; exact over_of (keeps_note hc rfl w' h1) _
    · rw [if_neg hr]; exact over_of h1 _

theorem serve_ph : ∀ n w, Ph (fun p => p.phase = .off ∨ p.phase = .closing) w → Over (serve n w).1 (serve n w).2
  | 0, w, h => ⟨ph_mono (fun _ _ => trivial) h, fun hc => absurd rfl hc⟩
  | n + 1, w, h => by
    unfold serve
    rw [bind_apply]
    have he : emit .serve w = (.ok (), { w with trace := w.trace ++ [.serve] }) := rfl
    rw [he]
    simp only
    have h0 : Ph (fun p => p.phase = .startup ∧ p.seen = []) (clearFlags { w with trace := w.trace ++ [.serve] }).2 := by
      refine ⟨⟨h.placed.names, fun n id part hm => ?_⟩, ?_⟩
      · rcases List.mem_append.1 hm with hm | hm
        · exact h.placed.placed n id part hm
        · simp at hm
      · obtain ⟨p, hp, hx, ha⟩ := h.prog
        refine ⟨⟨.startup, [], false⟩, ?_, ⟨rfl, rfl⟩, fun h => by simp at h⟩
        show progress (w.trace ++ [_]) = _
        rw [progress_snoc, hp]
        exact if_pos hx
    rw [bind_apply]
    have hcf : ∀ v, clearFlags v = (.ok (), (clearFlags v).2) := fun v => rfl
    rw [hcf]
    simp only
    generalize (clearFlags { w with trace := w.trace ++ [.serve] }).2 = v at h0
    have h1 : Ph Open (attempt (do startup; serveLoop n) v).2 := by
      have h2 : Ph Open ((do startup; serveLoop n : M Unit) v).2 := by
        rw [bind_apply]
        have hs := startup_ph v h0
        rcases hm : startup v with ⟨r, w'⟩
        rw [hm] at hs
        cases r with
        | ok _ => exact serveLoop_ph n w' (ph_mono (fun _ h => Or.inl h) hs)
        | raise e => exact ph_mono (fun _ h => Or.inl h) hs
        | cut => exact ph_mono (fun _ h => Or.inl h) hs
      unfold attempt
      rcases hm : (do startup; serveLoop n : M Unit) v with ⟨r, w'⟩
      rw [hm] at h2
      cases r <;> exact h2
    rw [bind_apply]
    rcases hm : attempt (do startup; serveLoop n) v with ⟨r, w'⟩
    rw [hm] at h1
    have hsd := fun e => shutDown_ph (fun w hw => serve_ph n w (ph_mono (fun _ h => Or.inr h) hw)) n e w' h1
    cases r with
    | cut => exact ⟨ph_mono (fun _ _ => trivial) h1, fun hc => absurd rfl hc⟩
    | raise e =>
      have : (attempt (do startup; serveLoop n) v).1 ≠ .raise e := by
        unfold attempt
        rcases (do startup; serveLoop n : M Unit) v with ⟨r, w'⟩
        cases r <;> simp
      rw [hm] at this
      exact absurd rfl this
    | ok eo =>
      simp only
      have hraise : ∀ e : Exc, Over ((shutDown (serve n) n (some e) >>= fun _ => (raise e : M Unit)) w').1
          ((shutDown (serve n) n (some e) >>= fun _ => (raise e : M Unit)) w').2 := by
        intro e
        have := hsd (some e)
        rw [bind_apply]
        rcases hm2 : shutDown (serve n) n (some e) w' with ⟨r, w''⟩
        rw [hm2] at this
        cases r with
        | cut => exact this
        | raise x => exact ⟨this.1, fun _ => this.2 (by simp)⟩
        | ok x => exact ⟨this.1, fun _ => this.2 (by simp)⟩
      rcases eo with _ | e
      · exact hsd none
      · cases e <;> first | exact hsd _ | exact hraise _

theorem sessions_ph (ks : List Nat) : ∀ w, Ph (fun p => p.phase = .off ∨ p.phase = .closing) w →
    Ph (fun _ => True) (sessions ks w).2 := by
  induction ks with
  | nil => exact fun w h => ph_mono (fun _ _ => trivial) h
  | cons k ks ih =>
    intro w h
    unfold sessions forEach
    have h1 := serve_ph k w h
    show Ph _ (((attempt (serve k) >>= fun _ => (pure () : M Unit)) >>= fun _ => forEach ks _) w).2
    rw [bind_apply, bind_apply]
    unfold attempt
    rcases hm : serve k w with ⟨r, w'⟩
    rw [hm] at h1
    cases r with
    | cut => exact h1.1
    | ok _ => exact ih w' (ph_mono (fun _ h => Or.inr h) (h1.2 (by simp)))
    | raise _ => exact ih w' (ph_mono (fun _ h => Or.inr h) (h1.2 (by simp)))

theorem ph_fresh {s : Sys} (hs : Fresh s) (env : Nat → Choice) :
    Ph (fun p => p.phase = .off ∨ p.phase = .closing) (World.init s env) :=
  ⟨⟨hs.names, fun n id part h => by simp [World.init] at h⟩, ⟨.off, [], false⟩, rfl, Or.inl rfl, fun h => by simp at h⟩

/-- C44 and the first part of C43, for every execution of any number of sessions: everything comes in the order
described by `Progress.step` — startup starts (each task at most once) only before the first cycle, shutdown starts
(each task at most once) only after the last, starts of the cycles only in cycles, and no cycle begins after a request
to shut down. -/
theorem C44_order (s : Sys) (env : Nat → Choice) (hs : Fresh s) (ks : List Nat) :
    progress (sessions ks (World.init s env)).2.trace ≠ none := by
  obtain ⟨p, hp, _⟩ := (sessions_ph ks _ (ph_fresh hs env)).prog
  rw [hp]; simp

/-- C44: what is started in the startup is marked `on_startup`, what is started in the shutdown is marked
`on_shutdown`, and a cycle starts neither, even on request. -/
theorem C44_belongs (s : Sys) (env : Nat → Choice) (hs : Fresh s) (ks : List Nat) (n : String) (id : Nat) (part : Part)
    (h : Obs.started n id part ∈ (sessions ks (World.init s env)).2.trace) :
    ∃ t ∈ (sessions ks (World.init s env)).2.st.tasks, t.name = n ∧ Belongs part t := by
  obtain ⟨hn, hb⟩ := (sessions_ph ks _ (ph_fresh hs env)).placed.placed n id part h
  obtain ⟨t, ht, htn⟩ := List.mem_map.1 hn
  exact ⟨t, ht, htn, hb t ht htn⟩

/-- A startup task, an ordinary one and a shutdown task. -/
def threeParts : Sys := sessionOf 1 true [{ idleTask "s" .main with onStartup := true, noCond := true }, idleTask "c" .main,
  { idleTask "d" .main with onShutdown := true, noCond := true }]

/-- Before the first cycle runs of `s` and `c` are requested; in the cycle somebody asks for the end. -/
def threeEnv : Nat → Choice
  | 6 => ⟨[.request "s" [], .request "c" []], some false, none, 0⟩
  | 13 => ⟨[.shutDown none], some false, none, 0⟩
  | _ => quiet false

/-- All three are started, each once (also `s`, for which a run was requested when the cycles began). -/
example : Fresh threeParts ∧ (sessions [3] (World.init threeParts threeEnv)).2.trace.filterMap
      (fun o => match o with | .started n _ p => some (n, p) | _ => none) =
    [("s", .startup), ("c", .cycle), ("d", .shutdown)] := by
  decide +kernel

/-- What is not in order. -/
example : progress [.serve, .cycle, .started "s" 0 .startup] = none ∧
    progress [.serve, .started "s" 0 .startup, .started "s" 1 .startup] = none ∧
    progress [.serve, .env (.shutDown none), .cycle] = none ∧
    progress [.serve, .cycle, .shutdown, .cycle] = none ∧
    progress [.serve, .cycle, .shutdown, .started "d" 0 .shutdown, .started "d" 1 .shutdown] = none := by
  decide

end Rocketry.Props
