import Verif.Spec.SilentSpec
import Verif.Props.TerminateProps
import Verif.Props.ShutdownProps
import Verif.Props.CycleProps
import Verif.Props.ManualProps

/-!
# C85: silenced errors do not stop the scheduler
-/

namespace Rocketry.Props
open Spec Sched

variable {α β : Type} {L : List String}

/-- The session is silenced, the tasks called `L` are in it, and the environment is harmless. -/
structure Muted (L : List String) (w : World) : Prop where
  sound : Sound w
  cfg : Silenced w.st.cfg
  names : ∀ n ∈ L, n ∈ w.st.tasks.map TaskSt.name
  env : ∀ i, Harmless (w.env i)

/-- The part of `Muted` besides `Sound`. -/
structure Meek (L : List String) (w : World) : Prop where
  cfg : Silenced w.st.cfg
  names : ∀ n ∈ L, n ∈ w.st.tasks.map TaskSt.name
  env : ∀ i, Harmless (w.env i)

theorem meek_shift {w w' : World} (h : Meek L w) (hd : Shift w.st w'.st) (he : w'.env = w.env) : Meek L w' :=
  ⟨by rw [hd.cfg]; exact h.cfg, fun n hn => by
    obtain ⟨t, ht, htn⟩ := List.mem_map.1 (h.names n hn)
    obtain ⟨t', ht', hev⟩ := hd.forth t ht
    exact List.mem_map.2 ⟨t', ht', hev.name.trans htn⟩, by rw [he]; exact h.env⟩

theorem steady_meek : Steady (Meek L) where
  pos := fun _ _ h => ⟨h.cfg, h.names, h.env⟩
  env := fun w _ e h _ => meek_shift h (shift_event w.st e) rfl
  request := fun w n _ h => meek_shift h (shift_event w.st (.request n [])) rfl
  note := fun _ _ _ h => ⟨h.cfg, h.names, h.env⟩
  move := fun w s ht h => meek_shift (w' := { w with st := s, hist := w.st :: w.hist }) h (drift_tidy ht).shift rfl
  mark := fun _ _ _ h => ⟨h.cfg, h.names, h.env⟩
  flags := fun _ h => ⟨h.cfg, h.names, h.env⟩

theorem meek_upd {w w' : World} (h : Meek L w) {n : String} {g : TaskSt → TaskSt} (hg : ∀ t, (g t).name = t.name)
    (hs : w'.st.tasks = (w.st.upd n g).tasks) (hc : w'.st.cfg = w.st.cfg) (he : w'.env = w.env) : Meek L w' :=
  ⟨by rw [hc]; exact h.cfg, fun m hm => by rw [hs, upd_names _ _ _ hg]; exact h.names m hm, by rw [he]; exact h.env⟩

theorem meek_launch (name : String) (part : Part) : Keeps (Meek L) (launch name part) := fun w hw =>
  launch_rule' (I0 := Meek L) (I1 := Meek L) steady_meek.toStill.base steady_meek.toStill.base name part (fun _ h => h)
    (fun w b h => meek_upd (w' := w.pop name b) h (n := name)
      (g := fun t => { t with batches := t.batches.tail }) (fun _ => rfl) rfl rfl rfl) (fun w k tm h => meek_upd (w' := w.push name k tm part) h (n := name)
      (g := fun t => { t with stack := t.stack ++ [⟨w.st.nextId, k, tm, true, false⟩] }) (fun _ => rfl) rfl rfl rfl)
    (fun w b h => meek_upd (w' := w.drop name b) h (n := name) (g := fun t => { t with
      stack := t.stack.filter (fun r => decide (r.kind ≠ .main)),
      strays := t.strays ++ (if b then t.stack.filter (fun r => decide (r.kind = .main)) else []) }) (fun _ => rfl) rfl rfl rfl) w hw

theorem muted_iff {w : World} : Muted L w ↔ Sound w ∧ Meek L w :=
  ⟨fun h => ⟨h.sound, h.cfg, h.names, h.env⟩, fun h => ⟨h.1, h.2.cfg, h.2.names, h.2.env⟩⟩

theorem keeps_muted {m : M α} (h1 : Keeps Sound m) (h2 : Keeps (Meek L) m) : Keeps (Muted L) m :=
  fun w hw => muted_iff.2 ⟨h1 w (muted_iff.1 hw).1, h2 w (muted_iff.1 hw).2⟩

theorem base_sound : Base Sound := (steady_inv launches_distinct).toStill.base
theorem base_meek : Base (Meek L) := steady_meek.toStill.base

theorem base_muted : Base (Muted L) where
  pos := fun w p h => muted_iff.2 ⟨base_sound.pos w p h.sound, base_meek.pos w p (muted_iff.1 h).2⟩
  env := fun w i e h he => muted_iff.2 ⟨base_sound.env w i e h.sound he, base_meek.env w i e (muted_iff.1 h).2 he⟩
  note := fun w o h1 h2 h => muted_iff.2 ⟨base_sound.note w o h1 h2 h.sound, base_meek.note w o h1 h2 (muted_iff.1 h).2⟩
  move := fun w s h1 h2 h => muted_iff.2 ⟨base_sound.move w s h1 h2 h.sound, base_meek.move w s h1 h2 (muted_iff.1 h).2⟩

theorem muted_launch (name : String) (part : Part) : Keeps (Muted L) (launch name part) :=
  keeps_muted (launch_inv launches_distinct name part) (meek_launch name part)

/-- Whatever escapes is a failed record of a termination. -/
def Mute (I : World → Prop) (m : M α) : Prop := ∀ w, I w → ∀ e, (m w).1 = .raise e → e = .logging ∧ LostTermination (m w).2

theorem mute_pure {I : World → Prop} (a : α) : Mute I (pure a : M α) := fun _ _ _ h => nomatch h
theorem mute_get {I : World → Prop} : Mute I get := fun _ _ _ h => nomatch h
theorem mute_choose {I : World → Prop} : Mute I choose := fun _ _ _ h => nomatch h
theorem mute_emit {I : World → Prop} (o : Obs) : Mute I (emit o) := fun _ _ _ h => nomatch h
theorem mute_change {I : World → Prop} (n : String) (f : TaskSt → TaskSt) : Mute I (change n f) := fun _ _ _ h => nomatch h

theorem mute_bind {I : World → Prop} {m : M α} {k : α → M β} (hk : Keeps I m) (hm : Mute I m) (hn : ∀ a, Mute I (k a)) :
    Mute I (m >>= k) := by
  intro w hw e
  rw [bind_apply]
  have h1 := hk w hw
  have h2 := hm w hw
  rcases hr : m w with ⟨r, w'⟩
  rw [hr] at h1 h2
  cases r with
  | ok a => exact hn a w' h1 e
  | raise x => simp only [Res.raise.injEq] at h2 ⊢; exact h2 e
  | cut => intro h; simp only at h; exact nomatch h

theorem mute_get_bind {I : World → Prop} {k : Sys → M β} (h : ∀ w, I w → ∀ e, (k w.st w).1 = .raise e → e = .logging ∧ LostTermination (k w.st w).2) :
    Mute I (get >>= k) := h

theorem mute_ite {I : World → Prop} {c : Prop} [Decidable c] {m k : M α} (hm : c → Mute I m) (hk : ¬ c → Mute I k) :
    Mute I (if c then m else k) := by
  by_cases h : c
  · rw [if_pos h]; exact hm h
  · rw [if_neg h]; exact hk h

theorem mute_forEach {I : World → Prop} {l : List α} {f : α → M Unit} (hk : ∀ a ∈ l, Keeps I (f a)) (hf : ∀ a ∈ l, Mute I (f a)) :
    Mute I (forEach l f) := by
  induction l with
  | nil => exact mute_pure ()
  | cons a l ih =>
    exact mute_bind (hk a (List.mem_cons_self ..)) (hf a (List.mem_cons_self ..))
      (fun _ => ih (fun b hb => hk b (List.mem_cons_of_mem _ hb)) (fun b hb => hf b (List.mem_cons_of_mem _ hb)))

theorem trace_events (l : List EnvEv) (w : World) : (l.foldl World.happen w).trace = w.trace ++ l.map Obs.env := by
  induction l generalizing w with
  | nil => simp
  | cons e l ih => rw [List.foldl_cons, ih]; simp [World.happen]

theorem choose_trace (w : World) : (choose w).2.trace = w.trace ++ (w.env w.pos).events.map Obs.env := trace_events _ _

theorem mute_terminateRun (name : String) (id : Nat) : Mute (Muted L) (terminateRun name id) := by
  unfold terminateRun
  refine mute_get_bind (fun w hw e => ?_)
  rcases hf : w.st.find name with _ | t
  · exact mute_pure (I := fun _ => True) () w trivial e
  simp only
  rcases hr : t.stack.find? (fun r => decide (r.id = id)) with _ | r
  · simp only [hr]; exact mute_pure (I := fun _ => True) () w trivial e
  simp only [hr]
  have hkind : r.kind ≠ .main := hw.sound.2 t (find_mem hf).1 r (List.mem_of_find?_eq_some hr)
  have hh := hw.env w.pos
  have htr := choose_trace { w with trace := w.trace ++ [.terminated name id] }
  obtain ⟨w1, hcw, henv⟩ := choose_ok { w with trace := w.trace ++ [.terminated name id] }
  rw [hcw] at htr
  simp only at hcw htr henv
  have hem : emit (.terminated name id) w = (.ok (), { w with trace := w.trace ++ [.terminated name id] }) := rfl
  have key : (w.env w.pos).fault = some .logging → LostTermination w1 := fun hF =>
    ⟨⟨w.trace, name, id, (w.env w.pos).events, by rw [htr]; simp⟩, w.pos, by rw [henv]; exact hF⟩
  have key2 : (w.env w.pos).fault = some .logging →
      LostTermination { w1 with st := w1.st.upd name (fun t => { t with stack := endRun id false t.stack }), hist := w1.st :: w1.hist } := key
  have hch : ∀ f, change name f w1 = (.ok (), { w1 with st := w1.st.upd name f, hist := w1.st :: w1.hist }) := fun _ => rfl
  cases hk : r.kind with
  | main => exact absurd hk hkind
  | thread => exact fun h => nomatch h
  | async | process =>
    simp only
    rw [bind_apply, hem]
    simp only
    rw [bind_apply, hcw]
    simp only
    rw [bind_apply, hch]
    simp only
    rcases hF : (w.env w.pos).fault with _ | f
    · exact fun h => nomatch h
    · cases f with
      | logging => exact fun h => ⟨by simpa [raise] using h.symm, key2 hF⟩
      | exc x => exact absurd hF (hh x)
      | params => exact fun h => nomatch h
      | setup => exact fun h => nomatch h
      | spawn => exact fun h => nomatch h

theorem mute_terminateAll (name : String) : Mute (Muted L) (terminateAll name) := by
  unfold terminateAll
  refine mute_bind keeps_get mute_get (fun s => ?_)
  split
  · exact mute_pure _
  · exact mute_bind (keeps_forEach (fun _ _ => keeps_terminateRun base_muted _ _))
      (mute_forEach (fun _ _ => keeps_terminateRun base_muted _ _) (fun _ _ => mute_terminateRun _ _)) (fun _ => mute_change _ _)

theorem mute_terminateOld (name : String) (now limit : Int) (id : Nat) : Mute (Muted L) (terminateOld name now limit id) := by
  unfold terminateOld
  refine mute_bind keeps_get mute_get (fun s => ?_)
  split
  · exact mute_pure _
  · split
    · exact mute_pure _
    · exact mute_ite (fun _ => mute_terminateRun _ _) (fun _ => mute_pure _)

theorem mute_checkTermination (name : String) : Mute (Muted L) (checkTermination name) := by
  unfold checkTermination
  refine mute_bind (keeps_choose base_muted) mute_choose (fun c => mute_get_bind (fun w hw => ?_))
  rcases hf : w.st.find name with _ | t
  · exact mute_pure (I := Muted L) () w hw
  simp only
  cases hc : c.cond with
  | none =>
    simp only [if_pos hw.cfg.cond]
    exact mute_terminateAll name w hw
  | some b =>
    simp only
    refine mute_ite (fun _ => mute_terminateAll name) (fun _ => mute_ite (fun _ => mute_terminateAll name) (fun _ => ?_)) w hw
    exact mute_ite (fun _ => mute_pure _) (fun _ => mute_forEach (fun _ _ => keeps_terminateOld base_muted _ _ _ _)
      (fun _ _ => mute_terminateOld _ _ _ _))

theorem mute_handleLogs : Mute (Muted L) handleLogs := by
  intro w hw e
  unfold handleLogs
  rw [bind_apply]
  have h1 := keeps_choose base_muted w hw
  obtain ⟨w1, hcw, henv⟩ := choose_ok w
  rw [hcw] at h1 ⊢
  simp only [get_bind_apply] at h1 ⊢
  have hh := hw.env w.pos
  rcases hF : (w.env w.pos).fault with _ | f
  · exact fun h => nomatch h
  · cases f with
    | logging => simp only [if_pos h1.cfg.logging]; exact fun h => nomatch h
    | exc x => exact absurd hF (hh x)
    | params => exact fun h => nomatch h
    | setup => exact fun h => nomatch h
    | spawn => exact fun h => nomatch h

theorem mute_checkThreadErrors : Mute (Muted L) checkThreadErrors := by
  unfold checkThreadErrors
  refine mute_get_bind (fun w hw => ?_)
  rw [if_pos hw.cfg.logging]
  exact fun _ h => nomatch h

theorem Muted.found {w : World} (hw : Muted L w) {name : String} (hn : name ∈ L) : ∃ t, w.st.find name = some t := by
  rcases hf : w.st.find name with _ | t
  · obtain ⟨t, ht, htn⟩ := List.mem_map.1 (hw.names name hn)
    exact absurd htn (find_none_iff.1 hf t ht)
  · exact ⟨t, rfl⟩

theorem mute_isTaskRunnable {name : String} (hn : name ∈ L) : Mute (Muted L) (isTaskRunnable name) := by
  unfold isTaskRunnable
  refine mute_get_bind (fun w hw => ?_)
  obtain ⟨t, ht⟩ := hw.found hn
  rw [ht]
  simp only
  refine mute_ite (I := Muted L) (fun _ => mute_pure _) (fun _ => mute_ite (fun _ => mute_pure _) (fun _ => ?_)) w hw
  intro w hw e
  unfold checkTaskCond Sched.tryCatch
  have hk : Keeps (Muted L) (isRunnable t) := by
    have hb := base_muted (L := L)
    unfold isRunnable
    refine keeps_ite (fun _ => keeps_bind (keeps_remark hb rfl (by simp)) (fun _ => keeps_pure _))
      (fun _ => keeps_ite (fun _ => keeps_pure _) (fun _ => ?_))
    refine keeps_bind (keeps_choose hb) (fun c => keeps_bind (keeps_remark hb rfl (by simp)) (fun _ => ?_))
    split
    · exact keeps_pure _
    · exact keeps_raise _
  have h1 := hk w hw
  rcases hr : isRunnable t w with ⟨r, w'⟩
  rw [hr] at h1
  cases r with
  | ok a => exact fun h => nomatch h
  | cut => exact fun h => nomatch h
  | raise x =>
    simp only [get_bind_apply, if_pos h1.cfg.cond]
    exact fun h => nomatch h

/-- In a harmless environment a start raises nothing but a failed record or a failed setup. -/
theorem startAsync_raises {name : String} (hn : name ∈ L) (part : Part) (w : World) (hw : Muted L w) (e : Exc)
    (he : (startAsync name part w).1 = .raise e) : e = .logging ∨ e = .setup := by
  unfold startAsync at he
  rw [bind_apply] at he
  have h1 := keeps_choose base_muted w hw
  obtain ⟨w1, hcw, henv⟩ := choose_ok w
  rw [hcw] at h1 he
  simp only [get_bind_apply] at h1 he
  obtain ⟨t, ht⟩ := h1.found hn
  rw [ht] at he
  simp only at he
  generalize w.env w.pos = c at he
  have set : ∀ w', ((do emit (.failedSetup name); raise .setup : M Unit) w').1 = .raise e → e = .logging ∨ e = .setup :=
    fun w' h => by right; simpa [bind_apply, emit, raise] using h.symm
  by_cases hp : c.fault = some .params
  · rw [if_pos hp] at he; exact set _ he
  rw [if_neg hp, bind_apply] at he
  have hpop : ∃ w2, popBatch t w1 = (.ok (), w2) ∧ w2.env = w1.env := by
    unfold popBatch
    rcases hb : t.batches with _ | ⟨b, bs⟩
    · exact ⟨w1, rfl, rfl⟩
    · exact ⟨w1.pop t.name b, rfl, rfl⟩
  obtain ⟨w2, hpw, he2⟩ := hpop
  rw [hpw] at he
  simp only at he
  by_cases hse : c.fault = some .setup
  · rw [if_pos hse] at he; exact set _ he
  rw [if_neg hse, bind_apply] at he
  have hpush : pushRun name t.execution c.time part w2 = (.ok w2.st.nextId, w2.push name t.execution c.time part) := rfl
  rw [hpush] at he
  simp only at he
  have henv3 : ∀ i, Harmless ((w2.push name t.execution c.time part).env i) := fun i => by
    show Harmless (w2.env i)
    rw [he2]; exact h1.env i
  generalize w2.push name t.execution c.time part = w3 at he henv3
  unfold runOn at he
  cases hk : t.execution with
  | async =>
    rw [hk] at he
    simp only at he
    split at he
    · left; simpa [raise] using he.symm
    · exact nomatch he
  | thread =>
    rw [hk] at he
    simp only at he
    split at he
    · exact nomatch he
    · exact nomatch he
  | process =>
    rw [hk] at he
    simp only at he
    split at he
    · right; simpa [bind_apply, change, Sched.get, put, raise] using he.symm
    · split at he
      · left; simpa [raise] using he.symm
      · exact nomatch he
  | main =>
    rw [hk] at he
    simp only at he
    split at he
    · left; simpa [bind_apply, dropMain, change, Sched.get, put, raise] using he.symm
    · rw [bind_apply] at he
      obtain ⟨w4, hcw4, henv4⟩ := choose_ok w3
      rw [hcw4] at he
      simp only at he
      have hh := henv3 w3.pos
      rw [bind_apply] at he
      have hem : ∀ o w, emit o w = (.ok (), { w with trace := w.trace ++ [o] }) := fun _ _ => rfl
      rw [hem] at he
      simp only at he
      rw [bind_apply] at he
      have hdm : ∀ w, dropMain name false w = (.ok (), w.drop name false) := fun _ => rfl
      rw [hdm] at he
      simp only at he
      rcases hF : (w3.env w3.pos).fault with _ | f
      · rw [hF] at he; exact nomatch he
      · rw [hF] at he
        cases f with
        | logging => left; simpa [mainEnd, raise] using he.symm
        | exc x => exact absurd hF (hh x)
        | params => right; simpa [mainEnd, raise] using he.symm
        | setup => right; simpa [mainEnd, raise] using he.symm
        | spawn => right; simpa [mainEnd, raise] using he.symm

theorem meek_startAsync (name : String) (part : Part) : Keeps (Meek L) (startAsync name part) := fun w hw =>
  startAsync_rule (I0 := Meek L) (I1 := Meek L) (Ip := fun _ => Meek L) base_meek base_meek name part (fun _ h => h)
    (fun w _ b _ h _ _ => meek_upd (w' := w.pop name b) h (n := name)
      (g := fun t => { t with batches := t.batches.tail }) (fun _ => rfl) rfl rfl rfl) (fun _ _ h _ _ => h) (fun _ _ _ h => h)
    (fun _ w k tm h => meek_upd (w' := w.push name k tm part) h (n := name)
      (g := fun t => { t with stack := t.stack ++ [⟨w.st.nextId, k, tm, true, false⟩] }) (fun _ => rfl) rfl rfl rfl)
    (fun w b h => meek_upd (w' := w.drop name b) h (n := name) (g := fun t => { t with
      stack := t.stack.filter (fun r => decide (r.kind ≠ .main)),
      strays := t.strays ++ (if b then t.stack.filter (fun r => decide (r.kind = .main)) else []) }) (fun _ => rfl) rfl rfl rfl) w hw

theorem mute_launch {name : String} (hn : name ∈ L) (part : Part) : Mute (Muted L) (launch name part) := by
  unfold launch
  refine mute_bind (keeps_isTaskRunnable base_muted name) (mute_isTaskRunnable hn) (fun b => mute_ite (fun _ => ?_) (fun _ => mute_pure _))
  intro w hw e
  unfold runTask Sched.tryCatch
  have h1 := meek_startAsync (L := L) name part w (muted_iff.1 hw).2
  have h2 := startAsync_raises hn part w hw
  rcases hr : startAsync name part w with ⟨r, w'⟩
  rw [hr] at h1 h2
  cases r with
  | ok a => exact fun h => nomatch h
  | cut => exact fun h => nomatch h
  | raise x =>
    simp only [get_bind_apply]
    rcases h2 x rfl with rfl | rfl
    · simp only [if_pos h1.cfg.logging]; exact fun h => nomatch h
    · simp only [if_pos h1.cfg.prerun]; exact fun h => nomatch h

theorem mute_consider {name : String} (hn : name ∈ L) : Mute (Muted L) (consider name) := by
  unfold consider
  refine mute_bind keeps_get mute_get (fun s => ?_)
  split
  · exact mute_pure _
  · exact mute_ite (fun _ => mute_pure _) (fun _ => mute_ite (fun _ => mute_launch hn _) (fun _ => mute_pure _))

theorem keeps_muted_inspect (name : String) : Keeps (Muted L) (inspectTask name) :=
  keeps_inspectTask base_muted (fun _ => muted_launch _ _) name

theorem keeps_muted_consider (name : String) : Keeps (Muted L) (consider name) := by
  unfold consider
  refine keeps_bind keeps_get (fun s => ?_)
  split
  · exact keeps_pure _
  · exact keeps_ite (fun _ => keeps_pure _) (fun _ => keeps_ite (fun _ => muted_launch name _) (fun _ => keeps_pure _))

theorem mute_inspectTask {name : String} (hn : name ∈ L) : Mute (Muted L) (inspectTask name) := by
  unfold inspectTask
  refine mute_bind (keeps_remark base_muted rfl (by simp)) (mute_emit _) (fun _ => ?_)
  refine mute_bind (keeps_handleLogs base_muted) mute_handleLogs (fun _ => ?_)
  refine mute_bind (keeps_cleanRunStack base_muted _) (fun _ _ _ h => nomatch h) (fun _ => ?_)
  exact mute_bind (keeps_muted_consider name) (mute_consider hn) (fun _ => mute_checkTermination _)

theorem calm_muted : Calm (Muted L) where
  pos := base_muted.pos
  env := base_muted.env
  note := fun w o ho h => muted_iff.2 ⟨(steady_inv launches_distinct).note w o ho h.sound, steady_meek.note w o ho (muted_iff.1 h).2⟩
  move := fun w s ht h => muted_iff.2 ⟨(steady_inv launches_distinct).move w s ht h.sound, steady_meek.move w s ht (muted_iff.1 h).2⟩
  request := fun w n hd h => muted_iff.2 ⟨(steady_inv launches_distinct).request w n hd h.sound, steady_meek.request w n hd (muted_iff.1 h).2⟩

theorem steady_muted : Steady (Muted L) where
  toCalm := calm_muted
  mark := fun w o ho h => muted_iff.2 ⟨(steady_inv launches_distinct).mark w o ho h.sound, steady_meek.mark w o ho (muted_iff.1 h).2⟩
  flags := fun w h => muted_iff.2 ⟨(steady_inv launches_distinct).flags w h.sound, steady_meek.flags w (muted_iff.1 h).2⟩

theorem Muted.grown {w : World} (hw : Muted L w) : Muted (w.st.sorted.map TaskSt.name) w :=
  ⟨hw.sound, hw.cfg, fun n hn => by
    obtain ⟨t, ht, rfl⟩ := List.mem_map.1 hn
    exact List.mem_map.2 ⟨t, (List.mem_filter.1 ((pySorted_perm _).mem_iff.1 ht)).1, rfl⟩, hw.env⟩

theorem Muted.any {w : World} (hw : Muted L w) : Muted [] w := ⟨hw.sound, hw.cfg, (fun _ h => nomatch h), hw.env⟩

theorem mute_runCycle : Mute (Muted []) runCycle := by
  intro w hw
  unfold runCycle
  rw [get_bind_apply]
  have hw' := hw.grown
  generalize w.st.sorted.map TaskSt.name = l at hw' ⊢
  refine mute_bind (I := Muted l) (steady_muted.mark · _ rfl) (mute_emit _) (fun _ => ?_) w hw'
  refine mute_bind (keeps_forEach (fun n _ => keeps_muted_inspect n))
    (mute_forEach (fun n _ => keeps_muted_inspect n) (fun n hn => mute_inspectTask hn)) (fun _ => ?_)
  refine mute_bind (keeps_handleLogs base_muted) mute_handleLogs (fun _ => ?_)
  refine mute_bind (keeps_checkThreadErrors base_muted) mute_checkThreadErrors (fun _ => ?_)
  exact mute_bind (keeps_setCycles calm_muted.toStill _) (fun _ _ _ h => nomatch h) (fun _ => mute_emit _)

theorem mute_requestFirst (t : TaskSt) : Mute (Muted L) (requestFirst t) := by
  unfold requestFirst
  refine mute_ite (fun _ => mute_bind keeps_get mute_get (fun s => ?_)) (fun _ => mute_pure _)
  split
  · exact mute_pure _
  · exact mute_ite (fun _ => mute_pure _) (fun _ _ _ _ h => nomatch h)

theorem mute_startSpecial {part : Part} {t : TaskSt} (hn : t.name ∈ L) : Mute (Muted L) (startSpecial part t) :=
  mute_bind (keeps_requestFirst calm_muted t) (mute_requestFirst t) (fun _ => mute_launch hn part)

theorem mute_startupTask {t : TaskSt} (hn : t.name ∈ L) : Mute (Muted L) (startupTask t) := by
  unfold startupTask
  refine mute_bind (keeps_choose base_muted) mute_choose (fun c => mute_get_bind (fun w hw => ?_))
  refine mute_bind (I := Muted L) (keeps_remark base_muted rfl (by simp)) (mute_emit _) (fun _ => ?_) w hw
  rw [hw.cfg.logging, if_neg (by simp)]
  exact mute_ite (fun _ => mute_startSpecial hn) (fun _ => mute_pure _)

theorem mute_startup : Mute (Muted []) startup := by
  unfold startup
  refine mute_bind (keeps_setCycles calm_muted.toStill _) (fun _ _ _ h => nomatch h) (fun _ => mute_get_bind (fun w hw => ?_))
  refine mute_forEach (I := Muted (w.st.sorted.map TaskSt.name))
    (fun t _ => keeps_startupTask calm_muted t (muted_launch _ _)) (fun t ht => mute_startupTask (List.mem_map.2 ⟨t, ht, rfl⟩)) w hw.grown

/-! ## A cycle always ends -/

def Ends (m : M α) : Prop := ∀ w, (m w).1 ≠ .cut

theorem ends_pure (a : α) : Ends (pure a : M α) := fun _ h => nomatch h
theorem ends_raise (e : Exc) : Ends (raise e : M α) := fun _ h => nomatch h
theorem ends_get : Ends get := fun _ h => nomatch h
theorem ends_choose : Ends choose := fun _ h => nomatch h
theorem ends_emit (o : Obs) : Ends (emit o) := fun _ h => nomatch h
theorem ends_change (n : String) (f : TaskSt → TaskSt) : Ends (change n f) := fun _ h => nomatch h

theorem ends_bind {m : M α} {k : α → M β} (hm : Ends m) (hk : ∀ a, Ends (k a)) : Ends (m >>= k) := by
  intro w
  rw [bind_apply]
  have h := hm w
  rcases hr : m w with ⟨r, w'⟩
  rw [hr] at h
  cases r with
  | ok a => exact hk a w'
  | raise e => simp
  | cut => exact absurd rfl h

theorem ends_ite {c : Prop} [Decidable c] {m k : M α} (hm : Ends m) (hk : Ends k) : Ends (if c then m else k) := by
  by_cases h : c
  · rw [if_pos h]; exact hm
  · rw [if_neg h]; exact hk

theorem ends_tryCatch {m : M α} {k : Exc → M α} (hm : Ends m) (hk : ∀ e, Ends (k e)) : Ends (Sched.tryCatch m k) := by
  intro w
  unfold Sched.tryCatch
  have h := hm w
  rcases hr : m w with ⟨r, w'⟩
  rw [hr] at h
  cases r with
  | ok a => simp
  | raise e => exact hk e w'
  | cut => exact absurd rfl h

theorem ends_forEach {l : List α} {f : α → M Unit} (hf : ∀ a, Ends (f a)) : Ends (forEach l f) := by
  induction l with
  | nil => exact ends_pure ()
  | cons a l ih => exact ends_bind (hf a) (fun _ => ih)

theorem ends_handleLogs : Ends handleLogs := by
  unfold handleLogs
  refine ends_bind ends_choose (fun c => ends_bind ends_get (fun s => ?_))
  split
  · exact ends_ite (ends_pure _) (ends_raise _)
  · exact ends_raise _
  · exact ends_pure _

theorem ends_terminateRun (name : String) (id : Nat) : Ends (terminateRun name id) := by
  unfold terminateRun
  refine ends_bind ends_get (fun s => ?_)
  split
  · exact ends_pure _
  · split
    · exact ends_pure _
    · split
      · exact ends_raise _
      · exact ends_emit _
      · refine ends_bind (ends_emit _) (fun _ => ends_bind ends_choose (fun c => ends_bind (ends_change _ _) (fun _ => ?_)))
        split
        · exact ends_raise _
        · exact ends_ite (ends_raise _) (ends_pure _)
        · exact ends_pure _

theorem ends_terminateAll (name : String) : Ends (terminateAll name) := by
  unfold terminateAll
  refine ends_bind ends_get (fun s => ?_)
  split
  · exact ends_pure _
  · exact ends_bind (ends_forEach (fun _ => ends_terminateRun _ _)) (fun _ => ends_change _ _)

theorem ends_checkTermination (name : String) : Ends (checkTermination name) := by
  unfold checkTermination
  refine ends_bind ends_choose (fun c => ends_bind ends_get (fun s => ?_))
  split
  · exact ends_pure _
  · split
    · exact ends_ite (ends_terminateAll _) (ends_raise _)
    · refine ends_ite (ends_terminateAll _) (ends_ite (ends_terminateAll _) (ends_ite (ends_pure _) (ends_forEach (fun id => ?_))))
      unfold terminateOld
      refine ends_bind ends_get (fun s => ?_)
      split
      · exact ends_pure _
      · split
        · exact ends_pure _
        · exact ends_ite (ends_terminateRun _ _) (ends_pure _)

theorem ends_runOn (name : String) (id : Nat) (kind : Exec) (f : Option Fault) : Ends (runOn name id kind f) := by
  unfold runOn
  cases kind with
  | main =>
    refine ends_ite (ends_bind (ends_change _ _) (fun _ => ends_raise _)) (ends_bind ends_choose (fun d =>
      ends_bind (ends_emit _) (fun _ => ends_bind (ends_change _ _) (fun _ => ?_))))
    unfold mainEnd
    split <;> first | exact ends_pure _ | exact ends_raise _
  | async => exact ends_ite (ends_raise _) (ends_pure _)
  | thread => exact ends_ite (ends_change _ _) (ends_pure _)
  | process => exact ends_ite (ends_bind (ends_change _ _) (fun _ => ends_raise _)) (ends_ite (ends_raise _) (ends_pure _))

theorem ends_launch (name : String) (part : Part) : Ends (launch name part) := by
  unfold launch
  refine ends_bind ?_ (fun b => ends_ite ?_ (ends_pure _))
  · unfold isTaskRunnable
    refine ends_bind ends_get (fun s => ?_)
    split
    · exact ends_raise _
    · refine ends_ite (ends_pure _) (ends_ite (ends_pure _) ?_)
      unfold checkTaskCond isRunnable
      refine ends_tryCatch (ends_ite (ends_bind (ends_emit _) (fun _ => ends_pure _)) (ends_ite (ends_pure _) ?_))
        (fun e => ends_bind ends_get (fun s => ends_ite (ends_pure _) (ends_raise _)))
      refine ends_bind ends_choose (fun c => ends_bind (ends_emit _) (fun _ => ?_))
      split
      · exact ends_pure _
      · exact ends_raise _
  · unfold runTask
    refine ends_tryCatch ?_ (fun e => ends_bind ends_get (fun s => ?_))
    · unfold startAsync
      refine ends_bind ends_choose (fun c => ends_bind ends_get (fun s => ?_))
      split
      · exact ends_raise _
      · refine ends_ite (ends_bind (ends_emit _) (fun _ => ends_raise _)) (ends_bind ?_ (fun _ => ?_))
        · unfold popBatch
          split
          · exact ends_pure _
          · exact ends_bind (ends_change _ _) (fun _ => ends_emit _)
        · refine ends_ite (ends_bind (ends_emit _) (fun _ => ends_raise _)) (ends_bind (fun _ h => nomatch h) (fun _ => ends_runOn _ _ _ _))
    · split
      · exact ends_ite (ends_pure _) (ends_raise _)
      · exact ends_ite (ends_pure _) (ends_raise _)
      · exact ends_raise _

theorem ends_runCycle : Ends runCycle := by
  unfold runCycle
  refine ends_bind ends_get (fun s => ends_bind (ends_emit _) (fun _ => ends_bind (ends_forEach (fun n => ?_)) (fun _ => ?_)))
  · unfold inspectTask
    refine ends_bind (ends_emit _) (fun _ => ends_bind ends_handleLogs (fun _ => ends_bind (fun _ h => nomatch h) (fun _ => ends_bind ?_
      (fun _ => ends_checkTermination _))))
    unfold consider
    refine ends_bind ends_get (fun s => ?_)
    split
    · exact ends_pure _
    · exact ends_ite (ends_pure _) (ends_ite (ends_launch _ _) (ends_pure _))
  · refine ends_bind ends_handleLogs (fun _ => ends_bind ?_ (fun _ => ends_bind (fun _ h => nomatch h) (fun _ => ends_emit _)))
    unfold checkThreadErrors
    refine ends_bind ends_get (fun s => ends_ite (ends_pure _) (ends_forEach (fun n => ?_)))
    unfold checkExceptions
    refine ends_bind ends_get (fun s => ?_)
    split
    · exact ends_pure _
    · split
      · exact ends_pure _
      · exact ends_bind (ends_change _ _) (fun _ => ends_raise _)

/-- C85, for a cycle.  With everything silenced, a cycle in a harmless environment inspects all tasks of the session, in
the order of their priorities, whatever conditions, parameters, setups, processes and log records fail; unless the record
of a termination fails.  (`Sound`: see `C42_states`.) -/
theorem C85_cycle_partial (w : World) (hw : Sound w) (hc : Silenced w.st.cfg) (he : ∀ i, Harmless (w.env i)) :
    (∃ order : List TaskSt, order.Perm (w.st.tasks.filter TaskSt.member) ∧ order.Pairwise (fun a b => a.priority ≥ b.priority) ∧
        (runCycle w).1 = .ok () ∧ ∃ o, (runCycle w).2.trace = w.trace ++ o ∧ inspections o = order.map TaskSt.name) ∨
      ((runCycle w).1 = .raise .logging ∧ LostTermination (runCycle w).2) := by
  have hm : Muted [] w := ⟨hw, hc, (fun _ h => nomatch h), he⟩
  have h := mute_runCycle w hm
  obtain ⟨order, h1, h2, o, ho, _, hok, _⟩ := C41_order w hw.1.now.names
  rcases hr : (runCycle w).1 with _ | e | _
  · exact .inl ⟨order, h1, h2, rfl, o, ho, hok hr⟩
  · obtain ⟨rfl, hl⟩ := h e hr
    exact .inr ⟨rfl, hl⟩
  · exact absurd hr (ends_runCycle w)

/-- C85, for the startup. -/
theorem C85_startup_partial (w : World) (hw : Sound w) (hc : Silenced w.st.cfg) (he : ∀ i, Harmless (w.env i)) (e : Exc)
    (h : (startup w).1 = .raise e) : e = .logging ∧ LostTermination (startup w).2 :=
  mute_startup w ⟨hw, hc, (fun _ h => nomatch h), he⟩ e h

theorem runCycle_done (w : World) (h : (runCycle w).1 = .ok ()) : ∃ l, (runCycle w).2.trace = l ++ [.cycleDone] := by
  unfold runCycle at h ⊢
  rw [get_bind_apply, bind_apply] at h ⊢
  have hem : ∀ o w, emit o w = (.ok (), { w with trace := w.trace ++ [o] }) := fun _ _ => rfl
  rw [hem] at h ⊢
  simp only at h ⊢
  rw [bind_apply] at h ⊢
  generalize forEach (w.st.sorted.map TaskSt.name) inspectTask { w with trace := w.trace ++ [.cycle] } = x at h ⊢
  obtain ⟨r, w1⟩ := x
  cases r with
  | raise _ => simp at h
  | cut => simp at h
  | ok _ =>
    simp only at h ⊢
    rw [bind_apply] at h ⊢
    generalize handleLogs w1 = x at h ⊢
    obtain ⟨r, w2⟩ := x
    cases r with
    | raise _ => simp at h
    | cut => simp at h
    | ok _ =>
      simp only at h ⊢
      rw [bind_apply] at h ⊢
      generalize checkThreadErrors w2 = x at h ⊢
      obtain ⟨r, w3⟩ := x
      cases r with
      | raise _ => simp at h
      | cut => simp at h
      | ok _ => exact ⟨w3.trace, rfl⟩

theorem muted_serveLoop (n : Nat) : Keeps (Muted L) (serveLoop n) := keeps_serveLoop steady_muted (fun _ _ => muted_launch _ _) n

/-- C85, for the loop.  With everything silenced and in a harmless environment, the loop of the scheduler is left with an
exception only for a restart that was asked for, because the condition for shutting down raised between two cycles, or
because the record of a termination failed. -/
theorem C85_loop_partial : ∀ (n : Nat) (w : World), Sound w → Silenced w.st.cfg → (∀ i, Harmless (w.env i)) →
    ∀ e, (serveLoop n w).1 = .raise e →
      (e = .restart ∧ (serveLoop n w).2.st.restart = true) ∨
      (e = .other ∧ BetweenCycles w.trace (serveLoop n w).2.trace ∧ ∃ i, (serveLoop n w).2.pos = i + 1 ∧
        ((serveLoop n w).2.env i).cond = none) ∨
      (e = .logging ∧ LostTermination (serveLoop n w).2)
  | 0, _, _, _, _ => fun e h => nomatch h
  | n + 1, w, hw, hc, he => by
    intro e
    have hm : Muted [] w := ⟨hw, hc, (fun _ h => nomatch h), he⟩
    unfold serveLoop checkShutCond
    rw [bind_apply, bind_apply]
    have h1 := keeps_choose base_muted w hm
    have ht1 := choose_trace w
    obtain ⟨w1, hcw, henv⟩ := choose_ok w
    have hpos : (choose w).2.pos = w.pos + 1 := (foldl_happen_env _ _).2
    rw [hcw] at h1 ht1 hpos
    rw [hcw]
    simp only at h1 ht1 hpos ⊢
    rcases hcond : (w.env w.pos).cond with _ | b
    · intro h
      simp only [raise, Res.raise.injEq] at h ⊢
      refine .inr (.inl ⟨h.symm, ⟨w.trace, _, ht1, .inl rfl⟩, w.pos, hpos, by rw [henv]; exact hcond⟩)
    · simp only [pure_apply]
      cases b with
      | true => intro h; simp [pure_apply] at h
      | false =>
        simp only [Bool.false_eq_true, if_false]
        rw [bind_apply]
        unfold hibernate
        rw [bind_apply]
        have h2 := keeps_choose base_muted w1 h1
        obtain ⟨w2, hcw2, henv2⟩ := choose_ok w1
        rw [hcw2] at h2 ⊢
        simp only [pure_apply, get_bind_apply] at h2 ⊢
        by_cases hsd : w2.st.shutdown = true
        · rw [if_pos hsd]; intro h; simp [pure_apply] at h
        rw [if_neg hsd]
        by_cases hre : w2.st.restart = true
        · rw [if_pos hre]
          intro h
          simp only [raise, Res.raise.injEq] at h ⊢
          exact .inl ⟨h.symm, hre⟩
        rw [if_neg hre, bind_apply]
        have hcyc := mute_runCycle w2 h2
        have hk := keeps_runCycle steady_muted (fun _ _ => muted_launch _ _) w2 h2
        have hdone := runCycle_done w2
        rcases hr : runCycle w2 with ⟨r, w3⟩
        rw [hr] at hcyc hk hdone
        cases r with
        | cut => intro h; simp at h
        | raise x =>
          simp only at hcyc ⊢
          intro h
          exact .inr (.inr (hcyc e (by simpa using h)))
        | ok _ =>
          simp only at hk ⊢
          intro h
          rcases C85_loop_partial n w3 hk.sound hk.cfg hk.env e h with h | ⟨h1, ⟨l, evs, hl, hl'⟩, h3⟩ | h
          · exact .inl h
          · refine .inr (.inl ⟨h1, ⟨l, evs, hl, .inr ?_⟩, h3⟩)
            rcases hl' with rfl | h'
            · exact hdone rfl
            · exact h'
          · exact .inr (.inr h)

/-! ## The whole execution -/

/-- Whatever escapes is an error that is not silenced. -/
def Blamed (I : World → Prop) (m : M α) : Prop := ∀ w, I w → ∀ e, (m w).1 = .raise e → Unsilenced e (m w).2

theorem Mute.blamed {I : World → Prop} {m : M α} (h : Mute I m) : Blamed I m := fun w hw e he => by
  obtain ⟨h1, ⟨l, n, id, evs, ht⟩, h2⟩ := h w hw e he
  exact .inl ⟨h1, ⟨n, id, by rw [ht]; simp⟩, h2⟩

theorem blamed_bind {I : World → Prop} {m : M α} {k : α → M β} (hk : Keeps I m) (hm : Blamed I m) (hn : ∀ a, Blamed I (k a)) :
    Blamed I (m >>= k) := by
  intro w hw e
  rw [bind_apply]
  have h1 := hk w hw
  have h2 := hm w hw
  rcases hr : m w with ⟨r, w'⟩
  rw [hr] at h1 h2
  cases r with
  | ok a => exact hn a w' h1 e
  | raise x => simp only [Res.raise.injEq] at h2 ⊢; exact h2 e
  | cut => intro h; simp only at h; exact nomatch h

theorem blamed_ite {I : World → Prop} {c : Prop} [Decidable c] {m k : M α} (hm : c → Blamed I m) (hk : ¬ c → Blamed I k) :
    Blamed I (if c then m else k) := by
  by_cases h : c
  · rw [if_pos h]; exact hm h
  · rw [if_neg h]; exact hk h

theorem unsilenced_same {e : Exc} {w w' : World} (h : Unsilenced e w) (ht : ∀ o ∈ w.trace, o ∈ w'.trace) (he : w'.env = w.env) :
    Unsilenced e w' := by
  rcases h with ⟨h1, ⟨n, id, h2⟩, i, h3⟩ | ⟨h1, i, h2⟩
  · exact .inl ⟨h1, ⟨n, id, ht _ h2⟩, i, by rw [he]; exact h3⟩
  · exact .inr ⟨h1, i, by rw [he]; exact h2⟩

theorem steady_unsilenced (e : Exc) : Steady (Unsilenced e) where
  pos := fun _ _ h => unsilenced_same h (fun _ h => h) rfl
  env := fun _ _ _ h _ => unsilenced_same h (fun _ h => List.mem_append_left _ h) rfl
  request := fun _ _ _ h => unsilenced_same h (fun _ h => List.mem_append_left _ h) rfl
  note := fun _ _ _ h => unsilenced_same h (fun _ h => List.mem_append_left _ h) rfl
  move := fun _ _ _ h => unsilenced_same h (fun _ h => h) rfl
  mark := fun _ _ _ h => unsilenced_same h (fun _ h => List.mem_append_left _ h) rfl
  flags := fun _ h => unsilenced_same h (fun _ h => h) rfl

theorem unsilenced_launch (e : Exc) (name : String) (part : Part) : Keeps (Unsilenced e) (launch name part) := fun w hw =>
  launch_rule' (I0 := Unsilenced e) (I1 := Unsilenced e) (steady_unsilenced e).toStill.base (steady_unsilenced e).toStill.base name part
    (fun _ h => h) (fun _ _ h => unsilenced_same h (fun _ h => List.mem_append_left _ h) rfl)
    (fun _ _ _ h => unsilenced_same h (fun _ h => List.mem_append_left _ h) rfl)
    (fun _ _ h => unsilenced_same h (fun _ h => h) rfl) w hw

theorem blamed_tryFinally {I : World → Prop} {m q : M Unit} (hk : Keeps I m) (hm : Blamed I m) (hq : Blamed I q)
    (hs : ∀ e, Keeps (Unsilenced e) q) : Blamed I (tryFinally m q) := by
  intro w hw e
  unfold Sched.tryFinally
  have h1 := hk w hw
  have h2 := hm w hw
  rcases hr : m w with ⟨r, w'⟩
  rw [hr] at h1 h2
  have h3 := hq w' h1
  cases r with
  | cut => intro h; simp at h
  | ok a =>
    rcases hr' : q w' with ⟨r', w''⟩
    rw [hr'] at h3
    simp only [hr']
    cases r' with
    | ok _ => intro h; simp at h
    | raise x => exact h3 e
    | cut => intro h; simp at h
  | raise x =>
    have h4 := hs x w' (h2 x rfl)
    rcases hr' : q w' with ⟨r', w''⟩
    rw [hr'] at h3 h4
    simp only [hr']
    cases r' with
    | ok _ =>
      intro h
      simp only [Res.raise.injEq] at h
      rw [← h]; exact h4
    | raise y => exact h3 e
    | cut => intro h; simp at h

theorem mute_hibernate : Mute (Muted L) hibernate := mute_bind (keeps_choose base_muted) mute_choose (fun _ => mute_pure _)

theorem mute_waitFinish : ∀ n, Mute (Muted L) (waitFinish n)
  | 0 => fun _ _ _ h => nomatch h
  | n + 1 => by
    have hb := base_muted (L := L)
    unfold waitFinish
    refine mute_bind keeps_get mute_get (fun s => mute_ite (fun _ => mute_pure _) (fun _ => ?_))
    refine mute_bind (keeps_hibernate hb) mute_hibernate (fun _ => mute_bind (keeps_handleLogs hb) mute_handleLogs (fun _ => ?_))
    refine mute_bind keeps_get mute_get (fun s => mute_bind (keeps_forEach (fun t _ => ?_)) (mute_forEach (fun t _ => ?_) (fun t _ => ?_))
      (fun _ => mute_waitFinish n))
    · exact keeps_ite (fun _ => keeps_terminateAll hb _) (fun _ => keeps_checkTermination hb _)
    · exact keeps_ite (fun _ => keeps_terminateAll hb _) (fun _ => keeps_checkTermination hb _)
    · exact mute_ite (fun _ => mute_terminateAll _) (fun _ => mute_checkTermination _)

theorem mute_schedTerminateAll : Mute (Muted L) schedTerminateAll := by
  have hk : ∀ n, Keeps (Muted L) (terminateIfAlive n) := fun n => by
    unfold terminateIfAlive
    refine keeps_bind keeps_get (fun s => ?_)
    split
    · exact keeps_pure _
    · exact keeps_ite (fun _ => keeps_terminateAll base_muted _) (fun _ => keeps_pure _)
  unfold schedTerminateAll
  refine mute_bind keeps_get mute_get (fun s => mute_forEach (fun n _ => hk n) (fun n _ => ?_))
  unfold terminateIfAlive
  refine mute_bind keeps_get mute_get (fun s => ?_)
  split
  · exact mute_pure _
  · exact mute_ite (fun _ => mute_terminateAll _) (fun _ => mute_pure _)

theorem blamed_shutDownTasks : ∀ n e, Blamed (Muted L) (shutDownTasks n e)
  | 0, _ => by unfold shutDownTasks; exact fun _ _ _ h => nomatch h
  | n + 1, e => by
    unfold shutDownTasks
    refine blamed_bind keeps_get mute_get.blamed (fun s => blamed_ite (fun _ => ?_) (fun _ => mute_schedTerminateAll.blamed))
    intro w hw e1
    unfold Sched.tryCatch
    have h1 := keeps_waitFinish (base_muted (L := L)) n w hw
    have h2 := (mute_waitFinish n).blamed w hw
    rcases hr : waitFinish n w with ⟨r, w'⟩
    rw [hr] at h1 h2
    cases r with
    | ok _ => intro h; simp at h
    | cut => intro h; simp at h
    | raise x =>
      have h4 := keeps_shutDownTasks (steady_unsilenced x).toStill.base n (some x) w' (h2 x rfl)
      have h5 := blamed_shutDownTasks n (some x) w' h1
      have again : ((do shutDownTasks n (some x); raise x : M Unit) w').1 = .raise e1 →
          Unsilenced e1 ((do shutDownTasks n (some x); raise x : M Unit) w').2 := by
        rw [bind_apply]
        rcases hr' : shutDownTasks n (some x) w' with ⟨r', w''⟩
        rw [hr'] at h4 h5
        cases r' with
        | ok _ =>
          simp only [raise, Res.raise.injEq]
          rintro rfl; exact h4
        | raise y => exact h5 e1
        | cut => intro h; simp at h
      have same : (raise x w' : Res Unit × World).1 = .raise e1 → Unsilenced e1 (raise x w' : Res Unit × World).2 := by
        simp only [raise, Res.raise.injEq]
        rintro rfl; exact h2 x rfl
      cases x <;> first
        | exact again
        | exact same

theorem mute_waitAlive : ∀ n, Mute (Muted L) (waitAlive n)
  | 0 => fun _ _ _ h => nomatch h
  | n + 1 => by
    unfold waitAlive
    exact mute_bind keeps_get mute_get (fun s => mute_ite
      (fun _ => mute_bind (keeps_hibernate base_muted) mute_hibernate (fun _ => mute_waitAlive n)) (fun _ => mute_pure _))

theorem mute_runShutdownTasks : Mute (Muted []) runShutdownTasks := by
  unfold runShutdownTasks
  refine mute_get_bind (fun w hw => ?_)
  have hl : ∀ t : TaskSt, Keeps (Muted (w.st.sorted.map TaskSt.name)) (if t.onShutdown then startSpecial .shutdown t else pure ()) :=
    fun t => keeps_ite (fun _ => keeps_startSpecial calm_muted _ t (muted_launch _ _)) (fun _ => keeps_pure _)
  exact mute_forEach (I := Muted (w.st.sorted.map TaskSt.name)) (fun t _ => hl t)
    (fun t ht => mute_ite (fun _ => mute_startSpecial (List.mem_map.2 ⟨t, ht, rfl⟩)) (fun _ => mute_pure _)) w hw.grown

theorem blamed_shutDown {again : M Unit} (ha : Blamed (Muted []) again) (n : Nat) (e : Option Exc) :
    Blamed (Muted []) (shutDown again n e) := by
  have hb := base_muted (L := [])
  have hl := fun n => muted_launch (L := []) n .shutdown
  unfold shutDown
  have k1 : Keeps (Muted []) runShutdownTasks := keeps_runShutdownTasks calm_muted hl
  have k2 := keeps_tryFinally k1 (keeps_shutDownTasks hb n e)
  have k3 : ∀ {I : World → Prop}, Base I → Keeps I (do waitAlive n; handleLogs; checkThreadErrors : M Unit) := fun h =>
    keeps_bind (keeps_waitAlive h n) (fun _ => keeps_bind (keeps_handleLogs h) (fun _ => keeps_checkThreadErrors h))
  refine blamed_bind (keeps_mark steady_muted rfl) (mute_emit _).blamed (fun _ => ?_)
  refine blamed_bind (keeps_tryFinally k2 (k3 hb)) (blamed_tryFinally k2 (blamed_tryFinally k1 mute_runShutdownTasks.blamed
    (blamed_shutDownTasks n e) (fun x => keeps_shutDownTasks (steady_unsilenced x).toStill.base n e)) ?_
    (fun x => k3 (steady_unsilenced x).toStill.base)) (fun _ => ?_)
  · exact (mute_bind (keeps_waitAlive hb n) (mute_waitAlive n)
      (fun _ => mute_bind (keeps_handleLogs hb) mute_handleLogs (fun _ => mute_checkThreadErrors))).blamed
  · exact blamed_ite (fun _ => blamed_bind keeps_get mute_get.blamed (fun s => blamed_ite (fun _ => ha) (fun _ => (mute_emit _).blamed)))
      (fun _ => (mute_pure _).blamed)

theorem loop_errors (n : Nat) (w : World) (hw : Muted [] w) (e : Exc)
    (h : ((do startup; serveLoop n : M Unit) w).1 = .raise e) : e = .restart ∨ Unsilenced e ((do startup; serveLoop n : M Unit) w).2 := by
  rw [bind_apply] at h ⊢
  have h1 := mute_startup.blamed w hw
  have hk := keeps_startup calm_muted (fun _ => muted_launch (L := []) _ _) w hw
  rcases hr : startup w with ⟨r, w'⟩
  rw [hr] at h h1 hk
  cases r with
  | cut => simp at h
  | raise x => exact .inr (h1 e h)
  | ok _ =>
    simp only at h hk ⊢
    rcases C85_loop_partial n w' hk.sound hk.cfg hk.env e h with h | ⟨h1, _, i, _, h2⟩ | ⟨h1, ⟨l, m, id, evs, ht⟩, h2⟩
    · exact .inl h.1
    · exact .inr (.inr ⟨h1, i, h2⟩)
    · exact .inr (.inl ⟨h1, ⟨m, id, by rw [ht]; simp⟩, h2⟩)

theorem blamed_serve : ∀ n, Blamed (Muted []) (serve n)
  | 0 => fun _ _ _ h => nomatch h
  | n + 1 => by
    have hd := fun e => blamed_shutDown (blamed_serve n) n e
    unfold serve
    refine blamed_bind (keeps_mark steady_muted rfl) (mute_emit _).blamed (fun _ => ?_)
    refine blamed_bind (keeps_clearFlags steady_muted) (fun _ _ _ h => nomatch h) (fun _ => ?_)
    intro w hw e
    rw [bind_apply]
    have h1 := loop_errors n w hw
    have hk := keeps_bind (keeps_startup calm_muted (fun _ => muted_launch (L := []) _ _)) (fun _ => muted_serveLoop n) w hw
    unfold attempt
    rcases hr : (do startup; serveLoop n : M Unit) w with ⟨r, w'⟩
    rw [hr] at h1
    rw [hr] at hk
    cases r with
    | cut => intro h; simp at h
    | ok _ => exact hd none w' hk e
    | raise x =>
      simp only at h1 hk ⊢
      have again : x ≠ .restart → ((do shutDown (serve n) n (some x); raise x : M Unit) w').1 = .raise e →
          Unsilenced e ((do shutDown (serve n) n (some x); raise x : M Unit) w').2 := by
        intro hx
        rw [bind_apply]
        have h4 := keeps_shutDown (steady_unsilenced x) (unsilenced_launch x) (keeps_serve (steady_unsilenced x) (unsilenced_launch x) n) n (some x)
          w' ((h1 x rfl).resolve_left hx)
        have h5 := hd (some x) w' hk
        rcases hr' : shutDown (serve n) n (some x) w' with ⟨r', w''⟩
        rw [hr'] at h4 h5
        cases r' with
        | ok _ =>
          simp only [raise, Res.raise.injEq]
          rintro rfl; exact h4
        | raise y => exact h5 e
        | cut => intro h; simp at h
      cases x <;> first
        | exact hd _ w' hk e
        | exact again (by simp)

/-- C85, for the whole execution.  With everything silenced and in a harmless environment `serve` raises nothing but a
failed record of a termination and the error of a condition (of the scheduler); in particular nothing at all if no record
fails and no condition raises, although parameters, setups and processes may fail. -/
theorem C85_serve_partial (n : Nat) (w : World) (hw : Sound w) (hc : Silenced w.st.cfg) (he : ∀ i, Harmless (w.env i)) :
    (∀ e, (serve n w).1 = .raise e → Unsilenced e (serve n w).2) ∧
      ((∀ i, (w.env i).fault ≠ some .logging ∧ (w.env i).cond ≠ none) → ∀ e, (serve n w).1 ≠ .raise e) := by
  have h := blamed_serve n w ⟨hw, hc, (fun _ h => nomatch h), he⟩
  refine ⟨h, fun hq e hr => ?_⟩
  have henv : (serve n w).2.env = w.env :=
    keeps_serve (I := fun v => v.env = w.env) ⟨⟨⟨fun _ _ h => h, fun _ _ _ h _ => h, fun _ _ _ h => h, fun _ _ _ h => h⟩, fun _ _ _ h => h⟩,
      fun _ _ _ h => h, fun _ h => h⟩ (fun name part v hv => launch_rule' (I0 := fun v => v.env = w.env) (I1 := fun v => v.env = w.env)
        ⟨fun _ _ h => h, fun _ _ _ h _ => h, fun _ _ _ _ h => h, fun _ _ _ _ h => h⟩
        ⟨fun _ _ h => h, fun _ _ _ h _ => h, fun _ _ _ _ h => h, fun _ _ _ _ h => h⟩ name part (fun _ h => h) (fun _ _ h => h) (fun _ _ _ h => h)
        (fun _ _ h => h) v hv) n w rfl
  rcases h e hr with ⟨_, _, i, h3⟩ | ⟨_, i, h2⟩
  · rw [henv] at h3; exact (hq i).1 h3
  · rw [henv] at h2; exact (hq i).2 h2

/-! ## Examples -/

/-- A session in which everything is silenced. -/
def silentSession (l : List TaskSt) : Sys :=
  ⟨⟨4, false, true, true, true, false, 100, false⟩, l, true, false, false, false, 0, 0⟩

/-- Four tasks that are asked to run, and one with a condition. -/
def unlucky : Sys := silentSession [requested { idleTask "a" .process with priority := 5 }, requested { idleTask "b" .main with priority := 4 },
  requested { idleTask "c" .process with priority := 3 }, requested { idleTask "d" .async with priority := 2 },
  { idleTask "e" .thread with priority := 1 }]

/-- Nothing happens but the given fault. -/
def faulty (f : Fault) : Choice := ⟨[], some false, some f, 0⟩

/-- The parameters of `a`, the setup of `b`, the process of `c` and the record of the start of `d` fail, the condition of
`e` raises, and the last record of the queue cannot be written. -/
def badLuck : List Choice :=
  [quiet false, faulty .params, quiet false, quiet false, faulty .setup, quiet false, quiet false, faulty .spawn, quiet false,
   quiet false, faulty .logging, quiet false, quiet false, ⟨[], none, none, 0⟩, quiet false, faulty .logging]

theorem envOf_cases (l : List Choice) (i : Nat) : envOf l i ∈ l ∨ envOf l i = quiet false := by
  unfold envOf
  rw [List.getD_eq_getElem?_getD]
  rcases h : l[i]? with _ | c
  · exact .inr rfl
  · exact .inl (List.mem_of_getElem? h)

theorem envOf_harmless (l : List Choice) (h : ∀ c ∈ l, ∀ x ∈ [Exc.restart, .exit, .systemExit, .interrupt, .logging, .setup, .other],
    c.fault ≠ some (.exc x)) (i : Nat) : Harmless (envOf l i) := by
  intro e
  have he : e ∈ [Exc.restart, .exit, .systemExit, .interrupt, .logging, .setup, .other] := by cases e <;> simp
  rcases envOf_cases l i with hi | hi
  · exact h _ hi e he
  · rw [hi]; simp [quiet]

/-- All of this happens, and the cycle goes on to its end. -/
example : Sound (World.init unlucky (envOf badLuck)) ∧ Silenced unlucky.cfg ∧ (∀ i, Harmless (envOf badLuck i)) ∧
    (runCycle (World.init unlucky (envOf badLuck))).1 = .ok () ∧
    inspections (runCycle (World.init unlucky (envOf badLuck))).2.trace = ["a", "b", "c", "d", "e"] ∧
    Obs.failedSetup "a" ∈ (runCycle (World.init unlucky (envOf badLuck))).2.trace ∧
    Obs.failedSetup "b" ∈ (runCycle (World.init unlucky (envOf badLuck))).2.trace ∧
    Obs.checked "e" false none ∈ (runCycle (World.init unlucky (envOf badLuck))).2.trace ∧
    (runCycle (World.init unlucky (envOf badLuck))).2.pos = badLuck.length := by
  refine ⟨sound_init (by decide) _, ⟨rfl, rfl, rfl⟩, envOf_harmless _ (by decide), ?_, ?_, ?_, ?_, ?_, ?_⟩ <;> decide +kernel

/-- The environment of a session whose first task is started and, as its end condition is true, terminated; the record of
the termination cannot be written. -/
def lostRecord : List Choice :=
  [quiet false, quiet false, quiet false, quiet false, quiet false, quiet false, quiet true, faulty .logging]

/-- Two tasks that are asked to run. -/
def twoAsked : Sys := silentSession [requested { idleTask "a" .process with priority := 5 }, requested (idleTask "b" .main)]

/-- C85 fails for the records of terminations: everything is silenced, nothing else fails and no condition raises, yet the
scheduler crashes because the record of a termination cannot be written; the other task is not even inspected.
(`_check_termination` is called outside of the `try` of `run_task`, schedule.py:184.) -/
theorem C85_termination_violated : ∃ (s : Sys) (env : Nat → Choice), Fresh s ∧ Silenced s.cfg ∧ (∀ i, Harmless (env i)) ∧
    (∀ i, (env i).cond ≠ none) ∧ (serve 3 (World.init s env)).1 = .raise .logging ∧
    inspections (serve 3 (World.init s env)).2.trace = ["a"] ∧ "b" ∈ s.tasks.map TaskSt.name ∧
    Obs.cycleDone ∉ (serve 3 (World.init s env)).2.trace := by
  refine ⟨twoAsked, envOf lostRecord, by decide, ⟨rfl, rfl, rfl⟩, envOf_harmless _ (by decide), fun i => ?_, ?_, ?_, ?_, ?_⟩
  · have h : ∀ c ∈ lostRecord, c.cond ≠ none := by decide
    rcases envOf_cases lostRecord i with hi | hi
    · exact h _ hi
    · rw [hi]; simp [quiet]
  all_goals decide +kernel

/-- The parameters of the first task and the setup of the second fail; then the condition for shutting down is true. -/
def hardTimes : List Choice :=
  [quiet false, quiet false, quiet false, quiet false, quiet false, faulty .params, quiet false, quiet false, faulty .setup, quiet false,
   quiet false, quiet true]

/-- The hypotheses of `C85_serve_partial` are met, also those of its second part; both starts fail, and the cycle is
completed. -/
example : Sound (World.init twoAsked (envOf hardTimes)) ∧ Silenced twoAsked.cfg ∧ (∀ i, Harmless (envOf hardTimes i)) ∧
    (∀ i, (envOf hardTimes i).fault ≠ some .logging ∧ (envOf hardTimes i).cond ≠ none) ∧
    (serve 4 (World.init twoAsked (envOf hardTimes))).1 = .ok () ∧
    Obs.failedSetup "a" ∈ (serve 4 (World.init twoAsked (envOf hardTimes))).2.trace ∧
    Obs.failedSetup "b" ∈ (serve 4 (World.init twoAsked (envOf hardTimes))).2.trace ∧
    Obs.cycleDone ∈ (serve 4 (World.init twoAsked (envOf hardTimes))).2.trace := by
  refine ⟨sound_init (by decide) _, ⟨rfl, rfl, rfl⟩, envOf_harmless _ (by decide), fun i => ?_, ?_, ?_, ?_, ?_⟩
  · have h : ∀ c ∈ hardTimes, c.fault ≠ some .logging ∧ c.cond ≠ none := by decide
    rcases envOf_cases hardTimes i with hi | hi
    · exact h _ hi
    · rw [hi]; simp [quiet]
  all_goals decide +kernel

end Rocketry.Props
