import Verif.Props.StartProps
import Verif.Session.RunOnce

/-!
# C66: which tasks are started at startup and shutdown
-/

namespace Rocketry.Props
open Rocketry.Sched Rocketry.Spec

/-- Where the start reads the environment: after the start condition, if that was looked at. -/
def specialPos (t : TaskSt) (w : World) : Nat :=
  if t.batches = [] ∧ ¬ (t.noCond = true ∧ t.disabled = false) then w.pos + 1 else w.pos

theorem freeSlot_upd {s : Sys} {n : String} {g : TaskSt → TaskSt} (hm : ∀ t, (g t).member = t.member) (hst : ∀ t, (g t).stack = t.stack) :
    FreeSlot (s.upd n g) ↔ FreeSlot s := by
  have : ∀ l : List TaskSt, ((l.map (fun t => if t.name = n then g t else t)).filter TaskSt.member).flatMap TaskSt.stack =
      (l.filter TaskSt.member).flatMap TaskSt.stack := by
    intro l
    induction l with
    | nil => rfl
    | cons t l ih =>
      have h1 : (if t.name = n then g t else t).member = t.member := by split <;> simp [hm]
      have h2 : (if t.name = n then g t else t).stack = t.stack := by split <;> simp [hst]
      rw [List.map_cons, List.filter_cons, List.filter_cons, h1]
      split
      · rw [List.flatMap_cons, List.flatMap_cons, ih, h2]
      · exact ih
  unfold FreeSlot Sys.upd
  simp only [this]

/-- C66.  When the startup or the shutdown comes to one of its tasks, exactly one run of it is started if the task is due
(and its setup does not fail), and nothing is started otherwise.  A task that has no start condition is due unless it is
disabled. -/
theorem C66_exact (part : Part) (t : TaskSt) (w : World) (hn : (w.st.tasks.map TaskSt.name).Nodup)
    (ht : w.st.find t.name = some t) :
    ∃ o, (startSpecial part t w).2.trace = w.trace ++ o ∧
      (¬ SpecialDue w.st t (w.env w.pos).cond → starts o = []) ∧
      (SpecialDue w.st t (w.env w.pos).cond →
        ((w.env (specialPos t w)).fault = some .params ∨ (w.env (specialPos t w)).fault = some .setup → starts o = []) ∧
        ((w.env (specialPos t w)).fault ≠ some .params ∧ (w.env (specialPos t w)).fault ≠ some .setup →
          starts o = [(t.name, part)])) := by
  by_cases hreq : t.noCond = true ∧ t.disabled = false
  · -- the task is requested first
    have hr : requestFirst t w = (.ok (), w.happen (.request t.name [])) := by
      unfold requestFirst
      rw [if_pos hreq.1, get_bind_apply, ht]
      simp only
      rw [if_neg (by rw [hreq.2]; simp)]
      rfl
    have hn' : ((w.happen (.request t.name [])).st.tasks.map TaskSt.name).Nodup := upd_nodup hn (fun _ => rfl)
    have ht' : (w.happen (.request t.name [])).st.find t.name = some { t with batches := t.batches ++ [[]] } :=
      find_upd_eq (g := fun t => { t with batches := t.batches ++ [[]] }) hn (fun _ => rfl) ht
    have hfree : FreeSlot (w.happen (.request t.name [])).st ↔ FreeSlot w.st :=
      freeSlot_upd (g := fun t => { t with batches := t.batches ++ [[]] }) (fun _ => rfl) (fun _ => rfl)
    obtain ⟨l, ⟨o, ho, hs⟩, h1, h2⟩ := launch_exact t.name part _ hn' _ ht'
    have hpos : startPos { t with batches := t.batches ++ [[]] } (w.happen (.request t.name [])) = specialPos t w := by
      unfold startPos specialPos
      rw [if_neg (by simp), if_neg (fun h => h.2 hreq)]
      rfl
    have hiff : Ready (w.happen (.request t.name [])).st { t with batches := t.batches ++ [[]] }
        ((w.happen (.request t.name [])).env (w.happen (.request t.name [])).pos).cond ↔
        SpecialDue w.st t (w.env w.pos).cond := by
      constructor
      · exact fun h => ⟨fun hx => hfree.1 (h.slot hx), h.idle, Or.inr ⟨hreq.2, Or.inl hreq.1⟩⟩
      · exact fun h => ⟨fun hx => hfree.2 (h.slot hx), h.idle, Or.inl (by simp)⟩
    rw [hiff, hpos] at h2
    rw [hiff] at h1
    have htr : (startSpecial part t w).2.trace = w.trace ++ (.env (.request t.name []) :: o) := by
      unfold startSpecial
      rw [bind_apply, hr]
      simp only
      rw [ho]
      show (w.trace ++ [_]) ++ o = _
      rw [List.append_assoc]
      rfl
    have hso : starts (.env (.request t.name []) :: o) = l := hs
    refine ⟨_, htr, fun hm => hso.trans (h1 hm), fun hm => ⟨fun hf => ?_, fun hf => ?_⟩⟩
    · rw [hso, h2 hm]; exact if_pos hf
    · rw [hso, h2 hm]; exact if_neg (fun h => h.elim hf.1 hf.2)
  · have hr : requestFirst t w = (.ok (), w) := by
      unfold requestFirst
      by_cases hc : t.noCond = true
      · rw [if_pos hc, get_bind_apply, ht]
        simp only
        by_cases hd : t.disabled = true
        · rw [if_pos hd]; rfl
        · exact absurd ⟨hc, by simpa using hd⟩ hreq
      · rw [if_neg hc]; rfl
    obtain ⟨l, ⟨o, ho, hs⟩, h1, h2⟩ := launch_exact t.name part w hn t ht
    have hpos : startPos t w = specialPos t w := by
      unfold startPos specialPos
      simp only [hreq, not_false_eq_true, and_true]
    have hiff : Ready w.st t (w.env w.pos).cond ↔ SpecialDue w.st t (w.env w.pos).cond := by
      constructor
      · exact fun h => ⟨h.slot, h.idle, h.due.imp id (fun h => ⟨h.1, Or.inr h.2⟩)⟩
      · refine fun h => ⟨h.slot, h.idle, h.due.imp id (fun h => ⟨h.1, ?_⟩)⟩
        rcases h.2 with hc | hc
        · exact absurd ⟨hc, h.1⟩ hreq
        · exact hc
    rw [hiff, hpos] at h2
    rw [hiff] at h1
    refine ⟨o, ?_, fun hm => hs.trans (h1 hm), fun hm => ⟨fun hf => ?_, fun hf => ?_⟩⟩
    · unfold startSpecial
      rw [bind_apply, hr]
      exact ho
    · rw [hs, h2 hm, if_pos hf]
    · rw [hs, h2 hm, if_neg (fun h => h.elim hf.1 hf.2)]

/-! ## The whole startup -/

/-- Nothing that a run's end or another task's start changes. -/
def Lasting (q : TaskSt → Prop) : Prop :=
  ∀ t t', Evolves t t' → t'.batches = t.batches → t'.disabled = t.disabled → q t → q t'

/-- The task `a` is as `q` says, and was started `k` times; the tasks are called `L`. -/
structure Aside (L : List String) (a : String) (q : TaskSt → Prop) (k : Nat) (w : World) : Prop where
  env : ∀ i, Gentle (w.env i)
  perm : (w.st.tasks.map TaskSt.name).Perm L
  named : (w.st.tasks.map TaskSt.name).Nodup
  task : ∀ t ∈ w.st.tasks, t.name = a → q t
  count : startsOf a w.trace = k

variable {L : List String} {a b : String} {q : TaskSt → Prop} {k : Nat} {w : World}

theorem aside_soft (hq : Lasting q) {w' : World} (h : Aside L a q k w) (hs : Soft w.st w'.st) (he : w'.env = w.env)
    (hc : startsOf a w'.trace = startsOf a w.trace) : Aside L a q k w' where
  env := by rw [he]; exact h.env
  perm := hs.names.trans h.perm
  named := hs.names.nodup_iff.2 h.named
  task := by
    intro t' ht' hn
    obtain ⟨t, ht, he, _, hb, hd⟩ := hs.back t' ht'
    exact hq t t' he hb hd (h.task t ht (he.name.symm.trans hn))
  count := hc.trans h.count

theorem still_aside (hq : Lasting q) : Still (Aside L a q k) where
  pos := fun _ _ h => ⟨h.env, h.perm, h.named, h.task, h.count⟩
  env := fun _ i e h he => aside_soft hq h (soft_event ((h.env i).events e he)) rfl (startsOf_note a _ (by simp))
  note := fun _ _ ho h => aside_soft hq h (soft_refl _) rfl
    (startsOf_note a _ (fun m id p e => by rw [e] at ho; simp [Obs.plain] at ho))
  move := fun _ _ ht h => aside_soft hq h (soft_tidy ht) rfl rfl

/-- Changes of another task. -/
theorem aside_upd {w' : World} (g : TaskSt → TaskSt) {o : List Obs} (hab : a ≠ b) (h : Aside L a q k w)
    (hst : w'.st.tasks = (w.st.upd b g).tasks) (hg : ∀ t, (g t).name = t.name) (he : w'.env = w.env)
    (htr : w'.trace = w.trace ++ o) (ho : startsOf a o = 0) : Aside L a q k w' where
  env := by rw [he]; exact h.env
  perm := by rw [hst, upd_names _ b g hg]; exact h.perm
  named := by rw [hst]; exact upd_nodup h.named hg
  task := by
    intro t ht hn
    rw [hst] at ht
    rcases mem_upd ht with ⟨ht, _⟩ | ⟨u, _, hun, rfl⟩
    · exact h.task t ht hn
    · exact absurd ((hg u).symm.trans hn |>.symm.trans hun) hab
  count := by
    rw [htr]
    unfold startsOf at ho ⊢
    rw [List.countP_append, ho]
    exact h.count

theorem aside_choose (hq : Lasting q) (h : Aside L a q k w) : ∃ c w', choose w = (.ok c, w') ∧ Gentle c ∧ Aside L a q k w' :=
  ⟨_, _, rfl, h.env w.pos, keeps_choose (still_aside hq).base w h⟩

theorem aside_runOn (hq : Lasting q) (hab : a ≠ b) (h : Aside L a q k w) (id : Nat) (kind : Exec) :
    ∃ w', runOn b id kind none w = (.ok (), w') ∧ Aside L a q k w' := by
  unfold runOn
  cases kind with
  | main =>
    obtain ⟨c, w1, e1, hc, h1⟩ := aside_choose hq h
    refine ⟨(w1.observe (.mainEnded b id)).drop b false, ?_,
      aside_upd (b := b) _ (o := [.mainEnded b id]) hab h1 rfl (fun _ => rfl) rfl rfl rfl⟩
    simp only
    rw [if_neg (by simp), bind_apply, e1]
    show (dropMain b false >>= fun _ => mainEnd c.fault) (w1.observe (.mainEnded b id)) = _
    rw [hc.fault]; rfl
  | async => exact ⟨w, rfl, h⟩
  | thread => exact ⟨w, rfl, h⟩
  | process => exact ⟨w, rfl, h⟩

theorem aside_find (h : Aside L a q k w) (hb : b ∈ L) : ∃ t, w.st.find b = some t ∧ t.name = b := by
  obtain ⟨t, ht, hn⟩ := List.mem_map.1 (h.perm.mem_iff.2 hb)
  exact ⟨t, (find_iff h.named).2 ⟨ht, hn⟩, hn⟩

/-- The inspection of a task has a result. -/
theorem aside_runnable (hq : Lasting q) (h : Aside L a q k w) (hb : b ∈ L) :
    ∃ r w', isTaskRunnable b w = (.ok r, w') ∧ Aside L a q k w' := by
  obtain ⟨t, ht, _⟩ := aside_find h hb
  unfold isTaskRunnable
  rw [get_bind_apply, ht]
  simp only
  split
  · exact ⟨false, w, rfl, h⟩
  split
  · exact ⟨false, w, rfl, h⟩
  unfold checkTaskCond isRunnable Sched.tryCatch
  by_cases hbt : t.batches ≠ []
  · rw [if_pos hbt]; exact ⟨true, w.observe _, rfl, (still_aside hq).note w _ rfl h⟩
  rw [if_neg hbt]
  by_cases hd : t.disabled = true
  · rw [if_pos hd]; exact ⟨false, w, rfl, h⟩
  rw [if_neg hd, bind_apply]
  obtain ⟨c, w1, e1, hc, h1⟩ := aside_choose hq h
  rw [e1]
  rcases hcc : c.cond with _ | x
  · exact absurd hcc hc.cond
  · simp only [hcc]; exact ⟨x, w1.observe _, rfl, (still_aside hq).note w1 _ rfl h1⟩

/-- The start of another task. -/
theorem aside_start (hq : Lasting q) (hab : a ≠ b) (h : Aside L a q k w) (hb : b ∈ L) (part : Part) :
    ∃ w', startAsync b part w = (.ok (), w') ∧ Aside L a q k w' := by
  unfold startAsync
  rw [bind_apply]
  obtain ⟨c, w1, e1, hc, h1⟩ := aside_choose hq h
  rw [e1]
  simp only [get_bind_apply]
  obtain ⟨t, ht, hn⟩ := aside_find h1 hb
  rw [ht]
  simp only
  rw [if_neg (by rw [hc.fault]; simp), bind_apply]
  obtain ⟨w2, e2, h2⟩ : ∃ w2, popBatch t w1 = (.ok (), w2) ∧ Aside L a q k w2 := by
    unfold popBatch
    rcases t.batches with _ | ⟨x, xs⟩
    · exact ⟨w1, rfl, h1⟩
    · exact ⟨w1.pop t.name x, rfl, aside_upd (b := t.name) (fun t => { t with batches := t.batches.tail }) (o := [.popped t.name x])
        (by rw [hn]; exact hab) h1 rfl (fun _ => rfl) rfl rfl rfl⟩
  rw [e2]
  simp only
  rw [if_neg (by rw [hc.fault]; simp), bind_apply, hc.fault]
  have hpush : pushRun b t.execution c.time part w2 = (.ok w2.st.nextId, w2.push b t.execution c.time part) := rfl
  rw [hpush]
  refine aside_runOn hq hab (aside_upd (b := b) (w := w2) (w' := w2.push b t.execution c.time part)
    (fun t' => { t' with stack := t'.stack ++ [⟨w2.st.nextId, t.execution, c.time, true, false⟩] })
    (o := [.started b w2.st.nextId part]) hab h2 rfl (fun _ => rfl) rfl rfl ?_) _ _
  unfold startsOf
  rw [List.countP_singleton]
  simp [Ne.symm hab]

theorem aside_launch (hq : Lasting q) (hab : a ≠ b) (h : Aside L a q k w) (hb : b ∈ L) (part : Part) :
    ∃ w', launch b part w = (.ok (), w') ∧ Aside L a q k w' := by
  unfold launch
  obtain ⟨r, w1, e1, h1⟩ := aside_runnable hq h hb
  rw [bind_apply, e1]
  simp only
  cases r with
  | false => exact ⟨w1, rfl, h1⟩
  | true =>
    obtain ⟨w2, e2, h2⟩ := aside_start hq hab h1 hb part
    refine ⟨w2, ?_, h2⟩
    rw [if_pos rfl]
    unfold runTask Sched.tryCatch
    rw [e2]

/-- The turn of another task. -/
theorem aside_special (hq : Lasting q) {t : TaskSt} (hab : a ≠ t.name) (h : Aside L a q k w) (hb : t.name ∈ L) (part : Part) :
    ∃ w', startSpecial part t w = (.ok (), w') ∧ Aside L a q k w' := by
  unfold startSpecial
  obtain ⟨w2, e2, h2⟩ : ∃ w2, requestFirst t w = (.ok (), w2) ∧ Aside L a q k w2 := by
    unfold requestFirst
    by_cases hcd : t.noCond = true
    · rw [if_pos hcd, get_bind_apply]
      obtain ⟨u, hu, hun⟩ := aside_find h hb
      rw [hu]
      simp only
      by_cases hd : u.disabled = true
      · rw [if_pos hd]; exact ⟨w, rfl, h⟩
      · rw [if_neg hd]
        exact ⟨w.happen (.request u.name []), rfl, aside_upd (b := u.name) (fun t => { t with batches := t.batches ++ [[]] })
          (o := [.env (.request u.name [])]) (by rw [hun]; exact hab) h rfl (fun _ => rfl) rfl rfl rfl⟩
    · rw [if_neg hcd]; exact ⟨w, rfl, h⟩
  rw [bind_apply, e2]
  exact aside_launch hq hab h2 hb part

theorem startsOf_starts (n : String) (l : List Obs) : startsOf n l = (starts l).countP (fun p => decide (p.1 = n)) := by
  unfold startsOf starts
  induction l with
  | nil => rfl
  | cons o l ih =>
    rw [List.countP_cons, ih]
    cases o <;> simp [List.filterMap_cons, List.countP_cons]

theorem string_ne (a : String) : a ++ "x" ≠ a := by
  intro h
  have := congrArg String.length h
  simp at this

/-- The turn of the task itself. -/
theorem aside_own (hq : Lasting q) {t : TaskSt} (hb : t.name ∈ L) (part : Part) {m : Nat}
    (hsame : ∀ u, u.name = t.name → q u → u.noCond = t.noCond)
    (hdo : ∀ s u c, u.name = t.name → q u → c ≠ none → m = 1 ∧ SpecialDue s u c ∨ m = 0 ∧ ¬ SpecialDue s u c)
    (h : Aside L t.name q k w) :
    ∃ w', startSpecial part t w = (.ok (), w') ∧ Aside L t.name (fun _ => True) (k + m) w' := by
  have h0 : Aside L (t.name ++ "x") (fun _ => True) (startsOf (t.name ++ "x") w.trace) w :=
    ⟨h.env, h.perm, h.named, fun _ _ _ => trivial, rfl⟩
  obtain ⟨w', e, h1⟩ := aside_special (fun _ _ _ _ _ _ => trivial) (string_ne t.name) h0 hb part
  refine ⟨w', e, h1.env, h1.perm, h1.named, fun _ _ _ => trivial, ?_⟩
  obtain ⟨u, hu, hun⟩ := aside_find h hb
  have hqu := h.task u (find_mem hu).1 hun
  have hse : startSpecial part t = startSpecial part u := by
    unfold startSpecial requestFirst
    rw [hsame u hun hqu, hun]
  obtain ⟨o, ho, hn, hy⟩ := C66_exact part u w h.named (by rw [hun]; exact hu)
  rw [← hse, e] at ho
  simp only at ho
  rw [ho]
  have : startsOf t.name (w.trace ++ o) = k + startsOf t.name o := by
    rw [← h.count]; unfold startsOf; rw [List.countP_append]
  rw [this, startsOf_starts]
  rcases hdo w.st u (w.env w.pos).cond hun hqu (h.env w.pos).cond with ⟨hm, hd⟩ | ⟨hm, hd⟩
  · rw [hm, (hy hd).2 ⟨by rw [(h.env _).fault]; simp, by rw [(h.env _).fault]; simp⟩]
    simp [hun]
  · rw [hm, hn hd]; rfl

/-- All tasks have their turn, the task `t0` among them. -/
theorem aside_loop {f : TaskSt → M Unit} {t0 : TaskSt} {m : Nat} (hq : Lasting q)
    (hother : ∀ (q' : TaskSt → Prop) (k' : Nat) (t : TaskSt) (w : World), Lasting q' → t.name ∈ L → t0.name ≠ t.name →
      Aside L t0.name q' k' w → ∃ w', f t w = (.ok (), w') ∧ Aside L t0.name q' k' w')
    (hown : ∀ w, Aside L t0.name q k w → ∃ w', f t0 w = (.ok (), w') ∧ Aside L t0.name (fun _ => True) (k + m) w') :
    ∀ (l : List TaskSt), (∀ t ∈ l, t.name ∈ L) → (l.map TaskSt.name).Nodup → t0 ∈ l → ∀ w, Aside L t0.name q k w →
      ∃ w', forEach l f w = (.ok (), w') ∧ Aside L t0.name (fun _ => True) (k + m) w' := by
  have rest : ∀ (l : List TaskSt), (∀ t ∈ l, t.name ∈ L) → t0.name ∉ l.map TaskSt.name → ∀ w k',
      Aside L t0.name (fun _ => True) k' w → ∃ w', forEach l f w = (.ok (), w') ∧ Aside L t0.name (fun _ => True) k' w' := by
    intro l
    induction l with
    | nil => exact fun _ _ w _ h => ⟨w, rfl, h⟩
    | cons t l ih =>
      intro hl hn w k' h
      rw [List.map_cons, List.mem_cons, not_or] at hn
      obtain ⟨w1, e1, h1⟩ := hother _ k' t w (fun _ _ _ _ _ _ => trivial) (hl t (List.mem_cons_self ..)) hn.1 h
      obtain ⟨w2, e2, h2⟩ := ih (fun t ht => hl t (List.mem_cons_of_mem _ ht)) hn.2 w1 k' h1
      refine ⟨w2, ?_, h2⟩
      unfold forEach
      rw [bind_apply, e1]
      exact e2
  intro l
  induction l with
  | nil => intro _ _ h; simp at h
  | cons t l ih =>
    intro hl hn ht w h
    rw [List.map_cons, List.nodup_cons] at hn
    have hl' : ∀ t ∈ l, t.name ∈ L := fun t ht => hl t (List.mem_cons_of_mem _ ht)
    obtain ⟨w1, e1, w2, e2, h2⟩ : ∃ w1, f t w = (.ok (), w1) ∧ ∃ w2, forEach l f w1 = (.ok (), w2) ∧
        Aside L t0.name (fun _ => True) (k + m) w2 := by
      rcases List.mem_cons.1 ht with rfl | ht
      · obtain ⟨w1, e1, h1⟩ := hown w h
        exact ⟨w1, e1, rest l hl' hn.1 w1 _ h1⟩
      · have hne : t0.name ≠ t.name := fun he => hn.1 (he ▸ List.mem_map.2 ⟨t0, ht, rfl⟩)
        obtain ⟨w1, e1, h1⟩ := hother q k t w hq (hl t (List.mem_cons_self ..)) hne h
        exact ⟨w1, e1, ih hl' hn.2 ht w1 h1⟩
    refine ⟨w2, ?_, h2⟩
    unfold forEach
    rw [bind_apply, e1]
    exact e2

/-- What a task must be like for its turn to have the same effect in all circumstances: `m` starts. -/
structure Settled (t : TaskSt) (q : TaskSt → Prop) (m : Nat) : Prop where
  lasting : Lasting q
  now : q t
  same : ∀ u, u.name = t.name → q u → u.noCond = t.noCond
  does : ∀ s u c, u.name = t.name → q u → c ≠ none → m = 1 ∧ SpecialDue s u c ∨ m = 0 ∧ ¬ SpecialDue s u c

theorem aside_begin {t : TaskSt} (henv : ∀ i, Gentle (w.env i)) (hn : (w.st.tasks.map TaskSt.name).Nodup)
    (ht : t ∈ w.st.tasks) (hq : q t) : Aside (w.st.tasks.map TaskSt.name) t.name q (startsOf t.name w.trace) w :=
  ⟨henv, .refl _, hn, fun u hu hun => name_inj hn hu ht hun ▸ hq, rfl⟩

theorem sorted_sub (s : Sys) : (∀ t ∈ s.sorted, t.name ∈ s.tasks.map TaskSt.name) ∧
    (∀ t ∈ s.tasks, t.member = true → t ∈ s.sorted) ∧
    ((s.tasks.map TaskSt.name).Nodup → (s.sorted.map TaskSt.name).Nodup) := by
  have hp : s.sorted.Perm s.members := pySorted_perm _
  refine ⟨fun t ht => List.mem_map.2 ⟨t, (List.mem_filter.1 (hp.mem_iff.1 ht)).1, rfl⟩,
    fun t ht hm => hp.mem_iff.2 (List.mem_filter.2 ⟨ht, hm⟩), fun h => ?_⟩
  exact (hp.map _).nodup_iff.2 ((List.filter_sublist.map _).nodup h)

theorem startup_settled {t : TaskSt} {m : Nat} (hs : Settled t q m) (henv : ∀ i, Gentle (w.env i))
    (hn : (w.st.tasks.map TaskSt.name).Nodup) (ht : t ∈ w.st.tasks) (hm : t.member = true) (ho : t.onStartup = true) :
    (startup w).1 = .ok () ∧ startsOf t.name (startup w).2.trace = startsOf t.name w.trace + m := by
  have h0 := keeps_setCycles (still_aside hs.lasting) (fun _ => 0) w (aside_begin henv hn ht hs.now)
  have h1 := sorted_sub w.st
  obtain ⟨w', e, h⟩ := aside_loop (f := startupTask) (t0 := t) (m := m) hs.lasting
    (fun q' k' u v hq' hu hne hv => by
      unfold startupTask
      rw [bind_apply]
      obtain ⟨c, w1, e1, hc, h1⟩ := aside_choose hq' hv
      rw [e1]
      simp only [get_bind_apply]
      rw [if_neg (by rw [hc.fault]; simp)]
      replace h1 := (still_aside hq').note w1 (.cached u.name) rfl h1
      show ∃ w', (if u.onStartup = true then startSpecial .startup u else pure ()) (w1.observe (.cached u.name)) = _ ∧ _
      by_cases hou : u.onStartup = true
      · rw [if_pos hou]; exact aside_special hq' hne h1 hu _
      · rw [if_neg hou]; exact ⟨_, rfl, h1⟩)
    (fun v hv => by
      unfold startupTask
      rw [bind_apply]
      obtain ⟨c, w1, e1, hc, h1⟩ := aside_choose hs.lasting hv
      rw [e1]
      simp only [get_bind_apply]
      rw [if_neg (by rw [hc.fault]; simp), if_pos ho]
      exact aside_own hs.lasting (List.mem_map.2 ⟨t, ht, rfl⟩) _ hs.same hs.does
        ((still_aside hs.lasting).note w1 (.cached t.name) rfl h1))
    w.st.sorted h1.1 (h1.2.2 hn) (h1.2.1 t ht hm) _ h0
  have he : startup w = (.ok (), w') := e
  rw [he]
  exact ⟨rfl, h.count⟩

theorem shutdown_settled {t : TaskSt} {m : Nat} (hs : Settled t q m) (henv : ∀ i, Gentle (w.env i))
    (hn : (w.st.tasks.map TaskSt.name).Nodup) (ht : t ∈ w.st.tasks) (hm : t.member = true) (ho : t.onShutdown = true) :
    (runShutdownTasks w).1 = .ok () ∧ startsOf t.name (runShutdownTasks w).2.trace = startsOf t.name w.trace + m := by
  have h0 := aside_begin henv hn ht hs.now
  have h1 := sorted_sub w.st
  obtain ⟨w', e, h⟩ := aside_loop (f := fun t => if t.onShutdown then startSpecial .shutdown t else pure ()) (t0 := t) (m := m)
    hs.lasting
    (fun q' k' u v hq' hu hne hv => by
      by_cases hou : u.onShutdown = true
      · simp only [hou, if_true]; exact aside_special hq' hne hv hu _
      · simp only [hou]; exact ⟨v, rfl, hv⟩)
    (fun v hv => by
      simp only [ho, if_true]
      exact aside_own hs.lasting (List.mem_map.2 ⟨t, ht, rfl⟩) _ hs.same hs.does hv)
    w.st.sorted h1.1 (h1.2.2 hn) (h1.2.1 t ht hm) _ h0
  have he : runShutdownTasks w = (.ok (), w') := e
  rw [he]
  exact ⟨rfl, h.count⟩

theorem live_none {l : List Run} : live (fun _ => true) l = 0 ↔ ∀ r ∈ l, r.alive = false := by
  unfold live
  rw [List.countP_eq_zero]
  simp

theorem settled_due {t : TaskSt} (hc : t.noCond = true) (hd : t.disabled = false) (hx : t.execution ≠ .process)
    (hi : ∀ r ∈ t.stack, r.alive = false) : Settled t (fun u => u.noCond = true ∧ u.disabled = false ∧ u.execution ≠ .process ∧
      live (fun _ => true) u.stack = 0) 1 where
  lasting := fun u u' he _ hd h => ⟨he.noCond.trans h.1, hd.trans h.2.1, by rw [he.execution]; exact h.2.2.1, by
    have := he.stack.live (fun _ => true)
    have := h.2.2.2
    omega⟩
  now := ⟨hc, hd, hx, live_none.2 hi⟩
  same := fun _ _ h => h.1.trans hc.symm
  does := fun _ _ _ _ h _ => Or.inl ⟨rfl, fun hx => absurd hx h.2.2.1, fun _ _ => live_none.1 h.2.2.2, Or.inr ⟨h.2.1, Or.inl h.1⟩⟩

theorem settled_off {t : TaskSt} (hd : t.disabled = true) (hb : t.batches = []) :
    Settled t (fun u => u.disabled = true ∧ u.batches = [] ∧ u.noCond = t.noCond) 0 where
  lasting := fun u u' he hb hd h => ⟨hd.trans h.1, hb.trans h.2.1, he.noCond.trans h.2.2⟩
  now := ⟨hd, hb, rfl⟩
  same := fun _ _ h => h.2.2
  does := fun _ u _ _ h _ => Or.inr ⟨rfl, fun hs => by
    rcases hs.due with hs | hs
    · exact hs h.2.1
    · rw [h.1] at hs; simp at hs⟩

/-- C66.  An enabled task that is started at startup, has no start condition, does not run already and needs no process,
is started exactly once by the startup of the scheduler, if nothing fails and nothing happens meanwhile but that runs
end. -/
theorem C66_startup (w : World) (henv : ∀ i, Gentle (w.env i)) (hn : (w.st.tasks.map TaskSt.name).Nodup) (t : TaskSt)
    (ht : t ∈ w.st.tasks) (hm : t.member = true) (ho : t.onStartup = true) (hc : t.noCond = true) (hd : t.disabled = false)
    (hx : t.execution ≠ .process) (hi : ∀ r ∈ t.stack, r.alive = false) :
    (startup w).1 = .ok () ∧ startsOf t.name (startup w).2.trace = startsOf t.name w.trace + 1 :=
  startup_settled (settled_due hc hd hx hi) henv hn ht hm ho

/-- C66.  The same for the shutdown. -/
theorem C66_shutdown (w : World) (henv : ∀ i, Gentle (w.env i)) (hn : (w.st.tasks.map TaskSt.name).Nodup) (t : TaskSt)
    (ht : t ∈ w.st.tasks) (hm : t.member = true) (ho : t.onShutdown = true) (hc : t.noCond = true) (hd : t.disabled = false)
    (hx : t.execution ≠ .process) (hi : ∀ r ∈ t.stack, r.alive = false) :
    (runShutdownTasks w).1 = .ok () ∧ startsOf t.name (runShutdownTasks w).2.trace = startsOf t.name w.trace + 1 :=
  shutdown_settled (settled_due hc hd hx hi) henv hn ht hm ho

/-- C66.  A disabled task without a pending manual run is not started, at startup or shutdown. -/
theorem C66_disabled (w : World) (henv : ∀ i, Gentle (w.env i)) (hn : (w.st.tasks.map TaskSt.name).Nodup) (t : TaskSt)
    (ht : t ∈ w.st.tasks) (hm : t.member = true) (hd : t.disabled = true) (hb : t.batches = []) :
    (t.onStartup = true → startsOf t.name (startup w).2.trace = startsOf t.name w.trace) ∧
    (t.onShutdown = true → startsOf t.name (runShutdownTasks w).2.trace = startsOf t.name w.trace) :=
  ⟨fun ho => (startup_settled (settled_off hd hb) henv hn ht hm ho).2,
    fun ho => (shutdown_settled (settled_off hd hb) henv hn ht hm ho).2⟩

/-- A session with four startup tasks: one without condition, one that is disabled, one with a condition, one in a process
for which there is no slot. -/
def opening : Sys := sessionOf 0 false
  [{ idleTask "plain" .main with onStartup := true, noCond := true },
   { idleTask "off" .main with onStartup := true, noCond := true, disabled := true },
   { idleTask "cond" .thread with onStartup := true },
   { idleTask "proc" .process with onStartup := true, noCond := true }]

/-- The plain task is started, the one with a condition only if that holds, the others are not. -/
example : starts (startup (World.init opening (fun _ => quiet false))).2.trace = [("plain", .startup)] ∧
    starts (startup (World.init opening (fun _ => quiet true))).2.trace = [("plain", .startup), ("cond", .startup)] := by
  decide +kernel

/-- Two startup tasks for processes, of which only one may run at a time. -/
def crowded : Sys := sessionOf 1 false
  [{ idleTask "a" .process with onStartup := true, noCond := true }, { idleTask "b" .process with onStartup := true, noCond := true }]

/-- C66, violated for tasks that run in a process.  If there is no slot for it when its turn comes, a startup task is not
started at startup; it remains requested, but as the cycles pass over startup tasks, it is not started when the slot is
free again either. -/
theorem C66_slot_violated : ∃ env : Nat → Choice, (∀ i, Gentle (env i)) ∧
    let w := (serve 6 (World.init crowded env)).2
    startsOf "b" w.trace = 0 ∧ 3 ≤ w.st.nCycles ∧ (∀ t ∈ w.st.tasks, ∀ r ∈ t.stack, r.alive = false) ∧
      ∃ t ∈ w.st.tasks, t.name = "b" ∧ t.batches = [[]] := by
  refine ⟨envOf (List.replicate 3 (quiet false) ++ [⟨[.ends "a" 0 false], some false, none, 0⟩]), fun i => ?_, by decide +kernel⟩
  have : ∀ (l : List Choice), (∀ c ∈ l, Gentle c) → Gentle (envOf l i) := by
    intro l hl
    unfold envOf
    rw [List.getD_eq_getElem?_getD]
    rcases h : l[i]? with _ | c
    · exact ⟨rfl, by simp [quiet], by simp [quiet]⟩
    · exact hl c (List.mem_of_getElem? h)
  apply this
  intro c hc
  rcases List.mem_append.1 hc with hc | hc
  · rw [(List.mem_replicate.1 hc).2]; exact ⟨rfl, by simp [quiet], by simp [quiet]⟩
  · rw [List.mem_singleton.1 hc]
    exact ⟨rfl, by simp, fun e he => by rw [List.mem_singleton.1 he]; trivial⟩

/-- The case meets the hypotheses. -/
example : let w := World.init opening (fun _ => quiet false)
    let t := { idleTask "plain" .main with onStartup := true, noCond := true }
    (∀ i, Gentle (w.env i)) ∧ (w.st.tasks.map TaskSt.name).Nodup ∧ t ∈ w.st.tasks ∧ t.member = true ∧ t.onStartup = true ∧
      t.noCond = true ∧ t.disabled = false ∧ t.execution ≠ .process ∧ (∀ r ∈ t.stack, r.alive = false) ∧
      SpecialDue w.st t (some false) := by
  refine ⟨fun _ => ⟨rfl, by simp [World.init, quiet], by simp [World.init, quiet]⟩, by decide, by decide, rfl, rfl, rfl, rfl,
    by decide, by decide, ⟨fun h => absurd h (by decide), fun _ _ => by decide, Or.inr ⟨rfl, Or.inl rfl⟩⟩⟩

end Rocketry.Props
