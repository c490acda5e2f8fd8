import Verif.Sched.Hoare

/-!
# Invariants of all states of an execution
-/

namespace Rocketry.Sched

/-- No `main` run is in a run stack (outside of `start_async`). -/
def NoMain (s : Sys) : Prop := ∀ t ∈ s.tasks, ∀ r ∈ t.stack, r.kind ≠ .main

/-- The same for all tasks but one. -/
def NoMainBut (name : String) (s : Sys) : Prop := ∀ t ∈ s.tasks, t.name ≠ name → ∀ r ∈ t.stack, r.kind ≠ .main

theorem mem_upd {s : Sys} {n : String} {f : TaskSt → TaskSt} {t : TaskSt} (h : t ∈ (s.upd n f).tasks) :
    (t ∈ s.tasks ∧ t.name ≠ n) ∨ ∃ u ∈ s.tasks, u.name = n ∧ t = f u := by
  unfold Sys.upd at h
  obtain ⟨u, hu, rfl⟩ := List.mem_map.1 h
  by_cases hn : u.name = n
  · exact Or.inr ⟨u, hu, hn, by rw [if_pos hn]⟩
  · rw [if_neg hn]; exact Or.inl ⟨hu, hn⟩

theorem mem_endRun {id : Nat} {exc : Bool} {l : List Run} {r : Run} (h : r ∈ endRun id exc l) :
    r ∈ l ∨ ∃ x ∈ l, x.kind ≠ .main ∧ r = x.ended exc := by
  unfold endRun at h
  obtain ⟨x, hx, rfl⟩ := List.mem_map.1 h
  split
  · rename_i hc; exact Or.inr ⟨x, hx, hc.2, rfl⟩
  · exact Or.inl hx

theorem find_mem {s : Sys} {n : String} {t : TaskSt} (h : s.find n = some t) : t ∈ s.tasks ∧ t.name = n := by
  unfold Sys.find at h
  exact ⟨List.mem_of_find?_eq_some h, by simpa using List.find?_some h⟩

/-- A property of all runs in the stacks of the tasks `q`. -/
def StackAll (q : TaskSt → Prop) (p : Run → Prop) (s : Sys) : Prop := ∀ t ∈ s.tasks, q t → ∀ r ∈ t.stack, p r

theorem stackAll_upd {q : TaskSt → Prop} {p : Run → Prop} {s : Sys} {n : String} {f : TaskSt → TaskSt}
    (h : StackAll q p s) (hf : ∀ t ∈ s.tasks, t.name = n → q (f t) → q t ∧ ∀ r ∈ (f t).stack, r ∈ t.stack ∨ p r) :
    StackAll q p (s.upd n f) := by
  intro t ht hq r hr
  rcases mem_upd ht with ⟨ht, _⟩ | ⟨u, hu, hn, rfl⟩
  · exact h t ht hq r hr
  · obtain ⟨hqu, hu'⟩ := hf u hu hn hq
    rcases hu' r hr with hr | hr
    · exact h u hu hqu r hr
    · exact hr

/-- Tasks are chosen by their name, runs by their kind. -/
theorem stackAll_event {q : TaskSt → Prop} {p : Run → Prop} (hq : ∀ t u : TaskSt, q t → t.name = u.name → q u)
    (hp : ∀ r x : Run, r.kind = x.kind → p r → p x) {s : Sys} (h : StackAll q p s) (e : EnvEv) :
    StackAll q p (s.event e) := by
  cases e with
  | ends n id exc =>
    intro t ht hqt r hr
    rcases mem_upd ht with ⟨ht, _⟩ | ⟨u, hu, hn, rfl⟩
    · exact h t ht hqt r hr
    · rcases mem_endRun hr with hr | ⟨x, hx, _, rfl⟩
      · exact h u hu (hq _ u hqt rfl) r hr
      · exact hp x _ rfl (h u hu (hq _ u hqt rfl) x hx)
  | request n b => exact stackAll_upd h (fun t _ _ ht => ⟨hq _ t ht rfl, fun r hr => Or.inl hr⟩)
  | terminate n => exact stackAll_upd h (fun t _ _ ht => ⟨hq _ t ht rfl, fun r hr => Or.inl hr⟩)
  | disable n b => exact stackAll_upd h (fun t _ _ ht => ⟨hq _ t ht rfl, fun r hr => Or.inl hr⟩)
  | hold b => exact h
  | shutDown f => exact h
  | restart => exact h
  | add t =>
    simp only [Sys.event]
    split
    · exact h
    · intro u hu hqu r hr
      rcases List.mem_cons.1 hu with rfl | hu
      · simp at hr
      · exact h u hu hqu r hr
  | remove n => exact stackAll_upd h (fun t _ _ ht => ⟨hq _ t ht rfl, fun r hr => Or.inl hr⟩)
  | reorder l =>
    simp only [Sys.event]
    split
    · rename_i hl
      intro u hu
      exact h u ((List.isPerm_iff.1 hl).mem_iff.1 hu)
    · exact h

theorem clean_stack {cfg : Config} {t : TaskSt} {r : Run} (h : r ∈ (t.clean cfg).stack) : r ∈ t.stack := by
  unfold TaskSt.clean at h
  split at h <;> exact (List.mem_filter.1 h).1

theorem clean_name (cfg : Config) (t : TaskSt) : (t.clean cfg).name = t.name := by
  unfold TaskSt.clean; split <;> rfl

theorem stackAll_tidy {q : TaskSt → Prop} {p : Run → Prop} (hq : ∀ t u : TaskSt, q t → t.name = u.name → q u)
    (hp : ∀ r x : Run, r.kind = x.kind → p r → p x) {s s' : Sys} (h : StackAll q p s) (ht : Tidy s s') :
    StackAll q p s' := by
  cases ht with
  | clean n cfg => exact stackAll_upd h (fun t _ _ ht => ⟨hq _ t ht (clean_name cfg t), fun r hr => Or.inl (clean_stack hr)⟩)
  | finish n id exc =>
    intro t ht hqt r hr
    rcases mem_upd ht with ⟨ht, _⟩ | ⟨u, hu, hn, rfl⟩
    · exact h t ht hqt r hr
    · rcases mem_endRun hr with hr | ⟨x, hx, _, rfl⟩
      · exact h u hu (hq _ u hqt rfl) r hr
      · exact hp x _ rfl (h u hu (hq _ u hqt rfl) x hx)
  | reset n cfg => exact stackAll_upd h (fun t _ _ ht => ⟨hq _ t ht (clean_name cfg t), fun r hr => Or.inl (clean_stack hr)⟩)
  | erase n r => exact stackAll_upd h (fun t _ _ ht => ⟨hq _ t ht rfl, fun r hr => Or.inl (List.mem_of_mem_eraseP hr)⟩)
  | cycles k => exact h

theorem noMain_iff (s : Sys) : NoMain s ↔ StackAll (fun _ => True) (fun r => r.kind ≠ .main) s :=
  ⟨fun h t ht _ => h t ht, fun h t ht => h t ht trivial⟩

theorem noMain_event {s : Sys} (h : NoMain s) (e : EnvEv) : NoMain (s.event e) :=
  (noMain_iff _).2 (stackAll_event (fun _ _ h _ => h) (fun _ _ hk h => by rw [← hk]; exact h) ((noMain_iff _).1 h) e)

theorem noMain_tidy {s s' : Sys} (h : NoMain s) (ht : Tidy s s') : NoMain s' :=
  (noMain_iff _).2 (stackAll_tidy (fun _ _ h _ => h) (fun _ _ hk h => by rw [← hk]; exact h) ((noMain_iff _).1 h) ht)

theorem noMainBut_event {n : String} {s : Sys} (h : NoMainBut n s) (e : EnvEv) : NoMainBut n (s.event e) :=
  stackAll_event (q := fun t => t.name ≠ n) (p := fun r => r.kind ≠ .main) (fun _ _ h hn => by rw [← hn]; exact h)
    (fun _ _ hk h => by rw [← hk]; exact h) h e

/-- `G` holds in all states so far, and all choices of the environment are of the kind `ok`. -/
def Always (G : Sys → Prop) (ok : Choice → Prop) (w : World) : Prop :=
  (∀ s ∈ w.moments, G s) ∧ ∀ i, ok (w.env i)

variable {G : Sys → Prop} {ok : Choice → Prop}

theorem Always.now {w : World} (h : Always G ok w) : G w.st := h.1 _ (List.mem_cons_self ..)

theorem Always.next {w : World} (h : Always G ok w) {s : Sys} (hg : G s) :
    Always G ok { w with st := s, hist := w.st :: w.hist } :=
  ⟨fun x hx => by
    rcases List.mem_cons.1 hx with rfl | hx
    · exact hg
    · exact h.1 x hx, h.2⟩

theorem Always.event {w : World} (h : Always G ok w) {e : EnvEv} (hg : G (w.st.event e)) : Always G ok (w.happen e) :=
  h.next hg

/-- `s` after `_get_direct_params`. -/
def Sys.pop (s : Sys) (name : String) : Sys := s.upd name (fun t => { t with batches := t.batches.tail })

/-- `s` after the start of a run. -/
def Sys.push (s : Sys) (name : String) (kind : Exec) (time : Int) : Sys :=
  { s.upd name (fun t => { t with stack := t.stack ++ [⟨s.nextId, kind, time, true, false⟩] }) with nextId := s.nextId + 1 }

/-- `s` after a `main` run. -/
def Sys.drop (s : Sys) (name : String) (stray : Bool) : Sys := s.upd name (fun t => { t with
    stack := t.stack.filter (fun r => decide (r.kind ≠ .main)),
    strays := t.strays ++ (if stray then t.stack.filter (fun r => decide (r.kind = .main)) else []) })

/-- What is needed for `G` to hold in all states; `A name`: what the inspection of a task establishes and what its
start relies on. -/
structure Launches (G : Sys → Prop) (ok : Choice → Prop) (A : String → Sys → Prop) : Prop where
  request : ∀ n s, G s → G (s.event (.request n []))
  event : ∀ s c e, ok c → e ∈ c.events → G s → G (s.event e)
  eventA : ∀ n s c e, ok c → e ∈ c.events → G s → A n s → A n (s.event e)
  tidy : ∀ s s', Tidy s s' → G s → G s'
  flags : ∀ s : Sys, G s → G { s with shutdown := false, restart := false, enabled := true }
  check : ∀ n s t, G s → NoMain s → s.find n = some t → ¬ (t.execution = .process ∧ s.hasFree = false) →
    ¬ (t.execution ≠ .main ∧ t.allowMulti s.cfg = false ∧ t.isAlive = true) → A n s
  pop : ∀ n s, G s → G (s.pop n)
  popA : ∀ n s, G s → A n s → A n (s.pop n)
  push : ∀ n s time t, G s → NoMain s → A n s → t ∈ s.tasks → t.name = n → G (s.push n t.execution time)
  drop : ∀ n s, G s → G (s.drop n false)
  stray : ∀ n s c, ok c → c.fault = some .logging → G s → G (s.drop n true)

/-- The invariant. -/
def Inv (G : Sys → Prop) (ok : Choice → Prop) (w : World) : Prop := Always G ok w ∧ NoMain w.st

theorem steady_inv {A : String → Sys → Prop} (h : Launches G ok A) : Steady (Inv G ok) where
  pos := fun _ _ hw => hw
  env := fun w i e hw he => ⟨hw.1.event (h.event _ _ e (hw.1.2 i) he hw.1.now), noMain_event hw.2 e⟩
  request := fun w n _ hw => ⟨hw.1.event (h.request n _ hw.1.now), noMain_event hw.2 _⟩
  note := fun _ _ _ hw => hw
  move := fun w s ht hw => ⟨hw.1.next (h.tidy _ _ ht hw.1.now), noMain_tidy hw.2 ht⟩
  mark := fun _ _ _ hw => hw
  flags := fun w hw => ⟨hw.1.next (h.flags _ hw.1.now), hw.2⟩

theorem pop_same (s : Sys) (n : String) : ∀ t ∈ (s.pop n).tasks, ∃ u ∈ s.tasks, u.name = t.name ∧
    u.execution = t.execution ∧ u.stack = t.stack := by
  intro t ht
  rcases mem_upd ht with ⟨ht, _⟩ | ⟨u, hu, _, rfl⟩
  · exact ⟨t, ht, rfl, rfl, rfl⟩
  · exact ⟨u, hu, rfl, rfl, rfl⟩

theorem choose_inv {A : String → Sys → Prop} (h : Launches G ok A) (P : Sys → Prop)
    (hP : ∀ s c e, ok c → e ∈ c.events → G s → P s → P (s.event e)) (w : World) (hw : Always G ok w) (hp : P w.st) :
    Always G ok (choose w).2 ∧ P (choose w).2.st := by
  have key : ∀ (l : List EnvEv), (∀ e ∈ l, e ∈ (w.env w.pos).events) → ∀ v : World, Always G ok v → P v.st →
      Always G ok (l.foldl World.happen v) ∧ P (l.foldl World.happen v).st := by
    intro l
    induction l with
    | nil => exact fun _ v h1 h2 => ⟨h1, h2⟩
    | cons e l ih =>
      intro hl v h1 h2
      have he := hl e (List.mem_cons_self ..)
      exact ih (fun e he => hl e (List.mem_cons_of_mem _ he)) _ (h1.event (h.event _ _ e (hw.2 w.pos) he h1.now))
        (hP _ _ e (hw.2 w.pos) he h1.now h2)
  exact key _ (fun e he => he) { w with pos := w.pos + 1 } hw hp

theorem isRunnable_inv {A : String → Sys → Prop} (h : Launches G ok A) (P : Sys → Prop)
    (hP : ∀ s c e, ok c → e ∈ c.events → G s → P s → P (s.event e)) (t : TaskSt) (w : World) (hw : Always G ok w) (hp : P w.st) :
    Always G ok (checkTaskCond t w).2 ∧ P (checkTaskCond t w).2.st := by
  have hr : Always G ok (isRunnable t w).2 ∧ P (isRunnable t w).2.st := by
    unfold isRunnable
    by_cases hb : t.batches ≠ []
    · rw [if_pos hb]; exact ⟨hw, hp⟩
    · rw [if_neg hb]
      by_cases hd : t.disabled = true
      · rw [if_pos hd]; exact ⟨hw, hp⟩
      · rw [if_neg hd]
        have := choose_inv h P hP w hw hp
        rw [bind_apply]
        simp only [choose] at this ⊢
        rcases (w.env w.pos).cond with _ | b <;> exact this
  unfold checkTaskCond tryCatch
  rcases hm : isRunnable t w with ⟨r, w'⟩
  rw [hm] at hr
  cases r with
  | ok a => exact hr
  | cut => exact hr
  | raise e =>
    simp only [get_bind_apply]
    by_cases hc : w'.st.cfg.silenceCond = true
    · rw [if_pos hc]; exact hr
    · rw [if_neg hc]; exact hr

theorem mainEnd_apply (f : Option Fault) (w : World) : (mainEnd f w).2 = w := by
  unfold mainEnd
  split <;> rfl

theorem runOn_inv {A : String → Sys → Prop} (h : Launches G ok A) (name : String) (id : Nat) (kind : Exec)
    (c : Choice) (hokc : ok c) (w : World) (hw : Always G ok w) (hb : NoMainBut name w.st)
    (hn : kind ≠ .main → NoMain w.st) : Inv G ok (runOn name id kind c.fault w).2 := by
  have hdrop : ∀ s b, NoMainBut name s → NoMain (s.drop name b) := by
    intro s b hs x hx r hr
    rcases mem_upd hx with ⟨hx, hxn⟩ | ⟨y, hy, hyn, rfl⟩
    · exact hs x hx hxn r hr
    · simpa using (List.mem_filter.1 hr).2
  unfold runOn
  cases kind with
  | main =>
    simp only
    by_cases hf : c.fault = some .logging
    · rw [if_pos hf]
      exact ⟨hw.next (h.stray name w.st c hokc hf hw.now), hdrop w.st true hb⟩
    · rw [if_neg hf, bind_apply]
      have hc := choose_inv h (NoMainBut name) (fun s _ e _ _ _ hp => noMainBut_event hp e) w hw hb
      have hok : (choose w).1 = .ok (w.env w.pos) := rfl
      rcases hcw : choose w with ⟨r, w1⟩
      rw [hcw] at hc hok
      simp only at hok
      subst hok
      show Inv G ok (mainEnd _ { w1 with
        st := w1.st.drop name false, hist := w1.st :: w1.hist, trace := w1.trace ++ [.mainEnded name id] }).2
      rw [mainEnd_apply]
      exact ⟨hc.1.next (h.drop name w1.st hc.1.now), hdrop w1.st false hc.2⟩
  | async =>
    have hn := hn (by simp)
    simp only
    by_cases hf : c.fault = some .logging
    · rw [if_pos hf]; exact ⟨hw, hn⟩
    · rw [if_neg hf]; exact ⟨hw, hn⟩
  | thread =>
    have hn := hn (by simp)
    simp only
    by_cases hf : c.fault = some .logging
    · rw [if_pos hf]
      exact ⟨hw.next (h.tidy _ _ (.finish w.st name id true) hw.now), noMain_tidy hn (.finish w.st name id true)⟩
    · rw [if_neg hf]; exact ⟨hw, hn⟩
  | process =>
    have hn := hn (by simp)
    simp only
    by_cases hf : c.fault = some .spawn
    · rw [if_pos hf]
      exact ⟨hw.next (h.tidy _ _ (.finish w.st name id false) hw.now), noMain_tidy hn (.finish w.st name id false)⟩
    · rw [if_neg hf]
      by_cases hf : c.fault = some .logging
      · rw [if_pos hf]; exact ⟨hw, hn⟩
      · rw [if_neg hf]; exact ⟨hw, hn⟩

/-- The start of a run keeps the invariant, if the inspection allowed it. -/
theorem startAsync_inv {A : String → Sys → Prop} (h : Launches G ok A) (name : String) (part : Part) (w : World)
    (hw : Inv G ok w) (ha : A name w.st) : Inv G ok (startAsync name part w).2 := by
  unfold startAsync
  rw [bind_apply]
  have hc := choose_inv h (fun s => NoMain s ∧ A name s)
    (fun s c e hc he hg hp => ⟨noMain_event hp.1 e, h.eventA name s c e hc he hg hp.2⟩) w hw.1 ⟨hw.2, ha⟩
  have hok : (choose w).1 = .ok (w.env w.pos) := rfl
  rcases hcw : choose w with ⟨r, w1⟩
  rw [hcw] at hc hok
  simp only at hok
  subst hok
  have hokc : ok (w.env w.pos) := hw.1.2 w.pos
  generalize w.env w.pos = c at hokc
  simp only [get_bind_apply]
  obtain ⟨h1, hn1, ha1⟩ := hc
  simp only at h1 hn1 ha1
  rcases hf : w1.st.find name with _ | t
  · simp only; exact ⟨h1, hn1⟩
  simp only
  by_cases hp : c.fault = some .params
  · rw [if_pos hp]; exact ⟨h1, hn1⟩
  rw [if_neg hp, bind_apply]
  obtain ⟨htm, htn⟩ := find_mem hf
  -- the batch
  have hpop : ∃ w2, popBatch t w1 = (.ok (), w2) ∧ Always G ok w2 ∧ NoMain w2.st ∧ A name w2.st ∧
      (∃ u ∈ w2.st.tasks, u.name = name ∧ u.execution = t.execution) := by
    unfold popBatch
    rcases hb : t.batches with _ | ⟨b, bs⟩
    · exact ⟨w1, rfl, h1, hn1, ha1, t, htm, htn, rfl⟩
    · refine ⟨_, rfl, ?_, ?_, ?_, ?_⟩
      · exact h1.next (h.pop t.name _ h1.now)
      · intro u hu
        obtain ⟨v, hv, _, _, hst⟩ := pop_same w1.st t.name u hu
        rw [← hst]
        exact hn1 v hv
      · rw [htn]; exact h.popA name _ h1.now ha1
      · refine ⟨{ t with batches := t.batches.tail }, List.mem_map.2 ⟨t, htm, if_pos rfl⟩, htn, rfl⟩
  obtain ⟨w2, hpw, h2, hn2, ha2, u, hu, hun, hue⟩ := hpop
  rw [hpw]
  simp only
  by_cases hse : c.fault = some .setup
  · rw [if_pos hse]; exact ⟨h2, hn2⟩
  rw [if_neg hse, bind_apply]
  -- the run
  have hpush : pushRun name t.execution c.time part w2 = (.ok w2.st.nextId,
      { w2 with st := w2.st.push name t.execution c.time, hist := w2.st :: w2.hist,
                trace := w2.trace ++ [.started name w2.st.nextId part] }) := rfl
  rw [hpush]
  simp only
  have hg3 : G (w2.st.push name t.execution c.time) := by
    rw [← hue]; exact h.push name _ _ u h2.now hn2 ha2 hu hun
  have h3 : Always G ok { w2 with st := w2.st.push name t.execution c.time, hist := w2.st :: w2.hist } := h2.next hg3
  have hnb : NoMainBut name (w2.st.push name t.execution c.time) := by
    intro x hx hxn r hr
    rcases mem_upd hx with ⟨hx, _⟩ | ⟨y, hy, hyn, rfl⟩
    · exact hn2 x hx r hr
    · exact absurd hyn hxn
  have hnm : t.execution ≠ .main → NoMain (w2.st.push name t.execution c.time) := by
    intro hk x hx r hr
    rcases mem_upd hx with ⟨hx, _⟩ | ⟨y, hy, hyn, rfl⟩
    · exact hn2 x hx r hr
    · rcases List.mem_append.1 hr with hr | hr
      · exact hn2 y hy r hr
      · rw [List.mem_singleton.1 hr]; exact hk
  exact runOn_inv h name _ _ c hokc { w2 with st := w2.st.push name t.execution c.time, hist := w2.st :: w2.hist, trace := _ } h3 hnb hnm

theorem launch_inv {A : String → Sys → Prop} (h : Launches G ok A) (name : String) (part : Part) :
    Keeps (Inv G ok) (launch name part) := by
  intro w hw
  unfold launch
  rw [bind_apply]
  have hchk : Inv G ok (isTaskRunnable name w).2 ∧
      ∀ b, (isTaskRunnable name w).1 = .ok b → b = true → A name (isTaskRunnable name w).2.st := by
    unfold isTaskRunnable
    simp only [get_bind_apply]
    rcases hf : w.st.find name with _ | t
    · exact ⟨hw, fun b hb => by simp [raise] at hb⟩
    simp only
    by_cases h1 : t.execution = .process ∧ w.st.hasFree = false
    · rw [if_pos h1]; exact ⟨hw, fun b hb hb' => by simp [pure_apply] at hb; rw [hb'] at hb; simp at hb⟩
    rw [if_neg h1]
    by_cases h2 : t.execution ≠ .main ∧ t.allowMulti w.st.cfg = false ∧ t.isAlive = true
    · rw [if_pos h2]; exact ⟨hw, fun b hb hb' => by simp [pure_apply] at hb; rw [hb'] at hb; simp at hb⟩
    rw [if_neg h2]
    have ha := h.check name w.st t hw.1.now hw.2 hf h1 h2
    have := isRunnable_inv h (fun s => NoMain s ∧ A name s)
      (fun s c e hc he hg hp => ⟨noMain_event hp.1 e, h.eventA name s c e hc he hg hp.2⟩) t w hw.1 ⟨hw.2, ha⟩
    exact ⟨⟨this.1, this.2.1⟩, fun _ _ _ => this.2.2⟩
  rcases hm : isTaskRunnable name w with ⟨r, w'⟩
  rw [hm] at hchk
  cases r with
  | cut => exact hchk.1
  | raise e => exact hchk.1
  | ok b =>
    simp only
    by_cases hb : b = true
    · rw [if_pos hb]
      have hs := startAsync_inv h name part w' hchk.1 (hchk.2 b rfl hb)
      unfold runTask tryCatch
      rcases hst : startAsync name part w' with ⟨r, w''⟩
      rw [hst] at hs
      cases r with
      | ok a => exact hs
      | cut => exact hs
      | raise e =>
        simp only [get_bind_apply]
        cases e <;> simp only <;> first | exact hs | (split <;> exact hs)
    · rw [if_neg hb]; exact hchk.1

end Rocketry.Sched
