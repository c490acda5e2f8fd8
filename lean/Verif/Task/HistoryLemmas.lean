import Verif.Task.History

/-!
# Invariants of the execution histories
-/

namespace Rocketry
open Props Spec

/-- The cached times of the task are times of its latest records. -/
structure CacheOK (w : LogWorld) (name : String) : Prop where
  last_none : ∀ a, (∀ r ∈ w.repo, ¬ OfAction name a r) → (w.mem name).last a = none
  last_some : ∀ a r, IsLatest w.repo (OfAction name a) r →
    (w.mem name).last a = some r.noted ∨ (w.mem name).last a = some r.created

/-- A record of another task (or none) is added and the task's memory keeps its times. -/
theorem cacheOK_other {w : LogWorld} {name : String} (hw : CacheOK w name) (w' : LogWorld) (new : List Record)
    (hr : w'.repo = w.repo ++ new) (hn : ∀ x ∈ new, x.task ≠ name) (hm : (w'.mem name).last = (w.mem name).last) :
    CacheOK w' name := by
  have hno : ∀ a, ∀ x ∈ new, ¬ OfAction name a x := fun a x hx h => hn x hx h.1
  constructor
  · intro a h
    rw [hm]
    exact hw.last_none a (fun r hr' => h r (by rw [hr]; simp [hr']))
  · intro a r h
    rw [hm]
    refine hw.last_some a r ?_
    rw [hr] at h
    obtain ⟨pre, post, e, h2, h3⟩ := h
    clear hm hw hn
    induction new using snoc_ind generalizing post w' with
    | nil => exact ⟨pre, post, by simpa using e, h2, h3⟩
    | snoc l x ih =>
      induction post using snoc_ind with
      | nil =>
        have := List.append_inj' (s₁ := w.repo ++ l) (s₂ := pre) (t₁ := [x]) (t₂ := [r]) (by simpa using e) rfl
        simp at this
        exact absurd (this.2 ▸ h2) (hno a x (by simp))
      | snoc q y _ =>
        have := List.append_inj' (s₁ := w.repo ++ l) (s₂ := pre ++ r :: q) (t₁ := [x]) (t₂ := [y]) (by simpa using e) rfl
        exact ih ⟨w.mem, w.repo ++ l⟩ rfl (fun a x hx => hno a x (by simp [hx])) q this.1 (fun x hx => h3 x (by simp [hx]))

/-- The times of the task read from the log are good. -/
theorem lastFromLog_ok {repo : List Record} {name : String} {a : Action} :
    ((∀ r ∈ repo, ¬ OfAction name a r) → lastActionFromLog repo name a = none) ∧
    (∀ r, IsLatest repo (OfAction name a) r → lastActionFromLog repo name a = some r.created) := by
  constructor
  · intro h
    cases hl : lastActionFromLog repo name a with
    | none => rfl
    | some t =>
      obtain ⟨r, hr, _⟩ := lastActionFromLog_some hl
      exact absurd (isLatest_mem hr).2 (h r (isLatest_mem hr).1)
  · intro r hr
    unfold lastActionFromLog
    have : latestBy repo name (isAction a) = some r := by
      rw [latestBy_spec]
      obtain ⟨pre, post, e, h2, h3⟩ := hr
      exact ⟨pre, post, e, isAction_iff.2 h2, fun x hx h => h3 x hx (isAction_iff.1 h)⟩
    rw [this]
    rfl

/-- A record of the task is added, its time is put into the cache, other times are kept or read from the log. -/
theorem cacheOK_own {w : LogWorld} {name : String} (hw : CacheOK w name) (w' : LogWorld) (x : Record)
    (hr : w'.repo = w.repo ++ [x]) (hx : x.task = name) (hm : (w'.mem name).last x.action = some x.noted)
    (hb : ∀ b, b ≠ x.action → (w'.mem name).last b = (w.mem name).last b ∨
      (w'.mem name).last b = lastActionFromLog w.repo name b) : CacheOK w' name := by
  constructor
  · intro a h
    by_cases ha : a = x.action
    · exact absurd ⟨hx, ha.symm⟩ (h x (by rw [hr]; simp))
    · have h' : ∀ r ∈ w.repo, ¬ OfAction name a r := fun r hr' => h r (by rw [hr]; simp [hr'])
      rcases hb a ha with e | e
      · rw [e]; exact hw.last_none a h'
      · rw [e]; exact lastFromLog_ok.1 h'
  · intro a r h
    rw [hr] at h
    rcases isLatest_snoc h with ⟨h1, h2⟩ | ⟨h1, h2⟩
    · subst h2
      rw [← h1.2]
      exact Or.inl hm
    · have ha : a ≠ x.action := fun e => h1 ⟨hx, e.symm⟩
      rcases hb a ha with e | e
      · rw [e]; exact hw.last_some a r h2
      · rw [e]; exact Or.inr (lastFromLog_ok.2 r h2)

/-- Nothing is logged; times are kept or read from the log. -/
theorem cacheOK_read {w : LogWorld} {name : String} (hw : CacheOK w name) (w' : LogWorld) (hr : w'.repo = w.repo)
    (hb : ∀ b, (w'.mem name).last b = (w.mem name).last b ∨
      (w'.mem name).last b = lastActionFromLog w.repo name b) : CacheOK w' name := by
  constructor
  · intro a h
    rw [hr] at h
    rcases hb a with e | e
    · rw [e]; exact hw.last_none a h
    · rw [e]; exact lastFromLog_ok.1 h
  · intro a r h
    rw [hr] at h
    rcases hb a with e | e
    · rw [e]; exact hw.last_some a r h
    · rw [e]; exact Or.inr (lastFromLog_ok.2 r h)

/-! ### The log calls -/

theorem set_repo (f : Bool) (w : LogWorld) (n : String) (a : Action) (id : Option String) (t c : Int) :
    (w.step f (.set n a id t c .ok)).repo = w.repo ++ [⟨n, a, c, t, id⟩] := by
  simp [LogWorld.step, LogWorld.put, setStatus, LogIO.writes]

theorem set_last (f : Bool) (w : LogWorld) (n : String) (a : Action) (id : Option String) (t c : Int) (b : Action) :
    ((w.step f (.set n a id t c .ok)).mem n).last b = (if b = a then some t else
      if a ≠ .run ∧ f = true ∧ b = .run then lastActionFromLog w.repo n .run else (w.mem n).last b) := by
  simp only [LogWorld.step, LogWorld.put, setStatus, if_true, TaskMem.setLast, getLastAction]
  by_cases hb : b = a
  · simp [hb]
  · simp only [hb, if_false]
    by_cases ha : a = .run
    · simp [ha]
    · cases f <;> simp [ha]

theorem set_status (f : Bool) (w : LogWorld) (n : String) (a : Action) (id : Option String) (t c : Int) :
    ((w.step f (.set n a id t c .ok)).mem n).status = some a := by
  simp [LogWorld.step, LogWorld.put, setStatus]

theorem set_other (f : Bool) (w : LogWorld) (n m : String) (a : Action) (id : Option String) (t c : Int) (h : m ≠ n) :
    (w.step f (.set n a id t c .ok)).mem m = w.mem m := by
  simp [LogWorld.step, LogWorld.put, h]

theorem set_cache (f : Bool) (w : LogWorld) (n : String) (a : Action) (id : Option String) (t c : Int) (name : String)
    (hw : CacheOK w name) : CacheOK (w.step f (.set n a id t c .ok)) name := by
  by_cases h : n = name
  · subst h
    refine cacheOK_own hw _ ⟨n, a, c, t, id⟩ (set_repo ..) rfl (by rw [set_last]; simp) ?_
    intro b hb
    rw [set_last]
    simp only [] at hb
    rw [if_neg hb]
    split
    · rename_i hh; rw [hh.2.2]; exact Or.inr rfl
    · exact Or.inl rfl
  · exact cacheOK_other hw _ _ (set_repo ..) (by simpa using h) (by rw [set_other _ _ _ _ _ _ _ _ (Ne.symm h)])

theorem received_repo (f : Bool) (w : LogWorld) (n : String) (a : Action) (id : Option String) (c : Int) :
    (w.step f (.received n a id c .ok)).repo = w.repo ++ [⟨n, a, c, c, id⟩] := by
  simp [LogWorld.step, LogWorld.put, logRecord, LogIO.writes]

theorem received_last (f : Bool) (w : LogWorld) (n : String) (a : Action) (id : Option String) (c : Int) (b : Action) :
    ((w.step f (.received n a id c .ok)).mem n).last b = (if b = a then some c else (w.mem n).last b) := by
  simp [LogWorld.step, LogWorld.put, logRecord, TaskMem.setLast]

theorem received_status (f : Bool) (w : LogWorld) (n : String) (a : Action) (id : Option String) (c : Int) :
    ((w.step f (.received n a id c .ok)).mem n).status = some a := by
  simp [LogWorld.step, LogWorld.put, logRecord]

theorem received_other (f : Bool) (w : LogWorld) (n m : String) (a : Action) (id : Option String) (c : Int) (h : m ≠ n) :
    (w.step f (.received n a id c .ok)).mem m = w.mem m := by
  simp [LogWorld.step, LogWorld.put, h]

theorem received_cache (f : Bool) (w : LogWorld) (n : String) (a : Action) (id : Option String) (c : Int) (name : String)
    (hw : CacheOK w name) : CacheOK (w.step f (.received n a id c .ok)) name := by
  by_cases h : n = name
  · subst h
    refine cacheOK_own hw _ ⟨n, a, c, c, id⟩ (received_repo ..) rfl (by rw [received_last]; simp) ?_
    intro b hb
    rw [received_last, if_neg hb]
    exact Or.inl rfl
  · exact cacheOK_other hw _ _ (received_repo ..) (by simpa using h) (by rw [received_other _ _ _ _ _ _ _ (Ne.symm h)])

/-- `set_cached` with the log as it is: one crash record or nothing. -/
theorem cached_repo (f : Bool) (w : LogWorld) (n : String) (t c : Int) :
    (w.step f (.cached n t c .ok)).repo =
      if latestAction (cachedTimes w.repo n) = some .run then w.repo ++ [⟨n, .crash, c, t, none⟩] else w.repo := by
  simp only [LogWorld.step, LogWorld.put, setCached]
  cases h : latestAction (cachedTimes w.repo n) with
  | none => simp
  | some a => cases a <;> simp [setStatus, LogIO.writes]

theorem cached_other (f : Bool) (w : LogWorld) (n m : String) (t c : Int) (h : m ≠ n) :
    (w.step f (.cached n t c .ok)).mem m = w.mem m := by
  simp [LogWorld.step, LogWorld.put, h]

theorem cached_cache_other (f : Bool) (w : LogWorld) (n : String) (t c : Int) (name : String) (h : n ≠ name)
    (hw : CacheOK w name) : CacheOK (w.step f (.cached n t c .ok)) name := by
  have hr := cached_repo f w n t c
  have hm : ((w.step f (.cached n t c .ok)).mem name).last = (w.mem name).last := by
    rw [cached_other _ _ _ _ _ _ (Ne.symm h)]
  split at hr
  · exact cacheOK_other hw _ _ hr (by simpa using h) hm
  · exact cacheOK_other hw _ [] (by simpa using hr) (by simp) hm

/-- Whatever was in the cache, `set_cached` puts the log's times there. -/
theorem cached_cache (f : Bool) (w : LogWorld) (n : String) (t c : Int) :
    CacheOK (w.step f (.cached n t c .ok)) n := by
  have h0 : CacheOK ⟨fun _ => { w.mem n with last := lastActionFromLog w.repo n }, w.repo⟩ n :=
    ⟨fun a h => lastFromLog_ok.1 h, fun a r h => Or.inr (lastFromLog_ok.2 r h)⟩
  cases h : latestAction (cachedTimes w.repo n) with
  | none =>
    refine cacheOK_read h0 _ ?_ ?_
    · rw [cached_repo, h]; simp
    · intro b; left; simp [LogWorld.step, LogWorld.put, setCached, h]
  | some a =>
    by_cases ha : a = .run
    · subst ha
      refine cacheOK_own h0 _ ⟨n, .crash, c, t, none⟩ ?_ rfl ?_ ?_
      · rw [cached_repo, h]; simp
      · simp [LogWorld.step, LogWorld.put, setCached, h, setStatus, TaskMem.setLast]
      · intro b hb
        simp only [] at hb
        left
        cases f
        · simp [LogWorld.step, LogWorld.put, setCached, h, setStatus, TaskMem.setLast, getLastAction, hb]
        · simp only [LogWorld.step, LogWorld.put, setCached, h, setStatus, TaskMem.setLast, getLastAction]
          by_cases hr : b = .run <;> simp [hr, hb]
    · refine cacheOK_read h0 _ ?_ ?_
      · rw [cached_repo, h]; simp [ha]
      · intro b; left
        cases a <;> simp [LogWorld.step, LogWorld.put, setCached, h] at ha ⊢

/-- Reading calls. -/
def IsRead (op : LogOp) : Prop := (∃ name, op = .status name) ∨ (∃ name a, op = .lastAction name a)

theorem read_repo (f : Bool) (w : LogWorld) (op : LogOp) (h : IsRead op) : (w.step f op).repo = w.repo := by
  rcases h with ⟨n, rfl⟩ | ⟨n, a, rfl⟩ <;> rfl

theorem read_last (f : Bool) (w : LogWorld) (op : LogOp) (h : IsRead op) (name : String) (b : Action) :
    ((w.step f op).mem name).last b = (w.mem name).last b ∨
    ((w.step f op).mem name).last b = lastActionFromLog w.repo name b := by
  rcases h with ⟨n, rfl⟩ | ⟨n, a, rfl⟩
  · left
    simp only [LogWorld.step, LogWorld.put, getStatus]
    by_cases hn : name = n
    · subst hn
      cases f
      · simp
      · cases latestBy w.repo name (fun _ => true) <;> simp
    · simp [hn]
  · simp only [LogWorld.step, LogWorld.put, getLastAction]
    by_cases hn : name = n
    · subst hn
      cases f
      · simp
      · by_cases hb : b = a <;> simp [TaskMem.setLast, hb]
    · simp [hn]

theorem read_cache (f : Bool) (w : LogWorld) (op : LogOp) (h : IsRead op) (name : String) (hw : CacheOK w name) :
    CacheOK (w.step f op) name :=
  cacheOK_read hw _ (read_repo f w op h) (fun b => read_last f w op h name b)

/-! ### The invariant -/

/-- Everything logged or waiting. -/
def HState.all (h : HState) : List Record := h.log.repo ++ h.queue

/-- What holds in every history for a task that is not a process task, or when the queue is drained before checks. -/
structure HInv (S : Setup) (name : String) (h : HState) : Prop where
  cache : h.cold name = false → CacheOK h.log name
  times : ∀ r ∈ h.all, r.noted ≤ r.created ∧ r.created ≤ h.clock
  ordered : h.all.Pairwise (fun r s => r.task = name → s.task = name → r.created ≤ s.noted)
  queued : ∀ r ∈ h.queue, r.noted = r.created ∧ r.action ≠ .run
  noproc : S.isProc name = false → h.NoneWaiting name
  ready : h.ready name ≠ none → h.phase name = .idle ∧ h.cold name = false ∧ h.NoneWaiting name
  cold : h.cold name = true → h.phase name = .idle ∧ h.ready name = none ∧ h.NoneWaiting name
  running : h.phase name = .running → h.NoneWaiting name

theorem upd_self {α : Type} (f : String → α) (n : String) (v : α) : upd f n v n = v := by simp [upd]
theorem upd_other {α : Type} (f : String → α) (n m : String) (v : α) (h : m ≠ n) : upd f n v m = f m := by
  simp [upd, h]

theorem upd_none {α : Type} {f : String → Option α} {n m : String} (h : upd f n none m ≠ none) : f m ≠ none ∧ upd f n none m = f m := by
  by_cases hn : m = n
  · subst hn; simp [upd_self] at h
  · rw [upd_other _ _ _ _ hn] at h ⊢; exact ⟨h, rfl⟩

/-- A record of one task is written to the log while others wait in the queue. -/
theorem ordered_write {h : HState} {name : String} (ho : h.all.Pairwise (fun r s => r.task = name → s.task = name → r.created ≤ s.noted))
    (ht : ∀ r ∈ h.all, r.noted ≤ r.created ∧ r.created ≤ h.clock) (x : Record)
    (hx : x.task = name → h.NoneWaiting name) (hc : h.clock ≤ x.noted) :
    (h.log.repo ++ [x] ++ h.queue).Pairwise (fun r s => r.task = name → s.task = name → r.created ≤ s.noted) := by
  unfold HState.all at ho ht
  rw [List.pairwise_append] at ho ⊢
  obtain ⟨h1, h2, h3⟩ := ho
  refine ⟨?_, h2, ?_⟩
  · rw [List.pairwise_append]
    refine ⟨h1, List.pairwise_singleton _ _, ?_⟩
    intro r hr s hs hrn hsn
    rw [List.mem_singleton.1 hs]
    have := (ht r (by simp [hr])).2
    omega
  · intro r hr s hs hrn hsn
    rcases List.mem_append.1 hr with hr | hr
    · exact h3 r hr s hs hrn hsn
    · rw [List.mem_singleton.1 hr] at hrn
      exact absurd hsn (hx hrn s hs)

theorem times_write {h : HState} (ht : ∀ r ∈ h.all, r.noted ≤ r.created ∧ r.created ≤ h.clock) (x : Record) (c : Int)
    (hx : x.noted ≤ x.created ∧ x.created ≤ c) (hc : h.clock ≤ c) :
    ∀ r ∈ h.log.repo ++ [x] ++ h.queue, r.noted ≤ r.created ∧ r.created ≤ c := by
  intro r hr
  simp only [List.append_assoc, List.singleton_append, List.mem_append, List.mem_cons] at hr
  rcases hr with hr | rfl | hr
  · have := ht r (by simp [HState.all, hr]); omega
  · exact hx
  · have := ht r (by simp [HState.all, hr]); omega

theorem times_put {h : HState} (ht : ∀ r ∈ h.all, r.noted ≤ r.created ∧ r.created ≤ h.clock) (x : Record) (c : Int)
    (hx : x.noted ≤ x.created ∧ x.created ≤ c) (hc : h.clock ≤ c) :
    ∀ r ∈ h.log.repo ++ (h.queue ++ [x]), r.noted ≤ r.created ∧ r.created ≤ c := by
  intro r hr
  simp only [List.mem_append, List.mem_singleton] at hr
  rcases hr with hr | hr | rfl
  · have := ht r (by simp [HState.all, hr]); omega
  · have := ht r (by simp [HState.all, hr]); omega
  · exact hx

theorem ordered_put {h : HState} {name : String} (ho : h.all.Pairwise (fun r s => r.task = name → s.task = name → r.created ≤ s.noted))
    (ht : ∀ r ∈ h.all, r.noted ≤ r.created ∧ r.created ≤ h.clock) (x : Record) (hc : h.clock ≤ x.noted) :
    (h.log.repo ++ (h.queue ++ [x])).Pairwise (fun r s => r.task = name → s.task = name → r.created ≤ s.noted) := by
  rw [← List.append_assoc]
  rw [List.pairwise_append]
  refine ⟨ho, List.pairwise_singleton _ _, ?_⟩
  intro r hr s hs _ _
  rw [List.mem_singleton.1 hs]
  have := (ht r hr).2
  omega

theorem hinv_step (S : Setup) (name : String) (hp : S.isProc name = false ∨ S.drained = true) {h h' : HState} {e : Ev}
    (hs : HStep S h e h') (hi : HInv S name h) : HInv S name h' := by
  obtain ⟨i1, i2, i3, i4, i5, i6, i7, i8⟩ := hi
  have quiet : (S.drained = true → h.NoneWaiting name) → h.NoneWaiting name := by
    intro hd
    rcases hp with hp | hp
    · exact i5 hp
    · exact hd hp
  cases hs with
  | tick c hc =>
    exact ⟨i1, fun r hr => ⟨(i2 r hr).1, by have := (i2 r hr).2; simp only []; omega⟩, i3, i4, i5, i6, i7, i8⟩
  | check n reason first last h1 h2 h3 h4 h5 h6 =>
    refine ⟨i1, fun r hr => ⟨(i2 r hr).1, by have := (i2 r hr).2; simp only []; omega⟩, i3, i4, i5, ?_, ?_, i8⟩
    · intro hr
      by_cases hn : name = n
      · subst hn; exact ⟨h3, h4, quiet h5⟩
      · simp only [upd_other _ _ _ _ hn] at hr; exact i6 hr
    · intro hc
      by_cases hn : name = n
      · subst hn; exact absurd hc (by simp [h4])
      · simp only [upd_other _ _ _ _ hn]; exact i7 hc
  | begin n reason id noted created h1 h2 h3 =>
    have hready : n = name → h.cold name = false ∧ h.NoneWaiting name := by
      intro e; subst e; exact (i6 (by rw [h1]; simp)).2
    refine ⟨fun hc => set_cache _ _ _ _ _ _ _ _ (i1 hc), ?_, ?_, i4, i5, ?_, ?_, ?_⟩
    · simp only [HState.all, HState.write, set_repo]
      exact times_write i2 _ _ ⟨h3, Int.le_refl _⟩ (by omega)
    · simp only [HState.all, HState.write, set_repo]
      exact ordered_write i3 i2 _ (fun e => (hready e).2) h2
    · intro hr
      by_cases hn : name = n
      · subst hn; simp [upd_self] at hr
      · simp only [upd_other _ _ _ _ hn] at hr ⊢; exact i6 hr
    · intro hc
      by_cases hn : name = n
      · exact absurd hc (by simp [(hready hn.symm).1])
      · simp only [upd_other _ _ _ _ hn]; exact i7 hc
    · intro hr
      by_cases hn : name = n
      · exact (hready hn.symm).2
      · simp only [upd_other _ _ _ _ hn] at hr; exact i8 hr
  | outcome n a id noted created h1 h3 h4 h5 =>
    have hcold : n = name → h.cold name = false := by
      intro e; subst e
      cases hc : h.cold n with
      | false => rfl
      | true => have := (i7 hc).1; rw [h1] at this; exact absurd this (by simp)
    refine ⟨fun hc => set_cache _ _ _ _ _ _ _ _ (i1 hc), ?_, ?_, i4, i5, ?_, ?_, ?_⟩
    · simp only [HState.all, HState.write, set_repo]
      exact times_write i2 _ _ ⟨h5, Int.le_refl _⟩ (by omega)
    · simp only [HState.all, HState.write, set_repo]
      exact ordered_write i3 i2 _ (fun e => by simp only [] at e; subst e; exact i8 h1) h4
    · intro hr
      by_cases hn : name = n
      · subst hn; have := (i6 hr).1; rw [h1] at this; exact absurd this (by simp)
      · simp only [upd_other _ _ _ _ hn]; exact i6 hr
    · intro hc
      by_cases hn : name = n
      · exact absurd hc (by simp [hcold hn.symm])
      · simp only [upd_other _ _ _ _ hn]; exact i7 hc
    · intro hr
      by_cases hn : name = n
      · subst hn; simp [upd_self] at hr
      · simp only [upd_other _ _ _ _ hn] at hr; exact i8 hr
  | more n a id noted created h1 h2 h3 h3' h4 h5 =>
    refine ⟨fun hc => set_cache _ _ _ _ _ _ _ _ (i1 hc), ?_, ?_, i4, i5, i6, i7, i8⟩
    · simp only [HState.all, HState.write, set_repo]
      exact times_write i2 _ _ ⟨h5, Int.le_refl _⟩ (by omega)
    · simp only [HState.all, HState.write, set_repo]
      exact ordered_write i3 i2 _ (fun e => by simp only [] at e; subst e; exact i5 h2) h4
  | put n a id created h1 h2 h3 h4 =>
    have hq : ∀ m, m ≠ n → h.NoneWaiting m → ∀ r ∈ h.queue ++ [⟨n, a, created, created, id⟩], r.task ≠ m := by
      intro m hm hw r hr
      rcases List.mem_append.1 hr with hr | hr
      · exact hw r hr
      · rw [List.mem_singleton.1 hr]; exact Ne.symm hm
    refine ⟨i1, ?_, ?_, ?_, ?_, ?_, ?_, ?_⟩
    · simp only [HState.all]
      exact times_put i2 _ _ ⟨Int.le_refl _, Int.le_refl _⟩ h4
    · simp only [HState.all]
      exact ordered_put i3 i2 _ h4
    · intro r hr
      rcases List.mem_append.1 hr with hr | hr
      · exact i4 r hr
      · rw [List.mem_singleton.1 hr]; exact ⟨rfl, h3⟩
    · intro hnp
      exact hq name (by intro e; subst e; rw [h2] at hnp; exact absurd hnp (by simp)) (i5 hnp)
    · intro hr
      by_cases hn : name = n
      · subst hn; have := (i6 hr).1; rw [h1] at this; exact absurd this (by simp)
      · simp only [upd_other _ _ _ _ hn]
        obtain ⟨k1, k2, k3⟩ := i6 hr
        exact ⟨k1, k2, hq name hn k3⟩
    · intro hc
      by_cases hn : name = n
      · subst hn; have := (i7 hc).1; rw [h1] at this; exact absurd this (by simp)
      · simp only [upd_other _ _ _ _ hn]
        obtain ⟨k1, k2, k3⟩ := i7 hc
        exact ⟨k1, k2, hq name hn k3⟩
    · intro hr
      by_cases hn : name = n
      · subst hn; simp [upd_self] at hr
      · simp only [upd_other _ _ _ _ hn] at hr; exact hq name hn (i8 hr)
  | putMore n a id created h1 h2 h3 h3' h4 =>
    have hq : ∀ m, m ≠ n → h.NoneWaiting m → ∀ r ∈ h.queue ++ [⟨n, a, created, created, id⟩], r.task ≠ m := by
      intro m hm hw r hr
      rcases List.mem_append.1 hr with hr | hr
      · exact hw r hr
      · rw [List.mem_singleton.1 hr]; exact Ne.symm hm
    refine ⟨i1, ?_, ?_, ?_, ?_, ?_, ?_, ?_⟩
    · simp only [HState.all]
      exact times_put i2 _ _ ⟨Int.le_refl _, Int.le_refl _⟩ h4
    · simp only [HState.all]
      exact ordered_put i3 i2 _ h4
    · intro r hr
      rcases List.mem_append.1 hr with hr | hr
      · exact i4 r hr
      · rw [List.mem_singleton.1 hr]; exact ⟨rfl, h3⟩
    · intro hnp
      exact hq name (by intro e; subst e; rw [h2] at hnp; exact absurd hnp (by simp)) (i5 hnp)
    · intro hr
      by_cases hn : name = n
      · subst hn; have := (i6 hr).1; rw [h1] at this; exact absurd this (by simp)
      · obtain ⟨k1, k2, k3⟩ := i6 hr
        exact ⟨k1, k2, hq name hn k3⟩
    · intro hc
      by_cases hn : name = n
      · subst hn; have := (i7 hc).1; rw [h1] at this; exact absurd this (by simp)
      · obtain ⟨k1, k2, k3⟩ := i7 hc
        exact ⟨k1, k2, hq name hn k3⟩
    · intro hr
      by_cases hn : name = n
      · subst hn; simp only [] at hr; rw [h1] at hr; exact absurd hr (by simp)
      · exact hq name hn (i8 hr)
  | drain r q h1 =>
    have hall : ∀ m, h.NoneWaiting m → ∀ x ∈ q, x.task ≠ m := fun m hw x hx => hw x (by rw [h1]; simp [hx])
    have hr := i4 r (by rw [h1]; simp)
    have e : (⟨r.task, r.action, r.created, r.created, r.runId⟩ : Record) = r := by
      obtain ⟨a, b, c, d, f⟩ := r
      simp only [] at hr
      rw [hr.1]
    have e2 : h.log.repo ++ [⟨r.task, r.action, r.created, r.created, r.runId⟩] ++ q = h.all := by
      rw [e]; simp [HState.all, h1]
    refine ⟨fun hc => received_cache S.fromLogs _ _ _ _ _ _ (i1 hc), ?_, ?_, ?_, ?_, ?_, ?_, ?_⟩
    · simp only [HState.all, received_repo]
      rw [e2]; exact i2
    · simp only [HState.all, received_repo]
      rw [e2]; exact i3
    · intro x hx; exact i4 x (by rw [h1]; exact List.mem_cons_of_mem _ hx)
    · intro hnp; exact hall name (i5 hnp)
    · intro hr'; obtain ⟨k1, k2, k3⟩ := i6 hr'; exact ⟨k1, k2, hall name k3⟩
    · intro hr'; obtain ⟨k1, k2, k3⟩ := i7 hr'; exact ⟨k1, k2, hall name k3⟩
    · intro hr'; exact hall name (i8 hr')
  | die n h1 =>
    refine ⟨i1, i2, i3, i4, i5, ?_, ?_, ?_⟩
    · intro hr
      by_cases hn : name = n
      · subst hn; exact absurd (i6 hr).1 h1
      · simp only [upd_other _ _ _ _ hn]; exact i6 hr
    · intro hc
      by_cases hn : name = n
      · subst hn; exact absurd (i7 hc).1 h1
      · simp only [upd_other _ _ _ _ hn]; exact i7 hc
    · intro hr
      by_cases hn : name = n
      · subst hn; simp [upd_self] at hr
      · simp only [upd_other _ _ _ _ hn] at hr; exact i8 hr
  | kill n a id noted created h1 h2 h3 h4 =>
    refine ⟨fun hc => set_cache _ _ _ _ _ _ _ _ (i1 hc), ?_, ?_, i4, i5, ?_, ?_, ?_⟩
    · simp only [HState.all, HState.write, set_repo]
      exact times_write i2 _ _ ⟨h4, Int.le_refl _⟩ (by omega)
    · simp only [HState.all, HState.write, set_repo]
      exact ordered_write i3 i2 _ (fun e => by simp only [] at e; subst e; exact quiet h2) h3
    · intro hr
      by_cases hn : name = n
      · subst hn; simp [upd_self] at hr
      · simp only [upd_other _ _ _ _ hn] at hr ⊢; exact i6 hr
    · intro hc
      by_cases hn : name = n
      · subst hn; simp only [upd_self]; exact ⟨trivial, trivial, (i7 hc).2.2⟩
      · simp only [upd_other _ _ _ _ hn]; exact i7 hc
    · intro hr
      by_cases hn : name = n
      · subst hn; simp [upd_self] at hr
      · simp only [upd_other _ _ _ _ hn] at hr; exact i8 hr
  | reboot c hc =>
    refine ⟨fun hc => by simp at hc, ?_, ?_, by simp, ?_, by simp, ?_, by simp⟩
    · intro r hr
      simp only [HState.all, List.append_nil] at hr
      have := i2 r (by simp [HState.all, hr])
      simp only []
      omega
    · simp only [HState.all, List.append_nil]
      exact (List.pairwise_append.1 i3).1
    · intro _; simp [HState.NoneWaiting]
    · intro _; simp [HState.NoneWaiting]
  | recover n noted created h1 h2 h3 =>
    refine ⟨?_, ?_, ?_, i4, i5, ?_, ?_, i8⟩
    · intro hc
      by_cases hn : name = n
      · subst hn; exact cached_cache ..
      · simp only [upd_other _ _ _ _ hn] at hc
        exact cached_cache_other _ _ _ _ _ _ (Ne.symm hn) (i1 hc)
    · simp only [HState.all, cached_repo]
      split
      · exact times_write i2 _ _ ⟨h3, Int.le_refl _⟩ (by omega)
      · intro r hr
        have := i2 r hr
        omega
    · simp only [HState.all, cached_repo]
      split
      · exact ordered_write i3 i2 _ (fun e => by simp only [] at e; subst e; exact quiet h1) h2
      · exact i3
    · intro hr
      obtain ⟨k0, k4⟩ := upd_none hr
      obtain ⟨k1, k2, k3⟩ := i6 k0
      refine ⟨k1, ?_, k3⟩
      by_cases hn : name = n
      · subst hn; simp [upd_self]
      · simp only [upd_other _ _ _ _ hn]; exact k2
    · intro hc
      by_cases hn : name = n
      · subst hn; simp [upd_self] at hc
      · simp only [upd_other _ _ _ _ hn] at hc ⊢; exact i7 hc
  | look op h1 =>
    refine ⟨fun hc => read_cache _ _ _ h1 _ (i1 hc), ?_, ?_, i4, i5, i6, i7, i8⟩
    · simp only [HState.all, read_repo _ _ _ h1]; exact i2
    · simp only [HState.all, read_repo _ _ _ h1]; exact i3

theorem hinv (S : Setup) (name : String) (hp : S.isProc name = false ∨ S.drained = true) {es : List Ev} {h : HState}
    (hh : Hist S es h) : HInv S name h := by
  induction hh with
  | init c =>
    constructor
    · intro _
      exact ⟨fun a _ => rfl, fun a r hr => by have := (isLatest_mem hr).1; simp [HState.init, LogWorld.fresh] at this⟩
    all_goals simp [HState.init, HState.all, LogWorld.fresh, HState.NoneWaiting]
  | step _ hs ih => exact hinv_step S name hp hs ih

end Rocketry
