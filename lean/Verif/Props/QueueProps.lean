import Verif.Spec.QueueSpec

/-!
# C45: records and return values of process tasks
-/

namespace Rocketry.Props
open Rocketry Rocketry.Queue Rocketry.Spec

variable {taskOf : Nat → String}

/-- `I` holds throughout, if it survives events and the handling of a record. -/
structure Stays (taskOf : Nat → String) (I : St → Prop) : Prop where
  happen : ∀ s e, I s → I (s.happen taskOf e)
  take : ∀ s m q, I s → s.queue = m :: q → m.task ∉ s.tasks → I { s with queue := q }
  handle : ∀ s m q ok, I s → s.queue = m :: q → m.task ∈ s.tasks →
    I ((if m.action = .success then ({ s with queue := q } : St).handleReturn m.task m.ret else { s with queue := q }).logRecord
      m.task m .scheduler ok)
  lock : ∀ s m q ok, I s → s.queue = m :: q → m.task ∈ s.tasks → I (({ s with queue := q } : St).logRecord m.task m .lock ok)

theorem foldl_stays {I : St → Prop} (h : Stays taskOf I) (l : List Env) (s : St) (hs : I s) : I (l.foldl (St.happen taskOf) s) := by
  induction l generalizing s with
  | nil => exact hs
  | cons e l ih => exact ih _ (h.happen s e hs)

theorem handleLogs_stays {I : St → Prop} (h : Stays taskOf I) : ∀ (l : List Round) (s : St), I s → I (handleLogs taskOf l s).2
  | [], s, hs => hs
  | r :: l, s, hs => by
    unfold handleLogs
    have h1 := foldl_stays h r.events s hs
    generalize r.events.foldl (St.happen taskOf) s = s1 at h1
    dsimp only
    rcases hq : s1.queue with _ | ⟨m, q⟩
    · exact h1
    dsimp only
    by_cases hm : m.task ∈ s1.tasks
    · rw [if_pos hm]
      have h2 := h.handle s1 m q (!r.fails) h1 hq hm
      generalize St.logRecord _ m.task m .scheduler (!r.fails) = s2 at h2 ⊢
      by_cases hc : (r.fails && !s2.silence) = true
      · rw [if_pos hc]; exact h2
      · rw [if_neg hc]; exact handleLogs_stays h l _ h2
    · rw [if_neg hm]
      exact h.take s1 m q h1 hq hm

theorem lock_stays {I : St → Prop} (h : Stays taskOf I) : ∀ (l : List Round) (err : Bool) (s : St), I s →
    I (lockToRunLog taskOf l err s).2
  | [], _, s, hs => hs
  | r :: l, err, s, hs => by
    unfold lockToRunLog
    have h1 := foldl_stays h r.events s hs
    generalize r.events.foldl (St.happen taskOf) s = s1 at h1
    dsimp only
    rcases hq : s1.queue with _ | ⟨m, q⟩
    · dsimp only
      split
      · exact lock_stays h l err _ h1
      · exact h1
    dsimp only
    by_cases hm : m.task ∈ s1.tasks
    · rw [if_pos hm]
      have h2 := h.lock s1 m q (!r.fails) h1 hq hm
      split
      · exact h2
      · exact lock_stays h l _ _ h2
    · rw [if_neg hm]
      exact h.take s1 m q h1 hq hm

theorem exec_stays {I : St → Prop} (h : Stays taskOf I) (l : List Step) (s : St) (hs : I s) : I (exec taskOf s l) := by
  unfold exec
  induction l generalizing s with
  | nil => exact hs
  | cons a l ih =>
    refine ih _ ?_
    cases a with
    | env e => exact h.happen s e hs
    | handle l => exact handleLogs_stays h l s hs
    | start l => exact lock_stays h l false s hs

theorem arrivals_append (a b : List Obs) : arrivals (a ++ b) = arrivals a ++ arrivals b := List.filterMap_append
theorem sentBy_append (p : Nat) (a b : List Obs) : sentBy p (a ++ b) = sentBy p a ++ sentBy p b := List.filterMap_append
theorem ofProc_append (p : Nat) (a b : List Msg) : ofProc p (a ++ b) = ofProc p a ++ ofProc p b := List.filter_append _ _

/-- What the processes have sent, what came in and what is on its way. -/
structure Sending (taskOf : Nat → String) (s : St) : Prop where
  whole : ∀ p, s.dead p = false → ofProc p (arrivals s.trace) ++ s.buffer p = sentBy p s.trace
  part : ∀ p, ofProc p (arrivals s.trace) <+: sentBy p s.trace
  over : ∀ p, s.dead p = true → s.buffer p = [] ∧ Obs.died p ∈ s.trace
  own : ∀ p, ∀ m ∈ s.buffer p, m.proc = p ∧ m.task = taskOf p
  names : ∀ m ∈ arrivals s.trace, m.task = taskOf m.proc

theorem sending_init (tasks : List String) (b : Bool) : Sending taskOf (St.init tasks b) where
  whole := fun _ _ => rfl
  part := fun _ => List.prefix_rfl
  over := fun _ h => by simp [St.init] at h
  own := fun _ _ h => by simp [St.init] at h
  names := fun _ h => by simp [St.init, arrivals] at h

theorem setAt_same {α β : Type} [DecidableEq α] (f : α → β) (a : α) (b : β) : setAt f a b a = b := if_pos rfl
theorem setAt_ne {α β : Type} [DecidableEq α] (f : α → β) {a x : α} (b : β) (h : x ≠ a) : setAt f a b x = f x := if_neg h

theorem feeds_nil {s : St} {p : Nat} (h : s.buffer p = []) : s.happen taskOf (.feeds p) = s := by
  unfold St.happen
  dsimp only
  rw [h]

theorem feeds_cons {s : St} {p : Nat} {m : Msg} {l : List Msg} (h : s.buffer p = m :: l) :
    s.happen taskOf (.feeds p) =
      { s with buffer := setAt s.buffer p l, queue := s.queue ++ [m], trace := s.trace ++ [.arrived m] } := by
  unfold St.happen
  dsimp only
  rw [h]

theorem sending_happen {s : St} (h : Sending taskOf s) (e : Env) : Sending taskOf (s.happen taskOf e) := by
  cases e with
  | logs p a v =>
    unfold St.happen
    dsimp only
    by_cases hd : s.dead p = true
    · rw [if_pos hd]; exact h
    rw [if_neg hd]
    have hd' : s.dead p = false := by simpa using hd
    have harr : arrivals (s.trace ++ [.sent (message (taskOf p) p a v)]) = arrivals s.trace := by
      rw [arrivals_append]; exact List.append_nil _
    have hsent : ∀ q, sentBy q (s.trace ++ [.sent (message (taskOf p) p a v)]) =
        sentBy q s.trace ++ if p = q then [message (taskOf p) p a v] else [] := by
      intro q
      rw [sentBy_append]
      congr 1
      by_cases hq : p = q
      · rw [if_pos hq]; simp [sentBy, message, hq]
      · rw [if_neg hq]; simp [sentBy, message, hq]
    refine ⟨fun q hq => ?_, fun q => ?_, fun q hq => ?_, fun q m hm => ?_, fun m hm => ?_⟩
    · dsimp only at hq ⊢
      rw [harr, hsent]
      by_cases hpq : p = q
      · subst hpq
        rw [setAt_same, if_pos rfl, ← List.append_assoc, h.whole p hq]
      · rw [setAt_ne _ _ (Ne.symm hpq), if_neg hpq, List.append_nil]; exact h.whole q hq
    · dsimp only
      rw [harr, hsent]
      exact (h.part q).trans (List.prefix_append _ _)
    · dsimp only at hq ⊢
      have hne : q ≠ p := fun hc => by rw [hc] at hq; exact hd hq
      rw [setAt_ne _ _ hne]
      exact ⟨(h.over q hq).1, List.mem_append_left _ (h.over q hq).2⟩
    · dsimp only at hm
      by_cases hpq : q = p
      · subst hpq
        rw [setAt_same] at hm
        rcases List.mem_append.1 hm with hm | hm
        · exact h.own q m hm
        · rw [List.mem_singleton.1 hm]; exact ⟨rfl, rfl⟩
      · rw [setAt_ne _ _ hpq] at hm; exact h.own q m hm
    · dsimp only at hm
      rw [harr] at hm
      exact h.names m hm
  | feeds p =>
    rcases hb : s.buffer p with _ | ⟨m, l⟩
    · rw [feeds_nil hb]; exact h
    rw [feeds_cons hb]
    have hm := h.own p m (by rw [hb]; exact List.mem_cons_self ..)
    have hd : s.dead p = false := by
      by_cases hd : s.dead p = true
      · rw [(h.over p hd).1] at hb; simp at hb
      · simpa using hd
    have harr : ∀ q, ofProc q (arrivals (s.trace ++ [.arrived m])) = ofProc q (arrivals s.trace) ++ if p = q then [m] else [] := by
      intro q
      rw [arrivals_append, ofProc_append]
      congr 1
      show ofProc q [m] = _
      by_cases hq : p = q
      · rw [if_pos hq]; simp [ofProc, hm.1, hq]
      · rw [if_neg hq]; simp [ofProc, hm.1, hq]
    have hsent : ∀ q, sentBy q (s.trace ++ [.arrived m]) = sentBy q s.trace := by
      intro q; rw [sentBy_append]; exact List.append_nil _
    refine ⟨fun q hq => ?_, fun q => ?_, fun q hq => ?_, fun q x hx => ?_, fun x hx => ?_⟩
    · dsimp only at hq ⊢
      rw [harr, hsent]
      by_cases hpq : p = q
      · subst hpq
        rw [setAt_same, if_pos rfl, List.append_assoc, ← h.whole p hq, hb]; rfl
      · rw [setAt_ne _ _ (Ne.symm hpq), if_neg hpq, List.append_nil]; exact h.whole q hq
    · dsimp only
      rw [harr, hsent]
      by_cases hpq : p = q
      · subst hpq
        rw [if_pos rfl, ← h.whole p hd, hb]
        exact ⟨l, by simp⟩
      · rw [if_neg hpq, List.append_nil]; exact h.part q
    · dsimp only at hq ⊢
      have hne : q ≠ p := fun hc => by rw [hc, hd] at hq; simp at hq
      rw [setAt_ne _ _ hne]
      exact ⟨(h.over q hq).1, List.mem_append_left _ (h.over q hq).2⟩
    · dsimp only at hx
      by_cases hpq : q = p
      · subst hpq
        rw [setAt_same] at hx
        exact h.own q x (by rw [hb]; exact List.mem_cons_of_mem _ hx)
      · rw [setAt_ne _ _ hpq] at hx; exact h.own q x hx
    · dsimp only at hx
      rw [arrivals_append] at hx
      rcases List.mem_append.1 hx with hx | hx
      · exact h.names x hx
      · have : x = m := by simpa [arrivals] using hx
        rw [this, hm.2, hm.1]
  | dies p =>
    unfold St.happen
    have harr : arrivals (s.trace ++ [.died p]) = arrivals s.trace := by rw [arrivals_append]; exact List.append_nil _
    have hsent : ∀ q, sentBy q (s.trace ++ [.died p]) = sentBy q s.trace := by intro q; rw [sentBy_append]; exact List.append_nil _
    refine ⟨fun q hq => ?_, fun q => ?_, fun q hq => ?_, fun q x hx => ?_, fun x hx => ?_⟩
    · dsimp only at hq ⊢
      by_cases hpq : q = p
      · subst hpq; rw [setAt_same] at hq; simp at hq
      · rw [setAt_ne _ _ hpq] at hq ⊢
        rw [harr, hsent]; exact h.whole q hq
    · dsimp only
      rw [harr, hsent]; exact h.part q
    · dsimp only at hq ⊢
      by_cases hpq : q = p
      · subst hpq
        rw [setAt_same]
        exact ⟨rfl, List.mem_append_right _ (List.mem_singleton.2 rfl)⟩
      · rw [setAt_ne _ _ hpq] at hq ⊢
        exact ⟨(h.over q hq).1, List.mem_append_left _ (h.over q hq).2⟩
    · dsimp only at hx
      by_cases hpq : q = p
      · subst hpq; rw [setAt_same] at hx; simp at hx
      · rw [setAt_ne _ _ hpq] at hx; exact h.own q x hx
    · dsimp only at hx
      rw [harr] at hx; exact h.names x hx
  | remove n =>
    unfold St.happen
    have harr : arrivals (s.trace ++ [.removed n]) = arrivals s.trace := by rw [arrivals_append]; exact List.append_nil _
    have hsent : ∀ q, sentBy q (s.trace ++ [.removed n]) = sentBy q s.trace := by intro q; rw [sentBy_append]; exact List.append_nil _
    refine ⟨fun q hq => ?_, fun q => ?_, fun q hq => ?_, fun q x hx => h.own q x hx, fun x hx => ?_⟩
    · dsimp only at hq ⊢
      rw [harr, hsent]; exact h.whole q hq
    · dsimp only
      rw [harr, hsent]; exact h.part q
    · exact ⟨(h.over q hq).1, List.mem_append_left _ (h.over q hq).2⟩
    · dsimp only at hx
      rw [harr] at hx; exact h.names x hx

/-- The state of the sending side does not depend on the reading side. -/
theorem sending_read {s s' : St} (h : Sending taskOf s) (hd : s'.dead = s.dead) (hb : s'.buffer = s.buffer)
    (ht : s'.trace = s.trace) : Sending taskOf s' := by
  refine ⟨?_, ?_, ?_, ?_, ?_⟩
  · rw [hd, hb, ht]; exact h.whole
  · rw [ht]; exact h.part
  · rw [hd, hb, ht]; exact h.over
  · rw [hb]; exact h.own
  · rw [ht]; exact h.names

/-- Everything that came in is written or in the queue, unless a task was removed. -/
structure Reading (taskOf : Nat → String) (start : List String) (s : St) : Prop extends Sending taskOf s where
  all : (∀ n, Obs.removed n ∉ s.trace) → s.tasks = start ∧ s.written.map Entry.msg ++ s.queue = arrivals s.trace
  name : ∀ e ∈ s.written, e.task = taskOf e.msg.proc
  some : (s.written.map Entry.msg ++ s.queue).Sublist (arrivals s.trace)

theorem queue_arrived {start : List String} {s : St} (h : Reading taskOf start s) {m : Msg} {q : List Msg} (hq : s.queue = m :: q) :
    m.task = taskOf m.proc := by
  apply h.names
  apply h.some.subset
  rw [hq]
  exact List.mem_append_right _ (List.mem_cons_self ..)

theorem reading_log {start : List String} {s s' : St} (h : Reading taskOf start s) {m : Msg} {q : List Msg} (hq : s.queue = m :: q)
    (hd : s'.dead = s.dead) (hb : s'.buffer = s.buffer) (ht : s'.trace = s.trace) (htasks : s'.tasks = s.tasks)
    (hqu : s'.queue = q) {r : Reader} {ok : Bool} (hw : s'.written = s.written ++ [⟨m.task, m, r, ok⟩]) :
    Reading taskOf start s' := by
  have hlist : s'.written.map Entry.msg ++ s'.queue = s.written.map Entry.msg ++ s.queue := by
    rw [hw, hqu, hq]; simp
  refine ⟨sending_read h.toSending hd hb ht, ?_, ?_, ?_⟩
  · rw [ht, htasks, hlist]; exact h.all
  · intro e he
    rw [hw] at he
    rcases List.mem_append.1 he with he | he
    · exact h.name e he
    · rw [List.mem_singleton.1 he]; exact queue_arrived h hq
  · rw [hlist, ht]; exact h.some

theorem reading_stays {start : List String} (hstart : ∀ p, taskOf p ∈ start) : Stays taskOf (Reading taskOf start) where
  happen := fun s e h => by
    refine ⟨sending_happen h.toSending e, ?_, ?_, ?_⟩
    · intro hn
      cases e with
      | logs p a v =>
        unfold St.happen at hn ⊢
        dsimp only at hn ⊢
        by_cases hd : s.dead p = true
        · rw [if_pos hd] at hn ⊢; exact h.all hn
        · rw [if_neg hd] at hn ⊢
          obtain ⟨h1, h2⟩ := h.all (fun n hc => hn n (List.mem_append_left _ hc))
          exact ⟨h1, by dsimp only; rw [h2, arrivals_append]; exact (List.append_nil _).symm⟩
      | feeds p =>
        rcases hb : s.buffer p with _ | ⟨m, l⟩
        · rw [feeds_nil hb] at hn ⊢; exact h.all hn
        · rw [feeds_cons hb] at hn ⊢
          obtain ⟨h1, h2⟩ := h.all (fun n hc => hn n (List.mem_append_left _ hc))
          exact ⟨h1, by dsimp only; rw [← List.append_assoc, h2, arrivals_append]; rfl⟩
      | dies p =>
        unfold St.happen at hn ⊢
        obtain ⟨h1, h2⟩ := h.all (fun n hc => hn n (List.mem_append_left _ hc))
        exact ⟨h1, by dsimp only; rw [h2, arrivals_append]; exact (List.append_nil _).symm⟩
      | remove n =>
        exact absurd (List.mem_append_right _ (List.mem_singleton.2 rfl)) (hn n)
    · cases e with
      | logs p a v => unfold St.happen; dsimp only; split <;> exact h.name
      | feeds p =>
        rcases hb : s.buffer p with _ | ⟨m, l⟩
        · rw [feeds_nil hb]; exact h.name
        · rw [feeds_cons hb]; exact h.name
      | dies p => exact h.name
      | remove n => exact h.name
    · cases e with
      | logs p a v =>
        unfold St.happen
        dsimp only
        split
        · exact h.some
        · dsimp only; rw [arrivals_append]; exact h.some.trans (List.sublist_append_left _ _)
      | feeds p =>
        rcases hb : s.buffer p with _ | ⟨m, l⟩
        · rw [feeds_nil hb]; exact h.some
        · rw [feeds_cons hb]; dsimp only; rw [arrivals_append, ← List.append_assoc]; exact h.some.append (List.Sublist.refl _)
      | dies p =>
        unfold St.happen
        dsimp only; rw [arrivals_append]; exact h.some.trans (List.sublist_append_left _ _)
      | remove n =>
        unfold St.happen
        dsimp only; rw [arrivals_append]; exact h.some.trans (List.sublist_append_left _ _)
  take := fun s m q h hq hm => by
    refine ⟨sending_read h.toSending rfl rfl rfl, ?_, h.name, ?_⟩
    · intro hn
      obtain ⟨h1, _⟩ := h.all hn
      exact absurd (by rw [h1, queue_arrived h hq]; exact hstart _) hm
    · refine List.Sublist.trans ?_ h.some
      rw [hq]
      exact (List.Sublist.refl _).append (List.sublist_cons_self ..)
  handle := fun s m q ok h hq _ => by
    by_cases ha : m.action = .success
    · rw [if_pos ha]; exact reading_log h hq rfl rfl rfl rfl rfl rfl
    · rw [if_neg ha]; exact reading_log h hq rfl rfl rfl rfl rfl rfl
  lock := fun s m q ok h hq _ => reading_log h hq rfl rfl rfl rfl rfl rfl

theorem reading_init {start : List String} (b : Bool) : Reading taskOf start (St.init start b) where
  toSending := sending_init start b
  all := fun _ => ⟨rfl, rfl⟩
  name := fun _ h => by simp [St.init] at h
  some := List.Sublist.refl _

/-- C45, first part, as far as it holds.  As long as no task is removed, the records are handed to the loggers in the
order of their arrival, each once, as those of their task; those of a process that was not terminated are, in the order
in which it sent them, those written, those in the queue and those in its buffer. -/
theorem C45_once_partial (taskOf : Nat → String) (tasks : List String) (silence : Bool) (l : List Step)
    (htasks : ∀ p, taskOf p ∈ tasks) :
    let s := exec taskOf (St.init tasks silence) l
    (∀ n, Obs.removed n ∉ s.trace) →
      s.written.map Entry.msg ++ s.queue = arrivals s.trace ∧
      (∀ e ∈ s.written, e.task = taskOf e.msg.proc) ∧
      (∀ p, Obs.died p ∉ s.trace → ofProc p (s.written.map Entry.msg) ++ ofProc p s.queue ++ s.buffer p = sentBy p s.trace) ∧
      (∀ p, ofProc p (s.written.map Entry.msg) ++ ofProc p s.queue <+: sentBy p s.trace) := by
  intro s hn
  have h := exec_stays (reading_stays htasks) l _ (reading_init silence)
  obtain ⟨_, h2⟩ := h.all hn
  refine ⟨h2, h.name, fun p hp => ?_, fun p => ?_⟩
  · rw [← ofProc_append, h2]
    refine h.whole p ?_
    by_cases hd : (exec taskOf (St.init tasks silence) l).dead p = true
    · exact absurd (h.over p hd).2 hp
    · simpa using hd
  · rw [← ofProc_append, h2]; exact h.part p

/-- Whatever happens, no record is written twice, nor out of order, nor for another task. -/
theorem C45_never_twice (taskOf : Nat → String) (tasks : List String) (silence : Bool) (l : List Step)
    (htasks : ∀ p, taskOf p ∈ tasks) :
    let s := exec taskOf (St.init tasks silence) l
    (s.written.map Entry.msg).Sublist (arrivals s.trace) ∧ (∀ e ∈ s.written, e.task = taskOf e.msg.proc) ∧
      ∀ p, (ofProc p (s.written.map Entry.msg)).Sublist (sentBy p s.trace) := by
  intro s
  have h := exec_stays (reading_stays htasks) l _ (reading_init silence)
  have h1 := (List.sublist_append_left _ _).trans h.some
  exact ⟨h1, h.name, fun p => (h1.filter _).trans (h.part p).sublist⟩

/-- When `handle_logs` returns, the queue is empty. -/
theorem C45_drained (taskOf : Nat → String) : ∀ (l : List Round) (s : St), (handleLogs taskOf l s).1 = .ok →
    (handleLogs taskOf l s).2.queue = []
  | [], s, h => by simp [handleLogs] at h
  | r :: l, s, h => by
    unfold handleLogs at h ⊢
    generalize r.events.foldl (St.happen taskOf) s = s1 at h ⊢
    dsimp only at h ⊢
    rcases hq : s1.queue with _ | ⟨m, q⟩
    · rw [hq] at h; exact hq
    rw [hq] at h
    dsimp only at h ⊢
    by_cases hm : m.task ∈ s1.tasks
    · rw [if_pos hm] at h ⊢
      generalize St.logRecord _ m.task m .scheduler (!r.fails) = s2 at h ⊢
      by_cases hc : (r.fails && !s2.silence) = true
      · rw [if_pos hc] at h; simp at h
      · rw [if_neg hc] at h ⊢; exact C45_drained taskOf l s2 h
    · rw [if_neg hm] at h; simp at h

theorem latestReturn_snoc (task : String) (l : List Entry) (e : Entry) :
    latestReturn task (l ++ [e]) = if e.task = task ∧ e.msg.action = .success then e.msg.ret else latestReturn task l := by
  unfold latestReturn
  rw [List.filter_append]
  by_cases h : e.task = task ∧ e.msg.action = .success
  · rw [if_pos h, List.filter_cons_of_pos (by simpa using h)]
    simp
  · rw [if_neg h, List.filter_cons_of_neg (by simpa using h)]
    simp

/-- The return values are those of the records read by the scheduler. -/
def Returned (s : St) : Prop :=
  ∀ task, s.returns task = latestReturn task (s.written.filter (fun e => decide (e.reader = .scheduler)))

theorem returned_stays : Stays taskOf Returned where
  happen := fun s e h => by
    cases e with
    | logs p a v => unfold St.happen; dsimp only; split <;> exact h
    | feeds p =>
      rcases hb : s.buffer p with _ | ⟨m, l⟩
      · rw [feeds_nil hb]; exact h
      · rw [feeds_cons hb]; exact h
    | dies p => exact h
    | remove n => exact h
  take := fun s m q h _ _ => h
  handle := fun s m q ok h _ _ => by
    intro task
    have hw : ((if m.action = .success then ({ s with queue := q } : St).handleReturn m.task m.ret else { s with queue := q }).logRecord
        m.task m .scheduler ok).written.filter (fun e => decide (e.reader = .scheduler)) =
        s.written.filter (fun e => decide (e.reader = .scheduler)) ++ [⟨m.task, m, .scheduler, ok⟩] := by
      have : ∀ s' : St, s'.written = s.written → (s'.logRecord m.task m .scheduler ok).written.filter (fun e => decide (e.reader = .scheduler)) =
          s.written.filter (fun e => decide (e.reader = .scheduler)) ++ [⟨m.task, m, .scheduler, ok⟩] := by
        intro s' hs'
        show (s'.written ++ _).filter _ = _
        rw [hs', List.filter_append]; rfl
      apply this
      split <;> rfl
    rw [hw, latestReturn_snoc]
    by_cases ha : m.action = .success
    · rw [if_pos ha]
      show setAt s.returns m.task m.ret task = _
      by_cases ht : m.task = task
      · rw [if_pos ⟨ht, ha⟩, ← ht, setAt_same]
      · rw [if_neg (fun hc => ht hc.1), setAt_ne _ _ (Ne.symm ht)]; exact h task
    · rw [if_neg ha, if_neg (fun hc => ha hc.2)]; exact h task
  lock := fun s m q ok h _ _ => by
    intro task
    show s.returns task = latestReturn task ((s.written ++ [(⟨m.task, m, .lock, ok⟩ : Entry)]).filter _)
    rw [List.filter_append]
    exact (h task).trans (by rw [show [(⟨m.task, m, .lock, ok⟩ : Entry)].filter (fun e => decide (e.reader = .scheduler)) = [] from rfl, List.append_nil])

/-- C45, second part, as far as it holds.  If no success of the task was read while another task was being started, the
return value available to other tasks is that of the latest success written. -/
theorem C45_returns_partial (taskOf : Nat → String) (tasks : List String) (silence : Bool) (l : List Step) (task : String) :
    let s := exec taskOf (St.init tasks silence) l
    (∀ e ∈ s.written, e.task = task → e.msg.action = .success → e.reader = .scheduler) →
      s.returns task = latestReturn task s.written := by
  intro s hr
  have h : Returned s := exec_stays returned_stays l _ (fun _ => rfl)
  rw [h task]
  unfold latestReturn
  rw [List.filter_filter]
  have : s.written.filter (fun e => decide (e.task = task ∧ e.msg.action = .success) && decide (e.reader = .scheduler)) =
      s.written.filter (fun e => decide (e.task = task ∧ e.msg.action = .success)) := by
    apply List.filter_congr
    intro e he
    by_cases hc : e.task = task ∧ e.msg.action = .success
    · simp [hc, hr e he hc.1 hc.2]
    · simp [hc]
  rw [this]

/-- Process 0 of "a" and process 1 of "b". -/
def twoTasks : Nat → String := fun p => if p = 0 then "a" else "b"

/-- Both log and finish, and the scheduler reads. -/
def plainRun : St := exec twoTasks (St.init ["a", "b"] false)
  [.env (.logs 0 .run ""), .env (.feeds 0), .start [⟨[], false, true⟩], .env (.logs 1 .run ""), .env (.logs 0 .success "x"),
   .start [⟨[.feeds 1], false, true⟩], .env (.feeds 0), .handle [⟨[], false, true⟩, ⟨[], false, true⟩]]

example : (∀ p, twoTasks p ∈ ["a", "b"]) ∧ (∀ n, Obs.removed n ∉ plainRun.trace) ∧ plainRun.returns "a" = some "x" ∧
    (∀ e ∈ plainRun.written, e.task = "a" → e.msg.action = .success → e.reader = .scheduler) ∧
    plainRun.written.map Entry.task = ["a", "b", "a"] := by
  refine ⟨fun p => ?_, fun n h => ?_, by decide, by decide, by decide⟩
  · unfold twoTasks; split <;> simp
  · have : plainRun.trace = [.sent ⟨0, "a", .run, none⟩, .arrived ⟨0, "a", .run, none⟩, .sent ⟨1, "b", .run, none⟩,
      .sent ⟨0, "a", .success, some "x"⟩, .arrived ⟨1, "b", .run, none⟩, .arrived ⟨0, "a", .success, some "x"⟩] := by decide
    rw [this] at h
    simp at h

/-- C45 as stated fails: a success read in `_lock_to_run_log` while another process is started is written, but its
return value is dropped (core/task.py:1058-1069). -/
theorem C45_returns_violated : ∃ l, let s := exec twoTasks (St.init ["a", "b"] false) l
    latestReturn "a" s.written = some "x" ∧ s.returns "a" = none ∧ s.queue = [] :=
  ⟨[.env (.logs 0 .run ""), .env (.feeds 0), .start [⟨[], false, true⟩], .env (.logs 0 .success "x"), .env (.feeds 0),
    .env (.logs 1 .run ""), .env (.feeds 1), .start [⟨[], false, true⟩, ⟨[], false, true⟩]], by decide⟩

/-- A record that arrives after its task was removed from the session is lost, and the scheduler gets an exception
(schedule.py:266). -/
theorem C45_removed_violated : ∃ (l : List Step) (r : Round), let s := exec twoTasks (St.init ["a", "b"] false) l
    sentBy 0 s.trace = [⟨0, "a", .run, none⟩, ⟨0, "a", .success, some "x"⟩] ∧ (handleLogs twoTasks [r] s).1 = .raised ∧
    (handleLogs twoTasks [r] s).2.written.map Entry.msg = [⟨0, "a", .run, none⟩] ∧ (handleLogs twoTasks [r] s).2.queue = [] ∧
    (handleLogs twoTasks [r] s).2.buffer 0 = [] :=
  ⟨[.env (.logs 0 .run ""), .env (.feeds 0), .start [⟨[], false, true⟩], .env (.logs 0 .success "x"), .env (.feeds 0),
    .env (.remove "a")], ⟨[], false, true⟩, by decide⟩

end Rocketry.Props
