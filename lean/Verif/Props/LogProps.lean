import Verif.Task.LogLemmas

/-!
# Properties C33 (crash recovery) and C34 (status and last-times agree with the log)
-/

namespace Rocketry.Props
open Spec

/-! ## C34 -/

/-- The tasks' memories and the shared log. -/
structure LogWorld where
  mem : String → TaskMem
  repo : List Record

/-- The logging and status-reading calls a session can make, with the clock readings and the fate of the log
write. -/
inductive LogOp where
  /-- `log_running`, `log_success`, … in the scheduler's process -/
  | set (name : String) (a : Action) (runId : Option String) (now created : Int) (io : LogIO)
  /-- `log_record` of a record made in a task's process -/
  | received (name : String) (a : Action) (runId : Option String) (created : Int) (io : LogIO)
  /-- `set_cached` at startup -/
  | cached (name : String) (now created : Int) (io : LogIO)
  /-- `get_status` -/
  | status (name : String)
  /-- `_get_last_action` -/
  | lastAction (name : String) (a : Action)

/-- Replace the memory of one task. -/
def LogWorld.put (w : LogWorld) (name : String) (m : TaskMem) (repo : List Record) : LogWorld :=
  ⟨fun n => if n = name then m else w.mem n, repo⟩

/-- One call; `fromLogs` is `config.force_status_from_logs`. -/
def LogWorld.step (fromLogs : Bool) (w : LogWorld) : LogOp → LogWorld
  | .set name a id now created io =>
    let l := setStatus fromLogs name (w.mem name) w.repo a id now created io
    w.put name l.mem l.repo
  | .received name a id created io =>
    let l := logRecord name (w.mem name) w.repo a id created io
    w.put name l.mem l.repo
  | .cached name now created io =>
    let l := setCached fromLogs name (w.mem name) w.repo now created io
    w.put name l.mem l.repo
  | .status name => w.put name (getStatus fromLogs w.repo name (w.mem name)).2 w.repo
  | .lastAction name a => w.put name (getLastAction fromLogs w.repo name (w.mem name) a).2 w.repo

/-- A sequence of calls in a new session with a given log. -/
def runLogOps (fromLogs : Bool) (w : LogWorld) (ops : List LogOp) : LogWorld := ops.foldl (LogWorld.step fromLogs) w

/-- New tasks and an empty log. -/
def LogWorld.fresh : LogWorld := ⟨fun _ => .fresh, []⟩

/-- The call's log write succeeded. -/
def LogOp.Fine : LogOp → Prop
  | .set _ _ _ _ _ io => io = .ok
  | .received _ _ _ _ io => io = .ok
  | .cached _ _ _ io => io = .ok
  | _ => True

/-- The record's clock reading is the one that goes into the cache. -/
def LogOp.Sharp : LogOp → Prop
  | .set _ _ _ now created _ => now = created
  | .cached _ now created _ => now = created
  | _ => True

/-- Not a startup call. -/
def LogOp.NoStartup : LogOp → Prop
  | .cached _ _ _ _ => False
  | _ => True

/-- Status and last-times agree with the log: the status is the action of the task's latest record; the last time
of an action is a time of the task's latest record of that action (the one noted when logging, or the record's),
and there is none when there is no such record. -/
structure Agrees (w : LogWorld) (name : String) : Prop where
  status_none : (∀ r ∈ w.repo, r.task ≠ name) → (w.mem name).status = none
  status_some : ∀ r, IsLatest w.repo (Of name) r → (w.mem name).status = some r.action
  last_none : ∀ a, (∀ r ∈ w.repo, ¬ OfAction name a r) → (w.mem name).last a = none
  last_some : ∀ a r, IsLatest w.repo (OfAction name a) r →
    (w.mem name).last a = some r.noted ∨ (w.mem name).last a = some r.created

theorem isLatest_snoc {l : List Record} {x r : Record} {P : Record → Prop} (h : IsLatest (l ++ [x]) P r) :
    (P x ∧ r = x) ∨ (¬ P x ∧ IsLatest l P r) := by
  obtain ⟨pre, post, h1, h2, h3⟩ := h
  induction post using snoc_ind with
  | nil =>
    have := List.append_inj' h1 rfl
    simp at this
    rw [this.2]
    exact Or.inl ⟨h2, rfl⟩
  | snoc q y _ =>
    have : l ++ [x] = (pre ++ r :: q) ++ [y] := by rw [h1]; simp
    have := List.append_inj' this rfl
    simp at this
    obtain ⟨e1, e2⟩ := this
    subst e2
    exact Or.inr ⟨h3 x (by simp), pre, q, e1, h2, fun z hz => h3 z (by simp [hz])⟩

/-- Appending a record of the task and storing its action and one of its times keeps agreement. -/
theorem agrees_append {w : LogWorld} {name : String} (hw : Agrees w name) (x : Record) (hx : x.task = name) (m : TaskMem)
    (hs : m.status = some x.action) (ha : m.last x.action = some x.noted)
    (hb : ∀ b, b ≠ x.action → m.last b = (w.mem name).last b ∨
      (∀ r, IsLatest w.repo (OfAction name b) r → m.last b = some r.created) ∧
      ((∀ r ∈ w.repo, ¬ OfAction name b r) → m.last b = none)) :
    Agrees (w.put name m (w.repo ++ [x])) name := by
  constructor
  · intro h
    exact absurd hx (h x (by simp [LogWorld.put]))
  · intro r hr
    rcases isLatest_snoc hr with ⟨_, e⟩ | ⟨h, _⟩
    · subst e; simpa [LogWorld.put] using hs
    · exact absurd hx h
  · intro a h
    have hne : a ≠ x.action := fun e => h x (by simp [LogWorld.put]) ⟨hx, e.symm⟩
    have h' : ∀ r ∈ w.repo, ¬ OfAction name a r := fun r hr => h r (by simp [LogWorld.put, hr])
    simp only [LogWorld.put, if_true]
    rcases hb a hne with e | e
    · rw [e]; exact hw.last_none a h'
    · exact e.2 h'
  · intro a r hr
    simp only [LogWorld.put, if_true]
    rcases isLatest_snoc hr with ⟨h, e⟩ | ⟨h, hl⟩
    · subst e; rw [← h.2]; rw [ha]; exact Or.inl rfl
    · have hne : a ≠ x.action := fun e => h ⟨hx, e.symm⟩
      rcases hb a hne with e | e
      · rw [e]; exact hw.last_some a r hl
      · exact Or.inr (e.1 r hl)

/-- Records and memories of other tasks do not matter. -/
theorem agrees_other {w : LogWorld} {name other : String} (hne : name ≠ other) (hw : Agrees w name) (m : TaskMem)
    (more : List Record) (hmore : ∀ x ∈ more, x.task = other) : Agrees (w.put other m (w.repo ++ more)) name := by
  have hm : (w.put other m (w.repo ++ more)).mem name = w.mem name := by simp [LogWorld.put, hne]
  have hr : (w.put other m (w.repo ++ more)).repo = w.repo ++ more := rfl
  have key : ∀ (P : Record → Prop), (∀ x, P x → x.task = name) → ∀ r, IsLatest (w.repo ++ more) P r →
      IsLatest w.repo P r := by
    intro P hP
    induction more using snoc_ind with
    | nil => intro r h; simpa using h
    | snoc l x ih =>
      intro r h
      rw [← List.append_assoc] at h
      rcases isLatest_snoc h with ⟨h1, _⟩ | ⟨_, h1⟩
      · exact absurd ((hP x h1).symm.trans (hmore x (by simp))) hne
      · exact ih (fun y hy => hmore y (by simp [hy])) (by simp [LogWorld.put, hne]) rfl r h1
  constructor
  · intro h
    rw [hm]
    exact hw.status_none (fun r hr' => h r (by rw [hr]; simp [hr']))
  · intro r h
    rw [hm]
    exact hw.status_some r (key _ (fun _ h => h) r h)
  · intro a h
    rw [hm]
    exact hw.last_none a (fun r hr' => h r (by rw [hr]; simp [hr']))
  · intro a r h
    rw [hm]
    exact hw.last_some a r (key _ (fun _ h => h.1) r h)

theorem lastActionFromLog_latest {repo : List Record} {name : String} {a : Action} {r : Record}
    (h : IsLatest repo (OfAction name a) r) : lastActionFromLog repo name a = some r.created := by
  unfold lastActionFromLog
  have : latestBy repo name (isAction a) = some r := by
    rw [latestBy_spec]
    simpa only [isAction_iff] using h
  rw [this]; rfl

theorem lastActionFromLog_none {repo : List Record} {name : String} {a : Action}
    (h : ∀ r ∈ repo, ¬ OfAction name a r) : lastActionFromLog repo name a = none := by
  unfold lastActionFromLog
  have : latestBy repo name (isAction a) = none := by
    rw [latestBy_none]
    intro x hx hc
    exact h x hx (isAction_iff.1 hc)
  rw [this]; rfl

/-- Refreshing one cached time from the log keeps agreement. -/
theorem agrees_refresh {w : LogWorld} {name : String} (hw : Agrees w name) (m : TaskMem)
    (hs : m.status = (w.mem name).status)
    (hl : ∀ a, m.last a = (w.mem name).last a ∨ m.last a = lastActionFromLog w.repo name a) :
    Agrees (w.put name m w.repo) name := by
  constructor
  · intro h; simp only [LogWorld.put, if_true]; rw [hs]; exact hw.status_none h
  · intro r h; simp only [LogWorld.put, if_true]; rw [hs]; exact hw.status_some r h
  · intro a h; simp only [LogWorld.put, if_true]
    rcases hl a with e | e
    · rw [e]; exact hw.last_none a h
    · rw [e]; exact lastActionFromLog_none h
  · intro a r h; simp only [LogWorld.put, if_true]
    rcases hl a with e | e
    · rw [e]; exact hw.last_some a r h
    · rw [e]; exact Or.inr (lastActionFromLog_latest h)

theorem getLastAction_mem (fromLogs : Bool) (repo : List Record) (name : String) (t : TaskMem) (a : Action) :
    (getLastAction fromLogs repo name t a).2.status = t.status ∧
    ∀ b, (getLastAction fromLogs repo name t a).2.last b = t.last b ∨
      (getLastAction fromLogs repo name t a).2.last b = lastActionFromLog repo name b := by
  unfold getLastAction
  cases fromLogs
  · exact ⟨rfl, fun _ => Or.inl rfl⟩
  · refine ⟨rfl, fun b => ?_⟩
    simp only [Bool.not_true, Bool.false_eq_true, if_false, TaskMem.setLast]
    by_cases h : b = a
    · subst h; simp
    · simp [h]

/-- Successful logging of an action by the scheduler's process keeps agreement. -/
theorem agrees_set {w : LogWorld} {name : String} (hw : Agrees w name) (fromLogs : Bool) (a : Action)
    (id : Option String) (now created : Int) :
    Agrees (w.step fromLogs (.set name a id now created .ok)) name := by
  simp only [LogWorld.step, setStatus, LogIO.writes, if_true]
  refine agrees_append hw ⟨name, a, created, now, id⟩ rfl _ rfl (by simp [TaskMem.setLast]) ?_
  intro b hb
  simp only [TaskMem.setLast, hb, if_false]
  by_cases h : a = .run
  · rw [if_pos h]; exact Or.inl rfl
  · rw [if_neg h]
    rcases (getLastAction_mem fromLogs w.repo name (w.mem name) .run).2 b with e | e
    · exact Or.inl e
    · right
      rw [e]
      exact ⟨fun r hr => lastActionFromLog_latest hr, fun hr => lastActionFromLog_none hr⟩

/-- One successful call keeps the agreement of every task. -/
theorem agrees_step (fromLogs : Bool) (w : LogWorld) (op : LogOp) (hf : op.Fine) (name : String)
    (hw : Agrees w name) (hi : Increasing (w.step fromLogs op).repo (Of name) ∨ op.NoStartup) :
    Agrees (w.step fromLogs op) name := by
  cases op with
  | set n a id now created io =>
    simp only [LogOp.Fine] at hf
    subst hf
    by_cases h : name = n
    · subst h; exact agrees_set hw fromLogs a id now created
    · exact agrees_other h hw _ [⟨n, a, created, now, id⟩] (by simp)
  | received n a id created io =>
    simp only [LogOp.Fine] at hf
    subst hf
    by_cases h : name = n
    · subst h
      refine agrees_append hw ⟨name, a, created, created, id⟩ rfl _ rfl (by simp [logRecord, TaskMem.setLast]) ?_
      intro b hb
      left
      simp only [] at hb
      simp [logRecord, TaskMem.setLast, hb]
    · exact agrees_other h hw _ [⟨n, a, created, created, id⟩] (by simp)
  | cached n now created io =>
    simp only [LogOp.Fine] at hf
    subst hf
    by_cases h : name = n
    · subst h
      -- the log before has increasing times, too
      have hi0 : Increasing w.repo (Of name) := by
        have hi := hi.resolve_right (by simp [LogOp.NoStartup])
        simp only [LogWorld.step, setCached] at hi
        revert hi
        split
        · exact id
        · simp only [setStatus, LogIO.writes, if_true, LogWorld.put]
          exact fun h => increasing_prefixes h
        · exact id
      have hlat := latestAction_latest hi0
      have hw1 : Agrees (w.put name { (w.mem name) with last := lastActionFromLog w.repo name } w.repo) name :=
        agrees_refresh hw _ rfl (fun a => Or.inr rfl)
      simp only [LogWorld.step, setCached]
      split
      · exact hw1
      · have := agrees_set hw1 fromLogs .crash none now created
        simp only [LogWorld.step] at this
        have e : ∀ m' r', (w.put name { (w.mem name) with last := lastActionFromLog w.repo name } w.repo).put name m' r'
            = w.put name m' r' := by
          intro m' r'
          simp only [LogWorld.put]
          congr 1
          funext n
          by_cases hn : n = name <;> simp [hn]
        rw [e] at this
        simpa [LogWorld.put] using this
      · rename_i a hna he
        rw [hlat] at he
        constructor
        · intro hr
          have : latestBy w.repo name (fun _ => true) = none :=
            latestBy_none.2 (fun x hx hc => hr x hx hc.1)
          rw [this] at he; simp at he
        · intro r hr
          have : latestBy w.repo name (fun _ => true) = some r := by
            rw [latestBy_spec]; simp only [and_true]; exact hr
          rw [this] at he
          simp at he
          simp [LogWorld.put, he]
        · intro b hb
          have := hw1.last_none b hb
          simpa [LogWorld.put] using this
        · intro b r hr
          have := hw1.last_some b r hr
          simpa [LogWorld.put] using this
    · have hh : ∃ more, (setCached fromLogs n (w.mem n) w.repo now created .ok).repo = w.repo ++ more ∧
          ∀ x ∈ more, x.task = n := by
        simp only [setCached]
        split
        · exact ⟨[], by simp, by simp⟩
        · exact ⟨[⟨n, .crash, created, now, none⟩], by simp [setStatus, LogIO.writes], by simp⟩
        · exact ⟨[], by simp, by simp⟩
      obtain ⟨more, e, hm⟩ := hh
      simp only [LogWorld.step]
      rw [e]
      exact agrees_other h hw _ more hm
  | status n =>
    by_cases h : name = n
    · subst h
      simp only [LogWorld.step, getStatus]
      cases fromLogs
      · exact agrees_refresh hw _ rfl (fun _ => Or.inl rfl)
      · simp only [if_true]
        split
        · exact agrees_refresh hw _ rfl (fun _ => Or.inl rfl)
        · rename_i r hr
          refine agrees_refresh hw _ ?_ (fun _ => Or.inl rfl)
          have := latestBy_spec.1 hr
          simp only [and_true] at this
          exact (hw.status_some r this).symm
    · have := agrees_other h hw (getStatus fromLogs w.repo n (w.mem n)).2 [] (by simp)
      rw [List.append_nil] at this
      exact this
  | lastAction n a =>
    by_cases h : name = n
    · subst h
      obtain ⟨h1, h2⟩ := getLastAction_mem fromLogs w.repo name (w.mem name) a
      exact agrees_refresh hw _ h1 h2
    · have := agrees_other h hw (getLastAction fromLogs w.repo n (w.mem n) a).2 [] (by simp)
      rw [List.append_nil] at this
      exact this

/-- The log only grows. -/
theorem step_grows (fromLogs : Bool) (w : LogWorld) (op : LogOp) : ∃ more, (w.step fromLogs op).repo = w.repo ++ more := by
  cases op with
  | set n a id now created io =>
    simp only [LogWorld.step, LogWorld.put, setStatus]
    cases io <;> simp only [LogIO.writes] <;> (try split) <;> simp
  | received n a id created io =>
    simp only [LogWorld.step, LogWorld.put, logRecord]
    cases io <;> simp only [LogIO.writes] <;> (try split) <;> simp
  | cached n now created io =>
    simp only [LogWorld.step, LogWorld.put, setCached]
    split
    · exact ⟨[], by simp⟩
    · simp only [setStatus]
      cases io <;> simp only [LogIO.writes] <;> (try split) <;> simp
    · exact ⟨[], by simp⟩
  | status n => exact ⟨[], by simp [LogWorld.step, LogWorld.put]⟩
  | lastAction n a => exact ⟨[], by simp [LogWorld.step, LogWorld.put]⟩

theorem agrees_fresh (name : String) : Agrees LogWorld.fresh name := by
  constructor
  · intro _; rfl
  · rintro r ⟨pre, post, h, _⟩
    exact absurd h (by simp [LogWorld.fresh])
  · intro _ _; rfl
  · rintro a r ⟨pre, post, h, _⟩
    exact absurd h (by simp [LogWorld.fresh])

/-- C34: after any sequence of successful logging, status and startup calls on any tasks, in both status modes, a
task has the status of its latest record and the last-times of its latest records; when there are startup calls the
times of its records must increase (startup compares times). -/
theorem C34_agrees (fromLogs : Bool) (ops : List LogOp) (hf : ∀ op ∈ ops, op.Fine) (name : String)
    (hi : Increasing (runLogOps fromLogs .fresh ops).repo (Of name) ∨ ∀ op ∈ ops, op.NoStartup) :
    Agrees (runLogOps fromLogs .fresh ops) name := by
  induction ops using snoc_ind with
  | nil => exact agrees_fresh name
  | snoc ops op ih =>
    unfold runLogOps at *
    rw [List.foldl_append] at *
    simp only [List.foldl_cons, List.foldl_nil] at *
    obtain ⟨more, hmore⟩ := step_grows fromLogs (ops.foldl (LogWorld.step fromLogs) .fresh) op
    refine agrees_step fromLogs _ op (hf op (by simp)) name (ih (fun o ho => hf o (by simp [ho])) ?_) ?_
    · rcases hi with hi | hi
      · rw [hmore] at hi
        exact Or.inl (increasing_prefixes hi)
      · exact Or.inr (fun o ho => hi o (by simp [ho]))
    · rcases hi with hi | hi
      · exact Or.inl hi
      · exact Or.inr (hi op (by simp))

/-- Records carry the cached time when the two clock readings are equal. -/
theorem sharp_records (fromLogs : Bool) (ops : List LogOp) (hs : ∀ op ∈ ops, op.Sharp) :
    ∀ r ∈ (runLogOps fromLogs .fresh ops).repo, r.noted = r.created := by
  induction ops using snoc_ind with
  | nil => simp [runLogOps, LogWorld.fresh]
  | snoc ops op ih =>
    unfold runLogOps at *
    rw [List.foldl_append]
    simp only [List.foldl_cons, List.foldl_nil]
    have ih := ih (fun o ho => hs o (by simp [ho]))
    have ho := hs op (by simp)
    revert ih
    generalize ops.foldl (LogWorld.step fromLogs) .fresh = w
    intro ih
    have app : ∀ x : Record, x.noted = x.created → ∀ r ∈ w.repo ++ [x], r.noted = r.created := by
      intro x hx r hr
      rcases List.mem_append.1 hr with h | h
      · exact ih r h
      · rw [List.mem_singleton.1 h]; exact hx
    cases op with
    | set n a id now created io =>
      simp only [LogOp.Sharp] at ho
      subst ho
      simp only [LogWorld.step, LogWorld.put, setStatus]
      cases io <;> simp only [LogIO.writes, if_true, Bool.false_eq_true, if_false] <;> (try split) <;>
        first | exact ih | exact app _ rfl
    | received n a id created io =>
      simp only [LogWorld.step, LogWorld.put, logRecord]
      cases io <;> simp only [LogIO.writes, if_true, Bool.false_eq_true, if_false] <;> (try split) <;>
        first | exact ih | exact app _ rfl
    | cached n now created io =>
      simp only [LogOp.Sharp] at ho
      subst ho
      simp only [LogWorld.step, LogWorld.put, setCached]
      split
      · exact ih
      · simp only [setStatus]
        cases io <;> simp only [LogIO.writes, if_true, Bool.false_eq_true, if_false] <;> (try split) <;>
          first | exact ih | exact app _ rfl
      · exact ih
    | status n => exact ih
    | lastAction n a => exact ih

/-- C34: when the record gets the same clock reading as the cache, re-reading status and last-times from the log
gives what the memory holds. -/
theorem C34_reread_partial (fromLogs : Bool) (ops : List LogOp) (hf : ∀ op ∈ ops, op.Fine)
    (hs : ∀ op ∈ ops, op.Sharp) (name : String)
    (hi : Increasing (runLogOps fromLogs .fresh ops).repo (Of name) ∨ ∀ op ∈ ops, op.NoStartup) :
    let w := runLogOps fromLogs .fresh ops
    (getStatus true w.repo name (w.mem name)).1 = (getStatus false w.repo name (w.mem name)).1 ∧
    ∀ a, (getLastAction true w.repo name (w.mem name) a).1 = (getLastAction false w.repo name (w.mem name) a).1 := by
  intro w
  have hw : Agrees w name := C34_agrees fromLogs ops hf name hi
  have hn : ∀ r ∈ w.repo, r.noted = r.created := sharp_records fromLogs ops hs
  constructor
  · unfold getStatus
    simp only [if_true, Bool.false_eq_true, if_false]
    cases h : latestBy w.repo name (fun _ => true) with
    | none =>
      have := latestBy_none.1 h
      exact (hw.status_none (fun r hr e => this r hr ⟨e, rfl⟩)).symm
    | some r =>
      have := latestBy_spec.1 h
      simp only [and_true] at this
      exact (hw.status_some r this).symm
  · intro a
    simp only [getLastAction, Bool.not_true, Bool.not_false, if_true, Bool.false_eq_true, if_false]
    cases h : lastActionFromLog w.repo name a with
    | none =>
      refine (hw.last_none a ?_).symm
      intro r hr hp
      have : DecidablePred (OfAction name a) := fun x => by unfold OfAction; infer_instance
      obtain ⟨q, hq⟩ := exists_latest hr hp
      rw [lastActionFromLog_latest hq] at h
      exact absurd h (by simp)
    | some t =>
      obtain ⟨r, hr, e⟩ := lastActionFromLog_some h
      have := hn r (isLatest_mem hr).1
      rcases hw.last_some a r hr with h' | h' <;> rw [h', ← e] <;> simp [this]

/-- Two tasks; `a` runs and succeeds, `b` runs, the scheduler is started again and finds the crash. -/
def exampleOps : List LogOp :=
  [.set "a" .run (some "1") 10 10 .ok, .set "b" .run (some "2") 11 11 .ok, .set "a" .success (some "1") 12 12 .ok,
   .status "a", .cached "a" 20 20 .ok, .cached "b" 21 21 .ok, .lastAction "b" .run]

example : (∀ op ∈ exampleOps, op.Fine) ∧ (∀ op ∈ exampleOps, op.Sharp) ∧
    ((runLogOps false .fresh exampleOps).mem "a").status = some .success ∧
    ((runLogOps false .fresh exampleOps).mem "b").status = some .crash ∧
    (runLogOps false .fresh exampleOps).repo.length = 4 := by
  refine ⟨?_, ?_, by decide, by decide, by decide⟩
  · intro op h; simp [exampleOps] at h; rcases h with h|h|h|h|h|h|h <;> subst h <;> simp [LogOp.Fine]
  · intro op h; simp [exampleOps] at h; rcases h with h|h|h|h|h|h|h <;> subst h <;> simp [LogOp.Sharp]

/-- C34 fails when the clock moves between the two readings of `_set_status`: the cached time and the time of the
record differ. -/
theorem C34_two_readings_violated (fromLogs : Bool) (name : String) (a : Action) (id : Option String) (now d : Int)
    (hd : 0 < d) :
    let w := runLogOps fromLogs .fresh [.set name a id now (now + d) .ok]
    (getLastAction false w.repo name (w.mem name) a).1 = some now ∧
    (getLastAction true w.repo name (w.mem name) a).1 = some (now + d) ∧ now ≠ now + d := by
  refine ⟨?_, ?_, by omega⟩
  · simp [runLogOps, LogWorld.step, LogWorld.fresh, LogWorld.put, setStatus, getLastAction, TaskMem.setLast, LogIO.writes]
  · simp [runLogOps, LogWorld.step, LogWorld.fresh, LogWorld.put, setStatus, getLastAction, lastActionFromLog, latestBy,
      recordsBy, isAction, LogIO.writes]

/-- C34, failing log writes: the failed write of an outcome makes the task failed and the failed write of a start
leaves it running, whether or not the record was stored; so the status then need not be the action of the latest
record. -/
theorem C34_failed_write (fromLogs : Bool) (w : LogWorld) (name : String) (a : Action) (id : Option String)
    (now created : Int) (io : LogIO) (h : io ≠ .ok) :
    ((w.step fromLogs (.set name a id now created io)).mem name).status = some (if a = .run then .run else .fail) ∧
    ((w.step fromLogs (.received name a id created io)).mem name).status = some (if a = .run then .run else .fail) ∧
    (setStatus fromLogs name (w.mem name) w.repo a id now created io).raised = true ∧
    (logRecord name (w.mem name) w.repo a id created io).raised = true := by
  cases io
  · exact absurd rfl h
  all_goals
    simp only [LogWorld.step, LogWorld.put, setStatus, logRecord]
    by_cases e : a = .run <;> simp [e]

/-- C34 fails under failing log writes: the stored record says success, the status says fail. -/
theorem C34_failed_write_violated (fromLogs : Bool) :
    let w := runLogOps fromLogs .fresh [.set "t" .run (some "1") 10 10 .ok, .set "t" .success (some "1") 12 12 .stored]
    (w.mem "t").status = some .fail ∧ (latestBy w.repo "t" (fun _ => true)).map Record.action = some .success := by
  cases fromLogs <;> decide

/-! ## C33 -/

/-- The part of `Scheduler.startup` (rocketry/core/schedule.py:312-318) that recovers the tasks' status; one clock
reading pair per task. -/
def startupCache (fromLogs : Bool) : LogWorld → List (String × Int × Int) → LogWorld
  | w, [] => w
  | w, (name, now, created) :: l => startupCache fromLogs (w.step fromLogs (.cached name now created .ok)) l

/-- C33, one task: whatever records with increasing times the log holds, after startup the status of the task is
not `run`; if its latest record is a start exactly one crash record is added, otherwise nothing. -/
theorem C33_task (fromLogs : Bool) (name : String) (t : TaskMem) (ht : t.status ≠ some .run) (repo : List Record)
    (hi : Increasing repo (Of name)) (now created : Int) :
    let l := setCached fromLogs name t repo now created .ok
    l.mem.status ≠ some .run ∧ l.raised = false ∧
    (∀ r, IsLatest repo (Of name) r → r.action = .run →
      l.repo = repo ++ [⟨name, .crash, created, now, none⟩] ∧ l.mem.status = some .crash) ∧
    (∀ r, IsLatest repo (Of name) r → r.action ≠ .run → l.repo = repo ∧ l.mem.status = some r.action) ∧
    ((∀ r ∈ repo, r.task ≠ name) → l.repo = repo ∧ l.mem.status = t.status) := by
  intro l
  have hlat := latestAction_latest hi
  have key : ∀ r, IsLatest repo (Of name) r → latestAction (cachedTimes repo name) = some r.action := by
    intro r hr
    have : latestBy repo name (fun _ => true) = some r := by
      rw [latestBy_spec]; simp only [and_true]; exact hr
    rw [hlat, this]; rfl
  have e : l = setCached fromLogs name t repo now created .ok := rfl
  rw [setCached] at e
  simp only [] at e
  cases hla : latestAction (cachedTimes repo name) with
  | none =>
    rw [hla] at e
    simp only [] at e
    rw [e]
    refine ⟨ht, rfl, ?_, ?_, fun _ => ⟨rfl, rfl⟩⟩
    · intro r hr; rw [key r hr] at hla; exact absurd hla (by simp)
    · intro r hr; rw [key r hr] at hla; exact absurd hla (by simp)
  | some a =>
    rw [hla] at e
    have hsome : ¬ ∀ r ∈ repo, r.task ≠ name := by
      intro h
      rw [hlat, latestBy_none.2 (fun x hx hc => h x hx hc.1)] at hla
      exact absurd hla (by simp)
    by_cases ha : a = .run
    · subst ha
      simp only [setStatus, LogIO.writes, if_true] at e
      rw [e]
      refine ⟨by simp, rfl, fun _ _ _ => ⟨rfl, rfl⟩, ?_, fun h => absurd h hsome⟩
      intro r hr hne
      rw [key r hr] at hla
      exact absurd (Option.some.inj hla) hne
    · have e' : l = ⟨{ ({ t with last := lastActionFromLog repo name } : TaskMem) with status := some a }, repo, false⟩ := by
        rw [e]
        cases a <;> first | rfl | exact absurd rfl ha
      rw [e']
      refine ⟨by simp [ha], rfl, ?_, ?_, fun h => absurd h hsome⟩
      · intro r hr he
        rw [key r hr] at hla
        exact absurd (Option.some.inj hla ▸ he) ha
      · intro r hr _
        rw [key r hr] at hla
        exact ⟨rfl, by simp [Option.some.inj hla]⟩

/-- Startup does not touch the records and memories of other tasks. -/
theorem startup_other (fromLogs : Bool) (w : LogWorld) (n name : String) (now created : Int) (h : name ≠ n) :
    (w.step fromLogs (.cached n now created .ok)).mem name = w.mem name ∧
    ∃ more, (w.step fromLogs (.cached n now created .ok)).repo = w.repo ++ more ∧ ∀ x ∈ more, x.task = n := by
  refine ⟨by simp [LogWorld.step, LogWorld.put, h], ?_⟩
  simp only [LogWorld.step, LogWorld.put, setCached]
  split
  · exact ⟨[], by simp, by simp⟩
  · exact ⟨[⟨n, .crash, created, now, none⟩], by simp [setStatus, LogIO.writes], by simp⟩
  · exact ⟨[], by simp, by simp⟩

theorem filter_other {repo more : List Record} {name n : String} (h : name ≠ n) (hm : ∀ x ∈ more, x.task = n) :
    (repo ++ more).filter (fun r => decide (r.task = name)) = repo.filter (fun r => decide (r.task = name)) := by
  rw [List.filter_append]
  have : more.filter (fun r => decide (r.task = name)) = [] := by
    rw [List.filter_eq_nil_iff]
    intro x hx
    rw [hm x hx]
    simp only [decide_eq_true_eq]
    exact fun e => h e.symm
  rw [this, List.append_nil]

/-- The log of one task. -/
def logOf (repo : List Record) (name : String) : List Record := repo.filter (fun r => decide (r.task = name))

theorem startup_absent (fromLogs : Bool) (name : String) : ∀ (ts : List (String × Int × Int)) (w : LogWorld),
    name ∉ ts.map Prod.fst → (startupCache fromLogs w ts).mem name = w.mem name ∧
      logOf (startupCache fromLogs w ts).repo name = logOf w.repo name := by
  intro ts
  induction ts with
  | nil => intro w _; exact ⟨rfl, rfl⟩
  | cons t ts ih =>
    intro w hn
    obtain ⟨n, now, created⟩ := t
    simp only [List.map_cons, List.mem_cons, not_or] at hn
    obtain ⟨h1, more, h2, h3⟩ := startup_other fromLogs w n name now created hn.1
    obtain ⟨h4, h5⟩ := ih (w.step fromLogs (.cached n now created .ok)) hn.2
    simp only [startupCache]
    rw [h4, h5, h1, h2]
    exact ⟨rfl, filter_other hn.1 h3⟩

/-- C33: whatever log with increasing times per task a killed scheduler left behind, after the next start no task
has status `run`; a task whose latest record is a start gets exactly one crash record and status `crash`, any other
task gets none. -/
theorem C33_startup (fromLogs : Bool) : ∀ (ts : List (String × Int × Int)) (w : LogWorld),
    (ts.map Prod.fst).Nodup → (∀ t ∈ ts, (w.mem t.1).status ≠ some .run) →
    (∀ t ∈ ts, Increasing w.repo (Of t.1)) → ∀ t ∈ ts,
    let w' := startupCache fromLogs w ts
    (w'.mem t.1).status ≠ some .run ∧
    (∀ r, IsLatest w.repo (Of t.1) r → r.action = .run →
      logOf w'.repo t.1 = logOf w.repo t.1 ++ [⟨t.1, .crash, t.2.2, t.2.1, none⟩] ∧
      (w'.mem t.1).status = some .crash) ∧
    (∀ r, IsLatest w.repo (Of t.1) r → r.action ≠ .run →
      logOf w'.repo t.1 = logOf w.repo t.1 ∧ (w'.mem t.1).status = some r.action) ∧
    ((∀ r ∈ w.repo, r.task ≠ t.1) → logOf w'.repo t.1 = []) := by
  intro ts
  induction ts with
  | nil => intro w _ _ _ t ht; simp at ht
  | cons hd ts ih =>
    intro w hnd hst hinc t ht
    obtain ⟨n, now, created⟩ := hd
    simp only [List.map_cons, List.nodup_cons] at hnd
    simp only [startupCache]
    rcases List.mem_cons.1 ht with e | ht
    · subst e
      obtain ⟨h4, h5⟩ := startup_absent fromLogs n ts (w.step fromLogs (.cached n now created .ok)) hnd.1
      rw [h4, h5]
      obtain ⟨k1, _, k3, k4, k5⟩ := C33_task fromLogs n (w.mem n) (hst (n, now, created) (by simp)) w.repo
        (hinc (n, now, created) (by simp)) now created
      simp only [LogWorld.step, LogWorld.put, if_true]
      refine ⟨k1, ?_, ?_, ?_⟩
      · intro r hr ha
        obtain ⟨e1, e2⟩ := k3 r hr ha
        rw [e1]
        exact ⟨by simp [logOf], e2⟩
      · intro r hr ha
        obtain ⟨e1, e2⟩ := k4 r hr ha
        rw [e1]
        exact ⟨rfl, e2⟩
      · intro h
        rw [(k5 h).1]
        unfold logOf
        rw [List.filter_eq_nil_iff]
        intro r hr
        simpa using h r hr
    · have hne : t.1 ≠ n := by
        intro e
        exact hnd.1 (e ▸ List.mem_map_of_mem ht)
      obtain ⟨h1, more, h2, h3⟩ := startup_other fromLogs w n t.1 now created hne
      have hmore : ∀ x ∈ more, ¬ Of t.1 x := fun x hx e => hne ((show x.task = t.1 from e).symm.trans (h3 x hx))
      have hlog : logOf (w.step fromLogs (.cached n now created .ok)).repo t.1 = logOf w.repo t.1 := by
        rw [h2]; exact filter_other hne h3
      have hother : ∀ u ∈ ts, u.1 ≠ n := fun u hu e => hnd.1 (e ▸ List.mem_map_of_mem hu)
      have key := ih (w.step fromLogs (.cached n now created .ok)) hnd.2
        (fun u hu => by
          rw [(startup_other fromLogs w n u.1 now created (hother u hu)).1]
          exact hst u (by simp [hu]))
        (fun u hu => by
          obtain ⟨_, m, e, hm⟩ := startup_other fromLogs w n u.1 now created (hother u hu)
          rw [e]
          refine increasing_append (hinc u (by simp [hu])) ?_
          intro x hx hc
          exact hother u hu ((show x.task = u.1 from hc).symm.trans (hm x hx)))
        t ht
      simp only [] at key
      rw [hlog] at key
      obtain ⟨k1, k2, k3, k4⟩ := key
      refine ⟨k1, ?_, ?_, ?_⟩
      · intro r hr ha
        exact k2 r (by rw [h2]; exact isLatest_append hmore hr) ha
      · intro r hr ha
        exact k3 r (by rw [h2]; exact isLatest_append hmore hr) ha
      · intro h
        apply k4
        intro r hr
        rw [h2] at hr
        rcases List.mem_append.1 hr with hr | hr
        · exact h r hr
        · exact hmore r hr

theorem isLatest_of_log {l m : List Record} {name : String} {r : Record} (h : logOf l name = logOf m name)
    (hr : IsLatest l (Of name) r) : IsLatest m (Of name) r := by
  have e : ∀ k : List Record, latestBy k name (fun _ => true) = (logOf k name).getLast? := by
    intro k; simp [latestBy, recordsBy, logOf]
  have h1 : latestBy l name (fun _ => true) = some r := by
    rw [latestBy_spec]; simp only [and_true]; exact hr
  rw [e, h, ← e, latestBy_spec] at h1
  simp only [and_true] at h1
  exact h1

theorem increasing_of_log {l m : List Record} {name : String} (h : logOf l name = logOf m name)
    (hi : Increasing l (Of name)) : Increasing m (Of name) := by
  have e : ∀ k : List Record, Increasing k (Of name) ↔ (logOf k name).Pairwise (fun r s => r.created < s.created) := by
    intro k
    unfold logOf Increasing Of
    rw [List.pairwise_filter]
    simp
  rw [e] at *
  rw [← h]; exact hi

/-- C33: starting again adds nothing more (the crash records having been written later than the starts). -/
theorem C33_again (fromLogs : Bool) (ts ts' : List (String × Int × Int)) (w : LogWorld) (mem' : String → TaskMem)
    (hnd : (ts.map Prod.fst).Nodup) (hnd' : (ts'.map Prod.fst).Nodup) (hsub : ∀ u ∈ ts', u.1 ∈ ts.map Prod.fst)
    (hst : ∀ t ∈ ts, (w.mem t.1).status ≠ some .run) (hst' : ∀ t ∈ ts', (mem' t.1).status ≠ some .run)
    (hinc : ∀ t ∈ ts, Increasing w.repo (Of t.1))
    (hlater : ∀ t ∈ ts, ∀ r ∈ w.repo, r.task = t.1 → r.created < t.2.2) (name : String) :
    logOf (startupCache fromLogs ⟨mem', (startupCache fromLogs w ts).repo⟩ ts').repo name =
      logOf (startupCache fromLogs w ts).repo name := by
  by_cases hn : name ∈ ts'.map Prod.fst
  · obtain ⟨u, hu, rfl⟩ := List.mem_map.1 hn
    -- a started task has a log that does not end with a start
    have facts : ∀ t ∈ ts, Increasing (startupCache fromLogs w ts).repo (Of t.1) ∧
        ∀ r, IsLatest (startupCache fromLogs w ts).repo (Of t.1) r → r.action ≠ .run := by
      intro t ht
      obtain ⟨_, k2, k3, k4⟩ := C33_startup fromLogs ts w hnd hst hinc t ht
      by_cases hex : ∃ x ∈ w.repo, x.task = t.1
      · obtain ⟨x, hx, hxt⟩ := hex
        have : DecidablePred (Of t.1) := fun x => by unfold Of; infer_instance
        obtain ⟨r, hr⟩ := exists_latest hx (show Of t.1 x from hxt)
        by_cases ha : r.action = .run
        · have e := (k2 r hr ha).1
          have e' : logOf (startupCache fromLogs w ts).repo t.1 =
              logOf (w.repo ++ [⟨t.1, .crash, t.2.2, t.2.1, none⟩]) t.1 := by
            rw [e]; simp [logOf]
          refine ⟨increasing_of_log e'.symm (increasing_snoc (hinc t ht) (hlater t ht)), ?_⟩
          intro q hq
          rcases isLatest_snoc (isLatest_of_log e' hq) with ⟨_, h⟩ | ⟨h, _⟩
          · rw [h]; simp
          · exact absurd rfl h
        · have e := (k3 r hr ha).1
          refine ⟨increasing_of_log e.symm (hinc t ht), ?_⟩
          intro q hq
          have hq' := isLatest_of_log e hq
          rcases latest_max (hinc t ht) hr (isLatest_mem hq').1 (isLatest_mem hq').2 with h | h
          · rw [h]; exact ha
          · rcases latest_max (hinc t ht) hq' (isLatest_mem hr).1 (isLatest_mem hr).2 with h' | h'
            · rw [← h']; exact ha
            · omega
      · have e := k4 (fun r hr hc => hex ⟨r, hr, hc⟩)
        refine ⟨increasing_of_log (l := []) (by rw [e]; rfl) List.Pairwise.nil, ?_⟩
        intro q hq
        have := isLatest_of_log (m := []) (by rw [e]; rfl) hq
        obtain ⟨pre, post, h, _⟩ := this
        exact absurd h (by simp)
    have mem_ts : ∀ v ∈ ts', ∃ t ∈ ts, t.1 = v.1 := fun v hv => by
      obtain ⟨t, ht, e⟩ := List.mem_map.1 (hsub v hv); exact ⟨t, ht, e⟩
    obtain ⟨_, _, k3, k4⟩ := C33_startup fromLogs ts' ⟨mem', (startupCache fromLogs w ts).repo⟩ hnd' hst'
      (fun v hv => by obtain ⟨t, ht, e⟩ := mem_ts v hv; rw [← e]; exact (facts t ht).1) u hu
    obtain ⟨t, ht, e⟩ := mem_ts u hu
    by_cases hex : ∃ x ∈ (startupCache fromLogs w ts).repo, x.task = u.1
    · obtain ⟨x, hx, hxt⟩ := hex
      have : DecidablePred (Of u.1) := fun x => by unfold Of; infer_instance
      obtain ⟨r, hr⟩ := exists_latest hx (show Of u.1 x from hxt)
      exact (k3 r hr ((facts t ht).2 r (by rw [e]; exact hr))).1
    · have hno : ∀ r ∈ (startupCache fromLogs w ts).repo, r.task ≠ u.1 := fun r hr hc => hex ⟨r, hr, hc⟩
      rw [k4 hno]
      symm
      unfold logOf
      rw [List.filter_eq_nil_iff]
      intro r hr
      simpa using hno r hr
  · exact (startup_absent fromLogs name ts' _ hn).2

/-- `a` was killed while running, `b` had succeeded, `c` never ran. -/
def killedLog : LogWorld :=
  ⟨fun _ => .fresh, [⟨"b", .run, 1, 1, some "1"⟩, ⟨"b", .success, 2, 2, some "1"⟩, ⟨"a", .run, 3, 3, some "2"⟩]⟩

example : (∀ name, (killedLog.mem name).status ≠ some .run) ∧
    (startupCache false killedLog [("a", 10, 10), ("b", 11, 11), ("c", 12, 12)]).repo =
      killedLog.repo ++ [⟨"a", .crash, 10, 10, none⟩] := ⟨fun _ => by simp [killedLog, TaskMem.fresh], by decide⟩

example : Increasing killedLog.repo (Of "b") := by
  simp [killedLog, Increasing, Of]

/-- C33 fails when a run starts and ends within the same microsecond: the finished run is recorded as a crash. -/
theorem C33_tie_violated (fromLogs : Bool) (name : String) (t now : Int) :
    let repo : List Record := [⟨name, .run, t, t, some "1"⟩, ⟨name, .success, t, t, some "1"⟩]
    (setCached fromLogs name .fresh repo now now .ok).repo = repo ++ [⟨name, .crash, now, now, none⟩] := by
  simp [setCached, cachedTimes, cachedActions, latestAction, lastActionFromLog, latestBy, recordsBy, isAction,
    setStatus, LogIO.writes, List.filterMap]

end Rocketry.Props
