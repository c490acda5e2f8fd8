import Verif.Spec.RenamedSpec
import Verif.Task.LogLemmas
import Verif.Task.Situation

/-!
# C107: a task keeps its history when it gets another name
-/

namespace Rocketry.Props
open Rocketry Spec Named

/-- The record of a deed. -/
def deedRecord (d : Deed) : Record := ⟨d.calledThen, d.action, d.created, d.noted, none⟩

theorem taken_iff (s : Named) (v : String) : s.taken v = true ↔ ∃ i ∈ s.ids, s.name i = v := by
  simp [Named.taken]

theorem run_repo (l : List Op) (s : Named) :
    (s.run l).repo = s.repo ++ (deeds s.ids s.name l).map deedRecord := by
  induction l generalizing s with
  | nil => simp [Named.run, deeds]
  | cons o l ih =>
    show ((s.step o).run l).repo = _
    rw [ih]
    cases o with
    | log id a n c => simp [step, Named.log, setStatus, deeds, deedRecord, LogIO.writes]
    | rename id v =>
      simp only [step, Named.rename, deeds]
      by_cases h : s.taken v = true
      · rw [if_pos h, if_pos ((taken_iff s v).1 h)]
      · rw [if_neg h, if_neg (fun h' => h ((taken_iff s v).2 h'))]
    | remove id => rfl

/-- What remembering a deed does to the memory. -/
def remember (m : TaskMem) (d : Deed) : TaskMem := { m.setLast d.action (some d.noted) with status := some d.action }

theorem run_fromLogs (l : List Op) (s : Named) : (s.run l).fromLogs = s.fromLogs := by
  induction l generalizing s with
  | nil => rfl
  | cons o l ih =>
    show ((s.step o).run l).fromLogs = _
    rw [ih]
    cases o with
    | log id a n c => rfl
    | rename id v => simp only [step, Named.rename]; split <;> rfl
    | remove id => rfl

theorem run_mem (l : List Op) (s : Named) (h : s.fromLogs = false) (id : Nat) :
    (s.run l).mem id = (deedsOf id (deeds s.ids s.name l)).foldl remember (s.mem id) := by
  induction l generalizing s with
  | nil => rfl
  | cons o l ih =>
    show ((s.step o).run l).mem id = _
    cases o with
    | log i a n c =>
      rw [ih (s.step (.log i a n c)) h]
      by_cases hi : id = i
      · subst hi
        simp [step, Named.log, setStatus, deeds, deedsOf, remember, getLastAction, h]
      · have hi' : ¬ i = id := fun e => hi e.symm
        simp [step, Named.log, deeds, deedsOf, hi, hi']
    | rename i v =>
      rw [ih (s.step (.rename i v)) (by simp only [step, Named.rename]; split <;> exact h)]
      simp only [step, Named.rename, deeds]
      by_cases h : s.taken v = true
      · rw [if_pos h, if_pos ((taken_iff s v).1 h)]
      · rw [if_neg h, if_neg (fun h' => h ((taken_iff s v).2 h'))]
    | remove i => rw [ih (s.step (.remove i)) h]; rfl

theorem remember_last (l : List Deed) (m : TaskMem) (a : Action) :
    (l.foldl remember m).last a = (lastDeed Deed.noted a l).or (m.last a) := by
  induction l using snoc_ind with
  | nil => simp [lastDeed]
  | snoc l d ih =>
    rw [List.foldl_append]
    show (remember (l.foldl remember m) d).last a = _
    by_cases h : d.action = a
    · subst h
      simp [remember, TaskMem.setLast, lastDeed]
    · have h' : ¬ a = d.action := fun e => h e.symm
      simp [remember, TaskMem.setLast, lastDeed, h, h', ih]

theorem remember_status (l : List Deed) (m : TaskMem) :
    (l.foldl remember m).status = (l.getLast?.map Deed.action).or m.status := by
  induction l using snoc_ind with
  | nil => simp
  | snoc l d ih => rw [List.foldl_append]; simp [remember]

/-- **C107 (the part that holds: what the task itself remembers).**  As long as the scheduler is not started anew and
the status is not read from the log, status and times of the last actions are those of the task object, whatever it was
called and whoever else had its names. -/
theorem C107_cached_partial (ids : List Nat) (nm : Nat → String) (ops : List Op) (id : Nat) (a : Action) :
    (((Named.init false ids nm).run ops).mem id).last a = lastDeed Deed.noted a (deedsOf id (deeds ids nm ops)) ∧
    (((Named.init false ids nm).run ops).mem id).status =
      ((deedsOf id (deeds ids nm ops)).getLast?).map Deed.action := by
  rw [run_mem ops (Named.init false ids nm) rfl id]
  constructor
  · rw [remember_last]; simp [Named.init, TaskMem.fresh]
  · rw [remember_status]; simp [Named.init, TaskMem.fresh]

example : (((Named.init false [1, 2] (fun i => if i = 1 then "a" else "b")).run
    [.log 1 .run 10 11, .rename 1 "c", .rename 2 "a", .log 2 .run 12 13, .log 1 .success 14 15]).mem 1).last .run = some 10 := by
  decide

/-- The records that are found under a name. -/
theorem records_called (fl : Bool) (ids : List Nat) (nm : Nat → String) (ops : List Op) (n : String) (q : Record → Bool) :
    recordsBy ((Named.init fl ids nm).run ops).repo n q =
      (((deeds ids nm ops).filter (fun d => decide (d.calledThen = n))).map deedRecord).filter q := by
  rw [run_repo]
  simp only [Named.init, List.nil_append, recordsBy]
  induction deeds ids nm ops with
  | nil => rfl
  | cons d l ih =>
    by_cases h : d.calledThen = n
    · by_cases hq : q (deedRecord d) = true
      · simp [h, deedRecord] at hq ⊢
        simp [hq]; exact ih
      · simp only [Bool.not_eq_true] at hq
        simp [h, deedRecord] at hq ⊢
        simp [hq]; exact ih
    · simp [h, deedRecord]; exact ih

/-- **C107 (the part that holds: what the log gives).**  If a task was called by its present name whenever it did
something, and nobody else did anything under this name, then the records found for it are those of its own actions. -/
theorem C107_log_partial (fl : Bool) (ids : List Nat) (nm : Nat → String) (ops : List Op) (id : Nat)
    (h : ∀ d ∈ deeds ids nm ops, d.calledThen = ((Named.init fl ids nm).run ops).name id ↔ d.author = id) :
    (recordsBy ((Named.init fl ids nm).run ops).repo (((Named.init fl ids nm).run ops).name id) (fun _ => true)).map
        (fun r => (r.action, r.created)) =
      (deedsOf id (deeds ids nm ops)).map (fun d => (d.action, d.created)) := by
  rw [records_called]
  have : (deeds ids nm ops).filter (fun d => decide (d.calledThen = ((Named.init fl ids nm).run ops).name id)) =
      deedsOf id (deeds ids nm ops) := by
    unfold deedsOf
    apply List.filter_congr
    intro d hd
    exact decide_eq_decide.2 (h d hd)
  rw [this, List.filter_eq_self.2 (fun _ _ => rfl), List.map_map]
  rfl

example : ∀ d ∈ deeds [1, 2] (fun i => if i = 1 then "a" else "b")
    [.rename 1 "c", .log 1 .run 10 11, .log 2 .run 12 13, .log 1 .success 14 15],
    d.calledThen = ((Named.init true [1, 2] (fun i => if i = 1 then "a" else "b")).run
      [.rename 1 "c", .log 1 .run 10 11, .log 2 .run 12 13, .log 1 .success 14 15]).name 1 ↔ d.author = 1 := by
  decide

theorem named_run_append (s : Named) (l k : List Op) : s.run (l ++ k) = (s.run l).run k := List.foldl_append

/-- **C107 is violated: the log forgets.**  After a task was given a name under which nothing was logged, no record is
found for it: read from the log it has no status and never did anything, and after a new start of the scheduler the task
itself does not remember anything either.  This is so whatever it has done before. -/
theorem C107_forgets_violated (fl : Bool) (ids : List Nat) (nm : Nat → String) (ops : List Op) (id : Nat) (v : String)
    (hfree : ((Named.init fl ids nm).run ops).taken v = false)
    (hnew : ∀ d ∈ deeds ids nm ops, d.calledThen ≠ v) (a : Action) (now created : Int) :
    let s := (Named.init fl ids nm).run (ops ++ [.rename id v])
    s.name id = v ∧
    (∀ q, recordsBy s.repo (s.name id) q = []) ∧
    lastActionFromLog s.repo (s.name id) a = none ∧
    (getStatus true s.repo (s.name id) (s.mem id)).1 = none ∧
    ((s.restart id now created).mem id).last a = none := by
  intro s
  have hs : s = ((Named.init fl ids nm).run ops).rename id v := by
    show (Named.init fl ids nm).run (ops ++ [.rename id v]) = _
    rw [named_run_append]; rfl
  have hname : s.name id = v := by
    rw [hs, Named.rename, if_neg (by simp [hfree])]; simp
  have hrepo : s.repo = ((Named.init fl ids nm).run ops).repo := by
    rw [hs, Named.rename, if_neg (by simp [hfree])]
  have hrec : ∀ q, recordsBy s.repo v q = [] := by
    intro q
    rw [hrepo, records_called]
    have : (deeds ids nm ops).filter (fun d => decide (d.calledThen = v)) = [] := by
      rw [List.filter_eq_nil_iff]
      intro d hd h
      exact hnew d hd (of_decide_eq_true h)
    rw [this]; rfl
  have hlast : ∀ b, lastActionFromLog s.repo v b = none := by
    intro b; simp [lastActionFromLog, latestBy, hrec]
  rw [hname]
  refine ⟨rfl, hrec, hlast a, ?_, ?_⟩
  · simp [getStatus, latestBy, hrec]
  · have hc : cachedTimes s.repo v = [] := by simp [cachedTimes, hlast]
    simp [Named.restart, setCached, hname, hc, latestAction, hlast]

example : ((Named.init false [1] (fun _ => "a")).run [.log 1 .run 10 11]).taken "b" = false ∧
    (∀ d ∈ deeds [1] (fun _ => "a") [.log 1 .run 10 11], d.calledThen ≠ "b") ∧
    deedsOf 1 (deeds [1] (fun _ => "a") [.log 1 .run 10 11]) ≠ [] := by decide

/-- **C107 is violated: the log gives the deeds of others.**  A task that never did anything is given a name that is free
(its task was removed or renamed): all that was done under this name counts as done by it. -/
theorem C107_inherits_violated (fl : Bool) (ids : List Nat) (nm : Nat → String) (ops : List Op) (id : Nat) (v : String)
    (hfree : ((Named.init fl ids nm).run ops).taken v = false)
    (_hidle : deedsOf id (deeds ids nm ops) = []) (a : Action) :
    let s := (Named.init fl ids nm).run (ops ++ [.rename id v])
    lastActionFromLog s.repo (s.name id) a =
      lastDeed Deed.created a ((deeds ids nm ops).filter (fun d => decide (d.calledThen = v))) := by
  intro s
  have hs : s = ((Named.init fl ids nm).run ops).rename id v := by
    show (Named.init fl ids nm).run (ops ++ [.rename id v]) = _
    rw [named_run_append]; rfl
  have hname : s.name id = v := by
    rw [hs, Named.rename, if_neg (by simp [hfree])]; simp
  have hrepo : s.repo = ((Named.init fl ids nm).run ops).repo := by
    rw [hs, Named.rename, if_neg (by simp [hfree])]
  rw [hname, lastActionFromLog, latestBy, hrepo, records_called, lastDeed]
  generalize (deeds ids nm ops).filter (fun d => decide (d.calledThen = v)) = l
  have : (l.map deedRecord).filter (isAction a) = (l.filter (fun d => decide (d.action = a))).map deedRecord := by
    rw [List.filter_map]; rfl
  rw [this, List.getLast?_map, Option.map_map]
  rfl

example : ((Named.init false [1, 2] (fun i => if i = 1 then "a" else "b")).run
      [.log 1 .run 10 11, .log 1 .success 12 13, .remove 1]).taken "a" = false ∧
    deedsOf 2 (deeds [1, 2] (fun i => if i = 1 then "a" else "b") [.log 1 .run 10 11, .log 1 .success 12 13, .remove 1]) = [] ∧
    lastDeed Deed.created .success ((deeds [1, 2] (fun i => if i = 1 then "a" else "b")
      [.log 1 .run 10 11, .log 1 .success 12 13, .remove 1]).filter (fun d => decide (d.calledThen = "a"))) = some 13 := by
  decide

/-- **C107 is violated: contradictory answers.**  After a new name, a condition on an action the task did in the period
is true (the task remembers it), while it was done neither once nor any other number of times (the log is counted). -/
theorem C107_count_violated (ids : List Nat) (nm : Nat → String) (ops : List Op) (id : Nat) (v : String)
    (hfree : ((Named.init false ids nm).run ops).taken v = false)
    (hnew : ∀ d ∈ deeds ids nm ops, d.calledThen ≠ v) (a : Action) (span : Int × Int) (t : Int)
    (hlast : lastDeed Deed.noted a (deedsOf id (deeds ids nm ops)) = some t) (hin : span.1 ≤ t ∧ t ≤ span.2) :
    let s := (Named.init false ids nm).run (ops ++ [.rename id v])
    statusObserve s.fromLogs (.one a) [] span (s.name id) (s.mem id) s.repo = true ∧
    (∀ n : Int, 1 ≤ n → statusObserve s.fromLogs (.one a) [(.eq, n)] span (s.name id) (s.mem id) s.repo = false) ∧
    statusObserve s.fromLogs (.one a) [(.eq, 0)] span (s.name id) (s.mem id) s.repo = false := by
  intro s
  have hf : s.fromLogs = false := run_fromLogs (ops ++ [.rename id v]) (Named.init false ids nm)
  have hrec := (C107_forgets_violated false ids nm ops id v hfree hnew a 0 0).2.1
  have hmem : (s.mem id).last a = some t := by
    have hs : s = ((Named.init false ids nm).run ops).rename id v := by
      show (Named.init false ids nm).run (ops ++ [.rename id v]) = _
      rw [named_run_append]; rfl
    rw [hs, Named.rename, if_neg (by simp [hfree])]
    exact ((C107_cached_partial ids nm ops id a).1).trans hlast
  have hm : measuredTimes s.repo (s.name id) (.one a) span.1 span.2 = [] := by
    simp only [measuredTimes]
    rw [hrec]; rfl
  have hw : within span.1 span.2 t = true := by simp [within, hin.1, hin.2]
  have hlt : ¬ t < span.1 := by omega
  have e : ∀ n : Int, compEntries [(Comp.eq, n)] = [(.eq, n)] := fun n => rfl
  have e0 : compEntries [] = [] := rfl
  refine ⟨?_, ?_, ?_⟩
  · simp [statusObserve, hf, cachedFeatures, hmem, hw, hlt, isEqualZero, isAnyOverZero, e0]
  · intro n hn
    have : ¬ n = 0 := by omega
    have h0 : ¬ (0 : Int) = n := by omega
    simp [statusObserve, hf, hm, cachedFeatures, hmem, hw, hlt, isEqualZero, isAnyOverZero, e, this, compState, Comp.holds, h0]
  · simp [statusObserve, hf, cachedFeatures, hmem, hw, hlt, isEqualZero, e]

/-- **C107 is violated: dependants run again.**  A task that waits for another one (`after_success`, `after_fail`,
`after_finish`) and has run since is due again at once when it gets a new name, as its last start is not found. -/
theorem C107_again_violated (fl : Bool) (ids : List Nat) (nm : Nat → String) (ops : List Op) (id : Nat) (v : String)
    (hfree : ((Named.init fl ids nm).run ops).taken v = false)
    (hnew : ∀ d ∈ deeds ids nm ops, d.calledThen ≠ v) (acts : List Action) (dep : String) (d : Deed)
    (hd : d ∈ deeds ids nm ops) (hdep : d.calledThen = dep) (hact : d.action ∈ acts) :
    let s := (Named.init fl ids nm).run (ops ++ [.rename id v])
    dependState s.repo (s.name id) dep acts = true := by
  intro s
  have hF := C107_forgets_violated fl ids nm ops id v hfree hnew .run 0 0
  have hlatest : latestBy s.repo (s.name id) (isAction .run) = none := by
    rw [latestBy, hF.2.1]; rfl
  have hs : s = ((Named.init fl ids nm).run ops).rename id v := by
    show (Named.init fl ids nm).run (ops ++ [.rename id v]) = _
    rw [named_run_append]; rfl
  have hrepo : s.repo = ((Named.init fl ids nm).run ops).repo := by
    rw [hs, Named.rename, if_neg (by simp [hfree])]
  have hmem : deedRecord d ∈ recordsBy s.repo dep (fun r => decide (r.action ∈ acts)) := by
    rw [hrepo, records_called]
    refine List.mem_filter.2 ⟨List.mem_map.2 ⟨d, List.mem_filter.2 ⟨hd, by simp [hdep]⟩, rfl⟩, ?_⟩
    exact decide_eq_true hact
  have hne : latestBy s.repo dep (fun r => decide (r.action ∈ acts)) ≠ none := by
    intro hc
    rw [latestBy, List.getLast?_eq_none_iff] at hc
    rw [hc] at hmem
    exact nomatch hmem
  unfold dependState
  cases hx : latestBy s.repo dep (fun r => decide (r.action ∈ acts)) with
  | none => exact absurd hx hne
  | some f => rw [hlatest]

/-- For tasks of which the log is right, the memory after a new start of the scheduler is right, too. -/
theorem C107_restart_partial (fl : Bool) (ids : List Nat) (nm : Nat → String) (ops : List Op) (id : Nat)
    (h : ∀ d ∈ deeds ids nm ops, d.calledThen = ((Named.init fl ids nm).run ops).name id ↔ d.author = id)
    (a : Action) (ha : a ≠ .crash) (now created : Int) :
    ((((Named.init fl ids nm).run ops).restart id now created).mem id).last a =
      lastDeed Deed.created a (deedsOf id (deeds ids nm ops)) := by
  have hl : ∀ b, lastActionFromLog ((Named.init fl ids nm).run ops).repo (((Named.init fl ids nm).run ops).name id) b =
      lastDeed Deed.created b (deedsOf id (deeds ids nm ops)) := by
    intro b
    rw [lastActionFromLog, latestBy, records_called, lastDeed]
    have : (deeds ids nm ops).filter (fun d => decide (d.calledThen = ((Named.init fl ids nm).run ops).name id)) =
        deedsOf id (deeds ids nm ops) := by
      unfold deedsOf
      apply List.filter_congr
      intro d hd
      exact decide_eq_decide.2 (h d hd)
    rw [this]
    generalize deedsOf id (deeds ids nm ops) = l
    have : (l.map deedRecord).filter (isAction b) = (l.filter (fun d => decide (d.action = b))).map deedRecord := by
      rw [List.filter_map]; rfl
    rw [this, List.getLast?_map, Option.map_map]
    rfl
  generalize (Named.init fl ids nm).run ops = s at hl ⊢
  simp only [Named.restart, if_true, setCached]
  rw [← hl a]
  cases latestAction (cachedTimes s.repo (s.name id)) with
  | none => rfl
  | some b =>
    cases b <;> try rfl
    simp only [setStatus, getLastAction, TaskMem.setLast, if_neg ha]
    cases s.fromLogs
    · simp
    · by_cases hr : a = .run
      · subst hr; simp
      · simp [hr]

/- The hypotheses of `C107_count_violated`: a success at 12, and a new name. -/
example : ((Named.init false [1] (fun _ => "a")).run [.log 1 .run 10 11, .log 1 .success 12 13]).taken "b" = false ∧
    (∀ d ∈ deeds [1] (fun _ => "a") [.log 1 .run 10 11, .log 1 .success 12 13], d.calledThen ≠ "b") ∧
    lastDeed Deed.noted .success (deedsOf 1 (deeds [1] (fun _ => "a") [.log 1 .run 10 11, .log 1 .success 12 13])) = some 12 := by
  decide

/- The first task succeeded and the second ran since: not due; with a new name it is due. -/
example :
    let ops := [Op.log 1 .run 10 11, .log 1 .success 12 13, .log 2 .run 14 15, .log 2 .success 16 17]
    let s := (Named.init false [1, 2] (fun i => if i = 1 then "a" else "b")).run ops
    let s' := (Named.init false [1, 2] (fun i => if i = 1 then "a" else "b")).run (ops ++ [.rename 2 "c"])
    dependState s.repo "b" "a" dependSuccess = false ∧ dependState s'.repo "c" "a" dependSuccess = true := by
  decide

/-- **C107 is violated: others cannot find it.**  Conditions that name the task by its former name raise `KeyError`. -/
theorem C107_named_violated (s : Named) (id : Nat) (v : String) (hin : id ∈ s.ids)
    (hone : ∀ i ∈ s.ids, s.name i = s.name id → i = id) (hfree : s.taken v = false)
    (w : Sit) (hw : w.tasks = (s.rename id v).ids.map (s.rename id v).name) (k : DepKind) :
    w.depend k (s.name id) = .error .key := by
  have hvn : v ≠ s.name id := by
    intro e
    have : s.taken v = true := (taken_iff s v).2 ⟨id, hin, e.symm⟩
    rw [hfree] at this
    exact nomatch this
  have : s.name id ∉ w.tasks := by
    rw [hw, Named.rename, if_neg (by simp [hfree])]
    intro hm
    obtain ⟨i, hi, e⟩ := List.mem_map.1 hm
    simp only at hi e
    by_cases h : i = id
    · rw [if_pos h] at e
      exact hvn e
    · rw [if_neg h] at e
      exact h (hone i hi e)
  rw [Sit.depend, Sit.lookup, if_neg this]

example : let s := Named.init false [1, 2] (fun i => if i = 1 then "a" else "b")
    1 ∈ s.ids ∧ (∀ i ∈ s.ids, s.name i = s.name 1 → i = 1) ∧ s.taken "c" = false ∧
    (s.rename 1 "c").ids.map (s.rename 1 "c").name = ["c", "b"] := by decide

end Rocketry.Props
