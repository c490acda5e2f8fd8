import Verif.Task.Shared
import Verif.Spec.SharedSpec

/-!
# C95: a condition looks at the tasks it is about and at no others
-/

namespace Rocketry.Props
open Rocketry Rocketry.Spec

theorem recordsBy_same {r1 r2 : List Record} {n : String}
    (h : r1.filter (fun r => decide (r.task = n)) = r2.filter (fun r => decide (r.task = n))) (q : Record → Bool) :
    recordsBy r1 n q = recordsBy r2 n q := by
  have e : ∀ l : List Record, recordsBy l n q = (l.filter (fun r => decide (r.task = n))).filter q := by
    intro l
    rw [recordsBy, List.filter_filter]
    exact List.filter_congr (fun r _ => Bool.and_comm _ _)
  rw [e, e, h]

theorem statusObserve_same {r1 r2 : List Record} {n : String}
    (h : r1.filter (fun r => decide (r.task = n)) = r2.filter (fun r => decide (r.task = n))) (b : Bool) (acts : Acts) (comps : Comps)
    (span : Int × Int) (t : TaskMem) : statusObserve b acts comps span n t r1 = statusObserve b acts comps span n t r2 := by
  simp only [statusObserve, measuredTimes, recordsBy_same h]

theorem statusCond_same {r1 r2 : List Record} {n : String}
    (h : r1.filter (fun r => decide (r.task = n)) = r2.filter (fun r => decide (r.task = n))) (fuel : Nat) (b : Bool) (acts : Acts)
    (comps : Comps) (p : Option Period) (now : Int) (t : TaskMem) :
    statusCond fuel b acts comps p now n t r1 = statusCond fuel b acts comps p now n t r2 := by
  simp only [statusCond, statusObserve_same h]

theorem statusOf_same {v w : Sit} {n : String} (hb : v.fromLogs = w.fromLogs) (hn : v.now = w.now) (h : SameTask v w n) (fuel : Nat)
    (acts : Acts) (comps : Comps) (p : Option Period) : v.statusOf fuel acts comps p n = w.statusOf fuel acts comps p n := by
  simp only [Sit.statusOf, bareStatus, hb, hn, h.mem, h.start, statusCond_same h.records]

theorem leaf_same {b : Builtin} {v w : Sit} (h : SameOf (· ∈ namedTasks b) v w) (fuel : Nat) : v.leaf fuel b = w.leaf fuel b := by
  have hs := h.self
  have exec : ∀ p, v.executable fuel p = w.executable fuel p := by
    intro p
    simp only [Sit.executable, Sit.statusNone, ← hs, h.now]
    cases hv : v.self with
    | none => rfl
    | some n =>
      obtain ⟨h1, h2⟩ := h.selfTask n hv
      simp only [h1, Rocketry.executable, Sit.reads, h.now, h.fromLogs, h2.mem, statusCond_same h2.records]
  cases b with
  | wrapper sc => exact exec _
  | executable p => exact exec _
  | executableFor past => exact exec _
  | isPeriod p => simp only [Sit.leaf, h.now]
  | status vb task period comps =>
    cases task with
    | some t =>
      obtain ⟨h1, h2⟩ := h.named (String.ofList t) (by simp [namedTasks])
      simp only [Sit.leaf, Sit.status, Sit.lookup]
      by_cases hm : String.ofList t ∈ v.tasks
      · rw [if_pos hm, if_pos (h1.1 hm), statusOf_same h.fromLogs h.now (h2 hm)]
      · rw [if_neg hm, if_neg (fun hw => hm (h1.2 hw))]
    | none =>
      simp only [Sit.leaf, Sit.status, ← hs]
      cases hv : v.self with
      | none => simp only [Sit.statusNone, h.now]
      | some n => exact statusOf_same h.fromLogs h.now (h.selfTask n hv).2 fuel _ _ _
  | schedStarted past => simp only [Sit.leaf, h.now, h.startup]
  | cycles comps => simp only [Sit.leaf, h.nCycles]
  | cron fields =>
    have : v.cron fuel = w.cron fuel := by
      funext c
      simp only [Sit.cron, ← hs]
      cases hv : v.self with
      | none => simp only [h.now]
      | some n =>
        obtain ⟨h1, h2⟩ := h.selfTask n hv
        simp only [h1, h.now, h.fromLogs, h2.mem, cronRunnable, statusObserve_same h2.records]
    simp only [Sit.leaf, this]
  | running t =>
    obtain ⟨h1, h2⟩ := h.named (String.ofList t) (by simp [namedTasks])
    simp only [Sit.leaf, Sit.lookup]
    by_cases hm : String.ofList t ∈ v.tasks
    · rw [if_pos hm, if_pos (h1.1 hm)]
      simp only [Sit.running, runningCount, h.fromLogs, h.hasRunId, (h2 hm).runs, recordsBy_same (h2 hm).records]
    · rw [if_neg hm, if_neg (fun hw => hm (h1.2 hw))]
  | depend k t =>
    obtain ⟨h1, h2⟩ := h.named (String.ofList t) (by simp [namedTasks])
    simp only [Sit.leaf, Sit.depend, Sit.lookup, ← hs]
    by_cases hm : String.ofList t ∈ v.tasks
    · rw [if_pos hm, if_pos (h1.1 hm)]
      cases hv : v.self with
      | none => rfl
      | some n => simp only [dependState, latestBy, recordsBy_same (h2 hm).records, recordsBy_same (h.selfTask n hv).2.records]
    · rw [if_neg hm, if_neg (fun hw => hm (h1.2 hw))]
  | env e => simp only [Sit.leaf, Sit.env, h.params]
  | params _ => rfl
  | paramIs _ _ => rfl

theorem sameOf_mono {P Q : String → Prop} {v w : Sit} (h : SameOf P v w) (hq : ∀ n, Q n → P n) : SameOf Q v w :=
  ⟨h.fromLogs, h.now, h.self, h.hasRunId, h.startup, h.nCycles, h.params, h.selfTask, fun n hn => h.named n (hq n hn)⟩

mutual

/-- C95: two situations that show the same of the task asked about and of the tasks named in a condition give the same
answer (or the same exception): whatever happens to other tasks does not matter. -/
theorem C95_looks (fuel : Nat) (v w : Sit) : ∀ c : Cond Builtin, SameOf (NamesTask · c) v w →
    Cond.observe (v.obs fuel) c = Cond.observe (w.obs fuel) c
  | .leaf b, h => by
    funext s
    simp only [Cond.observe, Sit.obs, leaf_same (sameOf_mono h (fun n hn => NamesTask.leaf hn))]
  | .alwaysTrue, _ => rfl
  | .alwaysFalse, _ => rfl
  | .any cs, h => by
    simp only [Cond.observe]
    exact looks_any fuel v w cs (sameOf_mono h (fun n ⟨_, hc, hn⟩ => NamesTask.any hc hn))
  | .all cs, h => by
    simp only [Cond.observe]
    exact looks_all fuel v w cs (sameOf_mono h (fun n ⟨_, hc, hn⟩ => NamesTask.all hc hn))
  | .not c, h => by
    simp only [Cond.observe, C95_looks fuel v w c (sameOf_mono h (fun _ => NamesTask.not))]

theorem looks_any (fuel : Nat) (v w : Sit) : ∀ cs : List (Cond Builtin), SameOf (fun n => ∃ c ∈ cs, NamesTask n c) v w →
    Cond.observe.observeAny (v.obs fuel) cs = Cond.observe.observeAny (w.obs fuel) cs
  | [], _ => rfl
  | c :: cs, h => by
    simp only [Cond.observe.observeAny, C95_looks fuel v w c (sameOf_mono h (fun n hn => ⟨c, List.mem_cons_self .., hn⟩)),
      looks_any fuel v w cs (sameOf_mono h (fun n ⟨d, hd, hn⟩ => ⟨d, List.mem_cons_of_mem _ hd, hn⟩))]

theorem looks_all (fuel : Nat) (v w : Sit) : ∀ cs : List (Cond Builtin), SameOf (fun n => ∃ c ∈ cs, NamesTask n c) v w →
    Cond.observe.observeAll (v.obs fuel) cs = Cond.observe.observeAll (w.obs fuel) cs
  | [], _ => rfl
  | c :: cs, h => by
    simp only [Cond.observe.observeAll, C95_looks fuel v w c (sameOf_mono h (fun n hn => ⟨c, List.mem_cons_self .., hn⟩)),
      looks_all fuel v w cs (sameOf_mono h (fun n ⟨d, hd, hn⟩ => ⟨d, List.mem_cons_of_mem _ hd, hn⟩))]

end

/-- C95: records of other tasks in the log, wherever they are, do not change what a condition says. -/
theorem C95_records (fuel : Nat) (v : Sit) (c : Cond Builtin) (log : List Record) (P : String → Prop) [DecidablePred P]
    (hc : ∀ n, NamesTask n c → P n) (hs : ∀ n, v.self = some n → P n)
    (hlog : log.filter (fun r => decide (P r.task)) = v.repo.filter (fun r => decide (P r.task))) :
    Cond.observe ((v.beside v.fromLogs log).obs fuel) c = Cond.observe (v.obs fuel) c := by
  have same : ∀ n, P n → SameTask (v.beside v.fromLogs log) v n := by
    intro n hn
    refine ⟨?_, rfl, rfl, rfl⟩
    have e : ∀ l : List Record, l.filter (fun r => decide (r.task = n)) =
        (l.filter (fun r => decide (P r.task))).filter (fun r => decide (r.task = n)) := by
      intro l
      rw [List.filter_filter]
      apply List.filter_congr
      intro r _
      by_cases h : r.task = n
      · simp [h, hn]
      · simp [h]
    show log.filter _ = v.repo.filter _
    rw [e, e v.repo, hlog]
  exact C95_looks fuel _ _ c ⟨rfl, rfl, rfl, rfl, rfl, rfl, rfl, fun n hn => ⟨Iff.rfl, same n (hs n hn)⟩,
    fun n hn => ⟨Iff.rfl, fun _ => same n (hc n hn)⟩⟩

/-- C95: in a process with several sessions that use one log, the conditions of a session say what they say when it is alone, if
no other session has a task of the same name and the default session has the same option. -/
theorem C95_sessions_partial (fuel : Nat) (v : Sit) (c : Cond Builtin) (log : List Record) (defaultFromLogs : Bool)
    (hself : ∀ n, v.self = some n → n ∈ v.tasks) (hdef : defaultFromLogs = v.fromLogs)
    (hlog : log.filter (fun r => decide (r.task ∈ v.tasks)) = v.repo) :
    Cond.observe ((v.beside defaultFromLogs log).obs fuel) c = Cond.observe (v.obs fuel) c := by
  subst hdef
  have same : ∀ n, n ∈ v.tasks → SameTask (v.beside v.fromLogs log) v n := by
    intro n hn
    refine ⟨?_, rfl, rfl, rfl⟩
    show log.filter _ = v.repo.filter _
    rw [← hlog, List.filter_filter]
    apply List.filter_congr
    intro r _
    by_cases h : r.task = n
    · simp [h, hn]
    · simp [h]
  exact C95_looks fuel _ _ c ⟨rfl, rfl, rfl, rfl, rfl, rfl, rfl, fun n hn => ⟨Iff.rfl, same n (hself n hn)⟩,
    fun n _ => ⟨Iff.rfl, fun hm => same n hm⟩⟩

/-- A session with the tasks `t` and `u`, asked about `t`. -/
def sampleSession : Sit where
  fromLogs := true
  now := 738000 * DAY + 100
  self := some "t"
  tasks := ["t", "u"]
  repo := [⟨"u", .run, 738000 * DAY + 10, 738000 * DAY + 10, some "1"⟩, ⟨"u", .success, 738000 * DAY + 20, 738000 * DAY + 20, some "1"⟩]
  mem := fun _ => TaskMem.fresh
  startCond := fun _ => .alwaysTrue
  runs := fun _ => []
  hasRunId := true
  startup := none
  nCycles := 0
  params := []

/-- after task 'u' and not: task 't' has succeeded -/
def sampleBeside : Cond Builtin := .all [.leaf (.depend .success c!"u"), .not (.leaf (.status .succeeded (some c!"t") none []))]

/-- A case for C95: a session beside one with the task `x`. -/
example : (([(⟨"x", .run, 738000 * DAY + 5, 738000 * DAY + 5, some "9"⟩ : Record)]) ++ sampleSession.repo ++
      [(⟨"x", .fail, 738000 * DAY + 30, 738000 * DAY + 30, some "9"⟩ : Record)]).filter (fun r => decide (r.task ∈ sampleSession.tasks)) =
    sampleSession.repo := by decide

example : (Cond.observe (sampleSession.obs 9) sampleBeside ()).1 = .ok true := by decide +kernel

/-- Violated for sessions that use one name for two tasks: a success of the task `t` of another session counts as one of this
session. -/
theorem C95_name_violated : ∃ (v : Sit) (c : Cond Builtin) (other : Record), v.self = some other.task ∧
    (Cond.observe (v.obs 9) c ()).1 = .ok true ∧ (Cond.observe ((v.beside v.fromLogs (v.repo ++ [other])).obs 9) c ()).1 = .ok false :=
  ⟨sampleSession, sampleBeside, ⟨"t", .success, 738000 * DAY + 50, 738000 * DAY + 50, some "7"⟩, rfl, by decide +kernel, by decide +kernel⟩

/-- Violated for the option `force_status_from_logs`: with the option on, the session says what the log says; if another session,
with the option off, becomes the default session, it does not. -/
theorem C95_option_violated : ∃ (v : Sit) (c : Cond Builtin), v.fromLogs = true ∧
    (Cond.observe (v.obs 9) c ()).1 = .ok true ∧ (Cond.observe ((v.beside false v.repo).obs 9) c ()).1 = .ok false :=
  ⟨sampleSession, .leaf (.status .succeeded (some c!"u") none []), rfl, by decide +kernel, by decide +kernel⟩

end Rocketry.Props
