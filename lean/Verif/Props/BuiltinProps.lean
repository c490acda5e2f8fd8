import Verif.Spec.BuiltinSpec

/-!
# C122: the arguments for the session, the task, the configuration and the loggers give what they stand for
-/

namespace Rocketry.Builtin

open Rocketry.Spec
open Rocketry.Args (Err)

/-- The task among the keywords. -/
def taskOpt (kw : Kw) : Option Nat := match kw.task with
  | .ref t => some t
  | _ => none

/-- The keywords are those for task `t` in session `s`. -/
def KwAgrees (kw : Kw) (t : Option Nat) (s : Nat) : Prop := kw.session = .ref s ∧ taskOpt kw = t

theorem fill_agrees (h : Heap) {kw : Kw} {t : Option Nat} {s : Nat} (hk : KwAgrees kw t s) (a : BArg) :
    ∃ kw', fill h kw a = .ok kw' ∧ KwAgrees kw' t s := by
  obtain ⟨kt, ks, kc⟩ := kw
  obtain ⟨h1, h2⟩ := hk
  simp only at h1
  subst h1
  cases a <;> cases kt <;> simp_all [fill, sessionValue, taskValue, Slot.over, toSlot, KwAgrees, taskOpt]

theorem lookup_found {h : Heap} {s : Nat} (hd : DistinctNames h s) {t : Nat} (ht : t ∈ h.tasks s) :
    lookup h s (h.name t) = .ok (.task t) := by
  unfold lookup
  cases hf : (h.tasks s).find? (fun t' => h.name t' == h.name t) with
  | none =>
    have := List.find?_eq_none.mp hf t ht
    simp at this
  | some t' =>
    have h1 := List.find?_some hf
    have h2 := List.mem_of_find?_eq_some hf
    have : t' = t := hd t' h2 t ht (by simpa using h1)
    simp [this]

theorem lookup_missing {h : Heap} {s : Nat} {n : String} (hn : ∀ t ∈ h.tasks s, h.name t ≠ n) :
    lookup h s n = .error .key := by
  unfold lookup
  have : (h.tasks s).find? (fun t' => h.name t' == n) = none := by
    simpa [List.find?_eq_none] using hn
  rw [this]

theorem lookup_sound {h : Heap} {s : Nat} {n : String} {v : Obj} (hl : lookup h s n = .ok v) :
    ∃ t ∈ h.tasks s, h.name t = n ∧ v = .task t := by
  unfold lookup at hl
  cases hf : (h.tasks s).find? (fun t' => h.name t' == n) with
  | none => rw [hf] at hl; cases hl
  | some t =>
    rw [hf] at hl
    have h1 := List.find?_some hf
    exact ⟨t, List.mem_of_find?_eq_some hf, by simpa using h1, by cases hl; rfl⟩

theorem getValue_task (h : Heap) (kw : Kw) (n : Option String) (d : Option Obj) :
    getValue h kw (.task n d) = taskValue h kw n d := by simp [getValue]

mutual
theorem represents_getValue {h : Heap} {t : Option Nat} {s : Nat} (hd : DistinctNames h s) {a : BArg} {v : Obj}
    (hr : Represents h t s a v) {kw : Kw} (hk : KwAgrees kw t s) : getValue h kw a = .ok v := by
  match hr with
  | .session d => simp [getValue, sessionValue, hk.1]
  | .task d t' ht =>
    have := hk.2
    cases hkt : kw.task <;> simp_all [getValue, taskValue, taskOpt]
  | .named n d t' hm hn =>
    subst hn
    simp [getValue, taskValue, hk.1, lookup_found hd hm]
  | .config => simp [getValue, configValue, hk.1]
  | .taskLogger =>
    have := hk.2
    cases hkt : kw.task <;> simp_all [getValue, taskLoggerValue, taskOpt, hk.1]
  | .schedLogger => simp [getValue, schedLoggerValue, hk.1]
  | .func f sig vs v hs hc => simp [getValue, represents_matList hd hs hk, hc]
  | .pipeHere a l v ha => simp [getValue, firstVal, represents_getValue hd ha hk]
  | .pipeNext n d l v hm hl =>
    have h1 := represents_getValue hd hl hk
    have h2 : getValue h kw (.task (some n) d) = .error .key := by
      simp [getValue, taskValue, hk.1, lookup_missing hm]
    simp only [getValue] at h1
    simp only [getValue_task] at h2
    simp [getValue, firstVal, h2, h1]
theorem represents_matList {h : Heap} {t : Option Nat} {s : Nat} (hd : DistinctNames h s) {l : List BArg} {vs : List Obj}
    (hr : RepresentsAll h t s l vs) {kw : Kw} (hk : KwAgrees kw t s) : matList h kw l = .ok vs := by
  match hr with
  | .nil => simp [matList]
  | .cons a l v vs ha hl =>
    obtain ⟨kw', h1, h2⟩ := fill_agrees h hk a
    simp [matList, h1, represents_getValue hd ha h2, represents_matList hd hl hk]
end

theorem represents_materialized {h : Heap} {t : Option Nat} {s : Nat} (hd : DistinctNames h s) {a : BArg} {v : Obj}
    (hr : Represents h t s a v) {kw : Kw} (hk : KwAgrees kw t s) : materialized h kw a = .ok v := by
  obtain ⟨kw', h1, h2⟩ := fill_agrees h hk a
  simp [materialized, h1, represents_getValue hd hr h2]

mutual
theorem represents_start {h : Heap} {t : Nat} (hd : DistinctNames h (h.sessionOf t)) {a : BArg} {v : Obj}
    (hr : Represents h (some t) (h.sessionOf t) a v) (hu : Unpiped a) :
    materialized h { task := .ref t } a = .ok v := by
  match hr with
  | .session d => simp [materialized, fill, getValue, sessionValue]
  | .task d t' ht =>
    cases ht
    simp [materialized, fill, getValue, sessionValue, taskValue]
  | .named n d t' hm hn =>
    subst hn
    simp [materialized, fill, getValue, sessionValue, taskValue, Slot.over, toSlot, lookup_found hd hm]
  | .config => simp [materialized, fill, getValue, sessionValue, configValue, Slot.over, toSlot]
  | .taskLogger => simp [materialized, fill, getValue, sessionValue, taskValue, taskLoggerValue, Slot.over, toSlot]
  | .schedLogger => simp [materialized, fill, getValue, sessionValue, schedLoggerValue, Slot.over, toSlot]
  | .func f sig vs v hs hc =>
    cases hu with
    | func _ _ hu => simp [materialized, fill, getValue, represents_startList hd hs hu, hc]
  | .pipeHere a l v ha => cases hu
  | .pipeNext n d l v hm hl => cases hu
theorem represents_startList {h : Heap} {t : Nat} (hd : DistinctNames h (h.sessionOf t)) {l : List BArg} {vs : List Obj}
    (hr : RepresentsAll h (some t) (h.sessionOf t) l vs) (hu : UnpipedAll l) :
    matList h { task := .ref t } l = .ok vs := by
  match hr with
  | .nil => simp [matList]
  | .cons a l v vs ha hl =>
    cases hu with
    | cons _ _ hu1 hu2 =>
      have h1 := represents_start hd ha hu1
      have h2 := represents_startList hd hl hu2
      unfold materialized at h1
      unfold matList
      cases hf : fill h { task := .ref t } a with
      | error e => rw [hf] at h1; cases h1
      | ok kw' =>
        rw [hf] at h1
        simp only at h1 ⊢
        rw [h1, h2]
end

theorem append_ne (a b : String) (hb : b.length ≠ 0) (c : String) (hc : c.length ≤ a.length) : c ≠ a ++ b := by
  intro he
  have := congrArg String.length he
  simp only [String.length_append] at this
  omega

end Rocketry.Builtin

namespace Rocketry.Props

open Rocketry.Builtin Rocketry.Spec
open Rocketry.Args (Err)

/-- **C122.** The parameters of a run, on main, async, in a thread or a process, and the arguments in an end condition give
what they stand for in the session of the task, through functions and pipes. -/
theorem C122_represents (h : Heap) (t : Nat) (w : Site) (hw : w ≠ .start) (a : BArg) (v : Obj)
    (hd : DistinctNames h (h.sessionOf t)) (hr : Represents h (some t) (h.sessionOf t) a v) :
    valueAt h t w a = .ok v := by
  have hk : KwAgrees { task := .ref t, session := .ref (h.sessionOf t) } (some t) (h.sessionOf t) := ⟨rfl, rfl⟩
  cases w with
  | main => exact represents_materialized hd hr hk
  | staged => exact represents_getValue hd hr hk
  | start => exact absurd rfl hw
  | finish => exact represents_materialized hd hr hk

/-- **C122**, in a start condition, which is observed without the session: what holds without pipes. -/
theorem C122_start_partial (h : Heap) (t : Nat) (a : BArg) (v : Obj) (hd : DistinctNames h (h.sessionOf t))
    (hr : Represents h (some t) (h.sessionOf t) a v) (hu : Unpiped a) : valueAt h t .start a = .ok v :=
  represents_start hd hr hu

/-- In the condition to shut down the arguments stand for the objects of the session of the scheduler, with no task. -/
theorem C122_shut_partial (h : Heap) (c : Nat) (a : BArg) (v : Obj) (hd : DistinctNames h (h.schedSession c))
    (hr : Represents h none (h.schedSession c) a v) : valueShut h c a = .ok v :=
  represents_materialized hd hr ⟨rfl, rfl⟩

/-- Conversely, whatever an argument other than a function or a pipe gives is what it stands for: no default is used where
there is a task. -/
theorem C122_only (h : Heap) (t : Nat) (w : Site) (a : BArg) (v : Obj) (hp : LeafArg a)
    (hv : valueAt h t w a = .ok v) : Represents h (some t) (h.sessionOf t) a v := by
  cases a with
  | session d =>
    cases w <;> simp [valueAt, materialized, fill, getValue, sessionValue] at hv <;> subst hv <;> exact .session d
  | task n d =>
    cases n with
    | none =>
      cases w <;> simp [valueAt, materialized, fill, getValue, sessionValue, taskValue] at hv <;> subst hv <;>
        exact .task d t rfl
    | some n =>
      have hl : lookup h (h.sessionOf t) n = .ok v := by
        cases w <;> simpa [valueAt, materialized, fill, getValue, sessionValue, taskValue, Slot.over, toSlot] using hv
      obtain ⟨t', h1, h2, h3⟩ := lookup_sound hl
      subst h3
      exact .named n d t' h1 h2
  | config =>
    cases w <;> simp [valueAt, materialized, fill, getValue, sessionValue, configValue, Slot.over, toSlot] at hv <;>
      subst hv <;> exact .config
  | taskLogger =>
    cases w <;> simp [valueAt, materialized, fill, getValue, sessionValue, taskValue, taskLoggerValue, Slot.over,
      toSlot] at hv <;> subst hv <;> exact .taskLogger
  | schedLogger =>
    cases w <;> simp [valueAt, materialized, fill, getValue, sessionValue, schedLoggerValue, Slot.over, toSlot] at hv <;>
      subst hv <;> exact .schedLogger
  | func f sig => exact hp.elim
  | pipe l => exact hp.elim

/-- **C122 does not hold** for a pipe in a start condition: `Config()` and the loggers in it raise AttributeError, a named
task TypeError, whatever comes next in the pipe; at all other places the same pipe gives the object. -/
theorem C122_pipe_violated (h : Heap) (t : Nat) (l : List BArg) :
    valueAt h t .start (.pipe (.config :: l)) = .error .attr
      ∧ valueAt h t .start (.pipe (.taskLogger :: l)) = .error .attr
      ∧ valueAt h t .start (.pipe (.schedLogger :: l)) = .error .attr
      ∧ (∀ n d, valueAt h t .start (.pipe (.task (some n) d :: l)) = .error .type)
      ∧ Represents h (some t) (h.sessionOf t) (.pipe (.config :: l)) (.config (h.sessionOf t))
      ∧ ∀ w, w ≠ .start → valueAt h t w (.pipe (.config :: l)) = .ok (.config (h.sessionOf t)) := by
  refine ⟨?_, ?_, ?_, ?_, .pipeHere _ _ _ .config, ?_⟩
  · simp [valueAt, materialized, fill, getValue, firstVal, configValue]
  · simp [valueAt, materialized, fill, getValue, firstVal, taskLoggerValue]
  · simp [valueAt, materialized, fill, getValue, firstVal, schedLoggerValue]
  · intro n d
    simp [valueAt, materialized, fill, getValue, firstVal, taskValue]
  · intro w hw
    cases w <;> first
      | exact absurd rfl hw
      | simp [valueAt, materialized, fill, getValue, firstVal, configValue]

/-- In the condition to shut down there is no task: `Task()` raises TypeError. -/
theorem C122_shut_violated (h : Heap) (c : Nat) : valueShut h c (.task none none) = .error .type := by
  simp [valueShut, materialized, fill, getValue, sessionValue, taskValue]

/-- Shown or compared, `Config()` and the loggers raise AttributeError: the default in their signatures is an argument that
nobody evaluates. -/
theorem C122_shown_violated (h : Heap) :
    shown h .config = .error .attr ∧ shown h .taskLogger = .error .attr ∧ shown h .schedLogger = .error .attr := by
  simp [shown, getValue, configValue, taskLoggerValue, schedLoggerValue]

/-- What is passed goes before what the signature gives, also when it is None: with `session=None` beside a task,
`Session()` is the session of the task, but `Config()` raises AttributeError and the loggers are those of no session. -/
theorem C122_null_violated (h : Heap) (t : Nat) :
    materialized h { task := .ref t, session := .null } (.session none) = .ok (.session (h.sessionOf t))
      ∧ materialized h { task := .ref t, session := .null } .config = .error .attr
      ∧ materialized h { task := .ref t, session := .null } .taskLogger = .ok (.adapter "rocketry.task" (some t))
      ∧ materialized h { task := .ref t, session := .null } .schedLogger = .ok (.logger "rocketry.scheduler") := by
  simp [materialized, fill, getValue, sessionValue, taskValue, configValue, taskLoggerValue, schedLoggerValue, Slot.over]

/-- The logger that a task gets as parameter is the one of the configuration, also when the task logs to another. -/
theorem C122_own_logger_violated (h : Heap) (t : Nat) (w : Site) (hn : h.loggerName t ≠ h.taskBase (h.sessionOf t)) :
    ∃ n, valueAt h t w .taskLogger = .ok (.adapter n (some t)) ∧ n ≠ h.loggerName t := by
  refine ⟨h.taskBase (h.sessionOf t), ?_, hn.symm⟩
  cases w <;> simp [valueAt, materialized, fill, getValue, sessionValue, taskValue, taskLoggerValue, Slot.over, toSlot]

/-- What a task in a process logs with its `TaskLogger()` does not get to the queue of its run, and so not to the log of
the main process. -/
theorem C122_process_violated (h : Heap) (t : Nat) (hn : (h.taskBase (h.sessionOf t)).length ≤ (h.loggerName t).length) :
    ∃ n, valueAt h t .staged .taskLogger = .ok (.adapter n (some t)) ∧ ¬ reachesQueue (h.loggerName t) n := by
  refine ⟨h.taskBase (h.sessionOf t), ?_, ?_⟩
  · simp [valueAt, getValue, taskLoggerValue]
  · rintro (h1 | ⟨r, h1⟩)
    · exact append_ne _ _ (by decide) _ hn h1
    · rw [processLogger, String.append_assoc, String.append_assoc] at h1
      refine append_ne _ _ ?_ _ hn h1
      have : ("._process" : String).length = 9 := by decide
      simp only [String.length_append]
      omega

/-- A session with two tasks, the other one "b"; the function 0 gives its first value. -/
def builtinHeap : Heap where
  taskBase := fun _ => "rocketry.task"
  schedBase := fun _ => "rocketry.scheduler"
  tasks := fun s => if s = 7 then [1, 2] else []
  name := fun t => if t = 1 then "a" else "b"
  sessionOf := fun _ => 7
  loggerName := fun _ => "rocketry.task"
  schedSession := fun _ => 7
  call := fun _ vs => match vs with
    | v :: _ => .ok v
    | [] => .error .type

theorem builtinHeap_distinct : DistinctNames builtinHeap 7 := by
  intro t ht t' ht' hn
  simp [builtinHeap] at ht ht' hn
  rcases ht with rfl | rfl <;> rcases ht' with rfl | rfl <;> simp_all

/-- Non-vacuity of `C122_represents`: a function that asks for the task "b", within a pipe after a task that is not there. -/
example : valueAt builtinHeap 1 .staged (.pipe [.task (some "c") none, .func 0 [.task (some "b") none, .config]])
    = .ok (.task 2) := by
  refine C122_represents builtinHeap 1 .staged (by decide) _ _ builtinHeap_distinct ?_
  refine .pipeNext _ _ _ _ (by decide) (.pipeHere _ _ _ ?_)
  exact .func 0 _ [.task 2, .config 7] _ (.cons _ _ _ _ (.named _ _ 2 (by decide) (by decide)) (.cons _ _ _ _ .config .nil)) rfl

/-- Non-vacuity of `C122_start_partial`, `C122_shut_partial` and `C122_only`. -/
example : valueAt builtinHeap 1 .start (.func 0 [.taskLogger]) = .ok (.adapter "rocketry.task" (some 1)) :=
  C122_start_partial builtinHeap 1 _ _ builtinHeap_distinct
    (.func 0 _ [.adapter "rocketry.task" (some 1)] _ (.cons _ _ _ _ .taskLogger .nil) rfl)
    (.func _ _ (.cons _ _ .taskLogger .nil))

example : valueShut builtinHeap 0 (.task (some "a") none) = .ok (.task 1) :=
  C122_shut_partial builtinHeap 0 _ _ builtinHeap_distinct (.named _ _ 1 (by decide) (by decide))

example : Represents builtinHeap (some 1) 7 (.task (some "b") none) (.task 2) :=
  C122_only builtinHeap 1 .main _ _ trivial (by rfl)

/-- Non-vacuity of `C122_process_violated` and `C122_own_logger_violated`. -/
example : ∃ n, valueAt builtinHeap 1 .staged .taskLogger = .ok (.adapter n (some 1)) ∧ ¬ reachesQueue "rocketry.task" n :=
  C122_process_violated builtinHeap 1 (by decide)

example : ∃ n, valueAt { builtinHeap with loggerName := fun _ => "rocketry.task.own" } 1 .main .taskLogger
    = .ok (.adapter n (some 1)) ∧ n ≠ "rocketry.task.own" :=
  C122_own_logger_violated _ 1 .main (by decide)

end Rocketry.Props
