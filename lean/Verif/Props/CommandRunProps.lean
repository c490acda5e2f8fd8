import Verif.Spec.CommandRunSpec
import Verif.Props.CommandProps

/-!
# Property C104: the outcome of a command task, and the end of its command
-/

namespace Rocketry.Props
open Rocketry.Command Rocketry.Spec

theorem executeOn_line (computer : Cmd → Behaviour) (style : String) (limit : Limit) (c : Cmd)
    (params : List (String × String)) :
    executeOn computer (some style) limit c params = wait limit (computer (commandLine style c params)) := by
  unfold executeOn
  rw [execute_line]

/-- **C104**, partial: without a time limit of its own a run that nobody terminates has the outcome of its command.
Missing: tasks with a `timeout` (`C104_limit_violated`). -/
theorem C104_outcome_partial (computer : Cmd → Behaviour) (style : String) (c : Cmd) (params : List (String × String)) :
    outcome (executeOn computer (some style) .none c params)
      = commandOutcome none (computer (commandLine style c params)) := by
  rw [executeOn_line]
  cases computer (commandLine style c params) with
  | missing => rfl
  | ends n code out =>
    by_cases h : code = 0
    · simp [wait, outcome, commandOutcome, h]
    · simp [wait, outcome, commandOutcome, h]
  | endless => rfl

/-- The outcome of a terminated run is its own, or the termination. -/
theorem outcomeTerminated_cases (way : Way) (k : Nat) (e : Ending) :
    outcomeTerminated way k e = outcome e ∨ outcomeTerminated way k e = .terminate k := by
  cases way <;> cases e <;> simp only [outcomeTerminated, outcome] <;> (try exact .inl trivial)
  · split <;> simp
  · split <;> simp
  · exact .inr trivial

/-- **C104**: a success is never claimed falsely.  With any limit, any way of execution, terminated or not, a run that
succeeds had a command that ended then, with code 0, and its value is what that command wrote. -/
theorem C104_success (computer : Cmd → Behaviour) (style : String) (limit : Limit) (c : Cmd)
    (params : List (String × String)) (way : Way) (k n : Nat) (out : String)
    (h : outcome (executeOn computer (some style) limit c params) = .success n out
      ∨ outcomeTerminated way k (executeOn computer (some style) limit c params) = .success n out) :
    computer (commandLine style c params) = .ends n 0 out := by
  have h1 : outcome (executeOn computer (some style) limit c params) = .success n out := by
    rcases h with h | h
    · exact h
    · rcases outcomeTerminated_cases way k (executeOn computer (some style) limit c params) with h2 | h2
      · rw [← h2]; exact h
      · rw [h2] at h; cases h
  rw [executeOn_line] at h1
  cases hb : computer (commandLine style c params) with
  | missing => rw [hb] at h1; cases h1
  | endless => rw [hb] at h1; cases limit <;> cases h1
  | ends m code o =>
    rw [hb] at h1
    cases limit with
    | delta d => cases h1
    | none =>
      by_cases hc : code = 0
      · simp only [wait, if_pos hc, outcome, Outcome.success.injEq] at h1
        rw [hc, h1.1, h1.2]
      · simp only [wait, if_neg hc, outcome] at h1
        cases h1

example : outcomeTerminated .process 7 (executeOn (fun l => if l = .text "run --a \"1\"" then .ends 5 0 "done" else .missing)
    (some "--") .none (.text "run") [("a", "1")]) = .success 5 "done" := by decide +kernel

theorem gone_not_running (b : Behaviour) (t : Nat) : CommandGone b t ↔ running b t = false := by
  cases b with
  | missing => simp [CommandGone, running]
  | ends n code out => simp [CommandGone, running]
  | endless => simp [CommandGone, running]

/-- **C104**, partial: without a time limit of its own, when a run that nobody terminates has ended, its command has ended.
Missing: a `timeout` (`C104_limit_violated`), termination (`C104_terminated_violated`). -/
theorem C104_gone_partial (computer : Cmd → Behaviour) (style : String) (c : Cmd) (params : List (String × String))
    (t : Nat) (h : endedAt (outcome (executeOn computer (some style) .none c params)) = some t) :
    CommandGone (computer (commandLine style c params)) t := by
  rw [C104_outcome_partial] at h
  cases hb : computer (commandLine style c params) with
  | missing => exact .inl rfl
  | endless => rw [hb] at h; cases h
  | ends n code out =>
    rw [hb] at h
    refine .inr ⟨n, code, out, rfl, ?_⟩
    by_cases hc : code = 0
    · simp only [commandOutcome, if_pos hc, endedAt, Option.some.injEq] at h
      exact Nat.le_of_eq h
    · simp only [commandOutcome, if_neg hc, endedAt, Option.some.injEq] at h
      exact Nat.le_of_eq h

example : outcome (executeOn (fun _ => .ends 5 2 "") (some "-") .none (.words ["ls"]) []) = .fail 5 := by decide +kernel

/-- **C104** fails with a `timeout`, whatever it is: every run fails as soon as the command has been started, also when the
command would end with code 0 well within the limit, and the command goes on after the run has ended.  `communicate` is
given the timedelta (command.py:87) and raises TypeError; only `TimeoutExpired` is caught and kills the command. -/
theorem C104_limit_violated (computer : Cmd → Behaviour) (style : String) (c : Cmd) (params : List (String × String))
    (limit : Nat) (n : Nat) (out : String) (hn : 0 < n) (hl : n ≤ limit)
    (hb : computer (commandLine style c params) = .ends n 0 out) :
    commandOutcome (some limit) (computer (commandLine style c params)) = .success n out
      ∧ outcome (executeOn computer (some style) (.delta limit) c params) = .fail 0
      ∧ ∀ t < n, ¬ CommandGone (computer (commandLine style c params)) t := by
  refine ⟨?_, ?_, ?_⟩
  · rw [hb]; simp [commandOutcome, hl]
  · rw [executeOn_line, hb]; rfl
  · intro t ht hg
    rw [gone_not_running, hb] at hg
    simp [running] at hg
    omega

example : (fun l : Cmd => if l = .text "run --a \"1\"" then Behaviour.ends 5 0 "done" else .endless)
      (commandLine "--" (.text "run") [("a", "1")]) = .ends 5 0 "done"
    ∧ (fun l : Cmd => if l = .text "run --a \"1\"" then Behaviour.ends 5 0 "done" else .endless)
      (commandLine "--" (.text "run") [("a", "2")]) = .endless := by decide +kernel

/-- With a `timeout` a command that never ends is never ended. -/
theorem C104_endless_violated (computer : Cmd → Behaviour) (style : String) (c : Cmd) (params : List (String × String))
    (limit : Nat) (hb : computer (commandLine style c params) = .endless) :
    outcome (executeOn computer (some style) (.delta limit) c params) = .fail 0
      ∧ ∀ t, ¬ CommandGone (computer (commandLine style c params)) t := by
  refine ⟨by rw [executeOn_line, hb]; rfl, fun t hg => ?_⟩
  rw [gone_not_running, hb] at hg
  cases hg

/-- **C104** fails for terminated runs in processes: the run is logged as terminated and its process is gone, but the
command is a process of that process and goes on. -/
theorem C104_terminated_violated (computer : Cmd → Behaviour) (style : String) (c : Cmd)
    (params : List (String × String)) (k n : Nat) (code : Int) (out : String) (hk : k < n)
    (hb : computer (commandLine style c params) = .ends n code out) :
    outcomeTerminated .process k (executeOn computer (some style) .none c params) = .terminate k
      ∧ ¬ CommandGone (computer (commandLine style c params)) k := by
  refine ⟨?_, fun hg => ?_⟩
  · rw [executeOn_line, hb]
    by_cases hc : code = 0
    · simp [wait, hc, outcomeTerminated, hk]
    · simp [wait, hc, outcomeTerminated, hk]
  · rw [gone_not_running, hb] at hg
    simp [running] at hg
    omega

/-- **C104** fails for terminated runs in threads: nothing is terminated, neither the run nor the command. -/
theorem C104_thread_violated (computer : Cmd → Behaviour) (style : String) (c : Cmd)
    (params : List (String × String)) (k : Nat) :
    outcomeTerminated .thread k (executeOn computer (some style) .none c params)
      = commandOutcome none (computer (commandLine style c params)) := by
  rw [← C104_outcome_partial]
  rfl

example : outcomeTerminated .thread 3 (executeOn (fun _ => .endless) (some "-") .none (.words ["top"]) []) = .none
    ∧ outcomeTerminated .process 3 (executeOn (fun _ => .endless) (some "-") .none (.words ["top"]) []) = .terminate 3 := by
  decide +kernel

/-- **C104**: the command gets every option of the task's `kwds_popen`; the options not there are the task's `cwd` and
`shell` and pipes. -/
theorem C104_options (cwd : Option String) (shell : Bool) (own : List (String × String)) (k : String) :
    (∀ pre post v, own = pre ++ (k, v) :: post → k ∉ post.map Prod.fst → popenOptions cwd shell own k = some v)
    ∧ (k ∉ own.map Prod.fst → k = "cwd" → popenOptions cwd shell own k = cwd)
    ∧ (k ∉ own.map Prod.fst → k = "shell" → popenOptions cwd shell own k = some (if shell then "True" else "False"))
    ∧ (k ∉ own.map Prod.fst → k ∈ ["stdin", "stdout", "stderr"] → popenOptions cwd shell own k = some "PIPE")
    ∧ (k ∉ own.map Prod.fst → k ∉ ["cwd", "shell", "stdin", "stdout", "stderr"] → popenOptions cwd shell own k = none) := by
  have hnone : ∀ l : List (String × String), k ∉ l.map Prod.fst → l.reverse.find? (fun p => decide (p.1 = k)) = none := by
    intro l hl
    rw [List.find?_eq_none]
    intro p hp hk
    exact hl (List.mem_map.2 ⟨p, List.mem_reverse.1 hp, of_decide_eq_true hk⟩)
  refine ⟨?_, ?_, ?_, ?_, ?_⟩
  · intro pre post v ho hp
    unfold popenOptions
    rw [ho, List.reverse_append, List.reverse_cons, List.append_assoc, List.find?_append, hnone post hp]
    simp
  all_goals intro ho hk
  all_goals unfold popenOptions
  all_goals rw [hnone own ho]
  · simp [hk]
  · simp [hk]
  · simp only [List.mem_cons, List.not_mem_nil, or_false] at hk
    rcases hk with rfl | rfl | rfl <;> simp
  · simp only [List.mem_cons, List.not_mem_nil, or_false, not_or] at hk
    simp [hk]

example : popenOptions (some "/tmp") true [("env", "E"), ("stdout", "None")] "stdout" = some "None"
    ∧ popenOptions (some "/tmp") true [("env", "E"), ("stdout", "None")] "cwd" = some "/tmp" := by decide +kernel

/-- **C104**: a run in a process that is terminated keeps the outcome it had by then, and is otherwise terminated then. -/
theorem C104_terminated_when (computer : Cmd → Behaviour) (style : String) (limit : Limit) (c : Cmd)
    (params : List (String × String)) (k : Nat) (o : Outcome)
    (ho : o = outcome (executeOn computer (some style) limit c params)) :
    ((∃ t ≤ k, endedAt o = some t) → outcomeTerminated .process k (executeOn computer (some style) limit c params) = o)
    ∧ ((¬ ∃ t ≤ k, endedAt o = some t) →
      outcomeTerminated .process k (executeOn computer (some style) limit c params) = .terminate k) := by
  subst ho
  generalize executeOn computer (some style) limit c params = e
  cases e with
  | value n out =>
    simp only [outcome, endedAt, outcomeTerminated, Option.some.injEq]
    refine ⟨fun ⟨t, ht, he⟩ => if_pos (he ▸ ht), fun h => if_neg fun hn => h ⟨n, hn, rfl⟩⟩
  | raised n =>
    simp only [outcome, endedAt, outcomeTerminated, Option.some.injEq]
    refine ⟨fun ⟨t, ht, he⟩ => if_pos (he ▸ ht), fun h => if_neg fun hn => h ⟨n, hn, rfl⟩⟩
  | waits => exact ⟨fun ⟨t, _, he⟩ => (nomatch he), fun _ => rfl⟩

example : outcome (executeOn (fun _ => .ends 5 2 "") (some "-") .none (.words ["ls"]) []) = .fail 5
    ∧ outcomeTerminated .process 7 (executeOn (fun _ => .ends 5 2 "") (some "-") .none (.words ["ls"]) []) = .fail 5
    ∧ outcomeTerminated .process 4 (executeOn (fun _ => .ends 5 2 "") (some "-") .none (.words ["ls"]) []) = .terminate 4 := by
  decide +kernel

/-- **C104**: with `argform` given as `long` or `--` the names of the parameters get two dashes, with `short` or `-` one;
anything else is refused. -/
theorem C104_argform (computer : Cmd → Behaviour) (given : String) (limit : Limit) (c : Cmd)
    (params : List (String × String)) :
    (given = "long" ∨ given = "--" →
      executeOn computer (parseArgform given) limit c params = wait limit (computer (commandLine "--" c params)))
    ∧ (given = "short" ∨ given = "-" →
      executeOn computer (parseArgform given) limit c params = wait limit (computer (commandLine "-" c params)))
    ∧ (given ∉ ["long", "--", "short", "-"] → parseArgform given = none) := by
  refine ⟨?_, ?_, ?_⟩
  · rintro (rfl | rfl) <;> exact executeOn_line computer "--" limit c params
  · rintro (rfl | rfl) <;> exact executeOn_line computer "-" limit c params
  · intro h
    simp only [List.mem_cons, List.not_mem_nil, or_false, not_or] at h
    unfold parseArgform
    split <;> simp_all

example : executeOn (fun l => if l = .text "run -a \"1\"" then .ends 5 0 "done" else .missing) (parseArgform "short") .none
    (.text "run") [("a", "1")] = .value 5 "done" := by decide +kernel

/-- **C104** fails without `argform`: a run with a parameter whose name begins with no dash fails at once, whatever the
command would do; it is not started. -/
theorem C104_default_violated (computer : Cmd → Behaviour) (limit : Limit) (c : Cmd) (p v : String)
    (rest : List (String × String)) (h : p.startsWith "-" = false) :
    outcome (executeOn computer none limit c ((p, v) :: rest)) = .fail 0 := by
  have h1 : (execute none c ((p, v) :: rest)).1 = none := C53_default_violated c p v rest false h
  unfold executeOn
  rw [h1]
  rfl

example : "a".startsWith "-" = false := by decide +kernel

end Rocketry.Props
