import Verif.Spec.CommandSpec

/-!
# Property C53: the command line of a command task
-/

namespace Rocketry.Props
open Rocketry.Command Rocketry.Spec

theorem flag_some (style p : String) : flag (some style) p = some (optionText style p) := by
  unfold flag optionText
  by_cases h : p.startsWith "-" = true
  · rw [if_pos h, if_pos h]
  · rw [if_neg h, if_neg h]; rfl

theorem join_cons (a : String) (l : List String) : String.join (a :: l) = a ++ String.join l := by
  simp [String.join_cons]

theorem build_line (style : String) : ∀ (params : List (String × String)) (c : Cmd),
    build (some style) c params = (commandLine style c params, false)
  | [], c => by cases c <;> simp [build, commandLine]
  | (p, v) :: rest, c => by
    unfold build
    rw [flag_some]
    simp only
    rw [build_line style rest]
    cases c with
    | text s =>
      simp only [Cmd.add, commandLine, List.map_cons, join_cons, String.append_assoc]
    | words l =>
      simp only [Cmd.add, commandLine, List.flatMap_cons, List.append_assoc]

/-- A single run, from any command. -/
theorem execute_line (style : String) (c : Cmd) (params : List (String × String)) :
    (execute (some style) c params).1 = some (commandLine style c params) := by
  unfold execute
  rw [build_line]
  rfl

theorem run_line (style : String) (c : Cmd) (b : Bool) (params : List (String × String)) :
    (run (some style) c b params).1 = some (commandLine style c params) := execute_line style c params

/-- A run that leaves the attribute alone. -/
def Leaves (c : Cmd) (r : Bool × List (String × String)) : Prop := (∃ s, c = .text s) ∨ r.1 = true ∨ r.2 = []

theorem run_leaves (style : String) (c : Cmd) (r : Bool × List (String × String)) (h : Leaves c r) :
    (run (some style) c r.1 r.2).2 = c := by
  obtain ⟨b, ps⟩ := r
  unfold run execute
  rw [build_line]
  rcases h with ⟨s, rfl⟩ | hb | hp
  · cases b <;> rfl
  · dsimp only at hb
    subst hb
    rfl
  · dsimp only at hp
    subst hp
    cases c <;> cases b <;> simp [commandLine]

/-- **C53**, partial: with a style set, each run of a task with a text as command, and each run of a task with a list
as command that runs in processes (or without parameters), executes the configured command followed by that run's
parameters, whatever ran before.  Missing: lists as commands of tasks that run in the scheduler's own process
(`C53_list_violated`) and tasks without `argform` (`C53_default_violated`). -/
theorem C53_line_partial (style : String) (c : Cmd) : ∀ (l : List (Bool × List (String × String))),
    (∀ r ∈ l, Leaves c r) → runs (some style) c l = l.map fun r => some (commandLine style c r.2)
  | [], _ => rfl
  | r :: rest, h => by
    obtain ⟨b, ps⟩ := r
    unfold runs
    have h1 := run_line style c b ps
    have h2 := run_leaves style c (b, ps) (h _ (List.mem_cons_self ..))
    rcases hq : run (some style) c b ps with ⟨line, c'⟩
    rw [hq] at h1
    dsimp only at h2
    rw [hq] at h2
    dsimp only at h1 h2
    subst h2
    simp only [List.map_cons]
    rw [h1, C53_line_partial style c' rest (fun x hx => h x (List.mem_cons_of_mem _ hx))]

/-- **C53** for every text. -/
theorem C53_text (style s : String) (l : List (Bool × List (String × String))) :
    runs (some style) (.text s) l = l.map fun r => some (commandLine style (.text s) r.2) :=
  C53_line_partial style _ l fun _ _ => .inl ⟨s, rfl⟩

example : runs (some "--") (.text "run") [(false, [("a", "1"), ("-b", "x y")]), (false, [("a", "2")])]
    = [some (.text "run --a \"1\" -b \"x y\""), some (.text "run --a \"2\"")] := by decide +kernel

/-- What happens with a list outside of processes: a run also gets the parameters of all runs before it. -/
theorem C53_list (style : String) : ∀ (l : List (List (String × String))) (c : List String) (params : List (String × String)),
    (runs (some style) (.words c) ((l.map fun ps => (false, ps)) ++ [(false, params)])).getLast?
      = some (some (commandLine style (.words c) (l.flatten ++ params)))
  | [], c, params => by
    simp only [List.map_nil, List.nil_append, List.flatten_nil]
    unfold runs
    have := run_line style (.words c) false params
    rcases hq : run (some style) (.words c) false params with ⟨line, c'⟩
    rw [hq] at this
    simp only [runs, List.getLast?_singleton]
    rw [show line = _ from this]
  | ps :: l, c, params => by
    have h2 : (run (some style) (.words c) false ps).2 = commandLine style (.words c) ps := by
      unfold run execute
      rw [build_line]
      rfl
    simp only [List.map_cons, List.cons_append]
    unfold runs
    rcases hq : run (some style) (.words c) false ps with ⟨line, c'⟩
    rw [hq] at h2
    dsimp only at h2
    subst h2
    simp only
    have ih := C53_list style l (c ++ ps.flatMap fun x => [optionText style x.1, x.2]) params
    have hne : runs (some style) (commandLine style (.words c) ps)
        (l.map (fun ps => (false, ps)) ++ [(false, params)]) ≠ [] := by
      intro he
      rw [show commandLine style (.words c) ps = Cmd.words (c ++ ps.flatMap fun x => [optionText style x.1, x.2]) from rfl]
        at he
      rw [he] at ih
      simp at ih
    rw [List.getLast?_cons_of_ne_nil hne]
    rw [show commandLine style (.words c) ps = Cmd.words (c ++ ps.flatMap fun x => [optionText style x.1, x.2]) from rfl]
    rw [ih]
    simp only [commandLine, List.flatten_cons, List.append_assoc, List.flatMap_append]

/-- **C53** fails for lists: the second run of a task repeats the parameters of the first. -/
theorem C53_list_violated : runs (some "-") (.words ["python3"]) [(false, [("c", "f()")]), (false, [("c", "g()")])]
    = [some (.words ["python3", "-c", "f()"]), some (.words ["python3", "-c", "f()", "-c", "g()"])] := by
  decide +kernel

/-- **C53** fails without `argform`: the validator that turns it into `--` does not run for a default value, so every
parameter whose name does not start with `-` makes the run fail. -/
theorem C53_default_violated (c : Cmd) (p v : String) (rest : List (String × String)) (b : Bool)
    (h : p.startsWith "-" = false) : (run none c b ((p, v) :: rest)).1 = none := by
  simp [run, execute, build, flag, h]

example : "a".startsWith "-" = false := by decide +kernel

end Rocketry.Props
