import Verif.Spec.FuncLinksSpec
import Mathlib.Tactic.ByContra

/-!
# C103: finding tasks and parameters by their functions
-/

namespace Rocketry.Props
open Spec Links

theorem links_run_append (w : World) (a b : List Act) : run w (a ++ b) = run (run w a) b := List.foldl_append

theorem links_run_cons (w : World) (a : Act) (l : List Act) : run w (a :: l) = run (step w a) l := rfl

/-- Adding a task. -/
theorem addTask_some {w w' : World} {s f : Nat} {n : String} (h : addTask w s f n = some w') :
    (w.session s).has n = false ∧ w'.link = w.link ∧ w'.next = w.next + 1 ∧
      (∀ i, (w'.session i).params = (w.session i).params) ∧
      ∀ i, (w'.session i).tasks = if i = s then (w.session s).tasks ++ [⟨w.next, f, n⟩] else (w.session i).tasks := by
  unfold addTask at h
  split at h
  · cases h
  · rename_i hn
    cases h
    refine ⟨by simpa using hn, rfl, rfl, ?_, ?_⟩
    · intro i
      simp only [World.setSession]
      split
      · rename_i e; rw [e]
      · rfl
    · intro i
      simp only [World.setSession]
      split <;> rfl

/-- Decorating other functions does not change the attribute. -/
theorem link_step {w : World} {a : Act} {f : Nat} (h : ¬ Decorates f a) : (step w a).link f = w.link f := by
  cases a with
  | decorate s g n =>
    simp only [Decorates] at h
    simp only [step]
    split
    · rfl
    · rename_i w' hw
      simp only [World.setLink, if_neg (fun e => h e.symm : ¬ f = g), (addTask_some hw).2.1]
  | create s g n =>
    simp only [step]
    cases hw : addTask w s g n with
    | none => rfl
    | some w' => simp only [Option.getD_some, (addTask_some hw).2.1]
  | param s g n =>
    simp only [Decorates] at h
    simp only [step, World.setLink, if_neg (fun e => h e.symm : ¬ f = g), World.setSession]
  | assign s n v => rfl
  | remove s n => rfl

/-- A task that is the first of its name stays so. -/
theorem task_step {w : World} {a : Act} {s : Nat} {n : String} {t : TaskObj}
    (ht : (w.session s).tasks.find? (fun t => decide (t.name = n)) = some t) (h : a ≠ .remove s n) :
    ((step w a).session s).tasks.find? (fun t => decide (t.name = n)) = some t := by
  have add : ∀ {i g m w'}, addTask w i g m = some w' →
      (w'.session s).tasks.find? (fun t => decide (t.name = n)) = some t := by
    intro i g m w' hw
    rw [(addTask_some hw).2.2.2.2 s]
    split
    · rename_i e
      rw [← e, List.find?_append, ht]
      rfl
    · exact ht
  cases a with
  | decorate i g m =>
    simp only [step]
    split
    · exact ht
    · rename_i w' hw
      have := add hw
      exact this
  | create i g m =>
    simp only [step]
    cases hw : addTask w i g m with
    | none => exact ht
    | some w' => exact add hw
  | param i g m =>
    simp only [step, World.setLink, World.setSession, Session.setParam]
    split
    · rename_i e; rw [← e]; exact ht
    · exact ht
  | assign i m v =>
    simp only [step, World.setSession, Session.setParam]
    split
    · rename_i e; rw [← e]; exact ht
    · exact ht
  | remove i m =>
    simp only [step, World.setSession]
    split
    · rename_i e
      subst e
      have hm : m ≠ n := fun e => h (by rw [e])
      rw [List.find?_filter]
      rw [← ht]
      congr 1
      funext t
      by_cases q : t.name = n
      · simp [q, Ne.symm hm]
      · simp [q]
    · exact ht

/-- A parameter keeps its value until it is given another. -/
theorem param_step {w : World} {a : Act} {s : Nat} {n : String} {v : String × PValue}
    (hv : (w.session s).params.find? (fun p => decide (p.1 = n)) = some v) (h : ¬ SetsParam s n a) :
    ((step w a).session s).params.find? (fun p => decide (p.1 = n)) = some v := by
  have set : ∀ m u, m ≠ n → ((w.session s).setParam m u).params.find? (fun p => decide (p.1 = n)) = some v := by
    intro m u hm
    simp only [Session.setParam]
    rw [List.find?_cons_of_neg (by simpa using hm), List.find?_filter, ← hv]
    congr 1
    funext p
    by_cases q : p.1 = n
    · simp [q, Ne.symm hm]
    · simp [q]
  cases a with
  | decorate i g m =>
    simp only [step]
    split
    · exact hv
    · rename_i w' hw
      simp only [World.setLink]
      rw [(addTask_some hw).2.2.2.1 s]
      exact hv
  | create i g m =>
    simp only [step]
    cases hw : addTask w i g m with
    | none => exact hv
    | some w' => rw [Option.getD_some, (addTask_some hw).2.2.2.1 s]; exact hv
  | param i g m =>
    simp only [step, World.setLink, World.setSession]
    split
    · rename_i e
      subst e
      exact set m _ (fun e => h ⟨rfl, e⟩)
    · exact hv
  | assign i m u =>
    simp only [step, World.setSession]
    split
    · rename_i e
      subst e
      exact set m _ (fun e => h ⟨rfl, e⟩)
    · exact hv
  | remove i m =>
    simp only [step, World.setSession]
    split
    · rename_i e; rw [← e]; exact hv
    · exact hv

/-- **C103 (part)**: after a function has been decorated as a task, `session[func]` is that task and `func in session`
is true, whatever is done afterwards except decorating the function again and removing the task. -/
theorem C103_task_partial (pre post : List Act) (s f : Nat) (n : String)
    (hfree : ((run .init pre).session s).has n = false) (hf : ∀ a ∈ post, ¬ Decorates f a)
    (hr : Act.remove s n ∉ post) :
    let w := run .init (pre ++ .decorate s f n :: post)
    getTask w s f = .ok ⟨(run .init pre).next, f, n⟩ ∧ hasTask w s f = .ok true := by
  intro w
  have key : ∀ (l : List Act) (v : World), v.link f = some (.task n) →
      (v.session s).tasks.find? (fun t => decide (t.name = n)) = some ⟨(run .init pre).next, f, n⟩ →
      (∀ a ∈ l, ¬ Decorates f a) → Act.remove s n ∉ l → getTask (run v l) s f = .ok ⟨(run .init pre).next, f, n⟩ := by
    intro l
    induction l with
    | nil =>
      intro v h1 h2 _ _
      simp only [run, List.foldl_nil, getTask, h1, h2]
    | cons a l ih =>
      intro v h1 h2 h3 h4
      rw [links_run_cons]
      refine ih _ ?_ (task_step h2 ?_) (fun b hb => h3 b (by simp [hb])) (fun hb => h4 (by simp [hb]))
      · rw [link_step (h3 a (by simp))]; exact h1
      · intro e; exact h4 (by simp [e])
  have hg : getTask w s f = .ok ⟨(run .init pre).next, f, n⟩ := by
    show getTask (run .init (pre ++ .decorate s f n :: post)) s f = _
    rw [links_run_append, links_run_cons]
    generalize run .init pre = v at *
    have hadd : addTask v s f n = some { v.setSession s { v.session s with tasks := (v.session s).tasks ++ [⟨v.next, f, n⟩] }
        with next := v.next + 1 } := by
      unfold addTask
      rw [if_neg (by simp [hfree])]
    refine key post _ ?_ ?_ hf hr
    · simp only [step, hadd, World.setLink, if_true]
    · simp only [step, hadd, World.setLink]
      simp only [World.setSession, if_true]
      rw [List.find?_append, show (v.session s).tasks.find? (fun t => decide (t.name = n)) = none from ?_]
      · simp
      · rw [List.find?_eq_none]
        intro t ht
        simp only [Session.has, List.any_eq_false] at hfree
        exact hfree t ht
  exact ⟨hg, by simp only [hasTask, hg]⟩

/-- A program for it, with another session, another task of the function, and a parameter. -/
example : getTask (run .init [.param 0 8 "p", .decorate 0 7 "a", .create 0 7 "b", .decorate 1 8 "a", .remove 0 "b"]) 0 7 =
    .ok ⟨0, 7, "a"⟩ := by
  decide

/-- **C103 (part)**: after a function has been decorated as a parameter, `session.parameters[func]` is the argument with
this function, whatever is done afterwards except decorating the function again and giving the parameter another value. -/
theorem C103_param_partial (pre post : List Act) (s f : Nat) (n : String) (hf : ∀ a ∈ post, ¬ Decorates f a)
    (hr : ∀ a ∈ post, ¬ SetsParam s n a) :
    getParam (run .init (pre ++ .param s f n :: post)) s f = .ok (.func f) := by
  have key : ∀ (l : List Act) (v : World), v.link f = some (.param n) →
      (v.session s).params.find? (fun p => decide (p.1 = n)) = some (n, .func f) →
      (∀ a ∈ l, ¬ Decorates f a) → (∀ a ∈ l, ¬ SetsParam s n a) → getParam (run v l) s f = .ok (.func f) := by
    intro l
    induction l with
    | nil =>
      intro v h1 h2 _ _
      simp only [run, List.foldl_nil, getParam, h1, h2]
    | cons a l ih =>
      intro v h1 h2 h3 h4
      rw [links_run_cons]
      refine ih _ ?_ (param_step h2 (h4 a (by simp))) (fun b hb => h3 b (by simp [hb])) (fun b hb => h4 b (by simp [hb]))
      rw [link_step (h3 a (by simp))]
      exact h1
  rw [links_run_append, links_run_cons]
  refine key post _ ?_ ?_ hf hr
  · simp only [step, World.setLink, if_true]
  · simp only [step, World.setLink, World.setSession, if_true, Session.setParam]
    rw [List.find?_cons_of_pos (by simp)]

example : getParam (run .init [.decorate 0 7 "a", .param 0 7 "p", .assign 1 "p" 3, .param 0 8 "q", .create 0 7 "b"]) 0 7 =
    .ok (.func 7) := by
  decide

/-- **C103 (part)**: a function that was not decorated is not found: TypeError for tasks, also for `func in session`,
KeyError for parameters. -/
theorem C103_plain (l : List Act) (s f : Nat) (h : ∀ a ∈ l, ¬ Decorates f a) :
    getTask (run .init l) s f = .error .type ∧ hasTask (run .init l) s f = .error .type ∧
      getParam (run .init l) s f = .error .key := by
  have key : ∀ (l : List Act) (v : World), v.link f = none → (∀ a ∈ l, ¬ Decorates f a) → (run v l).link f = none := by
    intro l
    induction l with
    | nil => intro v h _; exact h
    | cons a l ih =>
      intro v h1 h2
      rw [links_run_cons]
      refine ih _ ?_ (fun b hb => h2 b (by simp [hb]))
      rw [link_step (h2 a (by simp))]
      exact h1
  have hl := key l .init rfl h
  have hg : getTask (run .init l) s f = .error .type := by simp only [getTask, hl]
  refine ⟨hg, by simp only [hasTask, hg], by simp only [getParam, hl]⟩

example : ∀ a ∈ [Act.create 0 7 "a", .decorate 0 8 "b"], ¬ Decorates 7 a := by
  simp [Decorates]

/-- What the attributes and the tasks say, they owe to an action of the program. -/
def LinksOf (l : List Act) (w : World) : Prop :=
  (∀ f n, w.link f = some (.task n) → ∃ a ∈ l, MakesTask f n a) ∧
    ∀ s, ∀ t ∈ (w.session s).tasks, ∃ a ∈ l, MakesTask t.func t.name a

theorem linksOf_step {l : List Act} {w : World} (h : LinksOf l w) (a : Act) : LinksOf (l ++ [a]) (step w a) := by
  have old : LinksOf (l ++ [a]) w :=
    ⟨fun f n e => let ⟨b, hb, m⟩ := h.1 f n e; ⟨b, by simp [hb], m⟩,
     fun s t ht => let ⟨b, hb, m⟩ := h.2 s t ht; ⟨b, by simp [hb], m⟩⟩
  have add : ∀ {i g m w'}, MakesTask g m a → addTask w i g m = some w' →
      ∀ s, ∀ t ∈ (w'.session s).tasks, ∃ b ∈ l ++ [a], MakesTask t.func t.name b := by
    intro i g m w' hm hw s t ht
    rw [(addTask_some hw).2.2.2.2 s] at ht
    split at ht
    · rcases List.mem_append.1 ht with ht | ht
      · exact old.2 i t ht
      · simp only [List.mem_singleton] at ht
        subst ht
        exact ⟨a, by simp, hm⟩
    · exact old.2 s t ht
  cases a with
  | decorate i g m =>
    simp only [step]
    split
    · exact old
    · rename_i w' hw
      have hadd := add ⟨rfl, rfl⟩ hw
      refine ⟨?_, hadd⟩
      intro f n e
      simp only [World.setLink] at e
      split at e
      · rename_i hfg
        simp only [Option.some.injEq, Link.task.injEq] at e
        exact ⟨.decorate i g m, by simp, hfg.symm, e⟩
      · rw [(addTask_some hw).2.1] at e
        exact old.1 f n e
  | create i g m =>
    simp only [step]
    cases hw : addTask w i g m with
    | none => exact old
    | some w' =>
      refine ⟨?_, add ⟨rfl, rfl⟩ hw⟩
      intro f n e
      rw [Option.getD_some, (addTask_some hw).2.1] at e
      exact old.1 f n e
  | param i g m =>
    refine ⟨?_, ?_⟩
    · intro f n e
      simp only [step, World.setLink, World.setSession] at e
      split at e
      · simp at e
      · exact old.1 f n e
    · intro s t ht
      simp only [step, World.setLink, World.setSession, Session.setParam] at ht
      split at ht
      · exact old.2 i t ht
      · exact old.2 s t ht
  | assign i m u =>
    refine ⟨old.1, ?_⟩
    intro s t ht
    simp only [step, World.setSession, Session.setParam] at ht
    split at ht
    · exact old.2 i t ht
    · exact old.2 s t ht
  | remove i m =>
    refine ⟨old.1, ?_⟩
    intro s t ht
    simp only [step, World.setSession] at ht
    split at ht
    · exact old.2 i t (List.mem_filter.1 ht).1
    · exact old.2 s t ht

theorem linksOf_run (l : List Act) : LinksOf l (run .init l) := by
  have key : ∀ (l pre : List Act) (w : World), LinksOf pre w → LinksOf (pre ++ l) (run w l) := by
    intro l
    induction l with
    | nil => intro pre w h; simpa [run] using h
    | cons a l ih =>
      intro pre w h
      have := ih (pre ++ [a]) (step w a) (linksOf_step h a)
      rw [List.append_assoc] at this
      exact this
  refine key l [] .init ⟨?_, ?_⟩
  · intro f n h; cases h
  · intro s t h; cases h

/-- **C103 (part)**: if no name is given to tasks of two functions, `session[func]` is never the task of another
function, in whatever order the program does things. -/
theorem C103_own_partial (l : List Act) (h : NamesApart l) (s f : Nat) (t : TaskObj)
    (ht : getTask (run .init l) s f = .ok t) : t.func = f ∧ t ∈ ((run .init l).session s).tasks := by
  obtain ⟨h1, h2⟩ := linksOf_run l
  unfold getTask at ht
  split at ht
  · cases ht
  · cases ht
  · rename_i n hl
    split at ht
    · cases ht
    · rename_i u hu
      simp only [Except.ok.injEq] at ht
      subst ht
      have hm := List.mem_of_find?_eq_some hu
      have hn := List.find?_some hu
      simp only [decide_eq_true_eq] at hn
      obtain ⟨a, ha, ma⟩ := h1 f n hl
      obtain ⟨b, hb, mb⟩ := h2 s u hm
      rw [hn] at mb
      exact ⟨h b hb a ha _ _ n mb ma, hm⟩

example : getTask (run .init [.decorate 0 7 "a", .remove 0 "a", .decorate 1 8 "b", .decorate 0 7 "c"]) 0 7 =
    .ok ⟨2, 7, "c"⟩ := by
  decide

/-- **C103 violated**: making a parameter of a function that is a task loses the task: `session[func]` raises KeyError
and `func in session` is false in every session, although the tasks are all there. -/
theorem C103_lost_task_violated (l : List Act) (i f : Nat) (n : String) (s : Nat) :
    getTask (run .init (l ++ [.param i f n])) s f = .error .key ∧
      hasTask (run .init (l ++ [.param i f n])) s f = .ok false ∧
      ((run .init (l ++ [.param i f n])).session s).tasks = ((run .init l).session s).tasks := by
  have hg : getTask (run .init (l ++ [.param i f n])) s f = .error .key := by
    rw [links_run_append]
    simp only [run, List.foldl_cons, List.foldl_nil, step, getTask, World.setLink, if_true]
  refine ⟨hg, by simp only [hasTask, hg], ?_⟩
  rw [links_run_append]
  simp only [run, List.foldl_cons, List.foldl_nil, step, World.setLink, World.setSession, Session.setParam]
  split
  · rename_i e; rw [e]
  · rfl

/-- **C103 violated**: making a task of a function that is a parameter loses the parameter: it keeps its value, but
`session.parameters[func]` raises KeyError in every session. -/
theorem C103_lost_param_violated (l : List Act) (i f : Nat) (n : String) (s : Nat)
    (h : ((run .init l).session i).has n = false) :
    getParam (run .init (l ++ [.decorate i f n])) s f = .error .key ∧
      ((run .init (l ++ [.decorate i f n])).session s).params = ((run .init l).session s).params := by
  rw [links_run_append]
  generalize run .init l = v at *
  have hadd : addTask v i f n = some { v.setSession i { v.session i with tasks := (v.session i).tasks ++ [⟨v.next, f, n⟩] }
      with next := v.next + 1 } := by
    unfold addTask
    rw [if_neg (by simp [h])]
  constructor
  · simp only [run, List.foldl_cons, List.foldl_nil, step, hadd, getParam, World.setLink, if_true]
  · have := (addTask_some hadd).2.2.2.1 s
    simp only [run, List.foldl_cons, List.foldl_nil, step, hadd]
    exact this

/-- **C103 violated**: a function that is a task in two sessions, under two names, is found in the second only. -/
theorem C103_two_sessions_violated (s i f : Nat) (n m : String) (hs : s ≠ i) (hn : n ≠ m) :
    let w := run .init [.decorate s f n, .decorate i f m]
    getTask w s f = .error .key ∧ hasTask w s f = .ok false ∧ (w.session s).tasks = [⟨0, f, n⟩] ∧
      getTask w i f = .ok ⟨1, f, m⟩ := by
  have hs' : i ≠ s := Ne.symm hs
  simp [run, step, addTask, World.init, Session.has, World.setSession, World.setLink, getTask, hasTask, hs, hs', hn]

/-- **C103 violated**: a function can be taken for the task of another function, of the same name in another session. -/
theorem C103_foreign_violated (s i f g : Nat) (n : String) (hs : s ≠ i) (hf : f ≠ g) :
    let w := run .init [.decorate s f n, .decorate i g n]
    getTask w i f = .ok ⟨1, g, n⟩ ∧ ∀ t ∈ (w.session i).tasks, t.func ≠ f := by
  have hs' : i ≠ s := Ne.symm hs
  have hf' : g ≠ f := Ne.symm hf
  simp [run, step, addTask, World.init, Session.has, World.setSession, World.setLink, getTask, hs', hf, hf']

end Rocketry.Props
