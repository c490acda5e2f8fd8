import Verif.Spec.DecorateSpec
import Mathlib.Data.List.Basic

/-!
# C101: decorators make tasks of functions
-/

namespace Rocketry.Props
open Rocketry.Decorate Rocketry.Spec

/-- A task that is not refused. -/
def WelcomeAll (accept : List Made → Made → Bool) : List Made → List Made → Prop
  | _, [] => True
  | ts, m :: ms => refusesLambda m = false ∧ accept ts m = true ∧ WelcomeAll accept (ts ++ [m]) ms

/-- What a decorator is known to be. -/
def ThingFits : Thing → Option Opts → Prop
  | .shell o, some o' => o = o'
  | .shell _, none => False
  | .task _, none => True
  | .task _, some _ => False

theorem opt_none {o : Opts} {k : String} : opt o k = none ↔ k ∉ o.map Prod.fst := by
  unfold opt
  simp only [Option.map_eq_none_iff, List.find?_eq_none, decide_eq_true_eq, List.mem_map, not_exists, not_and]

theorem make_welcome {accept : List Made → Made → Bool} {w : World} {m : Made} {ms : List Made}
    (h : WelcomeAll accept w.tasks (m :: ms)) : make accept w m = some { w with tasks := w.tasks ++ [m] } := by
  unfold make
  rw [h.1, h.2.1]
  simp

/-- The objects and what is known of them. -/
def KnownThings (ts : List Thing) (d : Decorators) : Prop :=
  ts.length = d.length ∧ ∀ (i : Nat) (t : Thing), ts[i]? = some t → ∃ x, d[i]? = some x ∧ ThingFits t x

theorem known_snoc {ts : List Thing} {d : Decorators} (h : KnownThings ts d) {t : Thing} {x : Option Opts} (hf : ThingFits t x) :
    KnownThings (ts ++ [t]) (d ++ [x]) := by
  refine ⟨by simp [h.1], fun i u hi => ?_⟩
  rcases Nat.lt_trichotomy i ts.length with hl | hl | hl
  · rw [List.getElem?_append_left hl] at hi
    rw [List.getElem?_append_left (h.1 ▸ hl)]
    exact h.2 i u hi
  · subst hl
    simp at hi
    subst hi
    exact ⟨x, by rw [h.1]; simp, hf⟩
  · rw [List.getElem?_eq_none (by simp; omega)] at hi
    simp at hi

theorem known_set {ts : List Thing} {d : Decorators} (h : KnownThings ts d) {i : Nat} {m : Made} :
    KnownThings (ts.set i (.task m)) (d.set i none) := by
  refine ⟨by simp [h.1], fun j u hj => ?_⟩
  by_cases hij : i = j
  · subst hij
    rw [List.getElem?_set] at hj ⊢
    simp only [if_true] at hj ⊢
    by_cases hl : i < ts.length
    · rw [if_pos hl] at hj
      rw [if_pos (h.1 ▸ hl)]
      cases hj
      exact ⟨none, rfl, trivial⟩
    · rw [if_neg hl] at hj; simp at hj
  · rw [List.getElem?_set_ne hij] at hj
    rw [List.getElem?_set_ne hij]
    exact h.2 j u hj

/-- The decorators that are left are decorators of the program. -/
def StillLeft (d' d : Decorators) : Prop := d'.length = d.length ∧ ∀ (i : Nat) o, d'[i]? = some (some o) → d[i]? = some (some o)

theorem left_snoc {d' d : Decorators} (h : StillLeft d' d) (x : Option Opts) : StillLeft (d' ++ [x]) (d ++ [x]) := by
  refine ⟨by simp [h.1], fun i o hi => ?_⟩
  rcases Nat.lt_or_ge i d'.length with hl | hl
  · rw [List.getElem?_append_left hl] at hi
    rw [List.getElem?_append_left (h.1 ▸ hl)]
    exact h.2 i o hi
  · rw [List.getElem?_append_right hl, h.1] at hi
    rw [List.getElem?_append_right (h.1 ▸ hl)]
    exact hi

theorem left_set {d' d : Decorators} (h : StillLeft d' d) (i : Nat) : StillLeft (d'.set i none) d := by
  refine ⟨by simp [h.1], fun j o hj => h.2 j o ?_⟩
  by_cases hij : i = j
  · subst hij
    rw [List.getElem?_set] at hj
    simp at hj
  · rwa [List.getElem?_set_ne hij] at hj

theorem decorated {accept : List Made → Made → Bool} (l : List Act) : ∀ (w : World) (d' d : Decorators),
    KnownThings w.things d' → StillLeft d' d → UsedOnce d' l → WelcomeAll accept w.tasks (shouldMake d l) →
    (run accept w l).tasks = w.tasks ++ shouldMake d l ∧ (run accept w l).failed = w.failed := by
  induction l with
  | nil => intro w d' d _ _ _ _; simp [run, shouldMake]
  | cons a l ih =>
    intro w d' d hk hl hu hw
    show (run accept (step accept w a).1 l).tasks = _ ∧ (run accept (step accept w a).1 l).failed = _
    cases a with
    | construct f o =>
      cases f with
      | some f =>
        simp only [shouldMake, UsedOnce] at hu hw ⊢
        have hm := make_welcome hw
        have hs : (step accept w (.construct (some f) o)).1 =
            { w with tasks := w.tasks ++ [taskOf f o], things := w.things ++ [.task (taskOf f o)] } := by
          simp only [step, construct, if_neg hu.1]
          rw [show (⟨some f, o⟩ : Made) = taskOf f o from rfl, hm]
        rw [hs]
        have := ih { w with tasks := w.tasks ++ [taskOf f o], things := w.things ++ [.task (taskOf f o)] } (d' ++ [none]) (d ++ [none])
          (known_snoc hk trivial) (left_snoc hl none) hu.2 hw.2.2
        simpa [List.append_assoc] using this
      | none =>
        simp only [shouldMake, UsedOnce] at hu hw ⊢
        by_cases hp : "path" ∈ o.map Prod.fst
        · rw [if_pos hp] at hu hw ⊢
          have hm := make_welcome hw
          have hs : (step accept w (.construct none o)).1 =
              { w with tasks := w.tasks ++ [⟨none, o⟩], things := w.things ++ [.task ⟨none, o⟩] } := by
            simp only [step, construct]
            rw [if_neg (fun h => opt_none.1 h hp), hm]
          rw [hs]
          have := ih { w with tasks := w.tasks ++ [⟨none, o⟩], things := w.things ++ [.task ⟨none, o⟩] } (d' ++ [none]) (d ++ [none])
            (known_snoc hk trivial) (left_snoc hl none) hu hw.2.2
          simpa [List.append_assoc] using this
        · rw [if_neg hp] at hu hw ⊢
          have hs : (step accept w (.construct none o)).1 = { w with things := w.things ++ [.shell o] } := by
            simp only [step, construct]
            rw [if_pos (opt_none.2 hp)]
          rw [hs]
          exact ih { w with things := w.things ++ [.shell o] } (d' ++ [some o]) (d ++ [some o])
            (known_snoc hk rfl) (left_snoc hl _) hu hw
    | call i f =>
      simp only [shouldMake, UsedOnce] at hu hw ⊢
      obtain ⟨⟨o, ho⟩, hu⟩ := hu
      rw [hl.2 i o ho] at hw ⊢
      simp only at hw ⊢
      have hlen : i < w.things.length := by
        rw [hk.1]
        exact (List.getElem?_eq_some_iff.1 ho).1
      obtain ⟨x, hx, hf⟩ := hk.2 i w.things[i] (List.getElem?_eq_getElem hlen)
      rw [ho] at hx
      cases hx
      have ht : w.things[i]? = some (.shell o) := by
        rw [List.getElem?_eq_getElem hlen]
        generalize w.things[i] = t at hf
        cases t with
        | shell o' => rw [show o' = o from hf]
        | task m => exact absurd hf id
      have hm := make_welcome hw
      have hs : (step accept w (.call i f)).1 =
          { w with tasks := w.tasks ++ [taskOf f o], things := w.things.set i (.task (taskOf f o)) } := by
        simp only [step, call, ht]
        rw [show (⟨some f, o⟩ : Made) = taskOf f o from rfl, hm]
      rw [hs]
      have := ih { w with tasks := w.tasks ++ [taskOf f o], things := w.things.set i (.task (taskOf f o)) } (d'.set i none) d
        (known_set hk) (left_set hl i) hu hw.2.2
      simpa [List.append_assoc] using this

/-- C101, as far as it holds: a program in which each decorator is applied once and no task is refused makes exactly the
tasks it should: one for each function that is decorated or given, in order, with the options given; and nothing is
run.  Missing: decorators that are applied again (`C101_again_violated`) and functions given without any option
(`C101_bare_violated`). -/
theorem C101_tasks_partial (accept : List Made → Made → Bool) (l : List Act) (hu : UsedOnce [] l)
    (hw : WelcomeAll accept [] (shouldMake [] l)) :
    (run accept World.init l).tasks = shouldMake [] l ∧ (run accept World.init l).failed = [] := by
  have h0 : KnownThings World.init.things [] := ⟨rfl, fun i t h => by simp [World.init] at h⟩
  have := decorated (accept := accept) l World.init [] [] h0 ⟨rfl, fun _ _ h => h⟩ hu hw
  simpa [World.init] using this

/-- C101: decorating a function with a new decorator gives the function back, and the task is the one that giving the
function with the same options makes; if that is refused, so is this, and the decorator can be applied to another
function. -/
theorem C101_same (accept : List Made → Made → Bool) (w : World) (f : Fn) (o : Opts) (ho : o ≠ []) (hp : opt o "path" = none) :
    let w' := (construct accept w none o).1
    (construct accept w none o).2 = .thing w.things.length ∧
    ((call accept w' w.things.length f).1.tasks = (construct accept w (some f) o).1.tasks ∧
      ((call accept w' w.things.length f).2 = .fn f ↔ (construct accept w (some f) o).2 ≠ .error) ∧
      ((construct accept w (some f) o).2 = .error → (call accept w' w.things.length f) = (w', .error))) := by
  simp only [construct, hp, if_true, if_neg ho]
  refine ⟨trivial, ?_⟩
  have hm : make accept { w with things := w.things ++ [Thing.shell o] } ⟨some f, o⟩ =
      (make accept w ⟨some f, o⟩).map (fun v => { v with things := w.things ++ [Thing.shell o] }) := by
    unfold make
    by_cases h1 : refusesLambda ⟨some f, o⟩ = true
    · simp [h1]
    · by_cases h2 : accept w.tasks ⟨some f, o⟩ = true <;> simp [h1, h2]
  simp only [call, List.getElem?_concat_length, hm]
  cases make accept w ⟨some f, o⟩ <;> simp

/-- C101 is violated: a decorator that is applied to a second function makes no task of it; instead a failed run of the
first task is logged, and the program gets an exception. -/
theorem C101_again_violated (f g : Fn) (o : Opts) (hp : opt o "path" = none) (hf : refusesLambda (taskOf f o) = false) :
    let l := [Act.construct none o, .call 0 f, .call 0 g]
    shouldMake [] l = [taskOf f o, taskOf g o] ∧
    (run (fun _ _ => true) World.init l).tasks = [taskOf f o] ∧
    (run (fun _ _ => true) World.init l).failed = [taskOf f o] ∧
    (step (fun _ _ => true) (run (fun _ _ => true) World.init (l.take 2)) (.call 0 g)).2 = .error := by
  have hp' : "path" ∉ o.map Prod.fst := opt_none.1 hp
  have hm : ∀ w : World, make (fun _ _ => true) w ⟨some f, o⟩ = some { w with tasks := w.tasks ++ [⟨some f, o⟩] } := by
    intro w
    unfold make
    rw [show refusesLambda ⟨some f, o⟩ = false from hf]
    simp
  simp [shouldMake, hp', run, step, construct, call, hp, World.init, hm, taskOf]

/-- C101 is violated: `FuncTask(f)`, and `@FuncTask` without parentheses, make a task that runs in a thread, although no
execution was given; `@FuncTask()` makes one that runs as the session says. -/
theorem C101_bare_violated (f : Fn) :
    (run (fun _ _ => true) World.init [.construct (some f) []]).tasks = [taskOf f [("execution", "thread")]] ∧
    (run (fun _ _ => true) World.init [.construct none [], .call 0 f]).tasks = [taskOf f []] := by
  simp [run, step, construct, call, opt, World.init, make, refusesLambda, taskOf]

/-! ## Cases -/

/-- Two decorated functions and one given by its file. -/
def threeMade : List Act :=
  [.construct none [("start_cond", "daily")], .call 0 ⟨1, false⟩, .construct none [("path", "x.py")],
    .construct none [("start_cond", "hourly"), ("execution", "thread")], .call 2 ⟨2, true⟩]

example : UsedOnce [] threeMade ∧ WelcomeAll (fun _ _ => true) [] (shouldMake [] threeMade) ∧ (shouldMake [] threeMade).length = 3 := by
  refine ⟨⟨⟨_, rfl⟩, ⟨_, rfl⟩, trivial⟩, ⟨rfl, rfl, rfl, rfl, rfl, rfl, trivial⟩, rfl⟩

/-- A lambda for a process is refused. -/
example : (step (fun _ _ => true) World.init (.construct (some ⟨1, true⟩) [("execution", "process")])).2 = .error := by
  decide +kernel

end Rocketry.Props
