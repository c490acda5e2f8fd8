import Verif.Spec.ForceRunSpec
import Verif.Props.ManualProps

/-!
# C117: a task whose `force_run` is set is run once, whatever its start condition
-/

namespace Rocketry.Props
open Rocketry.ForceRun Rocketry.Spec
open Rocketry.Sched (Batch)

theorem ordersOf_append (l l' : List Note) : ordersOf (l ++ l') = ordersOf l ++ ordersOf l' := by
  induction l with
  | nil => rfl
  | cons o l ih =>
    rcases o with (_ | _) | b | b
    · exact ih
    · exact congrArg (List.cons []) ih
    · exact congrArg (List.cons b) ih
    · exact ih

theorem servedOrders_append (l l' : List Note) : servedOrders (l ++ l') = servedOrders l ++ servedOrders l' := by
  induction l with
  | nil => rfl
  | cons o l ih =>
    rcases o with v | b | (_ | b)
    · exact ih
    · exact ih
    · exact ih
    · exact congrArg (List.cons b) ih

/-- What was served and what waits is what waited before and what was asked for. -/
def Serves (s : Forced) (r : Forced × List Note) : Prop :=
  servedOrders r.2 ++ r.1.batches = s.batches ++ ordersOf r.2

theorem Serves.then {s s1 s2 : Forced} {l1 l2 : List Note} (h1 : Serves s (s1, l1)) (h2 : Serves s1 (s2, l2)) :
    Serves s (s2, l1 ++ l2) := by
  unfold Serves at *
  simp only at *
  rw [servedOrders_append, ordersOf_append, List.append_assoc, h2, ← List.append_assoc, h1, List.append_assoc]

theorem serves_own (s : Forced) (o : Owner) : Serves s (ForceRun.own s o) := by
  rcases o with (_ | _) | b
  · exact (List.append_nil _).symm
  · exact rfl
  · exact rfl

theorem serves_owns (os : List Owner) : ∀ s, Serves s (owns s os) := by
  induction os with
  | nil => exact fun s => (List.append_nil _).symm
  | cons o os ih => exact fun s => (serves_own s o).then (ih _)

theorem serves_take (s : Forced) : Serves s s.take := by
  obtain ⟨f, _ | ⟨b, bs⟩⟩ := s
  · rfl
  · exact (List.append_nil _).symm

theorem serves_start (s : Forced) (early late : List Owner) (params : Bool) : Serves s (ForceRun.start s early late params) := by
  have h1 : Serves s (owns (s.assign false) early) := serves_owns early (s.assign false)
  cases params with
  | false => exact h1
  | true => exact h1.then ((serves_take _).then (serves_owns late _))

theorem serves_step (s : Forced) (d : Doing) : Serves s (step s d) := by
  rcases d with o | ⟨dis, c, early, late, params⟩ | ⟨early, late, params⟩
  · exact serves_own s o
  · show Serves s (if s.runnable dis c then _ else _)
    by_cases h : s.runnable dis c = true
    · rw [if_pos h]
      exact serves_start s early late params
    · rw [if_neg h]
      exact (List.append_nil _).symm
  · exact serves_start s early late params

theorem serves_steps (ds : List Doing) : ∀ s, Serves s (steps s ds) := by
  induction ds with
  | nil => exact fun s => (List.append_nil _).symm
  | cons d ds ih => exact fun s => (serves_step s d).then (ih _)

/-- C117, first part.  In every history, whoever interferes whenever: the runs that were started with a batch, followed
by the batches that wait, are the batches that waited at first, followed by one for each assignment of `True` and each
call of `run`, in this order.  So each assignment of `True` leads to at most one run, and none is lost. -/
theorem C117_each (s : Forced) (ds : List Doing) :
    servedOrders (steps s ds).2 ++ (steps s ds).1.batches = s.batches ++ ordersOf (steps s ds).2 := serves_steps ds s

example : (steps ⟨false, []⟩ [.own (.assign true), .turn true false [] [.run [("x", "1")]] true, .turn true false [] [] true]).2 =
    [.assigned true, .took (some []), .asked [("x", "1")], .took (some [("x", "1")])] := rfl

/-- C117, second part.  From the assignment of `True` on, until a run is started, the task is started at its next turn,
whether it is disabled or not, and whatever its start condition says; the parameters of that run are those that were
asked for first. -/
theorem C117_regardless (s : Forced) (os : List Owner) (disabled cond : Bool) (late : List Owner) :
    ∃ b l, (step (owns (s.assign true) os).1 (.turn disabled cond [] late true)).2 = .took (some b) :: l ∧
      (s.batches ++ [[]]).head? = some b := by
  have hgrow : ∀ (os : List Owner) (u : Forced), ∃ more, (owns u os).1.batches = u.batches ++ more := by
    intro os
    induction os with
    | nil => exact fun u => ⟨[], (List.append_nil _).symm⟩
    | cons o os ih =>
      intro u
      obtain ⟨m, hm⟩ := ih (ForceRun.own u o).1
      have h1 : ∃ m1, (ForceRun.own u o).1.batches = u.batches ++ m1 := by
        rcases o with (_ | _) | b
        · exact ⟨[], (List.append_nil _).symm⟩
        · exact ⟨_, rfl⟩
        · exact ⟨_, rfl⟩
      obtain ⟨m1, h1⟩ := h1
      exact ⟨m1 ++ m, by rw [← List.append_assoc, ← h1]; exact hm⟩
  obtain ⟨more, hm⟩ := hgrow os (s.assign true)
  generalize (owns (s.assign true) os).1 = u at hm
  have hm : u.batches = s.batches ++ [[]] ++ more := hm
  obtain ⟨b, bs, hb⟩ : ∃ b bs, s.batches ++ [[]] = b :: bs := by
    rcases s.batches with _ | ⟨b, bs⟩
    · exact ⟨_, _, rfl⟩
    · exact ⟨_, _, rfl⟩
  have hu : u.batches = b :: (bs ++ more) := by rw [hm, hb]; rfl
  have hr : u.runnable disabled cond = true := by
    unfold Forced.runnable
    rw [if_pos (by rw [hu]; exact List.cons_ne_nil _ _)]
  refine ⟨b, (owns { u.assign false with batches := bs ++ more } late).2, ?_, by rw [hb]; rfl⟩
  have ht : (u.assign false).take = ({ u.assign false with batches := bs ++ more }, [.took (some b)]) := by
    have : (u.assign false).batches = b :: (bs ++ more) := hu
    unfold Forced.take
    rw [this]
  show (if u.runnable disabled cond then _ else _ : Forced × List Note).2 = _
  rw [if_pos hr]
  show (ForceRun.start u [] late true).2 = _
  unfold ForceRun.start
  simp only [owns, if_pos, ht, List.nil_append, List.singleton_append]

example : (step (owns (Forced.assign ⟨false, [[("x", "1")]]⟩ true) [.run [("y", "2")]]).1 (.turn true false [] [] true)).2 =
    [.took (some [("x", "1")])] := rfl

/-- C117, third part: nothing else forces a run.  A task that gets its turn without a batch is started exactly if it is
not disabled and its start condition holds, and then without a batch. -/
theorem C117_unforced (flag disabled cond : Bool) (late : List Owner) :
    (∃ l, (step ⟨flag, []⟩ (.turn disabled cond [] late true)).2 = .took none :: l) ↔ disabled = false ∧ cond = true := by
  cases disabled <;> cases cond <;>
    simp [step, Forced.runnable, ForceRun.start, owns, Forced.assign, Forced.take]

/-- C117, fourth part.  As long as nobody interferes between the reset of the attribute and the taking of the batch, an
attribute that reads `True` means that a forced run waits; a new task is in this condition. -/
theorem C117_flag_partial (s : Forced) (ds : List Doing) (h0 : s.flag = true → s.batches ≠ []) (hd : ∀ d ∈ ds, NoneBetween d) :
    (steps s ds).1.flag = true → (steps s ds).1.batches ≠ [] := by
  have hown : ∀ (u : Forced) (o : Owner), (u.flag = true → u.batches ≠ []) →
      ((ForceRun.own u o).1.flag = true → (ForceRun.own u o).1.batches ≠ []) := by
    intro u o hu
    rcases o with (_ | _) | b
    · exact fun h => nomatch h
    · exact fun _ => by simp [ForceRun.own, Forced.assign]
    · exact fun _ => by simp [ForceRun.own, Forced.run]
  have howns : ∀ (os : List Owner) (u : Forced), (u.flag = true → u.batches ≠ []) →
      ((owns u os).1.flag = true → (owns u os).1.batches ≠ []) := by
    intro os
    induction os with
    | nil => exact fun u hu => hu
    | cons o os ih => exact fun u hu => ih _ (hown u o hu)
  have hstart : ∀ (u : Forced) late params,
      ((ForceRun.start u [] late params).1.flag = true → (ForceRun.start u [] late params).1.batches ≠ []) := by
    intro u late params
    cases params with
    | false => exact fun h => nomatch h
    | true =>
      refine howns late _ ?_
      show (Forced.take (u.assign false)).1.flag = true → _
      have : (Forced.take (u.assign false)).1.flag = false := by
        obtain ⟨f, _ | ⟨b, bs⟩⟩ := u <;> rfl
      rw [this]
      exact fun h => nomatch h
  have hstep : ∀ (u : Forced) (d : Doing), NoneBetween d → (u.flag = true → u.batches ≠ []) →
      ((step u d).1.flag = true → (step u d).1.batches ≠ []) := by
    intro u d hd hu
    rcases d with o | ⟨dis, c, early, late, params⟩ | ⟨early, late, params⟩
    · exact hown u o hu
    · show (if u.runnable dis c then _ else _ : Forced × List Note).1.flag = true → _
      by_cases h : u.runnable dis c = true
      · rw [if_pos h]
        exact fun h => nomatch h
      · rw [if_neg h]
        intro hf
        show (if u.runnable dis c then _ else _ : Forced × List Note).1.batches ≠ []
        rw [if_neg h]
        exact hu hf
    · have hd : early = [] := hd
      subst hd
      exact hstart u late params
  induction ds generalizing s with
  | nil => exact h0
  | cons d ds ih =>
    exact ih _ (hstep s d (hd d (List.mem_cons_self ..)) h0) (fun d' hd' => hd d' (List.mem_cons_of_mem _ hd'))

/-- A new task is in this condition. -/
theorem C117_new (bs : List Batch) (force : Bool) : ∃ s, construct (some bs) force = .ok s ∧ s.flag = force ∧
    (s.flag = true → s.batches ≠ []) ∧ s.batches = bs ++ (if force then [[]] else []) := by
  cases force
  · exact ⟨_, rfl, rfl, fun h => (nomatch h), (List.append_nil _).symm⟩
  · exact ⟨_, rfl, rfl, fun _ => by simp [Forced.assign], rfl⟩

theorem stillForced_append (l l' : List Note) : ∀ f, stillForced f (l ++ l') = stillForced (stillForced f l) l' := by
  induction l with
  | nil => exact fun f => rfl
  | cons o l ih =>
    intro f
    rcases o with v | b | b
    · exact ih _
    · exact ih _
    · exact ih _

theorem sparing_append (l l' : List Note) : ∀ f, Sparing f (l ++ l') ↔ Sparing f l ∧ Sparing (stillForced f l) l' := by
  induction l with
  | nil => exact fun f => ⟨fun h => ⟨trivial, h⟩, fun h => h.2⟩
  | cons o l ih =>
    intro f
    rcases o with v | b | b
    · show (f = false ∧ Sparing v (l ++ l')) ↔ (f = false ∧ Sparing v l) ∧ _
      rw [ih v, and_assoc]
      exact Iff.rfl
    · exact ih f
    · exact ih false

/-- C117, as far as it holds.  If `run` is not used, the attribute is touched only between the turns of the task, is
set to `True` only while it is not meant to be `True`, and is never taken back, then it reads `True` exactly from the
assignment until the forced run is started, and exactly then one batch waits: so the task is run once for it. -/
theorem C117_once_partial (s : Forced) (ds : List Doing) (h0 : s.batches.length = if s.flag then 1 else 0)
    (hd : ∀ d ∈ ds, OnlyForced d) (hs : Sparing s.flag (steps s ds).2) :
    (steps s ds).1.flag = stillForced s.flag (steps s ds).2 ∧
      (steps s ds).1.batches.length = if stillForced s.flag (steps s ds).2 then 1 else 0 := by
  have hstart : ∀ (u : Forced), u.batches.length ≤ 1 → (ForceRun.start u [] [] true).1 = ⟨false, []⟩ ∧
      ∃ b, (ForceRun.start u [] [] true).2 = [.took b] := by
    intro u hu
    obtain ⟨f, _ | ⟨b, _ | ⟨b', bs⟩⟩⟩ := u
    · exact ⟨rfl, _, rfl⟩
    · exact ⟨rfl, _, rfl⟩
    · simp only [List.length_cons] at hu
      omega
  have hstep : ∀ (u : Forced) (d : Doing), OnlyForced d → (u.batches.length = if u.flag then 1 else 0) →
      Sparing u.flag (step u d).2 → (step u d).1.flag = stillForced u.flag (step u d).2 ∧
        (step u d).1.batches.length = if (step u d).1.flag then 1 else 0 := by
    intro u d hd hu hs
    have hle : u.batches.length ≤ 1 := by
      rw [hu]
      split <;> omega
    rcases d with (v | b) | ⟨dis, c, early, late, params⟩ | ⟨early, late, params⟩
    · have hf : u.flag = false := hs.1
      have hz : u.batches.length = 0 := by rw [hu, hf]; rfl
      refine ⟨rfl, ?_⟩
      cases v
      · exact hz
      · show (u.batches ++ [[]]).length = 1
        rw [List.length_append, hz]
        rfl
    · exact absurd hd id
    · obtain ⟨rfl, rfl, rfl⟩ := hd
      show (if u.runnable dis c then _ else _ : Forced × List Note).1.flag = _ ∧ _
      obtain ⟨h1, b, h2⟩ := hstart u hle
      have e : step u (.turn dis c [] [] true) = if u.runnable dis c then
          ((ForceRun.start u [] [] true).1.assign false, (ForceRun.start u [] [] true).2) else (u, []) := rfl
      show (step u (.turn dis c [] [] true)).1.flag = _ ∧ _
      rw [e]
      by_cases h : u.runnable dis c = true
      · rw [if_pos h, h1, h2]
        exact ⟨rfl, rfl⟩
      · rw [if_neg h]
        exact ⟨rfl, hu⟩
    · obtain ⟨rfl, rfl, rfl⟩ := hd
      obtain ⟨h1, b, h2⟩ := hstart u hle
      show (ForceRun.start u [] [] true).1.flag = stillForced u.flag (ForceRun.start u [] [] true).2 ∧
        (ForceRun.start u [] [] true).1.batches.length = if (ForceRun.start u [] [] true).1.flag then 1 else 0
      rw [h1, h2]
      exact ⟨rfl, rfl⟩
  induction ds generalizing s with
  | nil => exact ⟨rfl, h0⟩
  | cons d ds ih =>
    have hs' : Sparing s.flag ((step s d).2 ++ (steps (step s d).1 ds).2) := hs
    obtain ⟨ha, hb⟩ := (sparing_append _ _ _).1 hs'
    obtain ⟨h1, h2⟩ := hstep s d (hd d (List.mem_cons_self ..)) h0 ha
    have := ih _ h2 (fun d' hd' => hd d' (List.mem_cons_of_mem _ hd')) (h1 ▸ hb)
    show (steps (step s d).1 ds).1.flag = stillForced s.flag ((step s d).2 ++ (steps (step s d).1 ds).2) ∧
      (steps (step s d).1 ds).1.batches.length = if stillForced s.flag ((step s d).2 ++ (steps (step s d).1 ds).2) then 1 else 0
    rw [stillForced_append, ← h1]
    exact this

example : let ds : List Doing := [.turn false false [] [] true, .own (.assign true), .turn true false [] [] true,
      .turn true false [] [] true, .own (.assign true)]
    (∀ d ∈ ds, OnlyForced d) ∧ Sparing false (steps ⟨false, []⟩ ds).2 ∧
      (steps ⟨false, []⟩ ds).2 = [.assigned true, .took (some []), .assigned true] ∧ (steps ⟨false, []⟩ ds).1 = ⟨true, [[]]⟩ := by
  refine ⟨?_, ⟨rfl, rfl, trivial⟩, rfl, rfl⟩
  intro d hd
  simp only [List.mem_cons, List.not_mem_nil, or_false] at hd
  rcases hd with rfl | rfl | rfl | rfl | rfl <;> first | exact ⟨rfl, rfl, rfl⟩ | exact trivial

/-- C117 fails: the attribute cannot be taken back.  A task whose `force_run` is set to `True` and back to `False`
reads `False`, and is started all the same at its next turn, even if it is disabled and its condition does not hold. -/
theorem C117_withdrawn_violated (s : Forced) (cond disabled : Bool) :
    let u := (s.assign true).assign false
    u.flag = false ∧ ∃ b l, (step u (.turn disabled cond [] [] true)).2 = .took (some b) :: l := by
  refine ⟨rfl, ?_⟩
  obtain ⟨b, l, h, -⟩ := C117_regardless s [.assign false] disabled cond []
  exact ⟨b, l, h⟩

/-- C117 fails: "once".  An attribute that reads `True` is set to `True` again: the task is run twice; and after the
first of the two runs it reads `False`, although the second one waits. -/
theorem C117_twice_violated :
    let u := (Forced.assign ⟨false, []⟩ true).assign true
    (steps u [.turn true false [] [] true]).1 = ⟨false, [[]]⟩ ∧
      (steps u [.turn true false [] [] true, .turn true false [] [] true, .turn true false [] [] true]).2 =
        [.took (some []), .took (some [])] := ⟨rfl, rfl⟩

/-- C117 fails: a task that sets its own `force_run` while it runs in the main process finds it `False` afterwards; it
is run again nevertheless. -/
theorem C117_own_violated :
    steps ⟨false, []⟩ [.turn false true [] [.assign true] true] = (⟨false, [[]]⟩, [.took none, .assigned true]) ∧
      (step ⟨false, [[]]⟩ (.turn true false [] [] true)).2 = [.took (some [])] := ⟨rfl, rfl⟩

/-- C117 fails: a run that could not get its parameters does not use up the batch, but resets the attribute: the task
reads `False` and is forced again at each of its turns, for ever. -/
theorem C117_params_violated (s : Forced) (n : Nat) :
    steps (s.assign true) (List.replicate (n + 1) (.turn true false [] [] false)) = (⟨false, s.batches ++ [[]]⟩, []) ∧
      (⟨false, s.batches ++ [[]]⟩ : Forced).runnable true false = true := by
  have hr : ∀ f, (⟨f, s.batches ++ [[]]⟩ : Forced).runnable true false = true := by
    intro f
    unfold Forced.runnable
    rw [if_pos (by simp)]
  refine ⟨?_, hr false⟩
  have h1 : ∀ f, step ⟨f, s.batches ++ [[]]⟩ (.turn true false [] [] false) = (⟨false, s.batches ++ [[]]⟩, []) := by
    intro f
    show (if (⟨f, s.batches ++ [[]]⟩ : Forced).runnable true false then _ else _ : Forced × List Note) = _
    rw [if_pos (hr f)]
    rfl
  have h2 : ∀ n f, steps ⟨f, s.batches ++ [[]]⟩ (List.replicate (n + 1) (.turn true false [] [] false)) =
      (⟨false, s.batches ++ [[]]⟩, []) := by
    intro n
    induction n with
    | zero =>
      intro f
      simp only [Nat.zero_add, List.replicate_one, steps, h1 f, List.append_nil]
    | succ n ih =>
      intro f
      show (let (s1, l1) := step ⟨f, s.batches ++ [[]]⟩ (.turn true false [] [] false)
            let (s2, l2) := steps s1 (List.replicate (n + 1) (.turn true false [] [] false)); (s2, l1 ++ l2)) = _
      rw [h1 f]
      simp only [ih false, List.nil_append]
  exact h2 n true

/-- C117 fails: a start that is disturbed by another thread between the reset and the taking leaves a task that reads
`True` and has no batch: it is not forced. -/
theorem C117_flag_violated :
    let s := (steps ⟨false, []⟩ [.start [.assign true] [] true]).1
    s = ⟨true, []⟩ ∧ s.runnable false false = false := ⟨rfl, rfl⟩

/-- C117 fails: an invalid argument `batches` is reported as such, unless `force_run` is given too: then the creation of
the task ends in a `KeyError`. -/
theorem C117_invalid_violated : construct none false = .error .value ∧ construct none true = .error .key := ⟨rfl, rfl⟩

/-- For the scheduler an assignment of `True` is the request of a run without parameters: what was shown of requests
(C40 and others) holds of forced runs too. -/
theorem C117_request (s : Sched.Sys) (n : String) (flag : Bool) (hn : (s.tasks.map Sched.TaskSt.name).Nodup) :
    ((s.event (.request n [])).find n).map Sched.TaskSt.batches =
      (s.find n).map (fun t => (Forced.assign ⟨flag, t.batches⟩ true).batches) := by
  have h := pend_upd_eq (g := fun t => { t with batches := t.batches ++ [[]] }) (k := fun l => l ++ [[]]) hn (n := n)
    (fun _ => rfl) (fun _ => rfl)
  unfold pend at h
  rw [Option.map_map] at h
  exact h

end Rocketry.Props
