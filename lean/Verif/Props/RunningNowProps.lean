import Verif.Spec.RunningNowSpec
import Verif.Props.LogProps

/-!
# C109: whether a task is running, and runs that never ended
-/

namespace Rocketry.Props
open Rocketry Spec

/-- Both ways to ask for the status agree with the last record. -/
def Agreeing (name : String) (s : RunSt) : Prop :=
  s.mem.status = (s.repo.getLast?).map Record.action ∧ ∀ r ∈ s.repo, r.task = name

theorem setStatus_ok (fl : Bool) (name : String) (m : TaskMem) (repo : List Record) (a : Action) (rid : Option String)
    (now created : Int) :
    (setStatus fl name m repo a rid now created .ok).mem.status = some a ∧
    (setStatus fl name m repo a rid now created .ok).repo = repo ++ [⟨name, a, created, now, rid⟩] := by
  constructor <;> simp [setStatus, LogIO.writes]

theorem agreeing_step (fl : Bool) (name : String) (s : RunSt) (h : Agreeing name s) (e : RunEv) :
    Agreeing name (s.step fl name e) := by
  cases e with
  | began i now created =>
    obtain ⟨h1, h2⟩ := setStatus_ok fl name s.mem s.repo .run (some (Nat.repr i)) now created
    refine ⟨?_, ?_⟩
    · simp only [RunSt.step]; rw [h1, h2]; simp
    · simp only [RunSt.step]; rw [h2]
      intro r hr
      rcases List.mem_append.1 hr with hr | hr
      · exact h.2 r hr
      · rw [List.mem_singleton.1 hr]
  | ended i a now created =>
    obtain ⟨h1, h2⟩ := setStatus_ok fl name s.mem s.repo a (some (Nat.repr i)) now created
    refine ⟨?_, ?_⟩
    · simp only [RunSt.step]; rw [h1, h2]; simp
    · simp only [RunSt.step]; rw [h2]
      intro r hr
      rcases List.mem_append.1 hr with hr | hr
      · exact h.2 r hr
      · rw [List.mem_singleton.1 hr]
  | killed i => exact h

theorem agreeing_run (fl : Bool) (name : String) (l : List RunEv) (s : RunSt) (h : Agreeing name s) :
    Agreeing name (s.run fl name l) := by
  induction l generalizing s with
  | nil => exact h
  | cons e l ih => exact ih (s.step fl name e) (agreeing_step fl name s h e)

theorem status_agreeing (fl : Bool) (name : String) (s : RunSt) (h : Agreeing name s) :
    (getStatus fl s.repo name s.mem).1 = (s.repo.getLast?).map Record.action := by
  have hr : recordsBy s.repo name (fun _ => true) = s.repo := by
    unfold recordsBy
    rw [List.filter_eq_self]
    intro r hr
    simp [h.2 r hr]
  unfold getStatus latestBy
  rw [hr]
  cases fl with
  | true => cases hl : s.repo.getLast? <;> simp
  | false => simpa using h.1

/-- What `is_running` tells: the last that began or ended began. -/
def lastBegan : List RunEv → Option Bool
  | [] => none
  | .began _ _ _ :: es => (lastBegan es).or (some true)
  | .ended _ a _ _ :: es => (lastBegan es).or (some (decide (a = .run)))
  | .killed _ :: es => lastBegan es

theorem run_last (fl : Bool) (name : String) (l : List RunEv) (s : RunSt) :
    ((s.run fl name l).repo.getLast?).map (fun r => decide (r.action = .run)) =
      (lastBegan l).or ((s.repo.getLast?).map (fun r => decide (r.action = .run))) := by
  induction l generalizing s with
  | nil => simp [RunSt.run, lastBegan]
  | cons e l ih =>
    show (((s.step fl name e).run fl name l).repo.getLast?).map _ = _
    rw [ih]
    cases e with
    | began i now created =>
      simp only [RunSt.step, (setStatus_ok fl name s.mem s.repo .run (some (Nat.repr i)) now created).2, lastBegan]
      cases lastBegan l <;> simp
    | ended i a now created =>
      simp only [RunSt.step, (setStatus_ok fl name s.mem s.repo a (some (Nat.repr i)) now created).2, lastBegan]
      cases lastBegan l <;> simp
    | killed i => rfl

theorem isRunning_iff (fl : Bool) (name : String) (l : List RunEv) :
    (RunSt.init.run fl name l).isRunning fl name = true ↔ lastBegan l = some true := by
  have ha := agreeing_run fl name l RunSt.init ⟨rfl, by simp [RunSt.init]⟩
  have hl := run_last fl name l RunSt.init
  have e : RunSt.init.repo = [] := rfl
  rw [e, List.getLast?_nil, Option.map_none, Option.or_none] at hl
  unfold RunSt.isRunning
  rw [status_agreeing fl name _ ha, ← hl, decide_eq_true_eq]
  cases (RunSt.run fl name RunSt.init l).repo.getLast? with
  | none => simp
  | some r => simp

theorem alive_goingOn (fl : Bool) (name : String) (l : List RunEv) (s : RunSt) :
    (s.run fl name l).alive = goingOn s.alive l := by
  induction l generalizing s with
  | nil => rfl
  | cons e l ih =>
    show ((s.step fl name e).run fl name l).alive = _
    rw [ih]
    cases e <;> rfl

/-- `is_alive` is right in every history. -/
theorem C109_alive (fl : Bool) (name : String) (l : List RunEv) :
    (RunSt.init.run fl name l).isAlive = true ↔ goingOn [] l ≠ [] := by
  unfold RunSt.isAlive
  rw [alive_goingOn]
  simp [RunSt.init, List.isEmpty_iff]

theorem lastBegan_sound (l : List RunEv) (o : List Nat) (h : Lawful o l) (hb : lastBegan l = some true) :
    goingOn o l ≠ [] := by
  have gen : ∀ (l : List RunEv) (o : List Nat), Lawful o l →
      (lastBegan l = some true → goingOn o l ≠ []) ∧ (lastBegan l = none → goingOn o l = o) := by
    intro l
    induction l with
    | nil => intro o _; exact ⟨by simp [lastBegan], fun _ => rfl⟩
    | cons e l ih =>
      intro o h
      cases e with
      | began i n c =>
        obtain ⟨h1, h2⟩ := ih (i :: o) h.2
        refine ⟨?_, ?_⟩
        · intro hb
          cases hl : lastBegan l with
          | none => show goingOn (i :: o) l ≠ []; rw [h2 hl]; simp
          | some b =>
            simp only [lastBegan, hl, Option.or_some, Option.some.injEq] at hb
            simp at hb
            subst hb
            exact h1 hl
        · intro hb
          simp only [lastBegan] at hb
          cases hl : lastBegan l <;> simp [hl] at hb
      | ended i a n c =>
        obtain ⟨h1, h2⟩ := ih _ h.2.2
        refine ⟨?_, ?_⟩
        · intro hb
          cases hl : lastBegan l with
          | none => simp [lastBegan, hl, h.2.1] at hb
          | some b =>
            simp [lastBegan, hl] at hb
            subst hb
            exact h1 hl
        · intro hb
          simp only [lastBegan] at hb
          cases hl : lastBegan l <;> simp [hl] at hb
      | killed i => exact h.elim
  exact (gen l o h).1 hb

/-- **C109 (`is_running` is not wrong when it is true).**  If every run ends with a record, a task said to be running has
a run that goes on. -/
theorem C109_sound_partial (fl : Bool) (name : String) (l : List RunEv) (h : Lawful [] l)
    (hr : (RunSt.init.run fl name l).isRunning fl name = true) : goingOn [] l ≠ [] :=
  lastBegan_sound l [] h ((isRunning_iff fl name l).1 hr)

theorem lastBegan_complete (l : List RunEv) (o : List Nat) (h : Lawful o l) (hs : OneByOne o l) (ho : o.length ≤ 1)
    (hg : goingOn o l ≠ []) (hn : lastBegan l ≠ none) : lastBegan l = some true := by
  induction l generalizing o with
  | nil => exact absurd rfl hn
  | cons e l ih =>
    cases e with
    | began i n c =>
      have ho' : o = [] := hs.1
      subst ho'
      cases hl : lastBegan l with
      | none => simp [lastBegan, hl]
      | some b =>
        have := ih [i] h.2 hs.2 (by simp) hg (by rw [hl]; simp)
        simp [lastBegan, this]
    | ended i a n c =>
      have hf : o.filter (fun j => decide (j ≠ i)) = [] := by
        have hi := h.1
        match o, ho with
        | [x], _ =>
          simp only [List.mem_singleton] at hi
          subst hi
          simp
        | [], _ => rfl
      have hL := h.2.2
      have hS : OneByOne (o.filter (fun j => decide (j ≠ i))) l := hs
      have hG : goingOn (o.filter (fun j => decide (j ≠ i))) l ≠ [] := hg
      rw [hf] at hL hS hG
      cases hl : lastBegan l with
      | none =>
        exfalso
        have : ∀ (l : List RunEv), lastBegan l = none → Lawful [] l → goingOn [] l = [] := by
          intro l
          induction l with
          | nil => intros; rfl
          | cons e l ih =>
            intro hb hL
            cases e with
            | began i n c => simp only [lastBegan] at hb; cases h : lastBegan l <;> simp [h] at hb
            | ended i a n c => simp only [lastBegan] at hb; cases h : lastBegan l <;> simp [h] at hb
            | killed i => exact hL.elim
        exact hG (this l hl hL)
      | some b =>
        have := ih [] hL hS (by simp) hG (by rw [hl]; simp)
        simp [lastBegan, this]
    | killed i => exact h.elim

/-- **C109 (the part that holds).**  If no run begins while another goes on and every run ends with a record, then
`is_running` tells whether a run goes on, read from the log or not. -/
theorem C109_running_partial (fl : Bool) (name : String) (l : List RunEv) (h : Lawful [] l) (hs : OneByOne [] l) :
    (RunSt.init.run fl name l).isRunning fl name = true ↔ goingOn [] l ≠ [] := by
  refine ⟨C109_sound_partial fl name l h, fun hg => (isRunning_iff fl name l).2 ?_⟩
  refine lastBegan_complete l [] h hs (by simp) hg ?_
  intro hn
  have : ∀ (l : List RunEv), lastBegan l = none → Lawful [] l → goingOn [] l = [] := by
    intro l
    induction l with
    | nil => intros; rfl
    | cons e l ih =>
      intro hb hL
      cases e with
      | began i n c => simp only [lastBegan] at hb; cases h : lastBegan l <;> simp [h] at hb
      | ended i a n c => simp only [lastBegan] at hb; cases h : lastBegan l <;> simp [h] at hb
      | killed i => exact hL.elim
  exact hg (this l hn h)

example : let l := [RunEv.began 0 1 2, .ended 0 .fail 3 4, .began 1 5 6]
    Lawful [] l ∧ OneByOne [] l ∧ goingOn [] l = [1] := by
  simp [Lawful, OneByOne, goingOn]

theorem goingOn_append (l k : List RunEv) (o : List Nat) : goingOn o (l ++ k) = goingOn (goingOn o l) k := by
  induction l generalizing o with
  | nil => rfl
  | cons e l ih => cases e <;> exact ih _

theorem lastBegan_snoc (l : List RunEv) (i : Nat) (a : Action) (n c : Int) :
    lastBegan (l ++ [.ended i a n c]) = some (decide (a = .run)) := by
  induction l with
  | nil => simp [lastBegan]
  | cons e l ih => cases e <;> simp [lastBegan, ih]

/-- **C109 is violated: runs at the same time.**  Whenever one of several runs ends, `is_running` is false, although the
others go on. -/
theorem C109_overlap_violated (fl : Bool) (name : String) (l : List RunEv) (i j : Nat) (a : Action) (n c : Int)
    (hj : j ∈ goingOn [] l) (hij : j ≠ i) (ha : a ≠ .run) :
    (RunSt.init.run fl name (l ++ [.ended i a n c])).isRunning fl name = false ∧
    j ∈ goingOn [] (l ++ [.ended i a n c]) ∧
    (RunSt.init.run fl name (l ++ [.ended i a n c])).isAlive = true := by
  have hm : j ∈ goingOn [] (l ++ [.ended i a n c]) := by
    rw [goingOn_append]
    exact List.mem_filter.2 ⟨hj, by simp [hij]⟩
  refine ⟨?_, hm, ?_⟩
  · rw [Bool.eq_false_iff]
    intro h
    have := (isRunning_iff fl name _).1 h
    rw [lastBegan_snoc] at this
    simp [ha] at this
  · rw [C109_alive]
    intro h
    rw [h] at hm
    exact nomatch hm

example : (1 : Nat) ∈ goingOn [] [.began 0 1 2, .began 1 3 4] ∧ (1 : Nat) ≠ 0 := by decide

/-- **C109 is violated: killed runs.**  When the only run was killed, the task is said to be running until it is started
again. -/
theorem C109_killed_violated (fl : Bool) (name : String) (i : Nat) (n c : Int) :
    (RunSt.init.run fl name [.began i n c, .killed i]).isRunning fl name = true ∧
    goingOn [] [.began i n c, .killed i] = [] ∧
    (RunSt.init.run fl name [.began i n c, .killed i]).isAlive = false := by
  have hg : goingOn [] [.began i n c, .killed i] = [] := by simp [goingOn]
  refine ⟨(isRunning_iff fl name _).2 rfl, hg, ?_⟩
  rw [Bool.eq_false_iff]
  intro h
  exact (C109_alive fl name _).1 h hg

theorem run_names (fl : Bool) (name : String) (l : List RunEv) : ∀ r ∈ (RunSt.init.run fl name l).repo, Of name r :=
  (agreeing_run fl name l RunSt.init ⟨rfl, by simp [RunSt.init]⟩).2

theorem isLatest_getLast {repo : List Record} {P : Record → Prop} {r : Record} (h : repo.getLast? = some r) (hP : P r) :
    IsLatest repo P r := by
  obtain ⟨pre, rfl⟩ : ∃ pre, repo = pre ++ [r] := by
    rw [List.getLast?_eq_some_iff] at h
    exact h
  exact ⟨pre, [], rfl, hP, by simp⟩

/-- **C109 (the part that holds: interrupted runs are found).**  If no run begins while another goes on, the program
ends at any moment and is started again with the same log (times increase), then a crash is logged exactly if a run had
not ended. -/
theorem C109_found_partial (fl fl' : Bool) (name : String) (l : List RunEv) (h : Lawful [] l) (hs : OneByOne [] l)
    (hi : Increasing (RunSt.init.run fl name l).repo (Of name)) (now created : Int) :
    let s := RunSt.init.run fl name l
    (goingOn [] l ≠ [] → (s.restarted fl' name now created).repo = s.repo ++ [⟨name, .crash, created, now, none⟩]) ∧
    (goingOn [] l = [] → (s.restarted fl' name now created).repo = s.repo) := by
  intro s
  have hC := C33_task fl' name .fresh (by simp [TaskMem.fresh]) s.repo hi now created
  have hiff := C109_running_partial fl name l h hs
  have hst := status_agreeing fl name s (agreeing_run fl name l RunSt.init ⟨rfl, by simp [RunSt.init]⟩)
  have hrun : s.isRunning fl name = decide ((s.repo.getLast?).map Record.action = some .run) := by
    unfold RunSt.isRunning; rw [hst]
  constructor
  · intro hg
    have := hiff.2 hg
    rw [show RunSt.init.run fl name l = s from rfl, hrun, decide_eq_true_eq, Option.map_eq_some_iff] at this
    obtain ⟨r, hr, har⟩ := this
    exact (hC.2.2.1 r (isLatest_getLast hr (run_names fl name l r (List.mem_of_getLast? hr))) har).1
  · intro hg
    cases hr : s.repo.getLast? with
    | none =>
      rw [List.getLast?_eq_none_iff] at hr
      refine (hC.2.2.2.2 ?_).1
      intro r hm
      rw [hr] at hm
      exact nomatch hm
    | some r =>
      refine (hC.2.2.2.1 r (isLatest_getLast hr (run_names fl name l r (List.mem_of_getLast? hr))) ?_).1
      intro har
      have : s.isRunning fl name = true := by rw [hrun, hr]; simp [har]
      exact hiff.1 this hg

example : Increasing (RunSt.init.run false "a" [.began 0 1 2, .ended 0 .fail 3 4, .began 1 5 6]).repo (Of "a") := by
  simp [RunSt.run, RunSt.step, RunSt.init, setStatus, LogIO.writes, Increasing]

/-- **C109 is violated: interrupted runs of several.**  If one of several runs ended last, the next start logs no crash
for the others. -/
theorem C109_found_violated (fl fl' : Bool) (name : String) (l : List RunEv) (i j : Nat) (a : Action) (n c : Int)
    (hj : j ∈ goingOn [] l) (hij : j ≠ i) (ha : a ≠ .run)
    (hi : Increasing (RunSt.init.run fl name (l ++ [.ended i a n c])).repo (Of name)) (now created : Int) :
    let s := RunSt.init.run fl name (l ++ [.ended i a n c])
    j ∈ goingOn [] (l ++ [.ended i a n c]) ∧ (s.restarted fl' name now created).repo = s.repo ∧
    (s.restarted fl' name now created).mem.status = some a := by
  intro s
  have hC := C33_task fl' name .fresh (by simp [TaskMem.fresh]) s.repo hi now created
  have hs : s.repo = (RunSt.init.run fl name l).repo ++ [⟨name, a, c, n, some (Nat.repr i)⟩] := by
    show (RunSt.run fl name RunSt.init (l ++ [.ended i a n c])).repo = _
    unfold RunSt.run
    rw [List.foldl_append]
    exact (setStatus_ok fl name (l.foldl (RunSt.step fl name) RunSt.init).mem
      (l.foldl (RunSt.step fl name) RunSt.init).repo a (some (Nat.repr i)) n c).2
  have hr : s.repo.getLast? = some ⟨name, a, c, n, some (Nat.repr i)⟩ := by rw [hs]; simp
  refine ⟨(C109_overlap_violated fl name l i j a n c hj hij ha).2.1, ?_⟩
  exact hC.2.2.2.1 _ (isLatest_getLast hr rfl) ha

example : Increasing (RunSt.init.run false "a" ([.began 0 1 2, .began 1 3 4] ++ [.ended 0 .success 5 6])).repo (Of "a") := by
  simp [RunSt.run, RunSt.step, RunSt.init, setStatus, LogIO.writes, Increasing]

end Rocketry.Props
