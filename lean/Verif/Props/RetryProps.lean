import Verif.Task.HistorySteps
import Verif.Task.Conditions

/-!
# C31: retrying failed runs
-/

namespace Rocketry.Props
open Spec

/-- The outcomes that end a row of failures. -/
def resets : List Action := [.success, .crash, .inaction, .terminate]

/-- Number of starts for the reason `reason` since the last outcome that ends a row of failures. -/
def startsInRow (name : String) (reason : Nat) (es : List Ev) : Nat :=
  es.foldl (fun n e => match e with
    | .began m r => if m = name ∧ r = reason then n + 1 else n
    | .logged m a => if m = name ∧ a ∈ resets then 0 else n
    | .other => n) 0

theorem startsInRow_snoc (name : String) (reason : Nat) (es : List Ev) (e : Ev) :
    startsInRow name reason (es ++ [e]) = match e with
      | .began m r => if m = name ∧ r = reason then startsInRow name reason es + 1 else startsInRow name reason es
      | .logged m a => if m = name ∧ a ∈ resets then 0 else startsInRow name reason es
      | .other => startsInRow name reason es := by
  simp only [startsInRow, List.foldl_append, List.foldl_cons, List.foldl_nil]

/-- The failures in a row according to the log: those after the last record that ends a row. -/
def failsInRow (name : String) (repo : List Record) : Nat :=
  ((repo.reverse.takeWhile (fun r => !(decide (r.task = name) && decide (r.action ∈ resets)))).filter
      (fun r => decide (OfAction name .fail r))).length

/-! ### what `Retry.get_state` counts -/

/-- `last_non_fail_created`. -/
def sinceTime (repo : List Record) (name : String) : Int :=
  match latestBy repo name (fun r => decide (r.action ∈ resets)) with
  | none => EPOCH
  | some r => r.created

/-- `n_failed_in_row`. -/
def failCount (repo : List Record) (name : String) : Nat :=
  (recordsBy repo name (fun r => decide (r.created ≥ sinceTime repo name) && isAction .fail r)).length

theorem retry_eq (fromLogs : Bool) (n : Int) (name : String) (t : TaskMem) (repo : List Record) :
    retryState fromLogs n name t repo = true ↔ n ≠ 0 ∧ (getStatus fromLogs repo name t).1 = some .fail ∧
      (n = -1 ∨ (failCount repo name : Int) ≤ n) := by
  unfold retryState failCount sinceTime resets
  by_cases h0 : n = 0
  · simp [h0]
  · by_cases hs : (getStatus fromLogs repo name t).1 = some .fail
    · by_cases h1 : n = -1
      · simp [h1, hs]
      · simp only [h0, hs, h1, if_false, ne_eq, not_true_eq_false, not_false_iff, true_and, false_or, decide_eq_true_eq, ge_iff_le]
        rfl
    · simp [h0, hs]

theorem since_other {repo : List Record} {name : String} {x : Record} (h : x.task ≠ name ∨ x.action ∉ resets) :
    sinceTime (repo ++ [x]) name = sinceTime repo name := by
  unfold sinceTime
  rw [latestBy_snoc]
  rw [if_neg]
  rcases h with h | h <;> simp [h]

theorem since_reset {repo : List Record} {name : String} {x : Record} (h : x.task = name) (ha : x.action ∈ resets) :
    sinceTime (repo ++ [x]) name = x.created := by
  unfold sinceTime
  rw [latestBy_snoc, if_pos (by simp [h, ha])]

theorem since_le {repo : List Record} {name : String} {c : Int} (h : ∀ r ∈ repo, r.task = name → r.created ≤ c) (he : EPOCH ≤ c) :
    sinceTime repo name ≤ c := by
  unfold sinceTime
  cases hl : latestBy repo name (fun r => decide (r.action ∈ resets)) with
  | none => exact he
  | some r =>
    have := isLatest_mem (latestBy_spec.1 hl)
    exact h r this.1 this.2.1

theorem failCount_snoc {repo : List Record} {name : String} {x : Record} (h : x.task ≠ name ∨ x.action ∉ resets) :
    failCount (repo ++ [x]) name = failCount repo name +
      (if OfAction name .fail x ∧ sinceTime repo name ≤ x.created then 1 else 0) := by
  unfold failCount recordsBy
  rw [since_other h, List.filter_append, List.length_append]
  congr 1
  by_cases hx : OfAction name .fail x ∧ sinceTime repo name ≤ x.created
  · rw [if_pos hx]
    simp [hx.1.1, hx.1.2, hx.2, isAction]
  · rw [if_neg hx, List.length_eq_zero_iff, List.filter_eq_nil_iff]
    intro y hy
    rw [List.mem_singleton.1 hy]
    simp only [OfAction] at hx
    simp only [isAction, Bool.and_eq_true, decide_eq_true_eq, ge_iff_le]
    rintro ⟨h1, h2, h3⟩
    exact hx ⟨⟨h1, h3⟩, h2⟩

theorem failCount_append {repo new : List Record} {name : String} (h : ∀ x ∈ new, x.task ≠ name) :
    failCount (repo ++ new) name = failCount repo name := by
  induction new using snoc_ind with
  | nil => simp
  | snoc l x ih =>
    have hx := h x (by simp)
    rw [← List.append_assoc, failCount_snoc (Or.inl hx), ih (fun y hy => h y (by simp [hy])), if_neg (fun hp => hx hp.1.1)]
    rfl

/-! ## C31, the condition -/

/-- 1 January 1970, in days since 1 January 1. -/
theorem epoch_day : EPOCH = 719162 * DAY := by decide

/-- C31, the condition: for every log with increasing times (after 1970) it holds exactly when the status is "fail" and
the number of failures since the last success, crash, inaction or termination is at most `n`; without limit for `None`
and never for 0. -/
theorem C31_state (fromLogs : Bool) (n : Option Int) (name : String) (t : TaskMem) (repo : List Record)
    (hi : Increasing repo (Of name)) (he : ∀ r ∈ repo, 719162 * DAY ≤ r.created) :
    retryState fromLogs (retryN n) name t repo = true ↔ (getStatus fromLogs repo name t).1 = some .fail ∧
      match n with
      | none => True
      | some k => k ≠ 0 ∧ (k = -1 ∨ (failsInRow name repo : Int) ≤ k) := by
  rw [← epoch_day] at he
  have hcount : failCount repo name = failsInRow name repo := by
    induction repo using snoc_ind with
    | nil => rfl
    | snoc l x ih =>
      have ih := ih (increasing_prefixes hi) (fun r hr => he r (by simp [hr]))
      unfold failsInRow
      rw [List.reverse_append, List.reverse_singleton, List.singleton_append]
      by_cases hx : x.task = name ∧ x.action ∈ resets
      · rw [List.takeWhile_cons_of_neg (by simp [hx.1, hx.2])]
        simp only [List.filter_nil, List.length_nil]
        unfold failCount recordsBy
        rw [since_reset hx.1 hx.2, List.length_eq_zero_iff, List.filter_eq_nil_iff]
        intro y hy
        simp only [isAction, Bool.and_eq_true, decide_eq_true_eq, ge_iff_le]
        rintro ⟨h1, h2, h3⟩
        rcases List.mem_append.1 hy with hy | hy
        · have := (List.pairwise_append.1 hi).2.2 y hy x (by simp) h1 hx.1
          omega
        · rw [List.mem_singleton.1 hy] at h3
          rw [h3] at hx
          exact absurd hx.2 (by decide)
      · rw [List.takeWhile_cons_of_pos (by
          rw [Bool.not_eq_true', Bool.and_eq_false_iff, decide_eq_false_iff_not, decide_eq_false_iff_not]
          rcases Classical.em (x.task = name) with h | h
          · exact Or.inr (fun h' => hx ⟨h, h'⟩)
          · exact Or.inl h)]
        have hx' : x.task ≠ name ∨ x.action ∉ resets := by
          rcases Classical.em (x.task = name) with h | h
          · exact Or.inr (fun h' => hx ⟨h, h'⟩)
          · exact Or.inl h
        rw [failCount_snoc hx', ih]
        unfold failsInRow
        rw [List.filter_cons]
        by_cases hf : OfAction name .fail x
        · have : sinceTime l name ≤ x.created := by
            refine since_le ?_ (he x (by simp))
            intro r hr hrn
            have := (List.pairwise_append.1 hi).2.2 r hr x (by simp) hrn hf.1
            omega
          rw [if_pos ⟨hf, this⟩, if_pos (by simpa using hf)]
          rfl
        · rw [if_neg (fun h => hf h.1), if_neg (by simpa using hf)]
          rfl
  rw [retry_eq]
  cases n with
  | none => simp [retryN]
  | some k =>
    simp only [retryN, ← hcount]
    constructor
    · rintro ⟨h1, h2, h3⟩; exact ⟨h2, h1, h3⟩
    · rintro ⟨h2, h1, h3⟩; exact ⟨h1, h2, h3⟩

example :
    let repo : List Record := [⟨"t", .fail, EPOCH + 1, EPOCH + 1, none⟩, ⟨"t", .success, EPOCH + 2, EPOCH + 2, none⟩,
      ⟨"t", .run, EPOCH + 3, EPOCH + 3, none⟩, ⟨"t", .fail, EPOCH + 4, EPOCH + 4, none⟩]
    (∀ r ∈ repo, EPOCH ≤ r.created) ∧ failsInRow "t" repo = 1 ∧ retryState true 1 "t" .fresh repo = true := by
  decide +kernel

/-! ## C31, histories -/

theorem isLatest_append_none {repo new : List Record} {P : Record → Prop} {r : Record} (h : IsLatest (repo ++ new) P r)
    (hn : ∀ x ∈ new, ¬ P x) : IsLatest repo P r := by
  induction new using snoc_ind with
  | nil => simpa using h
  | snoc l x ih =>
    rw [← List.append_assoc] at h
    rcases isLatest_snoc h with h | h
    · exact absurd h.1 (hn x (by simp))
    · exact ih h.2 (fun y hy => hn y (by simp [hy]))

/-- Invariant: `k` starts for the reason "retry" since the row of failures began. -/
structure RetryInv (name : String) (reason : Nat) (n : Int) (k : Nat) (h : HState) : Prop where
  limit : (k : Int) ≤ n
  fails : k ≤ failCount h.log.repo name
  last : ∀ r, IsLatest h.log.repo (Of name) r → r.action = .fail → k + 1 ≤ failCount h.log.repo name
  status : (h.log.mem name).status = some .fail → k + 1 ≤ failCount h.log.repo name
  ended : ∀ r, IsLatest h.log.repo (Of name) r → r.action ∈ resets → k = 0
  ready : h.ready name = some reason → k + 1 ≤ failCount h.log.repo name ∧ (k : Int) + 1 ≤ n

/-- Nothing of the task is logged. -/
theorem retryInv_other {name : String} {reason : Nat} {n : Int} {k : Nat} {h h' : HState} (hi : RetryInv name reason n k h)
    (new : List Record) (hr : h'.log.repo = h.log.repo ++ new) (hn : ∀ x ∈ new, x.task ≠ name)
    (hs : (h'.log.mem name).status = (h.log.mem name).status ∨
      ∃ r, IsLatest h.log.repo (Of name) r ∧ (h'.log.mem name).status = some r.action)
    (hready : h'.ready name = some reason → h.ready name = some reason) : RetryInv name reason n k h' := by
  have hF : failCount h'.log.repo name = failCount h.log.repo name := by rw [hr]; exact failCount_append hn
  have hl : ∀ r, IsLatest h'.log.repo (Of name) r → IsLatest h.log.repo (Of name) r := by
    intro r hl; rw [hr] at hl; exact isLatest_append_none hl hn
  refine ⟨hi.limit, by rw [hF]; exact hi.fails, ?_, ?_, ?_, ?_⟩
  · intro r h1 h2; rw [hF]; exact hi.last r (hl r h1) h2
  · intro h2
    rw [hF]
    rcases hs with h4 | ⟨r, h4, h5⟩
    · exact hi.status (by rw [← h4]; exact h2)
    · rw [h5] at h2
      exact hi.last r h4 (by simpa using h2)
  · intro r h1 h2; exact hi.ended r (hl r h1) h2
  · intro h1; rw [hF]; exact hi.ready (hready h1)

/-- An outcome of the task is logged. -/
theorem retryInv_wrote {name : String} {reason : Nat} {n : Int} {k : Nat} {h h' : HState} (hi : RetryInv name reason n k h)
    (hn : 0 ≤ n) (x : Record) (hx : x.task = name) (ha : x.action ≠ .run) (hr : h'.log.repo = h.log.repo ++ [x])
    (hs : (h'.log.mem name).status = some x.action) (hready : h'.ready name = none) (he : EPOCH ≤ x.created)
    (ho : ∀ r ∈ h.log.repo, r.task = name → r.created ≤ x.created) :
    RetryInv name reason n (if x.action ∈ resets then 0 else k) h' := by
  have hl : ∀ r, IsLatest h'.log.repo (Of name) r → r = x := by
    intro r hl
    rw [hr] at hl
    rcases isLatest_snoc hl with h | h
    · exact h.2
    · exact absurd hx h.1
  by_cases hreset : x.action ∈ resets
  · rw [if_pos hreset]
    have hne : x.action ≠ .fail := by intro e; rw [e] at hreset; exact absurd hreset (by decide)
    refine ⟨hn, Nat.zero_le _, ?_, ?_, fun _ _ _ => rfl, ?_⟩
    · intro r h1 h2; rw [hl r h1] at h2; exact absurd h2 hne
    · intro h2; rw [hs] at h2; exact absurd (by simpa using h2) hne
    · intro h1; rw [hready] at h1; simp at h1
  · rw [if_neg hreset]
    have hfail : x.action = .fail := by
      revert ha hreset
      cases x.action <;> simp [resets]
    have hF : failCount h'.log.repo name = failCount h.log.repo name + 1 := by
      rw [hr, failCount_snoc (Or.inr hreset), if_pos ⟨⟨hx, hfail⟩, since_le ho he⟩]
    refine ⟨hi.limit, by rw [hF]; have := hi.fails; omega, ?_, ?_, ?_, ?_⟩
    · intro r _ _; rw [hF]; have := hi.fails; omega
    · intro _; rw [hF]; have := hi.fails; omega
    · intro r h1 h2; rw [hl r h1] at h2; exact absurd h2 hreset
    · intro h1; rw [hready] at h1; simp at h1

theorem foldl_keep (l : List (Action × Int)) (p : Action × Int) (h : ∀ x ∈ l, x.2 ≤ p.2) :
    l.foldl (fun b q => if q.2 > b.2 then q else b) p = p := by
  induction l with
  | nil => rfl
  | cons q l ih =>
    rw [List.foldl_cons, if_neg (by have := h q (by simp); omega)]
    exact ih (fun x hx => h x (by simp [hx]))

theorem latestAction_head (p : Action × Int) (l : List (Action × Int)) (h : ∀ x ∈ l, x.2 ≤ p.2) :
    latestAction (p :: l) = some p.1 := by
  show some (l.foldl (fun b q => if q.2 > b.2 then q else b) p).1 = some p.1
  rw [foldl_keep l p h]

/-- `max` prefers "run" and "success" to "fail" when the times are equal. -/
theorem tie_not_fail {repo : List Record} {name : String} {a : Action} {t : Int} (ha : a = .run ∨ a = .success)
    (h : (a, t) ∈ cachedTimes repo name) (hmax : ∀ x ∈ cachedTimes repo name, x.2 ≤ t) :
    latestAction (cachedTimes repo name) ≠ some .fail := by
  have hl := mem_cachedTimes.1 h
  revert hmax
  unfold cachedTimes cachedActions
  generalize hrest : [Action.fail, .terminate, .inaction, .crash].filterMap
    (fun a => (lastActionFromLog repo name a).map (fun t => (a, t))) = rest
  rw [List.filterMap_cons, List.filterMap_cons, hrest]
  rcases ha with rfl | rfl
  · rw [hl]
    simp only [Option.map_some]
    intro hmax
    rw [latestAction_head _ _ (fun x hx => hmax x (List.mem_cons_of_mem _ hx))]
    simp
  · rw [hl]
    simp only [Option.map_some]
    cases hr : lastActionFromLog repo name .run with
    | none =>
      simp only [Option.map_none]
      intro hmax
      rw [latestAction_head _ _ (fun x hx => hmax x (List.mem_cons_of_mem _ hx))]
      simp
    | some u =>
      simp only [Option.map_some]
      intro hmax
      unfold latestAction
      simp only [List.foldl_cons]
      have hu := hmax (.run, u) (by simp)
      simp only [] at hu
      have hk : ∀ x ∈ rest, x.2 ≤ t := fun x hx => hmax x (by simp [hx])
      split
      · rw [foldl_keep _ _ hk]; simp
      · rw [foldl_keep _ _ (fun x hx => by have := hk x hx; simp only []; omega)]; simp

/-- What a status "fail" found by `set_cached` means. -/
theorem recovered_fail {repo : List Record} {name : String}
    (ho : repo.Pairwise (fun r s => r.task = name → s.task = name → r.created ≤ s.created))
    (h : latestAction (cachedTimes repo name) = some .fail) :
    ∃ r, IsLatest repo (Of name) r ∧ (r.action = .fail ∨ (r.action ∈ resets ∧ 1 ≤ failCount repo name)) := by
  obtain ⟨t, h1, h2⟩ := latestAction_spec h
  obtain ⟨f, hf, hft⟩ := lastActionFromLog_some (mem_cachedTimes.1 h1)
  have hfm := isLatest_mem hf
  obtain ⟨r, hr⟩ := exists_latest (P := Of name) hfm.1 hfm.2.1
  have hrm := isLatest_mem hr
  refine ⟨r, hr, ?_⟩
  -- the latest record of the task has the greatest time
  have hle : ∀ y ∈ repo, y.task = name → y.created ≤ r.created := by
    intro y hy hyn
    obtain ⟨pre, post, e, k2, k3⟩ := hr
    subst e
    rcases List.mem_append.1 hy with hy | hy
    · exact (List.pairwise_append.1 ho).2.2 y hy r (by simp) hyn hrm.2
    · rcases List.mem_cons.1 hy with rfl | hy
      · exact Int.le_refl _
      · exact absurd hyn (k3 y hy)
  -- so it is the latest of its action, and its time is at most that of the latest failure
  have hra : IsLatest repo (OfAction name r.action) r := by
    obtain ⟨pre, post, e, k2, k3⟩ := hr
    exact ⟨pre, post, e, ⟨k2, rfl⟩, fun x hx hp => k3 x hx hp.1⟩
  have hmem : (r.action, r.created) ∈ cachedTimes repo name := mem_cachedTimes.2 (lastActionFromLog_latest hra)
  have heq : r.created = f.created := by
    have := h2 _ hmem
    have := hle f hfm.1 hfm.2.1
    omega
  by_cases hfa : r.action = .fail
  · exact Or.inl hfa
  · right
    have hmax : ∀ x ∈ cachedTimes repo name, x.2 ≤ r.created := by
      intro x hx
      have := h2 x hx
      omega
    have hrun : r.action ≠ .run ∧ r.action ≠ .success :=
      ⟨fun e => tie_not_fail (Or.inl e) hmem hmax h, fun e => tie_not_fail (Or.inr e) hmem hmax h⟩
    have hreset : r.action ∈ resets := by
      revert hfa hrun
      cases r.action <;> simp [resets]
    refine ⟨hreset, ?_⟩
    have hsince : sinceTime repo name = r.created := by
      unfold sinceTime
      have : latestBy repo name (fun r => decide (r.action ∈ resets)) = some r := by
        rw [latestBy_spec]
        obtain ⟨pre, post, e, k2, k3⟩ := hr
        exact ⟨pre, post, e, ⟨k2, by simpa using hreset⟩, fun x hx hp => k3 x hx hp.1⟩
      rw [this]
    unfold failCount recordsBy
    refine List.length_pos_of_mem (a := f) (List.mem_filter.2 ⟨hfm.1, ?_⟩)
    simp [hfm.2.1, hfm.2.2, isAction, hsince, heq]

theorem step_repo (S : Setup) {h h' : HState} {e : Ev} (hs : HStep S h e h') : ∀ r ∈ h.log.repo, r ∈ h'.log.repo := by
  intro r hr
  cases hs with
  | begin | outcome | more | kill => simp only [HState.write, set_repo]; simp [hr]
  | drain => simp only [received_repo]; simp [hr]
  | recover => simp only [cached_repo]; split <;> simp [hr]
  | look op h1 => simp only [read_repo _ _ _ h1]; exact hr
  | _ => exact hr

theorem read_status (f : Bool) (w : LogWorld) (op : LogOp) (h : IsRead op) (name : String) :
    ((w.step f op).mem name).status = (w.mem name).status ∨
    ∃ r, IsLatest w.repo (Of name) r ∧ ((w.step f op).mem name).status = some r.action := by
  rcases h with ⟨n, rfl⟩ | ⟨n, a, rfl⟩
  · by_cases hn : name = n
    · subst hn
      simp only [LogWorld.step, LogWorld.put, getStatus]
      cases f with
      | false => simp
      | true =>
        cases hl : latestBy w.repo name (fun _ => true) with
        | none => simp
        | some r =>
          right
          obtain ⟨pre, post, e, h2, h3⟩ := latestBy_spec.1 hl
          exact ⟨r, ⟨pre, post, e, h2.1, fun x hx hp => h3 x hx ⟨hp, rfl⟩⟩, by simp⟩
    · left; simp [LogWorld.step, LogWorld.put, hn]
  · left
    simp only [LogWorld.step, LogWorld.put, getLastAction]
    by_cases hn : name = n
    · subst hn; cases f <;> simp [TaskMem.setLast]
    · simp [hn]

/-- C31, histories: for every `n ≥ 0`, in every history of a task that may be started for the reason "retry" only when
`retry(n)` holds (and for other reasons at any time), the number of starts for the reason "retry" since the last
success, crash, inaction or termination is at most `n`; in particular there is none for `n = 0`.  Process tasks: only
when no check happens while a record of the task waits in the queue. -/
theorem C31_history (S : Setup) (name : String) (hp : S.isProc name = false ∨ S.drained = true) (reason : Nat) (n : Int)
    (hn : 0 ≤ n)
    (hS : ∀ first last w, S.start name reason first last w → retryState S.fromLogs n name (w.mem name) w.repo = true)
    {es : List Ev} {h : HState} (hh : Hist S es h) (he : ∀ r ∈ h.log.repo, 719162 * DAY ≤ r.created) :
    (startsInRow name reason es : Int) ≤ n := by
  rw [← epoch_day] at he
  suffices H : RetryInv name reason n (startsInRow name reason es) h from H.limit
  induction hh with
  | init c =>
    refine ⟨by simpa [startsInRow] using hn, by simp [startsInRow], ?_, by simp [HState.init, LogWorld.fresh, TaskMem.fresh],
      ?_, by simp [HState.init]⟩ <;>
    · intro r hr
      exact absurd (isLatest_mem hr).1 (by simp [HState.init, LogWorld.fresh])
  | @step es h h' e hh hs ih =>
    have hi := ih (fun r hr => he r (step_repo S hs r hr))
    have inv := hinv S name hp hh
    have inv' := hinv S name hp (hh.step hs)
    have hord : ∀ x, h'.log.repo = h.log.repo ++ [x] → x.task = name → ∀ r ∈ h.log.repo, r.task = name → r.created ≤ x.created := by
      intro x hr hx r hr' hrn
      have h1 := (List.pairwise_append.1 inv'.ordered).1
      rw [hr] at h1
      have h2 := (List.pairwise_append.1 h1).2.2 r hr' x (by simp) hrn hx
      have := (inv'.times x (by simp [HState.all, hr])).1
      omega
    rw [startsInRow_snoc]
    cases hs with
    | tick c hc => exact retryInv_other hi [] (by simp) (by simp) (Or.inl rfl) (fun h => h)
    | check m reason' first last h1 h2 h3 h4 h5 h6 =>
      simp only []
      by_cases hm : name = m
      · subst hm
        refine ⟨hi.limit, hi.fails, hi.last, hi.status, hi.ended, ?_⟩
        intro hr
        simp only [upd_self, Option.some.injEq] at hr
        subst hr
        obtain ⟨k1, k2, k3⟩ := (retry_eq ..).1 (hS first last h.log h6)
        have hF : startsInRow name reason' es + 1 ≤ failCount h.log.repo name := by
          cases hf : S.fromLogs with
          | false =>
            rw [hf] at k2
            exact hi.status (by simpa [getStatus] using k2)
          | true =>
            rw [hf] at k2
            simp only [getStatus, if_true] at k2
            cases hl : latestBy h.log.repo name (fun _ => true) with
            | none => rw [hl] at k2; simp at k2
            | some r =>
              rw [hl] at k2
              obtain ⟨pre, post, e, q2, q3⟩ := latestBy_spec.1 hl
              exact hi.last r ⟨pre, post, e, q2.1, fun x hx hp => q3 x hx ⟨hp, rfl⟩⟩ (by simpa using k2)
        simp only []
        omega
      · exact retryInv_other hi [] (by simp) (by simp) (Or.inl rfl)
          (fun h => by simpa only [upd_other _ _ _ _ hm] using h)
    | begin m reason' id noted created h1 h2 h3 =>
      by_cases hm : name = m
      · subst hm
        have hF : failCount (h.write S name .run id noted created).repo name = failCount h.log.repo name := by
          simp only [HState.write, set_repo]
          rw [failCount_snoc (Or.inr (by simp [resets])), if_neg (by simp [OfAction])]
          rfl
        have hl : ∀ r, IsLatest (h.write S name .run id noted created).repo (Of name) r → r.action = .run := by
          intro r hr
          simp only [HState.write, set_repo] at hr
          rcases isLatest_snoc hr with h | h
          · rw [h.2]
          · exact absurd rfl h.1
        have key : ∀ k : Nat, (k : Int) ≤ n → k ≤ failCount h.log.repo name → RetryInv name reason n k
            { h with clock := created, log := h.write S name .run id noted created,
                     phase := upd h.phase name .running, ready := upd h.ready name none } := by
          intro k k1 k2
          refine ⟨k1, by rw [hF]; exact k2, ?_, ?_, ?_, ?_⟩
          · intro r h1 h2; rw [hl r h1] at h2; simp at h2
          · intro h2
            simp only [HState.write, set_status] at h2
            simp at h2
          · intro r h1 h2; rw [hl r h1] at h2; simp [resets] at h2
          · intro h2; simp [upd_self] at h2
        simp only []
        by_cases hre : reason' = reason
        · subst hre
          obtain ⟨k1, k2⟩ := hi.ready h1
          rw [if_pos (by simp)]
          exact key _ (by omega) k1
        · rw [if_neg (by simp [hre])]
          exact key _ hi.limit hi.fails
      · simp only []
        rw [if_neg (by simp [Ne.symm hm])]
        exact retryInv_other hi _ (set_repo ..) (by simpa using Ne.symm hm)
          (Or.inl (by simp only [HState.write]; rw [set_other _ _ _ _ _ _ _ _ hm]))
          (fun h => by simpa only [upd_other _ _ _ _ hm] using h)
    | outcome m a id noted created h1 h3 h4 h5 =>
      by_cases hm : name = m
      · subst hm
        have hw := retryInv_wrote hi hn ⟨name, a, created, noted, id⟩ rfl h3 (h' := { h with
          clock := created, log := h.write S name a id noted created, phase := upd h.phase name .ending })
          (set_repo ..) (set_status ..) (by
            cases hr : h.ready name with
            | none => rfl
            | some x => have := (inv.ready (by rw [hr]; simp)).1; rw [h1] at this; exact absurd this (by simp))
          (he _ (by simp only [HState.write, set_repo]; simp)) (hord _ (set_repo ..) rfl)
        simp only [true_and] at hw ⊢
        exact hw
      · simp only []
        rw [if_neg (by simp [Ne.symm hm])]
        exact retryInv_other hi _ (set_repo ..) (by simpa using Ne.symm hm)
          (Or.inl (by simp only [HState.write]; rw [set_other _ _ _ _ _ _ _ _ hm])) (fun h => h)
    | more m a id noted created h1 h2 h3 h3' h4 h5 =>
      by_cases hm : name = m
      · subst hm
        have hw := retryInv_wrote hi hn ⟨name, a, created, noted, id⟩ rfl h3 (h' := { h with
          clock := created, log := h.write S name a id noted created })
          (set_repo ..) (set_status ..) (by
            cases hr : h.ready name with
            | none => rfl
            | some x => have := (inv.ready (by rw [hr]; simp)).1; rw [h1] at this; exact absurd this (by simp))
          (he _ (by simp only [HState.write, set_repo]; simp)) (hord _ (set_repo ..) rfl)
        simp only [true_and] at hw ⊢
        exact hw
      · simp only []
        rw [if_neg (by simp [Ne.symm hm])]
        exact retryInv_other hi _ (set_repo ..) (by simpa using Ne.symm hm)
          (Or.inl (by simp only [HState.write]; rw [set_other _ _ _ _ _ _ _ _ hm])) (fun h => h)
    | put m a id created h1 h2 h3 h4 =>
      exact retryInv_other hi [] (by simp) (by simp) (Or.inl rfl) (fun h => h)
    | putMore m a id created h1 h2 h3 h3' h4 =>
      exact retryInv_other hi [] (by simp) (by simp) (Or.inl rfl) (fun h => h)
    | drain r q h1 =>
      have hq := inv.queued r (by rw [h1]; simp)
      by_cases hm : name = r.task
      · have hw := retryInv_wrote hi hn ⟨r.task, r.action, r.created, r.created, r.runId⟩ hm.symm hq.2 (h' := { h with
          log := h.log.step S.fromLogs (.received r.task r.action r.runId r.created .ok), queue := q })
          (received_repo S.fromLogs ..) (by simp only [hm]; exact received_status S.fromLogs ..) (by
            cases hr : h.ready name with
            | none => rfl
            | some x => exact absurd hm.symm ((inv.ready (by rw [hr]; simp)).2.2 r (by rw [h1]; simp)))
          (he _ (by simp only [received_repo]; simp)) (hord _ (received_repo S.fromLogs ..) hm.symm)
        simp only [hm.symm, true_and] at hw ⊢
        exact hw
      · simp only []
        rw [if_neg (by simp [Ne.symm hm])]
        exact retryInv_other hi _ (received_repo S.fromLogs ..) (by simpa using Ne.symm hm)
          (Or.inl (by rw [received_other _ _ _ _ _ _ _ hm])) (fun h => h)
    | die m h1 => exact retryInv_other hi [] (by simp) (by simp) (Or.inl rfl) (fun h => h)
    | kill m a id noted created h1 h2 h3 h4 =>
      by_cases hm : name = m
      · subst hm
        have hw := retryInv_wrote hi hn ⟨name, a, created, noted, id⟩ rfl (by rcases h1 with h1 | h1 <;> simp [h1]) (h' := { h with
          clock := created, log := h.write S name a id noted created, phase := upd h.phase name .idle,
          ready := upd h.ready name none })
          (set_repo ..) (set_status ..) (upd_self ..)
          (he _ (by simp only [HState.write, set_repo]; simp)) (hord _ (set_repo ..) rfl)
        simp only [true_and] at hw ⊢
        exact hw
      · simp only []
        rw [if_neg (by simp [Ne.symm hm])]
        exact retryInv_other hi _ (set_repo ..) (by simpa using Ne.symm hm)
          (Or.inl (by simp only [HState.write]; rw [set_other _ _ _ _ _ _ _ _ hm])) (fun h => by simpa only [upd_other _ _ _ _ hm] using h)
    | reboot c hc =>
      exact ⟨hi.limit, hi.fails, hi.last, fun h => absurd h (by simp [TaskMem.fresh]), hi.ended, by simp⟩
    | recover m noted created h1 h2 h3 =>
      by_cases hm : name = m
      · subst hm
        by_cases hrun : latestAction (cachedTimes h.log.repo name) = some .run
        · have hr := cached_repo S.fromLogs h.log name noted created
          rw [if_pos hrun] at hr
          have hw := retryInv_wrote hi hn ⟨name, .crash, created, noted, none⟩ rfl (by simp) (h' := { h with
            clock := created, log := h.log.step S.fromLogs (.cached name noted created .ok), ready := upd h.ready name none,
            cold := upd h.cold name false })
            hr (by simp [LogWorld.step, LogWorld.put, setCached, hrun, setStatus]) (upd_self ..)
            (he _ (by simp only [hr]; simp)) (hord _ hr rfl)
          rw [if_pos hrun]
          simp only [true_and] at hw ⊢
          exact hw
        · have hr := cached_repo S.fromLogs h.log name noted created
          rw [if_neg hrun] at hr
          rw [if_neg hrun]
          simp only []
          refine ⟨hi.limit, by rw [hr]; exact hi.fails, by rw [hr]; exact hi.last, ?_, by rw [hr]; exact hi.ended,
            by simp [upd_self]⟩
          intro hst
          rw [hr]
          cases hl : latestAction (cachedTimes h.log.repo name) with
          | none => exact hi.status (by simpa [LogWorld.step, LogWorld.put, setCached, hl] using hst)
          | some a =>
            have ha : a = .fail := by
              rw [hl] at hrun
              cases a <;> simp [LogWorld.step, LogWorld.put, setCached, hl] at hst hrun ⊢
            subst ha
            obtain ⟨r, k1, k2 | ⟨k2, k3⟩⟩ := recovered_fail ((List.pairwise_append.1 inv.ordered).1.imp_of_mem
              (fun {r s} _ hs h h1 h2 => by
                have := h h1 h2
                have := (inv.times s (by simp [HState.all, hs])).1
                omega)) hl
            · exact hi.last r k1 k2
            · rw [hi.ended r k1 k2]; exact k3
      · have hlab : (match (if latestAction (cachedTimes h.log.repo m) = some .run then Ev.logged m .crash else .other) with
            | .began m r => if m = name ∧ r = reason then startsInRow name reason es + 1 else startsInRow name reason es
            | .logged m a => if m = name ∧ a ∈ resets then 0 else startsInRow name reason es
            | .other => startsInRow name reason es) = startsInRow name reason es := by
          split <;> rename_i heq <;> split at heq <;> simp_all
          exact fun e => absurd e.symm hm
        rw [hlab]
        have hr := cached_repo S.fromLogs h.log m noted created
        have hst : ((h.log.step S.fromLogs (.cached m noted created .ok)).mem name).status = (h.log.mem name).status := by
          rw [cached_other _ _ _ _ _ _ hm]
        split at hr
        · exact retryInv_other hi _ hr (by simpa using Ne.symm hm)
            (Or.inl hst) (fun h => by simpa only [upd_other _ _ _ _ hm] using h)
        · exact retryInv_other hi [] (by simpa using hr) (by simp)
            (Or.inl hst) (fun h => by simpa only [upd_other _ _ _ _ hm] using h)
    | look op h1 =>
      exact retryInv_other hi [] (by simp [read_repo _ _ _ h1]) (by simp) (read_status _ _ _ h1 _) (fun h => h)

/-- The session of the examples: the start condition is `retry(1)` (reason 1), or the user starts the task (reason 0). -/
def retrySetup (proc : Bool) : Setup where
  fromLogs := false
  start := fun name reason _ _ w => reason = 0 ∨ (reason = 1 ∧ retryState false 1 name (w.mem name) w.repo = true)
  isProc := fun _ => proc
  drained := false

/-- Non-vacuity, and the limit is reached: a run that fails is retried once. -/
example : ∃ es h, Hist (retrySetup false) es h ∧ (∀ r ∈ h.log.repo, EPOCH ≤ r.created) ∧ startsInRow "t" 1 es = 1 := by
  have h0 := Hist.init (S := retrySetup false) EPOCH
  have h1 := h0.step (.check _ "t" 0 EPOCH EPOCH (by decide) (by decide) (by decide) (by decide) (by simp [retrySetup]) (Or.inl rfl))
  have h2 := h1.step (.begin _ "t" 0 none (EPOCH + 1) (EPOCH + 1) (by decide) (by decide) (by decide))
  have h3 := h2.step (.outcome _ "t" .fail none (EPOCH + 2) (EPOCH + 2) (by decide) (by decide) (by decide) (by decide))
  have h4 := h3.step (.die _ "t" (by decide))
  have h5 := h4.step (.check _ "t" 1 (EPOCH + 3) (EPOCH + 3) (by decide) (by decide) (by decide) (by decide) (by simp [retrySetup])
    (Or.inr ⟨rfl, by decide +kernel⟩))
  have h6 := h5.step (.begin _ "t" 1 none (EPOCH + 4) (EPOCH + 4) (by decide) (by decide) (by decide))
  exact ⟨_, _, h6, by decide +kernel, by decide +kernel⟩

/-- The limit can be exceeded by one for a task in a child process: when the process has failed, its record still waits
in the queue, and the run is terminated, the failure is logged after the termination but with an earlier time; it gives
the status "fail" and is not counted. -/
theorem C31_process_violated :
    ∃ es h, Hist (retrySetup true) es h ∧ (∀ r ∈ h.log.repo, EPOCH ≤ r.created) ∧ startsInRow "t" 1 es = 2 := by
  have h0 := Hist.init (S := retrySetup true) EPOCH
  have h1 := h0.step (.check _ "t" 0 EPOCH EPOCH (by decide) (by decide) (by decide) (by decide) (by simp [retrySetup]) (Or.inl rfl))
  have h2 := h1.step (.begin _ "t" 0 none (EPOCH + 1) (EPOCH + 1) (by decide) (by decide) (by decide))
  have h3 := h2.step (.put _ "t" .fail none (EPOCH + 2) (by decide) rfl (by decide) (by decide))
  have h4 := h3.step (.kill _ "t" .terminate none (EPOCH + 3) (EPOCH + 3) (Or.inl rfl) (by simp [retrySetup]) (by decide) (by decide))
  have h5 := h4.step (.drain _ _ _ rfl)
  have h6 := h5.step (.check _ "t" 1 (EPOCH + 4) (EPOCH + 4) (by decide +kernel) (by decide) (by decide +kernel) (by decide) (by simp [retrySetup])
    (Or.inr ⟨rfl, by decide +kernel⟩))
  have h7 := h6.step (.begin _ "t" 1 none (EPOCH + 5) (EPOCH + 5) (by decide +kernel) (by decide +kernel) (by decide))
  have h8 := h7.step (.put _ "t" .fail none (EPOCH + 6) (by decide +kernel) rfl (by decide) (by decide +kernel))
  have h9 := h8.step (.drain _ _ _ rfl)
  have h10 := h9.step (.die _ "t" (by decide +kernel))
  have h11 := h10.step (.check _ "t" 1 (EPOCH + 7) (EPOCH + 7) (by decide +kernel) (by decide) (by decide +kernel) (by decide) (by simp [retrySetup])
    (Or.inr ⟨rfl, by decide +kernel⟩))
  have h12 := h11.step (.begin _ "t" 1 none (EPOCH + 8) (EPOCH + 8) (by decide +kernel) (by decide +kernel) (by decide))
  exact ⟨_, _, h12, by decide +kernel, by decide +kernel⟩

end Rocketry.Props
