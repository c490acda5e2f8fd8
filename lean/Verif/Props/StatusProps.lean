import Verif.Task.Conditions
import Verif.Props.LogProps
import Verif.Props.CondProps

/-!
# C25: the cached fast path of the status conditions agrees with the log
-/

namespace Rocketry.Props
open Spec

/-- Number of records of the task with one of the actions, created in the window. -/
def countIn (repo : List Record) (name : String) (acts : Acts) (s e : Int) : Nat :=
  (repo.filter (fun r => decide (r.task = name ∧ acts.has r.action = true ∧ s ≤ r.created ∧ r.created ≤ e))).length

theorem measured_length (repo : List Record) (name : String) (acts : Acts) (s e : Int) :
    (measuredTimes repo name acts s e).length = countIn repo name acts s e := by
  unfold measuredTimes countIn recordsBy within
  rw [List.length_map]
  congr 2
  funext r
  rw [Bool.eq_iff_iff]
  simp only [Bool.and_eq_true, decide_eq_true_eq]
  constructor
  · rintro ⟨a, ⟨b, c⟩, d⟩; exact ⟨a, d, b, c⟩
  · rintro ⟨a, d, b, c⟩; exact ⟨a, ⟨b, c⟩, d⟩

theorem countIn_pos {repo : List Record} {name : String} {acts : Acts} {s e : Int} :
    0 < countIn repo name acts s e ↔
      ∃ r ∈ repo, r.task = name ∧ acts.has r.action = true ∧ s ≤ r.created ∧ r.created ≤ e := by
  unfold countIn
  rw [List.length_pos_iff_exists_mem]
  simp [List.mem_filter]

theorem countIn_zero {repo : List Record} {name : String} {acts : Acts} {s e : Int} :
    countIn repo name acts s e = 0 ↔
      ∀ r ∈ repo, r.task = name → acts.has r.action = true → s ≤ r.created → ¬ r.created ≤ e := by
  constructor
  · intro h r hr h1 h2 h3 h4
    have := countIn_pos.2 ⟨r, hr, h1, h2, h3, h4⟩
    omega
  · intro h
    apply Nat.eq_zero_of_not_pos
    intro hp
    obtain ⟨r, hr, h1, h2, h3, h4⟩ := countIn_pos.1 hp
    exact h r hr h1 h2 h3 h4

/-- The cache is good enough for the window: a missing time means no record; otherwise the time lies on the same
side of the window's ends as the latest record of the action. -/
def CacheFits (t : TaskMem) (repo : List Record) (name : String) (s e : Int) : Prop :=
  ∀ a, (t.last a = none ∧ ∀ r ∈ repo, ¬ OfAction name a r) ∨
    ∃ r u, IsLatest repo (OfAction name a) r ∧ t.last a = some u ∧ (s ≤ u ↔ s ≤ r.created) ∧ (u ≤ e ↔ r.created ≤ e)

theorem ordered_latest {repo : List Record} {P : Record → Prop} (hi : Ordered repo P) {r x : Record}
    (hr : IsLatest repo P r) (hx : x ∈ repo) (hp : P x) : x.created ≤ r.created := by
  obtain ⟨pre, post, rfl, h2, h3⟩ := hr
  rcases List.mem_append.1 hx with hx | hx
  · exact (List.pairwise_append.1 hi).2.2 x hx r (by simp) hp h2
  · rcases List.mem_cons.1 hx with hx | hx
    · subst hx; exact Int.le_refl _
    · exact absurd hp (h3 x hx)

/-- What the two features of the fast path say about the log. -/
theorem features_one {t : TaskMem} {repo : List Record} {name : String} {s e : Int} (hc : CacheFits t repo name s e)
    (ho : ∀ a, Ordered repo (OfAction name a)) (a : Action) :
    (∀ u, t.last a = some u → within s e u = true → ∃ r ∈ repo, OfAction name a r ∧ s ≤ r.created ∧ r.created ≤ e) ∧
    (∀ u, t.last a = some u → u < s → ∀ r ∈ repo, OfAction name a r → r.created < s) ∧
    (t.last a = none → ∀ r ∈ repo, ¬ OfAction name a r) := by
  rcases hc a with ⟨h1, h2⟩ | ⟨r, u, h1, h2, h3, h4⟩
  · rw [h1]; simp; exact h2
  · rw [h2]
    refine ⟨?_, ?_, by simp⟩
    · intro u' hu hw
      cases hu
      simp only [within, Bool.and_eq_true, decide_eq_true_eq] at hw
      obtain ⟨hm, hp⟩ := isLatest_mem h1
      exact ⟨r, hm, hp, h3.1 hw.1, h4.1 hw.2⟩
    · intro u' hu hlt x hx hp
      cases hu
      have := ordered_latest (ho a) h1 hx hp
      omega

theorem scan_spec {t : TaskMem} {repo : List Record} {name : String} {s e : Int} (hc : CacheFits t repo name s e)
    (ho : ∀ a, Ordered repo (OfAction name a)) : ∀ (as : List Action) (cannot : Bool),
    ((scanActions t.last s e as cannot).1 = true →
      ∃ a ∈ as, ∃ r ∈ repo, OfAction name a r ∧ s ≤ r.created ∧ r.created ≤ e) ∧
    ((scanActions t.last s e as cannot).2 = true →
      cannot = true ∧ ∀ a ∈ as, ∀ r ∈ repo, OfAction name a r → r.created < s) := by
  intro as
  induction as with
  | nil => intro cannot; simp [scanActions]
  | cons a as ih =>
    intro cannot
    obtain ⟨f1, f2, f3⟩ := features_one hc ho a
    unfold scanActions
    cases hl : t.last a with
    | none =>
      simp only []
      obtain ⟨i1, i2⟩ := ih cannot
      refine ⟨fun h => ?_, fun h => ?_⟩
      · obtain ⟨b, hb, hr⟩ := i1 h
        exact ⟨b, List.mem_cons_of_mem _ hb, hr⟩
      · obtain ⟨j1, j2⟩ := i2 h
        refine ⟨j1, ?_⟩
        intro b hb r hr hp
        rcases List.mem_cons.1 hb with e | hb
        · subst e; exact absurd hp (f3 hl r hr)
        · exact j2 b hb r hr hp
    | some u =>
      simp only []
      by_cases hw : within s e u = true
      · rw [if_pos hw]
        refine ⟨fun _ => ⟨a, by simp, f1 u hl hw⟩, fun h => by simp at h⟩
      · rw [if_neg hw]
        by_cases hge : u ≥ s
        · rw [if_pos hge]
          obtain ⟨i1, i2⟩ := ih false
          refine ⟨fun h => ?_, fun h => ?_⟩
          · obtain ⟨b, hb, hr⟩ := i1 h
            exact ⟨b, List.mem_cons_of_mem _ hb, hr⟩
          · exact absurd (i2 h).1 (by simp)
        · rw [if_neg hge]
          obtain ⟨i1, i2⟩ := ih cannot
          refine ⟨fun h => ?_, fun h => ?_⟩
          · obtain ⟨b, hb, hr⟩ := i1 h
            exact ⟨b, List.mem_cons_of_mem _ hb, hr⟩
          · obtain ⟨j1, j2⟩ := i2 h
            refine ⟨j1, ?_⟩
            intro b hb r hr hp
            rcases List.mem_cons.1 hb with e | hb
            · subst e; exact f2 u hl (by omega) r hr hp
            · exact j2 b hb r hr hp

theorem features_spec {t : TaskMem} {repo : List Record} {name : String} {s e : Int} (hc : CacheFits t repo name s e)
    (ho : ∀ a, Ordered repo (OfAction name a)) (acts : Acts) :
    ((cachedFeatures t.last s e acts).1 = true → 0 < countIn repo name acts s e) ∧
    ((cachedFeatures t.last s e acts).2 = true → countIn repo name acts s e = 0) := by
  cases acts with
  | one a =>
    obtain ⟨f1, f2, f3⟩ := features_one hc ho a
    cases hl : t.last a with
    | none =>
      simp only [cachedFeatures, hl]
      refine ⟨by simp, fun _ => countIn_zero.2 ?_⟩
      intro r hr h1 h2 h3 h4
      exact f3 hl r hr ⟨h1, by simpa [Acts.has] using h2⟩
    | some u =>
      simp only [cachedFeatures, hl]
      refine ⟨fun h => ?_, fun h => countIn_zero.2 ?_⟩
      · obtain ⟨r, hr, hp, h1, h2⟩ := f1 u hl h
        exact countIn_pos.2 ⟨r, hr, hp.1, by simp [Acts.has, hp.2], h1, h2⟩
      · intro r hr h1 h2 h3 h4
        have := f2 u hl (by simpa using h) r hr ⟨h1, by simpa [Acts.has] using h2⟩
        omega
  | many as =>
    obtain ⟨i1, i2⟩ := scan_spec hc ho as true
    refine ⟨fun h => ?_, fun h => countIn_zero.2 ?_⟩
    · obtain ⟨a, ha, r, hr, hp, h1, h2⟩ := i1 h
      exact countIn_pos.2 ⟨r, hr, hp.1, by simp [Acts.has, hp.2, ha], h1, h2⟩
    · intro r hr h1 h2 h3 h4
      have := (i2 h).2 r.action (by simpa [Acts.has] using h2) r hr ⟨h1, rfl⟩
      omega

/-- The answer from the cache is the comparison of the count of the log records in the window. -/
theorem observe_cached {t : TaskMem} {repo : List Record} {name : String} {s e : Int} (hc : CacheFits t repo name s e)
    (ho : ∀ a, Ordered repo (OfAction name a)) (acts : Acts) (ops : List (Comp × Int)) :
    statusObserve false acts (chain ops) (s, e) name t repo = compState (chain ops) (countIn repo name acts s e) := by
  obtain ⟨f1, f2⟩ := features_spec hc ho acts
  unfold statusObserve
  simp only [Bool.false_eq_true, if_false, measured_length]
  by_cases h1 : isEqualZero (chain ops) = true ∧ (cachedFeatures t.last s e acts).2 = true
  · rw [if_pos (by simp [h1.1, h1.2])]
    exact ((C23_equal_zero ops h1.1 _).2 (by have := f2 h1.2; omega)).symm
  · rw [if_neg (by simpa using h1)]
    by_cases h2 : isEqualZero (chain ops) = true ∧ (cachedFeatures t.last s e acts).1 = true
    · rw [if_pos (by simp [h2.1, h2.2])]
      symm
      rw [Bool.eq_false_iff]
      intro h
      have := (C23_equal_zero ops h2.1 _).1 h
      have := f1 h2.2
      omega
    · rw [if_neg (by simpa using h2)]
      by_cases h3 : isAnyOverZero (chain ops) = true ∧ (cachedFeatures t.last s e acts).2 = true
      · rw [if_pos (by simp [h3.1, h3.2])]
        symm
        rw [Bool.eq_false_iff]
        intro h
        have := (C23_any_over_zero ops h3.1 _).1 h
        have := f2 h3.2
        omega
      · rw [if_neg (by simpa using h3)]
        by_cases h4 : isAnyOverZero (chain ops) = true ∧ (cachedFeatures t.last s e acts).1 = true
        · rw [if_pos (by simp [h4.1, h4.2])]
          exact ((C23_any_over_zero ops h4.1 _).2 (by have := f1 h4.2; omega)).symm
        · rw [if_neg (by simpa using h4)]

/-- C25: for every history of successful log writes with non-decreasing record times (increasing when there were
restarts), every set of comparisons, every window and every kind of status condition, the answer from the cached
times equals the comparison of the number of matching log records, which is also the answer from the log.  Missing:
windows that begin or end between the time put into the cache and the (slightly later) time of the record, see
`C25_two_readings_violated`. -/
theorem C25_cached_partial (fromLogs : Bool) (calls : List LogOp) (hf : ∀ op ∈ calls, op.Fine) (name : String)
    (hi : Increasing (runLogOps fromLogs .fresh calls).repo (Of name) ∨ ∀ op ∈ calls, op.NoStartup)
    (ho : Ordered (runLogOps fromLogs .fresh calls).repo (Of name)) (acts : Acts) (ops : List (Comp × Int)) (s e : Int)
    (hs : ∀ r ∈ (runLogOps fromLogs .fresh calls).repo, r.task = name →
      (s ≤ r.noted ↔ s ≤ r.created) ∧ (r.noted ≤ e ↔ r.created ≤ e)) :
    let w := runLogOps fromLogs .fresh calls
    statusObserve false acts (chain ops) (s, e) name (w.mem name) w.repo
      = compState (chain ops) (countIn w.repo name acts s e) ∧
    statusObserve true acts (chain ops) (s, e) name (w.mem name) w.repo
      = compState (chain ops) (countIn w.repo name acts s e) := by
  intro w
  have hw : Agrees w name := C34_agrees fromLogs calls hf name hi
  refine ⟨?_, by simp [statusObserve, measured_length]⟩
  refine observe_cached ?_ ?_ acts ops
  · intro a
    have : DecidablePred (OfAction name a) := fun x => by unfold OfAction; infer_instance
    by_cases hex : ∃ r ∈ w.repo, OfAction name a r
    · obtain ⟨x, hx, hp⟩ := hex
      obtain ⟨r, hr⟩ := exists_latest hx hp
      obtain ⟨hm, hp⟩ := isLatest_mem hr
      have hsr := hs r hm hp.1
      right
      rcases hw.last_some a r hr with h | h
      · exact ⟨r, r.noted, hr, h, hsr.1, hsr.2⟩
      · exact ⟨r, r.created, hr, h, Iff.rfl, Iff.rfl⟩
    · left
      have h' : ∀ r ∈ w.repo, ¬ OfAction name a r := fun r hr hp => hex ⟨r, hr, hp⟩
      exact ⟨hw.last_none a h', h'⟩
  · intro a
    exact ho.imp (fun h h1 h2 => h h1.1 h2.1)

/-- C25: which records `TaskFinished` counts. -/
theorem C25_finished (repo : List Record) (name : String) (s e : Int) :
    countIn repo name finishActs s e =
      (repo.filter (fun r => decide (r.task = name ∧ (r.action = .success ∨ r.action = .fail ∨ r.action = .terminate) ∧
        s ≤ r.created ∧ r.created ≤ e))).length := by
  unfold countIn
  congr 2
  funext r
  simp [finishActs, Acts.has]

/-- `a` ran and succeeded, `b` crashed; windows of the seconds 10 to 15. -/
example : (∀ op ∈ exampleOps, op.Fine) ∧ Increasing (runLogOps false .fresh exampleOps).repo (Of "a") ∧
    Ordered (runLogOps false .fresh exampleOps).repo (Of "a") ∧
    statusObserve false finishActs (chain []) (10, 15) "a" ((runLogOps false .fresh exampleOps).mem "a")
      (runLogOps false .fresh exampleOps).repo = true := by
  have hrepo : (runLogOps false .fresh exampleOps).repo =
    [⟨"a", .run, 10, 10, some "1"⟩, ⟨"b", .run, 11, 11, some "2"⟩, ⟨"a", .success, 12, 12, some "1"⟩,
     ⟨"b", .crash, 21, 21, none⟩] := by decide
  refine ⟨?_, ?_, ?_, by decide⟩
  · intro op h; simp [exampleOps] at h; rcases h with h|h|h|h|h|h|h <;> subst h <;> simp [LogOp.Fine]
  · rw [hrepo]; simp [Increasing, Of]
  · rw [hrepo]; simp [Ordered, Of]

/-- C25 fails when the window begins between the two clock readings of one log call: the cache says that the task
has not succeeded in the window, the log says that it has. -/
theorem C25_two_readings_violated :
    let w := runLogOps false .fresh [.set "t" .run (some "1") 5 5 .ok, .set "t" .success (some "1") 9 10 .ok]
    statusObserve false (.one .success) (chain [(.eq, 0)]) (10, 20) "t" (w.mem "t") w.repo = true ∧
    statusObserve true (.one .success) (chain [(.eq, 0)]) (10, 20) "t" (w.mem "t") w.repo = false := by
  decide

/-- C25 needs the order of times: a process record that arrives late, with an earlier time than one already
logged, makes the cached time go back. -/
theorem C25_late_record_violated :
    let w := runLogOps false .fresh [.received "t" .success (some "2") 12 .ok, .received "t" .success (some "1") 9 .ok]
    statusObserve false (.one .success) (chain []) (10, 20) "t" (w.mem "t") w.repo = false ∧
    statusObserve true (.one .success) (chain []) (10, 20) "t" (w.mem "t") w.repo = true := by
  decide

end Rocketry.Props
