import Verif.Spec.TaskSpec
import Verif.Task.HistoryRuns
import Verif.Props.StatusProps
import Verif.Props.AnchoredProps
import Verif.Props.MonthProps

/-!
# C26, C27, C28, C30: periodic start conditions
-/

namespace Rocketry.Props
open Spec

/-! ### what a status condition says about the records -/

theorem chain_eq0 : chain [(.eq, 0)] = [(.eq, 0)] := rfl
theorem chain_le (n : Int) : chain [(.le, n)] = [(.le, n)] := rfl

/-- If "has not … in the window" holds, no record of the action lies in the window (with both its times). -/
theorem observe_none {fromLogs : Bool} {w : LogWorld} {name : String} {a : Action} {s e first : Int} (hw : Seen w name a first)
    (h : statusObserve fromLogs (.one a) [(.eq, 0)] (s, e) name (w.mem name) w.repo = true) :
    ∀ r ∈ w.repo, OfAction name a r → ¬ (s ≤ r.noted ∧ r.created ≤ e) := by
  have hcount : compState [(.eq, 0)] ((measuredTimes w.repo name (.one a) s e).length : Int) = true →
      ∀ r ∈ w.repo, OfAction name a r → ¬ (s ≤ r.noted ∧ r.created ≤ e) := by
    intro hc r hr hra hse
    rw [← chain_eq0] at hc
    have := (C23_equal_zero [(.eq, 0)] (by decide) _).1 hc
    rw [measured_length] at this
    have h0 : countIn w.repo name (.one a) s e = 0 := by omega
    have := (hw.times r hr hra.1).1
    exact countIn_zero.1 h0 r hr hra.1 (by simp [Acts.has, hra.2]) (by omega) hse.2
  unfold statusObserve at h
  have e0 : isEqualZero [(Comp.eq, 0)] = true := by decide
  have a0 : isAnyOverZero [(Comp.eq, 0)] = false := by decide
  simp only [e0, a0, Bool.true_and, Bool.false_and, Bool.false_eq_true, if_false, cachedFeatures] at h
  by_cases hf : fromLogs = true
  · rw [if_pos hf] at h; exact hcount h
  · rw [if_neg hf] at h
    intro r hr hra hse
    have : DecidablePred (OfAction name a) := fun x => by unfold OfAction; infer_instance
    obtain ⟨q, hq⟩ := exists_latest hr hra
    have hqm := isLatest_mem hq
    have hqt := hw.times q hqm.1 hqm.2.1
    have hrt := hw.times r hr hra.1
    have hle : r.noted ≤ q.noted := by
      obtain ⟨pre, post, e, _, h3⟩ := hq
      rw [e] at hr
      rcases List.mem_append.1 hr with hr | hr
      · have ho := hw.ordered
        rw [e] at ho
        have := (List.pairwise_append.1 ho).2.2 r hr q (by simp) hra hqm.2
        omega
      · rcases List.mem_cons.1 hr with hr | hr
        · rw [hr]; exact Int.le_refl _
        · exact absurd hra (h3 r hr)
    have hu : ∃ u, (w.mem name).last a = some u ∧ q.noted ≤ u := by
      rcases hw.cache.last_some a q hq with h | h
      · exact ⟨_, h, Int.le_refl _⟩
      · exact ⟨_, h, hqt.1⟩
    obtain ⟨u, hu1, hu2⟩ := hu
    rw [hu1] at h
    simp only [] at h
    rw [if_neg (by simp; omega)] at h
    split at h
    · exact absurd h (by simp)
    · exact hcount h r hr hra hse

/-- If all records of the action were made before the window, "has not … in the window" holds. -/
theorem observe_all_before {fromLogs : Bool} {w : LogWorld} {name : String} {a : Action} {s e first : Int}
    (hw : Seen w name a first) (h : ∀ r ∈ w.repo, OfAction name a r → r.created < s) :
    statusObserve fromLogs (.one a) [(.eq, 0)] (s, e) name (w.mem name) w.repo = true := by
  have hc : compState [(.eq, 0)] ((measuredTimes w.repo name (.one a) s e).length : Int) = true := by
    rw [← chain_eq0]
    refine (C23_equal_zero [(.eq, 0)] (by decide) _).2 ?_
    rw [measured_length]
    have : countIn w.repo name (.one a) s e = 0 := by
      refine countIn_zero.2 ?_
      intro r hr h1 h2 h3
      have := h r hr ⟨h1, by simpa [Acts.has] using h2⟩
      omega
    omega
  unfold statusObserve
  have e0 : isEqualZero [(Comp.eq, 0)] = true := by decide
  have a0 : isAnyOverZero [(Comp.eq, 0)] = false := by decide
  simp only [e0, a0, Bool.true_and, Bool.false_and, Bool.false_eq_true, if_false, cachedFeatures]
  by_cases hf : fromLogs = true
  · rw [if_pos hf]; exact hc
  · rw [if_neg hf]
    have : DecidablePred (OfAction name a) := fun x => by unfold OfAction; infer_instance
    by_cases hex : ∃ r ∈ w.repo, OfAction name a r
    · obtain ⟨x, hx, hp⟩ := hex
      obtain ⟨q, hq⟩ := exists_latest hx hp
      have hqm := isLatest_mem hq
      have hqt := hw.times q hqm.1 hqm.2.1
      have hqs := h q hqm.1 hqm.2
      rcases hw.cache.last_some a q hq with h | h <;> rw [h] <;> simp only [] <;> rw [if_pos (by simp; omega)]
    · rw [hw.cache.last_none a (fun r hr hp => hex ⟨r, hr, hp⟩)]
      simp

/-! ### fixed-cycle periods -/

theorem occurrence_mono {L : Int} (hL : 0 < L) (s : Int) {t u : Int} (h : t ≤ u) : occurrence L s t ≤ occurrence L s u :=
  Int.ediv_le_ediv hL (by omega)

/-- The start of the occurrence of `t`. -/
theorem occurrence_bounds {L : Int} (hL : 0 < L) (s t : Int) :
    s + L * occurrence L s t ≤ t ∧ t < s + L * occurrence L s t + L ∧
      s + L * occurrence L s t = t - (t - s) % L := by
  unfold occurrence
  have h1 := Int.emod_add_mul_ediv (t - s) L
  have h2 := Int.emod_nonneg (t - s) (show L ≠ 0 by omega)
  have h3 := Int.emod_lt_of_pos (t - s) hL
  omega

theorem start_le {L : Int} (hL : 0 < L) {s k t : Int} : s + L * k ≤ t ↔ k ≤ occurrence L s t := by
  unfold occurrence
  rw [Int.le_ediv_iff_mul_le hL, Int.mul_comm]
  omega

theorem occurrence_of_start {L : Int} (hL : 0 < L) {s l : Int} (h : (l - s) % L = 0) : l = s + L * occurrence L s l := by
  have := (occurrence_bounds hL s l).2.2
  omega

/-- The first instant of a stretch of an arc that is not the full cycle is an occurrence of its start. -/
theorem entry_start {L s e l : Int} (hL : 0 < L) (h1 : InArc L s e l) (h2 : ¬ InArc L s e (l - 1)) : (l - s) % L = 0 := by
  unfold InArc at h1 h2
  have a1 := Int.emod_nonneg (l - s) (show L ≠ 0 by omega)
  rcases Classical.em ((l - s) % L = 0) with h | h
  · exact h
  · exfalso
    apply h2
    rcases h1 with h1 | h1 | h1
    · exact Or.inl h1
    · exact Or.inr (Or.inl h1)
    · right; right
      have e1 : (l - 1 - s) % L = (l - s) % L - 1 := by
        have h3 := Int.emod_lt_of_pos (l - s) hL
        have : l - 1 - s = ((l - s) % L - 1) + L * ((l - s) / L) := by
          have := Int.emod_add_mul_ediv (l - s) L; omega
        rw [this, Int.add_mul_emod_self_left]
        exact Int.emod_eq_of_lt (by omega) (by omega)
      omega

/-- The span that `rollback` gives inside an occurrence, away from the first instant of a full cycle: from the start
of the occurrence to now. -/
theorem rollback_inside (p : Anchored) (L : Int) (hL : cycleLen p.scope = some L) (hb : Bounds p L) (now : Int)
    (hin : InArc L p.start p.stop now) (hx : p.isFull = true → (now - p.start) % L ≠ 0) (n : Nat) :
    Period.periodSpan (n + 1) (some (.anchored p)) now = .ok (p.start + L * occurrence L p.start now, now) := by
  have hLp := cycleLen_pos hL
  have hbd := occurrence_bounds hLp p.start now
  simp only [Period.periodSpan, Period.rollback]
  by_cases hf : p.isFull = true
  · obtain ⟨l, h1, h2⟩ := C04_rollback_full p L hL hb hf now
    rw [h1]
    have hx := hx hf
    simp only [Except.ok.injEq, Prod.mk.injEq, and_true]
    have hl := occurrence_of_start hLp h2.occurs
    have hmono : occurrence L p.start l ≤ occurrence L p.start now := occurrence_mono hLp _ (by have := h2.le; omega)
    by_cases he : occurrence L p.start l = occurrence L p.start now
    · rw [hl, he]
    · exfalso
      refine h2.greatest (p.start + L * occurrence L p.start now) ?_ ?_ ?_
      · have : L * (occurrence L p.start l + 1) ≤ L * occurrence L p.start now :=
          Int.mul_le_mul_of_nonneg_left (by omega) (by omega)
        rw [Int.mul_add] at this
        omega
      · have := Int.emod_nonneg (now - p.start) (show L ≠ 0 by omega)
        omega
      · rw [show p.start + L * occurrence L p.start now - p.start = L * occurrence L p.start now by omega]
        exact Int.mul_emod_right ..
  · have hf' : p.isFull = false := by simpa using hf
    have hd : ¬ Degenerate p L := by
      intro hd
      unfold InArc at hin
      rw [hd.1, hd.2] at hin
      rcases hin with h | h | h
      · omega
      · omega
      · rw [show (0 : Int) - L = 0 + L * (-1) by omega, Int.add_mul_emod_self_left] at h
        simp at h
        have := Int.emod_nonneg now (show L ≠ 0 by omega)
        omega
    obtain ⟨l, r, h1, h2⟩ := C04_rollback_partial p L hL hb hf' hd now
    rw [h1]
    simp only [Except.ok.injEq, Prod.mk.injEq]
    have hr := h2.cut hin
    refine ⟨?_, hr⟩
    have hl := occurrence_of_start hLp (entry_start hLp h2.entry.1 h2.entry.2)
    have hmono : occurrence L p.start l ≤ occurrence L p.start now :=
      occurrence_mono hLp _ (by have := h2.ordered; omega)
    by_cases he : occurrence L p.start l = occurrence L p.start now
    · rw [hl, he]
    · exfalso
      -- the instant before the start of the occurrence of now is not in the arc
      have hgap : L * (occurrence L p.start l + 1) ≤ L * occurrence L p.start now :=
        Int.mul_le_mul_of_nonneg_left (by omega) (by omega)
      rw [Int.mul_add] at hgap
      have hprev := h2.inside (p.start + L * occurrence L p.start now - 1) (by omega) (by omega)
      have hn : ¬ (p.start = p.stop ∨ (p.start = 0 ∧ p.stop = L)) := fun h => hf ((isFull_iff hL).2 h)
      unfold InArc at hprev
      rcases hprev with h | h | h
      · exact hn (Or.inl h)
      · exact hn (Or.inr h)
      · rw [show p.start + L * occurrence L p.start now - 1 - p.start = (L - 1) + L * (occurrence L p.start now - 1) by
          rw [Int.mul_sub]; omega, Int.add_mul_emod_self_left, Int.emod_eq_of_lt (by omega) (by omega)] at h
        have := Int.emod_lt_of_pos (p.stop - p.start) hLp
        omega

/-! ## C26 -/

/-- The five clock readings of one evaluation coincide. -/
def oneReading (now : Int) : ExecReads := ⟨now, now, now, now, now⟩

theorem andThen_ok {a b : Except PyErr Bool} {x : Bool} (h : a = .ok x) : andThen a b = if x then b else .ok false := by
  cases x <;> simp [andThen, h]

theorem countIn_occurrence {repo : List Record} {name : String} {now : Int} (hpast : ∀ r ∈ repo, r.task = name → r.created ≤ now)
    {L s : Int} (hL : 0 < L) (a : Action) :
    countIn repo name (.one a) (s + L * occurrence L s now) now = countOccurrence L s now name [a] repo := by
  unfold countIn countOccurrence
  congr 1
  apply List.filter_congr
  intro r hr
  rw [decide_eq_decide]
  unfold InOccurrence
  simp only [Acts.has, decide_eq_true_eq, List.mem_singleton]
  constructor
  · rintro ⟨h1, h2, h3, h4⟩
    refine ⟨h1, h2, ?_⟩
    have := occurrence_mono hL s h4
    have b1 := occurrence_bounds hL s r.created
    by_contra hne
    have : L * (occurrence L s r.created + 1) ≤ L * occurrence L s now :=
      Int.mul_le_mul_of_nonneg_left (by omega) (by omega)
    rw [Int.mul_add] at this
    omega
  · rintro ⟨h1, h2, h3⟩
    refine ⟨h1, h2, ?_, hpast r hr h1⟩
    have := (occurrence_bounds hL s r.created).1
    rw [← h3]
    exact this

theorem countOccurrence_zero {L s now : Int} {name : String} {acts : List Action} {repo : List Record} :
    countOccurrence L s now name acts repo = 0 ↔ ∀ r ∈ repo, ¬ InOccurrence L s now name acts r := by
  unfold countOccurrence
  rw [List.length_eq_zero_iff, List.filter_eq_nil_iff]
  simp

/-- C26: for every fixed-cycle period, log and retry number, when the condition is evaluated at `now` (which is not
exactly the first instant of a full cycle), it holds exactly when `now` is in the period and the task has, in the
current occurrence, no success, inaction or termination and at most `retries` failures.  With the cached times the two
clock readings of each record must lie in the same occurrence (see `C25_two_readings_violated`).  Missing: the first
instant of a full cycle, see `C26_midnight_violated`. -/
theorem C26_eligible_partial (p : Anchored) (L : Int) (hL : cycleLen p.scope = some L) (hb : Bounds p L) (now : Int)
    (hx : p.isFull = true → (now - p.start) % L ≠ 0) (n : Nat) (fromLogs : Bool) (retries : Option Int) (name : String)
    (w : LogWorld) (hpast : ∀ r ∈ w.repo, r.task = name → r.created ≤ now)
    (hcache : fromLogs = false → (∀ a, Seen w name a now) ∧
      ∀ r ∈ w.repo, r.task = name → occurrence L p.start r.noted = occurrence L p.start r.created) :
    ∃ b, executable (n + 1) fromLogs retries (.anchored p) (oneReading now) name (w.mem name) w.repo = .ok b ∧
      (b = true ↔ InArc L p.start p.stop now ∧
        (∀ r ∈ w.repo, ¬ InOccurrence L p.start now name [.success, .inaction, .terminate] r) ∧
        (countOccurrence L p.start now name [.fail] w.repo : Int) ≤ retries.getD 0) := by
  have hLp := cycleLen_pos hL
  unfold executable
  have hin : isinPeriod (n + 1) (.anchored p) now = .ok (p.contains now) := by
    simp [isinPeriod, Period.isDelta, Period.contains]
  simp only [oneReading]
  rw [andThen_ok hin]
  by_cases hc : p.contains now = true
  · have harc := (C02_contains p L hL hb now).1 hc
    rw [if_pos hc]
    have hspan := rollback_inside p L hL hb now harc hx n
    have hobs : ∀ (a : Action) (ops : List (Comp × Int)),
        statusObserve fromLogs (.one a) (chain ops) (p.start + L * occurrence L p.start now, now) name (w.mem name) w.repo =
          compState (chain ops) (countOccurrence L p.start now name [a] w.repo) := by
      intro a ops
      rw [← countIn_occurrence hpast hLp]
      cases hfl : fromLogs with
      | true => simp [statusObserve, measured_length]
      | false =>
        obtain ⟨hs, hsharp⟩ := hcache hfl
        refine observe_cached ?_ ?_ (.one a) ops
        · intro b
          have : DecidablePred (OfAction name b) := fun x => by unfold OfAction; infer_instance
          by_cases hex : ∃ r ∈ w.repo, OfAction name b r
          · obtain ⟨x, hx, hp⟩ := hex
            obtain ⟨r, hr⟩ := exists_latest hx hp
            obtain ⟨hm, hp⟩ := isLatest_mem hr
            have e := hsharp r hm hp.1
            have ht := (hs b).times r hm hp.1
            right
            rcases (hs b).cache.last_some b r hr with h | h
            · refine ⟨r, r.noted, hr, h, ?_, by omega⟩
              rw [start_le hLp, start_le hLp, e]
            · exact ⟨r, r.created, hr, h, Iff.rfl, Iff.rfl⟩
          · left
            have h' : ∀ r ∈ w.repo, ¬ OfAction name b r := fun r hr hp => hex ⟨r, hr, hp⟩
            exact ⟨(hs b).cache.last_none b h', h'⟩
        · intro b
          exact (hs b).ordered.imp_of_mem (fun {r s} hr hs' h h1 h2 => by
            have := h h1 h2
            have := ((hs b).times s hs' h2.1).1
            omega)
    have hcond : ∀ (a : Action) (ops : List (Comp × Int)),
        statusCond (n + 1) fromLogs (.one a) (chain ops) (some (.anchored p)) now name (w.mem name) w.repo =
          .ok (compState (chain ops) (countOccurrence L p.start now name [a] w.repo)) := by
      intro a ops
      simp only [statusCond, hspan, hobs]
    have hzero : ∀ a, compState (chain [(.eq, 0)]) (countOccurrence L p.start now name [a] w.repo) = true ↔
        ∀ r ∈ w.repo, ¬ InOccurrence L p.start now name [a] r := by
      intro a
      rw [C23_equal_zero [(.eq, 0)] (by decide), ← countOccurrence_zero]
      omega
    rw [← chain_eq0, ← chain_le]
    simp only [hcond]
    generalize e1 : compState (chain [(.eq, 0)]) (countOccurrence L p.start now name [.inaction] w.repo) = b1
    generalize e2 : compState (chain [(.eq, 0)]) (countOccurrence L p.start now name [.success] w.repo) = b2
    generalize e3 : compState (chain [(.le, retries.getD 0)]) (countOccurrence L p.start now name [.fail] w.repo) = b3
    generalize e4 : compState (chain [(.eq, 0)]) (countOccurrence L p.start now name [.terminate] w.repo) = b4
    refine ⟨b1 && (b2 && (b3 && b4)), by cases b1 <;> cases b2 <;> cases b3 <;> simp [andThen], ?_⟩
    have h3 : b3 = true ↔ (countOccurrence L p.start now name [.fail] w.repo : Int) ≤ retries.getD 0 := by
      rw [← e3]
      simp [compState, chain_le, Comp.holds]
    simp only [Bool.and_eq_true]
    rw [← e1, ← e2, ← e4, hzero, hzero, hzero, h3]
    constructor
    · rintro ⟨h1, h2, h3, h4⟩
      refine ⟨harc, ?_, h3⟩
      intro r hr ⟨k1, k2, k3⟩
      simp only [List.mem_cons, List.not_mem_nil, or_false] at k2
      rcases k2 with k2 | k2 | k2
      · exact h2 r hr ⟨k1, by simp [k2], k3⟩
      · exact h1 r hr ⟨k1, by simp [k2], k3⟩
      · exact h4 r hr ⟨k1, by simp [k2], k3⟩
    · rintro ⟨_, h2, h3⟩
      refine ⟨?_, ?_, h3, ?_⟩ <;>
      · intro r hr ⟨k1, k2, k3⟩
        exact h2 r hr ⟨k1, by simp only [List.mem_singleton] at k2; simp [k2], k3⟩
  · have hc' : p.contains now = false := by simpa using hc
    refine ⟨false, by simp [hc'], ?_⟩
    simp only [Bool.false_eq_true, false_iff]
    rintro ⟨h, _⟩
    exact hc ((C02_contains p L hL hb now).2 h)

/-- Non-vacuity: `daily` with one retry, at noon, after a failure the same morning and a success the day before. -/
example : InArc DAY 0 DAY (20000 * DAY + 12 * HOUR) ∧
    executable 1 true (some 1) (.anchored ⟨.day, 0, DAY⟩) (oneReading (20000 * DAY + 12 * HOUR)) "t" .fresh
      [⟨"t", .success, 19999 * DAY + 9 * HOUR, 19999 * DAY + 9 * HOUR, none⟩,
       ⟨"t", .fail, 20000 * DAY + 9 * HOUR, 20000 * DAY + 9 * HOUR, none⟩] = .ok true ∧
    executable 1 true (some 0) (.anchored ⟨.day, 0, DAY⟩) (oneReading (20000 * DAY + 12 * HOUR)) "t" .fresh
      [⟨"t", .success, 19999 * DAY + 9 * HOUR, 19999 * DAY + 9 * HOUR, none⟩,
       ⟨"t", .fail, 20000 * DAY + 9 * HOUR, 20000 * DAY + 9 * HOUR, none⟩] = .ok false := by
  refine ⟨Or.inr (Or.inl ⟨rfl, rfl⟩), ?_, ?_⟩ <;> decide +kernel

/-- C26 fails at the first instant of a full cycle: `daily` evaluated exactly at midnight looks at the day that has
just ended, so a success of yesterday keeps the condition false although today has no records. -/
theorem C26_midnight_violated :
    ∃ now ops, let w := runLogOps false .fresh ops
      (∀ op ∈ ops, op.Fine) ∧ (∀ r ∈ w.repo, r.task = "t" → r.created ≤ now) ∧ InArc DAY 0 DAY now ∧
      (∀ r ∈ w.repo, ¬ InOccurrence DAY 0 now "t" [.success, .inaction, .terminate, .fail] r) ∧
      (∀ fromLogs, executable 1 fromLogs none (.anchored ⟨.day, 0, DAY⟩) (oneReading now) "t" (w.mem "t") w.repo = .ok false) := by
  refine ⟨20000 * DAY, [.set "t" .success none (20000 * DAY - HOUR) (20000 * DAY - HOUR) .ok], ?_, ?_, ?_, ?_, ?_⟩
  · simp [LogOp.Fine]
  · decide +kernel
  · exact Or.inr (Or.inl ⟨rfl, rfl⟩)
  · decide +kernel
  · decide +kernel

/-! ## C27 -/

/-- The start condition is `TaskExecutable(period=p, retries=retries)`: it was true when evaluated with five clock
readings between `first` and `last`, one after another (as made by conditions/task/task.py:285-311). -/
structure Evaluated (fuel : Nat) (fromLogs : Bool) (retries : Option Int) (p : Period) (name : String) (first last : Int)
    (w : LogWorld) (now : ExecReads) : Prop where
  r1 : first ≤ now.isin
  r2 : now.isin ≤ now.inacted
  r3 : now.inacted ≤ now.succeeded
  r4 : now.succeeded ≤ now.failed
  r5 : now.failed ≤ now.terminated
  r6 : now.terminated ≤ last
  holds : executable fuel fromLogs retries p now name (w.mem name) w.repo = .ok true

theorem andThen_true {a b : Except PyErr Bool} (h : andThen a b = .ok true) : a = .ok true ∧ b = .ok true := by
  unfold andThen at h
  split at h
  · exact ⟨rfl, h⟩
  · rename_i r hne
    exact absurd h hne

/-- `p` looks back far enough: the window seen at `n`, after `p` was found to hold at `i`, includes all of the
occurrence before `i`. -/
def Covers (p : Period) (occ : Int → Int) : Prop :=
  ∀ fuel i n u s e, isinPeriod fuel p i = .ok true → Period.periodSpan fuel (some p) n = .ok (s, e) → u ≤ i → i ≤ n →
    occ u = occ n → s ≤ u ∧ i ≤ e

theorem spaced_periodic (S : Setup) (name : String) (hp : S.isProc name = false ∨ S.drained = true) (fuel : Nat)
    (retries : Option Int) (p : Period) (occ : Int → Int) (hocc : ∀ t u, t ≤ u → occ t ≤ occ u) (hcov : Covers p occ)
    (hS : ∀ reason first last w, S.start name reason first last w →
      ∃ now, Evaluated fuel S.fromLogs retries p name first last w now)
    {es : List Ev} {h : HState} (hh : Hist S es h) :
    h.all.Pairwise (fun r s => OfAction name .success r → OfAction name .success s → occ r.noted < occ s.noted) := by
  refine spaced S name hp .success (Or.inr rfl) (fun u v => occ u < occ v) ?_ ?_ hh
  · intro u n v h1 h2
    have := hocc n v h2
    omega
  · intro reason first last w hst hseen
    obtain ⟨now, ev⟩ := hS reason first last w hst
    refine ⟨now.succeeded, by have := ev.r4; have := ev.r5; have := ev.r6; omega, ?_⟩
    intro r hr hra
    have hall := ev.holds
    unfold executable at hall
    obtain ⟨h1, hall⟩ := andThen_true hall
    obtain ⟨_, hall⟩ := andThen_true hall
    obtain ⟨h2, _⟩ := andThen_true hall
    have ht := hseen.times r hr hra.1
    have o1 := ev.r1; have o2 := ev.r2; have o3 := ev.r3
    have hmono := hocc r.noted now.succeeded (by omega)
    by_contra hlt
    have heq : occ r.noted = occ now.succeeded := by omega
    unfold statusCond at h2
    cases hspan : Period.periodSpan fuel (some p) now.succeeded with
    | error e => rw [hspan] at h2; simp at h2
    | ok se =>
      obtain ⟨s, e⟩ := se
      rw [hspan] at h2
      simp only [Except.ok.injEq] at h2
      obtain ⟨c1, c2⟩ := hcov fuel now.isin now.succeeded r.noted s e h1 hspan (by omega) (by omega) heq
      exact observe_none hseen h2 r hr hra ⟨c1, by omega⟩

theorem not_degenerate {p : Anchored} {L t : Int} (hL : 0 < L) (hin : InArc L p.start p.stop t) : ¬ Degenerate p L := by
  intro hd
  unfold InArc at hin
  rw [hd.1, hd.2] at hin
  rcases hin with h | h | h
  · omega
  · omega
  · rw [show (0 : Int) - L = 0 + L * (-1) by omega, Int.add_mul_emod_self_left] at h
    simp at h
    have := Int.emod_nonneg t (show L ≠ 0 by omega)
    omega

/-- Every fixed-cycle period looks back far enough. -/
theorem covers_fixed (p : Anchored) (L : Int) (hL : cycleLen p.scope = some L) (hb : Bounds p L) :
    Covers (.anchored p) (occurrence L p.start) := by
  intro fuel i n u s e hin hspan hui hin' hocc
  have hLp := cycleLen_pos hL
  cases fuel with
  | zero => simp [Period.periodSpan, Period.rollback] at hspan
  | succ fuel =>
    have hi : InArc L p.start p.stop i := by
      simp only [isinPeriod, Period.isDelta, Period.contains, Bool.false_eq_true, if_false, Except.ok.injEq] at hin
      exact (C02_contains p L hL hb i).1 hin
    simp only [Period.periodSpan, Period.rollback] at hspan
    by_cases hf : p.isFull = true
    · obtain ⟨l, h1, h2⟩ := C04_rollback_full p L hL hb hf n
      rw [h1] at hspan
      simp only [Except.ok.injEq, Prod.mk.injEq] at hspan
      obtain ⟨rfl, rfl⟩ := hspan
      refine ⟨?_, hin'⟩
      by_contra hlt
      have hl := occurrence_of_start hLp h2.occurs
      have hle := h2.le
      have m1 := occurrence_mono hLp p.start (show u ≤ l by omega)
      have m2 := occurrence_mono hLp p.start (show l ≤ n by omega)
      have : occurrence L p.start l = occurrence L p.start u := by omega
      rw [this] at hl
      have := (occurrence_bounds hLp p.start u).1
      omega
    · have hf' : p.isFull = false := by simpa using hf
      obtain ⟨l, r, h1, h2⟩ := C04_rollback_partial p L hL hb hf' (not_degenerate hLp hi) n
      rw [h1] at hspan
      simp only [Except.ok.injEq, Prod.mk.injEq] at hspan
      obtain ⟨rfl, rfl⟩ := hspan
      have hl := occurrence_of_start hLp (entry_start hLp h2.entry.1 h2.entry.2)
      constructor
      · by_contra hlt
        have hle := h2.le
        have hord := h2.ordered
        have m1 := occurrence_mono hLp p.start (show u ≤ l by omega)
        have m2 := occurrence_mono hLp p.start (show l ≤ n by omega)
        have : occurrence L p.start l = occurrence L p.start u := by omega
        rw [this] at hl
        have := (occurrence_bounds hLp p.start u).1
        omega
      · by_contra hlt
        by_cases hn : i = n
        · have := h2.cut (hn ▸ hi)
          omega
        · exact h2.none_after i (by omega) (by omega) hi

/-- C27: in every history of a task whose start condition is a fixed-cycle period, with any outcomes, durations,
restarts and other tasks, two success records of the task (in the log or still in the queue) lie in different
occurrences of the period, the times being those at which the outcomes were noted.  For tasks in a child process only
when no check happens while a record of the task waits in the queue: otherwise see `C27_process_violated`. -/
theorem C27_successes_partial (S : Setup) (name : String) (hp : S.isProc name = false ∨ S.drained = true) (fuel : Nat)
    (retries : Option Int) (p : Anchored) (L : Int) (hL : cycleLen p.scope = some L) (hb : Bounds p L)
    (hS : ∀ reason first last w, S.start name reason first last w →
      ∃ now, Evaluated fuel S.fromLogs retries (.anchored p) name first last w now)
    {es : List Ev} {h : HState} (hh : Hist S es h) :
    h.all.Pairwise (fun r s => OfAction name .success r → OfAction name .success s →
      occurrence L p.start r.noted < occurrence L p.start s.noted) :=
  spaced_periodic S name hp fuel retries (.anchored p) _ (fun _ _ => occurrence_mono (cycleLen_pos hL) _)
    (covers_fixed p L hL hb) hS hh

/-! ### the calendar month -/

theorem monthStart_le (t : Int) : Cal.dayNum (year t) (month t) 1 * DAY ≤ t := by
  have := month_base t
  have := anchorDt_month_nonneg t
  omega

theorem year_mono {t u : Int} (h : t ≤ u) : year t ≤ year u := by
  have h1 := Cal.yearOfDay_spec (dayOf t)
  have h2 := Cal.yearOfDay_spec (dayOf u)
  have hd : dayOf t ≤ dayOf u := Int.ediv_le_ediv (by decide) h
  unfold year
  by_contra hlt
  rcases Int.lt_or_le (Cal.yearOfDay (dayOf u) + 1) (Cal.yearOfDay (dayOf t)) with h5 | h5
  · have := Cal.daysBeforeYear_lt h5; omega
  · have : Cal.yearOfDay (dayOf u) + 1 = Cal.yearOfDay (dayOf t) := by omega
    rw [this] at h2
    omega

theorem monthNumber_mono {t u : Int} (h : t ≤ u) : monthNumber t ≤ monthNumber u := by
  unfold monthNumber
  have hy := year_mono h
  have h1 := month_range t
  have h2 := month_range u
  by_cases he : year t = year u
  · have hd : dayOf t ≤ dayOf u := Int.ediv_le_ediv (by decide) h
    have m1 := yday_month t
    have m2 := yday_month u
    have hy : yday t ≤ yday u := by unfold yday; rw [← he]; omega
    have : month t ≤ month u := by
      by_contra hlt
      have := Cal.daysBeforeMonth_mono' (year u) (month u + 1) (month t) (by omega) (by omega) (by omega)
      rw [Cal.daysBeforeMonth_succ _ _ h2.1 h2.2] at this
      rw [he] at m1
      omega
    omega
  · omega

theorem monthNumber_fields {t u : Int} (h : monthNumber t = monthNumber u) : year t = year u ∧ month t = month u := by
  unfold monthNumber at h
  have h1 := month_range t
  have h2 := month_range u
  omega

/-- `monthly` looks back to the start of the month. -/
theorem covers_month : Covers (.anchored ⟨.month, 0, 31 * DAY⟩) monthNumber := by
  intro fuel i n u s e _ hspan hui hin hocc
  cases fuel with
  | zero => simp [Period.periodSpan, Period.rollback] at hspan
  | succ fuel =>
    simp only [Period.periodSpan, Period.rollback, C07_rollback_full, Except.ok.injEq, Prod.mk.injEq] at hspan
    obtain ⟨rfl, rfl⟩ := hspan
    refine ⟨?_, hin⟩
    have hstart : datetime (year (n - 1)) (month (n - 1)) 1 = Cal.dayNum (year (n - 1)) (month (n - 1)) 1 * DAY := by
      unfold datetime toMicroseconds; omega
    rw [hstart]
    by_cases hu : u ≤ n - 1
    · have m1 := monthNumber_mono hu
      have m2 := monthNumber_mono (show n - 1 ≤ n by omega)
      obtain ⟨e1, e2⟩ := monthNumber_fields (show monthNumber (n - 1) = monthNumber u by omega)
      rw [e1, e2]
      exact monthStart_le u
    · have := monthStart_le (n - 1)
      omega

/-- C27 for `monthly`: two success records lie in different calendar months. -/
theorem C27_monthly_partial (S : Setup) (name : String) (hp : S.isProc name = false ∨ S.drained = true) (fuel : Nat)
    (retries : Option Int)
    (hS : ∀ reason first last w, S.start name reason first last w →
      ∃ now, Evaluated fuel S.fromLogs retries (.anchored ⟨.month, 0, 31 * DAY⟩) name first last w now)
    {es : List Ev} {h : HState} (hh : Hist S es h) :
    h.all.Pairwise (fun r s => OfAction name .success r → OfAction name .success s →
      monthNumber r.noted < monthNumber s.noted) :=
  spaced_periodic S name hp fuel retries _ _ (fun _ _ => monthNumber_mono) covers_month hS hh

/-- The session of the examples: every task has the start condition `daily`. -/
def dailySetup (proc drained : Bool) : Setup where
  fromLogs := false
  start := fun name _ first last w => ∃ now, Evaluated 1 false none (.anchored ⟨.day, 0, DAY⟩) name first last w now
  isProc := fun _ => proc
  drained := drained

/-- C27 fails for tasks in child processes: the process may put its success record into the queue and end just after
the scheduler has handled the queue; the scheduler then finds the task not alive and without a success in the log, and
starts it again the same day (schedule.py:173-182). -/
theorem C27_process_violated :
    ∃ es h, Hist (dailySetup true false) es h ∧
      ¬ h.log.repo.Pairwise (fun r s => OfAction "t" .success r → OfAction "t" .success s →
        occurrence DAY 0 r.noted < occurrence DAY 0 s.noted) := by
  have h0 := Hist.init (S := dailySetup true false) 1
  have h1 := h0.step (.check _ "t" 0 2 2 (by decide) (by decide) (by decide) (by decide) (by simp [dailySetup])
    ⟨oneReading 2, by decide, by decide, by decide, by decide, by decide, by decide, by decide +kernel⟩)
  have h2 := h1.step (.begin _ "t" 0 none 3 3 (by decide) (by decide) (by decide))
  have h3 := h2.step (.put _ "t" .success none 4 (by decide) rfl (by decide) (by decide))
  have h4 := h3.step (.die _ "t" (by decide))
  have h5 := h4.step (.check _ "t" 0 5 5 (by decide) (by decide) (by decide) (by decide) (by simp [dailySetup])
    ⟨oneReading 5, by decide, by decide, by decide, by decide, by decide, by decide, by decide +kernel⟩)
  have h6 := h5.step (.begin _ "t" 0 none 6 6 (by decide) (by decide) (by decide))
  have h7 := h6.step (.drain _ _ _ rfl)
  have h8 := h7.step (.put _ "t" .success none 7 (by decide) rfl (by decide) (by decide))
  have h9 := h8.step (.drain _ _ _ rfl)
  exact ⟨_, _, h9, by decide +kernel⟩

/-- Non-vacuity of the hypotheses of C27: a history of a task in the scheduler's process that has run on two days. -/
example : ∃ es h, Hist (dailySetup false false) es h ∧
    (h.log.repo.filter (fun r => decide (r.action = .success))).length = 2 := by
  have h0 := Hist.init (S := dailySetup false false) 1
  have h1 := h0.step (.check _ "t" 0 2 2 (by decide) (by decide) (by decide) (by decide) (by simp [dailySetup])
    ⟨oneReading 2, by decide, by decide, by decide, by decide, by decide, by decide, by decide +kernel⟩)
  have h2 := h1.step (.begin _ "t" 0 none 3 3 (by decide) (by decide) (by decide))
  have h3 := h2.step (.outcome _ "t" .success none 4 4 (by decide) (by decide) (by decide) (by decide))
  have h4 := h3.step (.die _ "t" (by decide))
  have h5 := h4.step (.check _ "t" 0 (DAY + 1) (DAY + 1) (by decide) (by decide) (by decide) (by decide) (by simp [dailySetup])
    ⟨oneReading (DAY + 1), by decide, by decide, by decide, by decide, by decide, by decide, by decide +kernel⟩)
  have h6 := h5.step (.begin _ "t" 0 none (DAY + 2) (DAY + 2) (by decide) (by decide) (by decide))
  have h7 := h6.step (.outcome _ "t" .success none (DAY + 3) (DAY + 4) (by decide) (by decide) (by decide) (by decide))
  exact ⟨_, _, h7, by decide +kernel⟩

/-! ## C28 -/

theorem observe_le {fromLogs : Bool} {w : LogWorld} {name : String} {a : Action} {n s e : Int} (hn : 0 ≤ n)
    (h : ∀ r ∈ w.repo, OfAction name a r → r.created < s) :
    statusObserve fromLogs (.one a) [(.le, n)] (s, e) name (w.mem name) w.repo = true := by
  have hc : compState [(.le, n)] ((measuredTimes w.repo name (.one a) s e).length : Int) = true := by
    rw [measured_length]
    have : countIn w.repo name (.one a) s e = 0 := by
      refine countIn_zero.2 ?_
      intro r hr h1 h2 h3
      have := h r hr ⟨h1, by simpa [Acts.has] using h2⟩
      omega
    rw [this]
    simp [compState, Comp.holds, hn]
  have e0 : compEntries [(Comp.le, n)] = [(Comp.le, n)] := by simp [compEntries, Comps.get]
  have e1 : isEqualZero [(Comp.le, n)] = false := by simp [isEqualZero, e0]
  have e2 : isAnyOverZero [(Comp.le, n)] = false := by simp [isAnyOverZero, e0]
  simp [statusObserve, e1, e2, hc]

theorem seen_of_hist (S : Setup) (name : String) (hp : S.isProc name = false ∨ S.drained = true) {es : List Ev} {h : HState}
    (hh : Hist S es h) (hcold : h.cold name = false) (a : Action) : Seen h.log name a h.clock := by
  have hi := hinv S name hp hh
  exact ⟨hi.cache hcold, fun r hr _ => hi.times r (by simp [HState.all, hr]),
    (List.pairwise_append.1 hi.ordered).1.imp (fun h h1 h2 => h h1.1 h2.1)⟩

/-- C28: in every history, when no outcome (success, failure, inaction, termination) of the task lies in the current
occurrence of the period, the condition holds, with all clock readings of the evaluation inside the period and the
same occurrence and none at the first instant of a full cycle.  Missing: outcomes of runs that were started before
the occurrence began, see `C28_violated`; the first instant, see `C26_midnight_violated`. -/
theorem C28_started_partial (S : Setup) (name : String) (hp : S.isProc name = false ∨ S.drained = true) (fuel : Nat)
    (retries : Option Int) (hret : 0 ≤ retries.getD 0) (p : Anchored) (L : Int) (hL : cycleLen p.scope = some L)
    (hb : Bounds p L) {es : List Ev} {h : HState} (hh : Hist S es h) (hcold : h.cold name = false) (now : ExecReads) (k : Int)
    (hnow : ∀ t ∈ [now.isin, now.inacted, now.succeeded, now.failed, now.terminated],
      InArc L p.start p.stop t ∧ occurrence L p.start t = k ∧ (p.isFull = true → (t - p.start) % L ≠ 0))
    (hno : ∀ r ∈ h.log.repo, r.task = name → r.action ∈ [.success, .fail, .inaction, .terminate] →
      occurrence L p.start r.created ≠ k) (hpast : h.clock ≤ now.isin) :
    executable (fuel + 1) S.fromLogs retries (.anchored p) now name (h.log.mem name) h.log.repo = .ok true := by
  have hLp := cycleLen_pos hL
  have hseen := seen_of_hist S name hp hh hcold
  have hbefore : ∀ a ∈ [Action.success, .fail, .inaction, .terminate], ∀ r ∈ h.log.repo, OfAction name a r →
      r.created < p.start + L * k := by
    intro a ha r hr hra
    have hne := hno r hr hra.1 (by rw [hra.2]; exact ha)
    have h1 := ((hseen a).times r hr hra.1).2
    have h2 := occurrence_mono hLp p.start (show r.created ≤ now.isin by omega)
    rw [(hnow now.isin (by simp)).2.1] at h2
    by_contra hge
    have := (start_le hLp).1 (show p.start + L * k ≤ r.created by omega)
    omega
  have hspan : ∀ t ∈ [now.isin, now.inacted, now.succeeded, now.failed, now.terminated],
      Period.periodSpan (fuel + 1) (some (.anchored p)) t = .ok (p.start + L * k, t) := by
    intro t ht
    obtain ⟨t1, t2, t3⟩ := hnow t ht
    rw [rollback_inside p L hL hb t t1 t3 fuel, t2]
  have heq : ∀ a ∈ [Action.success, .fail, .inaction, .terminate],
      ∀ t ∈ [now.isin, now.inacted, now.succeeded, now.failed, now.terminated],
      statusCond (fuel + 1) S.fromLogs (.one a) [(.eq, 0)] (some (.anchored p)) t name (h.log.mem name) h.log.repo = .ok true := by
    intro a ha t ht
    simp only [statusCond, hspan t ht]
    rw [observe_all_before (hseen a) (hbefore a ha)]
  have hle : statusCond (fuel + 1) S.fromLogs (.one .fail) [(.le, retries.getD 0)] (some (.anchored p)) now.failed name
      (h.log.mem name) h.log.repo = .ok true := by
    simp only [statusCond, hspan now.failed (by simp)]
    rw [observe_le hret (hbefore .fail (by simp))]
  have hin : isinPeriod (fuel + 1) (.anchored p) now.isin = .ok true := by
    have := (C02_contains p L hL hb now.isin).2 (hnow now.isin (by simp)).1
    simp [isinPeriod, Period.isDelta, Period.contains, this]
  unfold executable
  simp only [hin, hle, andThen]
  rw [heq .inaction (by simp) _ (by simp), heq .success (by simp) _ (by simp), heq .terminate (by simp) _ (by simp)]

/-- C28 fails after a run that lasted over midnight: no run was started today, the task is idle, and yet `daily` is
not true, because yesterday's run succeeded today. -/
theorem C28_violated :
    ∃ es h now, Hist (dailySetup false true) es h ∧ h.phase "t" = .idle ∧ h.cold "t" = false ∧ h.clock ≤ now ∧
      (∀ r ∈ h.log.repo, ¬ InOccurrence DAY 0 now "t" [.run] r) ∧ now % DAY = 12 * HOUR ∧
      executable 1 false none (.anchored ⟨.day, 0, DAY⟩) (oneReading now) "t" (h.log.mem "t") h.log.repo = .ok false := by
  have h0 := Hist.init (S := dailySetup false true) 1
  have h1 := h0.step (.check _ "t" 0 (DAY - 4) (DAY - 4) (by decide) (by decide) (by decide) (by decide) (by simp [HState.NoneWaiting, HState.init])
    ⟨oneReading (DAY - 4), by decide, by decide, by decide, by decide, by decide, by decide, by decide +kernel⟩)
  have h2 := h1.step (.begin _ "t" 0 none (DAY - 3) (DAY - 3) (by decide) (by decide) (by decide))
  have h3 := h2.step (.outcome _ "t" .success none (DAY + 1) (DAY + 1) (by decide) (by decide) (by decide) (by decide))
  have h4 := h3.step (.die _ "t" (by decide))
  exact ⟨_, _, DAY + 12 * HOUR, h4, by decide +kernel, by decide +kernel, by decide +kernel, by decide +kernel, by decide +kernel,
    by decide +kernel⟩

/-! ## C30 -/

theorem every_span (fuel : Nat) (d now : Int) :
    Period.periodSpan (fuel + 1) (some (Period.mkDelta (some d) none)) now = .ok (now - (d.natAbs : Int), now) := by
  have h : Interval.make (now - (d.natAbs : Int)) now .left = .ok ⟨now - (d.natAbs : Int), now, .left⟩ :=
    Interval.make_ok.2 ⟨by omega, rfl⟩
  simp only [Period.periodSpan, Period.mkDelta, Period.rollback, Option.getD]
  rw [show ((d.natAbs : Int).natAbs : Int) = d.natAbs by omega, h]

/-- The start condition is `every(d)`: it was true when evaluated with a clock reading between `first` and `last`. -/
def EveryHeld (fuel : Nat) (fromLogs : Bool) (d : Int) (name : String) (first last : Int) (w : LogWorld) : Prop :=
  ∃ now, first ≤ now ∧ now ≤ last ∧ everyRun fuel fromLogs d now name (w.mem name) w.repo = .ok true

/-- C30, spacing: in every history of a task with the start condition `every(d)`, of any execution type, with any
outcomes, restarts and other tasks, any two starts of the task (the times noted when the runs were started) are more
than `d` apart. -/
theorem C30_spacing (S : Setup) (name : String) (fuel : Nat) (d : Int)
    (hS : ∀ reason first last w, S.start name reason first last w → EveryHeld fuel S.fromLogs d name first last w)
    {es : List Ev} {h : HState} (hh : Hist S es h) :
    h.log.repo.Pairwise (fun r s => OfAction name .run r → OfAction name .run s → r.noted + (d.natAbs : Int) < s.noted) := by
  refine (spaced_runs S name (fun r v => r.noted + (d.natAbs : Int) < v) (fun r n v h1 h2 => by omega) ?_ hh).pairs
  intro reason first last w hst hseen
  obtain ⟨now, h1, h2, h3⟩ := hS reason first last w hst
  refine ⟨now, h2, ?_⟩
  intro r hr hra
  cases fuel with
  | zero => simp [everyRun, statusCond, Period.periodSpan, Period.rollback] at h3
  | succ fuel =>
    simp only [everyRun, statusCond, every_span, Except.ok.injEq] at h3
    have := observe_none hseen h3 r hr hra
    have := hseen.times r hr hra.1
    omega

/-- C30, eligibility: in every history, once more than `d` has passed since every start record of the task was
written, `every(d)` holds. -/
theorem C30_eligible (S : Setup) (name : String) (fuel : Nat) (d : Int) {es : List Ev} {h : HState} (hh : Hist S es h)
    (hc : h.cold name = false) (now : Int) (hnow : h.clock ≤ now)
    (hpassed : ∀ r ∈ h.log.repo, OfAction name .run r → r.created + (d.natAbs : Int) < now) :
    everyRun (fuel + 1) S.fromLogs d now name (h.log.mem name) h.log.repo = .ok true := by
  simp only [everyRun, statusCond, every_span]
  rw [observe_all_before (seen_runs S name hh hc hnow) (fun r hr hra => by have := hpassed r hr hra; omega)]

/-- The session of the examples: every task has the start condition `every('10 s')`. -/
def everySetup : Setup where
  fromLogs := false
  start := fun name _ first last w => EveryHeld 1 false (10 * SEC) name first last w
  isProc := fun _ => true
  drained := false

/-- Non-vacuity of C30: a history with two starts, 10.000002 s apart. -/
example : ∃ es h, Hist everySetup es h ∧ h.cold "t" = false ∧
    (h.log.repo.filter (fun r => decide (r.action = .run))).length = 2 := by
  have h0 := Hist.init (S := everySetup) 1
  have h1 := h0.step (.check _ "t" 0 2 2 (by decide) (by decide) (by decide) (by decide) (by simp [everySetup])
    ⟨2, by decide, by decide, by decide +kernel⟩)
  have h2 := h1.step (.begin _ "t" 0 none 3 3 (by decide) (by decide) (by decide))
  have h3 := h2.step (.put _ "t" .success none 4 (by decide) rfl (by decide) (by decide))
  have h4 := h3.step (.die _ "t" (by decide))
  have h5 := h4.step (.check _ "t" 0 (10 * SEC + 4) (10 * SEC + 4) (by decide) (by decide) (by decide) (by decide) (by simp [everySetup])
    ⟨10 * SEC + 4, by decide, by decide, by decide +kernel⟩)
  have h6 := h5.step (.begin _ "t" 0 none (10 * SEC + 5) (10 * SEC + 5) (by decide) (by decide) (by decide))
  exact ⟨_, _, h6, by decide +kernel, by decide +kernel⟩

/-! ### durations -/

/-- The span a duration looks at: `TimeDelta` from `past` ago until now, `TimeSpanDelta` from `far` ago (or the
beginning of time) until `near` ago. -/
def durationWindow (p : Period) (now : Int) : Option (Int × Int) :=
  match p with
  | .delta past _ => some (now - (past.natAbs : Int), now)
  | .span near none => some (MINT, now - near)
  | .span near (some far) => some (now - far, now - near)
  | _ => none

/-- Eligibility in terms of the span looked at. -/
theorem executable_span (p : Period) (now s e : Int) (n : Nat) (hin : isinPeriod (n + 1) p now = .ok true)
    (hroll : Period.periodSpan (n + 1) (some p) now = .ok (s, e))
    (fromLogs : Bool) (retries : Option Int) (name : String) (t : TaskMem) (repo : List Record)
    (hcache : fromLogs = false → CacheFits t repo name s e ∧ ∀ a, Ordered repo (OfAction name a)) :
    ∃ b, executable (n + 1) fromLogs retries p (oneReading now) name t repo = .ok b ∧
      (b = true ↔
        (∀ r ∈ repo, r.task = name → r.action = .success ∨ r.action = .inaction ∨ r.action = .terminate →
          s ≤ r.created → ¬ r.created ≤ e) ∧
        ((repo.filter (fun r => decide (r.task = name ∧ r.action = .fail ∧ s ≤ r.created ∧ r.created ≤ e))).length : Int)
          ≤ retries.getD 0) := by
  have hcond : ∀ (a : Action) (ops : List (Comp × Int)),
      statusCond (n + 1) fromLogs (.one a) (chain ops) (some p) now name t repo =
        .ok (compState (chain ops) (countIn repo name (.one a) s e)) := by
    intro a ops
    simp only [statusCond, hroll]
    congr 1
    cases hfl : fromLogs with
    | true => simp [statusObserve, measured_length]
    | false =>
      obtain ⟨h1, h2⟩ := hcache hfl
      exact observe_cached h1 h2 (.one a) ops
  have hzero : ∀ a, compState (chain [(.eq, 0)]) (countIn repo name (.one a) s e) = true ↔
      ∀ r ∈ repo, r.task = name → r.action = a → s ≤ r.created → ¬ r.created ≤ e := by
    intro a
    rw [C23_equal_zero [(.eq, 0)] (by decide)]
    have : ((countIn repo name (.one a) s e : Int) = 0) ↔ countIn repo name (.one a) s e = 0 := by omega
    rw [this, countIn_zero]
    simp [Acts.has]
  unfold executable
  simp only [oneReading]
  rw [andThen_ok hin, if_pos rfl, ← chain_eq0, ← chain_le]
  simp only [hcond]
  generalize e1 : compState (chain [(.eq, 0)]) (countIn repo name (.one .inaction) s e) = b1
  generalize e2 : compState (chain [(.eq, 0)]) (countIn repo name (.one .success) s e) = b2
  generalize e3 : compState (chain [(.le, retries.getD 0)]) (countIn repo name (.one .fail) s e) = b3
  generalize e4 : compState (chain [(.eq, 0)]) (countIn repo name (.one .terminate) s e) = b4
  refine ⟨b1 && (b2 && (b3 && b4)), by cases b1 <;> cases b2 <;> cases b3 <;> simp [andThen], ?_⟩
  have h3 : b3 = true ↔ ((repo.filter (fun r => decide (r.task = name ∧ r.action = .fail ∧ s ≤ r.created ∧ r.created ≤ e))).length : Int)
      ≤ retries.getD 0 := by
    rw [← e3]
    simp [compState, chain_le, Comp.holds, countIn, Acts.has]
  simp only [Bool.and_eq_true]
  rw [← e1, ← e2, ← e4, hzero, hzero, hzero, h3]
  constructor
  · rintro ⟨h1, h2, h3, h4⟩
    refine ⟨?_, h3⟩
    rintro r hr k1 (k2 | k2 | k2)
    · exact h2 r hr k1 k2
    · exact h1 r hr k1 k2
    · exact h4 r hr k1 k2
  · rintro ⟨h1, h2⟩
    exact ⟨fun r hr k1 k2 => h1 r hr k1 (by simp [k2]), fun r hr k1 k2 => h1 r hr k1 (by simp [k2]), h2,
      fun r hr k1 k2 => h1 r hr k1 (by simp [k2])⟩

/-- C26 for durations (`every(..., based="finish")` and the like): the task is eligible exactly when the log has, in the
span of the duration, no success, inaction or termination of it and at most `retries` failures; there is no occurrence
the present has to lie in.  The cached times have to fit the span, see `C25_cached_partial`. -/
theorem C26_duration (p : Period) (now s e : Int) (hp : durationWindow p now = some (s, e)) (hse : s ≤ e) (n : Nat)
    (fromLogs : Bool) (retries : Option Int) (name : String) (t : TaskMem) (repo : List Record)
    (hcache : fromLogs = false → CacheFits t repo name s e ∧ ∀ a, Ordered repo (OfAction name a)) :
    ∃ b, executable (n + 1) fromLogs retries p (oneReading now) name t repo = .ok b ∧
      (b = true ↔
        (∀ r ∈ repo, r.task = name → r.action = .success ∨ r.action = .inaction ∨ r.action = .terminate →
          s ≤ r.created → ¬ r.created ≤ e) ∧
        ((repo.filter (fun r => decide (r.task = name ∧ r.action = .fail ∧ s ≤ r.created ∧ r.created ≤ e))).length : Int)
          ≤ retries.getD 0) := by
  have hin : isinPeriod (n + 1) p now = .ok true := by
    cases p with
    | delta a b => rfl
    | span a b => rfl
    | _ => simp [durationWindow] at hp
  have hroll : Period.periodSpan (n + 1) (some p) now = .ok (s, e) := by
    have hm : ∀ l r, l ≤ r → Interval.make l r = .ok ⟨l, r, .left⟩ := fun l r h => Interval.make_ok.2 ⟨h, rfl⟩
    cases p with
    | delta a b =>
      simp only [durationWindow, Option.some.injEq, Prod.mk.injEq] at hp
      obtain ⟨rfl, rfl⟩ := hp
      simp only [Period.periodSpan, Period.rollback, hm _ _ hse]
    | span near far =>
      cases far with
      | none =>
        simp only [durationWindow, Option.some.injEq, Prod.mk.injEq] at hp
        obtain ⟨rfl, rfl⟩ := hp
        simp only [Period.periodSpan, Period.rollback, hm _ _ hse]
      | some far =>
        simp only [durationWindow, Option.some.injEq, Prod.mk.injEq] at hp
        obtain ⟨rfl, rfl⟩ := hp
        simp only [Period.periodSpan, Period.rollback, hm _ _ hse]
    | _ => simp [durationWindow] at hp
  exact executable_span p now s e n hin hroll fromLogs retries name t repo hcache

/-- A task that failed once and then succeeded: eligible again when the success is older than ten minutes. -/
example :
    let repo : List Record := [⟨"t", .run, 1 * MIN, 1 * MIN, none⟩, ⟨"t", .fail, 2 * MIN, 2 * MIN, none⟩,
      ⟨"t", .run, 3 * MIN, 3 * MIN, none⟩, ⟨"t", .success, 4 * MIN, 4 * MIN, none⟩]
    durationWindow (.span 0 (some (10 * MIN))) (15 * MIN) = some (5 * MIN, 15 * MIN) ∧
    executable 1 true none (.span 0 (some (10 * MIN))) (oneReading (15 * MIN)) "t" .fresh repo = .ok true ∧
    executable 1 true none (.span 0 (some (10 * MIN))) (oneReading (14 * MIN)) "t" .fresh repo = .ok false ∧
    executable 1 true none (.delta (11 * MIN) 0) (oneReading (15 * MIN)) "t" .fresh repo = .ok false := by
  decide

end Rocketry.Props
