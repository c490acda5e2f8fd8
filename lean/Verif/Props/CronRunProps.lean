import Verif.Props.CronProps
import Verif.Props.PeriodicProps
import Verif.Time.CronMinute
import Verif.Task.CronCond

/-!
# C29: cron tasks
-/

namespace Rocketry.Props
open Rocketry Spec

/-- Where the last span of a leaf lies, seen from inside the minute that starts at `m`. -/
theorem leaf_back {p : Period} (hl : CronLeaf p) (hs : ∀ a, Inside a p → SoundArc a) {m n : Int} (h1 : m % MIN = 0)
    (h2 : m < n) (h3 : n < m + MIN) (hm : sem p m) {fuel : Nat} {i : Interval} (h : p.rollback fuel n = .ok i) :
    i.closed = .left ∧ i.left ≤ m ∧ i.right = n := by
  cases fuel with
  | zero => simp [Period.rollback] at h
  | succ fuel =>
    rcases hl with ⟨a, rfl, -⟩ | ⟨as, -, rfl, -⟩
    · obtain ⟨l, r, g1, g2, g3, g4, g5⟩ := (hs a (Or.inl rfl)).2 m n h1 h2 h3
      rw [sem] at hm
      simp only [Period.rollback, g1, Except.ok.injEq] at h
      subst h
      exact ⟨rfl, g4 (g5 hm), g5 hm⟩
    · simp only [Period.rollback] at h
      cases hx : mapE (fun p => Period.rollback fuel p n) (as.map .anchored) with
      | error e => simp [hx] at h
      | ok is =>
        simp only [hx] at h
        obtain ⟨m1, m2, -⟩ := mapE_ok hx
        have each : ∀ j ∈ is, j.closed = .left ∧ j.right ≤ n ∧ (j.right = n → j.left ≤ m) := by
          intro j hj
          obtain ⟨p, hp, hpj⟩ := m2 j hj
          obtain ⟨a, ha, rfl⟩ := List.mem_map.1 hp
          obtain ⟨l, r, g1, g2, g3, g4, g5⟩ := (hs a (Or.inr ⟨_, rfl, hp⟩)).2 m n h1 h2 h3
          cases fuel with
          | zero => simp [Period.rollback] at hpj
          | succ fuel =>
            simp only [Period.rollback, g1, Except.ok.injEq] at hpj
            subst hpj
            exact ⟨rfl, g3, g4⟩
        obtain ⟨g1, g2, ⟨y, hy, hy', hy''⟩, g4, -⟩ := mergeBack_spec h (fun _ => True) (by
          intro j hj; exact ⟨by rw [(each j hj).1]; rfl, fun _ _ => trivial⟩)
        rw [sem] at hm
        obtain ⟨p, hp, hpm⟩ := hm
        obtain ⟨j, hj, hpj⟩ := m1 p hp
        obtain ⟨a, ha, rfl⟩ := List.mem_map.1 hp
        have hjn : j.right = n := by
          obtain ⟨l, r, k1, k2, k3, k4, k5⟩ := (hs a (Or.inr ⟨_, rfl, hp⟩)).2 m n h1 h2 h3
          rw [sem] at hpm
          cases fuel with
          | zero => simp [Period.rollback] at hpj
          | succ fuel =>
            simp only [Period.rollback, k1, Except.ok.injEq] at hpj
            subst hpj
            exact k5 hpm
        have k1 := g4 j hj
        have k2 := (each y hy).2
        refine ⟨g1, ?_, by omega⟩
        have := k2.2 (by omega)
        omega

/-- Where the last span of the whole expression lies. -/
theorem join_back {ms : List Period} (hl : ∀ p ∈ ms, CronLeaf p) (hs : ∀ p ∈ ms, ∀ a, Inside a p → SoundArc a)
    {m n : Int} (h1 : m % MIN = 0) (h2 : m < n) (h3 : n < m + MIN) (hm : ∀ p ∈ ms, sem p m) {fuel : Nat} {i : Interval}
    (hne : ms ≠ []) (h : (joinP ms).rollback fuel n = .ok i) : i.left ≤ m ∧ i.right = n := by
  match ms, hne with
  | [p], _ =>
    exact (leaf_back (hl p (by simp)) (hs p (by simp)) h1 h2 h3 (hm p (by simp)) h).2
  | p :: q :: l, _ =>
    rw [joinP] at h
    · generalize p :: q :: l = ps at *
      cases fuel with
      | zero => simp [Period.rollback] at h
      | succ fuel =>
        simp only [Period.rollback] at h
        cases hx : mapE (fun p => Period.rollback fuel p n) ps with
        | error e => simp [hx] at h
        | ok is =>
          simp only [hx] at h
          obtain ⟨m1, m2, -⟩ := mapE_ok hx
          have each : ∀ j ∈ is, j.closed = .left ∧ j.left ≤ m ∧ j.right = n := by
            intro j hj
            obtain ⟨p, hp, hpj⟩ := m2 j hj
            exact leaf_back (hl p hp) (hs p hp) h1 h2 h3 (hm p hp) hpj
          have hov : allOverlap is = true := allOverlap_of_common m (fun j hj => by
            have := each j hj
            exact contains_of_between (by rw [this.1]; rfl) this.2.1 (by omega))
          rw [if_pos hov] at h
          obtain ⟨-, -, ⟨x, hx, hx'⟩, ⟨y, hy, hy'⟩⟩ := reduceAnd_left (fun j hj => (each j hj).1) h
          have := each x hx
          have := each y hy
          omega
    · simp

/-- All instants of a minute match alike. -/
theorem matches_minute (c : CronExpr) {t u : Int} (h : t / MIN = u / MIN) : CronMatches c t ↔ CronMatches c u := by
  have hd : dayOf t = dayOf u := by simp only [dayOf, DAY, MIN] at *; omega
  have hmi : minute t = minute u := by simp only [minute, HOUR, MIN] at *; omega
  have hho : hour t = hour u := by simp only [hour, DAY, HOUR, MIN] at *; omega
  have hy : year t = year u := by simp only [year, hd]
  have hyd : yday t = yday u := by simp only [yday, hy, hd]
  have hmo : month t = month u := by simp only [month, hyd, hy]
  have hda : day t = day u := by simp only [day, hyd, hy, hmo]
  have hw : weekday t = weekday u := by simp only [weekday, hd]
  unfold CronMatches
  rw [hmi, hho, hmo, hda, hw]

/-- When `cron(...)` was found true in a check between `first` and `last`. -/
def CronHeld (fuel : Nat) (fromLogs : Bool) (c : CronExpr) (name : String) (first last : Int) (w : LogWorld) : Prop :=
  ∃ now now', first ≤ now ∧ now ≤ now' ∧ now' ≤ last ∧
    cronRunnable fuel fromLogs c now now' name (w.mem name) w.repo = .ok true

/-- C29: without month field, and with days of the month that every month has, in every history of a task with the
start condition `cron(...)`, of any execution type, with any outcomes, restarts and other tasks, two starts of the task
(the times noted when the runs were started) lie in different minutes, unless the first one was noted and logged
exactly at the start of its minute.  Missing: see `C29_exact_violated` for that instant and `C29_late_day_violated` for
the other days of the month; month fields. -/
theorem C29_starts_partial (S : Setup) (name : String) (fuel : Nat) (c : CronExpr) (hc : ValidCron c)
    (hmon : Unrestricted c.month) (hdom : ∀ i ∈ c.dayOfMonth, EarlyItem .month i)
    (hS : ∀ reason first last w, S.start name reason first last w → CronHeld fuel S.fromLogs c name first last w)
    {es : List Ev} {h : HState} (hh : Hist S es h) :
    h.log.repo.Pairwise (fun r s => OfAction name .run r → OfAction name .run s →
      r.noted / MIN < s.noted / MIN ∨ (r.noted % MIN = 0 ∧ r.created = r.noted)) := by
  refine (spaced_runs S name (fun r v => r.noted / MIN < v / MIN ∨ (r.noted % MIN = 0 ∧ r.created = r.noted))
    (fun r n v h1 h2 => ?_) ?_ hh).pairs
  · rcases h1 with h1 | h1
    · left
      have : n / MIN ≤ v / MIN := Int.ediv_le_ediv (by decide) h2
      omega
    · exact Or.inr h1
  · intro reason first last w hst hseen
    obtain ⟨now, now', h1, h2, h3, h4⟩ := hS reason first last w hst
    refine ⟨now', h3, ?_⟩
    intro r hr hra
    have ht := hseen.times r hr hra.1
    unfold cronRunnable andThen at h4
    cases hcon : c.contains fuel now with
    | error e => simp [hcon] at h4
    | ok b =>
      cases b with
      | false => simp [hcon] at h4
      | true =>
        simp only [hcon] at h4
        cases hrb : c.rollback fuel now' with
        | error e => simp [hrb] at h4
        | ok i =>
          simp only [hrb, Except.ok.injEq] at h4
          have hno := observe_none hseen h4 r hr hra
          by_cases hlt : r.noted / MIN < now' / MIN
          · exact Or.inl hlt
          · right
            refine Classical.byContradiction fun hex => hno ?_
            -- all lie in the minute that starts at `m`
            obtain ⟨ms, g1, g2⟩ := subperiod_ok c hc
            have hmatch : CronMatches c now := by
              obtain ⟨N, hN⟩ := C18_answers c hc hmon hdom now
              obtain ⟨b, hb1, hb2⟩ := hN (max N fuel) (by omega)
              refine hb2.1 ?_
              simp only [CronExpr.contains, CronExpr.rollforward, g1, bindE] at hcon hb1
              cases hf : (joinP ms).rollforward fuel now with
              | error e => simp [hf] at hcon
              | ok j =>
                rw [rollforward_le (show fuel ≤ max N fuel by omega) hf] at hb1
                simp only [hf, Except.ok.injEq] at hcon hb1
                rw [← hb1]; exact hcon
            have hne : ms ≠ [] := by
              intro h; have := g2.minute; rw [h] at this; simp at this
            have hmm : CronMatches c (now' / MIN * MIN) := by
              refine (matches_minute c ?_).1 hmatch
              simp only [MIN] at *; omega
            have hsem := (g2.sem (now' / MIN * MIN) (fun h => absurd hmon h)).2 hmm
            have hsound := g2.fwd (fun _ _ => trivial) (fun _ _ => trivial) hdom (fun _ _ => trivial) hmon
            simp only [CronExpr.rollback, g1, bindE] at hrb
            have := join_back g2.leaf hsound (m := now' / MIN * MIN) (n := now') (by simp only [MIN]; omega)
              (by simp only [MIN] at *; omega) (by simp only [MIN] at *; omega) hsem hne hrb
            simp only [MIN] at *
            omega

/-- C29: for every valid expression, with any month field and any days of the month, in every history of a task with the
start condition `cron(...)` (checked before the year 2260), of any execution type, with any outcomes, restarts and other
tasks, two starts of the task lie in different minutes, unless the first one was noted within the first `fuel`
microseconds of its minute, where `fuel` is the limit on nested calls (1000 in Python, one millisecond).  The exception
is needed, see `C29_exact_violated` and `C29_late_day_violated`. -/
theorem C29_limit_partial (S : Setup) (name : String) (fuel : Nat) (c : CronExpr) (hc : ValidCron c)
    (hS : ∀ reason first last w, S.start name reason first last w →
      CronHeld fuel S.fromLogs c name first last w ∧ last < MAXT)
    {es : List Ev} {h : HState} (hh : Hist S es h) :
    h.log.repo.Pairwise (fun r s => OfAction name .run r → OfAction name .run s →
      r.noted / MIN < s.noted / MIN ∨ r.noted % MIN < fuel) := by
  refine (spaced_runs S name (fun r v => r.noted / MIN < v / MIN ∨ r.noted % MIN < fuel)
    (fun r n v h1 h2 => ?_) ?_ hh).pairs
  · rcases h1 with h1 | h1
    · left
      have : n / MIN ≤ v / MIN := Int.ediv_le_ediv (by decide) h2
      omega
    · exact Or.inr h1
  · intro reason first last w hst hseen
    obtain ⟨⟨now, now', h1, h2, h3, h4⟩, hmax⟩ := hS reason first last w hst
    refine ⟨now', h3, ?_⟩
    intro r hr hra
    have ht := hseen.times r hr hra.1
    unfold cronRunnable andThen at h4
    cases hcon : c.contains fuel now with
    | error e => simp [hcon] at h4
    | ok b =>
      cases b with
      | false => simp [hcon] at h4
      | true =>
        simp only [hcon] at h4
        cases hrb : c.rollback fuel now' with
        | error e => simp [hrb] at h4
        | ok i =>
          simp only [hrb, Except.ok.injEq] at h4
          have hno := observe_none hseen h4 r hr hra
          by_cases hlt : r.noted / MIN < now' / MIN
          · exact Or.inl hlt
          · right
            refine Classical.byContradiction fun hex => hno ?_
            obtain ⟨ms, g1, g2⟩ := subperiod_ok c hc
            have hp := join_plain g2.leaf
            simp only [CronExpr.contains, CronExpr.rollforward, g1, bindE] at hcon
            cases hf : (joinP ms).rollforward fuel now with
            | error e => simp [hf] at hcon
            | ok j =>
              simp only [hf, Except.ok.injEq] at hcon
              have hw := rollforward_weak fuel _ now j hp.1 hf
              have hw2 := (hw.2.2.2 (by omega)).1 (hp.2 now)
              have hsem : ∀ p ∈ ms, sem p now := by
                rw [← sem_join, hw2]
                simp only [Interval.contains, hw.1, Bool.and_eq_true, decide_eq_true_eq] at hcon
                exact hcon
              have hpos : 0 < fuel := by
                cases fuel with
                | zero => simp [Period.rollforward] at hf
                | succ k => omega
              simp only [CronExpr.rollback, g1, bindE] at hrb
              have := join_reaches g2.leaf g2.minute (m := now' / MIN * MIN) (n := now')
                ⟨by simp only [MIN]; omega, by simp only [MIN] at *; omega, by simp only [MIN] at *; omega,
                  by simp only [MIN] at *; omega, by simp only [MIN] at *; omega⟩ now
                (by simp only [MIN] at *; omega) (by simp only [MIN] at *; omega) hsem
                (by simp only [MIN] at *; omega) hrb
              simp only [MIN] at *
              omega

/-- A session in which every task has the start condition `cron(...)`, the recursion being limited to 50 calls. -/
def cronSetup (c : CronExpr) : Setup where
  fromLogs := false
  start := fun name _ first last w => CronHeld 50 false c name first last w
  isProc := fun _ => false
  drained := false

/-- The expression `* * * * *`. -/
def everyMinute : CronExpr := ⟨[.star], [.star], [.star], [.star], [.star]⟩

/-- Non-vacuity of `C29_starts_partial`: a history of a task with `* * * * *` that has started in two minutes. -/
example : ValidCron everyMinute ∧ Unrestricted everyMinute.month ∧ (∀ i ∈ everyMinute.dayOfMonth, EarlyItem .month i) ∧
    ∃ es h, Hist (cronSetup everyMinute) es h ∧
      (h.log.repo.filter (fun r => decide (r.action = .run))).length = 2 := by
  refine ⟨?_, ?_, ?_, ?_⟩
  · refine ⟨?_, ?_, ?_, ?_, ?_⟩ <;> simp [everyMinute, ValidField, ValidItem]
  · simp [everyMinute, Unrestricted]
  · simp [everyMinute, EarlyItem]
  · have h0 := Hist.init (S := cronSetup everyMinute) 1
    have h1 := h0.step (.check _ "t" 0 2 2 (by decide) (by decide) (by decide) (by decide) (by simp [cronSetup])
      ⟨2, 2, by decide, by decide, by decide, by decide +kernel⟩)
    have h2 := h1.step (.begin _ "t" 0 none 3 3 (by decide) (by decide) (by decide))
    have h3 := h2.step (.outcome _ "t" .success none 4 4 (by decide) (by decide) (by decide) (by decide))
    have h4 := h3.step (.die _ "t" (by decide))
    have h5 := h4.step (.check _ "t" 0 (MIN + 1) (MIN + 1) (by decide) (by decide) (by decide) (by decide) (by simp [cronSetup])
      ⟨MIN + 1, MIN + 1, by decide, by decide, by decide, by decide +kernel⟩)
    have h6 := h5.step (.begin _ "t" 0 none (MIN + 2) (MIN + 2) (by decide) (by decide) (by decide))
    exact ⟨_, _, h6, by decide +kernel⟩

/-- The expression `* * 31 3 *`. -/
def lastOfMarch : CronExpr := ⟨[.star], [.star], [.at (.num 31) none], [.at (.num 3) none], [.star]⟩

/-- A session like `cronSetup`, before the year 2260. -/
def cronSetupNow (c : CronExpr) : Setup where
  fromLogs := false
  start := fun name _ first last w => CronHeld 50 false c name first last w ∧ last < MAXT
  isProc := fun _ => false
  drained := false

/-- Non-vacuity of `C29_limit_partial`: a history of a task with `* * 31 3 *` that has started in two minutes. -/
example : ValidCron lastOfMarch ∧ ∃ es h, Hist (cronSetupNow lastOfMarch) es h ∧
      (h.log.repo.filter (fun r => decide (r.action = .run ∧ r.noted % MIN ≥ 50))).length = 2 := by
  refine ⟨?_, ?_⟩
  · refine ⟨?_, ?_, ?_, ?_, ?_⟩ <;> simp [lastOfMarch, ValidField, ValidItem, ValidVal, cronNumber, unitRange]
  · have h0 := Hist.init (S := cronSetupNow lastOfMarch) 1
    have h1 := h0.step (.check _ "t" 0 (datetime 2023 3 31 10 0 10) (datetime 2023 3 31 10 0 10) (by decide +kernel)
      (by decide +kernel) (by decide +kernel) (by decide +kernel) (by simp [cronSetupNow])
      ⟨⟨datetime 2023 3 31 10 0 10, datetime 2023 3 31 10 0 10, by decide +kernel, by decide +kernel, by decide +kernel,
        by decide +kernel⟩, by decide +kernel⟩)
    have h2 := h1.step (.begin _ "t" 0 none (datetime 2023 3 31 10 0 11) (datetime 2023 3 31 10 0 11) (by decide +kernel)
      (by decide +kernel) (by decide +kernel))
    have h3 := h2.step (.outcome _ "t" .success none (datetime 2023 3 31 10 0 12) (datetime 2023 3 31 10 0 12)
      (by decide +kernel) (by decide +kernel) (by decide +kernel) (by decide +kernel))
    have h4 := h3.step (.die _ "t" (by decide +kernel))
    have h5 := h4.step (.check _ "t" 0 (datetime 2023 3 31 10 1 10) (datetime 2023 3 31 10 1 10) (by decide +kernel)
      (by decide +kernel) (by decide +kernel) (by decide +kernel) (by simp [cronSetupNow])
      ⟨⟨datetime 2023 3 31 10 1 10, datetime 2023 3 31 10 1 10, by decide +kernel, by decide +kernel, by decide +kernel,
        by decide +kernel⟩, by decide +kernel⟩)
    have h6 := h5.step (.begin _ "t" 0 none (datetime 2023 3 31 10 1 11) (datetime 2023 3 31 10 1 11) (by decide +kernel)
      (by decide +kernel) (by decide +kernel))
    exact ⟨_, _, h6, by decide +kernel⟩

/-- The expression `1 * * * *`. -/
def firstMinute : CronExpr := ⟨[.at (.num 1) none], [.star], [.star], [.star], [.star]⟩

/-- C29 fails at the first instant of a minute: evaluated then, the condition looks at the previous
occurrence, so a run that was started at that instant is not seen (here with `1 * * * *` and two starts at the same
instant). -/
theorem C29_exact_violated :
    ∃ es h, Hist (cronSetup firstMinute) es h ∧
      ¬ h.log.repo.Pairwise (fun r s => OfAction "t" .run r → OfAction "t" .run s →
        r.noted / MIN < s.noted / MIN) := by
  have h0 := Hist.init (S := cronSetup firstMinute) 1
  have h1 := h0.step (.check _ "t" 0 MIN MIN (by decide) (by decide) (by decide) (by decide) (by simp [cronSetup])
    ⟨MIN, MIN, by decide, by decide, by decide, by decide +kernel⟩)
  have h2 := h1.step (.begin _ "t" 0 none MIN MIN (by decide) (by decide) (by decide))
  have h3 := h2.step (.outcome _ "t" .success none MIN MIN (by decide) (by decide) (by decide) (by decide))
  have h4 := h3.step (.die _ "t" (by decide))
  have h5 := h4.step (.check _ "t" 0 MIN MIN (by decide) (by decide) (by decide) (by decide) (by simp [cronSetup])
    ⟨MIN, MIN, by decide, by decide, by decide, by decide +kernel⟩)
  have h6 := h5.step (.begin _ "t" 0 none MIN MIN (by decide) (by decide) (by decide))
  exact ⟨_, _, h6, by decide +kernel⟩

/-- The expression `* * 1,30 * *`. -/
def firstAndThirtieth : CronExpr := ⟨[.star], [.star], [.at (.num 1) none, .at (.num 30) none], [.star], [.star]⟩

/-- C29 fails for days of the month that some months do not have: with `* * 1,30 * *` the condition of 1 March goes
back one microsecond at a time (core/time/base.py:319-328, as the "30th of February" is taken to be 2 March) and so, just
after midnight, finds a minute of February; both starts lie in the first minute of 1 March 2023. -/
theorem C29_late_day_violated :
    ∃ es h, Hist (cronSetup firstAndThirtieth) es h ∧
      ¬ h.log.repo.Pairwise (fun r s => OfAction "t" .run r → OfAction "t" .run s →
        r.noted / MIN < s.noted / MIN ∨ (r.noted % MIN = 0 ∧ r.created = r.noted)) := by
  have h0 := Hist.init (S := cronSetup firstAndThirtieth) 1
  have h1 := h0.step (.check _ "t" 0 (datetime 2023 3 1 0 0 0 10) (datetime 2023 3 1 0 0 0 10)
    (by decide) (by decide +kernel) (by decide +kernel) (by decide +kernel) (by simp [cronSetup])
    ⟨datetime 2023 3 1 0 0 0 10, datetime 2023 3 1 0 0 0 10, by decide +kernel, by decide +kernel, by decide +kernel, by decide +kernel⟩)
  have h2 := h1.step (.begin _ "t" 0 none (datetime 2023 3 1 0 0 0 15) (datetime 2023 3 1 0 0 0 15)
    (by decide +kernel) (by decide +kernel) (by decide +kernel))
  have h3 := h2.step (.outcome _ "t" .success none (datetime 2023 3 1 0 0 0 20) (datetime 2023 3 1 0 0 0 20)
    (by decide +kernel) (by decide +kernel) (by decide +kernel) (by decide +kernel))
  have h4 := h3.step (.die _ "t" (by decide))
  have h5 := h4.step (.check _ "t" 0 (datetime 2023 3 1 0 0 0 30) (datetime 2023 3 1 0 0 0 30)
    (by decide +kernel) (by decide +kernel) (by decide +kernel) (by decide +kernel) (by simp [cronSetup])
    ⟨datetime 2023 3 1 0 0 0 30, datetime 2023 3 1 0 0 0 30, by decide +kernel, by decide +kernel, by decide +kernel, by decide +kernel⟩)
  have h6 := h5.step (.begin _ "t" 0 none (datetime 2023 3 1 0 0 0 35) (datetime 2023 3 1 0 0 0 35)
    (by decide +kernel) (by decide +kernel) (by decide +kernel))
  exact ⟨_, _, h6, by decide +kernel⟩

end Rocketry.Props
