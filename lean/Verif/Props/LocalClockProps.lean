import Verif.Spec.LocalClockSpec
import Verif.Time.Zoned
import Verif.Props.StatusProps
import Verif.Props.PeriodicProps
import Mathlib.Tactic.ByContra

/-!
# C102: changes of the clock
-/

namespace Rocketry.Props
open Spec
open Local (LDT LPeriod fromStamp toStamp)

/-! ### Datetimes and instants -/

/-- The instant of a datetime made by arithmetic: the first at which the clock shows it; for times that are left out, as
far after the change as they are after the time at which the clock is changed. -/
theorem stamp_plain (x before after s : Int) (h : before - after ≤ DAY) (h' : after - before ≤ DAY) :
    toStamp (changedAt x before after) ⟨s, false⟩ =
      if s < x + max before after then s - before else s - after := by
  have hD : DAY = 86400000000 := by decide
  simp only [toStamp, changedAt, hD, Bool.false_eq_true, if_false] at *
  split_ifs <;> omega

/-- Likewise for datetimes with `fold`: the last instant at which the clock shows it. -/
theorem stamp_fold (x before after s : Int) (h : before - after ≤ DAY) (h' : after - before ≤ DAY) :
    toStamp (changedAt x before after) ⟨s, true⟩ =
      if s < x + min before after then s - before else s - after := by
  have hD : DAY = 86400000000 := by decide
  simp only [toStamp, changedAt, hD, if_true] at *
  split_ifs <;> omega

/-- `fold` is set for the second showing. -/
theorem fold_iff (x before after ts : Int) (h : before - after ≤ DAY) (h' : after - before ≤ DAY) :
    (fromStamp (changedAt x before after) ts).fold = true ↔ x ≤ ts ∧ ts < x + (before - after) := by
  have hD : DAY = 86400000000 := by decide
  simp only [fromStamp, changedAt, hD, Bool.and_eq_true, decide_eq_true_eq] at *
  by_cases h1 : ts < x
  · rw [if_pos h1, if_pos (by omega)]
    omega
  · rw [if_neg h1]
    by_cases h2 : ts - 86400000000 < x
    · rw [if_pos h2]
      split_ifs <;> omega
    · rw [if_neg h2]
      omega

/-- The datetime made of an instant names that instant, also in the hour that is shown twice. -/
theorem C102_instant (x before after ts : Int) (h : before - after ≤ DAY) (h' : after - before ≤ DAY) :
    toStamp (changedAt x before after) (fromStamp (changedAt x before after) ts) = ts := by
  have hf := fold_iff x before after ts h h'
  have hw : (fromStamp (changedAt x before after) ts).wall = if ts < x then ts + before else ts + after := rfl
  generalize hd : fromStamp (changedAt x before after) ts = d at hf hw
  obtain ⟨w, f⟩ := d
  cases f with
  | false =>
    rw [stamp_plain _ _ _ _ h h']
    simp only [Bool.false_eq_true, false_iff] at hf hw
    split_ifs at * <;> omega
  | true =>
    rw [stamp_fold _ _ _ _ h h']
    simp only [true_iff] at hf hw
    split_ifs at * <;> omega

/-! ### What a status condition says -/

theorem recorded_eq (repo : List Record) (name : String) (a : Action) (b e : Int) :
    recordedFrom repo name a b e = countIn repo name (.one a) b e := by
  unfold recordedFrom countIn
  congr 2
  funext r
  simp only [Acts.has, decide_eq_true_eq]

/-- The condition compares the number of records between the two instants, if the comparisons of cached times on the clock
come out as between instants. -/
theorem observe_counts {c : Local.Clock} {name : String} {a : Action} {t : TaskMem} {repo : List Record} {s e : LDT}
    (hk : CachedLatest name a t repo) (S E : Int) (hS : toStamp c s = S) (hE : toStamp c e = E)
    (h1 : ∀ x, t.last a = some x → c x < s.wall → x < S)
    (h2 : ∀ x, t.last a = some x → s.wall ≤ c x → c x ≤ e.wall → S ≤ x ∧ x ≤ E)
    (fromLogs : Bool) (ops : List (Comp × Int)) :
    Local.observe c fromLogs (.one a) (chain ops) s e name t repo =
      compState (chain ops) (recordedFrom repo name a S E) := by
  unfold Local.observe
  simp only [hS, hE, measured_length, ← recorded_eq]
  cases fromLogs with
  | true => rfl
  | false =>
    simp only [Bool.false_eq_true, if_false]
    have zero : (∀ r ∈ repo, r.task = name → r.action = a → r.created < S) → recordedFrom repo name a S E = 0 := by
      intro h
      rw [recorded_eq, countIn_zero]
      intro r hr h1 h2 h3
      have := h r hr h1 (by simpa [Acts.has] using h2)
      omega
    have f2 : (cachedFeatures (fun a => (t.last a).map fun x => (fromStamp c x).wall) s.wall e.wall (.one a)).2 = true →
        recordedFrom repo name a S E = 0 := by
      intro h
      simp only [cachedFeatures] at h
      unfold CachedLatest at hk
      cases hl : t.last a with
      | none =>
        rw [hl] at hk
        exact zero (fun r hr h1 h2 => absurd h2 (hk r hr h1))
      | some x =>
        rw [hl] at hk h
        have := h1 x hl (by simpa [fromStamp] using h)
        exact zero (fun r hr h1 h2 => by have := hk.2 r hr h1 h2; omega)
    have f1 : (cachedFeatures (fun a => (t.last a).map fun x => (fromStamp c x).wall) s.wall e.wall (.one a)).1 = true →
        0 < recordedFrom repo name a S E := by
      intro h
      simp only [cachedFeatures] at h
      unfold CachedLatest at hk
      cases hl : t.last a with
      | none => rw [hl] at h; simp at h
      | some x =>
        rw [hl] at hk h
        simp only [Option.map_some, within, fromStamp, Bool.and_eq_true, decide_eq_true_eq] at h
        have := h2 x hl h.1 h.2
        obtain ⟨⟨r, hr, e1, e2, e3⟩, -⟩ := hk
        rw [recorded_eq]
        exact countIn_pos.2 ⟨r, hr, e1, by simp [Acts.has, e2], by omega, by omega⟩
    generalize cachedFeatures (fun a => (t.last a).map fun x => (fromStamp c x).wall) s.wall e.wall (.one a) = f at f1 f2
    by_cases h1 : isEqualZero (chain ops) = true ∧ f.2 = true
    · rw [if_pos (by simp [h1.1, h1.2])]
      exact ((C23_equal_zero ops h1.1 _).2 (by have := f2 h1.2; omega)).symm
    · rw [if_neg (by simpa using h1)]
      by_cases h2 : isEqualZero (chain ops) = true ∧ f.1 = true
      · rw [if_pos (by simp [h2.1, h2.2])]
        symm
        rw [Bool.eq_false_iff]
        intro h
        have := (C23_equal_zero ops h2.1 _).1 h
        have := f1 h2.2
        omega
      · rw [if_neg (by simpa using h2)]
        by_cases h3 : isAnyOverZero (chain ops) = true ∧ f.2 = true
        · rw [if_pos (by simp [h3.1, h3.2])]
          symm
          rw [Bool.eq_false_iff]
          intro h
          have := (C23_any_over_zero ops h3.1 _).1 h
          have := f2 h3.2
          omega
        · rw [if_neg (by simpa using h3)]
          by_cases h4 : isAnyOverZero (chain ops) = true ∧ f.1 = true
          · rw [if_pos (by simp [h4.1, h4.2])]
            exact ((C23_any_over_zero ops h4.1 _).2 (by have := f1 h4.2; omega)).symm
          · rw [if_neg (by simpa using h4)]

/-- The cached time is the time of a record. -/
theorem cached_not_later {name : String} {a : Action} {t : TaskMem} {repo : List Record} {now x : Int}
    (hk : CachedLatest name a t repo) (hn : NotLater repo now) (hx : t.last a = some x) : x ≤ now := by
  unfold CachedLatest at hk
  rw [hx] at hk
  obtain ⟨⟨r, hr, -, -, e⟩, -⟩ := hk
  have := hn r hr
  omega

/-! The examples: a computer in central Europe at the end and at the beginning of summer time. -/

/-- The instant of the change, 1:00 UTC. -/
def changeAt : Int := 738000 * DAY + HOUR

/-- The clock is put back from 3:00 to 2:00. -/
def autumnClock : Local.Clock := changedAt changeAt (2 * HOUR) HOUR

/-- The clock is put forward from 2:00 to 3:00. -/
def springClock : Local.Clock := changedAt changeAt HOUR (2 * HOUR)

/-- A log with one record of the task "t", and its cache. -/
def oneRecord (a : Action) (at_ : Int) : List Record := [⟨"t", a, at_, at_, none⟩]
def oneCached (a : Action) (at_ : Int) : TaskMem := ⟨some a, fun b => if b = a then some at_ else none⟩

theorem oneRecord_cached (a b : Action) (x : Int) : CachedLatest "t" b (oneCached a x) (oneRecord a x) := by
  unfold CachedLatest oneCached oneRecord
  by_cases h : b = a
  · subst h
    simp
  · simp only [if_neg h]
    simp only [List.mem_singleton, forall_eq, forall_const]
    exact fun e => h e.symm

/-- Rolling back a `TimeDelta`. -/
theorem roll_delta (d : Int) (dt : LDT) :
    Local.rollback (.delta d) dt = .ok (⟨dt.wall - (d.natAbs : Int), false⟩, dt) := by
  have h : Interval.make (dt.wall - (d.natAbs : Int)) dt.wall .left = .ok ⟨dt.wall - (d.natAbs : Int), dt.wall, .left⟩ :=
    Interval.make_ok.2 ⟨by omega, rfl⟩
  simp only [Local.rollback, h]

/-- The window of a period, of whatever kind, that `dt` belongs to: from some time of the clock up to `dt` itself. -/
theorem roll_inside (p : Anchored) (dt : LDT) (i : Interval) (h : p.rollback dt.wall = .ok i)
    (hc : p.contains dt.wall = true) : Local.rollback (.anchored p) dt = .ok (⟨i.left, false⟩, dt) := by
  simp only [Local.rollback, h, hc, if_true]

/-! ### When the conditions keep to real time -/

/-- A window that begins at a time of the clock that is shown once. -/
theorem observe_once {x before after : Int} (h : before - after ≤ DAY) (h' : after - before ≤ DAY)
    {name : String} {a : Action} {t : TaskMem} {repo : List Record} {s now b : Int} (hk : CachedLatest name a t repo)
    (hn : NotLater repo now) (hb : ShownOnce (changedAt x before after) s b)
    (fromLogs : Bool) (ops : List (Comp × Int)) :
    Local.observe (changedAt x before after) fromLogs (.one a) (chain ops) ⟨s, false⟩
      (fromStamp (changedAt x before after) now) name t repo = compState (chain ops) (recordedFrom repo name a b now) := by
  obtain ⟨hb, hu⟩ := hb
  have u1 := hu (s - before)
  have u2 := hu (s - after)
  simp only [changedAt] at hb u1 u2
  have hc : ∀ y, changedAt x before after y = if y < x then y + before else y + after := fun _ => rfl
  have hS : toStamp (changedAt x before after) ⟨s, false⟩ = b := by
    rw [stamp_plain _ _ _ _ h h']
    split_ifs at * <;> omega
  refine observe_counts hk b now hS (C102_instant _ _ _ _ h h') ?_ ?_ fromLogs ops
  · intro y _ hy
    have hy : (if y < x then y + before else y + after) < s := hy
    split_ifs at * <;> omega
  · intro y hl hy _
    have hy : s ≤ (if y < x then y + before else y + after) := hy
    refine ⟨?_, cached_not_later hk hn hl⟩
    split_ifs at * <;> omega

/-- **C102 (part)**: for every change of the clock by at most a day and every `TimeOf…` period that goes on at `now`,
whose beginning on the clock is shown once (for `daily`, if the change is not at midnight): a status condition compares
the number of records since the instant at which the period began.  The change may lie between that instant and `now`. -/
theorem C102_calendar_partial (x before after : Int) (h : before - after ≤ DAY) (h' : after - before ≤ DAY)
    (p : Anchored) (now b : Int) (i : Interval) (hi : p.rollback (changedAt x before after now) = .ok i)
    (hin : p.contains (changedAt x before after now) = true) (hb : ShownOnce (changedAt x before after) i.left b)
    (name : String) (a : Action) (t : TaskMem) (repo : List Record) (hk : CachedLatest name a t repo)
    (hn : NotLater repo now) (fromLogs : Bool) (ops : List (Comp × Int)) :
    Local.status (changedAt x before after) fromLogs (.one a) (chain ops) (.anchored p) now name t repo =
      .ok (compState (chain ops) (recordedFrom repo name a b now)) := by
  unfold Local.status
  rw [roll_inside p (fromStamp (changedAt x before after) now) i hi hin]
  simp only [observe_once h h' hk hn hb]

/-- **C102 (part)**: hence `minutely`, `hourly`, `daily`, … (`TaskExecutable`) are true if and only if since then the
task has not succeeded, been terminated or inacted, and has not failed too often. -/
theorem C102_executable_partial (x before after : Int) (h : before - after ≤ DAY) (h' : after - before ≤ DAY)
    (p : Anchored) (now b : Int) (i : Interval) (hi : p.rollback (changedAt x before after now) = .ok i)
    (hin : p.contains (changedAt x before after now) = true) (hb : ShownOnce (changedAt x before after) i.left b)
    (name : String) (t : TaskMem) (repo : List Record) (hk : ∀ a, CachedLatest name a t repo)
    (hn : NotLater repo now) (fromLogs : Bool) (retries : Int) :
    Local.executable (changedAt x before after) fromLogs (some retries) (.anchored p) (oneReading now) name t repo =
      .ok (decide (recordedFrom repo name .inaction b now = 0 ∧ recordedFrom repo name .success b now = 0 ∧
        (recordedFrom repo name .fail b now : Int) ≤ retries ∧ recordedFrom repo name .terminate b now = 0)) := by
  have e0 : ∀ a, Local.status (changedAt x before after) fromLogs (.one a) [(.eq, 0)] (.anchored p) now name t repo =
      .ok (decide (recordedFrom repo name a b now = 0)) := by
    intro a
    have := C102_calendar_partial x before after h h' p now b i hi hin hb name a t repo (hk a) hn fromLogs [(.eq, 0)]
    rw [chain_eq0] at this
    rw [this]
    congr 1
    rw [Bool.eq_iff_iff, ← chain_eq0, C23_equal_zero [(.eq, 0)] (by decide), decide_eq_true_eq]
    omega
  have e1 : Local.status (changedAt x before after) fromLogs (.one .fail) [(.le, retries)] (.anchored p) now name t repo =
      .ok (decide ((recordedFrom repo name .fail b now : Int) ≤ retries)) := by
    have := C102_calendar_partial x before after h h' p now b i hi hin hb name .fail t repo (hk .fail) hn fromLogs
      [(.le, retries)]
    rw [chain_le] at this
    rw [this]
    congr 1
    rw [Bool.eq_iff_iff, ← chain_le, C23_compare, decide_eq_true_eq]
    constructor
    · rintro (⟨h, -⟩ | ⟨-, h⟩)
      · cases h
      · exact h .le retries (by rfl)
    · intro h
      refine .inr ⟨by simp, ?_⟩
      intro k v hk
      cases k <;> simp [lastBound] at hk
      subst hk
      exact h
  unfold Local.executable
  simp only [oneReading, Local.isin, Option.getD_some, e0, e1]
  rw [show (fromStamp (changedAt x before after) now).wall = changedAt x before after now from rfl, hin]
  simp only [andThen]
  by_cases q1 : recordedFrom repo name .inaction b now = 0
  · by_cases q2 : recordedFrom repo name .success b now = 0
    · by_cases q3 : (recordedFrom repo name .fail b now : Int) ≤ retries
      · simp [q1, q2, q3]
      · simp [q1, q2, q3]
    · simp [q1, q2]
  · simp [q1]

/-- `daily`, half past two for the second time: the day began 3.5 hours ago (the clock shows two hours and a half), a
success three hours ago counts, also with the hour put back in between. -/
example : let now := changeAt + 30 * MIN
    ∃ i, Anchored.rollback ⟨.day, 0, DAY⟩ (autumnClock now) = .ok i ∧
      Anchored.contains ⟨.day, 0, DAY⟩ (autumnClock now) = true ∧ ShownOnce autumnClock i.left (now - 3 * HOUR - 30 * MIN) ∧
      (∀ a, CachedLatest "t" a (oneCached .success (now - 3 * HOUR)) (oneRecord .success (now - 3 * HOUR))) ∧
      NotLater (oneRecord .success (now - 3 * HOUR)) now ∧
      Local.executable autumnClock false none (.anchored ⟨.day, 0, DAY⟩) (oneReading now) "t"
        (oneCached .success (now - 3 * HOUR)) (oneRecord .success (now - 3 * HOUR)) = .ok false := by
  refine ⟨⟨738000 * DAY, 738000 * DAY + 2 * HOUR + 30 * MIN, .left⟩, by decide +kernel, by decide +kernel, ⟨by decide +kernel, ?_⟩,
    fun a => oneRecord_cached _ _ _, ?_, by decide +kernel⟩
  · intro ts h
    simp only [autumnClock, changedAt, changeAt, DAY, HOUR, MIN] at *
    split_ifs at h <;> omega
  · intro r hr
    simp only [oneRecord, List.mem_singleton] at hr
    subst hr
    simp only [HOUR, MIN]
    omega

/-- **C102 (part)**: `every(d)` compares the records of the last `d` until the clock is changed, and again as soon as the
time `d`, and the time by which the clock was put back, have passed since the change. -/
theorem C102_every_partial (x before after : Int) (h : before - after ≤ DAY) (h' : after - before ≤ DAY) (d now : Int)
    (hw : now < x ∨ (x ≤ now - (d.natAbs : Int) ∧ x + (before - after) ≤ now - (d.natAbs : Int)))
    (name : String) (a : Action) (t : TaskMem) (repo : List Record) (hk : CachedLatest name a t repo)
    (hn : NotLater repo now) (fromLogs : Bool) :
    Local.every (changedAt x before after) fromLogs a d now name t repo =
      .ok (decide (recordedFrom repo name a (now - (d.natAbs : Int)) now = 0)) := by
  unfold Local.every Local.status
  rw [roll_delta]
  have hwall : (fromStamp (changedAt x before after) now).wall = if now < x then now + before else now + after := rfl
  have hobs := observe_counts (s := ⟨(fromStamp (changedAt x before after) now).wall - (d.natAbs : Int), false⟩)
    (e := fromStamp (changedAt x before after) now) hk (now - (d.natAbs : Int)) now
    (by rw [stamp_plain _ _ _ _ h h', hwall]; split_ifs <;> omega) (C102_instant _ _ _ _ h h')
    (by
      intro y hl hy
      have := cached_not_later hk hn hl
      have hy : (if y < x then y + before else y + after) <
        (if now < x then now + before else now + after) - (d.natAbs : Int) := hy
      split_ifs at * <;> omega)
    (by
      intro y hl hy _
      have := cached_not_later hk hn hl
      have hy : (if now < x then now + before else now + after) - (d.natAbs : Int) ≤
        (if y < x then y + before else y + after) := hy
      refine ⟨?_, this⟩
      split_ifs at * <;> omega) fromLogs [(.eq, 0)]
  rw [chain_eq0] at hobs
  simp only [hobs]
  congr 1
  rw [Bool.eq_iff_iff, ← chain_eq0, C23_equal_zero [(.eq, 0)] (by decide), decide_eq_true_eq]
  omega

/-- `every("10 s")` until three, and from ten seconds past three on. -/
example : Local.every autumnClock false .run (10 * SEC) (changeAt - 1) "t" (oneCached .run (changeAt - 5 * SEC))
      (oneRecord .run (changeAt - 5 * SEC)) = .ok false ∧
    Local.every autumnClock false .run (10 * SEC) (changeAt + HOUR + 10 * SEC) "t" (oneCached .run (changeAt + HOUR - SEC))
      (oneRecord .run (changeAt + HOUR - SEC)) = .ok true := by
  decide +kernel

/-- **C102 (part)**: for every clock whatever, `every(d)` compares the records of the last `d` if the clock is not
changed from a day before that time until a day after `now`, and never by more than a day in all. -/
theorem C102_steady_partial (c : Local.Clock) (o d now : Int) (ho : -DAY ≤ o ∧ o ≤ DAY)
    (hc : UnchangedBetween c o (now - (d.natAbs : Int) - DAY) (now + DAY))
    (hall : ∀ ts, c ts ≤ ts + o + DAY)
    (name : String) (a : Action) (t : TaskMem) (repo : List Record) (hk : CachedLatest name a t repo)
    (hn : NotLater repo now) (fromLogs : Bool) :
    Local.every c fromLogs a d now name t repo =
      .ok (decide (recordedFrom repo name a (now - (d.natAbs : Int)) now = 0)) := by
  have hD : DAY = 86400000000 := by decide
  unfold UnchangedBetween at hc
  rw [hD] at hc hall ho
  have hnow : c now = now + o := hc _ (by omega) (by omega)
  have hprev : c (now - DAY) = now - DAY + o := hc _ (by omega) (by omega)
  have hfrom : fromStamp c now = ⟨now + o, false⟩ := by
    simp only [fromStamp, hnow, hprev]
    simp only [LDT.mk.injEq, true_and]
    rw [decide_eq_false (by omega), Bool.false_and]
  have hstamp : ∀ u, now - (d.natAbs : Int) ≤ u → u ≤ now → toStamp c ⟨u + o, false⟩ = u := by
    intro u h1 h2
    have e1 : c (u + o) = u + o + o := hc _ (by omega) (by omega)
    have e2 : c u = u + o := hc _ (by omega) (by omega)
    have e3 : c (u - DAY) = u - DAY + o := hc _ (by omega) (by omega)
    unfold toStamp
    simp only [e1, Bool.false_eq_true, if_false]
    rw [show u + o - (u + o + o - (u + o)) = u by omega, e2, if_pos rfl, e3, if_pos (by omega)]
  unfold Local.every Local.status
  rw [roll_delta, hfrom]
  have hobs := observe_counts (c := c) (s := ⟨now + o - (d.natAbs : Int), false⟩) (e := ⟨now + o, false⟩) hk
    (now - (d.natAbs : Int)) now
    (by rw [show now + o - (d.natAbs : Int) = now - (d.natAbs : Int) + o by omega]; exact hstamp _ (by omega) (by omega))
    (hstamp now (by omega) (by omega))
    (by
      intro y hl hy
      have := cached_not_later hk hn hl
      simp only [] at hy
      by_contra hlt
      have := hc y (by omega) (by omega)
      omega)
    (by
      intro y hl hy _
      have h2 := cached_not_later hk hn hl
      simp only [] at hy
      refine ⟨?_, h2⟩
      by_contra hlt
      have := hall y
      by_cases hin : now - (d.natAbs : Int) - 86400000000 ≤ y
      · have := hc y hin (by omega)
        omega
      · omega) fromLogs [(.eq, 0)]
  rw [chain_eq0] at hobs
  simp only [hobs]
  congr 1
  rw [Bool.eq_iff_iff, ← chain_eq0, C23_equal_zero [(.eq, 0)] (by decide), decide_eq_true_eq]
  omega

/-- The clock of the autumn, two days later. -/
example : UnchangedBetween autumnClock HOUR (changeAt + 2 * DAY - 10 * SEC - DAY) (changeAt + 2 * DAY + DAY) ∧
    ∀ ts, autumnClock ts ≤ ts + HOUR + DAY := by
  constructor
  · intro ts h1 h2
    simp only [autumnClock, changedAt, changeAt, DAY, HOUR, SEC] at *
    split_ifs <;> omega
  · intro ts
    simp only [autumnClock, changedAt, changeAt, DAY, HOUR]
    split_ifs <;> omega

/-- **C102 (part)**: with the option `timezone` `every(d)` compares the records of the last `d`, on every computer. -/
theorem C102_timezone_partial (m : Zoned.Machine) (o : Int) (n : Nat) (d now : Int) (name : String) (a : Action)
    (t : TaskMem) (repo : List Record) (hk : CachedLatest name a t repo) (hn : NotLater repo now) (fromLogs : Bool) :
    Zoned.status m (some o) (n + 1) fromLogs (.one a) [(.eq, 0)] (some (.delta d 0)) now name t repo =
      .ok (decide (recordedFrom repo name a (now - (d.natAbs : Int)) now = 0)) := by
  have hspan : Zoned.span m (some o) (n + 1) (some (.delta d 0)) now =
      .ok (.aware o (now + o + -(d.natAbs : Int)), .aware o (now + o)) := by
    simp only [Zoned.span, Zoned.ZPeriod.rollback, Zoned.Machine.format, Zoned.ZInterval.make, Zoned.DT.lt, Zoned.DT.add]
    rw [decide_eq_false (by omega)]
  have hcount : compState [(.eq, 0)] ((recordedFrom repo name a (now - (d.natAbs : Int)) now : Nat) : Int) =
      decide (recordedFrom repo name a (now - (d.natAbs : Int)) now = 0) := by
    rw [Bool.eq_iff_iff, ← chain_eq0, C23_equal_zero [(.eq, 0)] (by decide), decide_eq_true_eq]
    omega
  unfold Zoned.status
  simp only [hspan, Zoned.Machine.toStamp]
  rw [show now + o + -(d.natAbs : Int) - o = now - (d.natAbs : Int) by omega, show now + o - o = now by omega,
    measured_length, ← recorded_eq, hcount]
  have e0 : isEqualZero [(Comp.eq, 0)] = true := by decide
  have a0 : isAnyOverZero [(Comp.eq, 0)] = false := by decide
  cases fromLogs with
  | true => rfl
  | false =>
    simp only [Bool.false_eq_true, if_false, Zoned.cachedFeatures, e0, a0, Bool.true_and, Bool.false_and]
    have hk' := hk
    unfold CachedLatest at hk'
    cases hl : t.last a with
    | none =>
      rw [hl] at hk'
      simp only [Option.map_none, if_true]
      have : recordedFrom repo name a (now - (d.natAbs : Int)) now = 0 := by
        rw [recorded_eq, countIn_zero]
        intro r hr h1 h2
        exact absurd (by simpa [Acts.has] using h2) (hk' r hr h1)
      rw [decide_eq_true this]
    | some y =>
      rw [hl] at hk'
      have hy := cached_not_later hk hn hl
      simp only [Option.map_some, Zoned.Machine.format, Zoned.within, Zoned.DT.le, Zoned.DT.lt, Zoned.both]
      by_cases q : now - (d.natAbs : Int) ≤ y
      · have : recordedFrom repo name a (now - (d.natAbs : Int)) now ≠ 0 := by
          obtain ⟨⟨r, hr, e1, e2, e3⟩, -⟩ := hk'
          rw [recorded_eq]
          exact Nat.pos_iff_ne_zero.1 (countIn_pos.2 ⟨r, hr, e1, by simp [Acts.has, e2], by omega, by omega⟩)
        rw [decide_eq_false this, decide_eq_true (show now + o + -(d.natAbs : Int) - o ≤ y + o - o by omega),
          decide_eq_true (show y + o - o ≤ now + o - o by omega),
          decide_eq_false (show ¬ y + o - o < now + o + -(d.natAbs : Int) - o by omega)]
        rfl
      · have : recordedFrom repo name a (now - (d.natAbs : Int)) now = 0 := by
          rw [recorded_eq, countIn_zero]
          intro r hr h1 h2 h3
          have := hk'.2 r hr h1 (by simpa [Acts.has] using h2)
          omega
        rw [decide_eq_true this, decide_eq_false (show ¬ now + o + -(d.natAbs : Int) - o ≤ y + o - o by omega),
          decide_eq_true (show y + o - o < now + o + -(d.natAbs : Int) - o by omega)]
        rfl

/-- With the option `timezone`, at the moment of the violation above. -/
example : Zoned.status ⟨id, id⟩ (some HOUR) 1 false (.one .run) [(.eq, 0)] (some (.delta (10 * SEC) 0)) (changeAt + 6 * SEC) "t"
    (oneCached .run (changeAt - 5 * SEC)) (oneRecord .run (changeAt - 5 * SEC)) = .ok true := by
  decide +kernel

/-! ### When they do not -/

/-- A window that reaches back, on the clock, to the time that it showed at the latest record before it was put back. -/
theorem observe_back {x before after : Int} (h0 : after ≤ before) (h : before - after ≤ DAY)
    {name : String} {a : Action} {t : TaskMem} {repo : List Record} {s now r : Int} (hk : CachedLatest name a t repo)
    (hr : t.last a = some r) (hrx : r < x) (hx : x ≤ now) (hs : s ≤ r + before) (fromLogs : Bool) :
    Local.observe (changedAt x before after) fromLogs (.one a) [(.eq, 0)] ⟨s, false⟩
      (fromStamp (changedAt x before after) now) name t repo = false := by
  have hD : DAY = 86400000000 := by decide
  have hk' := hk
  unfold CachedLatest at hk'
  rw [hr] at hk'
  obtain ⟨⟨q, hq, e1, e2, e3⟩, -⟩ := hk'
  have hS : toStamp (changedAt x before after) ⟨s, false⟩ = s - before := by
    rw [stamp_plain _ _ _ _ h (by omega), if_pos (by omega)]
  have hpos : 0 < recordedFrom repo name a (s - before) now := by
    rw [recorded_eq]
    exact countIn_pos.2 ⟨q, hq, e1, by simp [Acts.has, e2], by omega, by omega⟩
  have hcount : compState [(.eq, 0)] ((recordedFrom repo name a (s - before) now : Nat) : Int) = false := by
    rw [Bool.eq_false_iff, ← chain_eq0]
    intro hh
    have := (C23_equal_zero [(.eq, 0)] (by decide) _).1 hh
    omega
  unfold Local.observe
  simp only [hS, C102_instant _ _ _ _ h (by omega : after - before ≤ DAY), measured_length, ← recorded_eq, hcount]
  have e0 : isEqualZero [(Comp.eq, 0)] = true := by decide
  have a0 : isAnyOverZero [(Comp.eq, 0)] = false := by decide
  have hw : (fromStamp (changedAt x before after) r).wall = r + before := by
    show (if r < x then r + before else r + after) = _
    rw [if_pos hrx]
  simp only [cachedFeatures, hr, Option.map_some, hw, e0, a0, Bool.true_and, Bool.false_and, Bool.false_eq_true, if_false]
  rw [decide_eq_false (show ¬ r + before < s by omega)]
  simp

/-- **C102 violated**: when the clock is put back, `every(d)` waits longer than `d`: a run that was started before the
change keeps the condition false for the time by which the clock is put back on top of `d`.  (For all offsets,
durations, moments and logs; with cached times and with the option `force_status_from_logs`.) -/
theorem C102_back_violated (x before after : Int) (h0 : after < before) (h : before - after ≤ DAY) (d now r : Int)
    (name : String) (a : Action) (t : TaskMem) (repo : List Record) (hk : CachedLatest name a t repo)
    (hr : t.last a = some r) (hrx : r < x) (hx : x ≤ now) (hpassed : r + (d.natAbs : Int) < now)
    (hlate : now ≤ r + (d.natAbs : Int) + (before - after)) (fromLogs : Bool) :
    Local.every (changedAt x before after) fromLogs a d now name t repo = .ok false ∧
      recordedFrom repo name a (now - (d.natAbs : Int)) now = 0 := by
  constructor
  · unfold Local.every Local.status
    rw [roll_delta]
    simp only
    rw [observe_back (by omega) h hk hr hrx hx]
    show (if now < x then now + before else now + after) - _ ≤ _
    rw [if_neg (by omega)]
    omega
  · rw [recorded_eq, countIn_zero]
    intro q hq h1 h2 h3
    unfold CachedLatest at hk
    rw [hr] at hk
    have := hk.2 q hq h1 (by simpa [Acts.has] using h2)
    omega

/-- `every("10 s")`: after a run five seconds before the change none for an hour. -/
example : Local.every autumnClock false .run (10 * SEC) (changeAt + 6 * SEC) "t" (oneCached .run (changeAt - 5 * SEC))
      (oneRecord .run (changeAt - 5 * SEC)) = .ok false ∧
    Local.every autumnClock false .run (10 * SEC) (changeAt + HOUR + 5 * SEC) "t" (oneCached .run (changeAt - 5 * SEC))
      (oneRecord .run (changeAt - 5 * SEC)) = .ok false ∧
    Local.every autumnClock false .run (10 * SEC) (changeAt + HOUR + 6 * SEC) "t" (oneCached .run (changeAt - 5 * SEC))
      (oneRecord .run (changeAt - 5 * SEC)) = .ok true := by
  decide +kernel

/-- **C102 violated**: when the clock is put forward, `every(d)` does not wait for `d`: the time by which the clock is
put forward is taken off. -/
theorem C102_forward_violated (x before after : Int) (h0 : before < after) (h : after - before ≤ DAY) (d now r : Int)
    (name : String) (a : Action) (t : TaskMem) (repo : List Record) (hk : CachedLatest name a t repo)
    (hr : t.last a = some r) (hrx : r < x) (hx : x ≤ now) (hrecent : now - (d.natAbs : Int) ≤ r)
    (hearly : r < now - (d.natAbs : Int) + (after - before)) (fromLogs : Bool) :
    Local.every (changedAt x before after) fromLogs a d now name t repo = .ok true ∧
      0 < recordedFrom repo name a (now - (d.natAbs : Int)) now := by
  have hk' := hk
  unfold CachedLatest at hk'
  rw [hr] at hk'
  obtain ⟨⟨q, hq, e1, e2, e3⟩, hmax⟩ := hk'
  constructor
  · unfold Local.every Local.status
    rw [roll_delta]
    have hwall : (fromStamp (changedAt x before after) now).wall = now + after := by
      show (if now < x then now + before else now + after) = _
      rw [if_neg (by omega)]
    simp only [hwall, Except.ok.injEq]
    have hS : toStamp (changedAt x before after) ⟨now + after - (d.natAbs : Int), false⟩ =
        now + after - (d.natAbs : Int) - before := by
      rw [stamp_plain _ _ _ _ (by omega) h, if_pos (by omega)]
    have hzero : recordedFrom repo name a (now + after - (d.natAbs : Int) - before) now = 0 := by
      rw [recorded_eq, countIn_zero]
      intro q hq h1 h2 h3
      have := hmax q hq h1 (by simpa [Acts.has] using h2)
      omega
    have hw : (fromStamp (changedAt x before after) r).wall = r + before := by
      show (if r < x then r + before else r + after) = _
      rw [if_pos hrx]
    have e0 : isEqualZero [(Comp.eq, 0)] = true := by decide
    unfold Local.observe
    simp only [hS, C102_instant _ _ _ _ (by omega : before - after ≤ DAY) h, measured_length, ← recorded_eq, hzero,
      cachedFeatures, hr, Option.map_some, hw, e0, Bool.true_and]
    rw [decide_eq_true (show r + before < now + after - (d.natAbs : Int) by omega)]
    cases fromLogs
    · rfl
    · rw [if_pos rfl]
      decide
  · rw [recorded_eq]
    exact countIn_pos.2 ⟨q, hq, e1, by simp [Acts.has, e2], by omega, by omega⟩

/-- `every("1 hour")`: a minute after the last run another. -/
example : Local.every springClock false .run HOUR changeAt "t" (oneCached .run (changeAt - MIN))
    (oneRecord .run (changeAt - MIN)) = .ok true := by
  decide +kernel

/-- **C102 violated**: `secondly`, `minutely`, `hourly` (and every other full cycle of fixed length): a success before
the clock is put back keeps a task from being started until the clock shows the time of the success again, in spite of
all the minutes that begin in between. -/
theorem C102_cycle_violated (x before after : Int) (h0 : after < before) (h : before - after ≤ DAY) (p : Anchored) (L : Int)
    (hL : cycleLen p.scope = some L) (hb : Bounds p L) (hf : p.isFull = true) (now : ExecReads) (r : Int) (name : String)
    (t : TaskMem) (repo : List Record) (hk : CachedLatest name .success t repo) (hr : t.last .success = some r)
    (hrx : r < x) (hx : x ≤ now.succeeded) (hlate : now.succeeded ≤ r + (before - after)) (fromLogs : Bool)
    (retries : Option Int) :
    Local.executable (changedAt x before after) fromLogs retries (.anchored p) now name t repo = .ok false := by
  have hcon : ∀ w, p.contains w = true := by
    intro w
    unfold Anchored.contains
    rw [if_pos hf]
  have hroll : ∀ w, ∃ l, p.rollback w = .ok ⟨l, w, .left⟩ ∧ l < w := by
    intro w
    obtain ⟨l, h1, h2⟩ := C04_rollback_full p L hL hb hf w
    have := h2.1
    exact ⟨l, h1, by omega⟩
  have hst : ∀ a ops n, ∃ b, Local.status (changedAt x before after) fromLogs a ops (.anchored p) n name t repo = .ok b := by
    intro a ops n
    obtain ⟨l, h1, -⟩ := hroll (fromStamp (changedAt x before after) n).wall
    unfold Local.status
    rw [roll_inside p _ _ h1 (hcon _)]
    exact ⟨_, rfl⟩
  have hsucc : Local.status (changedAt x before after) fromLogs (.one .success) [(.eq, 0)] (.anchored p) now.succeeded
      name t repo = .ok false := by
    obtain ⟨l, h1, h2⟩ := hroll (fromStamp (changedAt x before after) now.succeeded).wall
    unfold Local.status
    rw [roll_inside p _ _ h1 (hcon _)]
    simp only
    rw [observe_back (by omega) h hk hr hrx hx]
    have hw : (fromStamp (changedAt x before after) now.succeeded).wall = now.succeeded + after := by
      show (if now.succeeded < x then _ else _) = _
      rw [if_neg (by omega)]
    rw [hw] at h2
    omega
  obtain ⟨b, hb⟩ := hst (.one .inaction) [(.eq, 0)] now.inacted
  unfold Local.executable
  simp only [Local.isin, hcon, andThen, hb, hsucc]
  cases b <;> rfl

/-- `minutely`: after a success half a minute before the change, none until half a minute before three. -/
example : Local.executable autumnClock false none (.anchored ⟨.minute, 0, MIN⟩) (oneReading (changeAt + 59 * MIN)) "t"
      (oneCached .success (changeAt - 30 * SEC)) (oneRecord .success (changeAt - 30 * SEC)) = .ok false ∧
    Local.executable (changedAt changeAt HOUR HOUR) false none (.anchored ⟨.minute, 0, MIN⟩) (oneReading (changeAt + MIN - 1))
      "t" (oneCached .success (changeAt - 30 * SEC)) (oneRecord .success (changeAt - 30 * SEC)) = .ok true ∧
    cycleLen .minute = some MIN ∧ Bounds ⟨.minute, 0, MIN⟩ MIN ∧ Anchored.isFull ⟨.minute, 0, MIN⟩ = true := by
  refine ⟨by decide +kernel, by decide +kernel, by decide +kernel, ⟨by decide, by decide, by decide, by decide⟩, by decide⟩

end Rocketry.Props
