import Verif.Props.PeriodicProps

/-!
# C26, C27: tasks that run monthly
-/

namespace Rocketry.Props
open Spec

/-! ### the occurrences of a monthly period -/

theorem monthNumber_same {t u : Int} (h1 : t - anchorDt .month t ≤ u) (h2 : u < t - anchorDt .month t + monthLen t) :
    monthNumber u = monthNumber t := by
  rw [month_base] at h1 h2
  obtain ⟨e1, e2⟩ := fields_of_month u (year t) (month t) (month_range t) h1 h2
  unfold monthNumber
  rw [e1, e2]

theorem monthNumber_prev {t u : Int} (h1 : t - anchorDt .month t - prevMonthLen t ≤ u) (h2 : u < t - anchorDt .month t) :
    monthNumber u = monthNumber t - 1 := by
  have hf := month_prev_fields t
  have hr := month_range t
  have h3 := axis_month.prev_fwd t
  have h4 := axis_month.prev_pos t
  have := monthNumber_same (t := t - anchorDt .month t - prevMonthLen t) (u := u) (by omega) (by omega)
  rw [this]
  unfold monthNumber
  rw [hf.1, hf.2]
  unfold prevMonth
  split <;> simp only <;> omega

/-- The beginning of the occurrence to which `t` belongs. -/
def monthBegin (s t : Int) : Int :=
  if anchorDt .month t < s then t - anchorDt .month t - prevMonthLen t + s else t - anchorDt .month t + s

theorem prevMonthLen_ge (t : Int) : 28 * DAY ≤ prevMonthLen t := by
  have hd := Cal.daysInMonth_range (prevMonth (year t) (month t)).1 (prevMonth (year t) (month t)).2
  unfold prevMonthLen; simp only [DAY]; omega

/-- The occurrence of `t` begins on a day that its month has: the one before is long enough, or it is the month of `t`. -/
def BeginsThen (s t : Int) : Prop := s < prevMonthLen t ∨ s ≤ anchorDt .month t

theorem begins_28 {s : Int} (hs : s < 28 * DAY) (t : Int) : BeginsThen s t := by
  have := prevMonthLen_ge t
  unfold BeginsThen
  omega

theorem monthBegin_le {s t : Int} (hs : BeginsThen s t) : monthBegin s t ≤ t := by
  have := prevMonthLen_ge t
  unfold BeginsThen at hs
  have := anchorDt_month_nonneg t
  unfold monthBegin
  split <;> omega

theorem monthOccurrence_mono (s : Int) {t u : Int} (h : t ≤ u) : monthOccurrence s t ≤ monthOccurrence s u := by
  have hm := monthNumber_mono h
  unfold monthOccurrence
  rw [sinceMonthStart_eq, sinceMonthStart_eq]
  by_cases he : monthNumber t = monthNumber u
  · obtain ⟨e1, e2⟩ := monthNumber_fields he
    have b1 := month_base t
    have b2 := month_base u
    rw [e1, e2, ← b2] at b1
    split <;> split <;> omega
  · split <;> split <;> omega

theorem monthNumber_before {t u : Int} (h : u < t - anchorDt .month t - prevMonthLen t) :
    monthNumber u < monthNumber t - 1 := by
  have pb := axis_month.back_pos t
  have e := monthNumber_prev (t := t) (u := t - anchorDt .month t - prevMonthLen t) (by omega) (by omega)
  have hle := monthNumber_mono (show u ≤ t - anchorDt .month t - prevMonthLen t by omega)
  by_contra hne
  have hk : monthNumber u = monthNumber (t - anchorDt .month t - prevMonthLen t) := by omega
  obtain ⟨e1, e2⟩ := monthNumber_fields hk
  have b1 := month_base u
  have b2 := month_base (t - anchorDt .month t - prevMonthLen t)
  have q0 := anchorDt_month_nonneg u
  rw [e1, e2, ← b2] at b1
  have := axis_month.prev_pos t
  omega

/-- What has happened since the beginning of the occurrence of `now` are the instants of that occurrence. -/
theorem monthBegin_iff {s : Int} (h0 : 0 ≤ s) {u now : Int} (hs : BeginsThen s now) (hu : u ≤ now) :
    monthBegin s now ≤ u ↔ monthOccurrence s u = monthOccurrence s now := by
  unfold BeginsThen at hs
  have p0 := anchorDt_month_nonneg now
  have q0 := anchorDt_month_nonneg u
  have p1 := anchorDt_month_lt now
  have pl := prevMonthLen_ge now
  have pb := axis_month.back_pos now
  unfold monthBegin monthOccurrence
  rw [sinceMonthStart_eq, sinceMonthStart_eq]
  by_cases c1 : now - anchorDt .month now ≤ u
  · -- the same month
    have e := monthNumber_same c1 (by omega)
    have e2 := axis_month.same now u c1 (by omega)
    rw [e]
    split <;> split <;> split <;> omega
  · have hmm := monthNumber_mono hu
    by_cases c2 : now - anchorDt .month now - prevMonthLen now ≤ u
    · have e := monthNumber_prev c2 (by omega)
      have e2 := axis_month.prev_same now u c2 (by omega)
      rw [e]
      split <;> split <;> split <;> omega
    · have hlt := monthNumber_before (t := now) (u := u) (by omega)
      split <;> split <;> split <;> omega

/-- The span that `rollback` gives inside an occurrence. -/
theorem prevStart_monthly {s : Int} (e now : Int) : Anchored.prevStart ⟨.month, s, e⟩ now = monthBegin s now := by
  unfold Anchored.prevStart monthBegin
  simp only [scopeBack_month]
  split <;> omega

theorem month_rollback_inside {s e : Int} (now : Int) (hs : BeginsThen s now) (hin : InMonth s e now)
    (hx : s = e ∨ (s = 0 ∧ e = 31 * DAY) → sinceMonthStart now ≠ s) (n : Nat) :
    Period.periodSpan (n + 1) (some (.anchored ⟨.month, s, e⟩)) now = .ok (monthBegin s now, now) := by
  have hle := monthBegin_le hs
  have hp := prevStart_monthly (s := s) e now
  simp only [Period.periodSpan, Period.rollback]
  unfold Anchored.rollback
  by_cases hf : Anchored.isFull ⟨.month, s, e⟩ = true
  · have := hx (month_full_iff.1 hf)
    rw [sinceMonthStart_eq] at this
    have hlt : monthBegin s now ≠ now := by
      unfold BeginsThen at hs
      have := anchorDt_month_nonneg now
      unfold monthBegin
      split <;> omega
    rw [if_pos hf]
    simp only [hp]
    rw [if_neg (by omega), Interval.make_ok.2 ⟨hle, rfl⟩]
  · rw [if_neg hf]
    have hc := (C07_contains s e now).2 hin
    have hr : Anchored.rollend ⟨.month, s, e⟩ now = now := by
      unfold Anchored.rollend
      rw [if_pos hc]
    simp only [hp, hr]
    rw [Interval.make_ok.2 ⟨hle, rfl⟩]

/-- Within a part of the months, the occurrence begins on a day that its month has, unless the part begins after the 28th
and goes on in the next month. -/
theorem begins_inside {s e t : Int} (hs : s < 28 * DAY ∨ s < e) (hin : InMonth s e t) : BeginsThen s t := by
  rcases hs with hs | hs
  · exact begins_28 hs t
  · have := anchorDt_month_nonneg t
    rcases hin with h | h | h
    · omega
    · exact .inr (by omega)
    · rw [sinceMonthStart_eq] at h
      unfold Between at h
      rw [if_pos hs] at h
      exact .inr h.1

/-! ## C26 -/

/-- The cached times fit a span that begins with an occurrence. -/
theorem cacheFits_since {w : LogWorld} {name : String} {from' now : Int} (hseen : ∀ a, Seen w name a now)
    (hsharp : ∀ r ∈ w.repo, r.task = name → (from' ≤ r.noted ↔ from' ≤ r.created)) :
    CacheFits (w.mem name) w.repo name from' now ∧ ∀ a, Ordered w.repo (OfAction name a) := by
  refine ⟨fun b => ?_, fun b => ?_⟩
  · have : DecidablePred (OfAction name b) := fun x => by unfold OfAction; infer_instance
    by_cases hex : ∃ r ∈ w.repo, OfAction name b r
    · obtain ⟨x, hx, hp⟩ := hex
      obtain ⟨r, hr⟩ := exists_latest hx hp
      obtain ⟨hm, hp⟩ := isLatest_mem hr
      have e := hsharp r hm hp.1
      have ht := (hseen b).times r hm hp.1
      right
      rcases (hseen b).cache.last_some b r hr with h | h
      · exact ⟨r, r.noted, hr, h, e, by omega⟩
      · exact ⟨r, r.created, hr, h, Iff.rfl, Iff.rfl⟩
    · left
      have h' : ∀ r ∈ w.repo, ¬ OfAction name b r := fun r hr hp => hex ⟨r, hr, hp⟩
      exact ⟨(hseen b).cache.last_none b h', h'⟩
  · exact (hseen b).ordered.imp_of_mem (fun {r s} hr hs' h h1 h2 => by
      have := h h1 h2
      have := ((hseen b).times s hs' h2.1).1
      omega)

/-- C26 for `monthly` and its parts: for all bounds (if the part goes on in the next month, the beginning being up to the
end of the 28th), logs and retry numbers, when the condition is evaluated at `now` (which is not exactly the first instant of a whole month), it holds
exactly when `now` is in the period and the task has, in the current occurrence, no success, inaction or termination and
at most `retries` failures.  Missing: that first instant, as in `C26_midnight_violated`, and later beginnings of
such parts, which some months lack (`C26_month_violated`). -/
theorem C26_month_partial (s e : Int) (h0 : 0 ≤ s) (hs : s < 28 * DAY ∨ s < e) (now : Int)
    (hx : s = e ∨ (s = 0 ∧ e = 31 * DAY) → sinceMonthStart now ≠ s) (n : Nat) (fromLogs : Bool)
    (retries : Option Int) (name : String) (w : LogWorld) (hpast : ∀ r ∈ w.repo, r.task = name → r.created ≤ now)
    (hcache : fromLogs = false → (∀ a, Seen w name a now) ∧
      ∀ r ∈ w.repo, r.task = name → monthOccurrence s r.noted = monthOccurrence s r.created) :
    ∃ b, executable (n + 1) fromLogs retries (.anchored ⟨.month, s, e⟩) (oneReading now) name (w.mem name) w.repo = .ok b ∧
      (b = true ↔ InMonth s e now ∧
        (∀ r ∈ w.repo, ¬ InMonthly s now name [.success, .inaction, .terminate] r) ∧
        ((w.repo.filter (fun r => decide (InMonthly s now name [.fail] r))).length : Int) ≤ retries.getD 0) := by
  by_cases hin : InMonth s e now
  · have hs := begins_inside hs hin
    obtain ⟨b, h1, h2⟩ := executable_span (.anchored ⟨.month, s, e⟩) now (monthBegin s now) now n
      (by simp [isinPeriod, Period.isDelta, Period.contains, (C07_contains s e now).2 hin])
      (month_rollback_inside now hs hin hx n) fromLogs retries name (w.mem name) w.repo (by
        intro hf
        obtain ⟨c1, c2⟩ := hcache hf
        refine cacheFits_since c1 (fun r hr hn => ?_)
        have ht := (c1 .run).times r hr hn
        rw [monthBegin_iff h0 hs (by omega), monthBegin_iff h0 hs (by omega), c2 r hr hn])
    refine ⟨b, h1, h2.trans ?_⟩
    have hiff : ∀ r ∈ w.repo, r.task = name →
        ((monthBegin s now ≤ r.created ∧ r.created ≤ now) ↔ monthOccurrence s r.created = monthOccurrence s now) := by
      intro r hr hn
      rw [← monthBegin_iff h0 hs (hpast r hr hn)]
      exact ⟨And.left, fun h => ⟨h, hpast r hr hn⟩⟩
    refine Iff.trans (and_congr ?_ ?_) ⟨fun h => ⟨hin, h⟩, And.right⟩
    · constructor
      · rintro h r hr ⟨k1, k2, k3⟩
        simp only [List.mem_cons, List.not_mem_nil, or_false] at k2
        have := (hiff r hr k1).2 k3
        exact h r hr k1 k2 this.1 this.2
      · intro h r hr k1 k2 k3 k4
        exact h r hr ⟨k1, by simpa using k2, (hiff r hr k1).1 ⟨k3, k4⟩⟩
    · have : w.repo.filter (fun r => decide (r.task = name ∧ r.action = .fail ∧ monthBegin s now ≤ r.created ∧ r.created ≤ now)) =
          w.repo.filter (fun r => decide (InMonthly s now name [.fail] r)) := by
        apply List.filter_congr
        intro r hr
        rw [decide_eq_decide]
        unfold InMonthly
        simp only [List.mem_singleton]
        constructor
        · rintro ⟨k1, k2, k3⟩; exact ⟨k1, k2, (hiff r hr k1).1 k3⟩
        · rintro ⟨k1, k2, k3⟩; exact ⟨k1, k2, (hiff r hr k1).2 k3⟩
      rw [this]
  · refine ⟨false, ?_, by simp [hin]⟩
    have hc : Anchored.contains ⟨.month, s, e⟩ now = false := by
      by_contra h
      exact hin ((C07_contains s e now).1 (by simpa using h))
    have : isinPeriod (n + 1) (.anchored ⟨.month, s, e⟩) now = .ok false := by
      simp [isinPeriod, Period.isDelta, Period.contains, hc]
    unfold executable
    simp only [oneReading]
    rw [andThen_ok this]
    simp

/-- Non-vacuity: `monthly.between("25th", "5th")` on 1 March, after a success on 27 February and after one on 24
February. -/
example : InMonth (24 * DAY) (5 * DAY) (datetime 2024 3 1 12) ∧
    executable 1 true none (.anchored ⟨.month, 24 * DAY, 5 * DAY⟩) (oneReading (datetime 2024 3 1 12)) "t" .fresh
      [⟨"t", .success, datetime 2024 2 27, datetime 2024 2 27, none⟩] = .ok false ∧
    executable 1 true none (.anchored ⟨.month, 24 * DAY, 5 * DAY⟩) (oneReading (datetime 2024 3 1 12)) "t" .fresh
      [⟨"t", .success, datetime 2024 2 24, datetime 2024 2 24, none⟩] = .ok true := by
  refine ⟨(C07_contains _ _ _).1 (by decide +kernel), by decide +kernel, by decide +kernel⟩

/-- A part that begins on the 29th. -/
example : InMonth (28 * DAY) (31 * DAY) (datetime 2024 3 30 12) ∧ 28 * DAY < 31 * DAY ∧
    executable 1 true none (.anchored ⟨.month, 28 * DAY, 31 * DAY⟩) (oneReading (datetime 2024 3 30 12)) "t" .fresh
      [⟨"t", .success, datetime 2024 2 29, datetime 2024 2 29, none⟩] = .ok true ∧
    executable 1 true none (.anchored ⟨.month, 28 * DAY, 31 * DAY⟩) (oneReading (datetime 2024 3 30 12)) "t" .fresh
      [⟨"t", .success, datetime 2024 3 29, datetime 2024 3 29, none⟩] = .ok false :=
  ⟨(C07_contains _ _ _).1 (by decide +kernel), by decide +kernel, by decide +kernel, by decide +kernel⟩

/-- C26 does not hold for parts that begin after the 28th and go on in the next month: with `between("30th", "5th")` and a
success on 1 March 2023, the task is eligible again on 3 March, and on 1 March the condition raises ValueError. -/
theorem C26_month_violated :
    ∃ p, Anchored.init .month (some (.int 30)) (some (.int 5)) = .ok p ∧ p.start = 29 * DAY ∧
      InMonthly p.start (datetime 2023 3 3) "t" [.success] ⟨"t", .success, datetime 2023 3 1, datetime 2023 3 1, none⟩ ∧
      executable 1 true none (.anchored p) (oneReading (datetime 2023 3 3)) "t" .fresh
        [⟨"t", .success, datetime 2023 3 1, datetime 2023 3 1, none⟩] = .ok true ∧
      executable 1 true none (.anchored p) (oneReading (datetime 2023 3 1 12)) "t" .fresh [] = .error .value :=
  ⟨_, rfl, by decide +kernel, by unfold InMonthly; decide +kernel, by decide +kernel, by decide +kernel⟩

/-! ## C27 -/

theorem make_fields {l r : Int} {c : Closed} {i : Interval} (h : Interval.make l r c = .ok i) : i.left = l ∧ i.right = r := by
  obtain ⟨_, rfl⟩ := Interval.make_ok.1 h
  exact ⟨rfl, rfl⟩

/-- An instant in the period is not after the end of the period that `rollend` gives later. -/
theorem month_rollend_ge {s e : Int} (he : 0 ≤ e) (hf : Anchored.isFull ⟨.month, s, e⟩ = false) {i n : Int}
    (hi : Anchored.contains ⟨.month, s, e⟩ i = true) (hin : i ≤ n) : i ≤ Anchored.rollend ⟨.month, s, e⟩ n := by
  unfold Anchored.rollend
  by_cases hc : Anchored.contains ⟨.month, s, e⟩ n = true
  · rw [if_pos hc]; exact hin
  · rw [if_neg hc]
    rw [month_contains_inC hf] at hi hc
    have p0 := anchorDt_month_nonneg n
    have p1 := anchorDt_month_lt n
    have pb := axis_month.back_pos n
    unfold Anchored.prevEnd
    simp only [scopeBack_month]
    unfold InC at hi hc
    by_cases c1 : n - anchorDt .month n ≤ i
    · have e1 := (axis_month.same n i c1 (by omega)).1
      rw [e1] at hi
      split at hi <;> split at hc <;> split <;> omega
    · by_cases c2 : n - anchorDt .month n - prevMonthLen n ≤ i
      · have e1 := axis_month.prev_same n i c2 (by omega)
        rw [e1] at hi
        split at hi <;> split at hc <;> split <;> omega
      · split <;> omega

theorem begins_later {s e : Int} (hs : s < 28 * DAY ∨ s < e) {i n u : Int}
    (hi : Anchored.contains ⟨.month, s, e⟩ i = true) (hui : u ≤ i) (hin : i ≤ n)
    (hocc : monthOccurrence s u = monthOccurrence s n) : BeginsThen s n := by
  have pl := prevMonthLen_ge n
  by_contra hb
  unfold BeginsThen at hb
  have hse : s < e := by omega
  have hD : 0 < DAY := by decide
  have hi : s ≤ anchorDt .month i := by
    rcases (C07_contains s e i).1 hi with h | h | h
    · omega
    · omega
    · rw [sinceMonthStart_eq] at h
      unfold Between at h
      rw [if_pos hse] at h
      exact h.1
  have h1 := monthOccurrence_mono s hui
  have h2 := monthOccurrence_mono s hin
  have e1 : monthOccurrence s i = monthNumber i := by
    unfold monthOccurrence
    rw [sinceMonthStart_eq, if_pos hi]
  have e2 : monthOccurrence s n = monthNumber n - 1 := by
    unfold monthOccurrence
    rw [sinceMonthStart_eq, if_neg (by omega)]
  have hnum : monthNumber i = monthNumber n - 1 := by omega
  have p1 := anchorDt_month_lt n
  have pb := axis_month.back_pos n
  by_cases c1 : n - anchorDt .month n ≤ i
  · have := monthNumber_same c1 (by omega)
    omega
  · by_cases c2 : n - anchorDt .month n - prevMonthLen n ≤ i
    · have := axis_month.prev_same n i c2 (by omega)
      omega
    · have := monthNumber_before (t := n) (u := i) (by omega)
      omega

/-- A monthly period looks back to the beginning of the occurrence. -/
theorem covers_month_part {s e : Int} (h0 : 0 ≤ s) (hs : s < 28 * DAY ∨ s < e) (he : 0 ≤ e) :
    Covers (.anchored ⟨.month, s, e⟩) (monthOccurrence s) := by
  intro fuel i n u l r hin hspan hui hin' hocc
  cases fuel with
  | zero => simp [Period.periodSpan, Period.rollback] at hspan
  | succ fuel =>
    have hi : Anchored.contains ⟨.month, s, e⟩ i = true := by
      simpa only [isinPeriod, Period.isDelta, Period.contains, Bool.false_eq_true, if_false, Except.ok.injEq] using hin
    have hbegin := begins_later hs hi hui hin' hocc
    have hb := (monthBegin_iff h0 hbegin (show u ≤ n by omega)).2 hocc
    simp only [Period.periodSpan, Period.rollback] at hspan
    unfold Anchored.rollback at hspan
    by_cases hf : Anchored.isFull ⟨.month, s, e⟩ = true
    · rw [if_pos hf] at hspan
      simp only [prevStart_monthly] at hspan
      split at hspan
      · simp at hspan
      · rename_i iv hiv
        simp only [Except.ok.injEq, Prod.mk.injEq] at hspan
        obtain ⟨e1, e2⟩ := make_fields hiv
        obtain ⟨rfl, rfl⟩ := hspan
        rw [e1, e2]
        refine ⟨?_, hin'⟩
        split
        · have hs' : s < 28 * DAY := by
            have := month_full_iff.1 hf
            simp only [DAY] at *
            omega
          have := monthBegin_le (begins_28 hs' (n - 1))
          omega
        · exact hb
    · have hf' : Anchored.isFull ⟨.month, s, e⟩ = false := by simpa using hf
      rw [if_neg hf] at hspan
      simp only [prevStart_monthly] at hspan
      split at hspan
      · simp at hspan
      · rename_i iv hiv
        simp only [Except.ok.injEq, Prod.mk.injEq] at hspan
        obtain ⟨e1, e2⟩ := make_fields hiv
        obtain ⟨rfl, rfl⟩ := hspan
        rw [e1, e2]
        exact ⟨hb, month_rollend_ge he hf' hi hin'⟩

/-- C27 for `monthly` and its parts, for all bounds (if the part goes on in the next month, with a beginning up to the end
of the 28th): two success records lie
in different occurrences. -/
theorem C27_month_partial (S : Setup) (name : String) (hp : S.isProc name = false ∨ S.drained = true) (fuel : Nat)
    (retries : Option Int) (s e : Int) (h0 : 0 ≤ s) (hs : s < 28 * DAY ∨ s < e) (he : 0 ≤ e)
    (hS : ∀ reason first last w, S.start name reason first last w →
      ∃ now, Evaluated fuel S.fromLogs retries (.anchored ⟨.month, s, e⟩) name first last w now)
    {es : List Ev} {h : HState} (hh : Hist S es h) :
    h.all.Pairwise (fun r q => OfAction name .success r → OfAction name .success q →
      monthOccurrence s r.noted < monthOccurrence s q.noted) :=
  spaced_periodic S name hp fuel retries _ _ (fun _ _ => monthOccurrence_mono s) (covers_month_part h0 hs he) hS hh

/-- The session of the examples: every task has the start condition `monthly.between("25th", "5th")`. -/
def turnSetup : Setup where
  fromLogs := false
  start := fun name _ first last w => ∃ now, Evaluated 1 false none (.anchored ⟨.month, 24 * DAY, 5 * DAY⟩) name first last w now
  isProc := fun _ => false
  drained := true

/-- Non-vacuity of C27 for months: a success at the turn of January to February and one on 26 February. -/
example : ∃ es h, Hist turnSetup es h ∧
    (h.log.repo.filter (fun r => decide (r.action = .success))).length = 2 := by
  have h0 := Hist.init (S := turnSetup) 1
  have h1 := h0.step (.check _ "t" 0 (31 * DAY) (31 * DAY) (by decide) (by decide) (by decide) (by decide) (by simp [HState.NoneWaiting, HState.init])
    ⟨oneReading (31 * DAY), by decide, by decide, by decide, by decide, by decide, by decide, by decide +kernel⟩)
  have h2 := h1.step (.begin _ "t" 0 none (32 * DAY) (32 * DAY) (by decide) (by decide) (by decide))
  have h3 := h2.step (.outcome _ "t" .success none (32 * DAY + 1) (32 * DAY + 1) (by decide) (by decide) (by decide) (by decide))
  have h4 := h3.step (.die _ "t" (by decide))
  have h5 := h4.step (.check _ "t" 0 (56 * DAY) (56 * DAY) (by decide) (by decide) (by decide) (by decide) (by simp [HState.NoneWaiting, HState.init])
    ⟨oneReading (56 * DAY), by decide, by decide, by decide, by decide, by decide, by decide, by decide +kernel⟩)
  have h6 := h5.step (.begin _ "t" 0 none (56 * DAY) (56 * DAY) (by decide) (by decide) (by decide))
  have h7 := h6.step (.outcome _ "t" .success none (56 * DAY + 1) (56 * DAY + 1) (by decide) (by decide) (by decide) (by decide))
  exact ⟨_, _, h7, by decide +kernel⟩

/-! ## C28 -/

/-- C28 for `monthly` and its parts: in every history, when no outcome of the task lies in the current occurrence, the
condition holds, with all clock readings of the evaluation inside the period and the same occurrence and none at the
first instant of a whole month. -/
theorem C28_month_partial (S : Setup) (name : String) (hp : S.isProc name = false ∨ S.drained = true) (fuel : Nat)
    (retries : Option Int) (hret : 0 ≤ retries.getD 0) (s e : Int) (h0 : 0 ≤ s) (hs : s < 28 * DAY ∨ s < e)
    {es : List Ev} {h : HState} (hh : Hist S es h) (hcold : h.cold name = false) (now : ExecReads) (k : Int)
    (hnow : ∀ t ∈ [now.isin, now.inacted, now.succeeded, now.failed, now.terminated],
      InMonth s e t ∧ monthOccurrence s t = k ∧ (s = e ∨ (s = 0 ∧ e = 31 * DAY) → sinceMonthStart t ≠ s))
    (hno : ∀ r ∈ h.log.repo, r.task = name → r.action ∈ [.success, .fail, .inaction, .terminate] →
      monthOccurrence s r.created ≠ k) (hpast : h.clock ≤ now.isin)
    (horder : ∀ t ∈ [now.inacted, now.succeeded, now.failed, now.terminated], now.isin ≤ t) :
    executable (fuel + 1) S.fromLogs retries (.anchored ⟨.month, s, e⟩) now name (h.log.mem name) h.log.repo = .ok true := by
  have hseen := seen_of_hist S name hp hh hcold
  have hall : ∀ t ∈ [now.isin, now.inacted, now.succeeded, now.failed, now.terminated], now.isin ≤ t := by
    intro t ht
    rcases List.mem_cons.1 ht with rfl | ht
    · exact Int.le_refl _
    · exact horder t ht
  have hbefore : ∀ t ∈ [now.isin, now.inacted, now.succeeded, now.failed, now.terminated],
      ∀ a ∈ [Action.success, .fail, .inaction, .terminate], ∀ r ∈ h.log.repo, OfAction name a r →
      r.created < monthBegin s t := by
    intro t ht a ha r hr hra
    have hne := hno r hr hra.1 (by rw [hra.2]; exact ha)
    have h1 := ((hseen a).times r hr hra.1).2
    have h2 := hall t ht
    by_contra hge
    have := (monthBegin_iff h0 (begins_inside hs (hnow t ht).1) (show r.created ≤ t by omega)).1 (by omega)
    exact hne (this.trans (hnow t ht).2.1)
  have hspan : ∀ t ∈ [now.isin, now.inacted, now.succeeded, now.failed, now.terminated],
      Period.periodSpan (fuel + 1) (some (.anchored ⟨.month, s, e⟩)) t = .ok (monthBegin s t, t) := by
    intro t ht
    obtain ⟨t1, _, t3⟩ := hnow t ht
    exact month_rollback_inside t (begins_inside hs t1) t1 t3 fuel
  have heq : ∀ a ∈ [Action.success, .fail, .inaction, .terminate],
      ∀ t ∈ [now.isin, now.inacted, now.succeeded, now.failed, now.terminated],
      statusCond (fuel + 1) S.fromLogs (.one a) [(.eq, 0)] (some (.anchored ⟨.month, s, e⟩)) t name (h.log.mem name) h.log.repo = .ok true := by
    intro a ha t ht
    simp only [statusCond, hspan t ht]
    rw [observe_all_before (hseen a) (hbefore t ht a ha)]
  have hle : statusCond (fuel + 1) S.fromLogs (.one .fail) [(.le, retries.getD 0)] (some (.anchored ⟨.month, s, e⟩)) now.failed name
      (h.log.mem name) h.log.repo = .ok true := by
    simp only [statusCond, hspan now.failed (by simp)]
    rw [observe_le hret (hbefore now.failed (by simp) .fail (by simp))]
  have hin : isinPeriod (fuel + 1) (.anchored ⟨.month, s, e⟩) now.isin = .ok true := by
    have := (C07_contains s e now.isin).2 (hnow now.isin (by simp)).1
    simp [isinPeriod, Period.isDelta, Period.contains, this]
  unfold executable
  simp only [hin, hle, andThen]
  rw [heq .inaction (by simp) _ (by simp), heq .success (by simp) _ (by simp), heq .terminate (by simp) _ (by simp)]

/-- Non-vacuity of C28 for months: after the success at the turn of January to February, the hypotheses hold on 26
February (`56 * DAY`). -/
example : ∃ es h, Hist turnSetup es h ∧ h.cold "t" = false ∧
    (InMonth (24 * DAY) (5 * DAY) (56 * DAY) ∧ monthOccurrence (24 * DAY) (56 * DAY) = 1 * 12 + 2) ∧
    (∃ r ∈ h.log.repo, OfAction "t" .success r) ∧
    (∀ r ∈ h.log.repo, r.task = "t" → r.action ∈ [.success, .fail, .inaction, .terminate] →
      monthOccurrence (24 * DAY) r.created ≠ 1 * 12 + 2) ∧ h.clock ≤ 56 * DAY := by
  have h0 := Hist.init (S := turnSetup) 1
  have h1 := h0.step (.check _ "t" 0 (31 * DAY) (31 * DAY) (by decide) (by decide) (by decide) (by decide) (by simp [HState.NoneWaiting, HState.init])
    ⟨oneReading (31 * DAY), by decide, by decide, by decide, by decide, by decide, by decide, by decide +kernel⟩)
  have h2 := h1.step (.begin _ "t" 0 none (32 * DAY) (32 * DAY) (by decide) (by decide) (by decide))
  have h3 := h2.step (.outcome _ "t" .success none (32 * DAY + 1) (32 * DAY + 1) (by decide) (by decide) (by decide) (by decide))
  exact ⟨_, _, h3, rfl, ⟨.inr (.inr (by rw [sinceMonthStart_eq]; unfold Between; decide +kernel)), by decide +kernel⟩, by decide +kernel, by decide +kernel, by decide +kernel⟩

/-! ### the latest occurrence -/

theorem monthStartOf_number (t : Int) : monthStartOf (monthNumber t) = t - anchorDt .month t := by
  have h := month_base t
  have hr := month_range t
  have e1 : (monthNumber t - 1) / 12 = year t := by unfold monthNumber; omega
  have e2 : (monthNumber t - 1) % 12 + 1 = month t := by unfold monthNumber; omega
  unfold monthStartOf
  rw [e1, e2]
  unfold datetime toMicroseconds
  omega

theorem monthStartOf_prev (t : Int) : monthStartOf (monthNumber t - 1) = t - anchorDt .month t - prevMonthLen t := by
  have pb := axis_month.back_pos t
  have h1 := monthNumber_prev (t := t) (u := t - anchorDt .month t - prevMonthLen t) (by omega) (by omega)
  rw [← h1, monthStartOf_number, axis_month.prev_pos]
  omega

theorem monthBegin_eq (s t : Int) : monthBegin s t = monthStartOf (monthOccurrence s t) + s := by
  unfold monthBegin monthOccurrence
  rw [sinceMonthStart_eq]
  by_cases h : anchorDt .month t < s
  · rw [if_pos h, if_neg (by omega), monthStartOf_prev]
  · rw [if_neg h, if_pos (by omega), monthStartOf_number]

/-- The end of the latest occurrence of a part of the months. -/
def monthEnd (s e now : Int) : Int :=
  if s < e then monthStartOf (monthOccurrence s now) + e else monthStartOf (monthOccurrence s now + 1) + e

/-- The span of a part of the months is its latest occurrence, up to now. -/
theorem month_rollback_latest {s e : Int} (h0 : 0 ≤ s) (hs : s < 28 * DAY) (he : 0 ≤ e)
    (hee : (s = e ∨ (s = 0 ∧ e = 31 * DAY)) ∨ e < 28 * DAY) (now : Int)
    (hx : s = e ∨ (s = 0 ∧ e = 31 * DAY) → sinceMonthStart now ≠ s) (n : Nat) :
    ∃ b, Period.periodSpan (n + 1) (some (.anchored ⟨.month, s, e⟩)) now = .ok (monthBegin s now, b) ∧
      (b = now ∨ b = monthEnd s e now) ∧
      ∀ t, t ≤ now → ((monthBegin s now ≤ t ∧ t ≤ b) ↔ InLatestMonth s e now t) := by
  have p0 := anchorDt_month_nonneg now
  have p1 := anchorDt_month_lt now
  have pb := prevMonthLen_ge now
  by_cases hin : InMonth s e now
  · refine ⟨now, month_rollback_inside now (begins_28 hs now) hin hx n, .inl rfl, ?_⟩
    intro t ht
    rw [monthBegin_iff h0 (begins_28 hs _) ht]
    constructor
    · rintro ⟨h1, _⟩
      refine ⟨ht, h1, ?_⟩
      rcases hin with h | h | h
      · exact .inl h
      · exact .inr (.inl h)
      · right; right; left
        rw [← monthBegin_iff h0 (begins_28 hs _) ht] at h1
        rw [sinceMonthStart_eq] at h ⊢
        unfold monthBegin at h1
        unfold Between at h ⊢
        by_cases c1 : now - anchorDt .month now ≤ t
        · have e1 := (axis_month.same now t c1 (by omega)).1
          rw [e1]
          split at h <;> split at h1 <;> split <;> omega
        · by_cases c2 : now - anchorDt .month now - prevMonthLen now ≤ t
          · have e1 := axis_month.prev_same now t c2 (by omega)
            rw [e1]
            split at h <;> split at h1 <;> split <;> omega
          · split at h1 <;> omega
    · rintro ⟨_, h, _⟩
      exact ⟨h, ht⟩
  · have hnf : ¬ (s = e ∨ (s = 0 ∧ e = 31 * DAY)) := by
      rintro (h | h)
      · exact hin (.inl h)
      · exact hin (.inr (.inl h))
    have he' : e < 28 * DAY := by
      rcases hee with h | h
      · exact absurd h hnf
      · exact h
    have hf : Anchored.isFull ⟨.month, s, e⟩ = false := by
      by_contra h
      exact hnf (month_full_iff.1 (by simpa using h))
    have hc : Anchored.contains ⟨.month, s, e⟩ now = false := by
      by_contra h
      exact hin ((C07_contains s e now).1 (by simpa using h))
    have hb : ¬ Between s e (anchorDt .month now) := by
      rw [← sinceMonthStart_eq]
      exact fun h => hin (.inr (.inr h))
    have hend : Anchored.rollend ⟨.month, s, e⟩ now = monthEnd s e now := by
      unfold Anchored.rollend
      rw [hc]
      simp only [Bool.false_eq_true, if_false]
      unfold Anchored.prevEnd monthEnd monthOccurrence
      simp only [scopeBack_month, sinceMonthStart_eq]
      unfold Between at hb
      have e1 := monthStartOf_number now
      have e2 := monthStartOf_prev now
      by_cases h1 : s < e
      · rw [if_pos h1] at hb ⊢
        by_cases h2 : s ≤ anchorDt .month now
        · rw [if_pos h2, if_neg (by omega), e1]; omega
        · rw [if_neg h2, if_pos (by omega), e2]; omega
      · rw [if_neg h1] at hb ⊢
        rw [if_neg (show ¬ s ≤ anchorDt .month now by omega), if_neg (by omega),
          show monthNumber now - 1 + 1 = monthNumber now by omega, e1]
        omega
    have hval : monthEnd s e now = if s < e ∧ anchorDt .month now < s then now - anchorDt .month now - prevMonthLen now + e
        else now - anchorDt .month now + e := by
      unfold monthEnd monthOccurrence
      rw [sinceMonthStart_eq]
      unfold Between at hb
      have e1 := monthStartOf_number now
      have e2 := monthStartOf_prev now
      by_cases h1 : s < e
      · rw [if_pos h1] at hb ⊢
        by_cases h2 : s ≤ anchorDt .month now
        · rw [if_pos h2, if_neg (by omega), e1]
        · rw [if_neg h2, if_pos (by omega), e2]
      · rw [if_neg h1] at hb ⊢
        rw [if_neg (show ¬ s ≤ anchorDt .month now by omega), if_neg (by omega),
          show monthNumber now - 1 + 1 = monthNumber now by omega, e1]
    have hle : monthBegin s now ≤ monthEnd s e now := by
      rw [hval]
      unfold monthBegin
      unfold Between at hb
      split at hb <;> split <;> split <;> omega
    refine ⟨monthEnd s e now, ?_, .inr rfl, ?_⟩
    · simp only [Period.periodSpan, Period.rollback]
      unfold Anchored.rollback
      rw [hf]
      simp only [Bool.false_eq_true, if_false, prevStart_monthly, hend]
      rw [Interval.make_ok.2 ⟨hle, rfl⟩]
    · intro t ht
      unfold InLatestMonth
      rw [← monthBegin_iff h0 (begins_28 hs _) ht, hval, sinceMonthStart_eq]
      unfold monthBegin Between
      unfold Between at hb
      have q0 := anchorDt_month_nonneg t
      by_cases c1 : now - anchorDt .month now ≤ t
      · have e1 := (axis_month.same now t c1 (by omega)).1
        rw [e1]
        split at hb <;> (repeat' split) <;> omega
      · by_cases c2 : now - anchorDt .month now - prevMonthLen now ≤ t
        · have e1 := axis_month.prev_same now t c2 (by omega)
          rw [e1]
          split at hb <;> (repeat' split) <;> omega
        · split at hb <;> (repeat' split) <;> omega

end Rocketry.Props
