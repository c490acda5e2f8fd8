import Verif.Time.PeriodBack
import Verif.Time.PeriodEq
import Mathlib.Tactic.Tauto

/-!
# C09-C17: intersections, unions, static and sliding periods

`n` is the recursion depth available.  Member lists are in arbitrary order (a `frozenset`), so every theorem
holds for each iteration order.
-/

namespace Rocketry.Props
open Rocketry Spec

theorem rollforward_le {n m : Nat} (hnm : n ≤ m) {p : Period} {dt : Int} {i : Interval}
    (h : p.rollforward n dt = .ok i) : p.rollforward m dt = .ok i := by
  induction m with
  | zero => obtain rfl : n = 0 := by omega
            exact h
  | succ m ih =>
    by_cases he : n = m + 1
    · subst he; exact h
    · exact rollforward_mono m p dt i (ih (by omega))

theorem rollforward_det {n m : Nat} {p : Period} {dt : Int} {i j : Interval} (h : p.rollforward n dt = .ok i)
    (h' : p.rollforward m dt = .ok j) : i = j := by
  have h1 := rollforward_le (m := max n m) (by omega) h
  have h2 := rollforward_le (m := max n m) (by omega) h'
  rw [h1] at h2
  exact Except.ok.inj h2

/-- For periods built from clock and static ones, membership agrees with the rolled span. -/
theorem contains_of_span {p : Period} (hp : Plain p) {n m : Nat} {dt : Int} {b : Bool} {i : Interval}
    (hc : p.contains n dt = .ok b) (hi : p.rollforward m dt = .ok i) :
    b = true ↔ i.left ≤ dt ∧ dt < i.right := by
  cases p with
  | anchored a =>
    simp only [Period.contains, Except.ok.injEq] at hc
    subst hc
    simp only [Plain] at hp
    cases m with
    | zero => simp [Period.rollforward] at hi
    | succ m =>
      simp only [Period.rollforward] at hi
      have := anchored_forward_weak hp.1 hp.2 hi
      rw [this.2.2.2]; omega
  | delta a b => simp [Plain] at hp
  | span a b => simp [Plain] at hp
  | relday a b c => simp [Plain] at hp
  | static s e =>
    simp only [Period.contains] at hc
    cases h : Period.rollforward n (.static s e) dt with
    | error e => simp [h] at hc
    | ok j =>
      obtain rfl := rollforward_det hi h
      simp only [h, Except.ok.injEq] at hc
      subst hc
      simp [Interval.contains, (rollforward_weak m _ dt i hp hi).1]
  | always =>
    simp only [Period.contains] at hc
    cases h : Period.rollforward n .always dt with
    | error e => simp [h] at hc
    | ok j =>
      obtain rfl := rollforward_det hi h
      simp only [h, Except.ok.injEq] at hc
      subst hc
      simp [Interval.contains, (rollforward_weak m _ dt i hp hi).1]
  | all ps =>
    simp only [Period.contains] at hc
    cases h : Period.rollforward n (.all ps) dt with
    | error e => simp [h] at hc
    | ok j =>
      obtain rfl := rollforward_det hi h
      simp only [h, Except.ok.injEq] at hc
      subst hc
      simp [Interval.contains, (rollforward_weak m _ dt i hp hi).1]
  | any ps =>
    simp only [Period.contains] at hc
    cases h : Period.rollforward n (.any ps) dt with
    | error e => simp [h] at hc
    | ok j =>
      obtain rfl := rollforward_det hi h
      simp only [h, Except.ok.injEq] at hc
      subst hc
      simp [Interval.contains, (rollforward_weak m _ dt i hp hi).1]

theorem all_span_iff {ps : List Period} (hp : ∀ p ∈ ps, Plain p) {dt : Int} (hd : dt < MAXT) :
    ∀ (n : Nat) (i : Interval), (Period.all ps).rollforward n dt = .ok i →
    (i.left ≤ dt ∧ dt < i.right ↔
      ∀ p ∈ ps, ∃ m j, p.rollforward m dt = .ok j ∧ j.left ≤ dt ∧ dt < j.right) ∧
    (∀ p ∈ ps, ∃ m j, p.rollforward m dt = .ok j) := by
  intro n
  induction n with
  | zero => intro i h; simp [Period.rollforward] at h
  | succ n ih =>
    intro i h
    have hpa : Plain (.all ps) := by rw [Plain]; exact hp
    simp only [Period.rollforward] at h
    cases hm : mapE (fun p => Period.rollforward n p dt) ps with
    | error e => simp [hm] at h
    | ok is =>
      simp only [hm] at h
      obtain ⟨m1, m2, m3⟩ := mapE_ok hm
      have hex : ∀ p ∈ ps, ∃ m j, Period.rollforward m p dt = .ok j := fun p hp => by
        obtain ⟨j, _, hj⟩ := m1 p hp; exact ⟨n, j, hj⟩
      have hw : ∀ j ∈ is, j.closed = .left ∧ min dt MAXT ≤ j.left := by
        intro j hj
        obtain ⟨p, hp', hpj⟩ := m2 j hj
        have := rollforward_weak n p dt j (hp p hp') hpj
        exact ⟨this.1, this.2.1⟩
      split at h
      · obtain ⟨r1, r2, ⟨x, hx, hx'⟩, ⟨y, hy, hy'⟩⟩ := reduceAnd_left (fun j hj => (hw j hj).1) h
        refine ⟨?_, hex⟩
        constructor
        · intro hi p hp'
          obtain ⟨j, hj, hpj⟩ := m1 p hp'
          have := r2 j hj
          exact ⟨n, j, hpj, by omega, by omega⟩
        · intro hall
          obtain ⟨p, hp1, hpx⟩ := m2 x hx
          obtain ⟨q, hq1, hqy⟩ := m2 y hy
          obtain ⟨m, j, h1, h2, h3⟩ := hall p hp1
          obtain rfl := rollforward_det hpx h1
          obtain ⟨m', j', h1', h2', h3'⟩ := hall q hq1
          obtain rfl := rollforward_det hqy h1'
          omega
      · rename_i hov
        cases hmx : maxLeft is with
        | error e => simp [hmx] at h
        | ok next =>
          simp only [hmx, closed_opened (fun j hj => (hw j hj).1), Bool.false_eq_true, if_false] at h
          obtain ⟨x1, ⟨x, hx, hx'⟩⟩ := maxLeft_ok hmx
          have hxw := hw x hx
          by_cases hnd : next = dt
          · subst hnd; exact ih i h
          · have hr := rollforward_weak n (.all ps) next i hpa h
            refine ⟨?_, hex⟩
            constructor
            · intro hi; omega
            · intro hall
              obtain ⟨p, hp1, hpx⟩ := m2 x hx
              obtain ⟨m, j, h1, h2, h3⟩ := hall p hp1
              obtain rfl := rollforward_det hpx h1
              omega

/-- C09: whenever `dt in (p & q & ...)` returns, it is the conjunction of the members' own memberships, however
the members are nested and whatever recursion depth (`k`) they are evaluated with. -/
theorem C09_contains (ps : List Period) (hp : ∀ p ∈ ps, Plain p) (dt : Int) (hd : dt < MAXT) (n k : Nat)
    (b : Bool) (h : (Period.all ps).contains n dt = .ok b) (f : Period → Bool)
    (hf : ∀ p ∈ ps, p.contains k dt = .ok (f p)) : b = true ↔ ∀ p ∈ ps, f p = true := by
  have hpa : Plain (.all ps) := by rw [Plain]; exact hp
  simp only [Period.contains] at h
  cases hr : Period.rollforward n (.all ps) dt with
  | error e => simp [hr] at h
  | ok i =>
    have hk := all_span_iff hp hd n i hr
    have hb : b = true ↔ i.left ≤ dt ∧ dt < i.right :=
      contains_of_span hpa (n := n) (m := n) (by simp only [Period.contains]; exact h) hr
    rw [hb, hk.1]
    constructor
    · intro hall p hpp
      obtain ⟨m, j, h1, h2⟩ := hall p hpp
      exact (contains_of_span (hp p hpp) (hf p hpp) h1).2 h2
    · intro hall p hpp
      obtain ⟨m, j, h1⟩ := hk.2 p hpp
      exact ⟨m, j, h1, (contains_of_span (hp p hpp) (hf p hpp) h1).1 (hall p hpp)⟩

/-- Weekday mornings and "not before 2024-05-02": Thursday 2 May 10:30 is in, Wednesday is not. -/
example : (Period.all [.anchored ⟨.day, 10 * HOUR, 12 * HOUR⟩, .anchored ⟨.week, 0, 5 * DAY⟩,
      .static (datetime 2024 5 2) (datetime 2024 6 1)]).contains 5 (datetime 2024 5 2 10 30) = .ok true ∧
    (Period.all [.anchored ⟨.day, 10 * HOUR, 12 * HOUR⟩, .anchored ⟨.week, 0, 5 * DAY⟩,
      .static (datetime 2024 5 2) (datetime 2024 6 1)]).contains 5 (datetime 2024 5 1 10 30) = .ok false := by
  decide

/-- C09: membership is intersection of the meanings (unions inside must not have a static member that ends at
exactly `dt`, see `C13_contains_violated`). -/
theorem C09_sem (ps : List Period) (hp : ∀ p ∈ ps, Plain p) (dt : Int) (hd : dt < MAXT)
    (hc : ∀ p ∈ ps, Clean dt p) (n : Nat) (b : Bool) (h : (Period.all ps).contains n dt = .ok b) :
    b = true ↔ ∀ p ∈ ps, sem p dt := by
  have hpa : Plain (.all ps) := by rw [Plain]; exact hp
  simp only [Period.contains] at h
  cases hr : Period.rollforward n (.all ps) dt with
  | error e => simp [hr] at h
  | ok i =>
    have hb : b = true ↔ i.left ≤ dt ∧ dt < i.right :=
      contains_of_span hpa (n := n) (m := n) (by simp only [Period.contains]; exact h) hr
    have hw := ((rollforward_weak n _ dt i hpa hr).2.2.2 hd).1 (by rw [Clean]; exact hc)
    rw [hb, ← hw, sem]

example : Plain (.anchored ⟨.day, 10 * HOUR, 12 * HOUR⟩) ∧ Clean (datetime 2024 5 2)
    (.static (datetime 2024 5 2) (datetime 2024 6 1)) := by
  refine ⟨?_, ?_⟩
  · rw [Plain]; decide
  · simp [Clean]

/-- C10: whatever is returned is inside every member, and no common instant lies between `dt` and its start.  Missing:
members that do not roll forward correctly themselves, see `C10_month_violated`. -/
theorem C10_rollforward_partial (ps : List Period) (hp : ∀ p ∈ ps, Fwd p) (n : Nat) (dt : Int) (i : Interval)
    (h : (Period.all ps).rollforward n dt = .ok i) :
    i.closed = .left ∧ i.left ≤ i.right ∧
    (∀ x, i.left ≤ x → x < i.right → ∀ p ∈ ps, sem p x) ∧
    (∀ x, dt ≤ x → x < i.left → ∃ p ∈ ps, ¬ sem p x) := by
  have hs := rollforward_span n (.all ps) dt i (by rw [Fwd]; exact hp) h
  refine ⟨hs.closed, hs.ordered, ?_, ?_⟩
  · intro x h1 h2
    have := hs.inside x h1 h2
    rw [sem] at this
    exact this
  · intro x h1 h2
    by_contra hc
    apply hs.none_before x h1 h2
    rw [sem]
    intro p hp'
    by_contra hc'
    exact hc ⟨p, hp', hc'⟩

/-- C10: if some common instant `x ≥ dt` exists (and the members can be rolled up to there), rolling returns, for
every sufficient recursion depth, a non-empty span that starts at the least common instant.  Missing: as above. -/
theorem C10_terminates_partial (ps : List Period) (hne : ps ≠ []) (hp : ∀ p ∈ ps, Fwd p) (dt x : Int) (hx : dt ≤ x)
    (hsem : ∀ p ∈ ps, sem p x) (hlive : ∀ p ∈ ps, Live p dt x) :
    ∃ N l r, (∀ n, N ≤ n → (Period.all ps).rollforward n dt = .ok ⟨l, r, .left⟩) ∧ dt ≤ l ∧ l ≤ x ∧ l < r ∧
      (∀ p ∈ ps, sem p l) ∧ (∀ y, dt ≤ y → y < l → ∃ p ∈ ps, ¬ sem p y) ∧
      (∀ y, l ≤ y → y < r → ∀ p ∈ ps, sem p y) := by
  have hf : Fwd (.all ps) := by rw [Fwd]; exact hp
  obtain ⟨N, hN⟩ := rollforward_live (.all ps) dt dt hf (by
    rw [Live]
    exact ⟨hne, x, hx, by rw [sem]; exact hsem, hlive⟩)
  obtain ⟨i, hi, h1, h2⟩ := hN N (by omega) dt (by omega) (by omega)
  obtain ⟨c1, c2, c3, c4⟩ := C10_rollforward_partial ps hp N dt i hi
  rcases i with ⟨l, r, c⟩
  simp only at c1 c2 c3 c4 h1 h2
  subst c1
  refine ⟨N, l, r, fun n hn => rollforward_le hn hi, h1, ?_, h2, c3 l (by omega) h2, c4, c3⟩
  by_contra hc
  obtain ⟨p, hpp, hnp⟩ := c4 x hx (by omega)
  exact hnp (hsem p hpp)

/-- C10 fails with a period on a day that some months lack: the 30th of the month within the year 2023, rolled forward
from 10 February 2023, gives 2 March. -/
theorem C10_month_violated :
    (Period.all [.anchored ⟨.month, 29 * DAY, 30 * DAY⟩, .static (datetime 2023 1 1) (datetime 2024 1 1)]).rollforward 10
      (datetime 2023 2 10) = .ok ⟨datetime 2023 3 2, datetime 2023 3 3, .left⟩ ∧
    Anchored.at .month (.int 30) = .ok ⟨.month, 29 * DAY, 30 * DAY⟩ ∧
    Anchored.contains ⟨.month, 29 * DAY, 30 * DAY⟩ (datetime 2023 3 2) = false := by decide +kernel

/-- C10 fails with a part of the year across a missing 29 February: the mornings of March 2023, rolled forward from 10
February, begin on 2 March, although 1 March is in March. -/
theorem C10_year_violated :
    ∃ p, Anchored.at .year (.int 3) = .ok p ∧
      (Period.all [.anchored p, .anchored ⟨.day, 0, 12 * HOUR⟩]).rollforward 10 (datetime 2023 2 10) =
        .ok ⟨datetime 2023 3 2, datetime 2023 3 2 12, .left⟩ ∧
      p.contains (datetime 2023 3 1) = true ∧
      Anchored.contains ⟨.day, 0, 12 * HOUR⟩ (datetime 2023 3 1) = true :=
  ⟨⟨.year, 60 * DAY, 91 * DAY - 1⟩, by decide, by decide +kernel, by decide +kernel, by decide +kernel⟩

/-- Friday the 13th at noon: six jumps from 2024-01-01 to the first one, 2024-09-13. -/
example : (Period.all [.anchored ⟨.week, 4 * DAY, 5 * DAY⟩, .anchored ⟨.month, 12 * DAY, 13 * DAY⟩,
      .anchored ⟨.day, 12 * HOUR, 13 * HOUR⟩]).rollforward 60 (datetime 2024 1 1) =
    .ok ⟨datetime 2024 9 13 12, datetime 2024 9 13 13, .left⟩ := by decide +kernel

example : Fwd (.anchored ⟨.week, 4 * DAY, 5 * DAY⟩) ∧ Fwd (.anchored ⟨.month, 12 * DAY, 13 * DAY⟩) := by
  refine ⟨?_, ?_⟩
  · rw [Fwd]
    exact forward_fixed (L := 7 * 24 * 60 * 60 * 1000000) rfl ⟨by decide, by decide, by decide, by decide⟩
      (by unfold Degenerate; decide)
  · rw [Fwd]
    exact forward_month (by decide) (by decide) (by decide) (by decide) (by decide) (by decide)

/-- C11 is false: an intersection of clock periods with no common instant from `dt` on exhausts every recursion
depth, both when rolled and when asked for membership (`RecursionError`). -/
theorem C11_no_common_violated (ps : List Period) (hne : ps ≠ []) (hp : ∀ p ∈ ps, ClockOnly p) (dt : Int)
    (hno : ∀ x, dt ≤ x → ∃ p ∈ ps, ¬ sem p x) (n : Nat) :
    (Period.all ps).rollforward n dt = .error .recursion ∧ (Period.all ps).contains n dt = .error .recursion := by
  have hc : ClockOnly (.all ps) := by rw [ClockOnly]; exact ⟨hne, hp⟩
  have h1 : (Period.all ps).rollforward n dt = .error .recursion := by
    rcases clockOnly_result n (.all ps) dt hc with ⟨i, hi, h1, h2⟩ | h
    · exfalso
      have hs := rollforward_span n _ dt i (clockOnly_fwd _ hc) hi
      have := hs.inside i.left (by omega) h2
      rw [sem] at this
      obtain ⟨p, hpp, hnp⟩ := hno i.left h1
      exact hnp (this p hpp)
    · exact h
  exact ⟨h1, by simp only [Period.contains, h1]⟩

/-- `TimeOfDay("10:00", "11:00") & TimeOfDay("12:00", "13:00")`: asking for membership never returns. -/
example (dt : Int) (n : Nat) : (Period.all [.anchored ⟨.day, 10 * HOUR, 11 * HOUR⟩,
    .anchored ⟨.day, 12 * HOUR, 13 * HOUR⟩]).contains n dt = .error .recursion := by
  have hb : ∀ a b : Int, 0 ≤ a → a ≤ 24 * HOUR → 0 ≤ b → b ≤ 24 * HOUR → ¬ (a = 24 * HOUR ∧ b = 0) →
      ClockOnly (.anchored ⟨.day, a, b⟩) := by
    intro a b h1 h2 h3 h4 h5
    rw [ClockOnly]
    exact forward_fixed (L := 24 * 60 * 60 * 1000000) rfl
      ⟨h1, by simp only [HOUR] at *; omega, h3, by simp only [HOUR] at *; omega⟩
      (by unfold Degenerate; simp only [HOUR] at *; omega)
  refine (C11_no_common_violated _ (by simp) ?_ dt ?_ n).2
  · intro p hp
    simp only [List.mem_cons, List.not_mem_nil, or_false] at hp
    rcases hp with rfl | rfl <;> exact hb _ _ (by decide) (by decide) (by decide) (by decide) (by decide)
  · intro x _
    by_cases h : sem (.anchored ⟨.day, 10 * HOUR, 11 * HOUR⟩) x
    · refine ⟨.anchored ⟨.day, 12 * HOUR, 13 * HOUR⟩, by simp, ?_⟩
      intro h'
      rw [sem] at h h'
      simp [Anchored.contains, Anchored.isFull, HOUR, Scope.max, toMicroseconds] at h h'
      omega
    · exact ⟨_, by simp, h⟩

/-- What does hold of C11: with a common instant the question is answered (this is C10). -/
theorem C11_answers_partial (ps : List Period) (hne : ps ≠ []) (hp : ∀ p ∈ ps, Fwd p) (dt x : Int)
    (hx : dt ≤ x) (hsem : ∀ p ∈ ps, sem p x) (hlive : ∀ p ∈ ps, Live p dt x) :
    ∃ N, ∀ n, N ≤ n → (∃ i, (Period.all ps).rollforward n dt = .ok i) ∧
      ∃ b, (Period.all ps).contains n dt = .ok b := by
  obtain ⟨N, l, r, h, _⟩ := C10_terminates_partial ps hne hp dt x hx hsem hlive
  refine ⟨N, fun n hn => ⟨⟨_, h n hn⟩, ?_⟩⟩
  exact ⟨_, by simp only [Period.contains, h n hn]; rfl⟩

example : Live (.anchored ⟨.week, 4 * DAY, 5 * DAY⟩) 0 5 ∧ Live (.static 0 10) 3 5 := by
  refine ⟨?_, ?_⟩ <;> simp [Live]

/-- C12: every instant of a rolled-back intersection belongs to all members, and the span ends not after `dt`
(nested compounds allowed). -/
theorem C12_rollback_inside (ps : List Period) (hp : ∀ p ∈ ps, Bwd p) (n : Nat) (dt : Int) (hd : MINT ≤ dt)
    (i : Interval) (h : (Period.all ps).rollback n dt = .ok i) :
    i.left ≤ i.right ∧ i.right ≤ dt ∧ ∀ x, i.contains x = true → x ≤ dt ∧ ∀ p ∈ ps, sem p x := by
  have hs := rollback_bspan n (.all ps) dt i (by rw [Bwd]; exact hp) h
  have hle := hs.le
  refine ⟨hs.ordered, by omega, ?_⟩
  intro x hx
  have h1 := hs.inside x hx
  rw [sem] at h1
  have := contains_le hx
  exact ⟨by omega, h1⟩

/-- C12: no common instant lies between the returned span and `dt`; members are single (clock, static) periods. -/
theorem C12_rollback_latest_partial (ps : List Period) (hp : ∀ p ∈ ps, Leaf p) (n : Nat) (dt : Int) (i : Interval)
    (h : (Period.all ps).rollback n dt = .ok i) (x : Int) (hM : MINT ≤ x) (h1 : i.right ≤ x) (h2 : x < dt) :
    ∃ p ∈ ps, ¬ sem p x := by
  by_contra hc
  apply (all_rollback_last hp n dt i h).1 x hM h1 h2
  rw [sem]
  intro p hpp
  by_contra hc'
  exact hc ⟨p, hpp, hc'⟩

/-- C12: if a common instant lies before `dt`, rolling back returns a span that is not empty. -/
theorem C12_rollback_terminates (ps : List Period) (hne : ps ≠ []) (hp : ∀ p ∈ ps, Leaf p) (dt x : Int)
    (hM : MINT ≤ x) (hx : x < dt) (hsem : ∀ p ∈ ps, sem p x) :
    ∃ N, ∀ n, N ≤ n → ∃ i, (Period.all ps).rollback n dt = .ok i ∧ ∃ y, i.contains y = true := by
  refine ⟨(dt - x).toNat + 1, fun n hn => ?_⟩
  exact all_rollback_total hne hp x hM (by rw [sem]; exact hsem) (dt - x).toNat dt hx (by omega) n hn

/-- From Monday 2024-10-07 the last Friday-the-13th noon is 2024-09-13. -/
example : (Period.all [.anchored ⟨.week, 4 * DAY, 5 * DAY⟩, .anchored ⟨.month, 12 * DAY, 13 * DAY⟩,
      .anchored ⟨.day, 12 * HOUR, 13 * HOUR⟩]).rollback 30 (datetime 2024 10 7) =
    .ok ⟨datetime 2024 9 13 12, datetime 2024 9 13 13, .left⟩ ∧
    Leaf (.anchored ⟨.week, 4 * DAY, 5 * DAY⟩) := by
  refine ⟨by decide +kernel, ?_⟩
  exact backward_fixed (L := 7 * 24 * 60 * 60 * 1000000) rfl ⟨by decide, by decide, by decide, by decide⟩
      (by unfold Degenerate; decide)

/-- C12, excluded instant: exactly at the start of a common span (10:00 sharp) the intersection rolls back to
yesterday's occurrence although `dt` itself is common (each member alone returns a span that reaches 10:00). -/
theorem C12_start_instant :
    (Period.all [.anchored ⟨.day, 10 * HOUR, 12 * HOUR⟩, .anchored ⟨.hour, 0, HOUR⟩]).rollback 5
      (datetime 2024 5 2 10) = .ok ⟨datetime 2024 5 1 11, datetime 2024 5 1 12, .left⟩ ∧
    (Period.all [.anchored ⟨.day, 10 * HOUR, 12 * HOUR⟩, .anchored ⟨.hour, 0, HOUR⟩]).contains 5
      (datetime 2024 5 2 10) = .ok true := by decide

/-- C12 is false with a union inside: the union of 10:00-11:00 and 11:00-12:00 rolled back from 11:00 sharp is
empty for one of the two member orders, and the common hour before is skipped by one microsecond. -/
theorem C12_union_inside_violated :
    (Period.all [.any [.anchored ⟨.day, 11 * HOUR, 12 * HOUR⟩, .anchored ⟨.day, 10 * HOUR, 11 * HOUR⟩],
      .anchored ⟨.day, 9 * HOUR, 12 * HOUR⟩]).rollback 5 (datetime 2024 5 2 11) =
        .ok ⟨datetime 2024 5 2 10, datetime 2024 5 2 11 - 1, .left⟩ ∧
    sem (.all [.any [.anchored ⟨.day, 11 * HOUR, 12 * HOUR⟩, .anchored ⟨.day, 10 * HOUR, 11 * HOUR⟩],
      .anchored ⟨.day, 9 * HOUR, 12 * HOUR⟩]) (datetime 2024 5 2 11 - 1) := by
  refine ⟨by decide +kernel, ?_⟩
  simp only [sem, List.mem_cons, List.not_mem_nil, or_false, forall_eq_or_imp, forall_eq]
  exact ⟨⟨_, Or.inr rfl, by rw [sem]; decide⟩, by decide⟩

/-- C13: membership of a union, whenever it returns, is the disjunction of the members' meanings, for every order
of the operands; excluded: an instant at which a static member ends. -/
theorem C13_contains_partial (ps : List Period) (hp : ∀ p ∈ ps, Plain p) (dt : Int) (hd : dt < MAXT)
    (hc : ∀ p ∈ ps, NoEnd dt p) (n : Nat) (b : Bool) (h : (Period.any ps).contains n dt = .ok b) :
    b = true ↔ ∃ p ∈ ps, sem p dt := by
  have hpa : Plain (.any ps) := by rw [Plain]; exact hp
  simp only [Period.contains] at h
  cases hr : Period.rollforward n (.any ps) dt with
  | error e => simp [hr] at h
  | ok i =>
    have hb : b = true ↔ i.left ≤ dt ∧ dt < i.right :=
      contains_of_span hpa (n := n) (m := n) (by simp only [Period.contains]; exact h) hr
    have hw := ((rollforward_weak n _ dt i hpa hr).2.2.2 hd).1 (by rw [Clean]; exact hc)
    rw [hb, ← hw, sem]
    simp

/-- The excluded instant: a static interval that ends at `dt`, united with a period that contains `dt`; whether
`dt` is a member depends on the (arbitrary) order of the frozenset. -/
theorem C13_contains_violated :
    (Period.any [.static (datetime 2024 5 1) (datetime 2024 5 2 10), .anchored ⟨.day, 9 * HOUR, 12 * HOUR⟩]).contains
      5 (datetime 2024 5 2 10) = .ok false ∧
    (Period.any [.anchored ⟨.day, 9 * HOUR, 12 * HOUR⟩, .static (datetime 2024 5 1) (datetime 2024 5 2 10)]).contains
      5 (datetime 2024 5 2 10) = .ok true := by decide +kernel

/-- C13: the rolled span is covered by the members and nothing of any member lies between `dt` and its start. -/
theorem C13_rollforward (ps : List Period) (hp : ∀ p ∈ ps, Fwd p) (n : Nat) (dt : Int) (i : Interval)
    (h : (Period.any ps).rollforward n dt = .ok i) :
    (∀ x, i.left ≤ x → x < i.right → ∃ p ∈ ps, sem p x) ∧
    (∀ x, dt ≤ x → x < i.left → ∀ p ∈ ps, ¬ sem p x) := by
  have hs := rollforward_span n (.any ps) dt i (by rw [Fwd]; exact hp) h
  refine ⟨?_, ?_⟩
  · intro x h1 h2
    have := hs.inside x h1 h2
    rw [sem] at this
    obtain ⟨p, hpp, hs⟩ := this
    exact ⟨p, hpp, hs⟩
  · intro x h1 h2 p hpp hsp
    apply hs.none_before x h1 h2
    rw [sem]
    exact ⟨p, hpp, hsp⟩

/-- C13: the roll returns, and its start is the least instant at or after `dt` in any member. -/
theorem C13_rollforward_terminates (ps : List Period) (hne : ps ≠ []) (hp : ∀ p ∈ ps, Fwd p) (dt : Int)
    (hlive : ∀ p ∈ ps, Live p dt dt) :
    ∃ N l r, (∀ n, N ≤ n → (Period.any ps).rollforward n dt = .ok ⟨l, r, .left⟩) ∧ dt ≤ l ∧ l < r ∧
      (∃ p ∈ ps, sem p l) ∧ ∀ x, dt ≤ x → x < l → ∀ p ∈ ps, ¬ sem p x := by
  have hf : Fwd (.any ps) := by rw [Fwd]; exact hp
  obtain ⟨N, hN⟩ := rollforward_live (.any ps) dt dt hf (by rw [Live]; exact ⟨hne, hlive⟩)
  obtain ⟨i, hi, h1, h2⟩ := hN N (by omega) dt (by omega) (by omega)
  have hs := rollforward_span N (.any ps) dt i hf hi
  have hk := C13_rollforward ps hp N dt i hi
  rcases i with ⟨l, r, c⟩
  have hcl := hs.closed
  simp only at hcl h1 h2 hk
  subst hcl
  exact ⟨N, l, r, fun n hn => rollforward_le hn hi, h1, h2, hk.1 l (by omega) h2, hk.2⟩

/-- At 13:00 the union of 10-12 o'clock and Friday starts with Friday (2024-05-03). -/
example : (Period.any [.anchored ⟨.day, 10 * HOUR, 12 * HOUR⟩, .anchored ⟨.week, 4 * DAY, 5 * DAY⟩]).rollforward 5
    (datetime 2024 5 2 13) = .ok ⟨datetime 2024 5 3, datetime 2024 5 4, .left⟩ ∧
    (Period.any [.anchored ⟨.day, 10 * HOUR, 12 * HOUR⟩, .anchored ⟨.week, 4 * DAY, 5 * DAY⟩]).contains 5
    (datetime 2024 5 2 11) = .ok true := by decide +kernel

/-- C14: with spans none of which contains another (starts and ends increase together), the merged span is
closed under overlap: every span that begins inside it also ends inside it. -/
theorem C14_merge_partial (is : List Interval) (hcl : ∀ i ∈ is, i.closed = .left)
    (hstrict : is.Pairwise (fun i j => (i.left < j.left ∧ i.right < j.right) ∨ (j.left < i.left ∧ j.right < i.right)))
    (c : Interval) (h : mergeForward is = .ok c) (i : Interval) (hi : i ∈ is) (hin : i.left < c.right) :
    i.right ≤ c.right := by
  unfold mergeForward at h
  have hperm := pySorted_perm (le := fun a b => decide (a.left ≤ b.left)) is
  have hsort := pySorted_pairwise (le := fun a b : Interval => decide (a.left ≤ b.left))
    (by intro a b c h1 h2; simp at *; omega) (by intro a b; simp; omega) is
  generalize hms : pySorted (fun a b => decide (a.left ≤ b.left)) is = ms at h hperm hsort
  have hst : ms.Pairwise (fun i j => i.left < j.left ∧ i.right < j.right) := by
    have h1 := hperm.symm.pairwise hstrict (by intro a b h; tauto)
    have h2 := h1.and hsort
    exact h2.imp (by intro a b ⟨h, h'⟩; simp at h'; omega)
  have hcl' : ∀ j ∈ ms, j.closed = .left := fun j hj => hcl j (hperm.mem_iff.1 hj)
  have hi' := hperm.mem_iff.2 hi
  cases ms with
  | nil => simp at h
  | cons y l =>
    simp only [Interval.make_ok] at h
    obtain ⟨_, rfl⟩ := h
    simp only at hin ⊢
    clear hperm hsort hms hstrict hcl hi
    have key : ∀ (l : List Interval) (y : Interval), (∀ j ∈ y :: l, j.closed = .left) →
        (y :: l).Pairwise (fun i j => i.left < j.left ∧ i.right < j.right) →
        ∀ i ∈ y :: l, i.left < (extendRight y l).right → i.right ≤ (extendRight y l).right := by
      intro l
      induction l with
      | nil => intro y _ _ i hi _; simp at hi; subst hi; simp [extendRight]
      | cons z l ih =>
        intro y hcl hst i hi hin
        obtain ⟨s1, s2⟩ := List.pairwise_cons.1 hst
        have hz := s1 z (by simp)
        unfold extendRight at hin ⊢
        by_cases ho : z.overlaps y = true
        · have he : (decide (z.right > y.right) && z.overlaps y) = true := by simp [ho]; omega
          rw [if_pos he] at hin ⊢
          have ih' := ih z (fun j hj => hcl j (List.mem_cons_of_mem _ hj)) s2
          rcases List.mem_cons.1 hi with rfl | hi
          · have := (extendRight_spec l z).1
            omega
          · exact ih' i hi hin
        · have he : ¬ (decide (z.right > y.right) && z.overlaps y) = true := by simp [ho]
          rw [if_neg he] at hin ⊢
          rw [overlaps_left (hcl z (by simp)) (hcl y (by simp))] at ho
          rcases List.mem_cons.1 hi with rfl | hi
          · exact Int.le_refl _
          · rcases List.mem_cons.1 hi with rfl | hi
            · have := s1 i (by simp); omega
            · have := s1 i (by simp [hi])
              have := (List.pairwise_cons.1 s2).1 i hi
              omega
    exact key l y hcl' hst i hi' hin

example : mergeForward [⟨8, 20, .left⟩, ⟨0, 10, .left⟩, ⟨30, 40, .left⟩] = .ok ⟨0, 20, .left⟩ := by decide

/-- C14 is false: a span that lies inside another stops the merge.  `[0,10) | [1,5) | [8,20)` rolls to `[0,10)`
although `[8,20)` overlaps it. -/
theorem C14_merge_violated (n : Nat) :
    (Period.any [.static 0 10, .static 1 5, .static 8 20]).rollforward (n + 2) 0 = .ok ⟨0, 10, .left⟩ := by
  have h : mapE (fun p => Period.rollforward (n + 1) p 0) [.static 0 10, .static 1 5, .static 8 20] =
    .ok [⟨0, 10, .left⟩, ⟨1, 5, .left⟩, ⟨8, 20, .left⟩] := by
    simp only [mapE, Period.rollforward]; decide
  simp only [Period.rollforward, h]
  decide

/-- C15: a static interval contains exactly `[start, end)`. -/
theorem C15_contains (s e dt : Int) (hse : s ≤ e) (n : Nat) :
    (Period.static s e).contains (n + 1) dt = .ok (decide (s ≤ dt ∧ dt < e)) := by
  simp only [Period.contains, Period.rollforward, staticForward]
  by_cases h : e < dt
  · rw [if_pos h]
    have : Interval.make MAXT MAXT .left = .ok ⟨MAXT, MAXT, .left⟩ := Interval.make_ok.2 ⟨by omega, rfl⟩
    rw [this]
    simp only [Interval.contains, Except.ok.injEq]
    rw [Bool.eq_iff_iff]
    simp only [Bool.and_eq_true, decide_eq_true_eq]
    omega
  · rw [if_neg h]
    have : Interval.make (max s dt) e .left = .ok ⟨max s dt, e, .left⟩ := Interval.make_ok.2 ⟨by omega, rfl⟩
    rw [this]
    simp only [Interval.contains, Except.ok.injEq]
    rw [Bool.eq_iff_iff]
    simp only [Bool.and_eq_true, decide_eq_true_eq]
    omega

/-- C15: `always` contains the whole supported time line, `never` nothing. -/
theorem C15_always_never (dt : Int) (n : Nat) :
    Period.always.contains (n + 1) dt = .ok (decide (MINT ≤ dt ∧ dt < MAXT)) ∧
    (Period.static MAXT MAXT).contains (n + 1) dt = .ok false := by
  refine ⟨C15_contains MINT MAXT dt (by decide) n, ?_⟩
  rw [C15_contains MAXT MAXT dt (Int.le_refl _) n]
  simp only [Except.ok.injEq, decide_eq_false_iff_not]
  omega

/-- C15: rolling clips at `dt`; an interval behind (ahead) gives an empty span. -/
theorem C15_rolls (s e dt : Int) (hse : s ≤ e) (n : Nat) :
    (∃ i, (Period.static s e).rollforward (n + 1) dt = .ok i ∧
      ∀ x, i.contains x = true ↔ s ≤ x ∧ dt ≤ x ∧ x < e) ∧
    (∃ i, (Period.static s e).rollback (n + 1) dt = .ok i ∧
      ∀ x, i.contains x = true ↔ s ≤ x ∧ x < dt ∧ x < e) := by
  constructor
  · simp only [Period.rollforward, staticForward]
    split
    · refine ⟨⟨MAXT, MAXT, .left⟩, Interval.make_ok.2 ⟨by omega, rfl⟩, fun x => ?_⟩
      simp only [Interval.contains, Bool.and_eq_true, decide_eq_true_eq]; omega
    · refine ⟨⟨max s dt, e, .left⟩, Interval.make_ok.2 ⟨by omega, rfl⟩, fun x => ?_⟩
      simp only [Interval.contains, Bool.and_eq_true, decide_eq_true_eq]; omega
  · simp only [Period.rollback, staticBack]
    split
    · refine ⟨⟨MINT, MINT, .left⟩, Interval.make_ok.2 ⟨by omega, rfl⟩, fun x => ?_⟩
      simp only [Interval.contains, Bool.and_eq_true, decide_eq_true_eq]; omega
    · refine ⟨⟨s, min e dt, .left⟩, Interval.make_ok.2 ⟨by omega, rfl⟩, fun x => ?_⟩
      simp only [Interval.contains, Bool.and_eq_true, decide_eq_true_eq]; omega

example : (Period.static (datetime 2024 1 1) (datetime 2024 2 1)).rollforward 1 (datetime 2024 1 10) =
    .ok ⟨datetime 2024 1 10, datetime 2024 2 1, .left⟩ ∧
    (Period.static (datetime 2024 1 1) (datetime 2024 2 1)).rollforward 1 (datetime 2024 3 10) =
    .ok ⟨MAXT, MAXT, .left⟩ := by decide

/-- C15: a static interval with start after end is refused when it is rolled towards (`ValueError`). -/
theorem C15_reversed (s e dt : Int) (hse : e < s) (hd : dt ≤ e) (n : Nat) :
    (Period.static s e).rollforward (n + 1) dt = .error .value := by
  simp only [Period.rollforward, staticForward]
  rw [if_neg (by omega)]
  exact Interval.make_error.2 ⟨by omega, rfl⟩

example : (Period.static 10 5).rollforward 1 3 = .error .value := by decide

/-- C16: `TimeDelta(past, future)`: the rolled spans and the membership relative to a reference; signs of the
durations do not matter. -/
theorem C16_delta (past future : Option Int) (dt ref : Int) (n : Nat) :
    (∃ i, (Period.mkDelta past future).rollback (n + 1) dt = .ok i ∧
      ∀ x, i.contains x = true ↔ dt - ((past.getD 0).natAbs : Int) ≤ x ∧ x < dt) ∧
    (∃ i, (Period.mkDelta past future).rollforward (n + 1) dt = .ok i ∧
      ∀ x, i.contains x = true ↔ dt ≤ x ∧ x < dt + ((future.getD 0).natAbs : Int)) ∧
    (∃ b, (Period.mkDelta past future).containsRef ref dt = .ok b ∧
      (b = true ↔ (dt ≤ ref → ref - dt ≤ ((past.getD 0).natAbs : Int)) ∧
        (ref ≤ dt → dt - ref ≤ ((future.getD 0).natAbs : Int)))) := by
  refine ⟨?_, ?_, ?_⟩
  · refine ⟨⟨dt - ((past.getD 0).natAbs : Int), dt, .left⟩, ?_, fun x => ?_⟩
    · simp only [Period.mkDelta, Period.rollback]
      exact Interval.make_ok.2 ⟨by omega, by simp⟩
    · simp only [Interval.contains, Bool.and_eq_true, decide_eq_true_eq]
  · refine ⟨⟨dt, dt + ((future.getD 0).natAbs : Int), .left⟩, ?_, fun x => ?_⟩
    · simp only [Period.mkDelta, Period.rollforward]
      exact Interval.make_ok.2 ⟨by omega, by simp⟩
    · simp only [Interval.contains, Bool.and_eq_true, decide_eq_true_eq]
  · refine ⟨_, rfl, ?_⟩
    simp only [Bool.and_eq_true, decide_eq_true_eq]
    omega

example : (Period.mkDelta (some (-2 * HOUR)) none).rollback 1 (datetime 2024 1 1) =
    .ok ⟨datetime 2023 12 31 22, datetime 2024 1 1, .left⟩ := by decide

/-- C16: `TimeSpanDelta(near, far)` rolled back is `[dt - |far|, dt - |near|)`; refused when `|near| > |far|`;
without `far` it starts at the beginning of the time line. -/
theorem C16_span (near far : Int) (dt : Int) (n : Nat) :
    ((near.natAbs : Int) ≤ far.natAbs → ∃ i, (Period.mkSpan (some near) (some far)).rollback (n + 1) dt = .ok i ∧
      ∀ x, i.contains x = true ↔ dt - (far.natAbs : Int) ≤ x ∧ x < dt - (near.natAbs : Int)) ∧
    ((far.natAbs : Int) < near.natAbs →
      (Period.mkSpan (some near) (some far)).rollback (n + 1) dt = .error .value) ∧
    (MINT ≤ dt - (near.natAbs : Int) → ∃ i, (Period.mkSpan (some near) none).rollback (n + 1) dt = .ok i ∧
      ∀ x, i.contains x = true ↔ MINT ≤ x ∧ x < dt - (near.natAbs : Int)) := by
  refine ⟨fun h => ?_, fun h => ?_, fun h => ?_⟩
  · refine ⟨⟨dt - (far.natAbs : Int), dt - (near.natAbs : Int), .left⟩, ?_, fun x => ?_⟩
    · simp only [Period.mkSpan, Period.rollback, Option.map, Option.getD]
      exact Interval.make_ok.2 ⟨by omega, rfl⟩
    · simp only [Interval.contains, Bool.and_eq_true, decide_eq_true_eq]
  · simp only [Period.mkSpan, Period.rollback, Option.map, Option.getD]
    exact Interval.make_error.2 ⟨by omega, rfl⟩
  · refine ⟨⟨MINT, dt - (near.natAbs : Int), .left⟩, ?_, fun x => ?_⟩
    · simp only [Period.mkSpan, Period.rollback, Option.map, Option.getD]
      exact Interval.make_ok.2 ⟨by omega, rfl⟩
    · simp only [Interval.contains, Bool.and_eq_true, decide_eq_true_eq]

/-- C16: membership of a span relative to a reference is a distance condition. -/
theorem C16_span_contains (near far : Int) (ref dt : Int) :
    ∃ b, (Period.mkSpan (some near) (some far)).containsRef ref dt = .ok b ∧
      (b = true ↔ (near.natAbs : Int) ≤ (ref - dt).natAbs ∧ ((ref - dt).natAbs : Int) ≤ far.natAbs) := by
  simp only [Period.mkSpan, Period.containsRef, Option.map, Option.getD]
  split
  · refine ⟨_, rfl, ?_⟩
    simp only [Bool.and_eq_true, decide_eq_true_eq]; omega
  · refine ⟨_, rfl, ?_⟩
    simp only [Bool.and_eq_true, decide_eq_true_eq]; omega

example : (Period.mkSpan (some HOUR) (some (-2 * HOUR))).rollback 1 (datetime 2024 1 1) =
    .ok ⟨datetime 2023 12 31 22, datetime 2023 12 31 23, .left⟩ := by decide

/-! ### C17 -/

theorem allMembers_mem (t : Int) (ht : MINT ≤ t ∧ t < MAXT) : ∀ (args : List Period),
    (∀ p ∈ Period.allMembers args, sem p t) ↔ ∀ p ∈ args, sem p t
  | [] => by simp [Period.allMembers]
  | a :: l => by
    have ih := allMembers_mem t ht l
    cases a with
    | all qs =>
      simp only [Period.allMembers, List.mem_append, List.mem_cons, forall_eq_or_imp]
      rw [sem, ← ih]
      constructor
      · intro h; exact ⟨fun p hp => h p (Or.inl hp), fun p hp => h p (Or.inr hp)⟩
      · rintro ⟨h1, h2⟩ p (hp | hp)
        · exact h1 p hp
        · exact h2 p hp
    | always =>
      simp only [Period.allMembers, List.mem_cons, forall_eq_or_imp]
      rw [ih, sem]
      exact ⟨fun h => ⟨ht, h⟩, fun h => h.2⟩
    | anchored a => simp only [Period.allMembers, List.mem_cons, forall_eq_or_imp, ih]
    | static a b => simp only [Period.allMembers, List.mem_cons, forall_eq_or_imp, ih]
    | delta a b => simp only [Period.allMembers, List.mem_cons, forall_eq_or_imp, ih]
    | span a b => simp only [Period.allMembers, List.mem_cons, forall_eq_or_imp, ih]
    | relday a b c => simp only [Period.allMembers, List.mem_cons, forall_eq_or_imp, ih]
    | any a => simp only [Period.allMembers, List.mem_cons, forall_eq_or_imp, ih]

theorem anyMembers_mem (t : Int) (ht : MINT ≤ t ∧ t < MAXT) : ∀ (args acc : List Period),
    (∃ p ∈ Period.anyMembers acc args, sem p t) ↔ (∃ p ∈ acc, sem p t) ∨ ∃ p ∈ args, sem p t
  | [], acc => by simp [Period.anyMembers]
  | a :: l, acc => by
    have simple : (∃ p ∈ Period.anyMembers (acc ++ [a]) l, sem p t) ↔
        (∃ p ∈ acc, sem p t) ∨ ∃ p ∈ a :: l, sem p t := by
      rw [anyMembers_mem t ht l]
      simp only [List.mem_append, List.mem_cons, List.not_mem_nil, or_false]
      constructor
      · rintro (⟨p, hp | rfl, hs⟩ | ⟨p, hp, hs⟩)
        · exact Or.inl ⟨p, hp, hs⟩
        · exact Or.inr ⟨p, Or.inl rfl, hs⟩
        · exact Or.inr ⟨p, Or.inr hp, hs⟩
      · rintro (⟨p, hp, hs⟩ | ⟨p, rfl | hp, hs⟩)
        · exact Or.inl ⟨p, Or.inl hp, hs⟩
        · exact Or.inl ⟨p, Or.inr rfl, hs⟩
        · exact Or.inr ⟨p, hp, hs⟩
    cases a with
    | any qs =>
      simp only [Period.anyMembers]
      rw [anyMembers_mem t ht l]
      simp only [List.mem_append, List.mem_cons]
      constructor
      · rintro (⟨p, hp | hp, hs⟩ | ⟨p, hp, hs⟩)
        · exact Or.inl ⟨p, hp, hs⟩
        · exact Or.inr ⟨.any qs, Or.inl rfl, by rw [sem]; exact ⟨p, hp, hs⟩⟩
        · exact Or.inr ⟨p, Or.inr hp, hs⟩
      · rintro (⟨p, hp, hs⟩ | ⟨p, rfl | hp, hs⟩)
        · exact Or.inl ⟨p, Or.inl hp, hs⟩
        · rw [sem] at hs
          obtain ⟨q, hq, hs⟩ := hs
          exact Or.inl ⟨q, Or.inr hq, hs⟩
        · exact Or.inr ⟨p, hp, hs⟩
    | always =>
      simp only [Period.anyMembers, List.mem_cons, List.not_mem_nil, or_false, exists_eq_left, exists_eq_or_imp]
      rw [sem]
      simp only [ht, and_self, true_or, or_true]
    | anchored a => simpa only [Period.anyMembers] using simple
    | static a b => simpa only [Period.anyMembers] using simple
    | delta a b => simpa only [Period.anyMembers] using simple
    | span a b => simpa only [Period.anyMembers] using simple
    | relday a b c => simpa only [Period.anyMembers] using simple
    | all a => simpa only [Period.anyMembers] using simple

/-- C17: `All(...)` and `Any(...)` mean the intersection and the union of their arguments on the supported time
line, whatever is flattened or dropped. -/
theorem C17_constructors (args : List Period) (p : Period) (t : Int) (ht : MINT ≤ t ∧ t < MAXT) :
    (Period.mkAll args = .ok p → (sem p t ↔ ∀ a ∈ args, sem a t)) ∧
    (Period.mkAny args = .ok p → (sem p t ↔ ∃ a ∈ args, sem a t)) := by
  refine ⟨fun h => ?_, fun h => ?_⟩
  · simp only [Period.mkAll] at h
    split at h
    · exact absurd h (by simp)
    · simp only [Except.ok.injEq] at h
      subst h
      rw [sem, Period.setOf_all]
      exact allMembers_mem t ht args
  · simp only [Period.mkAny] at h
    split at h
    · exact absurd h (by simp)
    · simp only [Except.ok.injEq] at h
      subst h
      rw [sem]
      have := anyMembers_mem t ht args []
      simp only [List.not_mem_nil, false_and, exists_false, false_or] at this
      rw [← this, ← Period.setOf_any]
      simp

/-- C17: the operators always succeed and mean conjunction and disjunction. -/
theorem C17_operators (p q : Period) (t : Int) (ht : MINT ≤ t ∧ t < MAXT) :
    (∃ r, p.and q = .ok r ∧ (sem r t ↔ sem p t ∧ sem q t)) ∧
    (∃ r, p.or q = .ok r ∧ (sem r t ↔ sem p t ∨ sem q t)) := by
  have hal : sem .always t := by rw [sem]; exact ht
  have hmk : ∃ r, Period.mkAll [p, q] = .ok r ∧ (sem r t ↔ sem p t ∧ sem q t) := by
    refine ⟨_, rfl, ?_⟩
    rw [(C17_constructors [p, q] _ t ht).1 rfl]
    simp
  have hmk' : ∃ r, Period.mkAny [p, q] = .ok r ∧ (sem r t ↔ sem p t ∨ sem q t) := by
    refine ⟨_, rfl, ?_⟩
    rw [(C17_constructors [p, q] _ t ht).2 rfl]
    simp
  constructor
  · unfold Period.and
    split
    · exact ⟨_, rfl, by simp [hal]⟩
    · exact ⟨_, rfl, by simp [hal]⟩
    · exact hmk
  · unfold Period.or
    split
    · exact ⟨_, rfl, by simp [hal]⟩
    · exact ⟨_, rfl, by simp [hal]⟩
    · exact hmk'

/-- C17: grouping does not matter: `(p & q) & r` and `p & (q & r)` are the same period, likewise for `|`. -/
theorem C17_assoc (p q r : Period) :
    (p.and q).bind (fun x => x.and r) = (q.and r).bind (fun y => p.and y) ∧
    (p.or q).bind (fun x => x.or r) = (q.or r).bind (fun y => p.or y) := by
  constructor
  · cases p <;> cases q <;> cases r <;>
      simp [Period.and, Period.mkAll, Except.bind, Period.allMembers, Period.setOf_left, Period.setOf_right,
        Period.setOf_cons]
  · cases p <;> cases q <;> cases r <;>
      simp [Period.or, Period.mkAny, Except.bind, Period.anyMembers, Period.setOf_left, Period.setOf_right,
        Period.setOf_cons]

/-- C17: the members of an intersection (union) built with the operators are never intersections (unions)
themselves. -/
def Flat : Period → Prop
  | .all ps => ∀ p ∈ ps, (∀ qs, p ≠ .all qs) ∧ p ≠ .always
  | _ => True

theorem C17_flat (p q r : Period) (hp : Flat p) (hq : Flat q) (h : p.and q = .ok r) : Flat r := by
  have key : ∀ l, Flat (.all l) → Flat (.all (Period.setOf l)) := fun l h x hx => h x (Period.mem_setOf hx)
  cases p <;> cases q <;>
    simp only [Period.and, Period.mkAll, Period.allMembers, List.isEmpty_cons, Bool.false_eq_true, if_false,
      Except.ok.injEq, List.append_nil] at h <;> subst h <;>
    first
    | exact hp
    | exact hq
    | (refine key _ ?_
       simp_all [Flat] <;>
         (try (rintro x (hx | hx) <;> first | exact hp x hx | exact hq x hx | (subst hx; simp))))

example : (Period.all [.static 0 5, .static 1 6]).and (.any [.static 2 3]) =
    .ok (.all [.static 0 5, .static 1 6, .any [.static 2 3]]) := rfl

theorem sets_eq {l l' : List Period} (h : ∀ x, x ∈ l ↔ x ∈ l') :
    (Period.same.within (Period.setOf l) (Period.setOf l') &&
      (Period.setOf l').all (fun q => Period.same.among (Period.setOf l) q)) = true := by
  rw [Period.sets_iff]
  exact Period.setOf_same (fun p hp => ⟨p, (h p).1 hp, Period.same_refl p⟩)
    (fun p hp => ⟨p, (h p).2 hp, Period.same_refl p⟩)

/-- C17: swapping the operands gives an equal period (`==`). -/
theorem C17_comm (p q : Period) :
    (∃ r r', p.and q = .ok r ∧ q.and p = .ok r' ∧ r.pyEq r' = .ok true) ∧
    (∃ r r', p.or q = .ok r ∧ q.or p = .ok r' ∧ r.pyEq r' = .ok true) := by
  have hrefl : ∀ p : Period, p.pyEq p = .ok true := by
    intro p
    have := Period.same_refl p
    cases p <;> simp [Period.pyEq, this]
  have hall : ∀ p q, ∀ x, x ∈ Period.allMembers [p, q] ↔ x ∈ Period.allMembers [q, p] := by
    intro p q x
    cases p <;> cases q <;> simp [Period.allMembers, or_comm]
  have hany : ∀ p q, p ≠ .always → q ≠ .always →
      ∀ x, x ∈ Period.anyMembers [] [p, q] ↔ x ∈ Period.anyMembers [] [q, p] := by
    intro p q hp hq x
    cases p <;> cases q <;> first | contradiction | simp [Period.anyMembers, or_comm]
  have h1 : ∀ p q : Period, ∃ r r', Period.mkAll [p, q] = .ok r ∧ Period.mkAll [q, p] = .ok r' ∧
      r.pyEq r' = .ok true := by
    intro p q
    refine ⟨_, _, rfl, rfl, ?_⟩
    simp only [Period.pyEq, Period.same, sets_eq (hall p q)]
  have h2 : ∀ p q : Period, p ≠ .always → q ≠ .always → ∃ r r', Period.mkAny [p, q] = .ok r ∧
      Period.mkAny [q, p] = .ok r' ∧ r.pyEq r' = .ok true := by
    intro p q hp hq
    refine ⟨_, _, rfl, rfl, ?_⟩
    simp only [Period.pyEq, Period.same, sets_eq (hany p q hp hq)]
  constructor
  · cases p <;> cases q <;> first | exact ⟨_, _, rfl, rfl, hrefl _⟩ | exact h1 _ _
  · cases p <;> cases q <;> first | exact ⟨_, _, rfl, rfl, hrefl _⟩ | exact h2 _ _ (by simp) (by simp)

example : (Period.static 0 5).and (.static 1 6) = .ok (.all [.static 0 5, .static 1 6]) ∧
    (Period.static 1 6).and (.static 0 5) = .ok (.all [.static 1 6, .static 0 5]) ∧
    (Period.static 0 5).or (.static 0 5) = .ok (.any [.static 0 5]) := ⟨rfl, rfl, rfl⟩

end Rocketry.Props
