import Mathlib.Data.List.Forall2
import Verif.Time.CronLemmas

/-!
# Rolling back from within one minute

All instants of a minute see the same spans of a cron period, apart from the end of the one that reaches the present.
-/

namespace Rocketry.Props
open Rocketry Spec

/-- The position inside the cycle runs along with the time inside a minute. -/
theorem anchorDt_minute (sc : Scope) (hsc : sc ≠ .second) (m n : Int) (h1 : m % MIN = 0) (h2 : m ≤ n) (h3 : n < m + MIN) :
    anchorDt sc n = anchorDt sc m + (n - m) ∧ scopeBack sc n = scopeBack sc m ∧ anchorDt sc m % MIN = 0 ∧
      scopeBack sc m % MIN = 0 := by
  have h : n / MIN = m / MIN := by simp only [MIN] at *; omega
  have hd : dayOf n = dayOf m := by simp only [dayOf, DAY, MIN] at *; omega
  have hy : year n = year m := by simp only [year, hd]
  have hyd : yday n = yday m := by simp only [yday, hy, hd]
  have hmo : month n = month m := by simp only [month, hyd, hy]
  have hda : day n = day m := by simp only [day, hyd, hy, hmo]
  have hw : weekday n = weekday m := by simp only [weekday, hd]
  have hax : (monthStart? (month m - 1)).getD 0 % MIN = 0 := by
    rw [monthStart_eq _ (month_range m)]
    exact (axisStart_minute _ (month_range m)).1
  cases sc
  · exact absurd rfl hsc
  all_goals
    simp only [anchorDt, scopeBack, hy, hmo, hda, hw, Scope.max, toMicroseconds, second, minute, hour, microsecond] at *
    simp only [DAY, HOUR, MIN, SEC] at *
    refine ⟨by omega, by trivial, by omega, by omega⟩

/-- What a clock period of a cron expression answers within the minute that starts at `m`. -/
theorem back_minute {a : Anchored} (ha : Good a) (m : Int) (h1 : m % MIN = 0) :
    ∃ l, l % MIN = 0 ∧
      ((∀ n, m < n → n < m + MIN → a.rollback n = Interval.make l n .left) ∨
       ∃ e, (e ≤ m ∨ m + MIN ≤ e) ∧ (∀ t, m ≤ t → t < m + MIN → a.contains t = false) ∧
        ∀ n, m < n → n < m + MIN → a.rollback n = Interval.make l e (if l = e then .both else .left)) := by
  obtain ⟨g1, g2, g3, g4⟩ := ha
  have hsc : a.scope ≠ .second := by
    intro h
    have := (g3 (by rw [h]; simp)).2.2.2.2
    exact this h
  have hst : a.start % MIN = 0 := by
    by_cases hy : a.scope = .year
    · exact (g4 hy).1
    · exact (g3 hy).1
  have ham := anchorDt_minute a.scope hsc m m h1 (by omega) (by simp only [MIN]; omega)
  have hpos := fun n h2 h3 => anchorDt_minute a.scope hsc m n h1 h2 h3
  have hps : ∃ l, l % MIN = 0 ∧ ∀ n, m ≤ n → n < m + MIN → a.prevStart n = l := by
    unfold Anchored.prevStart
    by_cases hx : anchorDt a.scope m < a.start
    · refine ⟨m + (a.start - anchorDt a.scope m - scopeBack a.scope m), by simp only [MIN] at *; omega, fun n h2 h3 => ?_⟩
      have := hpos n h2 h3
      rw [this.1, this.2.1]
      simp only []
      rw [if_pos (by simp only [MIN] at *; omega)]
      omega
    · refine ⟨m + (a.start - anchorDt a.scope m), by simp only [MIN] at *; omega, fun n h2 h3 => ?_⟩
      have := hpos n h2 h3
      rw [this.1]
      simp only []
      rw [if_neg (by omega)]
      omega
  obtain ⟨l, hl, hps⟩ := hps
  refine ⟨l, hl, ?_⟩
  by_cases hf : a.isFull = true
  · left
    intro n h2 h3
    unfold Anchored.rollback
    simp only [hf, if_true]
    rw [hps n (by omega) h3, if_neg (by simp only [MIN] at *; omega)]
  · have hf : a.isFull = false := by simpa using hf
    -- the end of the span
    have hroll : ∀ n, m ≤ n → n < m + MIN → a.rollback n = Interval.make l (a.rollend n) (if l = a.rollend n then .both else .left) := by
      intro n h2 h3
      unfold Anchored.rollback
      simp only [hf, hps n h2 h3, Bool.false_eq_true, if_false]
    have hnow : (∀ n, m < n → n < m + MIN → a.rollend n = n) → ∀ n, m < n → n < m + MIN → a.rollback n = Interval.make l n .left := by
      intro h n h2 h3
      rw [hroll n (by omega) h3, h n h2 h3, if_neg (by simp only [MIN] at *; omega)]
    have hold : (∃ e, (e ≤ m ∨ m + MIN ≤ e) ∧ ∀ n, m ≤ n → n < m + MIN → a.prevEnd n = e) →
        (∀ t, m ≤ t → t < m + MIN → a.contains t = false) →
        ∃ e, (e ≤ m ∨ m + MIN ≤ e) ∧ (∀ t, m ≤ t → t < m + MIN → a.contains t = false) ∧
        ∀ n, m < n → n < m + MIN → a.rollback n = Interval.make l e (if l = e then .both else .left) := by
      rintro ⟨e, he, hpe⟩ hc
      refine ⟨e, he, hc, fun n h2 h3 => ?_⟩
      have : a.rollend n = e := by
        unfold Anchored.rollend
        rw [hc n (by omega) h3]
        simp [hpe n (by omega) h3]
      rw [hroll n (by omega) h3, this]
    have hcon : ∀ n, m ≤ n → n < m + MIN → (a.contains n = true ↔
        (if ¬ a.start > a.stop then a.start ≤ anchorDt a.scope m + (n - m) ∧ anchorDt a.scope m + (n - m) < a.stop
          else anchorDt a.scope m + (n - m) ≥ a.start ∨ anchorDt a.scope m + (n - m) < a.stop)) := by
      intro n h2 h3
      unfold Anchored.contains
      simp only [hf, (hpos n h2 h3).1, Bool.false_eq_true, if_false]
      split <;> simp
    have hpend : ∀ n, m ≤ n → n < m + MIN → a.prevEnd n = (if anchorDt a.scope m + (n - m) < a.stop
        then m + (a.stop - anchorDt a.scope m - scopeBack a.scope m) else m + (a.stop - anchorDt a.scope m)) := by
      intro n h2 h3
      unfold Anchored.prevEnd
      have := hpos n h2 h3
      rw [this.1, this.2.1]
      simp only []
      split <;> omega
    by_cases hy : a.scope = .year
    · obtain ⟨k1, k2, k3⟩ := g4 hy
      have hx0 : 0 ≤ anchorDt a.scope m := by
        rw [hy, anchorDt_year]
        have := axis_bounds _ (month_range m)
        have := day_longest m
        have : 0 ≤ m % DAY := Int.emod_nonneg _ (by decide)
        simp only [DAY] at *; omega
      have hback : scopeBack a.scope m = 366 * DAY := by rw [hy]; rfl
      generalize anchorDt a.scope m = x at *
      by_cases hlast : x + MIN = a.stop + 1
      · -- the last minute
        left
        refine hnow (fun n h2 h3 => ?_)
        unfold Anchored.rollend
        by_cases hc : a.contains n = true
        · rw [hc]; rfl
        · rw [if_neg hc]
          rw [hcon n (by omega) h3] at hc
          rw [hpend n (by omega) h3, if_neg (by
            intro hlt
            apply hc
            split
            · simp only [MIN] at *; omega
            · simp only [MIN] at *; omega)]
          by_cases hq : x + (n - m) < a.stop
          · exfalso
            apply hc
            split
            · simp only [MIN] at *; omega
            · simp only [MIN] at *; omega
          · simp only [MIN] at *; omega
      · have hstep : ∀ n, m ≤ n → n < m + MIN → (x + (n - m) < a.stop ↔ x + MIN ≤ a.stop) := by
          intro n h2 h3; simp only [MIN] at *; omega
        have hstep' : ∀ n, m ≤ n → n < m + MIN → (a.start ≤ x + (n - m) ↔ a.start ≤ x) := by
          intro n h2 h3; simp only [MIN] at *; omega
        by_cases hc : a.contains m = true
        · left
          refine hnow (fun n h2 h3 => ?_)
          have : a.contains n = true := by
            rw [hcon m (by omega) (by simp only [MIN]; omega)] at hc
            rw [hcon n (by omega) h3]
            have e1 := hstep n (by omega) h3
            have e2 := hstep' n (by omega) h3
            have e3 := hstep m (by omega) (by simp only [MIN]; omega)
            have e4 := hstep' m (by omega) (by simp only [MIN]; omega)
            split at hc
            · rename_i hs; rw [if_pos hs]; omega
            · rename_i hs; rw [if_neg hs]; omega
          unfold Anchored.rollend
          rw [this]; rfl
        · right
          refine hold ?_ ?_
          · by_cases hq : x + MIN ≤ a.stop
            · refine ⟨m + (a.stop - x - 366 * DAY), Or.inl (by omega), fun n h2 h3 => ?_⟩
              rw [hpend n h2 h3, if_pos ((hstep n h2 h3).2 hq), hback]
            · refine ⟨m + (a.stop - x), Or.inl (by simp only [MIN] at *; omega), fun n h2 h3 => ?_⟩
              rw [hpend n h2 h3, if_neg (fun h => hq ((hstep n h2 h3).1 h))]
          · intro n h2 h3
            by_cases hn : a.contains n = true
            · exfalso
              apply hc
              rw [hcon n h2 h3] at hn
              rw [hcon m (by omega) (by simp only [MIN]; omega)]
              have e1 := hstep n h2 h3
              have e2 := hstep' n h2 h3
              have e3 := hstep m (by omega) (by simp only [MIN]; omega)
              have e4 := hstep' m (by omega) (by simp only [MIN]; omega)
              split at hn
              · rename_i hs; rw [if_pos hs]; omega
              · rename_i hs; rw [if_neg hs]; omega
            · simpa using hn
    · obtain ⟨k1, k2, -⟩ := g3 hy
      have hxm := ham.2.2.1
      have hbm := ham.2.2.2
      generalize anchorDt a.scope m = x at *
      generalize scopeBack a.scope m = b at *
      have hstep : ∀ n, m ≤ n → n < m + MIN → (x + (n - m) < a.stop ↔ x < a.stop) := by
        intro n h2 h3; simp only [MIN] at *; omega
      have hstep' : ∀ n, m ≤ n → n < m + MIN → (a.start ≤ x + (n - m) ↔ a.start ≤ x) := by
        intro n h2 h3; simp only [MIN] at *; omega
      have hsame : ∀ n, m ≤ n → n < m + MIN → (a.contains n = true ↔ a.contains m = true) := by
        intro n h2 h3
        rw [hcon n h2 h3, hcon m (by omega) (by simp only [MIN]; omega)]
        have e1 := hstep n h2 h3
        have e2 := hstep' n h2 h3
        have e3 := hstep m (by omega) (by simp only [MIN]; omega)
        have e4 := hstep' m (by omega) (by simp only [MIN]; omega)
        split <;> omega
      by_cases hc : a.contains m = true
      · left
        refine hnow (fun n h2 h3 => ?_)
        unfold Anchored.rollend
        rw [(hsame n (by omega) h3).2 hc]; rfl
      · right
        refine hold ?_ (fun n h2 h3 => ?_)
        · by_cases hq : x < a.stop
          · refine ⟨m + (a.stop - x - b), by simp only [MIN] at *; omega, fun n h2 h3 => ?_⟩
            rw [hpend n h2 h3, if_pos ((hstep n h2 h3).2 hq)]
          · refine ⟨m + (a.stop - x), by simp only [MIN] at *; omega, fun n h2 h3 => ?_⟩
            rw [hpend n h2 h3, if_neg (fun h => hq ((hstep n h2 h3).1 h))]
        · have := hsame n h2 h3
          by_cases hn : a.contains n = true
          · exact absurd (this.1 hn) hc
          · simpa using hn


/-- The same span, seen at two instants `n` and `n'` of the minute that starts at `m`. -/
structure SeenTwice (m n n' : Int) (i j : Interval) : Prop where
  left : i.left = j.left
  minute : i.left % MIN = 0
  closed : i.closed = j.closed
  right : (i.right = n ∧ j.right = n') ∨ (i.right = j.right ∧ (i.right ≤ m ∨ m + MIN ≤ i.right))

/-- Two instants inside the same minute. -/
structure InMinute (m n n' : Int) : Prop where
  start : m % MIN = 0
  lo : m < n
  hi : n < m + MIN
  lo' : m < n'
  hi' : n' < m + MIN

theorem SeenTwice.le {m n n' : Int} (h : InMinute m n n') {i j i' j' : Interval} (h1 : SeenTwice m n n' i j) (h2 : SeenTwice m n n' i' j') :
    decide (i.right ≥ i'.right) = decide (j.right ≥ j'.right) := by
  obtain ⟨a1, a2, a3, a4, a5⟩ := h
  obtain ⟨-, -, -, b4⟩ := h1
  obtain ⟨-, -, -, c4⟩ := h2
  simp only [decide_eq_decide, MIN] at *
  omega

theorem SeenTwice.overlaps {m n n' : Int} (h : InMinute m n n') {i j i' j' : Interval} (h1 : SeenTwice m n n' i j) (h2 : SeenTwice m n n' i' j') :
    i.overlaps i' = j.overlaps j' := by
  obtain ⟨a1, a2, a3, a4, a5⟩ := h
  obtain ⟨b1, b2, b3, b4⟩ := h1
  obtain ⟨c1, c2, c3, c4⟩ := h2
  rcases i with ⟨il, ir, ic⟩
  rcases j with ⟨jl, jr, jc⟩
  rcases i' with ⟨kl, kr, kc⟩
  rcases j' with ⟨ol, or, oc⟩
  simp only at b1 b2 b3 b4 c1 c2 c3 c4
  subst b1 b3 c1 c3
  have e1 : (ir < kl) = (jr < kl) := by simp only [MIN, eq_iff_iff] at *; omega
  have e2 : (il > kr) = (il > or) := by simp only [MIN, eq_iff_iff] at *; omega
  have e3 : (ir = kl) = (jr = kl) := by simp only [MIN, eq_iff_iff] at *; omega
  have e4 : (il = kr) = (il = or) := by simp only [MIN, eq_iff_iff] at *; omega
  unfold Interval.overlaps
  simp only [e1, e2, e3, e4]

theorem insertBy_seen {m n n' : Int} (h : InMinute m n n') {i j : Interval} (hij : SeenTwice m n n' i j) :
    ∀ {is js : List Interval}, List.Forall₂ (SeenTwice m n n') is js →
      List.Forall₂ (SeenTwice m n n') (insertBy (fun a b => decide (a.right ≥ b.right)) i is)
        (insertBy (fun a b => decide (a.right ≥ b.right)) j js)
  | _, _, .nil => .cons hij .nil
  | _, _, .cons h1 h2 => by
    simp only [insertBy, hij.le h h1]
    split
    · exact .cons hij (.cons h1 h2)
    · exact .cons h1 (insertBy_seen h hij h2)

theorem pySorted_seen {m n n' : Int} (h : InMinute m n n') :
    ∀ {is js : List Interval}, List.Forall₂ (SeenTwice m n n') is js →
      List.Forall₂ (SeenTwice m n n') (pySorted (fun a b => decide (a.right ≥ b.right)) is)
        (pySorted (fun a b => decide (a.right ≥ b.right)) js)
  | _, _, .nil => .nil
  | _, _, .cons h1 h2 => insertBy_seen h h1 (pySorted_seen h h2)

theorem extendLeft_seen {m n n' : Int} (h : InMinute m n n') :
    ∀ {is js : List Interval} {i j : Interval}, List.Forall₂ (SeenTwice m n n') is js → SeenTwice m n n' i j →
      SeenTwice m n n' (extendLeft i is) (extendLeft j js)
  | _, _, _, _, .nil, hij => hij
  | _, _, i, j, .cons h1 h2, hij => by
    simp only [extendLeft, h1.overlaps h hij, h1.left, hij.left]
    split
    · exact extendLeft_seen h h2 h1
    · exact hij

theorem mergeBack_seen {m n n' : Int} (h : InMinute m n n') {is js : List Interval} {i j : Interval}
    (hs : List.Forall₂ (SeenTwice m n n') is js) (hi : mergeBack is = .ok i) (hj : mergeBack js = .ok j) :
    SeenTwice m n n' i j := by
  unfold mergeBack at hi hj
  have hp := pySorted_seen h hs
  revert hi hj
  generalize pySorted (fun a b => decide (a.right ≥ b.right)) is = xs at *
  generalize pySorted (fun a b => decide (a.right ≥ b.right)) js = ys at *
  intro hi hj
  cases hp with
  | nil => simp at hi
  | cons h1 h2 =>
    simp only [Interval.make_ok] at hi hj
    obtain ⟨-, rfl⟩ := hi
    obtain ⟨-, rfl⟩ := hj
    have := extendLeft_seen h h2 h1
    exact ⟨this.left, this.minute, rfl, h1.right⟩

theorem mapE_seen {α : Type} {R : Interval → Interval → Prop} {f g : α → Except PyErr Interval} :
    ∀ {l : List α} {is js : List Interval}, (∀ p ∈ l, ∀ i j, f p = .ok i → g p = .ok j → R i j) →
      mapE f l = .ok is → mapE g l = .ok js → List.Forall₂ R is js
  | [], is, js, _, h1, h2 => by
    simp only [mapE, Except.ok.injEq] at h1 h2
    subst h1 h2
    exact .nil
  | p :: l, is, js, h, h1, h2 => by
    simp only [mapE] at h1 h2
    cases hf : f p with
    | error e => simp [hf] at h1
    | ok i =>
      cases hg : g p with
      | error e => simp [hg] at h2
      | ok j =>
        cases hfl : mapE f l with
        | error e => simp [hf, hfl] at h1
        | ok is' =>
          cases hgl : mapE g l with
          | error e => simp [hg, hgl] at h2
          | ok js' =>
            simp only [hf, hfl, Except.ok.injEq] at h1
            simp only [hg, hgl, Except.ok.injEq] at h2
            subst h1 h2
            exact .cons (h p (by simp) i j hf hg) (mapE_seen (fun q hq => h q (by simp [hq])) hfl hgl)

theorem good_seen {a : Anchored} (ha : Good a) {m n n' : Int} (h : InMinute m n n') {i j : Interval}
    (hi : a.rollback n = .ok i) (hj : a.rollback n' = .ok j) : SeenTwice m n n' i j := by
  obtain ⟨l, hl, hr | ⟨e, he, -, hr⟩⟩ := back_minute ha m h.start
  · rw [hr n h.lo h.hi, Interval.make_ok] at hi
    rw [hr n' h.lo' h.hi', Interval.make_ok] at hj
    obtain ⟨-, rfl⟩ := hi
    obtain ⟨-, rfl⟩ := hj
    exact ⟨rfl, hl, rfl, Or.inl ⟨rfl, rfl⟩⟩
  · rw [hr n h.lo h.hi, Interval.make_ok] at hi
    rw [hr n' h.lo' h.hi', Interval.make_ok] at hj
    obtain ⟨-, rfl⟩ := hi
    obtain ⟨-, rfl⟩ := hj
    exact ⟨rfl, hl, rfl, Or.inr ⟨rfl, he⟩⟩

/-- Two looks at a leaf from within one minute. -/
theorem leaf_seen {p : Period} (hl : CronLeaf p) {m n n' : Int} (h : InMinute m n n') {k k' : Nat} {i j : Interval}
    (hi : p.rollback k n = .ok i) (hj : p.rollback k' n' = .ok j) : SeenTwice m n n' i j := by
  cases k with
  | zero => simp [Period.rollback] at hi
  | succ k =>
    cases k' with
    | zero => simp [Period.rollback] at hj
    | succ k' =>
      rcases hl with ⟨a, rfl, ha⟩ | ⟨as, -, rfl, ha⟩
      · exact good_seen ha h hi hj
      · simp only [Period.rollback] at hi hj
        cases hx : mapE (fun p => Period.rollback k p n) (as.map .anchored) with
        | error e => simp [hx] at hi
        | ok is =>
          cases hy : mapE (fun p => Period.rollback k' p n') (as.map .anchored) with
          | error e => simp [hy] at hj
          | ok js =>
            simp only [hx] at hi
            simp only [hy] at hj
            refine mergeBack_seen h (mapE_seen ?_ hx hy) hi hj
            intro q hq u v hu hv
            obtain ⟨a, ha', rfl⟩ := List.mem_map.1 hq
            cases k with
            | zero => simp [Period.rollback] at hu
            | succ k =>
              cases k' with
              | zero => simp [Period.rollback] at hv
              | succ k' => exact good_seen (ha a ha') h hu hv

/-- A leaf that holds somewhere in the minute answers with a span that reaches the present. -/
theorem leaf_reaches {p : Period} (hl : CronLeaf p) {m n : Int} (h : InMinute m n n) (t : Int) (ht : m ≤ t) (ht' : t < m + MIN)
    (hm : sem p t) {k : Nat} {i : Interval} (hi : p.rollback k n = .ok i) :
    i.closed = .left ∧ n ≤ i.right := by
  have main : ∀ a, Good a → a.contains t = true → ∀ j, a.rollback n = .ok j → j.closed = .left ∧ j.right = n := by
    intro a ha hc j hj
    obtain ⟨l, hl, hr | ⟨e, he, hno, hr⟩⟩ := back_minute ha m h.start
    · rw [hr n h.lo h.hi, Interval.make_ok] at hj
      obtain ⟨-, rfl⟩ := hj
      exact ⟨rfl, rfl⟩
    · rw [hno t ht ht'] at hc
      exact absurd hc (by simp)
  cases k with
  | zero => simp [Period.rollback] at hi
  | succ k =>
    rcases hl with ⟨a, rfl, ha⟩ | ⟨as, -, rfl, ha⟩
    · rw [sem] at hm
      have := main a ha hm i hi
      exact ⟨this.1, by omega⟩
    · simp only [Period.rollback] at hi
      cases hx : mapE (fun p => Period.rollback k p n) (as.map .anchored) with
      | error e => simp [hx] at hi
      | ok is =>
        simp only [hx] at hi
        obtain ⟨m1, m2, -⟩ := mapE_ok hx
        rw [sem] at hm
        obtain ⟨q, hq, hqm⟩ := hm
        obtain ⟨j, hj, hqj⟩ := m1 q hq
        obtain ⟨a, ha', rfl⟩ := List.mem_map.1 hq
        rw [sem] at hqm
        have hjr : j.right = n := by
          cases k with
          | zero => simp [Period.rollback] at hqj
          | succ k => exact (main a (ha a ha') hqm j hqj).2
        obtain ⟨g1, -, -, g4, -⟩ := mergeBack_spec hi (fun _ => True) (by
          intro u hu
          refine ⟨?_, fun _ _ => trivial⟩
          obtain ⟨q, hq, hqu⟩ := m2 u hu
          obtain ⟨b, hb, rfl⟩ := List.mem_map.1 hq
          cases k with
          | zero => simp [Period.rollback] at hqu
          | succ k =>
            simp only [Period.rollback] at hqu
            obtain ⟨l, hl, hr | ⟨e, he, hno, hr⟩⟩ := back_minute (ha b hb) m h.start
            · rw [hr n h.lo h.hi, Interval.make_ok] at hqu
              rw [hqu.2]; rfl
            · rw [hr n h.lo h.hi, Interval.make_ok] at hqu
              rw [hqu.2]
              simp only
              split <;> rfl)
        have := g4 j hj
        exact ⟨g1, by omega⟩

/-- The last full minute. -/
theorem minutely_back {m n : Int} (h : InMinute m n n) {k : Nat} {i : Interval}
    (hi : Period.rollback k (.anchored minutely) n = .ok i) : i = ⟨m, n, .left⟩ := by
  cases k with
  | zero => simp [Period.rollback] at hi
  | succ k =>
    have e : Anchored.prevStart minutely n = m := by
      obtain ⟨a1, a2, a3, -, -⟩ := h
      have hx : anchorDt .minute n = n - m := by
        simp only [anchorDt, second, microsecond, toMicroseconds, MIN, SEC] at *
        omega
      have hs : minutely.scope = .minute := rfl
      have hs' : minutely.start = 0 := rfl
      simp only [Anchored.prevStart, hs, hs', hx]
      rw [if_neg (by omega)]
      omega
    have hf : Anchored.isFull minutely = true := by decide
    simp only [Period.rollback, Anchored.rollback, hf, if_true, e] at hi
    rw [if_neg (by have := h.lo; omega), Interval.make_ok] at hi
    exact hi.2

/-- The members cannot all reach the present if one of them answers with a span to come. -/
theorem all_stuck {ms : List Period} (hl : ∀ p ∈ ms, CronLeaf p) (hmin : .anchored minutely ∈ ms) {m : Int}
    (t : Int) (ht : m ≤ t) (ht' : t < m + MIN) (hm : ∀ p ∈ ms, sem p t) {p : Period} (hp : p ∈ ms) {k0 : Nat} {n0 : Int}
    {j0 : Interval} (hn0 : InMinute m n0 n0) (hj0 : p.rollback k0 n0 = .ok j0) (hlate : m + MIN ≤ j0.left) :
    ∀ (fuel : Nat) (n : Int), m < n → n < m + MIN → (fuel : Int) ≤ n - m →
      ∀ i, (Period.all ms).rollback fuel n ≠ .ok i := by
  intro fuel
  induction fuel with
  | zero => intro n _ _ _ i hi; simp [Period.rollback] at hi
  | succ fuel ih =>
    intro n h1 h2 h3 i hi
    have hin : InMinute m n n := ⟨hn0.start, h1, h2, h1, h2⟩
    simp only [Period.rollback] at hi
    cases hx : mapE (fun p => Period.rollback fuel p n) ms with
    | error e => simp [hx] at hi
    | ok is =>
      simp only [hx] at hi
      obtain ⟨m1, m2, -⟩ := mapE_ok hx
      obtain ⟨u, hu, hu'⟩ := m1 _ hmin
      obtain ⟨v, hv, hv'⟩ := m1 _ hp
      have hu1 := minutely_back hin hu'
      have hv1 := leaf_seen (hl p hp) ⟨hn0.start, h1, h2, hn0.lo, hn0.hi⟩ hv' hj0
      have hv2 := leaf_reaches (hl p hp) hin t ht ht' (hm p hp) hv'
      have hno : allOverlap is = false := by
        cases hov : allOverlap is with
        | false => rfl
        | true =>
          exfalso
          have hne : u ≠ v := by
            intro e
            have := hv1.left
            rw [← e, hu1] at this
            simp only [MIN] at *; omega
          have := (List.Pairwise.forall_of_forall_of_flip
            (R := fun a b : Interval => a ≠ b → a.overlaps b = true ∨ b.overlaps a = true) (l := is)
            (fun _ _ h => absurd rfl h)
            ((allOverlap_iff.1 hov).imp (fun h _ => Or.inl h))
            ((allOverlap_iff.1 hov).imp (fun h _ => Or.inr h))) hu hv hne
          have hvl : v.left ≥ m + MIN := by rw [hv1.left]; exact hlate
          rw [hu1] at this
          simp only [Interval.overlaps] at this
          have : False := by
            rcases this with h | h
            · rw [if_pos (by simp; omega)] at h; simp at h
            · rw [if_pos (by simp; omega)] at h; simp at h
          exact this
      rw [hno] at hi
      simp only [Bool.false_eq_true, if_false] at hi
      cases hmr : minRight is with
      | error e => simp [hmr] at hi
      | ok next =>
        simp only [hmr] at hi
        obtain ⟨r1, ⟨w, hw, hw'⟩⟩ := minRight_ok hmr
        have hwn : next = n := by
          have h1 := r1 u hu
          rw [hu1] at h1
          obtain ⟨q, hq, hq'⟩ := m2 w hw
          have := (leaf_reaches (hl q hq) hin t ht ht' (hm q hq) hq').2
          simp only at h1
          omega
        rw [if_pos hwn.symm] at hi
        cases fuel with
        | zero => simp [Period.rollback] at hi
        | succ fuel => exact ih (next - 1) (by omega) (by omega) (by omega) i hi

/-- Where the last span of the whole expression lies, for any day of the month and any month, from `fuel` microseconds
into the minute on. -/
theorem join_reaches {ms : List Period} (hl : ∀ p ∈ ms, CronLeaf p) (hmin : .anchored minutely ∈ ms) {m n : Int}
    (hin : InMinute m n n) (t : Int) (ht : m ≤ t) (ht' : t < m + MIN) (hm : ∀ p ∈ ms, sem p t) {fuel : Nat} {i : Interval}
    (hf : (fuel : Int) ≤ n - m) (h : (joinP ms).rollback fuel n = .ok i) : i.left ≤ m ∧ i.right = n := by
  match ms, hmin with
  | [p], hmin =>
    have : p = .anchored minutely := by simpa [eq_comm] using hmin
    subst this
    rw [joinP] at h
    rw [minutely_back hin h]
    simp
  | p :: q :: l, hmin =>
    rw [joinP] at h
    · generalize p :: q :: l = ps at *
      have hstuck := fun p (hp : p ∈ ps) k0 j0 hj0 hlate =>
        all_stuck hl hmin t ht ht' hm hp (k0 := k0) (j0 := j0) hin hj0 hlate fuel n hin.lo hin.hi hf i
      cases fuel with
      | zero => simp [Period.rollback] at h
      | succ fuel =>
        have h' := h
        simp only [Period.rollback] at h
        cases hx : mapE (fun p => Period.rollback fuel p n) ps with
        | error e => simp [hx] at h
        | ok is =>
          simp only [hx] at h
          obtain ⟨m1, m2, -⟩ := mapE_ok hx
          have each : ∀ j ∈ is, j.closed = .left ∧ j.left ≤ m ∧ n ≤ j.right := by
            intro j hj
            obtain ⟨p, hp, hpj⟩ := m2 j hj
            have k1 := leaf_reaches (hl p hp) hin t ht ht' (hm p hp) hpj
            have k2 := leaf_seen (hl p hp) hin hpj hpj
            refine ⟨k1.1, ?_, k1.2⟩
            refine Classical.byContradiction fun hlt => ?_
            refine hstuck p hp fuel j hpj ?_ h'
            have := k2.minute
            have := hin.start
            simp only [MIN] at *
            omega
          have hov : allOverlap is = true := allOverlap_of_common m (fun j hj => by
            have := each j hj
            have := hin.lo
            exact contains_of_between (by rw [(each j hj).1]; rfl) (each j hj).2.1 (by omega))
          rw [if_pos hov] at h
          obtain ⟨-, g2, ⟨x, hx, hx'⟩, ⟨y, hy, hy'⟩⟩ := reduceAnd_left (fun j hj => (each j hj).1) h
          have := each x hx
          have := each y hy
          obtain ⟨u, hu, hu'⟩ := m1 _ hmin
          have hu1 := minutely_back hin hu'
          have := g2 u hu
          rw [hu1] at this
          simp only at this
          omega
    · simp

end Rocketry.Props
