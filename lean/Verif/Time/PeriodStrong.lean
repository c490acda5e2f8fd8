import Verif.Time.PeriodForward

/-! # Rolling compound periods forward: earliest common time, termination -/

namespace Rocketry
open Spec Props

/-- A clock period whose own `rollforward` returns the first non-empty in-period span (this is what C03 and C07
prove; it fails for some monthly and yearly periods). -/
def Forward (a : Anchored) : Prop :=
  ∀ (n : Nat) (dt : Int), ∃ l r, Anchored.rollforward (n + 1) a dt = .ok ⟨l, r, .left⟩ ∧
    dt ≤ l ∧ l < r ∧ (∀ x, dt ≤ x → x < l → ¬ a.contains x = true) ∧
    (∀ x, l ≤ x → x < r → a.contains x = true)

theorem forward_full {a : Anchored} (he : 0 ≤ a.stop) (hf : a.isFull = true) : Forward a := by
  intro n dt
  have h1 := nextEnd_gt he dt
  refine ⟨dt, a.nextEnd dt, ?_, by omega, h1, by intros; omega, ?_⟩
  · unfold Anchored.rollforward
    simp only [hf, if_true]
    rw [if_neg (by omega)]
    exact Interval.make_ok.2 ⟨by omega, rfl⟩
  · intros; simp [Anchored.contains, hf]

theorem forward_fixed {a : Anchored} {L : Int} (hL : cycleLen a.scope = some L) (hb : Bounds a L)
    (hd : ¬ Degenerate a L) : Forward a := by
  by_cases hf : a.isFull = true
  · exact forward_full hb.3 hf
  · intro n dt
    obtain ⟨l, r, h1, h2⟩ := C03_rollforward_partial a L hL hb (by simpa using hf) hd n dt
    refine ⟨l, r, h1, h2.ge, h2.nonempty, ?_, ?_⟩
    · intro x hx1 hx2 hx3; exact h2.none_before x hx1 hx2 ((C02_contains a L hL hb x).1 hx3)
    · intro x hx1 hx2; exact (C02_contains a L hL hb x).2 (h2.inside x hx1 hx2)

theorem forward_month {s e : Int} (hs : 0 ≤ s) (hs' : s ≤ 28 * DAY) (he : 0 ≤ e) (he' : e ≤ 28 * DAY)
    (h0 : ¬ (s = 0 ∧ e = 28 * DAY)) (h1 : ¬ (s = 28 * DAY ∧ e = 0)) : Forward ⟨.month, s, e⟩ := by
  by_cases hf : Anchored.isFull ⟨.month, s, e⟩ = true
  · exact forward_full he hf
  · intro n dt
    have hf' : Anchored.isFull ⟨.month, s, e⟩ = false := by simpa using hf
    have hse : s ≠ e := by
      intro h; subst h; simp [Anchored.isFull] at hf'
    obtain ⟨l, r, h1, h2⟩ := (C07_up_to_28th s e hs hs' he he' hse h0 h1 dt n).1
    refine ⟨l, r, h1, h2.ge, h2.nonempty, ?_, ?_⟩
    · intro x hx1 hx2 hx3; exact h2.none_before x hx1 hx2 ((C07_contains s e x).1 hx3)
    · intro x hx1 hx2; exact (C07_contains s e x).2 (h2.inside x hx1 hx2)

/-- Every clock period inside rolls forward correctly. -/
def Fwd : Period → Prop
  | .anchored a => Forward a
  | .static _ _ => True
  | .always => True
  | .delta _ _ => False
  | .span _ _ => False
  | .relday _ _ _ => False
  | .all ps => ∀ p, p ∈ ps → Fwd p
  | .any ps => ∀ p, p ∈ ps → Fwd p
termination_by p => sizeOf p
decreasing_by
  all_goals
    have := List.sizeOf_lt_of_mem ‹_ ∈ _›
    simp only [Period.all.sizeOf_spec, Period.any.sizeOf_spec]
    omega

theorem forward_ok {a : Anchored} (ha : Forward a) {n : Nat} {dt : Int} {i : Interval}
    (h : Anchored.rollforward n a dt = .ok i) :
    i.closed = .left ∧ dt ≤ i.left ∧ i.left < i.right ∧ (∀ x, dt ≤ x → x < i.left → ¬ a.contains x = true) ∧
    (∀ x, i.left ≤ x → x < i.right → a.contains x = true) := by
  cases n with
  | zero => simp [Anchored.rollforward] at h
  | succ n =>
    obtain ⟨l, r, h1, h2⟩ := ha n dt
    rw [h1] at h
    simp only [Except.ok.injEq] at h
    subst h
    exact ⟨rfl, h2⟩

/-- A returned span: well formed, inside the period, and nothing of the period lies before it. -/
structure Span (p : Period) (dt : Int) (i : Interval) : Prop where
  closed : i.closed = .left
  ge : min dt MAXT ≤ i.left
  ordered : i.left ≤ i.right
  inside : ∀ x, i.left ≤ x → x < i.right → sem p x
  none_before : ∀ x, dt ≤ x → x < i.left → ¬ sem p x

theorem static_span {p : Period} {s e dt : Int} {i : Interval} (hp : ∀ t, sem p t ↔ s ≤ t ∧ t < e)
    (h : staticForward s e dt = .ok i) : Span p dt i := by
  unfold staticForward at h
  split at h <;> rw [Interval.make_ok] at h <;> obtain ⟨h1, rfl⟩ := h <;>
    refine ⟨rfl, by simp only; omega, by simp only; omega, ?_, ?_⟩ <;>
    · simp only [hp]; intro x; omega

theorem closed_opened {is : List Interval} (hcl : ∀ j ∈ is, j.closed = .left) (next : Int) :
    (is.any fun i => decide (i.left = next) && !i.closed.incLeft) = false := by
  rw [Bool.eq_false_iff]
  intro hh
  rw [List.any_eq_true] at hh
  obtain ⟨j, hj, hj'⟩ := hh
  rw [hcl j hj] at hj'
  simp [Closed.incLeft] at hj'

theorem reduceAnd_ordered {is : List Interval} {i : Interval} (hcl : ∀ j ∈ is, j.closed = .left)
    (hor : ∀ j ∈ is, j.left ≤ j.right) (ho : allOverlap is = true) (h : reduceAnd is = .ok i) :
    i.left ≤ i.right := by
  obtain ⟨_, _, ⟨x, hx, hx'⟩, ⟨y, hy, hy'⟩⟩ := reduceAnd_left hcl h
  rw [allOverlap_iff] at ho
  have := forall_of_pairwise (R := fun a b => a.left ≤ b.right ∧ b.left ≤ a.right)
    (fun a b h => ⟨h.2, h.1⟩)
    (ho.imp_of_mem (fun {a b} ha hb hab => by
      have := (overlaps_left (hcl a ha) (hcl b hb)).1 hab
      omega))
    (fun a ha => ⟨hor a ha, hor a ha⟩)
  have := (this x hx y hy).1
  omega

theorem rollforward_span : ∀ (n : Nat) (p : Period) (dt : Int) (i : Interval), Fwd p →
    p.rollforward n dt = .ok i → Span p dt i := by
  intro n
  induction n with
  | zero => intro p dt i _ h; simp [Period.rollforward] at h
  | succ n ih =>
    intro p dt i hp h
    cases p with
    | anchored a =>
      simp only [Fwd] at hp
      simp only [Period.rollforward] at h
      have hw := forward_ok hp h
      exact ⟨hw.1, by omega, by omega, by simpa only [sem] using hw.2.2.2.2, by simpa only [sem] using hw.2.2.2.1⟩
    | static s e =>
      simp only [Period.rollforward] at h
      exact static_span (fun t => by rw [sem]) h
    | always =>
      simp only [Period.rollforward] at h
      exact static_span (fun t => by rw [sem]) h
    | delta a b => simp [Fwd] at hp
    | span a b => simp [Fwd] at hp
    | relday a b c => simp [Fwd] at hp
    | all ps =>
      have hps : ∀ p ∈ ps, Fwd p := by simpa only [Fwd] using hp
      simp only [Period.rollforward] at h
      cases hm : mapE (fun p => Period.rollforward n p dt) ps with
      | error e => simp [hm] at h
      | ok is =>
        simp only [hm] at h
        obtain ⟨m1, m2, m3⟩ := mapE_ok hm
        have hsp : ∀ j ∈ is, ∃ p ∈ ps, Span p dt j := by
          intro j hj
          obtain ⟨p, hp, hpj⟩ := m2 j hj
          exact ⟨p, hp, ih p dt j (hps p hp) hpj⟩
        have hcl : ∀ j ∈ is, j.closed = .left := by
          intro j hj; obtain ⟨p, _, hs⟩ := hsp j hj; exact hs.closed
        have hor : ∀ j ∈ is, j.left ≤ j.right := by
          intro j hj; obtain ⟨p, _, hs⟩ := hsp j hj; exact hs.ordered
        split at h
        · rename_i hov
          obtain ⟨r1, r2, ⟨x, hx, hx'⟩, _⟩ := reduceAnd_left hcl h
          obtain ⟨p, hp, hs⟩ := hsp x hx
          refine ⟨r1, by have := hs.ge; omega, reduceAnd_ordered hcl hor hov h, ?_, ?_⟩
          · intro t h1 h2
            rw [sem]
            intro q hq
            obtain ⟨j, hj, hqj⟩ := m1 q hq
            have := r2 j hj
            exact (ih q dt j (hps q hq) hqj).inside t (by omega) (by omega)
          · intro t h1 h2 hall
            rw [sem] at hall
            exact hs.none_before t h1 (by omega) (hall p hp)
        · cases hmx : maxLeft is with
          | error e => simp [hmx] at h
          | ok next =>
            simp only [hmx, closed_opened hcl, Bool.false_eq_true, if_false] at h
            obtain ⟨x1, ⟨x, hx, hx'⟩⟩ := maxLeft_ok hmx
            have hr := ih (.all ps) next i hp h
            obtain ⟨p, hp, hs⟩ := hsp x hx
            refine ⟨hr.closed, by have := hr.ge; have := hs.ge; omega, hr.ordered, hr.inside, ?_⟩
            intro t h1 h2 hall
            by_cases ht : t < next
            · rw [sem] at hall
              exact hs.none_before t h1 (by omega) (hall p hp)
            · exact hr.none_before t (by omega) h2 hall
    | any ps =>
      have hps : ∀ p ∈ ps, Fwd p := by simpa only [Fwd] using hp
      simp only [Period.rollforward] at h
      cases hm : mapE (fun p => Period.rollforward n p dt) ps with
      | error e => simp [hm] at h
      | ok is =>
        simp only [hm] at h
        obtain ⟨m1, m2, m3⟩ := mapE_ok hm
        obtain ⟨g1, g2, g3, ⟨x, hx, hx1, hx2⟩, _⟩ := mergeForward_ok h
        obtain ⟨p, hp, hpx⟩ := m2 x hx
        refine ⟨g1, by have := (ih p dt x (hps p hp) hpx).ge; omega, g2, ?_, ?_⟩
        · refine mergeForward_cover h (sem (.any ps)) ?_
          intro j hj
          obtain ⟨q, hq, hqj⟩ := m2 j hj
          have hs := ih q dt j (hps q hq) hqj
          refine ⟨hs.closed, fun t h1 h2 => ?_⟩
          rw [sem]
          exact ⟨q, hq, hs.inside t h1 h2⟩
        · intro t h1 h2 hs
          rw [sem] at hs
          obtain ⟨q, hq, hs⟩ := hs
          obtain ⟨j, hj, hqj⟩ := m1 q hq
          exact (ih q dt j (hps q hq) hqj).none_before t h1 (by have := g3 j hj; omega) hs

/-! ### termination -/

/-- Conditions under which rolling forward from every instant of `[lo, hi]` finds a span: an intersection has a
common instant at or after `hi`, a static interval has not ended. -/
def Live : Period → Int → Int → Prop
  | .anchored _, _, _ => True
  | .static s e, _, hi => s < e ∧ hi < e
  | .always, _, hi => hi < MAXT
  | .delta _ _, _, _ => False
  | .span _ _, _, _ => False
  | .relday _ _ _, _, _ => False
  | .all ps, lo, hi => ps ≠ [] ∧ ∃ x, hi ≤ x ∧ sem (.all ps) x ∧ ∀ p, p ∈ ps → Live p lo x
  | .any ps, lo, hi => ps ≠ [] ∧ ∀ p, p ∈ ps → Live p lo hi
termination_by p => sizeOf p
decreasing_by
  all_goals
    have := List.sizeOf_lt_of_mem ‹_ ∈ _›
    simp only [Period.all.sizeOf_spec, Period.any.sizeOf_spec]
    omega

theorem list_bound {α : Type} {l : List α} {P : α → Nat → Prop} (h : ∀ a ∈ l, ∃ N, ∀ n, N ≤ n → P a n) :
    ∃ N, ∀ n, N ≤ n → ∀ a ∈ l, P a n := by
  induction l with
  | nil => exact ⟨0, by simp⟩
  | cons a l ih =>
    obtain ⟨N, hN⟩ := h a (by simp)
    obtain ⟨M, hM⟩ := ih (fun b hb => h b (by simp [hb]))
    refine ⟨max N M, fun n hn b hb => ?_⟩
    rcases List.mem_cons.1 hb with rfl | hb
    · exact hN n (by omega)
    · exact hM n (by omega) b hb

theorem static_live {s e dt : Int} (h : s < e) (h' : dt < e) :
    staticForward s e dt = .ok ⟨max s dt, e, .left⟩ ∧ max s dt < e := by
  unfold staticForward
  rw [if_neg (by omega), Interval.make_ok]
  exact ⟨⟨by omega, rfl⟩, by omega⟩

theorem rollforward_live : ∀ (p : Period) (lo hi : Int), Fwd p → Live p lo hi →
    ∃ N, ∀ n, N ≤ n → ∀ dt, lo ≤ dt → dt ≤ hi →
      ∃ i, p.rollforward n dt = .ok i ∧ dt ≤ i.left ∧ i.left < i.right := by
  intro p
  induction p using Period.induct with
  | hanch a =>
    intro lo hi hf _
    simp only [Fwd] at hf
    refine ⟨1, fun n hn dt _ _ => ?_⟩
    obtain ⟨m, rfl⟩ : ∃ m, n = m + 1 := ⟨n - 1, by omega⟩
    obtain ⟨l, r, h1, h2⟩ := hf m dt
    exact ⟨_, h1, h2.1, h2.2.1⟩
  | hstat s e =>
    intro lo hi _ hl
    simp only [Live] at hl
    refine ⟨1, fun n hn dt _ hd => ?_⟩
    obtain ⟨m, rfl⟩ : ∃ m, n = m + 1 := ⟨n - 1, by omega⟩
    have := static_live (s := s) (e := e) (dt := dt) hl.1 (by omega)
    exact ⟨_, this.1, by simp only; omega, this.2⟩
  | halw =>
    intro lo hi _ hl
    simp only [Live] at hl
    refine ⟨1, fun n hn dt _ hd => ?_⟩
    obtain ⟨m, rfl⟩ : ∃ m, n = m + 1 := ⟨n - 1, by omega⟩
    have := static_live (s := MINT) (e := MAXT) (dt := dt) (by decide) (by omega)
    exact ⟨_, this.1, by simp only; omega, this.2⟩
  | hdel a b => intro lo hi hf; simp [Fwd] at hf
  | hspan a b => intro lo hi hf; simp [Fwd] at hf
  | hrel a b c => intro lo hi hf; simp [Fwd] at hf
  | hany ps ih =>
    intro lo hi hf hl
    have hps : ∀ p ∈ ps, Fwd p := by simpa only [Fwd] using hf
    rw [Live] at hl
    obtain ⟨N, hN⟩ := list_bound (l := ps) (P := fun p n => ∀ dt, lo ≤ dt → dt ≤ hi →
      ∃ i, p.rollforward n dt = .ok i ∧ dt ≤ i.left ∧ i.left < i.right)
      (fun p hp => ih p hp lo hi (hps p hp) (hl.2 p hp))
    refine ⟨N + 1, fun n hn dt h1 h2 => ?_⟩
    obtain ⟨m, rfl⟩ : ∃ m, n = m + 1 := ⟨n - 1, by omega⟩
    have hN' := hN m (by omega)
    obtain ⟨is, his⟩ := mapE_total (f := fun p => Period.rollforward m p dt) (l := ps)
      (fun p hp => by obtain ⟨i, hi, _⟩ := hN' p hp dt h1 h2; exact ⟨i, hi⟩)
    obtain ⟨m1, m2, m3⟩ := mapE_ok his
    have hlt : ∀ j ∈ is, dt ≤ j.left ∧ j.left < j.right := by
      intro j hj
      obtain ⟨p, hp, hpj⟩ := m2 j hj
      obtain ⟨i, hi, hi'⟩ := hN' p hp dt h1 h2
      simp only [hi, Except.ok.injEq] at hpj
      subst hpj; exact hi'
    obtain ⟨c, hc⟩ := mergeForward_total (is := is) (fun h => hl.1 (m3 h))
      (fun j hj => by have := hlt j hj; omega)
    refine ⟨c, ?_, ?_⟩
    · simp only [Period.rollforward, his, hc]
    · obtain ⟨_, _, _, ⟨x, hx, hx1, hx2⟩, _⟩ := mergeForward_ok hc
      have := hlt x hx
      omega
  | hall ps ih =>
    intro lo hi hf hl
    have hps : ∀ p ∈ ps, Fwd p := by simpa only [Fwd] using hf
    rw [Live] at hl
    obtain ⟨hne, x, hx, hsem, hlive⟩ := hl
    obtain ⟨N, hN⟩ := list_bound (l := ps) (P := fun p n => ∀ dt, lo ≤ dt → dt ≤ x →
      ∃ i, p.rollforward n dt = .ok i ∧ dt ≤ i.left ∧ i.left < i.right)
      (fun p hp => ih p hp lo x (hps p hp) (hlive p hp))
    have key : ∀ (k : Nat) (dt : Int), lo ≤ dt → dt ≤ x → x - dt < k → ∀ n, N + k ≤ n →
        ∃ i, (Period.all ps).rollforward n dt = .ok i ∧ dt ≤ i.left ∧ i.left < i.right := by
      intro k
      induction k with
      | zero => intro dt h1 h2 h3; omega
      | succ k ihk =>
        intro dt h1 h2 h3 n hn
        obtain ⟨m, rfl⟩ : ∃ m, n = m + 1 := ⟨n - 1, by omega⟩
        have hN' := hN m (by omega)
        obtain ⟨is, his⟩ := mapE_total (f := fun p => Period.rollforward m p dt) (l := ps)
          (fun p hp => by obtain ⟨i, hi, _⟩ := hN' p hp dt h1 h2; exact ⟨i, hi⟩)
        obtain ⟨m1, m2, m3⟩ := mapE_ok his
        have hsp : ∀ j ∈ is, j.closed = .left ∧ dt ≤ j.left ∧ j.left < j.right ∧ j.left ≤ x := by
          intro j hj
          obtain ⟨p, hp, hpj⟩ := m2 j hj
          obtain ⟨i, hi, hi'⟩ := hN' p hp dt h1 h2
          have hs := rollforward_span m p dt j (hps p hp) hpj
          simp only [hi, Except.ok.injEq] at hpj
          subst hpj
          refine ⟨hs.closed, hi'.1, hi'.2, ?_⟩
          by_contra hc
          rw [sem] at hsem
          exact hs.none_before x h2 (by omega) (hsem p hp)
        obtain ⟨a, l, rfl⟩ : ∃ a l, is = a :: l := by
          cases is with
          | nil => exact absurd (m3 rfl) hne
          | cons a l => exact ⟨a, l, rfl⟩
        have hcl : ∀ j ∈ a :: l, j.closed = .left := fun j hj => (hsp j hj).1
        by_cases hov : allOverlap (a :: l) = true
        · have hlt := (allOverlap_left hcl (fun j hj => (hsp j hj).2.2.1)).1 hov
          obtain ⟨c, hc⟩ := reduceFrom_total (a := a) (l := l) hcl
            (fun i hi j hj => by have := hlt i hi j hj; omega)
          refine ⟨c, ?_, ?_⟩
          · simp only [Period.rollforward, his, hov, if_true, reduceAnd, hc]
          · obtain ⟨_, _, ⟨y, hy, hy'⟩, ⟨z, hz, hz'⟩⟩ := reduceFrom_left hcl hc
            have := hsp y hy; have := hlt y hy z hz; omega
        · have hmx : ∃ next, maxLeft (a :: l) = .ok next := ⟨_, rfl⟩
          obtain ⟨next, hnext⟩ := hmx
          obtain ⟨x1, ⟨y, hy, hy'⟩⟩ := maxLeft_ok hnext
          have hgt : dt < next := by
            by_contra hc
            apply hov
            rw [allOverlap_left hcl (fun j hj => (hsp j hj).2.2.1)]
            intro i hi j hj
            have := x1 i hi; have := hsp i hi; have := hsp j hj
            omega
          have := hsp y hy
          obtain ⟨c, hc, hc1, hc2⟩ := ihk next (by omega) (by omega) (by omega) m (by omega)
          refine ⟨c, ?_, by omega, hc2⟩
          simp only [Period.rollforward, his, hov, hnext, closed_opened hcl, Bool.false_eq_true, if_false, hc]
    refine ⟨N + (x - lo).toNat + 1, fun n hn dt h1 h2 => ?_⟩
    exact key ((x - lo).toNat + 1) dt h1 (by omega) (by omega) n (by omega)

/-! ### divergence -/

/-- Contains clock periods only (no static interval). -/
def ClockOnly : Period → Prop
  | .anchored a => Forward a
  | .all ps => ps ≠ [] ∧ ∀ p, p ∈ ps → ClockOnly p
  | .any ps => ps ≠ [] ∧ ∀ p, p ∈ ps → ClockOnly p
  | _ => False
termination_by p => sizeOf p
decreasing_by
  all_goals
    have := List.sizeOf_lt_of_mem ‹_ ∈ _›
    simp only [Period.all.sizeOf_spec, Period.any.sizeOf_spec]
    omega

theorem clockOnly_fwd : ∀ p, ClockOnly p → Fwd p := by
  intro p
  induction p using Period.induct with
  | hanch a => intro h; rw [ClockOnly] at h; rw [Fwd]; exact h
  | hall ps ih => intro h; rw [ClockOnly] at h; rw [Fwd]; exact fun p hp => ih p hp (h.2 p hp)
  | hany ps ih => intro h; rw [ClockOnly] at h; rw [Fwd]; exact fun p hp => ih p hp (h.2 p hp)
  | _ => intro h; simp [ClockOnly] at h

/-- Clock-only compounds either return a non-empty span at or after `dt`, or exhaust the recursion. -/
theorem clockOnly_result : ∀ (n : Nat) (p : Period) (dt : Int), ClockOnly p →
    (∃ i, p.rollforward n dt = .ok i ∧ dt ≤ i.left ∧ i.left < i.right) ∨
      p.rollforward n dt = .error .recursion := by
  intro n
  induction n with
  | zero => intro p dt _; right; simp [Period.rollforward]
  | succ n ih =>
    intro p dt hp
    cases p with
    | anchored a =>
      rw [ClockOnly] at hp
      obtain ⟨l, r, h1, h2⟩ := hp n dt
      left
      exact ⟨_, by simp only [Period.rollforward]; exact h1, h2.1, h2.2.1⟩
    | all ps =>
      have hp' := hp
      rw [ClockOnly] at hp
      cases hm : mapE (fun p => Period.rollforward n p dt) ps with
      | error e =>
        right
        obtain ⟨p, hp1, hp2⟩ := mapE_error hm
        rcases ih p dt (hp.2 p hp1) with ⟨i, hi, _⟩ | h
        · simp [hi] at hp2
        · simp only [h, Except.error.injEq] at hp2
          subst hp2
          simp only [Period.rollforward, hm]
      | ok is =>
        obtain ⟨m1, m2, m3⟩ := mapE_ok hm
        have hsp : ∀ j ∈ is, j.closed = .left ∧ dt ≤ j.left ∧ j.left < j.right := by
          intro j hj
          obtain ⟨p, hp1, hpj⟩ := m2 j hj
          have hs := rollforward_span n p dt j (clockOnly_fwd p (hp.2 p hp1)) hpj
          rcases ih p dt (hp.2 p hp1) with ⟨i, hi, hi'⟩ | h
          · simp only [hi, Except.ok.injEq] at hpj
            subst hpj
            exact ⟨hs.closed, hi'⟩
          · simp [h] at hpj
        obtain ⟨a, l, rfl⟩ : ∃ a l, is = a :: l := by
          cases is with
          | nil => exact absurd (m3 rfl) hp.1
          | cons a l => exact ⟨a, l, rfl⟩
        have hcl : ∀ j ∈ a :: l, j.closed = .left := fun j hj => (hsp j hj).1
        by_cases hov : allOverlap (a :: l) = true
        · left
          have hlt := (allOverlap_left hcl (fun j hj => (hsp j hj).2.2)).1 hov
          obtain ⟨c, hc⟩ := reduceFrom_total (a := a) (l := l) hcl
            (fun i hi j hj => by have := hlt i hi j hj; omega)
          refine ⟨c, ?_, ?_⟩
          · simp only [Period.rollforward, hm, hov, if_true, reduceAnd, hc]
          · obtain ⟨_, _, ⟨y, hy, hy'⟩, ⟨z, hz, hz'⟩⟩ := reduceFrom_left hcl hc
            have := hsp y hy; have := hlt y hy z hz; omega
        · obtain ⟨next, hnext⟩ : ∃ next, maxLeft (a :: l) = .ok next := ⟨_, rfl⟩
          obtain ⟨x1, ⟨y, hy, hy'⟩⟩ := maxLeft_ok hnext
          have := hsp y hy
          have e : Period.rollforward (n + 1) (.all ps) dt = Period.rollforward n (.all ps) next := by
            simp only [Period.rollforward, hm, hov, hnext, closed_opened hcl, Bool.false_eq_true, if_false]
          rw [e]
          rcases ih (.all ps) next hp' with ⟨i, hi, h1, h2⟩ | h
          · exact Or.inl ⟨i, hi, by omega, h2⟩
          · exact Or.inr h
    | any ps =>
      rw [ClockOnly] at hp
      cases hm : mapE (fun p => Period.rollforward n p dt) ps with
      | error e =>
        right
        obtain ⟨p, hp1, hp2⟩ := mapE_error hm
        rcases ih p dt (hp.2 p hp1) with ⟨i, hi, _⟩ | h
        · simp [hi] at hp2
        · simp only [h, Except.error.injEq] at hp2
          subst hp2
          simp only [Period.rollforward, hm]
      | ok is =>
        left
        obtain ⟨m1, m2, m3⟩ := mapE_ok hm
        have hsp : ∀ j ∈ is, dt ≤ j.left ∧ j.left < j.right := by
          intro j hj
          obtain ⟨p, hp1, hpj⟩ := m2 j hj
          rcases ih p dt (hp.2 p hp1) with ⟨i, hi, hi'⟩ | h
          · simp only [hi, Except.ok.injEq] at hpj
            subst hpj
            exact hi'
          · simp [h] at hpj
        obtain ⟨c, hc⟩ := mergeForward_total (is := is) (fun h => hp.1 (m3 h))
          (fun j hj => by have := hsp j hj; omega)
        refine ⟨c, by simp only [Period.rollforward, hm, hc], ?_⟩
        obtain ⟨_, _, _, ⟨x, hx, hx1, hx2⟩, _⟩ := mergeForward_ok hc
        have := hsp x hx
        omega
    | _ => simp [ClockOnly] at hp

/-- The result does not depend on the recursion budget once it suffices. -/
theorem rollforward_mono : ∀ (n : Nat) (p : Period) (dt : Int) (i : Interval), p.rollforward n dt = .ok i →
    p.rollforward (n + 1) dt = .ok i := by
  intro n
  induction n with
  | zero => intro p dt i h; simp [Period.rollforward] at h
  | succ n ih =>
    intro p dt i h
    cases p with
    | anchored a =>
      simp only [Period.rollforward] at h ⊢
      clear ih
      generalize hk : n + 1 = k at h ⊢
      clear hk n
      induction k generalizing dt with
      | zero => simp [Anchored.rollforward] at h
      | succ k ihk =>
        unfold Anchored.rollforward at h ⊢
        split at h
        · rename_i hf
          simpa only [hf, if_true] using h
        · rename_i hf
          simp only [hf, Bool.false_eq_true, if_false] at h ⊢
          split at h
          · rename_i he
            rw [if_pos he]
            exact ihk _ h
          · rename_i he
            rw [if_neg he]
            exact h
    | all ps =>
      rw [Period.rollforward] at h ⊢
      cases hm : mapE (fun p => Period.rollforward n p dt) ps with
      | error e => simp [hm] at h
      | ok is =>
        have hm' := mapE_congr_ok hm (g := fun p => Period.rollforward (n + 1) p dt)
          (fun p _ b hb => ih p dt b hb)
        simp only [hm, hm'] at h ⊢
        split at h
        · rename_i hov; rw [if_pos hov]; exact h
        · rename_i hov
          rw [if_neg hov]
          cases hmx : maxLeft is with
          | error e => simp [hmx] at h
          | ok next =>
            simp only [hmx] at h ⊢
            exact ih _ _ _ h
    | any ps =>
      rw [Period.rollforward] at h ⊢
      cases hm : mapE (fun p => Period.rollforward n p dt) ps with
      | error e => simp [hm] at h
      | ok is =>
        have hm' := mapE_congr_ok hm (g := fun p => Period.rollforward (n + 1) p dt)
          (fun p _ b hb => ih p dt b hb)
        simp only [hm, hm'] at h ⊢
        exact h
    | static s e => simpa only [Period.rollforward] using h
    | always => simpa only [Period.rollforward] using h
    | delta a b => simpa only [Period.rollforward] using h
    | span a b => simpa only [Period.rollforward] using h
    | relday a b c => simpa only [Period.rollforward] using h

end Rocketry
