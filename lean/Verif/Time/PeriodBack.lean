import Verif.Time.PeriodStrong

/-! # Rolling compound periods back: helper lemmas -/

namespace Rocketry
open Spec Props

/-- A clock period whose own `rollback` returns the last in-period span up to `dt` (C04, C07). -/
def Backward (a : Anchored) : Prop :=
  ∀ dt : Int, ∃ l r, a.rollback dt = .ok ⟨l, r, if l = r then .both else .left⟩ ∧ l ≤ r ∧ r ≤ dt ∧
    (l = r → r = dt ∧ a.contains dt = true) ∧
    (∀ x, l ≤ x → x < r → a.contains x = true) ∧ (∀ x, r ≤ x → x < dt → ¬ a.contains x = true) ∧
    (r = dt → a.contains (dt - 1) = true → l < dt)

theorem backward_of_lastRun {a : Anchored} {In : Int → Prop} (hin : ∀ t, a.contains t = true ↔ In t)
    (h : ∀ dt, ∃ l r, a.rollback dt = .ok ⟨l, r, if l = r then .both else .left⟩ ∧ LastRun In dt l r) :
    Backward a := by
  intro dt
  obtain ⟨l, r, h1, h2⟩ := h dt
  refine ⟨l, r, h1, h2.ordered, h2.le, ?_, ?_, ?_, ?_⟩
  · intro h; exact ⟨(h2.degenerate h).1, (hin _).2 (h2.degenerate h).2⟩
  · intro x a b; exact (hin x).2 (h2.inside x a b)
  · intro x a b c; exact h2.none_after x a b ((hin x).1 c)
  · intro hr hc
    have := h2.ordered
    have := h2.entry
    by_contra hlt
    obtain rfl : l = dt := by omega
    exact this.2 ((hin _).1 hc)

/-- The whole-cycle periods, `TimeOf…()`. -/
theorem backward_whole (sc : Scope) : Backward ⟨sc, 0, sc.max⟩ := by
  intro dt
  have hf : Anchored.isFull ⟨sc, 0, sc.max⟩ = true := by simp [Anchored.isFull]
  have hp : ∀ t, Anchored.prevStart ⟨sc, 0, sc.max⟩ t = t - anchorDt sc t := by
    intro t
    have := (anchorDt_bounds sc t).1
    unfold Anchored.prevStart
    simp only
    rw [if_neg (by omega)]
    omega
  have h1 := (anchorDt_bounds sc dt).1
  have h2 := (anchorDt_bounds sc (dt - 1)).1
  have hl : ∃ l, l = (if dt = dt - anchorDt sc dt then (dt - 1) - anchorDt sc (dt - 1) else dt - anchorDt sc dt) ∧
      l < dt := by
    refine ⟨_, rfl, ?_⟩
    split <;> omega
  obtain ⟨l, hl1, hl2⟩ := hl
  refine ⟨l, dt, ?_, by omega, by omega, by intro h; omega, ?_, ?_, fun _ _ => hl2⟩
  · unfold Anchored.rollback
    simp only [hf, if_true, hp]
    rw [← hl1, if_neg (by omega)]
    exact Interval.make_ok.2 ⟨by omega, rfl⟩
  · intros; simp [Anchored.contains, hf]
  · intro x a b; omega

theorem backward_fixed {a : Anchored} {L : Int} (hL : cycleLen a.scope = some L) (hb : Bounds a L)
    (hd : ¬ Degenerate a L) : Backward a := by
  by_cases hf : a.isFull = true
  · intro dt
    obtain ⟨l, h1, h2⟩ := C04_rollback_full a L hL hb hf dt
    have := h2.le
    refine ⟨l, dt, ?_, by omega, by omega, by intro h; omega, ?_, by intros; omega, by intros; omega⟩
    · rw [if_neg (by omega)]; exact h1
    · intros; simp [Anchored.contains, hf]
  · exact backward_of_lastRun (C02_contains a L hL hb) (fun dt => C04_rollback_partial a L hL hb (by simpa using hf) hd dt)

theorem backward_month {s e : Int} (hs : 0 ≤ s) (hs' : s ≤ 28 * DAY) (he : 0 ≤ e) (he' : e ≤ 28 * DAY)
    (hse : s ≠ e) (h0 : ¬ (s = 0 ∧ e = 28 * DAY)) (h1 : ¬ (s = 28 * DAY ∧ e = 0)) : Backward ⟨.month, s, e⟩ :=
  backward_of_lastRun (C07_contains s e) (fun dt => (C07_up_to_28th s e hs hs' he he' hse h0 h1 dt 0).2)

/-- Every clock period inside rolls back correctly. -/
def Bwd : Period → Prop
  | .anchored a => Backward a
  | .static _ _ => True
  | .always => True
  | .delta _ _ => False
  | .span _ _ => False
  | .relday _ _ _ => False
  | .all ps => ∀ p, p ∈ ps → Bwd p
  | .any ps => ∀ p, p ∈ ps → Bwd p
termination_by p => sizeOf p
decreasing_by
  all_goals
    have := List.sizeOf_lt_of_mem ‹_ ∈ _›
    simp only [Period.all.sizeOf_spec, Period.any.sizeOf_spec]
    omega

/-- A span returned by `rollback`: every instant in it belongs to the period. -/
structure BSpan (p : Period) (dt : Int) (i : Interval) : Prop where
  incLeft : i.closed.incLeft = true
  ordered : i.left ≤ i.right
  le : i.right ≤ max dt MINT
  inside : ∀ x, i.contains x = true → sem p x

/-- Spans that a single clock or static period returns, and that nothing is skipped between it and `dt`. -/
structure BLast (p : Period) (dt : Int) (i : Interval) : Prop where
  le : i.left < i.right → i.right ≤ dt
  closed : i.closed = .left ∨ i = ⟨dt, dt, .both⟩
  none_after : ∀ x, MINT ≤ x → i.right ≤ x → x < dt → ¬ sem p x
  last : MINT < dt → dt ≤ i.right → sem p (dt - 1) → i.left < dt

/-- A singleton never overlaps a half-open span that ends not after it. -/
theorem singleton_overlap {a b : Interval} {dt : Int} (ha : a = ⟨dt, dt, .both⟩) (hb : b.closed = .left)
    (hle : b.left ≤ b.right) (h : b.left < b.right → b.right ≤ dt) : a.overlaps b = false := by
  subst ha
  rcases b with ⟨bl, br, bc⟩
  simp only at hb hle h
  subst hb
  unfold Interval.overlaps
  simp
  omega

theorem reduceFrom_singleton (dt : Int) : ∀ (l : List Interval), (∀ i ∈ l, i = ⟨dt, dt, .both⟩) →
    reduceFrom ⟨dt, dt, .both⟩ l = .ok ⟨dt, dt, .both⟩
  | [], _ => rfl
  | b :: l, h => by
    obtain rfl := h b (by simp)
    have : Interval.and ⟨dt, dt, .both⟩ ⟨dt, dt, .both⟩ = .ok ⟨dt, dt, .both⟩ := by
      simp [Interval.and, Closed.incLeft, Closed.incRight, Interval.make]
    simp only [reduceFrom, this]
    exact reduceFrom_singleton dt l (fun i hi => h i (by simp [hi]))

/-- Overlapping back-rolled spans are either all the singleton `{dt}` or all half-open. -/
theorem back_overlap {is : List Interval} {dt : Int}
    (h : ∀ i ∈ is, i.left ≤ i.right ∧ (i.left < i.right → i.right ≤ dt) ∧
      (i.closed = .left ∨ i = ⟨dt, dt, .both⟩)) (hov : allOverlap is = true) :
    (∀ i ∈ is, i.closed = .left) ∨ (∀ i ∈ is, i = ⟨dt, dt, .both⟩) := by
  by_cases hs : ∃ i ∈ is, i = ⟨dt, dt, .both⟩
  · right
    obtain ⟨i, hi, hi'⟩ := hs
    rw [allOverlap_iff] at hov
    have := forall_of_pairwise (R := fun a b => (a.overlaps b = true ∨ a = b) ∧ (b.overlaps a = true ∨ b = a))
      (fun a b h => ⟨h.2, h.1⟩)
      (hov.imp (fun {a b} hab => ⟨Or.inl hab, Or.inl (by rw [C01_overlaps_symm]; exact hab)⟩))
      (fun a _ => ⟨Or.inr rfl, Or.inr rfl⟩)
    intro j hj
    rcases (h j hj).2.2 with hl | hb
    · rcases (this i hi j hj).1 with ho | he
      · rw [singleton_overlap hi' hl (h j hj).1 (h j hj).2.1] at ho
        exact absurd ho (by simp)
      · rw [← he]; exact hi'
    · exact hb
  · left
    intro i hi
    rcases (h i hi).2.2 with hl | hb
    · exact hl
    · exact absurd ⟨i, hi, hb⟩ hs

/-! ### membership of intersections -/

theorem and_contains {a b c : Interval} (h : a.and b = .ok c) (x : Int) :
    c.contains x = true ↔ a.contains x = true ∧ b.contains x = true := by
  rw [C01_contains a, C01_contains b]
  exact C01_and_mem a b c h x

theorem and_ordered {a b c : Interval} (h : a.and b = .ok c) : c.left ≤ c.right ∧ c.right ≤ a.right ∧
    c.right ≤ b.right ∧ (a.closed.incLeft = true → b.closed.incLeft = true → c.closed.incLeft = true) := by
  unfold Interval.and at h
  rcases a with ⟨al, ar, ac⟩
  rcases b with ⟨bl, br, bc⟩
  simp only at h
  rw [Interval.make_ok] at h
  obtain ⟨h1, rfl⟩ := h
  refine ⟨h1, ?_, ?_, ?_⟩
  · simp only; split
    · simp
    · split
      · simp only; omega
      · simp
  · simp only; split
    · simp only; omega
    · split
      · simp
      · simp only; omega
  · intro ha hb
    simp only at ha hb ⊢
    have hlc : (if al > bl then (al, ac.incLeft) else if al < bl then (bl, bc.incLeft)
        else (al, ac.incLeft && bc.incLeft)).snd = true := by
      split
      · exact ha
      · split
        · exact hb
        · simp [ha, hb]
    simp only [hlc, Bool.true_and, if_true]
    generalize (if ar < br then (ar, ac.incRight) else if ar > br then (br, bc.incRight)
      else (ar, ac.incRight && bc.incRight)).snd = q
    cases q <;> rfl

theorem reduceFrom_contains : ∀ {l : List Interval} {a c : Interval}, reduceFrom a l = .ok c →
    (∀ i ∈ a :: l, i.left ≤ i.right ∧ i.closed.incLeft = true) →
    c.left ≤ c.right ∧ c.closed.incLeft = true ∧ (∀ i ∈ a :: l, c.right ≤ i.right) ∧
      ∀ x, c.contains x = true ↔ ∀ i ∈ a :: l, i.contains x = true
  | [], a, c, h, hi => by
    simp only [reduceFrom, Except.ok.injEq] at h
    subst h
    simpa using hi
  | b :: l, a, c, h, hi => by
    simp only [reduceFrom] at h
    cases hab : a.and b with
    | error e => simp [hab] at h
    | ok d =>
      simp only [hab] at h
      have hd := and_ordered hab
      have ih := reduceFrom_contains h (by
        intro i hm
        rcases List.mem_cons.1 hm with rfl | hm
        · exact ⟨hd.1, hd.2.2.2 (hi a (by simp)).2 (hi b (by simp)).2⟩
        · exact hi i (by simp [hm]))
      refine ⟨ih.1, ih.2.1, ?_, ?_⟩
      · intro i hm
        have h0 := ih.2.2.1 d (by simp)
        rcases List.mem_cons.1 hm with rfl | hm
        · omega
        · rcases List.mem_cons.1 hm with rfl | hm
          · omega
          · exact ih.2.2.1 i (by simp [hm])
      · intro x
        rw [ih.2.2.2 x]
        simp only [List.mem_cons, forall_eq_or_imp, and_contains hab, and_assoc]

theorem reduceAnd_contains {is : List Interval} {c : Interval} (h : reduceAnd is = .ok c)
    (hi : ∀ i ∈ is, i.left ≤ i.right ∧ i.closed.incLeft = true) :
    c.left ≤ c.right ∧ c.closed.incLeft = true ∧ (∀ i ∈ is, c.right ≤ i.right) ∧ is ≠ [] ∧
      ∀ x, c.contains x = true ↔ ∀ i ∈ is, i.contains x = true := by
  cases is with
  | nil => simp [reduceAnd] at h
  | cons a l =>
    have := reduceFrom_contains h hi
    exact ⟨this.1, this.2.1, this.2.2.1, by simp, this.2.2.2⟩

theorem contains_of_between {i : Interval} {x : Int} (h : i.closed.incLeft = true) (h1 : i.left ≤ x)
    (h2 : x < i.right) : i.contains x = true := by
  rcases i with ⟨l, r, c⟩
  cases c <;> simp [Closed.incLeft] at h <;> simp [Interval.contains] at * <;> omega

theorem contains_le {i : Interval} {x : Int} (h : i.contains x = true) : i.left ≤ x ∧ x ≤ i.right := by
  rcases i with ⟨l, r, c⟩
  cases c <;> simp [Interval.contains] at * <;> omega

/-! ### the backward merge -/

theorem extendLeft_spec (P : Int → Prop) : ∀ (l : List Interval) (c : Interval) (hi : Int),
    (∀ i ∈ c :: l, i.right ≤ hi ∧ i.closed.incLeft = true ∧ ∀ x, i.contains x = true → P x) →
    (∀ x, c.left ≤ x → x < hi → P x) →
    (extendLeft c l).left ≤ c.left ∧ ∀ x, (extendLeft c l).left ≤ x → x < hi → P x
  | [], c, hi, _, hc => by simpa [extendLeft] using hc
  | i :: l, c, hi, h, hc => by
    unfold extendLeft
    split
    · rename_i hif
      simp only [Bool.and_eq_true, decide_eq_true_eq] at hif
      have hci := h c (by simp)
      have hii := h i (by simp)
      have hreach : c.left ≤ i.right := by
        have ho := hif.2
        unfold Interval.overlaps at ho
        split at ho
        · exact absurd ho (by simp)
        · rename_i hh
          simp at hh
          omega
      have ih := extendLeft_spec P l i hi (fun j hj => h j (List.mem_cons_of_mem _ hj)) (by
        intro x h1 h2
        by_cases hx : c.left ≤ x
        · exact hc x hx h2
        · exact hii.2.2 x (contains_of_between hii.2.1 h1 (by omega)))
      exact ⟨by omega, ih.2⟩
    · exact ⟨Int.le_refl _, hc⟩

theorem mergeBack_spec {is : List Interval} {c : Interval} (h : mergeBack is = .ok c) (P : Int → Prop)
    (hi : ∀ i ∈ is, i.closed.incLeft = true ∧ ∀ x, i.contains x = true → P x) :
    c.closed = .left ∧ c.left ≤ c.right ∧ (∃ i ∈ is, c.right = i.right ∧ c.left ≤ i.left) ∧
      (∀ i ∈ is, i.right ≤ c.right) ∧ ∀ x, c.left ≤ x → x < c.right → P x := by
  unfold mergeBack at h
  have hperm := pySorted_perm (le := fun a b => decide (a.right ≥ b.right)) is
  have hsort := pySorted_pairwise (le := fun a b : Interval => decide (a.right ≥ b.right))
    (by intro a b c h1 h2; simp at *; omega) (by intro a b; simp; omega) is
  cases hms : pySorted (fun a b => decide (a.right ≥ b.right)) is with
  | nil => simp [hms] at h
  | cons y l =>
    rw [hms] at hperm hsort
    simp only [hms, Interval.make_ok] at h
    obtain ⟨hle, rfl⟩ := h
    have hmax : ∀ i ∈ y :: l, i.right ≤ y.right := by
      intro i hi
      rcases List.mem_cons.1 hi with rfl | hi'
      · exact Int.le_refl _
      · have := (List.pairwise_cons.1 hsort).1 i hi'
        simpa using this
    have hy := hperm.mem_iff.1 (List.mem_cons_self (a := y) (l := l))
    have hex := extendLeft_spec P l y y.right (fun j hj => ⟨hmax j hj, hi j (hperm.mem_iff.1 hj)⟩)
      (fun x h1 h2 => (hi y hy).2 x (contains_of_between (hi y hy).1 h1 h2))
    refine ⟨rfl, hle, ⟨y, hy, rfl, hex.1⟩, ?_, hex.2⟩
    intro i hi
    exact hmax i (hperm.mem_iff.2 hi)

/-! ### soundness -/

theorem static_bspan {p : Period} {s e dt : Int} {i : Interval} (hp : ∀ t, sem p t ↔ s ≤ t ∧ t < e)
    (h : staticBack s e dt = .ok i) : BSpan p dt i ∧ BLast p dt i := by
  unfold staticBack at h
  split at h <;> rw [Interval.make_ok] at h <;> obtain ⟨h1, rfl⟩ := h <;>
    refine ⟨⟨rfl, by simp only; omega, by simp only; omega, ?_⟩, ⟨by simp only; omega, Or.inl rfl, ?_, ?_⟩⟩ <;>
    simp only [hp, Interval.contains, Bool.and_eq_true, decide_eq_true_eq] <;> (try intro x) <;> omega

theorem backward_bspan {a : Anchored} (ha : Backward a) {dt : Int} {i : Interval} (h : a.rollback dt = .ok i) :
    BSpan (.anchored a) dt i ∧ BLast (.anchored a) dt i := by
  obtain ⟨l, r, h1, h2, h3, h4, h5, h6, h7⟩ := ha dt
  rw [h1] at h
  simp only [Except.ok.injEq] at h
  subst h
  refine ⟨⟨?_, h2, by simp only; omega, ?_⟩, ⟨fun _ => h3, ?_, ?_, ?_⟩⟩
  · simp only; split <;> rfl
  · simp only [sem]
    intro x hx
    have hle := contains_le hx
    simp only at hle
    by_cases hlr : l = r
    · have := h4 hlr
      obtain rfl : x = dt := by omega
      exact this.2
    · simp only [hlr, if_false, Interval.contains, Bool.and_eq_true, decide_eq_true_eq] at hx
      exact h5 x hx.1 hx.2
  · by_cases hlr : l = r
    · right
      have := h4 hlr
      simp only [hlr, if_true, this.1]
    · left; simp only [hlr, if_false]
  · simp only [sem]; intro x _ a b; exact h6 x a b
  · simp only [sem]; intro _ a b; exact h7 (by omega) b

theorem rollback_bspan : ∀ (n : Nat) (p : Period) (dt : Int) (i : Interval), Bwd p →
    p.rollback n dt = .ok i → BSpan p dt i := by
  intro n
  induction n with
  | zero => intro p dt i _ h; simp [Period.rollback] at h
  | succ n ih =>
    intro p dt i hp h
    cases p with
    | anchored a =>
      simp only [Bwd] at hp
      simp only [Period.rollback] at h
      exact (backward_bspan hp h).1
    | static s e =>
      simp only [Period.rollback] at h
      exact (static_bspan (fun t => by rw [sem]) h).1
    | always =>
      simp only [Period.rollback] at h
      exact (static_bspan (fun t => by rw [sem]) h).1
    | delta a b => simp [Bwd] at hp
    | span a b => simp [Bwd] at hp
    | relday a b c => simp [Bwd] at hp
    | all ps =>
      have hps : ∀ p ∈ ps, Bwd p := by simpa only [Bwd] using hp
      simp only [Period.rollback] at h
      cases hm : mapE (fun p => Period.rollback n p dt) ps with
      | error e => simp [hm] at h
      | ok is =>
        simp only [hm] at h
        obtain ⟨m1, m2, m3⟩ := mapE_ok hm
        have hsp : ∀ j ∈ is, ∃ p ∈ ps, BSpan p dt j := by
          intro j hj
          obtain ⟨p, hp, hpj⟩ := m2 j hj
          exact ⟨p, hp, ih p dt j (hps p hp) hpj⟩
        split at h
        · obtain ⟨r1, r2, r3, r4, r5⟩ := reduceAnd_contains h (fun j hj => by
            obtain ⟨p, _, hs⟩ := hsp j hj; exact ⟨hs.ordered, hs.incLeft⟩)
          obtain ⟨y, l, rfl⟩ : ∃ a l, is = a :: l := by
            cases is with
            | nil => exact absurd rfl r4
            | cons a l => exact ⟨a, l, rfl⟩
          obtain ⟨p, hp, hs⟩ := hsp y (by simp)
          refine ⟨r2, r1, by have := hs.le; have := r3 y (by simp); omega, ?_⟩
          intro t ht
          rw [sem]
          intro q hq
          obtain ⟨j, hj, hqj⟩ := m1 q hq
          exact (ih q dt j (hps q hq) hqj).inside t ((r5 t).1 ht j hj)
        · cases hmx : minRight is with
          | error e => simp [hmx] at h
          | ok next =>
            simp only [hmx] at h
            obtain ⟨x1, ⟨x, hx, hx'⟩⟩ := minRight_ok hmx
            have hr := ih (.all ps) _ i hp h
            obtain ⟨p, hp', hs⟩ := hsp x hx
            have hnle := hs.le
            have hd' : (if dt = next then next - 1 else next) ≤ max dt MINT := by split <;> omega
            have hrle := hr.le
            exact ⟨hr.incLeft, hr.ordered, by omega, hr.inside⟩
    | any ps =>
      have hps : ∀ p ∈ ps, Bwd p := by simpa only [Bwd] using hp
      simp only [Period.rollback] at h
      cases hm : mapE (fun p => Period.rollback n p dt) ps with
      | error e => simp [hm] at h
      | ok is =>
        simp only [hm] at h
        obtain ⟨m1, m2, m3⟩ := mapE_ok hm
        have hsp : ∀ j ∈ is, ∃ p ∈ ps, BSpan p dt j := by
          intro j hj
          obtain ⟨p, hp, hpj⟩ := m2 j hj
          exact ⟨p, hp, ih p dt j (hps p hp) hpj⟩
        obtain ⟨g1, g2, ⟨y, hy, hy', hy''⟩, g4, g5⟩ := mergeBack_spec h (sem (.any ps)) (by
          intro j hj
          obtain ⟨p, hp, hs⟩ := hsp j hj
          refine ⟨hs.incLeft, ?_⟩
          intro t h1
          rw [sem]
          exact ⟨p, hp, hs.inside t h1⟩)
        obtain ⟨p, hp, hs⟩ := hsp y hy
        refine ⟨by rw [g1]; rfl, g2, by have := hs.le; omega, ?_⟩
        intro t ht
        rw [Interval.contains, g1] at ht
        simp only [Bool.and_eq_true, decide_eq_true_eq] at ht
        exact g5 t ht.1 ht.2

/-! ### nothing is skipped: intersections of single periods -/

/-- A clock, static or always period (not a compound). -/
def Leaf : Period → Prop
  | .anchored a => Backward a
  | .static _ _ => True
  | .always => True
  | _ => False

theorem leaf_bwd {p : Period} (h : Leaf p) : Bwd p := by
  cases p <;> simp_all [Leaf, Bwd]

theorem leaf_rollback {p : Period} (hp : Leaf p) {n : Nat} {dt : Int} {i : Interval}
    (h : p.rollback n dt = .ok i) : BSpan p dt i ∧ BLast p dt i := by
  cases n with
  | zero => simp [Period.rollback] at h
  | succ n =>
    cases p with
    | anchored a => exact backward_bspan (by simpa [Leaf] using hp) (by simpa [Period.rollback] using h)
    | static s e => exact static_bspan (fun t => by rw [sem]) (by simpa [Period.rollback] using h)
    | always => exact static_bspan (fun t => by rw [sem]) (by simpa [Period.rollback] using h)
    | _ => simp [Leaf] at hp

theorem all_rollback_last {ps : List Period} (hps : ∀ p ∈ ps, Leaf p) : ∀ (n : Nat) (dt : Int) (i : Interval),
    (Period.all ps).rollback n dt = .ok i →
    (∀ x, MINT ≤ x → i.right ≤ x → x < dt → ¬ sem (.all ps) x) ∧
      (MINT < dt → dt ≤ i.right → sem (.all ps) (dt - 1) → i.left < dt) ∧
      (i.left < i.right ∨ MINT < dt → i.right ≤ max dt MINT) := by
  intro n
  induction n with
  | zero => intro dt i h; simp [Period.rollback] at h
  | succ n ih =>
    intro dt i h
    have hwhole := h
    simp only [Period.rollback] at h
    cases hm : mapE (fun p => Period.rollback n p dt) ps with
    | error e => simp [hm] at h
    | ok is =>
      simp only [hm] at h
      obtain ⟨m1, m2, m3⟩ := mapE_ok hm
      have hsp : ∀ j ∈ is, ∃ p ∈ ps, BSpan p dt j ∧ BLast p dt j := by
        intro j hj
        obtain ⟨p, hp, hpj⟩ := m2 j hj
        exact ⟨p, hp, leaf_rollback (hps p hp) hpj⟩
      have hle := (rollback_bspan (n + 1) (.all ps) dt i
        (by rw [Bwd]; exact fun p hp => leaf_bwd (hps p hp)) hwhole).le
      split at h
      · rename_i hov
        have hshape : ∀ j ∈ is, j.left ≤ j.right ∧ (j.left < j.right → j.right ≤ dt) ∧
            (j.closed = .left ∨ j = ⟨dt, dt, .both⟩) := by
          intro j hj; obtain ⟨p, _, hs, hl⟩ := hsp j hj; exact ⟨hs.ordered, hl.le, hl.closed⟩
        rcases back_overlap hshape hov with hcl | hsg
        · obtain ⟨r1, r2, ⟨x, hx, hx'⟩, ⟨y, hy, hy'⟩⟩ := reduceAnd_left hcl h
          refine ⟨?_, ?_, fun _ => hle⟩
          · intro t h1 h2 h3 hall
            obtain ⟨p, hp, hs, hl⟩ := hsp y hy
            rw [sem] at hall
            exact hl.none_after t h1 (by omega) h3 (hall p hp)
          · intro h1 h2 hall
            obtain ⟨p, hp, hs, hl⟩ := hsp x hx
            rw [sem] at hall
            have := r2 x hx
            have := hl.last h1 (by omega) (hall p hp)
            omega
        · cases is with
          | nil => simp [reduceAnd] at h
          | cons a l =>
            obtain rfl := hsg a (by simp)
            rw [reduceAnd, reduceFrom_singleton dt l (fun j hj => hsg j (by simp [hj]))] at h
            simp only [Except.ok.injEq] at h
            subst h
            refine ⟨by simp only; intros; omega, ?_, fun _ => hle⟩
            intro h1 h2 hall
            obtain ⟨p, hp, hs, hl⟩ := hsp ⟨dt, dt, .both⟩ (by simp)
            rw [sem] at hall
            exact hl.last h1 (by simp) (hall p hp)
      · rename_i hov
        cases hmx : minRight is with
        | error e => simp [hmx] at h
        | ok next =>
          simp only [hmx] at h
          obtain ⟨x1, ⟨x, hx, hx'⟩⟩ := minRight_ok hmx
          obtain ⟨p, hp', hs, hl⟩ := hsp x hx
          -- if every member reaches `dt`, then the instant before `dt` is not common
          have hstep : next = dt → MINT < dt → ¬ sem (.all ps) (dt - 1) := by
            intro hnd hMd hall
            rw [sem] at hall
            apply hov
            apply allOverlap_of_common (dt - 1)
            intro j hj
            obtain ⟨q, hq, hqs, hql⟩ := hsp j hj
            have := x1 j hj
            have hlt := hql.last hMd (by omega) (hall q hq)
            exact contains_of_between hqs.incLeft (by omega) (by omega)
          have hnle := hs.le
          by_cases hnd : dt = next
          · rw [if_pos hnd] at h
            have hr := ih _ i h
            have hrle := (rollback_bspan n (.all ps) _ i
              (by rw [Bwd]; exact fun p hp => leaf_bwd (hps p hp)) h).le
            refine ⟨?_, ?_, fun _ => hle⟩
            · intro t h1 h2 h3 hall
              by_cases ht : t = dt - 1
              · subst ht; exact hstep hnd.symm (by omega) hall
              · exact hr.1 t h1 h2 (by omega) hall
            · intro h1 h2; omega
          · rw [if_neg hnd] at h
            have hr := ih _ i h
            have hrle := (rollback_bspan n (.all ps) _ i
              (by rw [Bwd]; exact fun p hp => leaf_bwd (hps p hp)) h).le
            refine ⟨?_, ?_, fun _ => hle⟩
            · intro t h1 h2 h3 hall
              by_cases ht : t < next
              · exact hr.1 t h1 h2 ht hall
              · rw [sem] at hall
                exact hl.none_after t h1 (by omega) h3 (hall p hp')
            · intro h1 h2; omega

/-! ### termination -/

theorem all_rollback_total {ps : List Period} (hne : ps ≠ []) (hps : ∀ p ∈ ps, Leaf p) (x : Int)
    (hx : MINT ≤ x) (hsem : sem (.all ps) x) : ∀ (k : Nat) (dt : Int), x < dt → dt - x ≤ k → ∀ n, k + 1 ≤ n →
    ∃ i, (Period.all ps).rollback n dt = .ok i ∧ ∃ y, i.contains y = true := by
  intro k
  induction k with
  | zero => intro dt h1 h2; omega
  | succ k ih =>
    intro dt h1 h2 n hn
    obtain ⟨m, rfl⟩ : ∃ m, n = m + 1 := ⟨n - 1, by omega⟩
    rw [sem] at hsem
    -- every member returns a non-empty span that ends after `x`
    have hmem : ∀ p ∈ ps, ∃ i, Period.rollback m p dt = .ok i := by
      intro p hp
      obtain ⟨m, rfl⟩ : ∃ m', m = m' + 1 := ⟨m - 1, by omega⟩
      have hl := hps p hp
      cases p with
      | anchored a =>
        simp only [Leaf] at hl
        obtain ⟨l, r, h, _⟩ := hl dt
        exact ⟨_, by simp only [Period.rollback]; exact h⟩
      | static s e =>
        have := hsem _ hp
        rw [sem] at this
        refine ⟨⟨s, min e dt, .left⟩, ?_⟩
        simp only [Period.rollback, staticBack]
        rw [if_neg (by omega)]
        exact Interval.make_ok.2 ⟨by omega, rfl⟩
      | always =>
        have := hsem _ hp
        rw [sem] at this
        refine ⟨⟨MINT, min MAXT dt, .left⟩, ?_⟩
        simp only [Period.rollback, staticBack]
        rw [if_neg (by omega)]
        exact Interval.make_ok.2 ⟨by omega, rfl⟩
      | _ => simp [Leaf] at hl
    obtain ⟨is, his⟩ := mapE_total hmem
    obtain ⟨m1, m2, m3⟩ := mapE_ok his
    have hsp : ∀ j ∈ is, ∃ p ∈ ps, BSpan p dt j ∧ BLast p dt j := by
      intro j hj
      obtain ⟨p, hp, hpj⟩ := m2 j hj
      exact ⟨p, hp, leaf_rollback (hps p hp) hpj⟩
    have hshape : ∀ j ∈ is, j.left ≤ j.right ∧ (j.left < j.right → j.right ≤ dt) ∧
        (j.closed = .left ∨ j = ⟨dt, dt, .both⟩) := by
      intro j hj; obtain ⟨p, _, hs, hl⟩ := hsp j hj; exact ⟨hs.ordered, hl.le, hl.closed⟩
    have hright : ∀ j ∈ is, x < j.right := by
      intro j hj
      obtain ⟨p, hp, hs, hl⟩ := hsp j hj
      by_contra hc
      exact hl.none_after x hx (by omega) h1 (hsem p hp)
    -- half-open spans are not empty
    have hnonempty : ∀ j ∈ is, j.closed = .left → j.left < j.right := by
      intro j hj hc
      obtain ⟨p, hp, hpj⟩ := m2 j hj
      obtain ⟨hs, hl⟩ := leaf_rollback (hps p hp) hpj
      have hlp := hps p hp
      have hsx := hsem p hp
      cases m with
      | zero => simp [Period.rollback] at hpj
      | succ m =>
        cases p with
        | anchored a =>
          simp only [Leaf] at hlp
          obtain ⟨l, r, h, h'⟩ := hlp dt
          simp only [Period.rollback, h, Except.ok.injEq] at hpj
          subst hpj
          by_cases hlr : l = r
          · simp [hlr] at hc
          · simp only; omega
        | static s e =>
          rw [sem] at hsx
          simp only [Period.rollback, staticBack] at hpj
          rw [if_neg (by omega), Interval.make_ok] at hpj
          obtain ⟨_, rfl⟩ := hpj
          simp only; omega
        | always =>
          rw [sem] at hsx
          simp only [Period.rollback, staticBack] at hpj
          rw [if_neg (by omega), Interval.make_ok] at hpj
          obtain ⟨_, rfl⟩ := hpj
          simp only; omega
        | _ => simp [Leaf] at hlp
    obtain ⟨a, l, rfl⟩ : ∃ a l, is = a :: l := by
      cases is with
      | nil => exact absurd (m3 rfl) hne
      | cons a l => exact ⟨a, l, rfl⟩
    by_cases hov : allOverlap (a :: l) = true
    · rcases back_overlap hshape hov with hcl | hsg
      · have hlt := (allOverlap_left hcl (fun j hj => hnonempty j hj (hcl j hj))).1 hov
        obtain ⟨c, hc⟩ := reduceFrom_total (a := a) (l := l) hcl
          (fun i hi j hj => by have := hlt i hi j hj; omega)
        refine ⟨c, ?_, c.left, ?_⟩
        · simp only [Period.rollback, his, hov, if_true, reduceAnd, hc]
        · obtain ⟨c1, _, ⟨y, hy, hy'⟩, ⟨z, hz, hz'⟩⟩ := reduceFrom_left hcl hc
          have := hlt y hy z hz
          exact contains_of_between (by rw [c1]; rfl) (Int.le_refl _) (by omega)
      · obtain rfl := hsg a (by simp)
        refine ⟨⟨dt, dt, .both⟩, ?_, dt, by simp [Interval.contains]⟩
        simp only [Period.rollback, his, hov, if_true, reduceAnd]
        exact reduceFrom_singleton dt l (fun j hj => hsg j (by simp [hj]))
    · obtain ⟨next, hnext⟩ : ∃ next, minRight (a :: l) = .ok next := ⟨_, rfl⟩
      obtain ⟨x1, ⟨y, hy, hy'⟩⟩ := minRight_ok hnext
      have hgt := hright y hy
      obtain ⟨py, hpy, hsy, hly⟩ := hsp y hy
      have hyle := hsy.le
      have e : Period.rollback (m + 1) (.all ps) dt =
          Period.rollback m (.all ps) (if dt = next then next - 1 else next) := by
        simp only [Period.rollback, his, hov, hnext, Bool.false_eq_true, if_false]
      rw [e]
      by_cases hnd : dt = next
      · rw [if_pos hnd]
        have hstep : x ≠ dt - 1 := by
          intro hxd
          apply hov
          apply allOverlap_of_common (dt - 1)
          intro j hj
          obtain ⟨q, hq, hqs, hql⟩ := hsp j hj
          have := x1 j hj
          have hlt := hql.last (by omega) (by omega) (by rw [← hxd]; exact hsem q hq)
          exact contains_of_between hqs.incLeft (by omega) (by omega)
        exact ih _ (by omega) (by omega) m (by omega)
      · rw [if_neg hnd]
        exact ih _ (by omega) (by omega) m (by omega)

end Rocketry
