import Verif.Time.Period
import Verif.Props.IntervalProps
import Mathlib.Data.List.Forall2
import Mathlib.Order.Lattice

/-!
# C125: the order in which an intersection holds its periods does not matter

The members of an `All` are a frozenset (core/time/base.py:275, 295), which is iterated in an order that depends on
hashes; `All.rollforward` and `All.rollback` (base.py:297-360) work through lists made in this order.
-/

namespace Rocketry.Props
open Rocketry

/-- Spec: the same period, where every intersection in it, at whatever depth, may be iterated in another order. -/
inductive Shuffled : Period → Period → Prop where
  | same (p : Period) : Shuffled p p
  | all {ps rs qs : List Period} (h : List.Forall₂ Shuffled ps rs) (hp : rs.Perm qs) : Shuffled (.all ps) (.all qs)
  | any {ps qs : List Period} (h : List.Forall₂ Shuffled ps qs) : Shuffled (.any ps) (.any qs)

/-- Spec: both answer the same or both raise. -/
def SameAnswer {α : Type} (r r' : Except PyErr α) : Prop := ∀ i, r = .ok i ↔ r' = .ok i

theorem sameAnswer_refl {α : Type} (r : Except PyErr α) : SameAnswer r r := fun _ => Iff.rfl

theorem sameAnswer_errors {α : Type} (e e' : PyErr) : SameAnswer (.error e : Except PyErr α) (.error e') := by
  intro i; simp

theorem sameAnswer_cases {α : Type} {r r' : Except PyErr α} (h : SameAnswer r r') :
    (∃ a, r = .ok a ∧ r' = .ok a) ∨ ∃ e e', r = .error e ∧ r' = .error e' := by
  cases r with
  | ok a => exact Or.inl ⟨a, rfl, (h a).1 rfl⟩
  | error e =>
    cases r' with
    | ok b => have := (h b).2 rfl; simp at this
    | error e' => exact Or.inr ⟨e, e', rfl, rfl⟩

/-! ### The parts of `All.rollforward` and `All.rollback` -/

theorem allOverlap_pairs : ∀ {is : List Interval},
    allOverlap is = true ↔ is.Pairwise (fun a b => a.overlaps b = true)
  | [] => by simp [allOverlap]
  | a :: l => by
    simp only [allOverlap, Bool.and_eq_true, List.all_eq_true, List.pairwise_cons]
    rw [allOverlap_pairs]

theorem overlaps_perm {is js : List Interval} (h : is.Perm js) : allOverlap is = allOverlap js := by
  rw [Bool.eq_iff_iff, allOverlap_pairs, allOverlap_pairs]
  exact h.pairwise_iff (fun {a b} hab => by rw [C01_overlaps_symm]; exact hab)

theorem interval_and_comm (a b : Interval) : a.and b = b.and a := by
  rcases a with ⟨al, ar, ac⟩
  rcases b with ⟨bl, br, bc⟩
  rcases lt_trichotomy al bl with h | h | h <;> rcases lt_trichotomy ar br with h' | h' | h' <;>
    simp [Interval.and, h, h', not_lt.2 h.le, not_lt.2 h'.le, Bool.and_comm]

/-- A lower bound, and whether it is in the interval, of two. -/
def meetLow (a b : Int × Bool) : Int × Bool :=
  if a.1 > b.1 then a else if a.1 < b.1 then b else (a.1, a.2 && b.2)

/-- An upper bound, and whether it is in the interval, of two. -/
def meetHigh (a b : Int × Bool) : Int × Bool :=
  if a.1 < b.1 then a else if a.1 > b.1 then b else (a.1, a.2 && b.2)

/-- The kind of an interval by its ends. -/
def closedBy (l r : Bool) : Closed := if l && r then .both else if l then .left else if r then .right else .neither

theorem closedBy_left (l r : Bool) : (closedBy l r).incLeft = l := by cases l <;> cases r <;> rfl
theorem closedBy_right (l r : Bool) : (closedBy l r).incRight = r := by cases l <;> cases r <;> rfl

theorem and_meet (a b : Interval) : a.and b =
    Interval.make (meetLow (a.left, a.closed.incLeft) (b.left, b.closed.incLeft)).1
      (meetHigh (a.right, a.closed.incRight) (b.right, b.closed.incRight)).1
      (closedBy (meetLow (a.left, a.closed.incLeft) (b.left, b.closed.incLeft)).2
        (meetHigh (a.right, a.closed.incRight) (b.right, b.closed.incRight)).2) := by
  rcases lt_trichotomy a.left b.left with h | h | h <;> rcases lt_trichotomy a.right b.right with h' | h' | h' <;>
    simp [Interval.and, meetLow, meetHigh, closedBy, h, h', not_lt.2 h.le, not_lt.2 h'.le]

theorem meetLow_right_comm (a b c : Int × Bool) : meetLow (meetLow a b) c = meetLow (meetLow a c) b := by
  rcases a with ⟨a, x⟩
  rcases b with ⟨b, y⟩
  rcases c with ⟨c, z⟩
  unfold meetLow
  rcases lt_trichotomy a b with h | h | h <;> rcases lt_trichotomy a c with h' | h' | h' <;>
    rcases lt_trichotomy b c with h'' | h'' | h'' <;>
    first
    | omega
    | (subst_vars; simp_all [not_lt_of_gt, Bool.and_comm, Bool.and_left_comm])

theorem meetHigh_right_comm (a b c : Int × Bool) : meetHigh (meetHigh a b) c = meetHigh (meetHigh a c) b := by
  rcases a with ⟨a, x⟩
  rcases b with ⟨b, y⟩
  rcases c with ⟨c, z⟩
  unfold meetHigh
  rcases lt_trichotomy a b with h | h | h <;> rcases lt_trichotomy a c with h' | h' | h' <;>
    rcases lt_trichotomy b c with h'' | h'' | h'' <;>
    first
    | omega
    | (subst_vars; simp_all [not_lt_of_gt, Bool.and_comm, Bool.and_left_comm])

theorem meetLow_le (a b : Int × Bool) : a.1 ≤ (meetLow a b).1 := by
  unfold meetLow
  split
  · exact le_refl _
  · split
    · exact le_of_lt (by assumption)
    · exact le_refl _

theorem meetHigh_le (a b : Int × Bool) : (meetHigh a b).1 ≤ a.1 := by
  unfold meetHigh
  split
  · exact le_refl _
  · split
    · exact le_of_lt (by assumption)
    · exact le_refl _

/-- `(a & b) & c`. -/
def andAnd (a b c : Interval) : Except PyErr Interval :=
  match a.and b with
  | .error e => .error e
  | .ok d => d.and c

/-- `(a & b) & c`, as one interval. -/
theorem and_and (a b c : Interval) : andAnd a b c =
    Interval.make
      (meetLow (meetLow (a.left, a.closed.incLeft) (b.left, b.closed.incLeft)) (c.left, c.closed.incLeft)).1
      (meetHigh (meetHigh (a.right, a.closed.incRight) (b.right, b.closed.incRight)) (c.right, c.closed.incRight)).1
      (closedBy
        (meetLow (meetLow (a.left, a.closed.incLeft) (b.left, b.closed.incLeft)) (c.left, c.closed.incLeft)).2
        (meetHigh (meetHigh (a.right, a.closed.incRight) (b.right, b.closed.incRight))
          (c.right, c.closed.incRight)).2) := by
  unfold andAnd
  rw [and_meet a b]
  generalize meetLow (a.left, a.closed.incLeft) (b.left, b.closed.incLeft) = l
  generalize meetHigh (a.right, a.closed.incRight) (b.right, b.closed.incRight) = h
  have hl := meetLow_le l (c.left, c.closed.incLeft)
  have hh := meetHigh_le h (c.right, c.closed.incRight)
  by_cases hlh : l.1 > h.1
  · rw [show Interval.make l.1 h.1 (closedBy l.2 h.2) = .error .value by simp [Interval.make, hlh]]
    symm
    simp only [Interval.make]
    rw [if_pos (by omega)]
  · rw [show Interval.make l.1 h.1 (closedBy l.2 h.2) = .ok ⟨l.1, h.1, closedBy l.2 h.2⟩ by simp [Interval.make, hlh]]
    simp only [and_meet, closedBy_left, closedBy_right]

theorem andAnd_comm (a b c : Interval) : andAnd a b c = andAnd a c b := by
  rw [and_and, and_and, meetLow_right_comm, meetHigh_right_comm]

theorem reduceFrom_perm {l l' : List Interval} (h : l.Perm l') : ∀ a, reduceFrom a l = reduceFrom a l' := by
  induction h with
  | nil => intro a; rfl
  | cons x _ ih =>
    intro a
    simp only [reduceFrom]
    cases a.and x with
    | error e => rfl
    | ok c => exact ih c
  | swap x y l =>
    intro a
    have h := andAnd_comm a x y
    have key : ∀ u v : Interval, reduceFrom a (u :: v :: l) =
        (match andAnd a u v with | .error e => .error e | .ok c => reduceFrom c l) := by
      intro u v
      simp only [reduceFrom, andAnd]
      cases a.and u <;> rfl
    rw [key, key, h]
  | trans _ _ ih ih' => intro a; rw [ih a, ih' a]

theorem reduceAnd_perm {l l' : List Interval} (h : l.Perm l') : reduceAnd l = reduceAnd l' := by
  induction h with
  | nil => rfl
  | cons x h _ => exact reduceFrom_perm h x
  | swap x y l => simp only [reduceAnd, reduceFrom, interval_and_comm x y]
  | trans _ _ ih ih' => rw [ih, ih']

theorem foldl_perm {f : Int → Interval → Int} (hf : ∀ m i j, f (f m i) j = f (f m j) i) {l l' : List Interval}
    (h : l.Perm l') : ∀ m, l.foldl f m = l'.foldl f m := by
  induction h with
  | nil => intro m; rfl
  | cons x _ ih => intro m; exact ih _
  | swap x y l => intro m; simp only [List.foldl_cons, hf m y x]
  | trans _ _ ih ih' => intro m; rw [ih m, ih' m]

theorem maxLeft_perm {l l' : List Interval} (h : l.Perm l') : maxLeft l = maxLeft l' := by
  induction h with
  | nil => rfl
  | cons x h _ =>
    simp only [maxLeft]
    rw [foldl_perm (fun m i j => by simp only [max_assoc, max_comm i.left]) h]
  | swap x y l => simp only [maxLeft, List.foldl_cons, max_comm x.left]
  | trans _ _ ih ih' => rw [ih, ih']

theorem minRight_perm {l l' : List Interval} (h : l.Perm l') : minRight l = minRight l' := by
  induction h with
  | nil => rfl
  | cons x h _ =>
    simp only [minRight]
    rw [foldl_perm (fun m i j => by simp only [min_assoc, min_comm i.right]) h]
  | swap x y l => simp only [minRight, List.foldl_cons, min_comm x.right]
  | trans _ _ ih ih' => rw [ih, ih']

theorem any_perm {l l' : List Interval} (f : Interval → Bool) (h : l.Perm l') : l.any f = l'.any f := by
  rw [Bool.eq_iff_iff, List.any_eq_true, List.any_eq_true]
  simp only [h.mem_iff]

theorem mapE_same {α : Type} {f : Period → Except PyErr α} {ps qs : List Period}
    (h : List.Forall₂ (fun p q => SameAnswer (f p) (f q)) ps qs) : SameAnswer (mapE f ps) (mapE f qs) := by
  induction h with
  | nil => exact sameAnswer_refl _
  | cons hpq _ ih =>
    simp only [mapE]
    rcases sameAnswer_cases hpq with ⟨a, h1, h2⟩ | ⟨e, e', h1, h2⟩
    · rw [h1, h2]
      rcases sameAnswer_cases ih with ⟨b, h3, h4⟩ | ⟨e, e', h3, h4⟩
      · rw [h3, h4]; exact sameAnswer_refl _
      · rw [h3, h4]; exact sameAnswer_errors _ _
    · rw [h1, h2]; exact sameAnswer_errors _ _

/-- Mapping over a shuffled list: a shuffled result, or both raise. -/
theorem mapE_perm {α : Type} {f : Period → Except PyErr α} {ps qs : List Period} (h : ps.Perm qs) :
    (∃ is js, mapE f ps = .ok is ∧ mapE f qs = .ok js ∧ is.Perm js) ∨
      ∃ e e', mapE f ps = .error e ∧ mapE f qs = .error e' := by
  induction h with
  | nil => exact Or.inl ⟨[], [], rfl, rfl, List.Perm.nil⟩
  | cons x _ ih =>
    simp only [mapE]
    cases f x with
    | error e => exact Or.inr ⟨e, e, rfl, rfl⟩
    | ok b =>
      rcases ih with ⟨is, js, h1, h2, h3⟩ | ⟨e, e', h1, h2⟩
      · rw [h1, h2]; exact Or.inl ⟨_, _, rfl, rfl, h3.cons b⟩
      · rw [h1, h2]; exact Or.inr ⟨e, e', rfl, rfl⟩
  | swap x y l =>
    simp only [mapE]
    cases f x with
    | error e => cases f y <;> exact Or.inr ⟨_, _, rfl, rfl⟩
    | ok b =>
      cases f y with
      | error e => exact Or.inr ⟨_, _, rfl, rfl⟩
      | ok c =>
        cases mapE f l with
        | error e => exact Or.inr ⟨_, _, rfl, rfl⟩
        | ok is => exact Or.inl ⟨_, _, rfl, rfl, List.Perm.swap b c is⟩
  | trans _ _ ih ih' =>
    rcases ih with ⟨is, js, h1, h2, h3⟩ | ⟨e, e', h1, h2⟩
    · rcases ih' with ⟨js', ks, h4, h5, h6⟩ | ⟨e, e', h4, h5⟩
      · rw [h2] at h4; cases h4
        exact Or.inl ⟨is, ks, h1, h5, h3.trans h6⟩
      · rw [h2] at h4; cases h4
    · rcases ih' with ⟨js', ks, h4, h5, h6⟩ | ⟨e2, e3, h4, h5⟩
      · rw [h2] at h4; cases h4
      · exact Or.inr ⟨e, e3, h1, h5⟩

theorem mapE_shuffled {f : Period → Except PyErr Interval} {ps rs qs : List Period}
    (h : List.Forall₂ (fun p q => SameAnswer (f p) (f q)) ps rs) (hp : rs.Perm qs) :
    (∃ is js, mapE f ps = .ok is ∧ mapE f qs = .ok js ∧ is.Perm js) ∨
      ∃ e e', mapE f ps = .error e ∧ mapE f qs = .error e' := by
  rcases sameAnswer_cases (mapE_same h) with ⟨is, h1, h2⟩ | ⟨e, e', h1, h2⟩
  · rcases mapE_perm (f := f) hp with ⟨is', js, h3, h4, h5⟩ | ⟨e, e', h3, h4⟩
    · rw [h2] at h3; cases h3
      exact Or.inl ⟨is, js, h1, h4, h5⟩
    · rw [h2] at h3; cases h3
  · rcases mapE_perm (f := f) hp with ⟨is', js, h3, h4, h5⟩ | ⟨e2, e3, h3, h4⟩
    · rw [h2] at h3; cases h3
    · exact Or.inr ⟨e, e3, h1, h4⟩

theorem mapE_from {f : Period → Except PyErr Interval} : ∀ {ps : List Period} {is : List Interval},
    mapE f ps = .ok is → ∀ i ∈ is, ∃ p ∈ ps, f p = .ok i
  | [], is, h => by simp only [mapE, Except.ok.injEq] at h; subst h; simp
  | p :: ps, is, h => by
    simp only [mapE] at h
    cases hf : f p with
    | error e => simp [hf] at h
    | ok b =>
      cases hm : mapE f ps with
      | error e => simp [hf, hm] at h
      | ok bs =>
        simp only [hf, hm, Except.ok.injEq] at h
        subst h
        intro i hi
        rcases List.mem_cons.1 hi with rfl | hi
        · exact ⟨p, by simp, hf⟩
        · obtain ⟨q, hq, h⟩ := mapE_from hm i hi
          exact ⟨q, by simp [hq], h⟩

/-! ### The claim -/

/-- C125a: rolling forward. -/
theorem C125_rollforward (n : Nat) : ∀ (p q : Period), Shuffled p q → ∀ dt : Int,
    SameAnswer (p.rollforward n dt) (q.rollforward n dt) := by
  induction n with
  | zero => intro p q _ dt; simp only [Period.rollforward]; exact sameAnswer_refl _
  | succ n ih =>
    intro p q h dt
    cases h with
    | same p => exact sameAnswer_refl _
    | all hs hp =>
      have hm := mapE_shuffled (f := fun p => p.rollforward n dt) (hs.imp (fun a b hab => ih a b hab dt)) hp
      simp only [Period.rollforward]
      rcases hm with ⟨is, js, h1, h2, h3⟩ | ⟨e, e', h1, h2⟩
      · rw [h1, h2]
        simp only [overlaps_perm h3, reduceAnd_perm h3, maxLeft_perm h3, any_perm _ h3]
        split
        · exact sameAnswer_refl _
        · cases maxLeft js with
          | error e => exact sameAnswer_refl _
          | ok next => exact ih _ _ (Shuffled.all hs hp) _
      · rw [h1, h2]; exact sameAnswer_errors _ _
    | any hs =>
      have hm := mapE_same (f := fun p => p.rollforward n dt) (hs.imp (fun a b hab => ih a b hab dt))
      simp only [Period.rollforward]
      rcases sameAnswer_cases hm with ⟨is, h1, h2⟩ | ⟨e, e', h1, h2⟩
      · rw [h1, h2]; exact sameAnswer_refl _
      · rw [h1, h2]; exact sameAnswer_errors _ _

/-- C125b: rolling back. -/
theorem C125_rollback (n : Nat) : ∀ (p q : Period), Shuffled p q → ∀ dt : Int,
    SameAnswer (p.rollback n dt) (q.rollback n dt) := by
  induction n with
  | zero => intro p q _ dt; simp only [Period.rollback]; exact sameAnswer_refl _
  | succ n ih =>
    intro p q h dt
    cases h with
    | same p => exact sameAnswer_refl _
    | all hs hp =>
      have hm := mapE_shuffled (f := fun p => p.rollback n dt) (hs.imp (fun a b hab => ih a b hab dt)) hp
      simp only [Period.rollback]
      rcases hm with ⟨is, js, h1, h2, h3⟩ | ⟨e, e', h1, h2⟩
      · rw [h1, h2]
        simp only [overlaps_perm h3, reduceAnd_perm h3, minRight_perm h3]
        split
        · exact sameAnswer_refl _
        · cases minRight js with
          | error e => exact sameAnswer_refl _
          | ok next => exact ih _ _ (Shuffled.all hs hp) _
      · rw [h1, h2]; exact sameAnswer_errors _ _
    | any hs =>
      have hm := mapE_same (f := fun p => p.rollback n dt) (hs.imp (fun a b hab => ih a b hab dt))
      simp only [Period.rollback]
      rcases sameAnswer_cases hm with ⟨is, h1, h2⟩ | ⟨e, e', h1, h2⟩
      · rw [h1, h2]; exact sameAnswer_refl _
      · rw [h1, h2]; exact sameAnswer_errors _ _

/-- C125c: membership. -/
theorem C125_contains (n : Nat) (p q : Period) (h : Shuffled p q) (dt : Int) :
    SameAnswer (p.contains n dt) (q.contains n dt) := by
  have hr := C125_rollforward n p q h dt
  cases h with
  | same p => exact sameAnswer_refl _
  | all hs hp =>
    simp only [Period.contains]
    rcases sameAnswer_cases hr with ⟨i, h1, h2⟩ | ⟨e, e', h1, h2⟩
    · rw [h1, h2]; exact sameAnswer_refl _
    · rw [h1, h2]; exact sameAnswer_errors _ _
  | any hs =>
    simp only [Period.contains]
    rcases sameAnswer_cases hr with ⟨i, h1, h2⟩ | ⟨e, e', h1, h2⟩
    · rw [h1, h2]; exact sameAnswer_refl _
    · rw [h1, h2]; exact sameAnswer_errors _ _

/-- Three spans in two orders, within a union: the second round of the intersection is needed, and both find
`[20, 30)`. -/
example : Shuffled (.any [.all [.static 0 30, .static 20 40, .static 10 35], .static 90 95])
    (.any [.all [.static 10 35, .static 0 30, .static 20 40], .static 90 95]) ∧
    (Period.all [.static 0 30, .static 20 40, .static 10 35]).rollforward 5 0 = .ok ⟨20, 30, .left⟩ ∧
    (Period.all [.static 10 35, .static 0 30, .static 20 40]).rollforward 5 0 = .ok ⟨20, 30, .left⟩ ∧
    (Period.all [.static 10 35, .static 0 30, .static 20 40]).rollback 5 50 = .ok ⟨20, 30, .left⟩ := by
  refine ⟨.any (.cons (.all (rs := [.static 0 30, .static 20 40, .static 10 35])
    (.cons (.same _) (.cons (.same _) (.cons (.same _) .nil))) ?_) (.cons (.same _) .nil)), ?_, ?_, ?_⟩
  · exact (List.perm_append_comm (l₁ := [Period.static 0 30, .static 20 40]) (l₂ := [.static 10 35]))
  all_goals decide +kernel

/-- C125d (not for unions): the interval before an instant of `Any` depends on the order, when two members end at
the same time: the loop stops at the first that does not reach further (base.py:440-445).  See also
`C67_order_violated`. -/
theorem C125_union_violated :
    [Period.static 5 10, .static 0 10, .static (-10) 3].Perm [.static 0 10, .static 5 10, .static (-10) 3] ∧
    (Period.any [.static 5 10, .static 0 10, .static (-10) 3]).rollback 5 10 = .ok ⟨-10, 10, .left⟩ ∧
    (Period.any [.static 0 10, .static 5 10, .static (-10) 3]).rollback 5 10 = .ok ⟨0, 10, .left⟩ :=
  ⟨List.Perm.swap _ _ _, by decide +kernel, by decide +kernel⟩

/-- C125e: a union does not depend on the order either, when no two members start at the same time (rolling
forward) or end at the same time (rolling back) with different spans.  Missing: members that do
(`C125_union_violated`). -/
theorem C125_union_partial (n : Nat) (ps qs : List Period) (hp : ps.Perm qs) (dt : Int) :
    ((∀ p ∈ ps, ∀ q ∈ ps, ∀ i j, p.rollforward n dt = .ok i → q.rollforward n dt = .ok j → i.left = j.left → i = j) →
      SameAnswer ((Period.any ps).rollforward (n + 1) dt) ((Period.any qs).rollforward (n + 1) dt)) ∧
    ((∀ p ∈ ps, ∀ q ∈ ps, ∀ i j, p.rollback n dt = .ok i → q.rollback n dt = .ok j → i.right = j.right → i = j) →
      SameAnswer ((Period.any ps).rollback (n + 1) dt) ((Period.any qs).rollback (n + 1) dt)) := by
  constructor
  · intro hd
    simp only [Period.rollforward]
    rcases mapE_perm (f := fun p => p.rollforward n dt) hp with ⟨is, js, h1, h2, h3⟩ | ⟨e, e', h1, h2⟩
    · rw [h1, h2]
      have hm := mapE_from h1
      have hs : pySorted (fun a b : Interval => decide (a.left ≤ b.left)) is =
          pySorted (fun a b : Interval => decide (a.left ≤ b.left)) js := by
        have hp1 := pySorted_perm (le := fun a b : Interval => decide (a.left ≤ b.left)) is
        have hp2 := pySorted_perm (le := fun a b : Interval => decide (a.left ≤ b.left)) js
        refine List.Perm.eq_of_pairwise ?_ (pySorted_pairwise ?_ ?_ is) (pySorted_pairwise ?_ ?_ js)
          (hp1.trans (h3.trans hp2.symm))
        · intro a b ha hb hab hba
          obtain ⟨p, hp, hpa⟩ := hm a (hp1.mem_iff.1 ha)
          obtain ⟨q, hq, hqb⟩ := hm b (h3.mem_iff.2 (hp2.mem_iff.1 hb))
          simp only [decide_eq_true_eq] at hab hba
          exact hd p hp q hq a b hpa hqb (le_antisymm hab hba)
        all_goals (intros; simp only [decide_eq_true_eq] at *; omega)
      simp only [mergeForward, hs]
      exact sameAnswer_refl _
    · rw [h1, h2]; exact sameAnswer_errors _ _
  · intro hd
    simp only [Period.rollback]
    rcases mapE_perm (f := fun p => p.rollback n dt) hp with ⟨is, js, h1, h2, h3⟩ | ⟨e, e', h1, h2⟩
    · rw [h1, h2]
      have hm := mapE_from h1
      have hs : pySorted (fun a b : Interval => decide (a.right ≥ b.right)) is =
          pySorted (fun a b : Interval => decide (a.right ≥ b.right)) js := by
        have hp1 := pySorted_perm (le := fun a b : Interval => decide (a.right ≥ b.right)) is
        have hp2 := pySorted_perm (le := fun a b : Interval => decide (a.right ≥ b.right)) js
        refine List.Perm.eq_of_pairwise ?_ (pySorted_pairwise ?_ ?_ is) (pySorted_pairwise ?_ ?_ js)
          (hp1.trans (h3.trans hp2.symm))
        · intro a b ha hb hab hba
          obtain ⟨p, hp, hpa⟩ := hm a (hp1.mem_iff.1 ha)
          obtain ⟨q, hq, hqb⟩ := hm b (h3.mem_iff.2 (hp2.mem_iff.1 hb))
          simp only [decide_eq_true_eq] at hab hba
          exact hd p hp q hq a b hpa hqb (le_antisymm hba hab)
        all_goals (intros; simp only [decide_eq_true_eq] at *; omega)
      simp only [mergeBack, hs]
      exact sameAnswer_refl _
    · rw [h1, h2]; exact sameAnswer_errors _ _

/-- Two spans with different ends, in both orders. -/
example : (Period.any [.static 0 10, .static 5 12]).rollforward 3 0 = .ok ⟨0, 12, .left⟩ ∧
    (Period.any [.static 5 12, .static 0 10]).rollforward 3 0 = .ok ⟨0, 12, .left⟩ ∧
    (Period.static 0 10).rollforward 2 0 = .ok ⟨0, 10, .left⟩ ∧
    (Period.static 5 12).rollforward 2 0 = .ok ⟨5, 12, .left⟩ := by decide +kernel

end Rocketry.Props
