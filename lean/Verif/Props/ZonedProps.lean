import Verif.Spec.ZonedSpec
import Verif.Time.Cron
import Verif.Time.PeriodEq
import Verif.Time.PeriodLemmas

/-!
# Property C80: the option `timezone`
-/

namespace Rocketry.Props
open Rocketry.Zoned Rocketry.Spec

/-- Datetimes of one kind, all naive or all of one zone: they are ordered and moved like what calendar and clock show. -/
structure DTKind (k : Int → DT) : Prop where
  lt : ∀ v w, DT.lt (k v) (k w) = .ok (decide (v < w))
  le : ∀ v w, DT.le (k v) (k w) = .ok (decide (v ≤ w))
  eq : ∀ v w, DT.eq (k v) (k w) = decide (v = w)
  add : ∀ v d, (k v).add d = k (v + d)
  wall : ∀ v, (k v).wall = v
  at_ : ∀ v w, (k v).at w = k w
  aware : ∀ v w, (k v).isAware = (k w).isAware

theorem kind_naive : DTKind DT.naive :=
  ⟨fun _ _ => rfl, fun _ _ => rfl, fun _ _ => rfl, fun _ _ => rfl, fun _ => rfl, fun _ _ => rfl, fun _ _ => rfl⟩

theorem kind_aware (o : Int) : DTKind (DT.aware o) := by
  refine ⟨fun v w => ?_, fun v w => ?_, fun v w => ?_, fun _ _ => rfl, fun _ => rfl, fun _ _ => rfl, fun _ _ => rfl⟩
  · simp only [DT.lt, Except.ok.injEq, decide_eq_decide]; omega
  · simp only [DT.le, Except.ok.injEq, decide_eq_decide]; omega
  · simp only [DT.eq, decide_eq_decide]; omega

/-- An interval of datetimes of one kind. -/
def kindI (k : Int → DT) (i : Interval) : ZInterval := ⟨k i.left, k i.right, i.closed⟩

/-- The result, with datetimes of this kind. -/
def kindE (k : Int → DT) (r : Except PyErr Interval) : Except PyErr ZInterval := match r with
  | .error e => .error e
  | .ok i => .ok (kindI k i)

theorem okIte {α : Type} (c : Bool) (a b : α) :
    (if c = true then (.ok a : Except PyErr α) else .ok b) = .ok (if c = true then a else b) := by cases c <;> rfl

theorem both_ok (a b : Bool) : both (.ok a) (.ok b) = .ok (a && b) := by cases a <;> rfl

section
variable {k : Int → DT} (hk : DTKind k)
include hk

theorem kind_make (l r : Int) (c : Closed) : ZInterval.make (k l) (k r) c = kindE k (Interval.make l r c) := by
  unfold ZInterval.make Interval.make
  rw [hk.lt]
  by_cases h : r < l
  · rw [if_pos h]; simp [h, kindE]
  · rw [if_neg h]; simp [h, kindE, kindI]

theorem kind_contains (i : Interval) (v : Int) : (kindI k i).contains (k v) = .ok (i.contains v) := by
  obtain ⟨l, r, c⟩ := i
  cases c <;> simp only [kindI, ZInterval.contains, Interval.contains, hk.lt, hk.le, both_ok]

theorem kind_overlaps (a b : Interval) : (kindI k a).overlaps (kindI k b) = .ok (a.overlaps b) := by
  obtain ⟨l, r, c⟩ := a
  obtain ⟨l', r', c'⟩ := b
  simp only [ZInterval.overlaps, Interval.overlaps, kindI, hk.lt, hk.eq, okIte, gt_iff_lt]
  rfl

theorem kind_pick {α : Type} (a b : Int) (x y z : α) :
    pick (k a) (k b) x y z = .ok (if a > b then x else if a < b then y else z) := by
  unfold pick
  rw [hk.lt, hk.lt]
  by_cases h : b < a
  · simp [h]
  · by_cases h2 : a < b <;> simp [h, h2]

theorem kind_and (a b : Interval) : (kindI k a).and (kindI k b) = kindE k (a.and b) := by
  unfold ZInterval.and Interval.and
  simp only [kindI, kind_pick hk]
  rcases Int.lt_trichotomy a.left b.left with h | h | h <;> rcases Int.lt_trichotomy a.right b.right with g | g | g <;>
    simp [h, g, Int.not_lt.2 (Int.le_of_lt _), kind_make hk]

theorem kind_overlapsAll (a : Interval) (l : List Interval) :
    overlapsAll (kindI k a) (l.map (kindI k)) = .ok (l.all fun b => a.overlaps b) := by
  induction l with
  | nil => rfl
  | cons b l ih =>
    simp only [List.map_cons, overlapsAll, kind_overlaps hk, ih, List.all_cons]
    cases a.overlaps b <;> simp [both]

theorem kind_allOverlap (l : List Interval) :
    Zoned.allOverlap (l.map (kindI k)) = .ok (Rocketry.allOverlap l) := by
  induction l with
  | nil => rfl
  | cons a l ih =>
    simp only [List.map_cons, Zoned.allOverlap, Rocketry.allOverlap, kind_overlapsAll hk, ih]
    cases l.all fun b => a.overlaps b <;> simp [both]

theorem kind_reduceFrom (l : List Interval) : ∀ a : Interval,
    Zoned.reduceFrom (kindI k a) (l.map (kindI k)) = kindE k (Rocketry.reduceFrom a l) := by
  induction l with
  | nil => intro a; rfl
  | cons b l ih =>
    intro a
    simp only [List.map_cons, Zoned.reduceFrom, Rocketry.reduceFrom, kind_and hk]
    rcases a.and b with e | c
    · rfl
    · exact ih c

theorem kind_reduceAnd (l : List Interval) : Zoned.reduceAnd (l.map (kindI k)) = kindE k (Rocketry.reduceAnd l) := by
  cases l with
  | nil => rfl
  | cons a l => exact kind_reduceFrom hk l a

theorem kind_maxOf (l : List Interval) : ∀ a : Int,
    maxOf (k a) ((l.map (kindI k)).map (·.left)) = .ok (k (l.foldl (fun m i => max m i.left) a)) := by
  induction l with
  | nil => intro a; rfl
  | cons b l ih =>
    intro a
    simp only [List.map_cons, maxOf, List.foldl_cons]
    rw [show (kindI k b).left = k b.left from rfl, hk.lt]
    by_cases h : a < b.left
    · simp only [h, decide_true]
      rw [ih, show max a b.left = b.left by omega]
    · simp only [h, decide_false]
      rw [ih, show max a b.left = a by omega]

theorem kind_minOf (l : List Interval) : ∀ a : Int,
    minOf (k a) ((l.map (kindI k)).map (·.right)) = .ok (k (l.foldl (fun m i => min m i.right) a)) := by
  induction l with
  | nil => intro a; rfl
  | cons b l ih =>
    intro a
    simp only [List.map_cons, minOf, List.foldl_cons]
    rw [show (kindI k b).right = k b.right from rfl, hk.lt]
    by_cases h : b.right < a
    · simp only [h, decide_true]
      rw [ih, show min a b.right = b.right by omega]
    · simp only [h, decide_false]
      rw [ih, show min a b.right = a by omega]

/-- A result that is a time. -/
def kindT (k : Int → DT) (r : Except PyErr Int) : Except PyErr DT := match r with
  | .error e => .error e
  | .ok t => .ok (k t)

theorem kind_maxLeft (l : List Interval) : Zoned.maxLeft (l.map (kindI k)) = kindT k (Rocketry.maxLeft l) := by
  cases l with
  | nil => rfl
  | cons a l => exact kind_maxOf hk l a.left

theorem kind_minRight (l : List Interval) : Zoned.minRight (l.map (kindI k)) = kindT k (Rocketry.minRight l) := by
  cases l with
  | nil => rfl
  | cons a l => exact kind_minOf hk l a.right

end

theorem pySorted_map {α β : Type} (f : α → β) (le : α → α → Bool) (le' : β → β → Bool)
    (h : ∀ a b, le' (f a) (f b) = le a b) (l : List α) : pySorted le' (l.map f) = (pySorted le l).map f := by
  have ins : ∀ (a : α) (l : List α), insertBy le' (f a) (l.map f) = (insertBy le a l).map f := by
    intro a l
    induction l with
    | nil => rfl
    | cons b l ih =>
      simp only [List.map_cons, insertBy, h]
      split
      · rfl
      · rw [ih]; rfl
  induction l with
  | nil => rfl
  | cons a l ih => simp only [List.map_cons, pySorted, ih, ins]

section
variable {k : Int → DT} (hk : DTKind k)
include hk

theorem kind_sortedLeft (l : List Interval) : sortedBy (·.left) false (l.map (kindI k)) =
    .ok ((pySorted (fun a b => decide (a.left ≤ b.left)) l).map (kindI k)) := by
  unfold sortedBy
  rw [if_pos, pySorted_map (kindI k) (fun a b => decide (a.left ≤ b.left))]
  · intro a b
    simp only [Bool.false_eq_true, if_false, kindI, hk.le]
    by_cases h : a.left ≤ b.left <;> simp [h]
  · cases h : (k 0).isAware
    · rw [Bool.or_eq_true]; right
      simp [kindI, hk.aware _ 0, h]
    · rw [Bool.or_eq_true]; left
      simp [kindI, hk.aware _ 0, h]

theorem kind_sortedRight (l : List Interval) : sortedBy (·.right) true (l.map (kindI k)) =
    .ok ((pySorted (fun a b => decide (a.right ≥ b.right)) l).map (kindI k)) := by
  unfold sortedBy
  rw [if_pos, pySorted_map (kindI k) (fun a b => decide (a.right ≥ b.right))]
  · intro a b
    simp only [if_true, kindI, hk.le]
    by_cases h : b.right ≤ a.right <;> simp [h]
  · cases h : (k 0).isAware
    · rw [Bool.or_eq_true]; right
      simp [kindI, hk.aware _ 0, h]
    · rw [Bool.or_eq_true]; left
      simp [kindI, hk.aware _ 0, h]

theorem kind_extendRight (l : List Interval) : ∀ c : Interval,
    Zoned.extendRight (kindI k c) (l.map (kindI k)) = .ok (kindI k (Rocketry.extendRight c l)) := by
  induction l with
  | nil => intro c; rfl
  | cons i l ih =>
    intro c
    simp only [List.map_cons, Zoned.extendRight, Rocketry.extendRight, kind_overlaps hk]
    rw [show (kindI k c).right = k c.right from rfl, show (kindI k i).right = k i.right from rfl, hk.lt, both_ok]
    by_cases h : (decide (c.right < i.right) && i.overlaps c) = true
    · rw [h]; exact ih i
    · rw [Bool.not_eq_true] at h; rw [h]; rfl

theorem kind_extendLeft (l : List Interval) : ∀ c : Interval,
    Zoned.extendLeft (kindI k c) (l.map (kindI k)) = .ok (kindI k (Rocketry.extendLeft c l)) := by
  induction l with
  | nil => intro c; rfl
  | cons i l ih =>
    intro c
    simp only [List.map_cons, Zoned.extendLeft, Rocketry.extendLeft, kind_overlaps hk]
    rw [show (kindI k c).left = k c.left from rfl, show (kindI k i).left = k i.left from rfl, hk.lt, both_ok]
    by_cases h : (decide (i.left < c.left) && i.overlaps c) = true
    · rw [h]; exact ih i
    · rw [Bool.not_eq_true] at h; rw [h]; rfl

theorem kind_mergeForward (l : List Interval) :
    Zoned.mergeForward (l.map (kindI k)) = kindE k (Rocketry.mergeForward l) := by
  unfold Zoned.mergeForward Rocketry.mergeForward
  rw [kind_sortedLeft hk]
  rcases pySorted (fun a b : Interval => decide (a.left ≤ b.left)) l with _ | ⟨c, l'⟩
  · rfl
  · simp only [List.map_cons, kind_extendRight hk]
    exact kind_make hk _ _ _

theorem kind_mergeBack (l : List Interval) :
    Zoned.mergeBack (l.map (kindI k)) = kindE k (Rocketry.mergeBack l) := by
  unfold Zoned.mergeBack Rocketry.mergeBack
  rw [kind_sortedRight hk]
  rcases pySorted (fun a b : Interval => decide (a.right ≥ b.right)) l with _ | ⟨c, l'⟩
  · rfl
  · simp only [List.map_cons, kind_extendLeft hk]
    exact kind_make hk _ _ _

end

theorem members_map (ps : List Period) : undated.members ps = ps.map undated := by
  induction ps with
  | nil => rfl
  | cons p ps ih => simp only [undated.members, ih, List.map_cons]

theorem mapE_kind {k : Int → DT} {f : Period → Except PyErr Interval} {g : ZPeriod → Except PyErr ZInterval}
    (ps : List Period) (h : ∀ p ∈ ps, g (undated p) = kindE k (f p)) :
    mapE g (ps.map undated) = match mapE f ps with
      | .error e => .error e
      | .ok is => .ok (is.map (kindI k)) := by
  induction ps with
  | nil => rfl
  | cons p ps ih =>
    simp only [List.map_cons, mapE, h p (List.mem_cons_self ..)]
    rw [ih fun q hq => h q (List.mem_cons_of_mem _ hq)]
    rcases f p with e | i
    · rfl
    · rcases mapE f ps with e | is <;> rfl

/-- The period can be used with datetimes of this kind. -/
def Usable (k : Int → DT) (p : Period) : Prop := k = DT.naive ∨ Floating p

theorem usable_all {k : Int → DT} {ps : List Period} (h : Usable k (.all ps)) : ∀ p ∈ ps, Usable k p := by
  rcases h with h | h
  · exact fun p _ => .inl h
  · cases h with | all _ h => exact fun p hp => .inr (h p hp)

theorem usable_any {k : Int → DT} {ps : List Period} (h : Usable k (.any ps)) : ∀ p ∈ ps, Usable k p := by
  rcases h with h | h
  · exact fun p _ => .inl h
  · cases h with | any _ h => exact fun p hp => .inr (h p hp)

theorem kind_onWall {k : Int → DT} (hk : DTKind k) (v : Int) (r : Except PyErr Interval) :
    onWall (k v) r = kindE k r := by
  rcases r with e | i
  · rfl
  · simp only [onWall, kindE, DT.interval, kindI, hk.at_]

theorem naive_staticForward (s e dt : Int) :
    Zoned.staticForward (.naive s) (.naive e) (.naive dt) = kindE DT.naive (Rocketry.staticForward s e dt) := by
  simp only [Zoned.staticForward, Rocketry.staticForward, DT.lt, maxOf]
  by_cases h : e < dt
  · simp only [h, decide_true, if_true]; exact kind_make kind_naive _ _ _
  · simp only [h, decide_false, if_false]
    by_cases g : s < dt
    · simp only [g, decide_true]; rw [show max s dt = dt by omega]; exact kind_make kind_naive _ _ _
    · simp only [g, decide_false]; rw [show max s dt = s by omega]; exact kind_make kind_naive _ _ _

theorem naive_staticBack (m : Machine) (s e dt : Int) :
    Zoned.staticBack m (.naive s) (.naive e) (.naive dt) = kindE DT.naive (Rocketry.staticBack s e dt) := by
  simp only [Zoned.staticBack, Rocketry.staticBack, Machine.inZoneOf, DT.lt, minOf]
  by_cases h : dt < s
  · simp only [h, decide_true, if_true]; exact kind_make kind_naive _ _ _
  · simp only [h, decide_false, if_false]
    by_cases g : dt < e
    · simp only [g, decide_true]; rw [show min e dt = dt by omega]; exact kind_make kind_naive _ _ _
    · simp only [g, decide_false]; rw [show min e dt = e by omega]; exact kind_make kind_naive _ _ _

theorem kind_forward {k : Int → DT} (hk : DTKind k) : ∀ (n : Nat) (p : Period) (dt : Int), Usable k p →
    (undated p).rollforward n (k dt) = kindE k (p.rollforward n dt) := by
  intro n
  induction n with
  | zero => intro p dt _; cases p <;> rfl
  | succ n ih =>
    intro p dt hp
    cases p with
    | anchored a =>
      simp only [undated, ZPeriod.rollforward, Period.rollforward, hk.wall]
      exact kind_onWall hk _ _
    | static s e =>
      rcases hp with rfl | hp
      · exact naive_staticForward s e dt
      · cases hp
    | always =>
      rcases hp with rfl | hp
      · exact naive_staticForward MINT MAXT dt
      · cases hp
    | delta p f =>
      simp only [undated, ZPeriod.rollforward, Period.rollforward, hk.add]
      exact kind_make hk _ _ _
    | span a b =>
      cases b with
      | some f =>
        simp only [undated, ZPeriod.rollforward, Period.rollforward, hk.add]
        exact kind_make hk _ _ _
      | none =>
        rcases hp with rfl | hp
        · simp only [undated, ZPeriod.rollforward, Period.rollforward, hk.add]
          exact kind_make hk _ _ _
        · cases hp
    | relday a b c => rfl
    | all ps =>
      simp only [undated, members_map, ZPeriod.rollforward, Period.rollforward]
      rw [mapE_kind ps fun p hp' => ih p dt (usable_all hp p hp')]
      rcases mapE (fun p => Period.rollforward n p dt) ps with e | is
      · rfl
      · simp only [kind_allOverlap hk]
        cases Rocketry.allOverlap is with
        | true => simp only [if_true]; exact kind_reduceAnd hk is
        | false =>
          simp only [kind_maxLeft hk, Bool.false_eq_true, if_false]
          rcases Rocketry.maxLeft is with e | next
          · rfl
          · have ho : ((is.map (kindI k)).any fun i => DT.eq i.left (k next) && !i.closed.incLeft) =
                is.any fun i => decide (i.left = next) && !i.closed.incLeft := by
              simp only [List.any_map, Function.comp_def, kindI, hk.eq]
            simp only [kindT, ho, hk.add]
            have := ih (.all ps)
            simp only [undated, members_map] at this
            by_cases hx : (is.any fun i => decide (i.left = next) && !i.closed.incLeft) = true
            · simp only [hx, if_true]; exact this _ hp
            · simp only [hx]; exact this _ hp
    | any ps =>
      simp only [undated, members_map, ZPeriod.rollforward, Period.rollforward]
      rw [mapE_kind ps fun p hp' => ih p dt (usable_any hp p hp')]
      rcases mapE (fun p => Period.rollforward n p dt) ps with e | is
      · rfl
      · exact kind_mergeForward hk is

theorem kind_back {k : Int → DT} (hk : DTKind k) (m : Machine) : ∀ (n : Nat) (p : Period) (dt : Int), Usable k p →
    (undated p).rollback m n (k dt) = kindE k (p.rollback n dt) := by
  intro n
  induction n with
  | zero => intro p dt _; cases p <;> rfl
  | succ n ih =>
    intro p dt hp
    cases p with
    | anchored a =>
      simp only [undated, ZPeriod.rollback, Period.rollback, hk.wall]
      exact kind_onWall hk _ _
    | static s e =>
      rcases hp with rfl | hp
      · exact naive_staticBack m s e dt
      · cases hp
    | always =>
      rcases hp with rfl | hp
      · exact naive_staticBack m MINT MAXT dt
      · cases hp
    | delta p f =>
      simp only [undated, ZPeriod.rollback, Period.rollback, hk.add]
      exact kind_make hk _ _ _
    | span a b =>
      cases b with
      | some f =>
        simp only [undated, ZPeriod.rollback, Period.rollback, hk.add]
        exact kind_make hk _ _ _
      | none =>
        rcases hp with rfl | hp
        · simp only [undated, ZPeriod.rollback, Period.rollback, hk.add]
          exact kind_make hk _ _ _
        · cases hp
    | relday a b c =>
      rcases hp with rfl | hp
      · simp only [undated, ZPeriod.rollback, Period.rollback, hk.wall]
        exact kind_make hk _ _ _
      · cases hp
    | all ps =>
      simp only [undated, members_map, ZPeriod.rollback, Period.rollback]
      rw [mapE_kind ps fun p hp' => ih p dt (usable_all hp p hp')]
      rcases mapE (fun p => Period.rollback n p dt) ps with e | is
      · rfl
      · simp only [kind_allOverlap hk]
        cases Rocketry.allOverlap is with
        | true => simp only [if_true]; exact kind_reduceAnd hk is
        | false =>
          simp only [kind_minRight hk, Bool.false_eq_true, if_false]
          rcases Rocketry.minRight is with e | next
          · rfl
          · simp only [kindT, hk.eq, hk.add]
            have := ih (.all ps)
            simp only [undated, members_map] at this
            by_cases hx : dt = next
            · simp only [hx, decide_true, if_true]; exact this _ hp
            · simp only [hx, decide_false, if_false, Bool.false_eq_true]; exact this _ hp
    | any ps =>
      simp only [undated, members_map, ZPeriod.rollback, Period.rollback]
      rw [mapE_kind ps fun p hp' => ih p dt (usable_any hp p hp')]
      rcases mapE (fun p => Period.rollback n p dt) ps with e | is
      · rfl
      · exact kind_mergeBack hk is

theorem kind_in {k : Int → DT} (hk : DTKind k) (n : Nat) (p : Period) (dt : Int) (hp : Usable k p) :
    (undated p).contains n (k dt) = p.contains n dt := by
  have roll : ∀ q : Period, Usable k q → ((match (undated q).rollforward n (k dt) with
      | .error e => .error e
      | .ok i => i.contains (k dt)) : Except PyErr Bool) = match q.rollforward n dt with
      | .error e => .error e
      | .ok i => .ok (i.contains dt) := by
    intro q hq
    rw [kind_forward hk n q dt hq]
    rcases q.rollforward n dt with e | i
    · rfl
    · exact kind_contains hk i dt
  cases p with
  | anchored a => simp only [undated, ZPeriod.contains, Period.contains, hk.wall]
  | static s e => exact roll _ hp
  | always => exact roll _ hp
  | delta p f => rfl
  | span a b => rfl
  | relday a b c => rfl
  | all ps => exact roll _ hp
  | any ps => exact roll _ hp

/-- The datetimes that a session makes: `k`, for what clocks `o` ahead of UTC show. -/
structure ShowsZone (m : Machine) (zone : Option Int) (o : Int) (k : Int → DT) : Prop where
  kind : DTKind k
  format : ∀ ts, m.format zone ts = k (ts + o)
  stamp : ∀ w, m.toStamp (k w) = w - o

theorem shows_zone (m : Machine) (o : Int) : ShowsZone m (some o) o (DT.aware o) :=
  ⟨kind_aware o, fun _ => rfl, fun _ => rfl⟩

theorem shows_local (o : Int) : ShowsZone (computerAt o) none o DT.naive :=
  ⟨kind_naive, fun _ => rfl, fun _ => rfl⟩

section
variable {m : Machine} {zone : Option Int} {o : Int} {k : Int → DT} (hs : ShowsZone m zone o k)
include hs

/-- The period can be used, or there is none and dates without zone can be compared. -/
def UsableO (k : Int → DT) : Option Period → Prop
  | none => k = DT.naive
  | some p => Usable k p

theorem shows_span (n : Nat) (p : Option Period) (now : Int) (hp : UsableO k p) :
    Zoned.span m zone n (p.map undated) now = match Period.periodSpan n p (now + o) with
      | .error e => .error e
      | .ok (s, e) => .ok (k s, k e) := by
  cases p with
  | none => rw [show k = DT.naive from hp]; rfl
  | some p =>
    simp only [Option.map_some, Zoned.span, Period.periodSpan, hs.format, kind_back hs.kind m n p _ hp]
    rcases p.rollback n (now + o) with e | i <;> rfl

theorem shows_within (s e t : Int) : Zoned.within (k s) (k e) (k t) = .ok (Rocketry.within s e t) := by
  simp only [Zoned.within, Rocketry.within, hs.kind.le, both_ok]

theorem shows_scan (last : Action → Option Int) (s e : Int) (l : List Action) : ∀ c : Bool,
    Zoned.scanActions (fun a => (last a).map (m.format zone)) (k s) (k e) l c =
      .ok (Rocketry.scanActions (fun a => (last a).map (· + o)) s e l c) := by
  induction l with
  | nil => intro c; rfl
  | cons a l ih =>
    intro c
    simp only [Zoned.scanActions, Rocketry.scanActions]
    rcases last a with _ | t
    · exact ih c
    · simp only [Option.map_some, hs.format, shows_within hs, hs.kind.le]
      cases Rocketry.within s e (t + o) with
      | true => rfl
      | false =>
        simp only [Bool.false_eq_true, if_false, ge_iff_le]
        by_cases h : s ≤ t + o
        · simp only [h, decide_true, if_true]; exact ih false
        · simp only [h, decide_false, if_false]; exact ih c

theorem shows_features (last : Action → Option Int) (s e : Int) (acts : Acts) :
    Zoned.cachedFeatures (fun a => (last a).map (m.format zone)) (k s) (k e) acts =
      .ok (Rocketry.cachedFeatures (fun a => (last a).map (· + o)) s e acts) := by
  cases acts with
  | one a =>
    simp only [Zoned.cachedFeatures, Rocketry.cachedFeatures]
    rcases last a with _ | t
    · rfl
    · simp only [Option.map_some, hs.format, shows_within hs, hs.kind.lt]
  | many l => exact shows_scan hs last s e l true

theorem shows_measured (repo : List Record) (name : String) (acts : Acts) (s e : Int) :
    (measuredTimes repo name acts (m.toStamp (k s)) (m.toStamp (k e))).length =
      (measuredTimes (shownIn o repo) name acts s e).length := by
  simp only [measuredTimes, recordsBy, List.length_map, shownIn, List.filter_map, hs.stamp]
  congr 1
  apply List.filter_congr
  intro r _
  simp only [Function.comp_def, Rocketry.within]
  rw [decide_eq_decide.2 (show s - o ≤ r.created ↔ s ≤ r.created + o by omega),
    decide_eq_decide.2 (show r.created ≤ e - o ↔ r.created + o ≤ e by omega)]

theorem shows_status (n : Nat) (fromLogs : Bool) (acts : Acts) (comps : Comps) (p : Option Period) (now : Int)
    (name : String) (t : TaskMem) (repo : List Record) (hp : UsableO k p) :
    Zoned.status m zone n fromLogs acts comps (p.map undated) now name t repo =
      statusCond n fromLogs acts comps p (now + o) name (memIn o t) (shownIn o repo) := by
  unfold Zoned.status statusCond
  rw [shows_span hs n p now hp]
  rcases Period.periodSpan n p (now + o) with e | ⟨s, e⟩
  · rfl
  · simp only [shows_features hs, shows_measured hs, statusObserve, memIn]
    simp only [okIte]
    rfl

theorem shows_isPeriod (n : Nat) (p : Period) (now : Int) (hp : Usable k p) :
    Zoned.isPeriod m zone n (undated p) now = p.contains n (now + o) := by
  unfold Zoned.isPeriod
  rw [hs.format]
  exact kind_in hs.kind n p (now + o) hp

omit hs in
theorem undated_isDelta (p : Period) : (undated p).isDelta = p.isDelta := by cases p <;> rfl

theorem shows_isin (n : Nat) (p : Period) (now : Int) (hp : Usable k p) :
    Zoned.isin m zone n (undated p) now = isinPeriod n p (now + o) := by
  unfold Zoned.isin isinPeriod
  rw [undated_isDelta, shows_isPeriod hs n p now hp]

theorem shows_executable (n : Nat) (fromLogs : Bool) (retries : Option Int) (p : Period) (now : ExecReads) (name : String)
    (t : TaskMem) (repo : List Record) (hp : Usable k p) :
    Zoned.executable m zone n fromLogs retries (undated p) now name t repo =
      Rocketry.executable n fromLogs retries p (readsIn o now) name (memIn o t) (shownIn o repo) := by
  have h := fun acts comps now => shows_status hs n fromLogs acts comps (some p) now name t repo hp
  simp only [Option.map_some] at h
  unfold Zoned.executable Rocketry.executable
  simp only [h, shows_isin hs n p _ hp, readsIn]

theorem shows_runnable (n : Nat) (fromLogs : Bool) (p : Period) (now now' : Int) (name : String) (t : TaskMem)
    (repo : List Record) (hp : Usable k p) :
    Zoned.runnable m zone n fromLogs (undated p) now now' name t repo =
      Rocketry.runnable n fromLogs p (now + o) (now' + o) name (memIn o t) (shownIn o repo) := by
  have h := fun acts comps now => shows_status hs n fromLogs acts comps (some p) now name t repo hp
  simp only [Option.map_some] at h
  unfold Zoned.runnable Rocketry.runnable
  simp only [h, shows_isin hs n p _ hp]

theorem shows_alive (s e : Int) (l : List StackRun) : aliveWithin m zone (k s) (k e) l =
    .ok (l.filter fun r => r.alive && Rocketry.within s e (r.start + o)) := by
  induction l with
  | nil => rfl
  | cons r l ih =>
    simp only [aliveWithin, hs.format, shows_within hs, both_ok, ih, List.filter_cons]

theorem shows_running (n : Nat) (comps : Comps) (p : Option Period) (now : Int) (runs : List StackRun)
    (hp : UsableO k p) : Zoned.running m zone n comps (p.map undated) now runs =
      match Period.periodSpan n p (now + o) with
      | .error e => .error e
      | .ok (s, e) =>
        .ok (compState comps (runs.filter fun r => r.alive && Rocketry.within s e (r.start + o)).length) := by
  unfold Zoned.running
  rw [shows_span hs n p now hp]
  rcases Period.periodSpan n p (now + o) with e | ⟨s, e⟩
  · rfl
  · simp only [shows_alive hs]

theorem shows_scheduler (n : Nat) (p : Option Period) (now startup : Int) (hp : UsableO k p) :
    Zoned.schedulerStarted m zone n (p.map undated) now startup =
      match Period.periodSpan n p (now + o) with
      | .error e => .error e
      | .ok (s, e) => .ok (Rocketry.within s e (startup + o)) := by
  unfold Zoned.schedulerStarted
  rw [shows_span hs n p now hp]
  rcases Period.periodSpan n p (now + o) with e | ⟨s, e⟩
  · rfl
  · simp only [hs.format, shows_within hs]

end

/-! ### The theorems -/

/-- **C80 (part)**: `IsPeriod` (`time_of_day…`, `crontime`, …) in a session with the option `timezone` has the value that
it has without the option on a computer in that zone: for every computer, zone, moment and floating period. -/
theorem C80_isPeriod_partial (m : Machine) (o : Int) (n : Nat) (p : Period) (hp : Floating p) (now : Int) :
    Zoned.isPeriod m (some o) n (undated p) now = Zoned.isPeriod (computerAt o) none n (undated p) now := by
  rw [shows_isPeriod (shows_zone m o) n p now (.inr hp), shows_isPeriod (shows_local o) n p now (.inl rfl)]

/-- **C80 (part)**: conditions on the status of a task in a period (`succeeded`, `failed`, `every`, …), from the log or
from cached times. -/
theorem C80_status_partial (m : Machine) (o : Int) (n : Nat) (fromLogs : Bool) (acts : Acts) (comps : Comps) (p : Period)
    (hp : Floating p) (now : Int) (name : String) (t : TaskMem) (repo : List Record) :
    Zoned.status m (some o) n fromLogs acts comps (some (undated p)) now name t repo =
      Zoned.status (computerAt o) none n fromLogs acts comps (some (undated p)) now name t repo :=
  (shows_status (shows_zone m o) n fromLogs acts comps (some p) now name t repo (.inr hp)).trans
    (shows_status (shows_local o) n fromLogs acts comps (some p) now name t repo (.inl rfl)).symm

/-- **C80 (part)**: `daily`, `hourly`, … (`TaskExecutable`). -/
theorem C80_executable_partial (m : Machine) (o : Int) (n : Nat) (fromLogs : Bool) (retries : Option Int) (p : Period)
    (hp : Floating p) (now : ExecReads) (name : String) (t : TaskMem) (repo : List Record) :
    Zoned.executable m (some o) n fromLogs retries (undated p) now name t repo =
      Zoned.executable (computerAt o) none n fromLogs retries (undated p) now name t repo :=
  (shows_executable (shows_zone m o) n fromLogs retries p now name t repo (.inr hp)).trans
    (shows_executable (shows_local o) n fromLogs retries p now name t repo (.inl rfl)).symm

/-- **C80 (part)**: `cron` (`TaskRunnable`). -/
theorem C80_runnable_partial (m : Machine) (o : Int) (n : Nat) (fromLogs : Bool) (p : Period) (hp : Floating p)
    (now now' : Int) (name : String) (t : TaskMem) (repo : List Record) :
    Zoned.runnable m (some o) n fromLogs (undated p) now now' name t repo =
      Zoned.runnable (computerAt o) none n fromLogs (undated p) now now' name t repo :=
  (shows_runnable (shows_zone m o) n fromLogs p now now' name t repo (.inr hp)).trans
    (shows_runnable (shows_local o) n fromLogs p now now' name t repo (.inl rfl)).symm

/-- **C80 (part)**: `running(task).less_than(d)`, `.between(a, b)`. -/
theorem C80_running_partial (m : Machine) (o : Int) (n : Nat) (comps : Comps) (p : Period) (hp : Floating p) (now : Int)
    (runs : List StackRun) : Zoned.running m (some o) n comps (some (undated p)) now runs =
      Zoned.running (computerAt o) none n comps (some (undated p)) now runs :=
  (shows_running (shows_zone m o) n comps (some p) now runs (.inr hp)).trans
    (shows_running (shows_local o) n comps (some p) now runs (.inl rfl)).symm

/-- **C80 (part)**: `scheduler_running(less_than=d)`. -/
theorem C80_scheduler_partial (m : Machine) (o : Int) (n : Nat) (p : Period) (hp : Floating p) (now startup : Int) :
    Zoned.schedulerStarted m (some o) n (some (undated p)) now startup =
      Zoned.schedulerStarted (computerAt o) none n (some (undated p)) now startup :=
  (shows_scheduler (shows_zone m o) n (some p) now startup (.inr hp)).trans
    (shows_scheduler (shows_local o) n (some p) now startup (.inl rfl)).symm

/-- The results without the option, for all periods: conditions have the values of the earlier models (C25 to C32) with
all times as clocks `o` ahead of UTC show them; by `C80_executable_partial` so do they with the option. -/
theorem C80_shown (o : Int) (n : Nat) (fromLogs : Bool) (retries : Option Int) (p : Period) (now : ExecReads)
    (name : String) (t : TaskMem) (repo : List Record) :
    Zoned.executable (computerAt o) none n fromLogs retries (undated p) now name t repo =
      Rocketry.executable n fromLogs retries p (readsIn o now) name (memIn o t) (shownIn o repo) :=
  shows_executable (shows_local o) n fromLogs retries p now name t repo (.inl rfl)

/-! #### Cron expressions name no dates -/

/-- Floating, or the period `always`, which combinations leave out. -/
def FloatingA (p : Period) : Prop := Floating p ∨ p = .always

theorem float_set {l : List Period} (h : ∀ p ∈ l, Floating p) : ∀ p ∈ Period.setOf l, Floating p :=
  fun _ hp => h _ (Period.mem_setOf hp)

theorem float_allMembers : ∀ {l : List Period}, (∀ p ∈ l, FloatingA p) → ∀ p ∈ Period.allMembers l, Floating p
  | [], _, p, hp => by simp [Period.allMembers] at hp
  | q :: l, h, p, hp => by
    have ih := float_allMembers (l := l) fun p hp => h p (List.mem_cons_of_mem _ hp)
    rcases h q (List.mem_cons_self ..) with hq | rfl
    · cases hq with
      | all qs hqs =>
        simp only [Period.allMembers, List.mem_append] at hp
        rcases hp with hp | hp
        · exact hqs p hp
        · exact ih p hp
      | anchored a =>
        simp only [Period.allMembers, List.mem_cons] at hp
        rcases hp with rfl | hp
        · exact .anchored a
        · exact ih p hp
      | delta a b =>
        simp only [Period.allMembers, List.mem_cons] at hp
        rcases hp with rfl | hp
        · exact .delta a b
        · exact ih p hp
      | span a b =>
        simp only [Period.allMembers, List.mem_cons] at hp
        rcases hp with rfl | hp
        · exact .span a b
        · exact ih p hp
      | any qs hqs =>
        simp only [Period.allMembers, List.mem_cons] at hp
        rcases hp with rfl | hp
        · exact .any qs hqs
        · exact ih p hp
    · exact ih p (by simpa [Period.allMembers] using hp)

theorem float_anyMembers : ∀ {l : List Period} (acc : List Period), (∀ p ∈ l, Floating p) → (∀ p ∈ acc, Floating p) →
    ∀ p ∈ Period.anyMembers acc l, Floating p
  | [], acc, _, ha, p, hp => ha p (by simpa [Period.anyMembers] using hp)
  | q :: l, acc, h, ha, p, hp => by
    have ih := fun acc => float_anyMembers (l := l) acc fun p hp => h p (List.mem_cons_of_mem _ hp)
    have hq := h q (List.mem_cons_self ..)
    have one : ∀ p ∈ acc ++ [q], Floating p := by
      intro p hp
      rcases List.mem_append.1 hp with hp | hp
      · exact ha p hp
      · rw [List.mem_singleton.1 hp]; exact hq
    cases hq with
    | any qs hqs =>
      refine ih (acc ++ qs) ?_ p (by simpa only [Period.anyMembers] using hp)
      intro p hp
      rcases List.mem_append.1 hp with hp | hp
      · exact ha p hp
      · exact hqs p hp
    | anchored a => exact ih _ one p (by simpa only [Period.anyMembers] using hp)
    | delta a b => exact ih _ one p (by simpa only [Period.anyMembers] using hp)
    | span a b => exact ih _ one p (by simpa only [Period.anyMembers] using hp)
    | all qs hqs => exact ih _ one p (by simpa only [Period.anyMembers] using hp)

theorem float_mkAny {l : List Period} {r : Period} (h : ∀ p ∈ l, Floating p) (hr : Period.mkAny l = .ok r) :
    Floating r := by
  unfold Period.mkAny at hr
  split at hr
  · cases hr
  · cases hr
    exact .any _ (float_set (float_anyMembers [] h (fun p hp => by simp at hp)))

theorem float_and {p q r : Period} (hp : FloatingA p) (hq : FloatingA q) (h : Floating p ∨ Floating q)
    (hr : p.and q = .ok r) : Floating r := by
  have both : Period.mkAll [p, q] = .ok r → Floating r := by
    intro h
    simp only [Period.mkAll, List.isEmpty_cons, Bool.false_eq_true, if_false, Except.ok.injEq] at h
    subst h
    refine .all _ (float_set (float_allMembers fun x hx => ?_))
    simp only [List.mem_cons, List.not_mem_nil, or_false] at hx
    rcases hx with rfl | rfl
    · exact hp
    · exact hq
  unfold Period.and at hr
  split at hr
  · cases hr
    rcases h with h | h
    · cases h
    · exact h
  · cases hr
    rcases h with h | h
    · exact h
    · cases h
  · exact both hr

theorem float_and_always {p q r : Period} (hp : FloatingA p) (hq : FloatingA q) (hr : p.and q = .ok r) :
    FloatingA r := by
  rcases hp with hp | rfl
  · exact .inl (float_and (.inl hp) hq (.inl hp) hr)
  · cases hr; exact hq

theorem float_or {p q r : Period} (hp : Floating p) (hq : Floating q) (hr : p.or q = .ok r) : Floating r := by
  unfold Period.or at hr
  split at hr
  · cases hp
  · cases hq
  · refine float_mkAny (fun x hx => ?_) hr
    simp only [List.mem_cons, List.not_mem_nil, or_false] at hx
    rcases hx with rfl | rfl
    · exact hp
    · exact hq

theorem float_at {sc : Scope} {v : AVal} {p : Period} (h : atPeriod sc v = .ok p) : Floating p := by
  unfold atPeriod at h
  split at h
  · cases h
  · cases h; exact .anchored _

theorem float_createRange {sc : Scope} {a b : Option Int} {n : Nat} {p : Period} (h : createRange sc a b n = .ok p) :
    Floating p := by
  unfold createRange at h
  split at h
  · cases h
  · split at h
    · cases h
    · rename_i ps hps
      refine float_mkAny (fun q hq => ?_) h
      obtain ⟨_, _, hk⟩ := (mapE_ok hps).2.1 q hq
      exact float_at hk

theorem float_item {sc : Scope} {i : CItem} {p : Period} (h : itemPeriod sc i = .ok (some p)) : Floating p := by
  cases i with
  | star => simp [itemPeriod] at h
  | starStep n =>
    simp only [itemPeriod] at h
    split at h
    · cases h
    · rename_i q hq; cases h; exact (float_createRange hq)
  | «at» v s =>
    cases s with
    | none =>
      simp only [itemPeriod] at h
      split at h
      · cases h
      · rename_i q hq; cases h; exact (float_at hq)
    | some n =>
      simp only [itemPeriod] at h
      split at h
      · cases h
      · rename_i q hq
        split at h
        · cases h
        · rename_i p' hp'
          split at h
          · cases h
          · rename_i r hr
            cases h
            exact float_and (.inl (float_at hp')) (.inl (float_createRange hq)) (.inl (float_at hp')) hr
  | range a b s =>
    cases s with
    | none =>
      simp only [itemPeriod] at h
      split at h
      · cases h
      · cases h; exact .anchored _
    | some n =>
      simp only [itemPeriod] at h
      split at h
      · cases h
      · split at h
        · cases h
        · rename_i q hq; cases h; exact (float_createRange hq)

theorem float_loop {sc : Scope} : ∀ {l : List CItem} {acc r : Option Period}, (∀ p ∈ acc, Floating p) →
    fieldLoop sc acc l = .ok r → ∀ p ∈ r, Floating p
  | [], acc, r, ha, h => by
    simp only [fieldLoop, Except.ok.injEq] at h
    exact h ▸ ha
  | i :: l, acc, r, ha, h => by
    simp only [fieldLoop] at h
    split at h
    · cases h
    · exact float_loop ha h
    · rename_i p hp
      have hp := float_item hp
      split at h
      · exact float_loop (fun q hq => by cases hq; exact hp) h
      · rename_i q
        split at h
        · cases h
        · rename_i r' hr'
          exact float_loop (fun x hx => by cases hx; exact float_or (ha q rfl) hp hr') h

theorem float_field {sc : Scope} {l : List CItem} {p : Period} (h : fieldPeriod sc l = .ok p) : FloatingA p := by
  unfold fieldPeriod at h
  split at h
  · cases h
  · rename_i q hq
    cases h
    exact .inl (float_loop (acc := none) (by simp) hq _ rfl)
  · cases h; exact .inr rfl

theorem float_days {p q r : Period} (hp : FloatingA p) (hq : FloatingA q) (h : cronDays p q = .ok r) :
    FloatingA r := by
  unfold cronDays at h
  split at h
  · exact float_and_always (.inr rfl) hq h
  · exact float_and_always hp (.inr rfl) h
  · rename_i h1 h2
    refine .inl (float_or (hp.resolve_right h1) (hq.resolve_right h2) h)

theorem float_bind {α β : Type} {x : Except PyErr α} {f : α → Except PyErr β} {b : β} (h : bindE x f = .ok b) :
    ∃ a, x = .ok a ∧ f a = .ok b := by
  cases x with
  | error e => cases h
  | ok a => exact ⟨a, rfl, h⟩

/-- The period of every cron expression is floating. -/
theorem C80_cron_floating (c : CronExpr) (p : Period) (h : c.subperiod = .ok p) : Floating p := by
  unfold CronExpr.subperiod at h
  obtain ⟨dom, hdom, h⟩ := float_bind h
  obtain ⟨dow, hdow, h⟩ := float_bind h
  obtain ⟨days, hdays, h⟩ := float_bind h
  obtain ⟨mi, hmi, h⟩ := float_bind h
  obtain ⟨p1, hp1, h⟩ := float_bind h
  obtain ⟨hr, hhr, h⟩ := float_bind h
  obtain ⟨p2, hp2, h⟩ := float_bind h
  obtain ⟨mo, hmo, h⟩ := float_bind h
  obtain ⟨p3, hp3, h⟩ := float_bind h
  have f1 := float_and (float_field hmi) (.inl (.anchored _)) (.inr (.anchored _)) hp1
  have f2 := float_and (.inl f1) (float_field hhr) (.inl f1) hp2
  have f3 := float_and (.inl f2) (float_field hmo) (.inl f2) hp3
  exact float_and (.inl f3) (float_days (float_field hdom) (float_field hdow) hdays) (.inl f3) h

/-- Hence `cron` tasks follow the clock of the zone. -/
theorem C80_cron_partial (m : Machine) (o : Int) (n : Nat) (fromLogs : Bool) (c : CronExpr) (p : Period)
    (hc : c.subperiod = .ok p) (now now' : Int) (name : String) (t : TaskMem) (repo : List Record) :
    Zoned.runnable m (some o) n fromLogs (undated p) now now' name t repo =
      Zoned.runnable (computerAt o) none n fromLogs (undated p) now now' name t repo :=
  C80_runnable_partial m o n fromLogs p (C80_cron_floating c p hc) now now' name t repo

/-! #### Dates without zone -/

/-- Looking back from a time of the zone, the dates of a static period are taken as local time of the computer. -/
theorem zone_staticBack (m : Machine) (o s e now : Int) (h : m.stamp s ≤ now) :
    Zoned.staticBack m (.naive s) (.naive e) (.aware o (now + o)) =
      kindE (DT.aware o) (Rocketry.staticBack (m.stamp s + o) (m.stamp e + o) (now + o)) := by
  have hs : ¬ now + o - o < m.stamp s + o - o := by omega
  have hs' : ¬ now + o < m.stamp s + o := by omega
  simp only [Zoned.staticBack, Rocketry.staticBack, Machine.inZoneOf, Machine.toStamp, DT.lt, minOf, hs, hs', decide_false,
    if_false]
  by_cases g : now + o - o < m.stamp e + o - o
  · simp only [g, decide_true]
    rw [show min (m.stamp e + o) (now + o) = now + o by omega]
    exact kind_make (kind_aware o) _ _ _
  · simp only [g, decide_false]
    rw [show min (m.stamp e + o) (now + o) = m.stamp e + o by omega]
    exact kind_make (kind_aware o) _ _ _

theorem zone_static (m : Machine) (o : Int) (n : Nat) (fromLogs : Bool) (acts : Acts) (comps : Comps) (s e now : Int)
    (name : String) (t : TaskMem) (repo : List Record) (h : m.stamp s ≤ now) :
    Zoned.status m (some o) (n + 1) fromLogs acts comps (some (.static (.naive s) (.naive e))) now name t repo =
      statusCond (n + 1) fromLogs acts comps (some (.static (m.stamp s + o) (m.stamp e + o))) (now + o) name (memIn o t)
        (shownIn o repo) := by
  have hs := shows_zone m o
  unfold Zoned.status statusCond
  simp only [Zoned.span, hs.format, ZPeriod.rollback, zone_staticBack m o s e now h, Period.periodSpan, Period.rollback]
  rcases Rocketry.staticBack (m.stamp s + o) (m.stamp e + o) (now + o) with x | ⟨l, r, c⟩
  · rfl
  · simp only [kindE, kindI, shows_features hs, shows_measured hs, statusObserve, memIn]
    simp only [okIte]
    rfl

/-- **C80 (part)**: status conditions in a period between two dates that has begun, when the computer works in the zone
of the option at these dates.  (See `C80_dates_violated` for other computers.) -/
theorem C80_dates_partial (m : Machine) (o : Int) (n : Nat) (fromLogs : Bool) (acts : Acts) (comps : Comps) (s e now : Int)
    (name : String) (t : TaskMem) (repo : List Record) (hs : m.stamp s = s - o) (he : m.stamp e = e - o)
    (h : s - o ≤ now) :
    Zoned.status m (some o) (n + 1) fromLogs acts comps (some (undated (.static s e))) now name t repo =
      Zoned.status (computerAt o) none (n + 1) fromLogs acts comps (some (undated (.static s e))) now name t repo := by
  have h1 := shows_status (shows_local o) (n + 1) fromLogs acts comps (some (.static s e)) now name t repo (.inl rfl)
  rw [Option.map_some] at h1
  rw [h1]
  refine (zone_static m o n fromLogs acts comps s e now name t repo (by omega)).trans ?_
  rw [hs, he, show s - o + o = s by omega, show e - o + o = e by omega]

/-! The beginning of the period does not matter if nothing is older. -/

theorem begin_measured (repo : List Record) (name : String) (acts : Acts) (s s' e : Int)
    (h : ∀ r ∈ repo, s ≤ r.created ∧ s' ≤ r.created) :
    measuredTimes repo name acts s e = measuredTimes repo name acts s' e := by
  unfold measuredTimes recordsBy
  congr 1
  apply List.filter_congr
  intro r hr
  simp [Rocketry.within, (h r hr).1, (h r hr).2]

theorem begin_scan (last : Action → Option Int) (s s' e : Int) (h : ∀ a, ∀ t ∈ last a, s ≤ t ∧ s' ≤ t)
    (l : List Action) : ∀ c, Rocketry.scanActions last s e l c = Rocketry.scanActions last s' e l c := by
  induction l with
  | nil => intro c; rfl
  | cons a l ih =>
    intro c
    simp only [Rocketry.scanActions]
    cases ht : last a with
    | none => exact ih c
    | some t =>
      have := h a t (by rw [ht]; rfl)
      simp only [Rocketry.within, this.1, this.2, decide_true, Bool.true_and, if_true, ih]

theorem begin_observe (fromLogs : Bool) (acts : Acts) (comps : Comps) (s s' e : Int) (name : String) (t : TaskMem)
    (repo : List Record) (hr : ∀ r ∈ repo, s ≤ r.created ∧ s' ≤ r.created)
    (ht : ∀ a, ∀ x ∈ t.last a, s ≤ x ∧ s' ≤ x) :
    statusObserve fromLogs acts comps (s, e) name t repo = statusObserve fromLogs acts comps (s', e) name t repo := by
  have hf : Rocketry.cachedFeatures t.last s e acts = Rocketry.cachedFeatures t.last s' e acts := by
    cases acts with
    | one a =>
      simp only [Rocketry.cachedFeatures]
      cases hx : t.last a with
      | none => rfl
      | some x =>
        have := ht a x (by rw [hx]; rfl)
        have h1 : ¬ x < s := by omega
        have h2 : ¬ x < s' := by omega
        simp only [Rocketry.within, this.1, this.2, h1, h2]
    | many l => exact begin_scan t.last s s' e ht l true
  unfold statusObserve
  simp only [hf, begin_measured repo name acts s s' e hr]

/-- **C80 (part)**: tasks without period of their own (the period is `always`), on any computer, when all times are later
than the beginning of `always` and earlier than its end. -/
theorem C80_always_partial (m : Machine) (o : Int) (n : Nat) (fromLogs : Bool) (acts : Acts) (comps : Comps) (now : Int)
    (name : String) (t : TaskMem) (repo : List Record)
    (begun : m.stamp MINT ≤ now ∧ MINT - o ≤ now) (ends : now ≤ m.stamp MAXT ∧ now ≤ MAXT - o)
    (hr : ∀ r ∈ repo, m.stamp MINT ≤ r.created ∧ MINT - o ≤ r.created)
    (ht : ∀ a, ∀ x ∈ t.last a, m.stamp MINT ≤ x ∧ MINT - o ≤ x) :
    Zoned.status m (some o) (n + 1) fromLogs acts comps (some (undated .always)) now name t repo =
      Zoned.status (computerAt o) none (n + 1) fromLogs acts comps (some (undated .always)) now name t repo := by
  have h1 := shows_status (shows_local o) (n + 1) fromLogs acts comps (some .always) now name t repo (.inl rfl)
  rw [Option.map_some] at h1
  rw [h1]
  refine (zone_static m o n fromLogs acts comps MINT MAXT now name t repo begun.1).trans ?_
  have span : ∀ s e, s ≤ now + o → now + o ≤ e → Rocketry.staticBack s e (now + o) = .ok ⟨s, now + o, .left⟩ := by
    intro s e h1 h2
    have h1' : ¬ now + o < s := by omega
    have h3 : min e (now + o) = now + o := by omega
    simp only [Rocketry.staticBack, h1', if_false, h3, Interval.make]
  unfold statusCond
  simp only [Period.periodSpan, Period.rollback]
  rw [span _ _ (by omega) (by omega), span _ _ (by omega) (by omega)]
  simp only [Except.ok.injEq]
  apply begin_observe
  · intro r hr'
    simp only [shownIn, List.mem_map] at hr'
    obtain ⟨q, hq, rfl⟩ := hr'
    have := hr q hq
    simp only
    omega
  · intro a x hx
    simp only [memIn, Option.mem_def, Option.map_eq_some_iff] at hx
    obtain ⟨y, hy, rfl⟩ := hx
    have := ht a y hy
    omega

/-! ### Violations -/

theorem naive_aware_within (s e o w : Int) : Zoned.within (.naive s) (.naive e) (.aware o w) = .error .type := rfl

/-- **C80 violated**: `running` (also `running(task)`, `running >= 2`) fails with TypeError in a session with a time zone
whenever a run is alive, on every computer. -/
theorem C80_running_violated (m : Machine) (o : Int) (n : Nat) (comps : Comps) (now : Int) (runs : List StackRun)
    (r : StackRun) (hr : r ∈ runs) (alive : r.alive = true) :
    Zoned.running m (some o) n comps none now runs = .error .type ∧
      ∃ b, Zoned.running (computerAt o) none n comps none now runs = .ok b := by
  constructor
  · have h : aliveWithin m (some o) ZMIN ZMAX runs = .error .type := by
      induction runs with
      | nil => cases hr
      | cons q l ih =>
        cases ha : q.alive with
        | true => simp only [aliveWithin, ha, both]; rfl
        | false =>
          have hr : r ∈ l := by
            rcases List.mem_cons.1 hr with rfl | h
            · rw [ha] at alive; cases alive
            · exact h
          simp only [aliveWithin, ha, both, ih hr]
    simp only [Zoned.running, Zoned.span, h]
  · have h := shows_running (shows_local o) n comps none now runs rfl
    rw [Option.map_none] at h
    exact ⟨_, h⟩

/-- **C80 violated**: `running(task).more_than(d)` fails with TypeError in every session with a time zone, whether the
task runs or not. -/
theorem C80_moreThan_violated (m : Machine) (o : Int) (n : Nat) (comps : Comps) (d : Int) (now : Int)
    (runs : List StackRun) :
    Zoned.running m (some o) (n + 1) comps (some (spanDelta (some d) none)) now runs = .error .type := rfl

/-- **C80 violated**: `scheduler_running(more_than=d)` likewise (it shuts sessions down in `shut_cond`). -/
theorem C80_scheduler_violated (m : Machine) (o : Int) (n : Nat) (d : Int) (now startup : Int) :
    Zoned.schedulerStarted m (some o) (n + 1) (some (spanDelta (some d) none)) now startup = .error .type ∧
      Zoned.schedulerStarted m (some o) n none now startup = .error .type := ⟨rfl, rfl⟩

/-- **C80 violated**: whether a date lies in a period between two dates without zone cannot be asked. -/
theorem C80_isPeriod_violated (m : Machine) (o : Int) (n : Nat) (s e now : Int) :
    Zoned.isPeriod m (some o) (n + 1) (undated (.static s e)) now = .error .type := rfl

/-- A computer in UTC, a zone two hours ahead. -/
def utc : Machine := ⟨id, id⟩
def east : Int := 2 * 3600 * 1000000
def hourUs : Int := 3600 * 1000000

/-- No cached times but the last success. -/
def succeededAt (ts : Int) : TaskMem := TaskMem.fresh.setLast .success (some ts)

/-- **C80 violated**: the dates of a period are those of the computer, not of the zone: a success at one o'clock on
1 January in the zone is not in the year that begins then, if the computer works in UTC. -/
theorem C80_dates_violated :
    let t := datetime 2019 12 31 23
    let year := undated (.static (datetime 2020 1 1) (datetime 2021 1 1))
    Zoned.status utc (some east) 5 false (.one .success) [] (some year) (datetime 2020 6 1) "a" (succeededAt t) [] = .ok false ∧
    Zoned.status (computerAt east) none 5 false (.one .success) [] (some year) (datetime 2020 6 1) "a" (succeededAt t) [] =
      .ok true := by decide +kernel

/-- **C80 violated**: a period that begins in the future makes status conditions fail with TypeError as soon as the task
has the cached time. -/
theorem C80_future_violated (m : Machine) (o : Int) (n : Nat) (s e now x : Int) (comps : Comps) (name : String)
    (t : TaskMem) (repo : List Record) (hx : t.last .success = some x) (h : now < m.stamp s) :
    Zoned.status m (some o) (n + 1) false (.one .success) comps (some (undated (.static s e))) now name t repo =
      .error .type := by
  have h' : now + o - o < m.stamp s + o - o := by omega
  have hm : ZInterval.make ZMIN ZMIN = .ok ⟨ZMIN, ZMIN, .left⟩ := by
    simp [ZInterval.make, ZMIN, DT.lt]
  have hb : Zoned.staticBack m (.naive s) (.naive e) (.aware o (now + o)) = .ok ⟨ZMIN, ZMIN, .left⟩ := by
    simp only [Zoned.staticBack, Machine.inZoneOf, Machine.toStamp, DT.lt, h', decide_true, hm]
  simp only [Zoned.status, Zoned.span, undated, ZPeriod.rollback, Machine.format, hb, Zoned.cachedFeatures, hx,
    Option.map_some, Bool.false_eq_true, if_false]
  rfl

/-- **C80 violated**: `RelativeDay` ("yesterday", "today") is never in a zone: TypeError with a cached time on every
computer. -/
theorem C80_relativeDay_violated (m : Machine) (o : Int) (n : Nat) (off st en now x : Int) (comps : Comps)
    (name : String) (t : TaskMem) (repo : List Record) (hx : t.last .success = some x) (h : st ≤ en) :
    Zoned.status m (some o) (n + 1) false (.one .success) comps (some (undated (.relday off st en))) now name t repo =
      .error .type := by
  have hm : ∀ d : Int, ZInterval.make (.naive (d + st)) (.naive (d + en)) = .ok ⟨.naive (d + st), .naive (d + en), .left⟩ := by
    intro d
    have : ¬ d + en < d + st := by omega
    simp only [ZInterval.make, DT.lt, this, decide_false]
  simp only [Zoned.status, Zoned.span, undated, ZPeriod.rollback, Machine.format, hm, Zoned.cachedFeatures, hx,
    Option.map_some, naive_aware_within, Bool.false_eq_true, if_false]

/-! ### Examples -/

/-- From one to two o'clock. -/
def nightly : Period := .anchored ⟨.day, hourUs, 2 * hourUs⟩

example : Floating nightly := .anchored _

/-- At 23:30 UTC it is half past one in the zone. -/
example : Zoned.isPeriod utc (some east) 5 (undated nightly) (datetime 2020 1 1 23 30) = .ok true ∧
    Zoned.isPeriod utc none 5 (undated nightly) (datetime 2020 1 1 23 30) = .ok false := by decide +kernel

/-- A success at 21:00 UTC was yesterday in the zone, at 23:00 UTC. -/
example :
    let day := undated (.anchored ⟨.day, 0, Scope.day.max⟩)
    let now := datetime 2020 1 1 23
    Zoned.executable utc (some east) 5 false none day ⟨now, now, now, now, now⟩ "a"
      (succeededAt (datetime 2020 1 1 21)) [] = .ok true ∧
    Zoned.executable utc none 5 false none day ⟨now, now, now, now, now⟩ "a"
      (succeededAt (datetime 2020 1 1 21)) [] = .ok false := by decide +kernel

/-- A cron expression. -/
example : ∃ c p, parseCron "0" "1" "*" "*" "*" = .ok c ∧ c.subperiod = .ok p ∧ Floating p := by
  have h : ∃ c, parseCron "0" "1" "*" "*" "*" = .ok c ∧ ∃ p, c.subperiod = .ok p := ⟨_, by rfl, _, rfl⟩
  obtain ⟨c, hc, p, hp⟩ := h
  exact ⟨c, p, hc, hp, C80_cron_floating c p hp⟩

/-- Running for less than two hours, on a computer in UTC with a zone two hours ahead. -/
example : Zoned.running utc (some east) 5 [] (some (spanDelta none (some (2 * hourUs)))) (datetime 2020 1 1 12)
    [⟨datetime 2020 1 1 11, true⟩] = .ok true := by decide +kernel
example : spanDelta none (some (2 * hourUs)) = undated (.span 0 (some (2 * hourUs))) ∧
    Floating (.span 0 (some (2 * hourUs))) := ⟨rfl, .span _ _⟩

/-- Without the option, `running(task)` and `running(task).more_than(d)` give values. -/
example : Zoned.running utc none 5 [] none (datetime 2020 1 1 12) [⟨datetime 2020 1 1 11, true⟩] = .ok true ∧
    Zoned.running utc none 5 [] (some (spanDelta (some (30 * 60 * 1000000)) none)) (datetime 2020 1 1 12)
      [⟨datetime 2020 1 1 11, true⟩] = .ok true ∧
    Zoned.schedulerStarted utc none 5 (some (spanDelta (some (30 * 60 * 1000000)) none)) (datetime 2020 1 1 12)
      (datetime 2020 1 1 11) = .ok true ∧
    Zoned.isPeriod utc none 5 (undated (.static (datetime 2020 1 1) (datetime 2021 1 1))) (datetime 2020 6 1) = .ok true := by
  decide +kernel

/-- A computer in the zone of the option; dates of a year that has begun. -/
example : (computerAt east).stamp (datetime 2020 1 1) = datetime 2020 1 1 - east ∧
    datetime 2020 1 1 - east ≤ datetime 2020 6 1 ∧
    Zoned.status (computerAt east) (some east) 5 false (.one .success) [] (some (undated (.static (datetime 2020 1 1)
      (datetime 2021 1 1)))) (datetime 2020 6 1) "a" (succeededAt (datetime 2020 5 1)) [] = .ok true := by decide +kernel

/-- `always` on a computer in UTC. -/
example : utc.stamp MINT ≤ datetime 2020 6 1 ∧ MINT - east ≤ datetime 2020 6 1 ∧
    datetime 2020 6 1 ≤ utc.stamp MAXT ∧ datetime 2020 6 1 ≤ MAXT - east ∧
    Zoned.status utc (some east) 5 false (.one .success) [] (some (undated .always)) (datetime 2020 6 1) "a"
      (succeededAt (datetime 2020 5 1)) [] = .ok true := by decide +kernel

/-- The hypotheses of `C80_future_violated` and `C80_relativeDay_violated`. -/
example : (succeededAt (datetime 2020 5 1)).last .success = some (datetime 2020 5 1) ∧
    datetime 2020 6 1 < utc.stamp (datetime 2021 1 1) := by decide +kernel

end Rocketry.Props
