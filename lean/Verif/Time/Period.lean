import Verif.Base.Sorted
import Verif.Time.Anchored

/-!
# Model of `rocketry/core/time/base.py` (compound, static and sliding periods)

A `frozenset` of member periods is a `List` in arbitrary order (theorems hold for every list, so for every
iteration order); building one drops equal members (`setOf`).  The first argument of `rollforward`/`rollback` is the remaining recursion depth.
-/

namespace Rocketry

/-- `TimePeriod.min`, base.py:25: 1970-01-03 02:00. -/
def MINT : Int := datetime 1970 1 3 2
/-- `TimePeriod.max`, base.py:26: 2260-01-01. -/
def MAXT : Int := datetime 2260 1 1

/-- `TimePeriod` objects.
* `anchored a`: the `TimeOf…` classes;
* `static s e`: `StaticInterval(s, e)`, base.py:496-504 (missing bounds are `MINT`/`MAXT`);
* `always`: the module-level object `always` (base.py:544), a `StaticInterval()` compared by identity;
* `delta past future`: `TimeDelta` without reference, base.py:186-209;
* `span near far`: `TimeSpanDelta` without reference, rocketry/time/delta.py:9-21;
* `relday off s e`: `RelativeDay`, rocketry/time/interval.py:405-429 (day offset and times of day);
* `all ps`, `any ps`: base.py:273-295, 377-400. -/
inductive Period where
  | anchored (a : Anchored)
  | static (s e : Int)
  | always
  | delta (past future : Int)
  | span (near : Int) (far : Option Int)
  | relday (off startTime endTime : Int)
  | all (ps : List Period)
  | any (ps : List Period)

/-- A list comprehension whose element expression may raise: left to right, first exception wins. -/
def mapE {α β : Type} (f : α → Except PyErr β) : List α → Except PyErr (List β)
  | [] => .ok []
  | a :: l =>
    match f a with
    | .error e => .error e
    | .ok b =>
      match mapE f l with
      | .error e => .error e
      | .ok bs => .ok (b :: bs)

/-- `all(a.overlaps(b) for a, b in itertools.combinations(intervals, 2))`, base.py:309,342. -/
def allOverlap : List Interval → Bool
  | [] => true
  | a :: l => l.all (fun b => a.overlaps b) && allOverlap l

/-- Left fold of `&` over intervals. -/
def reduceFrom (a : Interval) : List Interval → Except PyErr Interval
  | [] => .ok a
  | b :: l =>
    match a.and b with
    | .error e => .error e
    | .ok c => reduceFrom c l

/-- `reduce(lambda a, b: a & b, intervals)`, base.py:311,344 (empty: `TypeError`). -/
def reduceAnd : List Interval → Except PyErr Interval
  | [] => .error .type
  | a :: l => reduceFrom a l

/-- `max(intervals, key=lambda x: x.left).left`, base.py:352 (empty: `ValueError`). -/
def maxLeft : List Interval → Except PyErr Int
  | [] => .error .value
  | a :: l => .ok (l.foldl (fun m i => max m i.left) a.left)

/-- `min(intervals, key=lambda x: x.right).right`, base.py:319. -/
def minRight : List Interval → Except PyErr Int
  | [] => .error .value
  | a :: l => .ok (l.foldl (fun m i => min m i.right) a.right)

/-- The loop of `Any.rollforward`, base.py:469-474: extend while the next interval reaches further and
overlaps, stop (`break`) at the first that does not. -/
def extendRight (curr : Interval) : List Interval → Interval
  | [] => curr
  | i :: l => if i.right > curr.right && i.overlaps curr then extendRight i l else curr

/-- The loop of `Any.rollback`, base.py:440-445. -/
def extendLeft (curr : Interval) : List Interval → Interval
  | [] => curr
  | i :: l => if i.left < curr.left && i.overlaps curr then extendLeft i l else curr

/-- `Any.rollforward` after the members have been rolled, base.py:464-479 (`sorted` is stable). -/
def mergeForward (is : List Interval) : Except PyErr Interval :=
  match pySorted (fun a b => decide (a.left ≤ b.left)) is with
  | [] => .error .index
  | c :: l => Interval.make c.left (extendRight c l).right

/-- `Any.rollback` after the members have been rolled, base.py:434-450. -/
def mergeBack (is : List Interval) : Except PyErr Interval :=
  match pySorted (fun a b => decide (a.right ≥ b.right)) is with
  | [] => .error .index
  | c :: l => Interval.make (extendLeft c l).left c.right

/-- `StaticInterval.rollforward`, base.py:517-524. -/
def staticForward (s e dt : Int) : Except PyErr Interval :=
  if e < dt then Interval.make MAXT MAXT
  else Interval.make (max s dt) e

/-- `StaticInterval.rollback`, base.py:506-515. -/
def staticBack (s e dt : Int) : Except PyErr Interval :=
  if s > dt then Interval.make MINT MINT
  else Interval.make s (min e dt)

namespace Period

/-- `rollforward`: anchored (base.py:128-151), static (517-524), `TimeDelta` (232-237), `TimeSpanDelta`
(rocketry/time/delta.py:43-47), `RelativeDay` (rocketry/time/interval.py:439-440), `All` (base.py:331-360),
`Any` (452-479). -/
def rollforward : Nat → Period → Int → Except PyErr Interval
  | 0, _, _ => .error .recursion
  | n + 1, .anchored a, dt => Anchored.rollforward (n + 1) a dt
  | _ + 1, .static s e, dt => staticForward s e dt
  | _ + 1, .always, dt => staticForward MINT MAXT dt
  | _ + 1, .delta _ future, dt => Interval.make dt (dt + (future.natAbs : Int))
  | _ + 1, .span near far, dt => Interval.make (dt + near) (match far with | some f => dt + f | none => MAXT)
  | _ + 1, .relday _ _ _, _ => .error .attribute
  | n + 1, .all ps, dt =>
    match mapE (fun p => rollforward n p dt) ps with
    | .error e => .error e
    | .ok is =>
      if allOverlap is then reduceAnd is
      else
        match maxLeft is with
        | .error e => .error e
        | .ok next =>
          let opened := is.any (fun i => decide (i.left = next) && !i.closed.incLeft)
          rollforward n (.all ps) (if opened then next - 1 else next)
  | n + 1, .any ps, dt =>
    match mapE (fun p => rollforward n p dt) ps with
    | .error e => .error e
    | .ok is => mergeForward is

/-- `rollback`: anchored (base.py:153-176), static (506-515), `TimeDelta` (225-230), `TimeSpanDelta`
(rocketry/time/delta.py:37-41), `RelativeDay` (rocketry/time/interval.py:431-437), `All` (base.py:297-329; the
local `opened` is unused there), `Any` (402-450). -/
def rollback : Nat → Period → Int → Except PyErr Interval
  | 0, _, _ => .error .recursion
  | _ + 1, .anchored a, dt => a.rollback dt
  | _ + 1, .static s e, dt => staticBack s e dt
  | _ + 1, .always, dt => staticBack MINT MAXT dt
  | _ + 1, .delta past _, dt => Interval.make (dt - (past.natAbs : Int)) dt
  | _ + 1, .span near far, dt => Interval.make (match far with | some f => dt - f | none => MINT) (dt - near)
  | _ + 1, .relday off st en, dt =>
    let d := (dt - off) / DAY * DAY
    Interval.make (d + st) (d + en)
  | n + 1, .all ps, dt =>
    match mapE (fun p => rollback n p dt) ps with
    | .error e => .error e
    | .ok is =>
      if allOverlap is then reduceAnd is
      else
        match minRight is with
        | .error e => .error e
        | .ok next => rollback n (.all ps) (if dt = next then next - 1 else next)
  | n + 1, .any ps, dt =>
    match mapE (fun p => rollback n p dt) ps with
    | .error e => .error e
    | .ok is => mergeBack is

/-- `dt in period`: `AnchoredInterval.__contains__` (anchor.py:191-210); `TimeDelta`/`TimeSpanDelta` without
reference compute with `None` (`TypeError`); `RelativeDay` inherits base.py:85-88 (`NotImplementedError`, a
`RuntimeError`); `TimePeriod.__contains__` (base.py:28-32) otherwise. -/
def contains (n : Nat) (p : Period) (dt : Int) : Except PyErr Bool :=
  match p with
  | .anchored a => .ok (a.contains dt)
  | .delta _ _ => .error .type
  | .span _ _ => .error .type
  | .relday _ _ _ => .error .runtime
  | p =>
    match rollforward n p dt with
    | .error e => .error e
    | .ok i => .ok (i.contains dt)

/-- `TimeDelta.__init__`, base.py:199-209 (durations already converted by `to_timedelta`). -/
def mkDelta (past future : Option Int) : Period :=
  .delta ((past.getD 0).natAbs : Int) ((future.getD 0).natAbs : Int)

/-- `TimeSpanDelta.__init__`, rocketry/time/delta.py:16-21. -/
def mkSpan (near far : Option Int) : Period :=
  .span ((near.getD 0).natAbs : Int) (far.map fun f => (f.natAbs : Int))

/-- `dt in period.use_reference(ref)`: `TimeDelta` base.py:211-220, `TimeSpanDelta` rocketry/time/delta.py:23-35
(other periods have no `use_reference`: `AttributeError`). -/
def containsRef (p : Period) (ref dt : Int) : Except PyErr Bool :=
  match p with
  | .delta past future =>
    .ok (decide (ref - (past.natAbs : Int) ≤ dt) && decide (dt ≤ ref + (future.natAbs : Int)))
  | .span near far =>
    if ref ≥ dt then
      let start := match far with | some f => ref - f | none => MINT
      .ok (decide (start ≤ dt) && decide (dt ≤ ref - near))
    else
      let stop := match far with | some f => ref + f | none => MAXT
      .ok (decide (ref + near ≤ dt) && decide (dt ≤ stop))
  | _ => .error .attribute

/-- `get_period_span(period)` with `now` given, rocketry/core/time/utils.py:8-32 (`None`: the whole time line;
strings are parsed before, see `Parser`). -/
def periodSpan (n : Nat) (p : Option Period) (now : Int) : Except PyErr (Int × Int) :=
  match p with
  | none => .ok (MINT, MAXT)
  | some p =>
    match p.rollback n now with
    | .error e => .error e
    | .ok i => .ok (i.left, i.right)

/-- `p == q` as the sets of member periods test it (`frozenset`, base.py:295,400).
* The `TimeOf…` classes and `StaticInterval` have the `__eq__` that `@dataclass` generates (same class, equal fields;
  core/time/anchor.py:9,40-41, base.py:495-500), which replaces the one of `TimeInterval` (base.py:178-183).
* `RelativeDay` is a dataclass without fields (rocketry/time/interval.py:405-429: `day`, `start_time` and `end_time`
  are not declared), so that any two are equal.
* `TimeDelta` base.py:239-244, `TimeSpanDelta` rocketry/time/delta.py:49-54, `All` base.py:362-367, `Any` 481-486.
Two frozensets are equal when each member of one is in the other.  A set compares two objects only if their hashes are
equal; equal periods have equal hashes here (no reference), and a `TimeDelta` and a `TimeSpanDelta` have different ones
(accidental collisions of hashes are not modelled), so that the exception of `pyEq` cannot occur here. -/
def same : Period → Period → Bool
  | .anchored a, q => match q with | .anchored b => decide (a = b) | _ => false
  | .static s e, q => match q with
    | .static s' e' => decide (s = s') && decide (e = e')
    | .always => decide (s = MINT) && decide (e = MAXT)
    | _ => false
  | .always, q => match q with
    | .static s' e' => decide (MINT = s') && decide (MAXT = e')
    | .always => true
    | _ => false
  | .delta p f, q => match q with | .delta p' f' => decide (p = p') && decide (f = f') | _ => false
  | .span n f, q => match q with | .span n' f' => decide (n = n') && decide (f = f') | _ => false
  | .relday _ _ _, q => match q with | .relday _ _ _ => true | _ => false
  | .all ps, q => match q with | .all qs => within ps qs && qs.all (fun q => among ps q) | _ => false
  | .any ps, q => match q with | .any qs => within ps qs && qs.all (fun q => among ps q) | _ => false
where
  /-- Every member of the first is in the second. -/
  within : List Period → List Period → Bool
    | [], _ => true
    | p :: ps, qs => qs.any (fun q => same p q) && within ps qs
  /-- The period is in the list. -/
  among : List Period → Period → Bool
    | [], _ => false
    | p :: ps, q => same p q || among ps q

/-- `p == q`, see `same`; in addition a `TimeSpanDelta` is asked first also when it is on the right, because its class
is derived from `TimeDelta`, and then reads `near` of the `TimeDelta` (delta.py:51-53): `AttributeError`. -/
def pyEq (p q : Period) : Except PyErr Bool :=
  match p, q with
  | .delta _ _, .span _ _ => .error .attribute
  | .span _ _, .delta _ _ => .error .attribute
  | p, q => .ok (same p q)

/-- `frozenset(periods)` after `acc`, base.py:295,400: of equal periods the first is kept. -/
def setFrom (acc : List Period) : List Period → List Period
  | [] => acc
  | p :: l => if acc.any (fun q => same q p) then setFrom acc l else setFrom (acc ++ [p]) l

/-- `frozenset(periods)`, base.py:295,400. -/
def setOf (l : List Period) : List Period := setFrom [] l

/-- The loop of `All.__init__`, base.py:283-293. -/
def allMembers : List Period → List Period
  | [] => []
  | .all qs :: l => qs ++ allMembers l
  | .always :: l => allMembers l
  | p :: l => p :: allMembers l

/-- `All.__init__`, base.py:277-295. -/
def mkAll (args : List Period) : Except PyErr Period :=
  if args.isEmpty then .error .value else .ok (.all (setOf (allMembers args)))

/-- The loop of `Any.__init__`, base.py:387-398 (`always` replaces everything and stops). -/
def anyMembers (acc : List Period) : List Period → List Period
  | [] => acc
  | .any qs :: l => anyMembers (acc ++ qs) l
  | .always :: _ => [.always]
  | p :: l => anyMembers (acc ++ [p]) l

/-- `Any.__init__`, base.py:381-400. -/
def mkAny (args : List Period) : Except PyErr Period :=
  if args.isEmpty then .error .value else .ok (.any (setOf (anyMembers [] args)))

/-- `p & q`, base.py:34-48. -/
def and : Period → Period → Except PyErr Period
  | .always, q => .ok q
  | p, .always => .ok p
  | p, q => mkAll [p, q]

/-- `p | q`, base.py:50-60. -/
def or : Period → Period → Except PyErr Period
  | .always, _ => .ok .always
  | _, .always => .ok .always
  | p, q => mkAny [p, q]

end Period
end Rocketry
