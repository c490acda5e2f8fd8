import Verif.Base.ExceptEq

/-!
# Model of `rocketry/pybox/time/interval.py`

Instants are `Int` microseconds (resolution of `datetime.datetime`).
-/

namespace Rocketry

/-- Python exceptions that the modelled code can raise (as values).
`recursion` is `RecursionError`: the recursion budget of a modelled recursive function ran out; `parser` is
`rocketry.parse.ParserError`. -/
inductive PyErr where
  | value | type | key | attribute | index | recursion | runtime | parser
  deriving DecidableEq, Repr

/-- `Interval.closed`, rocketry/pybox/time/interval.py:15
(`Literal['left', 'right', 'both', 'neither']`). -/
inductive Closed where
  | left | right | both | neither
  deriving DecidableEq, Repr

namespace Closed

/-- `closed in ('left', 'both')`, interval.py:79,82,86. -/
def incLeft : Closed → Bool
  | left => true | both => true | right => false | neither => false

/-- `closed in ('right', 'both')`, interval.py:90,93,97. -/
def incRight : Closed → Bool
  | right => true | both => true | left => false | neither => false

end Closed

/-- `class Interval`, rocketry/pybox/time/interval.py:9-15.
The fields are plain; the constructor check is `Interval.make`. -/
structure Interval where
  left : Int
  right : Int
  closed : Closed := .left
  deriving DecidableEq, Repr

namespace Interval

/-- `Interval.__post_init__`, interval.py:17-19: `left > right` raises `ValueError`.
(The check of `closed` against the four literals, lines 21-22, is the type `Closed`.) -/
def make (l r : Int) (c : Closed := .left) : Except PyErr Interval :=
  if l > r then .error .value else .ok ⟨l, r, c⟩

theorem make_ok {l r : Int} {c : Closed} {i : Interval} :
    make l r c = .ok i ↔ l ≤ r ∧ i = ⟨l, r, c⟩ := by
  unfold make
  split
  · simp; omega
  · simp only [Except.ok.injEq]
    constructor
    · rintro rfl; exact ⟨by omega, rfl⟩
    · rintro ⟨_, rfl⟩; rfl

theorem make_error {l r : Int} {c : Closed} {e : PyErr} :
    make l r c = .error e ↔ r < l ∧ e = .value := by
  unfold make
  split
  · simp only [Except.error.injEq]
    constructor
    · rintro rfl; exact ⟨by omega, rfl⟩
    · rintro ⟨_, rfl⟩; rfl
  · simp; omega

/-- `Interval.__contains__`, interval.py:25-32. -/
def contains (i : Interval) (dt : Int) : Bool :=
  match i.closed with
  | .right => decide (i.left < dt) && decide (dt ≤ i.right)
  | .left => decide (i.left ≤ dt) && decide (dt < i.right)
  | .both => decide (i.left ≤ dt) && decide (dt ≤ i.right)
  | .neither => decide (i.left < dt) && decide (dt < i.right)

/-- `Interval.overlaps`, interval.py:34-72. -/
def overlaps (self other : Interval) : Bool :=
  if self.right < other.left || self.left > other.right then false
  else if self.right = other.left &&
      ((self.closed = .left || self.closed = .neither) ||
       (other.closed = .right || other.closed = .neither)) then false
  else if self.left = other.right &&
      ((self.closed = .right || self.closed = .neither) ||
       (other.closed = .left || other.closed = .neither)) then false
  else true

/-- `Interval.__and__`, interval.py:74-106. -/
def and (self other : Interval) : Except PyErr Interval :=
  let (l, lc) :=
    if self.left > other.left then (self.left, self.closed.incLeft)
    else if self.left < other.left then (other.left, other.closed.incLeft)
    else (self.left, self.closed.incLeft && other.closed.incLeft)
  let (r, rc) :=
    if self.right < other.right then (self.right, self.closed.incRight)
    else if self.right > other.right then (other.right, other.closed.incRight)
    else (self.right, self.closed.incRight && other.closed.incRight)
  let c : Closed :=
    if lc && rc then .both else if lc then .left else if rc then .right else .neither
  make l r c

/-- `Interval.is_empty`, interval.py:108-116. -/
def isEmpty (i : Interval) : Bool :=
  match i.closed with
  | .both => !decide (i.left ≤ i.right)
  | .left => !decide (i.left < i.right)
  | .right => !decide (i.left < i.right)
  | .neither => !decide (i.left < i.right)

end Interval
end Rocketry
