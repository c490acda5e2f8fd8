import Verif.Time.Interval
import Verif.Base.Text
import Verif.Time.Calendar

/-!
# Model of the duration texts of `rocketry/pybox/time/convert.py`

Simplifications: numbers are exact rationals and integers where Python uses floats; characters are ASCII
(`str.isdigit` and `float` also accept other Unicode digits, `float`/`int` also surrounding blanks, underscores,
signs, exponents, `nan` and `inf`, which can only occur in the seconds of an `HH:MM:SS` text).
-/

namespace Rocketry

/-- Units of the reader, convert.py:264-289 with `to_microseconds`, 336-338: microseconds of the named unit. -/
def readUnit (s : String) : Option Nat :=
  if s = "millisecond" ∨ s = "ms" then some 1000
  else if s = "seconds" ∨ s = "second" ∨ s = "secs" ∨ s = "sec" ∨ s = "s" then some 1000000
  else if s = "minutes" ∨ s = "minute" ∨ s = "mins" ∨ s = "min" ∨ s = "m" then some 60000000
  else if s = "hours" ∨ s = "hour" ∨ s = "hrs" ∨ s = "hr" ∨ s = "h" then some 3600000000
  else if s = "days" ∨ s = "day" ∨ s = "d" then some 86400000000
  else none

/-- `is_numeric_char`, convert.py:227-228. -/
def isNumericChar (c : Char) : Bool := (decide ('0' ≤ c) && decide (c ≤ '9')) || c = '.'

/-- `is_wordbreak_char`, convert.py:230-231. -/
def isBreakChar (c : Char) : Bool := c = ' ' || c = ',' || c = ':'

/-- `s[skip_wordbreak(s):]`, convert.py:233-237: a text of separators only keeps its last character; the empty text
(`UnboundLocalError`) does not occur. -/
def skipBreaks : List Char → List Char
  | [] => []
  | [c] => [c]
  | c :: d :: l => if isBreakChar c then skipBreaks (d :: l) else c :: d :: l

/-- `get_number(s)`, convert.py:239-246: the number text and `s[pos:]`.  When the text ends inside the number, `pos`
is the position of its last character. -/
def getNumber : List Char → List Char × List Char
  | [] => ([], [])
  | [c] => if isNumericChar c then ([c], [c]) else ([], [c])
  | c :: d :: l =>
    if isNumericChar c then (c :: (getNumber (d :: l)).1, (getNumber (d :: l)).2) else ([], c :: d :: l)

/-- `get_unit(s)`, convert.py:248-257: the unit text and the rest. -/
def getUnit : List Char → List Char × List Char
  | [] => ([], [])
  | c :: l =>
    if isNumericChar c || isBreakChar c then ([], c :: l)
    else (c :: (getUnit l).1, (getUnit l).2)

/-- `float(text)` for a text of digits and dots. -/
def floatVal (l : List Char) : Except PyErr Rat :=
  match splitChar '.' l with
  | [a] => if isDigits a then .ok (digitsVal a : Rat) else .error .value
  | [a, b] =>
    if (a.isEmpty || isDigits a) && (b.isEmpty || isDigits b) && !(a.isEmpty && b.isEmpty) then
      .ok ((digitsVal a : Rat) + (digitsVal b : Rat) / ((10 ^ b.length : Nat) : Rat))
    else .error .value
  | _ => .error .value

/-- `int(text)` for a text of digits. -/
def intVal (l : List Char) : Except PyErr Rat :=
  if isDigits l then .ok (digitsVal l : Rat) else .error .value

/-- `get_hhmmss(s)`, convert.py:259-261. -/
def getHMS (s : List Char) : Except PyErr Rat :=
  match splitChar ':' s with
  | [h, m, sec] =>
    match intVal h with
    | .error e => .error e
    | .ok h =>
      match intVal m with
      | .error e => .error e
      | .ok m =>
        match floatVal sec with
        | .error e => .error e
        | .ok sec => .ok (sec * 1000000 + m * 60000000 + h * 3600000000)
  | _ => .error .value

/-- The `while` loop, convert.py:303-330, with the sum so far.  Each round shortens the text, so `fuel` equal to its
length is enough (`parts_fuel`). -/
def durationLoop : Nat → Rat → List Char → Except PyErr Rat
  | _, ms, [] => .ok ms
  | 0, _, _ :: _ => .error .runtime
  | n + 1, ms, c :: l =>
    let s := skipBreaks (c :: l)
    let numb := (getNumber s).1
    let s := (getNumber s).2
    if s.head? = some ':' then
      match getHMS (numb ++ s) with
      | .error e => .error e
      | .ok x => .ok (ms + x)
    else
      let s := skipBreaks s
      match readUnit (String.ofList (getUnit s).1) with
      | none => .error .key
      | some u =>
        match floatVal numb with
        | .error e => .error e
        | .ok x => durationLoop n (ms + x * (u : Rat)) (getUnit s).2

/-- The leading signs, convert.py:293-301: whether the duration is negative, and `s[i:]` (of a text of signs only
the last character is left). -/
def leadingSigns : Bool → List Char → Bool × List Char
  | neg, [] => (neg, [])
  | neg, [c] => (if c = '-' then !neg else neg, [c])
  | neg, c :: d :: l =>
    if c = '-' then leadingSigns (!neg) (d :: l)
    else if c = '+' then leadingSigns neg (d :: l)
    else (neg, c :: d :: l)

/-- Rounding of `datetime.timedelta(microseconds=x)`: to the nearest integer, ties to even. -/
def roundHalfEven (x : Rat) : Int :=
  let f := x.floor
  let d := x - (f : Rat)
  if d < 1 / 2 then f else if 1 / 2 < d then f + 1 else if f % 2 = 0 then f else f + 1

/-- `string_to_timedelta(s)` in microseconds, convert.py:224-334.  The empty text raises `UnboundLocalError`
(`.runtime` here). -/
def stringToTimedelta (s : List Char) : Except PyErr Int :=
  match s with
  | [] => .error .runtime
  | s =>
    let neg := (leadingSigns false s).1
    let t := (leadingSigns false s).2
    match durationLoop t.length 0 t with
    | .error e => .error e
    | .ok ms => .ok (roundHalfEven (if neg then -ms else ms))

/-! ### writing -/

/-- The texts of units, convert.py:158-194.  "Y", "M", "W" and the corresponding long names do not occur with the
default `include`. -/
inductive TdFormat where | long | semishort | short
  deriving DecidableEq, Repr

/-- The units of `timedelta_to_dict` for `units=None`, convert.py:87-92. -/
inductive TdUnit where | days | hours | minutes | seconds | milliseconds | microseconds
  deriving DecidableEq, Repr

def unitText : TdFormat → TdUnit → String
  | .long, .days => " days" | .long, .hours => " hours" | .long, .minutes => " minutes"
  | .long, .seconds => " seconds" | .long, .milliseconds => " milliseconds" | .long, .microseconds => " microseconds"
  | .semishort, .days => " days" | .semishort, .hours => " hrs" | .semishort, .minutes => " mins"
  | .semishort, .seconds => " secs" | .semishort, .milliseconds => " ms" | .semishort, .microseconds => " μs"
  | .short, .days => "d" | .short, .hours => "h" | .short, .minutes => "m"
  | .short, .seconds => "s" | .short, .milliseconds => "ms" | .short, .microseconds => "μs"

/-- `timedelta_to_dict(dt)`, convert.py:67-133, with exact integers. -/
def timedeltaToDict (us : Int) : List (TdUnit × Int) :=
  let d := us / DAY
  let us := us - d * DAY
  let h := us / HOUR
  let us := us - h * HOUR
  let m := us / MIN
  let us := us - m * MIN
  let s := us / SEC
  let us := us - s * SEC
  let ms := us / 1000
  let us := us - ms * 1000
  [(.days, d), (.hours, h), (.minutes, m), (.seconds, s), (.milliseconds, ms), (.microseconds, us)]

/-- `min_unit`, convert.py:143-146. -/
def minUnit (cs : List (TdUnit × Int)) : TdUnit :=
  cs.foldl (fun u c => if c.2 ≠ 0 then c.1 else u) .microseconds

/-- `max_unit`, convert.py:148-153. -/
def maxUnit (cs : List (TdUnit × Int)) : TdUnit :=
  match cs.find? (fun c => decide (c.2 ≠ 0)) with
  | some c => c.1
  | none => .microseconds

/-- `str(n)` for an integer. -/
def showInt (n : Int) : List Char :=
  if n < 0 then '-' :: showNat n.natAbs else showNat n.natAbs

/-- `f"{value}{unit_name}"` -/
def showComp (fmt : TdFormat) (c : TdUnit × Int) : List Char := showInt c.2 ++ (unitText fmt c.1).toList

/-- The loop of `timedelta_to_str`, convert.py:196-210, `reached` = `is_max_reached`. -/
def strLoop (fmt : TdFormat) (sep : List Char) (minU maxU : TdUnit) :
    Bool → List Char → List (TdUnit × Int) → List Char
  | _, s, [] => s
  | reached, s, c :: cs =>
    let reached := reached || c.1 = maxU
    let s := if maxU = c.1 then s ++ showComp fmt c
      else if reached then s ++ sep ++ showComp fmt c else s
    if minU = c.1 then s else strLoop fmt sep minU maxU reached s cs

/-- `timedelta_to_str(dt, format=fmt)`, convert.py:135-210. -/
def timedeltaToStr (fmt : TdFormat) (us : Int) : List Char :=
  let cs := timedeltaToDict us
  strLoop fmt [',', ' '] (minUnit cs) (maxUnit cs) false [] cs

end Rocketry
