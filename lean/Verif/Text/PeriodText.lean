import Verif.Text.Duration
import Verif.Base.CharList
import Verif.Time.Period

/-!
# Model of the texts of periods

`__str__` of the periods: `AnchoredInterval`, rocketry/core/time/anchor.py:409-423, `TimeDelta`, `All`, `Any`, `StaticInterval`,
rocketry/core/time/base.py:246-251, 373-374, 492-493, 530-535.
-/

namespace Rocketry

/-- A number with a fixed count of digits (`%02d`, `%06d` of a number that has no more). -/
def fixedDigits : Nat → Nat → List Char
  | 0, _ => []
  | k + 1, n => fixedDigits k (n / 10) ++ [Char.ofNat (48 + n % 10)]

/-- `str(timedelta)` of Python for a duration in microseconds (a part of Python, trusted): the days, which carry the sign, the
hours, minutes and seconds, and the microseconds if there are any. -/
def pyDurationText (d : Int) : List Char :=
  let days := d / DAY
  let rest := (d % DAY).toNat
  let us := rest % 1000000
  (if days = 0 then []
    else showInt days ++ (if days.natAbs = 1 then [' ', 'd', 'a', 'y'] else [' ', 'd', 'a', 'y', 's']) ++ [',', ' ']) ++
  (showNat (rest / 3600000000) ++ ':' :: fixedDigits 2 (rest / 60000000 % 60) ++ ':' :: fixedDigits 2 (rest / 1000000 % 60)) ++
  (if us = 0 then [] else '.' :: fixedDigits 6 us)

/-- `repr_scope`, anchor.py:414: the component behind the `_scope` of the class (for `TimeOfMonth` the `_scope` is "year"). -/
def reprScope : Scope → List Char
  | .second => c!"microsecond"
  | .minute => c!"second"
  | .hour => c!"minute"
  | .day => c!"hour"
  | .week => c!"day"
  | .month => c!"month"
  | .year => c!"month"

/-- `timedelta_to_str(delta, default_scope=repr_scope)`, anchor.py:416-420, convert.py:135-210.  The default scope ("hour") is the
name of no component ("hours"), so a duration of zero, of which no component is shown, has the empty text; otherwise the default
scope is replaced by the components that are not zero. -/
def scopedText (d : Int) : List Char :=
  if (timedeltaToDict d).all (fun c => decide (c.2 = 0)) then [] else timedeltaToStr .long d

/-- `AnchoredInterval.__str__`, anchor.py:409-423. -/
def anchoredText (p : Anchored) : List Char :=
  let start := if scopedText p.start = [] then '0' :: ' ' :: reprScope p.scope ++ ['s'] else scopedText p.start
  start ++ [' ', '-', ' '] ++ scopedText p.stop

/-- `TimeDelta.__str__`, base.py:246-251; a duration of zero counts as false. -/
def deltaText (past future : Int) : List Char :=
  if future = 0 then c!"past " ++ pyDurationText past
  else if past = 0 then c!"next " ++ pyDurationText future
  else c!"past " ++ pyDurationText past ++ c!" to next " ++ pyDurationText future

mutual

/-- `__str__` of periods: `AnchoredInterval` (above), `StaticInterval` (base.py:530-535), `TimeDelta` (above), `All` and `Any`
(`" & ".join(…)` and `" | ".join(…)`, base.py:373-374, 492-493).  The texts of other periods and of moments are given as arguments. -/
def periodText (other : Period → List Char) (moment : Int → List Char) : Period → List Char
  | .anchored a => anchoredText a
  | .always => c!"always"
  | .static s e =>
    if s = MINT ∧ e = MAXT then c!"always"
    else if s = MAXT then c!"never"
    else c!"between " ++ moment s ++ c!" and " ++ moment e
  | .delta past future => deltaText past future
  | .all ps => periodTexts other moment [' ', '&', ' '] ps
  | .any ps => periodTexts other moment [' ', '|', ' '] ps
  | p => other p

/-- `sep.join(str(p) for p in periods)` -/
def periodTexts (other : Period → List Char) (moment : Int → List Char) (sep : List Char) : List Period → List Char
  | [] => []
  | p :: ps => periodText other moment p ++ periodRest other moment sep ps

/-- The members behind the first, each with the separator before it. -/
def periodRest (other : Period → List Char) (moment : Int → List Char) (sep : List Char) : List Period → List Char
  | [] => []
  | p :: ps => sep ++ periodText other moment p ++ periodRest other moment sep ps

end

end Rocketry
