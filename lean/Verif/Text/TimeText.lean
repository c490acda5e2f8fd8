import Verif.Base.CharList
import Verif.Base.Text
import Verif.Time.Anchored

/-!
# Model of the reading of time texts: `anchor_str` of the classes in `rocketry/time/interval.py`

ASCII texts: `re.IGNORECASE` lets `[a-z]` also match two non-ASCII letters, which are left out.  The texts
"HH:MM", "HH:MM:SS" and "HH:MM:SS.f" are read as `dateutil.parser.parse` reads them; for other texts `dateutil` is an
arbitrary function.  So is `float` for the texts of `TimeOfSecond`.
-/

namespace Rocketry

/-- The libraries used: `dateutil.parser.parse(s)` for texts that are not plain clock times, as the microseconds of the
day of the result (rocketry/time/interval.py:134-137); `to_microseconds(millisecond=float(s))`, 37-40. -/
structure TextLib where
  parse : List Char → Except PyErr Int
  millis : List Char → Except PyErr Int

/-- `re.search`: the leftmost position at which the pattern matches. -/
def searchText {α : Type} (m : List Char → Option α) : List Char → Option α
  | [] => m []
  | c :: l => match m (c :: l) with
    | some a => some a
    | none => searchText m l

/-- `int(text.ljust(6, "0"))`, rocketry/time/interval.py:69-71. -/
def fracMicro (ds : List Char) : Nat := digitsVal (ds ++ List.replicate (6 - ds.length) '0')

/-- `([.](?P<microsecond>[0-9]{0,6}))?`, rocketry/time/interval.py:66, 97. -/
def matchFrac : List Char → Nat
  | '.' :: l => fracMicro ((l.take 6).takeWhile Char.isDigit)
  | _ => 0

/-- `(?P<second>[0-9][0-9])([.](?P<microsecond>[0-9]{0,6}))?` at the beginning of a text: the microseconds,
rocketry/time/interval.py:66-71. -/
def matchSeconds : List Char → Option Int
  | a :: b :: l =>
    if a.isDigit && b.isDigit then some (toMicroseconds 0 0 0 (digitsVal [a, b]) 0 (matchFrac l)) else none
  | _ => none

/-- `(?P<minute>[0-9][0-9]):` and then the seconds as above, rocketry/time/interval.py:97-102. -/
def matchMinutes : List Char → Option Int
  | a :: b :: ':' :: l =>
    if a.isDigit && b.isDigit then
      (matchSeconds l).map (fun us => toMicroseconds 0 0 (digitsVal [a, b]) 0 0 us)
    else none
  | _ => none

/-- `(?P<n>[0-4]) ?(quarter|q)` at the beginning of a text, rocketry/time/interval.py:104. -/
def matchQuarter : List Char → Option Nat
  | c :: l =>
    if '0' ≤ c ∧ c ≤ '4' then
      let l' := match l with
        | ' ' :: r => r
        | r => r
      match l'.head? with
      | some q => if lowerChar q = 'q' then some (digitVal c) else none
      | none => none
    else none
  | [] => none

/-- `TimeOfMinute.anchor_str`, rocketry/time/interval.py:64-71.  Without a match the result is `None`, on which
`_validate` raises `TypeError` (rocketry/core/time/anchor.py:163-165). -/
def minuteText (s : List Char) : Except PyErr Int :=
  match searchText matchSeconds s with
  | some us => .ok us
  | none => .error .type

/-- `TimeOfHour.anchor_str`, rocketry/time/interval.py:95-109, in quarters of a microsecond, since "1 quarter" is the
float `(3600000000 + 1) / 4 * 1 - 1`. -/
def hourText4 (s : List Char) : Except PyErr Int :=
  match searchText matchMinutes s with
  | some us => .ok (4 * us)
  | none => match searchText matchQuarter s with
    | some n => .ok ((Scope.max .hour + 1) * n - 4)
    | none => .error .value

/-- `TimeOfHour.anchor_str` for whole microseconds (simplified: fractions, which only "1 quarter" etc. give, are not
points of the modelled periods and are refused here). -/
def hourText (s : List Char) : Except PyErr Int :=
  match hourText4 s with
  | .ok q => if q % 4 = 0 then .ok (q / 4) else .error .value
  | .error e => .error e

/-- A text of digits with one of the forms `HH:MM`, `HH:MM:SS`, `HH:MM:SS.f`, within the range of a clock: the
microseconds of the day, as `dateutil.parser.parse` reads it (rocketry/time/interval.py:134-137; trusted). -/
def clockFull : List Char → Option Int
  | a :: b :: ':' :: c :: d :: l =>
    if a.isDigit && b.isDigit && c.isDigit && d.isDigit &&
        decide (digitsVal [a, b] < 24) && decide (digitsVal [c, d] < 60) then
      let hm := toMicroseconds 0 (digitsVal [a, b]) (digitsVal [c, d]) 0 0 0
      match l with
      | [] => some hm
      | ':' :: e :: f :: r =>
        if e.isDigit && f.isDigit && decide (digitsVal [e, f] < 60) then
          match r with
          | [] => some (hm + toMicroseconds 0 0 0 (digitsVal [e, f]) 0 0)
          | '.' :: ds =>
            if isDigits ds && decide (ds.length ≤ 6) then
              some (hm + toMicroseconds 0 0 0 (digitsVal [e, f]) 0 (fracMicro ds))
            else none
          | _ => none
        else none
      | _ => none
    else none
  | _ => none

/-- `TimeOfDay.anchor_str`, rocketry/time/interval.py:132-137. -/
def dayText (lib : TextLib) (s : List Char) : Except PyErr Int :=
  match clockFull s with
  | some us => .ok us
  | none => lib.parse s

/-- `.*`: up to the end of the line. -/
def restOfLine (s : List Char) : List Char := s.takeWhile (fun c => c ≠ '\n')

/-- ` ?`: an optional space. -/
def optSpace : List Char → List Char
  | ' ' :: l => l
  | l => l

/-- A letter, `[a-z]` with `re.IGNORECASE`. -/
def isLetter (c : Char) : Bool := decide ('a' ≤ lowerChar c) && decide (lowerChar c ≤ 'z')

/-- `(?P<word>[a-z]+) ?(?P<rest>.*)` searched in a text, rocketry/time/interval.py:190, 350. -/
def wordAndRest (s : List Char) : Option (List Char × List Char) :=
  let r := s.dropWhile (fun c => !isLetter c)
  if r = [] then none
  else some (r.takeWhile isLetter, restOfLine (optSpace (r.dropWhile isLetter)))

/-- `TimeOfWeek._unit_mapping` for texts, rocketry/time/interval.py:165-177. -/
def weekdays : List (List Char × Int) :=
  [(c!"mon", 0), (c!"tue", 1), (c!"wed", 2), (c!"thu", 3), (c!"fri", 4), (c!"sat", 5), (c!"sun", 6),
   (c!"monday", 0), (c!"tuesday", 1), (c!"wednesday", 2), (c!"thursday", 3), (c!"friday", 4), (c!"saturday", 5),
   (c!"sunday", 6)]

/-- `TimeOfYear._unit_mapping` for texts, rocketry/time/interval.py:318-324. -/
def monthNames : List (List Char × Int) :=
  [(c!"january", 0), (c!"february", 1), (c!"march", 2), (c!"april", 3), (c!"may", 4), (c!"june", 5), (c!"july", 6),
   (c!"august", 7), (c!"september", 8), (c!"october", 9), (c!"november", 10), (c!"december", 11),
   (c!"jan", 0), (c!"feb", 1), (c!"mar", 2), (c!"apr", 3), (c!"jun", 5), (c!"jul", 6), (c!"aug", 7),
   (c!"sep", 8), (c!"oct", 9), (c!"nov", 10), (c!"dec", 11)]

/-- A mapping from names. -/
def lookupName (m : List (List Char × Int)) (s : List Char) : Option Int :=
  (m.find? (fun kv => kv.1 = s)).map (·.2)

/-- `TimeOfWeek.anchor_str`, rocketry/time/interval.py:187-205: the day and the time in it.  A text without a letter
raises `AttributeError`, since the result of the search is `None`. -/
def weekText (lib : TextLib) (s : List Char) : Except PyErr AVal :=
  match wordAndRest s with
  | none => .error .attribute
  | some (w, time) => match lookupName weekdays (w.map lowerChar) with
    | none => .error .value
    | some k =>
      if time = [] then .ok (.named k none)
      else match dayText lib time with
        | .ok us => .ok (.named k (some us))
        | .error e => .error e

/-- `(st|nd|rd|th|[.])?`, rocketry/time/interval.py:252. -/
def optOrdinal (l : List Char) : List Char :=
  if (l.take 2).map lowerChar ∈ [c!"st", c!"nd", c!"rd", c!"th"] then l.drop 2
  else if l.head? = some '.' then l.drop 1
  else l

/-- `TimeOfMonth.anchor_str`, rocketry/time/interval.py:248-273: the day counted from 0 and the time in it. -/
def monthText (lib : TextLib) (s : List Char) : Except PyErr AVal :=
  let r := s.dropWhile (fun c => !c.isDigit)
  if r = [] then .error .attribute
  else
    let u : Int := (digitsVal (r.takeWhile Char.isDigit) : Int) - 1
    let time := restOfLine (optSpace (optOrdinal (r.dropWhile Char.isDigit)))
    if time = [] then .ok (.named u none)
    else match dayText lib time with
      | .ok us => .ok (.named u (some us))
      | .error e => .error e

/-- `TimeOfYear.anchor_str`, rocketry/time/interval.py:347-370.  The day of the month is read by
`TimeOfMonth().anchor_str(…)` without a side, so as the beginning of the day. -/
def yearText (lib : TextLib) (s : List Char) : Except PyErr AVal :=
  match wordAndRest s with
  | none => .error .attribute
  | some (w, rest) => match lookupName monthNames (w.map lowerChar) with
    | none => .error .key
    | some k =>
      if rest = [] then .ok (.named k none)
      else match monthText lib rest with
        | .ok (.named u off) => .ok (.named k (some (DAY * u + off.getD 0)))
        | .ok _ => .error .type
        | .error e => .error e

/-- `anchor_str` of the classes, rocketry/time/interval.py:37-40, 64-71, 95-109, 132-137, 187-205, 248-273, 347-370. -/
def readTime (lib : TextLib) (sc : Scope) (s : List Char) : Except PyErr AVal :=
  let clock (r : Except PyErr Int) : Except PyErr AVal := match r with
    | .ok us => .ok (.clock us)
    | .error e => .error e
  match sc with
  | .second => clock (lib.millis s)
  | .minute => clock (minuteText s)
  | .hour => clock (hourText s)
  | .day => clock (dayText lib s)
  | .week => weekText lib s
  | .month => monthText lib s
  | .year => yearText lib s

end Rocketry
