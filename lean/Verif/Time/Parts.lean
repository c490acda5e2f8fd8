import Verif.Time.Anchored

/-!
# Model of times of a cycle given by their parts or as floats

`AnchoredInterval.anchor` with a dictionary or a float, rocketry/core/time/anchor.py:66-95.
-/

namespace Rocketry

/-- `_fixed_components` behind the `_scope` of the class, core/time/anchor.py:46, 93.  None: the `_scope` of `TimeOfMonth` and of
`TimeOfYear` is "year" (rocketry/time/interval.py:234, 314), which is not in `_fixed_components`; `index` raises `ValueError`. -/
def fixedComponents : Scope → Option (List String)
  | .second => some ["microsecond"]
  | .minute => some ["second", "microsecond"]
  | .hour => some ["minute", "second", "microsecond"]
  | .day => some ["hour", "minute", "second", "microsecond"]
  | .week => some ["day", "hour", "minute", "second", "microsecond"]
  | .month => none
  | .year => none

/-- `kwargs[key]` of `to_microseconds`, which is 0 by default. -/
def partOf (d : List (String × Int)) (key : String) : Int := ((d.find? (fun kv => decide (kv.1 = key))).map (·.2)).getD 0

/-- `anchor_dict`, core/time/anchor.py:92-95: entries of other keys are left out. -/
def anchorDict (sc : Scope) (d : List (String × Int)) : Except PyErr Int :=
  match fixedComponents sc with
  | none => .error .value
  | some comps =>
    let kwargs := d.filter (fun kv => comps.contains kv.1)
    .ok (toMicroseconds (partOf kwargs "day") (partOf kwargs "hour") (partOf kwargs "minute") (partOf kwargs "second")
      (partOf kwargs "millisecond") (partOf kwargs "microsecond"))

/-- `anchor_float`, core/time/anchor.py:84-85, rocketry/time/interval.py:29-30, 56-57, for a float with six decimals (given in
millionths); the result is given in thousandths of
a microsecond (a float, not rounded). -/
def anchorFloat (sc : Scope) (millionths : Int) : Except PyErr Int :=
  match sc with
  | .second => .ok (millionths * 1)
  | .minute => .ok (millionths * 1000)
  | _ => .error .value

end Rocketry
