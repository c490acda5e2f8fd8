import Verif.Session.Options
import Verif.Spec.DurationSpec

/-! # What options are: C82 -/

namespace Rocketry.Spec
open Rocketry.Options

/-- Kinds of options. -/
inductive OptKind where
  | flag | number | numberOrNone | word | duration | object | objectOrNone

/-- The value is of the kind. -/
def OptKind.Has : OptKind → OptVal → Prop
  | .flag, v => ∃ b, v = .bool b
  | .number, v => ∃ q, v = .num q
  | .numberOrNone, v => v = .none ∨ ∃ q, v = .num q
  | .word, v => ∃ s, v = .text s
  | .duration, v => ∃ d, v = .span d
  | .object, v => ∃ n, v = .obj n
  | .objectOrNone, v => v = .none ∨ ∃ n, v = .obj n

/-- The options, with kind and default; `cpus` is the number of processors. -/
def options (cpus : Nat) : List (String × OptKind × OptVal) :=
  [("execution", .word, .text c!"async"), ("task_pre_exist", .word, .text c!"raise"),
   ("multilaunch", .flag, .bool false), ("timeout", .duration, .span (30 * 60 * 1000000)),
   ("shut_cond", .objectOrNone, .none), ("max_process_count", .number, .num cpus),
   ("tasks_as_daemon", .flag, .bool true), ("instant_shutdown", .flag, .bool false),
   ("restarting", .word, .text c!"replace"), ("cycle_sleep", .numberOrNone, .num (1 / 10)),
   ("force_status_from_logs", .flag, .bool false), ("silence_task_prerun", .flag, .bool false),
   ("silence_task_logging", .flag, .bool false), ("silence_cond_check", .flag, .bool false),
   ("param_materialize", .word, .text c!"post"), ("func_run_id", .object, uuidFunc), ("cls_lock", .object, lockClass),
   ("timezone", .objectOrNone, .none), ("time_func", .objectOrNone, .none),
   ("task_logger_basename", .word, .text c!"rocketry.task"),
   ("scheduler_logger_basename", .word, .text c!"rocketry.scheduler"), ("debug", .flag, .bool false),
   ("use_instance_naming", .flag, .bool false), ("task_priority", .number, .num 0)]

/-- `n` is the name of an option of kind `k` with default `v`. -/
def IsOption (cpus : Nat) (n : String) (k : OptKind) (v : OptVal) : Prop := (n, k, v) ∈ options cpus

/-- The option that a name stands for: `task_execution` is the former name of `execution`. -/
def optionNamed (n : String) : String := if n = "task_execution" then "execution" else n

/-- A duration is given as a number of seconds, a text or a `timedelta`. -/
inductive Lasts : OptVal → Int → Prop
  | seconds (q : Rat) (d : Int) : RoundsTo (q * 1000000) d → Lasts (.num q) d
  | text (t : DText) (d : Int) : t.Valid → RoundsTo t.val d → Lasts (.text t.text) d
  | span (d : Int) : Lasts (.span d) d

/-- What giving `v` for the option `f` asks for. -/
def AsksFor (f : String) (v w : OptVal) : Prop :=
  if f = "execution" then (v = .none ∧ w = .text c!"async") ∨ (v ≠ .none ∧ w = v)
  else if f = "timeout" then ∃ d, Lasts v d ∧ w = .span d
  else if f = "shut_cond" then (v = .none ∧ w = alwaysFalse) ∨ (v ≠ .none ∧ w = v)
  else w = v

/-- `v` is a value for the option `f`, and asks for `w`. -/
def GoodValue (cpus : Nat) (f : String) (v w : OptVal) : Prop :=
  AsksFor f v w ∧ ∃ k dflt, IsOption cpus f k dflt ∧ k.Has w

/-- The checks outside of the repository keep values of the declared kind, and condition objects. -/
structure _root_.Rocketry.Options.Pyd.Plain (E : Pyd) : Prop where
  coerce : ∀ f k dflt v, IsOption E.cpus f k dflt → k.Has v → E.coerce f v = .ok v
  cond : ∀ n, E.parseCond (.obj n) = .ok (.obj n)

/-- What is given to a session by the argument `config` and by keywords. -/
def givenOpts : CfgArg → Dict OptVal → List (String × OptVal)
  | .none, kw => kw
  | .dict d, kw => d ++ kw
  | .obj _, kw => kw
  | .other, kw => kw

/-- The value of the setting of a task: its own when it has one, otherwise the one of its session. -/
def OwnOrSession (own : OptVal) (session value : Option OptVal) : Prop :=
  (own ≠ .none → value = some own) ∧ (own = .none → value = session)

end Rocketry.Spec
