import Verif.Session.Names
import Verif.Base.Text
import Verif.Base.CharList
import Verif.Time.Interval

/-!
# Model of the names given to tasks made without one

`get_default_name` of the classes of tasks: `FuncTask` (rocketry/tasks/func.py:249-261), `CommandTask`
(rocketry/tasks/command.py:106-107), `CodeTask` (rocketry/tasks/code.py:57-58), `Restart` and `ShutDown`
(rocketry/tasks/maintain/os.py:14-15, 27-28), as called by `Task._get_name` (rocketry/core/task.py:334-340), with
`Session.create_task` (rocketry/session.py:402-415).
-/

namespace Rocketry.Session
open Rocketry

/-- What a task is made from. -/
inductive Source where
  /-- a function, with its `__module__` and `__name__`; `deco`: by `session.create_task` or `app.task`, which pass
  `_name_template='{func_name}'` (session.py:415) -/
  | func (module name : List Char) (deco : Bool)
  /-- a file, by the parts of its path, and the argument `func_name` if it is given -/
  | path (parts : List (List Char)) (funcName : Option (List Char))
  /-- a command, as one text or as a list of words -/
  | command (text : List Char)
  | words (ws : List (List Char))
  | code (code : List Char)
  | restart
  | shutdown
  deriving DecidableEq, Repr

/-- `text.replace(".py", "")`: every occurrence, from the left. -/
def removePy : List Char → List Char
  | '.' :: 'p' :: 'y' :: l => removePy l
  | c :: l => c :: removePy l
  | [] => []

/-- `get_default_name`.  For a function: func.py:254-261 (`__main__` is left out, before the template is looked at).  For a
file: func.py:250-252, 261; `func_name` is the argument of the constructor and not the field, which has the default
"main" (func.py:134), so that a missing one is printed as `None`.  `CodeTask` refuses. -/
def defaultName : Source → Except PyErr (List Char)
  | .func m f deco => .ok (if m = c!"__main__" then f else if deco then f else m ++ ':' :: f)
  | .path ps f => .ok (removePy (joinWith ['.'] ps) ++ ':' :: f.getD c!"None")
  | .command t => .ok t
  | .words ws => .ok (joinWith [' '] ws)
  | .code _ => .error .value
  | .restart => .ok c!"restart"
  | .shutdown => .ok c!"shutdown"

/-- The function of a file that is run: the field `func_name`, func.py:134, 242. -/
def pathFunc (f : Option (List Char)) : List Char := f.getD c!"main"

/-- The creation of a task without a name, core/task.py:305-332 (`use_instance_naming` is off): the session and whether an
exception was raised. -/
def Sess.make (s : Sess) (x : Source) : Sess × Bool := match defaultName x with
  | .error _ => (s, true)
  | .ok n => s.create (String.ofList n) none

/-- Several creations; whether each of them raised an exception. -/
def Sess.makeAll (s : Sess) : List Source → Sess × List Bool
  | [] => (s, [])
  | x :: l => (((s.make x).1.makeAll l).1, (s.make x).2 :: ((s.make x).1.makeAll l).2)

end Rocketry.Session
