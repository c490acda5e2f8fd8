
/-!
# Model of the import path during the loading of a task's function

`TempSysPath` and its use in `FuncTask.get_func` (rocketry/tasks/func.py:34-49, 233-248).  Several threads may load
functions at the same time; each append and each remove is one step.

Simplified: the root found by `find_package_root` is given (it is modelled in PackageRoot.lean).  What the import machinery does with
`sys.path` is `searched`: entries that are not text are passed over (CPython's `PathFinder`).
-/

namespace Rocketry.Task

/-- An entry of `sys.path`: a text or a `pathlib.Path` (`sys_paths` is a `List[Path]`, func.py:137; pydantic turns texts
into `Path` objects, which are not equal to texts). -/
inductive PathEntry where
  | str (s : String)
  | path (s : String)
  deriving DecidableEq, Repr

/-- Where a thread is that loads a function: in `__enter__` (func.py:40-42) with the entries still to append, in the body
(func.py:240-241), in `__exit__` (func.py:44-49) with the entries still to remove. -/
inductive LoadPhase where
  | entering (rest : List PathEntry)
  | inside
  | leaving (rest : List PathEntry)
  deriving DecidableEq, Repr

/-- A `TempSysPath` in use. -/
structure Loading where
  paths : List PathEntry
  phase : LoadPhase
  deriving DecidableEq, Repr

/-- The lists: `first` is the list object that `sys.path` was when rocketry was imported (the class attribute `sys_path`,
func.py:36), `rebound` the list that `sys.path` has been assigned since, if any. -/
structure ImportSt where
  first : List PathEntry
  rebound : Option (List PathEntry)
  loads : List Loading
  deriving DecidableEq, Repr

/-- When rocketry is imported. -/
def ImportSt.init (l : List PathEntry) : ImportSt := ⟨l, none, []⟩

/-- `sys.path`. -/
def ImportSt.sysPath (s : ImportSt) : List PathEntry := s.rebound.getD s.first

/-- The directories in which an import looks. -/
def ImportSt.searched (s : ImportSt) : List String :=
  s.sysPath.filterMap (fun e => match e with | .str d => some d | .path _ => none)

/-- Change `sys.path` in place. -/
def ImportSt.change (s : ImportSt) (f : List PathEntry → List PathEntry) : ImportSt :=
  match s.rebound with
  | none => { s with first := f s.first }
  | some l => { s with rebound := some (f l) }

/-- What happens: `start` is `with TempSysPath([root] + self.sys_paths)` (func.py:236-240), `go i` the next step of load
`i` (the body may end in any way: `__exit__` is called after an exception as well); the others are changes of `sys.path`
by other code: at its end, at its front, the removal of an entry, and the assignment of a new list. -/
inductive ImportEv where
  | start (root : String) (sysPaths : List String)
  | go (i : Nat)
  | append (q : PathEntry)
  | prepend (q : PathEntry)
  | remove (q : PathEntry)
  | rebind (l : List PathEntry)
  deriving DecidableEq, Repr

/-- `[root] + self.sys_paths`, func.py:240. -/
def loadPaths (root : String) (sysPaths : List String) : List PathEntry := .str root :: sysPaths.map .path

/-- The next step of a load. -/
def ImportSt.goes (s : ImportSt) (i : Nat) (L : Loading) : ImportSt :=
  match L.phase with
  | .entering [] => { s with loads := s.loads.set i { L with phase := .inside } }
  | .entering (p :: r) => { s.change (· ++ [p]) with loads := s.loads.set i { L with phase := .entering r } }
  | .inside => { s with loads := s.loads.set i { L with phase := .leaving L.paths } }
  | .leaving [] => s
  | .leaving (p :: r) => { s with first := s.first.erase p, loads := s.loads.set i { L with phase := .leaving r } }

/-- One step. -/
def ImportSt.step (s : ImportSt) : ImportEv → ImportSt
  | .start root ps => { s with loads := s.loads ++ [⟨loadPaths root ps, .entering (loadPaths root ps)⟩] }
  | .go i => match s.loads[i]? with
    | none => s
    | some L => s.goes i L
  | .append q => s.change (· ++ [q])
  | .prepend q => s.change (q :: ·)
  | .remove q => s.change (·.erase q)
  | .rebind l => { s with rebound := some l }

/-- A sequence of steps. -/
def ImportSt.run : ImportSt → List ImportEv → ImportSt
  | s, [] => s
  | s, e :: es => (s.step e).run es

end Rocketry.Task
