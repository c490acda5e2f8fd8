import Verif.Session.Args

/-!
# Model of `Parameters` objects and the dictionaries behind them

`Parameters.__init__`, `get`, `__getitem__`, `pre_materialize`, `__setitem__`, `update`, `__or__`, `clear`, `copy`, `to_dict`
(rocketry/core/parameters/parameters.py:36-48, 63-98, 114-120, 154-160, 196-204).  A `Parameters` object has a
dictionary, `_params`; dictionaries are objects of their own and can be shared.
-/

namespace Rocketry.Args

variable {V : Type}

/-- The dictionaries of a program, the dictionary of each `Parameters` object, and the dictionaries that the program has
in hand itself. -/
structure PHeap (V : Type) where
  dicts : List (Params V)
  objs : List Nat
  held : List Nat

/-- What is passed to the constructor or to `update`: nothing, a `Parameters` object or a dictionary in hand. -/
inductive Src where | none | obj (i : Nat) | dict (i : Nat)
  deriving DecidableEq, Repr

/-- Operations of a program; objects and dictionaries are numbered in the order of their creation. -/
inductive POp (V : Type) where
  /-- `d = {...}` -/
  | dict (d : Params V)
  /-- `d[k] = v` -/
  | setDict (i : Nat) (k : String) (v : PVal V)
  /-- `p = Parameters(src, **kw)` -/
  | make (src : Src) (kw : Params V)
  /-- `p[k] = v` -/
  | set (i : Nat) (k : String) (v : PVal V)
  /-- `p.update(src)` -/
  | update (i : Nat) (src : Src)
  /-- `r = p | q` -/
  | union (i : Nat) (src : Src)
  /-- `r = p.copy()` -/
  | copy (i : Nat)
  /-- `p.clear()` -/
  | clear (i : Nat)
  /-- `p.pre_materialize(...)` -/
  | stage (i : Nat)
  /-- `d = p.to_dict()` -/
  | toDict (i : Nat)

/-- The contents of a dictionary. -/
def PHeap.at (h : PHeap V) (a : Nat) : Params V := h.dicts.getD a []

/-- The contents of a `Parameters` object. -/
def PHeap.params (h : PHeap V) (i : Nat) : Option (Params V) := (h.objs[i]?).map h.at

/-- What is passed. -/
def PHeap.read (h : PHeap V) : Src → Option (Params V)
  | .none => some []
  | .obj i => h.params i
  | .dict i => (h.held[i]?).map h.at

/-- A new `Parameters` object with a dictionary of its own. -/
def PHeap.new (h : PHeap V) (p : Params V) : PHeap V := ⟨h.dicts ++ [p], h.objs ++ [h.dicts.length], h.held⟩

/-- `self._params = {...}`. -/
def PHeap.rebind (h : PHeap V) (i : Nat) (p : Params V) : PHeap V :=
  ⟨h.dicts ++ [p], h.objs.set i h.dicts.length, h.held⟩

/-- A dictionary is changed. -/
def PHeap.mutate (h : PHeap V) (a : Nat) (p : Params V) : PHeap V := ⟨h.dicts.set a p, h.objs, h.held⟩

/-- One operation; an exception leaves everything as it was.  `stg` is what `pre_materialize` makes of a value. -/
def PHeap.step (o : Special V) (stg : PVal V → Except Err (PVal V)) (h : PHeap V) : POp V → PHeap V
  | .dict d => ⟨h.dicts ++ [d], h.objs, h.held ++ [h.dicts.length]⟩
  | .setDict i k v => match h.held[i]? with
    | none => h
    | some a => h.mutate a (Dict.put (h.at a) k v)
  -- parameters.py:36-48: the keyword arguments are a new dictionary, which is updated with what is passed
  | .make src kw => match h.read src with
    | none => h
    | some p => h.new (Dict.update kw p)
  | .set i k v => match h.objs[i]? with
    | none => h
    | some a => h.mutate a (Dict.put (h.at a) k v)
  | .update i src => match h.objs[i]?, h.read src with
    | some a, some p => h.mutate a (Dict.update (h.at a) p)
    | _, _ => h
  | .union i src => match h.params i, h.read src with
    | some p, some q => match Args.union o p q with
      | .error _ => h
      | .ok r => h.new r
    | _, _ => h
  -- parameters.py:200-201: copied twice
  | .copy i => match h.params i with
    | none => h
    | some p => h.new (Dict.update [] p)
  | .clear i => match h.objs[i]? with
    | none => h
    | some _ => h.rebind i []
  | .stage i => match h.params i with
    | none => h
    | some p => match mapItems stg p with
      | .error _ => h
      | .ok q => h.rebind i q
  | .toDict i => match h.objs[i]? with
    | none => h
    | some a => ⟨h.dicts, h.objs, h.held ++ [a]⟩

def PHeap.run (o : Special V) (stg : PVal V → Except Err (PVal V)) (h : PHeap V) (l : List (POp V)) : PHeap V :=
  l.foldl (PHeap.step o stg) h

/-- Nothing is there yet. -/
def PHeap.init : PHeap V := ⟨[], [], []⟩

/-- `params.get(key, default)`, parameters.py:64-68. -/
def getOr (n : Nat) (c : Ctx V) (p : Params V) (k : String) (default : V) : Except Err V := match getItem n c p k with
  | .error .key => .ok default
  | r => r

end Rocketry.Args
