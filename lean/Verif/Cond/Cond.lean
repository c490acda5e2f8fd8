import Verif.Time.Interval

/-!
# Model of the condition operators, `rocketry/core/condition/base.py`

A condition object is a tree; what a leaf condition answers (its `get_state`) is arbitrary user or library code, so a
leaf is evaluated by an arbitrary stateful function that may raise.
-/

namespace Rocketry

/-- Condition objects: leaves, `AlwaysTrue`, `AlwaysFalse`, `Any`, `All`, `Not`, base.py:142-254. -/
inductive Cond (L : Type) where
  | leaf (l : L)
  | alwaysTrue
  | alwaysFalse
  | any (subs : List (Cond L))
  | all (subs : List (Cond L))
  | not (c : Cond L)

namespace Cond

variable {L : Type}

/-- The argument flattening of `Any.__init__`, base.py:147-151. -/
def anyParts : Cond L → List (Cond L)
  | .any subs => subs
  | c => [c]

/-- The argument flattening of `All.__init__`, base.py:172-176. -/
def allParts : Cond L → List (Cond L)
  | .all subs => subs
  | c => [c]

/-- `Any(*conditions)`, base.py:144-151. -/
def mkAny (cs : List (Cond L)) : Cond L := .any (cs.flatMap anyParts)

/-- `All(*conditions)`, base.py:169-176. -/
def mkAll (cs : List (Cond L)) : Cond L := .all (cs.flatMap allParts)

/-- `a & b`, base.py:80-85. -/
def and (a b : Cond L) : Cond L := mkAll [a, b]

/-- `a | b`, base.py:87-91. -/
def or (a b : Cond L) : Cond L := mkAny [a, b]

/-- `~c`, base.py:93-96 and, for `Not`, 216-218. -/
def invert : Cond L → Cond L
  | .not c => c
  | c => .not c

/-- What one observation does: an answer or an exception, and the state afterwards. -/
abbrev Obs (σ : Type) := σ → Except PyErr Bool × σ

/-- `observe`: base.py:63-67 for leaves, 153-157 (`Any`), 178-182 (`All`), 198-199 (`Not`), 235-236, 247-248.
`observeAny`, `observeAll` are the loops. -/
def observe {σ : Type} (leafObs : L → Obs σ) : Cond L → Obs σ
  | .leaf l => leafObs l
  | .alwaysTrue => fun s => (.ok true, s)
  | .alwaysFalse => fun s => (.ok false, s)
  | .any subs => observeAny leafObs subs
  | .all subs => observeAll leafObs subs
  | .not c => fun s =>
    match observe leafObs c s with
    | (.ok b, s) => (.ok (!b), s)
    | (.error e, s) => (.error e, s)
where
  observeAny (leafObs : L → Obs σ) : List (Cond L) → Obs σ
    | [] => fun s => (.ok false, s)
    | c :: cs => fun s =>
      match observe leafObs c s with
      | (.ok true, s) => (.ok true, s)
      | (.ok false, s) => observeAny leafObs cs s
      | (.error e, s) => (.error e, s)
  observeAll (leafObs : L → Obs σ) : List (Cond L) → Obs σ
    | [] => fun s => (.ok true, s)
    | c :: cs => fun s =>
      match observe leafObs c s with
      | (.ok false, s) => (.ok false, s)
      | (.ok true, s) => observeAll leafObs cs s
      | (.error e, s) => (.error e, s)

end Cond

/-! ### comparisons -/

/-- `_comp_attrs`, base.py:259. -/
inductive Comp where | eq | ne | lt | gt | le | ge
  deriving DecidableEq, Repr

/-- `getattr(res, comp)(val)` for integers, base.py:286. -/
def Comp.holds : Comp → Int → Int → Bool
  | .eq, a, b => a = b
  | .ne, a, b => a ≠ b
  | .lt, a, b => a < b
  | .gt, a, b => a > b
  | .le, a, b => a ≤ b
  | .ge, a, b => a ≥ b

/-- The dictionary `_comps`: keys in order of first insertion. -/
abbrev Comps := List (Comp × Int)

/-- `d[key] = val` -/
def Comps.set : Comps → Comp → Int → Comps
  | [], k, v => [(k, v)]
  | (k', v') :: d, k, v => if k' = k then (k, v) :: d else (k', v') :: Comps.set d k v

/-- `d[key] if key in d` -/
def Comps.get (d : Comps) (k : Comp) : Option Int := (d.find? (fun p => decide (p.1 = k))).map Prod.snd

/-- `BaseComparable.get_state(res)`, base.py:278-288; `res` is the measured number (the length of a measured list). -/
def compState (comps : Comps) (res : Int) : Bool :=
  if comps.isEmpty then decide (res > 0) else comps.all (fun p => p.1.holds res p.2)

/-- The dictionary in the order of `_comp_attrs`, base.py:292-296, 302-306 (dictionaries compare without order, so
only the entries matter). -/
def compEntries (comps : Comps) : List (Comp × Int) :=
  [Comp.eq, .ne, .lt, .gt, .le, .ge].filterMap (fun k => (Comps.get comps k).map (fun v => (k, v)))

/-- `_is_any_over_zero`, base.py:290-299. -/
def isAnyOverZero (comps : Comps) : Bool :=
  if compEntries comps = [(.gt, 0)] ∨ compEntries comps = [(.ge, 1)] ∨ compEntries comps = [(.gt, 0), (.ge, 1)] then true
  else (compEntries comps).isEmpty

/-- `_is_equal_zero`, base.py:301-307. -/
def isEqualZero (comps : Comps) : Bool := decide (compEntries comps = [(.eq, 0)])

/-! ### the heap of comparable conditions -/

/-- A heap of condition objects and comparison dictionaries: object number `i` refers to dictionary number
`objs[i]`. -/
structure CompHeap where
  objs : List Nat
  dicts : List Comps

namespace CompHeap

/-- `BaseComparable.__init__` (fresh empty dictionary, base.py:261-263) and `from_magic` (dictionary from keyword
arguments, base.py:343-350): the new heap and the number of the new object. -/
def new (h : CompHeap) (comps : Comps) : CompHeap × Nat :=
  ({ objs := h.objs ++ [h.dicts.length], dicts := h.dicts ++ [comps] }, h.objs.length)

/-- `_set_comparison`, base.py:338-341: `copy(self)` is shallow, so the copy refers to the same dictionary, in which
the comparison is then stored. -/
def setComparison (h : CompHeap) (obj : Nat) (k : Comp) (v : Int) : CompHeap × Nat :=
  match h.objs[obj]? with
  | none => (h, obj)
  | some d => ({ objs := h.objs ++ [d], dicts := h.dicts.modify d (fun c => c.set k v) }, h.objs.length)

/-- The comparisons of an object. -/
def comps (h : CompHeap) (obj : Nat) : Comps :=
  match h.objs[obj]? with
  | none => []
  | some d => h.dicts[d]?.getD []

end CompHeap

end Rocketry
