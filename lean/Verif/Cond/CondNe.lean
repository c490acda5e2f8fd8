import Verif.Cond.CondEq

/-!
# Model of `!=` of conditions, `rocketry/core/condition/base.py`

`BaseComparable` (base.py:257-350) uses `!=` to derive conditions (`started != 3`), also when the other side is a
condition.
-/

namespace Rocketry

/-- What a comparable condition may be compared with: a number or a condition. -/
inductive Partner where
  | num (v : Int)
  | condition
  deriving DecidableEq, Repr

/-- The dictionary `_comps`: keys in order of first insertion. -/
abbrev Dealings := List (Comp × Partner)

/-- `d[key] = val` -/
def Dealings.set : Dealings → Comp → Partner → Dealings
  | [], k, v => [(k, v)]
  | (k', v') :: d, k, v => if k' = k then (k, v) :: d else (k', v') :: Dealings.set d k v

/-- The truth of `getattr(res, comp)(val)`, base.py:286: with a condition for `val` this is `NotImplemented`, which
counts as true (with a `DeprecationWarning`; from Python 3.14 on it raises `TypeError`, which is not modelled). -/
def Partner.holds (k : Comp) (res : Int) : Partner → Bool
  | .num v => k.holds res v
  | .condition => true

/-- `BaseComparable.get_state(res)`, base.py:278-288. -/
def Dealings.state (d : Dealings) (res : Int) : Bool :=
  if d.isEmpty then decide (res > 0) else d.all (fun p => p.2.holds p.1 res)

/-- A leaf of a condition: a comparable condition with its other attributes (class, task, period; a number stands for
them) and the number of its dictionary, or another leaf. -/
inductive CompLeaf where
  | comparable (what dict : Nat)
  | plain (what : Nat)
  deriving DecidableEq, Repr

/-- The dictionaries of all comparable conditions. -/
abbrev DHeap := List Dealings

/-- Whether two dictionaries are equal: without order.  Conditions in them count as equal: they are the same object or
compared with `==`, which is left to `leafEq`. -/
def Dealings.same (d e : Dealings) : Bool := d.all (fun p => decide (p ∈ e)) && e.all (fun p => decide (p ∈ d))

/-- `==` of leaves, base.py:98-113, 309-316. -/
def DHeap.leafEq (h : DHeap) : CompLeaf → CompLeaf → Except PyErr Bool
  | .comparable a i, .comparable b j => .ok (decide (a = b) && (h.getD i []).same (h.getD j []))
  | .plain a, .plain b => .ok (decide (a = b))
  | _, _ => .ok false

/-- `c == d`. -/
def DHeap.eq (h : DHeap) (c d : Cond CompLeaf) : Except PyErr Bool := c.eqE h.leafEq d

/-- What `c != d` gives. -/
inductive NeAnswer where
  | bool (b : Bool)
  | derived (c : Cond CompLeaf)

/-- `c != d`: for comparable conditions `_set_comparison("__ne__", d)` (base.py:318-320, 338-341: the copy is shallow, so
that both have the same dictionary); otherwise Python's own `__ne__`, which negates `__eq__`. -/
def DHeap.ne (h : DHeap) (c d : Cond CompLeaf) : DHeap × Except PyErr NeAnswer :=
  match c with
  | .leaf (.comparable a i) => (h.modify i (fun x => x.set .ne .condition), .ok (.derived (.leaf (.comparable a i))))
  | c => (h, (h.eq c d).map (fun b => .bool (!b)))

/-- `bool(c)` (base.py:69-71), where the measurements of comparable conditions and the answers of other leaves are
given. -/
def DHeap.truth (h : DHeap) (measured : Nat → Int) (answer : Nat → Bool) (c : Cond CompLeaf) : Except PyErr Bool :=
  (Cond.observe (σ := Unit) (fun l s => match l with
    | .comparable a i => (.ok ((h.getD i []).state (measured a)), s)
    | .plain a => (.ok (answer a), s)) c ()).1

/-- The truth of the answer of `!=`: of a bool, or of a condition. -/
def DHeap.neTruth (h : DHeap) (measured : Nat → Int) (answer : Nat → Bool) (c d : Cond CompLeaf) : Except PyErr Bool :=
  match h.ne c d with
  | (_, .error e) => .error e
  | (_, .ok (.bool b)) => .ok b
  | (h', .ok (.derived c)) => h'.truth measured answer c

end Rocketry
