import Verif.Cond.Cond

/-!
# What condition operators mean

Expressions as the user writes them, with short-circuit evaluation in an arbitrary state; comparison operators as
relations.  Only the types of the model are used (outcome of an observation, names of comparisons).
-/

namespace Rocketry.Spec

/-- A condition as the user writes it: leaves, `true`, `false`, `a & b`, `a | b`, `~a`, `All(…)`, `Any(…)`. -/
inductive CExpr (L : Type) where
  | leaf (l : L)
  | tt
  | ff
  | and (a b : CExpr L)
  | or (a b : CExpr L)
  | not (a : CExpr L)
  | all (es : List (CExpr L))
  | any (es : List (CExpr L))

/-- First `x`; when it holds, `y`. -/
def thenAnd {σ : Type} (x y : σ → Except PyErr Bool × σ) : σ → Except PyErr Bool × σ := fun s =>
  match x s with
  | (.ok true, s') => y s'
  | (.ok false, s') => (.ok false, s')
  | (.error e, s') => (.error e, s')

/-- First `x`; when it does not hold, `y`. -/
def thenOr {σ : Type} (x y : σ → Except PyErr Bool × σ) : σ → Except PyErr Bool × σ := fun s =>
  match x s with
  | (.ok true, s') => (.ok true, s')
  | (.ok false, s') => y s'
  | (.error e, s') => (.error e, s')

def negated {σ : Type} (x : σ → Except PyErr Bool × σ) : σ → Except PyErr Bool × σ := fun s =>
  ((x s).1.map (fun b => !b), (x s).2)

/-- The meaning of an expression: short-circuit evaluation from the left. -/
def CExpr.eval {L σ : Type} (f : L → σ → Except PyErr Bool × σ) : CExpr L → σ → Except PyErr Bool × σ
  | .leaf l => f l
  | .tt => fun s => (.ok true, s)
  | .ff => fun s => (.ok false, s)
  | .and a b => thenAnd (a.eval f) (b.eval f)
  | .or a b => thenOr (a.eval f) (b.eval f)
  | .not a => negated (a.eval f)
  | .all es => evalAll f es
  | .any es => evalAny f es
where
  evalAll (f : L → σ → Except PyErr Bool × σ) : List (CExpr L) → σ → Except PyErr Bool × σ
    | [] => fun s => (.ok true, s)
    | e :: es => thenAnd (e.eval f) (evalAll f es)
  evalAny (f : L → σ → Except PyErr Bool × σ) : List (CExpr L) → σ → Except PyErr Bool × σ
    | [] => fun s => (.ok false, s)
    | e :: es => thenOr (e.eval f) (evalAny f es)

/-- The truth value of an expression for given truth values of the leaves. -/
def CExpr.truth {L : Type} (v : L → Bool) : CExpr L → Prop
  | .leaf l => v l = true
  | .tt => True
  | .ff => False
  | .and a b => a.truth v ∧ b.truth v
  | .or a b => a.truth v ∨ b.truth v
  | .not a => ¬ a.truth v
  | .all es => truthAll v es
  | .any es => truthAny v es
where
  truthAll (v : L → Bool) : List (CExpr L) → Prop
    | [] => True
    | e :: es => e.truth v ∧ truthAll v es
  truthAny (v : L → Bool) : List (CExpr L) → Prop
    | [] => False
    | e :: es => e.truth v ∨ truthAny v es

/-- The leaves of an expression. -/
def CExpr.leaves {L : Type} : CExpr L → List L
  | .leaf l => [l]
  | .tt => []
  | .ff => []
  | .and a b => a.leaves ++ b.leaves
  | .or a b => a.leaves ++ b.leaves
  | .not a => a.leaves
  | .all es => leavesList es
  | .any es => leavesList es
where
  leavesList : List (CExpr L) → List L
    | [] => []
    | e :: es => e.leaves ++ leavesList es

/-- The relation a comparison operator stands for. -/
def Rel : Comp → Int → Int → Prop
  | .eq, a, b => a = b
  | .ne, a, b => a ≠ b
  | .lt, a, b => a < b
  | .gt, a, b => b < a
  | .le, a, b => a ≤ b
  | .ge, a, b => b ≤ a

/-- The bound given last for an operator in a chain of comparisons. -/
def lastBound (ops : List (Comp × Int)) (k : Comp) : Option Int :=
  (ops.reverse.find? (fun p => p.1 = k)).map Prod.snd

/-- A statement of a program with conditions: create one, or apply a comparison to an existing one. -/
inductive CompOp where
  | new (comps : Comps)
  | cmp (obj : Nat) (k : Comp) (v : Int)

/-- For each condition of a program, the created condition it was derived from.  A comparison applied to an object
that does not exist creates nothing. -/
def roots : List CompOp → List Nat
  | ops => ops.foldl (fun r op =>
      match op with
      | .new _ => r ++ [r.length]
      | .cmp obj _ _ => match r[obj]? with | none => r | some x => r ++ [x]) []

end Rocketry.Spec
