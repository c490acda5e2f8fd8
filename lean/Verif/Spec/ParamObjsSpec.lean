import Verif.Session.ParamObjs
import Verif.Spec.ArgsSpec

/-!
# `Parameters` as values

The reference: every `Parameters` object and every dictionary is a value of its own, a function from names to values.
-/

namespace Rocketry.Spec
open Rocketry.Args

variable {V : Type}

/-- What an object holds under each name. -/
abbrev PTable (V : Type) := String → Option (PVal V)

/-- The objects and the dictionaries of a program. -/
structure PTables (V : Type) where
  objs : List (PTable V)
  dicts : List (PTable V)

def PTables.read (t : PTables V) : Src → Option (PTable V)
  | .none => some fun _ => none
  | .obj i => t.objs[i]?
  | .dict i => t.dicts[i]?

/-- The values of the second table, where it has one, and else those of the first. -/
def PTable.over (f g : PTable V) : PTable V := fun k => (g k).or (f k)

/-- One name gets a value. -/
def PTable.with (f : PTable V) (k : String) (v : PVal V) : PTable V := fun x => if x = k then some v else f x

/-- `g` is the table with every value staged. -/
def StagedTable (stg : PVal V → Except Err (PVal V)) (f g : PTable V) : Prop :=
  ∀ k, (f k = none → g k = none) ∧ ∀ v, f k = some v → ∃ w, stg v = .ok w ∧ g k = some w

/-- Some value cannot be staged. -/
def CannotStage (stg : PVal V → Except Err (PVal V)) (f : PTable V) : Prop := ∃ k v e, f k = some v ∧ stg v = .error e

/-- What each operation should do: a new object is a value made from those given, other operations change the object
they are applied to and no other.  Operations on things that do not exist do nothing. -/
inductive Does (stg : PVal V → Except Err (PVal V)) : PTables V → POp V → PTables V → Prop
  | dict (t : PTables V) (d : Params V) : Does stg t (.dict d) ⟨t.objs, t.dicts ++ [Dict.find d]⟩
  | setDict (t : PTables V) (i : Nat) (k : String) (v : PVal V) :
      Does stg t (.setDict i k v) ⟨t.objs, t.dicts.modify i (·.with k v)⟩
  | make (t : PTables V) (src : Src) (kw : Params V) (f : PTable V) : t.read src = some f →
      Does stg t (.make src kw) ⟨t.objs ++ [PTable.over (Dict.find kw) f], t.dicts⟩
  | set (t : PTables V) (i : Nat) (k : String) (v : PVal V) :
      Does stg t (.set i k v) ⟨t.objs.modify i (·.with k v), t.dicts⟩
  | update (t : PTables V) (i : Nat) (src : Src) (f : PTable V) : t.read src = some f →
      Does stg t (.update i src) ⟨t.objs.modify i (·.over f), t.dicts⟩
  | union (t : PTables V) (i : Nat) (src : Src) (f g : PTable V) : t.objs[i]? = some f → t.read src = some g →
      Does stg t (.union i src) ⟨t.objs ++ [f.over g], t.dicts⟩
  | copy (t : PTables V) (i : Nat) (f : PTable V) : t.objs[i]? = some f → Does stg t (.copy i) ⟨t.objs ++ [f], t.dicts⟩
  | clear (t : PTables V) (i : Nat) : Does stg t (.clear i) ⟨t.objs.modify i (fun _ _ => none), t.dicts⟩
  | stage (t : PTables V) (i : Nat) (f g : PTable V) : t.objs[i]? = some f → StagedTable stg f g →
      Does stg t (.stage i) ⟨t.objs.set i g, t.dicts⟩
  | fails (t : PTables V) (i : Nat) (f : PTable V) : t.objs[i]? = some f → CannotStage stg f → Does stg t (.stage i) t
  | toDict (t : PTables V) (i : Nat) (f : PTable V) : t.objs[i]? = some f →
      Does stg t (.toDict i) ⟨t.objs, t.dicts ++ [f]⟩
  | noMake (t : PTables V) (src : Src) (kw : Params V) : t.read src = none → Does stg t (.make src kw) t
  | noUpdate (t : PTables V) (i : Nat) (src : Src) : t.read src = none → Does stg t (.update i src) t
  | noUnion (t : PTables V) (i : Nat) (src : Src) : t.objs[i]? = none ∨ t.read src = none → Does stg t (.union i src) t
  | noCopy (t : PTables V) (i : Nat) : t.objs[i]? = none → Does stg t (.copy i) t
  | noStage (t : PTables V) (i : Nat) : t.objs[i]? = none → Does stg t (.stage i) t
  | noDict (t : PTables V) (i : Nat) : t.objs[i]? = none → Does stg t (.toDict i) t

/-- Programs. -/
inductive DoesAll (stg : PVal V → Except Err (PVal V)) : PTables V → List (POp V) → PTables V → Prop
  | nil (t : PTables V) : DoesAll stg t [] t
  | cons {t u v : PTables V} {op : POp V} {l : List (POp V)} : Does stg t op u → DoesAll stg u l v → DoesAll stg t (op :: l) v

/-- The program uses dictionaries with distinct names and no reserved ones, and does not ask for the dictionary of an
object. -/
def TidyOp : POp V → Prop
  | .dict d => Dict.Ok d ∧ Unreserved d
  | .setDict _ k _ | .set _ k _ => k ≠ "self" ∧ k ≠ "_param" ∧ k ≠ "type_"
  | .make _ kw => Dict.Ok kw ∧ Unreserved kw
  | .toDict _ => False
  | _ => True

end Rocketry.Spec
