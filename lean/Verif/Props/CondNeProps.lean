import Verif.Cond.CondNe
import Verif.Props.CondEqProps

/-!
# C100: asking whether conditions differ
-/

namespace Rocketry.Props
open Rocketry

/-- The condition is no comparable condition itself (it may contain some). -/
def NotComparable : Cond CompLeaf → Prop
  | .leaf (.comparable _ _) => False
  | _ => True

/-- C100, as far as it holds: for conditions other than comparable ones `c != d` is the negation of `c == d`, and asking
leaves all conditions as they are.  Missing: comparable conditions (`C100_differs_violated`, `C100_changes_violated`). -/
theorem C100_ne_partial (h : DHeap) (c d : Cond CompLeaf) (hc : NotComparable c) (measured : Nat → Int) (answer : Nat → Bool) :
    h.neTruth measured answer c d = (h.eq c d).map (fun b => !b) ∧ (h.ne c d).1 = h := by
  have key : h.ne c d = (h, (h.eq c d).map (fun b => .bool (!b))) := by
    cases c with
    | leaf l =>
      cases l with
      | comparable => exact absurd hc id
      | plain => rfl
    | _ => rfl
  unfold DHeap.neTruth
  rw [key]
  refine ⟨?_, rfl⟩
  cases h.eq c d <;> rfl

theorem dealings_refl (d : Dealings) : d.same d = true := by
  unfold Dealings.same
  simp

theorem leafEq_refl (h : DHeap) (l : CompLeaf) : h.leafEq l l = .ok true := by
  cases l <;> simp [DHeap.leafEq, dealings_refl]

/-- C100 is violated: a counting condition without comparisons equals itself, and `c != c` is true as well, whatever is
measured. -/
theorem C100_differs_violated (h : DHeap) (a i : Nat) (hi : h[i]? = some []) (measured : Nat → Int) (answer : Nat → Bool) :
    h.eq (.leaf (.comparable a i)) (.leaf (.comparable a i)) = .ok true ∧
    h.neTruth measured answer (.leaf (.comparable a i)) (.leaf (.comparable a i)) = .ok true := by
  refine ⟨by simp [DHeap.eq, Cond.eqE, leafEq_refl], ?_⟩
  simp [DHeap.neTruth, DHeap.ne, DHeap.truth, Cond.observe, List.getD, hi, Dealings.set, Dealings.state,
    Partner.holds]

/-- C100 is violated: asking whether a counting condition without comparisons differs from any condition makes it true
from then on, whatever is measured; before, it was false with nothing counted. -/
theorem C100_changes_violated (h : DHeap) (a i : Nat) (hi : h[i]? = some []) (d : Cond CompLeaf) (answer : Nat → Bool) :
    h.truth (fun _ => 0) answer (.leaf (.comparable a i)) = .ok false ∧
    ∀ measured, (h.ne (.leaf (.comparable a i)) d).1.truth measured answer (.leaf (.comparable a i)) = .ok true := by
  constructor
  · simp [DHeap.truth, Cond.observe, List.getD, hi, Dealings.state]
  · intro measured
    simp [DHeap.ne, DHeap.truth, Cond.observe, List.getD, hi, Dealings.set, Dealings.state, Partner.holds]

theorem set_all (d : Dealings) (k : Comp) (p : Comp × Partner → Bool) (hp : p (k, .condition) = true)
    (hn : ∀ v, (k, v) ∉ d) : (d.set k .condition).all p = d.all p := by
  induction d with
  | nil => simp [Dealings.set, hp]
  | cons x d ih =>
    obtain ⟨k', v'⟩ := x
    have hk : k' ≠ k := fun e => hn v' (by rw [e]; exact List.mem_cons_self ..)
    simp only [Dealings.set, if_neg hk, List.all_cons]
    rw [ih (fun v hv => hn v (List.mem_cons_of_mem _ hv))]

/-- C100, as far as it holds: a counting condition that has comparisons, none of them `!=`, answers as before after it was
asked whether it differs from another one.  Missing: those without comparisons, and those with `!=`, which lose it
(`C100_loses_violated`). -/
theorem C100_kept_partial (h : DHeap) (a i : Nat) (cs : Dealings) (hi : h[i]? = some cs) (hc : cs ≠ [])
    (hn : ∀ v, (Comp.ne, v) ∉ cs) (d : Cond CompLeaf) (measured : Nat → Int) (answer : Nat → Bool) :
    (h.ne (.leaf (.comparable a i)) d).1.truth measured answer (.leaf (.comparable a i)) =
      h.truth measured answer (.leaf (.comparable a i)) := by
  have h1 : (cs.set .ne .condition).isEmpty = false := by
    cases cs with
    | nil => exact absurd rfl hc
    | cons x cs =>
      obtain ⟨k, v⟩ := x
      simp only [Dealings.set]
      split <;> rfl
  have h2 : cs.isEmpty = false := by
    cases cs with
    | nil => exact absurd rfl hc
    | cons x cs => rfl
  have h3 := set_all cs .ne (fun p => p.2.holds p.1 (measured a)) rfl hn
  have h4 : (cs.set .ne .condition).state (measured a) = cs.state (measured a) := by
    simp only [Dealings.state, h1, h2, h3]
  simp [DHeap.ne, DHeap.truth, Cond.observe, List.getD, hi, h4]

/-- C100 is violated: `started != 3` forgets the number when it is asked whether it differs from another condition. -/
theorem C100_loses_violated (h : DHeap) (a i : Nat) (hi : h[i]? = some [(.ne, .num 3)]) (d : Cond CompLeaf) (answer : Nat → Bool) :
    h.truth (fun _ => 3) answer (.leaf (.comparable a i)) = .ok false ∧
    (h.ne (.leaf (.comparable a i)) d).1.truth (fun _ => 3) answer (.leaf (.comparable a i)) = .ok true := by
  constructor
  · simp [DHeap.truth, Cond.observe, List.getD, hi, Dealings.state, Partner.holds, Comp.holds]
  · simp [DHeap.ne, DHeap.truth, Cond.observe, List.getD, hi, Dealings.set, Dealings.state, Partner.holds]

/-! ## Cases -/

/-- "started" and "failed" without comparisons, "failed at least twice". -/
def someConds : DHeap := [[], [], [(.ge, .num 2)]]

/-- `started & x` differs from `failed & x`. -/
example : let c := Cond.and (.leaf (.comparable 0 0)) (.leaf (.plain 7))
    let d := Cond.and (.leaf (.comparable 1 1)) (.leaf (.plain 7))
    NotComparable c ∧ someConds.neTruth (fun _ => 0) (fun _ => true) c d = .ok true ∧
      someConds.neTruth (fun _ => 0) (fun _ => true) c c = .ok false := by
  exact ⟨trivial, rfl, rfl⟩

example : someConds[0]? = some [] ∧ someConds[2]? = some [(.ge, .num 2)] ∧ ∀ v, (Comp.ne, v) ∉ [(Comp.ge, Partner.num 2)] := by
  simp [someConds]

/-- The condition "started & x" changes with the one it contains. -/
example : let c := Cond.and (.leaf (.comparable 0 0)) (.leaf (.plain 7))
    someConds.truth (fun _ => 0) (fun _ => true) c = .ok false ∧
      (someConds.ne (.leaf (.comparable 0 0)) (.leaf (.comparable 1 1))).1.truth (fun _ => 0) (fun _ => true) c = .ok true :=
  ⟨rfl, rfl⟩

end Rocketry.Props
