import Verif.Props.QueryProps
import Verif.Spec.QueryWrittenSpec

/-!
# C123: a query written with operators selects the records of which it says the truth
-/

namespace Rocketry.Props

open Rocketry.Query Rocketry.Spec

variable {re : String → String → Bool} {i : Item}

theorem text_le_iff (a b : String) : a ≤ b ↔ a < b ∨ a = b := by
  constructor
  · intro h
    by_cases hl : a < b
    · exact .inl hl
    · exact .inr (String.le_antisymm h (String.not_lt.mp hl))
  · rintro (h | rfl)
    · exact String.not_lt.mp (fun h' => String.lt_irrefl _ (String.lt_trans h h'))
    · exact String.le_refl _

open Classical in
theorem eval_compares {op : Op} {a b : Val} (h : CanCompare op a b) : op.eval a b = .ok (decide (ValCompares op a b)) := by
  cases op <;> cases a <;> cases b <;> simp [CanCompare, OneKind] at h <;>
    refine congrArg _ ((@decide_eq_decide _ _ _ _).mpr ?_) <;>
    simp [ValCompares, ValBefore, text_le_iff, eq_comm, Int.le_iff_lt_or_eq]

theorem compares_reflected {op : Op} {a b : Val} : ValCompares op.reflected a b ↔ ValCompares op b a := by
  cases op <;> simp [Op.reflected, ValCompares, eq_comm]

theorem oneKind_symm {a b : Val} (h : OneKind a b) : OneKind b a := by cases a <;> cases b <;> simp_all [OneKind]

theorem canCompare_reflected {op : Op} {a b : Val} (h : CanCompare op b a) : CanCompare op.reflected a b := by
  cases op <;> simp only [Op.reflected, CanCompare] at * <;> exact oneKind_symm h

theorem side_get {o : Operand} {a : Val} (h : SideIs i o a) : o.get i = .ok a := by
  cases o <;> simp_all [SideIs, Operand.get]

theorem side_unique {o : Operand} {a b : Val} (h : SideIs i o a) (h' : SideIs i o b) : a = b := by
  cases o <;> simp_all [SideIs]

/-- Two answers joined as `any` does. -/
def either (a b : Except QErr Bool) : Except QErr Bool := match a with
  | .error x => .error x
  | .ok true => .ok true
  | .ok false => b

theorem either_assoc (a b c : Except QErr Bool) : either (either a b) c = either a (either b c) := by
  rcases a with x | (_ | _) <;> rfl

theorem either_false (a : Except QErr Bool) : either a (.ok false) = a := by
  rcases a with x | (_ | _) <;> rfl

theorem anyHolds_cons (e : Expr) (l : List Expr) :
    Expr.holds.anyHolds re i (e :: l) = either (e.holds re i) (Expr.holds.anyHolds re i l) := by
  rw [Expr.holds.anyHolds]
  rcases e.holds re i with x | (_ | _) <;> rfl

theorem anyHolds_append (l m : List Expr) : Expr.holds.anyHolds re i (l ++ m)
    = either (Expr.holds.anyHolds re i l) (Expr.holds.anyHolds re i m) := by
  induction l with
  | nil => simp [Expr.holds.anyHolds, either]
  | cons e l ih => rw [List.cons_append, anyHolds_cons, ih, anyHolds_cons, either_assoc]

theorem orParts_holds (e : Expr) : Expr.holds.anyHolds re i (orParts e) = e.holds re i := by
  cases e with
  | any l => simp [orParts, Expr.holds]
  | _ => simp only [orParts]; rw [anyHolds_cons]; simp only [Expr.holds.anyHolds, either_false]

theorem or_holds (a b : Expr) : (Expr.or a b).holds re i = either (a.holds re i) (b.holds re i) := by
  rw [Expr.or, Expr.holds, anyHolds_append, orParts_holds, orParts_holds]

open Classical in
theorem cmp_says {op : Op} {l r : Operand} {a b : Val} (hl : SideIs i l a) (hr : SideIs i r b) (hc : CanCompare op a b) :
    cmpMatch i op l r = .ok (decide (ValCompares op a b)) := by
  rw [cmpMatch, side_get hl]
  simp only
  rw [side_get hr]
  exact eval_compares hc

open Classical in
/-- **C123.** A query written with `Key`, the comparisons, `&`, `|`, `~` and `Regex`, without comparisons of three, is true
of a record with the fields it needs exactly if the record is as it says. -/
theorem C123_says_partial (re : String → String → Bool) (i : Item) (q : QWritten) (hn : NoChain q) (hf : FitsQuery i q) :
    q.build.holds re i = .ok (decide (QuerySays re i q)) := by
  induction q with
  | field k op r =>
    obtain ⟨a, b, ha, hb, hc⟩ := hf
    rw [QWritten.build, Expr.holds, cmp_says ha hb hc]
    refine ok_dec ⟨fun h => ⟨a, b, ha, hb, h⟩, ?_⟩
    rintro ⟨a', b', ha', hb', h⟩
    rwa [side_unique ha ha', side_unique hb hb']
  | value v op k =>
    obtain ⟨a, ha, hc⟩ := hf
    rw [QWritten.build, Expr.holds, cmp_says (r := .val v) (b := v) ha (by simp [SideIs]) (canCompare_reflected hc)]
    refine ok_dec ⟨fun h => ⟨a, ha, compares_reflected.1 h⟩, ?_⟩
    rintro ⟨a', ha', h⟩
    rw [side_unique ha ha']
    exact compares_reflected.2 h
  | chain v op k op' v' => exact hn.elim
  | regex k p =>
    obtain ⟨s, t, hs, rfl⟩ := hf
    rw [QWritten.build, Expr.holds, regexMatch, hs]
    simp [QuerySays, hs]
  | and a b iha ihb =>
    rw [QWritten.build, and_holds, iha hn.1 hf.1, ihb hn.2 hf.2]
    by_cases h : QuerySays re i a <;> simp [both, QuerySays, h]
  | or a b iha ihb =>
    rw [QWritten.build, or_holds, iha hn.1 hf.1, ihb hn.2 hf.2]
    by_cases h : QuerySays re i a <;> simp [either, QuerySays, h]
  | not a iha =>
    rw [QWritten.build, Expr.holds, iha hn hf]
    by_cases h : QuerySays re i a <;> simp [QuerySays, h]

open Classical in
/-- **C123**, for a log: `filter` gives the records of which the query is true, in their order. -/
theorem C123_filter_partial (re : String → String → Bool) (q : QWritten) (hn : NoChain q) (log : List Item)
    (hf : ∀ i ∈ log, FitsQuery i q) : q.build.filter re log = .ok (log.filter fun i => decide (QuerySays re i q)) :=
  C56_filter _ _ _ fun i hi => C123_says_partial re i q hn (hf i hi)

/-- Brackets do not matter for `&` and for `|`, not even for records without the fields: answers and exceptions are the
same. -/
theorem C123_brackets (re : String → String → Bool) (i : Item) (a b c : Expr) :
    (Expr.and (Expr.and a b) c).holds re i = (Expr.and a (Expr.and b c)).holds re i
      ∧ (Expr.or (Expr.or a b) c).holds re i = (Expr.or a (Expr.or b c)).holds re i := by
  simp [and_holds, or_holds, both_assoc, either_assoc]

/-- Negation goes inwards, with the same answers and exceptions. -/
theorem C123_negation (re : String → String → Bool) (i : Item) (a b : Expr) :
    (Expr.not (Expr.and a b)).holds re i = (Expr.or (.not a) (.not b)).holds re i
      ∧ (Expr.not (Expr.or a b)).holds re i = (Expr.and (.not a) (.not b)).holds re i
      ∧ (Expr.not (.not a)).holds re i = a.holds re i := by
  refine ⟨?_, ?_, ?_⟩
  · rw [Expr.holds, and_holds, or_holds]
    simp only [Expr.holds]
    rcases a.holds re i with x | (_ | _) <;> rcases b.holds re i with y | (_ | _) <;> rfl
  · rw [Expr.holds, and_holds, or_holds]
    simp only [Expr.holds]
    rcases a.holds re i with x | (_ | _) <;> rcases b.holds re i with y | (_ | _) <;> rfl
  · simp only [Expr.holds]
    rcases a.holds re i with x | (_ | _) <;> rfl

/-- **C123 does not hold** for comparisons of three: of `low <= Key(k) <= high` only the upper bound is left, for all
bounds and fields; every record below the lower bound is selected too. -/
theorem C123_chain_violated (re : String → String → Bool) (i : Item) (k : String) (x low high : Int)
    (hx : Dict.find i k = some (.num x)) (hl : x < low) (hh : x ≤ high) :
    (QWritten.chain (.num low) .le k .le (.num high)).build.holds re i = .ok true
      ∧ FitsQuery i (.chain (.num low) .le k .le (.num high))
      ∧ ¬ QuerySays re i (.chain (.num low) .le k .le (.num high)) := by
  refine ⟨?_, ⟨_, hx, trivial, trivial⟩, ?_⟩
  · simp [QWritten.build, Expr.holds, cmpMatch, Operand.get, hx, Op.eval, hh]
  · rintro ⟨a, ha, h1, -⟩
    cases side_unique (o := .key k) ha hx
    simp [ValCompares, ValBefore] at h1
    omega

/-- For records without a field the order of `&` matters: where the first part is false the second is not asked, the other
way round the same query raises KeyError, and so ends the reading of the log. -/
theorem C123_order_violated (re : String → String → Bool) (i : Item) (k k' : String) (v v' w : Val) (hk : Dict.find i k = some w)
    (hv : w ≠ v) (hk' : Dict.find i k' = none) (log : List Item) :
    (QWritten.and (.field k .eq (.val v)) (.field k' .eq (.val v'))).build.holds re i = .ok false
      ∧ (QWritten.and (.field k' .eq (.val v')) (.field k .eq (.val v))).build.holds re i = .error .key
      ∧ (QWritten.and (.field k' .eq (.val v')) (.field k .eq (.val v))).build.filter re (i :: log) = .error .key := by
  have h1 : (QWritten.and (.field k' .eq (.val v')) (.field k .eq (.val v))).build.holds re i = .error .key := by
    simp [QWritten.build, and_holds, Expr.holds, cmpMatch, Operand.get, hk', both]
  refine ⟨?_, h1, ?_⟩
  · simp [QWritten.build, and_holds, Expr.holds, cmpMatch, Operand.get, hk, Op.eval, hv, both]
  · rw [Expr.filter, h1]

/-- `(3 <= Key("n")) & ~(Key("s") == "x")`. -/
def writtenQuery : QWritten := .and (.value (.num 3) .le "n") (.not (.field "s" .eq (.val (.text "x"))))

/-- A record with n = 5 and s = "y". -/
def writtenItem : Item := [("n", .num 5), ("s", .text "y")]

/-- Non-vacuity of `C123_says_partial` and `C123_filter_partial`. -/
example : NoChain writtenQuery ∧ FitsQuery writtenItem writtenQuery ∧ QuerySays (fun _ _ => false) writtenItem writtenQuery := by
  refine ⟨⟨trivial, trivial⟩, ⟨⟨.num 5, rfl, trivial⟩, ⟨.text "y", .text "x", rfl, rfl, trivial⟩⟩,
    ⟨⟨.num 5, rfl, .inl (by simp [ValBefore])⟩, ?_⟩⟩
  rintro ⟨a, b, ha, hb, h⟩
  cases side_unique (b := .text "y") ha rfl
  cases hb
  exact absurd h (by simp [ValCompares])

/-- Non-vacuity of `C123_chain_violated` and `C123_order_violated`. -/
example : (QWritten.chain (.num 1) .le "n" .le (.num 5)).build.holds (fun _ _ => false) [("n", .num 0)] = .ok true :=
  (C123_chain_violated _ _ "n" 0 1 5 (by decide) (by decide) (by decide)).1

example : (QWritten.and (.field "n" .eq (.val (.num 1))) (.field "m" .eq (.val (.num 1)))).build.holds (fun _ _ => false)
    [("n", .num 0)] = .ok false :=
  (C123_order_violated _ _ "n" "m" (.num 1) (.num 1) (.num 0) (by decide) (by decide) (by decide) []).1

end Rocketry.Props
