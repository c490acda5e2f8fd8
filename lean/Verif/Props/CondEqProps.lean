import Verif.Cond.CondEq
import Verif.Task.Situation
import Verif.Props.CondProps
import Verif.Props.SameProps
import Verif.Props.DenoteProps

/-!
# C68: equality of conditions
-/

namespace Rocketry.Props
open Rocketry Rocketry.Cond

variable {L σ : Type}

theorem if_ok {a : Prop} [Decidable a] {x : Except PyErr Bool} (h : (if a then x else .ok false) = .ok true) : a ∧ x = .ok true := by
  by_cases ha : a
  · rw [if_pos ha] at h; exact ⟨ha, h⟩
  · rw [if_neg ha] at h; exact absurd h (by simp)

mutual
/-- C68: a condition equals itself, if its leaves do. -/
theorem C68_reflexive (le : L → L → Except PyErr Bool) (hle : ∀ l, le l l = .ok true) : ∀ c : Cond L, eqE le c c = .ok true
  | .leaf l => by simp only [eqE]; exact hle l
  | .alwaysTrue => rfl
  | .alwaysFalse => rfl
  | .any xs => by simp only [eqE, if_pos]; exact eqList_refl le hle xs
  | .all xs => by simp only [eqE, if_pos]; exact eqList_refl le hle xs
  | .not c => by simp only [eqE]; exact C68_reflexive le hle c
theorem eqList_refl (le : L → L → Except PyErr Bool) (hle : ∀ l, le l l = .ok true) : ∀ cs : List (Cond L), eqE.eqList le cs cs = .ok true
  | [] => rfl
  | c :: cs => by
    simp only [eqE.eqList, C68_reflexive le hle c]
    exact eqList_refl le hle cs
end

mutual
/-- C68: equal conditions are indistinguishable when observed: same answer, same exception, same effects, whatever the
leaves do, provided that equal leaves are indistinguishable. -/
theorem C68_observe (le : L → L → Except PyErr Bool) (f : L → Obs σ) (hle : ∀ a b, le a b = .ok true → f a = f b) :
    ∀ c d : Cond L, eqE le c d = .ok true → observe f c = observe f d
  | .leaf a, d, h => by
    cases d <;> simp [eqE] at h
    simp only [observe]; exact hle _ _ h
  | .alwaysTrue, d, h => by cases d <;> simp [eqE] at h; rfl
  | .alwaysFalse, d, h => by cases d <;> simp [eqE] at h; rfl
  | .any xs, d, h => by
    cases d <;> simp [eqE] at h
    rename_i ys
    simp only [observe]
    replace h := if_ok h
    exact (eqList_observe le f hle xs ys h.1 h.2).1
  | .all xs, d, h => by
    cases d <;> simp [eqE] at h
    rename_i ys
    simp only [observe]
    replace h := if_ok h
    exact (eqList_observe le f hle xs ys h.1 h.2).2
  | .not c, d, h => by
    cases d with
    | alwaysTrue => cases c <;> simp [eqE] at h; rfl
    | alwaysFalse => cases c <;> simp [eqE] at h; rfl
    | not d =>
      simp only [eqE] at h
      simp only [observe, C68_observe le f hle c d h]
    | leaf _ => simp [eqE] at h
    | any _ => simp [eqE] at h
    | all _ => simp [eqE] at h
theorem eqList_observe (le : L → L → Except PyErr Bool) (f : L → Obs σ) (hle : ∀ a b, le a b = .ok true → f a = f b) :
    ∀ xs ys : List (Cond L), xs.length = ys.length → eqE.eqList le xs ys = .ok true →
      observe.observeAny f xs = observe.observeAny f ys ∧ observe.observeAll f xs = observe.observeAll f ys
  | [], ys, hl, _ => by
    cases ys with
    | nil => exact ⟨rfl, rfl⟩
    | cons _ _ => simp at hl
  | x :: xs, ys, hl, h => by
    cases ys with
    | nil => simp at hl
    | cons y ys =>
      simp only [eqE.eqList] at h
      split at h
      · rename_i he
        have h1 := C68_observe le f hle x y he
        have h2 := eqList_observe le f hle xs ys (by simpa using hl) h
        simp only [observe.observeAny, observe.observeAll, h1, h2.1, h2.2, and_self]
      · rename_i hne
        exact absurd h hne
end

/-- No `Not` directly around a constant, at any depth. -/
def NoNotConst : Cond L → Prop
  | .any xs => ∀ x, x ∈ xs → NoNotConst x
  | .all xs => ∀ x, x ∈ xs → NoNotConst x
  | .not c => c ≠ .alwaysTrue ∧ c ≠ .alwaysFalse ∧ NoNotConst c
  | _ => True
termination_by c => sizeOf c
decreasing_by
  all_goals first
    | (have := List.sizeOf_lt_of_mem ‹_ ∈ _›
       simp only [Cond.any.sizeOf_spec, Cond.all.sizeOf_spec]
       omega)
    | (simp only [Cond.not.sizeOf_spec]; omega)

mutual
/-- C68: the order of the two sides does not matter.  Missing: conditions with `Not` around a constant
(`C68_symmetric_violated`). -/
theorem C68_symmetric_partial (le : L → L → Except PyErr Bool) (hle : ∀ a b, le a b = le b a) :
    ∀ c d : Cond L, NoNotConst c → NoNotConst d → eqE le c d = eqE le d c
  | .leaf a, d, _, hd => by
    cases d <;> simp only [eqE]
    exact hle _ _
  | .alwaysTrue, d, _, hd => by
    cases d <;> simp only [eqE]
    rename_i c
    cases c <;> simp_all [NoNotConst]
  | .alwaysFalse, d, _, hd => by
    cases d <;> simp only [eqE]
    rename_i c
    cases c <;> simp_all [NoNotConst]
  | .any xs, d, hc, hd => by
    cases d <;> simp only [eqE]
    rename_i ys
    simp only [NoNotConst] at hc hd
    by_cases hl : xs.length = ys.length
    · rw [if_pos hl, if_pos hl.symm]; exact eqList_symm le hle xs ys hl hc hd
    · rw [if_neg hl, if_neg (fun h => hl h.symm)]
  | .all xs, d, hc, hd => by
    cases d <;> simp only [eqE]
    rename_i ys
    simp only [NoNotConst] at hc hd
    by_cases hl : xs.length = ys.length
    · rw [if_pos hl, if_pos hl.symm]; exact eqList_symm le hle xs ys hl hc hd
    · rw [if_neg hl, if_neg (fun h => hl h.symm)]
  | .not c, d, hc, hd => by
    simp only [NoNotConst] at hc
    cases d with
    | alwaysTrue => cases c <;> simp_all [eqE]
    | alwaysFalse => cases c <;> simp_all [eqE]
    | not d =>
      simp only [NoNotConst] at hd
      simp only [eqE]
      exact C68_symmetric_partial le hle c d hc.2.2 hd.2.2
    | leaf _ => rfl
    | any _ => rfl
    | all _ => rfl
theorem eqList_symm (le : L → L → Except PyErr Bool) (hle : ∀ a b, le a b = le b a) :
    ∀ xs ys : List (Cond L), xs.length = ys.length → (∀ x, x ∈ xs → NoNotConst x) → (∀ y, y ∈ ys → NoNotConst y) →
      eqE.eqList le xs ys = eqE.eqList le ys xs
  | [], ys, hl, _, _ => by
    cases ys with
    | nil => rfl
    | cons _ _ => simp at hl
  | x :: xs, ys, hl, hx, hy => by
    cases ys with
    | nil => simp at hl
    | cons y ys =>
      simp only [eqE.eqList]
      rw [C68_symmetric_partial le hle x y (hx x (by simp)) (hy y (by simp)),
        eqList_symm le hle xs ys (by simpa using hl) (fun z hz => hx z (by simp [hz])) (fun z hz => hy z (by simp [hz]))]
end

mutual
/-- C68: conditions equal to the same condition are equal.  Missing: conditions with `Not` around a constant
(`C68_transitive_violated`). -/
theorem C68_transitive_partial (le : L → L → Except PyErr Bool) (hle : ∀ a b c, le a b = .ok true → le b c = .ok true → le a c = .ok true) :
    ∀ c d e : Cond L, NoNotConst c → NoNotConst d → eqE le c d = .ok true → eqE le d e = .ok true → eqE le c e = .ok true
  | .leaf a, d, e, _, _, h, h' => by
    cases d <;> simp [eqE] at h
    cases e <;> simp [eqE] at h'
    simp only [eqE]; exact hle _ _ _ h h'
  | .alwaysTrue, d, e, _, _, h, h' => by cases d <;> simp [eqE] at h; exact h'
  | .alwaysFalse, d, e, _, _, h, h' => by cases d <;> simp [eqE] at h; exact h'
  | .any xs, d, e, hc, hd, h, h' => by
    cases d <;> simp [eqE] at h
    cases e <;> simp [eqE] at h'
    rename_i ys zs
    simp only [NoNotConst] at hc hd
    simp only [eqE]
    replace h := if_ok h
    replace h' := if_ok h'
    rw [if_pos (h.1.trans h'.1)]
    exact eqList_trans le hle xs ys zs h.1 h'.1 hc hd h.2 h'.2
  | .all xs, d, e, hc, hd, h, h' => by
    cases d <;> simp [eqE] at h
    cases e <;> simp [eqE] at h'
    rename_i ys zs
    simp only [NoNotConst] at hc hd
    simp only [eqE]
    replace h := if_ok h
    replace h' := if_ok h'
    rw [if_pos (h.1.trans h'.1)]
    exact eqList_trans le hle xs ys zs h.1 h'.1 hc hd h.2 h'.2
  | .not c, d, e, hc, hd, h, h' => by
    simp only [NoNotConst] at hc
    cases d with
    | alwaysTrue => cases c <;> simp_all [eqE]
    | alwaysFalse => cases c <;> simp_all [eqE]
    | leaf _ => simp [eqE] at h
    | any _ => simp [eqE] at h
    | all _ => simp [eqE] at h
    | not d =>
      simp only [NoNotConst] at hd
      simp only [eqE] at h
      cases e with
      | alwaysTrue => cases d <;> simp_all [eqE]
      | alwaysFalse => cases d <;> simp_all [eqE]
      | leaf _ => simp [eqE] at h'
      | any _ => simp [eqE] at h'
      | all _ => simp [eqE] at h'
      | not e =>
        simp only [eqE] at h' ⊢
        exact C68_transitive_partial le hle c d e hc.2.2 hd.2.2 h h'
theorem eqList_trans (le : L → L → Except PyErr Bool) (hle : ∀ a b c, le a b = .ok true → le b c = .ok true → le a c = .ok true) :
    ∀ xs ys zs : List (Cond L), xs.length = ys.length → ys.length = zs.length → (∀ x, x ∈ xs → NoNotConst x) →
      (∀ y, y ∈ ys → NoNotConst y) → eqE.eqList le xs ys = .ok true → eqE.eqList le ys zs = .ok true →
      eqE.eqList le xs zs = .ok true
  | [], _, _, _, _, _, _, _, _ => by simp [eqE.eqList]
  | x :: xs, ys, zs, h1, h2, hx, hy, h, h' => by
    cases ys with
    | nil => simp at h1
    | cons y ys =>
      cases zs with
      | nil => simp at h2
      | cons z zs =>
        simp only [eqE.eqList] at h h' ⊢
        split at h
        · rename_i he
          split at h'
          · rename_i he'
            rw [C68_transitive_partial le hle x y z (hx x (by simp)) (hy y (by simp)) he he']
            exact eqList_trans le hle xs ys zs (by simpa using h1) (by simpa using h2) (fun w hw => hx w (by simp [hw]))
              (fun w hw => hy w (by simp [hw])) h h'
          · rename_i hne; exact absurd h' hne
        · rename_i hne; exact absurd h hne
end

/-- C68 is violated: `~false == true` holds, `true == ~false` does not. -/
theorem C68_symmetric_violated (le : L → L → Except PyErr Bool) :
    eqE le (invert .alwaysFalse) .alwaysTrue = .ok true ∧ eqE le .alwaysTrue (invert .alwaysFalse) = .ok false := ⟨rfl, rfl⟩

/-- C68 is violated: `Not(Not(false)) == Not(true)` and `Not(true) == false`, but not `Not(Not(false)) == false`. -/
theorem C68_transitive_violated (le : L → L → Except PyErr Bool) :
    eqE le (.not (.not .alwaysFalse)) (.not .alwaysTrue) = .ok true ∧ eqE le (.not .alwaysTrue) .alwaysFalse = .ok true ∧
    eqE le (.not (.not .alwaysFalse)) .alwaysFalse = .ok false := ⟨rfl, rfl, rfl⟩

/-! ### built-in conditions -/

/-- `Builtin.eqE` is reflexive and symmetric. -/
theorem C68_builtin_equivalence (a b : Builtin) : a.eqE a = .ok true ∧ a.eqE b = b.eqE a := by
  have hr := fun p => (C67_symmetric p p).1
  have hs := fun p q => (C67_symmetric p q).2
  constructor
  · cases a <;> simp [Builtin.eqE, hr]
    rename_i v t p c
    cases p <;> simp [optPeriodEq, hr]
  · cases a <;> cases b <;> simp only [Builtin.eqE]
    all_goals first
      | exact hs _ _
      | skip
    case status.status v t p c v' t' p' c' =>
      have : optPeriodEq p p' = optPeriodEq p' p := by
        cases p <;> cases p' <;> simp only [optPeriodEq]
        exact hs _ _
      rw [this]
      by_cases h : v = v' ∧ t = t'
      · rw [if_pos h, if_pos ⟨h.1.symm, h.2.symm⟩]
        split <;> simp only [eq_comm]
      · rw [if_neg h, if_neg (fun h' => h ⟨h'.1.symm, h'.2.symm⟩)]
    all_goals simp only [eq_comm]

/-- The attributes of a condition are as Python has them: the comparisons are a dictionary. -/
def Proper : Builtin → Prop
  | .status _ _ _ c => (c.map Prod.fst).Nodup
  | .cycles c => (c.map Prod.fst).Nodup
  | _ => True

/-- The period of a status condition is no collection and no `RelativeDay`. -/
def LonePeriod : Builtin → Prop
  | .status _ _ (some p) _ => Lone p ∧ NoRel p
  | _ => True

theorem compState_entries {c c' : Comps} (h : (c.map Prod.fst).Nodup) (h' : (c'.map Prod.fst).Nodup)
    (he : compEntries c = compEntries c') (n : Int) : compState c n = compState c' n := by
  have hm : ∀ p, p ∈ c ↔ p ∈ c' := fun p => by rw [← mem_entries h, ← mem_entries h', he]
  have hn : c.isEmpty = c'.isEmpty := by
    cases c with
    | nil =>
      cases c' with
      | nil => rfl
      | cons p _ => exact absurd ((hm p).2 (by simp)) (by simp)
    | cons p _ =>
      cases c' with
      | nil => exact absurd ((hm p).1 (by simp)) (by simp)
      | cons _ _ => rfl
  have ha : c.all (fun p => p.1.holds n p.2) = c'.all (fun p => p.1.holds n p.2) := by
    rw [Bool.eq_iff_iff, List.all_eq_true, List.all_eq_true]
    exact ⟨fun h p hp => h p ((hm p).2 hp), fun h p hp => h p ((hm p).1 hp)⟩
  simp only [compState, hn, ha]

theorem status_same {fuel : Nat} {fromLogs : Bool} {acts : Acts} {c c' : Comps} {p p' : Period} {now : Int} {name : String}
    {t : TaskMem} {repo : List Record} (hr : p.rollback fuel now = p'.rollback fuel now) (h : (c.map Prod.fst).Nodup)
    (h' : (c'.map Prod.fst).Nodup) (he : compEntries c = compEntries c') :
    statusCond fuel fromLogs acts c (some p) now name t repo = statusCond fuel fromLogs acts c' (some p') now name t repo := by
  have hc := compState_entries h h' he
  have ho : ∀ span, statusObserve fromLogs acts c span name t repo = statusObserve fromLogs acts c' span name t repo := by
    intro span
    have e1 : isEqualZero c = isEqualZero c' := by unfold isEqualZero; rw [he]
    have e2 : isAnyOverZero c = isAnyOverZero c' := by unfold isAnyOverZero; rw [he]
    simp only [statusObserve, e1, e2, hc]
  unfold statusCond Period.periodSpan
  simp only [hr, ho]

/-- C68: equal built-in conditions give the same answer in every situation.  Missing: periods of status conditions that
are collections or `RelativeDay`s (`C68_relative_day_violated`). -/
theorem C68_builtin_partial (v : Sit) (fuel : Nat) (a b : Builtin) (ha : Proper a) (hb : Proper b) (hl : LonePeriod a)
    (h : a.eqE b = .ok true) : v.leaf fuel a = v.leaf fuel b := by
  cases a <;> cases b <;> simp only [Builtin.eqE, Except.ok.injEq, decide_eq_true_eq, Bool.and_eq_true, reduceCtorEq] at h
  case wrapper.wrapper => subst h; rfl
  case executable.executable =>
    have := pyEq_same h
    simp only [Period.same, decide_eq_true_eq] at this
    subst this; rfl
  case executableFor.executableFor =>
    have := pyEq_same h
    simp only [Period.same, Period.mkDelta, decide_eq_true_eq, Bool.and_eq_true] at this
    simp only [Sit.leaf, Period.mkDelta, this.1]
  case isPeriod.isPeriod =>
    have := pyEq_same h
    simp only [Period.same, decide_eq_true_eq] at this
    subst this; rfl
  case status.status w t p c w' t' p' c' =>
    by_cases hw : w = w' ∧ t = t'
    · rw [if_pos hw] at h
      obtain ⟨rfl, rfl⟩ := hw
      have hstat : ∀ name, v.statusOf fuel w.acts c p name = v.statusOf fuel w.acts c' p' name ∧
          v.statusNone fuel p = v.statusNone fuel p' := by
        intro name
        cases p with
        | none =>
          cases p' with
          | none =>
            simp only [optPeriodEq, Except.ok.injEq, decide_eq_true_eq] at h
            refine ⟨?_, rfl⟩
            simp only [Sit.statusOf, bareStatus]
            split
            · rfl
            · exact status_same rfl ha hb h
          | some q => simp [optPeriodEq] at h
        | some p =>
          cases p' with
          | none => simp [optPeriodEq] at h
          | some q =>
            simp only [optPeriodEq] at h
            split at h
            · rename_i he
              simp only [Except.ok.injEq, decide_eq_true_eq] at h
              have hr := (C67_rolls_partial p q hl.1 hl.2 he fuel v.now).2
              refine ⟨status_same hr ha hb h, ?_⟩
              simp only [Sit.statusNone, Period.periodSpan, hr]
            · rename_i hne; exact absurd h hne
      simp only [Sit.leaf, Sit.status]
      cases t with
      | some t => simp only [Sit.lookup, (hstat (String.ofList t)).1]
      | none =>
        cases v.self with
        | some name => exact (hstat name).1
        | none => exact (hstat "").2
    · rw [if_neg hw] at h
      exact absurd h (by simp)
  case schedStarted.schedStarted =>
    have := pyEq_same h
    simp only [Period.same, Period.mkDelta, decide_eq_true_eq, Bool.and_eq_true] at this
    simp only [Sit.leaf, Period.mkDelta, this.1]
  case cycles.cycles =>
    simp only [Sit.leaf, Sched.cyclesState, compState_entries ha hb h]
  case cron.cron => subst h; rfl
  case running.running => subst h; rfl
  case depend.depend => obtain ⟨rfl, rfl⟩ := h; rfl
  case env.env => subst h; rfl
  case params.params => rfl
  case paramIs.paramIs => rfl

/-- C68: two conditions made of built-in ones with `&`, `|` and `~` that are equal give the same answer in every
situation. -/
theorem C68_situations_partial (v : Sit) (fuel : Nat) (c d : Cond {b : Builtin // Proper b ∧ LonePeriod b})
    (h : eqE (fun a b => a.1.eqE b.1) c d = .ok true) :
    observe (fun b => v.obs fuel b.1) c = observe (fun b => v.obs fuel b.1) d := by
  refine C68_observe _ _ (fun a b hab => ?_) c d h
  funext s
  simp only [Sit.obs, C68_builtin_partial v fuel a.1 b.1 a.2.1 b.2.1 a.2.2 hab]

/-- "failed today" twice, with comparisons given in another order, inside other conditions. -/
example : eqE Builtin.eqE
    (Cond.and (.leaf (.status .failed none (some (.anchored ⟨.day, 0, DAY⟩)) [(.gt, 1), (.lt, 4)])) (.not (.leaf (.env c!"test"))))
    (Cond.and (.leaf (.status .failed none (some (.anchored ⟨.day, 0, DAY⟩)) [(.lt, 4), (.gt, 1)])) (.not (.leaf (.env c!"test")))) =
      .ok true := by decide +kernel

example : Proper (.status .failed none (some (.anchored ⟨.day, 0, DAY⟩)) [(.gt, 1), (.lt, 4)]) ∧
    LonePeriod (.status .failed none (some (.anchored ⟨.day, 0, DAY⟩)) [(.gt, 1), (.lt, 4)]) := by
  simp [Proper, LonePeriod, Lone, NoRel]

/-- Equality does not see that the order of `&` is irrelevant. -/
example (a b : Builtin) (h : a.eqE b = .ok false) : eqE Builtin.eqE (Cond.and (.leaf a) (.leaf b)) (Cond.and (.leaf b) (.leaf a)) = .ok false := by
  simp only [Cond.and, mkAll, List.flatMap_cons, allParts, List.flatMap_nil, List.singleton_append, eqE,
    eqE.eqList, h, List.length_cons, List.length_nil, if_pos]

/-- C68 is violated: "failed today" and "failed yesterday" (with `RelativeDay`) are equal, although the answers differ. -/
theorem C68_relative_day_violated :
    (Builtin.status .failed none (some (.relday 0 0 (DAY - 1))) []).eqE
      (.status .failed none (some (.relday DAY 0 (DAY - 1))) []) = .ok true ∧
    newYear.leaf 9 (.status .failed none (some (.relday 0 0 (DAY - 1))) []) = .ok true ∧
    newYear.leaf 9 (.status .failed none (some (.relday DAY 0 (DAY - 1))) []) = .ok false := by
  refine ⟨?_, ?_, ?_⟩ <;> rfl

/-- C68 is violated: comparing "failed" over a `TimeDelta` with "failed" over a `TimeSpanDelta` raises. -/
theorem C68_span_violated (past future near : Int) (far : Option Int) (c c' : Comps) :
    (Builtin.status .failed none (some (.delta past future)) c).eqE (.status .failed none (some (.span near far)) c') =
      .error .attribute := by
  simp [Builtin.eqE, optPeriodEq, Period.pyEq]

end Rocketry.Props
