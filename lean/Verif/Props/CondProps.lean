import Verif.Spec.CondSpec
import Mathlib.Tactic.Tauto
import Mathlib.Tactic.SplitIfs
import Mathlib.Tactic.ByContra

/-! # Conditions: C21, C22, C23 -/

namespace Rocketry.Props
open Rocketry.Spec Rocketry.Cond

variable {L σ : Type}

/-- The condition object the operators build from an expression. -/
def build : CExpr L → Cond L
  | .leaf l => .leaf l
  | .tt => .alwaysTrue
  | .ff => .alwaysFalse
  | .and a b => Cond.and (build a) (build b)
  | .or a b => Cond.or (build a) (build b)
  | .not a => invert (build a)
  | .all es => mkAll (buildList es)
  | .any es => mkAny (buildList es)
where
  buildList : List (CExpr L) → List (Cond L)
    | [] => []
    | e :: es => build e :: buildList es

theorem observeAll_append (f : L → Obs σ) : ∀ xs ys : List (Cond L),
    observe.observeAll f (xs ++ ys) = thenAnd (observe.observeAll f xs) (observe.observeAll f ys)
  | [], ys => by funext s; simp [observe.observeAll, thenAnd]
  | x :: xs, ys => by
    have ih := observeAll_append f xs ys
    funext s
    simp only [List.cons_append, observe.observeAll, thenAnd, ih]
    rcases observe f x s with ⟨⟨⟩ | ⟨⟨⟩ | ⟨⟩⟩, s'⟩ <;> rfl

theorem observeAny_append (f : L → Obs σ) : ∀ xs ys : List (Cond L),
    observe.observeAny f (xs ++ ys) = thenOr (observe.observeAny f xs) (observe.observeAny f ys)
  | [], ys => by funext s; simp [observe.observeAny, thenOr]
  | x :: xs, ys => by
    have ih := observeAny_append f xs ys
    funext s
    simp only [List.cons_append, observe.observeAny, thenOr, ih]
    rcases observe f x s with ⟨⟨⟩ | ⟨⟨⟩ | ⟨⟩⟩, s'⟩ <;> rfl

theorem observeAll_single (f : L → Obs σ) (c : Cond L) : observe.observeAll f [c] = observe f c := by
  funext s
  simp only [observe.observeAll]
  rcases observe f c s with ⟨⟨⟩ | ⟨⟨⟩ | ⟨⟩⟩, s'⟩ <;> rfl

theorem observeAny_single (f : L → Obs σ) (c : Cond L) : observe.observeAny f [c] = observe f c := by
  funext s
  simp only [observe.observeAny]
  rcases observe f c s with ⟨⟨⟩ | ⟨⟨⟩ | ⟨⟩⟩, s'⟩ <;> rfl

theorem observe_allParts (f : L → Obs σ) (c : Cond L) : observe.observeAll f (allParts c) = observe f c := by
  cases c <;> first | exact observeAll_single f _ | rw [observe, allParts]

theorem observe_anyParts (f : L → Obs σ) (c : Cond L) : observe.observeAny f (anyParts c) = observe f c := by
  cases c <;> first | exact observeAny_single f _ | rw [observe, anyParts]

theorem observe_invert (f : L → Obs σ) (c : Cond L) : observe f (invert c) = negated (observe f c) := by
  have hnot : ∀ c : Cond L, observe f (.not c) = negated (observe f c) := by
    intro c
    funext s
    rw [observe]
    simp only [negated]
    rcases observe f c s with ⟨⟨⟩ | ⟨⟨⟩ | ⟨⟩⟩, s'⟩ <;> rfl
  cases c with
  | not c =>
    show observe f c = _
    rw [hnot]
    funext s
    simp only [negated]
    rcases observe f c s with ⟨⟨⟩ | ⟨⟨⟩ | ⟨⟩⟩, s'⟩ <;> rfl
  | _ => exact hnot _

mutual

/-- C21: observing a condition built with `&`, `|`, `~`, `All`, `Any` is short-circuit evaluation of the expression,
for leaves with any effects, answers and exceptions, in any state. -/
theorem C21_observe (f : L → Obs σ) : ∀ e : CExpr L, observe f (build e) = e.eval f
  | .leaf l => by rw [build, observe, CExpr.eval]
  | .tt => by rw [build, observe, CExpr.eval]
  | .ff => by rw [build, observe, CExpr.eval]
  | .and a b => by
    rw [build, CExpr.eval, ← C21_observe f a, ← C21_observe f b, Cond.and, mkAll, observe]
    simp only [List.flatMap_cons, List.flatMap_nil, List.append_nil]
    rw [observeAll_append, observe_allParts, observe_allParts]
  | .or a b => by
    rw [build, CExpr.eval, ← C21_observe f a, ← C21_observe f b, Cond.or, mkAny, observe]
    simp only [List.flatMap_cons, List.flatMap_nil, List.append_nil]
    rw [observeAny_append, observe_anyParts, observe_anyParts]
  | .not a => by rw [build, CExpr.eval, ← C21_observe f a, observe_invert]
  | .all es => by rw [build, CExpr.eval, mkAll, observe, observe_buildAll f es]
  | .any es => by rw [build, CExpr.eval, mkAny, observe, observe_buildAny f es]

theorem observe_buildAll (f : L → Obs σ) : ∀ es : List (CExpr L),
    observe.observeAll f ((build.buildList es).flatMap allParts) = CExpr.eval.evalAll f es
  | [] => by rw [build.buildList, CExpr.eval.evalAll]; rfl
  | e :: es => by
    rw [build.buildList, CExpr.eval.evalAll, List.flatMap_cons, observeAll_append, observe_allParts,
      C21_observe f e, observe_buildAll f es]

theorem observe_buildAny (f : L → Obs σ) : ∀ es : List (CExpr L),
    observe.observeAny f ((build.buildList es).flatMap anyParts) = CExpr.eval.evalAny f es
  | [] => by rw [build.buildList, CExpr.eval.evalAny]; rfl
  | e :: es => by
    rw [build.buildList, CExpr.eval.evalAny, List.flatMap_cons, observeAny_append, observe_anyParts,
      C21_observe f e, observe_buildAny f es]

end

mutual

theorem eval_truth (f : L → Obs σ) (v : L → Bool) (Inv : σ → Prop) :
    ∀ e : CExpr L, (∀ l ∈ e.leaves, ∀ s, Inv s → (f l s).1 = .ok (v l) ∧ Inv (f l s).2) →
      ∀ s, Inv s → ∃ b s', e.eval f s = (.ok b, s') ∧ Inv s' ∧ (b = true ↔ e.truth v)
  | .leaf l, h, s, hs => by
    obtain ⟨h1, h2⟩ := h l (by simp [CExpr.leaves]) s hs
    refine ⟨v l, (f l s).2, ?_, h2, by simp [CExpr.truth]⟩
    rw [CExpr.eval, ← h1]
  | .tt, _, s, hs => ⟨true, s, by rw [CExpr.eval], hs, by simp [CExpr.truth]⟩
  | .ff, _, s, hs => ⟨false, s, by rw [CExpr.eval], hs, by simp [CExpr.truth]⟩
  | .and a b, h, s, hs => by
    rw [CExpr.leaves] at h
    obtain ⟨x, s1, e1, i1, t1⟩ := eval_truth f v Inv a (fun l hl => h l (by simp [hl])) s hs
    obtain ⟨y, s2, e2, i2, t2⟩ := eval_truth f v Inv b (fun l hl => h l (by simp [hl])) s1 i1
    rw [CExpr.eval, CExpr.truth]
    simp only [thenAnd, e1]
    cases x with
    | true => exact ⟨y, s2, e2, i2, by rw [t2]; simp at t1; tauto⟩
    | false => exact ⟨false, s1, rfl, i1, by simp at t1; tauto⟩
  | .or a b, h, s, hs => by
    rw [CExpr.leaves] at h
    obtain ⟨x, s1, e1, i1, t1⟩ := eval_truth f v Inv a (fun l hl => h l (by simp [hl])) s hs
    obtain ⟨y, s2, e2, i2, t2⟩ := eval_truth f v Inv b (fun l hl => h l (by simp [hl])) s1 i1
    rw [CExpr.eval, CExpr.truth]
    simp only [thenOr, e1]
    cases x with
    | false => exact ⟨y, s2, e2, i2, by rw [t2]; simp at t1; tauto⟩
    | true => exact ⟨true, s1, rfl, i1, by simp at t1; tauto⟩
  | .not a, h, s, hs => by
    rw [CExpr.leaves] at h
    obtain ⟨x, s1, e1, i1, t1⟩ := eval_truth f v Inv a h s hs
    rw [CExpr.eval, CExpr.truth]
    refine ⟨!x, s1, by simp [negated, e1, Except.map], i1, ?_⟩
    rw [← t1]; cases x <;> simp
  | .all es, h, s, hs => by
    rw [CExpr.leaves] at h
    rw [CExpr.eval, CExpr.truth]
    exact eval_truthAll f v Inv es h s hs
  | .any es, h, s, hs => by
    rw [CExpr.leaves] at h
    rw [CExpr.eval, CExpr.truth]
    exact eval_truthAny f v Inv es h s hs

theorem eval_truthAll (f : L → Obs σ) (v : L → Bool) (Inv : σ → Prop) :
    ∀ es : List (CExpr L), (∀ l ∈ CExpr.leaves.leavesList es, ∀ s, Inv s → (f l s).1 = .ok (v l) ∧ Inv (f l s).2) →
      ∀ s, Inv s → ∃ b s', CExpr.eval.evalAll f es s = (.ok b, s') ∧ Inv s' ∧ (b = true ↔ CExpr.truth.truthAll v es)
  | [], _, s, hs => ⟨true, s, by rw [CExpr.eval.evalAll], hs, by simp [CExpr.truth.truthAll]⟩
  | e :: es, h, s, hs => by
    rw [CExpr.leaves.leavesList] at h
    obtain ⟨x, s1, e1, i1, t1⟩ := eval_truth f v Inv e (fun l hl => h l (by simp [hl])) s hs
    obtain ⟨y, s2, e2, i2, t2⟩ := eval_truthAll f v Inv es (fun l hl => h l (by simp [hl])) s1 i1
    rw [CExpr.eval.evalAll, CExpr.truth.truthAll]
    simp only [thenAnd, e1]
    cases x with
    | true => exact ⟨y, s2, e2, i2, by rw [t2]; simp at t1; tauto⟩
    | false => exact ⟨false, s1, rfl, i1, by simp at t1; tauto⟩

theorem eval_truthAny (f : L → Obs σ) (v : L → Bool) (Inv : σ → Prop) :
    ∀ es : List (CExpr L), (∀ l ∈ CExpr.leaves.leavesList es, ∀ s, Inv s → (f l s).1 = .ok (v l) ∧ Inv (f l s).2) →
      ∀ s, Inv s → ∃ b s', CExpr.eval.evalAny f es s = (.ok b, s') ∧ Inv s' ∧ (b = true ↔ CExpr.truth.truthAny v es)
  | [], _, s, hs => ⟨false, s, by rw [CExpr.eval.evalAny], hs, by simp [CExpr.truth.truthAny]⟩
  | e :: es, h, s, hs => by
    rw [CExpr.leaves.leavesList] at h
    obtain ⟨x, s1, e1, i1, t1⟩ := eval_truth f v Inv e (fun l hl => h l (by simp [hl])) s hs
    obtain ⟨y, s2, e2, i2, t2⟩ := eval_truthAny f v Inv es (fun l hl => h l (by simp [hl])) s1 i1
    rw [CExpr.eval.evalAny, CExpr.truth.truthAny]
    simp only [thenOr, e1]
    cases x with
    | false => exact ⟨y, s2, e2, i2, by rw [t2]; simp at t1; tauto⟩
    | true => exact ⟨true, s1, rfl, i1, by simp at t1; tauto⟩

end

/-- C21: when every leaf answers with a fixed truth value (leaving `Inv` intact, whatever else it does to the state),
the observation answers with the truth value of the expression. -/
theorem C21_truth (f : L → Obs σ) (v : L → Bool) (Inv : σ → Prop) (e : CExpr L)
    (h : ∀ l ∈ e.leaves, ∀ s, Inv s → (f l s).1 = .ok (v l) ∧ Inv (f l s).2) (s : σ) (hs : Inv s) :
    ∃ b, (observe f (build e) s).1 = .ok b ∧ (b = true ↔ e.truth v) := by
  obtain ⟨b, s', h1, -, h2⟩ := eval_truth f v Inv e h s hs
  exact ⟨b, by rw [C21_observe, h1], h2⟩

/-- C21: `~~c` is `c`, except that for `c = ~d` it is `~d` as well: applying `~` twice never changes the object that is
observed. -/
theorem C21_double_negation (c : Cond L) : invert (invert c) = c ∨ ∃ d, c = .not (.not d) ∧ invert (invert c) = d := by
  cases c with
  | not c =>
    cases c with
    | not d => exact Or.inr ⟨d, rfl, rfl⟩
    | _ => exact Or.inl rfl
  | _ => exact Or.inl rfl

/-- C21: conditions built by the operators contain no double negation, so for them `~~c` is exactly `c`. -/
theorem C21_double_negation_built (e : CExpr L) : invert (invert (build e)) = build e := by
  have hno : ∀ e : CExpr L, (∀ d, build e ≠ .not (.not d)) := by
    intro e
    induction e using CExpr.rec (motive_2 := fun _ => True) with
    | not a ih =>
      intro d hd
      rw [build] at hd
      cases hb : build a with
      | not c =>
        rw [hb] at hd
        simp only [invert] at hd
        subst hd
        exact ih _ hb
      | _ => rw [hb] at hd; simp [invert] at hd
    | nil => trivial
    | cons _ _ _ _ => trivial
    | _ => intro d hd; simp [build, Cond.and, Cond.or, mkAll, mkAny] at hd
  rcases C21_double_negation (build e) with h | ⟨d, h, -⟩
  · exact h
  · exact absurd h (hno e d)

/-- C21: the second operand of `&` is not evaluated when the first is false. -/
theorem C21_short_and (f : L → Obs σ) (a b : CExpr L) (s s' : σ) (h : observe f (build a) s = (.ok false, s')) :
    observe f (build (.and a b)) s = (.ok false, s') := by
  rw [C21_observe] at h ⊢
  rw [CExpr.eval, thenAnd, h]

/-- C21: the second operand of `|` is not evaluated when the first is true. -/
theorem C21_short_or (f : L → Obs σ) (a b : CExpr L) (s s' : σ) (h : observe f (build a) s = (.ok true, s')) :
    observe f (build (.or a b)) s = (.ok true, s') := by
  rw [C21_observe] at h ⊢
  rw [CExpr.eval, thenOr, h]

/-- Leaves that note their name in the state and answer `name is even`; leaf 9 raises. -/
def noting : Nat → Obs (List Nat) := fun l s => (if l = 9 then .error .runtime else .ok (l % 2 = 0), s ++ [l])

/-- `(2 & ~1) | (9 & 4)` -/
def sampleCond : CExpr Nat := .or (.and (.leaf 2) (.not (.leaf 1))) (.and (.leaf 9) (.leaf 4))

example : observe noting (build sampleCond) [] = (.ok true, [2, 1]) := by
  rw [C21_observe]; simp [sampleCond, CExpr.eval, thenOr, thenAnd, negated, noting, Except.map]

example : observe noting (build (.and (.leaf 1) sampleCond)) [] = (.ok false, [1]) :=
  C21_short_and noting _ _ [] [1] (by rw [C21_observe]; simp [CExpr.eval, noting])

example : ∀ l ∈ (CExpr.and (.leaf 2) (.leaf 3)).leaves, ∀ s : List Nat, True →
    (noting l s).1 = .ok (decide (l % 2 = 0)) ∧ True := by
  simp [CExpr.leaves, noting]

/-! ## comparisons -/

theorem rel_holds (k : Comp) (a b : Int) : k.holds a b = true ↔ Rel k a b := by
  cases k <;> simp [Comp.holds, Rel]

theorem mem_set {d : Comps} {k : Comp} {v : Int} (hd : (d.map Prod.fst).Nodup) (k' : Comp) (v' : Int) :
    (k', v') ∈ d.set k v ↔ (k' = k ∧ v' = v) ∨ (k' ≠ k ∧ (k', v') ∈ d) := by
  induction d with
  | nil => simp [Comps.set]
  | cons p d ih =>
    obtain ⟨a, b⟩ := p
    simp only [List.map_cons, List.nodup_cons] at hd
    rw [Comps.set]
    split_ifs with h
    · subst h
      simp only [List.mem_cons, Prod.mk.injEq]
      constructor
      · rintro (⟨rfl, rfl⟩ | h)
        · exact Or.inl ⟨rfl, rfl⟩
        · refine Or.inr ⟨?_, Or.inr h⟩
          rintro rfl
          exact hd.1 (List.mem_map.2 ⟨_, h, rfl⟩)
      · rintro (⟨rfl, rfl⟩ | ⟨h1, ⟨rfl, rfl⟩ | h2⟩)
        · exact Or.inl ⟨rfl, rfl⟩
        · exact absurd rfl h1
        · exact Or.inr h2
    · simp only [List.mem_cons, Prod.mk.injEq, ih hd.2]
      constructor
      · rintro (⟨rfl, rfl⟩ | h2 | ⟨h2, h3⟩)
        · exact Or.inr ⟨h, Or.inl ⟨rfl, rfl⟩⟩
        · exact Or.inl h2
        · exact Or.inr ⟨h2, Or.inr h3⟩
      · rintro (h2 | ⟨h2, h3 | h3⟩)
        · exact Or.inr (Or.inl h2)
        · exact Or.inl h3
        · exact Or.inr (Or.inr ⟨h2, h3⟩)

theorem set_keys {d : Comps} {k : Comp} {v : Int} (k' : Comp) :
    k' ∈ (d.set k v).map Prod.fst ↔ k' = k ∨ k' ∈ d.map Prod.fst := by
  induction d with
  | nil => simp [Comps.set]
  | cons p d ih =>
    obtain ⟨a, b⟩ := p
    rw [Comps.set]
    split_ifs with h
    · subst h; simp
    · simp only [List.map_cons, List.mem_cons, ih]; tauto

theorem set_nodup {d : Comps} {k : Comp} {v : Int} (hd : (d.map Prod.fst).Nodup) :
    ((d.set k v).map Prod.fst).Nodup := by
  induction d with
  | nil => simp [Comps.set]
  | cons p d ih =>
    obtain ⟨a, b⟩ := p
    simp only [List.map_cons, List.nodup_cons] at hd
    rw [Comps.set]
    split_ifs with h
    · subst h; simpa using hd
    · simp only [List.map_cons, List.nodup_cons, set_keys]
      refine ⟨?_, ih hd.2⟩
      rintro (rfl | h2)
      · exact h rfl
      · exact hd.1 h2

/-- The dictionary after a chain of comparisons on a fresh condition. -/
def chain (ops : List (Comp × Int)) : Comps := ops.foldl (fun d p => d.set p.1 p.2) []

theorem chain_snoc (ops : List (Comp × Int)) (p : Comp × Int) : chain (ops ++ [p]) = (chain ops).set p.1 p.2 := by
  simp [chain]

theorem list_snoc_induction {α : Type} {P : List α → Prop} (h0 : P []) (h1 : ∀ l a, P l → P (l ++ [a])) (l : List α) :
    P l := by
  have : ∀ r : List α, P r.reverse := by
    intro r
    induction r with
    | nil => exact h0
    | cons a r ih => rw [List.reverse_cons]; exact h1 _ _ ih
  have h := this l.reverse
  rwa [List.reverse_reverse] at h

theorem chain_spec (ops : List (Comp × Int)) :
    ((chain ops).map Prod.fst).Nodup ∧ ∀ k v, (k, v) ∈ chain ops ↔ lastBound ops k = some v := by
  induction ops using list_snoc_induction with
  | h0 => simp [chain, lastBound]
  | h1 ops p ih =>
    rw [chain_snoc]
    refine ⟨set_nodup ih.1, ?_⟩
    intro k v
    rw [mem_set ih.1, ih.2]
    unfold lastBound
    rw [List.reverse_append]
    simp only [List.reverse_cons, List.reverse_nil, List.nil_append, List.cons_append, List.find?_cons]
    by_cases hk : p.1 = k
    · subst hk
      simp only [decide_true, Option.map_some, Option.some.injEq]
      constructor
      · rintro (⟨-, rfl⟩ | ⟨h, -⟩)
        · rfl
        · exact absurd rfl h
      · intro h; exact Or.inl ⟨trivial, h.symm⟩
    · simp only [hk, decide_false]
      constructor
      · rintro (⟨h, -⟩ | ⟨-, h⟩)
        · exact absurd h.symm hk
        · exact h
      · intro h; exact Or.inr ⟨fun e => hk e.symm, h⟩

/-- C23: after any chain of comparisons on a fresh condition, the condition holds for a measured number exactly when
the number satisfies the bound given last for every operator used; without comparisons, when the number is positive. -/
theorem C23_compare (ops : List (Comp × Int)) (n : Int) :
    compState (chain ops) n = true ↔
      (ops = [] ∧ 0 < n) ∨ (ops ≠ [] ∧ ∀ k v, lastBound ops k = some v → Rel k n v) := by
  obtain ⟨-, hs⟩ := chain_spec ops
  have hemp : (chain ops).isEmpty = true ↔ ops = [] := by
    constructor
    · intro h
      rw [List.isEmpty_iff] at h
      by_contra hne
      obtain ⟨p, hp⟩ := List.exists_mem_of_ne_nil _ hne
      have : ∃ v, lastBound ops p.1 = some v := by
        unfold lastBound
        cases hf : ops.reverse.find? (fun q => decide (q.1 = p.1)) with
        | some q => exact ⟨q.2, rfl⟩
        | none =>
          have := List.find?_eq_none.1 hf p (by simpa using hp)
          simp at this
      obtain ⟨v, hv⟩ := this
      have := (hs p.1 v).2 hv
      rw [h] at this
      cases this
    · rintro rfl; rfl
  unfold compState
  by_cases h : ops = []
  · rw [if_pos (hemp.2 h)]; simp [h]
  · rw [if_neg (fun h' => h (hemp.1 h'))]
    simp only [List.all_eq_true, rel_holds, h, false_and, false_or, ne_eq, not_false_iff, true_and]
    constructor
    · intro h1 k v hv; exact h1 (k, v) ((hs k v).2 hv)
    · intro h1 p hp; exact h1 p.1 p.2 ((hs p.1 p.2).1 hp)

example : lastBound [(.ge, 2), (.lt, 5), (.ge, 3)] .ge = some 3 := by decide
example : compState (chain [(.ge, 2), (.lt, 5), (.ge, 3)]) 4 = true := by decide
example : compState (chain [(.ge, 2), (.lt, 5), (.ge, 3)]) 2 = false := by decide

theorem get_eq {d : Comps} (hd : (d.map Prod.fst).Nodup) (k : Comp) (v : Int) : d.get k = some v ↔ (k, v) ∈ d := by
  unfold Comps.get
  induction d with
  | nil => simp
  | cons p d ih =>
    obtain ⟨a, b⟩ := p
    simp only [List.map_cons, List.nodup_cons] at hd
    simp only [List.find?_cons, List.mem_cons, Prod.mk.injEq]
    by_cases h : a = k
    · subst h
      simp only [decide_true, Option.map_some, Option.some.injEq, true_and]
      constructor
      · intro h; exact Or.inl h.symm
      · rintro (h | h)
        · exact h.symm
        · exact absurd (List.mem_map.2 ⟨_, h, rfl⟩) hd.1
    · simp only [h, decide_false]
      rw [ih hd.2]
      constructor
      · exact Or.inr
      · rintro (⟨h', -⟩ | h')
        · exact absurd h'.symm h
        · exact h'

theorem mem_entries {d : Comps} (hd : (d.map Prod.fst).Nodup) (p : Comp × Int) : p ∈ compEntries d ↔ p ∈ d := by
  obtain ⟨k, v⟩ := p
  unfold compEntries
  simp only [List.mem_filterMap, Option.map_eq_some_iff, Prod.mk.injEq]
  constructor
  · rintro ⟨k', -, v', h, rfl, rfl⟩
    exact (get_eq hd _ _).1 h
  · intro h
    exact ⟨k, by cases k <;> decide, v, (get_eq hd _ _).2 h, rfl, rfl⟩

/-- C23: the test for "compared with nothing or with more than zero" is right: the condition then holds exactly for
positive numbers. -/
theorem C23_any_over_zero (ops : List (Comp × Int)) (h : isAnyOverZero (chain ops) = true) (n : Int) :
    compState (chain ops) n = true ↔ 0 < n := by
  have hd := (chain_spec ops).1
  have hm := fun p => mem_entries hd p
  unfold isAnyOverZero at h
  unfold compState
  split_ifs at h with hc
  · have hne : (chain ops).isEmpty = false := by
      cases hx : chain ops with
      | nil => rw [hx] at hc; simp [compEntries, Comps.get] at hc
      | cons p d => rfl
    rw [hne, if_neg (by simp)]
    simp only [List.all_eq_true, rel_holds, ← hm]
    rcases hc with hc | hc | hc <;> rw [hc] <;> simp [Rel] <;> omega
  · have : chain ops = [] := by
      rw [List.isEmpty_iff] at h
      cases hx : chain ops with
      | nil => rfl
      | cons p d =>
        have := (hm p).2 (by rw [hx]; simp)
        rw [h] at this; cases this
    rw [this]; simp

/-- C23: the test for "compared for equality with zero" is right. -/
theorem C23_equal_zero (ops : List (Comp × Int)) (h : isEqualZero (chain ops) = true) (n : Int) :
    compState (chain ops) n = true ↔ n = 0 := by
  have hd := (chain_spec ops).1
  have hm := fun p => mem_entries hd p
  simp only [isEqualZero, decide_eq_true_eq] at h
  unfold compState
  have hne : (chain ops).isEmpty = false := by
    cases hx : chain ops with
    | nil => rw [hx] at h; simp [compEntries, Comps.get] at h
    | cons p d => rfl
  rw [hne, if_neg (by simp)]
  simp only [List.all_eq_true, rel_holds, ← hm, h]
  simp [Rel]

example : isAnyOverZero (chain [(.gt, 0)]) = true := by decide
example : isAnyOverZero (chain []) = true := by decide
example : isEqualZero (chain [(.eq, 0)]) = true := by decide

/-! ## objects -/

/-- Running a program. -/
def runOps (ops : List CompOp) : CompHeap :=
  ops.foldl (fun h op => match op with
    | .new c => (h.new c).1
    | .cmp obj k v => (h.setComparison obj k v).1) ⟨[], []⟩

theorem runOps_snoc (ops : List CompOp) (op : CompOp) : runOps (ops ++ [op]) = match op with
    | .new c => ((runOps ops).new c).1
    | .cmp obj k v => ((runOps ops).setComparison obj k v).1 := by
  simp only [runOps, List.foldl_append, List.foldl_cons, List.foldl_nil]

theorem roots_snoc (ops : List CompOp) (op : CompOp) : roots (ops ++ [op]) = match op with
    | .new _ => roots ops ++ [(roots ops).length]
    | .cmp obj _ _ => match (roots ops)[obj]? with | none => roots ops | some x => roots ops ++ [x] := by
  simp only [roots, List.foldl_append, List.foldl_cons, List.foldl_nil]
  rfl

/-- Objects share a dictionary exactly when they were derived from the same created condition. -/
theorem heap_inv (ops : List CompOp) :
    (runOps ops).objs.length = (roots ops).length ∧
    (∀ (i d : Nat), (runOps ops).objs[i]? = some d → d < (runOps ops).dicts.length) ∧
    (∀ (i x : Nat), (roots ops)[i]? = some x → x < (roots ops).length) ∧
    ∀ (i j d e x y : Nat), (runOps ops).objs[i]? = some d → (runOps ops).objs[j]? = some e → (roots ops)[i]? = some x →
      (roots ops)[j]? = some y → (d = e ↔ x = y) := by
  induction ops using list_snoc_induction with
  | h0 => simp [runOps, roots]
  | h1 ops op ih =>
    obtain ⟨h1, h2, h3, h4⟩ := ih
    rw [runOps_snoc, roots_snoc]
    cases op with
    | new c =>
      simp only [CompHeap.new, List.length_append, List.length_cons, List.length_nil]
      refine ⟨by omega, ?_, ?_, ?_⟩
      · intro i d hd
        rw [List.getElem?_append] at hd
        split_ifs at hd with hi
        · have := h2 i d hd; omega
        · have : i - (runOps ops).objs.length = 0 := by
            by_contra hne
            rw [List.getElem?_eq_none (by simp; omega)] at hd
            cases hd
          rw [this] at hd
          simp at hd
          omega
      · intro i x hx
        rw [List.getElem?_append] at hx
        split_ifs at hx with hi
        · have := h3 i x hx; omega
        · have : i - (roots ops).length = 0 := by
            by_contra hne
            rw [List.getElem?_eq_none (by simp; omega)] at hx
            cases hx
          rw [this] at hx
          simp at hx
          omega
      · intro i j d e x y hd he hx hy
        rw [List.getElem?_append] at hd he hx hy
        by_cases hi : i < (runOps ops).objs.length <;> by_cases hj : j < (runOps ops).objs.length
        · rw [if_pos hi] at hd; rw [if_pos hj] at he; rw [if_pos (by omega)] at hx hy
          exact h4 i j d e x y hd he hx hy
        · rw [if_pos hi] at hd; rw [if_neg hj] at he; rw [if_pos (by omega)] at hx; rw [if_neg (by omega)] at hy
          have a := h2 i d hd
          have b := h3 i x hx
          have hj0 : j - (runOps ops).objs.length = 0 := by
            by_contra hne
            rw [List.getElem?_eq_none (by simp; omega)] at he
            cases he
          rw [hj0] at he
          rw [← h1, hj0] at hy
          simp at he hy
          omega
        · rw [if_neg hi] at hd; rw [if_pos hj] at he; rw [if_neg (by omega)] at hx; rw [if_pos (by omega)] at hy
          have a := h2 j e he
          have b := h3 j y hy
          have hj0 : i - (runOps ops).objs.length = 0 := by
            by_contra hne
            rw [List.getElem?_eq_none (by simp; omega)] at hd
            cases hd
          rw [hj0] at hd
          rw [← h1, hj0] at hx
          simp at hd hx
          omega
        · rw [if_neg hi] at hd; rw [if_neg hj] at he; rw [if_neg (by omega)] at hx hy
          have hi0 : i - (runOps ops).objs.length = 0 := by
            by_contra hne
            rw [List.getElem?_eq_none (by simp; omega)] at hd
            cases hd
          have hj0 : j - (runOps ops).objs.length = 0 := by
            by_contra hne
            rw [List.getElem?_eq_none (by simp; omega)] at he
            cases he
          rw [hi0] at hd; rw [hj0] at he
          rw [← h1, hi0] at hx; rw [← h1, hj0] at hy
          simp at hd he hx hy
          omega
    | cmp obj k v =>
      simp only [CompHeap.setComparison]
      cases ho : (runOps ops).objs[obj]? with
      | none =>
        have : (roots ops)[obj]? = none := by
          rw [List.getElem?_eq_none_iff] at ho ⊢; omega
        simp only [this]
        exact ⟨h1, h2, h3, h4⟩
      | some d0 =>
        have hlt : obj < (roots ops).length := by
          have := (List.getElem?_eq_some_iff.1 ho).1
          omega
        cases hr : (roots ops)[obj]? with
        | none => rw [List.getElem?_eq_none_iff] at hr; omega
        | some x0 =>
          simp only [List.length_append, List.length_cons, List.length_nil, List.length_modify]
          -- the new object behaves like `obj`
          have old : ∀ (i d : Nat), ((runOps ops).objs ++ [d0])[i]? = some d → ∃ i' : Nat, (runOps ops).objs[i']? = some d ∧
              ∀ x, (roots ops ++ [x0])[i]? = some x → (roots ops)[i']? = some x := by
            intro i d hd
            rw [List.getElem?_append] at hd
            by_cases hi : i < (runOps ops).objs.length
            · rw [if_pos hi] at hd
              refine ⟨i, hd, ?_⟩
              intro x hx
              rw [List.getElem?_append, if_pos (by omega)] at hx
              exact hx
            · rw [if_neg hi] at hd
              have hi0 : i - (runOps ops).objs.length = 0 := by
                by_contra hne
                rw [List.getElem?_eq_none (by simp; omega)] at hd
                cases hd
              rw [hi0] at hd
              simp at hd
              subst hd
              refine ⟨obj, ho, ?_⟩
              intro x hx
              rw [List.getElem?_append, if_neg (by omega), ← h1, hi0] at hx
              simp at hx
              rw [← hx]; exact hr
          refine ⟨by omega, ?_, ?_, ?_⟩
          · intro i d hd
            obtain ⟨i', h, -⟩ := old i d hd
            exact h2 i' d h
          · intro i x hx
            rw [List.getElem?_append] at hx
            split_ifs at hx with hi
            · have := h3 i x hx; omega
            · have : i - (roots ops).length = 0 := by
                by_contra hne
                rw [List.getElem?_eq_none (by simp; omega)] at hx
                cases hx
              rw [this] at hx
              simp at hx
              have := h3 obj x0 hr
              omega
          · intro i j d e x y hd he hx hy
            obtain ⟨i', hi, hi2⟩ := old i d hd
            obtain ⟨j', hj, hj2⟩ := old j e he
            exact h4 i' j' d e x y hi hj (hi2 x hx) (hj2 y hy)

/-- C22 does not hold as stated: `c >= 2` also changes `c`. -/
theorem C22_shared_violated :
    ¬ ∀ (ops : List CompOp) (obj : Nat) (k : Comp) (v : Int), obj < (roots ops).length →
      ((runOps ops).setComparison obj k v).1.comps obj = (runOps ops).comps obj := by
  intro h
  exact absurd (h [.new []] 0 .ge 2 (by decide)) (by decide)

/-- C22, what happens instead: after any program, a comparison applied to one condition is stored in every condition
derived from the same created condition, the original included. -/
theorem C22_family_violated (ops : List CompOp) (obj j x : Nat) (k : Comp) (v : Int)
    (hobj : (roots ops)[obj]? = some x) (hj : (roots ops)[j]? = some x) :
    ((runOps ops).setComparison obj k v).1.comps j = ((runOps ops).comps j).set k v := by
  obtain ⟨h1, h2, -, h4⟩ := heap_inv ops
  have lo := (List.getElem?_eq_some_iff.1 hobj).1
  have lj := (List.getElem?_eq_some_iff.1 hj).1
  obtain ⟨d, hd⟩ : ∃ d, (runOps ops).objs[obj]? = some d := ⟨_, List.getElem?_eq_getElem (by omega)⟩
  obtain ⟨e, he⟩ : ∃ e, (runOps ops).objs[j]? = some e := ⟨_, List.getElem?_eq_getElem (by omega)⟩
  have hde := (h4 obj j d e x x hd he hobj hj).2 rfl
  subst hde
  have hlt := h2 obj d hd
  simp only [CompHeap.setComparison, hd, CompHeap.comps]
  rw [List.getElem?_append, if_pos (by omega), he]
  simp [List.getElem?_modify, List.getElem?_eq_getElem hlt]

/-- C22, the part that holds: after any program, a comparison applied to a condition yields a condition with the old
comparisons and the new one, and leaves every condition not derived from the same created condition unchanged.
Missing: conditions derived from the same one (see `C22_family_violated`). -/
theorem C22_partial (ops : List CompOp) (obj x : Nat) (k : Comp) (v : Int) (hobj : (roots ops)[obj]? = some x) :
    ((runOps ops).setComparison obj k v).1.comps ((runOps ops).setComparison obj k v).2
        = ((runOps ops).comps obj).set k v ∧
      ∀ j y, (roots ops)[j]? = some y → y ≠ x →
        ((runOps ops).setComparison obj k v).1.comps j = (runOps ops).comps j := by
  obtain ⟨h1, h2, -, h4⟩ := heap_inv ops
  have lo := (List.getElem?_eq_some_iff.1 hobj).1
  obtain ⟨d, hd⟩ : ∃ d, (runOps ops).objs[obj]? = some d := ⟨_, List.getElem?_eq_getElem (by omega)⟩
  have hlt := h2 obj d hd
  constructor
  · simp only [CompHeap.setComparison, hd, CompHeap.comps]
    rw [List.getElem?_append, if_neg (by omega)]
    simp [List.getElem?_modify, List.getElem?_eq_getElem hlt]
  · intro j y hj hne
    have lj := (List.getElem?_eq_some_iff.1 hj).1
    obtain ⟨e, he⟩ : ∃ e, (runOps ops).objs[j]? = some e := ⟨_, List.getElem?_eq_getElem (by omega)⟩
    have hde : d ≠ e := by
      intro h
      exact hne ((h4 obj j d e x y hd he hobj hj).1 h).symm
    simp only [CompHeap.setComparison, hd, CompHeap.comps]
    rw [List.getElem?_append, if_pos (by omega), he]
    simp [List.getElem?_modify, hde]

/-- Two conditions; `a = c0 >= 1`, then `c0 < 5`: the three conditions of the family share both bounds, the other one has
none. -/
def sampleOps : List CompOp := [.new [], .new [], .cmp 0 .ge 1, .cmp 0 .lt 5]

example : roots sampleOps = [0, 1, 0, 0] := by decide
example : (runOps sampleOps).comps 2 = [(.ge, 1), (.lt, 5)] := by decide
example : (runOps sampleOps).comps 0 = [(.ge, 1), (.lt, 5)] := by decide
example : (runOps sampleOps).comps 1 = [] := by decide

end Rocketry.Props
