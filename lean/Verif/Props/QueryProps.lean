import Verif.Spec.QuerySpec
import Mathlib.Tactic.ByContra

/-!
# C56: log queries
-/

namespace Rocketry.Props
open Rocketry.Query Rocketry.Spec

variable {re : String → String → Bool} {i : Item}

theorem ok_dec {p q : Prop} [Decidable p] [Decidable q] (h : p ↔ q) :
    (Except.ok (decide p) : Except QErr Bool) = .ok (decide q) := by rw [decide_eq_decide.2 h]

/-! ### Conjunctions -/

/-- Two answers joined as `all` does. -/
def both (a b : Except QErr Bool) : Except QErr Bool := match a with
  | .error x => .error x
  | .ok false => .ok false
  | .ok true => b

theorem both_assoc (a b c : Except QErr Bool) : both (both a b) c = both a (both b c) := by
  rcases a with x | (_ | _) <;> rfl

theorem both_true (a : Except QErr Bool) : both a (.ok true) = a := by
  rcases a with x | (_ | _) <;> rfl

theorem allHold_cons (e : Expr) (l : List Expr) :
    Expr.holds.allHold re i (e :: l) = both (e.holds re i) (Expr.holds.allHold re i l) := by
  rw [Expr.holds.allHold]
  rcases e.holds re i with x | (_ | _) <;> rfl

theorem allHold_append (l m : List Expr) : Expr.holds.allHold re i (l ++ m)
    = both (Expr.holds.allHold re i l) (Expr.holds.allHold re i m) := by
  induction l with
  | nil => simp [Expr.holds.allHold, both]
  | cons e l ih => rw [List.cons_append, allHold_cons, ih, allHold_cons, both_assoc]

theorem allParts_holds (e : Expr) : Expr.holds.allHold re i (allParts e) = e.holds re i := by
  cases e with
  | all l => simp [allParts, Expr.holds]
  | _ => simp only [allParts]; rw [allHold_cons]; simp only [Expr.holds.allHold, both_true]

theorem and_holds (a b : Expr) : (Expr.and a b).holds re i = both (a.holds re i) (b.holds re i) := by
  rw [Expr.and, Expr.holds, allHold_append, allParts_holds, allParts_holds]

theorem conj_holds (l : List Expr) : (conj l).holds re i = Expr.holds.allHold re i l := by
  cases l with
  | nil => simp [conj, Expr.holds, Expr.holds.allHold]
  | cons e l =>
    rw [conj, allHold_cons]
    induction l generalizing e with
    | nil => simp [Expr.holds.allHold, both_true]
    | cons f l ih => rw [List.foldl_cons, ih, and_holds, allHold_cons, both_assoc]

/-- If every part has an answer, `all` answers with their conjunction. -/
theorem allHold_ok {α : Type} (l : List α) (g : α → Expr) (p : α → Prop) [DecidablePred p]
    (h : ∀ x ∈ l, (g x).holds re i = .ok (decide (p x))) :
    Expr.holds.allHold re i (l.map g) = .ok (decide (∀ x ∈ l, p x)) := by
  induction l with
  | nil => simp [Expr.holds.allHold]
  | cons x l ih =>
    rw [List.map_cons, allHold_cons, h x (by simp), ih fun y hy => h y (by simp [hy])]
    by_cases hx : p x <;> simp [both, hx]

theorem anyHolds_ok {α : Type} (l : List α) (g : α → Expr) (p : α → Prop) [DecidablePred p]
    (h : ∀ x ∈ l, (g x).holds re i = .ok (decide (p x))) :
    Expr.holds.anyHolds re i (l.map g) = .ok (decide (∃ x ∈ l, p x)) := by
  induction l with
  | nil => simp [Expr.holds.anyHolds]
  | cons x l ih =>
    rw [List.map_cons, Expr.holds.anyHolds, h x (by simp)]
    by_cases hx : p x
    · simp [hx]
    · simp [hx, ih fun y hy => h y (by simp [hy])]

/-! ### Comparisons -/

theorem ge_ok {v a : Val} (h : SameKind v a) [Decidable (AtMost a v)] :
    Op.eval .ge v a = .ok (decide (AtMost a v)) := by
  cases h with
  | num x y => simp only [Op.eval]; congr 1; exact decide_eq_decide.2 ⟨fun h => .num h, fun h => by cases h; assumption⟩
  | text x y => simp only [Op.eval]; congr 1; exact decide_eq_decide.2 ⟨fun h => .text h, fun h => by cases h; assumption⟩

theorem le_ok {v a : Val} (h : SameKind v a) [Decidable (AtMost v a)] :
    Op.eval .le v a = .ok (decide (AtMost v a)) := by
  cases h with
  | num x y => simp only [Op.eval]; congr 1; exact decide_eq_decide.2 ⟨fun h => .num h, fun h => by cases h; assumption⟩
  | text x y => simp only [Op.eval]; congr 1; exact decide_eq_decide.2 ⟨fun h => .text h, fun h => by cases h; assumption⟩

theorem cmp_ok {k : String} {v : Val} (h : Dict.find i k = some v) (op : Op) (w : Val) :
    (Expr.cmp op (.key k) (.val w)).holds re i = op.eval v w := by
  simp [Expr.holds, cmpMatch, Operand.get, h]

/-! ### Keyword filters -/

open Classical in
theorem kw_ok {k : String} {f : Filter} (h : FilterFits i k f) :
    (∀ e, kwStatement k f = some e → e.holds re i = .ok (decide (FilterSat i k f))) ∧
    (kwStatement k f = none → FilterSat i k f) := by
  obtain ⟨v, hv, hf⟩ := h
  have hs : FilterSat i k f ↔ FieldOk f v := by
    constructor
    · rintro ⟨w, hw, h⟩; rw [hv] at hw; cases hw; exact h
    · exact fun h => ⟨v, hv, h⟩
  have hd : decide (FilterSat i k f) = decide (FieldOk f v) := decide_eq_decide.2 hs
  constructor
  · intro e he
    rw [hd]
    cases f with
    | is w => cases he; rw [cmp_ok hv]; exact ok_dec Iff.rfl
    | oneOf l =>
      cases he
      rw [Expr.holds, anyHolds_ok l _ (fun w => v = w) fun w _ => by rw [cmp_ok hv, Op.eval]]
      exact ok_dec (by simp [FieldOk])
    | range lo hi =>
      rcases lo with _ | a <;> rcases hi with _ | b
      · cases he
      · cases he; rw [cmp_ok hv, le_ok (hf.2 b rfl)]; exact ok_dec (by simp [FieldOk])
      · cases he; rw [cmp_ok hv, ge_ok (hf.1 a rfl)]; exact ok_dec (by simp [FieldOk])
      · cases he
        rw [and_holds, cmp_ok hv, cmp_ok hv, ge_ok (hf.1 a rfl), le_ok (hf.2 b rfl)]
        by_cases h1 : AtMost a v <;> simp [both, FieldOk, h1]
  · intro he
    rw [hs]
    cases f with
    | is w => cases he
    | oneOf l => cases he
    | range lo hi => 
      rcases lo with _ | a <;> rcases hi with _ | b
      · simp [FieldOk]
      · cases he
      · cases he
      · cases he

open Classical in
/-- C56, keyword filters: a record whose fields can be compared with the filters matches exactly if it satisfies all of
them; a list means alternatives. -/
theorem C56_kwargs (kw : Dict Filter) (h : ∀ x ∈ kw, FilterFits i x.1 x.2) :
    (fromKwargs kw).holds re i = .ok (decide (∀ x ∈ kw, FilterSat i x.1 x.2)) := by
  rw [fromKwargs, conj_holds]
  induction kw with
  | nil => simp [Expr.holds.allHold]
  | cons x l ih =>
    have hx := kw_ok (re := re) (h x (by simp))
    have ih := ih fun y hy => h y (by simp [hy])
    rcases hk : kwStatement x.1 x.2 with _ | e
    · rw [List.filterMap_cons_none (f := fun x : String × Filter => kwStatement x.1 x.2) hk, ih]
      simp [hx.2 hk]
    · rw [List.filterMap_cons_some (f := fun x : String × Filter => kwStatement x.1 x.2) hk, allHold_cons, hx.1 e hk, ih]
      by_cases hs : FilterSat i x.1 x.2 <;> simp [both, hs]

/-- The hypotheses are met by a record with a number in a range and a text in a list. -/
example : ∀ x ∈ ([("created", .range (some (.num 3)) none), ("action", .oneOf [.text "run", .text "fail"])] : Dict Filter),
    FilterFits [("created", .num 5), ("action", .text "fail")] x.1 x.2 := by
  intro x hx
  rcases List.mem_cons.1 hx with rfl | hx
  · exact ⟨.num 5, rfl, by rintro a ⟨⟩; exact .num _ _, by rintro b ⟨⟩⟩
  · rcases List.mem_cons.1 hx with rfl | hx
    · exact ⟨.text "fail", rfl, trivial⟩
    · cases hx

/-! ### Pairs -/

theorem cut_plain {l : List Char} (h : '$' ∉ l) : cut l = [l] := by
  induction l with
  | nil => rfl
  | cons c l ih =>
    rw [cut, if_neg (by rintro rfl; simp at h), ih (by intro h'; exact h (by simp [h']))]

theorem cut_two {l m : List Char} (h : '$' ∉ l) (hm : '$' ∉ m) : cut (l ++ '$' :: m) = [l, m] := by
  induction l with
  | nil => rw [List.nil_append, cut, if_pos rfl, cut_plain hm]
  | cons c l ih =>
    rw [List.cons_append, cut, if_neg (by rintro rfl; simp at h), ih (by intro h'; exact h (by simp [h']))]

/-- The expression of a question. -/
def asked (f : String) (v : Val) : Ask → Expr
  | .same => .cmp .eq (.key f) (.val v)
  | .min => .cmp .ge (.key f) (.val v)
  | .max => .cmp .le (.key f) (.val v)
  | .differs => .cmp .ne (.key f) (.val v)
  | .regex => .regex f v

theorem operation_reads {k f : String} {a : Ask} (h : Reads k f a) (v : Val) : operation k v = .ok (asked f v a) := by
  have two : ∀ o : String, ∀ m, o.toList = '$' :: m → '$' ∉ m → '$' ∉ f.toList →
      (cut (f ++ o).toList).map String.ofList = [f, String.ofList m] := by
    intro o m ho hm hf
    rw [String.toList_append, ho, cut_two hf hm]
    simp
  cases h with
  | same hf => rw [operation, cut_plain hf]; rfl
  | min hf => rw [operation, two "$min" ['m', 'i', 'n'] (by decide) (by decide) hf]; rfl
  | max hf => rw [operation, two "$max" ['m', 'a', 'x'] (by decide) (by decide) hf]; rfl
  | differs hf => rw [operation, two "$not" ['n', 'o', 't'] (by decide) (by decide) hf]; rfl
  | regex hf => rw [operation, two "$regex" ['r', 'e', 'g', 'e', 'x'] (by decide) (by decide) hf]; rfl

theorem asked_inj {f g : String} {v : Val} {a b : Ask} (h : asked f v a = asked g v b) : f = g ∧ a = b := by
  cases a <;> cases b <;> simp [asked] at h <;> exact ⟨h, rfl⟩

theorem reads_unique {k f g : String} {a b : Ask} (h : Reads k f a) (h' : Reads k g b) : f = g ∧ a = b :=
  asked_inj (Except.ok.inj ((operation_reads h (.num 0)).symm.trans (operation_reads h' (.num 0))))

open Classical in
theorem operation_ok {k : String} {v : Val} (h : PairFits i k v) :
    ∃ o, operation k v = .ok o ∧ o.holds re i = .ok (decide (PairSat re i k v)) := by
  obtain ⟨f, a, w, hr, hw, ha⟩ := h
  refine ⟨_, operation_reads hr v, ?_⟩
  have hs : PairSat re i k v ↔ Meets re v w a := by
    constructor
    · rintro ⟨g, b, u, hg, hu, hm⟩
      obtain ⟨rfl, rfl⟩ := reads_unique hr hg
      rw [hw] at hu; cases hu; exact hm
    · exact fun h => ⟨f, a, w, hr, hw, h⟩
  rw [show decide (PairSat re i k v) = decide (Meets re v w a) from decide_eq_decide.2 hs]
  cases a with
  | same => rw [asked, cmp_ok hw]; exact ok_dec Iff.rfl
  | min => rw [asked, cmp_ok hw, ge_ok ha]; exact ok_dec Iff.rfl
  | max => rw [asked, cmp_ok hw, le_ok ha]; exact ok_dec Iff.rfl
  | differs => rw [asked, cmp_ok hw]; exact ok_dec Iff.rfl
  | regex =>
    obtain ⟨p, s, rfl, rfl⟩ := ha
    simp [asked, Expr.holds, regexMatch, hw, Meets]

open Classical in
theorem operations_ok {l : List (String × Val)} (h : ∀ x ∈ l, PairFits i x.1 x.2) :
    ∃ g : String × Val → Expr, operations l = .ok (l.map fun x => (x.1, g x)) ∧
      ∀ x ∈ l, (g x).holds re i = .ok (decide (PairSat re i x.1 x.2)) := by
  refine ⟨fun x => if hx : PairFits i x.1 x.2 then (operation_ok (re := re) hx).choose else .bool true, ?_, ?_⟩
  · induction l with
    | nil => rfl
    | cons x l ih =>
      have hx := h x (by simp)
      obtain ⟨k, v⟩ := x
      rw [operations, (operation_ok (re := re) hx).choose_spec.1, ih fun y hy => h y (by simp [hy])]
      simp [hx]
  · intro x hx
    have hx := h x hx
    simp only [hx, dite_true]
    exact (operation_ok (re := re) hx).choose_spec.2

open Classical in
/-- C56, filters given as a dictionary: exactly the records that satisfy all of them match. -/
theorem C56_dict (d : Dict Val) (h : ∀ x ∈ d, PairFits i x.1 x.2) :
    ∃ e, fromDict d = .ok e ∧ e.holds re i = .ok (decide (∀ x ∈ d, PairSat re i x.1 x.2)) := by
  obtain ⟨g, hg, hh⟩ := operations_ok (re := re) h
  refine ⟨_, by rw [fromDict, hg], ?_⟩
  rw [conj_holds, List.map_map]
  exact allHold_ok d _ (fun x => PairSat re i x.1 x.2) hh

/-- The hypotheses are met. -/
example : ∀ x ∈ ([("created$min", .num 3), ("action$not", .text "run")] : Dict Val),
    PairFits [("created", .num 5), ("action", .text "fail")] x.1 x.2 := by
  intro x hx
  rcases List.mem_cons.1 hx with rfl | hx
  · exact ⟨"created", .min, .num 5, Reads.min (f := "created") (by decide), rfl, .num _ _⟩
  · rcases List.mem_cons.1 hx with rfl | hx
    · exact ⟨"action", .differs, .text "fail", Reads.differs (f := "action") (by decide), rfl, trivial⟩
    · cases hx

/-- How often a key occurs. -/
def times (l : List (String × Val)) (k : String) : Nat := (l.map (·.1)).count k

theorem keyCount_map (l : List (String × Val)) (g : String × Val → Expr) (k : String) :
    keyCount (l.map fun x => (x.1, g x)) k = times l k := by
  rw [keyCount, times, List.countP_map, List.count, List.countP_map]
  congr 1

theorem times_one {l : List (String × Val)} {k : String} (h : ¬ times l k > 1) {v w : Val} (hv : (k, v) ∈ l)
    (hw : (k, w) ∈ l) : v = w := by
  induction l with
  | nil => cases hv
  | cons x l ih =>
    simp only [times, List.map_cons, List.count_cons] at h ih
    have pos : ∀ u, (k, u) ∈ l → 0 < (l.map (·.1)).count k :=
      fun u hu => List.count_pos_iff.2 (List.mem_map.2 ⟨_, hu, rfl⟩)
    rcases List.mem_cons.1 hv with rfl | hv' <;> rcases List.mem_cons.1 hw with hw' | hw'
    · exact (Prod.mk.inj hw').2.symm
    · have := pos w hw'; rw [if_pos (by simp)] at h; omega
    · subst hw'; have := pos v hv'; rw [if_pos (by simp)] at h; omega
    · exact ih (by omega) hv' hw'

open Classical in
/-- C56, filters given as pairs, at most one key of which is repeated: exactly the records match that satisfy, for each
key, one of its pairs.  Missing: several repeated keys, see `C56_tuples_violated`. -/
theorem C56_tuples_partial (l : List (String × Val)) (h : ∀ x ∈ l, PairFits i x.1 x.2)
    (hone : ∀ j k, 1 < (l.map (·.1)).count j → 1 < (l.map (·.1)).count k → j = k) :
    ∃ e, fromTuples l = .ok e ∧
      e.holds re i = .ok (decide (∀ k ∈ l.map (·.1), ∃ v, (k, v) ∈ l ∧ PairSat re i k v)) := by
  obtain ⟨g, hg, hh⟩ := operations_ok (re := re) h
  refine ⟨_, by rw [fromTuples, hg], ?_⟩
  simp only [keyCount_map, List.filter_map, List.map_map, List.isEmpty_map]
  rw [conj_holds, allHold_append]
  have hc : ((fun x : String × Expr => x.2) ∘ fun x : String × Val => (x.1, g x)) = g := rfl
  rw [hc]
  generalize hs : l.filter ((fun x : String × Expr => !decide (times l x.1 > 1)) ∘ fun x => (x.1, g x)) = s
  generalize hm : l.filter ((fun x : String × Expr => decide (times l x.1 > 1)) ∘ fun x => (x.1, g x)) = m
  have ms : ∀ x, x ∈ s ↔ x ∈ l ∧ ¬ times l x.1 > 1 := by intro x; simp [← hs, List.mem_filter]
  have mm : ∀ x, x ∈ m ↔ x ∈ l ∧ times l x.1 > 1 := by intro x; simp [← hm, List.mem_filter]
  rw [allHold_ok s _ (fun x => PairSat re i x.1 x.2) fun x hx => hh x ((ms x).1 hx).1]
  have hmulti : Expr.holds.allHold re i (if m.isEmpty then [] else [.any (m.map g)])
      = .ok (decide (m = [] ∨ ∃ x ∈ m, PairSat re i x.1 x.2)) := by
    by_cases he : m = []
    · simp [he, Expr.holds.allHold]
    · rw [if_neg (by simpa using he), allHold_cons, Expr.holds,
        anyHolds_ok m _ (fun x => PairSat re i x.1 x.2) fun x hx => hh x ((mm x).1 hx).1]
      simp [Expr.holds.allHold, both_true, he]
  rw [hmulti]
  have key : (∀ k ∈ l.map (·.1), ∃ v, (k, v) ∈ l ∧ PairSat re i k v) ↔
      (∀ x ∈ s, PairSat re i x.1 x.2) ∧ (m = [] ∨ ∃ x ∈ m, PairSat re i x.1 x.2) := by
    constructor
    · intro hk
      constructor
      · intro x hx
        obtain ⟨hxl, hx1⟩ := (ms x).1 hx
        obtain ⟨v, hv, hp⟩ := hk x.1 (List.mem_map.2 ⟨x, hxl, rfl⟩)
        have := times_one hx1 hv (show (x.1, x.2) ∈ l from hxl)
        rwa [this] at hp
      · rcases hme : m with _ | ⟨y, r⟩
        · exact .inl rfl
        · right
          have hy := (mm y).1 (by rw [hme]; simp)
          obtain ⟨v, hv, hp⟩ := hk y.1 (List.mem_map.2 ⟨y, hy.1, rfl⟩)
          have : (y.1, v) ∈ m := (mm _).2 ⟨hv, hy.2⟩
          exact ⟨_, hme ▸ this, hp⟩
    · rintro ⟨h1, h2⟩ k hk
      obtain ⟨x, hx, rfl⟩ := List.mem_map.1 hk
      by_cases ht : times l x.1 > 1
      · have hxm := (mm x).2 ⟨hx, ht⟩
        rcases h2 with h2 | ⟨y, hy, hp⟩
        · rw [h2] at hxm; cases hxm
        · obtain ⟨hyl, hyt⟩ := (mm y).1 hy
          rw [hone _ _ ht hyt]
          exact ⟨y.2, hyl, hp⟩
      · exact ⟨x.2, hx, h1 x ((ms x).2 ⟨hx, ht⟩)⟩
  have hkey : ∀ (d : Decidable (∀ k ∈ l.map (·.1), ∃ v, (k, v) ∈ l ∧ PairSat re i k v)),
      (Except.ok (@decide _ d) : Except QErr Bool) = .ok (decide ((∀ x ∈ s, PairSat re i x.1 x.2) ∧
        (m = [] ∨ ∃ x ∈ m, PairSat re i x.1 x.2))) := fun d => @ok_dec _ _ d _ key
  rw [hkey]
  by_cases h1 : ∀ x ∈ s, PairSat re i x.1 x.2
  · rw [decide_eq_true h1]
    exact ok_dec ⟨fun h => ⟨h1, h⟩, fun h => h.2⟩
  · rw [decide_eq_false h1]
    exact congrArg Except.ok (decide_eq_false fun h => h1 h.1).symm

/-- The hypothesis on the keys is met with a key that is repeated. -/
example : ∀ j k, 1 < ((([("a", .num 1), ("a", .num 2), ("b", .num 1)] : List (String × Val))).map (·.1)).count j →
    1 < ((([("a", .num 1), ("a", .num 2), ("b", .num 1)] : List (String × Val))).map (·.1)).count k → j = k := by
  have : ∀ j, 1 < (["a", "a", "b"] : List String).count j → j = "a" := by
    intro j hj
    by_contra hne
    by_cases hb : j = "b"
    · subst hb; revert hj; decide
    · rw [List.count_eq_zero_of_not_mem (by simp [hne, hb])] at hj; omega
  intro j k hj hk
  rw [this j hj, this k hk]

/-- C56 fails for pairs with two repeated keys: a record with `a = 1` and `b = 9` matches `a` in 1, 2 and `b` in 1, 2. -/
theorem C56_tuples_violated : ∃ (l : List (String × Val)) (i : Item) (e : Expr), (∀ x ∈ l, PairFits i x.1 x.2) ∧
    fromTuples l = .ok e ∧ (∀ re, e.holds re i = .ok true) ∧
    ∃ k ∈ l.map (·.1), ∀ re v, (k, v) ∈ l → ¬ PairSat re i k v := by
  have ra : Reads "a" "a" .same := .same (by decide)
  have rb : Reads "b" "b" .same := .same (by decide)
  refine ⟨[("a", .num 1), ("a", .num 2), ("b", .num 1), ("b", .num 2)], [("a", .num 1), ("b", .num 9)],
    .any [.cmp .eq (.key "a") (.val (.num 1)), .cmp .eq (.key "a") (.val (.num 2)),
      .cmp .eq (.key "b") (.val (.num 1)), .cmp .eq (.key "b") (.val (.num 2))], ?_, rfl, fun _ => rfl, "b", by decide, ?_⟩
  · intro x hx
    simp only [List.mem_cons, List.not_mem_nil, or_false] at hx
    rcases hx with rfl | rfl | rfl | rfl
    · exact ⟨"a", .same, .num 1, ra, rfl, trivial⟩
    · exact ⟨"a", .same, .num 1, ra, rfl, trivial⟩
    · exact ⟨"b", .same, .num 9, rb, rfl, trivial⟩
    · exact ⟨"b", .same, .num 9, rb, rfl, trivial⟩
  · rintro re v hv ⟨f, a, w, hr, hw, hm⟩
    obtain ⟨rfl, rfl⟩ := reads_unique rb hr
    cases hw
    subst hm
    revert hv
    decide

/-! ### Selecting records -/

/-- C56: filtering returns exactly the matching records, in their order. -/
theorem C56_filter (e : Expr) (log : List Item) (P : Item → Prop) [DecidablePred P]
    (h : ∀ i ∈ log, e.holds re i = .ok (decide (P i))) : e.filter re log = .ok (log.filter fun i => decide (P i)) := by
  induction log with
  | nil => rfl
  | cons i log ih =>
    rw [Expr.filter, h i (by simp), ih fun j hj => h j (by simp [hj])]
    by_cases hp : P i <;> simp [hp]

open Classical in
/-- C56, both steps together for keyword filters. -/
theorem C56_select (kw : Dict Filter) (log : List Item) (h : ∀ i ∈ log, ∀ x ∈ kw, FilterFits i x.1 x.2) :
    (fromKwargs kw).filter re log = .ok (log.filter fun i => decide (∀ x ∈ kw, FilterSat i x.1 x.2)) :=
  C56_filter _ _ _ fun i hi => (C56_kwargs kw (h i hi)).trans (ok_dec Iff.rfl)

/-! ### Keys that are not understood -/

theorem cut_ne_nil (l : List Char) : cut l ≠ [] := by
  cases l with
  | nil => simp [cut]
  | cons c l =>
    rw [cut]
    split
    · simp
    · split <;> simp

theorem cut_one {l w : List Char} (h : cut l = [w]) : '$' ∉ l := by
  induction l generalizing w with
  | nil => simp
  | cons c l ih =>
    rw [cut] at h
    by_cases hc : c = '$'
    · rw [if_pos hc] at h
      simp at h
      exact absurd h.2 (cut_ne_nil l)
    · rw [if_neg hc] at h
      rcases hl : cut l with _ | ⟨u, r⟩
      · exact absurd hl (cut_ne_nil l)
      · rw [hl] at h
        simp at h
        have := ih (w := u) (by rw [hl, h.2])
        simp [Ne.symm hc, this]

theorem cut_pair {l w m : List Char} (h : cut l = [w, m]) : l = w ++ '$' :: m ∧ '$' ∉ w := by
  induction l generalizing w with
  | nil => simp [cut] at h
  | cons c l ih =>
    rw [cut] at h
    by_cases hc : c = '$'
    · rw [if_pos hc] at h
      simp at h
      have hm := cut_one h.2
      rw [cut_plain hm] at h
      simp at h
      rw [h.1, hc, h.2]
      simp
    · rw [if_neg hc] at h
      rcases hl : cut l with _ | ⟨u, r⟩
      · rw [hl] at h; simp at h
      · rw [hl] at h
        simp at h
        obtain ⟨h1, h2⟩ := ih (w := u) (by rw [hl, h.2])
        rw [← h.1, h1]
        exact ⟨rfl, by simp [Ne.symm hc, h2]⟩

/-- Only keys of the five forms are understood. -/
theorem reads_of_operation {k : String} {v : Val} {e : Expr} (h : operation k v = .ok e) : ∃ f a, Reads k f a := by
  unfold operation at h
  rcases hk : (cut k.toList) with _ | ⟨w, _ | ⟨m, _ | ⟨x, r⟩⟩⟩
  · rw [hk] at h; simp at h
  · exact ⟨k, .same, .same (cut_one hk)⟩
  · rw [hk] at h
    obtain ⟨h1, h2⟩ := cut_pair hk
    have hkw : ∀ o : String, String.ofList m = o → k = String.ofList w ++ ("$" ++ o) := by
      intro o ho
      apply String.toList_injective
      rw [h1, ← ho]
      simp
    have hw : '$' ∉ (String.ofList w).toList := by simpa using h2
    simp only [List.map_cons, List.map_nil] at h
    by_cases h3 : String.ofList m = "min"
    · exact ⟨String.ofList w, .min, by rw [hkw _ h3]; exact Reads.min hw⟩
    rw [if_neg h3] at h
    by_cases h4 : String.ofList m = "max"
    · exact ⟨String.ofList w, .max, by rw [hkw _ h4]; exact Reads.max hw⟩
    rw [if_neg h4] at h
    by_cases h5 : String.ofList m = "not"
    · exact ⟨String.ofList w, .differs, by rw [hkw _ h5]; exact Reads.differs hw⟩
    rw [if_neg h5] at h
    by_cases h6 : String.ofList m = "regex"
    · exact ⟨String.ofList w, .regex, by rw [hkw _ h6]; exact Reads.regex hw⟩
    rw [if_neg h6] at h
    simp at h
  · rw [hk] at h; simp at h

theorem operations_reads {l : List (String × Val)} {r : List (String × Expr)} (h : operations l = .ok r) :
    ∀ x ∈ l, ∃ f a, Reads x.1 f a := by
  induction l generalizing r with
  | nil => simp
  | cons x l ih =>
    obtain ⟨k, v⟩ := x
    rw [operations] at h
    rcases ho : operation k v with e | o
    · rw [ho] at h; simp at h
    · rw [ho] at h
      rcases hl : operations l with e | r'
      · rw [hl] at h; simp at h
      · intro x hx
        rcases List.mem_cons.1 hx with rfl | hx
        · exact reads_of_operation ho
        · exact ih hl x hx

/-- C56.  A query with a key that is none of `field`, `field$min`, `field$max`, `field$not` and `field$regex` is refused,
whatever the other keys are. -/
theorem C56_refused (l : List (String × Val)) (h : ∃ x ∈ l, ¬ ∃ f a, Reads x.1 f a) :
    (∀ e, fromDict l ≠ .ok e) ∧ ∀ e, fromTuples l ≠ .ok e := by
  obtain ⟨x, hx, hn⟩ := h
  have : ∀ r, operations l ≠ .ok r := fun r hr => hn (operations_reads hr x hx)
  constructor
  · intro e he
    rw [fromDict] at he
    rcases hl : operations l with y | r
    · rw [hl] at he; simp at he
    · exact this r hl
  · intro e he
    rw [fromTuples] at he
    rcases hl : operations l with y | r
    · rw [hl] at he; simp at he
    · exact this r hl

/-- Such a key: an unknown operator. -/
example : ¬ ∃ f a, Reads "created$above" f a := by
  rintro ⟨f, a, h⟩
  have := operation_reads h (.num 0)
  rw [show operation "created$above" (.num 0) = .error .key by rfl] at this
  simp at this

/-! ### The log of a task -/

theorem eval_ge_iff {v a : Val} : Op.eval .ge v a = .ok true ↔ AtMost a v := by
  classical
  constructor
  · intro h
    cases v <;> cases a <;> simp [Op.eval] at h
    · exact .num h
    · exact .text h
  · intro h
    have : SameKind v a := by cases h <;> constructor
    rw [ge_ok this]; simp [h]

theorem eval_le_iff {v a : Val} : Op.eval .le v a = .ok true ↔ AtMost v a := by
  classical
  constructor
  · intro h
    cases v <;> cases a <;> simp [Op.eval] at h
    · exact .num h
    · exact .text h
  · intro h
    have : SameKind v a := by cases h <;> constructor
    rw [le_ok this]; simp [h]

theorem repoMatch_iff (kw : Dict Filter) : repoMatch kw i = true ↔ ∀ x ∈ kw, FilterSat i x.1 x.2 := by
  rw [repoMatch, List.all_eq_true]
  refine forall_congr' fun x => forall_congr' fun _ => ?_
  obtain ⟨k, f⟩ := x
  simp only [FilterSat]
  rcases hv : Dict.find i k with _ | v
  · simp
  · cases f with
    | is w => simp [FieldOk]
    | oneOf l => simp [FieldOk]
    | range lo hi => rcases lo with _ | a <;> rcases hi with _ | b <;> simp [FieldOk, eval_ge_iff, eval_le_iff]

theorem put_forall {kw : Dict Filter} {k : String} {f : Filter} (h : k ∉ Dict.keys kw) (P : String × Filter → Prop) :
    (∀ x ∈ Dict.put kw k f, P x) ↔ P (k, f) ∧ ∀ x ∈ kw, P x := by
  induction kw with
  | nil => simp [Dict.put]
  | cons y l ih =>
    obtain ⟨a, b⟩ := y
    have hne : a ≠ k := by rintro rfl; simp [Dict.keys] at h
    have hl : k ∉ Dict.keys l := by intro h'; exact h (by simp [Dict.keys] at h' ⊢; exact .inr h')
    simp only [Dict.put, hne, if_false, List.forall_mem_cons, ih hl]
    exact and_left_comm

open Classical in
/-- C56, the log of a task: exactly the records of the task that satisfy all filters, in the order of the log.
Missing: a filter on the field `task_name` itself, see `C56_own_name_violated`; and the repository is not part of the
project, what is taken for granted about it is said at `repoMatch`. -/
theorem C56_records_partial (t : String) (kw : Dict Filter) (log : List Item) (h : "task_name" ∉ Dict.keys kw) :
    getRecords (some t) kw log = log.filter fun i =>
      decide (Dict.find i "task_name" = some (.text t) ∧ ∀ x ∈ kw, FilterSat i x.1 x.2) := by
  rw [getRecords]
  refine List.filter_congr fun i _ => ?_
  rw [Bool.eq_iff_iff, repoMatch_iff, decide_eq_true_iff, adapterKwargs, put_forall h]
  simp [FilterSat, FieldOk]

example : "task_name" ∉ Dict.keys ([("action", .is (.text "run"))] : Dict Filter) := by decide

/-- C56 fails for a filter on the field `task_name`: it is overwritten, so records that do not satisfy it are returned. -/
theorem C56_own_name_violated : ∃ (t : String) (kw : Dict Filter) (log : List Item) (i : Item),
    i ∈ getRecords (some t) kw log ∧ ¬ ∀ x ∈ kw, FilterSat i x.1 x.2 := by
  refine ⟨"a", [("task_name", .is (.text "b"))], [[("task_name", .text "a")]], [("task_name", .text "a")], by decide, ?_⟩
  intro h
  obtain ⟨v, hv, hf⟩ := h _ (List.mem_cons_self ..)
  cases hv
  exact absurd hf (by simp [FieldOk])

open Classical in
/-- C56, the latest record: the last record of the task, with the action if one is given. -/
theorem C56_latest (t : String) (a : Option String) (log : List Item) :
    getLatest (some t) a log = (log.filter fun i => decide (Dict.find i "task_name" = some (.text t) ∧
      ∀ b, a = some b → Dict.find i "action" = some (.text b))).getLast? := by
  simp only [getLatest]
  cases a with
  | none =>
    dsimp only
    rw [C56_records_partial _ _ _ (by decide)]
    simp
  | some b =>
    dsimp only
    rw [C56_records_partial _ _ _ (by simp [Dict.keys])]
    simp [FilterSat, FieldOk]

example : getLatest (some "a") (some "run") [[("task_name", .text "a"), ("action", .text "run")],
    [("task_name", .text "b"), ("action", .text "run")], [("task_name", .text "a"), ("action", .text "fail")]]
    = some [("task_name", .text "a"), ("action", .text "run")] := by decide

end Rocketry.Props
