import Verif.Task.QueryKwargs
import Verif.Spec.QueryKwargsSpec
import Verif.Props.QueryProps
import Mathlib.Data.List.Nodup

namespace Rocketry.Props
open Rocketry Rocketry.Query Rocketry.Spec

/-! ### Helper lemmas -/

/-- A conjunction of questions. -/
theorem conj_questions (qs : List Question) (hp : ∀ q ∈ qs, q.ask = .same ∨ q.ask = .min ∨ q.ask = .max) :
    toKwargs (conj (qs.map Question.expr)) = kwargsLoop [] (qs.map Question.expr) := by
  have parts : ∀ q : Question, allParts q.expr = [q.expr] := by
    rintro ⟨f, a, v⟩; cases a <;> rfl
  have fold : ∀ (qs : List Question) (l : List Expr),
      (qs.map Question.expr).foldl Expr.and (.all l) = .all (l ++ qs.map Question.expr) := by
    intro qs
    induction qs with
    | nil => intro l; simp
    | cons q qs ih =>
      intro l
      rw [List.map_cons, List.foldl_cons, Expr.and, parts, allParts, ih, List.append_assoc]; rfl
  match qs, hp with
  | [], _ => rfl
  | [q], hp =>
    obtain ⟨f, a, v⟩ := q
    rcases hp _ (List.mem_singleton_self _) with h | h | h <;> (simp only at h; subst h; rfl)
  | q :: r :: qs, _ =>
    rw [List.map_cons, List.map_cons, conj, List.foldl_cons, Expr.and, parts, parts, fold]
    rfl

/-- What a new question may still ask of a field. -/
def Free (d : Dict Filter) (q : Question) : Prop := match Dict.find d q.field with
  | none => True
  | some (.range lo hi) => match q.ask with
    | .min => lo = none
    | .max => hi = none
    | _ => False
  | some _ => False

theorem step_question {d : Dict Filter} {q : Question} (hp : q.ask = .same ∨ q.ask = .min ∨ q.ask = .max) (hf : Free d q) :
    ∃ d', kwargsStep d q.expr = .ok d' ∧ (∀ i, KeywordsSat d' i ↔ KeywordsSat d i ∧ q.Sat i) ∧
      ∀ r : Question, (r.ask = .same ∨ r.ask = .min ∨ r.ask = .max) → Free d r → (q.field = r.field → q.ask ≠ r.ask ∧ q.ask ≠ .same ∧ r.ask ≠ .same) → Free d' r := by
  obtain ⟨k, a, v⟩ := q
  -- what replacing the filter of the field does
  have key : ∀ f : Filter, (∀ i, FilterSat i k f ↔ (∀ g, Dict.find d k = some g → FilterSat i k g) ∧ Question.Sat i ⟨k, a, v⟩) →
      ∀ i, KeywordsSat (d.put k f) i ↔ KeywordsSat d i ∧ Question.Sat i ⟨k, a, v⟩ := by
    intro f hf i
    constructor
    · intro h
      have h1 := (hf i).1 (h k f (by rw [Dict.find_put, if_pos rfl]))
      refine ⟨fun k' g hg => ?_, h1.2⟩
      by_cases hk : k = k'
      · subst hk; exact h1.1 g hg
      · exact h k' g (by rw [Dict.find_put, if_neg hk]; exact hg)
    · rintro ⟨h1, h2⟩ k' g hg
      rw [Dict.find_put] at hg
      by_cases hk : k = k'
      · subst hk
        rw [if_pos rfl] at hg
        cases hg
        exact (hf i).2 ⟨fun g hg => h1 k g hg, h2⟩
      · rw [if_neg hk] at hg; exact h1 k' g hg
  have other : ∀ (f : Filter) (r : Question), k ≠ r.field → Free d r → Free (d.put k f) r := by
    intro f r hk h
    unfold Free at h ⊢
    rw [Dict.find_put, if_neg hk]
    exact h
  unfold Free at hf
  simp only at hp hf
  rcases hfind : Dict.find d k with _ | g
  · rcases hp with h | h | h <;> subst h
    · refine ⟨d.put k (.is v), rfl, key _ fun i => ?_, fun r hpr hr hn => ?_⟩
      · simp [hfind, FilterSat, FieldOk, Question.Sat, Meets]
      · by_cases hk : k = r.field
        · exact absurd rfl (hn hk).2.1
        · exact other _ r hk hr
    · refine ⟨d.put k (.range (some v) none), by simp [Question.expr, kwargsStep, keyValue, pastBounds, hfind],
        key _ fun i => ?_, fun r hpr hr hn => ?_⟩
      · simp [hfind, FilterSat, FieldOk, Question.Sat, Meets]
      · by_cases hk : k = r.field
        · obtain ⟨n1, _, n3⟩ := hn hk
          unfold Free at hr ⊢
          subst hk
          rw [Dict.find_put, if_pos rfl]
          obtain ⟨k', a', v'⟩ := r
          cases a' <;> simp_all
        · exact other _ r hk hr
    · refine ⟨d.put k (.range none (some v)), by simp [Question.expr, kwargsStep, keyValue, pastBounds, hfind],
        key _ fun i => ?_, fun r hpr hr hn => ?_⟩
      · simp [hfind, FilterSat, FieldOk, Question.Sat, Meets]
      · by_cases hk : k = r.field
        · obtain ⟨n1, _, n3⟩ := hn hk
          unfold Free at hr ⊢
          subst hk
          rw [Dict.find_put, if_pos rfl]
          obtain ⟨k', a', v'⟩ := r
          cases a' <;> simp_all
        · exact other _ r hk hr
  · rw [hfind] at hf
    cases g with
    | is _ => exact hf.elim
    | oneOf _ => exact hf.elim
    | range lo hi =>
      rcases hp with h | h | h <;> subst h
      · exact hf.elim
      · simp only at hf
        subst hf
        refine ⟨d.put k (.range (some v) hi), by simp [Question.expr, kwargsStep, keyValue, pastBounds, hfind],
          key _ fun i => ?_, fun r hpr hr hn => ?_⟩
        · simp only [hfind, FilterSat, FieldOk, Question.Sat, Meets]
          constructor
          · rintro ⟨w, h1, h2, h3⟩
            exact ⟨fun g hg => by cases hg; exact ⟨w, h1, (fun a h => nomatch h), h3⟩, w, h1, h2 v rfl⟩
          · rintro ⟨h1, w, h2, h3⟩
            obtain ⟨w', e1, -, e3⟩ := h1 _ rfl
            rw [h2] at e1; cases e1
            exact ⟨w, h2, fun a ha => by cases ha; exact h3, e3⟩
        · by_cases hk : k = r.field
          · obtain ⟨n1, _, n3⟩ := hn hk
            unfold Free at hr ⊢
            subst hk
            rw [Dict.find_put, if_pos rfl]
            rw [hfind] at hr
            obtain ⟨k', a', v'⟩ := r
            cases a' <;> simp_all
          · exact other _ r hk hr
      · simp only at hf
        subst hf
        refine ⟨d.put k (.range lo (some v)), by simp [Question.expr, kwargsStep, keyValue, pastBounds, hfind],
          key _ fun i => ?_, fun r hpr hr hn => ?_⟩
        · simp only [hfind, FilterSat, FieldOk, Question.Sat, Meets]
          constructor
          · rintro ⟨w, h1, h2, h3⟩
            exact ⟨fun g hg => by cases hg; exact ⟨w, h1, h2, (fun a h => nomatch h)⟩, w, h1, h3 v rfl⟩
          · rintro ⟨h1, w, h2, h3⟩
            obtain ⟨w', e1, e2, -⟩ := h1 _ rfl
            rw [h2] at e1; cases e1
            exact ⟨w, h2, e2, fun a ha => by cases ha; exact h3⟩
        · by_cases hk : k = r.field
          · obtain ⟨n1, _, n3⟩ := hn hk
            unfold Free at hr ⊢
            subst hk
            rw [Dict.find_put, if_pos rfl]
            rw [hfind] at hr
            obtain ⟨k', a', v'⟩ := r
            cases a' <;> simp_all
          · exact other _ r hk hr

theorem loop_questions {qs : List Question} (hp : ∀ q ∈ qs, q.ask = .same ∨ q.ask = .min ∨ q.ask = .max)
    (ho : qs.Pairwise fun q r => q.field = r.field → q.ask ≠ r.ask ∧ q.ask ≠ .same ∧ r.ask ≠ .same) :
    ∀ d, (∀ q ∈ qs, Free d q) → ∃ d', kwargsLoop d (qs.map Question.expr) = .ok d' ∧
      ∀ i, KeywordsSat d' i ↔ KeywordsSat d i ∧ ∀ q ∈ qs, q.Sat i := by
  induction qs with
  | nil => intro d _; exact ⟨d, rfl, fun i => by simp⟩
  | cons q qs ih =>
    intro d hf
    rw [List.pairwise_cons] at ho
    obtain ⟨d1, h1, h2, h3⟩ := step_question (hp q (List.mem_cons_self ..)) (hf q (List.mem_cons_self ..))
    obtain ⟨d2, h4, h5⟩ := ih (fun r hr => hp r (List.mem_cons_of_mem _ hr)) ho.2 d1
      (fun r hr => h3 r (hp r (List.mem_cons_of_mem _ hr)) (hf r (List.mem_cons_of_mem _ hr)) (ho.1 r hr))
    refine ⟨d2, ?_, fun i => ?_⟩
    · rw [List.map_cons, kwargsLoop, h1]; exact h4
    · rw [h5, h2, List.forall_mem_cons, and_assoc]

theorem question_holds (re : String → String → Bool) (i : Item) {q : Question}
    (hp : q.ask = .same ∨ q.ask = .min ∨ q.ask = .max) : q.expr.holds re i = .ok true ↔ q.Sat i := by
  obtain ⟨k, a, v⟩ := q
  have cmp : ∀ op : Op, (Expr.cmp op (.key k) (.val v)).holds re i = .ok true ↔
      ∃ w, Dict.find i k = some w ∧ op.eval w v = .ok true := by
    intro op
    rw [Expr.holds, cmpMatch]
    rcases hf : Dict.find i k with _ | w
    · simp [Operand.get, hf]
    · simp [Operand.get, hf]
  rcases hp with h | h | h <;> (simp only at h; subst h)
  · simp only [Question.expr, cmp, Question.Sat, Meets]
    simp [Op.eval]
  · simp only [Question.expr, cmp, Question.Sat, Meets, eval_ge_iff]
  · simp only [Question.expr, cmp, Question.Sat, Meets, eval_le_iff]

theorem allHold_iff (re : String → String → Bool) (i : Item) (l : List Expr) :
    Expr.holds.allHold re i l = .ok true ↔ ∀ e ∈ l, e.holds re i = .ok true := by
  induction l with
  | nil => simp [Expr.holds.allHold]
  | cons e l ih =>
    rw [allHold_cons, List.forall_mem_cons, ← ih]
    rcases e.holds re i with x | (_ | _) <;> simp [both]

/-! ### C98 -/

/-- C98, meaning: if a query asks each field for one value, or for at most one lower and at most one upper bound, in whatever
order, then it has a keyword form, and the keywords select exactly the records that the query selects. Missing: fields asked
twice, and comparisons with the key on the right. -/
theorem C98_same_records_partial (qs : List Question) (h : OncePerField qs) :
    ∃ kw, toKwargs (conj (qs.map Question.expr)) = .ok kw ∧
      ∀ (re : String → String → Bool) (i : Item), (conj (qs.map Question.expr)).holds re i = .ok true ↔ KeywordsSat kw i := by
  rw [conj_questions qs h.plain]
  obtain ⟨d, h1, h2⟩ := loop_questions h.plain h.once [] (fun q _ => trivial)
  refine ⟨d, h1, fun re i => ?_⟩
  rw [h2, conj_holds, allHold_iff, List.forall_mem_map]
  constructor
  · intro hq
    exact ⟨fun k f hk => (nomatch hk), fun q hm => (question_holds re i (h.plain q hm)).1 (hq q hm)⟩
  · rintro ⟨-, hq⟩ q hm
    exact (question_holds re i (h.plain q hm)).2 (hq q hm)

example : OncePerField [⟨"created", .max, .num 20⟩, ⟨"action", .same, .text "fail"⟩, ⟨"created", .min, .num 10⟩] ∧
    toKwargs (conj ([⟨"created", .max, .num 20⟩, ⟨"action", .same, .text "fail"⟩, ⟨"created", .min, .num 10⟩].map Question.expr))
      = .ok [("created", .range (some (.num 10)) (some (.num 20))), ("action", .is (.text "fail"))] := by
  refine ⟨⟨by decide, by decide⟩, by decide +kernel⟩

/-- The questions of keywords. -/
def filterQuestions (k : String) : Filter → List Question
  | .is v => [⟨k, .same, v⟩]
  | .range lo hi => (lo.map fun v => (⟨k, .min, v⟩ : Question)).toList ++ (hi.map fun v => (⟨k, .max, v⟩ : Question)).toList
  | .oneOf _ => []

theorem fromKwargs_questions (kw : Dict Filter) (h : ∀ x ∈ kw, PlainFilter x.2) :
    fromKwargs kw = conj ((kw.flatMap fun x => filterQuestions x.1 x.2).map Question.expr) := by
  have parts : ∀ q : Question, allParts q.expr = [q.expr] := by
    rintro ⟨f, a, v⟩; cases a <;> rfl
  -- the parts of the statement of a keyword
  have one : ∀ (k : String) (f : Filter), PlainFilter f → ∃ e, kwStatement k f = some e ∧
      allParts e = (filterQuestions k f).map Question.expr ∧ conj (allParts e) = e := by
    intro k f hf
    cases f with
    | is v => exact ⟨_, rfl, rfl, rfl⟩
    | oneOf l => exact hf.elim
    | range lo hi =>
      rcases lo with _ | a <;> rcases hi with _ | b
      · rcases hf with hf | hf <;> exact absurd rfl hf
      · exact ⟨_, rfl, rfl, rfl⟩
      · exact ⟨_, rfl, rfl, rfl⟩
      · exact ⟨_, rfl, rfl, rfl⟩
  have flat : ∀ (es : List Expr) (l : List Expr),
      es.foldl Expr.and (.all l) = .all (l ++ es.flatMap allParts) := by
    intro es
    induction es with
    | nil => intro l; simp
    | cons e es ih => intro l; rw [List.foldl_cons, Expr.and, allParts, ih, List.append_assoc]; rfl
  have conjAll : ∀ (qs : List Question) (x y : Question), conj ((x :: y :: qs).map Question.expr) = .all ((x :: y :: qs).map Question.expr) := by
    intro qs x y
    rw [List.map_cons, List.map_cons, conj, List.foldl_cons, Expr.and, parts, parts, flat]
    have : ((qs.map Question.expr).flatMap allParts) = qs.map Question.expr := by
      induction qs with
      | nil => rfl
      | cons q qs ih => rw [List.map_cons, List.flatMap_cons, parts, ih]; rfl
    rw [this]; rfl
  have stmts : ∀ kw : Dict Filter, (∀ x ∈ kw, PlainFilter x.2) →
      (kw.filterMap fun x => kwStatement x.1 x.2).flatMap allParts
        = (kw.flatMap fun x => filterQuestions x.1 x.2).map Question.expr := by
    intro kw
    induction kw with
    | nil => intro _; rfl
    | cons x kw ih =>
      intro h
      obtain ⟨e, h1, h2, -⟩ := one x.1 x.2 (h x (List.mem_cons_self ..))
      rw [List.filterMap_cons, h1]
      simp only [List.flatMap_cons, List.map_append]
      rw [h2, ih (fun y hy => h y (List.mem_cons_of_mem _ hy))]
  match kw, h with
  | [], _ => rfl
  | [x], h =>
    obtain ⟨e, h1, h2, h3⟩ := one x.1 x.2 (h x (List.mem_cons_self ..))
    rw [fromKwargs, List.filterMap_cons, h1, List.flatMap_cons, List.flatMap_nil, List.append_nil, ← h2, h3]
    rfl
  | x :: y :: kw, h =>
    have hs := stmts _ h
    obtain ⟨e, h1, h2, -⟩ := one x.1 x.2 (h x (List.mem_cons_self ..))
    obtain ⟨e', h1', h2', -⟩ := one y.1 y.2 (h y (by simp))
    rw [fromKwargs]
    rw [List.filterMap_cons, h1] at hs ⊢
    simp only at hs ⊢
    rw [List.filterMap_cons, h1'] at hs ⊢
    simp only at hs ⊢
    rw [conj, List.foldl_cons, Expr.and, flat]
    have ne : ∀ (k : String) (f : Filter), PlainFilter f → ∃ q qs, filterQuestions k f = q :: qs := by
      intro k f hf
      cases f with
      | is v => exact ⟨_, _, rfl⟩
      | oneOf l => exact hf.elim
      | range lo hi =>
        rcases lo with _ | a <;> rcases hi with _ | b
        · rcases hf with hf | hf <;> exact absurd rfl hf
        · exact ⟨_, _, rfl⟩
        · exact ⟨_, _, rfl⟩
        · exact ⟨_, _, rfl⟩
    obtain ⟨q, qs, hq⟩ := ne x.1 x.2 (h x (List.mem_cons_self ..))
    obtain ⟨q', qs', hq'⟩ := ne y.1 y.2 (h y (by simp))
    have two : ∃ a b c, ((x :: y :: kw).flatMap fun x => filterQuestions x.1 x.2) = a :: b :: c := by
      rw [List.flatMap_cons, List.flatMap_cons, hq, hq']
      cases qs with
      | nil => exact ⟨_, _, _, rfl⟩
      | cons a qs => exact ⟨_, _, _, rfl⟩
    obtain ⟨a, b, c, habc⟩ := two
    rw [habc] at hs ⊢
    rw [conjAll, ← hs]
    simp only [List.flatMap_cons, List.append_assoc]

theorem put_new (d : Dict Filter) (k : String) (f : Filter) (h : k ∉ Dict.keys d) : Dict.put d k f = d ++ [(k, f)] := by
  induction d with
  | nil => rfl
  | cons a d ih =>
    obtain ⟨k', g⟩ := a
    simp only [Dict.keys, List.map_cons, List.mem_cons, not_or] at h
    rw [Dict.put, if_neg (fun he => h.1 he.symm), ih h.2]; rfl

theorem put_last (d : Dict Filter) (k : String) (f g : Filter) (h : k ∉ Dict.keys d) :
    Dict.put (d ++ [(k, g)]) k f = d ++ [(k, f)] := by
  induction d with
  | nil => simp [Dict.put]
  | cons a d ih =>
    obtain ⟨k', g'⟩ := a
    simp only [Dict.keys, List.map_cons, List.mem_cons, not_or] at h
    rw [List.cons_append, Dict.put, if_neg (fun he => h.1 he.symm), ih h.2]; rfl

theorem find_last (d : Dict Filter) (k : String) (g : Filter) (h : k ∉ Dict.keys d) :
    Dict.find (d ++ [(k, g)]) k = some g := by
  rw [← put_new d k g h, Dict.find_put, if_pos rfl]

theorem loop_append (d : Dict Filter) (l m : List Expr) : kwargsLoop d (l ++ m) = match kwargsLoop d l with
    | .error e => .error e
    | .ok d => kwargsLoop d m := by
  induction l generalizing d with
  | nil => rfl
  | cons e l ih =>
    rw [List.cons_append, kwargsLoop, kwargsLoop]
    cases kwargsStep d e with
    | error x => rfl
    | ok d => exact ih d

theorem loop_filter (d : Dict Filter) (k : String) (f : Filter) (h : k ∉ Dict.keys d) (hf : PlainFilter f) :
    kwargsLoop d ((filterQuestions k f).map Question.expr) = .ok (d ++ [(k, f)]) := by
  have hn := Dict.find_none.2 h
  cases f with
  | is v => simp [filterQuestions, Question.expr, kwargsLoop, kwargsStep, keyValue, put_new d k _ h]
  | oneOf l => exact hf.elim
  | range lo hi =>
    rcases lo with _ | a <;> rcases hi with _ | b
    · rcases hf with hf | hf <;> exact absurd rfl hf
    · simp [filterQuestions, Question.expr, kwargsLoop, kwargsStep, keyValue, pastBounds, hn, put_new d k _ h]
    · simp [filterQuestions, Question.expr, kwargsLoop, kwargsStep, keyValue, pastBounds, hn, put_new d k _ h]
    · simp [filterQuestions, Question.expr, kwargsLoop, kwargsStep, keyValue, pastBounds, hn, put_new d k _ h,
        find_last d k _ h, put_last d k _ _ h]

/-- C98, round trip: keywords that ask for values and for ranges with at least one bound are given back by the keyword form of the
query that is made of them. -/
theorem C98_round_trip (kw : Dict Filter) (hk : Dict.Ok kw) (h : ∀ x ∈ kw, PlainFilter x.2) :
    toKwargs (fromKwargs kw) = .ok kw := by
  rw [fromKwargs_questions kw h, conj_questions]
  · suffices key : ∀ (kw d : Dict Filter), Dict.Ok kw → (∀ x ∈ kw, PlainFilter x.2) → (∀ k ∈ Dict.keys kw, k ∉ Dict.keys d) →
        kwargsLoop d ((kw.flatMap fun x => filterQuestions x.1 x.2).map Question.expr) = .ok (d ++ kw) from
      key kw [] hk h (fun _ _ => by simp [Dict.keys])
    intro kw
    induction kw with
    | nil => intro d _ _ _; simp [kwargsLoop]
    | cons x kw ih =>
      intro d hk h hd
      obtain ⟨k, f⟩ := x
      have hnd : k ∉ Dict.keys kw ∧ Dict.Ok kw := by
        unfold Dict.Ok Dict.keys at hk
        rw [List.map_cons, List.nodup_cons] at hk
        exact hk
      rw [List.flatMap_cons, List.map_append, loop_append,
        loop_filter d k f (hd k (by simp [Dict.keys])) (h _ (List.mem_cons_self ..))]
      simp only
      rw [ih (d ++ [(k, f)]) hnd.2 (fun y hy => h y (List.mem_cons_of_mem _ hy)), List.append_assoc]
      · rfl
      · intro k' hk' hm
        simp only [Dict.keys, List.map_append, List.map_cons, List.map_nil, List.mem_append, List.mem_singleton] at hm
        rcases hm with hm | hm
        · exact hd k' (by simp only [Dict.keys, List.map_cons, List.mem_cons]; exact Or.inr hk') hm
        · exact hnd.1 (hm ▸ hk')
  · intro q hq
    obtain ⟨x, -, hx⟩ := List.mem_flatMap.1 hq
    obtain ⟨k, f⟩ := x
    cases f with
    | is v => simp only [filterQuestions, List.mem_singleton] at hx; subst hx; exact Or.inl rfl
    | oneOf l => cases hx
    | range lo hi =>
      simp only [filterQuestions, List.mem_append, Option.mem_toList, Option.map_eq_some_iff] at hx
      rcases hx with ⟨v, -, rfl⟩ | ⟨v, -, rfl⟩
      · exact Or.inr (Or.inl rfl)
      · exact Or.inr (Or.inr rfl)

example : Dict.Ok (α := Filter) [("a", .is (.num 1)), ("b", .range none (some (.num 2)))] ∧
    ∀ x ∈ ([("a", .is (.num 1)), ("b", .range none (some (.num 2)))] : Dict Filter), PlainFilter x.2 := by
  refine ⟨by simp [Dict.Ok, Dict.keys], ?_⟩
  intro x hx
  simp only [List.mem_cons, List.not_mem_nil, or_false] at hx
  rcases hx with rfl | rfl
  · trivial
  · exact Or.inr (by simp)

theorem keyValue_one {l r : Operand} {kv : String × Val} (h : keyValue l r = .ok kv) :
    (l = .key kv.1 ∧ r = .val kv.2) ∨ (l = .val kv.2 ∧ r = .key kv.1) := by
  cases l <;> cases r <;> simp only [keyValue] at h
  · cases h
  · cases h; exact Or.inl ⟨rfl, rfl⟩
  · cases h; exact Or.inr ⟨rfl, rfl⟩
  · cases h

theorem kwargsStep_one {d d' : Dict Filter} {e : Expr} (h : kwargsStep d e = .ok d') : OneQuestion e := by
  have key : ∀ (op : Op) (l r : Operand), (op = .eq ∨ op = .ge ∨ op = .le) → (∃ kv, keyValue l r = .ok kv) → OneQuestion (.cmp op l r) := by
    rintro op l r ho ⟨kv, hk⟩
    rcases keyValue_one hk with ⟨rfl, rfl⟩ | ⟨rfl, rfl⟩
    · exact ⟨op, kv.1, kv.2, ho, Or.inl rfl⟩
    · exact ⟨op, kv.1, kv.2, ho, Or.inr rfl⟩
  unfold kwargsStep at h
  split at h
  · rename_i l r
    rcases hk : keyValue l r with x | kv
    · rw [hk] at h; cases h
    · exact key _ _ _ (Or.inl rfl) ⟨kv, hk⟩
  · rename_i l r
    rcases hk : keyValue l r with x | kv
    · rw [hk] at h; cases h
    · exact key _ _ _ (Or.inr (Or.inl rfl)) ⟨kv, hk⟩
  · rename_i l r
    rcases hk : keyValue l r with x | kv
    · rw [hk] at h; cases h
    · exact key _ _ _ (Or.inr (Or.inr rfl)) ⟨kv, hk⟩
  · cases h

theorem kwargsLoop_one : ∀ (l : List Expr) (d d' : Dict Filter), kwargsLoop d l = .ok d' → ∀ e ∈ l, OneQuestion e
  | [], _, _, _, e, he => by simp at he
  | a :: l, d, d', h, e, he => by
    unfold kwargsLoop at h
    rcases hs : kwargsStep d a with x | d1
    · rw [hs] at h; cases h
    · rw [hs] at h
      rcases List.mem_cons.1 he with rfl | he
      · exact kwargsStep_one hs
      · exact kwargsLoop_one l d1 d' h e he

/-- C98, refusals: only the query that is always true, a comparison (equal, at least, at most) of one field with one value, and
a conjunction of such comparisons have a keyword form; all other queries are refused. -/
theorem C98_only (e : Expr) (kw : Dict Filter) (h : toKwargs e = .ok kw) :
    e = .bool true ∨ OneQuestion e ∨ ∃ l, e = .all l ∧ ∀ x ∈ l, OneQuestion x := by
  unfold toKwargs at h
  split at h
  · exact Or.inl rfl
  · exact Or.inr (Or.inr ⟨_, rfl, kwargsLoop_one _ _ _ h⟩)
  · exact Or.inr (Or.inl (kwargsLoop_one _ _ _ h _ (List.mem_singleton.2 rfl)))

/-- Queries with a keyword form, and some without. -/
example : toKwargs (.bool true) = .ok [] ∧ toKwargs (.cmp .eq (.val (.num 1)) (.key "x")) = .ok [("x", .is (.num 1))] ∧
    toKwargs (.bool false) = .error .type ∧ toKwargs (.cmp .eq (.val (.num 1)) (.val (.num 1))) = .error .value ∧
    toKwargs (.any [.cmp .eq (.key "x") (.val (.num 1))]) = .error .type := by
  decide +kernel

/-- C98, sides: `10 >= <x>` (written with the value on the left) becomes the keyword for `x >= 10`, which selects other records. -/
theorem C98_sides_violated : ∃ (e : Expr) (kw : Dict Filter) (i : Item), toKwargs e = .ok kw ∧
    e.holds (fun _ _ => false) i = .ok true ∧ repoMatch kw i = false :=
  ⟨.cmp .ge (.val (.num 10)) (.key "x"), [("x", .range (some (.num 10)) none)], [("x", .num 5)], by decide +kernel, by decide +kernel, by decide +kernel⟩

/-- C98, fields asked twice: of two bounds on the same side, and of two values, the last is kept, so that the keywords select
records that the query does not. -/
theorem C98_twice_violated : ∃ (qs : List Question) (kw : Dict Filter) (i : Item),
    toKwargs (conj (qs.map Question.expr)) = .ok kw ∧ repoMatch kw i = true ∧
      (conj (qs.map Question.expr)).holds (fun _ _ => false) i = .ok false :=
  ⟨[⟨"x", .min, .num 5⟩, ⟨"x", .min, .num 3⟩], [("x", .range (some (.num 3)) none)], [("x", .num 4)], by decide +kernel,
    by decide +kernel, by decide +kernel⟩

/-- C98, a value and a bound: with a text the first two characters of the text are taken for bounds; a number raises `TypeError`. -/
theorem C98_mixed_violated :
    toKwargs (conj ([⟨"name", .same, .text "daily"⟩, ⟨"name", .max, .text "z"⟩].map Question.expr))
      = .ok [("name", .range (some (.text "d")) (some (.text "z")))] ∧
    toKwargs (conj ([⟨"x", .same, .num 5⟩, ⟨"x", .max, .num 9⟩].map Question.expr)) = .error .type := by
  decide +kernel

end Rocketry.Props
