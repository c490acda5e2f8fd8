import Verif.Text.ParserAssemble
import Verif.Props.CondProps
import Verif.Props.PeriodProps

/-! # Condition and time strings: C24 -/

set_option linter.unusedSimpArgs false
set_option linter.unusedVariables false

namespace Rocketry.Props
open Rocketry.Spec Rocketry.Cond

variable {C D L σ : Type}

/-! ### a written expression as tokens -/

def wtoks : Written → List LTok
  | .item pre w post => [.item pre w post]
  | .group e => [.grp (wtoks e)]
  | .not pre post e => .op pre '~' post :: wtoks e
  | .and a pre post b => wtoks a ++ .op pre '&' post :: wtoks b
  | .or a pre post b => wtoks a ++ .op pre '|' post :: wtoks b

theorem wtoks_text : ∀ e : Written, ltext (wtoks e) = e.text
  | .item pre w post => by simp [wtoks, ltext, LTok.text, Written.text]
  | .group e => by simp [wtoks, ltext, LTok.text, Written.text, wtoks_text e]
  | .not pre post e => by simp [wtoks, ltext, LTok.text, Written.text, wtoks_text e]
  | .and a pre post b => by simp [wtoks, ltext_append, ltext, LTok.text, Written.text, wtoks_text a, wtoks_text b]
  | .or a pre post b => by simp [wtoks, ltext_append, ltext, LTok.text, Written.text, wtoks_text a, wtoks_text b]

theorem wtoks_noAdj : ∀ e : Written, NoAdj (wtoks e)
  | .item pre w post => trivial
  | .group e => trivial
  | .not pre post e => (NoAdj_sep (t := .op pre '~' post) rfl [] (wtoks e)).2 ⟨trivial, wtoks_noAdj e⟩
  | .and a pre post b => (NoAdj_sep rfl _ _).2 ⟨wtoks_noAdj a, wtoks_noAdj b⟩
  | .or a pre post b => (NoAdj_sep rfl _ _).2 ⟨wtoks_noAdj a, wtoks_noAdj b⟩

theorem blank_space {b : List Char} (h : Written.Blank b) : AllSpace b := by
  intro c hc
  rcases h c hc with rfl | rfl | rfl | rfl <;> decide

theorem space_le {c : Char} (h : isSpace c = true) : c.toNat ≤ 32 := by
  simp only [isSpace, Bool.or_eq_true, beq_iff_eq] at h
  rcases h with ((((((((h | h) | h) | h) | h) | h) | h) | h) | h) | h <;> subst h <;> decide

theorem word_solid {w : List Char} (h : Written.Word w) : Solid w ∧ w ≠ [] := by
  obtain ⟨⟨c, h1, h2, _⟩, ⟨d, h3, h4, _⟩, _⟩ := h
  refine ⟨⟨?_, ?_⟩, ?_⟩
  · intro x hx
    rw [h1] at hx
    cases hx
    by_contra hn
    have := space_le (by simpa using hn : isSpace c = true)
    omega
  · intro x hx
    rw [h3] at hx
    cases hx
    by_contra hn
    have := space_le (by simpa using hn : isSpace d = true)
    omega
  · rintro rfl; simp at h1

theorem wtoks_ok {syms : List Char} (hs : ∀ c ∈ syms, c = '~' ∨ c = '&' ∨ c = '|') (ha : '&' ∈ syms) (ho : '|' ∈ syms) :
    ∀ e : Written, e.Proper → (e.NoNot ∨ '~' ∈ syms) → LOk syms (wtoks e)
  | .item pre w post, ⟨h1, h2, h3⟩, _ => by
    refine ⟨⟨blank_space h1, blank_space h3, (word_solid h2).1, (word_solid h2).2, ?_⟩, trivial⟩
    intro c hc
    have := h2.2.2 c hc
    refine ⟨this.1, this.2.1, ?_⟩
    intro hm
    rcases hs c hm with rfl | rfl | rfl <;> tauto
  | .group e, h, hn => ⟨⟨wtoks_ok hs ha ho e h (by simpa [Written.NoNot] using hn), wtoks_noAdj e⟩, trivial⟩
  | .not pre post e, ⟨h1, h2, _, h⟩, hn => by
    have hn' : '~' ∈ syms := by simpa [Written.NoNot] using hn
    exact ⟨⟨blank_space h1, blank_space h2, hn'⟩, wtoks_ok hs ha ho e h (Or.inr hn')⟩
  | .and a pre post b, ⟨h1, h2, _, _, h3, h4⟩, hn => by
    refine (LOk_append _ _).2 ⟨wtoks_ok hs ha ho a h3 (hn.imp (fun h => h.1) id), ⟨blank_space h1, blank_space h2, ha⟩,
      wtoks_ok hs ha ho b h4 (hn.imp (fun h => h.2) id)⟩
  | .or a pre post b, ⟨h1, h2, h3, h4⟩, hn => by
    refine (LOk_append _ _).2 ⟨wtoks_ok hs ha ho a h3 (hn.imp (fun h => h.1) id), ⟨blank_space h1, blank_space h2, ho⟩,
      wtoks_ok hs ha ho b h4 (hn.imp (fun h => h.2) id)⟩

/-! ### parsing the items -/

mutual
theorem parseTrees_norm (item : List Char → Except PyErr C) : ∀ l : List PTree, parseTrees item (normTrees l) = parseTrees item l
  | [] => rfl
  | t :: l => by rw [normTrees, parseTrees, parseTrees, parseTree_norm item t, parseTrees_norm item l]
theorem parseTree_norm (item : List Char → Except PyErr C) : ∀ t : PTree, parseTree item (normTree t) = parseTree item t
  | .str s => by
    rw [normTree, parseTree, parseTree]
    have : parseString item (strip s) = parseString item s := by simp only [parseString, strip_strip]
    rw [this]
  | .sub l => by rw [normTree, parseTree, parseTree, parseTrees_norm item l]
end

theorem parseTrees_append {item : List Char → Except PyErr C} : ∀ {a b : List PTree} {x y : List (TTree C)},
    parseTrees item a = .ok x → parseTrees item b = .ok y → parseTrees item (a ++ b) = .ok (x ++ y)
  | [], b, x, y, h1, h2 => by
    rw [parseTrees, Except.ok.injEq] at h1
    subst h1
    exact h2
  | t :: a, b, x, y, h1, h2 => by
    rw [parseTrees] at h1
    rw [List.cons_append, parseTrees]
    cases ht : parseTree item t with
    | error e => rw [ht] at h1; exact absurd h1 (by simp)
    | ok u =>
      rw [ht] at h1
      simp only at h1 ⊢
      cases hl : parseTrees item a with
      | error e => rw [hl] at h1; exact absurd h1 (by simp)
      | ok us =>
        rw [hl] at h1
        simp only [Except.ok.injEq] at h1
        subst h1
        rw [parseTrees_append hl h2]
        rfl

theorem parseTrees_append_err {item : List Char → Except PyErr C} : ∀ {a b : List PTree} {e : PyErr},
    parseTrees item (a ++ b) = .error e → parseTrees item a = .error e ∨ parseTrees item b = .error e
  | [], b, e, h => Or.inr h
  | t :: a, b, e, h => by
    rw [List.cons_append, parseTrees] at h
    rw [parseTrees]
    cases ht : parseTree item t with
    | error e' => rw [ht] at h; simp only at h; left; exact h
    | ok u =>
      rw [ht] at h
      simp only at h ⊢
      cases hl : parseTrees item (a ++ b) with
      | error e' =>
        rw [hl] at h
        simp only [Except.error.injEq] at h
        subst h
        rcases parseTrees_append_err hl with h | h
        · left; rw [h]
        · right; exact h
      | ok us => rw [hl] at h; exact absurd h (by simp)

theorem parseTrees_append_ok {item : List Char → Except PyErr C} : ∀ {a b : List PTree} {x : List (TTree C)},
    parseTrees item (a ++ b) = .ok x → (∃ y, parseTrees item a = .ok y) ∧ (∃ y, parseTrees item b = .ok y)
  | [], b, x, h => ⟨⟨[], rfl⟩, x, h⟩
  | t :: a, b, x, h => by
    rw [List.cons_append, parseTrees] at h
    rw [parseTrees]
    cases ht : parseTree item t with
    | error e' => rw [ht] at h; exact absurd h (by simp)
    | ok u =>
      rw [ht] at h
      simp only at h ⊢
      cases hl : parseTrees item (a ++ b) with
      | error e' => rw [hl] at h; exact absurd h (by simp)
      | ok us =>
        obtain ⟨⟨y, hy⟩, h2⟩ := parseTrees_append_ok hl
        exact ⟨⟨u :: y, by rw [hy]⟩, h2⟩

theorem parseString_word {item : List Char → Except PyErr C} {w : List Char} (h : Written.Word w) :
    parseString item w = match item w with | .ok c => .ok (.val c) | .error e => .error e := by
  rw [parseString, strip_solid (word_solid h).1]
  have hb := h.2.2
  rw [if_neg (by rintro rfl; exact (hb '&' (by simp)).2.2.1 rfl), if_neg (by rintro rfl; exact (hb '|' (by simp)).2.2.2.1 rfl),
    if_neg (by rintro rfl; exact (hb '~' (by simp)).2.2.2.2 rfl)]
  cases item w <;> rfl

theorem parseTree_op (item : List Char → Except PyErr C) {c : Char} (h : c = '~' ∨ c = '&' ∨ c = '|') :
    parseTree item (.str [c]) = .ok (.tok (.op c)) := by
  rcases h with rfl | rfl | rfl <;> rfl

/-- The items of a written expression are parsed; a failure is the failure of one of them. -/
theorem parseTrees_written (item : List Char → Except PyErr C) : ∀ e : Written, e.Proper →
    (∀ x, parseTrees item (ltrees (wtoks e)) = .ok x → ∀ w ∈ e.words, ∃ c, item w = .ok c) ∧
    (∀ err, parseTrees item (ltrees (wtoks e)) = .error err → ∃ w ∈ e.words, item w = .error err)
  | .item pre w post, ⟨_, hw, _⟩ => by
    have : parseTrees item (ltrees (wtoks (.item pre w post))) = match item w with
        | .ok c => .ok [.tok (.val c)] | .error e => .error e := by
      rw [wtoks, ltrees, LTok.tree, parseTrees, parseTree, parseString_word hw]
      cases item w <;> rfl
    rw [this]
    constructor
    · intro x hx w' hw'
      rw [Written.words, List.mem_singleton] at hw'
      subst hw'
      cases h : item w' with
      | ok c => exact ⟨c, rfl⟩
      | error e => rw [h] at hx; exact absurd hx (by simp)
    · intro err hx
      refine ⟨w, by simp [Written.words], ?_⟩
      cases h : item w with
      | ok c => rw [h] at hx; exact absurd hx (by simp)
      | error e => rw [h] at hx; simpa using hx
  | .group e, h => by
    have ih := parseTrees_written item e h
    have : parseTrees item (ltrees (wtoks (.group e))) = match parseTrees item (ltrees (wtoks e)) with
        | .ok ts => .ok [.sub ts] | .error e => .error e := by
      rw [wtoks, ltrees, LTok.tree, parseTrees, parseTree]
      cases parseTrees item (ltrees (wtoks e)) <;> rfl
    rw [this]
    constructor
    · intro x hx
      cases hh : parseTrees item (ltrees (wtoks e)) with
      | ok c => exact ih.1 c hh
      | error e => rw [hh] at hx; exact absurd hx (by simp)
    · intro err hx
      cases hh : parseTrees item (ltrees (wtoks e)) with
      | ok c => rw [hh] at hx; exact absurd hx (by simp)
      | error e' =>
        rw [hh] at hx
        simp only [Except.error.injEq] at hx
        subst hx
        exact ih.2 _ hh
  | .not pre post e, h => by
    have ih := parseTrees_written item e h.2.2.2
    have : parseTrees item (ltrees (wtoks (.not pre post e))) = match parseTrees item (ltrees (wtoks e)) with
        | .ok ts => .ok (.tok (.op '~') :: ts) | .error e => .error e := by
      rw [wtoks, ltrees, LTok.tree, parseTrees, parseTree_op item (by simp)]
      cases parseTrees item (ltrees (wtoks e)) <;> rfl
    rw [this]
    constructor
    · intro x hx
      cases hh : parseTrees item (ltrees (wtoks e)) with
      | ok c => exact ih.1 c hh
      | error e => rw [hh] at hx; exact absurd hx (by simp)
    · intro err hx
      cases hh : parseTrees item (ltrees (wtoks e)) with
      | ok c => rw [hh] at hx; exact absurd hx (by simp)
      | error e' =>
        rw [hh] at hx
        simp only [Except.error.injEq] at hx
        subst hx
        exact ih.2 _ hh
  | .and a pre post b, h => by
    have iha := parseTrees_written item a h.2.2.2.2.1
    have ihb := parseTrees_written item b h.2.2.2.2.2
    exact written_binary item a b (c := '&') (by simp) _ (by rw [wtoks, ltrees_append]; rfl) iha ihb
  | .or a pre post b, h => by
    have iha := parseTrees_written item a h.2.2.1
    have ihb := parseTrees_written item b h.2.2.2
    exact written_binary item a b (c := '|') (by simp) _ (by rw [wtoks, ltrees_append]; rfl) iha ihb
where
  written_binary (item : List Char → Except PyErr C) (a b : Written) {c : Char} (hc : c = '~' ∨ c = '&' ∨ c = '|') (l : List PTree)
      (hl : l = ltrees (wtoks a) ++ .str [c] :: ltrees (wtoks b))
      (iha : (∀ x, parseTrees item (ltrees (wtoks a)) = .ok x → ∀ w ∈ a.words, ∃ c, item w = .ok c) ∧
        (∀ err, parseTrees item (ltrees (wtoks a)) = .error err → ∃ w ∈ a.words, item w = .error err))
      (ihb : (∀ x, parseTrees item (ltrees (wtoks b)) = .ok x → ∀ w ∈ b.words, ∃ c, item w = .ok c) ∧
        (∀ err, parseTrees item (ltrees (wtoks b)) = .error err → ∃ w ∈ b.words, item w = .error err)) :
      (∀ x, parseTrees item l = .ok x → ∀ w ∈ a.words ++ b.words, ∃ c, item w = .ok c) ∧
        (∀ err, parseTrees item l = .error err → ∃ w ∈ a.words ++ b.words, item w = .error err) := by
    subst hl
    constructor
    · intro x hx w hw
      obtain ⟨⟨y, hy⟩, z, hz⟩ := parseTrees_append_ok hx
      rw [parseTrees, parseTree_op item hc] at hz
      simp only at hz
      rcases List.mem_append.1 hw with hw | hw
      · exact iha.1 y hy w hw
      · cases hb : parseTrees item (ltrees (wtoks b)) with
        | ok u => exact ihb.1 u hb w hw
        | error e => rw [hb] at hz; exact absurd hz (by simp)
    · intro err hx
      rcases parseTrees_append_err hx with h | h
      · obtain ⟨w, hw, he⟩ := iha.2 err h
        exact ⟨w, by simp [hw], he⟩
      · rw [parseTrees, parseTree_op item hc] at h
        simp only at h
        cases hb : parseTrees item (ltrees (wtoks b)) with
        | ok u => rw [hb] at h; exact absurd h (by simp)
        | error e =>
          rw [hb] at h
          simp only [Except.error.injEq] at h
          subst h
          obtain ⟨w, hw, he⟩ := ihb.2 _ hb
          exact ⟨w, by simp [hw], he⟩

theorem reduceArgs_append {ops : List (Oper C)} : ∀ {a b : List (TTree C)} {x y : List (Tok C)},
    reduceArgs ops a = .ok x → reduceArgs ops b = .ok y → reduceArgs ops (a ++ b) = .ok (x ++ y)
  | [], b, x, y, h1, h2 => by
    rw [reduceArgs, Except.ok.injEq] at h1
    subst h1
    exact h2
  | t :: a, b, x, y, h1, h2 => by
    rw [reduceArgs] at h1
    rw [List.cons_append, reduceArgs]
    cases ht : reduceArg ops t with
    | error e => rw [ht] at h1; exact absurd h1 (by simp)
    | ok u =>
      rw [ht] at h1
      simp only at h1 ⊢
      cases hl : reduceArgs ops a with
      | error e => rw [hl] at h1; exact absurd h1 (by simp)
      | ok us =>
        rw [hl] at h1
        simp only [Except.ok.injEq] at h1
        subst h1
        rw [reduceArgs_append hl h2]
        rfl

/-! ### the meaning of the assembled object -/

/-- The meaning of a written expression in a domain with negation, conjunction and disjunction. -/
def den (dn : D → D) (da dor : D → D → D) (f : List Char → D) : Written → D
  | .item _ w _ => f w
  | .group e => den dn da dor f e
  | .not _ _ e => dn (den dn da dor f e)
  | .and a _ _ b => da (den dn da dor f a) (den dn da dor f b)
  | .or a _ _ b => dor (den dn da dor f a) (den dn da dor f b)

section
variable {Good : C → Prop} {interp : C → D} {dn : D → D} {da dor : D → D → D} {d0 : D} {f : List Char → D} {K : Nat → Prop}
variable {ops : List (Oper C)} {item : List Char → Except PyErr C}

/-- The operator passes give the right meaning for a level of tokens. -/
def LevelOk (Good : C → Prop) (interp : C → D) (dn : D → D) (da dor : D → D → D) (d0 : D) (K : Nat → Prop)
    (ops : List (Oper C)) : Prop :=
  ∀ (ts : List (List (Nat × C))) (l : List (Tok C)), ts ≠ [] → (∀ t ∈ ts, t ≠ [] ∧ ∀ x ∈ t, Good x.2 ∧ K x.1) →
    l.reverse = oj '|' (ts.map (fun t => oj '&' (t.map rFac))) →
    ∃ z, assembleOpers ops l = .ok [.val z] ∧ Good z ∧
      interp z = dAllR dor d0 (ts.map (fun t => dAllR da d0 (t.map (fun p => iter dn p.1 (interp p.2)))))

def NFdisj (Good : C → Prop) (interp : C → D) (dn : D → D) (da dor : D → D → D) (d0 : D) (K : Nat → Prop) (d : D)
    (l : List (Tok C)) : Prop :=
  ∃ ts : List (List (Nat × C)), ts ≠ [] ∧ (∀ t ∈ ts, t ≠ [] ∧ ∀ x ∈ t, Good x.2 ∧ K x.1) ∧
    l.reverse = oj '|' (ts.map (fun t => oj '&' (t.map rFac))) ∧
    dAllR dor d0 (ts.map (fun t => dAllR da d0 (t.map (fun p => iter dn p.1 (interp p.2))))) = d

def NFconj (Good : C → Prop) (interp : C → D) (dn : D → D) (da : D → D → D) (d0 : D) (K : Nat → Prop) (d : D)
    (l : List (Tok C)) : Prop :=
  ∃ t : List (Nat × C), (t ≠ [] ∧ ∀ x ∈ t, Good x.2 ∧ K x.1) ∧ l.reverse = oj '&' (t.map rFac) ∧
    dAllR da d0 (t.map (fun p => iter dn p.1 (interp p.2))) = d

def NFtight (Good : C → Prop) (interp : C → D) (dn : D → D) (K : Nat → Prop) (d : D) (l : List (Tok C)) : Prop :=
  ∃ n x, Good x ∧ K n ∧ l.reverse = rFac (n, x) ∧ iter dn n (interp x) = d

theorem tight_conj {d : D} {l : List (Tok C)} (h : NFtight Good interp dn K d l) : NFconj Good interp dn da d0 K d l := by
  obtain ⟨n, x, h1, h2, h3, h4⟩ := h
  refine ⟨[(n, x)], ⟨by simp, ?_⟩, h3, h4⟩
  intro y hy
  rw [List.mem_singleton] at hy
  subst hy
  exact ⟨h1, h2⟩

theorem conj_disj {d : D} {l : List (Tok C)} (h : NFconj Good interp dn da d0 K d l) : NFdisj Good interp dn da dor d0 K d l := by
  obtain ⟨t, h1, h2, h3⟩ := h
  refine ⟨[t], by simp, ?_, h2, h3⟩
  intro y hy
  rw [List.mem_singleton] at hy
  subst hy
  exact h1

theorem conj_and {d e : D} {l m : List (Tok C)} (haa : ∀ a b c, da (da a b) c = da a (da b c))
    (h1 : NFconj Good interp dn da d0 K d l) (h2 : NFconj Good interp dn da d0 K e m) :
    NFconj Good interp dn da d0 K (da d e) (l ++ .op '&' :: m) := by
  obtain ⟨t, ⟨a1, a2⟩, a3, a4⟩ := h1
  obtain ⟨u, ⟨b1, b2⟩, b3, b4⟩ := h2
  refine ⟨u ++ t, ⟨by simp [a1], ?_⟩, ?_, ?_⟩
  · intro x hx
    rcases List.mem_append.1 hx with h | h
    · exact b2 x h
    · exact a2 x h
  · rw [List.reverse_append, List.reverse_cons, a3, b3, List.map_append, oj_append _ _ (by simpa using b1) (by simpa using a1)]
    simp
  · rw [List.map_append, dAllR_append haa _ _ (by simpa using b1) (by simpa using a1), a4, b4]

theorem disj_or {d e : D} {l m : List (Tok C)} (hoo : ∀ a b c, dor (dor a b) c = dor a (dor b c))
    (h1 : NFdisj Good interp dn da dor d0 K d l) (h2 : NFdisj Good interp dn da dor d0 K e m) :
    NFdisj Good interp dn da dor d0 K (dor d e) (l ++ .op '|' :: m) := by
  obtain ⟨t, a1, a2, a3, a4⟩ := h1
  obtain ⟨u, b1, b2, b3, b4⟩ := h2
  refine ⟨u ++ t, by simp [a1], ?_, ?_, ?_⟩
  · intro x hx
    rcases List.mem_append.1 hx with h | h
    · exact b2 x h
    · exact a2 x h
  · rw [List.reverse_append, List.reverse_cons, a3, b3, List.map_append, oj_append _ _ (by simpa using b1) (by simpa using a1)]
    simp
  · rw [List.map_append, dAllR_append hoo _ _ (by simpa using b1) (by simpa using a1), a4, b4]

/-- Tokens of a written expression after parsing the items and reducing the brackets. -/
def Reduced (item : List Char → Except PyErr C) (ops : List (Oper C)) (e : Written) (l : List (Tok C)) : Prop :=
  ∃ ts, parseTrees item (ltrees (wtoks e)) = .ok ts ∧ reduceArgs ops ts = .ok l

theorem reduced_binary {a b : Written} {l m : List (Tok C)} {c : Char} (hc : c = '~' ∨ c = '&' ∨ c = '|')
    (ha : Reduced item ops a l) (hb : Reduced item ops b m) (e : Written)
    (he : ltrees (wtoks e) = ltrees (wtoks a) ++ .str [c] :: ltrees (wtoks b)) : Reduced item ops e (l ++ .op c :: m) := by
  obtain ⟨ta, a1, a2⟩ := ha
  obtain ⟨tb, b1, b2⟩ := hb
  refine ⟨ta ++ .tok (.op c) :: tb, ?_, ?_⟩
  · rw [he]
    refine parseTrees_append a1 ?_
    rw [parseTrees, parseTree_op item hc, b1]
  · refine reduceArgs_append a2 ?_
    rw [reduceArgs, reduceArg, b2]

theorem reduced_nf (haa : ∀ a b c, da (da a b) c = da a (da b c)) (hoo : ∀ a b c, dor (dor a b) c = dor a (dor b c))
    (hlev : LevelOk Good interp dn da dor d0 K ops) (hK : K 0) : ∀ e : Written, e.Proper →
    (e.NoNot ∨ ∀ n, K n → K (n + 1)) →
    (∀ w ∈ e.words, ∃ c, item w = .ok c ∧ Good c ∧ interp c = f w) →
    ∃ l, Reduced item ops e l ∧ NFdisj Good interp dn da dor d0 K (den dn da dor f e) l ∧
      (e.Conj → NFconj Good interp dn da d0 K (den dn da dor f e) l) ∧ (e.Tight → NFtight Good interp dn K (den dn da dor f e) l)
  | .item pre w post, ⟨_, hw, _⟩, _, hit => by
    obtain ⟨c, h1, h2, h3⟩ := hit w (by simp [Written.words])
    have nf : NFtight Good interp dn K (den dn da dor f (.item pre w post)) [.val c] := ⟨0, c, h2, hK, rfl, h3⟩
    refine ⟨[.val c], ⟨[.tok (.val c)], ?_, rfl⟩, conj_disj (tight_conj nf), fun _ => tight_conj nf, fun _ => nf⟩
    rw [wtoks, ltrees, LTok.tree, parseTrees, parseTree, parseString_word hw, h1]
    rfl
  | .group e, h, hn, hit => by
    obtain ⟨l, ⟨ts, r1, r2⟩, ⟨us, u1, u2, u3, u4⟩, _⟩ := reduced_nf haa hoo hlev hK e h (by simpa [Written.NoNot] using hn) hit
    obtain ⟨z, z1, z2, z3⟩ := hlev us l u1 u2 u3
    have nf : NFtight Good interp dn K (den dn da dor f (.group e)) [.val z] := ⟨0, z, z2, hK, rfl, by
      rw [den, ← u4]; exact z3⟩
    refine ⟨[.val z], ⟨[.sub ts], ?_, ?_⟩, conj_disj (tight_conj nf), fun _ => tight_conj nf, fun _ => nf⟩
    · rw [wtoks, ltrees, LTok.tree, parseTrees, parseTree, r1]
      rfl
    · rw [reduceArgs, reduceArg, r2]
      simp only
      rw [assemble, z1]
      rfl
  | .not pre post e, ⟨_, _, ht, h⟩, hn, hit => by
    have hn' : ∀ n, K n → K (n + 1) := by
      rcases hn with hn | hn
      · exact absurd hn (by simp [Written.NoNot])
      · exact hn
    obtain ⟨l, ⟨ts, r1, r2⟩, _, _, nf⟩ := reduced_nf haa hoo hlev hK e h (Or.inr hn') hit
    obtain ⟨n, x, g1, g2, g3, g4⟩ := nf ht
    have nf : NFtight Good interp dn K (den dn da dor f (.not pre post e)) (.op '~' :: l) := by
      refine ⟨n + 1, x, g1, hn' n g2, ?_, ?_⟩
      · rw [List.reverse_cons, g3, rFac, rFac, List.cons_append, ← List.replicate_succ']
      · rw [iter_succ', g4, den]
    refine ⟨.op '~' :: l, ⟨.tok (.op '~') :: ts, ?_, ?_⟩, conj_disj (tight_conj nf), fun _ => tight_conj nf, fun _ => nf⟩
    · rw [wtoks, ltrees, LTok.tree, parseTrees, parseTree_op item (by simp), r1]
    · rw [reduceArgs, reduceArg, r2]
  | .and a pre post b, ⟨_, _, ca, cb, ha, hb⟩, hn, hit => by
    obtain ⟨l, ra, _, na, _⟩ := reduced_nf haa hoo hlev hK a ha (hn.imp (fun h => h.1) id)
      (fun w hw => hit w (by simp [Written.words, hw]))
    obtain ⟨m, rb, _, nb, _⟩ := reduced_nf haa hoo hlev hK b hb (hn.imp (fun h => h.2) id)
      (fun w hw => hit w (by simp [Written.words, hw]))
    have nf := conj_and haa (na ca) (nb cb)
    refine ⟨_, reduced_binary (by simp) ra rb _ (by rw [wtoks, ltrees_append]; rfl), conj_disj nf, fun _ => nf, ?_⟩
    intro h
    exact absurd h (by simp [Written.Tight])
  | .or a pre post b, ⟨_, _, ha, hb⟩, hn, hit => by
    obtain ⟨l, ra, na, _⟩ := reduced_nf haa hoo hlev hK a ha (hn.imp (fun h => h.1) id)
      (fun w hw => hit w (by simp [Written.words, hw]))
    obtain ⟨m, rb, nb, _⟩ := reduced_nf haa hoo hlev hK b hb (hn.imp (fun h => h.2) id)
      (fun w hw => hit w (by simp [Written.words, hw]))
    refine ⟨_, reduced_binary (by simp) ra rb _ (by rw [wtoks, ltrees_append]; rfl), disj_or hoo na nb, ?_, ?_⟩
    · intro h; exact absurd h (by simp [Written.Conj])
    · intro h; exact absurd h (by simp [Written.Tight])

/-- The generic parser on the text of a written expression. -/
theorem instructionParse_written (haa : ∀ a b c, da (da a b) c = da a (da b c)) (hoo : ∀ a b c, dor (dor a b) c = dor a (dor b c))
    (hlev : LevelOk Good interp dn da dor d0 K ops) (hK : K 0)
    (hsy : ∀ c ∈ ops.map Oper.symbol, c = '~' ∨ c = '&' ∨ c = '|') (ha : '&' ∈ ops.map Oper.symbol) (ho : '|' ∈ ops.map Oper.symbol)
    (e : Written) (hp : e.Proper) (hn : e.NoNot ∨ ('~' ∈ ops.map Oper.symbol ∧ ∀ n, K n → K (n + 1))) :
    ((∀ w ∈ e.words, ∃ c, item w = .ok c ∧ Good c ∧ interp c = f w) →
      ∃ z, instructionParse item ops e.text = .ok (.val z) ∧ Good z ∧ interp z = den dn da dor f e) ∧
    (∀ w err, w ∈ e.words → item w = .error err →
      ∃ w' ∈ e.words, ∃ err', item w' = .error err' ∧ instructionParse item ops e.text = .error err') := by
  have s1 : SymsPlain (ops.map Oper.symbol) := by
    intro c hc
    rcases hsy c hc with rfl | rfl | rfl <;> decide
  have s2 : SymsOk (ops.map Oper.symbol) := by
    intro c hc
    rcases hsy c hc with rfl | rfl | rfl <;> decide
  obtain ⟨l, t1, t2⟩ := toList_text s1 s2 (wtoks e) (wtoks_ok hsy ha ho e hp (hn.imp id And.left)) (wtoks_noAdj e)
  rw [wtoks_text] at t1
  have t3 : parseTrees item (splitTrees (ops.map Oper.symbol) l) = parseTrees item (ltrees (wtoks e)) := by
    rw [← t2, parseTrees_norm]
  constructor
  · intro hit
    obtain ⟨m, ⟨ts, r1, r2⟩, ⟨us, u1, u2, u3, u4⟩, _⟩ := reduced_nf haa hoo hlev hK e hp (hn.imp id And.right) hit
    obtain ⟨z, z1, z2, z3⟩ := hlev us m u1 u2 u3
    refine ⟨z, ?_, z2, by rw [← u4]; exact z3⟩
    rw [instructionParse, t1]
    simp only
    rw [t3, r1]
    simp only
    rw [r2]
    simp only
    rw [assemble, z1]
  · intro w err hw hi
    obtain ⟨p1, p2⟩ := parseTrees_written item e hp
    cases h : parseTrees item (ltrees (wtoks e)) with
    | ok x =>
      obtain ⟨c, hc⟩ := p1 x h w hw
      rw [hi] at hc
      exact absurd hc (by simp)
    | error err' =>
      obtain ⟨w', hw', hi'⟩ := p2 err' h
      refine ⟨w', hw', err', hi', ?_⟩
      rw [instructionParse, t1]
      simp only
      rw [t3, h]
end

/-! ### C24: condition strings -/

theorem thenAnd_assoc (a b c : Obs σ) : thenAnd (thenAnd a b) c = thenAnd a (thenAnd b c) := by
  funext s
  simp only [thenAnd]
  rcases h : a s with ⟨_ | (_ | _), s'⟩ <;> simp

theorem thenOr_assoc (a b c : Obs σ) : thenOr (thenOr a b) c = thenOr a (thenOr b c) := by
  funext s
  simp only [thenOr]
  rcases h : a s with ⟨_ | (_ | _), s'⟩ <;> simp

theorem flatMap_parts_all (g : L → Obs σ) (cs : List (Cond L)) : observe g (mkAll (cs.flatMap allParts)) = observe g (mkAll cs) := by
  have key : ∀ xs : List (Cond L), observe.observeAll g (xs.flatMap allParts) = observe.observeAll g xs := by
    intro xs
    induction xs with
    | nil => rfl
    | cons x xs ih =>
      rw [List.flatMap_cons, observeAll_append, ih, observe_allParts]
      funext s
      simp only [thenAnd, observe.observeAll]
      rcases observe g x s with ⟨_ | (_ | _), s'⟩ <;> rfl
  simp only [mkAll, observe]
  rw [key, key]

theorem flatMap_parts_any (g : L → Obs σ) (cs : List (Cond L)) : observe g (mkAny (cs.flatMap anyParts)) = observe g (mkAny cs) := by
  have key : ∀ xs : List (Cond L), observe.observeAny g (xs.flatMap anyParts) = observe.observeAny g xs := by
    intro xs
    induction xs with
    | nil => rfl
    | cons x xs ih =>
      rw [List.flatMap_cons, observeAny_append, ih, observe_anyParts]
      funext s
      simp only [thenOr, observe.observeAny]
      rcases observe g x s with ⟨_ | (_ | _), s'⟩ <;> rfl
  simp only [mkAny, observe]
  rw [key, key]

theorem condLevel (g : L → Obs σ) (strLeaf : Char → L) :
    LevelOk (fun _ => True) (fun c => observe g c) negated thenAnd thenOr (fun s => (.ok true, s)) (fun _ => True) (condOpers strLeaf) := by
  intro ts l hne hts hl
  refine assemble_not_and_or (neg := invert) thenAnd_assoc thenOr_assoc (fun x => rfl) (fun _ _ => trivial)
    (fun x => observe_invert g x) ?_ ?_ ts hne (fun t ht => ⟨(hts t ht).1, fun _ _ => trivial⟩) l hl
  · intro x y _ _
    refine ⟨_, rfl, trivial, ?_⟩
    simp only [Tok.cond]
    rw [flatMap_parts_all, mkAll, observe]
    simp only [List.flatMap_cons, List.flatMap_nil, List.append_nil]
    rw [observeAll_append, observe_allParts, observe_allParts]
  · intro x y _ _
    refine ⟨_, rfl, trivial, ?_⟩
    simp only [Tok.cond]
    rw [flatMap_parts_any, mkAny, observe]
    simp only [List.flatMap_cons, List.flatMap_nil, List.append_nil]
    rw [observeAny_append, observe_anyParts, observe_anyParts]

theorem den_expr (m : List Char → Obs σ) : ∀ e : Written, den negated thenAnd thenOr m e = e.expr.eval m
  | .item pre w post => by simp [den, Written.expr, CExpr.eval]
  | .group e => by rw [den, Written.expr, den_expr m e]
  | .not pre post e => by rw [den, Written.expr, CExpr.eval, den_expr m e]
  | .and a pre post b => by rw [den, Written.expr, CExpr.eval, den_expr m a, den_expr m b]
  | .or a pre post b => by rw [den, Written.expr, CExpr.eval, den_expr m a, den_expr m b]

/-- C24: a condition string made of words, `~`, `&`, `|` and brackets, of any size and depth, parses to a condition whose
observation is the short-circuit evaluation of the written expression, `~` binding tighter than `&` and `&` tighter than
`|`, for leaves with any effects.  What is missing: blanks directly before an opening bracket at the start of a level
and after a closing bracket at the end of one are not allowed for in `Written` (`C24_blank_violated`). -/
theorem C24_condition_partial (strLeaf : Char → L) (item : List Char → Except PyErr (Cond L)) (g : L → Obs σ)
    (m : List Char → Obs σ) (e : Written) (hp : e.Proper)
    (hit : ∀ w ∈ e.words, ∃ c, item w = .ok c ∧ observe g c = m w) :
    ∃ c, parseCondition strLeaf item e.text = .ok c ∧ observe g c = e.expr.eval m := by
  obtain ⟨z, h1, _, h3⟩ := (instructionParse_written (f := m) thenAnd_assoc thenOr_assoc (condLevel g strLeaf) trivial
    (item := item) (by simp [condOpers, Oper.symbol]) (by simp [condOpers, Oper.symbol]) (by simp [condOpers, Oper.symbol]) e hp
    (Or.inr ⟨by simp [condOpers, Oper.symbol], fun _ _ => trivial⟩)).1
    (fun w hw => by obtain ⟨c, a, b⟩ := hit w hw; exact ⟨c, a, trivial, b⟩)
  refine ⟨z, ?_, by rw [← den_expr]; exact h3⟩
  rw [parseCondition, h1]

/-- C24: when some item is not recognised, the exception of such an item is raised. -/
theorem C24_unknown_item (strLeaf : Char → L) (item : List Char → Except PyErr (Cond L)) (e : Written) (hp : e.Proper)
    (w : List Char) (err : PyErr) (hw : w ∈ e.words) (hi : item w = .error err) :
    ∃ w' ∈ e.words, ∃ err', item w' = .error err' ∧ parseCondition strLeaf item e.text = .error err' := by
  obtain ⟨w', h1, err', h2, h3⟩ := (instructionParse_written (f := fun _ => fun s => (.ok true, s)) thenAnd_assoc thenOr_assoc
    (condLevel (σ := Unit) (fun _ s => (.ok true, s)) strLeaf) trivial
    (item := item) (by simp [condOpers, Oper.symbol]) (by simp [condOpers, Oper.symbol]) (by simp [condOpers, Oper.symbol]) e hp
    (Or.inr ⟨by simp [condOpers, Oper.symbol], fun _ _ => trivial⟩)).2 w err hw hi
  exact ⟨w', h1, err', h2, by rw [parseCondition, h3]⟩

/-! ### C24: time strings -/

/-- Not `always`, and not a composition of nothing (the constructors never put `always` or another intersection into an
intersection, `C17_flat`). -/
def Substantial : Period → Prop
  | .always => False
  | .all ps => ps ≠ [] ∧ ∀ q ∈ ps, q ≠ .always ∧ ∀ qs, q ≠ .all qs
  | .any ps => ∃ q ∈ ps, ∀ qs, q ≠ .any qs
  | _ => True

theorem allMembers_flat : ∀ {l : List Period}, (∀ q ∈ l, q ≠ .always ∧ ∀ qs, q ≠ .all qs) → Period.allMembers l = l
  | [], _ => rfl
  | a :: l, h => by
    have ih := allMembers_flat (l := l) (fun q hq => h q (by simp [hq]))
    have := h a (by simp)
    cases a with
    | all qs => exact absurd rfl (this.2 qs)
    | always => exact absurd rfl this.1
    | _ => simp [Period.allMembers, ih]

theorem mem_anyMembers_acc {q : Period} : ∀ (l acc : List Period), q ∈ acc →
    q ∈ Period.anyMembers acc l ∨ Period.always ∈ Period.anyMembers acc l
  | [], acc, h => Or.inl h
  | a :: l, acc, h => by
    cases a with
    | any qs => simp only [Period.anyMembers]; exact mem_anyMembers_acc l _ (by simp [h])
    | always => right; simp [Period.anyMembers]
    | _ => simp only [Period.anyMembers]; exact mem_anyMembers_acc l _ (by simp [h])

theorem mem_anyMembers {q : Period} (h2 : ∀ qs, q ≠ .any qs) : ∀ {l : List Period} (acc : List Period), q ∈ l →
    q ∈ Period.anyMembers acc l ∨ Period.always ∈ Period.anyMembers acc l
  | [], _, h => by simp at h
  | a :: l, acc, h => by
    rcases List.mem_cons.1 h with rfl | h
    · cases q with
      | any qs => exact absurd rfl (h2 qs)
      | always => right; simp [Period.anyMembers]
      | _ => simp only [Period.anyMembers]; exact mem_anyMembers_acc l _ (by simp)
    · have ih := fun acc => mem_anyMembers h2 acc h
      cases a with
      | always => right; simp [Period.anyMembers]
      | _ => simp only [Period.anyMembers]; exact ih _

theorem substantial_all {p : Period} (h : Substantial p) :
    allPeriodParts p ≠ [] ∧ ∀ q ∈ allPeriodParts p, q ≠ .always ∧ ∀ qs, q ≠ .all qs := by
  cases p with
  | all ps => exact h
  | always => exact absurd h (by simp [Substantial])
  | _ => simp [allPeriodParts]

theorem substantial_any {p : Period} (h : Substantial p) : ∃ q ∈ anyPeriodParts p, ∀ qs, q ≠ .any qs := by
  cases p with
  | any ps => exact h
  | _ => exact ⟨_, List.mem_singleton.2 rfl, by simp⟩

/-- The instants of a period on the supported time line. -/
def onLine (p : Period) : Int → Prop := fun t => (MINT ≤ t ∧ t < MAXT) ∧ sem p t

theorem parts_all (p : Period) (t : Int) : (∀ a ∈ allPeriodParts p, sem a t) ↔ sem p t := by
  cases p with
  | all ps => rw [sem]; rfl
  | _ => simp [allPeriodParts]

theorem parts_any (p : Period) (t : Int) : (∃ a ∈ anyPeriodParts p, sem a t) ↔ sem p t := by
  cases p with
  | any ps => rw [sem]; simp [anyPeriodParts]
  | _ => simp [anyPeriodParts]

theorem timeLevel : LevelOk Substantial onLine (fun d t => ¬ d t) (fun a b t => a t ∧ b t) (fun a b t => a t ∨ b t)
    (fun _ => True) (fun n => n = 0) timeOpers := by
  intro ts l hne hts hl
  have hz : ∀ t ∈ ts, t.map rFac = (t.map Prod.snd).map (fun y => [Tok.val y]) := by
    intro t ht
    rw [List.map_map]
    apply List.map_congr_left
    intro p hp
    have := ((hts t ht).2 p hp).2
    simp [rFac, this]
  obtain ⟨z, h1, h2, h3⟩ := assemble_and_or (Good := Substantial) (interp := onLine) (d0 := fun _ => True)
    (da := fun a b t => a t ∧ b t) (dor := fun a b t => a t ∨ b t)
    (fa := fun x y => match x, y with
      | .val p, .val q => Period.mkAll ([p, q].flatMap allPeriodParts)
      | _, _ => .error .type)
    (fo := fun x y => match x, y with
      | .val p, .val q => Period.mkAny ([p, q].flatMap anyPeriodParts)
      | _, _ => .error .type)
    (by intro a b c; funext t; simp [and_assoc]) (by intro a b c; funext t; simp [or_assoc])
    (by
      intro x y hx hy
      obtain ⟨q1, q2⟩ := substantial_all hx
      obtain ⟨q, hq⟩ := List.exists_mem_of_ne_nil _ q1
      have q3 := (substantial_all hy).2
      have hf : ∀ q ∈ [x, y].flatMap allPeriodParts, q ≠ .always ∧ ∀ qs, q ≠ .all qs := by
        intro q hq
        simp only [List.flatMap_cons, List.flatMap_nil, List.append_nil, List.mem_append] at hq
        exact hq.elim (q2 q) (q3 q)
      have hm : q ∈ [x, y].flatMap allPeriodParts := by simp [hq]
      have hne : ([x, y].flatMap allPeriodParts).isEmpty = false := by
        rw [List.isEmpty_eq_false_iff]; intro h; rw [h] at hm; simp at hm
      have hok : Period.mkAll ([x, y].flatMap allPeriodParts) =
          .ok (.all (Period.setOf (Period.allMembers ([x, y].flatMap allPeriodParts)))) := by
        rw [Period.mkAll, hne]; rfl
      refine ⟨_, hok, ⟨?_, fun z hz => ?_⟩, ?_⟩
      · obtain ⟨z, hz, -⟩ := Period.setOf_covers (l := Period.allMembers ([x, y].flatMap allPeriodParts))
          (p := q) (by rw [allMembers_flat hf]; exact hm)
        exact List.ne_nil_of_mem hz
      · have := Period.mem_setOf hz
        rw [allMembers_flat hf] at this
        exact hf z this
      funext t
      apply propext
      simp only [onLine]
      constructor
      · rintro ⟨ht, hs⟩
        rw [(C17_constructors _ _ t ht).1 hok] at hs
        refine ⟨⟨ht, (parts_all x t).1 (fun a ha => hs a (by simp [ha]))⟩, ht, (parts_all y t).1 (fun a ha => hs a (by simp [ha]))⟩
      · rintro ⟨⟨ht, h1⟩, _, h2⟩
        refine ⟨ht, ?_⟩
        rw [(C17_constructors _ _ t ht).1 hok]
        intro a ha
        simp only [List.flatMap_cons, List.flatMap_nil, List.append_nil, List.mem_append] at ha
        rcases ha with ha | ha
        · exact (parts_all x t).2 h1 a ha
        · exact (parts_all y t).2 h2 a ha)
    (by
      intro x y hx hy
      obtain ⟨q, q1, q3⟩ := substantial_any hx
      have hm : q ∈ [x, y].flatMap anyPeriodParts := by simp [q1]
      have hne : ([x, y].flatMap anyPeriodParts).isEmpty = false := by
        rw [List.isEmpty_eq_false_iff]; intro h; rw [h] at hm; simp at hm
      have hok : Period.mkAny ([x, y].flatMap anyPeriodParts) =
          .ok (.any (Period.setOf (Period.anyMembers [] ([x, y].flatMap anyPeriodParts)))) := by
        rw [Period.mkAny, hne]; rfl
      have hrep : ∀ q, (∀ qs, q ≠ .any qs) → ∀ z, Period.same z q = true → ∀ qs, z ≠ .any qs := by
        rintro q hq z hz qs rfl
        cases q <;> simp only [Period.same, Bool.false_eq_true] at hz
        exact hq _ rfl
      refine ⟨_, hok, ?_, ?_⟩
      · rcases mem_anyMembers q3 [] hm with h | h
        · obtain ⟨z, hz, hs⟩ := Period.setOf_covers h
          exact ⟨z, hz, hrep q q3 z hs⟩
        · obtain ⟨z, hz, hs⟩ := Period.setOf_covers h
          exact ⟨z, hz, hrep .always (by simp) z hs⟩
      funext t
      apply propext
      simp only [onLine]
      constructor
      · rintro ⟨ht, hs⟩
        rw [(C17_constructors _ _ t ht).2 hok] at hs
        obtain ⟨a, ha, hs⟩ := hs
        simp only [List.flatMap_cons, List.flatMap_nil, List.append_nil, List.mem_append] at ha
        rcases ha with ha | ha
        · exact Or.inl ⟨ht, (parts_any x t).1 ⟨a, ha, hs⟩⟩
        · exact Or.inr ⟨ht, (parts_any y t).1 ⟨a, ha, hs⟩⟩
      · rintro (⟨ht, h1⟩ | ⟨ht, h1⟩)
        · refine ⟨ht, ?_⟩
          rw [(C17_constructors _ _ t ht).2 hok]
          obtain ⟨a, ha, hs⟩ := (parts_any x t).2 h1
          exact ⟨a, by simp [ha], hs⟩
        · refine ⟨ht, ?_⟩
          rw [(C17_constructors _ _ t ht).2 hok]
          obtain ⟨a, ha, hs⟩ := (parts_any y t).2 h1
          exact ⟨a, by simp [ha], hs⟩)
    (ts.map (fun t => t.map Prod.snd)) (by simpa using hne)
    (by
      intro t ht
      rw [List.mem_map] at ht
      obtain ⟨t', ht', rfl⟩ := ht
      refine ⟨by simpa using (hts t' ht').1, ?_⟩
      intro x hx
      rw [List.mem_map] at hx
      obtain ⟨p, hp, rfl⟩ := hx
      exact ((hts t' ht').2 p hp).1)
    l (by
      rw [hl, List.map_map]
      congr 1
      apply List.map_congr_left
      intro t ht
      simp only [Function.comp]
      rw [hz t ht])
  refine ⟨z, h1, h2, ?_⟩
  rw [h3, List.map_map]
  congr 1
  apply List.map_congr_left
  intro t ht
  simp only [Function.comp, List.map_map]
  congr 1
  apply List.map_congr_left
  intro p hp
  have := ((hts t ht).2 p hp).2
  simp [this, iter]

theorem den_instants (m : List Char → Int → Prop) : ∀ e : Written,
    den (fun d t => ¬ d t) (fun a b t => a t ∧ b t) (fun a b t => a t ∨ b t) m e = e.instants m
  | .item pre w post => by simp [den, Written.instants]
  | .group e => by rw [den, Written.instants, den_instants m e]
  | .not pre post e => by rw [den, Written.instants, den_instants m e]
  | .and a pre post b => by rw [den, Written.instants, den_instants m a, den_instants m b]
  | .or a pre post b => by rw [den, Written.instants, den_instants m a, den_instants m b]

/-- C24 for time strings (no negation there): the parsed period contains, on the supported time line, exactly the
instants of the written expression.  What is missing, besides the blanks of `C24_condition_partial`: the item `always`
(`C24_always_violated`). -/
theorem C24_time_partial (item : List Char → Except PyErr Period) (m : List Char → Int → Prop) (e : Written) (hp : e.Proper)
    (hn : e.NoNot) (hit : ∀ w ∈ e.words, ∃ p, item w = .ok p ∧ Substantial p ∧ ∀ t, MINT ≤ t → t < MAXT → (sem p t ↔ m w t)) :
    ∃ p, parseTime item e.text = .ok (.val p) ∧ ∀ t, MINT ≤ t → t < MAXT → (sem p t ↔ e.instants m t) := by
  obtain ⟨z, h1, _, h3⟩ := (instructionParse_written (f := fun w t => (MINT ≤ t ∧ t < MAXT) ∧ m w t)
    (by intro a b c; funext t; simp [and_assoc]) (by intro a b c; funext t; simp [or_assoc]) timeLevel rfl
    (item := item) (by simp [timeOpers, Oper.symbol]) (by simp [timeOpers, Oper.symbol]) (by simp [timeOpers, Oper.symbol]) e hp
    (Or.inl hn)).1
    (fun w hw => by
      obtain ⟨c, a, b, d⟩ := hit w hw
      refine ⟨c, a, b, ?_⟩
      funext t
      apply propext
      simp only [onLine]
      exact ⟨fun ⟨h1, h2⟩ => ⟨h1, (d t h1.1 h1.2).1 h2⟩, fun ⟨h1, h2⟩ => ⟨h1, (d t h1.1 h1.2).2 h2⟩⟩)
  refine ⟨z, h1, ?_⟩
  intro t t1 t2
  have h4 := congrFun h3 t
  rw [den_instants] at h4
  have h5 : sem z t ↔ onLine z t := ⟨fun h => ⟨⟨t1, t2⟩, h⟩, fun h => h.2⟩
  rw [h5, h4]
  clear h1 h3 h4 h5 hit hp
  induction e with
  | item pre w post => exact ⟨fun h => h.2, fun h => ⟨⟨t1, t2⟩, h⟩⟩
  | group e ih => exact ih hn
  | not pre post e ih => exact absurd hn (by simp [Written.NoNot])
  | and a pre post b iha ihb => exact and_congr (iha hn.1) (ihb hn.2)
  | or a pre post b iha ihb => exact or_congr (iha hn.1) (ihb hn.2)

/-! ### C24: unbalanced brackets -/

theorem findOuter_count : ∀ (s P : List Char) (o c f l st en : Nat), P.count '(' = o → P.count ')' = c →
    (0 < c → l < P.length ∧ (P.take (l + 1)).count ')' = c) →
    findOuter s P.length o c f l = .ok (st, en) →
    ((P ++ s).take (en + 1)).count '(' ≤ ((P ++ s).take (en + 1)).count ')'
  | [], P, o, c, f, l, st, en, _, _, _, h => by simp [findOuter] at h
  | ch :: s, P, o, c, f, l, st, en, ho, hc, hl, h => by
    have eP : P ++ ch :: s = (P ++ [ch]) ++ s := by simp
    have len : (P ++ [ch]).length = P.length + 1 := by simp
    rw [findOuter] at h
    by_cases h1 : ch = '('
    · subst h1
      rw [if_pos rfl] at h
      simp only at h
      by_cases h2 : o + 1 = c
      · rw [if_pos h2] at h
        simp only [Except.ok.injEq, Prod.mk.injEq] at h
        obtain ⟨-, rfl⟩ := h
        obtain ⟨l1, l2⟩ := hl (by omega)
        rw [List.take_append_of_le_length (by omega), l2]
        have : (P.take (l + 1)).count '(' ≤ P.count '(' := (List.take_sublist _ _).count_le _
        omega
      · rw [if_neg h2, ← len] at h
        rw [eP]
        refine findOuter_count s (P ++ ['(']) (o + 1) c _ l st en (by simp [ho]) (by simp [hc]) ?_ h
        intro hc0
        obtain ⟨l1, l2⟩ := hl hc0
        refine ⟨by simp; omega, ?_⟩
        rw [List.take_append_of_le_length (by omega)]
        exact l2
    · rw [if_neg h1] at h
      by_cases h3 : ch = ')'
      · subst h3
        rw [if_pos rfl] at h
        by_cases h2 : o = c + 1
        · rw [if_pos h2] at h
          simp only [Except.ok.injEq, Prod.mk.injEq] at h
          obtain ⟨-, rfl⟩ := h
          rw [eP, List.take_append_of_le_length (by simp), List.take_of_length_le (by simp)]
          simp [ho, hc, h2]
        · rw [if_neg h2, ← len] at h
          rw [eP]
          refine findOuter_count s (P ++ [')']) o (c + 1) _ P.length st en (by simp [ho]) (by simp [hc]) ?_ h
          intro _
          refine ⟨by simp, ?_⟩
          rw [List.take_of_length_le (by simp)]
          simp [hc]
      · rw [if_neg h3, ← len] at h
        rw [eP]
        refine findOuter_count s (P ++ [ch]) o c _ l st en ?_ ?_ ?_ h
        · rw [List.count_append, ho, List.count_cons_of_ne (by simpa using h1)]; simp
        · rw [List.count_append, hc, List.count_cons_of_ne (by simpa using h3)]; simp
        · intro hc0
          obtain ⟨l1, l2⟩ := hl hc0
          refine ⟨by simp; omega, ?_⟩
          rw [List.take_append_of_le_length (by omega)]
          exact l2

theorem toList_count : ∀ (n : Nat) (s : List Char) (l : List PTree), toListAux n s = .ok l → s.count '(' ≤ s.count ')'
  | 0, s, l, h => by simp [toListAux] at h
  | n + 1, s, l, h => by
    rw [toListAux] at h
    by_cases hm : '(' ∈ s
    · rw [if_pos hm] at h
      cases hf : findOuter s 0 0 0 0 0 with
      | error e => rw [hf] at h; exact absurd h (by simp)
      | ok p =>
        obtain ⟨st, en⟩ := p
        rw [hf] at h
        simp only at h
        cases h1 : toListAux n ((s.take en).drop (st + 1)) with
        | error e => rw [h1] at h; exact absurd h (by simp)
        | ok l1 =>
          rw [h1] at h
          simp only at h
          cases h2 : toListAux n (s.drop (en + 1)) with
          | error e => rw [h2] at h; exact absurd h (by simp)
          | ok l2 =>
            have c1 := findOuter_count s [] 0 0 0 0 st en rfl rfl (by simp) hf
            have c2 := toList_count n _ _ h2
            rw [List.nil_append] at c1
            have e : s = s.take (en + 1) ++ s.drop (en + 1) := (List.take_append_drop _ _).symm
            rw [e, List.count_append, List.count_append]
            omega
    · rw [List.count_eq_zero.2 hm]
      omega

/-- C24: every string with more opening than closing brackets is rejected, by both parsers. -/
theorem C24_unbalanced (s : List Char) (h : s.count ')' < s.count '(') :
    (∀ (strLeaf : Char → L) (item : List Char → Except PyErr (Cond L)), ∃ err, parseCondition strLeaf item s = .error err) ∧
    (∀ item : List Char → Except PyErr Period, ∃ err, parseTime item s = .error err) := by
  have : ∃ err, toList s = .error err := by
    cases ht : toList s with
    | error e => exact ⟨e, rfl⟩
    | ok l =>
      have := toList_count _ _ _ ht
      omega
  obtain ⟨err, he⟩ := this
  constructor
  · intro strLeaf item
    exact ⟨err, by rw [parseCondition, instructionParse, he]⟩
  · intro item
    exact ⟨err, by rw [parseTime, instructionParse, he]⟩

/-- The recursion of `to_list` always ends: the fuel given by `toList` is enough for every string. -/
theorem toList_fuel : ∀ (n : Nat) (s : List Char), s.length < n → toListAux n s ≠ .error .recursion
  | 0, s, h => by omega
  | n + 1, s, h => by
    have hfo : ∀ (s : List Char) (i o c f l : Nat), findOuter s i o c f l ≠ .error .recursion := by
      intro s
      induction s with
      | nil => intros; simp [findOuter]
      | cons ch s ih =>
        intro i o c f l
        rw [findOuter]
        split
        · simp only
          split
          · simp
          · exact ih _ _ _ _ _
        · split
          · split
            · simp
            · exact ih _ _ _ _ _
          · exact ih _ _ _ _ _
    rw [toListAux]
    by_cases hm : '(' ∈ s
    · rw [if_pos hm]
      have hpos : 0 < s.length := List.length_pos_of_mem hm
      cases hf : findOuter s 0 0 0 0 0 with
      | error e => simp only; intro h2; rw [Except.error.injEq] at h2; rw [h2] at hf; exact hfo _ _ _ _ _ _ hf
      | ok p =>
        obtain ⟨st, en⟩ := p
        simp only
        have r1 := toList_fuel n ((s.take en).drop (st + 1)) (by simp only [List.length_drop, List.length_take]; omega)
        have r2 := toList_fuel n (s.drop (en + 1)) (by simp only [List.length_drop]; omega)
        cases h1 : toListAux n ((s.take en).drop (st + 1)) with
        | error e => simp only; intro h3; rw [h3] at h1; exact r1 h1
        | ok l1 =>
          simp only
          cases h2 : toListAux n (s.drop (en + 1)) with
          | error e => simp only; intro h3; rw [h3] at h2; exact r2 h2
          | ok l2 => simp
    · rw [if_neg hm]
      simp

/-! ### C24: what goes wrong -/

/-- C24 does not hold for every layout: a blank before an opening bracket at the start, between two opening brackets, or
after a closing bracket at the end is read as an item of its own, and the empty item is unknown. -/
theorem C24_blank_violated (strLeaf : Char → L) (item : List Char → Except PyErr (Cond L)) (a b : Cond L)
    (h0 : item [] = .error .value) (ha : item ['a'] = .ok a) (hb : item ['b'] = .ok b) :
    parseCondition strLeaf item "(a & b)".toList = .ok (.all (allParts a ++ allParts b |>.flatMap allParts)) ∧
    parseCondition strLeaf item " (a & b)".toList = .error .value ∧
    parseCondition strLeaf item "(a & b) ".toList = .error .value ∧
    parseCondition strLeaf item "( (a) & b)".toList = .error .value := by
  refine ⟨?_, ?_, ?_, ?_⟩ <;> simp [parseCondition, instructionParse, toList, toListAux, findOuter, splitTrees, splitTree,
    splitOperations, strip, isSpace, splitKeep, condOpers, Oper.symbol, parseTrees, parseTree, parseString, h0, ha, hb,
    reduceArgs, reduceArg, assemble, assembleOpers, assembleOper, operLoop, operStep, Tok.isOp, prevIndex, Tok.cond, mkAll,
    List.findIdx?_cons]

/-- C24 does not hold for the registered time item `always`: the conjunction of two such items is a composition of
nothing, and two of these cannot be combined. -/
theorem C24_always_violated (item : List Char → Except PyErr Period) (ha : item ['a'] = .ok .always) :
    parseTime item "(a & a) & (a & a)".toList = .error .value := by
  simp [parseTime, instructionParse, toList, toListAux, findOuter, splitTrees, splitTree,
    splitOperations, strip, isSpace, splitKeep, timeOpers, Oper.symbol, parseTrees, parseTree, parseString, ha,
    reduceArgs, reduceArg, assemble, assembleOpers, assembleOper, operLoop, operStep, Tok.isOp, prevIndex, Period.mkAll,
    allPeriodParts, Period.allMembers, Period.setOf, Period.setFrom, List.findIdx?_cons]

/-- Beyond C24: texts that are no expressions are not all rejected.  A second operand without operator is ignored, and a
negation may follow its operand. -/
theorem C24_malformed (strLeaf : Char → L) (item : List Char → Except PyErr (Cond L)) (a b : Cond L)
    (ha : item ['a'] = .ok a) (hb : item ['b'] = .ok b) :
    parseCondition strLeaf item "a (b)".toList = .ok a ∧
    parseCondition strLeaf item "a ~".toList = .ok a.invert ∧
    parseCondition strLeaf item "a & ~ b".toList = .ok (.all ((allParts a ++ allParts b.invert).flatMap allParts)) ∧
    parseCondition strLeaf item "a &".toList = .error .index ∧
    parseCondition strLeaf item "".toList = .error .index := by
  refine ⟨?_, ?_, ?_, ?_, ?_⟩ <;> simp [parseCondition, instructionParse, toList, toListAux, findOuter, splitTrees, splitTree,
    splitOperations, strip, isSpace, splitKeep, condOpers, Oper.symbol, parseTrees, parseTree, parseString, ha, hb,
    reduceArgs, reduceArg, assemble, assembleOpers, assembleOper, operLoop, operStep, Tok.isOp, prevIndex, Tok.cond, mkAll,
    List.findIdx?_cons]

/-- A case for C24: `~a &(b | c)`. -/
def exampleWritten : Written :=
  .and (.not [] [] (.item [] ['a'] [' '])) [] [] (.group (.or (.item [] ['b'] [' ']) [] [' '] (.item [] ['c'] [])))

example : exampleWritten.text = "~a &(b | c)".toList := by decide
example : exampleWritten.Proper := by
  simp only [exampleWritten, Written.Proper, Written.Conj, Written.Tight, Written.Blank, Written.Word]
  simp

end Rocketry.Props
