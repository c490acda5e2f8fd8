import Verif.Text.Regex

/-!
# Matching texts with unknown parts

A shape is a text in which some parts are unknown texts of a given kind.  `refute` and `sym` decide (in part) whether
a pattern matches no instance of a shape, or every instance and with which groups; `refute_sound` and `sym_sound` prove
this for all instances.  This file is proof machinery: nothing of it occurs in the statement of a property.
-/

namespace Rocketry

/-- What is known about an unknown part.  Every one is nonempty and contains no newline. -/
inductive Kind where
  /-- contains no quote -/
  | plain
  /-- contains no quote, and a blank followed by it does not contain " and " -/
  | noAnd
  /-- digits -/
  | num
  /-- no restriction -/
  | wild
  deriving DecidableEq, Repr

/-- A known character or an unknown text. -/
inductive SC where
  | chr (c : Char)
  | var (i : Nat) (k : Kind)
  deriving DecidableEq, Repr

abbrev Shape := List SC

/-- `" and "` -/
def andText : List Char := [' ', 'a', 'n', 'd', ' ']

/-- The text `w` is of the kind. -/
def Kind.Holds (k : Kind) (w : List Char) : Prop :=
  w ≠ [] ∧ (∀ c ∈ w, notNewline c = true) ∧
  match k with
  | .plain => '\'' ∉ w
  | .noAnd => '\'' ∉ w ∧ ¬ andText <:+: ' ' :: w
  | .num => ∀ c ∈ w, isNum c = true
  | .wild => True

/-- An instance of a shape. -/
def inst (σ : Nat → List Char) : Shape → List Char
  | [] => []
  | .chr c :: st => c :: inst σ st
  | .var i _ :: st => σ i ++ inst σ st

/-- The unknown parts are of their kinds. -/
def Good (σ : Nat → List Char) (st : Shape) : Prop := ∀ i k, SC.var i k ∈ st → k.Holds (σ i)

def shape (s : String) : Shape := s.toList.map .chr

theorem inst_append (σ : Nat → List Char) (a b : Shape) : inst σ (a ++ b) = inst σ a ++ inst σ b := by
  induction a with
  | nil => rfl
  | cons x a ih => cases x <;> simp [inst, ih]

theorem inst_chars (σ : Nat → List Char) (l : List Char) : inst σ (l.map .chr) = l := by
  induction l with
  | nil => rfl
  | cons c l ih => simp [inst, ih]

theorem Good.cons {σ : Nat → List Char} {x : SC} {st : Shape} (h : Good σ (x :: st)) : Good σ st :=
  fun i k hm => h i k (by simp [hm])

theorem Good.suffix {σ : Nat → List Char} {st r : Shape} (h : Good σ st) (hr : r <:+ st) : Good σ r :=
  fun i k hm => h i k (hr.subset hm)

theorem Good.prefix {σ : Nat → List Char} {st r : Shape} (h : Good σ st) (hr : r <+: st) : Good σ r :=
  fun i k hm => h i k (hr.subset hm)

theorem inst_ne_nil {σ : Nat → List Char} {st : Shape} (h : Good σ st) (hn : st ≠ []) : inst σ st ≠ [] := by
  cases st with
  | nil => exact absurd rfl hn
  | cons x st =>
    cases x with
    | chr c => simp [inst]
    | var i k => simp [inst, (h i k (by simp)).1]

/-! ### known prefixes -/

inductive Strip where
  | clash
  | unknown
  | rest (r : Shape)
  deriving DecidableEq

/-- Can the text `q` be a prefix of an instance? -/
def stripS : List Char → Shape → Strip
  | [], st => .rest st
  | _ :: _, [] => .clash
  | c :: q, .chr d :: st => if c = d then stripS q st else .clash
  | c :: _, .var _ k :: _ =>
    if c = '\'' ∧ k ≠ .wild then .clash else if k = .num ∧ isNum c = false then .clash else .unknown

theorem Kind.Holds.noQuote {k : Kind} {w : List Char} (h : k.Holds w) (hk : k ≠ .wild) : '\'' ∉ w := by
  cases k with
  | plain => exact h.2.2
  | noAnd => exact h.2.2.1
  | num => intro hm; have := h.2.2 _ hm; revert this; decide
  | wild => exact absurd rfl hk

theorem stripS_rest {q : List Char} : ∀ {st r : Shape}, stripS q st = .rest r →
    st = q.map .chr ++ r := by
  induction q with
  | nil => intro st r h; simpa [stripS] using h
  | cons c q ih =>
    intro st r h
    cases st with
    | nil => simp [stripS] at h
    | cons x st =>
      cases x with
      | chr d =>
        rw [stripS] at h
        by_cases hc : c = d
        · rw [if_pos hc] at h; rw [ih h, hc]; rfl
        · rw [if_neg hc] at h; cases h
      | var i k =>
        rw [stripS] at h
        split at h
        · cases h
        · split at h <;> cases h

theorem stripS_clash {σ : Nat → List Char} {q : List Char} : ∀ {st : Shape}, Good σ st → stripS q st = .clash →
    stripPrefix q (inst σ st) = none := by
  induction q with
  | nil => intro st _ h; simp [stripS] at h
  | cons c q ih =>
    intro st hg h
    cases st with
    | nil => simp [inst, stripPrefix]
    | cons x st =>
      cases x with
      | chr d =>
        rw [stripS] at h
        rw [inst, stripPrefix]
        by_cases hc : c = d
        · rw [if_pos hc] at h ⊢; exact ih hg.cons h
        · rw [if_neg hc]
      | var i k =>
        rw [stripS] at h
        by_cases hc : c = '\'' ∧ k ≠ .wild
        · have hh := hg i k (by simp)
          have hq := hh.noQuote hc.2
          rw [inst]
          cases hw : σ i with
          | nil => exact absurd hw hh.1
          | cons d w =>
            rw [hw] at hq
            simp only [List.mem_cons, not_or] at hq
            rw [List.cons_append, stripPrefix, if_neg]
            rw [hc.1]; exact hq.1
        · rw [if_neg hc] at h
          by_cases hn : k = .num ∧ isNum c = false
          · have hh := hg i k (by simp)
            rw [hn.1] at hh
            rw [inst]
            cases hw : σ i with
            | nil => exact absurd hw hh.1
            | cons d w =>
              rw [hw] at hh
              rw [List.cons_append, stripPrefix, if_neg]
              intro he
              have := hh.2.2 d (by simp)
              rw [← he, hn.2] at this
              cases this
          · rw [if_neg hn] at h; cases h

theorem stripPrefix_rest {σ : Nat → List Char} {q : List Char} {st r : Shape} (h : stripS q st = .rest r) :
    stripPrefix q (inst σ st) = some (inst σ r) ∧ r <:+ st := by
  have h1 := stripS_rest h
  constructor
  · rw [h1, inst_append, inst_chars, stripPrefix_append]
  · rw [h1]; exact List.suffix_append _ _

/-! ### known suffixes -/

/-- The texts matched by a pattern without groups. -/
def texts : Pat → Option (List (List Char))
  | [] => some [[]]
  | .lit q :: p => (texts p).map (fun ts => ts.map (q ++ ·))
  | .opt q :: p => (texts p).map (fun ts => ts ++ ts.map (q ++ ·))
  | _ => none

/-- Can the text `t` be a suffix of an instance? -/
def stripEnd (t : List Char) (st : Shape) : Strip := stripS t.reverse st.reverse

theorem inst_reverse (σ : Nat → List Char) (st : Shape) :
    inst (fun i => (σ i).reverse) st.reverse = (inst σ st).reverse := by
  induction st with
  | nil => rfl
  | cons x st ih => cases x <;> simp [inst, inst_append, ih]

theorem Kind.Holds.reverse {k : Kind} {w : List Char} (h : k.Holds w) (hk : k ≠ .noAnd) : k.Holds w.reverse := by
  refine ⟨by simpa using h.1, fun c hc => h.2.1 c (by simpa using hc), ?_⟩
  have := h.2.2
  cases k with
  | plain => simpa using this
  | noAnd => exact absurd rfl hk
  | num => simpa using this
  | wild => trivial

/-- Forgetting that " and " does not occur. -/
def Kind.weaken : Kind → Kind
  | .noAnd => .plain
  | k => k

def SC.weaken : SC → SC
  | .var i k => .var i k.weaken
  | c => c

theorem stripS_weaken (q : List Char) : ∀ st : Shape, stripS q st = .clash → stripS q (st.map SC.weaken) = .clash := by
  induction q with
  | nil => intro st h; simp [stripS] at h
  | cons c q ih =>
    intro st h
    cases st with
    | nil => rfl
    | cons x st =>
      cases x with
      | chr d =>
        simp only [List.map_cons, SC.weaken, stripS] at h ⊢
        by_cases hc : c = d
        · rw [if_pos hc] at h ⊢; exact ih st h
        · rw [if_neg hc]
      | var i k =>
        simp only [List.map_cons, SC.weaken, stripS] at h ⊢
        by_cases hc : c = '\'' ∧ k ≠ .wild
        · rw [if_pos]
          refine ⟨hc.1, ?_⟩
          have := hc.2
          cases k <;> simp_all [Kind.weaken]
        · rw [if_neg hc] at h
          by_cases hn : k = .num ∧ isNum c = false
          · rw [hn.1] at hc ⊢
            rw [show Kind.num.weaken = .num from rfl, if_neg hc, if_pos ⟨rfl, hn.2⟩]
          · rw [if_neg hn] at h; cases h

theorem inst_weaken (σ : Nat → List Char) (st : Shape) : inst σ (st.map SC.weaken) = inst σ st := by
  induction st with
  | nil => rfl
  | cons x st ih => cases x <;> simp [inst, SC.weaken, ih]

theorem stripEnd_clash {σ : Nat → List Char} {t : List Char} {st : Shape} (hg : Good σ st)
    (h : stripEnd t st = .clash) : ¬ t <:+ inst σ st := by
  intro hs
  have h1 := stripS_weaken _ _ h
  have hg' : Good (fun i => (σ i).reverse) (st.reverse.map SC.weaken) := by
    intro i k hm
    simp only [List.mem_map, List.mem_reverse] at hm
    obtain ⟨x, hx, he⟩ := hm
    cases x with
    | chr c => cases he
    | var j k' =>
      simp only [SC.weaken, SC.var.injEq] at he
      rw [← he.1, ← he.2]
      have hh := hg j k' hx
      cases k' with
      | plain => exact hh.reverse (by simp)
      | noAnd =>
        exact ⟨by simpa using hh.1, fun c hc => hh.2.1 c (by simpa using hc), by simpa [Kind.weaken] using hh.2.2.1⟩
      | num => exact hh.reverse (by simp)
      | wild => exact hh.reverse (by simp)
  have h2 := stripS_clash hg' h1
  rw [inst_weaken, inst_reverse] at h2
  obtain ⟨w, hw⟩ := hs
  rw [← hw, List.reverse_append, stripPrefix_append] at h2
  cases h2

theorem stripEnd_rest {t : List Char} {st r : Shape} (h : stripEnd t st = .rest r) :
    st = r.reverse ++ t.map .chr := by
  have h1 := stripS_rest h
  have h2 := congrArg List.reverse h1
  rw [List.reverse_reverse, List.reverse_append, List.map_reverse, List.reverse_reverse] at h2
  exact h2

theorem fullmatch_texts : ∀ {p : Pat} {ts : List (List Char)}, texts p = some ts → ∀ {s g},
    fullmatch p s = some g → s ∈ ts ∧ g = [] := by
  intro p
  induction p with
  | nil =>
    intro ts h s g hm
    simp only [texts, Option.some.injEq] at h
    rw [fullmatch] at hm
    split at hm
    · rename_i he
      simp only [List.isEmpty_iff] at he
      simp only [Option.some.injEq] at hm
      rw [← h, he]; exact ⟨by simp, hm.symm⟩
    · cases hm
  | cons x p ih =>
    intro ts h s g hm
    cases x with
    | lit q =>
      simp only [texts, Option.map_eq_some_iff] at h
      obtain ⟨us, h1, h2⟩ := h
      simp only [fullmatch, Option.bind_eq_some_iff] at hm
      obtain ⟨r, h3, h4⟩ := hm
      have := ih h1 h4
      rw [← h2, stripPrefix_eq h3]
      exact ⟨List.mem_map.2 ⟨r, this.1, rfl⟩, this.2⟩
    | opt q =>
      simp only [texts, Option.map_eq_some_iff] at h
      obtain ⟨us, h1, h2⟩ := h
      simp only [fullmatch] at hm
      rw [← h2]
      split at hm
      · rename_i g' he
        simp only [Option.bind_eq_some_iff] at he
        obtain ⟨r, h3, h4⟩ := he
        have := ih h1 h4
        simp only [Option.some.injEq] at hm
        rw [stripPrefix_eq h3]
        exact ⟨List.mem_append.2 (Or.inr (List.mem_map.2 ⟨r, this.1, rfl⟩)), hm ▸ this.2⟩
      · have := ih h1 hm
        exact ⟨List.mem_append.2 (Or.inl this.1), this.2⟩
    | any n => simp [texts] at h
    | alt n o => simp [texts] at h
    | digits n => simp [texts] at h

theorem fullmatch_mem_texts : ∀ {p : Pat} {ts : List (List Char)}, texts p = some ts → ∀ {s},
    s ∈ ts → fullmatch p s = some [] := by
  intro p
  induction p with
  | nil =>
    intro ts h s hm
    simp only [texts, Option.some.injEq] at h
    rw [← h] at hm
    rw [List.mem_singleton.1 hm]; rfl
  | cons x p ih =>
    intro ts h s hm
    cases x with
    | lit q =>
      simp only [texts, Option.map_eq_some_iff] at h
      obtain ⟨us, h1, h2⟩ := h
      rw [← h2] at hm
      obtain ⟨r, h3, rfl⟩ := List.mem_map.1 hm
      rw [fullmatch, stripPrefix_append]
      exact ih h1 h3
    | opt q =>
      simp only [texts, Option.map_eq_some_iff] at h
      obtain ⟨us, h1, h2⟩ := h
      rw [← h2] at hm
      rw [fullmatch]
      cases hb : (stripPrefix q s).bind (fullmatch p) with
      | some g =>
        simp only [Option.bind_eq_some_iff] at hb
        obtain ⟨r, h3, h4⟩ := hb
        simp only [Option.some.injEq]
        exact (fullmatch_texts h1 h4).2
      | none =>
        simp only
        rcases List.mem_append.1 hm with hm | hm
        · exact ih h1 hm
        · obtain ⟨r, h3, rfl⟩ := List.mem_map.1 hm
          rw [stripPrefix_append, Option.bind_some, ih h1 h3] at hb
          cases hb
    | any n => simp [texts] at h
    | alt n o => simp [texts] at h
    | digits n => simp [texts] at h

/-- The end of the pattern cannot match the end of an instance. -/
def refuteEnd (st : Shape) : Pat → Bool
  | [] => false
  | x :: p =>
    (match texts (x :: p) with
      | some ts => ts.all (fun t => decide (stripEnd t st = .clash))
      | none => false) || refuteEnd st p

theorem fullmatch_tail {x : Rx} {p : Pat} {s : List Char} {g : Groups} (h : fullmatch (x :: p) s = some g) :
    ∃ w r g', s = w ++ r ∧ fullmatch p r = some g' := by
  cases x with
  | lit q =>
    simp only [fullmatch, Option.bind_eq_some_iff] at h
    obtain ⟨r, h3, h4⟩ := h
    exact ⟨q, r, g, stripPrefix_eq h3, h4⟩
  | any n =>
    simp only [fullmatch, Option.map_eq_some_iff] at h
    obtain ⟨⟨w, g'⟩, h1, h2⟩ := h
    obtain ⟨r, h3, _, _, h4⟩ := greedy_sound h1
    exact ⟨w, r, g', h3, h4⟩
  | digits n =>
    simp only [fullmatch, Option.map_eq_some_iff] at h
    obtain ⟨⟨w, g'⟩, h1, h2⟩ := h
    obtain ⟨r, h3, _, _, h4⟩ := greedy_sound h1
    exact ⟨w, r, g', h3, h4⟩
  | alt n opts =>
    simp only [fullmatch] at h
    obtain ⟨o, ho, h1⟩ := List.exists_of_findSome?_eq_some h
    simp only [Option.map_eq_some_iff, Option.bind_eq_some_iff] at h1
    obtain ⟨g', ⟨r, h2, h3⟩, _⟩ := h1
    exact ⟨o, r, g', stripPrefix_eq h2, h3⟩
  | opt q =>
    simp only [fullmatch] at h
    split at h
    · rename_i g' he
      simp only [Option.bind_eq_some_iff] at he
      obtain ⟨r, h3, h4⟩ := he
      exact ⟨q, r, g', stripPrefix_eq h3, h4⟩
    · exact ⟨[], s, g, rfl, h⟩

theorem refuteEnd_sound {σ : Nat → List Char} {st : Shape} (hg : Good σ st) : ∀ {p : Pat}, refuteEnd st p = true →
    ∀ {r : List Char} {g : Groups}, r <:+ inst σ st → fullmatch p r = some g → False := by
  intro p
  induction p with
  | nil => intro h; simp [refuteEnd] at h
  | cons x p ih =>
    intro h r g hr hm
    rw [refuteEnd, Bool.or_eq_true] at h
    rcases h with h | h
    · cases ht : texts (x :: p) with
      | none => rw [ht] at h; cases h
      | some ts =>
        rw [ht] at h
        have hmem := (fullmatch_texts ht hm).1
        have := List.all_eq_true.1 h r hmem
        exact stripEnd_clash hg (of_decide_eq_true this) hr
    · obtain ⟨w, r', g', h1, h2⟩ := fullmatch_tail hm
      exact ih h ((by rw [h1]; exact List.suffix_append _ _ : r' <:+ r).trans hr) h2

/-! ### refutation -/

def isWild : SC → Bool
  | .var _ .wild => true
  | _ => false

/-- The pattern begins with a quote. -/
def startsQuote : Pat → Bool
  | .lit ('\'' :: _) :: _ => true
  | _ => false

/-- The suffixes that begin with a quote, the longest first. -/
def quoteSuffixes : Shape → List Shape
  | [] => []
  | .chr c :: st => if c = '\'' then (.chr c :: st) :: quoteSuffixes st else quoteSuffixes st
  | .var _ _ :: st => quoteSuffixes st

/-- No instance is matched (from the start of the pattern). -/
def refuteHead : Pat → Shape → Bool
  | [], st => !st.isEmpty
  | .lit q :: p, st =>
    match stripS q st with
    | .clash => true
    | .unknown => false
    | .rest r => refuteHead p r
  | .any _ :: p, st =>
    st.isEmpty || (startsQuote p && st.all (fun x => !isWild x) && (quoteSuffixes st).all (fun r => refuteHead p r))
  | .alt _ opts :: p, st =>
    opts.all (fun o =>
      match stripS o st with
      | .clash => true
      | .unknown => false
      | .rest r => refuteHead p r)
  | .digits _ :: _, st =>
    match st with
    | [] => true
    | .chr c :: _ => !isNum c
    | .var _ _ :: _ => false
  | .opt q :: p, st =>
    (match stripS q st with
      | .clash => true
      | .unknown => false
      | .rest r => refuteHead p r) && refuteHead p st

theorem quoteSuffixes_suffix : ∀ {st r : Shape}, r ∈ quoteSuffixes st → r <:+ st := by
  intro st
  induction st with
  | nil => intro r h; cases h
  | cons x st ih =>
    intro r h
    cases x with
    | chr c =>
      rw [quoteSuffixes] at h
      split at h
      · rcases List.mem_cons.1 h with rfl | h
        · exact List.suffix_refl _
        · exact (ih h).trans (List.suffix_cons _ _)
      · exact (ih h).trans (List.suffix_cons _ _)
    | var i k => exact (ih h).trans (List.suffix_cons _ _)

/-- A suffix of an instance that begins with a quote is the instance of a suffix. -/
theorem quote_suffix {σ : Nat → List Char} : ∀ {st : Shape}, Good σ st → st.all (fun x => !isWild x) = true →
    ∀ {v : List Char}, '\'' :: v <:+ inst σ st → ∃ r ∈ quoteSuffixes st, inst σ r = '\'' :: v := by
  intro st
  induction st with
  | nil => intro _ _ v h; simp [inst] at h
  | cons x st ih =>
    intro hg hw v h
    simp only [List.all_cons, Bool.and_eq_true] at hw
    cases x with
    | chr c =>
      rw [inst] at h
      rw [quoteSuffixes]
      rcases List.suffix_cons_iff.1 h with h | h
      · simp only [List.cons.injEq] at h
        rw [if_pos h.1.symm]
        exact ⟨_, List.mem_cons_self .., by rw [inst, h.2, ← h.1]⟩
      · obtain ⟨r, h1, h2⟩ := ih hg.cons hw.2 h
        refine ⟨r, ?_, h2⟩
        split
        · exact List.mem_cons_of_mem _ h1
        · exact h1
    | var i k =>
      have hk : k ≠ .wild := by
        intro hk; rw [hk] at hw; simp [isWild] at hw
      have hq := (hg i k (by simp)).noQuote hk
      rw [inst] at h
      rw [quoteSuffixes]
      have h' : '\'' :: v <:+ inst σ st := by
        generalize σ i = w at h hq
        induction w with
        | nil => exact h
        | cons c w ihw =>
          simp only [List.mem_cons, not_or] at hq
          rw [List.cons_append] at h
          rcases List.suffix_cons_iff.1 h with h | h
          · simp only [List.cons.injEq] at h
            exact absurd h.1 hq.1
          · exact ihw h hq.2
      exact ih hg.cons hw.2 h'

theorem fullmatch_startsQuote {p : Pat} (hp : startsQuote p = true) {s : List Char} {g : Groups}
    (h : fullmatch p s = some g) : ∃ v, s = '\'' :: v := by
  unfold startsQuote at hp
  split at hp
  · simp only [fullmatch, Option.bind_eq_some_iff] at h
    obtain ⟨r, h1, _⟩ := h
    exact ⟨_, stripPrefix_eq h1⟩
  · cases hp

theorem refuteHead_sound {σ : Nat → List Char} : ∀ {p : Pat} {st : Shape}, Good σ st → refuteHead p st = true →
    fullmatch p (inst σ st) = none := by
  intro p
  induction p with
  | nil =>
    intro st hg h
    simp only [refuteHead, Bool.not_eq_true', List.isEmpty_eq_false_iff] at h
    rw [fullmatch, if_neg]
    simpa using inst_ne_nil hg h
  | cons x p ih =>
    intro st hg h
    have strip : ∀ q, (match stripS q st with
        | .clash => true
        | .unknown => false
        | .rest r => refuteHead p r) = true → (stripPrefix q (inst σ st)).bind (fullmatch p) = none := by
      intro q hq
      cases hs : stripS q st with
      | clash => rw [stripS_clash hg hs]; rfl
      | unknown => rw [hs] at hq; cases hq
      | rest r =>
        rw [hs] at hq
        obtain ⟨h1, h2⟩ := stripPrefix_rest (σ := σ) hs
        rw [h1, Option.bind_some, ih (hg.suffix h2) hq]
    cases x with
    | lit q => exact strip q h
    | any n =>
      rw [fullmatch, greedy_none, Option.map_none]
      intro w r hs hw
      rw [refuteHead, Bool.or_eq_true] at h
      rcases h with h | h
      · rw [List.isEmpty_iff.1 h] at hs
        simp only [inst] at hs
        have := (List.append_eq_nil_iff.1 hs.symm).1
        exact absurd this hw
      · simp only [Bool.and_eq_true] at h
        cases hm : fullmatch p r with
        | none => rfl
        | some g =>
          obtain ⟨v, hv⟩ := fullmatch_startsQuote h.1.1 hm
          obtain ⟨r', h1, h2⟩ := quote_suffix hg h.1.2 (v := v) (by
            rw [hs, ← hv]; exact List.suffix_append _ _)
          have h3 := ih (hg.suffix (quoteSuffixes_suffix h1)) (List.all_eq_true.1 h.2 r' h1)
          rw [h2, ← hv, hm] at h3
          cases h3
    | alt n opts =>
      rw [fullmatch, List.findSome?_eq_none_iff]
      intro o ho
      rw [refuteHead] at h
      rw [strip o (List.all_eq_true.1 h o ho)]
      rfl
    | digits n =>
      rw [fullmatch]
      have : greedy isNum (fullmatch p) (inst σ st) = none := by
        cases st with
        | nil => rfl
        | cons x st =>
          cases x with
          | chr c =>
            simp only [refuteHead, Bool.not_eq_true'] at h
            rw [inst, greedy, if_neg]
            simp [h]
          | var i k => simp [refuteHead] at h
      rw [this]; rfl
    | opt q =>
      rw [refuteHead, Bool.and_eq_true] at h
      rw [fullmatch, strip q h.1]
      exact ih hg h.2

/-- The number of quotes that every match contains at least. -/
def quotes : Pat → Nat
  | [] => 0
  | .lit q :: p => q.count '\'' + quotes p
  | _ :: p => quotes p

/-- The number of quotes of an instance without unrestricted parts. -/
def quotesS : Shape → Nat
  | [] => 0
  | .chr c :: st => (if c = '\'' then 1 else 0) + quotesS st
  | .var _ _ :: st => quotesS st

theorem fullmatch_quotes : ∀ {p : Pat} {s : List Char} {g : Groups}, fullmatch p s = some g →
    quotes p ≤ s.count '\'' := by
  intro p
  induction p with
  | nil => intro s g _; exact Nat.zero_le _
  | cons x p ih =>
    intro s g h
    obtain ⟨w, r, g', h1, h2⟩ := fullmatch_tail h
    have h3 := ih h2
    cases x with
    | lit q =>
      simp only [fullmatch, Option.bind_eq_some_iff] at h
      obtain ⟨r', h4, h5⟩ := h
      rw [quotes, stripPrefix_eq h4, List.count_append]
      have := ih h5
      omega
    | any n => simp only [quotes]; rw [h1, List.count_append]; omega
    | alt n o => simp only [quotes]; rw [h1, List.count_append]; omega
    | digits n => simp only [quotes]; rw [h1, List.count_append]; omega
    | opt q => simp only [quotes]; rw [h1, List.count_append]; omega

theorem quotesS_eq {σ : Nat → List Char} : ∀ {st : Shape}, Good σ st → st.all (fun x => !isWild x) = true →
    (inst σ st).count '\'' = quotesS st := by
  intro st
  induction st with
  | nil => intro _ _; rfl
  | cons x st ih =>
    intro hg hw
    simp only [List.all_cons, Bool.and_eq_true] at hw
    cases x with
    | chr c =>
      rw [inst, quotesS, List.count_cons, ih hg.cons hw.2]
      by_cases hc : c = '\''
      · simp [hc]; omega
      · simp [hc]
    | var i k =>
      have hk : k ≠ .wild := by
        intro hk; rw [hk] at hw; simp [isWild] at hw
      rw [inst, quotesS, List.count_append, ih hg.cons hw.2,
        List.count_eq_zero_of_not_mem ((hg i k (by simp)).noQuote hk), Nat.zero_add]

/-- No instance is matched. -/
def refute (p : Pat) (st : Shape) : Bool :=
  refuteHead p st || refuteEnd st p || (st.all (fun x => !isWild x) && decide (quotesS st < quotes p))

theorem refute_sound {σ : Nat → List Char} {p : Pat} {st : Shape} (hg : Good σ st) (h : refute p st = true) :
    fullmatch p (inst σ st) = none := by
  rw [refute, Bool.or_eq_true, Bool.or_eq_true] at h
  rcases h with (h | h) | h
  · exact refuteHead_sound hg h
  · cases hm : fullmatch p (inst σ st) with
    | none => rfl
    | some g => exact (refuteEnd_sound hg h (List.suffix_refl _) hm).elim
  · simp only [Bool.and_eq_true, decide_eq_true_eq] at h
    cases hm : fullmatch p (inst σ st) with
    | none => rfl
    | some g =>
      have := fullmatch_quotes hm
      rw [quotesS_eq hg h.1] at this
      omega

/-! ### matches -/

/-- The first of the texts that can end an instance, which must be known to do so: what is before it. -/
def endWith (st : Shape) : List (List Char) → Option Shape
  | [] => none
  | t :: ts =>
    match stripEnd t st with
    | .clash => endWith st ts
    | .unknown => none
    | .rest r => if r.isEmpty then none else some r.reverse

/-- The last suffix beginning with a quote at which the pattern matches, all later ones being refuted. -/
def lastQuote {β : Type} (p : Pat) (k : Shape → Option β) : List Shape → Option (Shape × β)
  | [] => none
  | r :: rs =>
    match lastQuote p k rs with
    | some x => some x
    | none => if rs.all (fun r => refute p r) then (k r).map (fun g => (r, g)) else none

/-- Known texts contain no newline. -/
def noNewline (st : Shape) : Bool :=
  st.all (fun x => match x with
    | .chr c => notNewline c
    | .var _ _ => true)

/-- Shorter texts first. -/
def shortFirst : List (List Char) → Bool
  | [] => true
  | t :: ts => ts.all (fun u => decide (t.length ≤ u.length)) && shortFirst ts

/-- The rest after a part ending in " and ", when what follows is a single unknown text without it. -/
def andSplit (st : Shape) : Option (Shape × Shape) :=
  match st.reverse with
  | .var j .noAnd :: .chr ' ' :: .chr 'd' :: .chr 'n' :: .chr 'a' :: .chr ' ' :: x =>
    if x.isEmpty then none else some (x.reverse, [.var j .noAnd])
  | _ => none

/-- The pattern is " and " followed by a group. -/
def andRest : Pat → Option String
  | [.lit q, .any m] => if q = andText then some m else none
  | _ => none

def symQuote (n : String) (p : Pat) (k : Shape → Option (List (String × Shape))) (st : Shape) :
    Option (List (String × Shape)) :=
  if startsQuote p && st.all (fun x => !isWild x) && noNewline st then
    (lastQuote p k (quoteSuffixes st)).bind (fun rg =>
      if rg.1.length < st.length then some ((n, st.take (st.length - rg.1.length)) :: rg.2) else none)
  else none

def symAny (n : String) (p : Pat) (k : Shape → Option (List (String × Shape))) (st : Shape) :
    Option (List (String × Shape)) :=
  match andRest p with
  | some m => if noNewline st then (andSplit st).map (fun ab => [(n, ab.1), (m, ab.2)]) else none
  | none =>
    match texts p with
    | some ts => if shortFirst ts && noNewline st then (endWith st ts).map (fun r => [(n, r)]) else none
    | none => symQuote n p k st

def symDigits (n : String) (k : Shape → Option (List (String × Shape))) : Shape → Option (List (String × Shape))
  | .var i .num :: .chr c :: r =>
    if isNum c then none else (k (.chr c :: r)).map (fun g => (n, [.var i .num]) :: g)
  | _ => none

/-- The groups of the match of every instance. -/
def sym : Pat → Shape → Option (List (String × Shape))
  | [], st => if st.isEmpty then some [] else none
  | .lit q :: p, st =>
    match stripS q st with
    | .rest r => sym p r
    | _ => none
  | .any n :: p, st => symAny n p (sym p) st
  | .alt n opts :: p, st =>
    (opts.find? (fun o => decide (stripS o st ≠ .clash))).bind (fun o =>
      match stripS o st with
      | .rest r => (sym p r).map (fun g => (n, o.map .chr) :: g)
      | _ => none)
  | .digits n :: p, st => symDigits n (sym p) st
  | .opt q :: p, st =>
    match stripS q st with
    | .clash => sym p st
    | .unknown => none
    | .rest r => sym p r

/-- Instances of symbolic groups. -/
def instG (σ : Nat → List Char) (g : List (String × Shape)) : Groups := g.map (fun x => (x.1, inst σ x.2))

theorem noNewline_inst {σ : Nat → List Char} : ∀ {st : Shape}, Good σ st → noNewline st = true →
    ∀ c ∈ inst σ st, notNewline c = true := by
  intro st
  induction st with
  | nil => intro _ _ c h; cases h
  | cons x st ih =>
    intro hg h c hc
    simp only [noNewline, List.all_cons, Bool.and_eq_true] at h
    cases x with
    | chr d =>
      rw [inst] at hc
      rcases List.mem_cons.1 hc with rfl | hc
      · exact h.1
      · exact ih hg.cons h.2 c hc
    | var i k =>
      rw [inst] at hc
      rcases List.mem_append.1 hc with hc | hc
      · exact (hg i k (by simp)).2.1 c hc
      · exact ih hg.cons h.2 c hc

theorem endWith_sound {σ : Nat → List Char} {st : Shape} (hg : Good σ st) {p : Pat} {ts : List (List Char)}
    (ht : texts p = some ts) (hn : noNewline st = true) : ∀ (us : List (List Char)), shortFirst us = true →
      (∀ u ∈ us, u ∈ ts) → (∀ t ∈ ts, t ∉ us → ¬ t <:+ inst σ st) → ∀ {r : Shape}, endWith st us = some r →
      greedy notNewline (fullmatch p) (inst σ st) = some (inst σ r, []) := by
  intro us
  induction us with
  | nil => intro _ _ _ r h; cases h
  | cons u us ih =>
    intro hs hsub hrest r h
    simp only [shortFirst, Bool.and_eq_true] at hs
    rw [endWith] at h
    cases hu : stripEnd u st with
    | clash =>
      rw [hu] at h
      refine ih hs.2 (fun v hv => hsub v (by simp [hv])) ?_ h
      intro t h1 h2
      by_cases he : t = u
      · rw [he]; exact stripEnd_clash hg hu
      · exact hrest t h1 (by simp [he, h2])
    | unknown => rw [hu] at h; cases h
    | rest r' =>
      rw [hu] at h
      simp only at h
      by_cases he : r'.isEmpty = true
      · rw [if_pos he] at h; cases h
      · rw [if_neg he] at h
        simp only [Option.some.injEq] at h
        have h1 := stripEnd_rest hu
        rw [h] at h1
        have hr : r <+: st := by rw [h1]; exact List.prefix_append _ _
        rw [h1, inst_append, inst_chars]
        have hrn : r ≠ [] := by
          rw [← h]; simpa using he
        apply greedy_eq
        · exact inst_ne_nil (hg.prefix hr) hrn
        · intro c hc
          refine noNewline_inst hg hn c ?_
          rw [h1, inst_append]
          exact List.mem_append.2 (Or.inl hc)
        · exact fullmatch_mem_texts ht (hsub u (by simp))
        · intro a b ha _ hab
          cases hm : fullmatch p b with
          | none => rfl
          | some g =>
            exfalso
            have hb := (fullmatch_texts ht hm).1
            have hlen : b.length < u.length := by
              rw [hab, List.length_append]
              have := List.length_pos_iff.2 ha
              omega
            have hb' : b ∉ u :: us := by
              intro hbm
              rcases List.mem_cons.1 hbm with hbm | hbm
              · rw [hbm] at hlen; exact absurd hlen (Nat.lt_irrefl _)
              · have := of_decide_eq_true (List.all_eq_true.1 hs.1 b hbm)
                omega
            refine hrest b hb hb' ?_
            rw [h1, inst_append, inst_chars, hab, ← List.append_assoc]
            exact List.suffix_append _ _

theorem lastQuote_mem {β : Type} {p : Pat} {k : Shape → Option β} : ∀ {l : List Shape} {r : Shape} {g : β},
    lastQuote p k l = some (r, g) → k r = some g ∧ ∃ a b, l = a ++ r :: b ∧ ∀ x ∈ b, refute p x = true := by
  intro l
  induction l with
  | nil => intro r g h; cases h
  | cons x l ih =>
    intro r g h
    rw [lastQuote] at h
    cases hl : lastQuote p k l with
    | some y =>
      rw [hl] at h
      simp only [Option.some.injEq] at h
      obtain ⟨h1, a, b, h2, h3⟩ := ih (hl.trans (by rw [h]))
      exact ⟨h1, x :: a, b, by rw [h2]; rfl, h3⟩
    | none =>
      rw [hl] at h
      simp only at h
      by_cases hr : l.all (fun r => refute p r) = true
      · rw [if_pos hr] at h
        simp only [Option.map_eq_some_iff, Prod.mk.injEq] at h
        obtain ⟨g', h1, h2, h3⟩ := h
        rw [← h2, ← h3]
        exact ⟨h1, [], l, rfl, fun y hy => List.all_eq_true.1 hr y hy⟩
      · rw [if_neg hr] at h; cases h

theorem quoteSuffixes_after : ∀ {st : Shape} {a b : List Shape} {r : Shape}, quoteSuffixes st = a ++ r :: b →
    ∃ c t, r = .chr c :: t ∧ quoteSuffixes t = b := by
  intro st
  induction st with
  | nil => intro a b r h; simp [quoteSuffixes] at h
  | cons x st ih =>
    intro a b r h
    cases x with
    | chr c =>
      rw [quoteSuffixes] at h
      by_cases hc : c = '\''
      · rw [if_pos hc] at h
        cases a with
        | nil =>
          simp only [List.nil_append, List.cons.injEq] at h
          exact ⟨c, st, h.1.symm, h.2⟩
        | cons y a =>
          simp only [List.cons_append, List.cons.injEq] at h
          exact ih h.2
      · rw [if_neg hc] at h; exact ih h
    | var i k => exact ih h

theorem lastQuote_sound {σ : Nat → List Char} {p : Pat} {st : Shape} {k : Shape → Option (List (String × Shape))}
    (hg : Good σ st) (hq : startsQuote p = true)
    (hw : st.all (fun x => !isWild x) = true) (hn : noNewline st = true) {r : Shape} {g : List (String × Shape)}
    (hk : ∀ r g, r <:+ st → k r = some g → fullmatch p (inst σ r) = some (instG σ g))
    (h : lastQuote p k (quoteSuffixes st) = some (r, g)) (hl : r.length < st.length) :
    greedy notNewline (fullmatch p) (inst σ st) = some (inst σ (st.take (st.length - r.length)), instG σ g) := by
  obtain ⟨h1, a, b, h2, h3⟩ := lastQuote_mem h
  have hrs : r <:+ st := quoteSuffixes_suffix (by rw [h2]; simp)
  obtain ⟨t, ht⟩ := hrs
  have htake : st.take (st.length - r.length) = t := by
    rw [← ht]; simp
  rw [htake]
  have hgt : Good σ t := hg.prefix (by rw [← ht]; exact List.prefix_append _ _)
  have hgr : Good σ r := hg.suffix (by rw [← ht]; exact List.suffix_append _ _)
  have hi : inst σ st = inst σ t ++ inst σ r := by rw [← ht, inst_append]
  rw [hi]
  apply greedy_eq
  · apply inst_ne_nil hgt
    intro h0
    rw [← ht, h0] at hl
    simp at hl
  · intro c hc
    refine noNewline_inst hg hn c ?_
    rw [hi]
    exact List.mem_append.2 (Or.inl hc)
  · exact hk r g (by rw [← ht]; exact List.suffix_append _ _) h1
  · intro u v hu _ huv
    cases hm : fullmatch p v with
    | none => rfl
    | some g' =>
      exfalso
      obtain ⟨v', hv⟩ := fullmatch_startsQuote hq hm
      obtain ⟨c, r', hr', hb⟩ := quoteSuffixes_after h2
      have hwr : r'.all (fun x => !isWild x) = true := by
        rw [List.all_eq_true] at hw ⊢
        intro x hx
        exact hw x (by rw [← ht, hr']; simp [hx])
      have hsuf : '\'' :: v' <:+ inst σ r' := by
        rw [← hv]
        rw [hr', inst] at huv
        cases u with
        | nil => exact absurd rfl hu
        | cons d u =>
          simp only [List.cons_append, List.cons.injEq] at huv
          rw [huv.2]
          exact List.suffix_append _ _
      have hgr' : Good σ r' := hgr.suffix (by rw [hr']; exact List.suffix_cons _ _)
      obtain ⟨x, hx, hx2⟩ := quote_suffix hgr' hwr hsuf
      have := refute_sound (hgr'.suffix (quoteSuffixes_suffix hx)) (h3 x (hb ▸ hx))
      rw [hx2, ← hv, hm] at this
      cases this

theorem andSplit_eq {st a b : Shape} (h : andSplit st = some (a, b)) :
    ∃ j, a ≠ [] ∧ b = [.var j .noAnd] ∧ st = a ++ (andText.map .chr ++ [.var j .noAnd]) := by
  unfold andSplit at h
  split at h
  · rename_i j x he
    by_cases hx : x.isEmpty = true
    · rw [if_pos hx] at h; cases h
    · rw [if_neg hx] at h
      simp only [Option.some.injEq, Prod.mk.injEq] at h
      refine ⟨j, ?_, h.2.symm, ?_⟩
      · rw [← h.1]; simpa using hx
      · have := congrArg List.reverse he
        rw [List.reverse_reverse] at this
        rw [this, ← h.1]
        simp [andText]
  · cases h

theorem fullmatch_any {n : String} {w : List Char} (h0 : w ≠ []) (h1 : ∀ c ∈ w, notNewline c = true) :
    fullmatch [.any n] w = some [(n, w)] := by
  have : greedy notNewline (fullmatch []) (w ++ []) = some (w, []) :=
    greedy_eq h0 h1 rfl (by
      intro u v hu _ huv
      have := (List.append_eq_nil_iff.1 huv.symm).1
      exact absurd this hu)
  rw [List.append_nil] at this
  rw [fullmatch, this]
  rfl

theorem andSplit_sound {σ : Nat → List Char} {st a b : Shape} {m : String} (hg : Good σ st) (hn : noNewline st = true)
    (h : andSplit st = some (a, b)) :
    greedy notNewline (fullmatch [.lit andText, .any m]) (inst σ st) = some (inst σ a, [(m, inst σ b)]) := by
  obtain ⟨j, ha, hb, hst⟩ := andSplit_eq h
  have hj : Kind.noAnd.Holds (σ j) := hg j .noAnd (by rw [hst]; simp)
  have hi : inst σ st = inst σ a ++ (andText ++ σ j) := by
    rw [hst, inst_append, inst_append, inst_chars]
    simp [inst]
  have hib : inst σ b = σ j := by rw [hb]; simp [inst]
  rw [hi, hib]
  apply greedy_eq
  · exact inst_ne_nil (hg.prefix (by rw [hst]; exact List.prefix_append _ _)) ha
  · intro c hc
    refine noNewline_inst hg hn c ?_
    rw [hi]
    exact List.mem_append.2 (Or.inl hc)
  · rw [fullmatch, stripPrefix_append, Option.bind_some, fullmatch_any hj.1 hj.2.1]
  · intro u v hu _ huv
    cases hm : fullmatch [.lit andText, .any m] v with
    | none => rfl
    | some g =>
      exfalso
      simp only [fullmatch, Option.bind_eq_some_iff] at hm
      obtain ⟨r, h1, _⟩ := hm
      have hv := stripPrefix_eq h1
      apply hj.2.2.2
      rw [hv] at huv
      simp only [andText] at huv ⊢
      match u, hu, huv with
      | [x1], _, huv => simp at huv
      | [x1, x2], _, huv => simp at huv
      | [x1, x2, x3], _, huv => simp at huv
      | x1 :: x2 :: x3 :: x4 :: u', _, huv =>
        simp only [List.cons_append, List.nil_append, List.cons.injEq] at huv
        refine ⟨u', r, ?_⟩
        rw [List.append_assoc]
        exact huv.2.2.2.2.symm

theorem sym_sound {σ : Nat → List Char} : ∀ {p : Pat} {st : Shape} {g : List (String × Shape)}, Good σ st →
    sym p st = some g → fullmatch p (inst σ st) = some (instG σ g) := by
  intro p
  induction p with
  | nil =>
    intro st g hg h
    rw [sym] at h
    split at h
    · rename_i he
      simp only [Option.some.injEq] at h
      rw [List.isEmpty_iff.1 he, ← h]; rfl
    · cases h
  | cons x p ih =>
    intro st g hg h
    cases x with
    | lit q =>
      rw [sym] at h
      split at h
      · rename_i r hr
        obtain ⟨h1, h2⟩ := stripPrefix_rest (σ := σ) hr
        rw [fullmatch, h1, Option.bind_some]
        exact ih (hg.suffix h2) h
      · cases h
    | any n =>
      rw [sym, symAny] at h
      split at h
      · rename_i m hm
        split at h
        · rename_i hn
          have hp : p = [.lit andText, .any m] := by
            unfold andRest at hm
            split at hm
            · split at hm
              · rename_i hq
                simp only [Option.some.injEq] at hm
                rw [hq, hm]
              · cases hm
            · cases hm
          simp only [Option.map_eq_some_iff] at h
          obtain ⟨⟨a, b⟩, h1, h2⟩ := h
          have h3 := andSplit_sound (m := m) hg hn h1
          rw [fullmatch, hp, h3, ← h2]
          rfl
        · cases h
      · split at h
        · rename_i ts ht
          split at h
          · rename_i hc
            simp only [Bool.and_eq_true] at hc
            simp only [Option.map_eq_some_iff] at h
            obtain ⟨r, h1, h2⟩ := h
            rw [fullmatch, endWith_sound hg ht hc.2 ts hc.1 (fun u hu => hu) (fun t h1 h2 => absurd h1 h2) h1, ← h2]
            rfl
          · cases h
        · rw [symQuote] at h
          split at h
          · rename_i hc
            simp only [Bool.and_eq_true] at hc
            simp only [Option.bind_eq_some_iff] at h
            obtain ⟨⟨r, g'⟩, h1, h2⟩ := h
            split at h2
            · rename_i hl
              simp only [Option.some.injEq] at h2
              rw [fullmatch, lastQuote_sound hg hc.1.1 hc.1.2 hc.2 (fun r g hr hk => ih (hg.suffix hr) hk) h1 hl, ← h2]
              rfl
            · cases h2
          · cases h
    | alt n opts =>
      simp only [sym, Option.bind_eq_some_iff] at h
      obtain ⟨o, h1, h2⟩ := h
      split at h2
      · rename_i r hr
        simp only [Option.map_eq_some_iff] at h2
        obtain ⟨g', h3, h4⟩ := h2
        obtain ⟨h5, h6⟩ := stripPrefix_rest (σ := σ) hr
        have hm := ih (hg.suffix h6) h3
        rw [fullmatch]
        have hval : ((stripPrefix o (inst σ st)).bind (fullmatch p)).map (fun g => (n, o) :: g) = some (instG σ g) := by
          rw [h5, Option.bind_some, hm, ← h4]
          simp [instG, inst_chars]
        obtain ⟨_, as, bs, hl, hno⟩ := List.find?_eq_some_iff_append.1 h1
        rw [hl, List.findSome?_append, List.findSome?_eq_none_iff.2, Option.none_or, List.findSome?_cons, hval]
        intro o' ho'
        have := hno o' ho'
        simp only [ne_eq, decide_not, Bool.not_not, decide_eq_true_eq] at this
        rw [stripS_clash hg this]
        rfl
      · cases h2
    | digits n =>
      rw [sym] at h
      unfold symDigits at h
      split at h
      · rename_i i c r
        split at h
        · cases h
        · rename_i hc
          simp only [Option.map_eq_some_iff] at h
          obtain ⟨g', h1, h2⟩ := h
          have hm := ih hg.cons h1
          have hi := hg i .num (by simp)
          rw [fullmatch]
          have : inst σ (.var i .num :: .chr c :: r) = σ i ++ inst σ (.chr c :: r) := rfl
          rw [this, greedy_eq hi.1 hi.2.2 hm]
          · rw [← h2]; simp [instG, inst]
          · intro u v hu hok huv
            exfalso
            cases u with
            | nil => exact hu rfl
            | cons d u =>
              simp only [inst, List.cons_append, List.cons.injEq] at huv
              exact hc (by rw [huv.1]; exact hok d (by simp))
      · cases h
    | opt q =>
      rw [sym] at h
      rw [fullmatch]
      split at h
      · rename_i hs
        rw [stripS_clash hg hs]
        exact ih hg h
      · cases h
      · rename_i r hs
        obtain ⟨h5, h6⟩ := stripPrefix_rest (σ := σ) hs
        rw [h5, Option.bind_some, ih (hg.suffix h6) h]

end Rocketry
