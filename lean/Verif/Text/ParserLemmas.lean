import Verif.Text.Parser
import Verif.Spec.ParserSpec
import Mathlib.Tactic.Tauto
import Mathlib.Tactic.SplitIfs
import Mathlib.Tactic.ByContra

/-! # From text to tokens: closures and splitting -/

set_option linter.unusedSimpArgs false

namespace Rocketry

/-! ### strip -/

def AllSpace (s : List Char) : Prop := ∀ c ∈ s, isSpace c = true

/-- No blank at either end. -/
def Solid (w : List Char) : Prop := (∀ c, w.head? = some c → isSpace c = false) ∧ (∀ c, w.getLast? = some c → isSpace c = false)

theorem dropWhile_space {b s : List Char} (hb : AllSpace b) : (b ++ s).dropWhile isSpace = s.dropWhile isSpace := by
  induction b with
  | nil => rfl
  | cons c b ih =>
    rw [List.cons_append, List.dropWhile_cons, if_pos (hb c (by simp))]
    exact ih (fun d hd => hb d (by simp [hd]))

theorem dropWhile_head {s : List Char} (h : ∀ c, s.head? = some c → isSpace c = false) : s.dropWhile isSpace = s := by
  cases s with
  | nil => rfl
  | cons c s => rw [List.dropWhile_cons, if_neg (by simp [h c rfl])]

theorem allSpace_reverse {b : List Char} (hb : AllSpace b) : AllSpace b.reverse := fun c hc => hb c (by simpa using hc)

theorem strip_eq {b1 w b2 : List Char} (h1 : AllSpace b1) (h2 : AllSpace b2) (hw : Solid w) : strip (b1 ++ w ++ b2) = w := by
  unfold strip
  rw [List.append_assoc, dropWhile_space h1]
  by_cases h : w = []
  · subst h
    have : (([] : List Char) ++ b2).dropWhile isSpace = [] := by
      have := dropWhile_space (s := []) h2
      simpa using this
    rw [this]; rfl
  · have e : (w ++ b2).dropWhile isSpace = w ++ b2 := by
      apply dropWhile_head
      intro c hc
      apply hw.1
      cases w with
      | nil => exact absurd rfl h
      | cons d w => simpa using hc
    rw [e, List.reverse_append, dropWhile_space (allSpace_reverse h2), dropWhile_head, List.reverse_reverse]
    intro c hc
    apply hw.2
    rwa [List.head?_reverse] at hc

theorem strip_solid {w : List Char} (hw : Solid w) : strip w = w := by
  have := strip_eq (b1 := []) (b2 := []) (by intro c h; simp at h) (by intro c h; simp at h) hw
  simpa using this

theorem allSpace_nil : AllSpace [] := by intro c h; simp at h

theorem dropWhile_decomp (s : List Char) : ∃ b, AllSpace b ∧ s = b ++ s.dropWhile isSpace := by
  refine ⟨s.takeWhile isSpace, ?_, ?_⟩
  · intro c hc
    have := List.all_takeWhile (p := isSpace) (l := s)
    rw [List.all_eq_true] at this
    exact this c hc
  · exact (List.takeWhile_append_dropWhile).symm

theorem dropWhile_head_not (s : List Char) : ∀ c, (s.dropWhile isSpace).head? = some c → isSpace c = false := by
  induction s with
  | nil => intro c hc; simp at hc
  | cons d s ih =>
    intro c hc
    rw [List.dropWhile_cons] at hc
    split at hc
    · exact ih c hc
    · rename_i h; simp at hc; subst hc; simpa using h

theorem strip_decomp (s : List Char) : ∃ b1 b2, AllSpace b1 ∧ AllSpace b2 ∧ s = b1 ++ strip s ++ b2 ∧ Solid (strip s) := by
  obtain ⟨b1, h1, e1⟩ := dropWhile_decomp s
  obtain ⟨b2, h2, e2⟩ := dropWhile_decomp (s.dropWhile isSpace).reverse
  have e3 : s.dropWhile isSpace = strip s ++ b2.reverse := by
    have := congrArg List.reverse e2
    rw [List.reverse_reverse, List.reverse_append] at this
    exact this
  refine ⟨b1, b2.reverse, h1, allSpace_reverse h2, ?_, ?_, ?_⟩
  · rw [List.append_assoc, ← e3]; exact e1
  · intro c hc
    apply dropWhile_head_not s c
    rw [e3]
    cases hs : strip s with
    | nil => rw [hs] at hc; simp at hc
    | cons d w => rw [hs] at hc; simpa using hc
  · intro c hc
    unfold strip at hc
    rw [List.getLast?_reverse] at hc
    exact dropWhile_head_not _ c hc

theorem strip_strip (s : List Char) : strip (strip s) = strip s := by
  obtain ⟨_, _, _, _, _, h⟩ := strip_decomp s
  exact strip_solid h

theorem allSpace_append {a b : List Char} (ha : AllSpace a) (hb : AllSpace b) : AllSpace (a ++ b) := by
  intro c hc
  rcases List.mem_append.1 hc with h | h
  · exact ha c h
  · exact hb c h

theorem strip_pad {b1 s b2 : List Char} (h1 : AllSpace b1) (h2 : AllSpace b2) : strip (b1 ++ s ++ b2) = strip s := by
  obtain ⟨c1, c2, g1, g2, e, hs⟩ := strip_decomp s
  have : b1 ++ s ++ b2 = (b1 ++ c1) ++ strip s ++ (c2 ++ b2) := by
    rw [show b1 ++ s ++ b2 = b1 ++ (c1 ++ strip s ++ c2) ++ b2 by rw [← e]]
    simp [List.append_assoc]
  rw [this]
  exact strip_eq (allSpace_append h1 g1) (allSpace_append g2 h2) hs

theorem strip_allSpace {b : List Char} (h : AllSpace b) : strip b = [] := by
  have := strip_pad (s := []) h allSpace_nil
  simpa [strip] using this

/-! ### tokens of a bracket-free chunk -/

/-- The stripped non-blank pieces. -/
def tz (syms : List Char) (s : List Char) : List (List Char) :=
  ((splitKeep syms s).map strip).filter (fun p => !p.isEmpty)

theorem splitKeep_ne (syms s : List Char) : splitKeep syms s ≠ [] := by
  cases s with
  | nil => simp [splitKeep]
  | cons c s =>
    rw [splitKeep]
    split
    · simp
    · split <;> simp

theorem splitKeep_no {syms u : List Char} (h : ∀ c ∈ u, c ∉ syms) : splitKeep syms u = [u] := by
  induction u with
  | nil => rfl
  | cons c u ih =>
    rw [splitKeep, if_neg (h c (by simp)), ih (fun d hd => h d (by simp [hd]))]

theorem splitKeep_sym {syms u s : List Char} {o : Char} (h : ∀ c ∈ u, c ∉ syms) (ho : o ∈ syms) :
    splitKeep syms (u ++ o :: s) = u :: [o] :: splitKeep syms s := by
  induction u with
  | nil => rw [List.nil_append, splitKeep, if_pos ho]
  | cons c u ih =>
    rw [List.cons_append, splitKeep, if_neg (h c (by simp)), ih (fun d hd => h d (by simp [hd]))]

/-- The operator characters are not blank. -/
def SymsOk (syms : List Char) : Prop := ∀ c ∈ syms, isSpace c = false

theorem strip_single {o : Char} (h : isSpace o = false) : strip [o] = [o] := by
  apply strip_solid
  constructor <;> · intro c hc; simp at hc; subst hc; exact h

theorem tz_sym' {syms u s : List Char} {o : Char} (hs : SymsOk syms) (h : ∀ c ∈ u, c ∉ syms) (ho : o ∈ syms) :
    tz syms (u ++ o :: s) = tz syms u ++ [o] :: tz syms s := by
  unfold tz
  rw [splitKeep_sym h ho, splitKeep_no h]
  simp only [List.map_cons, List.map_nil, strip_single (hs o ho)]
  simp only [List.filter_cons, List.filter_nil]
  by_cases h : strip u = []
  · simp [h]
  · simp [List.isEmpty_iff, h]

theorem first_sym (syms s : List Char) : (∀ c ∈ s, c ∉ syms) ∨ ∃ u o v, s = u ++ o :: v ∧ (∀ c ∈ u, c ∉ syms) ∧ o ∈ syms := by
  induction s with
  | nil => left; intro c hc; simp at hc
  | cons c s ih =>
    by_cases hc : c ∈ syms
    · right; exact ⟨[], c, s, rfl, by intro d hd; simp at hd, hc⟩
    · rcases ih with h | ⟨u, o, v, e, h, ho⟩
      · left
        intro d hd
        rcases List.mem_cons.1 hd with rfl | hd
        · exact hc
        · exact h d hd
      · right
        refine ⟨c :: u, o, v, by rw [e]; rfl, ?_, ho⟩
        intro d hd
        rcases List.mem_cons.1 hd with rfl | hd
        · exact hc
        · exact h d hd

theorem tz_no {syms s : List Char} (h : ∀ c ∈ s, c ∉ syms) : tz syms s = if strip s = [] then [] else [strip s] := by
  unfold tz
  rw [splitKeep_no h]
  by_cases e : strip s = []
  · simp [e]
  · simp [List.isEmpty_iff, e]

theorem space_not_sym {syms b : List Char} (hs : SymsOk syms) (hb : AllSpace b) : ∀ c ∈ b, c ∉ syms := by
  intro c hc hm
  have := hs c hm
  rw [hb c hc] at this
  exact absurd this (by simp)

theorem tz_front {syms b s : List Char} (hs : SymsOk syms) (hb : AllSpace b) : tz syms (b ++ s) = tz syms s := by
  have nb := space_not_sym hs hb
  rcases first_sym syms s with h | ⟨u, o, v, rfl, h, ho⟩
  · have h' : ∀ c ∈ b ++ s, c ∉ syms := by
      intro c hc
      rcases List.mem_append.1 hc with hc | hc
      · exact nb c hc
      · exact h c hc
    rw [tz_no h, tz_no h']
    have := strip_pad (s := s) hb allSpace_nil
    rw [List.append_nil] at this
    rw [this]
  · have h' : ∀ c ∈ b ++ u, c ∉ syms := by
      intro c hc
      rcases List.mem_append.1 hc with hc | hc
      · exact nb c hc
      · exact h c hc
    rw [← List.append_assoc, tz_sym' hs h' ho, tz_sym' hs h ho, tz_no h, tz_no h']
    have := strip_pad (s := u) hb allSpace_nil
    rw [List.append_nil] at this
    rw [this]

theorem tz_back {syms b : List Char} (hs : SymsOk syms) (hb : AllSpace b) : ∀ (n : Nat) (s : List Char), s.length ≤ n →
    tz syms (s ++ b) = tz syms s := by
  have nb := space_not_sym hs hb
  intro n
  induction n with
  | zero =>
    intro s hn
    have : s = [] := List.length_eq_zero_iff.1 (by omega)
    subst this
    rw [List.nil_append]
    have := tz_front (s := []) hs hb
    simpa using this
  | succ n ih =>
    intro s hn
    rcases first_sym syms s with h | ⟨u, o, v, rfl, h, ho⟩
    · have h' : ∀ c ∈ s ++ b, c ∉ syms := by
        intro c hc
        rcases List.mem_append.1 hc with hc | hc
        · exact h c hc
        · exact nb c hc
      rw [tz_no h, tz_no h']
      have := strip_pad (s := s) allSpace_nil hb
      rw [List.nil_append] at this
      rw [this]
    · rw [List.append_assoc, List.cons_append, tz_sym' hs h ho, tz_sym' hs h ho, ih v (by simp at hn; omega)]

theorem tz_strip {syms s : List Char} (hs : SymsOk syms) : tz syms (strip s) = tz syms s := by
  obtain ⟨b1, b2, h1, h2, e, _⟩ := strip_decomp s
  conv_rhs => rw [e]
  rw [tz_back hs h2 _ _ (Nat.le_refl _), tz_front hs h1]

theorem splitOperations_tz {syms s : List Char} (hs : SymsOk syms) (h : strip s ≠ []) :
    (splitOperations syms s).map strip = tz syms s := by
  rw [← tz_strip hs]
  unfold splitOperations
  simp only
  by_cases ha : (strip s).any (fun c => c ∈ syms) = true
  · rw [if_pos ha]
    unfold tz
    generalize splitKeep syms (strip s) = l
    induction l with
    | nil => rfl
    | cons a l ih =>
      simp only [List.filter_cons, List.map_cons]
      split
      · rw [List.map_cons, ih]
      · exact ih
  · rw [if_neg ha]
    have hn : ∀ c ∈ strip s, c ∉ syms := by
      intro c hc hm
      apply ha
      rw [List.any_eq_true]
      exact ⟨c, hc, by simpa using hm⟩
    rw [tz_no hn, strip_strip, if_neg h]
    simp [strip_strip]

/-! ### tokens of a whole text -/

/-- A text as a list of items, operators and bracketed lists. -/
inductive LTok where
  | item (pre w post : List Char)
  | op (pre : List Char) (c : Char) (post : List Char)
  | grp (l : List LTok)

def LTok.isItem : LTok → Bool
  | .item .. => true
  | _ => false

mutual
def ltext : List LTok → List Char
  | [] => []
  | t :: ts => t.text ++ ltext ts
def LTok.text : LTok → List Char
  | .item pre w post => pre ++ w ++ post
  | .op pre c post => pre ++ c :: post
  | .grp l => '(' :: (ltext l ++ [')'])
end

theorem ltext_item (pre w post : List Char) (ts : List LTok) : ltext (.item pre w post :: ts) = pre ++ w ++ post ++ ltext ts := rfl
theorem ltext_op (pre post : List Char) (c : Char) (ts : List LTok) : ltext (.op pre c post :: ts) = pre ++ c :: post ++ ltext ts := rfl
theorem ltext_grp (l ts : List LTok) : ltext (.grp l :: ts) = '(' :: (ltext l ++ ')' :: ltext ts) := by
  simp [ltext, LTok.text]

mutual
/-- The tokens, stripped, as nested list. -/
def ltrees : List LTok → List PTree
  | [] => []
  | t :: ts => t.tree :: ltrees ts
def LTok.tree : LTok → PTree
  | .item _ w _ => .str w
  | .op _ c _ => .str [c]
  | .grp l => .sub (ltrees l)
end

/-- No two items stand side by side. -/
def NoAdj : List LTok → Prop
  | [] => True
  | [_] => True
  | a :: b :: l => ¬ (a.isItem = true ∧ b.isItem = true) ∧ NoAdj (b :: l)

mutual
/-- Admissible tokens. -/
def LOk (syms : List Char) : List LTok → Prop
  | [] => True
  | t :: ts => t.Ok syms ∧ LOk syms ts
def LTok.Ok (syms : List Char) : LTok → Prop
  | .item pre w post => AllSpace pre ∧ AllSpace post ∧ Solid w ∧ w ≠ [] ∧ ∀ c ∈ w, c ≠ '(' ∧ c ≠ ')' ∧ c ∉ syms
  | .op pre c post => AllSpace pre ∧ AllSpace post ∧ c ∈ syms
  | .grp l => LOk syms l ∧ NoAdj l
end

def NoGrp : List LTok → Prop
  | [] => True
  | .grp _ :: _ => False
  | _ :: ts => NoGrp ts

theorem ltext_append (a b : List LTok) : ltext (a ++ b) = ltext a ++ ltext b := by
  induction a with
  | nil => rfl
  | cons t a ih =>
    simp [ltext, ih]

theorem ltrees_append (a b : List LTok) : ltrees (a ++ b) = ltrees a ++ ltrees b := by
  induction a with
  | nil => rfl
  | cons t a ih =>
    simp [ltrees, ih]

theorem LOk_append {syms : List Char} (a b : List LTok) : LOk syms (a ++ b) ↔ LOk syms a ∧ LOk syms b := by
  induction a with
  | nil => simp [LOk]
  | cons t a ih =>
    simp only [List.cons_append, LOk, ih, and_assoc]

theorem NoGrp_append (a b : List LTok) : NoGrp (a ++ b) ↔ NoGrp a ∧ NoGrp b := by
  induction a with
  | nil => simp [NoGrp]
  | cons t a ih =>
    cases t <;> simp [List.cons_append, NoGrp, ih]

theorem NoAdj_tail {t : LTok} {l : List LTok} (h : NoAdj (t :: l)) : NoAdj l := by
  cases l with
  | nil => trivial
  | cons b l => exact h.2

theorem NoAdj_sep {t : LTok} (ht : t.isItem = false) (a b : List LTok) : NoAdj (a ++ t :: b) ↔ NoAdj a ∧ NoAdj b := by
  induction a with
  | nil =>
    rw [List.nil_append]
    cases b with
    | nil => simp [NoAdj]
    | cons b bs => simp [NoAdj, ht]
  | cons x a ih =>
    cases a with
    | nil =>
      rw [List.nil_append] at ih
      simp only [List.cons_append, List.nil_append, NoAdj, ht, ih]
      simp [NoAdj]
    | cons y a =>
      simp only [List.cons_append, NoAdj] at ih ⊢
      rw [ih, and_assoc]

mutual
/-- What `to_list` returns for a text: runs of items and operators are joined. -/
def chunks (acc : List LTok) : List LTok → List PTree
  | [] => if acc.isEmpty then [] else [.str (ltext acc)]
  | t :: ts =>
    match t.chunk with
    | none => chunks (acc ++ [t]) ts
    | some p => (if acc.isEmpty then [] else [.str (ltext acc)]) ++ p :: chunks [] ts
def LTok.chunk : LTok → Option PTree
  | .item .. => none
  | .op .. => none
  | .grp l => some (.sub (chunks [] l))
end

mutual
/-- All strings stripped. -/
def normTrees : List PTree → List PTree
  | [] => []
  | t :: l => normTree t :: normTrees l
def normTree : PTree → PTree
  | .str s => .str (strip s)
  | .sub l => .sub (normTrees l)
end

theorem chunks_item (acc ts : List LTok) (pre w post : List Char) :
    chunks acc (.item pre w post :: ts) = chunks (acc ++ [.item pre w post]) ts := rfl
theorem chunks_op (acc ts : List LTok) (pre post : List Char) (c : Char) :
    chunks acc (.op pre c post :: ts) = chunks (acc ++ [.op pre c post]) ts := rfl
theorem chunks_grp (acc ts l : List LTok) :
    chunks acc (.grp l :: ts) = (if acc.isEmpty then [] else [.str (ltext acc)]) ++ .sub (chunks [] l) :: chunks [] ts := rfl

theorem normTrees_append (a b : List PTree) : normTrees (a ++ b) = normTrees a ++ normTrees b := by
  induction a with
  | nil => rfl
  | cons t a ih => simp [normTrees, ih]

theorem normTrees_strs (l : List (List Char)) : normTrees (l.map .str) = (l.map strip).map .str := by
  induction l with
  | nil => rfl
  | cons a l ih => simp [normTrees, normTree, ih]

def flatWords : List LTok → List (List Char)
  | [] => []
  | .item _ w _ :: ts => w :: flatWords ts
  | .op _ c _ :: ts => [c] :: flatWords ts
  | .grp _ :: ts => flatWords ts

theorem ltrees_flat {a : List LTok} (h : NoGrp a) : ltrees a = (flatWords a).map .str := by
  induction a with
  | nil => rfl
  | cons t a ih =>
    cases t with
    | item pre w post => simp [ltrees, LTok.tree, flatWords, ih h]
    | op pre c post => simp [ltrees, LTok.tree, flatWords, ih h]
    | grp l => exact absurd h (by simp [NoGrp])

theorem tz_item {syms pre w post : List Char} (hs : SymsOk syms) (h1 : AllSpace pre) (h2 : AllSpace post) (hw : Solid w)
    (hne : w ≠ []) (hns : ∀ c ∈ w, c ∉ syms) : tz syms (pre ++ w ++ post) = [w] := by
  rw [tz_back hs h2 _ _ (Nat.le_refl _), tz_front hs h1, tz_no hns, strip_solid hw, if_neg hne]

theorem tz_words {syms : List Char} (hs : SymsOk syms) : ∀ {a : List LTok}, LOk syms a → NoGrp a → NoAdj a →
    tz syms (ltext a) = flatWords a
  | [], _, _, _ => by simp [ltext, flatWords, tz, splitKeep, strip]
  | .grp _ :: _, _, h, _ => absurd h (by simp [NoGrp])
  | .op pre c post :: a, ⟨⟨h1, h2, hc⟩, ha⟩, hg, hn => by
    rw [ltext_op, List.append_assoc, List.cons_append]
    rw [tz_sym' hs (space_not_sym hs h1) hc, tz_front hs h2, tz_words hs ha hg (NoAdj_tail hn), flatWords,
      tz_no (space_not_sym hs h1), if_pos (strip_allSpace h1), List.nil_append]
  | [.item pre w post], ⟨⟨h1, h2, hw, hne, hb⟩, _⟩, _, _ => by
    simp only [ltext, LTok.text, flatWords, List.append_nil]
    exact tz_item hs h1 h2 hw hne (fun c hc => (hb c hc).2.2)
  | .item pre w post :: .item _ _ _ :: a, _, _, hn => absurd hn.1 (by simp [LTok.isItem])
  | .item pre w post :: .grp _ :: a, _, h, _ => absurd h (by simp [NoGrp])
  | .item pre w post :: .op pre' c post' :: a, ⟨⟨h1, h2, hw, hne, hb⟩, ⟨h1', h2', hc⟩, ha⟩, hg, hn => by
    have e : ltext (.item pre w post :: .op pre' c post' :: a) = (pre ++ w ++ (post ++ pre')) ++ c :: (post' ++ ltext a) := by
      simp [ltext, LTok.text]
    have nb : ∀ d ∈ pre ++ w ++ (post ++ pre'), d ∉ syms := by
      intro d hd
      simp only [List.mem_append] at hd
      rcases hd with (hd | hd) | hd | hd
      · exact space_not_sym hs h1 d hd
      · exact (hb d hd).2.2
      · exact space_not_sym hs h2 d hd
      · exact space_not_sym hs h1' d hd
    rw [e, tz_sym' hs nb hc, tz_front hs h2', tz_words hs ha hg (NoAdj_tail (NoAdj_tail hn)),
      tz_item hs h1 (allSpace_append h2 h1') hw hne (fun c hc => (hb c hc).2.2)]
    rfl

theorem split_words {syms : List Char} (hs : SymsOk syms) {a : List LTok} (hne : a ≠ []) (h : LOk syms a) (hg : NoGrp a)
    (hn : NoAdj a) : normTrees ((splitOperations syms (ltext a)).map .str) = ltrees a := by
  have ht := tz_words hs h hg hn
  have hstrip : strip (ltext a) ≠ [] := by
    intro e
    have := tz_strip (s := ltext a) hs
    rw [e, ht] at this
    have e0 : tz syms [] = [] := by simp [tz, splitKeep, strip]
    rw [e0] at this
    cases a with
    | nil => exact hne rfl
    | cons t a => cases t with
      | item => simp [flatWords] at this
      | op => simp [flatWords] at this
      | grp => simp [NoGrp] at hg
  rw [normTrees_strs, splitOperations_tz hs hstrip, ht, ltrees_flat hg]

theorem splitTrees_append (syms : List Char) (a b : List PTree) : splitTrees syms (a ++ b) = splitTrees syms a ++ splitTrees syms b := by
  induction a with
  | nil => rfl
  | cons t a ih => simp [splitTrees, ih]

theorem split_run {syms : List Char} (hs : SymsOk syms) {a : List LTok} (h : LOk syms a) (hg : NoGrp a) (hn : NoAdj a) :
    normTrees (splitTrees syms (if a.isEmpty then [] else [.str (ltext a)])) = ltrees a := by
  cases a with
  | nil => rfl
  | cons t a =>
    simp only [List.isEmpty_cons, Bool.false_eq_true, if_false, splitTrees, splitTree, List.append_nil]
    exact split_words hs (by simp) h hg hn

theorem split_chunks {syms : List Char} (hs : SymsOk syms) : ∀ (ts acc : List LTok), LOk syms acc → NoGrp acc →
    LOk syms ts → NoAdj (acc ++ ts) → normTrees (splitTrees syms (chunks acc ts)) = ltrees acc ++ ltrees ts
  | [], acc, ha, hg, _, hn => by
    rw [List.append_nil] at hn
    simp only [chunks, ltrees, List.append_nil]
    exact split_run hs ha hg hn
  | .item pre w post :: ts, acc, ha, hg, h, hn => by
    rw [chunks_item, split_chunks hs ts (acc ++ [LTok.item pre w post]) ((LOk_append _ _).2 ⟨ha, h.1, trivial⟩) ((NoGrp_append _ _).2 ⟨hg, trivial⟩) h.2
      (by simpa using hn), ltrees_append]
    simp [ltrees, LTok.tree]
  | .op pre c post :: ts, acc, ha, hg, h, hn => by
    rw [chunks_op, split_chunks hs ts (acc ++ [LTok.op pre c post]) ((LOk_append _ _).2 ⟨ha, h.1, trivial⟩) ((NoGrp_append _ _).2 ⟨hg, trivial⟩) h.2
      (by simpa using hn), ltrees_append]
    simp [ltrees, LTok.tree]
  | .grp l :: ts, acc, ha, hg, h, hn => by
    rw [NoAdj_sep rfl] at hn
    rw [chunks_grp, splitTrees_append, normTrees_append, split_run hs ha hg hn.1, splitTrees, splitTree, List.singleton_append,
      normTrees, normTree, split_chunks hs l [] trivial trivial h.1.1 h.1.2, split_chunks hs ts [] trivial trivial h.2 hn.2]
    simp [ltrees, LTok.tree]

/-! ### closures -/

theorem findOuter_plain : ∀ (u s : List Char) (i o c f l : Nat), (∀ d ∈ u, d ≠ '(' ∧ d ≠ ')') →
    findOuter (u ++ s) i o c f l = findOuter s (i + u.length) o c f l
  | [], s, i, o, c, f, l, _ => rfl
  | d :: u, s, i, o, c, f, l, h => by
    have hd := h d (by simp)
    rw [List.cons_append, findOuter, if_neg hd.1, if_neg hd.2, findOuter_plain u s (i + 1) o c f l (fun e he => h e (by simp [he]))]
    simp only [List.length_cons]
    congr 1
    omega

theorem space_plain {b : List Char} (hb : AllSpace b) : ∀ d ∈ b, d ≠ '(' ∧ d ≠ ')' := by
  intro d hd
  have := hb d hd
  constructor <;> · rintro rfl; revert this; decide

/-- Operator characters are not brackets. -/
def SymsPlain (syms : List Char) : Prop := ∀ c ∈ syms, c ≠ '(' ∧ c ≠ ')'

theorem plain_append {a b : List Char} (ha : ∀ d ∈ a, d ≠ '(' ∧ d ≠ ')') (hb : ∀ d ∈ b, d ≠ '(' ∧ d ≠ ')') :
    ∀ d ∈ a ++ b, d ≠ '(' ∧ d ≠ ')' := by
  intro d hd
  rcases List.mem_append.1 hd with h | h
  · exact ha d h
  · exact hb d h

/-- Scanning a balanced text inside an open bracket. -/
theorem findOuter_text {syms : List Char} (hp : SymsPlain syms) : ∀ (ts : List LTok) (s : List Char) (i o c f l : Nat),
    LOk syms ts → c < o → ∃ a l', findOuter (ltext ts ++ s) i o c f l = findOuter s (i + (ltext ts).length) (o + a) (c + a) f l'
  | [], s, i, o, c, f, l, _, _ => ⟨0, l, rfl⟩
  | .item pre w post :: ts, s, i, o, c, f, l, ⟨⟨h1, h2, _, _, hb⟩, ht⟩, hoc => by
    obtain ⟨a, l', e⟩ := findOuter_text hp ts s (i + (pre ++ w ++ post).length) o c f l ht hoc
    refine ⟨a, l', ?_⟩
    rw [ltext_item, List.append_assoc, findOuter_plain (pre ++ w ++ post) _ _ _ _ _ _
      (plain_append (plain_append (space_plain h1) (fun d hd => ⟨(hb d hd).1, (hb d hd).2.1⟩)) (space_plain h2)), e]
    congr 1
    simp only [List.length_append]; omega
  | .op pre ch post :: ts, s, i, o, c, f, l, ⟨⟨h1, h2, hc⟩, ht⟩, hoc => by
    obtain ⟨a, l', e⟩ := findOuter_text hp ts s (i + (pre ++ ch :: post).length) o c f l ht hoc
    refine ⟨a, l', ?_⟩
    rw [ltext_op, List.append_assoc, findOuter_plain (pre ++ ch :: post) _ _ _ _ _ _
      (plain_append (space_plain h1) (by
        intro d hd
        rcases List.mem_cons.1 hd with rfl | hd
        · exact hp _ hc
        · exact space_plain h2 d hd)), e]
    congr 1
    simp only [List.length_append, List.length_cons]; omega
  | .grp g :: ts, s, i, o, c, f, l, ⟨⟨hg, _⟩, ht⟩, hoc => by
    rw [ltext_grp]
    simp only [List.cons_append, List.append_assoc]
    rw [findOuter, if_pos rfl]
    simp only
    rw [if_neg (show ¬ o + 1 = c by omega)]
    obtain ⟨a1, l1, e1⟩ := findOuter_text hp g (')' :: (ltext ts ++ s)) (i + 1) (o + 1) c (if o = 0 then i else f) l hg (by omega)
    rw [e1, findOuter, if_neg (by decide), if_pos rfl, if_neg (show ¬ o + 1 + a1 = c + a1 + 1 by omega)]
    obtain ⟨a2, l2, e2⟩ := findOuter_text hp ts s (i + 1 + (ltext g).length + 1) (o + 1 + a1) (c + a1 + 1)
      (if o = 0 then i else f) (i + 1 + (ltext g).length) ht (by omega)
    refine ⟨a2 + a1 + 1, l2, ?_⟩
    rw [e2, if_neg (show ¬ o = 0 by omega)]
    congr 1 <;> first | omega | (simp only [List.length_append, List.length_cons]; omega)

theorem findOuter_group {syms : List Char} (hp : SymsPlain syms) {u : List Char} (hu : ∀ d ∈ u, d ≠ '(' ∧ d ≠ ')')
    (g : List LTok) (hg : LOk syms g) (s : List Char) :
    findOuter (u ++ '(' :: (ltext g ++ ')' :: s)) 0 0 0 0 0 = .ok (u.length, u.length + 1 + (ltext g).length) := by
  rw [findOuter_plain u _ _ _ _ _ _ hu, findOuter, if_pos rfl]
  simp only
  rw [if_neg (show ¬ 0 + 1 = 0 by omega), if_pos trivial]
  obtain ⟨a, l, e⟩ := findOuter_text hp g (')' :: s) (0 + u.length + 1) (0 + 1) 0 (0 + u.length) 0 hg (by omega)
  rw [e, findOuter, if_neg (by decide), if_pos rfl, if_pos (by omega)]
  simp

theorem ltext_plain {syms : List Char} (hp : SymsPlain syms) : ∀ {a : List LTok}, LOk syms a → NoGrp a →
    ∀ d ∈ ltext a, d ≠ '(' ∧ d ≠ ')'
  | [], _, _ => by intro d hd; simp [ltext] at hd
  | .item pre w post :: a, ⟨⟨h1, h2, _, _, hb⟩, h⟩, hg => by
    rw [ltext_item]
    exact plain_append (plain_append (plain_append (space_plain h1) (fun d hd => ⟨(hb d hd).1, (hb d hd).2.1⟩)) (space_plain h2))
      (ltext_plain hp h hg)
  | .op pre c post :: a, ⟨⟨h1, h2, hc⟩, h⟩, hg => by
    rw [ltext_op]
    refine plain_append (plain_append (space_plain h1) ?_) (ltext_plain hp h hg)
    intro d hd
    rcases List.mem_cons.1 hd with rfl | hd
    · exact hp _ hc
    · exact space_plain h2 d hd
  | .grp _ :: _, _, hg => absurd hg (by simp [NoGrp])

theorem ltext_ne {syms : List Char} {a : List LTok} (h : LOk syms a) (hg : NoGrp a) (hne : a ≠ []) : ltext a ≠ [] := by
  cases a with
  | nil => exact absurd rfl hne
  | cons t a =>
    cases t with
    | item pre w post => intro e; simp [ltext, LTok.text] at e; exact h.1.2.2.2.1 e.2.1
    | op pre c post => simp [ltext, LTok.text]
    | grp l => simp [NoGrp] at hg

theorem run_if {syms : List Char} {a : List LTok} (h : LOk syms a) (hg : NoGrp a) :
    (if (ltext a).isEmpty then [] else [PTree.str (ltext a)]) = (if a.isEmpty then [] else [PTree.str (ltext a)]) := by
  cases a with
  | nil => rfl
  | cons t a =>
    have := ltext_ne h hg (by simp)
    simp [List.isEmpty_iff, this]

theorem toList_chunks {syms : List Char} (hp : SymsPlain syms) : ∀ (ts acc : List LTok) (n : Nat), LOk syms acc → NoGrp acc →
    LOk syms ts → (ltext (acc ++ ts)).length < n → toListAux n (ltext (acc ++ ts)) = .ok (chunks acc ts)
  | [], acc, n, ha, hg, _, hn => by
    rw [List.append_nil] at hn ⊢
    obtain ⟨n, rfl⟩ : ∃ m, n = m + 1 := ⟨n - 1, by omega⟩
    rw [toListAux, if_neg (fun hm => (ltext_plain hp ha hg _ hm).1 rfl), run_if ha hg, chunks]
  | .item pre w post :: ts, acc, n, ha, hg, h, hn => by
    have e : acc ++ .item pre w post :: ts = (acc ++ [.item pre w post]) ++ ts := by simp
    rw [e] at hn ⊢
    rw [chunks_item]
    exact toList_chunks hp ts _ n ((LOk_append _ _).2 ⟨ha, h.1, trivial⟩) ((NoGrp_append _ _).2 ⟨hg, trivial⟩) h.2 hn
  | .op pre c post :: ts, acc, n, ha, hg, h, hn => by
    have e : acc ++ .op pre c post :: ts = (acc ++ [.op pre c post]) ++ ts := by simp
    rw [e] at hn ⊢
    rw [chunks_op]
    exact toList_chunks hp ts _ n ((LOk_append _ _).2 ⟨ha, h.1, trivial⟩) ((NoGrp_append _ _).2 ⟨hg, trivial⟩) h.2 hn
  | .grp g :: ts, acc, n, ha, hg, h, hn => by
    obtain ⟨n, rfl⟩ : ∃ m, n = m + 1 := ⟨n - 1, by omega⟩
    have e : ltext (acc ++ .grp g :: ts) = ltext acc ++ '(' :: (ltext g ++ ')' :: ltext ts) := by
      rw [ltext_append, ltext_grp]
    have hlen : (ltext (acc ++ .grp g :: ts)).length = (ltext acc).length + (ltext g).length + (ltext ts).length + 2 := by
      rw [e]; simp; omega
    rw [hlen] at hn
    rw [e, toListAux, if_pos (by simp), findOuter_group hp (ltext_plain hp ha hg) g h.1.1]
    simp only
    have d1 : ((ltext acc ++ '(' :: (ltext g ++ ')' :: ltext ts)).take ((ltext acc).length + 1 + (ltext g).length)).drop ((ltext acc).length + 1) = ltext g := by
      have : ltext acc ++ '(' :: (ltext g ++ ')' :: ltext ts) = (ltext acc ++ ['('] ++ ltext g) ++ ')' :: ltext ts := by simp
      rw [this, List.take_left' (by simp; omega)]
      exact List.drop_left' (by simp)
    have d2 : (ltext acc ++ '(' :: (ltext g ++ ')' :: ltext ts)).drop ((ltext acc).length + 1 + (ltext g).length + 1) = ltext ts := by
      have : ltext acc ++ '(' :: (ltext g ++ ')' :: ltext ts) = (ltext acc ++ ['('] ++ ltext g ++ [')']) ++ ltext ts := by simp
      rw [this]
      exact List.drop_left' (by simp; omega)
    have d3 : (ltext acc ++ '(' :: (ltext g ++ ')' :: ltext ts)).take (ltext acc).length = ltext acc := List.take_left' rfl
    have r1 := toList_chunks hp g [] n trivial trivial h.1.1 (by rw [List.nil_append]; omega)
    have r2 := toList_chunks hp ts [] n trivial trivial h.2 (by rw [List.nil_append]; omega)
    rw [List.nil_append] at r1 r2
    rw [d1, d2, d3, r1, r2]
    simp only
    rw [chunks_grp, run_if ha hg]

/-- Text to stripped token tree. -/
theorem toList_text {syms : List Char} (hp : SymsPlain syms) (hs : SymsOk syms) (ts : List LTok) (h : LOk syms ts)
    (hn : NoAdj ts) : ∃ l, toList (ltext ts) = .ok l ∧ normTrees (splitTrees syms l) = ltrees ts := by
  refine ⟨chunks [] ts, ?_, ?_⟩
  · have := toList_chunks hp ts [] ((ltext ts).length + 1) trivial trivial h (by simp)
    simpa [toList] using this
  · have := split_chunks hs ts [] trivial trivial h (by simpa using hn)
    simpa [ltrees] using this

end Rocketry
