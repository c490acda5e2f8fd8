import Verif.Spec.CondTextSpec
import Verif.Props.PhraseProps

/-!
# C24: the object read from a text; C76: the text of a condition reads back as the condition
-/

namespace Rocketry.Props

open Rocketry.Spec Rocketry.Phrases Cond

variable {L : Type}

/-! ### the object read from a text -/

theorem and_assoc_obj (a b c : Cond L) : (a.and b).and c = a.and (b.and c) := by
  simp [Cond.and, mkAll, allParts]

theorem or_assoc_obj (a b c : Cond L) : (a.or b).or c = a.or (b.or c) := by
  simp [Cond.or, mkAny, anyParts]

theorem allParts_simple {x : Cond L} (h : Levelled x) : ∀ s ∈ allParts x, ∀ xs, s ≠ .all xs := by
  cases x with
  | all subs => exact h
  | _ => intro s hs xs; simp only [allParts, List.mem_singleton] at hs; subst hs; simp

theorem anyParts_simple {x : Cond L} (h : Levelled x) : ∀ s ∈ anyParts x, ∀ xs, s ≠ .any xs := by
  cases x with
  | any subs => exact h
  | _ => intro s hs xs; simp only [anyParts, List.mem_singleton] at hs; subst hs; simp

theorem flatMap_allParts {l : List (Cond L)} (h : ∀ s ∈ l, ∀ xs, s ≠ .all xs) : l.flatMap allParts = l := by
  induction l with
  | nil => rfl
  | cons a l ih =>
    rw [List.flatMap_cons, ih (fun s hs => h s (List.mem_cons_of_mem _ hs))]
    have ha := h a (by simp)
    cases a with
    | all xs => exact absurd rfl (ha xs)
    | _ => rfl

theorem flatMap_anyParts {l : List (Cond L)} (h : ∀ s ∈ l, ∀ xs, s ≠ .any xs) : l.flatMap anyParts = l := by
  induction l with
  | nil => rfl
  | cons a l ih =>
    rw [List.flatMap_cons, ih (fun s hs => h s (List.mem_cons_of_mem _ hs))]
    have ha := h a (by simp)
    cases a with
    | any xs => exact absurd rfl (ha xs)
    | _ => rfl

theorem invert_simple {x : Cond L} (h : Levelled x) : Levelled (invert x) := by
  cases x <;> exact h

theorem objectLevel (strLeaf : Char → L) :
    LevelOk Levelled (fun c => c) invert Cond.and Cond.or .alwaysTrue (fun _ => True) (condOpers strLeaf) := by
  intro ts l hne hts hl
  refine assemble_not_and_or (neg := invert) (Good := Levelled) (interp := fun c => c) (dn := invert) (fn := fun x => .ok (invert (x.cond strLeaf))) and_assoc_obj or_assoc_obj (fun x => rfl) (fun x hx => invert_simple hx)
    (fun x => rfl) ?_ ?_ ts hne (fun t ht => ⟨(hts t ht).1, fun x hx => ((hts t ht).2 x hx).1⟩) l hl
  · intro x y hx hy
    have h : ∀ s ∈ allParts x ++ allParts y, ∀ xs, s ≠ .all xs := by
      intro s hs
      rcases List.mem_append.1 hs with hs | hs
      · exact allParts_simple hx s hs
      · exact allParts_simple hy s hs
    have he : mkAll ([x, y].flatMap allParts) = Cond.and x y := by
      simp only [Cond.and, mkAll, List.flatMap_cons, List.flatMap_nil, List.append_nil]
      rw [flatMap_allParts h]
    refine ⟨_, rfl, ?_, ?_⟩
    · simp only [Tok.cond, he]
      simp only [Cond.and, mkAll, List.flatMap_cons, List.flatMap_nil, List.append_nil]
      exact h
    · simp only [Tok.cond, he]
  · intro x y hx hy
    have h : ∀ s ∈ anyParts x ++ anyParts y, ∀ xs, s ≠ .any xs := by
      intro s hs
      rcases List.mem_append.1 hs with hs | hs
      · exact anyParts_simple hx s hs
      · exact anyParts_simple hy s hs
    have he : mkAny ([x, y].flatMap anyParts) = Cond.or x y := by
      simp only [Cond.or, mkAny, List.flatMap_cons, List.flatMap_nil, List.append_nil]
      rw [flatMap_anyParts h]
    refine ⟨_, rfl, ?_, ?_⟩
    · simp only [Tok.cond, he]
      simp only [Cond.or, mkAny, List.flatMap_cons, List.flatMap_nil, List.append_nil]
      exact h
    · simp only [Tok.cond, he]

/-- The object of a word. -/
def objectOf (item : Txt → Except PyErr (Cond L)) (w : Txt) : Cond L :=
  match item w with
  | .ok c => c
  | .error _ => .alwaysTrue

theorem byHand_den (item : Txt → Except PyErr (Cond L)) : ∀ e : Written, (∀ w ∈ e.words, ∃ x, item w = .ok x) →
    byHand item e = .ok (den invert Cond.and Cond.or (objectOf item) e)
  | .item pre w post, h => by
    obtain ⟨x, hx⟩ := h w (by simp [Written.words])
    simp [byHand, den, objectOf, hx]
  | .group e, h => by rw [byHand, den, byHand_den item e h]
  | .not pre post e, h => by rw [byHand, den, byHand_den item e h]; rfl
  | .and a pre post b, h => by
    rw [byHand, den, byHand_den item a (fun w hw => h w (by simp [Written.words, hw])),
      byHand_den item b (fun w hw => h w (by simp [Written.words, hw]))]
  | .or a pre post b, h => by
    rw [byHand, den, byHand_den item a (fun w hw => h w (by simp [Written.words, hw])),
      byHand_den item b (fun w hw => h w (by simp [Written.words, hw]))]

/-- C24: a condition string made of words, `~`, `&`, `|` and brackets, of any size and depth, parses to the very object that
one gets by applying the operators `~`, `&`, `|` to the objects of the words, `~` binding tighter than `&` and `&` tighter
than `|`.  What is missing: as for `C24_condition_partial`. -/
theorem C24_object_partial (strLeaf : Char → L) (item : Txt → Except PyErr (Cond L)) (e : Written) (hp : e.Proper)
    (hit : ∀ w ∈ e.words, ∃ x, item w = .ok x ∧ Levelled x) :
    ∃ c, byHand item e = .ok c ∧ parseCondition strLeaf item e.text = .ok c := by
  obtain ⟨z, h1, _, h3⟩ := (instructionParse_written (f := objectOf item) and_assoc_obj or_assoc_obj (objectLevel strLeaf) trivial
    (item := item) (by simp [condOpers, Oper.symbol]) (by simp [condOpers, Oper.symbol]) (by simp [condOpers, Oper.symbol]) e hp
    (Or.inr ⟨by simp [condOpers, Oper.symbol], fun _ _ => trivial⟩)).1
    (fun w hw => by
      obtain ⟨c, a, b⟩ := hit w hw
      exact ⟨c, a, b, by simp [objectOf, a]⟩)
  refine ⟨_, byHand_den item e (fun w hw => ⟨_, (hit w hw).choose_spec.1⟩), ?_⟩
  rw [parseCondition, h1, ← h3]

/-! ### C76: the text of a condition -/

section
variable {item : Txt → Except PyErr (Cond L)} {leafStr : L → Except PyErr Txt}

def WordsOk (item : Txt → Except PyErr (Cond L)) (e : Written) : Prop := ∀ w ∈ e.words, ∃ x, item w = .ok x ∧ Levelled x

mutual
theorem honest_written : ∀ (p : Place) (c : SCond L), Honest item leafStr p c →
    ∃ e : Written, e.Proper ∧ c.str leafStr = .ok e.text ∧ p.Allows e ∧ WordsOk item e ∧ byHand item e = .ok c.erase
  | p, .leaf l (some s), h => by
    obtain ⟨e, h1, rfl, h3, h4, h5⟩ := (show Says item p s (.leaf l) by simpa only [Honest] using h)
    exact ⟨e, h1, by simp only [SCond.str], h3, h4, h5⟩
  | p, .leaf l none, h => by
    obtain ⟨s, hs, e, h1, rfl, h3, h4, h5⟩ := (show ∃ s, leafStr l = .ok s ∧ Says item p s (.leaf l) by
      simpa only [Honest] using h)
    exact ⟨e, h1, by simp only [SCond.str, hs], h3, h4, h5⟩
  | p, .alwaysTrue, h => by
    rw [Honest] at h
    refine ⟨.item [] c!"true" [], ?_, rfl, ?_, ?_, by simp only [byHand, h, SCond.erase]⟩
    · refine ⟨by simp [Written.Blank], ⟨⟨'t', rfl, by decide⟩, ⟨'e', rfl, by decide⟩, by decide⟩, by simp [Written.Blank]⟩
    · cases p <;> trivial
    · intro w hw; simp only [Written.words, List.mem_singleton] at hw; subst hw; exact ⟨_, h, trivial⟩
  | p, .alwaysFalse, h => by
    rw [Honest] at h
    refine ⟨.item [] c!"false" [], ?_, rfl, ?_, ?_, by simp only [byHand, h, SCond.erase]⟩
    · refine ⟨by simp [Written.Blank], ⟨⟨'f', rfl, by decide⟩, ⟨'e', rfl, by decide⟩, by decide⟩, by simp [Written.Blank]⟩
    · cases p <;> trivial
    · intro w hw; simp only [Written.words, List.mem_singleton] at hw; subst hw; exact ⟨_, h, trivial⟩
  | p, .any (some s) subs, h => by
    obtain ⟨e, h1, rfl, h3, h4, h5⟩ := (show Says item p s _ by simpa only [Honest] using h)
    exact ⟨e, h1, by simp only [SCond.str], h3, h4, h5⟩
  | p, .all (some s) subs, h => by
    obtain ⟨e, h1, rfl, h3, h4, h5⟩ := (show Says item p s _ by simpa only [Honest] using h)
    exact ⟨e, h1, by simp only [SCond.str], h3, h4, h5⟩
  | p, .not (some s) c, h => by
    obtain ⟨e, h1, rfl, h3, h4, h5⟩ := (show Says item p s _ by simpa only [Honest] using h)
    exact ⟨e, h1, by simp only [SCond.str], h3, h4, h5⟩
  | p, .any none subs, h => by
    simp only [Honest] at h
    obtain ⟨h1, h2, h3⟩ := h
    obtain ⟨ts, e, k1, k2, k3, k4, d, k5, k6, k7⟩ := honest_any subs h2 h3 (by rintro rfl; simp at h1)
    refine ⟨.group e, k3, ?_, by cases p <;> trivial, k4, ?_⟩
    · simp only [SCond.str, k1, Except.map, Written.text, k2]
    · rw [byHand, k5, k7 h1, SCond.erase]
  | p, .all none subs, h => by
    simp only [Honest] at h
    obtain ⟨h1, h2, h3⟩ := h
    obtain ⟨ts, e, k1, k2, k3, _, k4, d, k5, k6, k7⟩ := honest_all subs h2 h3 (by rintro rfl; simp at h1)
    refine ⟨.group e, k3, ?_, by cases p <;> trivial, k4, ?_⟩
    · simp only [SCond.str, k1, Except.map, Written.text, k2]
    · rw [byHand, k5, k7 h1, SCond.erase]
  | p, .not none c, h => by
    simp only [Honest] at h
    obtain ⟨h1, h2⟩ := h
    obtain ⟨e, k1, k2, k3, k4, k5⟩ := honest_written .tight c h1
    refine ⟨.not [] [] e, ⟨by simp [Written.Blank], by simp [Written.Blank], k3, k1⟩, ?_, by cases p <;> trivial, k4, ?_⟩
    · simp only [SCond.str, k2, Except.map, Written.text, List.nil_append, List.cons_append]
    · rw [byHand, k5, SCond.erase]
      have : invert c.erase = .not c.erase := by
        cases hc : c.erase with
        | not x => exact absurd hc (h2 x)
        | _ => rfl
      simp only [Except.map, this]

theorem honest_any : ∀ (cs : List (SCond L)), HonestAll item leafStr .loose cs → (∀ s ∈ cs, ∀ xs, s.erase ≠ .any xs) → cs ≠ [] →
    ∃ ts e, SCond.strList leafStr cs = .ok ts ∧ Written.text e = joinWith c!" | " ts ∧ e.Proper ∧ WordsOk item e ∧
      ∃ d, byHand item e = .ok d ∧ anyParts d = SCond.eraseList cs ∧ (2 ≤ cs.length → d = .any (SCond.eraseList cs))
  | [], _, _, h => absurd rfl h
  | [c], h, ha, _ => by
    obtain ⟨e, k1, k2, k3, k4, k5⟩ := honest_written .loose c h.1
    refine ⟨[e.text], e, by simp only [SCond.strList, k2, Except.map], rfl, k1, k4, _, k5, ?_, fun h => absurd h (by simp)⟩
    have := ha c (by simp)
    cases hc : c.erase with
    | any xs => exact absurd hc (this xs)
    | _ => simp only [anyParts, SCond.eraseList, hc]
  | c :: c' :: cs, h, ha, _ => by
    obtain ⟨e, k1, k2, k3, k4, k5⟩ := honest_written .loose c h.1
    obtain ⟨ts, e', l1, l2, l3, l4, d, l5, l6, _⟩ := honest_any (c' :: cs) h.2 (fun s hs => ha s (List.mem_cons_of_mem _ hs)) (by simp)
    have hc : anyParts c.erase = [c.erase] := by
      have := ha c (by simp)
      cases hc : c.erase with
      | any xs => exact absurd hc (this xs)
      | _ => rfl
    have hts : ts ≠ [] := by
      rintro rfl
      simp only [SCond.strList] at l1
      cases hx : SCond.str leafStr c' with
      | error x => simp [hx] at l1
      | ok x =>
        simp only [hx] at l1
        cases hy : SCond.strList leafStr cs with
        | error y => simp [hy, Except.map] at l1
        | ok y => simp [hy, Except.map] at l1
    have hd : (c.erase).or d = .any (SCond.eraseList (c :: c' :: cs)) := by
      simp only [Cond.or, mkAny, List.flatMap_cons, List.flatMap_nil, List.append_nil, hc, l6]
      rfl
    refine ⟨e.text :: ts, .or e [' '] [' '] e', ?_, ?_, ⟨by simp [Written.Blank], by simp [Written.Blank], k1, l3⟩, ?_,
      _, ?_, ?_, fun _ => hd⟩
    · rw [SCond.strList, k2, l1]; rfl
    · cases ts with
      | nil => exact absurd rfl hts
      | cons t ts => simp only [Written.text, joinWith, l2]; simp
    · intro w hw
      rcases List.mem_append.1 hw with hw | hw
      · exact k4 w hw
      · exact l4 w hw
    · rw [byHand, k5, l5]
    · rw [hd]; rfl

theorem honest_all : ∀ (cs : List (SCond L)), HonestAll item leafStr .conj cs → (∀ s ∈ cs, ∀ xs, s.erase ≠ .all xs) → cs ≠ [] →
    ∃ ts e, SCond.strList leafStr cs = .ok ts ∧ Written.text e = joinWith c!" & " ts ∧ e.Proper ∧ e.Conj ∧ WordsOk item e ∧
      ∃ d, byHand item e = .ok d ∧ allParts d = SCond.eraseList cs ∧ (2 ≤ cs.length → d = .all (SCond.eraseList cs))
  | [], _, _, h => absurd rfl h
  | [c], h, ha, _ => by
    obtain ⟨e, k1, k2, k3, k4, k5⟩ := honest_written .conj c h.1
    refine ⟨[e.text], e, by simp only [SCond.strList, k2, Except.map], rfl, k1, k3, k4, _, k5, ?_, fun h => absurd h (by simp)⟩
    have := ha c (by simp)
    cases hc : c.erase with
    | all xs => exact absurd hc (this xs)
    | _ => simp only [allParts, SCond.eraseList, hc]
  | c :: c' :: cs, h, ha, _ => by
    obtain ⟨e, k1, k2, k3, k4, k5⟩ := honest_written .conj c h.1
    obtain ⟨ts, e', l1, l2, l3, l3', l4, d, l5, l6, _⟩ := honest_all (c' :: cs) h.2 (fun s hs => ha s (List.mem_cons_of_mem _ hs)) (by simp)
    have hc : allParts c.erase = [c.erase] := by
      have := ha c (by simp)
      cases hc : c.erase with
      | all xs => exact absurd hc (this xs)
      | _ => rfl
    have hts : ts ≠ [] := by
      rintro rfl
      simp only [SCond.strList] at l1
      cases hx : SCond.str leafStr c' with
      | error x => simp [hx] at l1
      | ok x =>
        simp only [hx] at l1
        cases hy : SCond.strList leafStr cs with
        | error y => simp [hy, Except.map] at l1
        | ok y => simp [hy, Except.map] at l1
    have hd : (c.erase).and d = .all (SCond.eraseList (c :: c' :: cs)) := by
      simp only [Cond.and, mkAll, List.flatMap_cons, List.flatMap_nil, List.append_nil, hc, l6]
      rfl
    refine ⟨e.text :: ts, .and e [' '] [' '] e', ?_, ?_, ⟨by simp [Written.Blank], by simp [Written.Blank], k3, l3', k1, l3⟩, trivial, ?_,
      _, ?_, ?_, fun _ => hd⟩
    · rw [SCond.strList, k2, l1]; rfl
    · cases ts with
      | nil => exact absurd rfl hts
      | cons t ts => simp only [Written.text, joinWith, l2]; simp
    · intro w hw
      rcases List.mem_append.1 hw with hw | hw
      · exact k4 w hw
      · exact l4 w hw
    · rw [byHand, k5, l5]
    · rw [hd]; rfl
end

/-- C76: for all conditions, of any size and depth, whose kept texts say what their objects are and stand in places they are
tight enough for: `str(cond)` is a text which is read as the same condition.  Missing: kept texts in other places
(`C76_precedence_violated`), texts that do not say what the object is (`C76_comparison_violated`) and objects without a
readable text (`C76_parts_violated`, `C76_status_violated`, `C76_missing_violated`). -/
theorem C76_honest_partial (strLeaf : Char → L) (item : Txt → Except PyErr (Cond L)) (leafStr : L → Except PyErr Txt)
    (c : SCond L) (h : Honest item leafStr .loose c) :
    ∃ t, c.str leafStr = .ok t ∧ parseCondition strLeaf item t = .ok c.erase := by
  obtain ⟨e, h1, h2, _, h4, h5⟩ := honest_written .loose c h
  obtain ⟨d, k1, k2⟩ := C24_object_partial strLeaf item e h1 h4
  rw [h5] at k1
  cases k1
  exact ⟨_, h2, k2⟩

end

/-! ### conditions read from texts and combined -/

section
variable {strLeaf : Char → L} {item : Txt → Except PyErr (Cond L)} {leafStr : L → Except PyErr Txt}

mutual
theorem erase_plain : ∀ c : Cond L, (SCond.plain c).erase = c
  | .leaf l => by rw [SCond.plain, SCond.erase]
  | .alwaysTrue => by rw [SCond.plain, SCond.erase]
  | .alwaysFalse => by rw [SCond.plain, SCond.erase]
  | .any subs => by rw [SCond.plain, SCond.erase, eraseList_plain subs]
  | .all subs => by rw [SCond.plain, SCond.erase, eraseList_plain subs]
  | .not c => by rw [SCond.plain, SCond.erase, erase_plain c]
theorem eraseList_plain : ∀ cs : List (Cond L), SCond.eraseList (SCond.plainList cs) = cs
  | [] => by rw [SCond.plainList, SCond.eraseList]
  | c :: cs => by rw [SCond.plainList, SCond.eraseList, erase_plain c, eraseList_plain cs]
end

theorem erase_named (s : Txt) (c : SCond L) : (c.named s).erase = c.erase := by
  cases c <;> simp only [SCond.named, SCond.erase]

/-- C76: a condition read from a text has a text which is read as the same condition: the text itself, or "true" or "false"
for the constants. -/
theorem C76_read (ht : parseCondition strLeaf item c!"true" = .ok .alwaysTrue)
    (hf : parseCondition strLeaf item c!"false" = .ok .alwaysFalse) (leafStr : L → Except PyErr Txt) (s : Txt) (c : SCond L)
    (h : SCond.read strLeaf item s = .ok c) :
    ∃ t, c.str leafStr = .ok t ∧ parseCondition strLeaf item t = .ok c.erase ∧
      (c.erase ≠ .alwaysTrue → c.erase ≠ .alwaysFalse → t = s) := by
  unfold SCond.read at h
  cases hp : parseCondition strLeaf item s with
  | error e => simp [hp] at h
  | ok d =>
    simp only [hp, Except.ok.injEq] at h
    subst h
    rw [erase_named, erase_plain]
    cases d with
    | alwaysTrue => exact ⟨_, rfl, ht, fun h => absurd rfl h⟩
    | alwaysFalse => exact ⟨_, rfl, hf, fun _ h => absurd rfl h⟩
    | _ => exact ⟨s, by simp only [SCond.plain, SCond.named, SCond.str], hp, fun _ _ => rfl⟩

theorem eraseList_append (as bs : List (SCond L)) :
    SCond.eraseList (as ++ bs) = SCond.eraseList as ++ SCond.eraseList bs := by
  induction as with
  | nil => rfl
  | cons a as ih => simp only [List.cons_append, SCond.eraseList, ih]

theorem eraseList_allParts (c : SCond L) : SCond.eraseList c.allParts = allParts c.erase := by
  cases c <;> simp only [SCond.allParts, SCond.erase, allParts, SCond.eraseList]

theorem eraseList_anyParts (c : SCond L) : SCond.eraseList c.anyParts = anyParts c.erase := by
  cases c <;> simp only [SCond.anyParts, SCond.erase, anyParts, SCond.eraseList]

theorem erase_and (a b : SCond L) : (a.and b).erase = a.erase.and b.erase := by
  simp only [SCond.and, SCond.erase, eraseList_append, eraseList_allParts, Cond.and, mkAll, List.flatMap_cons, List.flatMap_nil,
    List.append_nil]

theorem erase_or (a b : SCond L) : (a.or b).erase = a.erase.or b.erase := by
  simp only [SCond.or, SCond.erase, eraseList_append, eraseList_anyParts, Cond.or, mkAny, List.flatMap_cons, List.flatMap_nil,
    List.append_nil]

theorem erase_invert (a : SCond L) : a.invert.erase = invert a.erase := by
  cases a <;> simp only [SCond.invert, SCond.erase, invert]

theorem honestAll_append {p : Place} : ∀ as bs : List (SCond L), HonestAll item leafStr p as → HonestAll item leafStr p bs →
    HonestAll item leafStr p (as ++ bs)
  | [], _, _, h => h
  | a :: as, bs, h, h' => ⟨h.1, honestAll_append as bs h.2 h'⟩

/-- Honest in every place, and also what is inside a negation; no compound has a text of its own. -/
def Fair (item : Txt → Except PyErr (Cond L)) (leafStr : L → Except PyErr Txt) : SCond L → Prop
  | .leaf l own => ∀ p, Honest item leafStr p (.leaf l own)
  | .alwaysTrue => item c!"true" = .ok .alwaysTrue
  | .alwaysFalse => item c!"false" = .ok .alwaysFalse
  | .any own subs => own = none ∧ ∀ p, Honest item leafStr p (.any none subs)
  | .all own subs => own = none ∧ ∀ p, Honest item leafStr p (.all none subs)
  | .not own c => own = none ∧ (∀ p, Honest item leafStr p (.not none c)) ∧ Fair item leafStr c

theorem Fair.honest {c : SCond L} (h : Fair item leafStr c) (p : Place) : Honest item leafStr p c := by
  cases c with
  | leaf l own => exact h p
  | alwaysTrue => simpa only [Honest, Fair] using h
  | alwaysFalse => simpa only [Honest, Fair] using h
  | any own subs => obtain ⟨rfl, h⟩ := h; exact h p
  | all own subs => obtain ⟨rfl, h⟩ := h; exact h p
  | not own c => obtain ⟨rfl, h, _⟩ := h; exact h p

theorem Fair.allParts {c : SCond L} (h : Fair item leafStr c) : 1 ≤ c.allParts.length ∧ HonestAll item leafStr .conj c.allParts ∧
    ∀ s ∈ c.allParts, ∀ xs, s.erase ≠ .all xs := by
  have single : ∀ d : SCond L, Fair item leafStr d → (∀ xs, d.erase ≠ .all xs) → 1 ≤ [d].length ∧ HonestAll item leafStr .conj [d] ∧
      ∀ s ∈ [d], ∀ xs, s.erase ≠ .all xs := by
    intro d hd hn
    exact ⟨Nat.le_refl 1, ⟨hd.honest _, trivial⟩, fun s hs => by rw [List.mem_singleton] at hs; subst hs; exact hn⟩
  cases c with
  | all own subs =>
    obtain ⟨rfl, h⟩ := h
    have := h .loose
    simp only [Honest] at this
    exact ⟨Nat.le_of_succ_le this.1, this.2.1, this.2.2⟩
  | _ => exact single _ h (by simp only [SCond.erase]; simp)

theorem Fair.anyParts {c : SCond L} (h : Fair item leafStr c) : 1 ≤ c.anyParts.length ∧ HonestAll item leafStr .loose c.anyParts ∧
    ∀ s ∈ c.anyParts, ∀ xs, s.erase ≠ .any xs := by
  have single : ∀ d : SCond L, Fair item leafStr d → (∀ xs, d.erase ≠ .any xs) → 1 ≤ [d].length ∧ HonestAll item leafStr .loose [d] ∧
      ∀ s ∈ [d], ∀ xs, s.erase ≠ .any xs := by
    intro d hd hn
    exact ⟨Nat.le_refl 1, ⟨hd.honest _, trivial⟩, fun s hs => by rw [List.mem_singleton] at hs; subst hs; exact hn⟩
  cases c with
  | any own subs =>
    obtain ⟨rfl, h⟩ := h
    have := h .loose
    simp only [Honest] at this
    exact ⟨Nat.le_of_succ_le this.1, this.2.1, this.2.2⟩
  | _ => exact single _ h (by simp only [SCond.erase]; simp)

theorem Fair.and {a b : SCond L} (ha : Fair item leafStr a) (hb : Fair item leafStr b) : Fair item leafStr (a.and b) := by
  obtain ⟨a1, a2, a3⟩ := ha.allParts
  obtain ⟨b1, b2, b3⟩ := hb.allParts
  refine ⟨rfl, fun p => ?_⟩
  simp only [Honest]
  refine ⟨by rw [List.length_append]; omega, honestAll_append _ _ a2 b2, fun s hs => ?_⟩
  rcases List.mem_append.1 hs with hs | hs
  · exact a3 s hs
  · exact b3 s hs

theorem Fair.or {a b : SCond L} (ha : Fair item leafStr a) (hb : Fair item leafStr b) : Fair item leafStr (a.or b) := by
  obtain ⟨a1, a2, a3⟩ := ha.anyParts
  obtain ⟨b1, b2, b3⟩ := hb.anyParts
  refine ⟨rfl, fun p => ?_⟩
  simp only [Honest]
  refine ⟨by rw [List.length_append]; omega, honestAll_append _ _ a2 b2, fun s hs => ?_⟩
  rcases List.mem_append.1 hs with hs | hs
  · exact a3 s hs
  · exact b3 s hs

theorem Fair.invert {a : SCond L} (ha : Fair item leafStr a) : Fair item leafStr a.invert := by
  cases a with
  | not own c => exact ha.2.2
  | _ =>
    refine ⟨rfl, fun p => ?_, ha⟩
    simp only [Honest]
    exact ⟨ha.honest .tight, by simp only [SCond.erase]; simp⟩

theorem parse_word {w : Txt} {x : Cond L} (strLeaf : Char → L) (hw : Written.Word w) (hi : item w = .ok x) (hx : Levelled x) :
    parseCondition strLeaf item w = .ok x := by
  obtain ⟨c, h1, h2⟩ := C24_object_partial strLeaf item (.item [] w []) ⟨by simp [Written.Blank], hw, by simp [Written.Blank]⟩
    (fun w' hw' => by simp only [Written.words, List.mem_singleton] at hw'; subst hw'; exact ⟨x, hi, hx⟩)
  rw [byHand, hi] at h1
  cases h1
  simpa [Written.text] using h2

theorem says_word {w : Txt} {x : Cond L} (p : Place) (hw : Written.Word w) (hi : item w = .ok x) (hx : Levelled x) :
    Says item p w x := by
  refine ⟨.item [] w [], ⟨by simp [Written.Blank], hw, by simp [Written.Blank]⟩, by simp [Written.text], by cases p <;> trivial, ?_, by rw [byHand, hi]⟩
  intro w' hw'
  simp only [Written.words, List.mem_singleton] at hw'
  subst hw'
  exact ⟨x, hi, hx⟩

theorem made_fair (ht : item c!"true" = .ok .alwaysTrue) (hf : item c!"false" = .ok .alwaysFalse) {e : CExpr (Txt ⊕ L)} {c : SCond L}
    (h : Made strLeaf item e c) : (∀ w ∈ e.leaves, SoundLeaf item leafStr w) → Fair item leafStr c := by
  induction h with
  | @read t c h =>
    intro hl
    obtain ⟨hw, hc⟩ := hl (.inl t) (by simp [CExpr.leaves])
    unfold SCond.read at h
    rcases hc with ⟨l, hc⟩ | hc | hc
    · rw [parse_word strLeaf hw hc trivial] at h
      cases h
      intro p
      simpa only [SCond.plain, SCond.named, Honest] using says_word p hw hc trivial
    · rw [parse_word strLeaf hw hc trivial] at h
      cases h
      exact ht
    · rw [parse_word strLeaf hw hc trivial] at h
      cases h
      exact hf
  | made l =>
    intro hl p
    obtain ⟨s, h1, h2, h3⟩ := hl (.inr l) (by simp [CExpr.leaves])
    simp only [Honest]
    exact ⟨s, h1, says_word p h2 h3 trivial⟩
  | and _ _ iha ihb =>
    intro hl
    rw [CExpr.leaves] at hl
    exact (iha (fun w hw => hl w (List.mem_append.2 (Or.inl hw)))).and (ihb (fun w hw => hl w (List.mem_append.2 (Or.inr hw))))
  | or _ _ iha ihb =>
    intro hl
    rw [CExpr.leaves] at hl
    exact (iha (fun w hw => hl w (List.mem_append.2 (Or.inl hw)))).or (ihb (fun w hw => hl w (List.mem_append.2 (Or.inr hw))))
  | not _ ih =>
    intro hl
    rw [CExpr.leaves] at hl
    exact (ih hl).invert

theorem made_eval {σ : Type} (g : L → Obs σ) (m : Txt ⊕ L → Obs σ) {e : CExpr (Txt ⊕ L)} {c : SCond L} (h : Made strLeaf item e c) :
    (∀ w ∈ e.leaves, SoundLeaf item leafStr w ∧ Shows item g (m w) w) → observe g c.erase = e.eval m := by
  induction h with
  | @read t c h =>
    intro hl
    obtain ⟨⟨hw, hc⟩, x, hx, ho⟩ := hl (.inl t) (by simp [CExpr.leaves])
    unfold SCond.read at h
    have hs : Levelled x := by
      rw [hx] at hc
      rcases hc with ⟨l, hc⟩ | hc | hc <;> cases hc <;> trivial
    rw [parse_word strLeaf hw hx hs] at h
    cases h
    rw [erase_named, erase_plain, CExpr.eval, ho]
  | made l =>
    intro hl
    rw [SCond.erase, CExpr.eval, observe]
    exact (hl (.inr l) (by simp [CExpr.leaves])).2
  | and _ _ iha ihb =>
    intro hl
    rw [CExpr.leaves] at hl
    rw [erase_and, CExpr.eval, ← iha (fun w hw => hl w (List.mem_append.2 (Or.inl hw))),
      ← ihb (fun w hw => hl w (List.mem_append.2 (Or.inr hw))), Cond.and, mkAll, observe]
    simp only [List.flatMap_cons, List.flatMap_nil, List.append_nil]
    rw [observeAll_append, observe_allParts, observe_allParts]
  | or _ _ iha ihb =>
    intro hl
    rw [CExpr.leaves] at hl
    rw [erase_or, CExpr.eval, ← iha (fun w hw => hl w (List.mem_append.2 (Or.inl hw))),
      ← ihb (fun w hw => hl w (List.mem_append.2 (Or.inr hw))), Cond.or, mkAny, observe]
    simp only [List.flatMap_cons, List.flatMap_nil, List.append_nil]
    rw [observeAny_append, observe_anyParts, observe_anyParts]
  | not _ ih =>
    intro hl
    rw [CExpr.leaves] at hl
    rw [erase_invert, CExpr.eval, ← ih hl, observe_invert]

end

/-- C76: conditions read from texts that are single words, and conditions made in Python whose text is a word naming them,
combined by `&`, `|` and `~` in any way and to any depth: they have a text, the text is read as the same object, and this
observes as the expression of the user, for leaves with any effects.  Missing: texts that are compound themselves
(`C76_precedence_violated`, `C76_parts_violated`) and conditions without a text that can be read (`C76_status_violated`,
`C76_missing_violated`). -/
theorem C76_combined_partial {σ : Type} (strLeaf : Char → L) (item : Txt → Except PyErr (Cond L)) (leafStr : L → Except PyErr Txt)
    (ht : item c!"true" = .ok .alwaysTrue) (hf : item c!"false" = .ok .alwaysFalse) (g : L → Obs σ) (m : Txt ⊕ L → Obs σ)
    (e : CExpr (Txt ⊕ L)) (c : SCond L) (h : Made strLeaf item e c)
    (hl : ∀ w ∈ e.leaves, SoundLeaf item leafStr w ∧ Shows item g (m w) w) :
    ∃ t c', c.str leafStr = .ok t ∧ parseCondition strLeaf item t = .ok c' ∧ c' = c.erase ∧ observe g c' = e.eval m := by
  obtain ⟨t, h1, h2⟩ := C76_honest_partial strLeaf item leafStr c ((made_fair ht hf h (fun w hw => (hl w hw).1)).honest .loose)
  exact ⟨t, _, h1, h2, rfl, made_eval g m h hl⟩

/-- A small syntax for the examples: the words `true` and `false`, otherwise each word is a leaf. -/
def toyItem (w : Txt) : Except PyErr (Cond Txt) :=
  if w = c!"true" then .ok .alwaysTrue else if w = c!"false" then .ok .alwaysFalse else .ok (.leaf w)

/-- `(parse("daily") | parse("up")) & ~parse("true")`. -/
def toyExpr : CExpr (Txt ⊕ Txt) := .and (.or (.leaf (.inl c!"daily")) (.leaf (.inr c!"up"))) (.not (.leaf (.inl c!"true")))

example : ∃ c : SCond Txt, Made (fun ch => [ch]) toyItem toyExpr c ∧
    (∀ w ∈ toyExpr.leaves, SoundLeaf toyItem .ok w ∧ Shows toyItem (fun l (s : List Txt) => (.ok true, l :: s))
      (match w with
        | .inl w => if w = c!"true" then (fun s => (.ok true, s)) else (fun s => (.ok true, w :: s))
        | .inr w => fun s => (.ok true, w :: s)) w) ∧
    c.str .ok = .ok c!"((daily | up) & ~true)" := by
  have w1 : Written.Word c!"daily" := by simp [Written.Word]
  have w2 : Written.Word c!"up" := by simp [Written.Word]
  have w3 : Written.Word c!"true" := by simp [Written.Word]
  have r1 : SCond.read (fun ch => [ch]) toyItem c!"daily" = .ok (.leaf c!"daily" (some c!"daily")) := by
    rw [SCond.read, parse_word (x := .leaf c!"daily") _ w1 rfl trivial]; rfl
  have r3 : SCond.read (fun ch => [ch]) toyItem c!"true" = .ok .alwaysTrue := by
    rw [SCond.read, parse_word (x := .alwaysTrue) _ w3 rfl trivial]; rfl
  refine ⟨_, .and (.or (.read r1) (.made _)) (.not (.read r3)), ?_, rfl⟩
  intro w hw
  simp only [toyExpr, CExpr.leaves, List.cons_append, List.nil_append, List.mem_cons, List.not_mem_nil, or_false] at hw
  rcases hw with rfl | rfl | rfl
  · exact ⟨⟨w1, Or.inl ⟨_, rfl⟩⟩, _, rfl, by simp [observe]⟩
  · exact ⟨⟨_, rfl, w2, rfl⟩, rfl⟩
  · exact ⟨⟨w3, Or.inr (Or.inl rfl)⟩, _, rfl, by simp [observe]⟩

/-- A kept text of a conjunction in a disjunction is honest: `parse("daily & up") | parse("late")`. -/
example : Honest toyItem (fun _ => .error .attribute) .loose
    (.any none [.all (some c!"daily & up") [.leaf c!"daily" none, .leaf c!"up" none], .leaf c!"late" (some c!"late")]) := by
  have p1 : (Written.and (.item [] c!"daily" []) [' '] [' '] (.item [] c!"up" [])).Proper := by
    simp [Written.Proper, Written.Word, Written.Conj, Written.Blank]
  simp only [Honest, HonestAll]
  refine ⟨by simp, ⟨⟨_, p1, rfl, trivial, ?_, rfl⟩, says_word _ (by simp [Written.Word]) rfl trivial, trivial⟩, ?_⟩
  · intro w hw
    simp only [Written.words, List.cons_append, List.nil_append, List.mem_cons, List.not_mem_nil, or_false] at hw
    rcases hw with rfl | rfl <;> exact ⟨_, rfl, trivial⟩
  · intro s hs xs
    simp only [List.mem_cons, List.not_mem_nil, or_false] at hs
    rcases hs with rfl | rfl <;> simp [SCond.erase]

/-! ### built-in conditions without a kept text -/

variable {read : Scope → Txt → Except PyErr AVal}

/-- No bracket and no operator. -/
def Bare (t : Txt) : Prop := ∀ c ∈ t, c ≠ '(' ∧ c ≠ ')' ∧ c ≠ '&' ∧ c ≠ '|' ∧ c ≠ '~'

instance (t : Txt) : Decidable (Bare t) := by unfold Bare; infer_instance

theorem word_around {a t b : Txt} (hx : ∃ x, a.head? = some x ∧ 32 < x.toNat ∧ x.toNat < 127)
    (hy : ∃ y, b.getLast? = some y ∧ 32 < y.toNat ∧ y.toNat < 127)
    (ha : Bare a) (ht : Bare t) (hb : Bare b) : Written.Word (a ++ t ++ b) := by
  obtain ⟨x, hx, hx'⟩ := hx
  obtain ⟨y, hy, hy'⟩ := hy
  refine ⟨⟨x, by simp [List.head?_append, hx], hx'⟩, ⟨y, by rw [List.getLast?_append, hy]; rfl, hy'⟩, ?_⟩
  intro c hc
  rcases List.mem_append.1 hc with hc | hc
  · rcases List.mem_append.1 hc with hc | hc
    · exact ha c hc
    · exact ht c hc
  · exact hb c hc

/-- C76: the text of a `TaskRunning` condition made in Python, for every name, is a word read as the condition. -/
theorem C76_running (ps : Period → Txt) (cs : List Txt → Txt) (t : Txt) (ht : Neat t) :
    SoundLeaf (parseCondItem read) (Builtin.str ps cs) (.inr (.running t)) := by
  refine ⟨c!"task '" ++ t ++ c!"' is running", rfl, word_around ⟨'t', rfl, by decide⟩ ⟨'g', rfl, by decide⟩ (by decide) ht.2 (by decide), ?_⟩
  have hf := of_decide_eq_true (List.all_eq_true.1 find_running _ (mem_bools false))
  have h := parse_shape (read := read) (s := (Phrase.running false t).text) (inst_around _ _ t .plain) (good_around (holds_plain ht.1)) hf
  simpa [callHandler, instG, kw, inst, parts, Phrase.text] using h

example : Neat c!"my task" := ⟨⟨by decide, by decide, by decide⟩, by decide⟩

/-- C76: the texts of the conditions `SchedulerCycles(__gt__=n)`, `SchedulerCycles(__lt__=n)` and `SchedulerCycles(__eq__=n)`
are words read as the conditions, for all numbers. -/
theorem C76_cycles (ps : Period → Txt) (cs : List Txt → Txt) (k : Comp) (hk : k = .gt ∨ k = .lt ∨ k = .eq) (n : Nat) :
    SoundLeaf (parseCondItem read) (Builtin.str ps cs) (.inr (.cycles [(k, (n : Int))])) := by
  have hn : Bare (showNat n) := by
    intro c hc
    have := showNat_digits n c hc
    refine ⟨?_, ?_, ?_, ?_, ?_⟩ <;> (rintro rfl; revert this; decide)
  have hs : showInt (n : Int) = showNat n := by simp [showInt]
  rcases hk with rfl | rfl | rfl
  · refine ⟨c!"scheduler has more than " ++ showNat n ++ c!" cycles", ?_, ?_, ?_⟩
    · simp [Builtin.str, cyclesWord, hs]
    · exact word_around ⟨'s', rfl, by decide⟩ ⟨'s', rfl, by decide⟩ (by decide) hn (by decide)
    · have h := parse_shape (read := read) (s := (Phrase.schedMore n).text) (inst_around _ _ (showNat n) .num) (good_around (holds_num n)) find_schedMore
      simpa [callHandler, cyclesComps, compOf, mapE, instG, inst, parts, bindE_ok, digitsVal_showNat, Phrase.text] using h
  · refine ⟨c!"scheduler has less than " ++ showNat n ++ c!" cycles", ?_, ?_, ?_⟩
    · simp [Builtin.str, cyclesWord, hs]
    · exact word_around ⟨'s', rfl, by decide⟩ ⟨'s', rfl, by decide⟩ (by decide) hn (by decide)
    · have h := parse_shape (read := read) (s := (Phrase.schedLess n).text) (inst_around _ _ (showNat n) .num) (good_around (holds_num n)) find_schedLess
      simpa [callHandler, cyclesComps, compOf, mapE, instG, inst, parts, bindE_ok, digitsVal_showNat, Phrase.text] using h
  · refine ⟨c!"scheduler has " ++ showNat n ++ c!" cycles", ?_, ?_, ?_⟩
    · simp [Builtin.str, cyclesWord, hs]
    · exact word_around ⟨'s', rfl, by decide⟩ ⟨'s', rfl, by decide⟩ (by decide) hn (by decide)
    · have h := parse_shape (read := read) (s := (Phrase.schedCycles n).text) (inst_around _ _ (showNat n) .num) (good_around (holds_num n)) find_schedCycles
      simpa [callHandler, cyclesComps, compOf, mapE, instG, inst, parts, bindE_ok, digitsVal_showNat, Phrase.text] using h

theorem const_item (b : Bool) : parseCondItem read (if b then c!"true" else c!"false") = .ok (if b then .alwaysTrue else .alwaysFalse) := by
  have h := (of_decide_eq_true (List.all_eq_true.1 (List.all_eq_true.1 find_const _ (mem_bools b)) _ (mem_bools false)))
  have h' := parse_shape (read := read) (s := (Phrase.const b false).text) (inst_chars' (parts [] [] []) _) (good_chars _) h
  cases b
  · exact h'
  · exact h'

/-- The built-in syntax meets the hypotheses of `C76_combined_partial` and `C76_read`. -/
example (strLeaf : Char → Builtin) : parseCondItem read c!"true" = .ok .alwaysTrue ∧ parseCondItem read c!"false" = .ok .alwaysFalse ∧
    parseCondition strLeaf (parseCondItem read) c!"true" = .ok .alwaysTrue ∧
    parseCondition strLeaf (parseCondItem read) c!"false" = .ok .alwaysFalse :=
  ⟨const_item true, const_item false, parse_word strLeaf (by simp [Written.Word]) (const_item true) trivial,
    parse_word strLeaf (by simp [Written.Word]) (const_item false) trivial⟩

/-! ### where it fails -/

/-- Violated: the kept text of a disjunction is put into a conjunction without brackets.  `parse("a | b") & parse("c")` has
the text "(a | b & c)", which is read as `a | (b & c)`: with `a` true and `c` false the first is false, the second true
(rocketry/core/condition/base.py:184-189). -/
theorem C76_precedence_violated :
    ∃ (ab c : SCond Txt) (t : Txt) (x : Cond Txt) (g : Txt → Obs Unit),
      SCond.read (fun ch => [ch]) toyItem c!"a | b" = .ok ab ∧ SCond.read (fun ch => [ch]) toyItem c!"c" = .ok c ∧
      (ab.and c).str .ok = .ok t ∧ parseCondition (fun ch => [ch]) toyItem t = .ok x ∧
      (observe g (ab.and c).erase ()).1 = .ok false ∧ (observe g x ()).1 = .ok true := by
  refine ⟨.any (some c!"a | b") [.leaf c!"a" none, .leaf c!"b" none], .leaf c!"c" (some c!"c"), c!"(a | b & c)",
    .any [.leaf c!"a", .all [.leaf c!"b", .leaf c!"c"]],
    fun l s => (.ok (l == c!"a"), s), ?_, ?_, ?_, ?_, ?_, ?_⟩
  all_goals rfl

/-- Violated: in the same way `~parse("a | b")` has the text "~a | b" (rocketry/core/condition/base.py:205-210): with `a` and
`b` true the condition is false, what is read from its text is true. -/
theorem C76_negation_violated :
    ∃ (ab : SCond Txt) (t : Txt) (x : Cond Txt) (g : Txt → Obs Unit),
      SCond.read (fun ch => [ch]) toyItem c!"a | b" = .ok ab ∧ ab.invert.str .ok = .ok t ∧
      parseCondition (fun ch => [ch]) toyItem t = .ok x ∧
      (observe g ab.invert.erase ()).1 = .ok false ∧ (observe g x ()).1 = .ok true := by
  refine ⟨.any (some c!"a | b") [.leaf c!"a" none, .leaf c!"b" none], c!"~a | b",
    .any [.not (.leaf c!"a"), .leaf c!"b"], fun _ s => (.ok true, s), ?_, ?_, ?_, ?_, ?_⟩
  all_goals rfl

theorem status_refuted : verbs.all (fun v => plainTable.all (fun e => refute e.1 (around c!"task '" .plain (c!"' " ++ statusWord v)))) = true := by
  decide +kernel

theorem status_item (v : Verb) {t : Txt} (ht : Arg t) :
    parseCondItem read (c!"task '" ++ t ++ c!"' " ++ statusWord v) = .error .parser := by
  rw [List.append_assoc (c!"task '" ++ t)]
  exact parse_none (inst_around _ _ t .plain) (good_around (holds_plain ht)) (List.all_eq_true.1 status_refuted v (mem_verbs v))

theorem status_word (v : Verb) {t : Txt} (ht : Bare t) : Written.Word (c!"task '" ++ t ++ c!"' " ++ statusWord v) := by
  rw [List.append_assoc (c!"task '" ++ t)]
  refine word_around ⟨'t', rfl, by decide⟩ ⟨'d', ?_, by decide⟩ (by decide) ht ?_
  · cases v <;> rfl
  · cases v <;> decide

theorem depend_refuted : [DepKind.success, .failure, .finish].all (fun k => plainTable.all (fun e =>
    refute e.1 (around c!"task '" .plain (c!"' " ++ dependWord k ++ c!" before 'None' started")))) = true := by
  decide +kernel

/-- A single word that is not read. -/
theorem parse_unread {item : Txt → Except PyErr (Cond L)} {w : Txt} {err : PyErr} (strLeaf : Char → L) (hw : Written.Word w)
    (hi : item w = .error err) : parseCondition strLeaf item w = .error err := by
  obtain ⟨w', h1, err', h2, h3⟩ := C24_unknown_item strLeaf item (.item [] w []) ⟨by simp [Written.Blank], hw, by simp [Written.Blank]⟩
    w err (by simp [Written.words]) hi
  simp only [Written.words, List.mem_singleton] at h1
  subst h1
  rw [hi] at h2
  cases h2
  simpa [Written.text] using h3

/-- Violated: the text of a status condition made in Python, for every name and all comparisons, is not in the syntax ("has"
is missing): for instance "task 'fetch' failed" (rocketry/conditions/task/task.py:60-67). -/
theorem C76_status_violated (strLeaf : Char → Builtin) (ps : Period → Txt) (cs : List Txt → Txt) (v : Verb) (t : Txt) (ht : Neat t)
    (cmp : Comps) :
    ∃ s, (SCond.leaf (.status v (some t) none cmp) none).str (Builtin.str ps cs) = .ok s ∧
      parseCondition strLeaf (parseCondItem read) s = .error .parser := by
  refine ⟨c!"task '" ++ t ++ c!"' " ++ statusWord v, by simp [SCond.str, Builtin.str, taskText], ?_⟩
  exact parse_unread strLeaf (status_word v ht.2) (status_item v ht.1)

/-- Violated: the text of a dependency made in Python, for every name, is not in the syntax: for instance
"task 'fetch' succeeded before 'None' started" (rocketry/conditions/task/task.py:391-398). -/
theorem C76_depend_violated (strLeaf : Char → Builtin) (ps : Period → Txt) (cs : List Txt → Txt) (k : DepKind) (t : Txt) (ht : Neat t) :
    ∃ s, (SCond.leaf (.depend k t) none).str (Builtin.str ps cs) = .ok s ∧
      s = c!"task '" ++ t ++ (match k with
        | .success => c!"' succeeded before 'None' started"
        | .failure => c!"' failed before 'None' started"
        | .finish => c!"' finished before 'None' started") ∧
      parseCondition strLeaf (parseCondItem read) s = .error .parser := by
  have e : c!"task '" ++ t ++ c!"' " ++ dependWord k ++ c!" before 'None' started" =
      c!"task '" ++ t ++ (c!"' " ++ dependWord k ++ c!" before 'None' started") := by simp
  refine ⟨c!"task '" ++ t ++ c!"' " ++ dependWord k ++ c!" before 'None' started", by simp [SCond.str, Builtin.str], by rw [e]; cases k <;> rfl, ?_⟩
  refine parse_unread strLeaf ?_ ?_
  · rw [e]
    exact word_around ⟨'t', rfl, by decide⟩ ⟨'d', by cases k <;> rfl, by decide⟩ (by decide) ht.2
      (by cases k <;> decide)
  · rw [e]
    exact parse_none (inst_around _ _ t .plain) (good_around (holds_plain ht.1))
      (List.all_eq_true.1 depend_refuted k (by cases k <;> simp))

theorem has_item (v : Verb) : parseCondItem read (c!"has " ++ verbText v) = .ok (.leaf (.status v none none [])) := by
  have hf := of_decide_eq_true (List.all_eq_true.1 (List.all_eq_true.1 find_has_all _ (mem_bools false)) _ (mem_verbs v))
  have hi : inst (parts [] [] []) (hasShape false v) = c!"has " ++ verbText v := by
    rw [hasShape, inst_append, inst_append, inst_chars', inst_chars']; rfl
  rw [parse_shape hi (by
    rw [hasShape, good_append, good_append]
    exact ⟨⟨good_whoShape (task := none) trivial _ _, good_chars _⟩, good_chars _⟩) hf]
  simp [callHandler, instG, whoGroup, kw, fits]

theorem has_word (v : Verb) : Written.Word (c!"has " ++ verbText v) := by
  cases v <;> simp [Written.Word, verbText]

/-- Violated: a comparison made with a condition read from a text keeps the text.  `parse("has failed") >= 3` prints
"has failed", which is read as the condition without the comparison (rocketry/core/condition/base.py:338-341, 115-118). -/
theorem C76_comparison_violated (strLeaf : Char → Builtin) (ps : Period → Txt) (cs : List Txt → Txt) (v : Verb) (k : Comp) (n : Int) :
    ∃ c, SCond.read strLeaf (parseCondItem read) (c!"has " ++ verbText v) = .ok c ∧
      ∃ t x, (c.compared (Builtin.compare k n)).str (Builtin.str ps cs) = .ok t ∧
        parseCondition strLeaf (parseCondItem read) t = .ok x ∧ x ≠ (c.compared (Builtin.compare k n)).erase := by
  have h := parse_word (item := parseCondItem read) strLeaf (has_word v) (has_item v) trivial
  refine ⟨.leaf (.status v none none []) (some (c!"has " ++ verbText v)), by rw [SCond.read, h]; rfl, _, _, rfl, h, ?_⟩
  simp [SCond.compared, Builtin.compare, SCond.erase, Comps.set]

/-- Violated: the items of a compound condition that was read have no text of their own.  `parse("has failed | has started")`
prints as it was read; `parse("has failed | has started") | parse("true")` prints
"(task 'None' failed | task 'None' started | true)", which is not in the syntax. -/
theorem C76_parts_violated (strLeaf : Char → Builtin) (ps : Period → Txt) (cs : List Txt → Txt) (v w : Verb) :
    ∃ c, SCond.read strLeaf (parseCondItem read) (c!"has " ++ verbText v ++ c!" | has " ++ verbText w) = .ok c ∧
      ∃ t, (c.or .alwaysTrue).str (Builtin.str ps cs) = .ok t ∧
        parseCondition strLeaf (parseCondItem read) t = .error .parser := by
  obtain ⟨c, h1, h2⟩ := C24_object_partial strLeaf (parseCondItem read)
    (.or (.item [] (c!"has " ++ verbText v) []) [' '] [' '] (.item [] (c!"has " ++ verbText w) []))
    ⟨by simp [Written.Blank], by simp [Written.Blank], ⟨by simp [Written.Blank], has_word v, by simp [Written.Blank]⟩,
      ⟨by simp [Written.Blank], has_word w, by simp [Written.Blank]⟩⟩
    (by
      intro x hx
      simp only [Written.words, List.cons_append, List.nil_append, List.mem_cons, List.not_mem_nil, or_false] at hx
      rcases hx with rfl | rfl
      · exact ⟨_, has_item v, trivial⟩
      · exact ⟨_, has_item w, trivial⟩)
  rw [byHand, byHand, byHand, has_item, has_item] at h1
  cases h1
  refine ⟨.any (some (c!"has " ++ verbText v ++ c!" | has " ++ verbText w)) [.leaf (.status v none none []) none, .leaf (.status w none none []) none], ?_, ?_⟩
  · rw [SCond.read, show c!"has " ++ verbText v ++ c!" | has " ++ verbText w = Written.text (.or (.item [] (c!"has " ++ verbText v) []) [' '] [' '] (.item [] (c!"has " ++ verbText w) [])) by simp [Written.text], h2]
    rfl
  · have hb : Bare c!"None" := by decide
    have ha : Arg c!"None" := ⟨by decide, by decide, by decide⟩
    obtain ⟨y, k1, err, k2, k3⟩ := C24_unknown_item strLeaf (parseCondItem read)
      (.group (.or (.item [] (c!"task '" ++ c!"None" ++ c!"' " ++ statusWord v) []) [' '] [' '] (.or (.item [] (c!"task '" ++ c!"None" ++ c!"' " ++ statusWord w) []) [' '] [' '] (.item [] c!"true" []))))
      ⟨by simp [Written.Blank], by simp [Written.Blank], ⟨by simp [Written.Blank], status_word v hb, by simp [Written.Blank]⟩,
        by simp [Written.Blank], by simp [Written.Blank], ⟨by simp [Written.Blank], status_word w hb, by simp [Written.Blank]⟩,
        ⟨by simp [Written.Blank], by simp [Written.Word], by simp [Written.Blank]⟩⟩
      _ _ (by simp [Written.words]) (status_item v ha)
    have he : err = .parser := by
      simp only [Written.words, List.cons_append, List.nil_append, List.mem_cons, List.not_mem_nil, or_false] at k1
      rcases k1 with rfl | rfl | rfl
      · have := (status_item (read := read) v ha).symm.trans k2; cases this; rfl
      · have := (status_item (read := read) w ha).symm.trans k2; cases this; rfl
      · have := (of_decide_eq_true (List.all_eq_true.1 (List.all_eq_true.1 find_const _ (mem_bools true)) _ (mem_bools false)))
        rw [show c!"true" = (Phrase.const true false).text from rfl,
          parse_shape (s := (Phrase.const true false).text) (inst_chars' (parts [] [] []) _) (good_chars _) this] at k2
        cases k2
    subst he
    refine ⟨_, ?_, k3⟩
    simp [SCond.or, SCond.anyParts, SCond.str, SCond.strList, Builtin.str, taskText, Except.map, joinWith, Written.text]

/-- Violated: conditions on the environment and on parameters made in Python have no text at all: `str` raises
`AttributeError`, also for all conditions that contain one of them. -/
theorem C76_missing_violated (ps : Period → Txt) (cs : List Txt → Txt) (v : Txt) (ks : List Txt) (k x : Txt) (c : SCond Builtin) :
    (SCond.leaf (.env v) none).str (Builtin.str ps cs) = .error .attribute ∧
    (SCond.leaf (.params ks) none).str (Builtin.str ps cs) = .error .attribute ∧
    (SCond.leaf (.paramIs k x) none).str (Builtin.str ps cs) = .error .attribute ∧
    ((SCond.leaf (.env v) none).invert).str (Builtin.str ps cs) = .error .attribute ∧
    ((SCond.leaf (.env v) none).and c).str (Builtin.str ps cs) = .error .attribute ∧
    ((SCond.leaf (.env v) none).or c).str (Builtin.str ps cs) = .error .attribute :=
  ⟨rfl, rfl, rfl, rfl, rfl, rfl⟩

end Rocketry.Props
