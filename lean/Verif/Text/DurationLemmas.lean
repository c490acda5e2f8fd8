import Verif.Text.Duration
import Verif.Spec.DurationSpec
import Mathlib.Tactic.Linarith
import Mathlib.Tactic.Ring
import Mathlib.Tactic.FieldSimp
import Mathlib.Tactic.NormNum

/-! # Lemmas about duration texts -/

namespace Rocketry
open Spec

theorem readUnit_iff (s : String) (u : Nat) : readUnit s = some u ↔ (s, u) ∈ durationUnits := by
  constructor
  · intro h
    unfold readUnit at h
    split at h
    · next h1 =>
      obtain rfl := Option.some.inj h
      rcases h1 with rfl | rfl <;> decide
    · split at h
      · next h1 =>
        obtain rfl := Option.some.inj h
        rcases h1 with rfl | rfl | rfl | rfl | rfl <;> decide
      · split at h
        · next h1 =>
          obtain rfl := Option.some.inj h
          rcases h1 with rfl | rfl | rfl | rfl | rfl <;> decide
        · split at h
          · next h1 =>
            obtain rfl := Option.some.inj h
            rcases h1 with rfl | rfl | rfl | rfl | rfl <;> decide
          · split at h
            · next h1 =>
              obtain rfl := Option.some.inj h
              rcases h1 with rfl | rfl | rfl <;> decide
            · cases h
  · intro h
    have key : ∀ p ∈ durationUnits, readUnit p.1 = some p.2 := by decide
    exact key _ h

theorem units_words : ∀ p ∈ durationUnits, p.1.toList ≠ [] ∧
    ∀ c ∈ p.1.toList, isNumericChar c = false ∧ isBreakChar c = false := by decide +kernel

theorem isBreak_iff (c : Char) : isBreakChar c = true ↔ c = ' ' ∨ c = ',' ∨ c = ':' := by
  simp [isBreakChar, or_assoc]

theorem isSep_iff (l : List Char) : IsSep l ↔ ∀ c ∈ l, isBreakChar c = true := by
  simp only [IsSep, isBreak_iff]

theorem numeric_not_break {c : Char} (h : isNumericChar c = true) : isBreakChar c = false := by
  cases hb : isBreakChar c with
  | false => rfl
  | true =>
    rcases (isBreak_iff c).1 hb with rfl | rfl | rfl <;> exact absurd h (by decide)

theorem skipBreaks_append : ∀ {sep : List Char}, (∀ c ∈ sep, isBreakChar c = true) → ∀ {c : Char} (l : List Char),
    isBreakChar c = false → skipBreaks (sep ++ c :: l) = c :: l
  | [], _, c, l, hc => by
    cases l with
    | nil => rfl
    | cons d l => simp [skipBreaks, hc]
  | s :: sep, h, c, l, hc => by
    have hs := h s (by simp)
    have ih := skipBreaks_append (sep := sep) (fun c hc => h c (by simp [hc])) l hc
    cases hsep : sep ++ c :: l with
    | nil => simp at hsep
    | cons d r =>
      show skipBreaks (s :: (sep ++ c :: l)) = _
      rw [hsep] at ih ⊢
      simp only [skipBreaks, hs, if_true]
      exact ih

theorem getNumber_append : ∀ {num : List Char}, (∀ c ∈ num, isNumericChar c = true) → ∀ {c : Char} (l : List Char),
    isNumericChar c = false → getNumber (num ++ c :: l) = (num, c :: l)
  | [], _, c, l, hc => by
    cases l with
    | nil => simp [getNumber, hc]
    | cons d l => simp [getNumber, hc]
  | s :: num, h, c, l, hc => by
    have hs := h s (by simp)
    have ih := getNumber_append (num := num) (fun c hc => h c (by simp [hc])) l hc
    cases hsep : num ++ c :: l with
    | nil => simp at hsep
    | cons d r =>
      show getNumber (s :: (num ++ c :: l)) = _
      rw [hsep] at ih ⊢
      simp only [getNumber, hs, if_true, ih]

/-- The next character ends a unit text. -/
def Stops (l : List Char) : Prop := ∀ c, l.head? = some c → isNumericChar c = true ∨ isBreakChar c = true

theorem getUnit_append : ∀ {w : List Char}, (∀ c ∈ w, isNumericChar c = false ∧ isBreakChar c = false) →
    ∀ {rest : List Char}, Stops rest → getUnit (w ++ rest) = (w, rest)
  | [], _, rest, hr => by
    cases rest with
    | nil => rfl
    | cons c l =>
      have := hr c rfl
      simp only [List.nil_append, getUnit]
      rw [if_pos (by simpa using this)]
  | c :: w, h, rest, hr => by
    have hc := h c (by simp)
    have ih := getUnit_append (w := w) (fun c hc => h c (by simp [hc])) hr
    simp only [List.cons_append, getUnit, hc.1, hc.2, Bool.or_self, Bool.false_eq_true, if_false, ih]

/-- One round of the loop over a well-formed start of the text. -/
theorem loop_round {n : Nat} {ms : Rat} {sep num gap w rest : List Char}
    (hsep : ∀ c ∈ sep, isBreakChar c = true) (hnum : ∀ c ∈ num, isNumericChar c = true) (hn : num ≠ [])
    (hgap : ∀ c ∈ gap, isBreakChar c = true) (hcolon : gap.head? ≠ some ':') (hw : w ≠ [])
    (hwc : ∀ c ∈ w, isNumericChar c = false ∧ isBreakChar c = false) (hr : Stops rest) :
    durationLoop (n + 1) ms (sep ++ num ++ gap ++ w ++ rest)
      = match readUnit (String.ofList w) with
        | none => .error .key
        | some u =>
          match floatVal num with
          | .error e => .error e
          | .ok x => durationLoop n (ms + x * (u : Rat)) rest := by
  obtain ⟨a, num', rfl⟩ := List.exists_cons_of_ne_nil hn
  obtain ⟨b, w', rfl⟩ := List.exists_cons_of_ne_nil hw
  have hb := hwc b (by simp)
  have h1 : skipBreaks (sep ++ (a :: num') ++ gap ++ (b :: w') ++ rest) = (a :: num') ++ (gap ++ (b :: w') ++ rest) := by
    have := skipBreaks_append hsep (c := a) (num' ++ (gap ++ (b :: w') ++ rest)) (numeric_not_break (hnum a (by simp)))
    simpa using this
  have h2 : getNumber ((a :: num') ++ (gap ++ (b :: w') ++ rest)) = (a :: num', gap ++ (b :: w') ++ rest) := by
    cases gap with
    | nil => exact getNumber_append hnum (w' ++ rest) hb.1
    | cons g gap' =>
      refine getNumber_append hnum (gap' ++ (b :: w') ++ rest) ?_
      cases hg : isNumericChar g with
      | false => rfl
      | true => have := numeric_not_break hg; simp [hgap g (by simp)] at this
  have h3 : (gap ++ (b :: w') ++ rest).head? ≠ some ':' := by
    cases gap with
    | nil =>
      simp only [List.nil_append, List.cons_append, List.head?_cons, ne_eq, Option.some.injEq]
      rintro rfl; exact absurd hb.2 (by decide)
    | cons g gap' => simpa using hcolon
  have h4 : skipBreaks (gap ++ (b :: w') ++ rest) = (b :: w') ++ rest := by
    have := skipBreaks_append hgap (c := b) (w' ++ rest) hb.2
    simpa using this
  have h5 := getUnit_append hwc hr
  cases ht : sep ++ (a :: num') ++ gap ++ (b :: w') ++ rest with
  | nil => simp at ht
  | cons c l =>
    rw [ht] at h1
    simp only [durationLoop, h1, h2, h4, h5]
    rw [if_neg h3]
    cases readUnit (String.ofList (b :: w')) <;> rfl

/-! ### numbers -/

theorem digit_val (d : Fin 10) : digitVal (digit d) = d.val := by revert d; decide

theorem digit_numeric (d : Fin 10) : isNumericChar (digit d) = true := by revert d; decide

theorem digit_range (d : Fin 10) : '0' ≤ digit d ∧ digit d ≤ '9' := by revert d; decide

theorem digit_ne_dot (d : Fin 10) : digit d ≠ '.' := by revert d; decide

theorem digit_ne_colon (d : Fin 10) : digit d ≠ ':' := by revert d; decide

theorem digitsVal_foldl (l : List (Fin 10)) (a : Nat) :
    (l.map digit).foldl (fun n c => n * 10 + digitVal c) a = a * 10 ^ l.length + wholeVal l := by
  induction l generalizing a with
  | nil => simp [wholeVal]
  | cons d l ih =>
    simp only [List.map_cons, List.foldl_cons, ih, digit_val, wholeVal, List.length_cons, pow_succ]
    ring

theorem digitsVal_digits (l : List (Fin 10)) : digitsVal (l.map digit) = wholeVal l := by
  unfold digitsVal
  rw [digitsVal_foldl]; simp

theorem fracVal_eq (l : List (Fin 10)) : fracVal l = (wholeVal l : Rat) / ((10 ^ l.length : Nat) : Rat) := by
  induction l with
  | nil => simp [fracVal, wholeVal]
  | cons d l ih =>
    simp only [fracVal, wholeVal, ih, List.length_cons]
    have : ((10 ^ l.length : Nat) : Rat) ≠ 0 := by
      have : 10 ^ l.length ≠ 0 := by positivity
      exact_mod_cast this
    push_cast at this ⊢
    rw [pow_succ]
    field_simp

theorem isDigits_map {l : List (Fin 10)} : isDigits (l.map digit) = true ↔ l ≠ [] := by
  rw [isDigits_iff]
  constructor
  · intro h hl; exact h.1 (by simp [hl])
  · intro h
    refine ⟨by simpa using h, ?_⟩
    intro c hc
    obtain ⟨d, -, rfl⟩ := List.mem_map.1 hc
    exact digit_range d

theorem dot_not_mem (l : List (Fin 10)) : '.' ∉ l.map digit := by
  intro h
  obtain ⟨d, -, h⟩ := List.mem_map.1 h
  exact digit_ne_dot d h

theorem colon_not_mem (l : List (Fin 10)) : ':' ∉ l.map digit := by
  intro h
  obtain ⟨d, -, h⟩ := List.mem_map.1 h
  exact digit_ne_colon d h

theorem floatVal_text {n : Decimal} (h : n.Valid) : floatVal n.text = .ok n.val := by
  obtain ⟨w, f⟩ := n
  cases f with
  | none =>
    have hw : w ≠ [] := by
      rcases h with h | ⟨f, hf, -⟩
      · exact h
      · cases hf
    simp only [Decimal.text, Decimal.val, List.append_nil, floatVal, splitChar_no (dot_not_mem w),
      isDigits_map.2 hw, if_true, digitsVal_digits, add_zero]
  | some f =>
    have hs : splitChar '.' (w.map digit ++ '.' :: f.map digit) = [w.map digit, f.map digit] := by
      rw [splitChar_cons _ (dot_not_mem w), splitChar_no (dot_not_mem f)]
    simp only [Decimal.text, Decimal.val, floatVal, hs]
    have hw : ((w.map digit).isEmpty || isDigits (w.map digit)) = true := by
      cases w with
      | nil => rfl
      | cons a w => rw [isDigits_map.2 (by simp)]; simp
    have hf : ((f.map digit).isEmpty || isDigits (f.map digit)) = true := by
      cases f with
      | nil => rfl
      | cons a w => rw [isDigits_map.2 (by simp)]; simp
    have hne : (!((w.map digit).isEmpty && (f.map digit).isEmpty)) = true := by
      rcases h with h | ⟨f', hf', hne⟩
      · cases w with
        | nil => exact absurd rfl h
        | cons a w => rfl
      · simp only [Option.some.injEq] at hf'
        subst hf'
        cases f with
        | nil => exact absurd rfl hne
        | cons a f => simp
    rw [hw, hf, hne, if_pos (by rfl), digitsVal_digits, digitsVal_digits, fracVal_eq, List.length_map]

theorem text_numeric (n : Decimal) : ∀ c ∈ n.text, isNumericChar c = true := by
  obtain ⟨w, f⟩ := n
  intro c hc
  simp only [Decimal.text, List.mem_append] at hc
  rcases hc with hc | hc
  · obtain ⟨d, -, rfl⟩ := List.mem_map.1 hc
    exact digit_numeric d
  · cases f with
    | none => cases hc
    | some f =>
      rcases List.mem_cons.1 hc with rfl | hc
      · decide
      · obtain ⟨d, -, rfl⟩ := List.mem_map.1 hc
        exact digit_numeric d

theorem text_ne_nil {n : Decimal} (h : n.Valid) : n.text ≠ [] := by
  obtain ⟨w, f⟩ := n
  rcases h with h | ⟨f', hf', -⟩
  · simp only at h; simp [Decimal.text, h]
  · simp only at hf'; simp [Decimal.text, hf']

/-- Digit characters are digits. -/
theorem exists_digits : ∀ {l : List Char}, (∀ c ∈ l, '0' ≤ c ∧ c ≤ '9') → ∃ ds : List (Fin 10), l = ds.map digit
  | [], _ => ⟨[], rfl⟩
  | c :: l, h => by
    obtain ⟨ds, rfl⟩ := exists_digits (l := l) (fun c hc => h c (by simp [hc]))
    have hc := h c (by simp)
    have h1 : 48 ≤ c.toNat := hc.1
    have h2 : c.toNat ≤ 57 := hc.2
    refine ⟨⟨c.toNat - 48, by omega⟩ :: ds, ?_⟩
    simp only [List.map_cons, List.cons.injEq, and_true, digit]
    rw [show 48 + (c.toNat - 48) = c.toNat by omega, Char.ofNat_toNat]

theorem splitChar_ne_nil (sep : Char) (l : List Char) : splitChar sep l ≠ [] := by
  cases l with
  | nil => simp [splitChar]
  | cons c l =>
    rw [splitChar]
    split_ifs
    · simp
    · cases h : splitChar sep l <;> simp

theorem join_split (sep : Char) : ∀ l : List Char, joinWith [sep] (splitChar sep l) = l
  | [] => rfl
  | c :: l => by
    have ih := join_split sep l
    have hne := splitChar_ne_nil sep l
    rw [splitChar]
    cases hs : splitChar sep l with
    | nil => exact absurd hs hne
    | cons a r =>
      rw [hs] at ih
      split_ifs with h
      · subst h
        simp only [joinWith] at ih ⊢
        simp [ih]
      · cases r with
        | nil => simpa [joinWith] using ih
        | cons b r => simpa [joinWith] using ih

theorem floatVal_inv {l : List Char} {x : Rat} (h : floatVal l = .ok x) :
    ∃ n : Decimal, n.Valid ∧ l = n.text ∧ x = n.val := by
  have hj := join_split '.' l
  unfold floatVal at h
  split at h
  · next a hs =>
    rw [hs] at hj
    by_cases hd : isDigits a = true
    · rw [if_pos hd] at h
      have hd' := isDigits_iff.1 hd
      obtain ⟨ds, rfl⟩ := exists_digits hd'.2
      refine ⟨⟨ds, none⟩, Or.inl (isDigits_map.1 hd), ?_, ?_⟩
      · simpa [joinWith, Decimal.text] using hj.symm
      · simp only [Except.ok.injEq] at h
        rw [← h, digitsVal_digits]; simp [Decimal.val]
    · rw [if_neg hd] at h; cases h
  · next a b hs =>
    rw [hs] at hj
    by_cases hd : ((a.isEmpty || isDigits a) && (b.isEmpty || isDigits b) && !(a.isEmpty && b.isEmpty)) = true
    · rw [if_pos hd] at h
      simp only [Bool.and_eq_true, Bool.or_eq_true, Bool.not_eq_true', List.isEmpty_iff] at hd
      have key : ∀ c : List Char, (c = [] ∨ isDigits c = true) → ∃ ds : List (Fin 10), c = ds.map digit := by
        rintro c (rfl | hc)
        · exact ⟨[], rfl⟩
        · exact exists_digits (isDigits_iff.1 hc).2
      obtain ⟨da, rfl⟩ := key a hd.1.1
      obtain ⟨db, rfl⟩ := key b hd.1.2
      refine ⟨⟨da, some db⟩, ?_, ?_, ?_⟩
      · rcases Classical.em (da = []) with hda | hda
        · right
          refine ⟨db, rfl, ?_⟩
          rintro rfl
          subst hda
          simp at hd
        · exact Or.inl hda
      · simpa [joinWith, Decimal.text] using hj.symm
      · simp only [Except.ok.injEq] at h
        rw [← h, digitsVal_digits, digitsVal_digits]; simp [Decimal.val, fracVal_eq]
    · rw [if_neg hd] at h; cases h
  · cases h

theorem intVal_inv {l : List Char} {x : Rat} (h : intVal l = .ok x) :
    ∃ ds : List (Fin 10), ds ≠ [] ∧ l = ds.map digit ∧ x = (wholeVal ds : Rat) := by
  unfold intVal at h
  by_cases hd : isDigits l = true
  · rw [if_pos hd] at h
    obtain ⟨ds, rfl⟩ := exists_digits (isDigits_iff.1 hd).2
    simp only [Except.ok.injEq] at h
    exact ⟨ds, isDigits_map.1 hd, rfl, by rw [← h, digitsVal_digits]⟩
  · rw [if_neg hd] at h; cases h

theorem intVal_digits {ds : List (Fin 10)} (h : ds ≠ []) : intVal (ds.map digit) = .ok (wholeVal ds : Rat) := by
  simp [intVal, isDigits_map.2 h, digitsVal_digits]

theorem colon_not_text (n : Decimal) : ':' ∉ n.text := by
  intro h
  exact absurd (text_numeric n _ h) (by decide)

/-! ### parts and clock -/

theorem loop_part {p : DPart} (hp : p.Valid) {rest : List Char} (hr : Stops rest) (n : Nat) (ms : Rat) :
    durationLoop (n + 1) ms (p.text ++ rest) = durationLoop n (ms + p.val) rest := by
  have hu := units_words _ hp.unit
  have h := loop_round (n := n) (ms := ms) ((isSep_iff _).1 hp.sep) (text_numeric p.num) (text_ne_nil hp.num)
    ((isSep_iff _).1 hp.gap) hp.gap_colon hu.1 hu.2 hr
  rw [String.ofList_toList, (readUnit_iff _ _).2 hp.unit, floatVal_text hp.num] at h
  exact h

theorem loop_clock {c : DClock} (hc : c.Valid) (n : Nat) (ms : Rat) :
    durationLoop (n + 1) ms c.text = .ok (ms + c.val) := by
  obtain ⟨d, ds, hd⟩ := List.exists_cons_of_ne_nil hc.hours
  have hnum : ∀ x ∈ c.hours.map digit, isNumericChar x = true := by
    intro x hx; obtain ⟨e, -, rfl⟩ := List.mem_map.1 hx; exact digit_numeric e
  have h1 : skipBreaks c.text
      = c.hours.map digit ++ ':' :: (c.minutes.map digit ++ ':' :: c.seconds.text) := by
    have := skipBreaks_append ((isSep_iff _).1 hc.sep) (c := digit d)
      (ds.map digit ++ ':' :: (c.minutes.map digit ++ ':' :: c.seconds.text)) (numeric_not_break (digit_numeric d))
    simpa [DClock.text, hd] using this
  have h2 := getNumber_append hnum (c := ':') (c.minutes.map digit ++ ':' :: c.seconds.text) (by decide)
  have h3 : getHMS (c.hours.map digit ++ ':' :: (c.minutes.map digit ++ ':' :: c.seconds.text)) = .ok c.val := by
    unfold getHMS
    rw [splitChar_cons _ (colon_not_mem _), splitChar_cons _ (colon_not_mem _), splitChar_no (colon_not_text _)]
    simp only [intVal_digits hc.hours, intVal_digits hc.minutes, floatVal_text hc.seconds, DClock.val]
    congr 1
    ring
  cases ht : c.text with
  | nil => simp [DClock.text] at ht
  | cons a l =>
    rw [ht] at h1
    simp only [durationLoop, h1, h2, List.head?_cons, if_true, h3]

theorem stops_part {p : DPart} (hp : p.Valid) (rest : List Char) : Stops (p.text ++ rest) := by
  intro c hc
  cases hs : p.sep with
  | cons a l =>
    simp only [DPart.text, hs, List.cons_append, List.head?_cons, Option.some.injEq] at hc
    subst hc
    exact Or.inr ((isSep_iff _).1 hp.sep _ (by simp [hs]))
  | nil =>
    obtain ⟨a, l, ha⟩ := List.exists_cons_of_ne_nil (text_ne_nil hp.num)
    simp only [DPart.text, hs, ha, List.nil_append, List.cons_append, List.head?_cons, Option.some.injEq] at hc
    subst hc
    exact Or.inl (text_numeric p.num _ (by simp [ha]))

theorem stops_clock {k : DClock} (hk : k.Valid) : Stops k.text := by
  intro c hc
  cases hs : k.sep with
  | cons a l =>
    simp only [DClock.text, hs, List.cons_append, List.head?_cons, Option.some.injEq] at hc
    subst hc
    exact Or.inr ((isSep_iff _).1 hk.sep _ (by simp [hs]))
  | nil =>
    obtain ⟨d, ds, hd⟩ := List.exists_cons_of_ne_nil hk.hours
    simp only [DClock.text, hs, hd, List.nil_append, List.map_cons, List.cons_append, List.head?_cons,
      Option.some.injEq] at hc
    subst hc
    exact Or.inl (digit_numeric d)

theorem loop_nil (n : Nat) (ms : Rat) : durationLoop n ms [] = .ok ms := by cases n <;> rfl

/-- The text behind the signs. -/
def bodyText (ps : List DPart) (k : Option DClock) : List Char :=
  ps.flatMap DPart.text ++ (match k with | none => [] | some c => c.text)

def bodyVal (ps : List DPart) (k : Option DClock) : Rat :=
  (ps.map DPart.val).sum + (match k with | none => 0 | some c => c.val)

theorem stops_body {ps : List DPart} {k : Option DClock} (hp : ∀ p ∈ ps, p.Valid) (hk : ∀ c, k = some c → c.Valid) :
    Stops (bodyText ps k) := by
  cases ps with
  | nil =>
    cases k with
    | none => intro c hc; cases hc
    | some c => simpa [bodyText] using stops_clock (hk c rfl)
  | cons p ps =>
    have := stops_part (hp p (by simp)) (bodyText ps k)
    simpa [bodyText] using this

theorem loop_body {k : Option DClock} (hk : ∀ c, k = some c → c.Valid) : ∀ {ps : List DPart}, (∀ p ∈ ps, p.Valid) →
    ∀ n, ps.length < n → ∀ ms, durationLoop n ms (bodyText ps k) = .ok (ms + bodyVal ps k)
  | [], _, n, hn, ms => by
    obtain ⟨m, rfl⟩ : ∃ m, n = m + 1 := ⟨n - 1, by simp at hn; omega⟩
    cases k with
    | none => simp [bodyText, bodyVal, loop_nil]
    | some c => simpa [bodyText, bodyVal] using loop_clock (hk c rfl) m ms
  | p :: ps, hp, n, hn, ms => by
    obtain ⟨m, rfl⟩ : ∃ m, n = m + 1 := ⟨n - 1, by simp at hn; omega⟩
    have hps : ∀ p ∈ ps, p.Valid := fun q hq => hp q (by simp [hq])
    have h := loop_part (hp p (by simp)) (stops_body hps hk) m ms
    have ih := loop_body hk hps m (by simpa using hn) (ms + p.val)
    have e1 : bodyText (p :: ps) k = p.text ++ bodyText ps k := by simp [bodyText]
    have e2 : bodyVal (p :: ps) k = p.val + bodyVal ps k := by simp [bodyVal, add_assoc]
    rw [e1, h, ih, e2, add_assoc]

theorem part_length {p : DPart} (hp : p.Valid) : 2 ≤ p.text.length := by
  have h1 := List.length_pos_iff.2 (text_ne_nil hp.num)
  have h2 := List.length_pos_iff.2 (units_words _ hp.unit).1
  simp only [DPart.text, List.length_append] at *
  omega

theorem clock_length {k : DClock} : 2 ≤ k.text.length := by
  simp [DClock.text]; omega

theorem body_length {k : Option DClock} : ∀ {ps : List DPart}, (∀ p ∈ ps, p.Valid) →
    2 * ps.length ≤ (bodyText ps k).length
  | [], _ => by simp
  | p :: ps, hp => by
    have := part_length (hp p (by simp))
    have ih := body_length (k := k) (ps := ps) (fun q hq => hp q (by simp [hq]))
    simp only [bodyText, List.flatMap_cons, List.append_assoc, List.length_append, List.length_cons] at *
    omega

theorem body_two {k : Option DClock} {ps : List DPart} (hp : ∀ p ∈ ps, p.Valid) (h : ps ≠ [] ∨ k ≠ none) :
    2 ≤ (bodyText ps k).length := by
  cases ps with
  | nil =>
    cases k with
    | none => simp at h
    | some c => simpa [bodyText] using clock_length
  | cons p ps =>
    have := body_length (k := k) hp
    simp only [List.length_cons] at this
    omega

/-! ### signs -/

theorem leadingSigns_append : ∀ {signs : List Char}, (∀ c ∈ signs, c = '+' ∨ c = '-') → ∀ {t : List Char} (neg : Bool),
    t ≠ [] → (∀ c, t.head? = some c → c ≠ '+' ∧ c ≠ '-') →
    leadingSigns neg (signs ++ t) = (xor neg (decide (signs.count '-' % 2 = 1)), t)
  | [], _, t, neg, ht, hh => by
    obtain ⟨c, l, rfl⟩ := List.exists_cons_of_ne_nil ht
    have := hh c rfl
    cases l with
    | nil => simp [leadingSigns, this.2]
    | cons d l => simp [leadingSigns, this.1, this.2]
  | s :: signs, h, t, neg, ht, hh => by
    have ih := fun neg => leadingSigns_append (signs := signs) (fun c hc => h c (by simp [hc])) neg ht hh
    have hs := h s (by simp)
    cases hsep : signs ++ t with
    | nil => simp [ht] at hsep
    | cons d r =>
      show leadingSigns neg (s :: (signs ++ t)) = _
      rw [hsep] at ih ⊢
      rcases hs with rfl | rfl
      · simp only [leadingSigns, show ('+' : Char) ≠ '-' by decide, if_false, if_true, ih]
        rw [List.count_cons_of_ne (by decide)]
      · simp only [leadingSigns, if_true, ih, List.count_cons_self]
        congr 1
        rcases Nat.mod_two_eq_zero_or_one (signs.count '-') with h | h
        · have : (signs.count '-' + 1) % 2 = 1 := by omega
          simp [h, this]
        · have : (signs.count '-' + 1) % 2 = 0 := by omega
          simp [h, this]

theorem leadingSigns_inv : ∀ {s : List Char}, s ≠ [] → ∀ neg, ∃ signs : List Char, (∀ c ∈ signs, c = '+' ∨ c = '-') ∧
    s = signs ++ (leadingSigns neg s).2 ∧
    ((leadingSigns neg s).2 = ['+'] ∨ (leadingSigns neg s).2 = ['-'] ∨
      ((leadingSigns neg s).2 ≠ [] ∧ (leadingSigns neg s).1 = xor neg (decide (signs.count '-' % 2 = 1))))
  | [], h, _ => absurd rfl h
  | [c], _, neg => by
    refine ⟨[], by simp, rfl, ?_⟩
    by_cases h1 : c = '-'
    · right; left; simp [leadingSigns, h1]
    · right; right; simp [leadingSigns, h1]
  | c :: d :: l, _, neg => by
    by_cases h1 : c = '-'
    · obtain ⟨signs, hs, he, h⟩ := leadingSigns_inv (s := d :: l) (by simp) (!neg)
      have e : leadingSigns neg (c :: d :: l) = leadingSigns (!neg) (d :: l) := by simp [leadingSigns, h1]
      refine ⟨c :: signs, ?_, ?_, ?_⟩
      · intro x hx; rcases List.mem_cons.1 hx with rfl | hx
        · exact Or.inr h1
        · exact hs x hx
      · rw [e, List.cons_append, ← he]
      · rw [e]
        rcases h with h | h | ⟨h, h'⟩
        · exact Or.inl h
        · exact Or.inr (Or.inl h)
        · refine Or.inr (Or.inr ⟨h, ?_⟩)
          rw [h', h1, List.count_cons_self]
          rcases Nat.mod_two_eq_zero_or_one (signs.count '-') with h | h
          · have : (signs.count '-' + 1) % 2 = 1 := by omega
            simp [h, this]
          · have : (signs.count '-' + 1) % 2 = 0 := by omega
            simp [h, this]
    · by_cases h2 : c = '+'
      · obtain ⟨signs, hs, he, h⟩ := leadingSigns_inv (s := d :: l) (by simp) neg
        have e : leadingSigns neg (c :: d :: l) = leadingSigns neg (d :: l) := by simp [leadingSigns, h2]
        refine ⟨c :: signs, ?_, ?_, ?_⟩
        · intro x hx; rcases List.mem_cons.1 hx with rfl | hx
          · exact Or.inl h2
          · exact hs x hx
        · rw [e, List.cons_append, ← he]
        · rw [e]
          rcases h with h | h | ⟨h, h'⟩
          · exact Or.inl h
          · exact Or.inr (Or.inl h)
          · refine Or.inr (Or.inr ⟨h, ?_⟩)
            rw [h', h2, List.count_cons_of_ne (by decide)]
      · refine ⟨[], by simp, ?_, ?_⟩
        · simp [leadingSigns, h1, h2]
        · right; right; simp [leadingSigns, h1, h2]

/-! ### rounding -/

theorem roundHalfEven_spec (x : Rat) : RoundsTo x (roundHalfEven x) := by
  have h1 : ((x.floor : Int) : Rat) ≤ x := Rat.floor_le x
  have h2 : x < (x.floor : Rat) + 1 := by
    have := Rat.lt_floor_add_one x
    exact_mod_cast this
  unfold RoundsTo roundHalfEven
  simp only
  by_cases ha : x - (x.floor : Rat) < 1 / 2
  · rw [if_pos ha]
    rw [abs_of_nonneg (by linarith)]
    exact ⟨le_of_lt ha, fun h => absurd h (ne_of_lt ha)⟩
  · rw [if_neg ha]
    by_cases hb : 1 / 2 < x - (x.floor : Rat)
    · rw [if_pos hb]
      push_cast
      rw [abs_of_nonpos (by linarith)]
      exact ⟨by linarith, fun h => by linarith⟩
    · rw [if_neg hb]
      have he : x - (x.floor : Rat) = 1 / 2 := by linarith
      by_cases hc : x.floor % 2 = 0
      · rw [if_pos hc, he]
        norm_num
        exact hc
      · rw [if_neg hc]
        push_cast
        rw [show x - ((x.floor : Rat) + 1) = -(1 / 2) by linarith]
        norm_num
        omega

theorem roundHalfEven_int (d : Int) : roundHalfEven (d : Rat) = d := by
  have : (d : Rat).floor = d := Rat.floor_intCast d
  unfold roundHalfEven
  simp only [this, sub_self]
  norm_num

theorem Spec.RoundsTo.unique {x : Rat} {a b : Int} (ha : RoundsTo x a) (hb : RoundsTo x b) : a = b := by
  obtain ⟨ha1, ha2⟩ := ha
  obtain ⟨hb1, hb2⟩ := hb
  by_contra hne
  have h3 := abs_le.1 ha1
  have h4 := abs_le.1 hb1
  have hab : (a : Rat) - b ≤ 1 := by linarith
  have hba : (b : Rat) - a ≤ 1 := by linarith
  have hab' : a - b ≤ 1 := by exact_mod_cast hab
  have hba' : b - a ≤ 1 := by exact_mod_cast hba
  rcases lt_or_gt_of_ne hne with h | h
  · have e : b = a + 1 := by omega
    have e' : (b : Rat) = a + 1 := by exact_mod_cast e
    have : x - a = 1 / 2 := by linarith
    have t1 := ha2 (by rw [this]; norm_num)
    have t2 := hb2 (by rw [show x - b = -(1/2) by linarith]; norm_num)
    omega
  · have e : a = b + 1 := by omega
    have e' : (a : Rat) = b + 1 := by exact_mod_cast e
    have : x - b = 1 / 2 := by linarith
    have t1 := hb2 (by rw [this]; norm_num)
    have t2 := ha2 (by rw [show x - a = -(1/2) by linarith]; norm_num)
    omega

/-! ### texts that are read are of the grammar -/

theorem skipBreaks_inv : ∀ {t : List Char}, t ≠ [] → ∃ sep, (∀ c ∈ sep, isBreakChar c = true) ∧
    t = sep ++ skipBreaks t ∧ skipBreaks t ≠ []
  | [], h => absurd rfl h
  | [c], _ => ⟨[], by simp, rfl, by simp [skipBreaks]⟩
  | c :: d :: l, _ => by
    by_cases hc : isBreakChar c = true
    · obtain ⟨sep, h1, h2, h3⟩ := skipBreaks_inv (t := d :: l) (by simp)
      have e : skipBreaks (c :: d :: l) = skipBreaks (d :: l) := by simp [skipBreaks, hc]
      refine ⟨c :: sep, ?_, ?_, ?_⟩
      · intro x hx; rcases List.mem_cons.1 hx with rfl | hx
        · exact hc
        · exact h1 x hx
      · rw [e, List.cons_append, ← h2]
      · rw [e]; exact h3
    · exact ⟨[], by simp, by simp [skipBreaks, hc], by simp [skipBreaks, hc]⟩

theorem getNumber_inv : ∀ {s : List Char}, s ≠ [] →
    (∀ c ∈ (getNumber s).1, isNumericChar c = true) ∧
    ((s = (getNumber s).1 ++ (getNumber s).2 ∧ ∃ c l, (getNumber s).2 = c :: l ∧ isNumericChar c = false) ∨
      ∃ c, (getNumber s).2 = [c] ∧ isNumericChar c = true)
  | [], h => absurd rfl h
  | [c], _ => by
    by_cases hc : isNumericChar c = true
    · simp [getNumber, hc]
    · simp only [Bool.not_eq_true] at hc; simp [getNumber, hc]
  | c :: d :: l, _ => by
    obtain ⟨h1, h2⟩ := getNumber_inv (s := d :: l) (by simp)
    by_cases hc : isNumericChar c = true
    · have e : getNumber (c :: d :: l) = (c :: (getNumber (d :: l)).1, (getNumber (d :: l)).2) := by
        simp [getNumber, hc]
      rw [e]
      constructor
      · intro x hx
        rcases List.mem_cons.1 hx with rfl | hx
        · exact hc
        · exact h1 x hx
      · rcases h2 with ⟨h2, h3⟩ | h2
        · left
          refine ⟨?_, h3⟩
          simp only [List.cons_append]
          rw [← h2]
        · exact Or.inr h2
    · simp only [Bool.not_eq_true] at hc; simp [getNumber, hc]

theorem getUnit_inv : ∀ s : List Char, s = (getUnit s).1 ++ (getUnit s).2
  | [] => rfl
  | c :: l => by
    have ih := getUnit_inv l
    by_cases hc : (isNumericChar c || isBreakChar c) = true
    · simp [getUnit, hc]
    · simp only [getUnit, hc]
      simp only [Bool.false_eq_true, if_false, List.cons_append]
      rw [← ih]

theorem getHMS_inv {s : List Char} {x : Rat} (h : getHMS s = .ok x) :
    ∃ k : DClock, k.Valid ∧ k.sep = [] ∧ s = k.text ∧ x = k.val := by
  have hj := join_split ':' s
  unfold getHMS at h
  split at h
  · next a b c hs =>
    rw [hs] at hj
    cases h1 : intVal a with
    | error e => rw [h1] at h; cases h
    | ok a' =>
      cases h2 : intVal b with
      | error e => rw [h1, h2] at h; cases h
      | ok b' =>
        cases h3 : floatVal c with
        | error e => rw [h1, h2, h3] at h; cases h
        | ok c' =>
          rw [h1, h2, h3] at h
          obtain ⟨da, ha, rfl, rfl⟩ := intVal_inv h1
          obtain ⟨db, hb, rfl, rfl⟩ := intVal_inv h2
          obtain ⟨n, hn, rfl, rfl⟩ := floatVal_inv h3
          refine ⟨⟨[], da, db, n⟩, ⟨by simp [IsSep], ha, hb, hn⟩, rfl, ?_, ?_⟩
          · simpa [joinWith, DClock.text] using hj.symm
          · simp only [Except.ok.injEq] at h
            rw [← h]; simp only [DClock.val]; ring
  · cases h

theorem loop_inv : ∀ {n : Nat} {ms : Rat} {t : List Char} {r : Rat}, durationLoop n ms t = .ok r →
    ∃ ps k, (∀ p ∈ ps, DPart.Valid p) ∧ (∀ c, k = some c → DClock.Valid c) ∧ t = bodyText ps k ∧ r = ms + bodyVal ps k
  | n, ms, [], r, h => by
    rw [loop_nil] at h
    simp only [Except.ok.injEq] at h
    exact ⟨[], none, by simp, by simp, by simp [bodyText], by simp [bodyVal, h]⟩
  | 0, ms, c :: l, r, h => by simp [durationLoop] at h
  | n + 1, ms, c :: l, r, h => by
    obtain ⟨sep, hsep, het, hne⟩ := skipBreaks_inv (t := c :: l) (by simp)
    obtain ⟨hnum, hrest⟩ := getNumber_inv hne
    simp only [durationLoop] at h
    generalize hN : getNumber (skipBreaks (c :: l)) = N at h hnum hrest
    by_cases hcol : N.2.head? = some ':'
    · rw [if_pos hcol] at h
      have hs : skipBreaks (c :: l) = N.1 ++ N.2 := by
        rcases hrest with ⟨h, -⟩ | ⟨d, hd, hd'⟩
        · exact h
        · rw [hd] at hcol
          simp only [List.head?_cons, Option.some.injEq] at hcol
          subst hcol
          exact absurd hd' (by decide)
      cases hk : getHMS (N.1 ++ N.2) with
      | error e => rw [hk] at h; cases h
      | ok x =>
        rw [hk] at h
        simp only [Except.ok.injEq] at h
        obtain ⟨k, hkv, hk0, hkt, hkx⟩ := getHMS_inv hk
        refine ⟨[], some { k with sep := sep }, by simp, ?_, ?_, ?_⟩
        · rintro _ ⟨rfl⟩
          exact ⟨(isSep_iff _).2 hsep, hkv.hours, hkv.minutes, hkv.seconds⟩
        · rw [het, hs, hkt]
          simp [bodyText, DClock.text, hk0]
        · rw [← h, hkx]; simp [bodyVal, DClock.val]
    · rw [if_neg hcol] at h
      rcases hrest with ⟨hs, d, l', hd, hd'⟩ | ⟨d, hd, hd'⟩
      · have hne2 : N.2 ≠ [] := by rw [hd]; simp
        obtain ⟨gap, hgap, hgt, -⟩ := skipBreaks_inv hne2
        have hu := getUnit_inv (skipBreaks N.2)
        generalize hU : getUnit (skipBreaks N.2) = U at h hu
        cases hr : readUnit (String.ofList U.1) with
        | none => rw [hr] at h; cases h
        | some u =>
          rw [hr] at h
          cases hf : floatVal N.1 with
          | error e => rw [hf] at h; cases h
          | ok x =>
            rw [hf] at h
            simp only at h
            obtain ⟨nn, hnv, hnt, hnx⟩ := floatVal_inv hf
            obtain ⟨ps, k, hps, hk, hpt, hpr⟩ := loop_inv h
            refine ⟨⟨sep, nn, gap, String.ofList U.1, u⟩ :: ps, k, ?_, hk, ?_, ?_⟩
            · intro p hp
              rcases List.mem_cons.1 hp with rfl | hp
              · refine ⟨(isSep_iff _).2 hsep, hnv, (isSep_iff _).2 hgap, ?_, (readUnit_iff _ _).1 hr⟩
                simp only
                intro hg
                apply hcol
                rw [hgt]
                cases gap with
                | nil => cases hg
                | cons a gap => simpa using hg
              · exact hps p hp
            · rw [het, hs, hgt, hu, hpt, hnt]
              simp [bodyText, DPart.text]
            · rw [hpr, hnx]; simp [bodyVal, DPart.val, add_assoc]
      · have e1 : skipBreaks N.2 = [d] := by rw [hd]; rfl
        have e2 : getUnit [d] = ([], [d]) := by simp [getUnit, hd']
        rw [e1, e2] at h
        simp only at h
        rw [show readUnit (String.ofList []) = none by decide] at h
        cases h

/-- The loop ends before its fuel. -/
theorem parts_fuel : ∀ {n : Nat} {t : List Char}, t.length ≤ n → ∀ ms, durationLoop n ms t ≠ .error .runtime
  | n, [], _, ms => by rw [loop_nil]; simp
  | 0, c :: l, h, ms => by simp at h
  | n + 1, c :: l, h, ms => by
    have hfv : ∀ l, floatVal l ≠ .error .runtime := by
      intro l; unfold floatVal; split <;> (try split) <;> simp
    have hiv : ∀ l, intVal l ≠ .error .runtime := by
      intro l; unfold intVal; split <;> simp
    have hh : ∀ l, getHMS l ≠ .error .runtime := by
      intro l; unfold getHMS
      split
      · next a b c _ =>
        cases h1 : intVal a with
        | error e => intro he; simp only at he; exact hiv a (h1.trans (by rw [← he]))
        | ok a' =>
          cases h2 : intVal b with
          | error e => intro he; simp only at he; exact hiv b (h2.trans (by rw [← he]))
          | ok b' =>
            cases h3 : floatVal c with
            | error e => intro he; simp only at he; exact hfv c (h3.trans (by rw [← he]))
            | ok c' => simp
      · simp
    obtain ⟨sep, -, het, hne⟩ := skipBreaks_inv (t := c :: l) (by simp)
    have hlen1 : (skipBreaks (c :: l)).length ≤ n + 1 := by
      have := congrArg List.length het
      simp only [List.length_append, List.length_cons] at this h ⊢
      omega
    obtain ⟨-, hrest⟩ := getNumber_inv hne
    simp only [durationLoop]
    generalize hN : getNumber (skipBreaks (c :: l)) = N at hrest ⊢
    split
    · cases hk : getHMS (N.1 ++ N.2) with
      | error e => intro he; simp only at he; exact hh _ (hk.trans (by rw [← he]))
      | ok x => simp
    · have hlen2 : N.2.length ≤ n + 1 := by
        rcases hrest with ⟨hs, -⟩ | ⟨d, hd, -⟩
        · have := congrArg List.length hs
          simp only [List.length_append] at this
          omega
        · rw [hd]; simp
      have hne2 : N.2 ≠ [] := by
        rcases hrest with ⟨-, d, l', hd, -⟩ | ⟨d, hd, -⟩ <;> rw [hd] <;> simp
      obtain ⟨gap, -, hgt, -⟩ := skipBreaks_inv hne2
      have hu := getUnit_inv (skipBreaks N.2)
      generalize hU : getUnit (skipBreaks N.2) = U at hu ⊢
      cases hr : readUnit (String.ofList U.1) with
      | none => simp
      | some u =>
        have hw := (units_words _ ((readUnit_iff _ _).1 hr)).1
        simp only [String.toList_ofList] at hw
        have hw := List.length_pos_iff.2 hw
        cases hf : floatVal N.1 with
        | error e => intro he; simp only at he; exact hfv _ (hf.trans (by rw [← he]))
        | ok x =>
          simp only
          apply parts_fuel
          have h1 := congrArg List.length hgt
          have h2 := congrArg List.length hu
          simp only [List.length_append] at h1 h2
          omega

end Rocketry
