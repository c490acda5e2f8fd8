import Verif.Text.PeriodText
import Verif.Props.DurationProps
import Mathlib.Tactic.Ring
import Mathlib.Tactic.Linarith
import Mathlib.Tactic.FieldSimp
import Mathlib.Tactic.NormNum

namespace Rocketry.Props
open Rocketry Spec

/-! ### Helper lemmas -/

/-- The digits behind `fixedDigits`. -/
def fixedFins : Nat → Nat → List (Fin 10)
  | 0, _ => []
  | k + 1, n => fixedFins k (n / 10) ++ [⟨n % 10, Nat.mod_lt _ (by decide)⟩]

theorem fixedFins_text : ∀ k n, fixedDigits k n = (fixedFins k n).map digit
  | 0, _ => rfl
  | k + 1, n => by
    rw [fixedDigits, fixedFins, List.map_append, ← fixedFins_text k]; rfl

theorem wholeVal_snoc (l : List (Fin 10)) (d : Fin 10) : wholeVal (l ++ [d]) = wholeVal l * 10 + d.val := by
  induction l with
  | nil => simp [wholeVal]
  | cons a l ih =>
    rw [List.cons_append, wholeVal, ih, wholeVal, List.length_append, List.length_singleton, pow_succ]
    ring

theorem fixedFins_val : ∀ k n, n < 10 ^ k → wholeVal (fixedFins k n) = n
  | 0, n, h => by
    have : n = 0 := by simpa using h
    subst this; rfl
  | k + 1, n, h => by
    rw [fixedFins, wholeVal_snoc, fixedFins_val k (n / 10) (by rw [pow_succ] at h; omega)]
    simp only
    omega

theorem fixedFins_length : ∀ k n, (fixedFins k n).length = k
  | 0, _ => rfl
  | k + 1, n => by rw [fixedFins, List.length_append, fixedFins_length k]; rfl

/-- The digits of `showNat`. -/
theorem showNat_fins (n : Nat) : ∃ ds : List (Fin 10), showNat n = ds.map digit ∧ ds ≠ [] ∧ wholeVal ds = n := by
  obtain ⟨ds, hds⟩ := exists_digits (showNat_digits n)
  refine ⟨ds, hds, ?_, ?_⟩
  · rintro rfl
    exact showNat_ne_nil n hds
  · rw [← digitsVal_digits, ← hds, digitsVal_showNat]

/-- The clock behind Python's text of the rest of a day. -/
theorem clock_of_rest (sep : List Char) (hsep : IsSep sep) (r : Nat) : ∃ c : DClock, c.Valid ∧
    c.text = sep ++ (showNat (r / 3600000000) ++ ':' :: fixedDigits 2 (r / 60000000 % 60) ++ ':' :: fixedDigits 2 (r / 1000000 % 60)) ++
      (if r % 1000000 = 0 then [] else '.' :: fixedDigits 6 (r % 1000000)) ∧ c.val = (r : Rat) := by
  obtain ⟨hs, h1, h2, h3⟩ := showNat_fins (r / 3600000000)
  have hm : wholeVal (fixedFins 2 (r / 60000000 % 60)) = r / 60000000 % 60 := fixedFins_val _ _ (by omega)
  have hse : wholeVal (fixedFins 2 (r / 1000000 % 60)) = r / 1000000 % 60 := fixedFins_val _ _ (by omega)
  have hu : wholeVal (fixedFins 6 (r % 1000000)) = r % 1000000 := fixedFins_val _ _ (by omega)
  have hr : ((r / 3600000000 : Nat) : Rat) * 3600000000 + ((r / 60000000 % 60 : Nat) : Rat) * 60000000
      + ((r / 1000000 % 60 : Nat) : Rat) * 1000000 + ((r % 1000000 : Nat) : Rat) = (r : Rat) := by
    have : r / 3600000000 * 3600000000 + r / 60000000 % 60 * 60000000 + r / 1000000 % 60 * 1000000 + r % 1000000 = r := by omega
    exact_mod_cast this
  have ne2 : ∀ n, fixedFins 2 n ≠ [] := fun n h => by have := fixedFins_length 2 n; rw [h] at this; cases this
  refine ⟨⟨sep, hs, fixedFins 2 (r / 60000000 % 60), ⟨fixedFins 2 (r / 1000000 % 60),
    if r % 1000000 = 0 then none else some (fixedFins 6 (r % 1000000))⟩⟩,
    ⟨hsep, h2, ne2 _, Or.inl (ne2 _)⟩, ?_, ?_⟩
  · simp only [DClock.text, Decimal.text, h1, fixedFins_text]
    by_cases h0 : r % 1000000 = 0
    · simp [h0]
    · simp [h0]
  · simp only [DClock.val, Decimal.val, h3, hm, hse]
    by_cases h0 : r % 1000000 = 0
    · rw [if_pos h0]
      rw [h0] at hr
      simp only [Nat.cast_zero, add_zero] at hr ⊢
      exact hr
    · rw [if_neg h0]
      simp only [fracVal_eq, fixedFins_length, hu]
      rw [← hr]
      push_cast
      ring

/-- The part with the days. -/
def dayPart (ds : List (Fin 10)) (one : Bool) : DPart :=
  ⟨[], ⟨ds, none⟩, [' '], if one then "day" else "days", 86400000000⟩

theorem dayPart_valid (ds : List (Fin 10)) (h : ds ≠ []) (one : Bool) : (dayPart ds one).Valid := by
  refine ⟨fun c hc => (nomatch hc), Or.inl h, fun c hc => Or.inl (by simpa [dayPart] using hc), by simp [dayPart], ?_⟩
  cases one
  · show ("days", 86400000000) ∈ durationUnits; decide
  · show ("day", 86400000000) ∈ durationUnits; decide

theorem isSep_nil : IsSep [] := fun c hc => (nomatch hc)

theorem isSep_comma : IsSep [',', ' '] := fun c hc => by
  rcases List.mem_cons.1 hc with h | h
  · exact Or.inr (Or.inl h)
  · exact Or.inl (by simpa using h)

/-! ### C97 -/

/-- C97, durations, the exact result for every duration: Python's own text of a duration is always read; it is read as the duration
unless the duration is negative, and then the clock behind the days is taken with the sign of the days. -/
theorem C97_read (d : Int) :
    stringToTimedelta (pyDurationText d) = .ok (if 0 ≤ d then d else d - 2 * (d % 86400000000)) := by
  have hmod : 0 ≤ d % DAY ∧ d % DAY < DAY := ⟨Int.emod_nonneg _ (by decide), Int.emod_lt_of_pos _ (by decide)⟩
  have hdm : d = d / DAY * DAY + d % DAY := by have := Int.mul_ediv_add_emod d DAY; simp only [DAY] at *; omega
  by_cases h0 : d / DAY = 0
  · obtain ⟨c, hv, ht, hval⟩ := clock_of_rest [] isSep_nil (d % DAY).toNat
    have hd : 0 ≤ d := by simp only [DAY] at *; omega
    have hvalid : DText.Valid ⟨[], [], some c⟩ :=
      ⟨fun _ h => (nomatch h), fun _ h => (nomatch h), fun c' h => by cases h; exact hv, Or.inr (fun h => nomatch h)⟩
    have := C54_exact _ hvalid d (by
        simp only [DText.val, DText.size, List.count_nil, List.map_nil, List.sum_nil, hval, zero_add]
        rw [if_neg (by decide)]
        have : (((d % DAY).toNat : Int)) = d := by simp only [DAY] at *; omega
        exact_mod_cast congrArg (Int.cast : Int → Rat) this)
    rw [if_pos hd, ← this]
    simp only [DText.text, List.flatMap_nil, ht, pyDurationText, if_pos h0]
    rfl
  · obtain ⟨c, hv, ht, hval⟩ := clock_of_rest [',', ' '] isSep_comma (d % DAY).toNat
    obtain ⟨ds, h1, h2, h3⟩ := showNat_fins (d / DAY).natAbs
    have hvalid : DText.Valid ⟨if d / DAY < 0 then ['-'] else [], [dayPart ds (decide ((d / DAY).natAbs = 1))], some c⟩ := by
      refine ⟨fun x h => ?_, fun p h => ?_, fun c' h => ?_, Or.inl (List.cons_ne_nil _ _)⟩
      · by_cases hn : d / DAY < 0
        · simp only [if_pos hn] at h; exact Or.inr (by simpa using h)
        · simp only [if_neg hn] at h; cases h
      · simp only [List.mem_singleton] at h; subst h; exact dayPart_valid ds h2 _
      · cases h; exact hv
    have := C54_exact _ hvalid (if 0 ≤ d then d else d - 2 * (d % 86400000000)) (by
        simp only [DText.val, DText.size, hval, List.map_cons, List.map_nil, List.sum_cons, List.sum_nil, dayPart, DPart.val,
          Decimal.val, h3, add_zero]
        have hsum : ((d / DAY).natAbs : Rat) * ((86400000000 : Nat) : Rat) + ((d % DAY).toNat : Rat)
            = ((((d / DAY).natAbs * 86400000000 + (d % DAY).toNat : Nat) : Int) : Rat) := by norm_cast
        rw [hsum]
        by_cases hn : d / DAY < 0
        · have hd : ¬ 0 ≤ d := by simp only [DAY] at *; omega
          rw [if_pos hn, if_pos (by decide), if_neg hd, ← Int.cast_neg]
          congr 1
          simp only [DAY] at *; omega
        · have hd : 0 ≤ d := by simp only [DAY] at *; omega
          rw [if_neg hn, if_neg (by decide), if_pos hd]
          congr 1
          simp only [DAY] at *; omega)
    rw [← this]
    simp only [DText.text, List.flatMap_cons, List.flatMap_nil, ht, pyDurationText, if_neg h0, dayPart, DPart.text, Decimal.text,
      showInt, h1, List.append_nil, List.nil_append]
    congr 1
    by_cases hn : d / DAY < 0 <;> by_cases h11 : (d / DAY).natAbs = 1 <;> simp [hn, h11, List.append_assoc]

/-- C97, durations: Python's own text of a duration is read back exactly when the duration is not negative or a whole number of days.
Missing: the other negative durations. -/
theorem C97_duration_partial (d : Int) :
    stringToTimedelta (pyDurationText d) = .ok d ↔ 0 ≤ d ∨ d % 86400000000 = 0 := by
  rw [C97_read]
  by_cases hd : 0 ≤ d
  · simp [hd]
  · rw [if_neg hd]
    constructor
    · intro h
      have := Except.ok.inj h
      omega
    · rintro (h | h)
      · exact absurd h hd
      · rw [h]; simp

/-- C97, durations: minus one minute is printed by Python as minus one day and most of a day, and read as nearly minus two days. -/
theorem C97_negative_violated : ¬ ∀ d, stringToTimedelta (pyDurationText d) = .ok d := by
  intro h
  have := (C97_duration_partial (-60000000)).1 (h _)
  omega

example : pyDurationText (-60000000) = c!"-1 day, 23:59:00" ∧
    stringToTimedelta (c!"-1 day, 23:59:00") = .ok (-(86400000000 + 86340000000)) := by decide +kernel

example : pyDurationText (2 * 86400000000 + 3600000000 + 500) = c!"2 days, 1:00:00.000500" := by decide +kernel

/-! ### Helper lemmas: which characters occur -/

theorem showNat_no {x : Char} (hx : ¬ ('0' ≤ x ∧ x ≤ '9')) (n : Nat) : x ∉ showNat n := fun h => hx (showNat_digits n x h)

theorem fixedDigits_no {x : Char} (hx : ¬ ('0' ≤ x ∧ x ≤ '9')) (k n : Nat) : x ∉ fixedDigits k n := by
  rw [fixedFins_text]
  intro h
  obtain ⟨d, -, rfl⟩ := List.mem_map.1 h
  exact hx (digit_range d)

/-- There is no `t` in Python's text of a duration. -/
theorem pyDurationText_no (d : Int) : 't' ∉ pyDurationText d := by
  have h1 := @showNat_no 't' (by decide)
  have h2 := @fixedDigits_no 't' (by decide)
  unfold pyDurationText showInt
  simp only [List.mem_append, not_or, List.mem_cons]
  refine ⟨⟨?_, ⟨⟨h1 _, by decide, h2 _ _⟩, ?_⟩⟩, ?_⟩
  · split
    · simp
    · split <;> split <;> simp [h1]
  · simp [h2]
  · split <;> simp [h2]

theorem append_inj_of_not_mem {x : Char} {a a' b b' : List Char} (ha : x ∉ a) (ha' : x ∉ a')
    (h : a ++ x :: b = a' ++ x :: b') : a = a' ∧ b = b' := by
  induction a generalizing a' with
  | nil =>
    cases a' with
    | nil => exact ⟨rfl, (List.cons.inj h).2⟩
    | cons c a' => exact absurd (List.mem_cons.2 (Or.inl (List.cons.inj h).1)) ha'
  | cons c a ih =>
    cases a' with
    | nil => exact absurd (List.mem_cons.2 (Or.inl (List.cons.inj h).1.symm)) ha
    | cons c' a' =>
      obtain ⟨h1, h2⟩ := List.cons.inj h
      obtain ⟨h3, h4⟩ := ih (fun m => ha (List.mem_cons_of_mem _ m)) (fun m => ha' (List.mem_cons_of_mem _ m)) h2
      exact ⟨by rw [h1, h3], h4⟩

theorem pyDurationText_inj {a b : Int} (ha : 0 ≤ a) (hb : 0 ≤ b) (h : pyDurationText a = pyDurationText b) : a = b := by
  have h1 := (C97_duration_partial a).2 (Or.inl ha)
  rw [h, (C97_duration_partial b).2 (Or.inl hb)] at h1
  exact (Except.ok.inj h1).symm

/-- C97, sliding periods: the text of a sliding period (`TimeDelta`, whose durations are never negative) tells how far it reaches
back and ahead: two of them with the same text are the same. -/
theorem C97_delta (past future past' future' : Int) (hp : 0 ≤ past) (hf : 0 ≤ future) (hp' : 0 ≤ past') (hf' : 0 ≤ future')
    (h : deltaText past future = deltaText past' future') : past = past' ∧ future = future' := by
  have nt := pyDurationText_no
  have three : ∀ {a b c d : Int}, pyDurationText a ++ c!" to next " ++ pyDurationText b ≠ pyDurationText c ∧
      (pyDurationText a ++ c!" to next " ++ pyDurationText b = pyDurationText c ++ c!" to next " ++ pyDurationText d →
        pyDurationText a = pyDurationText c ∧ pyDurationText b = pyDurationText d) := by
    intro a b c d
    refine ⟨fun e => nt c ?_, fun e => ?_⟩
    · rw [← e]; simp
    · have e' : (pyDurationText a ++ [' ']) ++ 't' :: (c!"o next " ++ pyDurationText b)
          = (pyDurationText c ++ [' ']) ++ 't' :: (c!"o next " ++ pyDurationText d) := by
        simpa using e
      obtain ⟨e1, e2⟩ := append_inj_of_not_mem (by simp [nt a]) (by simp [nt c]) e'
      exact ⟨List.append_cancel_right e1, List.append_cancel_left e2⟩
  unfold deltaText at h
  by_cases h1 : future = 0
  · rw [if_pos h1] at h
    by_cases h2 : future' = 0
    · rw [if_pos h2] at h
      exact ⟨pyDurationText_inj hp hp' (List.append_cancel_left h), h1.trans h2.symm⟩
    · rw [if_neg h2] at h
      by_cases h3 : past' = 0
      · rw [if_pos h3] at h; simp at h
      · rw [if_neg h3, List.append_assoc, List.append_assoc] at h
        refine absurd (List.append_cancel_left h).symm ?_
        rw [← List.append_assoc]
        exact (three (d := 0)).1
  · rw [if_neg h1] at h
    by_cases h2 : future' = 0
    · rw [if_pos h2] at h
      by_cases h3 : past = 0
      · rw [if_pos h3] at h; simp at h
      · rw [if_neg h3, List.append_assoc, List.append_assoc] at h
        refine absurd (List.append_cancel_left h) ?_
        rw [← List.append_assoc]
        exact (three (d := 0)).1
    · rw [if_neg h2] at h
      by_cases h3 : past = 0
      · rw [if_pos h3] at h
        by_cases h4 : past' = 0
        · rw [if_pos h4] at h
          exact ⟨h3.trans h4.symm, pyDurationText_inj hf hf' (List.append_cancel_left h)⟩
        · rw [if_neg h4] at h; simp at h
      · rw [if_neg h3] at h
        by_cases h4 : past' = 0
        · rw [if_pos h4] at h; simp at h
        · rw [if_neg h4, List.append_assoc, List.append_assoc, List.append_assoc, List.append_assoc] at h
          have := List.append_cancel_left h
          rw [← List.append_assoc, ← List.append_assoc] at this
          obtain ⟨e1, e2⟩ := three.2 this
          exact ⟨pyDurationText_inj hp hp' e1, pyDurationText_inj hf hf' e2⟩

example : deltaText 7200000000 0 = c!"past 2:00:00" ∧ deltaText 0 86400000000 = c!"next 1 day, 0:00:00" ∧
    deltaText 7200000000 60000000 = c!"past 2:00:00 to next 0:01:00" := by decide +kernel

theorem strLoop_no {x : Char} {fmt : TdFormat} {sep : List Char} (hsep : x ∉ sep) (minU maxU : TdUnit) :
    ∀ (cs : List (TdUnit × Int)) (r : Bool) (s : List Char), x ∉ s → (∀ c ∈ cs, x ∉ showComp fmt c) →
      x ∉ strLoop fmt sep minU maxU r s cs
  | [], _, s, hs, _ => hs
  | c :: cs, r, s, hs, hc => by
    have h1 : x ∉ (if maxU = c.1 then s ++ showComp fmt c
      else if (r || decide (c.1 = maxU)) = true then s ++ sep ++ showComp fmt c else s) := by
      have := hc c (List.mem_cons_self ..)
      split
      · simp [hs, this]
      · split
        · simp [hs, this, hsep]
        · exact hs
    rw [strLoop]
    split
    · exact h1
    · exact strLoop_no hsep minU maxU cs _ _ h1 (fun c' h' => hc c' (List.mem_cons_of_mem _ h'))

/-- There is no minus in the text of a duration that is not negative. -/
theorem timedeltaToStr_no {d : Int} (hd : 0 ≤ d) : '-' ∉ timedeltaToStr .long d := by
  refine strLoop_no (by decide) _ _ _ _ _ (by simp) ?_
  have key : ∀ (u : TdUnit) (n : Int), 0 ≤ n → '-' ∉ showComp .long (u, n) := by
    intro u n hn
    have h1 := @showNat_no '-' (by decide) n.natAbs
    have h2 : '-' ∉ (unitText .long u).toList := by cases u <;> decide
    simp only [showComp, showInt, if_neg (Int.not_lt.2 hn), List.mem_append, not_or]
    exact ⟨h1, h2⟩
  intro c hc
  simp only [timedeltaToDict, DAY, HOUR, MIN, SEC, List.mem_cons, List.not_mem_nil, or_false] at hc
  rcases hc with rfl | rfl | rfl | rfl | rfl | rfl <;> exact key _ _ (by omega)

theorem dict_zero (d : Int) : (timedeltaToDict d).all (fun c => decide (c.2 = 0)) = true ↔ d = 0 := by
  simp only [timedeltaToDict, DAY, HOUR, MIN, SEC, List.all_cons, List.all_nil, Bool.and_true, Bool.and_eq_true, decide_eq_true_eq]
  omega

theorem scopedText_pos {d : Int} (hd : d ≠ 0) : scopedText d = timedeltaToStr .long d := by
  unfold scopedText
  rw [if_neg]
  rw [dict_zero]; exact hd

/-- C97, clock periods: the text of a clock period that begins and ends on a whole second behind the beginning of its cycle is the
text of its beginning, a dash and the text of its end, and both are read back. Missing: periods that begin or end with the cycle,
parts of seconds, and the kind of the cycle. -/
theorem C97_clock_partial (p : Anchored) (h1 : 0 < p.start) (h2 : 0 < p.stop) (h3 : p.start % 1000000 = 0)
    (h4 : p.stop % 1000000 = 0) :
    ∃ a b, anchoredText p = a ++ c!" - " ++ b ∧ '-' ∉ a ∧ '-' ∉ b ∧
      stringToTimedelta a = .ok p.start ∧ stringToTimedelta b = .ok p.stop := by
  refine ⟨timedeltaToStr .long p.start, timedeltaToStr .long p.stop, ?_, timedeltaToStr_no h1.le, timedeltaToStr_no h2.le,
    (C55_round_trip_partial .long _).2 ⟨by omega, h3, Or.inl h1⟩, (C55_round_trip_partial .long _).2 ⟨by omega, h4, Or.inl h2⟩⟩
  have hne : timedeltaToStr .long p.start ≠ [] := by
    intro h
    have := (C55_round_trip_partial .long _).2 ⟨by omega, h3, Or.inl h1⟩
    rw [h] at this
    exact absurd this (by simp [stringToTimedelta])
  simp only [anchoredText, scopedText_pos (show p.start ≠ 0 by omega), scopedText_pos (show p.stop ≠ 0 by omega), if_neg hne]

/-- C97, clock periods: two such periods with the same text begin and end at the same places of their cycles. -/
theorem C97_same_clock_partial (p q : Anchored) (hp : 0 < p.start ∧ 0 < p.stop ∧ p.start % 1000000 = 0 ∧ p.stop % 1000000 = 0)
    (hq : 0 < q.start ∧ 0 < q.stop ∧ q.start % 1000000 = 0 ∧ q.stop % 1000000 = 0) (h : anchoredText p = anchoredText q) :
    p.start = q.start ∧ p.stop = q.stop := by
  obtain ⟨a, b, e1, ha, hb, ra, rb⟩ := C97_clock_partial p hp.1 hp.2.1 hp.2.2.1 hp.2.2.2
  obtain ⟨a', b', e2, ha', hb', ra', rb'⟩ := C97_clock_partial q hq.1 hq.2.1 hq.2.2.1 hq.2.2.2
  rw [e1, e2] at h
  have h' : (a ++ [' ']) ++ '-' :: ([' '] ++ b) = (a' ++ [' ']) ++ '-' :: ([' '] ++ b') := by simpa using h
  obtain ⟨x, y⟩ := append_inj_of_not_mem (by simp [ha]) (by simp [ha']) h'
  rw [List.append_cancel_right x, ra'] at ra
  rw [List.append_cancel_left y, rb'] at rb
  exact ⟨(Except.ok.inj ra).symm, (Except.ok.inj rb).symm⟩

example : (Anchored.init .day (some (.clock 36000000000)) (some (.clock 57600000000))).map anchoredText
    = .ok (c!"10 hours - 16 hours") := by decide +kernel

/-- C97, clock periods: the kind of the cycle is not in the text: the second ten minutes of an hour and of a day have the same text. -/
theorem C97_cycle_violated : ¬ ∀ p q : Anchored, anchoredText p = anchoredText q → p = q := by
  intro h
  have := h ⟨.hour, 600000000, 1200000000⟩ ⟨.day, 600000000, 1200000000⟩ (by decide +kernel)
  exact absurd this (by decide)

/-- C97, clock periods: the last hour of a day (`TimeOfDay.at("23:00")`) has no end in its text. -/
theorem C97_end_violated : (Anchored.at .day (.clock 82800000000)).map anchoredText = .ok (c!"23 hours - ") ∧
    stringToTimedelta (c!"") ≠ .ok 86400000000 := by decide +kernel

/-- C97, clock periods: the text of a period from the beginning of the month begins with "0 months", which is not read. -/
theorem C97_begin_violated : (Anchored.init .month none (some (.int 2))).map anchoredText = .ok (c!"0 months - 2 days") ∧
    stringToTimedelta (c!"0 months") = .error .key := by decide +kernel

theorem periodRest_join (other : Period → List Char) (moment : Int → List Char) (sep : List Char) : ∀ (p : Period) (ps : List Period),
    periodText other moment p ++ periodRest other moment sep ps = joinWith sep ((p :: ps).map (periodText other moment))
  | p, [] => by simp [periodRest, joinWith]
  | p, q :: ps => by
    have := periodRest_join other moment sep q ps
    rw [periodRest, List.map_cons, List.map_cons, joinWith, ← List.map_cons, ← this]
    simp

/-- C97, combined periods: the texts of all members, in order, with the operator between each two. -/
theorem C97_joined (other : Period → List Char) (moment : Int → List Char) (ps : List Period) :
    periodText other moment (.all ps) = joinWith c!" & " (ps.map (periodText other moment)) ∧
    periodText other moment (.any ps) = joinWith c!" | " (ps.map (periodText other moment)) := by
  cases ps with
  | nil => simp [periodText, periodTexts, joinWith]
  | cons p ps => exact ⟨periodRest_join other moment _ p ps, periodRest_join other moment _ p ps⟩

/-- The parts of the counterexample: 8 to 10 o'clock, 12 to 14 o'clock, and the first half of an hour. -/
def eightToTen : Period := .anchored ⟨.day, 28800000000, 36000000000⟩
def noonToTwo : Period := .anchored ⟨.day, 43200000000, 50400000000⟩
def tenToThirty : Period := .anchored ⟨.hour, 600000000, 1800000000⟩

/-- C97, combined periods: there are no brackets: `(a | b) & c` and `a | (b & c)` have the same text, and at 9:45 the one
contains the moment and the other does not. -/
theorem C97_brackets_violated (other : Period → List Char) (moment : Int → List Char) :
    periodText other moment (.all [.any [eightToTen, noonToTwo], tenToThirty])
      = periodText other moment (.any [eightToTen, .all [noonToTwo, tenToThirty]]) ∧
    Period.contains 10 (.all [.any [eightToTen, noonToTwo], tenToThirty]) (738000 * DAY + 9 * HOUR + 45 * MIN) = .ok false ∧
    Period.contains 10 (.any [eightToTen, .all [noonToTwo, tenToThirty]]) (738000 * DAY + 9 * HOUR + 45 * MIN) = .ok true := by
  refine ⟨?_, by decide +kernel, by decide +kernel⟩
  simp [periodText, periodTexts, periodRest, eightToTen, noonToTwo, tenToThirty]

end Rocketry.Props
