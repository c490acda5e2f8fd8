import Verif.Text.DurationLemmas

/-! # Lemmas about printed durations -/

namespace Rocketry
open Spec

/-- Microseconds of a printed unit. -/
def TdUnit.size : TdUnit → Int
  | .days => 86400000000 | .hours => 3600000000 | .minutes => 60000000 | .seconds => 1000000
  | .milliseconds => 1000 | .microseconds => 1

/-- Units whose printed name the reader knows. -/
def Readable (fmt : TdFormat) (u : TdUnit) : Prop :=
  u ≠ .microseconds ∧ (fmt = .long → u ≠ .milliseconds)

instance (fmt : TdFormat) (u : TdUnit) : Decidable (Readable fmt u) := by unfold Readable; infer_instance

/-- The blanks in front of a printed unit name. -/
def unitGap : TdFormat → List Char
  | .short => []
  | _ => [' ']

/-- The name itself. -/
def unitWord : TdFormat → TdUnit → List Char := fun fmt u =>
  match fmt with
  | .short => (unitText fmt u).toList
  | _ => (unitText fmt u).toList.drop 1

theorem unitText_eq (fmt : TdFormat) (u : TdUnit) :
    (unitText fmt u).toList = unitGap fmt ++ unitWord fmt u := by
  cases fmt <;> cases u <;> decide +kernel

theorem unitWord_ok (fmt : TdFormat) (u : TdUnit) : unitWord fmt u ≠ [] ∧
    ∀ c ∈ unitWord fmt u, isNumericChar c = false ∧ isBreakChar c = false := by
  cases fmt <;> cases u <;> decide +kernel

theorem unit_readable (fmt : TdFormat) (u : TdUnit) (h : Readable fmt u) :
    readUnit (String.ofList (unitWord fmt u)) = some u.size.toNat := by
  revert h
  cases fmt <;> cases u <;> decide +kernel

theorem unit_unreadable (fmt : TdFormat) (u : TdUnit) (h : ¬ Readable fmt u) :
    readUnit (String.ofList (unitWord fmt u)) = none := by
  revert h
  cases fmt <;> cases u <;> decide +kernel

theorem showNat_numeric (n : Nat) : ∀ c ∈ showNat n, isNumericChar c = true := by
  intro c hc
  have := showNat_digits n c hc
  simp [isNumericChar, this]

theorem floatVal_showNat (n : Nat) : floatVal (showNat n) = .ok (n : Rat) := by
  have hdot : '.' ∉ showNat n := by
    intro h
    have := (showNat_digits n _ h).1
    exact absurd this (by decide)
  simp [floatVal, splitChar_no hdot, isDigits_showNat, digitsVal_showNat]

/-- Components behind the first one, each with the separator in front. -/
def tailText (fmt : TdFormat) (cs : List (TdUnit × Int)) : List Char :=
  cs.flatMap (fun c => [',', ' '] ++ showComp fmt c)

theorem stops_tail (fmt : TdFormat) (cs : List (TdUnit × Int)) : Stops (tailText fmt cs) := by
  cases cs with
  | nil => intro c hc; cases hc
  | cons c cs =>
    intro d hd
    simp only [tailText, List.flatMap_cons, List.cons_append, List.head?_cons, Option.some.injEq] at hd
    subst hd
    right; decide

/-- A round over one printed component. -/
theorem loop_comp {fmt : TdFormat} {sep : List Char} (hsep : ∀ c ∈ sep, isBreakChar c = true) (u : TdUnit) (v : Nat)
    (cs : List (TdUnit × Int)) (n : Nat) (ms : Rat) :
    durationLoop (n + 1) ms (sep ++ (showNat v ++ (unitText fmt u).toList) ++ tailText fmt cs)
      = if Readable fmt u then durationLoop n (ms + ((v : Int) * u.size : Int)) (tailText fmt cs)
        else .error .key := by
  have hg1 : ∀ c ∈ unitGap fmt, isBreakChar c = true := by cases fmt <;> decide
  have hg2 : (unitGap fmt).head? ≠ some ':' := by cases fmt <;> decide
  have hw := unitWord_ok fmt u
  have h := loop_round (n := n) (ms := ms) hsep (showNat_numeric v) (showNat_ne_nil v) hg1 hg2 hw.1 hw.2
    (stops_tail fmt cs)
  rw [unitText_eq]
  rw [show sep ++ (showNat v ++ (unitGap fmt ++ unitWord fmt u)) ++ tailText fmt cs
    = sep ++ showNat v ++ unitGap fmt ++ unitWord fmt u ++ tailText fmt cs by simp]
  rw [h]
  by_cases hr : Readable fmt u
  · rw [if_pos hr, unit_readable fmt u hr, floatVal_showNat]
    simp only
    congr 2
    cases u <;> simp [TdUnit.size] 
  · rw [if_neg hr, unit_unreadable fmt u hr]

theorem showInt_nat (v : Nat) : showInt (v : Int) = showNat v := by
  unfold showInt
  rw [if_neg (by omega), Int.natAbs_natCast]

/-- The sum of components. -/
def compSum (cs : List (TdUnit × Int)) : Int := (cs.map (fun c => c.2 * c.1.size)).sum

theorem loop_tail {fmt : TdFormat} : ∀ {cs : List (TdUnit × Int)}, (∀ c ∈ cs, 0 ≤ c.2) → ∀ n, cs.length ≤ n → ∀ ms,
    durationLoop n ms (tailText fmt cs)
      = if ∀ c ∈ cs, Readable fmt c.1 then .ok (ms + (compSum cs : Rat)) else .error .key
  | [], _, n, _, ms => by simp [tailText, loop_nil, compSum]
  | c :: cs, hpos, n, hn, ms => by
    obtain ⟨m, rfl⟩ : ∃ m, n = m + 1 := ⟨n - 1, by simp at hn; omega⟩
    obtain ⟨u, v⟩ := c
    obtain ⟨w, rfl⟩ := Int.eq_ofNat_of_zero_le (hpos (u, v) (by simp))
    have hsep : ∀ c ∈ ([',', ' '] : List Char), isBreakChar c = true := by decide
    have h := loop_comp (fmt := fmt) hsep u w cs m ms
    have ih := loop_tail (fmt := fmt) (cs := cs) (fun c hc => hpos c (by simp [hc])) m (by simpa using hn)
    have e : tailText fmt ((u, (w : Int)) :: cs)
        = [',', ' '] ++ (showNat w ++ (unitText fmt u).toList) ++ tailText fmt cs := by
      simp [tailText, showComp, showInt_nat]
    rw [e, h, ih]
    by_cases h1 : Readable fmt u
    · rw [if_pos h1]
      by_cases h2 : ∀ c ∈ cs, Readable fmt c.1
      · rw [if_pos h2, if_pos (by simpa [h1] using h2)]
        simp only [compSum, List.map_cons, List.sum_cons]
        push_cast
        congr 1; ring
      · rw [if_neg h2, if_neg (by simpa [h1] using h2)]
    · rw [if_neg h1, if_neg (by simp [h1])]

/-! ### what is printed -/

theorem strLoop_skip {fmt : TdFormat} {sep : List Char} {minU maxU : TdUnit} {rest : List (TdUnit × Int)} (s : List Char) :
    ∀ {zs : List (TdUnit × Int)}, (∀ c ∈ zs, c.1 ≠ maxU ∧ c.1 ≠ minU) →
      strLoop fmt sep minU maxU false s (zs ++ rest) = strLoop fmt sep minU maxU false s rest
  | [], _ => rfl
  | z :: zs, h => by
    have hz := h z (by simp)
    have ih := strLoop_skip (fmt := fmt) (sep := sep) s (zs := zs) (rest := rest) (fun c hc => h c (by simp [hc]))
    simp only [List.cons_append, strLoop, hz.1, hz.1.symm, hz.2.symm, if_false, decide_false, Bool.or_self,
      Bool.false_eq_true]
    exact ih

theorem strLoop_tail {fmt : TdFormat} {minU maxU : TdUnit} {l : TdUnit × Int} {rest : List (TdUnit × Int)}
    (hl : l.1 = minU) (hm : minU ≠ maxU) : ∀ {mid : List (TdUnit × Int)} (s : List Char),
    (∀ c ∈ mid, c.1 ≠ maxU ∧ c.1 ≠ minU) →
      strLoop fmt [',', ' '] minU maxU true s (mid ++ l :: rest) = s ++ tailText fmt (mid ++ [l])
  | [], s, _ => by
    subst hl
    simp [strLoop, hm.symm, tailText]
  | z :: zs, s, h => by
    have hz := h z (by simp)
    have ih := strLoop_tail (fmt := fmt) (rest := rest) hl hm (mid := zs) (s ++ [',', ' '] ++ showComp fmt z) (fun c hc => h c (by simp [hc]))
    simp only [List.cons_append, strLoop, hz.1.symm, hz.2.symm, if_false, Bool.true_or, if_true]
    rw [show s ++ [',', ' '] ++ showComp fmt z = s ++ ',' :: ' ' :: [] ++ showComp fmt z from rfl] at ih
    rw [ih]
    simp [tailText]

/-- A list that is not all zero: zeros, from the first to the last nonzero component, zeros. -/
theorem exists_span : ∀ {cs : List (TdUnit × Int)}, (∃ c ∈ cs, c.2 ≠ 0) →
    (∃ zs c ws, cs = zs ++ c :: ws ∧ (∀ z ∈ zs, z.2 = 0) ∧ c.2 ≠ 0 ∧ ∀ w ∈ ws, w.2 = 0) ∨
    (∃ zs c mid l ws, cs = zs ++ c :: (mid ++ l :: ws) ∧ (∀ z ∈ zs, z.2 = 0) ∧ c.2 ≠ 0 ∧ l.2 ≠ 0 ∧ ∀ w ∈ ws, w.2 = 0)
  | [], h => by simp at h
  | c :: cs, h => by
    by_cases hr : ∃ d ∈ cs, d.2 ≠ 0
    · have ih := exists_span hr
      by_cases hc : c.2 = 0
      · rcases ih with ⟨zs, d, ws, rfl, hz, hd, hw⟩ | ⟨zs, d, mid, l, ws, rfl, hz, hd, hl, hw⟩
        · left
          exact ⟨c :: zs, d, ws, rfl, by simpa [hc] using hz, hd, hw⟩
        · right
          exact ⟨c :: zs, d, mid, l, ws, rfl, by simpa [hc] using hz, hd, hl, hw⟩
      · right
        rcases ih with ⟨zs, d, ws, rfl, hz, hd, hw⟩ | ⟨zs, d, mid, l, ws, rfl, hz, hd, hl, hw⟩
        · exact ⟨[], c, zs, d, ws, rfl, by simp, hc, hd, hw⟩
        · exact ⟨[], c, zs ++ d :: mid, l, ws, by simp, by simp, hc, hl, hw⟩
    · left
      have hz : ∀ d ∈ cs, d.2 = 0 := by
        intro d hd; by_contra hne; exact hr ⟨d, hd, hne⟩
      refine ⟨[], c, cs, rfl, by simp, ?_, hz⟩
      obtain ⟨d, hd, hne⟩ := h
      rcases List.mem_cons.1 hd with rfl | hd
      · exact hne
      · exact absurd (hz d hd) hne

theorem minUnit_zeros : ∀ {ws : List (TdUnit × Int)} (u : TdUnit), (∀ w ∈ ws, w.2 = 0) →
    ws.foldl (fun u c => if c.2 ≠ 0 then c.1 else u) u = u
  | [], _, _ => rfl
  | w :: ws, u, h => by
    have h0 := h w (by simp)
    simp only [List.foldl_cons, h0, ne_eq, not_true, if_false]
    exact minUnit_zeros u (fun c hc => h c (by simp [hc]))

theorem minUnit_eq {a : List (TdUnit × Int)} {l : TdUnit × Int} {ws : List (TdUnit × Int)} (hl : l.2 ≠ 0)
    (hw : ∀ w ∈ ws, w.2 = 0) : minUnit (a ++ l :: ws) = l.1 := by
  unfold minUnit
  rw [List.foldl_append, List.foldl_cons, if_pos hl, minUnit_zeros _ hw]

theorem maxUnit_eq {zs : List (TdUnit × Int)} {c : TdUnit × Int} {ws : List (TdUnit × Int)} (hz : ∀ z ∈ zs, z.2 = 0)
    (hc : c.2 ≠ 0) : maxUnit (zs ++ c :: ws) = c.1 := by
  unfold maxUnit
  rw [List.find?_append, List.find?_eq_none.2 (by simpa using hz)]
  simp [hc]

/-- What is printed: the components from the first to the last nonzero one. -/
theorem timedeltaToStr_eq (fmt : TdFormat) (us : Int) (h : ∃ c ∈ timedeltaToDict us, c.2 ≠ 0) :
    ∃ zs c tl ws, timedeltaToDict us = zs ++ c :: (tl ++ ws) ∧ (∀ z ∈ zs, z.2 = 0) ∧ c.2 ≠ 0 ∧ (∀ w ∈ ws, w.2 = 0) ∧
      (tl = [] ∨ ∃ l, tl.getLast? = some l ∧ l.2 ≠ 0) ∧
      timedeltaToStr fmt us = showComp fmt c ++ tailText fmt tl := by
  have hnd : ((timedeltaToDict us).map Prod.fst).Nodup := by
    show [TdUnit.days, .hours, .minutes, .seconds, .milliseconds, .microseconds].Nodup
    decide
  rcases exists_span h with ⟨zs, c, ws, hcs, hz, hc, hw⟩ | ⟨zs, c, mid, l, ws, hcs, hz, hc, hl, hw⟩
  · refine ⟨zs, c, [], ws, hcs, hz, hc, hw, Or.inl rfl, ?_⟩
    unfold timedeltaToStr
    simp only
    rw [hcs] at hnd ⊢
    rw [minUnit_eq hc hw, maxUnit_eq hz hc, strLoop_skip]
    · simp [strLoop, tailText]
    · intro z hzz
      simp only [List.map_append, List.map_cons, List.nodup_append, List.mem_map, List.mem_cons] at hnd
      have := hnd.2.2 z.1 ⟨z, hzz, rfl⟩ c.1 (Or.inl rfl)
      exact ⟨this, this⟩
  · refine ⟨zs, c, mid ++ [l], ws, by simp [hcs], hz, hc, hw, Or.inr ⟨l, by simp, hl⟩, ?_⟩
    unfold timedeltaToStr
    simp only
    rw [hcs] at hnd ⊢
    have e : zs ++ c :: (mid ++ l :: ws) = (zs ++ c :: mid) ++ l :: ws := by simp
    rw [maxUnit_eq hz hc]
    rw [show minUnit (zs ++ c :: (mid ++ l :: ws)) = l.1 by rw [e]; exact minUnit_eq hl hw]
    simp only [List.map_append, List.map_cons, List.nodup_append, List.nodup_cons, List.mem_map, List.mem_cons,
      List.mem_append] at hnd
    obtain ⟨-, ⟨hcm, -, -, hml⟩, hzc⟩ := hnd
    have hlc : l.1 ≠ c.1 := fun he => hcm (Or.inr (Or.inl he.symm))
    rw [strLoop_skip]
    · have hs := strLoop_tail (fmt := fmt) (rest := ws) (l := l) (minU := l.1) (maxU := c.1) rfl hlc (mid := mid)
        (showComp fmt c) (by
          intro z hzm
          refine ⟨?_, hml z.1 ⟨z, hzm, rfl⟩ l.1 (Or.inl rfl)⟩
          intro he
          exact hcm (Or.inl ⟨z, hzm, he⟩))
      simp only [strLoop, decide_true, Bool.or_true, if_true, List.nil_append, hlc, if_false]
      exact hs
    · intro z hzz
      exact ⟨hzc z.1 ⟨z, hzz, rfl⟩ c.1 (Or.inl rfl),
        hzc z.1 ⟨z, hzz, rfl⟩ l.1 (Or.inr (Or.inr (Or.inl rfl)))⟩

theorem tdSum (us : Int) : compSum (timedeltaToDict us) = us := by
  simp only [compSum, timedeltaToDict, List.map_cons, List.map_nil, List.sum_cons, List.sum_nil, TdUnit.size, DAY,
    HOUR, MIN, SEC]
  omega

theorem compSum_append (a b : List (TdUnit × Int)) : compSum (a ++ b) = compSum a + compSum b := by
  simp [compSum]

theorem compSum_zero {a : List (TdUnit × Int)} (h : ∀ z ∈ a, z.2 = 0) : compSum a = 0 := by
  induction a with
  | nil => rfl
  | cons z a ih =>
    have h0 := h z (by simp)
    have ih := ih (fun c hc => h c (by simp [hc]))
    simp only [compSum, List.map_cons, List.sum_cons, h0, Int.zero_mul, Int.zero_add] at ih ⊢
    exact ih

end Rocketry
