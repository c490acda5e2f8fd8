import Verif.Text.DurationPrint

/-! # Duration texts: C54, C55 -/

namespace Rocketry.Props
open Rocketry.Spec

theorem body_head {ps : List DPart} {k : Option DClock} (hp : ∀ p ∈ ps, p.Valid) (hk : ∀ c, k = some c → c.Valid)
    (rest : List Char) (hr : Stops rest) : ∀ c, (bodyText ps k ++ rest).head? = some c → c ≠ '+' ∧ c ≠ '-' := by
  intro c hc
  have h : isNumericChar c = true ∨ isBreakChar c = true := by
    cases hb : bodyText ps k with
    | nil => rw [hb] at hc; exact hr c hc
    | cons a l =>
      rw [hb] at hc
      simp only [List.cons_append, List.head?_cons, Option.some.injEq] at hc
      subst hc
      exact stops_body hp hk a (by rw [hb]; rfl)
  constructor <;> rintro rfl <;> revert h <;> decide

theorem stringToTimedelta_eq {signs t : List Char} (hs : ∀ c ∈ signs, c = '+' ∨ c = '-') (ht : t ≠ [])
    (hh : ∀ c, t.head? = some c → c ≠ '+' ∧ c ≠ '-') :
    stringToTimedelta (signs ++ t) = match durationLoop t.length 0 t with
      | .error e => .error e
      | .ok ms => .ok (roundHalfEven (if signs.count '-' % 2 = 1 then -ms else ms)) := by
  have hl := leadingSigns_append hs false ht hh
  unfold stringToTimedelta
  split
  · next h => simp [ht] at h
  · simp only [hl, Bool.false_xor, decide_eq_true_eq]
    rfl

/-- C54: every text of the grammar is read, as the rounded sum of its parts. -/
theorem C54_reads (t : DText) (ht : t.Valid) :
    ∃ d, stringToTimedelta t.text = .ok d ∧ RoundsTo t.val d := by
  obtain ⟨signs, ps, k⟩ := t
  have h2 := body_two (k := k) ht.parts ht.nonempty
  have hlen : ps.length < (bodyText ps k).length := by
    have := body_length (k := k) ht.parts
    simp only at this h2
    omega
  have hne : bodyText ps k ≠ [] := by
    intro h; simp only [h, List.length_nil] at h2; omega
  have hh := body_head ht.parts ht.clock [] (by intro c hc; cases hc)
  rw [List.append_nil] at hh
  have h := stringToTimedelta_eq ht.signs hne hh
  rw [loop_body ht.clock ht.parts _ hlen 0, zero_add] at h
  exact ⟨_, h, roundHalfEven_spec _⟩

/-- C54: when the sum is a whole number of microseconds, it is the result. -/
theorem C54_exact (t : DText) (ht : t.Valid) (d : Int) (hd : t.val = (d : Rat)) :
    stringToTimedelta t.text = .ok d := by
  obtain ⟨e, he, hr⟩ := C54_reads t ht
  rw [he]
  have : RoundsTo t.val d := by rw [hd]; simp [RoundsTo]
  rw [RoundsTo.unique hr this]

/-- C54: nothing else is read: a text that is read belongs to the grammar, and the result is the rounded sum of its
parts. -/
theorem C54_only (s : List Char) (d : Int) (h : stringToTimedelta s = .ok d) :
    ∃ t : DText, t.Valid ∧ s = t.text ∧ RoundsTo t.val d := by
  have hs : s ≠ [] := by rintro rfl; simp [stringToTimedelta] at h
  unfold stringToTimedelta at h
  split at h
  · exact absurd rfl hs
  · obtain ⟨signs, hsg, hse, hneg⟩ := leadingSigns_inv hs false
    simp only at h
    rcases hneg with h1 | h1 | ⟨h1, h2⟩
    · rw [h1] at h
      rw [show durationLoop ['+'].length 0 ['+'] = .error .key by decide +kernel] at h
      cases h
    · rw [h1] at h
      rw [show durationLoop ['-'].length 0 ['-'] = .error .key by decide +kernel] at h
      cases h
    · cases hl : durationLoop (leadingSigns false s).2.length 0 (leadingSigns false s).2 with
      | error e => rw [hl] at h; cases h
      | ok r =>
        rw [hl] at h
        simp only [Except.ok.injEq] at h
        obtain ⟨ps, k, hps, hk, hpt, hpr⟩ := loop_inv hl
        refine ⟨⟨signs, ps, k⟩, ⟨hsg, hps, hk, ?_⟩, ?_, ?_⟩
        · simp only
          by_cases hp : ps = []
          · right
            rintro rfl
            subst hp
            rw [hpt] at h1
            exact h1 rfl
          · exact Or.inl hp
        · rw [hse, hpt]; rfl
        · rw [← h, h2, hpr, zero_add]
          simp only [Bool.false_xor, decide_eq_true_eq]
          exact roundHalfEven_spec _

/-- C54: a part with an unknown unit is rejected with `KeyError`, whatever parts are in front and whatever follows. -/
theorem C54_unknown_unit (signs : List Char) (hs : ∀ c ∈ signs, c = '+' ∨ c = '-') (ps : List DPart)
    (hp : ∀ p ∈ ps, p.Valid) (sep gap : List Char) (hsep : IsSep sep) (hgap : IsSep gap)
    (hcolon : gap.head? ≠ some ':') (n : Decimal) (hn : n.Valid) (w : List Char) (hw : w ≠ [])
    (hwc : ∀ c ∈ w, ¬ (('0' ≤ c ∧ c ≤ '9') ∨ c = '.' ∨ c = ' ' ∨ c = ',' ∨ c = ':'))
    (hunk : ∀ size, (String.ofList w, size) ∉ durationUnits) (rest : List Char)
    (hr : ∀ c, rest.head? = some c → ('0' ≤ c ∧ c ≤ '9') ∨ c = '.' ∨ c = ' ' ∨ c = ',' ∨ c = ':') :
    stringToTimedelta (signs ++ (ps.flatMap DPart.text ++ (sep ++ n.text ++ gap ++ w ++ rest))) = .error .key := by
  have hwc' : ∀ c ∈ w, isNumericChar c = false ∧ isBreakChar c = false := by
    intro c hc
    have := hwc c hc
    simp only [isNumericChar, isBreakChar, Bool.or_eq_false_iff, Bool.and_eq_false_iff, decide_eq_false_iff_not]
    tauto
  have hr' : Stops rest := by
    intro c hc
    have := hr c hc
    simp only [isNumericChar, isBreakChar, Bool.or_eq_true, Bool.and_eq_true, decide_eq_true_eq]
    tauto
  have hnone : readUnit (String.ofList w) = none := by
    cases hru : readUnit (String.ofList w) with
    | none => rfl
    | some u => exact absurd ((readUnit_iff _ _).1 hru) (hunk u)
  have hstop : Stops (sep ++ n.text ++ gap ++ w ++ rest) := by
    intro c hc
    cases sep with
    | cons a l =>
      simp only [List.cons_append, List.head?_cons, Option.some.injEq] at hc
      subst hc
      exact Or.inr ((isSep_iff _).1 hsep _ (by simp))
    | nil =>
      obtain ⟨a, l, ha⟩ := List.exists_cons_of_ne_nil (text_ne_nil hn)
      simp only [ha, List.nil_append, List.cons_append, List.head?_cons, Option.some.injEq] at hc
      subst hc
      exact Or.inl (text_numeric n _ (by simp [ha]))
  have hloop : ∀ ps : List DPart, (∀ p ∈ ps, p.Valid) → ∀ m, ps.length < m → ∀ ms,
      durationLoop m ms (ps.flatMap DPart.text ++ (sep ++ n.text ++ gap ++ w ++ rest)) = .error .key := by
    intro ps
    induction ps with
    | nil =>
      intro _ m hm ms
      obtain ⟨m, rfl⟩ : ∃ m', m = m' + 1 := ⟨m - 1, by simp at hm; omega⟩
      have h := loop_round (n := m) (ms := ms) ((isSep_iff _).1 hsep) (text_numeric n) (text_ne_nil hn)
        ((isSep_iff _).1 hgap) hcolon hw hwc' hr'
      rw [hnone] at h
      simpa using h
    | cons p ps ih =>
      intro hp m hm ms
      obtain ⟨m, rfl⟩ : ∃ m', m = m' + 1 := ⟨m - 1, by simp at hm; omega⟩
      have hps : ∀ p ∈ ps, p.Valid := fun q hq => hp q (by simp [hq])
      have hst : Stops (ps.flatMap DPart.text ++ (sep ++ n.text ++ gap ++ w ++ rest)) := by
        cases ps with
        | nil => exact hstop
        | cons q ps =>
          have := stops_part (hps q (by simp)) (ps.flatMap DPart.text ++ (sep ++ n.text ++ gap ++ w ++ rest))
          simpa using this
      have h := loop_part (hp p (by simp)) hst m ms
      rw [List.flatMap_cons, List.append_assoc, h]
      exact ih hps m (by simpa using hm) _
  have hlen : ps.length < (ps.flatMap DPart.text ++ (sep ++ n.text ++ gap ++ w ++ rest)).length := by
    have h1 := body_length (k := none) hp
    have h2 := List.length_pos_iff.2 hw
    simp only [bodyText, List.append_nil] at h1
    simp only [List.length_append]
    omega
  have hne : ps.flatMap DPart.text ++ (sep ++ n.text ++ gap ++ w ++ rest) ≠ [] := by
    intro h; rw [h] at hlen; simp at hlen
  have hhead := body_head (k := none) hp (by simp) (sep ++ n.text ++ gap ++ w ++ rest) hstop
  simp only [bodyText, List.append_nil] at hhead
  rw [stringToTimedelta_eq hs hne hhead, hloop ps hp _ hlen 0]

/-- "-1 day, 2.5h 10:20:30" -/
def sampleText : DText :=
  ⟨['-'], [⟨[], ⟨[1], none⟩, [' '], "day", 86400000000⟩, ⟨[',', ' '], ⟨[2], some [5]⟩, [], "h", 3600000000⟩],
    some ⟨[' '], [1, 0], [2, 0], ⟨[3, 0], none⟩⟩⟩

example : sampleText.text = "-1 day, 2.5h 10:20:30".toList := by decide +kernel

example : sampleText.Valid where
  signs := by decide
  parts := by
    intro p hp
    simp only [sampleText, List.mem_cons, List.not_mem_nil, or_false] at hp
    rcases hp with rfl | rfl
    · exact ⟨by simp [IsSep], Or.inl (by simp), by simp [IsSep], by decide, by decide⟩
    · exact ⟨by simp [IsSep], Or.inl (by simp), by simp [IsSep], by decide, by decide⟩
  clock := by
    rintro c ⟨rfl⟩
    exact ⟨by simp [IsSep], by simp, by simp, Or.inl (by simp)⟩
  nonempty := Or.inl (by simp [sampleText])

example : stringToTimedelta sampleText.text = .ok (-132630000000) := by decide +kernel

example : stringToTimedelta "2 weeks".toList = .error .key := by decide +kernel
example : stringToTimedelta "1 day 10".toList = .error .key := by decide +kernel
example : stringToTimedelta "1 day ".toList = .error .key := by decide +kernel
example : stringToTimedelta "day".toList = .error .value := by decide +kernel

/-! ## printing and reading back -/

theorem readable_suffix (fmt : TdFormat) (us : Int) :
    (timedeltaToDict us).Pairwise (fun a b => Readable fmt b.1 → Readable fmt a.1) := by
  cases fmt <;> simp [timedeltaToDict, Readable]

theorem readable_iff {fmt : TdFormat} {zs : List (TdUnit × Int)} {c : TdUnit × Int} {tl ws : List (TdUnit × Int)}
    (hp : (zs ++ c :: (tl ++ ws)).Pairwise (fun a b => Readable fmt b.1 → Readable fmt a.1))
    (hz : ∀ z ∈ zs, z.2 = 0) (hc : c.2 ≠ 0) (hw : ∀ w ∈ ws, w.2 = 0)
    (hl : tl = [] ∨ ∃ l, tl.getLast? = some l ∧ l.2 ≠ 0) :
    (∀ p ∈ c :: tl, Readable fmt p.1) ↔ ∀ p ∈ zs ++ c :: (tl ++ ws), ¬ Readable fmt p.1 → p.2 = 0 := by
  constructor
  · intro h p hpm hnr
    simp only [List.mem_append, List.mem_cons] at hpm
    rcases hpm with hpm | rfl | hpm | hpm
    · exact hz p hpm
    · exact absurd (h p (by simp)) hnr
    · exact absurd (h p (by simp [hpm])) hnr
    · exact hw p hpm
  · intro h p hpm
    by_contra hnr
    have hp2 := (List.pairwise_append.1 hp).2.1
    rcases hl with rfl | ⟨l, hl, hl0⟩
    · simp only [List.mem_cons, List.not_mem_nil, or_false] at hpm
      subst hpm
      exact hc (h p (by simp) hnr)
    · have hlm := List.mem_of_getLast? hl
      have hlr : Readable fmt l.1 := by
        by_contra hlr
        exact hl0 (h l (by simp [hlm]) hlr)
      apply hnr
      obtain ⟨tl', rfl⟩ : ∃ tl', tl = tl' ++ [l] := by
        have := List.getLast?_eq_some_iff.1 hl
        exact this
      simp only [List.pairwise_cons, List.pairwise_append] at hp2
      rcases List.mem_cons.1 hpm with rfl | hpm
      · exact hp2.1 l (by simp) hlr
      · rcases List.mem_append.1 hpm with hpm | hpm
        · exact hp2.2.1.2.2 p hpm l (by simp) hlr
        · simp only [List.mem_singleton] at hpm
          rw [hpm]; exact hlr

/-- The finest part of a duration the reader can read back. -/
def readableGrain : TdFormat → Int
  | .long => 1000000
  | _ => 1000

theorem grain_iff (fmt : TdFormat) (us : Int) :
    (∀ p ∈ timedeltaToDict us, ¬ Readable fmt p.1 → p.2 = 0) ↔ us % readableGrain fmt = 0 := by
  cases fmt <;>
  · simp only [timedeltaToDict, List.forall_mem_cons, Readable, readableGrain, DAY, HOUR, MIN, SEC]
    simp
    omega

theorem tail_length (fmt : TdFormat) (tl : List (TdUnit × Int)) : tl.length ≤ (tailText fmt tl).length := by
  induction tl with
  | nil => simp
  | cons c tl ih =>
    simp only [tailText, List.flatMap_cons, List.length_append, List.length_cons] at ih ⊢
    omega

/-- C55, the part that holds, and exactly that part: a printed duration reads back to itself if and only if it is not
zero, has no part finer than a second (a millisecond for the short formats), and is positive or a whole number of
days.  Missing: zero, finer parts, negative durations. -/
theorem C55_round_trip_partial (fmt : TdFormat) (d : Int) :
    stringToTimedelta (timedeltaToStr fmt d) = .ok d ↔
      d ≠ 0 ∧ d % (match fmt with | .long => 1000000 | _ => 1000) = 0 ∧ (0 < d ∨ d % 86400000000 = 0) := by
  rw [show (match fmt with | .long => (1000000 : Int) | _ => 1000) = readableGrain fmt by cases fmt <;> rfl]
  by_cases hd : d = 0
  · subst hd
    have h0 : stringToTimedelta (timedeltaToStr fmt 0) = .error .key := by cases fmt <;> decide +kernel
    rw [h0]; simp
  · have hex : ∃ c ∈ timedeltaToDict d, c.2 ≠ 0 := by
      by_contra hno
      apply hd
      rw [← tdSum d]
      apply compSum_zero
      intro z hz
      by_contra hne
      exact hno ⟨z, hz, hne⟩
    obtain ⟨zs, c, tl, ws, hcs, hz, hc, hw, hl, hstr⟩ := timedeltaToStr_eq fmt d hex
    have hread := readable_iff (hcs ▸ readable_suffix fmt d) hz hc hw hl
    rw [← hcs, grain_iff] at hread
    have hsum : d = c.2 * c.1.size + compSum tl := by
      have h1 := tdSum d
      have e : compSum (timedeltaToDict d) = compSum zs + (c.2 * c.1.size + (compSum tl + compSum ws)) := by
        rw [hcs, compSum_append]
        rw [show c :: (tl ++ ws) = [c] ++ (tl ++ ws) from rfl, compSum_append, compSum_append]
        simp [compSum]
      rw [compSum_zero hz, compSum_zero hw] at e
      omega
    -- components behind the first are not negative
    have hpos : ∀ p ∈ timedeltaToDict d, p.1 = .days ∨ 0 ≤ p.2 := by
      simp only [timedeltaToDict, List.forall_mem_cons, DAY, HOUR, MIN, SEC]
      simp
      omega
    have hnd : ((timedeltaToDict d).map Prod.fst) = [.days, .hours, .minutes, .seconds, .milliseconds, .microseconds] := rfl
    have htl : ∀ p ∈ tl, 0 ≤ p.2 := by
      intro p hp
      rcases hpos p (by rw [hcs]; simp [hp]) with h | h
      · exfalso
        rw [hcs] at hnd
        have hmem : TdUnit.days ∈ (tl ++ ws).map Prod.fst := by
          simp only [List.map_append, List.mem_append, List.mem_map]
          exact Or.inl ⟨p, hp, h⟩
        cases zs with
        | nil =>
          simp only [List.nil_append, List.map_cons, List.cons.injEq] at hnd
          rw [hnd.2] at hmem
          exact absurd hmem (by decide)
        | cons z zs =>
          simp only [List.cons_append, List.map_cons, List.cons.injEq] at hnd
          have : TdUnit.days ∈ (zs ++ c :: (tl ++ ws)).map Prod.fst := by
            rw [List.map_append, List.map_cons]
            exact List.mem_append.2 (Or.inr (List.mem_cons.2 (Or.inr hmem)))
          rw [hnd.2] at this
          exact absurd this (by decide)
      · exact h
    -- the text that is read
    have hgo : ∀ v : Nat, ∀ n, tl.length < n → durationLoop n 0
          (([] : List Char) ++ (showNat v ++ (unitText fmt c.1).toList) ++ tailText fmt tl)
        = if ∀ p ∈ c :: tl, Readable fmt p.1 then .ok (((v : Int) * c.1.size + compSum tl : Int) : Rat)
          else .error .key := by
      intro v n hn
      obtain ⟨m, rfl⟩ : ∃ m, n = m + 1 := ⟨n - 1, by omega⟩
      rw [loop_comp (by simp), loop_tail htl m (by omega)]
      by_cases h1 : Readable fmt c.1
      · rw [if_pos h1]
        by_cases h2 : ∀ c ∈ tl, Readable fmt c.1
        · rw [if_pos h2, if_pos (by simpa [h1] using h2)]
          push_cast
          simp
        · rw [if_neg h2, if_neg (by simpa [h1] using h2)]
      · rw [if_neg h1, if_neg (by simp [h1])]
    have hlen : ∀ v : Nat, tl.length <
        (([] : List Char) ++ (showNat v ++ (unitText fmt c.1).toList) ++ tailText fmt tl).length := by
      intro v
      have h1 := tail_length fmt tl
      have h2 := List.length_pos_iff.2 (showNat_ne_nil v)
      simp only [List.nil_append, List.length_append]
      omega
    have hne : ∀ v : Nat, ([] : List Char) ++ (showNat v ++ (unitText fmt c.1).toList) ++ tailText fmt tl ≠ [] := by
      intro v h
      have := hlen v
      rw [h] at this; simp at this
    have hhead : ∀ v : Nat, ∀ x,
        (([] : List Char) ++ (showNat v ++ (unitText fmt c.1).toList) ++ tailText fmt tl).head? = some x →
        x ≠ '+' ∧ x ≠ '-' := by
      intro v x hx
      obtain ⟨a, l, ha⟩ := List.exists_cons_of_ne_nil (showNat_ne_nil v)
      rw [ha] at hx
      simp only [List.nil_append, List.cons_append, List.head?_cons, Option.some.injEq] at hx
      have := showNat_digits v a (by simp [ha])
      rw [hx] at this
      constructor <;> rintro rfl <;> revert this <;> decide
    have hsplit : ∀ v : Nat, showNat v ++ (unitText fmt c.1).toList ++ tailText fmt tl
        = ([] : List Char) ++ (showNat v ++ (unitText fmt c.1).toList) ++ tailText fmt tl := by intro v; simp
    rcases lt_or_gt_of_ne hc with hneg | hposc
    · -- negative
      have hday : c.1 = .days := by
        rcases hpos c (by rw [hcs]; simp) with h | h
        · exact h
        · omega
      have hstr' : timedeltaToStr fmt d
          = ['-'] ++ (([] : List Char) ++ (showNat c.2.natAbs ++ (unitText fmt c.1).toList) ++ tailText fmt tl) := by
        rw [hstr]; simp [showComp, showInt, hneg]
      rw [hstr', stringToTimedelta_eq (by simp) (hne _) (hhead _), hgo _ _ (hlen _)]
      have hzs : zs = [] := by
        cases zs with
        | nil => rfl
        | cons z zs =>
          exfalso
          rw [hcs] at hnd
          simp only [List.cons_append, List.map_cons, List.cons.injEq] at hnd
          have : TdUnit.days ∈ (zs ++ c :: (tl ++ ws)).map Prod.fst := by
            rw [List.map_append, List.map_cons, hday]
            exact List.mem_append.2 (Or.inr (List.mem_cons.2 (Or.inl rfl)))
          rw [hnd.2] at this
          exact absurd this (by decide)
      have hcd : c.2 = d / 86400000000 := by
        subst hzs
        have := hcs
        simp only [List.nil_append, timedeltaToDict, List.cons.injEq] at this
        rw [← this.1]
      have hsz : c.1.size = 86400000000 := by rw [hday]; rfl
      rw [hsz] at hsum ⊢
      by_cases hr : ∀ p ∈ c :: tl, Readable fmt p.1
      · rw [if_pos hr]
        have hg := hread.1 hr
        simp only [List.count_singleton_self]
        rw [if_true, ← Int.cast_neg, roundHalfEven_int]
        simp only [Except.ok.injEq]
        rw [show ((c.2.natAbs : Int)) = -c.2 by omega]
        constructor
        · intro h; exact ⟨hd, hg, Or.inr (by omega)⟩
        · rintro ⟨-, -, h⟩
          omega
      · rw [if_neg hr]
        have hg := fun h => hr (hread.2 h)
        simp only [reduceCtorEq, false_iff]
        rintro ⟨-, h, -⟩
        exact hg h
    · -- positive
      have hstr' : timedeltaToStr fmt d
          = [] ++ (([] : List Char) ++ (showNat c.2.natAbs ++ (unitText fmt c.1).toList) ++ tailText fmt tl) := by
        rw [hstr]; simp [showComp, showInt, Int.not_lt.2 (le_of_lt hposc)]
      rw [hstr', stringToTimedelta_eq (by simp) (hne _) (hhead _), hgo _ _ (hlen _)]
      have hszp : 0 < c.1.size := by cases c.1 <;> decide
      have hcs0 : 0 ≤ compSum tl := by
        clear hcs hl hstr hread hsum hgo hlen hne hhead hsplit hstr'
        induction tl with
        | nil => simp [compSum]
        | cons p tl ih =>
          have h1 := htl p (by simp)
          have h2 : 0 ≤ p.1.size := by cases p.1 <;> decide
          have h3 := ih (fun q hq => htl q (by simp [hq]))
          have h4 := Int.mul_nonneg h1 h2
          simp only [compSum, List.map_cons, List.sum_cons] at h3 ⊢
          omega
      have hdp : 0 < d := by
        have := Int.mul_pos hposc hszp
        omega
      by_cases hr : ∀ p ∈ c :: tl, Readable fmt p.1
      · rw [if_pos hr]
        have hg := hread.1 hr
        simp only [List.count_nil, Nat.zero_mod, show (0 = 1) = False by simp, if_false]
        rw [roundHalfEven_int, show ((c.2.natAbs : Int)) = c.2 by omega, ← hsum]
        simp [hd, hg, hdp]
      · rw [if_neg hr]
        have hg := fun h => hr (hread.2 h)
        simp only [reduceCtorEq, false_iff]
        rintro ⟨-, h, -⟩
        exact hg h

/-- C55 does not hold as stated: half a second is printed as "500 milliseconds", a unit the reader does not know. -/
theorem C55_subsecond_violated : ¬ ∀ d, stringToTimedelta (timedeltaToStr .long d) = .ok d := by
  intro h
  have := h 500000
  rw [show stringToTimedelta (timedeltaToStr .long 500000) = .error .key by decide +kernel] at this
  cases this

/-- C55 does not hold as stated: minus one hour is printed as "-1 days, 23 hours" and read as minus 47 hours. -/
theorem C55_negative_violated :
    timedeltaToStr .long (-3600000000) = "-1 days, 23 hours".toList ∧
      stringToTimedelta (timedeltaToStr .long (-3600000000)) = .ok (-169200000000) := by
  constructor <;> decide +kernel

example : timedeltaToStr .long 93784000000 = "1 days, 2 hours, 3 minutes, 4 seconds".toList := by decide +kernel
example : stringToTimedelta (timedeltaToStr .long 93784000000) = .ok 93784000000 :=
  (C55_round_trip_partial .long _).2 (by decide)

end Rocketry.Props
