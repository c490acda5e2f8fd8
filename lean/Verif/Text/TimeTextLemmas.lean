import Verif.Text.TimeText
import Verif.Spec.TimeTextSpec

/-!
# Lemmas on the reading of time texts
-/

namespace Rocketry

open Spec

theorem digitChar_isDigit {d : Nat} (h : d < 10) : (Nat.digitChar d).isDigit = true := by
  revert d; decide

theorem digitVal_digitChar {d : Nat} (h : d < 10) : digitVal (Nat.digitChar d) = d := by
  revert d; decide

theorem digitsVal_acc (l : List Char) (n : Nat) : l.foldl (fun n c => n * 10 + digitVal c) n = n * 10 ^ l.length + digitsVal l := by
  unfold digitsVal
  induction l generalizing n with
  | nil => simp
  | cons c l ih =>
    simp only [List.foldl_cons, List.length_cons]
    rw [ih, ih (0 * 10 + digitVal c), Nat.pow_succ, Nat.add_mul, Nat.zero_mul, Nat.zero_add, Nat.mul_assoc,
      Nat.mul_comm 10, Nat.add_assoc]

theorem digitsVal_cons (c : Char) (l : List Char) : digitsVal (c :: l) = digitVal c * 10 ^ l.length + digitsVal l := by
  have := digitsVal_acc l (digitVal c)
  unfold digitsVal at *
  simp only [List.foldl_cons, Nat.zero_mul, Nat.zero_add]
  exact this

theorem digitsVal_zeros (k : Nat) : digitsVal (List.replicate k '0') = 0 := by
  induction k with
  | zero => rfl
  | succ k ih => rw [List.replicate_succ, digitsVal_cons, ih]; simp [digitVal]

theorem digitsVal_two {n : Nat} (h : n < 100) : digitsVal (twoDigits n) = n := by
  have h1 : n / 10 < 10 := by omega
  have h2 : n % 10 < 10 := by omega
  simp only [twoDigits, digitsVal_cons, digitVal_digitChar h1, digitVal_digitChar h2, List.length_cons, List.length_nil]
  simp only [digitsVal, List.foldl_nil]
  omega

theorem twoDigits_digits {n : Nat} (h : n < 100) : ∀ c ∈ twoDigits n, c.isDigit = true := by
  intro c hc
  simp only [twoDigits, List.mem_cons, List.not_mem_nil, or_false] at hc
  rcases hc with rfl | rfl <;> exact digitChar_isDigit (by omega)

theorem fracText_digits {ds : List Nat} (h : ∀ d ∈ ds, d < 10) : ∀ c ∈ fracText ds, c.isDigit = true := by
  intro c hc
  simp only [fracText, List.mem_map] at hc
  obtain ⟨d, hd, rfl⟩ := hc
  exact digitChar_isDigit (h d hd)

theorem fracPoint_digits : ∀ (ds : List Nat) (k : Nat), ds.length ≤ k → (∀ d ∈ ds, d < 10) →
    digitsVal (fracText ds ++ List.replicate (k - ds.length) '0') = fracPoint (10 ^ (k - 1)) ds
  | [], k, _, _ => by simp [fracText, fracPoint, digitsVal_zeros]
  | d :: ds, k, hk, hd => by
    simp only [List.length_cons] at hk
    have ih := fracPoint_digits ds (k - 1) (by omega) (fun x hx => hd x (by simp [hx]))
    have hlen : (fracText ds ++ List.replicate (k - 1 - ds.length) '0').length = k - 1 := by
      simp [fracText]; omega
    have he : k - (ds.length + 1) = k - 1 - ds.length := by omega
    simp only [fracText, List.map_cons, List.cons_append, List.length_cons, he, digitsVal_cons, fracPoint] at hlen ih ⊢
    rw [hlen, ih, digitVal_digitChar (hd d (by simp))]
    congr 1
    cases ds with
    | nil => rfl
    | cons e es =>
      simp only [List.length_cons] at hk
      have : 10 ^ (k - 1) / 10 = 10 ^ (k - 1 - 1) := by
        have h2 : k - 1 = (k - 1 - 1) + 1 := by omega
        rw [h2, Nat.pow_succ, Nat.mul_div_cancel _ (by decide)]
        simp
      rw [this]

theorem fracMicro_eq {ds : List Nat} (h : ds.length ≤ 6) (hd : ∀ d ∈ ds, d < 10) :
    fracMicro (fracText ds) = fracPoint 100000 ds := by
  have := fracPoint_digits ds 6 h hd
  simpa [fracMicro, fracText] using this

theorem takeWhile_all {p : Char → Bool} {l : List Char} (h : ∀ c ∈ l, p c = true) : l.takeWhile p = l := by
  induction l with
  | nil => rfl
  | cons c l ih => rw [List.takeWhile_cons, if_pos (h c (by simp)), ih (fun d hd => h d (by simp [hd]))]

theorem matchFrac_eq {s : SecondsText} (h : s.Proper) :
    matchFrac (if s.frac = [] then [] else '.' :: fracText s.frac) = s.micro := by
  obtain ⟨_, hl, hd⟩ := h
  split
  · rename_i he; simp [SecondsText.micro, he, fracPoint, matchFrac]
  · have : (fracText s.frac).take 6 = fracText s.frac := List.take_of_length_le (by simpa [fracText] using hl)
    simp only [matchFrac, this, takeWhile_all (fracText_digits hd), fracMicro_eq hl hd, SecondsText.micro]

theorem matchSeconds_eq {s : SecondsText} (h : s.Proper) : matchSeconds s.text = some s.point := by
  have h1 := h.1
  have hd := twoDigits_digits (n := s.sec) (by omega)
  have hv := digitsVal_two (n := s.sec) (by omega)
  simp only [twoDigits, List.mem_cons, List.not_mem_nil, or_false, forall_eq_or_imp, forall_eq] at hd
  simp only [twoDigits] at hv
  simp only [SecondsText.text, twoDigits, List.cons_append, List.nil_append, matchSeconds, hd.1, hd.2, hv, matchFrac_eq h]
  simp only [Bool.and_self, if_true, toMicroseconds, SecondsText.point, Option.some.injEq]
  omega

theorem matchMinutes_eq {m : Nat} {s : SecondsText} (hm : m < 60) (h : s.Proper) :
    matchMinutes (twoDigits m ++ ':' :: s.text) = some (m * 60000000 + s.point) := by
  have hd := twoDigits_digits (n := m) (by omega)
  have hv := digitsVal_two (n := m) (by omega)
  simp only [twoDigits, List.mem_cons, List.not_mem_nil, or_false, forall_eq_or_imp, forall_eq] at hd
  simp only [twoDigits] at hv
  simp only [twoDigits, List.cons_append, List.nil_append, matchMinutes, hd.1, hd.2, hv, matchSeconds_eq h]
  simp only [Bool.and_self, if_true, Option.map, toMicroseconds, Option.some.injEq]
  omega

theorem searchText_head {α : Type} {m : List Char → Option α} {s : List Char} {a : α} (h : m s = some a) :
    searchText m s = some a := by
  cases s with
  | nil => exact h
  | cons c l => simp only [searchText, h]

theorem hourText_eq {m : Nat} {s : SecondsText} (hm : m < 60) (h : s.Proper) :
    hourText (twoDigits m ++ ':' :: s.text) = .ok (m * 60000000 + s.point) := by
  unfold hourText hourText4
  rw [searchText_head (matchMinutes_eq hm h)]
  refine (?_ : (if (4 * ((m : Int) * 60000000 + s.point)) % 4 = 0 then _ else _) = _)
  rw [if_pos (by omega)]
  congr 1
  omega

theorem clockFull_eq {c : ClockText} (h : c.Proper) : clockFull c.text = some c.point := by
  obtain ⟨hh, hm, hs⟩ := h
  obtain ⟨hr, mn, secs⟩ := c
  simp only at hh hm hs
  have hd1 := twoDigits_digits (n := hr) (by omega)
  have hv1 := digitsVal_two (n := hr) (by omega)
  have hd2 := twoDigits_digits (n := mn) (by omega)
  have hv2 := digitsVal_two (n := mn) (by omega)
  simp only [twoDigits, List.mem_cons, List.not_mem_nil, or_false, forall_eq_or_imp, forall_eq] at hd1 hd2
  simp only [twoDigits] at hv1 hv2
  cases secs with
  | none =>
    simp only [ClockText.text, twoDigits, List.cons_append, List.nil_append, List.append_nil, clockFull, hd1.1, hd1.2, hd2.1, hd2.2,
      hv1, hv2, hh, hm, decide_true, Bool.and_self, if_true, ClockText.point, ClockText.sec, ClockText.micro, toMicroseconds,
      Option.some.injEq]
    omega
  | some s =>
    have hp := hs s rfl
    have h1 := hp.1
    have hd3 := twoDigits_digits (n := s.sec) (by omega)
    have hv3 := digitsVal_two (n := s.sec) (by omega)
    simp only [twoDigits, List.mem_cons, List.not_mem_nil, or_false, forall_eq_or_imp, forall_eq] at hd3
    simp only [twoDigits] at hv3
    by_cases hf : s.frac = []
    · simp only [ClockText.text, SecondsText.text, twoDigits, List.cons_append, List.nil_append, List.append_nil, clockFull, hd1.1, hd1.2,
        hd2.1, hd2.2, hv1, hv2, hh, hm, hd3.1, hd3.2, hv3, h1, hf, decide_true, Bool.and_self, if_true, ClockText.point, ClockText.sec,
        ClockText.micro, SecondsText.micro, fracPoint, toMicroseconds, Option.some.injEq]
      omega
    · have hi : isDigits (fracText s.frac) = true := by
        rw [isDigits_iff]
        refine ⟨by simpa [fracText] using hf, fun c hc => (isDigit_iff c).1 (fracText_digits hp.2.2 c hc)⟩
      have hl : (fracText s.frac).length ≤ 6 := by simpa [fracText] using hp.2.1
      simp only [ClockText.text, SecondsText.text, twoDigits, List.cons_append, List.nil_append, clockFull, hd1.1, hd1.2,
        hd2.1, hd2.2, hv1, hv2, hh, hm, hd3.1, hd3.2, hv3, h1, if_neg hf, hi, hl, decide_true, Bool.and_self, if_true, ClockText.point,
        ClockText.sec, ClockText.micro, SecondsText.micro, fracMicro_eq hp.2.1 hp.2.2, toMicroseconds, Option.some.injEq]
      omega

theorem dayText_eq (lib : TextLib) {c : ClockText} (h : c.Proper) : dayText lib c.text = .ok c.point := by
  rw [dayText, clockFull_eq h]

theorem Spec.ClockText.text_ne (c : ClockText) : c.text ≠ [] := by simp [ClockText.text, twoDigits]

/-- The characters of a time of the day. -/
theorem secondsText_chars {s : SecondsText} (h : s.Proper) : ∀ c ∈ s.text, c.isDigit = true ∨ c = '.' := by
  intro c hc
  have h1 := h.1
  simp only [SecondsText.text, List.mem_append] at hc
  rcases hc with hc | hc
  · exact .inl (twoDigits_digits (by omega) c hc)
  · split at hc
    · cases hc
    · rcases List.mem_cons.1 hc with rfl | hc
      · exact .inr rfl
      · exact .inl (fracText_digits h.2.2 c hc)

theorem clockText_chars {k : ClockText} (h : k.Proper) : ∀ c ∈ k.text, c.isDigit = true ∨ c = ':' ∨ c = '.' := by
  intro c hc
  obtain ⟨hh, hm, hs⟩ := h
  simp only [ClockText.text, List.mem_append, List.mem_cons] at hc
  rcases hc with (hc | rfl | hc) | hc
  · exact .inl (twoDigits_digits (by omega) c hc)
  · exact .inr (.inl rfl)
  · exact .inl (twoDigits_digits (by omega) c hc)
  · split at hc
    · cases hc
    · rename_i s he
      rcases List.mem_cons.1 hc with rfl | hc
      · exact .inr (.inl rfl)
      · rcases secondsText_chars (hs s he) c hc with h | h
        · exact .inl h
        · exact .inr (.inr h)

theorem clockTail_chars {k : Option ClockText} (h : ∀ c ∈ k, c.Proper) :
    ∀ c ∈ clockTail k, c.isDigit = true ∨ c = ':' ∨ c = '.' ∨ c = ' ' := by
  intro c hc
  cases k with
  | none => cases hc
  | some k =>
    rcases List.mem_cons.1 hc with rfl | hc
    · simp
    · rcases clockText_chars (h k rfl) c hc with h | h | h <;> simp [h]

theorem restOfLine_eq {l : List Char} (h : '\n' ∉ l) : restOfLine l = l :=
  takeWhile_all (fun c hc => by
    have : c ≠ '\n' := fun e => h (e ▸ hc)
    simpa using this)

theorem isDigit_ne {c d : Char} (h : c.isDigit = true) (hd : d.isDigit = false) : c ≠ d := by
  rintro rfl; rw [h] at hd; cases hd

theorem clockTail_noline {k : Option ClockText} (h : ∀ c ∈ k, c.Proper) : '\n' ∉ clockTail k := by
  intro hc
  rcases clockTail_chars h _ hc with h | h | h | h
  · exact isDigit_ne h (by decide) rfl
  all_goals exact absurd h (by decide)

/-! ### names -/

theorem nameOf_lookup {names : List (List Char)} {m : List (List Char × Int)} {k : Nat} {s : List Char}
    (hn : NameOf names k s)
    (ht : ∀ k : Nat, k < names.length → lookupName m (names[k]?.getD []) = some (k : Int) ∧
      lookupName m ((names[k]?.getD []).take 3) = some (k : Int)) :
    lookupName m (s.map lowerChar) = some (k : Int) := by
  obtain ⟨n, h1, h2⟩ := hn
  obtain ⟨h3, h4⟩ := ht k (List.getElem?_eq_some_iff.1 h1).1
  rw [h1] at h3 h4
  rcases h2 with h2 | h2 <;> rw [h2] <;> assumption

theorem nameOf_letters {names : List (List Char)} {k : Nat} {s : List Char} (hn : NameOf names k s)
    (ht : ∀ n ∈ names, n ≠ [] ∧ ∀ c ∈ n, 'a' ≤ c ∧ c ≤ 'z') : s ≠ [] ∧ ∀ c ∈ s, isLetter c = true := by
  obtain ⟨n, h1, h2⟩ := hn
  obtain ⟨h3, h4⟩ := ht n (List.mem_of_getElem? h1)
  constructor
  · rintro rfl
    rcases h2 with h2 | h2
    · exact h3 h2.symm
    · cases n with
      | nil => exact h3 rfl
      | cons c n => simp at h2
  · intro c hc
    have hm : lowerChar c ∈ s.map lowerChar := List.mem_map_of_mem hc
    have : lowerChar c ∈ n := by
      rcases h2 with h2 | h2
      · exact h2 ▸ hm
      · exact List.mem_of_mem_take (h2 ▸ hm)
    simp only [isLetter, (h4 _ this).1, (h4 _ this).2, decide_true, Bool.and_self]

theorem weekday_lookup {k : Nat} {s : List Char} (h : NameOf weekdayNames k s) :
    lookupName weekdays (s.map lowerChar) = some (k : Int) := by
  exact nameOf_lookup h (by decide +kernel)

theorem monthName_lookup {k : Nat} {s : List Char} (h : NameOf monthLongNames k s) :
    lookupName monthNames (s.map lowerChar) = some (k : Int) := by
  exact nameOf_lookup h (by decide +kernel)

theorem weekday_letters {k : Nat} {s : List Char} (h : NameOf weekdayNames k s) : s ≠ [] ∧ ∀ c ∈ s, isLetter c = true :=
  nameOf_letters h (by decide +kernel)

theorem nameOf_lt {names : List (List Char)} {k : Nat} {s : List Char} (h : NameOf names k s) : k < names.length := by
  obtain ⟨n, h1, _⟩ := h
  exact (List.getElem?_eq_some_iff.1 h1).1

theorem monthName_letters {k : Nat} {s : List Char} (h : NameOf monthLongNames k s) : s ≠ [] ∧ ∀ c ∈ s, isLetter c = true :=
  nameOf_letters h (by decide +kernel)

theorem takeWhile_append_stop {p : Char → Bool} {a b : List Char} (ha : ∀ c ∈ a, p c = true) (hb : ∀ c ∈ b.head?, p c = false) :
    (a ++ b).takeWhile p = a ∧ (a ++ b).dropWhile p = b := by
  induction a with
  | nil =>
    cases b with
    | nil => exact ⟨rfl, rfl⟩
    | cons c b => simp [hb c (by simp)]
  | cons c a ih =>
    obtain ⟨h1, h2⟩ := ih (fun d hd => ha d (by simp [hd]))
    simp only [List.cons_append, List.takeWhile_cons, List.dropWhile_cons, ha c (by simp), if_true, h1, h2, and_self]

theorem wordAndRest_eq {name tail : List Char} (hne : name ≠ []) (hl : ∀ c ∈ name, isLetter c = true)
    (ht : tail = [] ∨ ∃ r, tail = ' ' :: r) (hn : '\n' ∉ tail) : wordAndRest (name ++ tail) = some (name, tail.drop 1) := by
  have hd : (name ++ tail).dropWhile (fun c => !isLetter c) = name ++ tail := by
    cases name with
    | nil => exact absurd rfl hne
    | cons c n => simp [hl c (by simp)]
  obtain ⟨h1, h2⟩ := takeWhile_append_stop (p := isLetter) (b := tail) hl (by
    rcases ht with rfl | ⟨r, rfl⟩
    · simp
    · simp only [List.head?_cons, Option.mem_some_iff, forall_eq']; decide)
  have hne' : name ++ tail ≠ [] := by simp [hne]
  unfold wordAndRest
  simp only [hd, h1, h2, if_neg hne']
  rcases ht with rfl | ⟨r, rfl⟩
  · simp [optSpace, restOfLine]
  · simp only [List.mem_cons, not_or] at hn
    simp only [optSpace, List.drop_succ_cons, List.drop_zero, restOfLine_eq hn.2]

theorem clockTail_shape (k : Option ClockText) : clockTail k = [] ∨ ∃ r, clockTail k = ' ' :: r := by
  cases k with
  | none => exact .inl rfl
  | some k => exact .inr ⟨_, rfl⟩

theorem weekText_eq (lib : TextLib) {k : Nat} {name : List Char} {c : Option ClockText} (hn : NameOf weekdayNames k name)
    (hc : ∀ c' ∈ c, c'.Proper) : weekText lib (name ++ clockTail c) = .ok (.named k (c.map ClockText.point)) := by
  obtain ⟨h1, h2⟩ := weekday_letters hn
  unfold weekText
  rw [wordAndRest_eq h1 h2 (clockTail_shape c) (clockTail_noline hc)]
  simp only [weekday_lookup hn]
  cases c with
  | none => rfl
  | some c =>
    simp only [clockTail, List.drop_succ_cons, List.drop_zero, if_neg c.text_ne, dayText_eq lib (hc c rfl)]
    rfl

theorem showNat_isDigit (n : Nat) : ∀ c ∈ showNat n, c.isDigit = true :=
  fun c hc => (isDigit_iff c).2 (showNat_digits n c hc)

theorem lowerChar_alpha {c : Char} {a : Char} (h : lowerChar c = a) (ha : 'a' ≤ a ∧ a ≤ 'z') : c.isDigit = false ∧ c ≠ '.' ∧ c ≠ ' ' ∧ c ≠ '\n' := by
  have : ∀ d : Char, (d.isDigit = true ∨ d = '.' ∨ d = ' ' ∨ d = '\n') → ¬ ('a' ≤ lowerChar d ∧ lowerChar d ≤ 'z') := by
    intro d hd
    have hv : d.toNat < 65 := by
      rcases hd with hd | rfl | rfl | rfl
      · have h2 := ((isDigit_iff d).1 hd).2
        have : d.toNat ≤ '9'.toNat := h2
        have h9 : '9'.toNat = 57 := rfl
        omega
      all_goals decide
    have hl : lowerChar d = d := by
      unfold lowerChar
      rw [if_neg]
      rintro ⟨h1, _⟩
      have : 'A'.toNat ≤ d.toNat := h1
      have hA : 'A'.toNat = 65 := rfl
      omega
    rw [hl]
    rintro ⟨h1, _⟩
    have : 'a'.toNat ≤ d.toNat := h1
    have hA : 'a'.toNat = 97 := rfl
    omega
  have hno := fun hd => this c hd (h ▸ ha)
  refine ⟨?_, fun e => hno (.inr (.inl e)), fun e => hno (.inr (.inr (.inl e))), fun e => hno (.inr (.inr (.inr e)))⟩
  cases hc : c.isDigit with
  | false => rfl
  | true => exact absurd (.inl hc) hno

/-- The ordinal endings. -/
theorem ord_cases {o : List Char} (h : o.map lowerChar ∈ [[], c!"st", c!"nd", c!"rd", c!"th", c!"."]) :
    o = [] ∨ o = ['.'] ∨ ∃ a b, o = [a, b] ∧ [lowerChar a, lowerChar b] ∈ [c!"st", c!"nd", c!"rd", c!"th"] := by
  match o, h with
  | [], _ => exact .inl rfl
  | [a], h =>
    right; left
    have : lowerChar a = '.' := by simpa using h
    unfold lowerChar at this
    split at this
    · rename_i hr
      exfalso
      have h1 : 65 ≤ a.toNat := hr.1
      have h2 : a.toNat ≤ 90 := hr.2
      have hv : ∀ n < 91, 65 ≤ n → Char.ofNat (n + 32) ≠ '.' := by decide
      exact hv a.toNat (by omega) h1 this
    · rw [this]
  | [a, b], h => right; right; exact ⟨a, b, rfl, by simpa using h⟩
  | a :: b :: c :: l, h => simp at h

theorem ord_stop {o : List Char} {t : List Char} (h : o.map lowerChar ∈ [[], c!"st", c!"nd", c!"rd", c!"th", c!"."])
    (ht : t = [] ∨ ∃ r, t = ' ' :: r) : (∀ c ∈ (o ++ t).head?, c.isDigit = false) ∧ optOrdinal (o ++ t) = t := by
  have hstart : ∀ c ∈ t.head?, c.isDigit = false := by
    rcases ht with rfl | ⟨r, rfl⟩
    · simp
    · simp only [List.head?_cons, Option.mem_some_iff, forall_eq']; decide
  rcases ord_cases h with rfl | rfl | ⟨a, b, rfl, hab⟩
  · refine ⟨hstart, ?_⟩
    rcases ht with rfl | ⟨r, rfl⟩
    · rfl
    · unfold optOrdinal
      rw [List.nil_append, if_neg, if_neg (by simp)]
      have : lowerChar ' ' = ' ' := by decide
      cases r <;> simp [this]
  · refine ⟨by simp only [List.cons_append, List.head?_cons, Option.mem_some_iff, forall_eq']; decide, ?_⟩
    unfold optOrdinal
    rw [if_neg, if_pos (by rfl)]
    · rfl
    · have : lowerChar '.' = '.' := by decide
      cases t <;> simp [this]
  · have hla : lowerChar a ∈ ['s', 'n', 'r', 't'] := by
      simp only [List.mem_cons, List.cons.injEq, List.not_mem_nil, or_false] at hab ⊢
      rcases hab with h | h | h | h <;> simp [h.1]
    have hal : 'a' ≤ lowerChar a ∧ lowerChar a ≤ 'z' := by
      simp only [List.mem_cons, List.not_mem_nil, or_false] at hla
      rcases hla with h | h | h | h <;> rw [h] <;> decide
    have hdig := lowerChar_alpha rfl hal
    refine ⟨by simpa using hdig.1, ?_⟩
    unfold optOrdinal
    rw [if_pos (by simpa using hab)]
    rfl

theorem monthText_eq (lib : TextLib) {d : DayText} (h : d.Proper) :
    monthText lib d.text = .ok (.named ((d.num : Int) - 1) (d.clock.map ClockText.point)) := by
  obtain ⟨h1, h2, ho, hc⟩ := h
  obtain ⟨hstop, hopt⟩ := ord_stop ho (clockTail_shape d.clock)
  have hne : showNat d.num ≠ [] := showNat_ne_nil _
  have hdrop : d.text.dropWhile (fun c => !c.isDigit) = d.text := by
    unfold DayText.text
    cases hs : showNat d.num with
    | nil => exact absurd hs hne
    | cons c n => simp [showNat_isDigit d.num c (by simp [hs])]
  obtain ⟨ht, hd⟩ := takeWhile_append_stop (p := Char.isDigit) (a := showNat d.num) (b := d.ord ++ clockTail d.clock)
    (showNat_isDigit _) hstop
  rw [← List.append_assoc] at ht hd
  have hne' : d.text ≠ [] := by simp [DayText.text, hne]
  have ht' : d.text.takeWhile Char.isDigit = showNat d.num := ht
  have hd' : d.text.dropWhile Char.isDigit = d.ord ++ clockTail d.clock := hd
  unfold monthText
  simp only [hdrop, if_neg hne', ht', hd', hopt, digitsVal_showNat]
  cases hcl : d.clock with
  | none => rfl
  | some c =>
    have hp := hc c hcl
    have hnl := clockTail_noline (k := some c) (by simpa using hp)
    simp only [clockTail, List.mem_cons, not_or] at hnl
    simp only [clockTail, optSpace, restOfLine_eq hnl.2, if_neg c.text_ne, dayText_eq lib hp]
    rfl

theorem Spec.DayText.text_ne (d : DayText) : d.text ≠ [] := by simp [DayText.text, showNat_ne_nil]

theorem dayText_noline {d : DayText} (h : d.Proper) : '\n' ∉ d.text := by
  obtain ⟨h1, h2, ho, hc⟩ := h
  simp only [DayText.text, List.mem_append, not_or]
  refine ⟨⟨fun hm => isDigit_ne (showNat_isDigit _ _ hm) (by decide) rfl, ?_⟩, clockTail_noline hc⟩
  intro hm
  have : lowerChar '\n' ∈ d.ord.map lowerChar := List.mem_map_of_mem hm
  have hl : lowerChar '\n' = '\n' := by decide
  rw [hl] at this
  simp only [List.mem_cons, List.not_mem_nil, or_false] at ho
  rcases ho with h | h | h | h | h | h <;> rw [h] at this <;> revert this <;> decide

theorem yearText_eq (lib : TextLib) {k : Nat} {name : List Char} {d : Option DayText} (hn : NameOf monthLongNames k name)
    (hc : ∀ d' ∈ d, d'.Proper) : yearText lib (TimeText.year k name d).text =
      .ok (.named k (d.map (fun d => DAY * ((d.num : Int) - 1) + TimeText.clockOf d.clock))) := by
  obtain ⟨h1, h2⟩ := monthName_letters hn
  unfold yearText
  have hw : wordAndRest (TimeText.year k name d).text = some (name, (match d with
      | none => []
      | some d => ' ' :: d.text).drop 1) := by
    refine wordAndRest_eq h1 h2 ?_ ?_
    · cases d with
      | none => exact .inl rfl
      | some d => exact .inr ⟨_, rfl⟩
    · cases d with
      | none => simp
      | some d => simpa using dayText_noline (hc d rfl)
  rw [hw]
  simp only [monthName_lookup hn]
  cases d with
  | none => rfl
  | some d =>
    simp only [List.drop_succ_cons, List.drop_zero, if_neg d.text_ne, monthText_eq lib (hc d rfl)]
    cases hcl : d.clock <;> simp [TimeText.clockOf, hcl]

end Rocketry
