/-!
# Texts

Strings are lists of characters.  Splitting and reading numbers as Python does for ASCII texts, with the facts
needed to read back what was written.
-/

namespace Rocketry

/-- `text.split(sep)` for a one-character separator. -/
def splitChar (sep : Char) : List Char → List (List Char)
  | [] => [[]]
  | c :: l =>
    if c = sep then [] :: splitChar sep l
    else
      match splitChar sep l with
      | [] => [[c]]
      | w :: ws => (c :: w) :: ws

/-- value of a decimal digit -/
def digitVal (c : Char) : Nat := c.toNat - '0'.toNat

/-- `int(text)` for a text of digits. -/
def digitsVal (l : List Char) : Nat := l.foldl (fun n c => n * 10 + digitVal c) 0

/-- `text.isdigit()` (ASCII digits; Python also accepts other Unicode digits). -/
def isDigits (l : List Char) : Bool := !l.isEmpty && l.all (fun c => decide ('0' ≤ c) && decide (c ≤ '9'))

/-- ASCII `lower()`. -/
def lowerChar (c : Char) : Char := if 'A' ≤ c ∧ c ≤ 'Z' then Char.ofNat (c.toNat + 32) else c

/-- `str(n)` for a natural number. -/
def showNat (n : Nat) : List Char := Nat.toDigits 10 n

/-- `sep.join(words)` -/
def joinWith (sep : List Char) : List (List Char) → List Char
  | [] => []
  | [w] => w
  | w :: v :: ws => w ++ sep ++ joinWith sep (v :: ws)

theorem splitChar_no {sep : Char} : ∀ {w : List Char}, sep ∉ w → splitChar sep w = [w]
  | [], _ => rfl
  | c :: w, h => by
    simp only [List.mem_cons, not_or] at h
    simp only [splitChar, if_neg (Ne.symm h.1), splitChar_no h.2]

theorem splitChar_cons {sep : Char} : ∀ {w : List Char} (rest : List Char), sep ∉ w →
    splitChar sep (w ++ sep :: rest) = w :: splitChar sep rest
  | [], rest, _ => by simp [splitChar]
  | c :: w, rest, h => by
    simp only [List.mem_cons, not_or] at h
    simp only [List.cons_append, splitChar, if_neg (Ne.symm h.1), splitChar_cons rest h.2]

/-- Splitting at a separator undoes joining with it. -/
theorem splitChar_join {sep : Char} : ∀ {ws : List (List Char)}, ws ≠ [] → (∀ w ∈ ws, sep ∉ w) →
    splitChar sep (joinWith [sep] ws) = ws
  | [], h, _ => absurd rfl h
  | [w], _, h => by simp only [joinWith]; exact splitChar_no (h w (by simp))
  | w :: v :: ws, _, h => by
    have ih := splitChar_join (ws := v :: ws) (by simp) (fun x hx => h x (by simp [hx]))
    simp only [joinWith, List.append_assoc, List.singleton_append]
    rw [splitChar_cons _ (h w (by simp)), ih]

theorem isDigit_iff (c : Char) : c.isDigit = true ↔ '0' ≤ c ∧ c ≤ '9' := by
  simp only [Char.isDigit, Bool.and_eq_true, decide_eq_true_eq, ge_iff_le]
  exact Iff.rfl

theorem showNat_digits (n : Nat) : ∀ c ∈ showNat n, '0' ≤ c ∧ c ≤ '9' := by
  intro c hc
  rw [← isDigit_iff]
  exact Nat.isDigit_of_mem_toDigits (by decide) (by decide) hc

theorem showNat_ne_nil (n : Nat) : showNat n ≠ [] := Nat.toDigits_ne_nil

theorem isDigits_iff {l : List Char} : isDigits l = true ↔ l ≠ [] ∧ ∀ c ∈ l, '0' ≤ c ∧ c ≤ '9' := by
  cases l <;> simp [isDigits]

theorem isDigits_showNat (n : Nat) : isDigits (showNat n) = true :=
  isDigits_iff.2 ⟨showNat_ne_nil n, showNat_digits n⟩

theorem digitsVal_eq (l : List Char) : digitsVal l = Nat.ofDigitChars 10 l 0 := by
  rw [Nat.ofDigitChars_eq_foldl]
  unfold digitsVal digitVal
  congr 1
  funext n c
  rw [Nat.mul_comm]

theorem digitsVal_showNat (n : Nat) : digitsVal (showNat n) = n := by
  rw [digitsVal_eq]; exact Nat.ofDigitChars_ten_toDigits

end Rocketry
