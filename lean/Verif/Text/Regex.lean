import Verif.Base.Text

/-!
# Model of the regular expressions of the condition and time parsers

Only the constructs used in `rocketry/parse/_setup_cond_parsers.py` and `rocketry/time/__init__.py`: plain text,
`(?P<name>.+)`, `(?P<name>a|b|c)`, `(?P<name>[0-9]+)` and `(text)?`.  `fullmatch` is Python's backtracking search: the
result is the first match in the order in which the alternatives are tried.
-/

namespace Rocketry

/-- The parts of a pattern. -/
inductive Rx where
  /-- plain text -/
  | lit (q : List Char)
  /-- `(?P<name>.+)` -/
  | any (name : String)
  /-- `(?P<name>a|b|c)` -/
  | alt (name : String) (opts : List (List Char))
  /-- `(?P<name>[0-9]+)` -/
  | digits (name : String)
  /-- `(text)?` -/
  | opt (q : List Char)
  deriving DecidableEq, Repr

abbrev Pat := List Rx

/-- The named groups of a match, `Match.groupdict()`. -/
abbrev Groups := List (String × List Char)

/-- The rest of the text after the prefix `q`. -/
def stripPrefix : List Char → List Char → Option (List Char)
  | [], s => some s
  | _ :: _, [] => none
  | c :: q, d :: s => if c = d then stripPrefix q s else none

/-- `x+` for a class of characters, greedy: the longest run after which the rest of the pattern matches. -/
def greedy {β : Type} (ok : Char → Bool) (k : List Char → Option β) : List Char → Option (List Char × β)
  | [] => none
  | c :: s =>
    if ok c then
      match greedy ok k s with
      | some (w, g) => some (c :: w, g)
      | none => (k s).map (fun g => ([c], g))
    else none

/-- The characters matched by `.` -/
def notNewline (c : Char) : Bool := c != '\n'

/-- `[0-9]` -/
def isNum (c : Char) : Bool := decide ('0' ≤ c) && decide (c ≤ '9')

/-- `pattern.fullmatch(text)` with the named groups. -/
def fullmatch : Pat → List Char → Option Groups
  | [], s => if s.isEmpty then some [] else none
  | .lit q :: p, s => (stripPrefix q s).bind (fullmatch p)
  | .any n :: p, s => (greedy notNewline (fullmatch p) s).map (fun wg => (n, wg.1) :: wg.2)
  | .alt n opts :: p, s =>
    opts.findSome? (fun o => ((stripPrefix o s).bind (fullmatch p)).map (fun g => (n, o) :: g))
  | .digits n :: p, s => (greedy isNum (fullmatch p) s).map (fun wg => (n, wg.1) :: wg.2)
  | .opt q :: p, s =>
    match (stripPrefix q s).bind (fullmatch p) with
    | some g => some g
    | none => fullmatch p s

theorem stripPrefix_eq {q : List Char} : ∀ {s r : List Char}, stripPrefix q s = some r → s = q ++ r := by
  induction q with
  | nil => intro s r h; simpa [stripPrefix] using h
  | cons c q ih =>
    intro s r h
    cases s with
    | nil => simp [stripPrefix] at h
    | cons d s =>
      rw [stripPrefix] at h
      by_cases hc : c = d
      · rw [if_pos hc] at h; rw [ih h, hc]; rfl
      · rw [if_neg hc] at h; cases h

theorem stripPrefix_append (q r : List Char) : stripPrefix q (q ++ r) = some r := by
  induction q with
  | nil => rfl
  | cons c q ih => simp [stripPrefix, ih]

theorem greedy_sound {β : Type} {ok : Char → Bool} {k : List Char → Option β} :
    ∀ {s w : List Char} {g : β}, greedy ok k s = some (w, g) →
      ∃ r, s = w ++ r ∧ w ≠ [] ∧ (∀ c ∈ w, ok c = true) ∧ k r = some g := by
  intro s
  induction s with
  | nil => intro w g h; cases h
  | cons c s ih =>
    intro w g h
    rw [greedy] at h
    by_cases hc : ok c = true
    · rw [if_pos hc] at h
      cases hg : greedy ok k s with
      | some x =>
        obtain ⟨w', g'⟩ := x
        rw [hg] at h
        simp only [Option.some.injEq, Prod.mk.injEq] at h
        obtain ⟨r, h1, _, h3, h4⟩ := ih hg
        refine ⟨r, ?_, ?_, ?_, ?_⟩
        · rw [← h.1, h1]; rfl
        · rw [← h.1]; simp
        · rw [← h.1]; intro d hd
          rcases List.mem_cons.1 hd with rfl | hd
          · exact hc
          · exact h3 d hd
        · rw [← h.2]; exact h4
      | none =>
        rw [hg] at h
        simp only [Option.map_eq_some_iff, Prod.mk.injEq] at h
        obtain ⟨g', h1, h2, h3⟩ := h
        refine ⟨s, ?_, ?_, ?_, ?_⟩
        · rw [← h2]; rfl
        · rw [← h2]; simp
        · rw [← h2]; intro d hd
          rw [List.mem_singleton.1 hd]; exact hc
        · rw [← h3]; exact h1
    · rw [if_neg hc] at h; cases h

/-- No split works: no match. -/
theorem greedy_none {β : Type} {ok : Char → Bool} {k : List Char → Option β} {s : List Char}
    (h : ∀ w r, s = w ++ r → w ≠ [] → k r = none) : greedy ok k s = none := by
  cases hg : greedy ok k s with
  | none => rfl
  | some x =>
    obtain ⟨w, g⟩ := x
    obtain ⟨r, h1, h2, _, h4⟩ := greedy_sound hg
    rw [h w r h1 h2] at h4
    cases h4

/-- The split `w ++ r` is taken when it works and no longer one does. -/
theorem greedy_eq {β : Type} {ok : Char → Bool} {k : List Char → Option β} :
    ∀ {w r : List Char} {g : β}, w ≠ [] → (∀ c ∈ w, ok c = true) → k r = some g →
      (∀ u v, u ≠ [] → (∀ c ∈ u, ok c = true) → r = u ++ v → k v = none) → greedy ok k (w ++ r) = some (w, g) := by
  intro w
  induction w with
  | nil => intro r g h; exact absurd rfl h
  | cons c w ih =>
    intro r g _ hok hk hno
    rw [List.cons_append, greedy, if_pos (hok c (by simp))]
    cases w with
    | nil =>
      have hg : greedy ok k ([] ++ r) = none := by
        cases hg : greedy ok k ([] ++ r) with
        | none => rfl
        | some x =>
          obtain ⟨w', g'⟩ := x
          obtain ⟨r', h1, h2, h3, h4⟩ := greedy_sound hg
          rw [hno w' r' h2 h3 h1] at h4
          cases h4
      rw [hg]
      simp [hk]
    | cons d w =>
      rw [ih (by simp) (fun x hx => hok x (by simp [hx])) hk hno]

end Rocketry
