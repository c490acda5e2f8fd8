import Verif.Time.Interval

/-!
# C01: intersecting two time spans keeps exactly the shared instants

Specification: `InSpan i x` says, from the textbook meaning of the four kinds of intervals, that the
instant `x` lies in the span.
-/

namespace Rocketry.Props
open Rocketry

/-- Spec: textbook membership, lower bound and upper bound stated separately. -/
def InSpan (i : Interval) (x : Int) : Prop :=
  (i.left < x ∨ (x = i.left ∧ (i.closed = .left ∨ i.closed = .both))) ∧
  (x < i.right ∨ (x = i.right ∧ (i.closed = .right ∨ i.closed = .both)))

/-- A span that can exist: the constructor rejects `left > right`. -/
def Constructible (i : Interval) : Prop := Interval.make i.left i.right i.closed = .ok i

theorem constructible_iff (i : Interval) : Constructible i ↔ i.left ≤ i.right := by
  unfold Constructible Interval.make
  split
  · simp; omega
  · simp; omega

/-- C01a: `x in i` is textbook membership, for every interval and instant. -/
theorem C01_contains (i : Interval) (x : Int) : i.contains x = true ↔ InSpan i x := by
  rcases i with ⟨l, r, c⟩
  cases c <;> simp [Interval.contains, InSpan] <;> omega

example : Interval.contains ⟨10, 20, .right⟩ 20 = true ∧ Interval.contains ⟨10, 20, .left⟩ 20 = false :=
  by decide

/-- C01b: when `a & b` returns, it contains exactly the instants in both. -/
theorem C01_and_mem (a b c : Interval) (h : a.and b = .ok c) (x : Int) :
    c.contains x = true ↔ (InSpan a x ∧ InSpan b x) := by
  rcases a with ⟨al, ar, ac⟩
  rcases b with ⟨bl, br, bc⟩
  by_cases h1 : bl < al <;> by_cases h1' : al < bl <;>
  by_cases h2 : ar < br <;> by_cases h2' : br < ar <;>
  cases ac <;> cases bc <;>
    simp [Interval.and, Interval.make_ok, Closed.incLeft, Closed.incRight, h1, h1', h2, h2'] at h <;>
    (obtain ⟨h3, rfl⟩ := h; simp [Interval.contains, InSpan]; omega)

/-- Non-vacuity: `[10,20) & [15,30]` succeeds and contains 15. -/
example : (Interval.and ⟨10, 20, .left⟩ ⟨15, 30, .both⟩) = .ok ⟨15, 20, .left⟩ := rfl
example : Interval.contains ⟨15, 20, .left⟩ 15 = true := by decide

/-- C01c: `a & b` raises only if no instant is shared. -/
theorem C01_and_raises (a b : Interval) (e : PyErr) (h : a.and b = .error e) (x : Int) :
    ¬ (InSpan a x ∧ InSpan b x) := by
  rcases a with ⟨al, ar, ac⟩
  rcases b with ⟨bl, br, bc⟩
  rintro ⟨ha, hb⟩
  unfold InSpan at ha hb
  simp only [] at ha hb
  by_cases h1 : bl < al <;> by_cases h1' : al < bl <;>
  by_cases h2 : ar < br <;> by_cases h2' : br < ar <;>
    simp [Interval.and, Interval.make_error, h1, h1', h2, h2'] at h <;> omega

example : (Interval.and ⟨10, 20, .left⟩ ⟨25, 30, .both⟩) = .error .value := rfl

/-- C01d: `overlaps` is never False for spans that share an instant. -/
theorem C01_overlaps_complete (a b : Interval) (x : Int)
    (ha : InSpan a x) (hb : InSpan b x) : a.overlaps b = true := by
  rcases a with ⟨al, ar, ac⟩
  rcases b with ⟨bl, br, bc⟩
  unfold InSpan at ha hb
  simp only [] at ha hb
  unfold Interval.overlaps
  simp only []
  cases ac <;> cases bc <;> simp at ha hb ⊢ <;> omega

example : InSpan ⟨10, 20, .left⟩ 15 ∧ InSpan ⟨15, 30, .both⟩ 15 := by
  constructor <;> unfold InSpan <;> simp

/-- C01e: `overlaps` is symmetric on constructible spans. -/
theorem C01_overlaps_symm (a b : Interval) : a.overlaps b = b.overlaps a := by
  rcases a with ⟨al, ar, ac⟩
  rcases b with ⟨bl, br, bc⟩
  unfold Interval.overlaps
  simp only []
  rw [Bool.eq_iff_iff]
  cases ac <;> cases bc <;> simp <;> omega

/-- C01f: for non-empty half-open spans (the only ones rolling forward produces), `overlaps` is True
exactly if some instant is shared. -/
theorem C01_overlaps_iff (a b : Interval) (hac : a.closed = .left) (hbc : b.closed = .left)
    (ha : a.left < a.right) (hb : b.left < b.right) :
    a.overlaps b = true ↔ ∃ x, InSpan a x ∧ InSpan b x := by
  constructor
  · intro h
    rcases a with ⟨al, ar, ac⟩
    rcases b with ⟨bl, br, bc⟩
    simp only [] at hac hbc ha hb
    subst hac hbc
    unfold Interval.overlaps at h
    simp at h
    refine ⟨max al bl, ?_, ?_⟩ <;> unfold InSpan <;> simp only [] <;> simp <;> omega
  · rintro ⟨x, h1, h2⟩
    exact C01_overlaps_complete a b x h1 h2

example : (⟨10, 20, .left⟩ : Interval).overlaps ⟨15, 30, .left⟩ = true := by decide

/-- C01g (limit of the claim): for an empty span strictly inside another, `overlaps` answers True although no
instant is shared; this is why C01f asks for non-empty spans. -/
theorem C01_overlaps_empty_violated :
    ∃ a b : Interval, Constructible a ∧ Constructible b ∧ a.overlaps b = true ∧
      ¬ ∃ x, InSpan a x ∧ InSpan b x := by
  refine ⟨⟨1, 3, .left⟩, ⟨2, 2, .left⟩, rfl, rfl, by decide, ?_⟩
  rintro ⟨x, _, hb⟩
  unfold InSpan at hb
  simp at hb
  omega

/-- C01h: `is_empty` for half-open spans means that no instant is in it; the same for closed spans. -/
theorem C01_isEmpty (i : Interval) (hc : i.closed ≠ .neither) :
    i.isEmpty = true ↔ ∀ x, i.contains x = false := by
  rcases i with ⟨l, r, c⟩
  cases c
  · simp only [Interval.isEmpty, Interval.contains]
    constructor
    · intro h x; simp at h ⊢; omega
    · intro h; have := h l; simp at this ⊢; omega
  · simp only [Interval.isEmpty, Interval.contains]
    constructor
    · intro h x; simp at h ⊢; omega
    · intro h; have := h r; simp at this ⊢; omega
  · simp only [Interval.isEmpty, Interval.contains]
    constructor
    · intro h x; simp at h ⊢; omega
    · intro h; have := h r; simp at this ⊢; omega
  · exact absurd rfl hc

example : Interval.isEmpty ⟨5, 5, .left⟩ = true ∧ Interval.isEmpty ⟨5, 5, .both⟩ = false := by decide

end Rocketry.Props
