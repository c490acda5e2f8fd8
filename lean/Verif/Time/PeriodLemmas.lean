import Verif.Time.Period
import Verif.Props.IntervalProps
import Mathlib.Tactic.ByContra

/-! # Helper lemmas for compound periods -/

namespace Rocketry
open Props

theorem Period.induct {P : Period → Prop} (hanch : ∀ a, P (.anchored a)) (hstat : ∀ s e, P (.static s e))
    (halw : P .always) (hdel : ∀ a b, P (.delta a b)) (hspan : ∀ a b, P (.span a b))
    (hrel : ∀ a b c, P (.relday a b c))
    (hall : ∀ ps, (∀ p ∈ ps, P p) → P (.all ps)) (hany : ∀ ps, (∀ p ∈ ps, P p) → P (.any ps)) :
    ∀ p, P p
  | .anchored a => hanch a
  | .static s e => hstat s e
  | .always => halw
  | .delta a b => hdel a b
  | .span a b => hspan a b
  | .relday a b c => hrel a b c
  | .all ps => hall ps (fun p _ => Period.induct hanch hstat halw hdel hspan hrel hall hany p)
  | .any ps => hany ps (fun p _ => Period.induct hanch hstat halw hdel hspan hrel hall hany p)
termination_by p => sizeOf p
decreasing_by
  all_goals
    rename_i h
    have := List.sizeOf_lt_of_mem h
    simp only [Period.all.sizeOf_spec, Period.any.sizeOf_spec]
    omega

/-! ### `mapE` -/

section
variable {α β : Type} {f : α → Except PyErr β}

theorem mapE_ok : ∀ {l : List α} {bs : List β}, mapE f l = .ok bs →
    (∀ a ∈ l, ∃ b ∈ bs, f a = .ok b) ∧ (∀ b ∈ bs, ∃ a ∈ l, f a = .ok b) ∧ (bs = [] → l = [])
  | [], bs, h => by simp only [mapE, Except.ok.injEq] at h; subst h; simp
  | a :: l, bs, h => by
    simp only [mapE] at h
    cases ha : f a with
    | error e => simp [ha] at h
    | ok b =>
      cases hl : mapE f l with
      | error e => simp [ha, hl] at h
      | ok bs' =>
        simp only [ha, hl, Except.ok.injEq] at h
        subst h
        have ih := mapE_ok hl
        refine ⟨?_, ?_, by simp⟩
        · intro x hx
          rcases List.mem_cons.1 hx with rfl | hx
          · exact ⟨b, by simp, ha⟩
          · obtain ⟨y, hy, hy'⟩ := ih.1 x hx
            exact ⟨y, by simp [hy], hy'⟩
        · intro y hy
          rcases List.mem_cons.1 hy with rfl | hy
          · exact ⟨a, by simp, ha⟩
          · obtain ⟨x, hx, hx'⟩ := ih.2.1 y hy
            exact ⟨x, by simp [hx], hx'⟩

theorem mapE_total : ∀ {l : List α}, (∀ a ∈ l, ∃ b, f a = .ok b) → ∃ bs, mapE f l = .ok bs
  | [], _ => ⟨[], rfl⟩
  | a :: l, h => by
    obtain ⟨b, hb⟩ := h a (by simp)
    obtain ⟨bs, hbs⟩ := mapE_total (l := l) (fun x hx => h x (by simp [hx]))
    exact ⟨b :: bs, by simp [mapE, hb, hbs]⟩

theorem mapE_error : ∀ {l : List α} {e : PyErr}, mapE f l = .error e → ∃ a ∈ l, f a = .error e
  | [], e, h => by simp [mapE] at h
  | a :: l, e, h => by
    simp only [mapE] at h
    cases ha : f a with
    | error e' => simp only [ha, Except.error.injEq] at h; subst h; exact ⟨a, by simp, ha⟩
    | ok b =>
      cases hl : mapE f l with
      | error e' =>
        simp only [ha, hl, Except.error.injEq] at h
        subst h
        obtain ⟨x, hx, hx'⟩ := mapE_error hl
        exact ⟨x, by simp [hx], hx'⟩
      | ok bs' => simp [ha, hl] at h

theorem mapE_congr_ok {g : α → Except PyErr β} : ∀ {l : List α} {bs : List β}, mapE f l = .ok bs →
    (∀ a ∈ l, ∀ b, f a = .ok b → g a = .ok b) → mapE g l = .ok bs
  | [], bs, h, _ => by simpa [mapE] using h
  | a :: l, bs, h, hg => by
    simp only [mapE] at h
    cases ha : f a with
    | error e => simp [ha] at h
    | ok b =>
      cases hl : mapE f l with
      | error e => simp [ha, hl] at h
      | ok bs' =>
        simp only [ha, hl, Except.ok.injEq] at h
        subst h
        have := mapE_congr_ok hl (fun x hx => hg x (by simp [hx]))
        simp [mapE, hg a (by simp) b ha, this]
end

/-! ### intersections of left-closed intervals -/

theorem and_left {a b : Interval} (ha : a.closed = .left) (hb : b.closed = .left) :
    a.and b = Interval.make (max a.left b.left) (min a.right b.right) .left := by
  rcases a with ⟨al, ar, ac⟩
  rcases b with ⟨bl, br, bc⟩
  simp only at ha hb
  subst ha hb
  unfold Interval.and
  simp only [Closed.incLeft, Closed.incRight]
  by_cases h1 : bl < al <;> by_cases h1' : al < bl <;> by_cases h2 : ar < br <;> by_cases h2' : br < ar <;>
    simp only [gt_iff_lt, h1, h1', h2, h2', if_true, if_false, Bool.and_self, Bool.true_and,
      Bool.false_eq_true] <;> congr 1 <;> omega

theorem reduceFrom_left : ∀ {l : List Interval} {a c : Interval}, (∀ i ∈ a :: l, i.closed = .left) →
    reduceFrom a l = .ok c →
    c.closed = .left ∧ (∀ i ∈ a :: l, i.left ≤ c.left ∧ c.right ≤ i.right) ∧
      (∃ i ∈ a :: l, c.left = i.left) ∧ (∃ i ∈ a :: l, c.right = i.right)
  | [], a, c, hc, h => by
    simp only [reduceFrom, Except.ok.injEq] at h
    subst h
    simp at hc
    simp [hc]
  | b :: l, a, c, hc, h => by
    simp only [reduceFrom] at h
    have hca := hc a (by simp)
    have hcb := hc b (by simp)
    cases hab : a.and b with
    | error e => simp [hab] at h
    | ok d =>
      simp only [hab] at h
      rw [and_left hca hcb, Interval.make_ok] at hab
      obtain ⟨hle, rfl⟩ := hab
      have ih := reduceFrom_left (by
        intro i hi
        rcases List.mem_cons.1 hi with rfl | hi
        · rfl
        · exact hc i (by simp [hi])) h
      obtain ⟨i1, i2, ⟨x, hx, hx'⟩, ⟨y, hy, hy'⟩⟩ := ih
      have hd := i2 _ (List.mem_cons_self)
      simp only at hd
      refine ⟨i1, ?_, ?_, ?_⟩
      · intro i hi
        rcases List.mem_cons.1 hi with rfl | hi
        · omega
        · rcases List.mem_cons.1 hi with rfl | hi
          · omega
          · exact i2 i (by simp [hi])
      · rcases List.mem_cons.1 hx with rfl | hx
        · simp only at hx'
          by_cases h : a.left ≤ b.left
          · exact ⟨b, by simp, by omega⟩
          · exact ⟨a, by simp, by omega⟩
        · exact ⟨x, by simp [hx], hx'⟩
      · rcases List.mem_cons.1 hy with rfl | hy
        · simp only at hy'
          by_cases h : a.right ≤ b.right
          · exact ⟨a, by simp, by omega⟩
          · exact ⟨b, by simp, by omega⟩
        · exact ⟨y, by simp [hy], hy'⟩

theorem reduceAnd_left {is : List Interval} {c : Interval} (hc : ∀ i ∈ is, i.closed = .left)
    (h : reduceAnd is = .ok c) :
    c.closed = .left ∧ (∀ i ∈ is, i.left ≤ c.left ∧ c.right ≤ i.right) ∧
      (∃ i ∈ is, c.left = i.left) ∧ (∃ i ∈ is, c.right = i.right) := by
  cases is with
  | nil => simp [reduceAnd] at h
  | cons a l => exact reduceFrom_left hc h

theorem reduceFrom_total : ∀ {l : List Interval} {a : Interval}, (∀ i ∈ a :: l, i.closed = .left) →
    (∀ i ∈ a :: l, ∀ j ∈ a :: l, i.left ≤ j.right) → ∃ c, reduceFrom a l = .ok c
  | [], a, _, _ => ⟨a, rfl⟩
  | b :: l, a, hc, h => by
    have hca := hc a (by simp)
    have hcb := hc b (by simp)
    have haa := h a (by simp) a (by simp)
    have hab := h a (by simp) b (by simp)
    have hba := h b (by simp) a (by simp)
    have hbb := h b (by simp) b (by simp)
    have e : a.and b = .ok ⟨max a.left b.left, min a.right b.right, .left⟩ := by
      rw [and_left hca hcb, Interval.make_ok]; exact ⟨by omega, rfl⟩
    simp only [reduceFrom, e]
    apply reduceFrom_total
    · intro i hi
      rcases List.mem_cons.1 hi with rfl | hi
      · rfl
      · exact hc i (by simp [hi])
    · intro i hi j hj
      rcases List.mem_cons.1 hi with rfl | hi <;> rcases List.mem_cons.1 hj with rfl | hj
      · simp only; omega
      · have h1 := h a (by simp) j (by simp [hj])
        have h2 := h b (by simp) j (by simp [hj])
        simp only; omega
      · have h1 := h i (by simp [hi]) a (by simp)
        have h2 := h i (by simp [hi]) b (by simp)
        simp only; omega
      · exact h i (by simp [hi]) j (by simp [hj])

/-! ### overlap -/

theorem allOverlap_iff : ∀ {is : List Interval}, allOverlap is = true ↔ is.Pairwise (fun a b => a.overlaps b = true)
  | [] => by simp [allOverlap]
  | a :: l => by
    simp only [allOverlap, Bool.and_eq_true, List.all_eq_true, List.pairwise_cons]
    rw [allOverlap_iff]

theorem pairwise_of_forall {α : Type} {R : α → α → Prop} : ∀ {l : List α}, (∀ a ∈ l, ∀ b ∈ l, R a b) →
    l.Pairwise R
  | [], _ => List.Pairwise.nil
  | a :: l, h => List.Pairwise.cons (fun b hb => h a (by simp) b (by simp [hb]))
      (pairwise_of_forall (fun x hx y hy => h x (by simp [hx]) y (by simp [hy])))

theorem forall_of_pairwise {α : Type} {R : α → α → Prop} (hsymm : ∀ a b, R a b → R b a) :
    ∀ {l : List α}, l.Pairwise R → (∀ a ∈ l, R a a) → ∀ a ∈ l, ∀ b ∈ l, R a b
  | [], _, _ => by simp
  | x :: l, h, hr => by
    obtain ⟨h1, h2⟩ := List.pairwise_cons.1 h
    have ih := forall_of_pairwise hsymm h2 (fun a ha => hr a (by simp [ha]))
    intro a ha b hb
    rcases List.mem_cons.1 ha with rfl | ha' <;> rcases List.mem_cons.1 hb with rfl | hb'
    · exact hr _ (by simp)
    · exact h1 b hb'
    · exact hsymm _ _ (h1 a ha')
    · exact ih a ha' b hb'

/-- Overlap of left-closed intervals. -/
theorem overlaps_left {a b : Interval} (ha : a.closed = .left) (hb : b.closed = .left) :
    a.overlaps b = true ↔ a.left < b.right ∧ b.left < a.right := by
  rcases a with ⟨al, ar, ac⟩
  rcases b with ⟨bl, br, bc⟩
  simp only at ha hb
  subst ha hb
  unfold Interval.overlaps
  simp
  omega

theorem allOverlap_left {is : List Interval} (hc : ∀ i ∈ is, i.closed = .left) (hne : ∀ i ∈ is, i.left < i.right) :
    allOverlap is = true ↔ ∀ i ∈ is, ∀ j ∈ is, i.left < j.right := by
  rw [allOverlap_iff]
  constructor
  · intro h
    have := forall_of_pairwise (R := fun a b => a.left < b.right ∧ b.left < a.right)
      (fun a b h => ⟨h.2, h.1⟩)
      (h.imp_of_mem (fun {a b} ha hb hab => (overlaps_left (hc a ha) (hc b hb)).1 hab))
      (fun a ha => ⟨hne a ha, hne a ha⟩)
    exact fun i hi j hj => (this i hi j hj).1
  · intro h
    apply pairwise_of_forall
    intro a ha b hb
    exact (overlaps_left (hc a ha) (hc b hb)).2 ⟨h a ha b hb, h b hb a ha⟩

/-- Intervals with a common instant all overlap. -/
theorem allOverlap_of_common {is : List Interval} (x : Int) (h : ∀ i ∈ is, i.contains x = true) :
    allOverlap is = true := by
  rw [allOverlap_iff]
  apply pairwise_of_forall
  intro a ha b hb
  exact C01_overlaps_complete a b x ((C01_contains a x).1 (h a ha)) ((C01_contains b x).1 (h b hb))

/-! ### max / min -/

theorem foldl_max_spec : ∀ (l : List Interval) (m : Int),
    m ≤ l.foldl (fun m i => max m i.left) m ∧ (∀ i ∈ l, i.left ≤ l.foldl (fun m i => max m i.left) m) ∧
      (l.foldl (fun m i => max m i.left) m = m ∨ ∃ i ∈ l, l.foldl (fun m i => max m i.left) m = i.left)
  | [], m => by simp
  | a :: l, m => by
    have ih := foldl_max_spec l (max m a.left)
    simp only [List.foldl_cons]
    refine ⟨by omega, ?_, ?_⟩
    · intro i hi
      rcases List.mem_cons.1 hi with rfl | hi
      · omega
      · exact ih.2.1 i hi
    · rcases ih.2.2 with h | ⟨i, hi, h⟩
      · by_cases hm : m ≤ a.left
        · exact Or.inr ⟨a, by simp, by omega⟩
        · exact Or.inl (by omega)
      · exact Or.inr ⟨i, by simp [hi], h⟩

theorem maxLeft_ok {is : List Interval} {m : Int} (h : maxLeft is = .ok m) :
    (∀ i ∈ is, i.left ≤ m) ∧ ∃ i ∈ is, i.left = m := by
  cases is with
  | nil => simp [maxLeft] at h
  | cons a l =>
    simp only [maxLeft, Except.ok.injEq] at h
    have hs := foldl_max_spec l a.left
    rw [h] at hs
    refine ⟨?_, ?_⟩
    · intro i hi
      rcases List.mem_cons.1 hi with rfl | hi
      · exact hs.1
      · exact hs.2.1 i hi
    · rcases hs.2.2 with h' | ⟨i, hi, h'⟩
      · exact ⟨a, by simp, h'.symm⟩
      · exact ⟨i, by simp [hi], h'.symm⟩

theorem foldl_min_spec : ∀ (l : List Interval) (m : Int),
    l.foldl (fun m i => min m i.right) m ≤ m ∧ (∀ i ∈ l, l.foldl (fun m i => min m i.right) m ≤ i.right) ∧
      (l.foldl (fun m i => min m i.right) m = m ∨ ∃ i ∈ l, l.foldl (fun m i => min m i.right) m = i.right)
  | [], m => by simp
  | a :: l, m => by
    have ih := foldl_min_spec l (min m a.right)
    simp only [List.foldl_cons]
    refine ⟨by omega, ?_, ?_⟩
    · intro i hi
      rcases List.mem_cons.1 hi with rfl | hi
      · omega
      · exact ih.2.1 i hi
    · rcases ih.2.2 with h | ⟨i, hi, h⟩
      · by_cases hm : m ≤ a.right
        · exact Or.inl (by omega)
        · exact Or.inr ⟨a, by simp, by omega⟩
      · exact Or.inr ⟨i, by simp [hi], h⟩

theorem minRight_ok {is : List Interval} {m : Int} (h : minRight is = .ok m) :
    (∀ i ∈ is, m ≤ i.right) ∧ ∃ i ∈ is, i.right = m := by
  cases is with
  | nil => simp [minRight] at h
  | cons a l =>
    simp only [minRight, Except.ok.injEq] at h
    have hs := foldl_min_spec l a.right
    rw [h] at hs
    refine ⟨?_, ?_⟩
    · intro i hi
      rcases List.mem_cons.1 hi with rfl | hi
      · exact hs.1
      · exact hs.2.1 i hi
    · rcases hs.2.2 with h' | ⟨i, hi, h'⟩
      · exact ⟨a, by simp, h'.symm⟩
      · exact ⟨i, by simp [hi], h'.symm⟩

/-! ### the merge loop -/

theorem extendRight_spec : ∀ (l : List Interval) (c : Interval),
    c.right ≤ (extendRight c l).right ∧ (extendRight c l = c ∨ extendRight c l ∈ l)
  | [], c => by simp [extendRight]
  | i :: l, c => by
    unfold extendRight
    split
    · rename_i h
      simp only [Bool.and_eq_true, decide_eq_true_eq] at h
      have ih := extendRight_spec l i
      refine ⟨by omega, Or.inr ?_⟩
      rcases ih.2 with h' | h'
      · rw [h']; simp
      · simp [h']
    · simp

/-- The result of merging: sorted first element, and some element's end. -/
theorem mergeForward_ok {is : List Interval} {c : Interval} (h : mergeForward is = .ok c) :
    c.closed = .left ∧ c.left ≤ c.right ∧ (∀ i ∈ is, c.left ≤ i.left) ∧
      (∃ i ∈ is, c.left = i.left ∧ i.right ≤ c.right) ∧ (∃ i ∈ is, c.right = i.right) := by
  unfold mergeForward at h
  have hperm := pySorted_perm (le := fun a b => decide (a.left ≤ b.left)) is
  have hsort := pySorted_pairwise (le := fun a b : Interval => decide (a.left ≤ b.left))
    (by intro a b c h1 h2; simp at *; omega) (by intro a b; simp; omega) is
  cases hms : pySorted (fun a b => decide (a.left ≤ b.left)) is with
  | nil => simp [hms] at h
  | cons x l =>
    rw [hms] at hperm hsort
    simp only [hms, Interval.make_ok] at h
    obtain ⟨hle, rfl⟩ := h
    have hx := extendRight_spec l x
    refine ⟨rfl, hle, ?_, ?_, ?_⟩
    · intro i hi
      rcases List.mem_cons.1 (hperm.mem_iff.2 hi) with rfl | hi'
      · exact Int.le_refl _
      · have := (List.pairwise_cons.1 hsort).1 i hi'
        simpa using this
    · exact ⟨x, hperm.mem_iff.1 (by simp), rfl, hx.1⟩
    · rcases hx.2 with h' | h'
      · exact ⟨x, hperm.mem_iff.1 (by simp), by rw [h']⟩
      · exact ⟨_, hperm.mem_iff.1 (List.mem_cons_of_mem _ h'), rfl⟩

/-- The merged span lies inside the union of the merged intervals. -/
theorem extendRight_cover (P : Int → Prop) : ∀ (l : List Interval) (c : Interval) (lo : Int),
    (∀ i ∈ c :: l, i.closed = .left ∧ lo ≤ i.left ∧ ∀ x, i.left ≤ x → x < i.right → P x) →
    (∀ x, lo ≤ x → x < c.right → P x) → ∀ x, lo ≤ x → x < (extendRight c l).right → P x
  | [], c, lo, _, hc => by simpa [extendRight] using hc
  | i :: l, c, lo, h, hc => by
    unfold extendRight
    split
    · rename_i hif
      simp only [Bool.and_eq_true, decide_eq_true_eq] at hif
      have hci := h c (by simp)
      have hii := h i (by simp)
      have ho := (overlaps_left hii.1 hci.1).1 hif.2
      refine extendRight_cover P l i lo (fun j hj => h j (List.mem_cons_of_mem _ hj)) ?_
      intro x h1 h2
      by_cases hx : x < c.right
      · exact hc x h1 hx
      · exact hii.2.2 x (by omega) h2
    · exact hc

theorem mergeForward_cover {is : List Interval} {c : Interval} (h : mergeForward is = .ok c) (P : Int → Prop)
    (hi : ∀ i ∈ is, i.closed = .left ∧ ∀ x, i.left ≤ x → x < i.right → P x) :
    ∀ x, c.left ≤ x → x < c.right → P x := by
  have hmin := (mergeForward_ok h).2.2.1
  unfold mergeForward at h
  have hperm := pySorted_perm (le := fun a b => decide (a.left ≤ b.left)) is
  cases hms : pySorted (fun a b => decide (a.left ≤ b.left)) is with
  | nil => simp [hms] at h
  | cons y l =>
    rw [hms] at hperm
    simp only [hms, Interval.make_ok] at h
    obtain ⟨hle, rfl⟩ := h
    refine extendRight_cover P l y y.left (fun j hj => ?_) ?_
    · have := hperm.mem_iff.1 hj
      exact ⟨(hi j this).1, hmin j this, (hi j this).2⟩
    · exact (hi y (hperm.mem_iff.1 (by simp))).2

theorem mergeForward_total {is : List Interval} (hne : is ≠ []) (hle : ∀ i ∈ is, i.left ≤ i.right) :
    ∃ c, mergeForward is = .ok c := by
  unfold mergeForward
  have hperm := pySorted_perm (le := fun a b => decide (a.left ≤ b.left)) is
  cases hms : pySorted (fun a b => decide (a.left ≤ b.left)) is with
  | nil => rw [hms] at hperm; exact absurd hperm.symm.eq_nil hne
  | cons x l =>
    rw [hms] at hperm
    simp only
    have hx := extendRight_spec l x
    have hxm := hle x (hperm.mem_iff.1 (by simp))
    exact ⟨_, Interval.make_ok.2 ⟨by omega, rfl⟩⟩

end Rocketry
