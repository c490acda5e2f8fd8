import Verif.Time.PeriodLemmas
import Verif.Spec.PeriodSpec
import Verif.Props.YearProps
import Verif.Props.MonthProps

/-! # Rolling compound periods forward: helper lemmas -/

namespace Rocketry
open Spec Props

/-! ### clock periods -/

theorem anchorDt_bounds (sc : Scope) (t : Int) : 0 ≤ anchorDt sc t ∧ anchorDt sc t < scopeForward sc t := by
  by_cases hm : sc = .month
  · subst hm
    exact ⟨anchorDt_month_nonneg t, anchorDt_month_lt t⟩
  · by_cases hy : sc = .year
    · subst hy
      rw [anchorDt_year]
      have h1 := day_longest t
      have h2 := axis_bounds _ (month_range t)
      have h3 : 0 ≤ t % DAY := Int.emod_nonneg _ (by decide)
      have h4 : t % DAY < DAY := Int.emod_lt_of_pos _ (by decide)
      simp only [scopeForward, Scope.max, toMicroseconds]
      simp only [DAY] at *
      omega
    · obtain ⟨L, hL⟩ : ∃ L, cycleLen sc = some L := by cases sc <;> simp_all [cycleLen]
      rw [anchorDt_fixed hL, cycleLen_fwd hL]
      have := cycleLen_pos hL
      exact ⟨Int.emod_nonneg _ (by omega), Int.emod_lt_of_pos _ this⟩

theorem nextEnd_gt {a : Anchored} (h : 0 ≤ a.stop) (dt : Int) : dt < a.nextEnd dt := by
  have := anchorDt_bounds a.scope dt
  unfold Anchored.nextEnd
  simp only
  split <;> omega

theorem nextStart_gt {a : Anchored} (h : 0 ≤ a.start) (dt : Int) : dt < a.nextStart dt := by
  have := anchorDt_bounds a.scope dt
  unfold Anchored.nextStart
  simp only
  split <;> omega

/-- What every clock period, whatever its class, satisfies when it rolls forward. -/
theorem anchored_forward_weak {a : Anchored} (hs : 0 ≤ a.start) (he : 0 ≤ a.stop) :
    ∀ {n : Nat} {dt : Int} {i : Interval}, Anchored.rollforward n a dt = .ok i →
      i.closed = .left ∧ dt ≤ i.left ∧ i.left < i.right ∧ (a.contains dt = true ↔ i.left = dt)
  | 0, dt, i, h => by simp [Anchored.rollforward] at h
  | n + 1, dt, i, h => by
    have h1 := nextEnd_gt he dt
    have h2 := nextStart_gt hs dt
    unfold Anchored.rollforward at h
    split at h
    · rename_i hf
      simp only at h
      rw [if_neg (by omega), Interval.make_ok] at h
      obtain ⟨_, rfl⟩ := h
      simp [Anchored.contains, hf, h1]
    · simp only at h
      split at h
      · rename_i heq
        have ih := anchored_forward_weak hs he h
        refine ⟨ih.1, by omega, ih.2.2.1, ?_⟩
        have hc : ¬ a.contains dt = true := by
          intro hc
          simp only [Anchored.rollstart, hc, if_true] at heq
          omega
        simp only [hc, Bool.false_eq_true, false_iff]
        omega
      · rename_i hne
        rw [Interval.make_ok] at h
        obtain ⟨hle, rfl⟩ := h
        simp only [true_and]
        unfold Anchored.rollstart at *
        by_cases hc : a.contains dt = true
        · simp only [hc, if_true] at *
          refine ⟨by omega, by omega, trivial⟩
        · simp only [hc, if_false, Bool.false_eq_true] at *
          refine ⟨by omega, by omega, ?_⟩
          simp only [false_iff]
          omega

/-! ### membership contract (any class of clock period) -/

theorem staticForward_weak {s e dt : Int} {i : Interval} (h : staticForward s e dt = .ok i) :
    i.closed = .left ∧ min dt MAXT ≤ i.left ∧ i.left ≤ i.right ∧
      (dt < MAXT → ((s ≤ dt ∧ dt < e) ↔ (i.left ≤ dt ∧ dt < i.right)) ∧ (e ≠ dt → i.left = dt → dt < i.right)) := by
  unfold staticForward at h
  split at h <;> rw [Interval.make_ok] at h <;> obtain ⟨h1, rfl⟩ := h <;> simp only [true_and] <;>
    refine ⟨by omega, by omega, fun _ => ⟨?_, ?_⟩⟩ <;> omega

theorem rollforward_weak : ∀ (n : Nat) (p : Period) (dt : Int) (i : Interval), Plain p →
    p.rollforward n dt = .ok i →
    i.closed = .left ∧ min dt MAXT ≤ i.left ∧ i.left ≤ i.right ∧
      (dt < MAXT → (Clean dt p → (sem p dt ↔ i.left ≤ dt ∧ dt < i.right)) ∧
        (NoEnd dt p → (sem p dt ↔ i.left ≤ dt ∧ dt < i.right) ∧ (i.left = dt → dt < i.right))) := by
  intro n
  induction n with
  | zero => intro p dt i _ h; simp [Period.rollforward] at h
  | succ n ih =>
    intro p dt i hp h
    cases p with
    | anchored a =>
      simp only [Plain] at hp
      simp only [Period.rollforward] at h
      have hw := anchored_forward_weak hp.1 hp.2 h
      have hb : sem (.anchored a) dt ↔ i.left ≤ dt ∧ dt < i.right := by
        rw [sem, hw.2.2.2]; omega
      exact ⟨hw.1, by omega, by omega, fun _ => ⟨fun _ => hb, fun _ => ⟨hb, by omega⟩⟩⟩
    | static s e =>
      simp only [Period.rollforward] at h
      have hw := staticForward_weak h
      refine ⟨hw.1, hw.2.1, hw.2.2.1, fun hd => ⟨fun _ => ?_, fun hn => ⟨?_, ?_⟩⟩⟩
      · rw [sem]; exact (hw.2.2.2 hd).1
      · rw [sem]; exact (hw.2.2.2 hd).1
      · rw [NoEnd] at hn; exact (hw.2.2.2 hd).2 hn
    | always =>
      simp only [Period.rollforward] at h
      have hw := staticForward_weak h
      refine ⟨hw.1, hw.2.1, hw.2.2.1, fun hd => ⟨fun _ => ?_, fun hn => ⟨?_, ?_⟩⟩⟩
      · rw [sem]; exact (hw.2.2.2 hd).1
      · rw [sem]; exact (hw.2.2.2 hd).1
      · exact (hw.2.2.2 hd).2 (by omega)
    | delta a b => simp [Plain] at hp
    | span a b => simp [Plain] at hp
    | relday a b c => simp [Plain] at hp
    | all ps =>
      have hps : ∀ p ∈ ps, Plain p := by simpa only [Plain] using hp
      simp only [Period.rollforward] at h
      cases hm : mapE (fun p => Period.rollforward n p dt) ps with
      | error e => simp [hm] at h
      | ok is =>
        simp only [hm] at h
        obtain ⟨m1, m2, m3⟩ := mapE_ok hm
        have hcl : ∀ j ∈ is, j.closed = .left := by
          intro j hj
          obtain ⟨p, hp, hpj⟩ := m2 j hj
          exact (ih p dt j (hps p hp) hpj).1
        have hmin : ∀ j ∈ is, min dt MAXT ≤ j.left := by
          intro j hj
          obtain ⟨p, hp, hpj⟩ := m2 j hj
          exact (ih p dt j (hps p hp) hpj).2.1
        have hor : ∀ j ∈ is, j.left ≤ j.right := by
          intro j hj
          obtain ⟨p, hp, hpj⟩ := m2 j hj
          exact (ih p dt j (hps p hp) hpj).2.2.1
        split at h
        · have hr := reduceAnd_left hcl h
          obtain ⟨r1, r2, ⟨x, hx, hx'⟩, ⟨y, hy, hy'⟩⟩ := hr
          have hleft : min dt MAXT ≤ i.left := by have := hmin x hx; omega
          have hle : i.left ≤ i.right := by
            cases is with
            | nil => simp [reduceAnd] at h
            | cons a l =>
              cases l with
              | nil =>
                simp [reduceAnd, reduceFrom] at h
                subst h
                exact hor _ (by simp)
              | cons b l =>
                have := hx
                by_contra hlt
                -- the overlap of all pairs orders the bounds
                have ho : allOverlap (a :: b :: l) = true := by assumption
                rw [allOverlap_iff] at ho
                have := forall_of_pairwise (R := fun a b => a.left ≤ b.right ∧ b.left ≤ a.right)
                  (fun a b h => ⟨h.2, h.1⟩)
                  (ho.imp_of_mem (fun {a b} ha hb hab => by
                    have := (overlaps_left (hcl a ha) (hcl b hb)).1 hab
                    omega))
                  (fun a ha => ⟨hor a ha, hor a ha⟩)
                have := (this x hx y hy).1
                omega
          have main : dt < MAXT → Clean dt (.all ps) → (sem (.all ps) dt ↔ i.left ≤ dt ∧ dt < i.right) := by
            intro hd hc
            rw [Clean] at hc
            rw [sem]
            constructor
            · intro hall
              obtain ⟨p, hp, hpx⟩ := m2 x hx
              obtain ⟨q, hq, hqy⟩ := m2 y hy
              have e1 := (((ih p dt x (hps p hp) hpx).2.2.2 hd).1 (hc p hp)).1 (hall p hp)
              have e2 := (((ih q dt y (hps q hq) hqy).2.2.2 hd).1 (hc q hq)).1 (hall q hq)
              omega
            · intro hin p hp
              obtain ⟨j, hj, hpj⟩ := m1 p hp
              have e1 := (((ih p dt j (hps p hp) hpj).2.2.2 hd).1 (hc p hp))
              have := r2 j hj
              exact e1.2 (by omega)
          have noend_clean : NoEnd dt (.all ps) → Clean dt (.all ps) := by
            intro hn
            clear main h
            have : ∀ p, NoEnd dt p → Clean dt p := by
              intro p
              induction p using Period.induct with
              | hall ps ihp => intro hn; rw [NoEnd] at hn; rw [Clean]; exact fun p hp => ihp p hp (hn p hp)
              | hany ps ihp => intro hn; rw [NoEnd] at hn; rw [Clean]; exact hn
              | _ => intro _; simp [Clean]
            exact this _ hn
          refine ⟨r1, hleft, hle, fun hd => ⟨main hd, fun hn => ⟨main hd (noend_clean hn), ?_⟩⟩⟩
          intro hl
          rw [NoEnd] at hn
          have hxl : ∀ j ∈ is, dt < j.right := by
            intro j hj
            obtain ⟨p, hp, hpj⟩ := m2 j hj
            have e1 := (((ih p dt j (hps p hp) hpj).2.2.2 hd).2 (hn p hp)).2
            have := r2 j hj
            have := hmin j hj
            exact e1 (by omega)
          have := hxl y hy
          omega
        · rename_i hov
          cases hmx : maxLeft is with
          | error e => simp [hmx] at h
          | ok next =>
            simp only [hmx] at h
            obtain ⟨x1, ⟨x, hx, hx'⟩⟩ := maxLeft_ok hmx
            have hop : (is.any fun i => decide (i.left = next) && !i.closed.incLeft) = false := by
              rw [Bool.eq_false_iff]
              intro hh
              rw [List.any_eq_true] at hh
              obtain ⟨j, hj, hj'⟩ := hh
              rw [hcl j hj] at hj'
              simp [Closed.incLeft] at hj'
            simp only [hop, Bool.false_eq_true, if_false] at h
            have hr := ih (.all ps) next i hp h
            have hnx := hmin x hx
            have hnot : dt < MAXT → Clean dt (.all ps) → ¬ sem (.all ps) dt := by
              intro hd hc hs
              rw [Clean] at hc
              rw [sem] at hs
              apply hov
              apply allOverlap_of_common dt
              intro j hj
              obtain ⟨p, hp, hpj⟩ := m2 j hj
              have e1 := (((ih p dt j (hps p hp) hpj).2.2.2 hd).1 (hc p hp)).1 (hs p hp)
              simp [Interval.contains, hcl j hj, e1]
            refine ⟨hr.1, by omega, hr.2.2.1, fun hd => ?_⟩
            by_cases hnd : next = dt
            · subst hnd
              exact hr.2.2.2 hd
            · have : dt < i.left := by omega
              refine ⟨fun hc => ?_, fun hn => ⟨?_, by omega⟩⟩
              · constructor
                · intro hs; exact absurd hs (hnot hd hc)
                · omega
              · constructor
                · intro hs
                  have noend_clean : ∀ p, NoEnd dt p → Clean dt p := by
                    intro p
                    induction p using Period.induct with
                    | hall ps ihp => intro hn; rw [NoEnd] at hn; rw [Clean]; exact fun p hp => ihp p hp (hn p hp)
                    | hany ps ihp => intro hn; rw [NoEnd] at hn; rw [Clean]; exact hn
                    | _ => intro _; simp [Clean]
                  exact absurd hs (hnot hd (noend_clean _ hn))
                · omega
    | any ps =>
      have hps : ∀ p ∈ ps, Plain p := by simpa only [Plain] using hp
      simp only [Period.rollforward] at h
      cases hm : mapE (fun p => Period.rollforward n p dt) ps with
      | error e => simp [hm] at h
      | ok is =>
        simp only [hm] at h
        obtain ⟨m1, m2, m3⟩ := mapE_ok hm
        obtain ⟨g1, g2, g3, ⟨x, hx, hx1, hx2⟩, _⟩ := mergeForward_ok h
        have hmin : ∀ j ∈ is, min dt MAXT ≤ j.left := by
          intro j hj
          obtain ⟨p, hp, hpj⟩ := m2 j hj
          exact (ih p dt j (hps p hp) hpj).2.1
        have hxm := hmin x hx
        have main : dt < MAXT → (∀ p ∈ ps, NoEnd dt p) →
            (sem (.any ps) dt ↔ i.left ≤ dt ∧ dt < i.right) ∧ (i.left = dt → dt < i.right) := by
          intro hd hn
          obtain ⟨p, hp, hpx⟩ := m2 x hx
          have e1 := ((ih p dt x (hps p hp) hpx).2.2.2 hd).2 (hn p hp)
          have e2 : i.left = dt → dt < i.right := by intro hl; have := e1.2 (by omega); omega
          refine ⟨?_, e2⟩
          rw [sem]
          constructor
          · rintro ⟨q, hq, hs⟩
            obtain ⟨j, hj, hqj⟩ := m1 q hq
            have := (((ih q dt j (hps q hq) hqj).2.2.2 hd).2 (hn q hq)).1.1 hs
            have := g3 j hj
            have : i.left = dt := by omega
            exact ⟨by omega, e2 this⟩
          · intro hin
            exact ⟨p, hp, e1.1.2 ⟨by omega, e1.2 (by omega)⟩⟩
        refine ⟨g1, by omega, g2, fun hd => ⟨fun hc => (main hd ?_).1, fun hn => main hd ?_⟩⟩
        · rw [Clean] at hc; exact hc
        · rw [NoEnd] at hn; exact hn

end Rocketry
