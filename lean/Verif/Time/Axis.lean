import Verif.Time.Anchored

/-!
# Cycles: helper lemmas for the rolling functions

`Axis pos fwd back` says that time is partitioned into consecutive cycles: `pos t` is the offset of `t`
from the start of its cycle, `fwd t` the length of its cycle, `back t` the length of the previous one.
-/

namespace Rocketry

structure Axis (pos fwd back : Int → Int) : Prop where
  nonneg : ∀ t, 0 ≤ pos t
  lt : ∀ t, pos t < fwd t
  same : ∀ t u, t - pos t ≤ u → u < t - pos t + fwd t →
    pos u = u - (t - pos t) ∧ fwd u = fwd t ∧ back u = back t
  next_pos : ∀ t, pos (t - pos t + fwd t) = 0
  next_back : ∀ t, back (t - pos t + fwd t) = fwd t
  back_pos : ∀ t, 0 < back t
  prev_pos : ∀ t, pos (t - pos t - back t) = 0
  prev_fwd : ∀ t, fwd (t - pos t - back t) = back t

/-- Fixed cycle length `L`, position `t % L`. -/
theorem axis_fixed (L : Int) (hL : 0 < L) : Axis (fun t => t % L) (fun _ => L) (fun _ => L) where
  nonneg t := Int.emod_nonneg _ (by omega)
  lt t := Int.emod_lt_of_pos _ hL
  same t u h1 h2 := by
    refine ⟨?_, rfl, rfl⟩
    have h0 : t - t % L = L * (t / L) := by have := Int.emod_add_mul_ediv t L; omega
    rw [h0] at h1 h2 ⊢
    have : u = (u - L * (t / L)) + L * (t / L) := by omega
    show u % L = _
    conv => lhs; rw [this]
    rw [Int.add_mul_emod_self_left]
    exact Int.emod_eq_of_lt (by omega) (by omega)
  next_pos t := by
    have h0 : t - t % L = L * (t / L) := by have := Int.emod_add_mul_ediv t L; omega
    show (t - t % L + L) % L = 0
    rw [h0]; simp
  next_back _ := rfl
  back_pos _ := hL
  prev_pos t := by
    have h0 : t - t % L = L * (t / L) := by have := Int.emod_add_mul_ediv t L; omega
    show (t - t % L - L) % L = 0
    rw [h0]; simp
  prev_fwd _ := rfl

/-- In-cycle membership between two positions (left closed, right open, may wrap). -/
def InC (s e p : Int) : Prop := if s < e then s ≤ p ∧ p < e else s ≤ p ∨ p < e

instance (s e p : Int) : Decidable (InC s e p) := by unfold InC; infer_instance

section
variable {pos fwd back : Int → Int} (A : Axis pos fwd back)
include A

theorem Axis.next_same (t u : Int) (h1 : t - pos t + fwd t ≤ u)
    (h2 : u < t - pos t + fwd t + fwd (t - pos t + fwd t)) :
    pos u = u - (t - pos t + fwd t) := by
  have := A.same (t - pos t + fwd t) u (by rw [A.next_pos]; omega) (by rw [A.next_pos]; omega)
  rw [A.next_pos] at this
  omega

theorem Axis.prev_same (t u : Int) (h1 : t - pos t - back t ≤ u) (h2 : u < t - pos t) :
    pos u = u - (t - pos t - back t) := by
  have hf := A.prev_fwd t
  have := A.same (t - pos t - back t) u (by rw [A.prev_pos]; omega) (by rw [A.prev_pos, hf]; omega)
  rw [A.prev_pos] at this
  omega

/-- Forward rolling with bounds not longer than the cycle of `dt` and the one after it. -/
theorem Axis.forward_local (s e dt : Int) (hs : 0 ≤ s) (he : 0 ≤ e) (hse : s ≠ e)
    (a2 : s ≤ fwd dt) (a3 : e ≤ fwd dt) (a4 : ¬ (s = 0 ∧ e = fwd dt)) (a5 : ¬ (s = fwd dt ∧ e = 0))
    (b1 : s ≤ fwd (dt - pos dt + fwd dt)) (b2 : e ≤ fwd (dt - pos dt + fwd dt))
    (b3 : ¬ (s = 0 ∧ e = fwd (dt - pos dt + fwd dt))) (b4 : ¬ (s = fwd (dt - pos dt + fwd dt) ∧ e = 0))
    (l r : Int)
    (hl : l = if InC s e (pos dt) then dt else
      (if pos dt < s then dt + (s - pos dt) else dt + (s - pos dt + fwd dt)))
    (hr : r = if pos dt < e then dt + (e - pos dt) else dt + (e - pos dt + fwd dt)) :
    dt ≤ l ∧ l < r ∧ (∀ x, dt ≤ x → x < l → ¬ InC s e (pos x)) ∧
      (∀ x, l ≤ x → x < r → InC s e (pos x)) ∧ ¬ InC s e (pos r) := by
  have a0 := A.nonneg dt
  have a1 := A.lt dt
  have b0 := A.next_pos dt
  have b5 := A.lt (dt - pos dt + fwd dt)
  -- position of any x in this or the next cycle
  have key : ∀ x, dt - pos dt ≤ x → x < dt - pos dt + fwd dt + fwd (dt - pos dt + fwd dt) →
      (x < dt - pos dt + fwd dt ∧ pos x = x - (dt - pos dt)) ∨
      (dt - pos dt + fwd dt ≤ x ∧ pos x = x - (dt - pos dt + fwd dt)) := by
    intro x hx1 hx2
    by_cases h : x < dt - pos dt + fwd dt
    · exact Or.inl ⟨h, (A.same dt x hx1 h).1⟩
    · exact Or.inr ⟨by omega, A.next_same dt x (by omega) hx2⟩
  have b6 : ∀ x, x = dt - pos dt + fwd dt + fwd (dt - pos dt + fwd dt) → pos x = 0 := by
    intro x hx
    have := A.next_pos (dt - pos dt + fwd dt)
    rw [b0] at this
    rw [hx]
    rw [Int.sub_zero] at this
    exact this
  unfold InC at *
  have hl' : dt ≤ l ∧ l < r := by
    subst hl hr
    repeat' split
    all_goals omega
  refine ⟨hl'.1, hl'.2, ?_, ?_, ?_⟩
  · intro x hx1 hx2
    have k := key x (by omega) (by
      subst hl; split at hx2 <;> split at hx2 <;> omega)
    subst hl
    split at hx2 <;> split at hx2 <;> split <;> omega
  · intro x hx1 hx2
    have k := key x (by omega) (by
      subst hr; split at hx2 <;> omega)
    subst hl hr
    split at hx1 <;> split at hx1 <;> split at hx2 <;> split <;> omega
  · by_cases hr2 : r < dt - pos dt + fwd dt + fwd (dt - pos dt + fwd dt)
    · have k := key r (by omega) hr2
      split at hr <;> split <;> omega
    · have k := b6 r (by split at hr <;> omega)
      split at hr <;> split <;> omega

/-- Forward rolling with bounds not longer than any cycle. -/
theorem Axis.forward (s e dt : Int) (hs : 0 ≤ s) (he : 0 ≤ e) (hsf : ∀ t, s ≤ fwd t)
    (hef : ∀ t, e ≤ fwd t) (hse : s ≠ e) (h1 : ∀ t, ¬ (s = 0 ∧ e = fwd t))
    (h2 : ∀ t, ¬ (s = fwd t ∧ e = 0)) (l r : Int)
    (hl : l = if InC s e (pos dt) then dt else
      (if pos dt < s then dt + (s - pos dt) else dt + (s - pos dt + fwd dt)))
    (hr : r = if pos dt < e then dt + (e - pos dt) else dt + (e - pos dt + fwd dt)) :
    dt ≤ l ∧ l < r ∧ (∀ x, dt ≤ x → x < l → ¬ InC s e (pos x)) ∧
      (∀ x, l ≤ x → x < r → InC s e (pos x)) ∧ ¬ InC s e (pos r) :=
  A.forward_local s e dt hs he hse (hsf _) (hef _) (h1 _) (h2 _) (hsf _) (hef _) (h1 _) (h2 _) l r hl hr

/-- Backward rolling with bounds not longer than the cycle of `dt` and the one before it. -/
theorem Axis.backward_local (s e dt : Int) (hs : 0 ≤ s) (he : 0 ≤ e) (hse : s ≠ e)
    (a2 : s ≤ fwd dt) (a3 : e ≤ fwd dt) (a4 : ¬ (s = 0 ∧ e = fwd dt)) (a5 : ¬ (s = fwd dt ∧ e = 0))
    (b1 : s ≤ back dt) (b2 : e ≤ back dt) (b3 : ¬ (s = 0 ∧ e = back dt)) (b4 : ¬ (s = back dt ∧ e = 0))
    (l r : Int)
    (hr : r = if InC s e (pos dt) then dt else
      (if pos dt < e then dt + (e - pos dt - back dt) else dt + (e - pos dt)))
    (hl : l = if pos dt < s then dt + (s - pos dt - back dt) else dt + (s - pos dt)) :
    r ≤ dt ∧ l ≤ r ∧ (l = r → r = dt ∧ InC s e (pos dt)) ∧
      (∀ x, r ≤ x → x < dt → ¬ InC s e (pos x)) ∧
      (∀ x, l ≤ x → x < r → InC s e (pos x)) ∧ InC s e (pos l) ∧ ¬ InC s e (pos (l - 1)) := by
  have a0 := A.nonneg dt
  have a1 := A.lt dt
  have b0 := A.prev_pos dt
  have bp := A.back_pos dt
  -- position of any x in this or the previous cycle
  have key : ∀ x, dt - pos dt - back dt ≤ x → x < dt - pos dt + fwd dt →
      (x < dt - pos dt ∧ pos x = x - (dt - pos dt - back dt)) ∨
      (dt - pos dt ≤ x ∧ pos x = x - (dt - pos dt)) := by
    intro x hx1 hx2
    by_cases h : x < dt - pos dt
    · exact Or.inl ⟨h, A.prev_same dt x hx1 h⟩
    · exact Or.inr ⟨by omega, (A.same dt x (by omega) hx2).1⟩
  unfold InC at *
  have hl' : r ≤ dt ∧ l ≤ r ∧ dt - pos dt - back dt ≤ l ∧
      (l = r → r = dt ∧ if s < e then s ≤ pos dt ∧ pos dt < e else s ≤ pos dt ∨ pos dt < e) := by
    subst hl hr
    repeat' split
    all_goals omega
  refine ⟨hl'.1, hl'.2.1, hl'.2.2.2, ?_, ?_, ?_, ?_⟩
  · intro x hx1 hx2
    have k := key x (by omega) (by omega)
    subst hr
    split at hx1 <;> split at hx1 <;> split <;> omega
  · intro x hx1 hx2
    have k := key x (by omega) (by omega)
    subst hl hr
    split at hx1 <;> split at hx2 <;> split at hx2 <;> split <;> omega
  · have k := key l (by omega) (by omega)
    split at hl <;> split <;> omega
  · by_cases h : dt - pos dt - back dt ≤ l - 1
    · have k := key (l - 1) h (by omega)
      split at hl <;> split <;> omega
    · exfalso
      split at hl <;> omega

/-- Backward rolling with bounds not longer than any cycle. -/
theorem Axis.backward (s e dt : Int) (hs : 0 ≤ s) (he : 0 ≤ e) (hsf : ∀ t, s ≤ fwd t)
    (hef : ∀ t, e ≤ fwd t) (hse : s ≠ e) (h1 : ∀ t, ¬ (s = 0 ∧ e = fwd t))
    (h2 : ∀ t, ¬ (s = fwd t ∧ e = 0)) (l r : Int)
    (hr : r = if InC s e (pos dt) then dt else
      (if pos dt < e then dt + (e - pos dt - back dt) else dt + (e - pos dt)))
    (hl : l = if pos dt < s then dt + (s - pos dt - back dt) else dt + (s - pos dt)) :
    r ≤ dt ∧ l ≤ r ∧ (l = r → r = dt ∧ InC s e (pos dt)) ∧
      (∀ x, r ≤ x → x < dt → ¬ InC s e (pos x)) ∧
      (∀ x, l ≤ x → x < r → InC s e (pos x)) ∧ InC s e (pos l) ∧ ¬ InC s e (pos (l - 1)) := by
  have b1 := hsf (dt - pos dt - back dt)
  have b2 := hef (dt - pos dt - back dt)
  have b3 := h1 (dt - pos dt - back dt)
  have b4 := h2 (dt - pos dt - back dt)
  rw [A.prev_fwd] at b1 b2 b3 b4
  exact A.backward_local s e dt hs he hse (hsf _) (hef _) (h1 _) (h2 _) b1 b2 b3 b4 l r hr hl

end
end Rocketry
