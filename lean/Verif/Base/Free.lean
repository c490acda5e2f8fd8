import Mathlib.Data.List.Nodup
import Mathlib.Data.List.Perm.Subperm
import Std.Data.String.ToNat

/-!
# Search for the least number that is free
-/

namespace Rocketry

/-- `while p(n): n += 1`, for at most `k` rounds. -/
def seek (p : Nat → Bool) : Nat → Nat → Option Nat
  | 0, _ => none
  | k + 1, n => if p n then seek p k (n + 1) else some n

theorem seek_some {p : Nat → Bool} : ∀ {k n m : Nat}, seek p k n = some m →
    p m = false ∧ n ≤ m ∧ ∀ i, n ≤ i → i < m → p i = true
  | 0, _, _, h => by simp [seek] at h
  | k + 1, n, m, h => by
    unfold seek at h
    by_cases hp : p n = true
    · rw [if_pos hp] at h
      obtain ⟨h1, h2, h3⟩ := seek_some h
      refine ⟨h1, by omega, fun i hi him => ?_⟩
      by_cases hin : i = n
      · rw [hin]; exact hp
      · exact h3 i (by omega) him
    · rw [if_neg hp] at h
      obtain rfl : n = m := by simpa using h
      exact ⟨by simpa using hp, by omega, fun i h1 h2 => by omega⟩

theorem seek_none {p : Nat → Bool} : ∀ {k n : Nat}, seek p k n = none → ∀ i < k, p (n + i) = true
  | 0, _, _, i, hi => by omega
  | k + 1, n, h, i, hi => by
    unfold seek at h
    by_cases hp : p n = true
    · rw [if_pos hp] at h
      cases i with
      | zero => exact hp
      | succ i =>
        have := seek_none h i (by omega)
        rwa [show n + 1 + i = n + (i + 1) by omega] at this
    · rw [if_neg hp] at h; simp at h

/-- Distinct names, of which finitely many are taken. -/
theorem seek_found {α : Type} {p : Nat → Bool} {f : Nat → α} (hf : ∀ i j, f i = f j → i = j) {L : List α}
    (hp : ∀ i, p i = true → f i ∈ L) {k n : Nat} (hk : L.length < k) : ∃ m, seek p k n = some m := by
  rcases h : seek p k n with _ | m
  · exfalso
    have hall := seek_none h
    have hnd : ((List.range k).map (fun i => f (n + i))).Nodup := by
      refine List.Nodup.map_on (fun x _ y _ hxy => ?_) List.nodup_range
      have := hf _ _ hxy
      omega
    have hsub : ((List.range k).map (fun i => f (n + i))) ⊆ L := by
      intro a ha
      obtain ⟨i, hi, rfl⟩ := List.mem_map.1 ha
      exact hp _ (hall i (List.mem_range.1 hi))
    have := (List.subperm_of_subset hnd hsub).length_le
    rw [List.length_map, List.length_range] at this
    omega
  · exact ⟨m, rfl⟩

end Rocketry
