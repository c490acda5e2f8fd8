import Verif.Spec.CoupleSpec
import Verif.Task.HistoryLemmas

namespace Rocketry.Props
open Rocketry Rocketry.Sched Rocketry.Spec

theorem going_append (K : String → Exec) (tr : List Obs) (o : Obs) (n : String) :
    going K (tr ++ [o]) n = goingStep K n (going K tr n) o := by simp [going, List.foldl_append]

theorem armed_append (tr : List Obs) (o : Obs) (n : String) : armed (tr ++ [o]) n = armedStep n (armed tr n) o := by
  simp [armed, List.foldl_append]

theorem orderly_prefix {K : String → Exec} {a b : List Obs} (h : Orderly K (a ++ b)) : Orderly K a :=
  fun x o y e => h x o (y ++ b) (by rw [e]; simp)

theorem orderly_last {K : String → Exec} {a : List Obs} {o : Obs} (h : Orderly K (a ++ [o])) : FitsIn K a o := h a o [] rfl

theorem orderly_append {K : String → Exec} {a : List Obs} {o : Obs} (h : Orderly K a) (ho : FitsIn K a o) :
    Orderly K (a ++ [o]) := by
  intro x p y e
  rcases List.eq_nil_or_concat y with rfl | ⟨y', q, rfl⟩
  · obtain ⟨rfl, e2⟩ := List.append_inj' e rfl
    obtain rfl : o = p := by simpa using e2
    exact ho
  · have e' : a ++ [o] = (x ++ p :: y') ++ [q] := by rw [e]; simp
    obtain ⟨rfl, _⟩ := List.append_inj' e' rfl
    exact h x p y' rfl

theorem prepared_prefix {a b : List Obs} (h : Prepared (a ++ b)) : Prepared a :=
  fun x o y e => h x o (y ++ b) (by rw [e]; simp)

theorem prepared_append {a : List Obs} {o : Obs} (h : Prepared a)
    (ho : ∀ n m, o = .checked n m (some true) → Obs.cached n ∈ a) :
    Prepared (a ++ [o]) := by
  intro x p y e
  rcases List.eq_nil_or_concat y with rfl | ⟨y', q, rfl⟩
  · obtain ⟨rfl, e2⟩ := List.append_inj' e rfl
    obtain rfl : o = p := by simpa using e2
    exact ho
  · have e' : a ++ [o] = (x ++ p :: y') ++ [q] := by rw [e]; simp
    obtain ⟨rfl, _⟩ := List.append_inj' e' rfl
    exact h x p y' rfl

/-- What holds in a coupled execution. -/
structure CoupleInv (S : Setup) (K : String → Exec) (tr : List Obs) (es : List Ev) (h : HState) : Prop where
  hist : Hist S es h
  idle : ∀ n, going K tr n = [] → h.phase n = .idle
  ready : ∀ n, armed tr n = true → h.ready n ≠ none
  cold : ∀ n, Obs.cached n ∈ tr ↔ h.cold n = false

theorem die_step {S : Setup} {es : List Ev} {h : HState} (hh : Hist S es h) (n : String) :
    Hist S (es ++ [.other]) { h with phase := upd h.phase n .idle } := by
  by_cases hp : h.phase n = .idle
  · have e : upd h.phase n .idle = h.phase := by funext m; unfold upd; split <;> simp_all
    rw [e]
    exact hh.step (.tick h h.clock (Int.le_refl _))
  · exact hh.step (.die h n hp)

theorem going_start {K : String → Exec} {tr : List Obs} {m n : String} {i : Nat} {part : Sched.Part}
    (h : going K (tr ++ [.started m i part]) n = []) : n ≠ m ∧ going K tr n = [] := by
  rw [going_append] at h
  simp only [goingStep] at h
  split at h
  · simp at h
  · rename_i hne; exact ⟨fun e => hne e.symm, h⟩

theorem going_over {K : String → Exec} {tr : List Obs} {n m : String} {i : Nat} {o : Obs}
    (ho : (∃ exc, o = .env (.ends n i exc) ∧ K n ≠ .main) ∨ (o = .terminated n i ∧ K n ≠ .thread) ∨ o = .mainEnded n i)
    (hm : m ≠ n) : going K (tr ++ [o]) m = going K tr m := by
  rw [going_append]
  rcases ho with ⟨e, rfl, _⟩ | ⟨rfl, _⟩ | rfl <;> simp [goingStep, hm.symm]

theorem armed_over {K : String → Exec} {tr : List Obs} {n m : String} {i : Nat} {o : Obs}
    (ho : (∃ exc, o = .env (.ends n i exc) ∧ K n ≠ .main) ∨ (o = .terminated n i ∧ K n ≠ .thread) ∨ o = .mainEnded n i) :
    armed (tr ++ [o]) m = armed tr m := by
  rw [armed_append]
  rcases ho with ⟨e, rfl, _⟩ | ⟨rfl, _⟩ | rfl <;> rfl

theorem coupled_inv {S : Setup} {K : String → Exec} {R : Nat} {tr : List Obs} {es : List Ev} {h : HState}
    (hc : Coupled S K R tr es h) (ho : Orderly K tr) (hp : Prepared tr) : CoupleInv S K tr es h := by
  induction hc with
  | init c hh hle => exact ⟨hh.step (.reboot _ c hle), fun _ _ => rfl, fun n hn => by simp [armed] at hn, fun n => by simp⟩
  | quiet _ hst hr hcold hph ih =>
    have ih := ih ho hp
    exact ⟨ih.hist.step hst, fun n hn => (hph n).2 (ih.idle n hn), fun n hn => by rw [hr]; exact ih.ready n hn,
      fun n => by rw [hcold]; exact ih.cold n⟩
  | @obs tr es es' o h h' _ hm ih =>
    have ih := ih (orderly_prefix ho) (prepared_prefix hp)
    have fit := orderly_last ho
    have prep := hp tr o [] rfl
    cases hm with
    | found n manual reason first last h1 h2 h3 h4 h5 =>
      refine ⟨ih.hist.step (.check h n reason first last h1 h2 (ih.idle n fit)
        ((ih.cold n).1 (prep n manual rfl)) h3 h5), fun m hm => ?_, fun m hm => ?_, fun m => ?_⟩
      · rw [going_append] at hm
        exact ih.idle m hm
      · rw [armed_append] at hm
        simp only [armedStep] at hm
        simp only [upd]
        split
        · simp
        · rename_i hne
          rw [if_neg (fun e => hne e.symm)] at hm
          exact ih.ready m hm
      · simpa using ih.cold m
    | cached n noted created h0 h1 h2 =>
      refine ⟨ih.hist.step (.recover h n noted created h0 h1 h2), fun m hm => ?_, fun m hm => ?_, fun m => ?_⟩
      · rw [going_append] at hm
        exact ih.idle m hm
      · rw [armed_append] at hm
        simp only [armedStep] at hm
        split at hm
        · simp at hm
        · rename_i hne
          simp only [upd, if_neg (fun e => hne (Eq.symm e))]
          exact ih.ready m hm
      · simp only [List.mem_append, List.mem_singleton, Obs.cached.injEq, upd]
        split
        · rename_i e; simp [e]
        · rename_i hne; simp only [hne, or_false]; exact ih.cold m
    | started n i part reason id noted created h1 h2 h3 =>
      have hr := ih.ready n fit
      rcases hrn : h.ready n with _ | r
      · exact absurd hrn hr
      obtain rfl := h1 r hrn
      refine ⟨ih.hist.step (.begin h n r id noted created hrn h2 h3), fun m hm => ?_, fun m hm => ?_, fun m => ?_⟩
      · obtain ⟨hne, hm⟩ := going_start hm
        simp only [upd, if_neg hne]
        exact ih.idle m hm
      · rw [armed_append] at hm
        simp only [armedStep] at hm
        split at hm
        · simp at hm
        · rename_i hne
          simp only [upd, if_neg (fun e => hne (Eq.symm e))]
          exact ih.ready m hm
      · simpa using ih.cold m
    | failed n reason id noted created noted' created' hx h1 h2 h3 h4 h5 hxe =>
      have hr := ih.ready n fit
      rcases hrn : h.ready n with _ | r
      · exact absurd hrn hr
      obtain rfl := h1 r hrn
      have s1 := ih.hist.step (.begin h n r id noted created hrn h2 h3)
      rw [← hxe] at s1
      have s2 := s1.step (.outcome hx n .fail id noted' created' (by simp [hxe, upd]) (by simp) (by rw [hxe]; exact h4) h5)
      have s3 := die_step s2 n
      have e3 : upd (upd hx.phase n .ending) n .idle = upd h.phase n .idle := by
        rw [hxe]; funext m; unfold upd; split <;> simp_all
      refine ⟨?_, fun m hm => ?_, fun m hm => ?_, fun m => ?_⟩
      · simp only [e3] at s3
        simpa using s3
      · rw [going_append] at hm
        simp only [upd]
        split
        · rfl
        · exact ih.idle m hm
      · rw [armed_append] at hm
        simp only [armedStep] at hm
        split at hm
        · simp at hm
        · rename_i hne
          simp only [hxe, upd, if_neg (fun e => hne (Eq.symm e))]
          exact ih.ready m hm
      · simpa [hxe] using ih.cold m
    | stale n id noted created h1 h2 h3 =>
      refine ⟨ih.hist.step (.kill h n .fail id noted created (Or.inr rfl) h1 h2 h3), fun m hm => ?_, fun m hm => ?_, fun m => ?_⟩
      · rw [going_append] at hm
        simp only [upd]
        split
        · rfl
        · exact ih.idle m hm
      · rw [armed_append] at hm
        simp only [armedStep] at hm
        split at hm
        · simp at hm
        · rename_i hne
          simp only [upd, if_neg (fun e => hne (Eq.symm e))]
          exact ih.ready m hm
      · simpa using ih.cold m
    | over n i _ h1 h2 =>
      refine ⟨die_step ih.hist n, fun m hm => ?_, fun m hm => ?_, fun m => ?_⟩
      · simp only [upd]
        split
        · rfl
        · rename_i hne
          rw [going_over h1 hne] at hm
          exact ih.idle m hm
      · rw [armed_over h1] at hm
        exact ih.ready m hm
      · rw [List.mem_append, ih.cold m]
        rcases h1 with ⟨e, rfl, _⟩ | ⟨rfl, _⟩ | rfl <;> simp
    | nothing _ h1 =>
      rw [List.append_nil]
      refine ⟨ih.hist, fun m hm => ?_, fun m hm => ?_, fun m => ?_⟩
      · exact ih.idle m (by rw [← (h1 m).1]; exact hm)
      · exact ih.ready m (by rw [← (h1 m).2.1]; exact hm)
      · rw [List.mem_append, ih.cold m]
        have := (h1 m).2.2
        simp [Ne.symm this]

end Rocketry.Props
