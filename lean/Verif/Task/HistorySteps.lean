import Verif.Task.HistoryRuns

/-!
# The steps of a history as they concern the starts of one task
-/

namespace Rocketry
open Props Spec

/-- A step that neither checks the task successfully nor starts it. -/
structure Quiet (name : String) (h h' : HState) : Prop where
  grows : ∃ new, h'.log.repo = h.log.repo ++ new ∧ ∀ x ∈ new, ¬ OfAction name .run x
  clock : h.clock ≤ h'.clock
  ready : h'.ready name ≠ none → h'.ready name = h.ready name

/-- The task was found runnable. -/
structure Checked (S : Setup) (name : String) (reason : Nat) (h h' : HState) : Prop where
  held : ∃ first, h.clock ≤ first ∧ first ≤ h'.clock ∧ S.start name reason first h'.clock h.log
  log : h'.log = h.log
  cold : h.cold name = false
  idle : h.phase name = .idle

/-- The task is started. -/
structure Begun (name : String) (reason : Nat) (h h' : HState) : Prop where
  was : h.ready name = some reason
  wrote : ∃ id noted, h.clock ≤ noted ∧ noted ≤ h'.clock ∧
    h'.log.repo = h.log.repo ++ [⟨name, .run, h'.clock, noted, id⟩]
  ready : h'.ready name = none

theorem step_kinds (S : Setup) (name : String) {h h' : HState} {e : Ev} (hs : HStep S h e h') (hi : RInv name h) :
    Quiet name h h' ∨ (∃ reason, Checked S name reason h h') ∨ (∃ reason, e = .began name reason ∧ Begun name reason h h') := by
  have one : ∀ (n : String) (a : Action) (c t : Int) (id : Option String), a ≠ .run →
      ∀ x ∈ [(⟨n, a, c, t, id⟩ : Record)], ¬ OfAction name .run x := by
    intro n a c t id ha x hx hp
    rw [List.mem_singleton.1 hx] at hp
    exact ha hp.2
  cases hs with
  | tick c hc => exact Or.inl ⟨⟨[], by simp, by simp⟩, hc, fun _ => rfl⟩
  | check n reason first last h1 h2 h3 h4 h5 h6 =>
    by_cases hn : name = n
    · subst hn
      exact Or.inr (Or.inl ⟨reason, ⟨first, h1, h2, h6⟩, rfl, h4, h3⟩)
    · exact Or.inl ⟨⟨[], by simp, by simp⟩, by simp only []; omega, fun _ => upd_other _ _ _ _ hn⟩
  | begin n reason id noted created h1 h2 h3 =>
    by_cases hn : name = n
    · subst hn
      exact Or.inr (Or.inr ⟨reason, rfl, h1, ⟨id, noted, h2, h3, by simp [HState.write, set_repo]⟩, upd_self ..⟩)
    · refine Or.inl ⟨⟨_, set_repo .., ?_⟩, by simp only []; omega, fun _ => upd_other _ _ _ _ hn⟩
      intro x hx hp
      rw [List.mem_singleton.1 hx] at hp
      exact hn hp.1.symm
  | outcome n a id noted created h1 h3 h4 h5 =>
    exact Or.inl ⟨⟨_, set_repo .., one _ _ _ _ _ h3⟩, by simp only []; omega, fun _ => rfl⟩
  | more n a id noted created h1 h2 h3 h3' h4 h5 =>
    exact Or.inl ⟨⟨_, set_repo .., one _ _ _ _ _ h3⟩, by simp only []; omega, fun _ => rfl⟩
  | put n a id created h1 h2 h3 h4 => exact Or.inl ⟨⟨[], by simp, by simp⟩, h4, fun _ => rfl⟩
  | putMore n a id created h1 h2 h3 h3' h4 => exact Or.inl ⟨⟨[], by simp, by simp⟩, h4, fun _ => rfl⟩
  | drain r q h1 =>
    have hr := hi.queued r (by rw [h1]; simp)
    exact Or.inl ⟨⟨_, received_repo S.fromLogs .., one _ _ _ _ _ hr.2⟩, Int.le_refl _, fun _ => rfl⟩
  | die n h1 => exact Or.inl ⟨⟨[], by simp, by simp⟩, Int.le_refl _, fun _ => rfl⟩
  | kill n a id noted created h1 h2 h3 h4 =>
    exact Or.inl ⟨⟨_, set_repo .., one _ _ _ _ _ (by rcases h1 with h1 | h1 <;> rw [h1] <;> decide)⟩, by simp only []; omega,
      fun h => (upd_none h).2⟩
  | reboot c hc => exact Or.inl ⟨⟨[], by simp, by simp⟩, hc, fun h => absurd rfl h⟩
  | recover n noted created h1 h2 h3 =>
    refine Or.inl ⟨?_, by simp only []; omega, fun h => (upd_none h).2⟩
    rw [cached_repo]
    split
    · exact ⟨_, rfl, one _ _ _ _ _ (by decide)⟩
    · exact ⟨[], by simp, by simp⟩
  | look op h1 => exact Or.inl ⟨⟨[], by simp [read_repo _ _ _ h1], by simp⟩, Int.le_refl _, fun _ => rfl⟩

/-- Distinct members are no more than all. -/
theorem nodup_length_le {α : Type} [DecidableEq α] : ∀ (l m : List α), l.Nodup → (∀ x ∈ l, x ∈ m) → l.length ≤ m.length := by
  intro l
  induction l with
  | nil => intro m _ _; simp
  | cons a l ih =>
    intro m hn hm
    obtain ⟨h1, h2⟩ := List.nodup_cons.1 hn
    have ha := hm a (by simp)
    have := ih (m.erase a) h2 (fun x hx => (List.mem_erase_of_ne (by rintro rfl; exact h1 hx)).2 (hm x (by simp [hx])))
    rw [List.length_erase_of_mem ha] at this
    have : 0 < m.length := List.length_pos_of_mem ha
    simp only [List.length_cons]
    omega

end Rocketry
