import Verif.Task.HistorySteps
import Verif.Task.Conditions

/-!
# C32: tasks started after other tasks
-/

namespace Rocketry.Props
open Spec

/-- The record is a matching completion of the task. -/
def Completion (name : String) (acts : List Action) (r : Record) : Prop := r.task = name ∧ r.action ∈ acts

instance (name : String) (acts : List Action) : DecidablePred (Completion name acts) := fun r => by
  unfold Completion; infer_instance

/-- Number of records with the property. -/
def countRecords (P : Record → Prop) [DecidablePred P] (repo : List Record) : Nat := (repo.filter (fun r => decide (P r))).length

theorem countRecords_append (P : Record → Prop) [DecidablePred P] (l m : List Record) :
    countRecords P (l ++ m) = countRecords P l + countRecords P m := by simp [countRecords]

theorem countRecords_none {P : Record → Prop} [DecidablePred P] {l : List Record} (h : ∀ x ∈ l, ¬ P x) : countRecords P l = 0 := by
  unfold countRecords
  rw [List.length_eq_zero_iff, List.filter_eq_nil_iff]
  simpa using h

/-- What a true `DependMixin.get_state` means for a log whose start records of the task are in order. -/
theorem depend_true {repo : List Record} {actual depend : String} {acts : List Action} (h : dependState repo actual depend acts = true)
    (ho : Ordered repo (OfAction actual .run)) :
    ∃ c ∈ repo, Completion depend acts c ∧ ∀ r ∈ repo, OfAction actual .run r → r.created < c.created := by
  unfold dependState at h
  cases hf : latestBy repo depend (fun r => decide (r.action ∈ acts)) with
  | none => rw [hf] at h; simp at h
  | some f =>
    rw [hf] at h
    have hfm := isLatest_mem (latestBy_spec.1 hf)
    have hfc : Completion depend acts f := ⟨hfm.2.1, by simpa using hfm.2.2⟩
    refine ⟨f, hfm.1, hfc, ?_⟩
    intro r hr hra
    cases hs : latestBy repo actual (isAction .run) with
    | none => exact absurd (isAction_iff.2 hra) (latestBy_none.1 hs r hr)
    | some s =>
      rw [hs] at h
      simp only [decide_eq_true_eq] at h
      have hsl : IsLatest repo (OfAction actual .run) s := by
        obtain ⟨pre, post, e, h2, h3⟩ := latestBy_spec.1 hs
        exact ⟨pre, post, e, isAction_iff.1 h2, fun x hx hp => h3 x hx (isAction_iff.2 hp)⟩
      have : r.created ≤ s.created := by
        obtain ⟨pre, post, rfl, h2, h3⟩ := hsl
        rcases List.mem_append.1 hr with hr | hr
        · exact (List.pairwise_append.1 ho).2.2 r hr s (by simp) hra h2
        · rcases List.mem_cons.1 hr with rfl | hr
          · exact Int.le_refl _
          · exact absurd hra (h3 r hr)
      omega

/-- C32, the condition: for every log in which the matching completions of `depend` and the starts of `actual` are in
the order of their times, it holds exactly when there is a matching completion later than every start of `actual`. -/
theorem C32_state (repo : List Record) (actual depend : String) (acts : List Action)
    (ho : Ordered repo (OfAction actual .run)) (hc : Ordered repo (Completion depend acts)) :
    dependState repo actual depend acts = true ↔
      ∃ c ∈ repo, Completion depend acts c ∧ ∀ r ∈ repo, OfAction actual .run r → r.created < c.created := by
  constructor
  · exact fun h => depend_true h ho
  · rintro ⟨c, hcm, hcc, hlater⟩
    unfold dependState
    cases hf : latestBy repo depend (fun r => decide (r.action ∈ acts)) with
    | none => exact absurd ⟨hcc.1, by simpa using hcc.2⟩ (latestBy_none.1 hf c hcm)
    | some f =>
      simp only []
      cases hs : latestBy repo actual (isAction .run) with
      | none => rfl
      | some s =>
        have hsm := isLatest_mem (latestBy_spec.1 hs)
        have h1 := hlater s hsm.1 (isAction_iff.1 hsm.2)
        have h2 : c.created ≤ f.created := by
          obtain ⟨pre, post, e, k2, k3⟩ := latestBy_spec.1 hf
          subst e
          have k2' : Completion depend acts f := ⟨k2.1, by simpa using k2.2⟩
          rcases List.mem_append.1 hcm with hr | hr
          · exact (List.pairwise_append.1 hc).2.2 c hr f (by simp) hcc k2'
          · rcases List.mem_cons.1 hr with rfl | hr
            · exact Int.le_refl _
            · exact absurd ⟨hcc.1, by simpa using hcc.2⟩ (k3 c hr)
        simp only [decide_eq_true_eq]
        omega

/-- C32, the three conditions: which completions count. -/
theorem C32_conditions (repo : List Record) (actual depend : String) (ho : Ordered repo (OfAction actual .run))
    (hc : Ordered repo (fun r => r.task = depend)) :
    (dependState repo actual depend dependSuccess = true ↔
      ∃ c ∈ repo, c.task = depend ∧ c.action = .success ∧ ∀ r ∈ repo, OfAction actual .run r → r.created < c.created) ∧
    (dependState repo actual depend dependFailure = true ↔
      ∃ c ∈ repo, c.task = depend ∧ c.action = .fail ∧ ∀ r ∈ repo, OfAction actual .run r → r.created < c.created) ∧
    (dependState repo actual depend dependFinish = true ↔
      ∃ c ∈ repo, c.task = depend ∧ (c.action = .success ∨ c.action = .fail) ∧
        ∀ r ∈ repo, OfAction actual .run r → r.created < c.created) := by
  have h := fun acts => C32_state repo actual depend acts ho (hc.imp (fun h h1 h2 => h h1.1 h2.1))
  refine ⟨?_, ?_, ?_⟩ <;> rw [h] <;>
    simp [Completion, dependSuccess, dependFailure, dependFinish, and_assoc]

/-- The three conditions: `after_finish` is any of success and failure (a termination is not a finish). -/
example :
    let repo : List Record := [⟨"a", .run, 1, 1, none⟩, ⟨"a", .fail, 2, 2, none⟩, ⟨"b", .run, 3, 3, none⟩,
      ⟨"a", .run, 4, 4, none⟩, ⟨"a", .success, 5, 5, none⟩]
    Ordered repo (OfAction "b" .run) ∧ Ordered repo (Completion "a" dependFinish) ∧
    dependState repo "b" "a" dependFinish = true ∧ dependState repo "b" "a" dependSuccess = true ∧
    dependState repo "b" "a" dependFailure = false := by
  simp only [Ordered]; decide

/-- Invariant of the histories. -/
structure Served (actual : String) (Q : Record → Prop) (h : HState) : Prop where
  first : ∀ s ∈ h.log.repo, OfAction actual .run s → ∃ c ∈ h.log.repo, Q c ∧ c.created ≤ s.noted
  between : h.log.repo.Pairwise (fun r s => OfAction actual .run r → OfAction actual .run s →
    ∃ c ∈ h.log.repo, Q c ∧ r.created < c.created ∧ c.created ≤ s.noted)
  count : ∃ cs : List Record, cs.length = countRecords (OfAction actual .run) h.log.repo ∧
    cs.Pairwise (fun c d => c.created < d.created) ∧
    ∀ c ∈ cs, c ∈ h.log.repo ∧ Q c ∧ ∃ r ∈ h.log.repo, OfAction actual .run r ∧ c.created ≤ r.noted
  guard : h.ready actual ≠ none → ∃ c ∈ h.log.repo, Q c ∧ c.created ≤ h.clock ∧
    ∀ r ∈ h.log.repo, OfAction actual .run r → r.created < c.created

/-- It is enough that at every check there is such a record, later than every start. -/
theorem served (S : Setup) (actual : String) (Q : Record → Prop)
    (hS : ∀ reason first last w, S.start actual reason first last w → Ordered w.repo (OfAction actual .run) →
      ∃ c ∈ w.repo, Q c ∧ ∀ r ∈ w.repo, OfAction actual .run r → r.created < c.created)
    {es : List Ev} {h : HState} (hh : Hist S es h) : Served actual Q h := by
  induction hh with
  | init c =>
    exact ⟨by simp [HState.init, LogWorld.fresh], by simp [HState.init, LogWorld.fresh],
      ⟨[], by simp [countRecords, HState.init, LogWorld.fresh]⟩, by simp [HState.init]⟩
  | @step es h h' e hh hs ih =>
    obtain ⟨i1, i2, i3, i4⟩ := ih
    have hi := rinv S actual hh
    have hordered : Ordered h.log.repo (OfAction actual .run) :=
      hi.runs.imp_of_mem (fun {r s} _ hs' h h1 h2 => by
        have := h h1 h2
        have := (hi.times s (by simp [HState.all, hs'])).1
        omega)
    rcases step_kinds S actual hs hi with hq | ⟨reason, hq⟩ | ⟨reason, _, hq⟩
    · obtain ⟨⟨new, hr, hn⟩, hclk, hready⟩ := hq
      refine ⟨?_, ?_, ?_, ?_⟩
      · rw [hr]
        intro s hs' hsa
        rcases List.mem_append.1 hs' with hs' | hs'
        · obtain ⟨c, h1, h2⟩ := i1 s hs' hsa
          exact ⟨c, by simp [h1], h2⟩
        · exact absurd hsa (hn s hs')
      · rw [hr, List.pairwise_append]
        refine ⟨i2.imp (fun h h1 h2 => ?_), ?_, ?_⟩
        · obtain ⟨c, k1, k2⟩ := h h1 h2
          exact ⟨c, by simp [k1], k2⟩
        · exact List.pairwise_of_forall_mem_list (fun r hr' s _ h1 _ => absurd h1 (hn r hr'))
        · intro r _ s hs' _ h2
          exact absurd h2 (hn s hs')
      · obtain ⟨cs, k1, k2, k3⟩ := i3
        refine ⟨cs, ?_, k2, ?_⟩
        · rw [hr, countRecords_append, countRecords_none hn]; simpa using k1
        · rw [hr]
          intro c hc
          obtain ⟨m1, m2, r, m3, m4⟩ := k3 c hc
          exact ⟨by simp [m1], m2, r, by simp [m3], m4⟩
      · intro hg
        obtain ⟨c, k1, k2, k3, k4⟩ := i4 (by rw [← hready hg]; exact hg)
        rw [hr]
        refine ⟨c, by simp [k1], k2, by omega, ?_⟩
        intro r hr' hra
        rcases List.mem_append.1 hr' with hr' | hr'
        · exact k4 r hr' hra
        · exact absurd hra (hn r hr')
    · obtain ⟨⟨first, f1, f2, f3⟩, hlog, _, _⟩ := hq
      refine ⟨by rw [hlog]; exact i1, by rw [hlog]; exact i2, by rw [hlog]; exact i3, ?_⟩
      intro _
      obtain ⟨c, k1, k2, k3⟩ := hS _ _ _ _ f3 hordered
      rw [hlog]
      exact ⟨c, k1, k2, by have := (hi.times c (by simp [HState.all, k1])).2; omega, k3⟩
    · obtain ⟨hwas, ⟨id, noted, n1, n2, hr⟩, hready⟩ := hq
      obtain ⟨c, k1, k2, k3, k4⟩ := i4 (by rw [hwas]; simp)
      refine ⟨?_, ?_, ?_, by rw [hready]; simp⟩
      · rw [hr]
        intro s hs' hsa
        rcases List.mem_append.1 hs' with hs' | hs'
        · obtain ⟨c, h1, h2⟩ := i1 s hs' hsa
          exact ⟨c, by simp [h1], h2⟩
        · rw [List.mem_singleton.1 hs']
          exact ⟨c, by simp [k1], k2, by simp only []; omega⟩
      · rw [hr, List.pairwise_append]
        refine ⟨i2.imp (fun h h1 h2 => ?_), List.pairwise_singleton _ _, ?_⟩
        · obtain ⟨c, k1, k2⟩ := h h1 h2
          exact ⟨c, by simp [k1], k2⟩
        · intro r hr' s hs' h1 h2
          rw [List.mem_singleton.1 hs']
          exact ⟨c, by simp [k1], k2, k4 r hr' h1, by simp only []; omega⟩
      · obtain ⟨cs, m1, m2, m3⟩ := i3
        refine ⟨cs ++ [c], ?_, ?_, ?_⟩
        · rw [hr, countRecords_append, ← m1]
          simp [countRecords, OfAction]
        · rw [List.pairwise_append]
          refine ⟨m2, List.pairwise_singleton _ _, ?_⟩
          intro d hd x hx
          rw [List.mem_singleton.1 hx]
          obtain ⟨_, _, r, p1, p2, p3⟩ := m3 d hd
          have := k4 r p1 p2
          have := (hi.times r (by simp [HState.all, p1])).1
          omega
        · rw [hr]
          intro d hd
          rcases List.mem_append.1 hd with hd | hd
          · obtain ⟨p1, p2, r, p3, p4⟩ := m3 d hd
            exact ⟨by simp [p1], p2, r, by simp [p3], p4⟩
          · rw [List.mem_singleton.1 hd]
            refine ⟨by simp [k1], k2, _, List.mem_append_right _ (List.mem_singleton.2 rfl), ⟨rfl, rfl⟩, ?_⟩
            simp only []; omega

/-- C32, histories: in every history of a session in which the task `actual` is started by `after_…(depend)` only, with
any interleaving, execution types, outcomes, restarts and late records,
* before every start of `actual` a matching completion of `depend` was logged, and between two starts another one;
* the number of starts of `actual` does not exceed the number of matching completions of `depend`. -/
theorem C32_history (S : Setup) (actual depend : String) (acts : List Action)
    (hS : ∀ reason first last w, S.start actual reason first last w → dependState w.repo actual depend acts = true)
    {es : List Ev} {h : HState} (hh : Hist S es h) :
    (∀ s ∈ h.log.repo, OfAction actual .run s → ∃ c ∈ h.log.repo, Completion depend acts c ∧ c.created ≤ s.noted) ∧
    h.log.repo.Pairwise (fun r s => OfAction actual .run r → OfAction actual .run s →
      ∃ c ∈ h.log.repo, Completion depend acts c ∧ r.created < c.created ∧ c.created ≤ s.noted) ∧
    countRecords (OfAction actual .run) h.log.repo ≤ countRecords (Completion depend acts) h.log.repo := by
  obtain ⟨i1, i2, ⟨cs, k1, k2, k3⟩, _⟩ := served S actual (Completion depend acts)
    (fun _ _ _ _ h ho => depend_true (hS _ _ _ _ h) ho) hh
  refine ⟨i1, i2, ?_⟩
  rw [← k1]
  refine nodup_length_le cs _ ?_ ?_
  · exact k2.imp (fun {a b} h e => by rw [e] at h; exact absurd h (Int.lt_irrefl _))
  · intro c hc
    obtain ⟨m1, m2, _⟩ := k3 c hc
    exact List.mem_filter.2 ⟨m1, by simpa using m2⟩

/-- The session of the examples: "a" may always start, "b" after each success of "a". -/
def afterSetup : Setup where
  fromLogs := false
  start := fun name _ _ _ w => name = "a" ∨ (name = "b" ∧ dependState w.repo "b" "a" dependSuccess = true)
  isProc := fun _ => false
  drained := false

/-- Non-vacuity: a history in which "b" is started after "a". -/
example : ∃ es h, Hist afterSetup es h ∧ countRecords (OfAction "b" .run) h.log.repo = 1 := by
  have h0 := Hist.init (S := afterSetup) 1
  have h1 := h0.step (.check _ "a" 0 2 2 (by decide) (by decide) (by decide) (by decide) (by simp [afterSetup]) (Or.inl rfl))
  have h2 := h1.step (.begin _ "a" 0 none 3 3 (by decide) (by decide) (by decide))
  have h3 := h2.step (.outcome _ "a" .success none 4 4 (by decide) (by decide) (by decide) (by decide))
  have h4 := h3.step (.check _ "b" 0 5 5 (by decide) (by decide) (by decide) (by decide) (by simp [afterSetup])
    (Or.inr ⟨rfl, by decide +kernel⟩))
  have h5 := h4.step (.begin _ "b" 0 none 6 6 (by decide) (by decide) (by decide))
  exact ⟨_, _, h5, by decide +kernel⟩

end Rocketry.Props
