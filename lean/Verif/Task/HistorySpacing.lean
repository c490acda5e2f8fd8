import Verif.Task.HistoryLemmas

/-!
# Records of a task are spaced when its start condition looks at them
-/

namespace Rocketry
open Props Spec

/-- What a start condition may rely on: the task's cache and its records of action `a`, seen at time `first`. -/
structure Seen (w : LogWorld) (name : String) (a : Action) (first : Int) : Prop where
  cache : CacheOK w name
  times : ∀ r ∈ w.repo, r.task = name → r.noted ≤ r.created ∧ r.created ≤ first
  ordered : w.repo.Pairwise (fun r s => OfAction name a r → OfAction name a s → r.created ≤ s.noted)

/-- The records of the task with action `a` are pairwise related by `R`; while a run may still add one, all
existing ones are related to a time not after the clock. -/
structure Spaced (name : String) (a : Action) (R : Int → Int → Prop) (h : HState) : Prop where
  pairs : h.all.Pairwise (fun r s => OfAction name a r → OfAction name a s → R r.noted s.noted)
  guard : h.ready name ≠ none ∨ (a ≠ .run ∧ h.phase name = .running) →
    ∃ n, n ≤ h.clock ∧ ∀ r ∈ h.all, OfAction name a r → R r.noted n

theorem pairs_write {R : Int → Int → Prop} {name : String} {a : Action} {h : HState}
    (hp : h.all.Pairwise (fun r s => OfAction name a r → OfAction name a s → R r.noted s.noted)) (x : Record)
    (hx : OfAction name a x → h.NoneWaiting name ∧ ∀ r ∈ h.all, OfAction name a r → R r.noted x.noted) :
    (h.log.repo ++ [x] ++ h.queue).Pairwise (fun r s => OfAction name a r → OfAction name a s → R r.noted s.noted) := by
  unfold HState.all at hp hx
  rw [List.pairwise_append] at hp ⊢
  obtain ⟨h1, h2, h3⟩ := hp
  refine ⟨?_, h2, ?_⟩
  · rw [List.pairwise_append]
    refine ⟨h1, List.pairwise_singleton _ _, ?_⟩
    intro r hr s hs hra hsa
    rw [List.mem_singleton.1 hs] at hsa ⊢
    exact (hx hsa).2 r (by simp [hr]) hra
  · intro r hr s hs hra hsa
    rcases List.mem_append.1 hr with hr | hr
    · exact h3 r hr s hs hra hsa
    · rw [List.mem_singleton.1 hr] at hra
      exact absurd hsa.1 ((hx hra).1 s hs)

theorem guard_write {R : Int → Int → Prop} {name : String} {a : Action} {h : HState} (x : Record) (c : Int)
    (hg : ∃ n, n ≤ h.clock ∧ ∀ r ∈ h.all, OfAction name a r → R r.noted n) (hc : h.clock ≤ c) (hx : ¬ OfAction name a x) :
    ∃ n, n ≤ c ∧ ∀ r ∈ h.log.repo ++ [x] ++ h.queue, OfAction name a r → R r.noted n := by
  obtain ⟨n, h1, h2⟩ := hg
  refine ⟨n, by omega, ?_⟩
  intro r hr hra
  simp only [List.append_assoc, List.singleton_append, List.mem_append, List.mem_cons] at hr
  rcases hr with hr | rfl | hr
  · exact h2 r (by simp [HState.all, hr]) hra
  · exact absurd hra hx
  · exact h2 r (by simp [HState.all, hr]) hra

theorem spaced_step (S : Setup) (name : String) (hp : S.isProc name = false ∨ S.drained = true) (a : Action)
    (ha : a = .run ∨ a = .success) (R : Int → Int → Prop) (hR : ∀ u n v, R u n → n ≤ v → R u v)
    (hS : ∀ reason first last w, S.start name reason first last w → Seen w name a first →
      ∃ n, n ≤ last ∧ ∀ r ∈ w.repo, OfAction name a r → R r.noted n)
    {h h' : HState} {e : Ev} (hs : HStep S h e h') (hi : HInv S name h) (hsp : Spaced name a R h) : Spaced name a R h' := by
  obtain ⟨s1, s2⟩ := hsp
  have quiet : (S.drained = true → h.NoneWaiting name) → h.NoneWaiting name := by
    intro hd
    rcases hp with hp | hp
    · exact hi.noproc hp
    · exact hd hp
  cases hs with
  | tick c hc =>
    refine ⟨s1, fun hg => ?_⟩
    obtain ⟨n, h1, h2⟩ := s2 hg
    exact ⟨n, by simp only []; omega, h2⟩
  | check n reason first last h1 h2 h3 h4 h5 h6 =>
    refine ⟨s1, fun hg => ?_⟩
    by_cases hn : name = n
    · subst hn
      have hq := quiet h5
      obtain ⟨m, k1, k2⟩ := hS reason first last h.log h6 ⟨hi.cache h4, fun r hr ht => by
          have := hi.times r (by simp [HState.all, hr]); omega,
        (List.pairwise_append.1 hi.ordered).1.imp (fun h h1 h2 => h h1.1 h2.1)⟩
      refine ⟨m, k1, ?_⟩
      intro r hr hra
      rcases List.mem_append.1 hr with hr | hr
      · exact k2 r hr hra
      · exact absurd hra.1 (hq r hr)
    · simp only [upd_other _ _ _ _ hn] at hg
      obtain ⟨m, k1, k2⟩ := s2 hg
      exact ⟨m, by simp only []; omega, k2⟩
  | begin n reason id noted created h1 h2 h3 =>
    by_cases hn : name = n
    · subst hn
      have hr := hi.ready (by rw [h1]; simp)
      obtain ⟨m, k1, k2⟩ := s2 (Or.inl (by rw [h1]; simp))
      refine ⟨?_, ?_⟩
      · simp only [HState.all, HState.write, set_repo]
        refine pairs_write s1 _ (fun _ => ⟨hr.2.2, fun r hr' hra => hR _ _ _ (k2 r hr' hra) ?_⟩)
        simp only []; omega
      · intro hg
        simp only [upd_self, HState.all, HState.write, set_repo] at hg ⊢
        rcases hg with hg | hg
        · exact absurd rfl hg
        · exact guard_write _ _ ⟨m, k1, k2⟩ (by omega) (fun hx => hg.1 hx.2.symm)
    · have hx : ¬ OfAction name a ⟨n, .run, created, noted, id⟩ := fun hx => hn hx.1.symm
      refine ⟨?_, ?_⟩
      · simp only [HState.all, HState.write, set_repo]
        exact pairs_write s1 _ (fun h => absurd h hx)
      · intro hg
        simp only [upd_other _ _ _ _ hn, HState.all, HState.write, set_repo] at hg ⊢
        exact guard_write _ _ (s2 hg) (by omega) hx
  | outcome n b id noted created h1 h3 h4 h5 =>
    by_cases hn : name = n
    · subst hn
      refine ⟨?_, ?_⟩
      · simp only [HState.all, HState.write, set_repo]
        refine pairs_write s1 _ (fun hx => ⟨hi.running h1, ?_⟩)
        obtain ⟨m, k1, k2⟩ := s2 (Or.inr ⟨fun e => h3 (hx.2.trans e), h1⟩)
        intro r hr hra
        exact hR _ _ _ (k2 r hr hra) (by simp only []; omega)
      · intro hg
        simp only [upd_self] at hg
        rcases hg with hg | hg
        · have := (hi.ready hg).1; rw [h1] at this; exact absurd this (by simp)
        · exact absurd hg.2 (by simp)
    · have hx : ¬ OfAction name a ⟨n, b, created, noted, id⟩ := fun hx => hn hx.1.symm
      refine ⟨?_, ?_⟩
      · simp only [HState.all, HState.write, set_repo]
        exact pairs_write s1 _ (fun h => absurd h hx)
      · intro hg
        simp only [upd_other _ _ _ _ hn, HState.all, HState.write, set_repo] at hg ⊢
        exact guard_write _ _ (s2 hg) (by omega) hx
  | more n b id noted created h1 h2 h3 h3' h4 h5 =>
    have hx : ¬ OfAction name a ⟨n, b, created, noted, id⟩ := by
      intro hx
      have e : b = a := hx.2
      rcases ha with ha | ha
      · exact h3 (e.trans ha)
      · exact h3' (e.trans ha)
    refine ⟨?_, ?_⟩
    · simp only [HState.all, HState.write, set_repo]
      exact pairs_write s1 _ (fun h => absurd h hx)
    · intro hg
      simp only [HState.all, HState.write, set_repo] at hg ⊢
      exact guard_write _ _ (s2 hg) (by omega) hx
  | put n b id created h1 h2 h3 h4 =>
    refine ⟨?_, ?_⟩
    · simp only [HState.all]
      rw [← List.append_assoc, List.pairwise_append]
      refine ⟨s1, List.pairwise_singleton _ _, ?_⟩
      intro r hr s hs' hra hsa
      rw [List.mem_singleton.1 hs'] at hsa ⊢
      have hn : n = name := hsa.1
      subst hn
      obtain ⟨m, k1, k2⟩ := s2 (Or.inr ⟨fun e => h3 (hsa.2.trans e), h1⟩)
      exact hR _ _ _ (k2 r hr hra) (by simp only []; omega)
    · intro hg
      by_cases hn : name = n
      · subst hn
        simp only [upd_self] at hg
        rcases hg with hg | hg
        · have := (hi.ready hg).1; rw [h1] at this; exact absurd this (by simp)
        · exact absurd hg.2 (by simp)
      · simp only [upd_other _ _ _ _ hn] at hg
        obtain ⟨m, k1, k2⟩ := s2 hg
        refine ⟨m, by simp only []; omega, ?_⟩
        intro r hr hra
        simp only [HState.all] at hr
        rw [← List.append_assoc] at hr
        rcases List.mem_append.1 hr with hr | hr
        · exact k2 r hr hra
        · rw [List.mem_singleton.1 hr] at hra; exact absurd hra.1.symm hn
  | putMore n b id created h1 h2 h3 h3' h4 =>
    have hx : ¬ OfAction name a ⟨n, b, created, created, id⟩ := by
      intro hx
      have e : b = a := hx.2
      rcases ha with ha | ha
      · exact h3 (e.trans ha)
      · exact h3' (e.trans ha)
    refine ⟨?_, ?_⟩
    · simp only [HState.all]
      rw [← List.append_assoc, List.pairwise_append]
      refine ⟨s1, List.pairwise_singleton _ _, ?_⟩
      intro r hr s hs' hra hsa
      rw [List.mem_singleton.1 hs'] at hsa
      exact absurd hsa hx
    · intro hg
      obtain ⟨m, k1, k2⟩ := s2 hg
      refine ⟨m, by simp only []; omega, ?_⟩
      intro r hr hra
      simp only [HState.all] at hr
      rw [← List.append_assoc] at hr
      rcases List.mem_append.1 hr with hr | hr
      · exact k2 r hr hra
      · rw [List.mem_singleton.1 hr] at hra; exact absurd hra hx
  | drain r q h1 =>
    have hr := hi.queued r (by rw [h1]; simp)
    have e : (⟨r.task, r.action, r.created, r.created, r.runId⟩ : Record) = r := by
      obtain ⟨a, b, c, d, f⟩ := r
      simp only [] at hr
      rw [hr.1]
    have e2 : h.log.repo ++ [⟨r.task, r.action, r.created, r.created, r.runId⟩] ++ q = h.all := by
      rw [e]; simp [HState.all, h1]
    refine ⟨?_, ?_⟩
    · simp only [HState.all, received_repo]
      rw [e2]; exact s1
    · intro hg
      simp only [HState.all, received_repo] at hg ⊢
      rw [e2]; exact s2 hg
  | die n h1 =>
    refine ⟨s1, ?_⟩
    intro hg
    by_cases hn : name = n
    · subst hn
      simp only [upd_self] at hg
      rcases hg with hg | hg
      · exact s2 (Or.inl hg)
      · exact absurd hg.2 (by simp)
    · simp only [upd_other _ _ _ _ hn] at hg
      exact s2 hg
  | kill n b id noted created h1 h2 h3 h4 =>
    have hx : ¬ OfAction name a ⟨n, b, created, noted, id⟩ := by
      intro hx
      have e : b = a := hx.2
      subst e
      rcases ha with ha | ha <;> rcases h1 with h1 | h1 <;> rw [ha] at h1 <;> exact absurd h1 (by decide)
    refine ⟨?_, ?_⟩
    · simp only [HState.all, HState.write, set_repo]
      exact pairs_write s1 _ (fun h => absurd h hx)
    · intro hg
      simp only [HState.all, HState.write, set_repo] at hg ⊢
      refine guard_write _ _ (s2 ?_) (by omega) hx
      by_cases hn : name = n
      · subst hn
        simp only [upd_self] at hg
        rcases hg with hg | hg
        · exact absurd rfl hg
        · exact absurd hg.2 (by simp)
      · simp only [upd_other _ _ _ _ hn] at hg
        exact hg
  | reboot c hc =>
    refine ⟨?_, by simp⟩
    simp only [HState.all, List.append_nil]
    exact (List.pairwise_append.1 s1).1
  | recover n noted created h1 h2 h3 =>
    have hx : ¬ OfAction name a ⟨n, .crash, created, noted, none⟩ := by
      intro hx
      have e : Action.crash = a := hx.2
      rcases ha with ha | ha <;> rw [ha] at e <;> exact absurd e (by decide)
    refine ⟨?_, ?_⟩
    · simp only [HState.all, cached_repo]
      split
      · exact pairs_write s1 _ (fun h => absurd h hx)
      · exact s1
    · intro hg
      simp only [HState.all, cached_repo] at hg ⊢
      have hg := hg.imp_left (fun h => (upd_none h).1)
      split
      · exact guard_write _ _ (s2 hg) (by omega) hx
      · obtain ⟨m, k1, k2⟩ := s2 hg
        exact ⟨m, by omega, k2⟩
  | look op h1 =>
    refine ⟨?_, ?_⟩
    · simp only [HState.all, read_repo _ _ _ h1]; exact s1
    · intro hg
      simp only [HState.all, read_repo _ _ _ h1] at hg ⊢; exact s2 hg

theorem spaced (S : Setup) (name : String) (hp : S.isProc name = false ∨ S.drained = true) (a : Action)
    (ha : a = .run ∨ a = .success) (R : Int → Int → Prop) (hR : ∀ u n v, R u n → n ≤ v → R u v)
    (hS : ∀ reason first last w, S.start name reason first last w → Seen w name a first →
      ∃ n, n ≤ last ∧ ∀ r ∈ w.repo, OfAction name a r → R r.noted n)
    {es : List Ev} {h : HState} (hh : Hist S es h) :
    h.all.Pairwise (fun r s => OfAction name a r → OfAction name a s → R r.noted s.noted) := by
  have : Spaced name a R h := by
    induction hh with
    | init c => exact ⟨by simp [HState.init, HState.all, LogWorld.fresh], by simp [HState.init]⟩
    | step hh' hs ih => exact spaced_step S name hp a ha R hR hS hs (hinv S name hp hh') ih
  exact this.pairs

end Rocketry
