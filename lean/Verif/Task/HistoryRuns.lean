import Verif.Task.HistorySpacing

/-!
# Start records: what holds for all tasks, also when records of child processes wait in the queue
-/

namespace Rocketry
open Props Spec

/-- Invariant about the cache and the start records of a task. -/
structure RInv (name : String) (h : HState) : Prop where
  cache : h.cold name = false → CacheOK h.log name
  times : ∀ r ∈ h.all, r.noted ≤ r.created ∧ r.created ≤ h.clock
  runs : h.log.repo.Pairwise (fun r s => OfAction name .run r → OfAction name .run s → r.created ≤ s.noted)
  queued : ∀ r ∈ h.queue, r.noted = r.created ∧ r.action ≠ .run
  ready : h.ready name ≠ none → h.cold name = false

theorem runs_add {R : Record → Record → Prop} {repo : List Record} {P : Record → Prop}
    (ho : repo.Pairwise (fun r s => P r → P s → R r s)) (x : Record) (hx : P x → ∀ r ∈ repo, P r → R r x) :
    (repo ++ [x]).Pairwise (fun r s => P r → P s → R r s) := by
  rw [List.pairwise_append]
  refine ⟨ho, List.pairwise_singleton _ _, ?_⟩
  intro r hr s hs h1 h2
  rw [List.mem_singleton.1 hs] at h2 ⊢
  exact hx h2 r hr h1

theorem rinv_step (S : Setup) (name : String) {h h' : HState} {e : Ev} (hs : HStep S h e h') (hi : RInv name h) :
    RInv name h' := by
  obtain ⟨i1, i2, i3, i4, i5⟩ := hi
  have norun : ∀ (n : String) (a : Action) (c t : Int) (id : Option String), a ≠ .run →
      (h.log.repo ++ [(⟨n, a, c, t, id⟩ : Record)]).Pairwise (fun r s => OfAction name .run r → OfAction name .run s → r.created ≤ s.noted) :=
    fun n a c t id ha => runs_add i3 _ (fun hx => absurd hx.2 ha)
  cases hs with
  | tick c hc => exact ⟨i1, fun r hr => ⟨(i2 r hr).1, by have := (i2 r hr).2; simp only []; omega⟩, i3, i4, i5⟩
  | check n reason first last h1 h2 h3 h4 h5 h6 =>
    refine ⟨i1, fun r hr => ⟨(i2 r hr).1, by have := (i2 r hr).2; simp only []; omega⟩, i3, i4, ?_⟩
    intro hr
    by_cases hn : name = n
    · subst hn; exact h4
    · simp only [upd_other _ _ _ _ hn] at hr; exact i5 hr
  | begin n reason id noted created h1 h2 h3 =>
    refine ⟨fun hc => set_cache _ _ _ _ _ _ _ _ (i1 hc), ?_, ?_, i4, ?_⟩
    · simp only [HState.all, HState.write, set_repo]
      exact times_write i2 _ _ ⟨h3, Int.le_refl _⟩ (by omega)
    · simp only [HState.write, set_repo]
      refine runs_add i3 _ (fun _ r hr _ => ?_)
      have := (i2 r (by simp [HState.all, hr])).2
      simp only []; omega
    · intro hr
      by_cases hn : name = n
      · subst hn; simp [upd_self] at hr
      · simp only [upd_other _ _ _ _ hn] at hr; exact i5 hr
  | outcome n a id noted created h1 h3 h4 h5 =>
    refine ⟨fun hc => set_cache _ _ _ _ _ _ _ _ (i1 hc), ?_, ?_, i4, i5⟩
    · simp only [HState.all, HState.write, set_repo]
      exact times_write i2 _ _ ⟨h5, Int.le_refl _⟩ (by omega)
    · simp only [HState.write, set_repo]; exact norun _ _ _ _ _ h3
  | more n a id noted created h1 h2 h3 h3' h4 h5 =>
    refine ⟨fun hc => set_cache _ _ _ _ _ _ _ _ (i1 hc), ?_, ?_, i4, i5⟩
    · simp only [HState.all, HState.write, set_repo]
      exact times_write i2 _ _ ⟨h5, Int.le_refl _⟩ (by omega)
    · simp only [HState.write, set_repo]; exact norun _ _ _ _ _ h3
  | put n a id created h1 h2 h3 h4 =>
    refine ⟨i1, ?_, i3, ?_, i5⟩
    · simp only [HState.all]
      exact times_put i2 _ _ ⟨Int.le_refl _, Int.le_refl _⟩ h4
    · intro r hr
      rcases List.mem_append.1 hr with hr | hr
      · exact i4 r hr
      · rw [List.mem_singleton.1 hr]; exact ⟨rfl, h3⟩
  | putMore n a id created h1 h2 h3 h3' h4 =>
    refine ⟨i1, ?_, i3, ?_, i5⟩
    · simp only [HState.all]
      exact times_put i2 _ _ ⟨Int.le_refl _, Int.le_refl _⟩ h4
    · intro r hr
      rcases List.mem_append.1 hr with hr | hr
      · exact i4 r hr
      · rw [List.mem_singleton.1 hr]; exact ⟨rfl, h3⟩
  | drain r q h1 =>
    have hr := i4 r (by rw [h1]; simp)
    refine ⟨fun hc => received_cache S.fromLogs _ _ _ _ _ _ (i1 hc), ?_, ?_, fun x hx => i4 x (by rw [h1]; simp [hx]), i5⟩
    · intro x hx
      simp only [HState.all, received_repo, List.append_assoc, List.singleton_append, List.mem_append, List.mem_cons] at hx
      rcases hx with hx | rfl | hx
      · exact i2 x (by simp [HState.all, hx])
      · have := i2 r (by simp [HState.all, h1]); simp only []; omega
      · exact i2 x (by simp [HState.all, h1, hx])
    · simp only [received_repo]; exact norun _ _ _ _ _ hr.2
  | die n h1 => exact ⟨i1, i2, i3, i4, i5⟩
  | kill n a id noted created h1 h2 h3 h4 =>
    refine ⟨fun hc => set_cache _ _ _ _ _ _ _ _ (i1 hc), ?_, ?_, i4, fun h => i5 (upd_none h).1⟩
    · simp only [HState.all, HState.write, set_repo]
      exact times_write i2 _ _ ⟨h4, Int.le_refl _⟩ (by omega)
    · simp only [HState.write, set_repo]; exact norun _ a _ _ _ (by rcases h1 with h1 | h1 <;> rw [h1] <;> decide)
  | reboot c hc =>
    refine ⟨fun h => absurd h (by simp), ?_, i3, by simp, by simp⟩
    intro r hr
    simp only [HState.all, List.append_nil] at hr
    have := i2 r (by simp [HState.all, hr])
    simp only []; omega
  | recover n noted created h1 h2 h3 =>
    refine ⟨?_, ?_, ?_, i4, ?_⟩
    · intro hc
      by_cases hn : name = n
      · subst hn; exact cached_cache _ _ _ _ _
      · simp only [upd_other _ _ _ _ hn] at hc
        exact cached_cache_other _ _ _ _ _ _ (Ne.symm hn) (i1 hc)
    · simp only [HState.all, cached_repo]
      split
      · exact times_write i2 _ _ ⟨h3, Int.le_refl _⟩ (by omega)
      · intro r hr
        have := i2 r hr
        omega
    · simp only [cached_repo]
      split
      · exact norun _ .crash _ _ _ (by decide)
      · exact i3
    · intro hr
      by_cases hn : name = n
      · subst hn; simp [upd_self]
      · simp only [upd_other _ _ _ _ hn]; exact i5 (upd_none hr).1
  | look op h1 =>
    refine ⟨fun hc => read_cache _ _ _ h1 _ (i1 hc), ?_, ?_, i4, i5⟩
    · simp only [HState.all, read_repo _ _ _ h1]; exact i2
    · simp only [read_repo _ _ _ h1]; exact i3

theorem rinv (S : Setup) (name : String) {es : List Ev} {h : HState} (hh : Hist S es h) : RInv name h := by
  induction hh with
  | init c => exact ⟨fun _ => ⟨fun _ _ => rfl, fun a r hr => absurd (isLatest_mem hr).1 (by simp [HState.init, LogWorld.fresh])⟩,
      by simp [HState.init, HState.all, LogWorld.fresh], by simp [HState.init, LogWorld.fresh], by simp [HState.init], by simp [HState.init]⟩
  | step _ hs ih => exact rinv_step S name hs ih

/-- What a start condition may rely on about the start records, in every history. -/
theorem seen_runs (S : Setup) (name : String) {es : List Ev} {h : HState} (hh : Hist S es h) (hc : h.cold name = false)
    {first : Int} (hf : h.clock ≤ first) : Seen h.log name .run first := by
  have hi := rinv S name hh
  exact ⟨hi.cache hc, fun r hr _ => by have := hi.times r (by simp [HState.all, hr]); omega, hi.runs⟩

/-- The start records of the task are pairwise related by `R`; once the task was found runnable, all are related to a
time not after the clock. -/
structure RunsSpaced (name : String) (R : Record → Int → Prop) (h : HState) : Prop where
  pairs : h.log.repo.Pairwise (fun r s => OfAction name .run r → OfAction name .run s → R r s.noted)
  guard : h.ready name ≠ none → ∃ n, n ≤ h.clock ∧ ∀ r ∈ h.log.repo, OfAction name .run r → R r n

/-- The start records of a task are spaced when its start condition demands it, in every history. -/
theorem spaced_runs (S : Setup) (name : String) (R : Record → Int → Prop) (hR : ∀ r n v, R r n → n ≤ v → R r v)
    (hS : ∀ reason first last w, S.start name reason first last w → Seen w name .run first →
      ∃ n, n ≤ last ∧ ∀ r ∈ w.repo, OfAction name .run r → R r n)
    {es : List Ev} {h : HState} (hh : Hist S es h) : RunsSpaced name R h := by
  induction hh with
  | init c => exact ⟨by simp [HState.init, LogWorld.fresh], by simp [HState.init]⟩
  | @step es h h' e hh hs ih =>
    obtain ⟨s1, s2⟩ := ih
    have hi := rinv S name hh
    have norun : ∀ (n : String) (a : Action) (c t : Int) (id : Option String), a ≠ .run →
        (h.log.repo ++ [(⟨n, a, c, t, id⟩ : Record)]).Pairwise (fun r s => OfAction name .run r → OfAction name .run s → R r s.noted) :=
      fun n a c t id ha => runs_add (R := fun r s => R r s.noted) s1 _ (fun hx => absurd hx.2 ha)
    have keep : ∀ (n : String) (a : Action) (c t : Int) (id : Option String) (clk : Int), a ≠ .run → h.clock ≤ clk →
        h.ready name ≠ none →
        ∃ m, m ≤ clk ∧ ∀ r ∈ h.log.repo ++ [⟨n, a, c, t, id⟩], OfAction name .run r → R r m := by
      intro n a c t id clk ha hc hg
      obtain ⟨m, k1, k2⟩ := s2 hg
      refine ⟨m, by omega, ?_⟩
      intro r hr hra
      rcases List.mem_append.1 hr with hr | hr
      · exact k2 r hr hra
      · rw [List.mem_singleton.1 hr] at hra; exact absurd hra.2 ha
    cases hs with
    | tick c hc =>
      refine ⟨s1, fun hg => ?_⟩
      obtain ⟨n, h1, h2⟩ := s2 hg
      exact ⟨n, by simp only []; omega, h2⟩
    | check n reason first last h1 h2 h3 h4 h5 h6 =>
      refine ⟨s1, fun hg => ?_⟩
      by_cases hn : name = n
      · subst hn
        exact hS reason first last h.log h6 (seen_runs S name hh h4 h1)
      · simp only [upd_other _ _ _ _ hn] at hg
        obtain ⟨m, k1, k2⟩ := s2 hg
        exact ⟨m, by simp only []; omega, k2⟩
    | begin n reason id noted created h1 h2 h3 =>
      by_cases hn : name = n
      · subst hn
        obtain ⟨m, k1, k2⟩ := s2 (by rw [h1]; simp)
        refine ⟨?_, fun hg => absurd (upd_self ..) hg⟩
        simp only [HState.write, set_repo]
        refine runs_add (R := fun r s => R r s.noted) s1 _ (fun _ r hr hra => hR _ _ _ (k2 r hr hra) ?_)
        simp only []; omega
      · have hx : ¬ OfAction name .run ⟨n, .run, created, noted, id⟩ := fun hx => hn hx.1.symm
        refine ⟨?_, fun hg => ?_⟩
        · simp only [HState.write, set_repo]
          exact runs_add (R := fun r s => R r s.noted) s1 _ (fun h => absurd h hx)
        · simp only [upd_other _ _ _ _ hn, HState.write, set_repo] at hg ⊢
          obtain ⟨m, k1, k2⟩ := s2 hg
          refine ⟨m, by omega, ?_⟩
          intro r hr hra
          rcases List.mem_append.1 hr with hr | hr
          · exact k2 r hr hra
          · rw [List.mem_singleton.1 hr] at hra; exact absurd hra hx
    | outcome n a id noted created h1 h3 h4 h5 =>
      refine ⟨?_, fun hg => ?_⟩ <;> simp only [HState.write, set_repo]
      · exact norun _ _ _ _ _ h3
      · exact keep _ _ _ _ _ _ h3 (by omega) hg
    | more n a id noted created h1 h2 h3 h3' h4 h5 =>
      refine ⟨?_, fun hg => ?_⟩ <;> simp only [HState.write, set_repo]
      · exact norun _ _ _ _ _ h3
      · exact keep _ _ _ _ _ _ h3 (by omega) hg
    | put n a id created h1 h2 h3 h4 =>
      refine ⟨s1, fun hg => ?_⟩
      obtain ⟨m, k1, k2⟩ := s2 hg
      exact ⟨m, by simp only []; omega, k2⟩
    | putMore n a id created h1 h2 h3 h3' h4 =>
      refine ⟨s1, fun hg => ?_⟩
      obtain ⟨m, k1, k2⟩ := s2 hg
      exact ⟨m, by simp only []; omega, k2⟩
    | drain r q h1 =>
      have hr := hi.queued r (by rw [h1]; simp)
      refine ⟨?_, fun hg => ?_⟩ <;> simp only [received_repo]
      · exact norun _ _ _ _ _ hr.2
      · exact keep _ _ _ _ _ _ hr.2 (Int.le_refl _) hg
    | die n h1 => exact ⟨s1, s2⟩
    | kill n a id noted created h1 h2 h3 h4 =>
      refine ⟨?_, fun hg => ?_⟩ <;> simp only [HState.write, set_repo]
      · exact norun _ a _ _ _ (by rcases h1 with h1 | h1 <;> rw [h1] <;> decide)
      · exact keep _ a _ _ _ _ (by rcases h1 with h1 | h1 <;> rw [h1] <;> decide) (by omega) (upd_none hg).1
    | reboot c hc => exact ⟨s1, by simp⟩
    | recover n noted created h1 h2 h3 =>
      refine ⟨?_, fun hg => ?_⟩ <;> simp only [cached_repo]
      · split
        · exact norun _ .crash _ _ _ (by decide)
        · exact s1
      · split
        · exact keep _ .crash _ _ _ _ (by decide) (by omega) (upd_none hg).1
        · obtain ⟨m, k1, k2⟩ := s2 (upd_none hg).1
          exact ⟨m, by omega, k2⟩
    | look op h1 =>
      refine ⟨?_, fun hg => ?_⟩ <;> simp only [read_repo _ _ _ h1]
      · exact s1
      · exact s2 hg

end Rocketry
