import Verif.Task.HistorySteps

/-!
# The cached times of all tasks come from their records, also before `set_cached`
-/

namespace Rocketry
open Props Spec

/-- Every cached time of a task is a time of one of its records. -/
def CacheFrom (w : LogWorld) : Prop := ∀ name a t, (w.mem name).last a = some t →
  ∃ r ∈ w.repo, OfAction name a r ∧ (t = r.noted ∨ t = r.created)

theorem cacheFrom_grow {w w' : LogWorld} (hw : CacheFrom w) (new : List Record) (hr : w'.repo = w.repo ++ new)
    (h : ∀ name a t, (w'.mem name).last a = some t → (w.mem name).last a = some t ∨ lastActionFromLog w.repo name a = some t ∨
      ∃ r ∈ new, OfAction name a r ∧ (t = r.noted ∨ t = r.created)) : CacheFrom w' := by
  intro name a t ht
  rw [hr]
  rcases h name a t ht with h | h | ⟨r, h1, h2⟩
  · obtain ⟨r, h1, h2⟩ := hw name a t h
    exact ⟨r, by simp [h1], h2⟩
  · by_cases hex : ∃ y ∈ w.repo, OfAction name a y
    · obtain ⟨y, hy, hp⟩ := hex
      obtain ⟨r, hr⟩ := exists_latest hy hp
      obtain ⟨hm, hp⟩ := isLatest_mem hr
      rw [lastFromLog_ok.2 r hr, Option.some.injEq] at h
      exact ⟨r, by simp [hm], hp, .inr h.symm⟩
    · rw [lastFromLog_ok.1 (fun r hr hp => hex ⟨r, hr, hp⟩)] at h
      cases h
  · exact ⟨r, by simp [h1], h2⟩

theorem cacheFrom_ok {w : LogWorld} {name : String} (h : CacheOK w name) {a : Action} {t : Int}
    (ht : (w.mem name).last a = some t) : ∃ r ∈ w.repo, OfAction name a r ∧ (t = r.noted ∨ t = r.created) := by
  by_cases hex : ∃ y ∈ w.repo, OfAction name a y
  · obtain ⟨y, hy, hp⟩ := hex
    obtain ⟨r, hr⟩ := exists_latest hy hp
    obtain ⟨hm, hp⟩ := isLatest_mem hr
    refine ⟨r, hm, hp, ?_⟩
    rcases h.last_some a r hr with h | h <;> rw [ht, Option.some.injEq] at h
    · exact .inl h
    · exact .inr h
  · rw [h.last_none a (fun r hr hp => hex ⟨r, hr, hp⟩)] at ht
    cases ht

theorem set_from (f : Bool) (w : LogWorld) (n : String) (a : Action) (id : Option String) (t c : Int) (hw : CacheFrom w) :
    CacheFrom (w.step f (.set n a id t c .ok)) := by
  refine cacheFrom_grow hw _ (set_repo ..) ?_
  intro name b u hu
  by_cases h : name = n
  · subst h
    rw [set_last] at hu
    split at hu
    · rename_i hb
      subst hb
      cases hu
      exact .inr (.inr ⟨_, List.mem_singleton.2 rfl, ⟨rfl, rfl⟩, .inl rfl⟩)
    · split at hu
      · rename_i hh
        rw [hh.2.2]
        exact .inr (.inl hu)
      · exact .inl hu
  · rw [set_other _ _ _ _ _ _ _ _ h] at hu
    exact .inl hu

theorem received_from (f : Bool) (w : LogWorld) (n : String) (a : Action) (id : Option String) (c : Int) (hw : CacheFrom w) :
    CacheFrom (w.step f (.received n a id c .ok)) := by
  refine cacheFrom_grow hw _ (received_repo ..) ?_
  intro name b u hu
  by_cases h : name = n
  · subst h
    rw [received_last] at hu
    split at hu
    · rename_i hb
      subst hb
      cases hu
      exact .inr (.inr ⟨_, List.mem_singleton.2 rfl, ⟨rfl, rfl⟩, .inl rfl⟩)
    · exact .inl hu
  · rw [received_other _ _ _ _ _ _ _ h] at hu
    exact .inl hu

theorem cached_from (f : Bool) (w : LogWorld) (n : String) (t c : Int) (hw : CacheFrom w) :
    CacheFrom (w.step f (.cached n t c .ok)) := by
  intro name b u hu
  by_cases h : name = n
  · subst h
    exact cacheFrom_ok (cached_cache f w name t c) hu
  · rw [cached_other _ _ _ _ _ _ h] at hu
    obtain ⟨r, h1, h2⟩ := hw name b u hu
    refine ⟨r, ?_, h2⟩
    rw [cached_repo]
    split <;> simp [h1]

theorem read_from (f : Bool) (w : LogWorld) (op : LogOp) (h : IsRead op) (hw : CacheFrom w) : CacheFrom (w.step f op) := by
  refine cacheFrom_grow hw [] (by simpa using read_repo f w op h) ?_
  intro name b u hu
  rcases read_last f w op h name b with e | e <;> rw [e] at hu
  · exact .inl hu
  · exact .inr (.inl hu)

/-- In every history. -/
theorem cacheFrom_hist (S : Setup) {es : List Ev} {h : HState} (hh : Hist S es h) : CacheFrom h.log := by
  induction hh with
  | init c => intro name a t ht; simp [HState.init, LogWorld.fresh, TaskMem.fresh] at ht
  | step _ hs ih =>
    cases hs with
    | tick c hc => exact ih
    | check => exact ih
    | begin => exact set_from _ _ _ _ _ _ _ ih
    | outcome => exact set_from _ _ _ _ _ _ _ ih
    | more => exact set_from _ _ _ _ _ _ _ ih
    | put => exact ih
    | putMore => exact ih
    | drain => exact received_from S.fromLogs _ _ _ _ _ ih
    | die => exact ih
    | kill => exact set_from _ _ _ _ _ _ _ ih
    | reboot => intro name a t ht; simp [TaskMem.fresh] at ht
    | recover => exact cached_from _ _ _ _ _ ih
    | look op h1 => exact read_from _ _ _ h1 ih

end Rocketry
