import Verif.Spec.HooksSpec

/-!
# Property C52: hooks wrap a run
-/

namespace Rocketry.Props
open Rocketry.Hooks Rocketry.Spec

variable {α : Type}

theorem prerun_ok : ∀ (hs : List Hook), (∀ h ∈ hs, PreOk h) → ∃ kept, prerun (α := α) hs
      = (hs.map (fun h => .pre h.id), kept, false) ∧ kept.filter HasPost = hs.filter HasPost
  | [], _ => ⟨[], rfl, rfl⟩
  | h :: hs, hok => by
    obtain ⟨kept, h1, h2⟩ := prerun_ok hs (fun x hx => hok x (List.mem_cons_of_mem _ hx))
    obtain ⟨hf, hg⟩ := hok h (List.mem_cons_self ..)
    unfold prerun
    rw [hf, if_neg (by simp)]
    rcases hgen : h.gen with _ | ⟨a, p⟩
    · simp only [h1]
      exact ⟨kept, rfl, by rw [h2, List.filter_cons, if_neg (by simp [HasPost, hgen])]⟩
    · cases a with
      | raises => exact absurd hgen (hg p)
      | yields =>
        simp only [h1]
        exact ⟨h :: kept, rfl, by rw [List.filter_cons, List.filter_cons, h2]⟩
      | returns =>
        simp only [h1]
        exact ⟨h :: kept, rfl, by rw [List.filter_cons, List.filter_cons, h2]⟩

theorem postrun_ok (info : α) : ∀ (hs : List Hook), (∀ h ∈ hs, HasPost h = true → PostOk h) →
    postrun info hs = ((hs.filter HasPost).map (fun h => .post h.id info), false)
  | [], _ => rfl
  | h :: hs, hok => by
    have ih := postrun_ok info hs (fun x hx => hok x (List.mem_cons_of_mem _ hx))
    have hp := hok h (List.mem_cons_self ..)
    unfold postrun
    rcases hgen : h.gen with _ | ⟨_ | _ | _, p⟩
    · simp only [ih]; rw [List.filter_cons, if_neg (by simp [HasPost, hgen])]
    · have hpo : p ≠ .raises := fun he => hp (by simp [HasPost, hgen]) (by rw [hgen, he])
      cases p <;> simp only [ih] <;> first | (rw [List.filter_cons, if_pos (by simp [HasPost, hgen])]; rfl) | exact absurd rfl hpo
    · simp only [ih]; rw [List.filter_cons, if_neg (by simp [HasPost, hgen])]
    · simp only [ih]; rw [List.filter_cons, if_neg (by simp [HasPost, hgen])]

theorem postrun_take (info : α) : ∀ (hs : List Hook), ∃ m, (postrun info hs).1
    = ((hs.filter HasPost).take m).map (fun h => .post h.id info)
  | [] => ⟨0, rfl⟩
  | h :: hs => by
    obtain ⟨m, hm⟩ := postrun_take info hs
    unfold postrun
    rcases hgen : h.gen with _ | ⟨_ | _ | _, p⟩
    · simp only; exact ⟨m, by rw [hm, List.filter_cons, if_neg (by simp [HasPost, hgen])]⟩
    · rw [List.filter_cons, if_pos (by simp [HasPost, hgen])]
      cases p with
      | raises => exact ⟨1, rfl⟩
      | yields =>
        simp only
        rcases hq : postrun info hs with ⟨e, b⟩
        rw [hq] at hm
        exact ⟨m + 1, by rw [List.take_succ_cons, List.map_cons, ← hm]⟩
      | returns =>
        simp only
        rcases hq : postrun info hs with ⟨e, b⟩
        rw [hq] at hm
        exact ⟨m + 1, by rw [List.take_succ_cons, List.map_cons, ← hm]⟩
    · simp only; exact ⟨m, by rw [hm, List.filter_cons, if_neg (by simp [HasPost, hgen])]⟩
    · simp only; exact ⟨m, by rw [hm, List.filter_cons, if_neg (by simp [HasPost, hgen])]⟩

theorem prerun_fails : ∀ (hs : List Hook), (prerun (α := α) hs).2.2 = true →
    ∃ k, (prerun (α := α) hs).1 = (hs.take k).map (fun h => .pre h.id)
  | [], h => by simp [prerun] at h
  | h :: hs, hb => by
    unfold prerun at hb ⊢
    by_cases hf : h.fails = true
    · rw [if_pos hf]
      cases hn : h.gen.isNone with
      | true => exact ⟨1, rfl⟩
      | false => exact ⟨0, rfl⟩
    · rw [if_neg hf] at hb ⊢
      have key : ∀ r, prerun (α := α) hs = r → r.2.2 = true → ∃ k,
          Ev.pre h.id :: r.1 = ((h :: hs).take k).map (fun h => Ev.pre h.id) := by
        intro r hr hrb
        obtain ⟨k, hk⟩ := prerun_fails hs (by rw [hr]; exact hrb)
        exact ⟨k + 1, by rw [List.take_succ_cons, List.map_cons, ← hk, hr]⟩
      rcases hgen : h.gen with _ | ⟨_ | _ | _, p⟩
      all_goals rw [hgen] at hb
      all_goals simp only at hb ⊢
      · rcases hq : prerun (α := α) hs with ⟨e, k, b⟩; rw [hq] at hb; exact key _ hq hb
      · rcases hq : prerun (α := α) hs with ⟨e, k, b⟩; rw [hq] at hb; exact key _ hq hb
      · rcases hq : prerun (α := α) hs with ⟨e, k, b⟩; rw [hq] at hb; exact key _ hq hb
      · exact ⟨1, rfl⟩

theorem prerun_done : ∀ (hs : List Hook), (prerun (α := α) hs).2.2 = false → ∀ h ∈ hs, PreOk h
  | [], _, h, hh => by simp at hh
  | h :: hs, hb, x, hx => by
    unfold prerun at hb
    by_cases hf : h.fails = true
    · rw [if_pos hf] at hb; simp at hb
    rw [if_neg hf] at hb
    have key : (prerun (α := α) hs).2.2 = false ∧ ∀ p, h.gen ≠ some (.raises, p) := by
      rcases hgen : h.gen with _ | ⟨_ | _ | _, p⟩
      all_goals rw [hgen] at hb
      all_goals simp only at hb
      · rcases hq : prerun (α := α) hs with ⟨e, k, b⟩; rw [hq] at hb; exact ⟨hb, by simp⟩
      · rcases hq : prerun (α := α) hs with ⟨e, k, b⟩; rw [hq] at hb; exact ⟨hb, by simp⟩
      · rcases hq : prerun (α := α) hs with ⟨e, k, b⟩; rw [hq] at hb; exact ⟨hb, by simp⟩
      · simp at hb
    rcases List.mem_cons.1 hx with rfl | hx
    · exact ⟨by simpa using hf, key.2⟩
    · exact prerun_done hs key.1 x hx

/-- **C52**, partial: with hooks whose first and second parts do not raise exceptions, for a run whose parameters
materialise and whose `process_finish` does not raise one, the trace is the proper one: each first part once and in
order, the task, each second part of a waiting hook once and in order, with the outcome of the run.  Missing: the
runs in which one of these fails (`C52_pre_violated`, `C52_params_violated`, `C52_post_violated`,
`C52_finish_violated`). -/
theorem C52_wraps_partial (hooks : List Hook) (r : Run α) (hpre : ∀ h ∈ hooks, PreOk h) (hpost : ∀ h ∈ hooks, PostOk h)
    (hp : r.paramsOk = true) (hf : r.finishFails = false) : wrapped hooks r = properTrace hooks r.info := by
  obtain ⟨kept, h1, h2⟩ := prerun_ok (α := α) hooks hpre
  unfold wrapped properTrace
  rw [h1]
  simp only [hp, hf]
  rw [postrun_ok r.info kept, h2]
  · rfl
  · intro h hh hw
    have hm : h ∈ kept.filter HasPost := List.mem_filter.2 ⟨hh, hw⟩
    rw [h2] at hm
    exact hpost h (List.mem_filter.1 hm).1

example : wrapped (α := String) [⟨1, false, none⟩, ⟨2, false, some (.yields, .returns)⟩,
      ⟨3, false, some (.returns, .returns)⟩, ⟨4, false, some (.yields, .yields)⟩] ⟨true, "ValueError", false⟩
    = [.pre 1, .pre 2, .pre 3, .pre 4, .task, .post 2 "ValueError", .post 4 "ValueError"] := by decide

/-- **C52**, whatever fails: the first parts run in order and before the task, the task runs only after all of them,
the second parts run in order, at most once, after the task, only for hooks that wait, and with the same outcome. -/
theorem C52_order (hooks : List Hook) (r : Run α) :
    (∃ k, wrapped hooks r = (hooks.take k).map (fun h => .pre h.id)) ∨
    (∃ m, wrapped hooks r = hooks.map (fun h => .pre h.id) ++ [.task] ++
      ((hooks.filter HasPost).take m).map (fun h => .post h.id r.info)) := by
  by_cases hb : (prerun (α := α) hooks).2.2 = true
  · left
    obtain ⟨k, hk⟩ := prerun_fails hooks hb
    refine ⟨k, ?_⟩
    unfold wrapped
    rcases hq : prerun (α := α) hooks with ⟨e, kept, b⟩
    rw [hq] at hb hk
    obtain rfl : b = true := hb
    exact hk
  · have hpre := prerun_done hooks (by simpa using hb)
    obtain ⟨kept, h1, h2⟩ := prerun_ok (α := α) hooks hpre
    unfold wrapped
    rw [h1]
    simp only
    by_cases hp : r.paramsOk = true
    · rw [if_neg (by simp [hp])]
      right
      by_cases hf : r.finishFails = true
      · rw [if_pos hf]
        exact ⟨0, by simp⟩
      · rw [if_neg hf]
        obtain ⟨m, hm⟩ := postrun_take r.info kept
        exact ⟨m, by rw [hm, h2]⟩
    · rw [if_pos (by simpa using hp)]
      exact .inl ⟨hooks.length, by rw [List.take_length]⟩

/-- Two generator hooks. -/
def twoHooks : List Hook := [⟨1, false, some (.yields, .returns)⟩, ⟨2, false, some (.yields, .returns)⟩]

/-- **C52** fails if a later hook fails: the second part of an earlier one, which has yielded, never runs. -/
theorem C52_pre_violated (info : α) :
    wrapped [⟨1, false, some (.yields, .returns)⟩, ⟨2, true, none⟩] ⟨true, info, false⟩ = [.pre 1, .pre 2] := rfl

/-- **C52** fails if the parameters of the run cannot be materialised: no second part runs. -/
theorem C52_params_violated (info : α) : wrapped twoHooks ⟨false, info, false⟩ = [.pre 1, .pre 2] := rfl

/-- **C52** fails if `process_finish` raises an exception: no second part runs although the task did. -/
theorem C52_finish_violated (info : α) : wrapped twoHooks ⟨true, info, true⟩ = [.pre 1, .pre 2, .task] := rfl

/-- **C52** fails if a second part raises an exception: the later second parts do not run. -/
theorem C52_post_violated (info : α) :
    wrapped [⟨1, false, some (.yields, .raises)⟩, ⟨2, false, some (.yields, .returns)⟩] ⟨true, info, false⟩
      = [.pre 1, .pre 2, .task, .post 1 info] := rfl

end Rocketry.Props
