import Verif.Base.Lists
import Verif.Task.Log
import Verif.Spec.LogSpec

/-!
# Lemmas about reading the log
-/

namespace Rocketry
open Spec

theorem recordsBy_append (a b : List Record) (name : String) (q : Record → Bool) :
    recordsBy (a ++ b) name q = recordsBy a name q ++ recordsBy b name q := by
  simp [recordsBy]

theorem mem_recordsBy {repo : List Record} {name : String} {q : Record → Bool} {r : Record} :
    r ∈ recordsBy repo name q ↔ r ∈ repo ∧ r.task = name ∧ q r = true := by
  simp [recordsBy]

theorem latestBy_snoc (repo : List Record) (x : Record) (name : String) (q : Record → Bool) :
    latestBy (repo ++ [x]) name q = if x.task = name ∧ q x = true then some x else latestBy repo name q := by
  unfold latestBy
  rw [recordsBy_append]
  by_cases h : x.task = name ∧ q x = true
  · rw [if_pos h]
    have : recordsBy [x] name q = [x] := by simp [recordsBy, h.1, h.2]
    rw [this, List.getLast?_append]
    rfl
  · rw [if_neg h]
    have : recordsBy [x] name q = [] := by
      unfold recordsBy
      rw [List.filter_eq_nil_iff]
      intro a ha hc
      simp only [List.mem_singleton] at ha
      subst ha
      simp only [Bool.and_eq_true, decide_eq_true_eq] at hc
      exact h hc
    rw [this, List.append_nil]

/-- The reading functions find the latest record. -/
theorem latestBy_spec {repo : List Record} {name : String} {q : Record → Bool} {r : Record} :
    latestBy repo name q = some r ↔ IsLatest repo (fun x => x.task = name ∧ q x = true) r := by
  constructor
  · intro h
    induction repo using snoc_ind with
    | nil => simp [latestBy, recordsBy] at h
    | snoc l x ih =>
      rw [latestBy_snoc] at h
      by_cases hx : x.task = name ∧ q x = true
      · rw [if_pos hx] at h
        cases h
        exact ⟨l, [], by simp, hx, by simp⟩
      · rw [if_neg hx] at h
        obtain ⟨pre, post, h1, h2, h3⟩ := ih h
        refine ⟨pre, post ++ [x], by rw [h1]; simp, h2, ?_⟩
        intro y hy
        rcases List.mem_append.1 hy with hy | hy
        · exact h3 y hy
        · rw [List.mem_singleton.1 hy]; exact hx
  · rintro ⟨pre, post, h1, h2, h3⟩
    subst h1
    unfold latestBy
    rw [show pre ++ r :: post = pre ++ ([r] ++ post) by simp, recordsBy_append, recordsBy_append]
    have e1 : recordsBy [r] name q = [r] := by simp [recordsBy, h2.1, h2.2]
    have e2 : recordsBy post name q = [] := by
      unfold recordsBy
      rw [List.filter_eq_nil_iff]
      intro a ha hc
      simp only [Bool.and_eq_true, decide_eq_true_eq] at hc
      exact h3 a ha hc
    rw [e1, e2]
    simp

theorem latestBy_none {repo : List Record} {name : String} {q : Record → Bool} :
    latestBy repo name q = none ↔ ∀ x ∈ repo, ¬ (x.task = name ∧ q x = true) := by
  unfold latestBy recordsBy
  rw [List.getLast?_eq_none_iff, List.filter_eq_nil_iff]
  simp

theorem increasing_prefixes {l m : List Record} {P : Record → Prop} (h : Increasing (l ++ m) P) : Increasing l P :=
  (List.pairwise_append.1 h).1

theorem increasing_append {l m : List Record} {P : Record → Prop} (h : Increasing l P) (hm : ∀ x ∈ m, ¬ P x) :
    Increasing (l ++ m) P := by
  refine List.pairwise_append.2 ⟨h, ?_, fun a _ b hb _ h2 => absurd h2 (hm b hb)⟩
  exact List.pairwise_of_forall_mem_list (fun a ha b _ h1 => absurd h1 (hm a ha))

theorem increasing_snoc {l : List Record} {x : Record} {P : Record → Prop} (h : Increasing l P)
    (hx : ∀ r ∈ l, P r → r.created < x.created) : Increasing (l ++ [x]) P := by
  refine List.pairwise_append.2 ⟨h, List.pairwise_singleton _ _, ?_⟩
  intro a ha b hb hpa _
  rw [List.mem_singleton.1 hb]
  exact hx a ha hpa

theorem isLatest_append {l m : List Record} {P : Record → Prop} {r : Record} (hm : ∀ x ∈ m, ¬ P x)
    (h : IsLatest l P r) : IsLatest (l ++ m) P r := by
  obtain ⟨pre, post, rfl, h2, h3⟩ := h
  refine ⟨pre, post ++ m, by simp, h2, ?_⟩
  intro x hx
  rcases List.mem_append.1 hx with hx | hx
  · exact h3 x hx
  · exact hm x hx

theorem isLatest_mem {repo : List Record} {P : Record → Prop} {r : Record} (h : IsLatest repo P r) :
    r ∈ repo ∧ P r := by
  obtain ⟨pre, post, rfl, h2, _⟩ := h
  exact ⟨by simp, h2⟩

/-- Along a log with increasing times the latest record has the greatest time. -/
theorem latest_max {repo : List Record} {P : Record → Prop} (hi : Increasing repo P) {r x : Record}
    (hr : IsLatest repo P r) (hx : x ∈ repo) (hp : P x) : x = r ∨ x.created < r.created := by
  obtain ⟨pre, post, rfl, h2, h3⟩ := hr
  rcases List.mem_append.1 hx with hx | hx
  · exact Or.inr ((List.pairwise_append.1 hi).2.2 x hx r (by simp) hp h2)
  · rcases List.mem_cons.1 hx with hx | hx
    · exact Or.inl hx
    · exact absurd hp (h3 x hx)

theorem exists_latest {repo : List Record} {P : Record → Prop} [DecidablePred P] {x : Record} (hx : x ∈ repo) (hp : P x) :
    ∃ r, IsLatest repo P r := by
  induction repo using snoc_ind with
  | nil => simp at hx
  | snoc l y ih =>
    by_cases hy : P y
    · exact ⟨y, l, [], by simp, hy, by simp⟩
    · have : x ∈ l := by
        rcases List.mem_append.1 hx with h | h
        · exact h
        · rw [List.mem_singleton.1 h] at hp; exact absurd hp hy
      obtain ⟨r, pre, post, h1, h2, h3⟩ := ih this
      refine ⟨r, pre, post ++ [y], by rw [h1]; simp, h2, ?_⟩
      intro z hz
      rcases List.mem_append.1 hz with hz | hz
      · exact h3 z hz
      · rw [List.mem_singleton.1 hz]; exact hy

/-- `latestAction` picks an element with a greatest time. -/
theorem foldl_max (l : List (Action × Int)) : ∀ p : Action × Int,
    (l.foldl (fun b q => if q.2 > b.2 then q else b) p) ∈ p :: l ∧
    ∀ x ∈ p :: l, x.2 ≤ (l.foldl (fun b q => if q.2 > b.2 then q else b) p).2 := by
  induction l with
  | nil => intro p; simp
  | cons q l ih =>
    intro p
    rw [List.foldl_cons]
    by_cases h : q.2 > p.2
    · rw [if_pos h]
      obtain ⟨h1, h2⟩ := ih q
      refine ⟨List.mem_cons_of_mem _ h1, ?_⟩
      intro x hx
      rcases List.mem_cons.1 hx with hx | hx
      · subst hx; have := h2 q (by simp); omega
      · exact h2 x hx
    · rw [if_neg h]
      obtain ⟨h1, h2⟩ := ih p
      refine ⟨?_, ?_⟩
      · rcases List.mem_cons.1 h1 with h1 | h1
        · rw [h1]; simp
        · exact List.mem_cons_of_mem _ (List.mem_cons_of_mem _ h1)
      · intro x hx
        rcases List.mem_cons.1 hx with hx | hx
        · subst hx; exact h2 x (by simp)
        · rcases List.mem_cons.1 hx with hx | hx
          · subst hx; have := h2 p (by simp); omega
          · exact h2 x (List.mem_cons_of_mem _ hx)

theorem latestAction_spec {l : List (Action × Int)} {a : Action} (h : latestAction l = some a) :
    ∃ t, (a, t) ∈ l ∧ ∀ x ∈ l, x.2 ≤ t := by
  cases l with
  | nil => simp [latestAction] at h
  | cons p l =>
    simp only [latestAction, Option.some.injEq] at h
    obtain ⟨h1, h2⟩ := foldl_max l p
    refine ⟨(l.foldl (fun b q => if q.2 > b.2 then q else b) p).2, ?_, h2⟩
    rw [← h]
    exact h1

theorem latestAction_none {l : List (Action × Int)} (h : latestAction l = none) : l = [] := by
  cases l with
  | nil => rfl
  | cons p l => simp [latestAction] at h

theorem mem_cachedActions (a : Action) : a ∈ cachedActions := by cases a <;> decide

theorem mem_cachedTimes {repo : List Record} {name : String} {a : Action} {t : Int} :
    (a, t) ∈ cachedTimes repo name ↔ lastActionFromLog repo name a = some t := by
  unfold cachedTimes
  rw [List.mem_filterMap]
  constructor
  · rintro ⟨b, _, hb⟩
    cases hl : lastActionFromLog repo name b with
    | none => rw [hl] at hb; simp at hb
    | some u => rw [hl] at hb; simp at hb; obtain ⟨rfl, rfl⟩ := hb; exact hl
  · intro h
    exact ⟨a, mem_cachedActions a, by rw [h]; rfl⟩

theorem isAction_iff {name : String} {a : Action} {x : Record} :
    (x.task = name ∧ isAction a x = true) ↔ OfAction name a x := by
  simp [isAction, OfAction]

theorem lastActionFromLog_some {repo : List Record} {name : String} {a : Action} {t : Int}
    (h : lastActionFromLog repo name a = some t) : ∃ r, IsLatest repo (OfAction name a) r ∧ r.created = t := by
  unfold lastActionFromLog at h
  cases hl : latestBy repo name (isAction a) with
  | none => rw [hl] at h; simp at h
  | some r =>
    rw [hl] at h
    simp at h
    refine ⟨r, ?_, h⟩
    have := latestBy_spec.1 hl
    simpa only [isAction_iff] using this

/-- With increasing times, the action found by `set_cached` is the action of the latest record. -/
theorem latestAction_latest {repo : List Record} {name : String} (hi : Increasing repo (Of name)) :
    latestAction (cachedTimes repo name) = (latestBy repo name (fun _ => true)).map Record.action := by
  cases hl : latestBy repo name (fun _ => true) with
  | none =>
    have : cachedTimes repo name = [] := by
      rw [List.eq_nil_iff_forall_not_mem]
      rintro ⟨a, t⟩ hm
      obtain ⟨r, hr, _⟩ := lastActionFromLog_some (mem_cachedTimes.1 hm)
      obtain ⟨hm, hp⟩ := isLatest_mem hr
      exact latestBy_none.1 hl r hm ⟨hp.1, rfl⟩
    rw [this]; rfl
  | some r =>
    have hr : IsLatest repo (Of name) r := by
      have := latestBy_spec.1 hl
      simp only [and_true] at this
      exact this
    have hrm := isLatest_mem hr
    have hra : latestBy repo name (isAction r.action) = some r := by
      rw [latestBy_spec]
      obtain ⟨pre, post, h1, h2, h3⟩ := hr
      exact ⟨pre, post, h1, ⟨h2, by simp [isAction]⟩, fun x hx hc => h3 x hx hc.1⟩
    have hmem : (r.action, r.created) ∈ cachedTimes repo name := by
      rw [mem_cachedTimes]; unfold lastActionFromLog; rw [hra]; rfl
    cases ha : latestAction (cachedTimes repo name) with
    | none => rw [latestAction_none ha] at hmem; simp at hmem
    | some a =>
      obtain ⟨t, h1, h2⟩ := latestAction_spec ha
      obtain ⟨s, hs, hst⟩ := lastActionFromLog_some (mem_cachedTimes.1 h1)
      have := h2 _ hmem
      simp only [] at this
      obtain ⟨hsm, hsp⟩ := isLatest_mem hs
      rcases latest_max hi hr hsm hsp.1 with e | e
      · subst e; simp [hsp.2]
      · omega

end Rocketry
