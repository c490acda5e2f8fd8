import Verif.Task.Conditions
import Verif.Spec.LogSpec
import Verif.Base.Lists
import Mathlib.Tactic.ByContra

/-!
# C35: a task counts as running exactly while a run of it is unfinished
-/

namespace Rocketry.Spec

/-- The starts of `name` in the log that no later record of the task ends: the runs identified by their id. -/
def openRuns (name : String) : List Record → List Record
  | [] => []
  | r :: rest =>
    if OfAction name .run r ∧ ∀ x ∈ rest, Of name x → x.runId = r.runId → x.action = .run
    then r :: openRuns name rest else openRuns name rest

/-- Every record of the task carries the id of its run, and a run is ended only after it was started, not at an
earlier time. -/
structure RunLog (name : String) (repo : List Record) : Prop where
  ids : ∀ r ∈ repo, Of name r → r.runId ≠ none ∧ r.runId ≠ some ""
  ends : repo.Pairwise (fun x r => Of name x → OfAction name .run r → x.runId = r.runId → x.action = .run)
  times : repo.Pairwise (fun r x => OfAction name .run r → Of name x → x.runId = r.runId → r.created ≤ x.created)

/-- Number of starts of the task. -/
def startCount (name : String) (l : List Record) : Nat := l.countP (fun r => decide (OfAction name .run r))

/-- Number of records of the task that end a run. -/
def endCount (name : String) (l : List Record) : Nat :=
  l.countP (fun r => decide (Of name r ∧ r.action ≠ .run))

end Rocketry.Spec

namespace Rocketry.Props
open Rocketry Rocketry.Spec

theorem byCreated_perm (l : List Record) : (byCreated l).Perm l := pySorted_perm l

theorem runningById_perm {l l' : List Record} (h : l.Perm l') :
    (runningById l).length = (runningById l').length := by
  have e : ∀ r : Record,
      (r.runId ∈ (l.filter (fun r => decide (r.runId ≠ none ∧ r.runId ≠ some "") && !isAction .run r)).map Record.runId)
      ↔ (r.runId ∈ (l'.filter (fun r => decide (r.runId ≠ none ∧ r.runId ≠ some "") && !isAction .run r)).map Record.runId) :=
    fun r => ((h.filter _).map _).mem_iff
  unfold runningById
  simp only [List.length_map]
  rw [(h.filter _).length_eq]
  congr 1
  apply List.filter_congr
  intro r _
  simp only [e r]

/-- The measured count: the starts in the window whose id is not the id of an outcome in the window. -/
theorem runningCount_ids (repo : List Record) (name : String) (s e : Int) :
    runningCount true repo name (s, e) =
      (repo.filter (fun r => decide ((OfAction name .run r ∧ s ≤ r.created ∧ r.created ≤ e) ∧
        ∀ x ∈ repo, Of name x → s ≤ x.created → x.created ≤ e → x.runId ≠ none → x.runId ≠ some "" →
          x.runId = r.runId → x.action = .run))).length := by
  unfold runningCount
  simp only [if_true]
  rw [runningById_perm (byCreated_perm _)]
  unfold runningById recordsBy
  simp only [List.length_map, List.filter_filter]
  congr 1
  apply List.filter_congr
  intro r hr
  rw [Bool.eq_iff_iff]
  simp only [Bool.and_eq_true, decide_eq_true_eq, isAction, Bool.not_eq_true', decide_eq_false_iff_not,
    List.mem_map, List.mem_filter, within]
  constructor
  · rintro ⟨⟨ha, hn⟩, ht, hw⟩
    refine ⟨⟨⟨ht, ha⟩, hw⟩, ?_⟩
    intro x hx hxt h1 h2 h3 h4 h5
    by_contra hc
    refine of_decide_eq_false hn (List.mem_map.2 ⟨x, List.mem_filter.2 ⟨hx, ?_⟩, h5⟩)
    simp [h3, h4, hc, show x.task = name from hxt, h1, h2]
  · rintro ⟨⟨⟨ht, ha⟩, hw⟩, hall⟩
    refine ⟨⟨ha, ?_⟩, ht, hw⟩
    apply decide_eq_false
    intro hm
    obtain ⟨x, hx, h5⟩ := List.mem_map.1 hm
    simp only [List.mem_filter, Bool.and_eq_true, decide_eq_true_eq, Bool.not_eq_true', decide_eq_false_iff_not] at hx
    obtain ⟨hx, ⟨⟨h3, h4⟩, hc⟩, hxt, h1, h2⟩ := hx
    exact hc (hall x hx hxt h1 h2 h3 h4 h5)

theorem openRuns_length (name : String) (s e : Int) (l : List Record) (hlog : RunLog name l)
    (he : ∀ r ∈ l, Of name r → r.created ≤ e) (pre : List Record)
    (hpre : ∀ x ∈ pre, ∀ r ∈ l, Of name x → OfAction name .run r → x.runId = r.runId → x.action = .run) :
    (l.filter (fun r => decide ((OfAction name .run r ∧ s ≤ r.created ∧ r.created ≤ e) ∧
        ∀ x ∈ pre ++ l, Of name x → s ≤ x.created → x.created ≤ e → x.runId ≠ none → x.runId ≠ some "" →
          x.runId = r.runId → x.action = .run))).length
      = ((openRuns name l).filter (fun r => decide (s ≤ r.created))).length := by
  induction l generalizing pre with
  | nil => rfl
  | cons r rest ih =>
    have hp := List.pairwise_cons.1 hlog.ends
    have ht := List.pairwise_cons.1 hlog.times
    have hlog' : RunLog name rest := ⟨fun x hx => hlog.ids x (List.mem_cons_of_mem _ hx), hp.2, ht.2⟩
    have ih' := ih hlog' (fun x hx => he x (List.mem_cons_of_mem _ hx)) (pre ++ [r]) (by
      intro x hx y hy h1 h2 h3
      rcases List.mem_append.1 hx with hx | hx
      · exact hpre x hx y (List.mem_cons_of_mem _ hy) h1 h2 h3
      · rw [List.mem_singleton.1 hx] at h1 h3 ⊢
        exact hp.1 y hy h1 h2 h3)
    simp only [List.append_assoc, List.singleton_append] at ih'
    have key : OfAction name .run r → s ≤ r.created →
        ((∀ x ∈ pre ++ r :: rest, Of name x → s ≤ x.created → x.created ≤ e → x.runId ≠ none → x.runId ≠ some "" →
          x.runId = r.runId → x.action = .run) ↔
         (∀ x ∈ rest, Of name x → x.runId = r.runId → x.action = .run)) := by
      intro hr hs
      constructor
      · intro h x hx hxn hid
        have hxm : x ∈ r :: rest := List.mem_cons_of_mem _ hx
        have hi := hlog.ids x hxm hxn
        exact h x (List.mem_append.2 (Or.inr hxm)) hxn (Int.le_trans hs (ht.1 x hx hr hxn hid)) (he x hxm hxn)
          hi.1 hi.2 hid
      · intro h x hx hxn _ _ _ _ hid
        rcases List.mem_append.1 hx with hx | hx
        · exact hpre x hx r (List.mem_cons_self ..) hxn hr hid
        · rcases List.mem_cons.1 hx with rfl | hx
          · exact hr.2
          · exact h x hx hxn hid
    unfold openRuns
    rw [List.filter_cons]
    by_cases hr : OfAction name .run r
    · by_cases hs : s ≤ r.created
      · by_cases ho : ∀ x ∈ rest, Of name x → x.runId = r.runId → x.action = .run
        · rw [if_pos (decide_eq_true ⟨⟨hr, hs, he r (List.mem_cons_self ..) hr.1⟩, (key hr hs).2 ho⟩),
            if_pos ⟨hr, ho⟩, List.filter_cons, if_pos (decide_eq_true hs), List.length_cons, List.length_cons, ih']
        · rw [if_neg (by rw [decide_eq_true_eq]; exact fun h => ho ((key hr hs).1 h.2)), if_neg (fun h => ho h.2), ih']
      · rw [if_neg (by rw [decide_eq_true_eq]; exact fun h => hs h.1.2.1), ih']
        split
        · rw [List.filter_cons, if_neg (by simpa using hs)]
        · rfl
    · rw [if_neg (by rw [decide_eq_true_eq]; exact fun h => hr h.1.1), if_neg (fun h => hr h.1), ih']

/-- C35, logs whose records carry run ids: whatever the interleaving of parallel runs, `running`, also with a limit
on how long ago the run was started (`less_than`, the window `[s, now]`), counts the starts since `s` that no later
record has ended.  Missing: records without a run id (`C35_crash_violated`), windows that end before now
(`C35_more_than_violated`). -/
theorem C35_ids_partial (repo : List Record) (name : String) (s now : Int) (hlog : RunLog name repo)
    (hnow : ∀ r ∈ repo, Of name r → r.created ≤ now) :
    runningCount true repo name (s, now) = ((openRuns name repo).filter (fun r => decide (s ≤ r.created))).length := by
  rw [runningCount_ids]
  exact openRuns_length name s now repo hlog hnow [] (by simp)

theorem RunLog.filter {name : String} {repo : List Record} (h : RunLog name repo) (p : Record → Bool) :
    RunLog name (repo.filter p) :=
  ⟨fun r hr => h.ids r ((List.mem_filter.1 hr).1), h.ends.filter p, h.times.filter p⟩

/-- C35, for every window `[s, e]`, `running.more_than` (`e` is before now) and `running.between` among them: what is counted
are the runs started since `s` that were unfinished at `e`, not the ones unfinished now. -/
theorem C35_window_partial (repo : List Record) (name : String) (s e : Int) (hlog : RunLog name repo) :
    runningCount true repo name (s, e) =
      ((openRuns name (repo.filter (fun r => decide (r.created ≤ e)))).filter (fun r => decide (s ≤ r.created))).length := by
  rw [← C35_ids_partial _ name s e (RunLog.filter hlog _) (fun r hr _ => by simpa using (List.mem_filter.1 hr).2)]
  unfold runningCount recordsBy
  rw [List.filter_filter]
  have : (repo.filter fun a => decide (a.task = name) && within s e a.created) =
      (repo.filter fun a => (decide (a.task = name) && within s e a.created) && decide (a.created ≤ e)) := by
    apply List.filter_congr
    intro r _
    by_cases h : r.created ≤ e <;> simp [within, h]
  rw [this]

/-- A run that ended ten seconds ago counts as running for more than twenty seconds; thirty seconds after its end it does not. -/
example : runningCount true [⟨"t", .run, 10, 10, some "1"⟩, ⟨"t", .success, 90, 90, some "1"⟩] "t" (0, 100 - 20) = 1 ∧
    runningCount true [⟨"t", .run, 10, 10, some "1"⟩, ⟨"t", .success, 90, 90, some "1"⟩] "t" (0, 120 - 20) = 0 := by decide

/-- Runs 1 and 2 in parallel; 2 ends first, then 3 starts, 1 fails; another task runs too. -/
def parallelLog : List Record :=
  [⟨"t", .run, 10, 10, some "1"⟩, ⟨"t", .run, 20, 20, some "2"⟩, ⟨"u", .run, 25, 25, some "9"⟩,
   ⟨"t", .success, 30, 30, some "2"⟩, ⟨"t", .run, 40, 40, some "3"⟩, ⟨"t", .run, 50, 50, some "4"⟩,
   ⟨"t", .fail, 60, 60, some "1"⟩]

example : RunLog "t" parallelLog := ⟨by decide, by decide, by decide⟩

example : openRuns "t" parallelLog = [⟨"t", .run, 40, 40, some "3"⟩, ⟨"t", .run, 50, 50, some "4"⟩] ∧
    runningCount true parallelLog "t" (0, 70) = 2 ∧ runningCount true parallelLog "t" (45, 70) = 1 := by decide

/-- C35 fails for the crash record that the scheduler writes at startup for a run that a previous process left
unfinished (`set_cached`; the record has no run id): the run counts as running for ever. -/
theorem C35_crash_violated :
    ∃ repo : List Record, ∃ t : TaskMem,
      repo = (setCached true "t" t [⟨"t", .run, 10, 10, some "1"⟩] 100 100 .ok).repo ∧
      (∃ r ∈ repo, OfAction "t" .crash r) ∧ ∀ now : Int, now ≥ 100 → runningCount true repo "t" (0, now) = 1 := by
  refine ⟨_, TaskMem.fresh, rfl, by decide, ?_⟩
  intro now hnow
  rw [runningCount_ids]
  have : (setCached true "t" TaskMem.fresh [⟨"t", .run, 10, 10, some "1"⟩] 100 100 .ok).repo =
    [(⟨"t", .run, 10, 10, some "1"⟩ : Record), ⟨"t", .crash, 100, 100, none⟩] := by decide
  rw [this]
  rw [List.filter_cons, if_pos, List.filter_cons, if_neg]
  · rfl
  · simp [OfAction, Of]
  · simp [OfAction, Of]; omega

/-- C35 fails for `running.more_than(d)`: the window ends `d` before now, and an outcome after its end is not seen,
so a run that started long ago and ended a moment ago still counts. -/
theorem C35_more_than_violated :
    RunLog "t" [⟨"t", .run, 10, 10, some "1"⟩, ⟨"t", .success, 95, 95, some "1"⟩] ∧
    openRuns "t" [⟨"t", .run, 10, 10, some "1"⟩, ⟨"t", .success, 95, 95, some "1"⟩] = [] ∧
    runningCount true [⟨"t", .run, 10, 10, some "1"⟩, ⟨"t", .success, 95, 95, some "1"⟩] "t" (0, 100 - 20) = 1 :=
  ⟨⟨by decide, by decide, by decide⟩, by decide, by decide⟩

/-! ## Logs without run ids -/

theorem matchStarts_length : ∀ (starts finishes : List Int), finishes.length ≤ starts.length →
    (∀ i (h : i < finishes.length) (h' : i < starts.length), starts[i] ≤ finishes[i]) →
    (matchStarts starts finishes).length = starts.length - finishes.length
  | [], fs, hl, _ => by
    simp only [matchStarts, List.length_nil]; omega
  | c :: ss, [], _, _ => by
    have := matchStarts_length ss [] (by simp) (by simp)
    simp only [matchStarts, takeFinish, List.length_cons, List.length_nil] at this ⊢
    omega
  | c :: ss, f :: fs, hl, hle => by
    have h0 : c ≤ f := hle 0 (by simp) (by simp)
    have := matchStarts_length ss fs (by simpa using hl)
      (fun i h h' => hle (i + 1) (by simpa using h) (by simpa using h'))
    have e : matchStarts (c :: ss) (f :: fs) = matchStarts ss fs := by
      simp only [matchStarts, takeFinish]
      rw [if_pos h0]
    rw [e, this]
    simp

/-- A list that is sorted already is not changed by sorting. -/
theorem insertBy_sorted {α : Type} (le : α → α → Bool) (a : α) (l : List α) (h : ∀ b ∈ l, le a b = true) :
    insertBy le a l = a :: l := by
  cases l with
  | nil => rfl
  | cons b l => simp [insertBy, h b (List.mem_cons_self ..)]

theorem pySorted_sorted {α : Type} (le : α → α → Bool) : ∀ l : List α, l.Pairwise (fun a b => le a b = true) →
    pySorted le l = l
  | [], _ => rfl
  | a :: l, h => by
    have h := List.pairwise_cons.1 h
    rw [pySorted, pySorted_sorted le l h.2]
    exact insertBy_sorted le a l h.1

/-- The `k`-th end of a log in which every prefix has at least as many starts as ends is not before the `k`-th
start. -/
theorem kth_end (l : List Record) (hl : l.Pairwise (fun a b => a.created ≤ b.created))
    (hbal : ∀ pre, pre <+: l → pre.countP (fun r => !isAction .run r) ≤ pre.countP (isAction .run)) :
    ∀ i (h : i < (l.filter (fun r => !isAction .run r)).length) (h' : i < (l.filter (isAction .run)).length),
      ((l.filter (isAction .run))[i]).created ≤ ((l.filter (fun r => !isAction .run r))[i]).created := by
  induction l using snoc_ind with
  | nil => simp
  | snoc l r ih =>
    have ih := ih (List.pairwise_append.1 hl).1 (fun pre hp => hbal pre (hp.trans (List.prefix_append ..)))
    have hlast : ∀ x ∈ l, x.created ≤ r.created := fun x hx => (List.pairwise_append.1 hl).2.2 x hx r (by simp)
    have hb := hbal (l ++ [r]) (List.prefix_refl _)
    intro i h h'
    by_cases hr : isAction .run r = true
    · have e1 : (l ++ [r]).filter (isAction .run) = l.filter (isAction .run) ++ [r] := by simp [hr]
      have e2 : (l ++ [r]).filter (fun r => !isAction .run r) = l.filter (fun r => !isAction .run r) := by simp [hr]
      have hb0 := hbal l (List.prefix_append ..)
      simp only [List.countP_eq_length_filter] at hb0
      simp only [e1, e2] at h h' ⊢
      rw [List.getElem_append_left (by omega)]
      exact ih i h (by omega)
    · have e1 : (l ++ [r]).filter (isAction .run) = l.filter (isAction .run) := by simp [hr]
      have e2 : (l ++ [r]).filter (fun r => !isAction .run r) = l.filter (fun r => !isAction .run r) ++ [r] := by
        simp [hr]
      simp only [e1, e2] at h h' ⊢
      by_cases hi : i < (l.filter (fun r => !isAction .run r)).length
      · rw [List.getElem_append_left hi]
        exact ih i hi h'
      · rw [List.getElem_append_right (by omega)]
        simp only [List.getElem_singleton]
        exact hlast _ (List.mem_filter.1 (List.getElem_mem h')).1

theorem countP_filter' {α : Type} (p q : α → Bool) (l : List α) :
    (l.filter q).countP p = l.countP (fun x => p x && q x) := by
  rw [List.countP_filter]

/-- C35, logs without run ids: when the records are in the order of their times and no run ends before it starts,
the number of runs measured is the number of starts less the number of ends, whatever the interleaving.  Missing: a
window in which starts before its beginning are cut off (their ends are then attributed to later starts). -/
theorem C35_times_partial (repo : List Record) (name : String) (s now : Int)
    (hord : Ordered repo (Of name))
    (hbal : ∀ pre, pre <+: repo → endCount name pre ≤ startCount name pre)
    (hs : ∀ r ∈ repo, Of name r → s ≤ r.created ∧ r.created ≤ now) :
    runningCount false repo name (s, now) = startCount name repo - endCount name repo := by
  have hrec : recordsBy repo name (fun r => within s now r.created) = repo.filter (fun r => decide (Of name r)) := by
    unfold recordsBy
    apply List.filter_congr
    intro r hr
    rw [Bool.eq_iff_iff]
    simp only [Bool.and_eq_true, decide_eq_true_eq, within]
    exact ⟨fun h => h.1, fun h => ⟨h, hs r hr h⟩⟩
  have hpw : (repo.filter (fun r => decide (Of name r))).Pairwise (fun a b => a.created ≤ b.created) := by
    rw [List.pairwise_filter]
    exact hord.imp (fun h ha hb => h (by simpa using ha) (by simpa using hb))
  have cs : ∀ l : List Record, startCount name l = (l.filter (fun r => decide (Of name r))).countP (isAction .run) := by
    intro l
    rw [countP_filter']
    apply List.countP_congr
    intro r _
    simp only [decide_eq_true_eq, Bool.and_eq_true, isAction]
    exact and_comm
  have ce : ∀ l : List Record, endCount name l =
      (l.filter (fun r => decide (Of name r))).countP (fun r => !isAction .run r) := by
    intro l
    rw [countP_filter']
    apply List.countP_congr
    intro r _
    simp only [decide_eq_true_eq, Bool.and_eq_true, isAction, Bool.not_eq_true', decide_eq_false_iff_not]
    exact and_comm
  unfold runningCount
  simp only [if_neg Bool.false_ne_true, hrec]
  unfold byCreated
  rw [pySorted_sorted _ _ (hpw.imp (fun h => by simpa using h))]
  unfold runningByTime
  rw [matchStarts_length]
  · simp only [List.length_map, ← List.countP_eq_length_filter, ← cs, ← ce]
  · simp only [List.length_map, ← List.countP_eq_length_filter, ← cs, ← ce]
    exact hbal repo (List.prefix_refl _)
  · intro i h h'
    simp only [List.getElem_map]
    refine kth_end _ hpw ?_ i _ _
    intro pre hp
    obtain ⟨pre', hp', rfl⟩ : ∃ pre', pre' <+: repo ∧ pre'.filter (fun r => decide (Of name r)) = pre := by
      obtain ⟨suf, hsuf⟩ := hp
      obtain ⟨a, b, hab, ha, _⟩ := List.filter_eq_append_iff.1 hsuf.symm
      exact ⟨a, ⟨b, hab.symm⟩, ha⟩
    rw [← ce, ← cs]
    exact hbal pre' hp'

example : Ordered parallelLog (Of "t") ∧ endCount "t" parallelLog = 2 ∧ startCount "t" parallelLog = 4 ∧
    runningCount false parallelLog "t" (0, 70) = 2 := ⟨by unfold Ordered; decide, by decide, by decide, by decide⟩

example : ∀ n ≤ 7, endCount "t" (parallelLog.take n) ≤ startCount "t" (parallelLog.take n) := by decide

end Rocketry.Props
