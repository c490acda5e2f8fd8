import Verif.Spec.SetRepoSpec
import Verif.Props.AppLogProps
import Verif.Props.LoggersProps

/-!
# C119: after `set_repo` the log of a task is what the new repository had and what was logged since
-/

namespace Rocketry.Props
open Rocketry.Session Rocketry.Spec

/-! ### the loggers after set_repo -/

theorem get_setRepo (w : LogWorld) (n m : LogName) (k : Nat) : (w.setRepo n k).get m =
    if m = n then (w.get n).map (fun x => { x with handlers := some k :: x.handlers.filter (fun h => !h.isSome) }) else w.get m := by
  unfold LogWorld.setRepo LogWorld.deleteRepo
  rw [get_handle, get_handle, get_handle, if_pos rfl]
  by_cases e : m = n
  · rw [if_pos e, if_pos e]; cases w.get n <;> rfl
  · rw [if_neg e, if_neg e, if_neg e]

theorem repos_setRepo (w : LogWorld) (n : LogName) (k : Nat) : (w.setRepo n k).repos = w.repos := rfl
theorem root_setRepo (w : LogWorld) (n : LogName) (k : Nat) : (w.setRepo n k).root = w.root := rfl

theorem filter_none (hs : List (Option Nat)) (k : Nat) : some k ∉ hs.filter (fun h => !h.isSome) := by
  intro h; rw [List.mem_filter] at h; simp at h

theorem filter_none_replicate : ∀ hs : List (Option Nat), hs.filter (fun h => !h.isSome) = List.replicate (hs.count none) none
  | [] => rfl
  | none :: hs => by rw [List.filter_cons_of_pos (by rfl), List.count_cons_self, List.replicate_succ, filter_none_replicate hs]
  | some a :: hs => by
    rw [List.filter_cons_of_neg (by simp), filter_none_replicate hs, List.count_cons_of_ne (by simp)]

theorem sole_setRepo {w : LogWorld} {n : LogName} {k : Nat} (hn : IsLogger w n) (hu : UnusedRepo w k) :
    Sole n k (w.setRepo n k) := by
  obtain ⟨l, hl, hp⟩ := hn
  refine ⟨⟨{ l with handlers := some k :: l.handlers.filter (fun h => !h.isSome) }, _, ?_, hp, rfl, filter_none _ k⟩,
    hu.1, ?_⟩
  · rw [get_setRepo, if_pos rfl, hl]; rfl
  · intro m l' hm hl'
    rw [get_setRepo, if_neg hm] at hl'
    exact hu.2 l' (List.mem_of_find?_eq_some hl')

theorem Sole.setRepo {n k w} (h : Sole n k w) {m : LogName} {j : Nat} (hm : m ≠ n) (hj : j ≠ k) : Sole n k (w.setRepo m j) := by
  constructor
  · obtain ⟨l, hs, hl, hp, e, hk⟩ := h.own
    exact ⟨l, hs, by rw [get_setRepo, if_neg (fun e => hm e.symm), hl], hp, e, hk⟩
  · exact h.root
  · intro x l hx hl hk
    rw [get_setRepo] at hl
    by_cases hm : x = m
    · rw [if_pos hm, Option.map_eq_some_iff] at hl
      obtain ⟨l', _, rfl⟩ := hl
      rcases List.mem_cons.mp hk with hk | hk
      · cases hk; exact hj rfl
      · exact filter_none _ _ hk
    · rw [if_neg hm] at hl; exact h.other x l hx hl hk

/-! ### the way of a record -/

theorem above_sorted (m : LogName) : (m :: above m).Pairwise (fun a b => b.length < a.length) := by
  rw [List.pairwise_cons]
  refine ⟨fun x hx => above_shorter hx, ?_⟩
  unfold above
  rw [List.pairwise_filterMap]
  have h : (List.range m.length).reverse.Pairwise (fun a b => b < a ∧ a < m.length) := by
    rw [List.pairwise_reverse]
    refine List.Pairwise.imp_of_mem (R := fun a b => a < b) ?_ List.pairwise_lt_range
    intro a b _ hb hab
    exact ⟨hab, List.mem_range.mp hb⟩
  refine h.imp ?_
  intro a b ⟨hab, ha⟩ x hx y hy
  split at hx
  · split at hy
    · cases hx; cases hy; rw [List.length_take, List.length_take]; omega
    · cases hy
  · cases hx

/-- On the way through these names, the record comes to the logger. -/
def OnWay (w : LogWorld) (ns : List LogName) (n : LogName) : Prop :=
  n ∈ ns ∧ ∀ x ∈ ns, n.length < x.length → ∀ l, w.get x = some l → l.placeholder = false → l.propagate = true

theorem onWay_comesTo (w : LogWorld) (m n : LogName) : OnWay w (m :: above m) n ↔ ComesTo w m n := by
  constructor
  · rintro ⟨h1, h2⟩
    rcases List.mem_cons.mp h1 with h1 | h1
    · exact .inl h1.symm
    · exact .inr ⟨h1, h2⟩
  · rintro (h | ⟨h1, h2⟩)
    · subst h
      refine ⟨List.mem_cons_self, fun x hx hl => ?_⟩
      rcases List.mem_cons.mp hx with hx | hx
      · subst hx; exact absurd hl (Nat.lt_irrefl _)
      · exact absurd hl (Nat.not_lt.mpr (Nat.le_of_lt (above_shorter hx)))
    · exact ⟨List.mem_cons_of_mem _ h1, h2⟩

theorem count_handlers_one {k : Nat} {hs : List (Option Nat)} (h : some k ∉ hs) :
    ((some k :: hs).filterMap id).count k = 1 := by
  show (k :: hs.filterMap id).count k = 1
  rw [List.count_cons_self, List.count_eq_zero.mpr]
  intro h'
  rw [List.mem_filterMap] at h'
  obtain ⟨a, ha, e⟩ := h'
  cases e; exact h ha

theorem count_handlers_zero {k : Nat} {hs : List (Option Nat)} (h : some k ∉ hs) : (hs.filterMap id).count k = 0 := by
  rw [List.count_eq_zero]
  intro h'
  rw [List.mem_filterMap] at h'
  obtain ⟨a, ha, e⟩ := h'
  cases e; exact h ha

open Classical in
theorem Sole.count_way {n k w} (h : Sole n k w) : ∀ ns : List LogName, ns.Pairwise (fun a b => b.length < a.length) →
    (w.upward ns).count k = if OnWay w ns n then 1 else 0
  | [], _ => by
    rw [if_neg (fun ⟨h, _⟩ => by cases h)]
    exact count_handlers_zero h.root
  | x :: ns, hs => by
    rw [List.pairwise_cons] at hs
    obtain ⟨h1, h2⟩ := hs
    have ih := Sole.count_way h ns h2
    by_cases hx : x = n
    · subst hx
      obtain ⟨l, hs, hl, hp, e, hk⟩ := h.own
      have hz : (w.upward ns).count k = 0 := by
        rw [ih, if_neg]
        rintro ⟨h3, _⟩
        exact Nat.lt_irrefl _ (h1 x h3)
      have ho : OnWay w (x :: ns) x := by
        refine ⟨List.mem_cons_self, fun y hy hlt => ?_⟩
        rcases List.mem_cons.mp hy with hy | hy
        · subst hy; exact absurd hlt (Nat.lt_irrefl _)
        · exact absurd hlt (Nat.not_lt.mpr (Nat.le_of_lt (h1 y hy)))
      rw [if_pos ho]
      simp only [LogWorld.upward, hl, hp]
      rw [if_neg (by simp), e, List.count_append, count_handlers_one hk]
      split
      · rw [hz]
      · rfl
    · have hsame : (∀ l, w.get x = some l → l.placeholder = false → l.propagate = true) →
          (OnWay w (x :: ns) n ↔ OnWay w ns n) := by
        intro hpass
        constructor
        · rintro ⟨h3, h4⟩
          rcases List.mem_cons.mp h3 with h3 | h3
          · exact absurd h3.symm hx
          · exact ⟨h3, fun y hy => h4 y (List.mem_cons_of_mem _ hy)⟩
        · rintro ⟨h3, h4⟩
          refine ⟨List.mem_cons_of_mem _ h3, fun y hy => ?_⟩
          rcases List.mem_cons.mp hy with hy | hy
          · subst hy; exact fun _ => hpass
          · exact h4 y hy
      rw [LogWorld.upward]
      cases hg : w.get x with
      | none =>
        dsimp only
        rw [ih]
        simp only [hsame (by rw [hg]; exact fun _ e => nomatch e)]
      | some l =>
        dsimp only
        by_cases hp : l.placeholder
        · rw [if_pos hp, ih]
          simp only [hsame (by rw [hg]; intro _ e; cases e; rw [hp]; exact fun h => nomatch h)]
        · rw [if_neg hp, List.count_append, count_handlers_zero (h.other x l hx hg)]
          by_cases hq : l.propagate
          · rw [if_pos hq, ih, Nat.zero_add]
            simp only [hsame (by rw [hg]; intro _ e _; cases e; exact hq)]
          · rw [if_neg hq, if_neg]
            · rfl
            · rintro ⟨h3, h4⟩
              rcases List.mem_cons.mp h3 with h3 | h3
              · exact hx h3.symm
              · exact hq (h4 x List.mem_cons_self (h1 n h3) l hg (by simpa using hp))

open Classical in
theorem Sole.count_sinks {n k w} (h : Sole n k w) (m : LogName) : (w.sinks m).count k = if ComesTo w m n then 1 else 0 := by
  rw [LogWorld.sinks, h.count_way _ (above_sorted m)]
  simp only [onWay_comesTo]

/-! ### the way does not change -/

theorem comesTo_congr {w v : LogWorld} {n : LogName} (h : ∀ x, (v.get x).map (fun l => (l.placeholder, l.propagate)) =
    (w.get x).map (fun l => (l.placeholder, l.propagate))) (m : LogName) : ComesTo v m n ↔ ComesTo w m n := by
  have key : ∀ {a b : LogWorld}, (∀ x, (a.get x).map (fun l => (l.placeholder, l.propagate)) =
      (b.get x).map (fun l => (l.placeholder, l.propagate))) → ComesTo a m n → ComesTo b m n := by
    intro a b h hc
    rcases hc with hc | ⟨h1, h2⟩
    · exact .inl hc
    · refine .inr ⟨h1, fun x hx hl l hg hp => ?_⟩
      have hh := h x
      rw [hg] at hh
      cases ha : a.get x with
      | none => rw [ha] at hh; cases hh
      | some l' =>
        rw [ha] at hh
        simp only [Option.map_some, Option.some.injEq, Prod.mk.injEq] at hh
        rw [← hh.2]
        exact h2 x hx hl l' ha (by rw [hh.1, hp])
  exact ⟨key h, key (fun x => (h x).symm)⟩

theorem shape_setRepo (w : LogWorld) (n : LogName) (k : Nat) (x : LogName) :
    ((w.setRepo n k).get x).map (fun l => (l.placeholder, l.propagate)) = (w.get x).map (fun l => (l.placeholder, l.propagate)) := by
  rw [get_setRepo]
  by_cases e : x = n
  · subst e; rw [if_pos rfl]; cases w.get x <;> rfl
  · rw [if_neg e]

theorem shape_step (w : LogWorld) (o : RepoOp) (x : LogName) :
    ((w.repoStep o).get x).map (fun l => (l.placeholder, l.propagate)) = (w.get x).map (fun l => (l.placeholder, l.propagate)) := by
  cases o with
  | log m r => rfl
  | setRepo m j => exact shape_setRepo w m j x

open Classical in
theorem cameTo_congr {w v : LogWorld} {n : LogName} (h : ∀ x, (v.get x).map (fun l => (l.placeholder, l.propagate)) =
    (w.get x).map (fun l => (l.placeholder, l.propagate))) (ops : List RepoOp) : cameTo v n ops = cameTo w n ops := by
  unfold cameTo
  simp only [comesTo_congr h]

theorem Sole.step {n k w} (h : Sole n k w) {o : RepoOp} (ho : LeavesBoth n k o) : Sole n k (w.repoStep o) := by
  cases o with
  | log m r => exact ⟨h.own, h.root, h.other⟩
  | setRepo m j => exact h.setRepo ho.1 ho.2

open Classical in
/-- The repository of a logger gets what comes to the logger, once each. -/
theorem Sole.repo_steps {n k} : ∀ (ops : List RepoOp) (w : LogWorld), Sole n k w → (∀ o ∈ ops, LeavesBoth n k o) →
    Sole n k (w.repoSteps ops) ∧ (w.repoSteps ops).repos k = w.repos k ++ cameTo w n ops
  | [], w, h, _ => ⟨h, by simp [cameTo, LogWorld.repoSteps]⟩
  | o :: ops, w, h, ho => by
    have h1 := h.step (ho o List.mem_cons_self)
    obtain ⟨h2, h3⟩ := Sole.repo_steps ops _ h1 (fun p hp => ho p (List.mem_cons_of_mem _ hp))
    refine ⟨h2, ?_⟩
    show ((w.repoStep o).repoSteps ops).repos k = _
    rw [h3, cameTo_congr (shape_step w o)]
    cases o with
    | setRepo m j => rfl
    | log m r =>
      show w.repos k ++ List.replicate ((w.sinks m).count k) r ++ cameTo w n ops = w.repos k ++ cameTo w n (.log m r :: ops)
      rw [h.count_sinks, List.append_assoc]
      congr 1
      by_cases hc : ComesTo w m n
      · rw [if_pos hc]; simp [cameTo, hc]
      · rw [if_neg hc]; simp [cameTo, hc]

open Classical in
/-- C119 under the condition that nothing else writes to the new repository.  After `set_repo`, and after whatever is
logged from then on, with whatever logger, and whichever other loggers get new repositories, a task with this logger reads
the records of its name the repository had and those that came to the logger since, in order, each once. -/
theorem C119_since_partial (w : LogWorld) (n : LogName) (k : Nat) (hn : IsLogger w n) (hu : UnusedRepo w k)
    (ops : List RepoOp) (ho : ∀ o ∈ ops, LeavesBoth n k o) (task : String) :
    ((w.setRepo n k).repoSteps ops).taskRecords n task =
      some ((w.repos k ++ cameTo w n ops).filter (fun r => decide (r.task = task))) := by
  obtain ⟨h1, h2⟩ := Sole.repo_steps ops _ (sole_setRepo hn hu) ho
  rw [repos_setRepo, cameTo_congr (shape_setRepo w n k)] at h2
  obtain ⟨l, hl, _, hr⟩ := h1.has
  unfold LogWorld.taskRecords
  rw [hl]
  simp only [hr, Option.map_some, h2]

/-- C119, the other loggers: they have the handlers they had and are read as before; no record of any repository is lost. -/
theorem C119_others (w : LogWorld) (n m : LogName) (k : Nat) (hm : m ≠ n) :
    (w.setRepo n k).get m = w.get m ∧ (w.setRepo n k).repos = w.repos ∧
      ∀ task, (w.setRepo n k).taskRecords m task = w.taskRecords m task := by
  have h : (w.setRepo n k).get m = w.get m := by rw [get_setRepo, if_neg hm]
  refine ⟨h, rfl, fun task => ?_⟩
  unfold LogWorld.taskRecords
  rw [h, repos_setRepo]

/-- C119, the handlers: the new repository is the first and the only one, and all handlers without a repository are still
there. -/
theorem C119_handlers (w : LogWorld) (n : LogName) (k : Nat) (l : Lg) (hl : w.get n = some l) :
    ∃ l', (w.setRepo n k).get n = some l' ∧ l'.handlers = some k :: List.replicate (l.handlers.count none) none ∧
      l'.propagate = l.propagate ∧ l'.placeholder = l.placeholder := by
  refine ⟨{ l with handlers := some k :: l.handlers.filter (fun h => !h.isSome) }, ?_, ?_, rfl, rfl⟩
  · rw [get_setRepo, if_pos rfl, hl]; rfl
  · rw [← filter_none_replicate]

theorem mem_loggers_setRepo {w : LogWorld} {n : LogName} {k : Nat} {l : Lg} (h : l ∈ (w.setRepo n k).loggers) :
    ∃ x ∈ w.loggers, (x.name ≠ n ∧ l = x) ∨ (x.name = n ∧ l.handlers = some k :: x.handlers.filter (fun h => !h.isSome)) := by
  unfold LogWorld.setRepo LogWorld.deleteRepo LogWorld.handle at h
  simp only [List.map_map, List.mem_map, Function.comp] at h
  obtain ⟨x, hx, e⟩ := h
  refine ⟨x, hx, ?_⟩
  by_cases hn : x.name = n
  · right
    refine ⟨hn, ?_⟩
    subst hn
    rw [if_pos rfl, if_pos rfl] at e
    rw [← e]
  · left
    rw [if_neg hn, if_neg hn] at e
    exact ⟨hn, e.symm⟩

theorem unused_setRepo {w : LogWorld} {n : LogName} {j k : Nat} (hj : j ≠ k) (hr : some j ∉ w.root)
    (h : ∀ l ∈ w.loggers, l.name ≠ n → some j ∉ l.handlers) : UnusedRepo (w.setRepo n k) j := by
  refine ⟨hr, fun l hl hm => ?_⟩
  obtain ⟨x, hx, ⟨h1, rfl⟩ | ⟨_, h2⟩⟩ := mem_loggers_setRepo hl
  · exact h _ hx h1 hm
  · rw [h2] at hm
    rcases List.mem_cons.mp hm with hm | hm
    · cases hm; exact hj rfl
    · exact filter_none _ _ hm

theorem unused_count {w : LogWorld} {j : Nat} (h : UnusedRepo w j) (m : LogName) : (w.sinks m).count j = 0 := by
  refine count_upward_zero w j h.1 _ (fun x _ => ?_)
  unfold handlersOf
  cases hg : w.get x with
  | none => simp
  | some l =>
    dsimp only
    split
    · simp
    · exact h.2 l (List.mem_of_find?_eq_some hg)

theorem unused_steps {j : Nat} : ∀ (ops : List RepoOp) (w : LogWorld), UnusedRepo w j → (∀ o ∈ ops, NotGiven j o) →
    (w.repoSteps ops).repos j = w.repos j
  | [], _, _, _ => rfl
  | o :: ops, w, h, ho => by
    have ho' := ho o List.mem_cons_self
    cases o with
    | log m r =>
      have ih := unused_steps ops (w.log m r) h (fun p hp => ho p (List.mem_cons_of_mem _ hp))
      show ((w.log m r).repoSteps ops).repos j = _
      rw [ih]
      show w.repos j ++ List.replicate ((w.sinks m).count j) r = w.repos j
      rw [unused_count h m]; simp
    | setRepo m i =>
      exact unused_steps ops (w.setRepo m i) (unused_setRepo (Ne.symm ho') h.1 (fun l hl _ => h.2 l hl))
        (fun p hp => ho p (List.mem_cons_of_mem _ hp))

/-- C119, the repository that was there: if no other logger writes to it, it keeps its records as they are, for good,
unless it is given to a logger again. -/
theorem C119_old (w : LogWorld) (n : LogName) (j k : Nat) (hj : j ≠ k) (hr : some j ∉ w.root)
    (h : ∀ l ∈ w.loggers, l.name ≠ n → some j ∉ l.handlers) (ops : List RepoOp) (ho : ∀ o ∈ ops, NotGiven j o) :
    ((w.setRepo n k).repoSteps ops).repos j = w.repos j :=
  unused_steps ops _ (unused_setRepo hj hr h) ho

/-! ### a program -/

/-- The usual loggers, with one for reports below that of the tasks. -/
def repoLoggers : LogWorld :=
  { loggers := [⟨"rocketry".toList, false, [none], true⟩, ⟨"rocketry.task".toList, false, [none, some 0, none], true⟩,
      ⟨"rocketry.task.reports".toList, false, [], true⟩, ⟨"rocketry.task.secret".toList, false, [some 1], false⟩]
    root := [none]
    repos := fun k => if k = 0 then [⟨"a", 1, 10⟩, ⟨"b", 2, 20⟩] else [] }

/-- Records of two tasks, some under names below; another logger gets a new repository meanwhile. -/
def repoOps : List RepoOp :=
  [.log "rocketry.task".toList ⟨"a", 3, 30⟩, .log "rocketry.task.reports".toList ⟨"a", 4, 40⟩,
    .setRepo "rocketry.task.secret".toList 3, .log "rocketry.task.secret".toList ⟨"a", 5, 50⟩,
    .log "rocketry.task".toList ⟨"b", 6, 60⟩, .log "rocketry".toList ⟨"a", 7, 70⟩]

example : IsLogger repoLoggers "rocketry.task".toList ∧ UnusedRepo repoLoggers 2 ∧
    ∀ o ∈ repoOps, LeavesBoth "rocketry.task".toList 2 o := by
  refine ⟨⟨⟨"rocketry.task".toList, false, [none, some 0, none], true⟩, by decide +kernel, rfl⟩, ⟨by decide, by decide⟩, ?_⟩
  unfold repoOps
  simp only [List.forall_mem_cons, LeavesBoth]
  exact ⟨trivial, trivial, ⟨by decide, by decide⟩, trivial, trivial, trivial, fun _ h => nomatch h⟩

example : ((repoLoggers.setRepo "rocketry.task".toList 2).repoSteps repoOps).taskRecords "rocketry.task".toList "a" =
    some [⟨"a", 3, 30⟩, ⟨"a", 4, 40⟩] := by decide +kernel
example : ((repoLoggers.setRepo "rocketry.task".toList 2).repoSteps repoOps).repos 0 = [⟨"a", 1, 10⟩, ⟨"b", 2, 20⟩] := by
  decide +kernel
example : ((repoLoggers.setRepo "rocketry.task".toList 2).get "rocketry.task".toList).map (·.handlers) =
    some [some 2, none, none] := by decide +kernel
example : ComesTo repoLoggers "rocketry.task.reports".toList "rocketry.task".toList := by
  refine .inr ⟨by decide +kernel, fun x hx hl l hg _ => ?_⟩
  have : x ∈ ["rocketry.task.reports".toList, "rocketry.task".toList, "rocketry".toList] := by
    have e : "rocketry.task.reports".toList :: above "rocketry.task.reports".toList =
      ["rocketry.task.reports".toList, "rocketry.task".toList, "rocketry".toList] := by decide +kernel
    rw [← e]; exact hx
  simp only [List.mem_cons, List.not_mem_nil, or_false] at this
  rcases this with h | h | h
  · subst h
    have e : repoLoggers.get "rocketry.task.reports".toList = some ⟨"rocketry.task.reports".toList, false, [], true⟩ := by
      decide +kernel
    rw [e] at hg; cases hg; rfl
  · subst h; exact absurd hl (by decide +kernel)
  · subst h; exact absurd hl (by decide +kernel)
example : ¬ ComesTo repoLoggers "rocketry.task.secret".toList "rocketry.task".toList := by
  rintro (h | ⟨_, h⟩)
  · exact absurd h (by decide)
  · have e : repoLoggers.get "rocketry.task.secret".toList = some ⟨"rocketry.task.secret".toList, false, [some 1], false⟩ := by
      decide +kernel
    exact absurd (h _ List.mem_cons_self (by decide) _ e rfl) (by decide)

/-! ### what set_repo of the logger of one task does to others -/

/-- `set_repo` is a method of the logger of a task, but it is not about this task: every task with a logger of this name
reads the new repository, so that with an empty one all of them have lost their past, whatever they had logged. -/
theorem C119_shared_violated (w : LogWorld) (n : LogName) (k : Nat) (hn : IsLogger w n) (hk : w.repos k = []) (task : String) :
    (w.setRepo n k).taskRecords n task = some [] := by
  obtain ⟨l, hl, _⟩ := hn
  unfold LogWorld.taskRecords
  rw [get_setRepo, if_pos rfl, hl]
  simp [Lg.repo, repos_setRepo, hk]

example : repoLoggers.taskRecords "rocketry.task".toList "b" = some [⟨"b", 2, 20⟩] ∧
    (repoLoggers.setRepo "rocketry.task".toList 2).taskRecords "rocketry.task".toList "b" = some [] := by decide +kernel

/-- C119 does not hold for a repository that is also that of a logger above: each record is read twice. -/
theorem C119_twice_violated (r : LRec) :
    ((repoLoggers.setRepo "rocketry.task.reports".toList 0).log "rocketry.task.reports".toList r).repos 0 =
      repoLoggers.repos 0 ++ [r, r] := by
  show repoLoggers.repos 0 ++ List.replicate (((repoLoggers.setRepo "rocketry.task.reports".toList 0).sinks
    "rocketry.task.reports".toList).count 0) r = _
  have h : ((repoLoggers.setRepo "rocketry.task.reports".toList 0).sinks "rocketry.task.reports".toList).count 0 = 2 := by
    decide +kernel
  rw [h]; rfl

/-- A logger below the base name that gets a repository of its own still passes its records up: the log of the session
then shows each of them twice. -/
theorem C119_session_violated (r : LRec) :
    ((repoLoggers.setRepo "rocketry.task.reports".toList 2).log "rocketry.task.reports".toList r).taskLog "rocketry.task".toList =
      some ([⟨"a", 1, 10⟩, ⟨"b", 2, 20⟩] ++ [r] ++ [r] ++ []) := by
  have h : ∀ k, ((repoLoggers.setRepo "rocketry.task.reports".toList 2).sinks "rocketry.task.reports".toList).count k =
      [2, 0].count k := by
    intro k
    have : (repoLoggers.setRepo "rocketry.task.reports".toList 2).sinks "rocketry.task.reports".toList = [2, 0] := by decide +kernel
    rw [this]
  have e : ((repoLoggers.setRepo "rocketry.task.reports".toList 2).log "rocketry.task.reports".toList r).taskLoggers
      "rocketry.task".toList = [⟨"rocketry.task".toList, false, [none, some 0, none], true⟩,
        ⟨"rocketry.task.reports".toList, false, [some 2], true⟩, ⟨"rocketry.task.secret".toList, false, [some 1], false⟩] := by
    rw [taskLoggers_log]; decide +kernel
  unfold LogWorld.taskLog
  rw [e]
  simp only [LogWorld.chained, Lg.repo, LogWorld.log, h]
  rfl

end Rocketry.Props
