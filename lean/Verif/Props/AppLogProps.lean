import Verif.Spec.AppLogSpec

/-!
# C88: the log of an application can be read back
-/

namespace Rocketry.Props
open Rocketry.Session Rocketry.Spec

/-! ### loggers -/

theorem find_map_name (n m : LogName) (f : Lg → Lg) (hf : ∀ x : Lg, x.name = n → (f x).name = n) : ∀ ls : List Lg,
    (ls.map (fun x => if x.name = n then f x else x)).find? (fun l => decide (l.name = m)) =
      (ls.find? (fun l => decide (l.name = m))).map (fun x => if x.name = n then f x else x)
  | [] => rfl
  | x :: ls => by
    have e : (if x.name = n then f x else x).name = x.name := by
      by_cases h : x.name = n
      · rw [if_pos h, hf x h, h]
      · rw [if_neg h]
    rw [List.map_cons, List.find?_cons, List.find?_cons, e]
    by_cases h : x.name = m
    · simp [h]
    · simp [h, find_map_name n m f hf ls]

theorem get_name {w : LogWorld} {n : LogName} {l : Lg} (h : w.get n = some l) : l.name = n := by
  have := List.find?_some h
  simpa using this

/-- What `ensure` leaves for the name. -/
def ensured (n : LogName) : Option Lg → Lg
  | none => ⟨n, false, [], true⟩
  | some l => if l.placeholder then ⟨n, false, [], true⟩ else l

theorem get_ensure (w : LogWorld) (n m : LogName) :
    (w.ensure n).get m = if m = n then some (ensured n (w.get n)) else w.get m := by
  unfold LogWorld.ensure
  cases h : w.get n with
  | none =>
    simp only [LogWorld.get, List.find?_append, ensured]
    by_cases e : m = n
    · subst e
      simp only [LogWorld.get] at h
      simp [h]
    · have e' : ¬ n = m := fun x => e x.symm
      simp [e, e']
  | some l =>
    dsimp only [ensured]
    by_cases hp : l.placeholder
    · rw [if_pos hp]
      simp only [LogWorld.get]
      rw [find_map_name n m (fun _ => ⟨n, false, [], true⟩) (fun _ _ => rfl)]
      by_cases e : m = n
      · subst e
        have hn := get_name h
        simp only [LogWorld.get] at h
        simp [h, hn, hp]
      · rw [if_neg e]
        cases h' : w.loggers.find? (fun l => decide (l.name = m)) with
        | none => rfl
        | some l' =>
          have hn : l'.name = m := get_name (w := w) h'
          simp [hn, e]
    · rw [if_neg hp]
      by_cases e : m = n
      · subst e; simp [h, hp]
      · simp [e]

theorem get_handle (w : LogWorld) (n m : LogName) (f : List (Option Nat) → List (Option Nat)) :
    (w.handle n f).get m = if m = n then (w.get n).map (fun x => { x with handlers := f x.handlers }) else w.get m := by
  unfold LogWorld.handle
  simp only [LogWorld.get]
  rw [find_map_name n m (fun x => { x with handlers := f x.handlers }) (fun _ h => h)]
  by_cases e : m = n
  · subst e
    cases h' : w.loggers.find? (fun l => decide (l.name = m)) with
    | none => simp
    | some l' =>
      have hn : l'.name = m := get_name (w := w) h'
      simp [hn]
  · rw [if_neg e]
    cases h' : w.loggers.find? (fun l => decide (l.name = m)) with
    | none => rfl
    | some l' =>
      have hn : l'.name = m := get_name (w := w) h'
      simp [hn, e]

@[simp] theorem repos_ensure (w : LogWorld) (n : LogName) : (w.ensure n).repos = w.repos := by
  unfold LogWorld.ensure; split
  · rfl
  · split <;> rfl
@[simp] theorem root_ensure (w : LogWorld) (n : LogName) : (w.ensure n).root = w.root := by
  unfold LogWorld.ensure; split
  · rfl
  · split <;> rfl
@[simp] theorem repos_handle (w : LogWorld) (n : LogName) (f) : (w.handle n f).repos = w.repos := rfl
@[simp] theorem root_handle (w : LogWorld) (n : LogName) (f) : (w.handle n f).root = w.root := rfl

theorem above_shorter {n m : LogName} (h : m ∈ above n) : m.length < n.length := by
  unfold above at h
  rw [List.mem_filterMap] at h
  obtain ⟨k, hk, e⟩ := h
  rw [List.mem_reverse, List.mem_range] at hk
  split at e
  · cases e; rw [List.length_take]; omega
  · cases e

/-- The handlers of the logger of a name; none if there is no such logger. -/
def handlersOf (w : LogWorld) (n : LogName) : List (Option Nat) := match w.get n with
  | none => []
  | some l => if l.placeholder then [] else l.handlers

theorem count_upward_zero (w : LogWorld) (k : Nat) (hr : some k ∉ w.root) : ∀ ns : List LogName,
    (∀ n ∈ ns, some k ∉ handlersOf w n) → (w.upward ns).count k = 0
  | [], _ => by
    rw [List.count_eq_zero]
    intro h
    rw [LogWorld.upward, List.mem_filterMap] at h
    obtain ⟨a, ha, e⟩ := h
    cases e; exact hr ha
  | n :: ns, h => by
    have ih := count_upward_zero w k hr ns (fun m hm => h m (List.mem_cons_of_mem _ hm))
    have hn := h n List.mem_cons_self
    unfold handlersOf at hn
    rw [LogWorld.upward]
    cases hg : w.get n with
    | none => exact ih
    | some l =>
      rw [hg] at hn
      dsimp only at hn ⊢
      by_cases hp : l.placeholder
      · rw [if_pos hp]; exact ih
      · rw [if_neg hp] at hn ⊢
        have h0 : (l.handlers.filterMap id).count k = 0 := by
          rw [List.count_eq_zero]
          intro h
          rw [List.mem_filterMap] at h
          obtain ⟨a, ha, e⟩ := h
          cases e; exact hn ha
        rw [List.count_append, h0]
        by_cases hq : l.propagate
        · rw [if_pos hq, ih]
        · rw [if_neg hq]; rfl

/-! ### what holds of the log of an application -/

/-- The logger can be read from the repository `k`, and takes what is logged. -/
structure ReadsLog (base : LogName) (k : Nat) (a : AppWorld) : Prop where
  lg : ∃ l, a.w.get base = some l ∧ l.placeholder = false ∧ l.repo = some k
  eff : a.effective base ≤ INFO

theorem ReadsLog.records {base k a} (h : ReadsLog base k a) (t : String) :
    a.w.taskRecords base t = some ((a.w.repos k).filter (fun r => decide (r.task = t))) := by
  obtain ⟨l, hl, _, hr⟩ := h.lg
  simp only [LogWorld.taskRecords, hl, hr, Option.map_some]

theorem ReadsLog.sink {base k a} (h : ReadsLog base k a) : k ∈ a.w.sinks base := by
  obtain ⟨l, hl, hp, hr⟩ := h.lg
  simp only [LogWorld.sinks, LogWorld.upward, hl, hp]
  rw [if_neg (by simp)]
  refine List.mem_append_left _ ?_
  rw [Lg.repo, List.findSome?_eq_some_iff] at hr
  obtain ⟨l1, x, l2, e, hx, _⟩ := hr
  rw [List.mem_filterMap]
  exact ⟨x, by rw [e]; simp, hx⟩

theorem repo_append {l : Lg} {k : Nat} (h : l.repo = some k) (x : Option Nat) :
    ({ l with handlers := l.handlers ++ [x] } : Lg).repo = some k := by
  unfold Lg.repo at h ⊢
  rw [List.findSome?_append, h]; rfl

/-- The level set for the name itself counts. -/
theorem effective_own (a : AppWorld) (n : LogName) {x : Nat} (h : a.level n = some x) : a.effective n = x := by
  unfold AppWorld.effective
  rw [List.findSome?_cons, h]; rfl

theorem findSome_set (f : LogName → Option Nat) (n : LogName) (x : Nat) : ∀ ns : List LogName,
    ns.findSome? (fun m => if m = n then some x else f m) = some x ∨
    ns.findSome? (fun m => if m = n then some x else f m) = ns.findSome? f
  | [] => .inr rfl
  | m :: ns => by
    rw [List.findSome?_cons, List.findSome?_cons]
    by_cases e : m = n
    · rw [if_pos e]; exact .inl rfl
    · rw [if_neg e]
      cases f m with
      | some y => exact .inr rfl
      | none => exact findSome_set f n x ns

/-- Setting a level that is not above INFO keeps effective levels that are not. -/
theorem effective_setLevel (a : AppWorld) (n m : LogName) (x : Nat) (hx : x ≤ INFO) (h : a.effective m ≤ INFO) :
    (a.setLevel n (some x)).effective m ≤ INFO := by
  unfold AppWorld.effective AppWorld.setLevel at *
  dsimp only
  rcases findSome_set a.level n x (m :: above m) with e | e
  · rw [e]; exact hx
  · rw [e]; exact h

/-- There is a logger of the name, read from the repository `k`. -/
def HasRepo (base : LogName) (k : Nat) (w : LogWorld) : Prop :=
  ∃ l, w.get base = some l ∧ l.placeholder = false ∧ l.repo = some k

theorem HasRepo.ensure {base k w} (h : HasRepo base k w) (m : LogName) : HasRepo base k (w.ensure m) := by
  obtain ⟨l, hl, hp, hr⟩ := h
  refine ⟨l, ?_, hp, hr⟩
  rw [get_ensure]
  by_cases e : base = m
  · subst e; rw [if_pos rfl, hl, ensured, hp]; rfl
  · rw [if_neg e, hl]

theorem HasRepo.append {base k w} (h : HasRepo base k w) (m : LogName) (x : Option Nat) :
    HasRepo base k (w.handle m (fun hs => hs ++ [x])) := by
  obtain ⟨l, hl, hp, hr⟩ := h
  by_cases e : base = m
  · subst e
    exact ⟨{ l with handlers := l.handlers ++ [x] }, by rw [get_handle, if_pos rfl, hl]; rfl, hp, repo_append hr x⟩
  · exact ⟨l, by rw [get_handle, if_neg e, hl], hp, hr⟩

theorem HasRepo.other {base k w} (h : HasRepo base k w) {m : LogName} (hm : m ≠ base) (f) :
    HasRepo base k (w.handle m f) := by
  obtain ⟨l, hl, hp, hr⟩ := h
  exact ⟨l, by rw [get_handle, if_neg (fun e => hm e.symm), hl], hp, hr⟩

theorem HasRepo.log {base k w} (h : HasRepo base k w) (n r) : HasRepo base k (LogWorld.log w n r) := h

theorem w_setLevel (a : AppWorld) (n lv) : (a.setLevel n lv).w = a.w.ensure n := rfl

/-- What `start` did to the loggers. -/
theorem start_w (a : AppWorld) (m : LogName) :
    ∃ w, ((w = a.w.ensure m ∧ (a.start m).next = a.next) ∨
      (w = (a.w.ensure m).handle m (fun hs => hs ++ [some a.next]) ∧ (a.start m).next = a.next + 1)) ∧
      ((a.start m).w = w ∨ (a.start m).w = w.ensure m) := by
  have hn : ∀ b : AppWorld, (b.fixLevel m).next = b.next := by
    intro b; unfold AppWorld.fixLevel; split <;> rfl
  refine ⟨(a.fixRepo m).w, ?_, ?_⟩
  · simp only [AppWorld.start, hn]
    unfold AppWorld.fixRepo
    dsimp only
    split
    · exact .inr ⟨rfl, rfl⟩
    · exact .inl ⟨rfl, rfl⟩
  · unfold AppWorld.start AppWorld.fixLevel
    split
    · exact .inl rfl
    · exact .inr rfl

/-- What `start` did to the levels. -/
theorem start_level (a : AppWorld) (m : LogName) :
    ((a.start m).level = a.level ∨ (a.start m).level = fun n => if n = m then some INFO else a.level n) ∧
      (a.start m).rootLevel = a.rootLevel := by
  have h1 : (a.fixRepo m).level = a.level := by
    unfold AppWorld.fixRepo; dsimp only; split <;> rfl
  have h2 : (a.fixRepo m).rootLevel = a.rootLevel := by
    unfold AppWorld.fixRepo; dsimp only; split <;> rfl
  unfold AppWorld.start AppWorld.fixLevel
  by_cases h : (a.fixRepo m).effective m ≤ INFO
  · rw [if_pos h]; exact ⟨.inl h1, h2⟩
  · rw [if_neg h]
    refine ⟨.inr ?_, h2⟩
    simp only [AppWorld.setLevel, h1]

theorem start_repos (a : AppWorld) (m : LogName) : (a.start m).w.repos = a.w.repos := by
  obtain ⟨w, h1, h2⟩ := start_w a m
  rcases h1 with ⟨rfl, _⟩ | ⟨rfl, _⟩ <;> rcases h2 with h | h <;> rw [h] <;> simp

theorem app_repos (a : AppWorld) (m : LogName) (r) : (a.app m r).w.repos = a.w.repos := by
  cases r <;> simp [AppWorld.app, w_setLevel]

theorem HasRepo.start {base k} {a : AppWorld} (h : HasRepo base k a.w) (m : LogName) : HasRepo base k (a.start m).w := by
  obtain ⟨w, h1, h2⟩ := start_w a m
  have hw : HasRepo base k w := by
    rcases h1 with ⟨rfl, _⟩ | ⟨rfl, _⟩
    · exact h.ensure m
    · exact (h.ensure m).append m _
  rcases h2 with e | e <;> rw [e]
  · exact hw
  · exact hw.ensure m

theorem HasRepo.app {base k} {a : AppWorld} (h : HasRepo base k a.w) {m : LogName} (hm : m ≠ base) (r) :
    HasRepo base k (a.app m r).w := by
  cases r with
  | none => exact (h.ensure m).other hm _
  | some _ => exact (h.ensure m).other hm _

theorem HasRepo.step {base k} {a : AppWorld} (h : HasRepo base k a.w) {o : AppOp} (ho : LeavesLog base o) :
    HasRepo base k (a.step o).w := by
  cases o with
  | app m r => exact h.app ho r
  | start m => exact h.start m
  | log n lv r =>
    simp only [AppWorld.step, AppWorld.log]
    split
    · exact h.log n r
    · exact h
  | setLevel m lv => exact h.ensure m
  | addHandler m x => exact (h.ensure m).append m x

/-- The level of the name itself is set, and not above INFO. -/
def OwnLevel (base : LogName) (a : AppWorld) : Prop := ∃ x, a.level base = some x ∧ x ≤ INFO

theorem OwnLevel.eff {base a} (h : OwnLevel base a) : a.effective base ≤ INFO := by
  obtain ⟨x, hx, hl⟩ := h
  rw [effective_own a base hx]; exact hl

theorem OwnLevel.step {base a} (h : OwnLevel base a) {o : AppOp} (ho : LeavesLog base o) : OwnLevel base (a.step o) := by
  obtain ⟨x, hx, hl⟩ := h
  cases o with
  | app m r =>
    refine ⟨x, ?_, hl⟩
    have hm : ¬ base = m := fun e => ho e.symm
    cases r <;> simp [AppWorld.step, AppWorld.app, AppWorld.setLevel, hm, hx]
  | start m =>
    rcases (start_level a m).1 with e | e
    · exact ⟨x, by simp only [AppWorld.step]; rw [e]; exact hx, hl⟩
    · by_cases hm : base = m
      · exact ⟨INFO, by simp only [AppWorld.step]; rw [e]; simp [hm], Nat.le_refl _⟩
      · exact ⟨x, by simp only [AppWorld.step]; rw [e]; simp [hm, hx], hl⟩
  | log n lv r =>
    simp only [AppWorld.step, AppWorld.log]
    split
    · exact ⟨x, hx, hl⟩
    · exact ⟨x, hx, hl⟩
  | setLevel m lv =>
    by_cases hm : base = m
    · obtain ⟨y, hy, hyl⟩ := ho hm.symm
      exact ⟨y, by simp [AppWorld.step, AppWorld.setLevel, hm, hy], hyl⟩
    · exact ⟨x, by simp [AppWorld.step, AppWorld.setLevel, hm, hx], hl⟩
  | addHandler m h => exact ⟨x, hx, hl⟩

theorem low_step {base} {a : AppWorld} (h : a.effective base ≤ INFO) {o : AppOp} (ho : LevelsLow o) :
    (a.step o).effective base ≤ INFO := by
  cases o with
  | app m r =>
    have := effective_setLevel a m base INFO (Nat.le_refl _) h
    cases r <;> exact this
  | start m =>
    have hset := effective_setLevel a m base INFO (Nat.le_refl _) h
    unfold AppWorld.effective at *
    obtain ⟨e1, e2⟩ := start_level a m
    simp only [AppWorld.step]
    rw [e2]
    rcases e1 with e | e <;> rw [e]
    · exact h
    · exact hset
  | log n lv r =>
    simp only [AppWorld.step, AppWorld.log]
    split
    · exact h
    · exact h
  | setLevel m lv =>
    obtain ⟨x, rfl, hx⟩ := ho
    exact effective_setLevel a m base x hx h
  | addHandler m x => exact h

/-- A step only adds records to a repository, and those logged under a name that reads it are added. -/
theorem step_adds {base k} {a : AppWorld} (h : ReadsLog base k a) {o : AppOp} (ho : LeavesLog base o) :
    ∃ rs, (a.step o).w.repos k = a.w.repos k ++ rs ∧ (loggedUnder base [o]).Sublist rs := by
  cases o with
  | app m r => exact ⟨[], by simp [AppWorld.step, app_repos], List.Sublist.refl _⟩
  | start m => exact ⟨[], by simp [AppWorld.step, start_repos], List.Sublist.refl _⟩
  | setLevel m lv => exact ⟨[], by simp [AppWorld.step, w_setLevel], List.Sublist.refl _⟩
  | addHandler m x => exact ⟨[], by simp [AppWorld.step], List.Sublist.refl _⟩
  | log n lv r =>
    by_cases e : n = base
    · subst e
      refine ⟨List.replicate ((a.w.sinks n).count k) r, ?_, ?_⟩
      · have hlv : INFO ≤ lv := ho
        simp only [AppWorld.step, AppWorld.log]
        rw [if_pos (Nat.le_trans h.eff hlv)]; rfl
      · have : 0 < (a.w.sinks n).count k := List.count_pos_iff.mpr h.sink
        simp only [loggedUnder, List.filterMap_cons, List.filterMap_nil, if_true]
        rw [← Nat.succ_pred_eq_of_pos this, List.replicate_succ]
        exact List.Sublist.cons_cons _ (List.nil_sublist _)
    · have hl : loggedUnder base [.log n lv r] = [] := by simp [loggedUnder, e]
      rw [hl]
      simp only [AppWorld.step, AppWorld.log]
      split
      · exact ⟨_, rfl, List.nil_sublist _⟩
      · exact ⟨[], by simp, List.nil_sublist _⟩

theorem loggedUnder_cons (n : LogName) (o : AppOp) (l : List AppOp) :
    loggedUnder n (o :: l) = loggedUnder n [o] ++ loggedUnder n l := by
  show loggedUnder n ([o] ++ l) = _
  unfold loggedUnder
  rw [List.filterMap_append]

/-- A property of states that a step of these kinds keeps, and that makes the log readable, gives all records. -/
theorem run_adds {base k} (Q : AppWorld → Prop) (R : AppOp → Prop) (hQ : ∀ a, Q a → ReadsLog base k a)
    (hR : ∀ o, R o → LeavesLog base o) (hstep : ∀ a o, Q a → R o → Q (a.step o)) : ∀ (l : List AppOp) (a : AppWorld),
    Q a → (∀ o ∈ l, R o) → Q (a.run l) ∧ ∃ rs, (a.run l).w.repos k = a.w.repos k ++ rs ∧ (loggedUnder base l).Sublist rs
  | [], a, h, _ => ⟨h, [], by simp [AppWorld.run], List.Sublist.refl _⟩
  | o :: l, a, h, ho => by
    have h0 := ho o List.mem_cons_self
    obtain ⟨hq, rs, e, hs⟩ := run_adds Q R hQ hR hstep l (a.step o) (hstep a o h h0)
      (fun x hx => ho x (List.mem_cons_of_mem _ hx))
    obtain ⟨rs', e', hs'⟩ := step_adds (hQ a h) (hR o h0)
    refine ⟨hq, rs' ++ rs, ?_, ?_⟩
    · show ((a.step o).run l).w.repos k = _
      rw [e, e', List.append_assoc]
    · rw [loggedUnder_cons]; exact hs'.append hs

/-! ### the theorems -/

theorem app_owns (a : AppWorld) (base : LogName) (repo : Option Nat) :
    HasRepo base (repo.getD a.next) (a.app base repo).w ∧ OwnLevel base (a.app base repo) := by
  refine ⟨?_, INFO, ?_, Nat.le_refl _⟩
  · have hp : ∀ o : Option Lg, (ensured base o).placeholder = false := by
      intro o
      cases o with
      | none => rfl
      | some l =>
        simp only [ensured]
        by_cases h : l.placeholder
        · rw [if_pos h]
        · rw [if_neg h]; simpa using h
    cases repo <;>
      exact ⟨_, by simp only [AppWorld.app, w_setLevel]; rw [get_handle, if_pos rfl, get_ensure, if_pos rfl]; rfl,
        by simpa using hp _, rfl⟩
  · cases repo <;> simp [AppWorld.app, AppWorld.setLevel]

/-- C88: after an application was made, what is logged under its name can be read back in order, together with what its
repository already had, until another application takes its name or its level is raised — whatever other applications
and sessions are made and started, and whatever handlers and levels the program adds. -/
theorem C88_kept_partial (a : AppWorld) (base : LogName) (repo : Option Nat) (l : List AppOp)
    (h : ∀ o ∈ l, LeavesLog base o) (task : String) :
    ∃ rs, ((a.app base repo).run l).w.taskRecords base task = some rs ∧
      ((a.w.repos (repo.getD a.next) ++ loggedUnder base l).filter (fun r => decide (r.task = task))).Sublist rs := by
  obtain ⟨h1, h2⟩ := app_owns a base repo
  have e0 := app_repos a base repo
  generalize repo.getD a.next = k at h1 ⊢
  obtain ⟨⟨q1, q2⟩, rs, e, hs⟩ := run_adds (base := base) (k := k)
    (fun a => HasRepo base k a.w ∧ OwnLevel base a) (LeavesLog base)
    (fun a h => ⟨h.1, h.2.eff⟩) (fun _ h => h) (fun a o q ho => ⟨q.1.step ho, q.2.step ho⟩) l _ ⟨h1, h2⟩ h
  refine ⟨_, ReadsLog.records ⟨q1, q2.eff⟩ task, ?_⟩
  rw [e, e0]
  exact (List.Sublist.append (List.Sublist.refl _) hs).filter _

/-! ### nothing else is read -/

/-- The repository is the first handler of the logger of the name, and a handler nowhere else. -/
structure Sole (base : LogName) (k : Nat) (w : LogWorld) : Prop where
  own : ∃ l hs, w.get base = some l ∧ l.placeholder = false ∧ l.handlers = some k :: hs ∧ some k ∉ hs
  root : some k ∉ w.root
  other : ∀ n l, n ≠ base → w.get n = some l → some k ∉ l.handlers

theorem Sole.has {base k w} (h : Sole base k w) : HasRepo base k w := by
  obtain ⟨l, hs, hl, hp, e, _⟩ := h.own
  exact ⟨l, hl, hp, by rw [Lg.repo, e]; rfl⟩

theorem Sole.once {base k w} (h : Sole base k w) : (w.sinks base).count k = 1 := by
  obtain ⟨l, hs, hl, hp, e, hk⟩ := h.own
  simp only [LogWorld.sinks, LogWorld.upward, hl, hp]
  have hz : (w.upward (above base)).count k = 0 := by
    refine count_upward_zero w k h.root _ (fun n hn => ?_)
    have hne : n ≠ base := fun e => Nat.lt_irrefl _ (e ▸ above_shorter hn)
    unfold handlersOf
    cases hg : w.get n with
    | none => simp
    | some x =>
      dsimp only
      split
      · simp
      · exact h.other n x hne hg
  have h0 : (hs.filterMap id).count k = 0 := by
    rw [List.count_eq_zero]
    intro h
    rw [List.mem_filterMap] at h
    obtain ⟨a, ha, e⟩ := h
    cases e; exact hk ha
  rw [if_neg (by simp), e, List.count_append]
  have h1 : ((some k :: hs).filterMap id).count k = 1 := by
    show (k :: hs.filterMap id).count k = 1
    rw [List.count_cons_self, h0]
  rw [h1]
  split
  · rw [hz]
  · rfl

theorem ensured_handlers {n : LogName} {o : Option Lg} {x : Option Nat} (h : x ∈ (ensured n o).handlers) :
    ∃ l, o = some l ∧ x ∈ l.handlers := by
  cases o with
  | none => exact absurd h (by simp [ensured])
  | some l =>
    simp only [ensured] at h
    by_cases hp : l.placeholder
    · rw [if_pos hp] at h; exact absurd h (by simp)
    · rw [if_neg hp] at h; exact ⟨l, rfl, h⟩

theorem Sole.ensure {base k w} (h : Sole base k w) (m : LogName) : Sole base k (w.ensure m) := by
  constructor
  · obtain ⟨l, hs, hl, hp, e, hk⟩ := h.own
    refine ⟨l, hs, ?_, hp, e, hk⟩
    rw [get_ensure]
    by_cases hm : base = m
    · subst hm; rw [if_pos rfl, hl, ensured, hp]; rfl
    · rw [if_neg hm, hl]
  · rw [root_ensure]; exact h.root
  · intro n l hn hl hk
    rw [get_ensure] at hl
    by_cases hm : n = m
    · subst hm
      rw [if_pos rfl] at hl
      cases hl
      obtain ⟨l', e, hm⟩ := ensured_handlers hk
      exact h.other n l' hn e hm
    · rw [if_neg hm] at hl; exact h.other n l hn hl hk

theorem Sole.append {base k w} (h : Sole base k w) (m : LogName) {x : Option Nat} (hx : x ≠ some k) :
    Sole base k (w.handle m (fun hs => hs ++ [x])) := by
  constructor
  · obtain ⟨l, hs, hl, hp, e, hk⟩ := h.own
    by_cases hm : base = m
    · subst hm
      refine ⟨{ l with handlers := l.handlers ++ [x] }, hs ++ [x], by rw [get_handle, if_pos rfl, hl]; rfl, hp,
        by rw [e]; rfl, ?_⟩
      rw [List.mem_append]
      rintro (h | h)
      · exact hk h
      · exact hx (List.mem_singleton.mp h).symm
    · exact ⟨l, hs, by rw [get_handle, if_neg hm, hl], hp, e, hk⟩
  · exact h.root
  · intro n l hn hl hk
    rw [get_handle] at hl
    by_cases hm : n = m
    · subst hm
      rw [if_pos rfl] at hl
      rw [Option.map_eq_some_iff] at hl
      obtain ⟨l', hl', rfl⟩ := hl
      rw [List.mem_append] at hk
      rcases hk with hk | hk
      · exact h.other n l' hn hl' hk
      · exact hx (List.mem_singleton.mp hk).symm
    · rw [if_neg hm] at hl; exact h.other n l hn hl hk

theorem Sole.insert {base k w} (h : Sole base k w) {m : LogName} (hm : m ≠ base) {x : Option Nat} (hx : x ≠ some k) :
    Sole base k (w.handle m (fun hs => x :: hs)) := by
  constructor
  · obtain ⟨l, hs, hl, hp, e, hk⟩ := h.own
    exact ⟨l, hs, by rw [get_handle, if_neg (fun e => hm e.symm), hl], hp, e, hk⟩
  · exact h.root
  · intro n l hn hl hk
    rw [get_handle] at hl
    by_cases hm : n = m
    · subst hm
      rw [if_pos rfl] at hl
      rw [Option.map_eq_some_iff] at hl
      obtain ⟨l', hl', rfl⟩ := hl
      rcases List.mem_cons.mp hk with hk | hk
      · exact hx hk.symm
      · exact h.other n l' hn hl' hk
    · rw [if_neg hm] at hl; exact h.other n l hn hl hk

/-- The repository is numbered below the next new one, too. -/
def SoleA (base : LogName) (k : Nat) (a : AppWorld) : Prop := Sole base k a.w ∧ k < a.next

theorem SoleA.step {base k a} (h : SoleA base k a) {o : AppOp} (ho : LeavesLog base o) (hk : LeavesRepo k o) :
    SoleA base k (a.step o) := by
  obtain ⟨h, hlt⟩ := h
  have hne : (some a.next : Option Nat) ≠ some k := by intro e; cases e; exact Nat.lt_irrefl _ hlt
  cases o with
  | app m r =>
    cases r with
    | none => exact ⟨(h.ensure m).insert ho hne, Nat.lt_succ_of_lt hlt⟩
    | some j => exact ⟨(h.ensure m).insert ho hk, hlt⟩
  | start m =>
    obtain ⟨w, h1, h2⟩ := start_w a m
    have hw : Sole base k w ∧ k < (a.start m).next := by
      rcases h1 with ⟨rfl, e⟩ | ⟨rfl, e⟩ <;> rw [e]
      · exact ⟨h.ensure m, hlt⟩
      · exact ⟨(h.ensure m).append m hne, Nat.lt_succ_of_lt hlt⟩
    refine ⟨?_, hw.2⟩
    simp only [AppWorld.step]
    rcases h2 with e | e <;> rw [e]
    · exact hw.1
    · exact hw.1.ensure m
  | log n lv r =>
    simp only [AppWorld.step, AppWorld.log]
    split
    · exact ⟨⟨h.own, h.root, h.other⟩, hlt⟩
    · exact ⟨h, hlt⟩
  | setLevel m lv => exact ⟨h.ensure m, hlt⟩
  | addHandler m x => exact ⟨(h.ensure m).append m hk, hlt⟩

/-- A step adds exactly what the task logged. -/
theorem step_exact {base k task} {a : AppWorld} (h : SoleA base k a) (hl : OwnLevel base a) {o : AppOp}
    (ho : LeavesLog base o) (ht : OnlyUnder base task o) :
    ((a.step o).w.repos k).filter (fun r => decide (r.task = task)) =
      (a.w.repos k ++ loggedUnder base [o]).filter (fun r => decide (r.task = task)) := by
  cases o with
  | app m r => simp [AppWorld.step, app_repos, loggedUnder]
  | start m => simp [AppWorld.step, start_repos, loggedUnder]
  | setLevel m lv => simp [AppWorld.step, w_setLevel, loggedUnder]
  | addHandler m x => simp [AppWorld.step, loggedUnder]
  | log n lv r =>
    by_cases e : n = base
    · subst e
      have hlv : INFO ≤ lv := ho
      simp only [AppWorld.step, AppWorld.log, loggedUnder]
      rw [if_pos (Nat.le_trans hl.eff hlv)]
      simp only [LogWorld.log, h.1.once]
      simp
    · have hr : r.task ≠ task := fun e' => e (ht e')
      have hu : loggedUnder base [.log n lv r] = [] := by simp [loggedUnder, e]
      rw [hu, List.append_nil]
      simp only [AppWorld.step, AppWorld.log]
      split
      · simp only [LogWorld.log, List.filter_append]
        have hz : (List.replicate (List.count k (a.w.sinks n)) r).filter (fun r => decide (r.task = task)) = [] := by
          rw [List.filter_eq_nil_iff]
          intro x hx
          rw [List.eq_of_mem_replicate hx]
          simpa using hr
        rw [hz, List.append_nil]
      · rfl

theorem run_exact {base k task} : ∀ (l : List AppOp) (a : AppWorld), SoleA base k a → OwnLevel base a →
    (∀ o ∈ l, LeavesLog base o) → (∀ o ∈ l, LeavesRepo k o) → (∀ o ∈ l, OnlyUnder base task o) →
    SoleA base k (a.run l) ∧ OwnLevel base (a.run l) ∧
      ((a.run l).w.repos k).filter (fun r => decide (r.task = task)) =
        (a.w.repos k ++ loggedUnder base l).filter (fun r => decide (r.task = task))
  | [], a, h, hl, _, _, _ => ⟨h, hl, by simp [AppWorld.run, loggedUnder]⟩
  | o :: l, a, h, hl, h1, h2, h3 => by
    have o1 := h1 o List.mem_cons_self
    have o2 := h2 o List.mem_cons_self
    have o3 := h3 o List.mem_cons_self
    obtain ⟨q1, q2, e⟩ := run_exact (task := task) l (a.step o) (h.step o1 o2) (hl.step o1)
      (fun x hx => h1 x (List.mem_cons_of_mem _ hx)) (fun x hx => h2 x (List.mem_cons_of_mem _ hx))
      (fun x hx => h3 x (List.mem_cons_of_mem _ hx))
    refine ⟨q1, q2, ?_⟩
    show (((a.step o).run l).w.repos k).filter _ = _
    rw [e, loggedUnder_cons, List.filter_append, step_exact h hl o1 o3, ← List.filter_append, List.append_assoc]

theorem app_sole (a : AppWorld) (base : LogName) (repo : Option Nat) (hu : UnusedRepo a.w (repo.getD a.next))
    (hlt : ∀ k, repo = some k → k < a.next) : SoleA base (repo.getD a.next) (a.app base repo) := by
  have key : ∀ k, UnusedRepo a.w k → Sole base k ((a.w.ensure base).handle base (fun hs => some k :: hs)) := by
    intro k hu
    have hget : ∀ n l, a.w.get n = some l → some k ∉ l.handlers :=
      fun n l hl => hu.2 l (List.mem_of_find?_eq_some hl)
    constructor
    · refine ⟨_, _, by rw [get_handle, if_pos rfl, get_ensure, if_pos rfl]; rfl, ?_, rfl, ?_⟩
      · cases hg : a.w.get base with
        | none => rfl
        | some l =>
          simp only [ensured]
          by_cases h : l.placeholder
          · rw [if_pos h]
          · rw [if_neg h]; simpa using h
      · intro hk
        obtain ⟨l, e, hm⟩ := ensured_handlers hk
        exact hget base l e hm
    · rw [root_handle, root_ensure]; exact hu.1
    · intro n l hn hl hk
      rw [get_handle, if_neg hn, get_ensure, if_neg hn] at hl
      exact hget n l hl hk
  cases repo with
  | none => exact ⟨key _ hu, Nat.lt_succ_self _⟩
  | some k => exact ⟨key _ hu, hlt k rfl⟩

/-- C88: with a repository of its own, the application reads for a task exactly what the task logged under its name, each
record once, after what the repository already had. -/
theorem C88_exact_partial (a : AppWorld) (base : LogName) (repo : Option Nat) (l : List AppOp) (task : String)
    (hu : UnusedRepo a.w (repo.getD a.next)) (hlt : ∀ k, repo = some k → k < a.next)
    (h1 : ∀ o ∈ l, LeavesLog base o) (h2 : ∀ o ∈ l, LeavesRepo (repo.getD a.next) o)
    (h3 : ∀ o ∈ l, OnlyUnder base task o) :
    ((a.app base repo).run l).w.taskRecords base task =
      some ((a.w.repos (repo.getD a.next) ++ loggedUnder base l).filter (fun r => decide (r.task = task))) := by
  have hs := app_sole a base repo hu hlt
  have hl := (app_owns a base repo).2
  have e0 := app_repos a base repo
  generalize repo.getD a.next = k at hs h2 ⊢
  obtain ⟨q1, q2, e⟩ := run_exact (task := task) l _ hs hl h1 h2 h3
  rw [ReadsLog.records ⟨q1.1.has, q2.eff⟩ task, e, e0]

/-! ### sessions -/

theorem start_eff (a : AppWorld) (base : LogName) : (a.start base).effective base ≤ INFO := by
  unfold AppWorld.start AppWorld.fixLevel
  split
  · rename_i h; exact h
  · exact Nat.le_of_eq (effective_own _ _ (by simp [AppWorld.setLevel]))

theorem readable_repo {l : Lg} (h : l.readable = true) : ∃ k, l.repo = some k := by
  unfold Lg.readable at h
  rw [List.any_eq_true] at h
  obtain ⟨x, hx, hs⟩ := h
  cases hr : l.repo with
  | some k => exact ⟨k, rfl⟩
  | none =>
    rw [Lg.repo, List.findSome?_eq_none_iff] at hr
    have := hr x hx
    simp only [id] at this
    rw [this] at hs; cases hs

theorem start_has (a : AppWorld) (base : LogName) (hb : ¬ ("_process".toList).isSuffixOf base) :
    ∃ k, HasRepo base k (a.start base).w := by
  have hpr : "_process".toList = ['_', 'p', 'r', 'o', 'c', 'e', 's', 's'] := by decide
  rw [hpr] at hb
  have hg := get_ensure a.w base base
  rw [if_pos rfl] at hg
  have hn : (ensured base (a.w.get base)).name = base := get_name hg
  have hp : (ensured base (a.w.get base)).placeholder = false := by
    cases h : a.w.get base with
    | none => rfl
    | some l =>
      simp only [ensured]
      by_cases h : l.placeholder
      · rw [if_pos h]
      · rw [if_neg h]; simpa using h
  generalize ensured base (a.w.get base) = l at hg hn hp
  have key : ∃ k, HasRepo base k (a.fixRepo base).w := by
    unfold AppWorld.fixRepo
    dsimp only
    by_cases hu : (((a.w.ensure base).get base).map Lg.unset).getD true
    · rw [if_pos hu]
      have hr : ({ l with handlers := l.handlers ++ [some a.next] } : Lg).readable = true := by
        simp [Lg.readable]
      obtain ⟨k, hk⟩ := readable_repo hr
      exact ⟨k, { l with handlers := l.handlers ++ [some a.next] },
        by dsimp only; rw [get_handle, if_pos rfl, hg]; rfl, hp, hk⟩
    · rw [if_neg hu]
      rw [hg] at hu
      have hr : l.readable = true := by
        simp only [Option.map_some, Option.getD_some, Lg.unset, hn] at hu
        cases h : l.readable with
        | true => rfl
        | false => rw [h] at hu; simp [hb] at hu
      obtain ⟨k, hk⟩ := readable_repo hr
      exact ⟨k, l, hg, hp, hk⟩
  obtain ⟨k, hk⟩ := key
  refine ⟨k, ?_⟩
  unfold AppWorld.start AppWorld.fixLevel
  split
  · exact hk
  · exact hk.ensure base

/-- C88: from any state of the loggers, after a session was started what is logged under its name can be read back. -/
theorem C88_started_partial (a : AppWorld) (base : LogName) (hb : ¬ ("_process".toList).isSuffixOf base) :
    ∃ k, ∀ (l : List AppOp), (∀ o ∈ l, LeavesLog base o) → (∀ o ∈ l, LevelsLow o) → ∀ task : String,
      ∃ rs, ((a.start base).run l).w.taskRecords base task = some rs ∧
        ((a.w.repos k ++ loggedUnder base l).filter (fun r => decide (r.task = task))).Sublist rs := by
  obtain ⟨k, hk⟩ := start_has a base hb
  refine ⟨k, fun l h1 h2 task => ?_⟩
  obtain ⟨⟨q1, q2⟩, rs, e, hs⟩ := run_adds (base := base) (k := k)
    (fun a => HasRepo base k a.w ∧ a.effective base ≤ INFO) (fun o => LeavesLog base o ∧ LevelsLow o)
    (fun a h => ⟨h.1, h.2⟩) (fun _ h => h.1) (fun a o q ho => ⟨q.1.step ho.1, low_step q.2 ho.2⟩) l _
    ⟨hk, start_eff a base⟩ (fun o ho => ⟨h1 o ho, h2 o ho⟩)
  refine ⟨_, ReadsLog.records ⟨q1, q2⟩ task, ?_⟩
  rw [e, start_repos]
  exact (List.Sublist.append (List.Sublist.refl _) hs).filter _

theorem ensure_of_has {base k w} (h : HasRepo base k w) : w.ensure base = w := by
  obtain ⟨l, hl, hp, _⟩ := h
  simp [LogWorld.ensure, hl, hp]

/-- C88: starting a session whose log can be read, and is not cut off, changes nothing: in particular a session that is
started again goes on with the same log. -/
theorem C88_again (a : AppWorld) (base : LogName) (hb : ¬ ("_process".toList).isSuffixOf base) :
    (a.start base).start base = a.start base := by
  obtain ⟨k, hk⟩ := start_has a base hb
  have he := start_eff a base
  generalize a.start base = b at hk he
  have hw := ensure_of_has hk
  obtain ⟨l, hl, hp, hr⟩ := hk
  have hu : l.unset = false := by
    have : l.readable = true := by
      rw [Lg.repo, List.findSome?_eq_some_iff] at hr
      obtain ⟨l1, x, l2, e, hx, _⟩ := hr
      rw [Lg.readable, e]
      cases x with
      | none => cases hx
      | some y => simp
    simp [Lg.unset, this]
  have hf : b.fixRepo base = b := by
    unfold AppWorld.fixRepo
    dsimp only
    rw [hw, hl, Option.map_some, Option.getD_some, hu, if_neg (by simp)]
  unfold AppWorld.start AppWorld.fixLevel
  rw [hf, if_pos he]

/-! ### what goes wrong -/

def bareLog : AppWorld := ⟨⟨[], [], fun _ => []⟩, fun _ => none, 30, 0⟩
def baseName : LogName := ['r', '.', 't']
def otherName : LogName := ['s']

/-- A program that C88 speaks about: an application, another one with another name, sessions, handlers and levels. -/
def tidyProgram : List AppOp :=
  [.start baseName, .log baseName INFO ⟨"a", 1, 0⟩, .app otherName none, .log otherName INFO ⟨"b", 2, 1⟩,
    .addHandler ['r'] none, .setLevel ['r'] (some ERROR), .log baseName ERROR ⟨"a", 3, 2⟩, .log baseName INFO ⟨"c", 4, 2⟩]

example : ((bareLog.app baseName none).run tidyProgram).w.taskRecords baseName "a" =
    some [⟨"a", 1, 0⟩, ⟨"a", 3, 2⟩] := by decide
example : (∀ o ∈ tidyProgram, LeavesLog baseName o) ∧ (∀ o ∈ tidyProgram, LeavesRepo 0 o) ∧
    (∀ o ∈ tidyProgram, OnlyUnder baseName "a" o) := by
  refine ⟨?_, ?_, ?_⟩ <;> intro o ho <;> simp only [tidyProgram, List.mem_cons, List.not_mem_nil, or_false] at ho <;>
    rcases ho with rfl | rfl | rfl | rfl | rfl | rfl | rfl | rfl <;>
    simp [LeavesLog, LeavesRepo, OnlyUnder, baseName, otherName, INFO, ERROR]
example : UnusedRepo bareLog.w 0 ∧ ¬ ("_process".toList).isSuffixOf baseName := by
  constructor
  · simp [UnusedRepo, bareLog]
  · decide
/-- A session alone: the level of the root logger would drop the records, and nothing could be read. -/
example : ((bareLog.start baseName).run [.log baseName INFO ⟨"a", 1, 0⟩]).w.taskRecords baseName "a" = some [⟨"a", 1, 0⟩] ∧
    (bareLog.run [.log baseName INFO ⟨"a", 1, 0⟩]).w.taskRecords baseName "a" = none := by decide

/-- C88 violated: a second application with the same name of loggers (the default one) takes over the log: what the tasks
of the first one had logged is no longer found.  Records logged later go to the repositories of both. -/
theorem C88_second_violated :
    ∃ (a : AppWorld) (l : List AppOp),
      (a.app baseName none).w.taskRecords baseName "a" = some [] ∧ l = [.log baseName INFO ⟨"a", 1, 0⟩] ∧
      (((a.app baseName none).run l).w.taskRecords baseName "a") = some [⟨"a", 1, 0⟩] ∧
      ((((a.app baseName none).run l).app baseName none).w.taskRecords baseName "a") = some [] ∧
      ∀ k < 2, (((((a.app baseName none).run l).app baseName none).run [.log baseName INFO ⟨"a", 2, 1⟩]).w.repos k).getLast? =
        some ⟨"a", 2, 1⟩ :=
  ⟨bareLog, _, by decide, rfl, by decide, by decide, by decide⟩

/-- C88 violated: with the level raised the records of runs and of success are dropped without a word, failures are
kept. -/
theorem C88_level_violated :
    ∃ (a : AppWorld) (l : List AppOp), loggedUnder baseName l = [⟨"a", 1, 0⟩, ⟨"a", 2, 1⟩] ∧
      ((a.app baseName none).run l).w.taskRecords baseName "a" = some [⟨"a", 2, 1⟩] :=
  ⟨bareLog, [.setLevel baseName (some 30), .log baseName INFO ⟨"a", 1, 0⟩, .log baseName ERROR ⟨"a", 2, 1⟩],
    by decide, by decide⟩

/-- C88 violated: a session whose loggers are named as those of child processes is started without a log it can read. -/
theorem C88_process_violated :
    ∃ (a : AppWorld) (base : LogName),
      ((a.start base).run [.log base INFO ⟨"a", 1, 0⟩]).w.taskRecords base "a" = none :=
  ⟨bareLog, ['m', 'y', '_', 'p', 'r', 'o', 'c', 'e', 's', 's'], by decide⟩

end Rocketry.Props
