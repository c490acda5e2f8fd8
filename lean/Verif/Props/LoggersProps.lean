import Verif.Spec.LoggersSpec

/-!
# C74: the log of a session shows every record once; C75: records carry the time of their session
-/

namespace Rocketry.Props
open Spec Rocketry.Session

/-! ## C74 -/

theorem get_log (w : LogWorld) (m : LogName) (r : LRec) (n : LogName) : (w.log m r).get n = w.get n := rfl

theorem upward_log (w : LogWorld) (m : LogName) (r : LRec) (ns : List LogName) : (w.log m r).upward ns = w.upward ns := by
  induction ns with
  | nil => rfl
  | cons n ns ih => simp only [LogWorld.upward, get_log, ih]

theorem sinks_log (w : LogWorld) (m : LogName) (r : LRec) (n : LogName) : (w.log m r).sinks n = w.sinks n := upward_log w m r _

theorem taskLoggers_log (w : LogWorld) (m : LogName) (r : LRec) (base : LogName) : (w.log m r).taskLoggers base = w.taskLoggers base := rfl

/-- The loggers read are the loggers of the session. -/
theorem taskLoggers_mine (w : LogWorld) (base : LogName) : w.taskLoggers base = mine w base := by
  unfold LogWorld.taskLoggers mine
  apply List.filter_congr
  intro l _
  rw [Bool.eq_iff_iff, decide_eq_true_iff, Mine, Bool.and_eq_true, Bool.and_eq_true, and_assoc, List.isPrefixOf_iff_prefix]
  have h : ((!("_process".toList).isSuffixOf l.name) = true) ↔ ¬ "_process".toList <:+ l.name := by
    rw [← List.isSuffixOf_iff_suffix, Bool.not_eq_true, Bool.not_eq_true']
  rw [h]
  simp

/-- What is read from some loggers after a record was logged. -/
theorem chained_log (w : LogWorld) (m : LogName) (r x : LRec) : ∀ (ls : List Lg) (rs : List LRec), w.chained ls = some rs →
    ∃ rs', (w.log m r).chained ls = some rs' ∧ rs'.count x = rs.count x +
      (if r = x then (ls.map (reaches w m)).sum else 0) := by
  intro ls
  induction ls with
  | nil => intro rs h; simp only [LogWorld.chained, Option.some.injEq] at h; subst h; exact ⟨[], rfl, by simp⟩
  | cons l ls ih =>
    intro rs h
    simp only [LogWorld.chained] at h ⊢
    cases hk : l.repo with
    | none => simp [hk] at h
    | some k =>
      simp only [hk] at h ⊢
      cases hc : w.chained ls with
      | none => simp [hc] at h
      | some rs1 =>
        simp only [hc, Option.some.injEq] at h
        subst h
        obtain ⟨rs2, h1, h2⟩ := ih rs1 hc
        refine ⟨(w.log m r).repos k ++ rs2, by rw [h1], ?_⟩
        rw [List.count_append, List.count_append, h2]
        simp only [LogWorld.log, List.count_append, List.count_replicate, List.map_cons, List.sum_cons, reaches, hk, beq_iff_eq]
        by_cases hx : r = x
        · simp only [if_pos hx]; omega
        · simp only [if_neg hx]; omega

theorem taskLog_some {w : LogWorld} {base : LogName} (h : AllReadable w base) : ∃ rs, w.taskLog base = some rs := by
  unfold LogWorld.taskLog
  have : ∀ ls : List Lg, (∀ l ∈ ls, ∃ k, l.repo = some k) → ∃ rs, w.chained ls = some rs := by
    intro ls
    induction ls with
    | nil => intro _; exact ⟨[], rfl⟩
    | cons l ls ih =>
      intro h
      obtain ⟨k, hk⟩ := h l (by simp)
      obtain ⟨rs, hrs⟩ := ih (fun l' h' => h l' (by simp [h']))
      exact ⟨w.repos k ++ rs, by simp only [LogWorld.chained, hk, hrs]⟩
  refine this _ (fun l hl => ?_)
  rw [taskLoggers_mine, mine, List.mem_filter] at hl
  exact h l hl.1 (of_decide_eq_true hl.2)

/-- C74: for all sequences of log calls: the log of the session has every record that was logged exactly once more than
before, if all loggers found by the session can be read and every logger used leads to what is read once.  Missing: the
other setups (`C74_unreadable_violated`, `C74_twice_violated`, `C74_outside_violated`). -/
theorem C74_once_partial (base : LogName) : ∀ (es : List (LogName × LRec)) (w : LogWorld), AllReadable w base →
    (∀ e ∈ es, ReadOnce w base e.1) → ∃ before after, w.taskLog base = some before ∧ (w.logs es).taskLog base = some after ∧
      ∀ x, after.count x = before.count x + (es.map (·.2)).count x := by
  intro es
  induction es with
  | nil =>
    intro w h _
    obtain ⟨rs, hrs⟩ := taskLog_some h
    exact ⟨rs, rs, hrs, hrs, by simp⟩
  | cons e es ih =>
    intro w h he
    obtain ⟨rs, hrs⟩ := taskLog_some h
    obtain ⟨b, a, h1, h2, h3⟩ := ih (w.log e.1 e.2) h (fun e' h' => by
      have := he e' (by simp [h'])
      rw [ReadOnce, show mine (w.log e.1 e.2) base = mine w base from rfl]
      rwa [show reaches (w.log e.1 e.2) e'.1 = reaches w e'.1 from funext (fun l => by simp only [reaches, sinks_log])])
    refine ⟨rs, a, hrs, h2, ?_⟩
    intro x
    rw [h3 x]
    obtain ⟨rs', k1, k2⟩ := chained_log w e.1 e.2 x _ rs hrs
    have : rs' = b := by
      have : (w.log e.1 e.2).taskLog base = some rs' := k1
      rw [h1] at this
      exact (Option.some.inj this).symm
    subst this
    rw [k2]
    have hone := he e (by simp)
    unfold ReadOnce at hone
    rw [← taskLoggers_mine] at hone
    rw [hone]
    simp only [List.map_cons, List.count_cons, beq_iff_eq]
    omega

/-- In a plain setup a record goes to the one repository once. -/
theorem plain_once {w : LogWorld} {base : LogName} {k : Nat} (h : PlainSetup w base k) :
    AllReadable w base ∧ ReadOnce w base base ∧ (w.sinks base).count k = 1 := by
  obtain ⟨⟨l, h1, h2, h3, h4⟩, h5⟩ := h
  have hr : l.repo = some k := by simp [Lg.repo, h4]
  have hs : (w.sinks base).count k = 1 := by
    unfold LogWorld.sinks LogWorld.upward
    simp only [h2, h3, h4, Bool.false_eq_true, if_false, List.filterMap_cons, id, List.filterMap_nil]
    split
    · rw [List.count_append, List.count_eq_zero.2 h5]; simp
    · simp
  refine ⟨?_, ?_, hs⟩
  · intro l' hl' hm
    have : l' ∈ mine w base := List.mem_filter.2 ⟨hl', decide_eq_true hm⟩
    rw [h1, List.mem_singleton] at this
    subst this
    exact ⟨k, hr⟩
  · unfold ReadOnce
    rw [h1]
    simp [reaches, hr, hs]

/-- C74: in the usual setup (all tasks log with the base name, no other logger belongs to the session), for all sequences of
log calls: the log of the session is what was there before and the records in the order in which they were logged, and a
task reads its own records. -/
theorem C74_plain_partial (base : LogName) (k : Nat) (w : LogWorld) (h : PlainSetup w base k) (rs : List LRec) :
    (w.logs (rs.map (fun r => (base, r)))).taskLog base = some (w.repos k ++ rs) ∧
    ∀ t, (w.logs (rs.map (fun r => (base, r)))).taskRecords base t = some ((w.repos k ++ rs).filter (fun r => decide (r.task = t))) := by
  have key : ∀ (rs : List LRec) (w : LogWorld), PlainSetup w base k →
      PlainSetup (w.logs (rs.map (fun r => (base, r)))) base k ∧ (w.logs (rs.map (fun r => (base, r)))).repos k = w.repos k ++ rs := by
    intro rs
    induction rs with
    | nil => intro w h; exact ⟨h, by simp [LogWorld.logs]⟩
    | cons r rs ih =>
      intro w h
      have h' : PlainSetup (w.log base r) base k :=
        ⟨h.only, by rw [upward_log]; exact h.above⟩
      obtain ⟨i1, i2⟩ := ih (w.log base r) h'
      refine ⟨i1, ?_⟩
      rw [show w.logs ((r :: rs).map (fun r => (base, r))) = (w.log base r).logs (rs.map (fun r => (base, r))) from rfl, i2]
      simp only [LogWorld.log, (plain_once h).2.2]
      simp
  obtain ⟨h1, h2⟩ := key rs w h
  generalize w.logs (rs.map (fun r => (base, r))) = w' at h1 h2
  obtain ⟨⟨l, k1, k2, k3, k4⟩, -⟩ := h1
  have hr : l.repo = some k := by simp [Lg.repo, k4]
  refine ⟨?_, ?_⟩
  · unfold LogWorld.taskLog
    rw [taskLoggers_mine, k1]
    simp only [LogWorld.chained, hr, h2]
    simp
  · intro t
    unfold LogWorld.taskRecords
    rw [k2]
    simp only [hr, Option.map_some, h2]

/-- The setup of a new session: a logger with a memory repository; the logger of the package above it has none; below it
there is a placeholder. -/
def usualLoggers : LogWorld :=
  { loggers := [⟨"rocketry".toList, false, [none], true⟩, ⟨"rocketry.task".toList, false, [some 0], true⟩,
      ⟨"rocketry.task._process".toList, false, [none], false⟩, ⟨"other".toList, false, [some 1], true⟩,
      ⟨"rocketry.task.reports".toList, true, [], true⟩]
    root := [none]
    repos := fun _ => [] }

theorem usual_plain : PlainSetup usualLoggers "rocketry.task".toList 0 := by
  refine ⟨⟨⟨"rocketry.task".toList, false, [some 0], true⟩, ?_, ?_, rfl, rfl⟩, ?_⟩
  · decide +kernel
  · decide +kernel
  · decide +kernel

example : PlainSetup usualLoggers "rocketry.task".toList 0 ∧ AllReadable usualLoggers "rocketry.task".toList ∧
    ReadOnce usualLoggers "rocketry.task".toList "rocketry.task".toList :=
  ⟨usual_plain, (plain_once usual_plain).1, (plain_once usual_plain).2.1⟩

/-- C74 does not hold as stated: if one logger whose name begins with the base name cannot be read, nothing can be read:
`get_task_log` raises AttributeError; so with every task that has a logger of its own without a repository. -/
theorem C74_unreadable_violated (w : LogWorld) (base : LogName) (l : Lg) (hl : l ∈ w.loggers) (hm : Mine base l)
    (hr : l.repo = none) : w.taskLog base = none := by
  unfold LogWorld.taskLog
  replace hl : l ∈ w.taskLoggers base := by
    rw [taskLoggers_mine]
    exact List.mem_filter.2 ⟨hl, decide_eq_true hm⟩
  generalize w.taskLoggers base = ls at hl
  induction ls with
  | nil => simp at hl
  | cons a ls ih =>
    simp only [LogWorld.chained]
    cases ha : a.repo with
    | none => rfl
    | some k =>
      have : l ∈ ls := by
        rcases List.mem_cons.1 hl with rfl | h
        · rw [hr] at ha; simp at ha
        · exact h
      simp only [ih this]

example : let w : LogWorld := { usualLoggers with loggers := usualLoggers.loggers ++ [⟨"rocketry.task.mail".toList, false, [], true⟩] }
    (⟨"rocketry.task.mail".toList, false, [], true⟩ : Lg) ∈ w.loggers ∧
    Mine "rocketry.task".toList ⟨"rocketry.task.mail".toList, false, [], true⟩ := by decide +kernel

/-- C74 does not hold as stated: a record of a task with a logger of its own that can be read is shown twice, as it also goes
to the logger with the base name. -/
theorem C74_twice_violated (r : LRec) :
    let w : LogWorld := { usualLoggers with loggers := usualLoggers.loggers ++ [⟨"rocketry.task.mail".toList, false, [some 2], true⟩] }
    (w.log "rocketry.task.mail".toList r).taskLog "rocketry.task".toList = some [r, r] := by
  intro w
  have h1 : w.taskLoggers "rocketry.task".toList = [⟨"rocketry.task".toList, false, [some 0], true⟩,
      ⟨"rocketry.task.mail".toList, false, [some 2], true⟩] := by decide +kernel
  have h2 : w.sinks "rocketry.task.mail".toList = [2, 0] := by decide +kernel
  unfold LogWorld.taskLog
  rw [taskLoggers_log, h1]
  simp only [LogWorld.chained, Lg.repo, LogWorld.log, h2, List.findSome?_cons, id]
  rfl

/-- C74 does not hold as stated: the loggers are found by the beginning of their names as texts, so records of other parts of
a program are shown. -/
theorem C74_prefix_violated (r : LRec) :
    let w : LogWorld := { usualLoggers with loggers := usualLoggers.loggers ++ [⟨"rocketry.taskboard".toList, false, [some 2], true⟩] }
    (w.log "rocketry.taskboard".toList r).taskLog "rocketry.task".toList = some [r] := by
  intro w
  have h1 : w.taskLoggers "rocketry.task".toList = [⟨"rocketry.task".toList, false, [some 0], true⟩,
      ⟨"rocketry.taskboard".toList, false, [some 2], true⟩] := by decide +kernel
  have h2 : w.sinks "rocketry.taskboard".toList = [2] := by decide +kernel
  unfold LogWorld.taskLog
  rw [taskLoggers_log, h1]
  simp only [LogWorld.chained, Lg.repo, LogWorld.log, h2, List.findSome?_cons, id]
  rfl

/-- C74 does not hold as stated: a task may have any text as the name of its logger (only loggers given as objects are
checked); its records are not shown then. -/
theorem C74_outside_violated (r : LRec) : (usualLoggers.log "other".toList r).taskLog "rocketry.task".toList = some [] := by
  have h1 : usualLoggers.taskLoggers "rocketry.task".toList = [⟨"rocketry.task".toList, false, [some 0], true⟩] := by decide +kernel
  have h2 : usualLoggers.sinks "other".toList = [1] := by decide +kernel
  unfold LogWorld.taskLog
  rw [taskLoggers_log, h1]
  simp only [LogWorld.chained, Lg.repo, LogWorld.log, h2, List.findSome?_cons, id]
  rfl

/-! ## C75 -/

/-- What holds of the wrapped loggers after some sessions were started. -/
structure WrapInv (s0 s : ClockSt) (l : List Nat) : Prop where
  sessions : s.sessions = s0.sessions
  from_started : ∀ n j, s.wrapped n = some j → j ∈ l ∧ ∃ x, s.sessions[j]? = some x ∧ x.own = true ∧ x.base = n
  wrapped : ∀ i ∈ l, ∀ x, s.sessions[i]? = some x → x.own = true → s.wrapped x.base ≠ none

theorem WrapInv.starts (s0 : ClockSt) : ∀ (m : List Nat) (s : ClockSt) (l : List Nat), WrapInv s0 s l → WrapInv s0 (s.starts m) (l ++ m) := by
  intro m
  induction m with
  | nil => intro s l h; simpa [ClockSt.starts] using h
  | cons i m ih =>
    intro s l h
    have : WrapInv s0 (s.start i) (l ++ [i]) := by
      obtain ⟨h1, h2, h3⟩ := h
      cases hx : s.sessions[i]? with
      | none =>
        have e : s.start i = s := by simp [ClockSt.start, hx]
        rw [e]
        refine ⟨h1, fun n j hj => ?_, fun i' hi' x' hx' ho' => ?_⟩
        · obtain ⟨k1, k2⟩ := h2 n j hj
          exact ⟨by simp [k1], k2⟩
        · rcases List.mem_append.1 hi' with hi' | hi'
          · exact h3 i' hi' x' hx' ho'
          · simp only [List.mem_singleton] at hi'
            subst hi'
            rw [hx] at hx'
            simp at hx'
      | some x =>
        by_cases hc : (x.own && (s.wrapped x.base).isNone) = true
        · have e : s.start i = { s with wrapped := fun n => if n = x.base then some i else s.wrapped n } := by
            simp only [ClockSt.start, hx]
            rw [if_pos hc]
          rw [Bool.and_eq_true] at hc
          rw [e]
          refine ⟨h1, fun n j hj => ?_, fun i' hi' x' hx' ho' => ?_⟩
          · simp only at hj
            by_cases hn : n = x.base
            · rw [if_pos hn, Option.some.injEq] at hj
              subst hj
              exact ⟨by simp, x, hx, hc.1, hn.symm⟩
            · rw [if_neg hn] at hj
              obtain ⟨k1, k2⟩ := h2 n j hj
              exact ⟨by simp [k1], k2⟩
          · simp only at hx' ⊢
            by_cases hn : x'.base = x.base
            · rw [if_pos hn]; simp
            · rw [if_neg hn]
              rcases List.mem_append.1 hi' with hi' | hi'
              · exact h3 i' hi' x' hx' ho'
              · simp only [List.mem_singleton] at hi'
                subst hi'
                rw [hx, Option.some.injEq] at hx'
                subst hx'
                exact absurd rfl hn
        · have e : s.start i = s := by
            simp only [ClockSt.start, hx]
            rw [if_neg hc]
          rw [e]
          refine ⟨h1, fun n j hj => ?_, fun i' hi' x' hx' ho' => ?_⟩
          · obtain ⟨k1, k2⟩ := h2 n j hj
            exact ⟨by simp [k1], k2⟩
          · rcases List.mem_append.1 hi' with hi' | hi'
            · exact h3 i' hi' x' hx' ho'
            · simp only [List.mem_singleton] at hi'
              subst hi'
              rw [hx, Option.some.injEq] at hx'
              subst hx'
              intro hw
              exact hc (by simp [ho', hw])
    have := ih (s.start i) (l ++ [i]) this
    simpa [ClockSt.starts] using this

/-- No logger is wrapped yet. -/
def ClockSt.fresh (ss : List ClockSession) : ClockSt := ⟨ss, fun _ => none⟩

theorem wrapInv_fresh (ss : List ClockSession) : WrapInv (ClockSt.fresh ss) (ClockSt.fresh ss) [] :=
  ⟨rfl, by simp [ClockSt.fresh], by simp⟩

/-- C75: for all sessions and all orders in which they are started: the records of a started session have the time of its
own clock, if no other session with a clock of its own uses the same base name and its tasks use the logger with the base
name.  Missing: shared base names (`C75_first_violated`) and other loggers (`C75_logger_violated`). -/
theorem C75_created_partial (ss : List ClockSession) (l : List Nat) (i : Nat) (x : ClockSession) (hx : ss[i]? = some x) (hi : i ∈ l)
    (hown : ∀ j, HasClock (ClockSt.fresh ss) j → SameBase (ClockSt.fresh ss) i j → j = i) :
    ((ClockSt.fresh ss).starts l).created x.base = ((ClockSt.fresh ss).starts l).time i := by
  have h := WrapInv.starts _ l _ [] (wrapInv_fresh ss)
  simp only [List.nil_append] at h
  obtain ⟨h1, h2, h3⟩ := h
  have hsess : ((ClockSt.fresh ss).starts l).sessions[i]? = some x := by rw [h1]; exact hx
  unfold ClockSt.created
  cases hw : ((ClockSt.fresh ss).starts l).wrapped x.base with
  | none =>
    simp only
    unfold ClockSt.time
    rw [hsess]
    cases ho : x.own with
    | false => simp [ho]
    | true => exact absurd hw (h3 i hi x hsess ho)
  | some j =>
    simp only
    obtain ⟨-, y, hy, hyo, hyb⟩ := h2 _ _ hw
    rw [h1] at hy
    have : j = i := hown j ⟨y, hy, hyo⟩ ⟨x, y, hx, hy, hyb.symm⟩
    rw [this]

/-- Two sessions with clocks of their own and different base names. -/
example : let ss := [ClockSession.mk ['a'] true, ⟨['b'], true⟩]
    ss[1]? = some ⟨['b'], true⟩ ∧ (1 ∈ [0, 1]) ∧
      ∀ j, HasClock (ClockSt.fresh ss) j → SameBase (ClockSt.fresh ss) 1 j → j = 1 := by
  refine ⟨rfl, by decide, ?_⟩
  rintro j ⟨x, hx, -⟩ ⟨y, z, hy, hz, hb⟩
  simp only [ClockSt.fresh] at hx hy hz
  match j with
  | 0 =>
    simp only [List.getElem?_cons_zero, List.getElem?_cons_succ, Option.some.injEq] at hy hz
    subst hy hz
    simp at hb
  | 1 => rfl
  | n + 2 => simp at hx

/-- C75 does not hold as stated: of the sessions with the same base name (the default) the one started first gives its clock
to the records of all; also to those of sessions without a clock of their own. -/
theorem C75_first_violated (ss : List ClockSession) (l : List Nat) (i j : Nat) (x y : ClockSession) (hi : ss[i]? = some x)
    (_ : ss[j]? = some y) (hb : x.base = y.base) (ho : x.own = true) :
    ((ClockSt.fresh ss).starts (i :: l)).created y.base = .session i := by
  have key : ∀ (l : List Nat) (s : ClockSt), s.sessions = ss → s.wrapped x.base = some i →
      (s.starts l).sessions = ss ∧ (s.starts l).wrapped x.base = some i := by
    intro l
    induction l with
    | nil => intro s h1 h2; exact ⟨h1, h2⟩
    | cons k l ih =>
      intro s h1 h2
      refine ih (s.start k) ?_ ?_
      · unfold ClockSt.start
        split
        · exact h1
        · split <;> exact h1
      · unfold ClockSt.start
        split
        · exact h2
        · rename_i z hz
          split
          · rename_i hc
            simp only
            by_cases hn : x.base = z.base
            · rw [← hn, h2] at hc; simp at hc
            · rw [if_neg hn]; exact h2
          · exact h2
  have h0 : ((ClockSt.fresh ss).start i).sessions = ss ∧ ((ClockSt.fresh ss).start i).wrapped x.base = some i := by
    simp [ClockSt.start, ClockSt.fresh, hi, ho]
  obtain ⟨k1, k2⟩ := key l _ h0.1 h0.2
  rw [← hb]
  unfold ClockSt.created
  rw [show (ClockSt.fresh ss).starts (i :: l) = ((ClockSt.fresh ss).start i).starts l from rfl, k2]
  simp only
  unfold ClockSt.time
  rw [k1, hi]
  simp [ho]

example : let ss := [ClockSession.mk "rocketry.task".toList true, ⟨"rocketry.task".toList, false⟩]
    ss[0]? = some ⟨"rocketry.task".toList, true⟩ ∧ ss[1]? = some ⟨"rocketry.task".toList, false⟩ := ⟨rfl, rfl⟩

/-- C75 does not hold as stated: the records of a task with a logger of its own have the real time, whatever clock its
session has. -/
theorem C75_logger_violated (ss : List ClockSession) (l : List Nat) (n : LogName) (hn : ∀ x ∈ ss, x.base ≠ n) :
    ((ClockSt.fresh ss).starts l).created n = .real := by
  have h := WrapInv.starts _ l _ [] (wrapInv_fresh ss)
  unfold ClockSt.created
  cases hw : ((ClockSt.fresh ss).starts l).wrapped n with
  | none => rfl
  | some j =>
    obtain ⟨-, y, hy, -, hyb⟩ := h.from_started _ _ hw
    rw [h.sessions] at hy
    exact absurd hyb (hn y (List.mem_of_getElem? hy))

example : ∀ x ∈ [ClockSession.mk "rocketry.task".toList true], x.base ≠ "rocketry.task.mail".toList := by
  simp

/-- C75 does not hold as stated: `get_current_time` tells the real time, whatever clock the session has. -/
theorem C75_current_violated (s : ClockSt) (i : Nat) (h : HasClock s i) : s.currentTime i ≠ s.time i := by
  obtain ⟨x, hx, ho⟩ := h
  simp [ClockSt.currentTime, ClockSt.time, hx, ho]

example : HasClock (ClockSt.fresh [ClockSession.mk [] true]) 0 := ⟨_, rfl, rfl⟩

end Rocketry.Props
