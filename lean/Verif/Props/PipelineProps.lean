import Verif.Spec.PipelineSpec
import Verif.Props.PromiseProps
import Mathlib.Logic.Relation

/-!
# C112: tasks that wait for the successes of each other, in every history and every execution
-/

namespace Rocketry.Props
open Spec Cond Sched

/-! ### the log grows one record at a time -/

theorem step_one {S : Setup} {h h' : HState} {ev : Ev} (hs : HStep S h ev h') :
    h'.log.repo = h.log.repo ∨ ∃ r, h'.log.repo = h.log.repo ++ [r] := by
  cases hs with
  | tick c hc => exact .inl rfl
  | check name reason first last h1 h2 h3 h4 h5 h6 => exact .inl rfl
  | begin name reason id noted created h1 h2 h3 => exact .inr ⟨_, set_repo ..⟩
  | outcome name a id noted created h1 h2 h3 h4 => exact .inr ⟨_, set_repo ..⟩
  | more name a id noted created h1 h2 h3 h4 h5 h6 => exact .inr ⟨_, set_repo ..⟩
  | put name a id created h1 h2 h3 h4 => exact .inl rfl
  | putMore name a id created h1 h2 h3 h4 h5 => exact .inl rfl
  | drain r q h1 => exact .inr ⟨_, received_repo S.fromLogs ..⟩
  | die name h1 => exact .inl rfl
  | kill name a id noted created h1 h2 h3 h4 => exact .inr ⟨_, set_repo ..⟩
  | reboot c h1 => exact .inl rfl
  | recover name noted created h1 h2 h3 =>
    simp only [cached_repo]
    split
    · exact .inr ⟨_, rfl⟩
    · exact .inl rfl
  | look op h1 => exact .inl (read_repo _ _ _ h1)

/-- Every beginning of the log was the log of the session at some earlier time. -/
theorem earlier_log {S : Setup} {es : List Ev} {h : HState} (hh : Hist S es h) : ∀ pre, pre <+: h.log.repo →
    ∃ es' h', Hist S es' h' ∧ h'.log.repo = pre := by
  induction hh with
  | init c =>
    intro pre hp
    refine ⟨[], _, .init c, ?_⟩
    rw [HState.init, LogWorld.fresh] at hp ⊢
    exact (List.prefix_nil.1 hp).symm
  | @step es h h' e hh hs ih =>
    intro pre hp
    rcases step_one hs with hr | ⟨r, hr⟩
    · exact ih pre (by rwa [hr] at hp)
    · rw [hr] at hp
      rcases List.prefix_concat_iff.1 hp with rfl | hp
      · exact ⟨_, _, hh.step hs, hr⟩
      · exact ih pre hp

/-! ### successes need starts -/

theorem tally_append (name : String) (a : Action) (l m : List Record) :
    tally name a (l ++ m) = tally name a l + tally name a m := by simp [tally]

theorem tally_one (name : String) (a : Action) (r : Record) :
    tally name a [r] = if r.task = name ∧ r.action = a then 1 else 0 := by
  by_cases h : r.task = name ∧ r.action = a
  · simp [tally, h]
  · rw [if_neg h, tally, List.filter_cons_of_neg (by simpa using h)]
    rfl

theorem tally_pos {name : String} {a : Action} {l : List Record} : 0 < tally name a l ↔ ∃ r ∈ l, OfAction name a r := by
  unfold tally OfAction
  rw [List.length_pos_iff_exists_mem]
  constructor
  · rintro ⟨r, hr⟩
    obtain ⟨h1, h2⟩ := List.mem_filter.1 hr
    exact ⟨r, h1, by simpa using h2⟩
  · rintro ⟨r, h1, h2⟩
    exact ⟨r, List.mem_filter.2 ⟨h1, by simpa using h2⟩⟩

/-- One more for a run that may still succeed. -/
def stillOpen (h : HState) (name : String) : Nat := if h.phase name = .running then 1 else 0

/-- With the records in the queue and the run that goes on, the successes are not more than the starts. -/
theorem successes_le (S : Setup) (name : String) {es : List Ev} {h : HState} (hh : Hist S es h) :
    tally name .success h.log.repo + tally name .success h.queue + stillOpen h name ≤ tally name .run h.log.repo := by
  induction hh with
  | init c => simp [tally, stillOpen, HState.init, LogWorld.fresh]
  | @step es h h' e hh hs ih =>
    unfold stillOpen at ih ⊢
    cases hs with
    | tick c hc => exact ih
    | check n reason first last h1 h2 h3 h4 h5 h6 => exact ih
    | begin n reason id noted created h1 h2 h3 =>
      simp only [HState.write, set_repo, tally_append, tally_one, upd]
      by_cases hn : n = name
      · subst hn; simp; omega
      · simp [hn, Ne.symm hn] at ih ⊢; omega
    | outcome n a id noted created h1 h2 h3 h4 =>
      simp only [HState.write, set_repo, tally_append, tally_one, upd]
      by_cases hn : n = name
      · subst hn
        rw [h1] at ih
        simp [h2] at ih ⊢
        split <;> omega
      · simp [hn, Ne.symm hn] at ih ⊢; omega
    | more n a id noted created h1 h2 h3 h4 h5 h6 =>
      simp only [HState.write, set_repo, tally_append, tally_one]
      simp [h3, h4]
      omega
    | put n a id created h1 h2 h3 h4 =>
      simp only [tally_append, tally_one, upd]
      by_cases hn : n = name
      · subst hn
        rw [h1] at ih
        simp at ih ⊢
        split <;> omega
      · simp [hn, Ne.symm hn] at ih ⊢; omega
    | putMore n a id created h1 h2 h3 h4 h5 =>
      simp only [tally_append, tally_one]
      simp [h4]
      omega
    | drain r q h1 =>
      rw [h1, show r :: q = [r] ++ q from rfl] at ih
      simp only [received_repo, tally_append, tally_one] at ih ⊢
      omega
    | die n h1 =>
      simp only [upd]
      by_cases hn : n = name
      · subst hn; simp; omega
      · simp [Ne.symm hn] at ih ⊢; omega
    | kill n a id noted created h1 h2 h3 h4 =>
      simp only [HState.write, set_repo, tally_append, tally_one, upd]
      have ha : a ≠ .success := by rcases h1 with rfl | rfl <;> simp
      have hb : a ≠ .run := by rcases h1 with rfl | rfl <;> simp
      by_cases hn : n = name
      · subst hn; simp [ha, hb]; omega
      · simp [hn, Ne.symm hn] at ih ⊢; omega
    | reboot c h1 =>
      have h0 : tally name .success [] = 0 := rfl
      simp only [h0, if_neg (show ¬ Phase.idle = Phase.running from fun h => nomatch h)]
      omega
    | recover n noted created h1 h2 h3 =>
      simp only [cached_repo]
      split
      · simp only [tally_append, tally_one]; simp; omega
      · exact ih
    | look op h1 =>
      simp only [read_repo _ _ _ h1]
      exact ih

/-- C112, successes: at every point of every history, whatever the tasks are and however they are started, a task has not
succeeded more often than it was started. -/
theorem C112_successes (S : Setup) (name : String) {es : List Ev} {h : HState} (hh : Hist S es h) (pre : List Record)
    (hp : pre <+: h.log.repo) : tally name .success pre ≤ tally name .run pre := by
  obtain ⟨es', h', hh', rfl⟩ := earlier_log hh pre hp
  have := successes_le S name hh'
  omega

/-! ### texts -/

/-- The task has this start text, with phrases of known meaning. -/
structure Texted (lib : TextLib) (strLeaf : Char → Builtin) (fuel : Nat) (S : Setup) (sayingOf : Txt → Saying) (name : String)
    (e : Written) : Prop where
  proper : e.Proper
  phrases : ∀ w ∈ e.words, (sayingOf w).phrase.text = w ∧ (sayingOf w).Proper
  held : ∀ reason first last w, S.start name reason first last w → TextHeld lib strLeaf fuel S.fromLogs e.text name first last w

/-- The task `b` waits for the successes of `a`: its text insists on them, or its condition is an object with
`DependSuccess` of `a` among what must be true. -/
def TaskWaits (lib : TextLib) (strLeaf : Char → Builtin) (fuel : Nat) (S : Setup) (a b : String) : Prop :=
  (∃ sayingOf e, Texted lib strLeaf fuel S sayingOf b e ∧ WaitsFor sayingOf e a) ∨
  ∀ reason first last w, S.start b reason first last w → dependState w.repo b a dependSuccess = true

variable {lib : TextLib} {strLeaf : Char → Builtin} {fuel : Nat} {S : Setup}

theorem waits_served {a b : String} (hw : TaskWaits lib strLeaf fuel S a b) {es : List Ev} {h : HState} (hh : Hist S es h) :
    StartsServed b (Ended .success a) h.log.repo := by
  rcases hw with hw | hw
  swap
  · exact starts_served S b _ (fun reason first last l hst ho => by
      obtain ⟨c, k1, k2, k3⟩ := depend_true (hw reason first last l hst) ho
      exact ⟨c, k1, ended_completion (k := .success) k2, k3⟩) hh
  obtain ⟨sayingOf, e, ⟨t1, t2, t3⟩, x, hx, hs | hs⟩ := hw
  · obtain ⟨t, said, h1, rfl⟩ := hs
    have := C81_history_partial lib strLeaf fuel S b e t1 sayingOf t2 t3 hh x hx (by rw [h1]; intro _ _ h; cases h)
    rw [h1] at this
    exact this
  · obtain ⟨ts, said, h1, t, ht, rfl⟩ := hs
    have := C81_history_partial lib strLeaf fuel S b e t1 sayingOf t2 t3 hh x hx (by rw [h1]; intro _ _ h; cases h)
    rw [h1] at this
    exact this t ht

theorem served_tally {a b : String} {l : List Record} (h : StartsServed b (Ended .success a) l) :
    tally b .run l ≤ tally a .success l := by
  obtain ⟨_, _, cs, h1, h2, h3⟩ := h
  unfold tally
  rw [← h3]
  exact nodup_length_le cs _ h1 (fun c hc => List.mem_filter.2 ⟨(h2 c hc).1, by simpa [Ended] using (h2 c hc).2⟩)

/-- C112, pipelines: if `b` waits for the successes of `a`, directly or over any number of tasks in between that each wait
for the one before, then at every point of every history `b` has not been started more often than `a` has succeeded. -/
theorem C112_pipeline_partial {a b : String} (hab : Relation.TransGen (TaskWaits lib strLeaf fuel S) a b) {es : List Ev} {h : HState}
    (hh : Hist S es h) (pre : List Record) (hp : pre <+: h.log.repo) : tally b .run pre ≤ tally a .success pre := by
  obtain ⟨es', h', hh', rfl⟩ := earlier_log hh pre hp
  induction hab with
  | single hw => exact served_tally (waits_served hw hh')
  | @tail c d _ hw ih =>
    have h1 := served_tally (waits_served hw hh')
    have h2 := C112_successes S c hh' _ List.prefix_rfl
    omega

/-- The task waits for a success of a task of the set. -/
def TaskWaitsWithin (lib : TextLib) (strLeaf : Char → Builtin) (fuel : Nat) (S : Setup) (D : String → Prop) (b : String) : Prop :=
  (∃ sayingOf e, Texted lib strLeaf fuel S sayingOf b e ∧ WaitsWithin sayingOf e D) ∨
  ∃ a, D a ∧ ∀ reason first last w, S.start b reason first last w → dependState w.repo b a dependSuccess = true

/-- C112, knots: if every task of a set waits for a task of the set, none of them is ever started. -/
theorem C112_knot_partial (D : String → Prop)
    (hD : ∀ b, D b → TaskWaitsWithin lib strLeaf fuel S D b)
    {es : List Ev} {h : HState} (hh : Hist S es h) : ∀ s ∈ h.log.repo, D s.task → s.action ≠ .run ∧ s.action ≠ .success := by
  have hserved : ∀ b, D b → ∀ {es : List Ev} {h : HState}, Hist S es h → ∀ s ∈ h.log.repo, OfAction b .run s →
      ∃ c ∈ h.log.repo, (D c.task ∧ c.action = .success) := by
    intro b hb es h hh s hs hsa
    rcases hD b hb with ⟨sayingOf, e, ht, ⟨d, hd, hw⟩ | ⟨x, ts, said, hx, h1, hall⟩⟩ | ⟨a, ha, hw⟩
    · obtain ⟨c, k1, k2, _⟩ := (waits_served (.inl ⟨sayingOf, e, ht, hw⟩) hh).1 s hs hsa
      exact ⟨c, k1, by rw [k2.1]; exact hd, k2.2⟩
    · have hk := C81_history_partial lib strLeaf fuel S b e ht.proper sayingOf ht.phrases ht.held hh x hx (by rw [h1]; intro _ _ h; cases h)
      rw [h1] at hk
      obtain ⟨c, k1, ⟨t, k2, k3⟩, _⟩ := hk.1 s hs hsa
      exact ⟨c, k1, by rw [k3.1]; exact hall t k2, k3.2⟩
    · obtain ⟨c, k1, k2, _⟩ := (waits_served (lib := lib) (strLeaf := strLeaf) (fuel := fuel) (.inr hw) hh).1 s hs hsa
      exact ⟨c, k1, by rw [k2.1]; exact ha, k2.2⟩
  have hnone : ∀ (n : Nat) (pre : List Record), pre.length = n → pre <+: h.log.repo → ∀ s ∈ pre, D s.task → s.action ≠ .run := by
    intro n
    induction n with
    | zero => intro pre hn _ s hs; rw [List.length_eq_zero_iff.1 hn] at hs; simp at hs
    | succ n ih =>
      intro pre hn hp s hs hd hr
      rcases List.eq_nil_or_concat' pre with rfl | ⟨front, last, rfl⟩
      · simp at hs
      · have hf := ih front (by simpa using hn) ((List.prefix_append front [last]).trans hp)
        rcases List.mem_append.1 hs with hs' | hs'
        · exact hf s hs' hd hr
        · rw [List.mem_singleton.1 hs'] at hd hr
          obtain ⟨es', h', hh', hlog⟩ := earlier_log hh _ hp
          obtain ⟨c, c1, c2, c3⟩ := hserved last.task hd hh' last (by simp [hlog]) ⟨rfl, hr⟩
          rw [hlog] at c1
          rcases List.mem_append.1 c1 with c1 | c1
          · obtain ⟨r, r1, r2⟩ := tally_pos.1 (Nat.lt_of_lt_of_le (tally_pos.2 ⟨c, c1, rfl, c3⟩)
              (C112_successes S c.task hh front ((List.prefix_append front [last]).trans hp)))
            exact hf r r1 (by rw [r2.1]; exact c2) r2.2
          · rw [List.mem_singleton.1 c1, hr] at c3
            exact nomatch c3
  intro s hs hd
  have hrun := hnone _ h.log.repo rfl List.prefix_rfl
  refine ⟨hrun s hs hd, fun hsu => ?_⟩
  obtain ⟨r, r1, r2⟩ := tally_pos.1 (Nat.lt_of_lt_of_le (tally_pos.2 ⟨s, hs, rfl, hsu⟩)
    (C112_successes S s.task hh h.log.repo List.prefix_rfl))
  exact hrun r r1 (by rw [r2.1]; exact hd) r2.2

/-- C112 with C69: both in every execution of the scheduler, at any point and however often it is started. -/
theorem C112_execution_partial (K : String → Sched.Exec) (R : Nat) (s : Sys) (hs : Managed K s) (env : Nat → Choice)
    (he : ∀ i, Reliable (env i)) (ks : List Nat) {tr : List Sched.Obs} (hp : tr <+: (sessions ks (World.init s env)).2.trace)
    {es : List Ev} {h : HState} (hc : Coupled S K R tr es h) :
    (∀ a b, Relation.TransGen (TaskWaits lib strLeaf fuel S) a b → ∀ pre, pre <+: h.log.repo →
      tally b .run pre ≤ tally a .success pre) ∧
    (∀ D : String → Prop, (∀ b, D b → TaskWaitsWithin lib strLeaf fuel S D b) →
      ∀ r ∈ h.log.repo, D r.task → r.action ≠ .run ∧ r.action ≠ .success) := by
  have hh := C69_history_partial S K R s hs env he ks hp hc
  exact ⟨fun a b hab pre => C112_pipeline_partial hab hh pre, fun D hD => C112_knot_partial D hD hh⟩

/-! ### cases -/

/-- `after task 'a'`, `after task 'b'`. -/
def afterA : Written := .item [] c!"after task 'a'" []
def afterB : Written := .item [] c!"after task 'b'" []

def afterSays (w : Txt) : Saying := if w = c!"after task 'a'" then .afterTask c!"a" .success false else .afterTask c!"b" .success false

theorem after_texted {S : Setup} (e : Written) (he : e = afterA ∨ e = afterB) (name : String)
    (hS : ∀ reason first last w, S.start name reason first last w → TextHeld lib strLeaf fuel S.fromLogs e.text name first last w) :
    Texted lib strLeaf fuel S afterSays name e := by
  refine ⟨?_, ?_, hS⟩
  · rcases he with rfl | rfl <;> simp [afterA, afterB, Written.Proper, Written.Word, Written.Blank]
  · rcases he with rfl | rfl <;> (
      intro w hw
      simp only [afterA, afterB, Written.words, List.mem_singleton] at hw
      subst hw
      exact ⟨by decide +kernel, by decide, by decide⟩)

theorem afterB_says : afterSays c!"after task 'b'" = .afterTask c!"b" .success false := by
  unfold afterSays
  rw [if_neg (by decide)]

theorem after_waits : WaitsFor afterSays afterA "a" ∧ WaitsFor afterSays afterB "b" :=
  ⟨⟨c!"after task 'a'", by simp [afterA, Written.Asks], .inl ⟨c!"a", false, rfl, by decide +kernel⟩⟩,
    ⟨c!"after task 'b'", by simp [afterB, Written.Asks], .inl ⟨c!"b", false, afterB_says, by decide +kernel⟩⟩⟩

theorem after_held (lib : TextLib) (strLeaf : Char → Builtin) (name : String) (t : Int) (w : LogWorld) :
    (dependState w.repo name "a" dependSuccess = true → TextHeld lib strLeaf 1 false afterA.text name t t w) ∧
    (dependState w.repo name "b" dependSuccess = true → TextHeld lib strLeaf 1 false afterB.text name t t w) := by
  constructor <;> intro h
  · refine text_held (sayingOf := afterSays) ?_ ?_ { sitOf name w with tasks := ["a", "b"] } rfl rfl rfl 1 ?_
    · simp [afterA, Written.Proper, Written.Word, Written.Blank]
    · exact (after_texted (S := ⟨false, fun _ _ _ _ _ => False, fun _ => false, false⟩) (lib := lib) (strLeaf := strLeaf) (fuel := 1)
        afterA (.inl rfl) name (fun _ _ _ _ h => h.elim)).phrases
    · refine Prod.ext ?_ rfl
      exact congrArg Except.ok h
  · refine text_held (sayingOf := afterSays) ?_ ?_ { sitOf name w with tasks := ["a", "b"] } rfl rfl rfl 1 ?_
    · simp [afterB, Written.Proper, Written.Word, Written.Blank]
    · exact (after_texted (S := ⟨false, fun _ _ _ _ _ => False, fun _ => false, false⟩) (lib := lib) (strLeaf := strLeaf) (fuel := 1)
        afterB (.inr rfl) name (fun _ _ _ _ h => h.elim)).phrases
    · have e1 : phraseObs (Sit.clocked { sitOf name w with tasks := ["a", "b"] } 1 (fun _ => t)) (valOf lib) (afterSays c!"after task 'b'").phrase =
          fun i => (.ok true, i + 1) := by
        rw [afterB_says]
        funext i
        refine Prod.ext ?_ rfl
        exact congrArg Except.ok h
      simp only [afterB, Written.expr, CExpr.eval, e1]

/-- A pipeline: "a" may always start, "b" after "a", "c" after "b". -/
def lineSetup (lib : TextLib) (strLeaf : Char → Builtin) : Setup where
  fromLogs := false
  start := fun name _ first last w => name = "a" ∨ (name = "b" ∧ TextHeld lib strLeaf 1 false afterA.text "b" first last w) ∨
    (name = "c" ∧ TextHeld lib strLeaf 1 false afterB.text "c" first last w)
  isProc := fun _ => false
  drained := false

/-- "c" waits for "a", over "b". -/
theorem line_waits (lib : TextLib) (strLeaf : Char → Builtin) :
    Relation.TransGen (TaskWaits lib strLeaf 1 (lineSetup lib strLeaf)) "a" "c" := by
  refine .tail (.single (.inl ⟨afterSays, afterA, after_texted afterA (.inl rfl) "b" ?_, after_waits.1⟩))
    (.inl ⟨afterSays, afterB, after_texted afterB (.inr rfl) "c" ?_, after_waits.2⟩)
  · rintro reason first last w (h | ⟨_, h⟩ | ⟨h, _⟩)
    · exact absurd h (by decide)
    · exact h
    · exact absurd h (by decide)
  · rintro reason first last w (h | ⟨h, _⟩ | ⟨_, h⟩)
    · exact absurd h (by decide)
    · exact absurd h (by decide)
    · exact h

/-- Non-vacuity of C112_pipeline_partial: a history in which the last task of the pipeline has started. -/
example (lib : TextLib) (strLeaf : Char → Builtin) :
    ∃ es h, Hist (lineSetup lib strLeaf) es h ∧ tally "c" .run h.log.repo = 1 ∧ tally "a" .success h.log.repo = 2 := by
  suffices H : ∃ es h, Hist ⟨false, fun name _ first last w => name = "a" ∨
      (name = "b" ∧ first = last ∧ dependState w.repo "b" "a" dependSuccess = true) ∨
      (name = "c" ∧ first = last ∧ dependState w.repo "c" "b" dependSuccess = true), fun _ => false, false⟩ es h ∧
      tally "c" .run h.log.repo = 1 ∧ tally "a" .success h.log.repo = 2 by
    obtain ⟨es, h, h1, h2⟩ := H
    refine ⟨es, h, hist_weaker ?_ h1, h2⟩
    rintro name reason first last w (h | ⟨h, rfl, h3⟩ | ⟨h, rfl, h3⟩)
    · exact .inl h
    · exact .inr (.inl ⟨h, (after_held lib strLeaf "b" _ w).1 h3⟩)
    · exact .inr (.inr ⟨h, (after_held lib strLeaf "c" _ w).2 h3⟩)
  have h0 := Hist.init (S := ⟨false, fun name _ first last w => name = "a" ∨
      (name = "b" ∧ first = last ∧ dependState w.repo "b" "a" dependSuccess = true) ∨
      (name = "c" ∧ first = last ∧ dependState w.repo "c" "b" dependSuccess = true), fun _ => false, false⟩) 1
  have h1 := h0.step (.check _ "a" 0 2 2 (by decide) (by decide) (by decide) (by decide) (by simp) (.inl rfl))
  have h2 := h1.step (.begin _ "a" 0 none 3 3 (by decide) (by decide) (by decide))
  have h3 := h2.step (.outcome _ "a" .success none 4 4 (by decide) (by decide) (by decide) (by decide))
  have h4 := h3.step (.check _ "b" 0 5 5 (by decide) (by decide) (by decide) (by decide) (by simp)
    (.inr (.inl ⟨rfl, rfl, by decide +kernel⟩)))
  have h5 := h4.step (.begin _ "b" 0 none 6 6 (by decide) (by decide) (by decide))
  have h6 := h5.step (.outcome _ "b" .success none 7 7 (by decide) (by decide) (by decide) (by decide))
  have h7 := h6.step (.check _ "c" 0 8 8 (by decide) (by decide) (by decide) (by decide) (by simp)
    (.inr (.inr ⟨rfl, rfl, by decide +kernel⟩)))
  have h8 := h7.step (.begin _ "c" 0 none 9 9 (by decide) (by decide) (by decide))
  have h9 := h8.step (.die _ "a" (by decide))
  have h10 := h9.step (.check _ "a" 0 10 10 (by decide) (by decide) (by decide) (by decide) (by simp) (.inl rfl))
  have h11 := h10.step (.begin _ "a" 0 none 11 11 (by decide) (by decide) (by decide))
  have h12 := h11.step (.outcome _ "a" .success none 12 12 (by decide) (by decide) (by decide) (by decide))
  exact ⟨_, _, h12, by decide +kernel, by decide +kernel⟩

/-- A knot: "a" after "b", "b" after "a", and a task "x" that may always start. -/
def knotSetup (lib : TextLib) (strLeaf : Char → Builtin) : Setup where
  fromLogs := false
  start := fun name _ first last w => name = "x" ∨ (name = "b" ∧ TextHeld lib strLeaf 1 false afterA.text "b" first last w) ∨
    (name = "a" ∧ TextHeld lib strLeaf 1 false afterB.text "a" first last w)
  isProc := fun _ => false
  drained := false

/-- The hypotheses of C112_knot_partial: neither "a" nor "b" is ever started, "x" is. -/
theorem knot_case (lib : TextLib) (strLeaf : Char → Builtin) :
    (∀ es h, Hist (knotSetup lib strLeaf) es h → ∀ s ∈ h.log.repo, s.task = "a" ∨ s.task = "b" → s.action ≠ .run) ∧
    ∃ es h, Hist (knotSetup lib strLeaf) es h ∧ tally "x" .run h.log.repo = 1 := by
  refine ⟨fun es h hh s hs hd => (C112_knot_partial (lib := lib) (strLeaf := strLeaf) (fuel := 1) (S := knotSetup lib strLeaf)
    (fun n => n = "a" ∨ n = "b") ?_ hh s hs hd).1, ?_⟩
  · rintro b (rfl | rfl)
    · refine .inl ⟨afterSays, afterB, after_texted afterB (.inr rfl) "a" ?_, .inl ⟨"b", .inr rfl, after_waits.2⟩⟩
      rintro reason first last w (h | ⟨h, _⟩ | ⟨_, h⟩)
      · exact absurd h (by decide)
      · exact absurd h (by decide)
      · exact h
    · refine .inl ⟨afterSays, afterA, after_texted afterA (.inl rfl) "b" ?_, .inl ⟨"a", .inl rfl, after_waits.1⟩⟩
      rintro reason first last w (h | ⟨_, h⟩ | ⟨h, _⟩)
      · exact absurd h (by decide)
      · exact h
      · exact absurd h (by decide)
  · have h0 := Hist.init (S := knotSetup lib strLeaf) 1
    have h1 := h0.step (.check _ "x" 0 2 2 (by decide) (by decide) (by decide) (by decide) (by simp [knotSetup]) (.inl rfl))
    have h2 := h1.step (.begin _ "x" 0 none 3 3 (by decide) (by decide) (by decide))
    exact ⟨_, _, h2, rfl⟩

/-- "b" after each end of "a" (`after_finish`). -/
def finishSetup : Setup where
  fromLogs := false
  start := fun name _ _ _ w => name = "a" ∨ (name = "b" ∧ dependState w.repo "b" "a" dependFinish = true)
  isProc := fun _ => false
  drained := false

/-- C112 fails for `after task 'a' finished`: a run of "a" that logs a success and then a failure (as in a thread when a hook
fails at the end, C36_post_violated) lets "b" start twice. -/
theorem C112_finish_violated : ∃ es h, Hist finishSetup es h ∧
    tally "b" .run h.log.repo = 2 ∧ tally "a" .run h.log.repo = 1 := by
  have h0 := Hist.init (S := finishSetup) 1
  have h1 := h0.step (.check _ "a" 0 2 2 (by decide) (by decide) (by decide) (by decide) (by simp [finishSetup]) (.inl rfl))
  have h2 := h1.step (.begin _ "a" 0 none 3 3 (by decide) (by decide) (by decide))
  have h3 := h2.step (.outcome _ "a" .success none 4 4 (by decide) (by decide) (by decide) (by decide))
  have h4 := h3.step (.check _ "b" 0 5 5 (by decide) (by decide) (by decide) (by decide) (by simp [finishSetup])
    (.inr ⟨rfl, by decide +kernel⟩))
  have h5 := h4.step (.begin _ "b" 0 none 6 6 (by decide) (by decide) (by decide))
  have h6 := h5.step (.outcome _ "b" .success none 7 7 (by decide) (by decide) (by decide) (by decide))
  have h7 := h6.step (.die _ "b" (by decide))
  have h8 := h7.step (.more _ "a" .fail none 8 8 (by decide) (by decide) (by decide) (by decide) (by decide) (by decide))
  have h9 := h8.step (.check _ "b" 0 9 9 (by decide) (by decide) (by decide) (by decide) (by simp [finishSetup])
    (.inr ⟨rfl, by decide +kernel⟩))
  have h10 := h9.step (.begin _ "b" 0 none 10 10 (by decide) (by decide) (by decide))
  exact ⟨_, _, h10, by decide +kernel, by decide +kernel⟩

end Rocketry.Props
