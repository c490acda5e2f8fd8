import Verif.Spec.ForbidSpec
import Verif.Props.PromiseProps

/-!
# C111: what the start text of a task forbids is kept away from its starts, in every history and every execution
-/

namespace Rocketry.Props
open Spec Cond Sched

/-! ### the text -/

/-- If the text was found true (false), the phrases it forbids were found false. -/
theorem eval_denies {σ : Type} (f : Txt → Cond.Obs σ) (w : Txt) : ∀ (e : Written) (b : Bool) (s s' : σ), e.Denies w b →
    e.expr.eval f s = (.ok b, s') → ∃ s1 s2, f w s1 = (.ok false, s2)
  | .item _ x _, b, s, s', ha, h => by
    obtain ⟨rfl, rfl⟩ : b = false ∧ x = w := by simpa only [Written.Denies] using ha
    exact ⟨s, s', by simpa only [Written.expr, CExpr.eval] using h⟩
  | .group e, b, s, s', ha, h => eval_denies f w e b s s' (by simpa only [Written.Denies] using ha) (by simpa only [Written.expr] using h)
  | .not _ _ e, b, s, s', ha, h => by
    rw [Written.expr, CExpr.eval, negated] at h
    rcases hx : e.expr.eval f s with ⟨r, s1⟩
    rw [hx] at h
    cases r with
    | error er => simp [Except.map] at h
    | ok c =>
      simp only [Except.map, Prod.mk.injEq, Except.ok.injEq] at h
      have hc : c = !b := by rw [← h.1]; simp
      exact eval_denies f w e c s s1 (by rw [hc]; simpa only [Written.Denies] using ha) hx
  | .and a _ _ c, b, s, s', ha, h => by
    rw [Written.expr, CExpr.eval, thenAnd] at h
    rcases hx : a.expr.eval f s with ⟨r, s1⟩
    rw [hx] at h
    cases r with
    | error er => simp at h
    | ok x =>
      cases x with
      | false =>
        simp only [Prod.mk.injEq, Except.ok.injEq] at h
        rw [← h.1] at ha
        simp only [Written.Denies] at ha
        exact eval_denies f w a false s s1 ha.1 hx
      | true =>
        simp only [] at h
        cases b with
        | true =>
          simp only [Written.Denies] at ha
          rcases ha with ha | ha
          · exact eval_denies f w a true s s1 ha hx
          · exact eval_denies f w c true s1 s' ha h
        | false =>
          simp only [Written.Denies] at ha
          exact eval_denies f w c false s1 s' ha.2 h
  | .or a _ _ c, b, s, s', ha, h => by
    rw [Written.expr, CExpr.eval, thenOr] at h
    rcases hx : a.expr.eval f s with ⟨r, s1⟩
    rw [hx] at h
    cases r with
    | error er => simp at h
    | ok x =>
      cases x with
      | true =>
        simp only [Prod.mk.injEq, Except.ok.injEq] at h
        rw [← h.1] at ha
        simp only [Written.Denies] at ha
        exact eval_denies f w a true s s1 ha.1 hx
      | false =>
        simp only [] at h
        cases b with
        | false =>
          simp only [Written.Denies] at ha
          rcases ha with ha | ha
          · exact eval_denies f w a false s s1 ha hx
          · exact eval_denies f w c false s1 s' ha h
        | true =>
          simp only [Written.Denies] at ha
          exact eval_denies f w c true s1 s' ha.2 h

theorem denied_word (w : Txt) : ∀ (e : Written) (b : Bool), e.Denies w b → w ∈ e.words
  | .item _ x _, b, ha => by simp only [Written.Denies] at ha; simp [Written.words, ha.2]
  | .group e, b, ha => by simp only [Written.Denies] at ha; simpa [Written.words] using denied_word w e b ha
  | .not _ _ e, b, ha => by simp only [Written.Denies] at ha; simpa [Written.words] using denied_word w e _ ha
  | .and a _ _ c, true, ha => by
    simp only [Written.Denies] at ha
    rw [Written.words, List.mem_append]
    exact ha.imp (denied_word w a _) (denied_word w c _)
  | .and a _ _ c, false, ha => by
    simp only [Written.Denies] at ha
    rw [Written.words, List.mem_append]
    exact .inl (denied_word w a _ ha.1)
  | .or a _ _ c, true, ha => by
    simp only [Written.Denies] at ha
    rw [Written.words, List.mem_append]
    exact .inl (denied_word w a _ ha.1)
  | .or a _ _ c, false, ha => by
    simp only [Written.Denies] at ha
    rw [Written.words, List.mem_append]
    exact ha.imp (denied_word w a _) (denied_word w c _)

/-- A phrase the text forbids was itself found false in the check. -/
theorem held_denied {lib : TextLib} {strLeaf : Char → Builtin} {fuel : Nat} {fromLogs : Bool} {e : Written} (he : e.Proper)
    {sayingOf : Txt → Saying} (hw : ∀ w ∈ e.words, (sayingOf w).phrase.text = w ∧ (sayingOf w).Proper)
    {x : Txt} (hx : e.Denies x true) {name : String} {first last : Int} {w : LogWorld}
    (h : TextHeld lib strLeaf fuel fromLogs e.text name first last w) :
    ∃ (v : Sit) (c : Cond Builtin) (r : Nat → Int) (m n : Nat),
      v.self = some name ∧ v.fromLogs = fromLogs ∧ v.mem = w.mem ∧ v.repo = w.repo ∧
      (∀ i, first ≤ r i ∧ r i ≤ last) ∧
      (sayingOf x).phrase.meaning (valOf lib) = .ok c ∧ observe (v.clocked fuel r) c m = (.ok false, n) := by
  obtain ⟨v, c, r, n, h1, h2, h3, h4, h5, h6, h7, h8⟩ := h
  have hg : ∀ b, v.clocked fuel r b.resolve = v.clocked fuel r b := by intro b; cases b <;> rfl
  obtain ⟨c', hc', ho⟩ := C60_text_partial (read := readTime lib) (val := valOf lib) strLeaf (v.clocked fuel r) hg e he
    (fun w => (sayingOf w).phrase) (fun w hm => by
      obtain ⟨k1, k2, k3, k4⟩ := saying_phrase lib (sayingOf w) (hw w hm).2
      exact ⟨(hw w hm).1, k1, k2, k3, k4, saying_means lib _ (hw w hm).2⟩)
  cases h7.symm.trans hc'
  rw [ho] at h8
  obtain ⟨s1, s2, hs⟩ := eval_denies _ x e true 0 n hx h8
  obtain ⟨d, hd⟩ := saying_means lib (sayingOf x) (hw x (denied_word x e true hx)).2
  simp only [phraseObs, hd] at hs
  exact ⟨v, d, r, s1, s2, h1, h2, h3, h4, h6, hd, hs⟩

/-! ### histories -/

/-- While a task that was found runnable waits to be started, nothing of it is logged. -/
theorem step_alone (S : Setup) (name : String) (hp : S.isProc name = false ∨ S.drained = true) {h h' : HState} {e : Ev}
    (hs : HStep S h e h') (hi : HInv S name h) (hr : h.ready name ≠ none) (hr' : h'.ready name ≠ none) :
    ∃ new, h'.log.repo = h.log.repo ++ new ∧ ∀ x ∈ new, x.task ≠ name := by
  obtain ⟨hidle, _, hnone⟩ := hi.ready hr
  have one : ∀ (n : String) (a : Action) (c t : Int) (id : Option String), n ≠ name →
      ∀ x ∈ [(⟨n, a, c, t, id⟩ : Record)], x.task ≠ name := by
    intro n a c t id hn x hx
    rw [List.mem_singleton.1 hx]
    exact hn
  have nothing : ∃ new, h.log.repo = h.log.repo ++ new ∧ ∀ x ∈ new, x.task ≠ name := ⟨[], by simp, by simp⟩
  cases hs with
  | tick c hc => exact nothing
  | check n reason first last h1 h2 h3 h4 h5 h6 => exact nothing
  | begin n reason id noted created h1 h2 h3 =>
    refine ⟨_, set_repo .., one _ _ _ _ _ ?_⟩
    rintro rfl
    exact hr' (upd_self ..)
  | outcome n a id noted created h1 h3 h4 h5 =>
    refine ⟨_, set_repo .., one _ _ _ _ _ ?_⟩
    rintro rfl
    rw [hidle] at h1; cases h1
  | more n a id noted created h1 h2 h3 h3' h4 h5 =>
    refine ⟨_, set_repo .., one _ _ _ _ _ ?_⟩
    rintro rfl
    rw [hidle] at h1; cases h1
  | put n a id created h1 h2 h3 h4 => exact nothing
  | putMore n a id created h1 h2 h3 h3' h4 => exact nothing
  | drain r q h1 =>
    exact ⟨_, received_repo S.fromLogs .., one _ _ _ _ _ (hnone r (by rw [h1]; simp))⟩
  | die n h1 => exact nothing
  | kill n a id noted created h1 h2 h3 h4 =>
    refine ⟨_, set_repo .., one _ _ _ _ _ ?_⟩
    rintro rfl
    exact hr' (upd_self ..)
  | reboot c hc => exact nothing
  | recover n noted created h1 h2 h3 =>
    rw [cached_repo]
    split
    · refine ⟨_, rfl, one _ _ _ _ _ ?_⟩
      rintro rfl
      exact hr' (upd_self ..)
    · exact nothing
  | look op h1 => exact ⟨[], by simp [read_repo _ _ _ h1], by simp⟩

/-- If every check has a property (of the log and a time during the check), every start comes after a check with it. -/
theorem starts_checked (S : Setup) (name : String) (late : Bool) (hl : late = false → S.isProc name = false ∨ S.drained = true)
    (P : List Record → Int → Prop)
    (hS : ∀ es h reason first last, Hist S es h → S.start name reason first last h.log → h.clock ≤ first → h.cold name = false →
      ∃ t, P h.log.repo t ∧ first ≤ t ∧ t ≤ last)
    {es : List Ev} {h : HState} (hh : Hist S es h) : StartsChecked name late P h.log.repo := by
  suffices H : StartsChecked name late P h.log.repo ∧ (h.ready name ≠ none → ∃ seen new t, h.log.repo = seen ++ new ∧ P seen t ∧
      (∀ r ∈ seen, r.noted ≤ r.created ∧ r.created ≤ t) ∧ t ≤ h.clock ∧
      ∀ r ∈ new, ¬ (r.task = name ∧ (late = true → r.action = .run))) from H.1
  have snoc : ∀ (repo new : List Record), StartsChecked name late P repo → (∀ x ∈ new, ¬ OfAction name .run x) →
      StartsChecked name late P (repo ++ new) := by
    intro repo new h0 hn pre s post he hs
    rcases List.append_eq_append_iff.1 he with ⟨l, h1, h2⟩ | ⟨l, h1, h2⟩
    · exact absurd hs (hn s (by rw [h2]; simp))
    · cases l with
      | nil =>
        simp only [List.append_nil, List.nil_append] at h1 h2
        exact absurd hs (hn s (by rw [← h2]; simp))
      | cons x l =>
        simp only [List.cons_append, List.cons.injEq] at h2
        obtain ⟨rfl, h2⟩ := h2
        exact h0 pre s l h1 hs
  induction hh with
  | init c => exact ⟨fun pre s post he => by simp [HState.init, LogWorld.fresh] at he, by simp [HState.init]⟩
  | @step es h h' e hh hs ih =>
    obtain ⟨i1, i3⟩ := ih
    have hi := rinv S name hh
    rcases step_kinds S name hs hi with hq | ⟨reason, hq⟩ | ⟨reason, _, hq⟩
    · obtain ⟨⟨new, hr, hn⟩, hclk, hready⟩ := hq
      refine ⟨by rw [hr]; exact snoc _ _ i1 hn, fun hg => ?_⟩
      have hg' : h.ready name ≠ none := by rw [← hready hg]; exact hg
      obtain ⟨seen, new', t, k1, k2, k3, k4, k5⟩ := i3 hg'
      refine ⟨seen, new' ++ new, t, by rw [hr, k1, List.append_assoc], k2, k3, by omega, ?_⟩
      intro r hr' hra
      rcases List.mem_append.1 hr' with hr' | hr'
      · exact k5 r hr' hra
      · cases late with
        | true => exact hn r hr' ⟨hra.1, hra.2 rfl⟩
        | false =>
          obtain ⟨new2, e2, hn2⟩ := step_alone S name (hl rfl) hs (hinv S name (hl rfl) hh) hg' hg
          rw [hr] at e2
          rw [List.append_cancel_left e2] at hr'
          exact hn2 r hr' hra.1
    · obtain ⟨⟨first, f1, f2, f3⟩, hlog, hcold, _⟩ := hq
      rw [hlog]
      refine ⟨i1, fun _ => ?_⟩
      obtain ⟨t, k1, k2, k3⟩ := hS _ _ _ _ _ hh f3 f1 hcold
      refine ⟨h.log.repo, [], t, by simp, k1, fun r hr => ?_, k3, by simp⟩
      have := hi.times r (by simp [HState.all, hr])
      omega
    · obtain ⟨hwas, ⟨id, noted, n1, n2, hr⟩, hready⟩ := hq
      obtain ⟨seen, new, t, k1, k2, k3, k4, k5⟩ := i3 (by rw [hwas]; simp)
      rw [hr]
      refine ⟨?_, by rw [hready]; simp⟩
      intro pre s post he hsa
      rcases List.eq_nil_or_concat post with rfl | ⟨post', y, rfl⟩
      · obtain ⟨e1, e2⟩ := List.append_inj' he rfl
        simp only [List.cons.injEq, and_true] at e2
        subst e2
        exact ⟨seen, new, t, by rw [← e1, k1], k2, k3, by simp only []; omega, k5⟩
      · rw [List.concat_eq_append, ← List.cons_append, ← List.append_assoc] at he
        exact i1 pre s post' (List.append_inj' he rfl).1 hsa

/-! ### the phrases -/

theorem scan_stays {last : Action → Option Int} {s e : Int} : ∀ (as : List Action), (scanActions last s e as false).2 = false
  | [] => rfl
  | a :: as => by
    rw [scanActions]
    cases last a with
    | none => exact scan_stays as
    | some t =>
      simp only []
      split
      · rfl
      · split <;> exact scan_stays as

theorem scan_cannot {last : Action → Option Int} {s e : Int} : ∀ (as : List Action) (b : Bool), (scanActions last s e as b).2 = true →
    ∀ a ∈ as, ∀ t, last a = some t → t < s
  | [], _, _, a, ha, _, _ => by simp at ha
  | x :: as, b, h, a, ha, t, ht => by
    rw [scanActions] at h
    cases hx : last x with
    | none =>
      rw [hx] at h
      rcases List.mem_cons.1 ha with rfl | ha
      · rw [hx] at ht; cases ht
      · exact scan_cannot as b h a ha t ht
    | some u =>
      rw [hx] at h
      simp only [] at h
      split at h
      · cases h
      · split at h
        · rw [scan_stays] at h; cases h
        · rename_i hlt
          rcases List.mem_cons.1 ha with rfl | ha
          · rw [hx] at ht; cases ht; exact Int.not_le.1 hlt
          · exact scan_cannot as b h a ha t ht

/-- The cached times of a task are not before those of its records, when these are in order. -/
theorem cached_not_before {w : LogWorld} {d : String} {a : Action} (hc : CacheOK w d)
    (ht : ∀ r ∈ w.repo, r.noted ≤ r.created)
    (ho : w.repo.Pairwise (fun r s => OfAction d a r → OfAction d a s → r.created ≤ s.noted))
    {r : Record} (hr : r ∈ w.repo) (hra : OfAction d a r) : ∃ u, (w.mem d).last a = some u ∧ r.noted ≤ u := by
  obtain ⟨q, hq⟩ := exists_latest hr hra
  have hqm := isLatest_mem hq
  have hqt := ht q hqm.1
  have hrt := ht r hr
  have hle : r.noted ≤ q.noted := by
    obtain ⟨pre, post, e, _, h3⟩ := hq
    rw [e] at hr ho
    rcases List.mem_append.1 hr with hr | hr
    · have := (List.pairwise_append.1 ho).2.2 r hr q (by simp) hra hqm.2
      omega
    · rcases List.mem_cons.1 hr with hr | hr
      · rw [hr]
      · exact absurd hra (h3 r hr)
  rcases hc.last_some a q hq with h | h
  · exact ⟨_, h, hle⟩
  · exact ⟨_, h, by omega⟩

/-- What a check knows of a task. -/
def Knows (fromLogs : Bool) (vb : Verb) (d : String) (w : LogWorld) : Prop :=
  fromLogs = true ∨ (CacheOK w d ∧ ∀ a ∈ shownBy vb,
    w.repo.Pairwise (fun r s => OfAction d a r → OfAction d a s → r.created ≤ s.noted))

/-- A status condition found false: no record was both made and noted in the span. -/
theorem status_false {fuel : Nat} {fromLogs : Bool} {vb : Verb} {p : Option Period} {now : Int} {d : String} {w : LogWorld}
    (hk : Knows fromLogs vb d w) (ht : ∀ r ∈ w.repo, r.noted ≤ r.created)
    (h : statusCond fuel fromLogs vb.acts [] p now d (w.mem d) w.repo = .ok false) :
    ∃ s e, Period.periodSpan fuel p now = .ok (s, e) ∧ ∀ c ∈ w.repo, c.task = d → c.action ∈ shownBy vb →
      ¬ (s ≤ c.noted ∧ c.created ≤ e) := by
  unfold statusCond at h
  cases hs : Period.periodSpan fuel p now with
  | error er => rw [hs] at h; cases h
  | ok se =>
    obtain ⟨s, e⟩ := se
    rw [hs] at h
    simp only [Except.ok.injEq] at h
    refine ⟨s, e, rfl, ?_⟩
    intro c hc h1 h2 h3
    have hct := ht c hc
    have hcount : compState [] ((measuredTimes w.repo d vb.acts s e).length : Int) = true := by
      rw [measured_length]
      exact (compState_nil _).2 (countIn_pos.2 ⟨c, hc, h1, (acts_shown _ _).2 h2, by omega, h3.2⟩)
    have e0 : isEqualZero [] = false := by decide
    have a0 : isAnyOverZero [] = true := by decide
    unfold statusObserve at h
    simp only [e0, a0, Bool.true_and, Bool.false_and, Bool.false_eq_true, if_false, hcount, ite_self] at h
    rcases hk with hf | ⟨hk, ho⟩
    · rw [if_pos hf] at h; cases h
    · obtain ⟨u, hu, hle⟩ := cached_not_before hk ht (ho _ h2) hc ⟨h1, rfl⟩
      by_cases hf : fromLogs = true
      · rw [if_pos hf] at h; cases h
      · rw [if_neg hf] at h
        split at h
        · rename_i hcan
          cases ha : vb.acts with
          | one a =>
            have h4 := (acts_shown vb c.action).2 h2
            rw [ha] at h4 hcan
            obtain rfl : c.action = a := by simpa [Acts.has] using h4
            simp only [cachedFeatures, hu] at hcan
            simp at hcan
            omega
          | many as =>
            have h4 := (acts_shown vb c.action).2 h2
            rw [ha] at h4 hcan
            have := scan_cannot as true hcan c.action (by simpa [Acts.has] using h4) u hu
            omega
        · cases h

/-- The same of the phrase. -/
theorem has_denied {v : Sit} {name : String} (hn : v.self = some name) {w : LogWorld} (hm : v.mem = w.mem) (hr : v.repo = w.repo)
    {fuel : Nat} {r : Nat → Int} {vb : Verb} {task : Option Txt} {p : Period} {m n : Nat}
    (hk : Knows v.fromLogs vb (whose name task) w) (ht : ∀ r ∈ w.repo, r.noted ≤ r.created)
    (h : observe (v.clocked fuel r) (.leaf (.status vb task (some p) [])) m = (.ok false, n)) :
    ∃ s e, Period.periodSpan fuel (some p) (r m) = .ok (s, e) ∧ ∀ c ∈ w.repo, About name task vb c →
      ¬ (s ≤ c.noted ∧ c.created ≤ e) := by
  simp only [observe, Sit.clocked, Sit.leaf, Prod.mk.injEq] at h
  have h := h.1
  cases task with
  | some t =>
    simp only [Sit.status, Sit.lookup] at h
    split at h
    · simp only [Sit.statusOf, hm, hr] at h
      obtain ⟨s, e, h1, h2⟩ := status_false hk ht h
      exact ⟨s, e, h1, fun c hc ha => h2 c hc ha.1 ha.2⟩
    · cases h
  | none =>
    simp only [Sit.status, hn, Sit.statusOf, hm, hr] at h
    obtain ⟨s, e, h1, h2⟩ := status_false hk ht h
    exact ⟨s, e, h1, fun c hc ha => h2 c hc ha.1 ha.2⟩

/-- "has not … in the window" found false: there is a record, made or noted in the span. -/
theorem observe_zero_false {fromLogs : Bool} {a : Action} {s e : Int} {name : String} {w : LogWorld}
    (hc : CacheFrom w) (h : statusObserve fromLogs (.one a) [(.eq, 0)] (s, e) name (w.mem name) w.repo = false) :
    ∃ c ∈ w.repo, OfAction name a c ∧ ((s ≤ c.created ∧ c.created ≤ e) ∨ (s ≤ c.noted ∧ c.noted ≤ e)) := by
  have hcount : compState [(.eq, 0)] ((measuredTimes w.repo name (.one a) s e).length : Int) = false →
      ∃ c ∈ w.repo, OfAction name a c ∧ ((s ≤ c.created ∧ c.created ≤ e) ∨ (s ≤ c.noted ∧ c.noted ≤ e)) := by
    intro hp
    rw [measured_length] at hp
    have : 0 < countIn w.repo name (.one a) s e := by
      rcases Nat.eq_zero_or_pos (countIn w.repo name (.one a) s e) with h0 | h0
      · rw [h0] at hp
        exact absurd hp (by decide)
      · exact h0
    obtain ⟨c, h1, h2, h3, h4⟩ := countIn_pos.1 this
    exact ⟨c, h1, ⟨h2, by simpa [Acts.has] using h3⟩, .inl h4⟩
  have e0 : isEqualZero [(Comp.eq, 0)] = true := by decide
  have a0 : isAnyOverZero [(Comp.eq, 0)] = false := by decide
  unfold statusObserve at h
  simp only [e0, a0, Bool.true_and, Bool.false_and, Bool.false_eq_true, if_false, cachedFeatures] at h
  by_cases hf : fromLogs = true
  · rw [if_pos hf] at h; exact hcount h
  · rw [if_neg hf] at h
    cases hl : (w.mem name).last a with
    | none => rw [hl] at h; simp at h
    | some t =>
      rw [hl] at h
      simp only [] at h
      split at h
      · cases h
      · split at h
        · rename_i h1
          simp only [within, Bool.and_eq_true, decide_eq_true_eq] at h1
          obtain ⟨c, k1, k2, k3⟩ := hc name a t hl
          refine ⟨c, k1, k2, ?_⟩
          rcases k3 with rfl | rfl
          · exact .inr h1
          · exact .inl h1
        · exact hcount h

theorem status_zero_false {fuel : Nat} {fromLogs : Bool} {a : Action} {p : Option Period} {now : Int} {name : String} {w : LogWorld}
    (hc : CacheFrom w) (h : statusCond fuel fromLogs (.one a) [(.eq, 0)] p now name (w.mem name) w.repo = .ok false) :
    ∃ s e, Period.periodSpan fuel p now = .ok (s, e) ∧ ∃ c ∈ w.repo, OfAction name a c ∧
      ((s ≤ c.created ∧ c.created ≤ e) ∨ (s ≤ c.noted ∧ c.noted ≤ e)) := by
  unfold statusCond at h
  cases hs : Period.periodSpan fuel p now with
  | error er => rw [hs] at h; cases h
  | ok se =>
    obtain ⟨s, e⟩ := se
    rw [hs] at h
    exact ⟨s, e, rfl, observe_zero_false hc (by simpa using h)⟩

theorem status_le_false {fuel : Nat} {fromLogs : Bool} {a : Action} {p : Option Period} {now : Int} {name : String} {w : LogWorld}
    (h : statusCond fuel fromLogs (.one a) [(.le, 0)] p now name (w.mem name) w.repo = .ok false) :
    ∃ s e, Period.periodSpan fuel p now = .ok (s, e) ∧ ∃ c ∈ w.repo, OfAction name a c ∧
      ((s ≤ c.created ∧ c.created ≤ e) ∨ (s ≤ c.noted ∧ c.noted ≤ e)) := by
  unfold statusCond at h
  cases hs : Period.periodSpan fuel p now with
  | error er => rw [hs] at h; cases h
  | ok se =>
    obtain ⟨s, e⟩ := se
    rw [hs] at h
    simp only [Except.ok.injEq] at h
    refine ⟨s, e, rfl, ?_⟩
    have e1 : isEqualZero [(Comp.le, 0)] = false := by decide
    have e2 : isAnyOverZero [(Comp.le, 0)] = false := by decide
    simp only [statusObserve, e1, e2, Bool.false_and, Bool.false_eq_true, if_false, ite_self] at h
    rw [measured_length] at h
    have : 0 < countIn w.repo name (.one a) s e := by
      rcases Nat.eq_zero_or_pos (countIn w.repo name (.one a) s e) with h0 | h0
      · rw [h0] at h
        exact absurd h (by decide)
      · exact h0
    obtain ⟨c, h1, h2, h3, h4⟩ := countIn_pos.1 this
    exact ⟨c, h1, ⟨h2, by simpa [Acts.has] using h3⟩, .inl h4⟩

theorem andThen_false {a b : Except PyErr Bool} (h : andThen a b = .ok false) : a = .ok false ∨ (a = .ok true ∧ b = .ok false) := by
  unfold andThen at h
  split at h
  · exact .inr ⟨rfl, h⟩
  · exact .inl h

/-- `TaskExecutable` found false: outside the period, or there is an outcome in it. -/
theorem executable_false {fuel : Nat} {fromLogs : Bool} {p : Anchored} {now : ExecReads} {name : String} {w : LogWorld}
    (hc : CacheFrom w) (h : executable fuel fromLogs none (.anchored p) now name (w.mem name) w.repo = .ok false) :
    p.contains now.isin = false ∨ ∃ t ∈ [now.inacted, now.succeeded, now.failed, now.terminated], ∃ s e,
      Period.periodSpan fuel (some (.anchored p)) t = .ok (s, e) ∧ ∃ c ∈ w.repo, c.task = name ∧
        c.action ∈ [Action.success, .fail, .inaction, .terminate] ∧
        ((s ≤ c.created ∧ c.created ≤ e) ∨ (s ≤ c.noted ∧ c.noted ≤ e)) := by
  unfold executable at h
  simp only [Option.getD_none] at h
  rcases andThen_false h with h | ⟨_, h⟩
  · left
    simpa [isinPeriod, Period.isDelta, Period.contains] using h
  · right
    rcases andThen_false h with h | ⟨_, h⟩
    · obtain ⟨s, e, h1, c, h2, h3, h4⟩ := status_zero_false hc h
      exact ⟨_, by simp, s, e, h1, c, h2, h3.1, by simp [h3.2], h4⟩
    · rcases andThen_false h with h | ⟨_, h⟩
      · obtain ⟨s, e, h1, c, h2, h3, h4⟩ := status_zero_false hc h
        exact ⟨_, by simp, s, e, h1, c, h2, h3.1, by simp [h3.2], h4⟩
      · rcases andThen_false h with h | ⟨_, h⟩
        · obtain ⟨s, e, h1, c, h2, h3, h4⟩ := status_le_false h
          exact ⟨_, by simp, s, e, h1, c, h2, h3.1, by simp [h3.2], h4⟩
        · obtain ⟨s, e, h1, c, h2, h3, h4⟩ := status_zero_false hc h
          exact ⟨_, by simp, s, e, h1, c, h2, h3.1, by simp [h3.2], h4⟩

theorem outside_part {sc : Scope} (w : TPart) (hw : w.Of sc) (hc : cycleLen sc ≠ none ∨ sc = .month) (t : Int)
    (h : Anchored.contains ⟨sc, (w.span sc).1, (w.span sc).2⟩ t = false) : ¬ Sit.InPart sc (w.span sc).1 (w.span sc).2 t := by
  intro hin
  rcases hc with hc | rfl
  · obtain ⟨hL, hm, hy⟩ := len_eq hc
    obtain ⟨hb, _⟩ := part_bounds hy w hw
    rw [← hm] at hb
    rw [Sit.InPart, if_neg (fixed_ne_month hc)] at hin
    rw [(C02_contains ⟨sc, (w.span sc).1, (w.span sc).2⟩ (Sit.len sc) hL hb t).2 hin] at h
    cases h
  · rw [Sit.InPart, if_pos rfl] at hin
    rw [(C07_contains _ _ _).2 hin] at h
    cases h

/-- A time in the span of a part of a cycle of fixed length belongs to the same occurrence. -/
theorem span_same {sc : Scope} (w : TPart) (hw : w.Of sc) (hc : cycleLen sc ≠ none) {fuel : Nat}
    {now s e u : Int} (h : Period.periodSpan fuel (some (.anchored ⟨sc, (w.span sc).1, (w.span sc).2⟩)) now = .ok (s, e))
    (ht : ¬ Turn sc w now) (hu : u ≤ now) (h1 : s ≤ u) : Sit.occ sc (w.span sc).1 u = Sit.occ sc (w.span sc).1 now := by
  obtain ⟨k, rfl⟩ := span_pos h
  have hnm := fixed_ne_month hc
  obtain ⟨hL, hm, hy⟩ := len_eq hc
  obtain ⟨hb, hlt⟩ := part_bounds hy w hw
  rw [← hm] at hb hlt
  have hLp := cycleLen_pos hL
  rw [Turn, if_neg hnm] at ht
  obtain ⟨b, g1, g2, g3⟩ := rollback_latest ⟨sc, (w.span sc).1, (w.span sc).2⟩ _ hL hb (fun h => absurd h.1 (by simp only; omega)) now
    (fun hf h0 => ht ⟨(isFull_iff (p := ⟨sc, (w.span sc).1, (w.span sc).2⟩) hL).1 hf, h0⟩) k
  rw [g1, Except.ok.injEq, Prod.mk.injEq] at h
  rw [Sit.occ, if_neg hnm, Sit.occ, if_neg hnm]
  have h3 := (start_le hLp (s := (w.span sc).1) (t := u) (k := occurrence (Sit.len sc) (w.span sc).1 now)).1 (by
    have := h.1
    simp only [] at this
    omega)
  have h4 := occurrence_mono hLp (w.span sc).1 hu
  omega

/-- The latest occurrence of a part of a cycle lies in its span. -/
theorem latest_span {sc : Scope} (w : TPart) (hw : w.Of sc) (hc : Saying.Cyclic sc w) (he : Saying.EndsInTime sc w) {fuel : Nat}
    {now s e u : Int} (h : Period.periodSpan fuel (some (.anchored ⟨sc, (w.span sc).1, (w.span sc).2⟩)) now = .ok (s, e))
    (ht : ¬ Turn sc w now) (hu : u ≤ now) (hl : Sit.Latest sc (w.span sc).1 (w.span sc).2 now u) : s ≤ u ∧ u ≤ e := by
  obtain ⟨k, rfl⟩ := span_pos h
  rcases hc with hc | ⟨rfl, hc⟩
  · have hnm := fixed_ne_month hc
    obtain ⟨hL, hm, hy⟩ := len_eq hc
    obtain ⟨hb, hlt⟩ := part_bounds hy w hw
    rw [← hm] at hb hlt
    have hLp := cycleLen_pos hL
    rw [Turn, if_neg hnm] at ht
    obtain ⟨b, g1, g2, g3⟩ := rollback_latest ⟨sc, (w.span sc).1, (w.span sc).2⟩ _ hL hb (fun h => absurd h.1 (by simp only; omega)) now
      (fun hf h0 => ht ⟨(isFull_iff (p := ⟨sc, (w.span sc).1, (w.span sc).2⟩) hL).1 hf, h0⟩) k
    rw [g1, Except.ok.injEq, Prod.mk.injEq] at h
    rw [Sit.Latest, if_neg hnm] at hl
    have := (g3 u hu).2 hl
    exact ⟨by rw [← h.1]; exact this.1, by rw [← h.2]; exact this.2⟩
  · obtain ⟨h0, h0'⟩ := month_bounds w hw
    rw [Turn, if_pos rfl] at ht
    obtain ⟨b, g1, g2, g3⟩ := month_rollback_latest h0 hc h0' (he rfl) now (fun hf hs => ht ⟨hf, hs⟩) k
    rw [g1, Except.ok.injEq, Prod.mk.injEq] at h
    rw [Sit.Latest, if_pos rfl] at hl
    have := (g3 u hu).2 hl
    exact ⟨by rw [← h.1]; exact this.1, by rw [← h.2]; exact this.2⟩

theorem cron_false {c : CronExpr} (hc : ValidCron c) (hmon : Unrestricted c.month) (hdom : ∀ i ∈ c.dayOfMonth, EarlyItem .month i)
    {fuel : Nat} {now : Int} (hcon : c.contains fuel now = .ok false) : ¬ CronMatches c now := by
  obtain ⟨ms, g1, g2⟩ := subperiod_ok c hc
  obtain ⟨N, hN⟩ := C18_answers c hc hmon hdom now
  obtain ⟨b, hb1, hb2⟩ := hN (max N fuel) (by omega)
  intro hm
  have hb := hb2.2 hm
  simp only [CronExpr.contains, CronExpr.rollforward, g1, bindE] at hcon hb1
  cases hf : (joinP ms).rollforward fuel now with
  | error e => simp [hf] at hcon
  | ok j =>
    rw [rollforward_le (show fuel ≤ max N fuel by omega) hf] at hb1
    simp only [hf, Except.ok.injEq] at hcon hb1
    rw [hcon, hb] at hb1
    cases hb1

theorem all_false {v : Sit} {fuel : Nat} {r : Nat → Int} : ∀ (cs : List (Cond Builtin)) (m n : Nat),
    observe.observeAll (v.clocked fuel r) cs m = (.ok false, n) → ∃ c ∈ cs, ∃ m' n', observe (v.clocked fuel r) c m' = (.ok false, n')
  | [], _, _, h => by simp [observe.observeAll] at h
  | d :: ds, m, n, h => by
    simp only [observe.observeAll] at h
    rcases hx : observe (v.clocked fuel r) d m with ⟨x, m1⟩
    rw [hx] at h
    cases x with
    | error e => simp at h
    | ok b =>
      cases b with
      | false => exact ⟨d, by simp, m, m1, hx⟩
      | true =>
        obtain ⟨c, h1, h2⟩ := all_false ds m1 n h
        exact ⟨c, by simp [h1], h2⟩

theorem any_false {v : Sit} {fuel : Nat} {r : Nat → Int} : ∀ (cs : List (Cond Builtin)) (m n : Nat),
    observe.observeAny (v.clocked fuel r) cs m = (.ok false, n) → ∀ c ∈ cs, ∃ m' n', observe (v.clocked fuel r) c m' = (.ok false, n')
  | [], _, _, _, c, hc => by simp at hc
  | d :: ds, m, n, h, c, hc => by
    simp only [observe.observeAny] at h
    rcases hx : observe (v.clocked fuel r) d m with ⟨x, m1⟩
    rw [hx] at h
    cases x with
    | error e => simp at h
    | ok b =>
      cases b with
      | true => simp at h
      | false =>
        rcases List.mem_cons.1 hc with rfl | hc
        · exact ⟨m, m1, hx⟩
        · exact any_false ds m1 n h c hc

theorem completion_ended {k : DepKind} {d : String} {c : Record} (h : Ended k d c) : Completion d (Sit.depActs k) c := by
  obtain ⟨h1, h2⟩ := h
  refine ⟨h1, ?_⟩
  cases k <;> simpa [Sit.depActs, dependSuccess, dependFailure, dependFinish] using h2

theorem depend_denied {v : Sit} {name : String} (hn : v.self = some name) {w : LogWorld} (hr : v.repo = w.repo)
    {fuel : Nat} {r : Nat → Int} {k : DepKind} {t : Txt} {m n : Nat} (ho : Ordered w.repo (OfAction name .run))
    (hc : Ordered w.repo (Of (String.ofList t)))
    (h : observe (v.clocked fuel r) (.leaf (.depend k t)) m = (.ok false, n)) : ¬ EndedSince name k (String.ofList t) w.repo := by
  have h1 : dependState w.repo name (String.ofList t) (Sit.depActs k) = false := by
    simp only [observe, Sit.clocked, Sit.leaf, Sit.depend, Sit.lookup, hn, hr, Prod.mk.injEq] at h
    split at h
    · simpa using h.1
    · simp at h
  rintro ⟨c, hcm, hce, hlater⟩
  rw [(C32_state w.repo name (String.ofList t) (Sit.depActs k) ho (hc.imp (fun h h1 h2 => h h1.1 h2.1))).2
    ⟨c, hcm, completion_ended hce, hlater⟩] at h1
  cases h1

theorem never_first {name : String} {late : Bool} {P : List Record → Int → Prop} {repo : List Record}
    (h : StartsChecked name late P repo) (hP : ∀ seen t, P seen t → ∃ r ∈ seen, OfAction name .run r) :
    ∀ s ∈ repo, ¬ OfAction name .run s := by
  suffices H : ∀ n pre s post, pre.length ≤ n → repo = pre ++ s :: post → ¬ OfAction name .run s by
    intro s hs
    obtain ⟨pre, post, e⟩ := List.append_of_mem hs
    exact H pre.length pre s post (Nat.le_refl _) e
  intro n
  induction n with
  | zero =>
    intro pre s post hl he hs
    obtain ⟨seen, new, t, h1, h2, _⟩ := h pre s post he hs
    obtain ⟨r, hr, _⟩ := hP seen t h2
    have : pre = [] := List.length_eq_zero_iff.1 (Nat.le_zero.1 hl)
    rw [this] at h1
    obtain ⟨rfl, _⟩ := List.append_eq_nil_iff.1 h1.symm
    simp at hr
  | succ n ih =>
    intro pre s post hl he hs
    obtain ⟨seen, new, t, h1, h2, _⟩ := h pre s post he hs
    obtain ⟨r, hr, hra⟩ := hP seen t h2
    obtain ⟨p1, p2, e⟩ := List.append_of_mem hr
    have e1 : pre = p1 ++ r :: (p2 ++ new) := by rw [h1, e]; simp
    refine ih p1 r (p2 ++ new ++ s :: post) ?_ (by rw [he, e1]; simp) hra
    rw [e1] at hl
    simp only [List.length_append, List.length_cons] at hl
    omega

/-- The knowledge of a check in a history. -/
theorem knows_hist {S : Setup} {name : String} {task : Option Txt} {vb : Verb} (hv : Saying.Visible.Shown S name task vb)
    {es : List Ev} {h : HState} (hh : Hist S es h) {reason : Nat} {first last : Int} (hst : S.start name reason first last h.log)
    (hcold : h.cold name = false) : Knows S.fromLogs vb (whose name task) h.log := by
  rcases hv with hv | ⟨h1, h2⟩
  · exact .inl hv
  · refine .inr ⟨?_, ?_⟩
    · rcases h1 with h1 | h1
      · rw [h1]; exact (rinv S name hh).cache hcold
      · exact h1 _ _ _ _ hst
    · intro a ha
      rcases h2 with rfl | h2
      · obtain rfl : a = .run := by simpa [shownBy] using ha
        exact (rinv S (whose name task) hh).runs
      · exact (List.pairwise_append.1 (hinv S (whose name task) h2 hh).ordered).1.imp (fun h k1 k2 => h k1.1 k2.1)

theorem ordered_hist {S : Setup} {d : String} (hp : S.isProc d = false ∨ S.drained = true) {es : List Ev} {h : HState}
    (hh : Hist S es h) : Ordered h.log.repo (Of d) := by
  have hi := hinv S d hp hh
  have ho := (List.pairwise_append.1 hi.ordered).1
  have ht : ∀ r ∈ h.log.repo, r.noted ≤ r.created := fun r hr => (hi.times r (by simp [HState.all, hr])).1
  refine List.Pairwise.imp_of_mem (fun {r s} _ hs h k1 k2 => ?_) ho
  have := h k1 k2
  have := ht s hs
  omega

theorem runs_ordered {S : Setup} {d : String} {es : List Ev} {h : HState} (hh : Hist S es h) :
    Ordered h.log.repo (OfAction d .run) := by
  have hi := rinv S d hh
  have ht : ∀ r ∈ h.log.repo, r.noted ≤ r.created := fun r hr => (hi.times r (by simp [HState.all, hr])).1
  refine List.Pairwise.imp_of_mem (fun {r s} _ hs h k1 k2 => ?_) hi.runs
  have := h k1 k2
  have := ht s hs
  omega

/-- C111: the start condition of the task is a text.  Then, in every history — any outcomes, durations, restarts, other tasks
and log records that come late — every phrase that the text forbids was absent at the check before each start: the check was
outside the time, no completion of the other task was new, the log had no such record in the span.  Between the check and
the start nothing of the task was logged (`late = false`, for a task without records in the queue), or at least no other start
of it.  Missing: phrases without a period (`has failed`, which looks for periods in the start condition), running, scheduler
and env phrases; tasks whose records may wait in the queue or whose times were not read after a restart
(`Saying.Visible`), see `C111_queue_violated`. -/
theorem C111_history_partial (lib : TextLib) (strLeaf : Char → Builtin) (fuel : Nat) (S : Setup) (name : String)
    (e : Written) (he : e.Proper) (sayingOf : Txt → Saying)
    (hw : ∀ w ∈ e.words, (sayingOf w).phrase.text = w ∧ (sayingOf w).Proper)
    (hS : ∀ reason first last w, S.start name reason first last w → TextHeld lib strLeaf fuel S.fromLogs e.text name first last w)
    (late : Bool) (hl : late = false → S.isProc name = false ∨ S.drained = true)
    {es : List Ev} {h : HState} (hh : Hist S es h) (x : Txt) (hx : e.Denies x true) (hv : (sayingOf x).Visible S name) :
    (sayingOf x).Bars name late h.log.repo := by
  have hp := (hw x (denied_word x e true hx)).2
  have held := fun reason first last w hst => held_denied he hw hx (hS reason first last w hst)
  generalize sayingOf x = y at hp held hv ⊢
  cases y with
  | timeOf sc w =>
    obtain ⟨p1, p2, _⟩ := hp
    refine starts_checked S name late hl _ (fun es h reason first last hh hst _ _ => ?_) hh
    obtain ⟨v, c, r, m, n, h1, h2, h3, h4, h6, h7, h8⟩ := held reason first last _ hst
    simp only [Saying.phrase, Phrase.meaning, part_meaning lib (cyclic_ne_year p2) w p1, Except.map, Except.ok.injEq] at h7
    rw [← h7] at h8
    simp only [observe, Sit.clocked, Sit.leaf, Prod.mk.injEq] at h8
    refine ⟨r m, outside_part w p1 p2 _ ?_, h6 m⟩
    simpa [Period.contains] using h8.1
  | exec sc w =>
    obtain ⟨p1, p2⟩ := hp
    have hc : cycleLen sc ≠ none ∨ sc = .month := p2.imp id And.left
    refine starts_checked S name late hl _ (fun es h reason first last hh hst hclk _ => ?_) hh
    obtain ⟨v, c, r, m, n, h1, h2, h3, h4, h6, h7, h8⟩ := held reason first last _ hst
    simp only [Saying.phrase, Phrase.meaning, part_meaning lib (cyclic_ne_year hc) w p1, Except.map, Except.ok.injEq] at h7
    rw [← h7] at h8
    simp only [observe, Sit.clocked, Prod.mk.injEq] at h8
    have h9 := h8.1
    unfold Sit.executableAt at h9
    rw [h1] at h9
    simp only [] at h9
    split at h9
    · rw [h3, h4] at h9
      rcases executable_false (cacheFrom_hist S hh) h9 with h9 | ⟨t, ht, s, e, k1, c, k2, k3, k4, k5⟩
      · exact ⟨r m, .inl (outside_part w p1 hc _ h9), h6 m⟩
      · have htr : first ≤ t ∧ t ≤ last := by
          simp only [List.mem_cons, List.not_mem_nil, or_false] at ht
          rcases ht with rfl | rfl | rfl | rfl <;> exact h6 _
        refine ⟨t, .inr ⟨c, k2, k3, k4, ?_⟩, htr⟩
        by_cases hm : sc = .month
        · exact .inl hm
        · by_cases htn : Turn sc w t
          · exact .inr (.inl htn)
          · have hcl : cycleLen sc ≠ none := hc.resolve_right hm
            have := (rinv S name hh).times c (by simp [HState.all, k2])
            rcases k5 with k5 | k5
            · exact .inr (.inr (.inl (span_same w p1 hcl k1 htn (by omega) k5.1)))
            · exact .inr (.inr (.inr (span_same w p1 hcl k1 htn (by omega) k5.1)))
    · rcases andThen_false h9 with h9 | ⟨_, h9⟩
      · exact ⟨r m, .inl (outside_part w p1 hc _ (by simpa [isinPeriod, Period.isDelta, Period.contains] using h9)), h6 m⟩
      · cases h9
  | every d us =>
    have := starts_checked S name true (by simp) (fun seen _ => ∃ r ∈ seen, OfAction name .run r)
      (fun es h reason first last hh hst _ _ => by
      obtain ⟨v, c, r, m, n, h1, h2, h3, h4, h6, h7, h8⟩ := held reason first last _ hst
      simp only [Saying.phrase, Phrase.meaning, span_lasts hp, Except.map, Except.ok.injEq] at h7
      rw [← h7] at h8
      simp only [observe, Sit.clocked, Sit.leaf, Sit.status, h1, Sit.statusOf, h2, h3, h4, Prod.mk.injEq] at h8
      obtain ⟨s, e, _, q, k1, k2, _⟩ := status_zero_false (cacheFrom_hist S hh) h8.1
      exact ⟨r m, ⟨q, k1, k2⟩, h6 m⟩) hh
    exact never_first this (fun _ _ h => h)
  | cron c =>
    refine starts_checked S name late hl _ (fun es h reason first last hh hst _ _ => ?_) hh
    obtain ⟨v, d, r, m, n, h1, h2, h3, h4, h6, h7, h8⟩ := held reason first last _ hst
    simp only [Saying.phrase, Phrase.meaning, Except.ok.injEq] at h7
    rw [← h7] at h8
    rw [show cronTexts c ++ List.replicate (5 - (cronTexts c).length) ['*'] = cronTexts c by simp [cronTexts]] at h8
    simp only [observe, Sit.clocked, cronOf_texts hp, bindE, Prod.mk.injEq] at h8
    have h9 := h8.1
    unfold Sit.cronAt at h9
    rw [h1] at h9
    simp only [] at h9
    split at h9
    · rw [h2, h3, h4] at h9
      rcases andThen_false h9 with h9 | ⟨_, h9⟩
      · exact ⟨r m, .inl (cron_false hp.valid hp.month hp.days h9), h6 m⟩
      · split at h9
        · cases h9
        · obtain ⟨q, k1, k2, _⟩ := observe_zero_false (cacheFrom_hist S hh) (by simpa using h9)
          exact ⟨r m, .inr ⟨q, k1, k2⟩, h6 m⟩
    · rcases andThen_false h9 with h9 | ⟨_, h9⟩
      · exact ⟨r m, .inl (cron_false hp.valid hp.month hp.days h9), h6 m⟩
      · cases h9
  | afterTask t k said =>
    refine starts_checked S name late hl _ (fun es h reason first last hh hst _ _ => ?_) hh
    obtain ⟨v, c, r, m, n, h1, h2, h3, h4, h6, h7, h8⟩ := held reason first last _ hst
    simp only [Saying.phrase, Phrase.meaning, Except.ok.injEq] at h7
    rw [← h7] at h8
    exact ⟨r m, depend_denied h1 h4 (runs_ordered hh) (ordered_hist hv hh) h8, h6 m⟩
  | afterTasks isAny ts k said =>
    cases isAny with
    | true =>
      refine starts_checked S name late hl _ (fun es h reason first last hh hst _ _ => ?_) hh
      obtain ⟨v, c, r, m, n, h1, h2, h3, h4, h6, h7, h8⟩ := held reason first last _ hst
      simp only [Saying.phrase, Phrase.meaning, Except.ok.injEq, if_true] at h7
      rw [← h7, observe] at h8
      refine ⟨r m, fun t ht => ?_, h6 m⟩
      obtain ⟨m', n', h9⟩ := any_false _ _ _ h8 _ (List.mem_map.2 ⟨t, ht, rfl⟩)
      exact depend_denied h1 h4 (runs_ordered hh) (ordered_hist (hv t ht) hh) h9
    | false =>
      refine starts_checked S name late hl _ (fun es h reason first last hh hst _ _ => ?_) hh
      obtain ⟨v, c, r, m, n, h1, h2, h3, h4, h6, h7, h8⟩ := held reason first last _ hst
      simp only [Saying.phrase, Phrase.meaning, Except.ok.injEq, Bool.false_eq_true, if_false] at h7
      rw [← h7, observe] at h8
      obtain ⟨d, hd, m', n', h9⟩ := all_false _ _ _ h8
      obtain ⟨t, ht, rfl⟩ := List.mem_map.1 hd
      exact ⟨r m, ⟨t, ht, depend_denied h1 h4 (runs_ordered hh) (ordered_hist (hv t ht) hh) h9⟩, h6 m⟩
  | const b long =>
    cases b with
    | false => trivial
    | true =>
      refine never_first (starts_checked S name true (by simp) (fun _ _ => False) (fun es h reason first last hh hst _ _ => ?_) hh)
        (fun _ _ h => h.elim)
      obtain ⟨v, c, r, m, n, h1, h2, h3, h4, h6, h7, h8⟩ := held reason first last _ hst
      simp only [Saying.phrase, Phrase.meaning, Except.ok.injEq, if_true] at h7
      rw [← h7, observe] at h8
      simp at h8
  | hasPast task vb inn d us =>
    refine starts_checked S name late hl _ (fun es h reason first last hh hst hclk hcold => ?_) hh
    obtain ⟨v, c, r, m, n, h1, h2, h3, h4, h6, h7, h8⟩ := held reason first last _ hst
    simp only [Saying.phrase, Phrase.meaning, span_lasts hp.2, Except.map, Except.ok.injEq] at h7
    rw [← h7] at h8
    have ht := (rinv S name hh).times
    obtain ⟨s, e, hs, k⟩ := has_denied h1 h3 h4 (by rw [h2]; exact knows_hist hv hh hst hcold)
      (fun q hq => (ht q (by simp [HState.all, hq])).1) h8
    cases fuel with
    | zero => simp [Period.periodSpan, Period.rollback] at hs
    | succ f =>
      rw [delta_span f hp.2.2.1, Except.ok.injEq, Prod.mk.injEq] at hs
      refine ⟨r m, fun q hq ha => ?_, h6 m⟩
      have := ht q (by simp [HState.all, hq])
      have := (h6 m).1
      have := k q hq ha
      omega
  | hasIn task vb sc w =>
    obtain ⟨_, p2, p3, p4, _, _⟩ := hp
    refine starts_checked S name late hl _ (fun es h reason first last hh hst hclk hcold => ?_) hh
    obtain ⟨v, c, r, m, n, h1, h2, h3, h4, h6, h7, h8⟩ := held reason first last _ hst
    simp only [Saying.phrase, Phrase.meaning, part_meaning lib (cyclic_ne_year (p3.imp id And.left)) w p2, Except.map, Except.ok.injEq] at h7
    rw [← h7] at h8
    have ht := (rinv S name hh).times
    obtain ⟨s, e, hs, k⟩ := has_denied h1 h3 h4 (by rw [h2]; exact knows_hist hv hh hst hcold)
      (fun q hq => (ht q (by simp [HState.all, hq])).1) h8
    refine ⟨r m, ?_, h6 m⟩
    by_cases htn : Turn sc w (r m)
    · exact .inl htn
    · refine .inr (fun q hq ha hlat => k q hq ha ?_)
      have := ht q (by simp [HState.all, hq])
      have := (h6 m).1
      exact ⟨(latest_span w p2 p3 p4 hs htn (by omega) hlat.2).1, (latest_span w p2 p3 p4 hs htn (by omega) hlat.1).2⟩
  | _ => trivial

/-- C111, in the log itself: a start text that forbids `has failed past 10 minutes` (any verb and duration) keeps the starts of
the task more than that after each of its failures that the log has before; for `has started past …` also when the
records of the task may come late. -/
theorem C111_apart_partial (lib : TextLib) (strLeaf : Char → Builtin) (fuel : Nat) (S : Setup) (name : String)
    (e : Written) (he : e.Proper) (sayingOf : Txt → Saying)
    (hw : ∀ w ∈ e.words, (sayingOf w).phrase.text = w ∧ (sayingOf w).Proper)
    (hS : ∀ reason first last w, S.start name reason first last w → TextHeld lib strLeaf fuel S.fromLogs e.text name first last w)
    {es : List Ev} {h : HState} (hh : Hist S es h) (x : Txt) (hx : e.Denies x true)
    {vb : Verb} {inn : Bool} {d : DText} {us : Int} (hs : sayingOf x = .hasPast none vb inn d us)
    (hp : vb = .started ∨ S.isProc name = false ∨ S.drained = true) :
    h.log.repo.Pairwise (fun r s => r.task = name → r.action ∈ shownBy vb → OfAction name .run s → r.noted + us < s.noted) := by
  have key : ∀ late, (late = false → S.isProc name = false ∨ S.drained = true) →
      StartsChecked name late (fun seen t => ∀ c ∈ seen, About name none vb c → c.noted < t - us) h.log.repo := by
    intro late hl
    have := C111_history_partial lib strLeaf fuel S name e he sayingOf hw hS late hl hh x hx
      (by rw [hs]; exact .inr ⟨.inl rfl, hp⟩)
    rw [hs] at this
    exact this
  rw [List.pairwise_iff_forall_sublist]
  intro r s hsub h1 h2 h3
  obtain ⟨pre, post, e1, hr⟩ : ∃ pre post, h.log.repo = pre ++ s :: post ∧ r ∈ pre := by
    generalize h.log.repo = l at hsub
    induction l with
    | nil => simp at hsub
    | cons y l ih =>
      cases hsub with
      | cons _ hsub =>
        obtain ⟨pre, post, e1, hr⟩ := ih hsub
        exact ⟨y :: pre, post, by rw [e1]; rfl, by simp [hr]⟩
      | cons_cons _ hsub =>
        obtain ⟨pre, post, e1⟩ := List.append_of_mem (List.singleton_sublist.1 hsub)
        exact ⟨r :: pre, post, by rw [e1]; rfl, by simp⟩
  by_cases hv : vb = .started
  · obtain ⟨seen, new, t, k1, k2, _, k4, k5⟩ := key true (by simp) pre s post e1 h3
    rw [k1] at hr
    rcases List.mem_append.1 hr with hr | hr
    · have := k2 r hr ⟨h1, h2⟩
      omega
    · subst hv
      exact absurd ⟨h1, fun _ => by simpa [shownBy] using h2⟩ (k5 r hr)
  · obtain ⟨seen, new, t, k1, k2, _, k4, k5⟩ := key false (fun _ => hp.resolve_left hv) pre s post e1 h3
    rw [k1] at hr
    rcases List.mem_append.1 hr with hr | hr
    · have := k2 r hr ⟨h1, h2⟩
      omega
    · exact absurd ⟨h1, fun h => by cases h⟩ (k5 r hr)

/-- C111 with C69: the same in every execution of the scheduler, at any point and however often it is started. -/
theorem C111_execution_partial (lib : TextLib) (strLeaf : Char → Builtin) (fuel : Nat) (S : Setup) (K : String → Sched.Exec) (R : Nat)
    (s : Sys) (hs : Managed K s) (env : Nat → Choice) (he : ∀ i, Reliable (env i)) (ks : List Nat) {tr : List Sched.Obs}
    (hp : tr <+: (sessions ks (World.init s env)).2.trace) {es : List Ev} {h : HState} (hc : Coupled S K R tr es h)
    (name : String) (e : Written) (hep : e.Proper) (sayingOf : Txt → Saying)
    (hw : ∀ w ∈ e.words, (sayingOf w).phrase.text = w ∧ (sayingOf w).Proper)
    (hS : ∀ reason first last w, S.start name reason first last w → TextHeld lib strLeaf fuel S.fromLogs e.text name first last w)
    (late : Bool) (hl : late = false → S.isProc name = false ∨ S.drained = true)
    (x : Txt) (hx : e.Denies x true) (hv : (sayingOf x).Visible S name) :
    (sayingOf x).Bars name late h.log.repo :=
  C111_history_partial lib strLeaf fuel S name e hep sayingOf hw hS late hl (C69_history_partial S K R s hs env he ks hp hc) x hx hv

/-! ### cases -/

/-- `~has failed past 10 minutes`. -/
def coolText : Written := .not [] [] (.item [] c!"has failed past 10 minutes" [])

def coolSays (_ : Txt) : Saying := .hasPast none .failed false tenMinutes (10 * MIN)

theorem cool_says : ∀ w ∈ coolText.words, (coolSays w).phrase.text = w ∧ (coolSays w).Proper := by
  intro w hw
  simp only [coolText, Written.words, List.mem_singleton] at hw
  subst hw
  exact ⟨by decide +kernel, trivial, tenMinutes_lasts⟩

theorem cool_proper : coolText.Proper := by
  simp [coolText, Written.Proper, Written.Word, Written.Blank, Written.Tight]

theorem cool_held (lib : TextLib) (strLeaf : Char → Builtin) (t : Int) (w : LogWorld)
    (h : statusCond 1 false (.one .fail) [] (some (.delta (10 * MIN) 0)) t "t" (w.mem "t") w.repo = .ok false) :
    TextHeld lib strLeaf 1 false coolText.text "t" t t w := by
  refine text_held (sayingOf := coolSays) cool_proper cool_says (sitOf "t" w) rfl rfl rfl 1 ?_
  have hm : (coolSays c!"has failed past 10 minutes").phrase.meaning (valOf lib) =
      .ok (.leaf (.status .failed none (some (.delta (10 * MIN) 0)) [])) := by
    simp only [coolSays, Saying.phrase, Phrase.meaning, span_lasts tenMinutes_lasts]; rfl
  have e1 : phraseObs ((sitOf "t" w).clocked 1 (fun _ => t)) (valOf lib) (coolSays c!"has failed past 10 minutes").phrase =
      fun i => (.ok false, i + 1) := by
    funext i
    simp only [phraseObs, hm, observe]
    refine Prod.ext ?_ rfl
    exact h
  simp only [coolText, Written.expr, CExpr.eval, negated, e1, Except.map]
  rfl

/-- What can be started in the example. -/
def coolStart (proc : Bool) : Setup := ⟨false, fun name _ first last w => name = "t" ∧ first = last ∧
  statusCond 1 false (.one .fail) [] (some (.delta (10 * MIN) 0)) first "t" (w.mem "t") w.repo = .ok false, fun _ => proc, false⟩

theorem cool_hist (lib : TextLib) (strLeaf : Char → Builtin) {proc : Bool} {es : List Ev} {h : HState} (hh : Hist (coolStart proc) es h) :
    Hist (textSetup lib strLeaf coolText proc false) es h := by
  refine hist_weaker ?_ hh
  rintro name reason first last w ⟨h, rfl, h3⟩
  exact .inr ⟨h, cool_held lib strLeaf _ w h3⟩

/-- Non-vacuity: the text forbids the phrase; a history with a failure and, more than 10 minutes later, a second start. -/
example (lib : TextLib) (strLeaf : Char → Builtin) :
    coolText.text = c!"~has failed past 10 minutes" ∧ coolText.Denies c!"has failed past 10 minutes" true ∧
    (coolSays c!"has failed past 10 minutes").Visible (textSetup lib strLeaf coolText false false) "t" ∧
    ∃ es h, Hist (textSetup lib strLeaf coolText false false) es h ∧
      h.log.repo.map (fun r => (r.action, r.noted)) = [(.run, 3), (.fail, 4), (.run, 10 * MIN + 6)] := by
  refine ⟨rfl, by simp [coolText, Written.Denies], .inr ⟨.inl rfl, .inr (.inl rfl)⟩, ?_⟩
  have h0 := Hist.init (S := coolStart false) 1
  have h1 := h0.step (.check _ "t" 0 2 2 (by decide) (by decide) (by decide) (by decide) (by simp [coolStart])
    ⟨rfl, rfl, by decide +kernel⟩)
  have h2 := h1.step (.begin _ "t" 0 none 3 3 (by decide) (by decide) (by decide))
  have h3 := h2.step (.outcome _ "t" .fail none 4 4 (by decide) (by decide) (by decide) (by decide))
  have h4 := h3.step (.die _ "t" (by decide))
  have h5 := h4.step (.check _ "t" 0 (10 * MIN + 5) (10 * MIN + 5) (by decide) (by decide) (by decide) (by decide) (by simp [coolStart])
    ⟨rfl, rfl, by decide +kernel⟩)
  have h6 := h5.step (.begin _ "t" 0 none (10 * MIN + 6) (10 * MIN + 6) (by decide) (by decide) (by decide))
  exact ⟨_, _, cool_hist lib strLeaf h6, by decide +kernel⟩

/-- C111 fails for a task in a child process: the text forbids a start within 10 minutes of a failure, and yet the task is
started 2 microseconds after it failed, because the failure was still in the queue at the check. -/
theorem C111_queue_violated (lib : TextLib) (strLeaf : Char → Builtin) : coolText.Denies c!"has failed past 10 minutes" true ∧
    ∃ es h, Hist (textSetup lib strLeaf coolText true false) es h ∧ ∃ r ∈ h.log.repo, ∃ s ∈ h.log.repo,
      OfAction "t" .fail r ∧ OfAction "t" .run s ∧ r.created < s.noted ∧ s.noted ≤ r.noted + 2 := by
  refine ⟨by simp [coolText, Written.Denies], ?_⟩
  have h0 := Hist.init (S := coolStart true) 1
  have h1 := h0.step (.check _ "t" 0 2 2 (by decide) (by decide) (by decide) (by decide) (by simp [coolStart])
    ⟨rfl, rfl, by decide +kernel⟩)
  have h2 := h1.step (.begin _ "t" 0 none 3 3 (by decide) (by decide) (by decide))
  have h3 := h2.step (.put _ "t" .fail none 4 (by decide) rfl (by decide) (by decide))
  have h4 := h3.step (.die _ "t" (by decide))
  have h5 := h4.step (.check _ "t" 0 5 5 (by decide) (by decide) (by decide) (by decide) (by simp [coolStart])
    ⟨rfl, rfl, by decide +kernel⟩)
  have h6 := h5.step (.begin _ "t" 0 none 6 6 (by decide) (by decide) (by decide))
  have h7 := h6.step (.drain _ _ _ rfl)
  exact ⟨_, _, cool_hist lib strLeaf h7, ⟨"t", .fail, 4, 4, none⟩, by decide +kernel, ⟨"t", .run, 6, 6, none⟩, by decide +kernel,
    ⟨rfl, rfl⟩, ⟨rfl, rfl⟩, by decide, by decide⟩

/-- Which phrases a text forbids: one side of `&` is enough; `|` wants both. -/
example : (Written.and (.item [] c!"daily" []) [' '] [' '] (.not [] [] (.item [] c!"has failed today" []))).Denies
      c!"has failed today" true ∧
    ¬ (Written.or (.item [] c!"daily" []) [' '] [' '] (.not [] [] (.item [] c!"has failed today" []))).Denies
      c!"has failed today" true ∧ ¬ coolText.Asks c!"has failed past 10 minutes" true := by
  refine ⟨?_, ?_, ?_⟩ <;> simp [coolText, Written.Denies, Written.Asks]

/-- A text `~every 10 minutes` forbids `every 10 minutes`, so its task is never started. -/
example (name : String) (late : Bool) (repo : List Record) :
    (Saying.every tenMinutes (10 * MIN)).Bars name late repo ↔ ∀ s ∈ repo, ¬ OfAction name .run s := Iff.rfl

end Rocketry.Props
