import Verif.Sched.Evolve

/-!
# Invariants that speak about the record of an execution
-/

namespace Rocketry.Sched

/-- The world after `_get_direct_params` took `b`. -/
def World.pop (w : World) (name : String) (b : Batch) : World :=
  { w with st := w.st.pop name, hist := w.st :: w.hist, trace := w.trace ++ [.popped name b] }

/-- The world after the start of a run. -/
def World.push (w : World) (name : String) (kind : Exec) (time : Int) (part : Part) : World :=
  { w with st := w.st.push name kind time, hist := w.st :: w.hist, trace := w.trace ++ [.started name w.st.nextId part] }

/-- The world after a `main` run. -/
def World.drop (w : World) (name : String) (stray : Bool) : World :=
  { w with st := w.st.drop name stray, hist := w.st :: w.hist }

variable {I0 I1 : World → Prop} {Ip : Option Batch → World → Prop}

theorem runOn_rule (h1 : Base I1) (name : String) (drop : ∀ w b, I1 w → I1 (w.drop name b)) (id : Nat) (kind : Exec)
    (f : Option Fault) : Keeps I1 (runOn name id kind f) := by
  have hd : ∀ b, Keeps I1 (dropMain name b) := fun b w hw => drop w b hw
  unfold runOn
  cases kind with
  | main =>
    refine keeps_ite (fun _ => keeps_bind (hd _) (fun _ => keeps_raise _)) (fun _ => ?_)
    refine keeps_bind (keeps_choose h1) (fun c => keeps_bind (keeps_remark h1 rfl (by simp)) (fun _ => keeps_bind (hd _) (fun _ w hw => ?_)))
    rw [mainEnd_apply]; exact hw
  | async => exact keeps_ite (fun _ => keeps_raise _) (fun _ => keeps_pure _)
  | thread =>
    exact keeps_ite (fun _ => keeps_change (fun w hw => h1.move w _ (.finish _ _ _ _) rfl hw)) (fun _ => keeps_pure _)
  | process =>
    refine keeps_ite (fun _ => keeps_bind (keeps_change (fun w hw => h1.move w _ (.finish _ _ _ _) rfl hw)) (fun _ => keeps_raise _))
      (fun _ => keeps_ite (fun _ => keeps_raise _) (fun _ => keeps_pure _))

theorem choose_ok (w : World) : ∃ w1, choose w = (.ok (w.env w.pos), w1) ∧ w1.env = w.env :=
  ⟨_, rfl, (foldl_happen_env _ _).1⟩

/-- From `I0` the start of a task leads to `I1`. -/
theorem startAsync_rule (h0 : Base I0) (h1 : Base I1) (name : String) (part : Part)
    (keep : ∀ w, I0 w → I1 w)
    (pop : ∀ w t b bs, I0 w → w.st.find name = some t → t.batches = b :: bs → Ip (some b) (w.pop name b))
    (nopop : ∀ w t, I0 w → w.st.find name = some t → t.batches = [] → Ip none w)
    (lost : ∀ o w, (∃ i, (w.env i).fault = some .setup) → Ip o w → I1 w)
    (push : ∀ o w kind time, Ip o w → I1 (w.push name kind time part))
    (drop : ∀ w b, I1 w → I1 (w.drop name b)) (w : World) (hw : I0 w) : I1 (startAsync name part w).2 := by
  unfold startAsync
  rw [bind_apply]
  obtain ⟨w1, hcw, henv⟩ := choose_ok w
  have hw1 := keeps_choose h0 w hw
  rw [hcw] at hw1 ⊢
  simp only [get_bind_apply] at hw1 ⊢
  have hfault : ∀ f, (w.env w.pos).fault = f → ∃ i, (w1.env i).fault = f := fun f hf => ⟨w.pos, by rw [henv]; exact hf⟩
  generalize w.env w.pos = c at hfault
  rcases hf : w1.st.find name with _ | t
  · exact keep _ hw1
  simp only
  by_cases hp : c.fault = some .params
  · rw [if_pos hp]; exact keep _ (h0.note _ _ rfl (by simp) hw1)
  rw [if_neg hp, bind_apply]
  obtain ⟨_, htn⟩ := find_mem hf
  have hpop : ∃ o w2, popBatch t w1 = (.ok (), w2) ∧ Ip o w2 ∧ w2.env = w1.env := by
    unfold popBatch
    rcases hb : t.batches with _ | ⟨b, bs⟩
    · exact ⟨none, w1, rfl, nopop w1 t hw1 hf hb, rfl⟩
    · have := pop w1 t b bs hw1 hf hb
      rw [← htn] at this
      exact ⟨some b, w1.pop t.name b, rfl, this, rfl⟩
  obtain ⟨o, w2, hpw, h2, he2⟩ := hpop
  rw [hpw]
  simp only
  by_cases hse : c.fault = some .setup
  · rw [if_pos hse]
    exact h1.note _ _ rfl (by simp) (lost o w2 (by rw [he2]; exact hfault _ hse) h2)
  rw [if_neg hse, bind_apply]
  have hpush : pushRun name t.execution c.time part w2 = (.ok w2.st.nextId, w2.push name t.execution c.time part) := rfl
  rw [hpush]
  exact runOn_rule h1 name drop _ _ _ _ (push o w2 _ _ h2)

/-- From `I0` the inspection and start of a task leads to `I1`. -/
theorem launch_rule (h0 : Base I0) (h1 : Base I1) (name : String) (part : Part)
    (keep : ∀ w, I0 w → I1 w)
    (pop : ∀ w t b bs, I0 w → w.st.find name = some t → t.batches = b :: bs → Ip (some b) (w.pop name b))
    (nopop : ∀ w t, I0 w → w.st.find name = some t → t.batches = [] → Ip none w)
    (lost : ∀ o w, (∃ i, (w.env i).fault = some .setup) → Ip o w → I1 w)
    (push : ∀ o w kind time, Ip o w → I1 (w.push name kind time part))
    (drop : ∀ w b, I1 w → I1 (w.drop name b)) (w : World) (hw : I0 w) : I1 (launch name part w).2 := by
  unfold launch
  rw [bind_apply]
  have h := keeps_isTaskRunnable h0 name w hw
  rcases hm : isTaskRunnable name w with ⟨r, w'⟩
  rw [hm] at h
  cases r with
  | cut => exact keep _ h
  | raise e => exact keep _ h
  | ok b =>
    simp only
    by_cases hb : b = true
    · rw [if_pos hb]
      have hs := startAsync_rule h0 h1 name part keep pop nopop lost push drop w' h
      unfold runTask tryCatch
      rcases hst : startAsync name part w' with ⟨r, w''⟩
      rw [hst] at hs
      cases r with
      | ok a => exact hs
      | cut => exact hs
      | raise e =>
        simp only [get_bind_apply]
        cases e <;> simp only <;> first | exact hs | (split <;> exact hs)
    · rw [if_neg hb]; exact keep _ h

/-- The rule for invariants that need not distinguish the steps of a start. -/
theorem launch_rule' (h0 : Base I0) (h1 : Base I1) (name : String) (part : Part)
    (keep : ∀ w, I0 w → I1 w)
    (pop : ∀ w b, I0 w → I0 (w.pop name b))
    (push : ∀ w kind time, I0 w → I1 (w.push name kind time part))
    (drop : ∀ w b, I1 w → I1 (w.drop name b)) (w : World) (hw : I0 w) : I1 (launch name part w).2 :=
  launch_rule (Ip := fun _ => I0) h0 h1 name part keep (fun w _ b _ h _ _ => pop w b h) (fun _ _ h _ _ => h)
    (fun _ w _ h => keep w h) (fun _ w k tm h => push w k tm h) drop w hw

theorem forEach_rule {α : Type} {S : List α → World → Prop} {f : α → M Unit} (weak : ∀ l w, S l w → S [] w)
    (step : ∀ a l w, S (a :: l) w → S l (f a w).2) : ∀ l w, S l w → S [] (forEach l f w).2
  | [], _, h => h
  | a :: l, w, h => by
    unfold forEach
    rw [bind_apply]
    have h1 := step a l w h
    rcases hm : f a w with ⟨r, w'⟩
    rw [hm] at h1
    cases r with
    | ok _ => exact forEach_rule weak step l w' h1
    | raise e => exact weak l w' h1
    | cut => exact weak l w' h1

theorem tidy_flags {s s' : Sys} (h : Tidy s s') : s'.shutdown = s.shutdown ∧ s'.forceExit = s.forceExit ∧
    s'.restart = s.restart ∧ s'.enabled = s.enabled := by
  cases h <;> exact ⟨rfl, rfl, rfl, rfl⟩

end Rocketry.Sched
