import Verif.Sched.Trace

/-!
# How the runs of one task change while nothing is started
-/

namespace Rocketry.Sched

/-- The run was ended by itself or was terminated. -/
def EndedIn (name : String) (id : Nat) (l : List Obs) : Prop :=
  (∃ exc, Obs.env (.ends name id exc) ∈ l) ∨ Obs.terminated name id ∈ l

/-- The same run later. -/
structure Later (name : String) (l : List Obs) (r r' : Run) : Prop where
  id : r'.id = r.id
  kind : r'.kind = r.kind
  start : r'.start = r.start
  back : r'.alive = true → r.alive = true
  gone : r.alive = true → r'.alive = true ∨ EndedIn name r.id l

theorem EndedIn.mono {name : String} {id : Nat} {l l' : List Obs} (h : EndedIn name id l) (hl : ∀ o ∈ l, o ∈ l') :
    EndedIn name id l' := h.imp (fun ⟨e, he⟩ => ⟨e, hl _ he⟩) (hl _)

theorem Later.refl (name : String) (l : List Obs) (r : Run) : Later name l r r := ⟨rfl, rfl, rfl, fun h => h, Or.inl⟩

theorem Later.trans {name : String} {l l' : List Obs} {a b c : Run} (h : Later name l a b) (h' : Later name l' b c) :
    Later name (l ++ l') a c where
  id := h'.id.trans h.id
  kind := h'.kind.trans h.kind
  start := h'.start.trans h.start
  back := fun ha => h.back (h'.back ha)
  gone := fun ha => by
    rcases h.gone ha with hb | hb
    · rcases h'.gone hb with hc | hc
      · exact Or.inl hc
      · rw [h.id] at hc
        exact Or.inr (hc.mono (fun o ho => List.mem_append_right _ ho))
    · exact Or.inr (hb.mono (fun o ho => List.mem_append_left _ ho))

/-- Two lists of the same length, element by element. -/
inductive All2 (R : Run → Run → Prop) : List Run → List Run → Prop where
  | nil : All2 R [] []
  | cons {a b : Run} {l l' : List Run} (h : R a b) (t : All2 R l l') : All2 R (a :: l) (b :: l')

theorem all2_trans {R S T : Run → Run → Prop} (h : ∀ a b c, R a b → S b c → T a c) {l1 l2 l3 : List Run}
    (h1 : All2 R l1 l2) (h2 : All2 S l2 l3) : All2 T l1 l3 := by
  induction h1 generalizing l3 with
  | nil => cases h2; exact .nil
  | cons hab _ ih =>
    cases h2 with
    | cons hbc h2 => exact .cons (h _ _ _ hab hbc) (ih h2)

theorem all2_map {R : Run → Run → Prop} {g : Run → Run} (h : ∀ r, R r (g r)) : ∀ l : List Run, All2 R l (l.map g)
  | [] => .nil
  | r :: l => .cons (h r) (all2_map h l)

theorem all2_refl {R : Run → Run → Prop} (h : ∀ r, R r r) : ∀ l : List Run, All2 R l l
  | [] => .nil
  | r :: l => .cons (h r) (all2_refl h l)

/-- What happened to the task called `name`, while `l` was observed. -/
structure Follow (name : String) (l : List Obs) (w w' : World) : Prop where
  trace : w'.trace = w.trace ++ l
  env : w'.env = w.env
  nodup : (w.st.tasks.map TaskSt.name).Nodup → (w'.st.tasks.map TaskSt.name).Nodup
  task : (w.st.tasks.map TaskSt.name).Nodup → ∀ t, w.st.find name = some t → ∃ t', w'.st.find name = some t' ∧
    SameSet t t' ∧ All2 (Later name l) t.stack t'.stack
  cfg : w'.st.cfg = w.st.cfg

theorem SameSet.trans {a b c : TaskSt} (h : SameSet a b) (h' : SameSet b c) : SameSet a c :=
  ⟨h'.name.trans h.name, h'.priority.trans h.priority, h'.execution.trans h.execution, h'.multilaunch.trans h.multilaunch,
    h'.onStartup.trans h.onStartup, h'.onShutdown.trans h.onShutdown, h'.permanent.trans h.permanent,
    h'.timeout.trans h.timeout, h'.noCond.trans h.noCond⟩

theorem Follow.refl (name : String) (w : World) : Follow name [] w w :=
  ⟨(List.append_nil _).symm, rfl, id, fun _ t ht => ⟨t, ht, .refl _, all2_refl (Later.refl name []) _⟩, rfl⟩

theorem Follow.trans {name : String} {l l' : List Obs} {a b c : World} (h : Follow name l a b) (h' : Follow name l' b c) :
    Follow name (l ++ l') a c where
  trace := by rw [h'.trace, h.trace, List.append_assoc]
  env := h'.env.trans h.env
  nodup := fun hn => h'.nodup (h.nodup hn)
  task := fun hn t ht => by
    obtain ⟨t', ht', hs, hf⟩ := h.task hn t ht
    obtain ⟨t'', ht'', hs', hf'⟩ := h'.task (h.nodup hn) t' ht'
    exact ⟨t'', ht'', hs.trans hs', all2_trans (R := Later name l) (S := Later name l') (fun _ _ _ h1 h2 => h1.trans h2) hf hf'⟩
  cfg := h'.cfg.trans h.cfg

theorem find_iff {s : Sys} (hn : (s.tasks.map TaskSt.name).Nodup) {n : String} {t : TaskSt} :
    s.find n = some t ↔ t ∈ s.tasks ∧ t.name = n := by
  constructor
  · exact find_mem
  · rintro ⟨ht, htn⟩
    rcases hf : s.find n with _ | u
    · have := List.find?_eq_none.1 hf t ht
      simp [htn] at this
    · obtain ⟨hu, hun⟩ := find_mem hf
      rw [name_inj hn hu ht (hun.trans htn.symm)]

theorem find_upd_ne {s : Sys} (hn : (s.tasks.map TaskSt.name).Nodup) {n m : String} (h : n ≠ m) {g : TaskSt → TaskSt}
    (hg : ∀ t, (g t).name = t.name) {t : TaskSt} (ht : s.find n = some t) : (s.upd m g).find n = some t := by
  rw [find_iff (upd_nodup hn hg)]
  obtain ⟨h1, h2⟩ := (find_iff hn).1 ht
  exact ⟨List.mem_map.2 ⟨t, h1, if_neg (by rw [h2]; exact h)⟩, h2⟩

theorem find_upd_eq {s : Sys} (hn : (s.tasks.map TaskSt.name).Nodup) {n : String} {g : TaskSt → TaskSt}
    (hg : ∀ t, (g t).name = t.name) {t : TaskSt} (ht : s.find n = some t) : (s.upd n g).find n = some (g t) := by
  rw [find_iff (upd_nodup hn hg)]
  obtain ⟨h1, h2⟩ := (find_iff hn).1 ht
  exact ⟨List.mem_map.2 ⟨t, h1, if_pos h2⟩, (hg t).trans h2⟩

theorem follow_upd {name m : String} {g : TaskSt → TaskSt} {w w' : World} {l : List Obs} (hst : w'.st = w.st.upd m g)
    (hl : w'.trace = w.trace ++ l) (he : w'.env = w.env) (hg : ∀ t, SameSet t (g t))
    (hk : m = name → ∀ t : TaskSt, All2 (Later name l) t.stack (g t).stack) : Follow name l w w' where
  trace := hl
  env := he
  nodup := fun hn => by rw [hst]; exact upd_nodup hn (fun t => (hg t).name)
  task := fun hn t ht => by
    rw [hst]
    by_cases h : m = name
    · subst h
      exact ⟨g t, find_upd_eq hn (fun t => (hg t).name) ht, hg t, hk rfl t⟩
    · exact ⟨t, find_upd_ne hn (fun e => h e.symm) (fun t => (hg t).name) ht, .refl _, all2_refl (Later.refl name l) _⟩
  cfg := by rw [hst]; rfl

theorem follow_same {name : String} {w w' : World} {l : List Obs} (hst : w'.st.tasks = w.st.tasks)
    (hl : w'.trace = w.trace ++ l) (he : w'.env = w.env) (hc : w'.st.cfg = w.st.cfg) : Follow name l w w' where
  trace := hl
  env := he
  nodup := fun hn => by rw [hst]; exact hn
  task := fun _ t ht => ⟨t, by unfold Sys.find at ht ⊢; rw [hst]; exact ht, .refl _, all2_refl (Later.refl name l) _⟩
  cfg := hc

theorem follow_event (name : String) (w : World) (e : EnvEv) : Follow name [.env e] w (w.happen e) := by
  have triv : ∀ (m : String) (g : TaskSt → TaskSt), (w.happen e).st = w.st.upd m g → (∀ t, SameSet t (g t)) →
      (∀ t : TaskSt, (g t).stack = t.stack) → Follow name [.env e] w (w.happen e) := fun m g hst hg hs =>
    follow_upd hst rfl rfl hg (fun _ t => by rw [hs]; exact all2_refl (Later.refl _ _) _)
  cases e with
  | ends n id exc =>
    refine follow_upd (m := n) rfl rfl rfl (fun t => ⟨rfl, rfl, rfl, rfl, rfl, rfl, rfl, rfl, rfl⟩) (fun hn t => ?_)
    apply all2_map
    intro r
    by_cases h : r.id = id ∧ r.kind ≠ .main
    · rw [if_pos h]
      refine ⟨rfl, rfl, rfl, fun h => by simp [Run.ended] at h, fun _ => Or.inr (Or.inl ⟨exc, ?_⟩)⟩
      rw [← hn, h.1]; exact List.mem_singleton.2 rfl
    · rw [if_neg h]; exact .refl _ _ _
  | request n b => exact triv n _ rfl (fun t => ⟨rfl, rfl, rfl, rfl, rfl, rfl, rfl, rfl, rfl⟩) (fun _ => rfl)
  | terminate n => exact triv n _ rfl (fun t => ⟨rfl, rfl, rfl, rfl, rfl, rfl, rfl, rfl, rfl⟩) (fun _ => rfl)
  | disable n b => exact triv n _ rfl (fun t => ⟨rfl, rfl, rfl, rfl, rfl, rfl, rfl, rfl, rfl⟩) (fun _ => rfl)
  | remove n => exact triv n _ rfl (fun t => ⟨rfl, rfl, rfl, rfl, rfl, rfl, rfl, rfl, rfl⟩) (fun _ => rfl)
  | hold b => exact follow_same rfl rfl rfl rfl
  | shutDown f => exact follow_same rfl rfl rfl rfl
  | restart => exact follow_same rfl rfl rfl rfl
  | add t =>
    by_cases h : t.name ∈ w.st.tasks.map TaskSt.name
    · refine follow_same ?_ rfl rfl ?_ <;> simp only [World.happen, Sys.event] <;> rw [if_pos h]
    · refine ⟨rfl, rfl, fun hn => ?_, fun hn u hu => ⟨u, ?_, .refl _, all2_refl (Later.refl _ _) _⟩, ?_⟩
      · exact (shift_event w.st (.add t)).nodup hn
      · show (w.st.event (.add t)).find name = some u
        rw [find_iff ((shift_event w.st (.add t)).nodup hn)]
        obtain ⟨h1, h2⟩ := (find_iff hn).1 hu
        refine ⟨?_, h2⟩
        simp only [Sys.event]
        rw [if_neg h]
        exact List.mem_cons_of_mem _ h1
      · exact (shift_event w.st (.add t)).cfg
  | reorder k =>
    refine ⟨rfl, rfl, (shift_event w.st (.reorder k)).nodup, fun hn u hu => ⟨u, ?_, .refl _, all2_refl (Later.refl _ _) _⟩,
      (shift_event w.st (.reorder k)).cfg⟩
    show (w.st.event (.reorder k)).find name = some u
    rw [find_iff ((shift_event w.st (.reorder k)).nodup hn)]
    obtain ⟨h1, h2⟩ := (find_iff hn).1 hu
    refine ⟨?_, h2⟩
    simp only [Sys.event]
    by_cases h : k.isPerm w.st.tasks = true
    · rw [if_pos h]; exact (List.isPerm_iff.1 h).mem_iff.2 h1
    · rw [if_neg h]; exact h1

theorem follow_events (name : String) (es : List EnvEv) (w : World) :
    Follow name (es.map Obs.env) w (es.foldl World.happen w) := by
  induction es generalizing w with
  | nil => exact .refl _ _
  | cons e es ih => exact (follow_event name w e).trans (ih (w.happen e))

/-- The environment moves. -/
theorem follow_choose (name : String) (w : World) :
    ∃ w1, choose w = (.ok (w.env w.pos), w1) ∧ Follow name ((w.env w.pos).events.map Obs.env) w w1 := by
  refine ⟨_, rfl, ?_⟩
  have h := follow_events name (w.env w.pos).events { w with pos := w.pos + 1 }
  exact ⟨h.trace, h.env, h.nodup, h.task, h.cfg⟩

/-- The terminations in `l`. -/
def terms (l : List Obs) : List (String × Nat) :=
  l.filterMap (fun o => match o with | .terminated n i => some (n, i) | _ => none)

theorem terms_append (a b : List Obs) : terms (a ++ b) = terms a ++ terms b := List.filterMap_append

theorem terms_env (es : List EnvEv) : terms (es.map Obs.env) = [] := by
  induction es with
  | nil => rfl
  | cons e es ih => exact ih

theorem mem_terms {l : List Obs} {n : String} {i : Nat} : (n, i) ∈ terms l ↔ Obs.terminated n i ∈ l := by
  unfold terms
  rw [List.mem_filterMap]
  constructor
  · rintro ⟨o, ho, h⟩
    cases o <;> simp at h
    obtain ⟨rfl, rfl⟩ := h
    exact ho
  · exact fun h => ⟨_, h, rfl⟩

/-- Terminating one run. -/
theorem terminateRun_follow (name : String) (w : World) (hn : (w.st.tasks.map TaskSt.name).Nodup) (t : TaskSt)
    (ht : w.st.find name = some t) (r : Run) (hr : r ∈ t.stack) (hm : ∀ x ∈ t.stack, x.kind ≠ .main) :
    ∃ l, Follow name l w (terminateRun name r.id w).2 ∧ terms l = [(name, r.id)] := by
  unfold terminateRun
  rw [get_bind_apply, ht]
  simp only
  obtain ⟨x, hx⟩ : ∃ x, t.stack.find? (fun y => decide (y.id = r.id)) = some x := by
    rcases hf : t.stack.find? (fun y => decide (y.id = r.id)) with _ | x
    · have := List.find?_eq_none.1 hf r hr; simp at this
    · exact ⟨x, hf⟩
  rw [hx]
  simp only
  have hxk := hm x (List.mem_of_find?_eq_some hx)
  have hemit : Follow name [.terminated name r.id] w { w with trace := w.trace ++ [.terminated name r.id] } :=
    follow_same rfl rfl rfl rfl
  have main : ∃ l, Follow name l w ((do
        emit (.terminated name r.id)
        let c ← choose
        change name (fun t => { t with stack := endRun r.id false t.stack })
        match c.fault with
        | some .logging => raise .logging
        | some (.exc e) => if x.kind = .async then raise e else pure ()
        | _ => pure () : M Unit) w).2 ∧ terms l = [(name, r.id)] := by
    rw [bind_apply]
    have he : emit (.terminated name r.id) w = (.ok (), { w with trace := w.trace ++ [.terminated name r.id] }) := rfl
    rw [he]
    simp only
    obtain ⟨w1, hc, hf1⟩ := follow_choose name { w with trace := w.trace ++ [.terminated name r.id] }
    rw [bind_apply, hc]
    simp only
    have hch : Follow name [.terminated name r.id] w1
        { w1 with st := w1.st.upd name (fun t => { t with stack := endRun r.id false t.stack }), hist := w1.st :: w1.hist,
                  trace := w1.trace ++ [.terminated name r.id] } := by
      refine follow_upd rfl rfl rfl (fun t => ⟨rfl, rfl, rfl, rfl, rfl, rfl, rfl, rfl, rfl⟩) (fun _ t => ?_)
      apply all2_map
      intro y
      by_cases h : y.id = r.id ∧ y.kind ≠ .main
      · rw [if_pos h]
        refine ⟨rfl, rfl, rfl, fun h => by simp [Run.ended] at h, fun _ => Or.inr (Or.inr ?_)⟩
        rw [h.1]; exact List.mem_singleton.2 rfl
      · rw [if_neg h]; exact .refl _ _ _
    -- the observation of the termination explains the change
    have hall := hemit.trans hf1
    have hch' : Follow name ([.terminated name r.id] ++ (w.env w.pos).events.map Obs.env) w
        { w1 with st := w1.st.upd name (fun t => { t with stack := endRun r.id false t.stack }), hist := w1.st :: w1.hist } := by
      refine ⟨hall.trace, hall.env, fun h => hch.nodup (hall.nodup h), fun h u hu => ?_, hch.cfg.trans hall.cfg⟩
      obtain ⟨u', hu', hs, hf⟩ := hall.task h u hu
      obtain ⟨u'', hu'', hs', hf'⟩ := hch.task (hall.nodup h) u' hu'
      refine ⟨u'', hu'', hs.trans hs', ?_⟩
      refine all2_trans (fun a b c hab hbc => ?_) hf hf'
      have := hab.trans hbc
      refine ⟨this.id, this.kind, this.start, this.back, fun ha => (this.gone ha).imp (fun h => h) (fun h => h.mono ?_)⟩
      intro o ho
      rcases List.mem_append.1 ho with ho | ho
      · exact ho
      · exact List.mem_append_left _ ho
    refine ⟨[.terminated name r.id] ++ (w.env w.pos).events.map Obs.env, ?_, ?_⟩
    · rw [bind_apply]
      have hcg : change name (fun t => { t with stack := endRun r.id false t.stack }) w1 = (.ok (), { w1 with
          st := w1.st.upd name (fun t => { t with stack := endRun r.id false t.stack }), hist := w1.st :: w1.hist }) := rfl
      rw [hcg]
      simp only
      rcases (w.env w.pos).fault with _ | f
      · exact hch'
      · cases f with
        | logging => exact hch'
        | exc e =>
          simp only
          by_cases hk : x.kind = .async
          · rw [if_pos hk]; exact hch'
          · rw [if_neg hk]; exact hch'
        | _ => exact hch'
    · rw [terms_append, terms_env]; rfl
  rcases hk : x.kind with _ | _ | _ | _
  · exact absurd hk hxk
  · rw [hk] at main; exact main
  · simp only; exact ⟨_, hemit, rfl⟩
  · rw [hk] at main; exact main

end Rocketry.Sched
