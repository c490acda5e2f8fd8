import Verif.Spec.ReturnedSpec

/-!
# C113: what a task returned is what the others get
-/

namespace Rocketry.Props
open Rocketry Rocketry.Returned Rocketry.Spec
open Rocketry.Run (Exec Course Ending)

/-! ## What a run does -/

/-- The acts of a run with values are those of runs that gave the value; without a restart only threads log a success by
itself, and they do it after they stored the value. -/
def ActOk (i : Info) : Act → Prop
  | .both v => Gave i.course v ∧ i.exec ≠ .thread
  | .store v => Gave i.course v ∧ i.exec = .thread
  | .send a ret => i.exec = .process ∧ (a = .success → ∀ v, ret = some v → Gave i.course v)
  | .log a => a = .success → ¬ RunRestarts i.course → i.exec = .thread

/-- The acts of a run, one after the other. -/
def ActsOk (i : Info) : List Act → Prop
  | [] => True
  | a :: l => ActOk i a ∧ (∀ l', l = .log .success :: l' → ¬ RunRestarts i.course → ∃ v, a = .store v) ∧
      (∀ v, a = .store v → ∃ l', l = .log .success :: l') ∧ ActsOk i l

theorem todo_ok (i : Info) : ActsOk i (todoOf i) := by
  obtain ⟨x, e, ⟨pre, par, en, sf, pf⟩⟩ := i
  have hg : ∀ v, pre = true → par = true → en = .returns v → sf = false → Gave ⟨pre, par, en, sf, pf⟩ v :=
    fun v a b c d => ⟨a, b, c, d⟩
  cases e <;> cases pre <;> cases par <;> cases en <;> cases sf <;> cases pf <;>
    simp_all [todoOf, Run.runMain, Run.runAsync, Run.runThread, Run.runProcess, Run.processRecs, Run.body, Run.finallyPost,
      Run.setupError, Run.statusAfter, inLoop, inThread, inProcess, ActsOk, ActOk, RunRestarts]

theorem todo_head (i : Info) (l : List Act) : todoOf i ≠ .log .success :: l := by
  obtain ⟨x, e, c⟩ := i
  cases e <;> simp [todoOf, Run.runMain, Run.runAsync, Run.runThread, Run.runProcess, inLoop, inThread, inProcess]

theorem actsOk_tail {i : Info} {a : Act} {l : List Act} (h : ActsOk i (a :: l)) : ActsOk i l := h.2.2.2

theorem latest_snoc (x : Nat) (l : List Entered) (k : Entered) :
    latestSuccess x (l ++ [k]) = if k.task = x ∧ k.action = .success then some k.run else latestSuccess x l := by
  induction l with
  | nil => by_cases h : k.task = x ∧ k.action = .success <;> simp [latestSuccess, h]
  | cons a l ih =>
    rw [List.cons_append, latestSuccess, ih]
    by_cases h : k.task = x ∧ k.action = .success
    · simp [h]
    · simp [h, latestSuccess]

/-! ## The values and the log -/

/-- What holds in all states of an orderly execution. -/
structure ValInv (S : Returned.Setup) (x : Nat) (s : Returned.St) : Prop where
  msgs : ∀ m ∈ s.queue, (S.runs m.run).exec = .process ∧ (m.action = .success → ∃ v, m.ret = some v ∧ Gave (S.runs m.run).course v)
  acts : ∀ r, ActsOk (S.runs r) (s.todo r)
  one : ∀ r r', (S.runs r).task = x → (S.runs r').task = x → (S.runs r).exec = .thread → (S.runs r').exec = .thread →
    s.todo r ≠ [] → s.todo r' ≠ [] → r = r'
  between : ∀ r l, (S.runs r).task = x → (S.runs r).exec = .thread → s.todo r = .log .success :: l →
    ∃ v, Gave (S.runs r).course v ∧ s.returns x = some v
  told : ¬ StoredNotLogged S s x → LogTellsValue S x s.log (s.returns x)
  fresh : ∀ r, s.started r = false → s.todo r = []

theorem tells_other {S : Returned.Setup} {x : Nat} {l : List Entered} {k : Entered} {g : Option String}
    (hk : ¬ (k.task = x ∧ k.action = .success)) (h : LogTellsValue S x l g) : LogTellsValue S x (l ++ [k]) g := by
  unfold LogTellsValue at h ⊢
  rw [latest_snoc, if_neg hk]
  exact h

theorem tells_new {S : Returned.Setup} {x r : Nat} {l : List Entered} {v : String} (hg : Gave (S.runs r).course v) :
    LogTellsValue S x (l ++ [⟨x, r, .success⟩]) (some v) := by
  unfold LogTellsValue
  rw [latest_snoc, if_pos ⟨rfl, rfl⟩]
  exact ⟨v, hg, rfl⟩

theorem noThread_between {S : Returned.Setup} {s : Returned.St} {x r : Nat} (h : NoThreadBut S s x r)
    (hr : (S.runs r).exec ≠ .thread) : ¬ StoredNotLogged S s x := by
  rintro ⟨r', l, h1, h2, h3⟩
  by_cases hc : r' = r
  · exact hr (hc ▸ h2)
  · rw [h r' hc h1 h2] at h3; exact nomatch h3

/-- A change that leaves queue, acts, values alone. -/
theorem valInv_same {S : Returned.Setup} {x : Nat} {s s' : Returned.St} (h : ValInv S x s) (hq : ∀ m ∈ s'.queue, m ∈ s.queue)
    (ht : s'.todo = s.todo) (hst : s'.started = s.started) (hv : s'.returns x = s.returns x)
    (hl : ¬ StoredNotLogged S s x → LogTellsValue S x s'.log (s.returns x)) : ValInv S x s' where
  msgs := fun m hm => h.msgs m (hq m hm)
  acts := by rw [ht]; exact h.acts
  one := by rw [ht]; exact h.one
  between := by rw [ht, hv]; exact h.between
  told := by
    intro hb
    rw [hv]
    refine hl fun hc => hb ?_
    obtain ⟨r, l, h1, h2, h3⟩ := hc
    exact ⟨r, l, h1, h2, by rw [ht]; exact h3⟩
  fresh := by rw [ht, hst]; exact h.fresh

theorem write_log (s : Returned.St) (x r : Nat) (a : Action) (ok : Bool) :
    (write s x r a ok).log = s.log ++ (if ok then [⟨x, r, a⟩] else []) := by
  unfold write
  cases ok
  · simp
  · rfl

theorem write_rest (s : Returned.St) (x r : Nat) (a : Action) (ok : Bool) :
    (write s x r a ok).queue = s.queue ∧ (write s x r a ok).todo = s.todo ∧ (write s x r a ok).returns = s.returns ∧
      (write s x r a ok).stored = s.stored ∧ (write s x r a ok).tasks = s.tasks ∧ (write s x r a ok).started = s.started := by
  unfold write
  cases ok <;> exact ⟨rfl, rfl, rfl, rfl, rfl, rfl⟩

theorem write_tells {S : Returned.Setup} {x y r : Nat} {s : Returned.St} {a : Action} {ok : Bool} {g : Option String}
    (hk : ¬ (y = x ∧ a = .success)) (h : LogTellsValue S x s.log g) : LogTellsValue S x (write s y r a ok).log g := by
  rw [write_log]
  cases ok
  · simpa using h
  · exact tells_other hk h

/-- A record that is no success of the task. -/
theorem valInv_write {S : Returned.Setup} {x y r : Nat} {s : Returned.St} {a : Action} {ok : Bool}
    (h : ValInv S x s) (hk : ¬ (y = x ∧ a = .success)) : ValInv S x (write s y r a ok) := by
  obtain ⟨w1, w2, w3, _, _, w6⟩ := write_rest s y r a ok
  exact valInv_same h (by rw [w1]; exact fun _ hm => hm) w2 w6 (by rw [w3]) fun hb => write_tells hk (h.told hb)

/-- A value of another task. -/
theorem valInv_store {S : Returned.Setup} {x y r : Nat} {v : String} {s : Returned.St} (h : ValInv S x s) (hy : x ≠ y) :
    ValInv S x (handleReturn s y r v) :=
  valInv_same h (fun _ hm => hm) rfl rfl (if_neg hy) fun hb => h.told hb

theorem noThread_of_one {S : Returned.Setup} {x r : Nat} {s : Returned.St} (h : ValInv S x s) (hx : (S.runs r).task = x)
    (ht : (S.runs r).exec = .thread) (hr : s.todo r ≠ []) : NoThreadBut S s x r := by
  intro r' hne hx' ht'
  by_cases hc : s.todo r' = []
  · exact hc
  · exact absurd (h.one r' r hx' hx ht' ht hc hr) hne

theorem valInv_build {S : Returned.Setup} {x r : Nat} {s s' : Returned.St} {l : List Act} (h : ValInv S x s)
    (ht : s'.todo = Queue.setAt s.todo r l) (hl : ActsOk (S.runs r) l)
    (hone : l ≠ [] → (S.runs r).task = x → (S.runs r).exec = .thread → NoThreadBut S s x r)
    (hm : ∀ m ∈ s'.queue, (S.runs m.run).exec = .process ∧
      (m.action = .success → ∃ v, m.ret = some v ∧ Gave (S.runs m.run).course v))
    (hb : ∀ l', (S.runs r).task = x → (S.runs r).exec = .thread → l = .log .success :: l' →
      ∃ v, Gave (S.runs r).course v ∧ s'.returns x = some v)
    (hv : s'.returns x = s.returns x ∨ NoThreadBut S s x r)
    (hst : ∀ r', s'.started r' = false → s.started r' = false ∧ (r' = r → l = []))
    (told : ¬ StoredNotLogged S s' x → LogTellsValue S x s'.log (s'.returns x)) : ValInv S x s' := by
  have hsame : s'.todo r = l := by rw [ht]; exact if_pos rfl
  have hother : ∀ r', r' ≠ r → s'.todo r' = s.todo r' := fun r' hne => by rw [ht]; exact if_neg hne
  refine ⟨hm, fun r' => ?_, fun r1 r2 h1 h2 e1 e2 t1 t2 => ?_, fun r' l' hx he hl' => ?_, told, fun r' hs => ?_⟩
  · by_cases hc : r' = r
    · rw [hc, hsame]; exact hl
    · rw [hother r' hc]; exact h.acts r'
  · by_cases c1 : r1 = r
    · by_cases c2 : r2 = r
      · rw [c1, c2]
      · subst c1
        rw [hsame] at t1
        rw [hother r2 c2] at t2
        exact absurd (hone t1 h1 e1 r2 c2 h2 e2) t2
    · by_cases c2 : r2 = r
      · subst c2
        rw [hsame] at t2
        rw [hother r1 c1] at t1
        exact absurd (hone t2 h2 e2 r1 c1 h1 e1) t1
      · rw [hother r1 c1] at t1
        rw [hother r2 c2] at t2
        exact h.one r1 r2 h1 h2 e1 e2 t1 t2
  · by_cases hc : r' = r
    · subst hc
      rw [hsame] at hl'
      exact hb l' hx he hl'
    · rw [hother r' hc] at hl'
      rcases hv with hv | hv
      · rw [hv]; exact h.between r' l' hx he hl'
      · rw [hv r' hc hx he] at hl'; exact nomatch hl'
  · obtain ⟨h1, h2⟩ := hst r' hs
    by_cases hc : r' = r
    · rw [hc, hsame]; exact h2 hc
    · rw [hother r' hc]; exact h.fresh r' h1

/-- If no thread has stored its value only after an act, this was so before, unless the act was to log the success. -/
theorem between_back {S : Returned.Setup} {x r : Nat} {s s' : Returned.St} {l : List Act}
    (ht : s'.todo = Queue.setAt s.todo r l) (hn : ¬ StoredNotLogged S s' x)
    (hr : ∀ l', (S.runs r).task = x → (S.runs r).exec = .thread → s.todo r ≠ .log .success :: l') : ¬ StoredNotLogged S s x := by
  rintro ⟨r', l', hx, he, hl⟩
  by_cases hc : r' = r
  · subst hc; exact hr l' hx he hl
  · exact hn ⟨r', l', hx, he, by rw [ht]; exact (if_neg hc).trans hl⟩

theorem valInv_act {S : Returned.Setup} {x : Nat} (hS : ∀ r, (S.runs r).task = x → ¬ RunRestarts (S.runs r).course)
    {s : Returned.St} (h : ValInv S x s) (r : Nat) (ok : Bool) (ho : OrderlyStep S x s (.act r ok)) :
    ValInv S x (Returned.step S s (.act r ok)) := by
  rcases hr : s.todo r with _ | ⟨a, l⟩
  · have : Returned.step S s (.act r ok) = s := by unfold Returned.step; dsimp only; rw [hr]
    rw [this]; exact h
  have hstep : Returned.step S s (.act r ok) = perform S { s with todo := Queue.setAt s.todo r l } r ok a := by
    unfold Returned.step; dsimp only; rw [hr]
  rw [hstep]
  have hne : s.todo r ≠ [] := by rw [hr]; exact List.cons_ne_nil _ _
  obtain ⟨ok1, ok2, ok3, ok4⟩ := (hr ▸ h.acts r : ActsOk (S.runs r) (a :: l))
  have hone : (S.runs r).task = x → (S.runs r).exec = .thread → NoThreadBut S s x r := fun hx he => noThread_of_one h hx he hne
  have hst : ∀ r', s.started r' = false → s.started r' = false ∧ (r' = r → l = []) := fun r' hs =>
    ⟨hs, fun hc => absurd (h.fresh r (hc ▸ hs)) hne⟩
  cases a with
  | log a =>
    -- the rest of the acts
    have key : ∀ l2 (s' : Returned.St), (l2 = l ∨ l2 = []) → s'.todo = Queue.setAt s.todo r l2 → s'.queue = s.queue →
        s'.started = s.started → s'.returns = s.returns → s'.log = s.log ++ (if ok then [⟨(S.runs r).task, r, a⟩] else []) → ValInv S x s' := by
      intro l2 s' hl2 ht hq hsta hret hlog
      have hacts : ActsOk (S.runs r) l2 := by
        rcases hl2 with hl2 | hl2
        · rw [hl2]; exact ok4
        · rw [hl2]; exact True.intro
      refine valInv_build h ht hacts (fun _ => hone) (by rw [hq]; exact h.msgs) ?_ (.inl (by rw [hret])) ?_ ?_
      · intro l' hx he hl'
        rcases hl2 with hl2 | hl2
        · obtain ⟨v, hv⟩ := ok2 l' (hl2 ▸ hl') (hS r hx)
          exact nomatch hv
        · rw [hl2] at hl'; exact nomatch hl'
      · rw [hsta]
        exact fun r' hs => ⟨hs, fun hc => absurd (h.fresh r (hc ▸ hs)) hne⟩
      · intro hn
        rw [hlog, hret]
        by_cases hk : (S.runs r).task = x ∧ a = .success
        · obtain ⟨hx, ha⟩ := hk
          subst ha
          have he := ok1 rfl (hS r hx)
          have hok := (ho hx).2 l hr
          obtain ⟨v, hg, hv⟩ := h.between r l hx he hr
          rw [hok, hv, hx]
          exact tells_new hg
        · have hb : ¬ StoredNotLogged S s x := by
            refine between_back ht hn fun l' hx he hl' => ?_
            rw [hr] at hl'
            injection hl' with h1 h2
            injection h1 with h1
            exact hk ⟨hx, h1⟩
          cases ok
          · simpa using h.told hb
          · exact tells_other hk (h.told hb)
    unfold perform
    dsimp only
    obtain ⟨w1, w2, w3, _, _, w6⟩ := write_rest ({ s with todo := Queue.setAt s.todo r l } : Returned.St) (S.runs r).task r a ok
    split
    · refine key [] _ (.inr rfl) ?_ w1 w6 w3 (write_log _ _ _ _ _)
      dsimp only
      rw [w2]
      funext r'
      by_cases hc : r' = r <;> simp [Queue.setAt, hc]
    · exact key l _ (.inl rfl) w2 w1 w6 w3 (write_log _ _ _ _ _)
  | store v =>
    obtain ⟨hg, he⟩ := ok1
    obtain ⟨l', hl'⟩ := ok3 v rfl
    unfold perform
    dsimp only
    by_cases hx : (S.runs r).task = x
    · refine valInv_build h rfl ok4 (fun _ => hone) h.msgs (fun _ _ _ _ => ⟨v, hg, ?_⟩) (.inr (hone hx he)) hst fun hn => ?_
      · unfold handleReturn; dsimp only; rw [hx]; exact if_pos rfl
      · exact absurd ⟨r, l', hx, he, (if_pos rfl).trans hl'⟩ hn
    · have hret : (handleReturn ({ s with todo := Queue.setAt s.todo r l } : Returned.St) (S.runs r).task r v).returns x = s.returns x :=
        if_neg (Ne.symm hx)
      refine valInv_build h rfl ok4 (fun _ => hone) h.msgs (fun _ hx' => absurd hx' hx) (.inl hret) hst fun hn => ?_
      rw [hret]
      exact h.told (between_back (s' := handleReturn { s with todo := Queue.setAt s.todo r l } (S.runs r).task r v) rfl hn
        fun _ hx' => absurd hx' hx)
  | both v =>
    obtain ⟨hg, he⟩ := ok1
    unfold perform
    dsimp only
    generalize hs1 : handleReturn ({ s with todo := Queue.setAt s.todo r l } : Returned.St) (S.runs r).task r v = s1
    have e1 : s1.todo = Queue.setAt s.todo r l := by rw [← hs1]; rfl
    have e2 : s1.queue = s.queue := by rw [← hs1]; rfl
    have e3 : s1.returns = Queue.setAt s.returns (S.runs r).task (some v) := by rw [← hs1]; rfl
    have e4 : s1.log = s.log := by rw [← hs1]; rfl
    have e5 : s1.started = s.started := by rw [← hs1]; rfl
    obtain ⟨w1, w2, w3, _, _, w6⟩ := write_rest s1 (S.runs r).task r .success ok
    by_cases hx : (S.runs r).task = x
    · obtain ⟨hok, hno⟩ := (ho hx).1 v l hr
      refine valInv_build h (w2.trans e1) ok4 (fun _ => hone) (by rw [w1, e2]; exact h.msgs)
        (fun _ _ he' => absurd he' he) (.inr hno) (by rw [w6, e5]; exact hst) fun _ => ?_
      rw [write_log, w3, e3, e4, hok, hx]
      have : Queue.setAt s.returns x (some v) x = some v := if_pos rfl
      rw [this]
      exact tells_new hg
    · have hret : (write s1 (S.runs r).task r .success ok).returns x = s.returns x := by
        rw [w3, e3]; exact if_neg (Ne.symm hx)
      refine valInv_build h (w2.trans e1) ok4 (fun _ => hone) (by rw [w1, e2]; exact h.msgs)
        (fun _ _ he' => absurd he' he) (.inl hret) (by rw [w6, e5]; exact hst) fun hn => ?_
      rw [hret]
      refine write_tells (fun hk => hx hk.1) ?_
      rw [e4]
      exact h.told (between_back (w2.trans e1) hn fun _ hx' => absurd hx' hx)
  | send a ret =>
    obtain ⟨he, hg⟩ := ok1
    have hnt : (S.runs r).exec ≠ .thread := by rw [he]; exact fun hc => nomatch hc
    unfold perform
    dsimp only
    have key : ∀ s' : Returned.St, s'.todo = Queue.setAt s.todo r l → s'.started = s.started → s'.returns = s.returns → s'.log = s.log →
        (∀ m ∈ s'.queue, m ∈ s.queue ∨ (getsThrough S a ret = true ∧ m = ⟨r, s.nameAt r, a, ret⟩)) → ValInv S x s' := by
      intro s' ht hsta hret hlog hq
      refine valInv_build h ht ok4 (fun _ => hone) (fun m hm => ?_) (fun _ _ he' => absurd he' hnt) (.inl (by rw [hret]))
        (by rw [hsta]; exact hst) fun hn => ?_
      · rcases hq m hm with hm | ⟨hthrough, rfl⟩
        · exact h.msgs m hm
        · refine ⟨he, fun ha => ?_⟩
          dsimp only at ha ⊢
          subst ha
          rcases hret : ret with _ | v
          · rw [hret] at hthrough; exact nomatch hthrough
          · exact ⟨v, rfl, hg rfl v hret⟩
      · rw [hlog, hret]
        exact h.told (between_back ht hn fun _ _ he' => absurd he' hnt)
    split
    · rename_i hthrough
      refine key _ rfl rfl rfl rfl fun m hm => ?_
      rcases List.mem_append.mp hm with hm | hm
      · exact .inl hm
      · exact .inr ⟨hthrough, List.mem_singleton.mp hm⟩
    · exact key _ rfl rfl rfl rfl fun m hm => .inl hm

theorem handle_none {S : Returned.Setup} {s : Returned.St} {m : Returned.Msg} {q : List Returned.Msg} (ok : Bool)
    (hq : s.queue = m :: q) (hn : taskNamed s m.name = none) : Returned.step S s (.handle ok) = { s with queue := q } := by
  unfold Returned.step
  dsimp only
  rw [hq]
  dsimp only
  have : taskNamed { s with queue := q } m.name = none := hn
  rw [this]

theorem handle_some {S : Returned.Setup} {s : Returned.St} {m : Returned.Msg} {q : List Returned.Msg} (ok : Bool) {y : Nat}
    (hq : s.queue = m :: q) (hn : taskNamed s m.name = some y) :
    Returned.step S s (.handle ok) = write (if m.action = .success then
        (match m.ret with | some v => handleReturn { s with queue := q } y m.run v | none => { s with queue := q })
      else { s with queue := q }) y m.run m.action ok := by
  unfold Returned.step
  dsimp only
  rw [hq]
  dsimp only
  have : taskNamed { s with queue := q } m.name = some y := hn
  rw [this]
  rfl

theorem lock_none {S : Returned.Setup} {s : Returned.St} {m : Returned.Msg} {q : List Returned.Msg} (ok : Bool)
    (hq : s.queue = m :: q) (hn : taskNamed s m.name = none) : Returned.step S s (.lock ok) = { s with queue := q } := by
  unfold Returned.step
  dsimp only
  rw [hq]
  dsimp only
  have : taskNamed { s with queue := q } m.name = none := hn
  rw [this]

theorem lock_some {S : Returned.Setup} {s : Returned.St} {m : Returned.Msg} {q : List Returned.Msg} (ok : Bool) {y : Nat}
    (hq : s.queue = m :: q) (hn : taskNamed s m.name = some y) :
    Returned.step S s (.lock ok) = write { s with queue := q } y m.run m.action ok := by
  unfold Returned.step
  dsimp only
  rw [hq]
  dsimp only
  have : taskNamed { s with queue := q } m.name = some y := hn
  rw [this]

theorem start_cases (S : Returned.Setup) (s : Returned.St) (r : Nat) :
    Returned.step S s (.start r) = s ∨ s.started r = false ∧ ∃ n, Returned.step S s (.start r) =
      { s with started := Queue.setAt s.started r true, nameAt := Queue.setAt s.nameAt r n,
               todo := Queue.setAt s.todo r (todoOf (S.runs r)) } := by
  unfold Returned.step
  dsimp only
  split
  · exact .inl rfl
  · rename_i h
    split
    · exact .inl rfl
    · exact .inr ⟨by simpa using h, _, rfl⟩

theorem kill_cases (S : Returned.Setup) (s : Returned.St) (r : Nat) (ok : Bool) :
    Returned.step S s (.kill r ok) = s ∨ ((S.runs r).exec ≠ .thread ∧ Returned.step S s (.kill r ok) =
      write { s with todo := Queue.setAt s.todo r [] } (S.runs r).task r .terminate ok) := by
  unfold Returned.step
  dsimp only
  split
  · exact .inl rfl
  · rename_i h
    exact .inr ⟨fun hc => h (.inr (.inr hc)), rfl⟩

theorem valInv_queue {S : Returned.Setup} {x : Nat} {s : Returned.St} {m : Returned.Msg} {q : List Returned.Msg}
    (hq : s.queue = m :: q) (h : ValInv S x s) : ValInv S x { s with queue := q } :=
  valInv_same h (fun k hk => by rw [hq]; exact List.mem_cons_of_mem _ hk) rfl rfl rfl h.told

theorem valInv_step {S : Returned.Setup} {x : Nat} (hS : ∀ r, (S.runs r).task = x → ¬ RunRestarts (S.runs r).course)
    {s : Returned.St} (h : ValInv S x s) (a : Returned.Step) (ho : OrderlyStep S x s a) : ValInv S x (Returned.step S s a) := by
  cases a with
  | act r ok => exact valInv_act hS h r ok ho
  | start r =>
    rcases start_cases S s r with hc | ⟨hs, n, hc⟩
    · rw [hc]; exact h
    rw [hc]
    refine valInv_build (l := todoOf (S.runs r)) h rfl (todo_ok _) (fun _ hx he => ho hx he) h.msgs
      (fun l' _ _ hl => absurd hl (todo_head _ _)) (.inl rfl) (fun r' hs' => ?_) fun hn => ?_
    · dsimp only at hs'
      by_cases hrr : r' = r
      · have : Queue.setAt s.started r true r' = true := if_pos hrr
        rw [this] at hs'; exact nomatch hs'
      · have : Queue.setAt s.started r true r' = s.started r' := if_neg hrr
        exact ⟨this ▸ hs', fun hc => absurd hc hrr⟩
    · have hback := between_back (r := r) (l := todoOf (S.runs r)) (s := s) rfl hn fun l' _ _ hl => by
        rw [h.fresh r hs] at hl; exact nomatch hl
      exact h.told hback
  | kill r ok =>
    rcases kill_cases S s r ok with hc | ⟨he, hc⟩
    · rw [hc]; exact h
    rw [hc]
    refine valInv_write (valInv_build (l := []) h rfl True.intro (fun hn => absurd rfl hn) h.msgs (fun _ _ he' => absurd he' he)
      (.inl rfl) (fun _ hs => ⟨hs, fun _ => rfl⟩) fun hn => ?_) fun hk => nomatch hk.2
    exact h.told (between_back (s' := { s with todo := Queue.setAt s.todo r [] }) rfl hn fun _ _ he' => absurd he' he)
  | handle ok =>
    rcases hq : s.queue with _ | ⟨m, q⟩
    · have : Returned.step S s (.handle ok) = s := by unfold Returned.step; dsimp only; rw [hq]
      rw [this]; exact h
    have hm := h.msgs m (by rw [hq]; exact List.mem_cons_self)
    have h1 := valInv_queue hq h
    rcases hn : taskNamed s m.name with _ | y
    · rw [handle_none ok hq hn]; exact h1
    rw [handle_some ok hq hn]
    by_cases ha : m.action = .success
    · rw [if_pos ha]
      obtain ⟨v, hv, hg⟩ := hm.2 ha
      rw [hv]
      dsimp only
      by_cases hy : y = x
      · subst hy
        obtain ⟨hok, hno⟩ := ho m q hq ha hn
        have hnot : (S.runs m.run).exec ≠ .thread := by rw [hm.1]; exact fun hc => nomatch hc
        have hall : ∀ r, (S.runs r).task = y → (S.runs r).exec = .thread → s.todo r = [] := fun r hx he =>
          hno r (fun hc => hnot (hc ▸ he)) hx he
        obtain ⟨w1, w2, w3, _, _, w6⟩ := write_rest (handleReturn ({ s with queue := q } : Returned.St) y m.run v) y m.run m.action ok
        refine ⟨by rw [w1]; exact h1.msgs, by rw [w2]; exact h1.acts, by rw [w2]; exact h1.one, ?_, fun _ => ?_, by rw [w2, w6]; exact h1.fresh⟩
        · rw [w2]
          intro r l hx he hl
          have : s.todo r = .log .success :: l := hl
          rw [hall r hx he] at this; exact nomatch this
        · rw [write_log, w3, hok, ha]
          have : (handleReturn ({ s with queue := q } : Returned.St) y m.run v).returns y = some v := if_pos rfl
          rw [this]
          exact tells_new hg
      · exact valInv_write (valInv_store h1 (Ne.symm hy)) fun hk => hy hk.1
    · rw [if_neg ha]
      exact valInv_write h1 fun hk => ha hk.2
  | lock ok =>
    rcases hq : s.queue with _ | ⟨m, q⟩
    · have : Returned.step S s (.lock ok) = s := by unfold Returned.step; dsimp only; rw [hq]
      rw [this]; exact h
    have h1 := valInv_queue hq h
    rcases hn : taskNamed s m.name with _ | y
    · rw [lock_none ok hq hn]; exact h1
    rw [lock_some ok hq hn]
    exact valInv_write h1 fun hk => ho m q hq hk.2 (hk.1 ▸ hn)
  | rename y n =>
    unfold Returned.step
    dsimp only
    split
    · exact h
    · exact valInv_same h (fun _ hm => hm) rfl rfl rfl h.told
  | remove y => exact valInv_same h (fun _ hm => hm) rfl rfl rfl h.told
  | add y n =>
    unfold Returned.step
    dsimp only
    split
    · exact h
    · exact valInv_same h (fun _ hm => hm) rfl rfl rfl h.told

theorem valInv_init (S : Returned.Setup) (x : Nat) (tasks : List (Nat × String)) : ValInv S x (Returned.St.init tasks) where
  msgs := fun _ hm => nomatch hm
  acts := fun _ => True.intro
  one := fun _ _ _ _ _ _ ht => absurd rfl ht
  between := fun _ _ _ _ hl => nomatch hl
  told := fun _ => rfl
  fresh := fun _ _ => rfl

theorem valInv_exec {S : Returned.Setup} {x : Nat} (hS : ∀ r, (S.runs r).task = x → ¬ RunRestarts (S.runs r).course) :
    ∀ (l : List Returned.Step) (s : Returned.St), ValInv S x s → OrderlyValues S x s l → ValInv S x (Returned.exec S s l)
  | [], _, h, _ => h
  | a :: l, _, h, ho => valInv_exec hS l _ (valInv_step hS h a ho.1) ho.2

/-- **C113** (partial).  In every state of every execution `session.returns` has for a task the value returned by the run
of its latest success in the log, and none if it has not succeeded, unless a thread of it is about to log its success.
Conditions (each is needed, see below): no run of the task ends by asking for a restart; threads of the task do not
overlap with its other successful runs; the logger works for its successes; none of them is read by `_lock_to_run_log`. -/
theorem C113_latest_partial (S : Returned.Setup) (x : Nat) (tasks : List (Nat × String)) (l : List Returned.Step)
    (hS : ∀ r, (S.runs r).task = x → ¬ RunRestarts (S.runs r).course) (ho : OrderlyValues S x (Returned.St.init tasks) l)
    (hb : ¬ StoredNotLogged S (Returned.exec S (Returned.St.init tasks) l) x) :
    LogTellsValue S x (Returned.exec S (Returned.St.init tasks) l).log ((Returned.exec S (Returned.St.init tasks) l).returns x) :=
  (valInv_exec hS l _ (valInv_init S x tasks) ho).told hb

/-- **C113** (partial).  What `Return(name)` gives in such a state: ValueError if there is no such task; the default, or
KeyError without one, if the task has not succeeded; otherwise what the run of its latest success returned (unless this
is an argument object). -/
theorem C113_read_partial (S : Returned.Setup) (x : Nat) (tasks : List (Nat × String)) (l : List Returned.Step)
    (hS : ∀ r, (S.runs r).task = x → ¬ RunRestarts (S.runs r).course) (ho : OrderlyValues S x (Returned.St.init tasks) l)
    (s : Returned.St) (hs : Returned.exec S (Returned.St.init tasks) l = s) (hb : ¬ StoredNotLogged S s x)
    (n : String) (default : Option String) :
    ((∀ p ∈ s.tasks, p.2 ≠ n) → readReturn S s n default = .error .value) ∧
    (taskNamed s n = some x → latestSuccess x s.log = none → ∀ d, default = some d → readReturn S s n default = .ok d) ∧
    (taskNamed s n = some x → latestSuccess x s.log = none → default = none → readReturn S s n default = .error .key) ∧
    (taskNamed s n = some x → ∀ r, latestSuccess x s.log = some r → ∃ v, Gave (S.runs r).course v ∧
      (S.arg v = none → readReturn S s n default = .ok v)) := by
  have h := C113_latest_partial S x tasks l hS ho (by rw [hs]; exact hb)
  rw [hs] at h
  unfold LogTellsValue at h
  refine ⟨fun hno => ?_, fun hn hl d hd => ?_, fun hn hl hd => ?_, fun hn r hl => ?_⟩
  · have : taskNamed s n = none := by
      unfold taskNamed
      rw [List.find?_eq_none.mpr fun p hp => by simpa using hno p hp]
      rfl
    unfold readReturn
    rw [this]
  · rw [hl] at h
    unfold readReturn held
    rw [hn]
    dsimp only
    rw [h, hd]
  · rw [hl] at h
    unfold readReturn held
    rw [hn]
    dsimp only
    rw [h, hd]
  · rw [hl] at h
    obtain ⟨v, hg, hv⟩ := h
    refine ⟨v, hg, fun ha => ?_⟩
    unfold readReturn held
    rw [hn]
    dsimp only
    rw [hv]
    dsimp only
    rw [ha]

/-! ## Any executions: the values are never older than the successes -/

theorem giver_snoc (x : Nat) (l : List (Nat × Nat)) (k : Nat × Nat) :
    lastGiver x (l ++ [k]) = if k.1 = x then some k.2 else lastGiver x l := by
  induction l with
  | nil => by_cases h : k.1 = x <;> simp [lastGiver, h]
  | cons a l ih =>
    rw [List.cons_append, lastGiver, ih]
    by_cases h : k.1 = x
    · simp [h]
    · simp [h, lastGiver]

/-- What holds in all states. -/
structure GivInv (S : Returned.Setup) (x : Nat) (s : Returned.St) : Prop where
  msgs : ∀ m ∈ s.queue, m.action = .success → ∃ v, m.ret = some v ∧ Gave (S.runs m.run).course v
  acts : ∀ r, ActsOk (S.runs r) (s.todo r)
  between : ∀ r l, (S.runs r).task = x → (S.runs r).exec = .thread → s.todo r = .log .success :: l → (x, r) ∈ s.stored
  entered : ∀ k ∈ s.log, k.task = x → k.action = .success → (x, k.run) ∈ s.stored
  value : match lastGiver x s.stored with
    | none => s.returns x = none
    | some r => ∃ v, Gave (S.runs r).course v ∧ s.returns x = some v

theorem givInv_write {S : Returned.Setup} {x y r : Nat} {s : Returned.St} {a : Action} {ok : Bool} (h : GivInv S x s)
    (hk : y = x → a = .success → (x, r) ∈ s.stored) : GivInv S x (write s y r a ok) := by
  obtain ⟨w1, w2, w3, w4, _, _⟩ := write_rest s y r a ok
  refine ⟨by rw [w1]; exact h.msgs, by rw [w2]; exact h.acts, by rw [w2, w4]; exact h.between, ?_, by rw [w4, w3]; exact h.value⟩
  rw [write_log, w4]
  intro k hkm hkx hka
  rcases List.mem_append.mp hkm with hm | hm
  · exact h.entered k hm hkx hka
  · cases ok
    · simp at hm
    · have hm' : k = ⟨y, r, a⟩ := by simpa using hm
      subst hm'
      exact hk hkx hka

theorem givInv_return {S : Returned.Setup} {x y r : Nat} {v : String} {s : Returned.St} (h : GivInv S x s)
    (hg : Gave (S.runs r).course v) : GivInv S x (handleReturn s y r v) := by
  refine ⟨h.msgs, h.acts, fun r' l hx he hl => List.mem_append_left _ (h.between r' l hx he hl),
    fun k hk hx ha => List.mem_append_left _ (h.entered k hk hx ha), ?_⟩
  have hs : (handleReturn s y r v).stored = s.stored ++ [(y, r)] := rfl
  rw [hs, giver_snoc]
  by_cases hy : y = x
  · rw [if_pos hy]
    exact ⟨v, hg, if_pos hy.symm⟩
  · rw [if_neg hy]
    have : (handleReturn s y r v).returns x = s.returns x := if_neg (Ne.symm hy)
    rw [this]
    exact h.value

/-- Acts are done or given up. -/
theorem givInv_todo {S : Returned.Setup} {x r : Nat} {s : Returned.St} {l : List Act} (h : GivInv S x s)
    (hl : ActsOk (S.runs r) l)
    (hb : ∀ l', (S.runs r).task = x → (S.runs r).exec = .thread → l = .log .success :: l' → (x, r) ∈ s.stored) :
    GivInv S x { s with todo := Queue.setAt s.todo r l } := by
  refine ⟨h.msgs, fun r' => ?_, fun r' l' hx he hl' => ?_, h.entered, h.value⟩
  · by_cases hc : r' = r
    · have : Queue.setAt s.todo r l r' = l := if_pos hc
      dsimp only; rw [this, hc]; exact hl
    · have : Queue.setAt s.todo r l r' = s.todo r' := if_neg hc
      dsimp only; rw [this]; exact h.acts r'
  · dsimp only at hl' ⊢
    by_cases hc : r' = r
    · have : Queue.setAt s.todo r l r' = l := if_pos hc
      rw [this] at hl'
      subst hc
      exact hb l' hx he hl'
    · have : Queue.setAt s.todo r l r' = s.todo r' := if_neg hc
      rw [this] at hl'
      exact h.between r' l' hx he hl'

theorem givInv_queue {S : Returned.Setup} {x : Nat} {s : Returned.St} {m : Returned.Msg} {q : List Returned.Msg}
    (hq : s.queue = m :: q) (h : GivInv S x s) : GivInv S x { s with queue := q } :=
  ⟨fun k hk => h.msgs k (by rw [hq]; exact List.mem_cons_of_mem _ hk), h.acts, h.between, h.entered, h.value⟩

theorem givInv_act {S : Returned.Setup} {x : Nat} (hS : ∀ r, (S.runs r).task = x → ¬ RunRestarts (S.runs r).course)
    {s : Returned.St} (h : GivInv S x s) (r : Nat) (ok : Bool) : GivInv S x (Returned.step S s (.act r ok)) := by
  rcases hr : s.todo r with _ | ⟨a, l⟩
  · have : Returned.step S s (.act r ok) = s := by unfold Returned.step; dsimp only; rw [hr]
    rw [this]; exact h
  have hstep : Returned.step S s (.act r ok) = perform S { s with todo := Queue.setAt s.todo r l } r ok a := by
    unfold Returned.step; dsimp only; rw [hr]
  rw [hstep]
  obtain ⟨ok1, ok2, ok3, ok4⟩ := (hr ▸ h.acts r : ActsOk (S.runs r) (a :: l))
  cases a with
  | log a =>
    have h1 : GivInv S x { s with todo := Queue.setAt s.todo r l } := givInv_todo h ok4 fun l' hx he hl' => by
      obtain ⟨v, hv⟩ := ok2 l' hl' (hS r hx)
      exact nomatch hv
    have h2 : GivInv S x (write { s with todo := Queue.setAt s.todo r l } (S.runs r).task r a ok) :=
      givInv_write h1 fun hx ha => h.between r l hx (ok1 ha (hS r hx)) (by rw [hr, ha])
    unfold perform
    dsimp only
    split
    · exact givInv_todo h2 True.intro fun _ _ _ hl' => nomatch hl'
    · exact h2
  | store v =>
    obtain ⟨hg, he⟩ := ok1
    unfold perform
    dsimp only
    have h1 : GivInv S x (handleReturn s (S.runs r).task r v) := givInv_return h hg
    exact givInv_todo (l := l) h1 ok4 fun l' hx _ _ => List.mem_append_right _ (by rw [hx]; exact List.mem_singleton.mpr rfl)
  | both v =>
    obtain ⟨hg, he⟩ := ok1
    unfold perform
    dsimp only
    have h1 : GivInv S x (handleReturn s (S.runs r).task r v) := givInv_return h hg
    have h2 : GivInv S x { handleReturn s (S.runs r).task r v with todo := Queue.setAt s.todo r l } :=
      givInv_todo (l := l) h1 ok4 fun _ _ he' => absurd he' he
    exact givInv_write h2 fun hx _ => List.mem_append_right _ (by rw [hx]; exact List.mem_singleton.mpr rfl)
  | send a ret =>
    obtain ⟨he, hg⟩ := ok1
    have h1 : GivInv S x { s with todo := Queue.setAt s.todo r l } := givInv_todo h ok4 fun l' _ he' _ => by
      rw [he] at he'; exact nomatch he'
    unfold perform
    dsimp only
    split
    · rename_i hthrough
      refine ⟨fun m hm => ?_, h1.acts, h1.between, h1.entered, h1.value⟩
      rcases List.mem_append.mp hm with hm | hm
      · exact h1.msgs m hm
      · have hm' := List.mem_singleton.mp hm
        subst hm'
        intro ha
        dsimp only at ha ⊢
        subst ha
        rcases hret : ret with _ | v
        · rw [hret] at hthrough; exact nomatch hthrough
        · exact ⟨v, rfl, hg rfl v hret⟩
    · exact h1

theorem givInv_step {S : Returned.Setup} {x : Nat} (hS : ∀ r, (S.runs r).task = x → ¬ RunRestarts (S.runs r).course)
    {s : Returned.St} (h : GivInv S x s) (a : Returned.Step) (ho : NotByLock x s a) : GivInv S x (Returned.step S s a) := by
  cases a with
  | act r ok => exact givInv_act hS h r ok
  | start r =>
    rcases start_cases S s r with hc | ⟨_, n, hc⟩
    · rw [hc]; exact h
    rw [hc]
    have h1 : GivInv S x { s with todo := Queue.setAt s.todo r (todoOf (S.runs r)) } :=
      givInv_todo h (todo_ok _) fun l' _ _ hl => absurd hl (todo_head _ _)
    exact ⟨h1.msgs, h1.acts, h1.between, h1.entered, h1.value⟩
  | kill r ok =>
    rcases kill_cases S s r ok with hc | ⟨he, hc⟩
    · rw [hc]; exact h
    rw [hc]
    exact givInv_write (givInv_todo (l := []) h True.intro fun _ _ _ hl' => nomatch hl') fun _ ha => nomatch ha
  | handle ok =>
    rcases hq : s.queue with _ | ⟨m, q⟩
    · have : Returned.step S s (.handle ok) = s := by unfold Returned.step; dsimp only; rw [hq]
      rw [this]; exact h
    have hm := h.msgs m (by rw [hq]; exact List.mem_cons_self)
    have h1 := givInv_queue hq h
    rcases hn : taskNamed s m.name with _ | y
    · rw [handle_none ok hq hn]; exact h1
    rw [handle_some ok hq hn]
    by_cases ha : m.action = .success
    · rw [if_pos ha]
      obtain ⟨v, hv, hg⟩ := hm ha
      rw [hv]
      dsimp only
      exact givInv_write (givInv_return h1 hg) fun hx _ =>
        List.mem_append_right _ (by rw [hx]; exact List.mem_singleton.mpr rfl)
    · rw [if_neg ha]
      exact givInv_write h1 fun _ ha' => absurd ha' ha
  | lock ok =>
    rcases hq : s.queue with _ | ⟨m, q⟩
    · have : Returned.step S s (.lock ok) = s := by unfold Returned.step; dsimp only; rw [hq]
      rw [this]; exact h
    have h1 := givInv_queue hq h
    rcases hn : taskNamed s m.name with _ | y
    · rw [lock_none ok hq hn]; exact h1
    rw [lock_some ok hq hn]
    exact givInv_write h1 fun hy ha => absurd (hy ▸ hn) (ho m q hq ha)
  | rename y n =>
    unfold Returned.step
    dsimp only
    split
    · exact h
    · exact ⟨h.msgs, h.acts, h.between, h.entered, h.value⟩
  | remove y => exact ⟨h.msgs, h.acts, h.between, h.entered, h.value⟩
  | add y n =>
    unfold Returned.step
    dsimp only
    split
    · exact h
    · exact ⟨h.msgs, h.acts, h.between, h.entered, h.value⟩

theorem givInv_exec {S : Returned.Setup} {x : Nat} (hS : ∀ r, (S.runs r).task = x → ¬ RunRestarts (S.runs r).course) :
    ∀ (l : List Returned.Step) (s : Returned.St), GivInv S x s → NeverByLock S x s l → GivInv S x (Returned.exec S s l)
  | [], _, h, _ => h
  | a :: l, _, h, ho => givInv_exec hS l _ (givInv_step hS h a ho.1) ho.2

theorem givInv_init (S : Returned.Setup) (x : Nat) (tasks : List (Nat × String)) : GivInv S x (Returned.St.init tasks) where
  msgs := fun _ hm => nomatch hm
  acts := fun _ => True.intro
  between := fun _ _ _ _ hl => nomatch hl
  entered := fun _ hk => nomatch hk
  value := rfl

theorem giver_append (x : Nat) (a b : List (Nat × Nat)) (h : ∃ k ∈ b, k.1 = x) :
    lastGiver x (a ++ b) = lastGiver x b ∧ ∃ r, lastGiver x b = some r := by
  induction a with
  | nil =>
    refine ⟨rfl, ?_⟩
    obtain ⟨k, hk, hx⟩ := h
    induction b with
    | nil => exact nomatch hk
    | cons c b ih =>
      rw [lastGiver]
      rcases hb : lastGiver x b with _ | r
      · dsimp only
        rcases List.mem_cons.mp hk with hk | hk
        · exact ⟨c.2, by rw [if_pos (hk ▸ hx)]⟩
        · obtain ⟨r, hr⟩ := ih hk
          rw [hb] at hr; exact nomatch hr
      · exact ⟨r, rfl⟩
  | cons c a ih =>
    obtain ⟨r, hr⟩ := ih.2
    refine ⟨?_, r, hr⟩
    rw [List.cons_append, lastGiver, ih.1, hr]

/-- **C113** (partial).  However many runs of a task go on at once, in threads, processes or the event loop, with loggers
that fail or not: for every success of it in the log, the value kept for the task is one that was handed over by the run
that succeeded or by one after it.  Conditions: no run of the task asks for a restart, no record of its successes is
read by `_lock_to_run_log`. -/
theorem C113_fresh_partial (S : Returned.Setup) (x : Nat) (tasks : List (Nat × String)) (l : List Returned.Step)
    (hS : ∀ r, (S.runs r).task = x → ¬ RunRestarts (S.runs r).course) (ho : NeverByLock S x (Returned.St.init tasks) l)
    (s : Returned.St) (hs : Returned.exec S (Returned.St.init tasks) l = s) (r : Nat) (hr : ⟨x, r, .success⟩ ∈ s.log) :
    ∃ before after r' v, s.stored = before ++ (x, r) :: after ∧ lastGiver x ((x, r) :: after) = some r' ∧
      Gave (S.runs r').course v ∧ s.returns x = some v := by
  have h := givInv_exec hS l _ (givInv_init S x tasks) ho
  rw [hs] at h
  obtain ⟨a, b, hab⟩ := List.append_of_mem (h.entered _ hr rfl rfl)
  obtain ⟨h1, r', h2⟩ := giver_append x a ((x, r) :: b) ⟨(x, r), List.mem_cons_self, rfl⟩
  have hv := h.value
  rw [hab, h1, h2] at hv
  obtain ⟨v, hg, hv⟩ := hv
  exact ⟨a, b, r', v, hab, h2, hg, hv⟩

/-! ## From one success to the next -/

/-- What was added to the log and to the calls of `_handle_return`: a success of the task comes with a value. -/
def Grows (x : Nat) (s s' : Returned.St) : Prop :=
  ∃ gs es, s'.stored = s.stored ++ gs ∧ s'.log = s.log ++ es ∧
    ((∃ k ∈ es, k.task = x ∧ k.action = .success) → ∃ g ∈ gs, g.1 = x)

theorem grows_same {x : Nat} {s s' : Returned.St} (h1 : s'.stored = s.stored) (h2 : s'.log = s.log) : Grows x s s' :=
  ⟨[], [], by simpa using h1, by simpa using h2, fun ⟨_, hk, _⟩ => nomatch hk⟩

theorem grows_write {x y r : Nat} {s0 s : Returned.St} {a : Action} {ok : Bool} (h1 : s.stored = s0.stored) (h2 : s.log = s0.log)
    (hk : y = x → a ≠ .success) : Grows x s0 (write s y r a ok) := by
  refine ⟨[], if ok then [⟨y, r, a⟩] else [], ?_, ?_, ?_⟩
  · rw [(write_rest s y r a ok).2.2.2.1, h1, List.append_nil]
  · rw [write_log, h2]
  · rintro ⟨k, hkm, hx, ha⟩
    cases ok
    · simp at hkm
    · have : k = ⟨y, r, a⟩ := by simpa using hkm
      subst this
      exact absurd ha (hk hx)

theorem grows_both {x y r : Nat} {v : String} {s0 s : Returned.St} {a : Action} {ok : Bool} (h1 : s.stored = s0.stored)
    (h2 : s.log = s0.log) : Grows x s0 (write (handleReturn s y r v) y r a ok) := by
  refine ⟨[(y, r)], if ok then [⟨y, r, a⟩] else [], ?_, ?_, ?_⟩
  · rw [(write_rest _ y r a ok).2.2.2.1, ← h1]; rfl
  · rw [write_log, ← h2]; rfl
  · rintro ⟨k, hkm, hx, _⟩
    cases ok
    · simp at hkm
    · have : k = ⟨y, r, a⟩ := by simpa using hkm
      subst this
      exact ⟨_, List.mem_singleton.mpr rfl, hx⟩

theorem grows_trans {x : Nat} {s1 s2 s3 : Returned.St} (h : Grows x s1 s2) (h' : Grows x s2 s3) : Grows x s1 s3 := by
  obtain ⟨gs, es, h1, h2, h3⟩ := h
  obtain ⟨gs', es', h1', h2', h3'⟩ := h'
  refine ⟨gs ++ gs', es ++ es', by rw [h1', h1, List.append_assoc], by rw [h2', h2, List.append_assoc], ?_⟩
  rintro ⟨k, hk, hx⟩
  rcases List.mem_append.mp hk with hk | hk
  · obtain ⟨g, hg, he⟩ := h3 ⟨k, hk, hx⟩
    exact ⟨g, List.mem_append_left _ hg, he⟩
  · obtain ⟨g, hg, he⟩ := h3' ⟨k, hk, hx⟩
    exact ⟨g, List.mem_append_right _ hg, he⟩

theorem grows_step {S : Returned.Setup} {x : Nat} (hS : ∀ r, (S.runs r).task = x → ¬ RunRestarts (S.runs r).course)
    (hT : ∀ r, (S.runs r).task = x → (S.runs r).exec ≠ .thread)
    {s : Returned.St} (h : GivInv S x s) (a : Returned.Step) (ho : NotByLock x s a) : Grows x s (Returned.step S s a) := by
  cases a with
  | act r ok =>
    rcases hr : s.todo r with _ | ⟨a, l⟩
    · have : Returned.step S s (.act r ok) = s := by unfold Returned.step; dsimp only; rw [hr]
      rw [this]; exact grows_same rfl rfl
    have hstep : Returned.step S s (.act r ok) = perform S { s with todo := Queue.setAt s.todo r l } r ok a := by
      unfold Returned.step; dsimp only; rw [hr]
    rw [hstep]
    obtain ⟨ok1, _, _, _⟩ := (hr ▸ h.acts r : ActsOk (S.runs r) (a :: l))
    unfold perform
    cases a with
    | log a =>
      dsimp only
      have h1 : Grows x s (write { s with todo := Queue.setAt s.todo r l } (S.runs r).task r a ok) :=
        grows_write rfl rfl fun hx ha => hT r hx (ok1 ha (hS r hx))
      split
      · obtain ⟨gs, es, e1, e2, e3⟩ := h1
        exact ⟨gs, es, e1, e2, e3⟩
      · exact h1
    | store v => exact ⟨[((S.runs r).task, r)], [], rfl, (List.append_nil _).symm, fun ⟨_, hk, _⟩ => nomatch hk⟩
    | both v => exact grows_both rfl rfl
    | send a ret =>
      dsimp only
      split <;> exact grows_same rfl rfl
  | start r =>
    rcases start_cases S s r with hc | ⟨_, n, hc⟩ <;> rw [hc] <;> exact grows_same rfl rfl
  | kill r ok =>
    rcases kill_cases S s r ok with hc | ⟨he, hc⟩
    · rw [hc]; exact grows_same rfl rfl
    · rw [hc]; exact grows_write rfl rfl fun _ ha => nomatch ha
  | handle ok =>
    rcases hq : s.queue with _ | ⟨m, q⟩
    · have : Returned.step S s (.handle ok) = s := by unfold Returned.step; dsimp only; rw [hq]
      rw [this]; exact grows_same rfl rfl
    rcases hn : taskNamed s m.name with _ | y
    · rw [handle_none ok hq hn]; exact grows_same rfl rfl
    rw [handle_some ok hq hn]
    by_cases ha : m.action = .success
    · rw [if_pos ha]
      obtain ⟨v, hv, _⟩ := h.msgs m (by rw [hq]; exact List.mem_cons_self) ha
      rw [hv]
      exact grows_both rfl rfl
    · rw [if_neg ha]
      exact grows_write rfl rfl fun _ => ha
  | lock ok =>
    rcases hq : s.queue with _ | ⟨m, q⟩
    · have : Returned.step S s (.lock ok) = s := by unfold Returned.step; dsimp only; rw [hq]
      rw [this]; exact grows_same rfl rfl
    rcases hn : taskNamed s m.name with _ | y
    · rw [lock_none ok hq hn]; exact grows_same rfl rfl
    rw [lock_some ok hq hn]
    exact grows_write rfl rfl fun hy ha => ho m q hq ha (hy ▸ hn)
  | rename y n =>
    unfold Returned.step
    dsimp only
    split <;> exact grows_same rfl rfl
  | remove y => exact grows_same rfl rfl
  | add y n =>
    unfold Returned.step
    dsimp only
    split <;> exact grows_same rfl rfl

theorem grows_exec {S : Returned.Setup} {x : Nat} (hS : ∀ r, (S.runs r).task = x → ¬ RunRestarts (S.runs r).course)
    (hT : ∀ r, (S.runs r).task = x → (S.runs r).exec ≠ .thread) : ∀ (l : List Returned.Step) (s : Returned.St),
    GivInv S x s → NeverByLock S x s l → Grows x s (Returned.exec S s l)
  | [], _, _, _ => grows_same rfl rfl
  | a :: l, _, h, ho => grows_trans (grows_step hS hT h a ho.1) (grows_exec hS hT l _ (givInv_step hS h a ho.1) ho.2)

theorem neverByLock_append {S : Returned.Setup} {x : Nat} : ∀ (a b : List Returned.Step) (s : Returned.St),
    NeverByLock S x s (a ++ b) → NeverByLock S x s a ∧ NeverByLock S x (Returned.exec S s a) b
  | [], _, _, h => ⟨True.intro, h⟩
  | _ :: a, b, _, h => let ⟨h1, h2⟩ := neverByLock_append a b _ h.2; ⟨⟨h.1, h1⟩, h2⟩

/-- **C113** (partial).  If a task that is not run in threads has succeeded again since some moment (so that tasks
waiting for it are started once more), the value kept for it was handed over since that moment: a task that is started
for a new success does not get the value of before.  Conditions as above. -/
theorem C113_new_partial (S : Returned.Setup) (x : Nat) (tasks : List (Nat × String)) (l l' : List Returned.Step)
    (hS : ∀ r, (S.runs r).task = x → ¬ RunRestarts (S.runs r).course) (hT : ∀ r, (S.runs r).task = x → (S.runs r).exec ≠ .thread)
    (ho : NeverByLock S x (Returned.St.init tasks) (l ++ l'))
    (s s' : Returned.St) (hs : Returned.exec S (Returned.St.init tasks) l = s) (hs' : Returned.exec S s l' = s')
    (hn : successesOf x s.log < successesOf x s'.log) :
    ∃ since r v, s'.stored = s.stored ++ since ∧ lastGiver x since = some r ∧ Gave (S.runs r).course v ∧ s'.returns x = some v := by
  obtain ⟨o1, o2⟩ := neverByLock_append l l' _ ho
  have h := givInv_exec hS l _ (givInv_init S x tasks) o1
  rw [hs] at h o2
  have h' := givInv_exec hS l' s h o2
  obtain ⟨gs, es, e1, e2, e3⟩ := grows_exec hS hT l' s h o2
  rw [hs'] at h' e1 e2
  have hex : ∃ k ∈ es, k.task = x ∧ k.action = .success := by
    rw [e2] at hn
    unfold successesOf at hn
    rw [List.filter_append, List.length_append] at hn
    have hpos : 0 < (es.filter (fun k => decide (k.task = x) && decide (k.action = .success))).length := by omega
    obtain ⟨k, hk⟩ := List.exists_mem_of_length_pos hpos
    obtain ⟨hk1, hk2⟩ := List.mem_filter.mp hk
    exact ⟨k, hk1, by simpa using hk2⟩
  obtain ⟨g1, r, g2⟩ := giver_append x s.stored gs (e3 hex)
  have hv := h'.value
  rw [e1, g1, g2] at hv
  obtain ⟨v, hg, hv⟩ := hv
  exact ⟨gs, r, v, e1, g2, hg, hv⟩

/-! ## Examples and violations -/

/-- A run that returns a value. -/
def giving (x : Nat) (e : Exec) (v : String) : Info := ⟨x, e, true, true, .returns v, false, false⟩

/-- Runs 0, 1, 2 of task 0; the values "lambda" cannot be pickled, "private" is `Private('secret')`. -/
def returnSetup (a b c : Info) : Returned.Setup where
  runs := fun r => if r = 0 then a else if r = 1 then b else c
  pickles := fun v => decide (v ≠ "lambda")
  arg := fun v => if v = "private" then some (.ok "*****") else none

/-- A session with the tasks "load" and "use". -/
def returnTasks : List (Nat × String) := [(0, "load"), (1, "use")]

/-- What `Return('load')` gives after some steps. -/
def readLoad (a b c : Info) (l : List Returned.Step) : Except PyErr String :=
  readReturn (returnSetup a b c) (Returned.exec (returnSetup a b c) (Returned.St.init returnTasks) l) "load" none

/-- The successes in the log after some steps. -/
def successRuns (a b c : Info) (l : List Returned.Step) : List Nat :=
  ((Returned.exec (returnSetup a b c) (Returned.St.init returnTasks) l).log.filter
    (fun k => decide (k.action = .success))).map (·.run)

/-- A run that asks for a restart of the scheduler. -/
def restarting (x : Nat) (e : Exec) : Info := ⟨x, e, true, true, .restart, false, false⟩

/-- The steps of two runs, one after the other, in threads. -/
def twoThreads : List Returned.Step :=
  [.start 0, .act 0 true, .act 0 true, .act 0 true, .start 1, .act 1 true, .act 1 true, .act 1 true]

/-- The steps of two runs in the event loop. -/
def twoInLoop : List Returned.Step := [.start 0, .act 0 true, .act 0 true, .start 1, .act 1 true, .act 1 true]

/-- A thread runs twice, one run after the other; then `Return('load')` is what the second returned. -/
example : readLoad (giving 0 .thread "one") (giving 0 .thread "two") (giving 1 .main "") twoThreads = .ok "two" ∧
    successRuns (giving 0 .thread "one") (giving 0 .thread "two") (giving 1 .main "") twoThreads = [0, 1] := by decide

example : OrderlyValues (returnSetup (giving 0 .thread "one") (giving 0 .thread "two") (giving 1 .main "")) 0
    (Returned.St.init returnTasks) twoThreads := by
  refine ⟨fun _ _ r _ _ _ => rfl, fun _ => ⟨(fun _ _ h => nomatch h), fun _ _ => rfl⟩, fun _ => ⟨(fun _ _ h => nomatch h), fun _ _ => rfl⟩,
    fun _ => ⟨(fun _ _ h => nomatch h), fun _ _ => rfl⟩, fun _ _ r h1 h2 h3 => ?_, fun _ => ⟨(fun _ _ h => nomatch h), fun _ _ => rfl⟩,
    fun _ => ⟨(fun _ _ h => nomatch h), fun _ _ => rfl⟩, fun _ => ⟨(fun _ _ h => nomatch h), fun _ _ => rfl⟩, True.intro⟩
  by_cases h0 : r = 0
  · subst h0; rfl
  · exfalso
    simp [returnSetup, giving, h0, h1] at h2

example (r : Nat) : ¬ RunRestarts ((returnSetup (giving 0 .thread "one") (giving 0 .thread "two") (giving 1 .main "")).runs r).course := by
  rintro ⟨_, _, h⟩
  revert h
  unfold returnSetup giving
  dsimp only
  split
  · exact fun h => nomatch h
  · split <;> exact fun h => nomatch h

/-- No run is between its value and its record at the end. -/
example : ¬ StoredNotLogged (returnSetup (giving 0 .main "one") (giving 0 .async "two") (giving 1 .main ""))
    (Returned.exec (returnSetup (giving 0 .main "one") (giving 0 .async "two") (giving 1 .main "")) (Returned.St.init returnTasks)
      twoInLoop) 0 := by
  rintro ⟨r, l, h1, h2, h3⟩
  by_cases h0 : r = 0
  · subst h0; exact nomatch h2
  · by_cases h1' : r = 1
    · subst h1'; exact nomatch h2
    · simp [returnSetup, giving, h0, h1'] at h1

/-- In the event loop the second success brings the second value. -/
example : NeverByLock (returnSetup (giving 0 .main "one") (giving 0 .async "two") (giving 1 .main "")) 0
    (Returned.St.init returnTasks) twoInLoop ∧
    readLoad (giving 0 .main "one") (giving 0 .async "two") (giving 1 .main "") (twoInLoop.take 3) = .ok "one" ∧
    readLoad (giving 0 .main "one") (giving 0 .async "two") (giving 1 .main "") twoInLoop = .ok "two" :=
  ⟨⟨True.intro, True.intro, True.intro, True.intro, True.intro, True.intro, True.intro⟩, by decide, by decide⟩

/-- Before any success there is no value; a task that does not exist is a ValueError. -/
example : readLoad (giving 0 .main "one") (giving 0 .async "two") (giving 1 .main "") [.start 0, .act 0 true] = .error .key ∧
    readReturn (returnSetup (giving 0 .main "one") (giving 0 .main "two") (giving 1 .main ""))
      (Returned.St.init returnTasks) "lode" none = .error .value := by decide

/-- **C113** (violated).  The record of a success that is read while another process is started is written to the log,
but its value is dropped: after two successes `Return` gives the value of the first. -/
theorem C113_lock_violated :
    let steps : List Returned.Step := [.start 0, .act 0 true, .handle true, .act 0 true, .handle true,
      .start 1, .act 1 true, .lock true, .act 1 true, .lock true]
    successRuns (giving 0 .process "one") (giving 0 .process "two") (giving 1 .main "") steps = [0, 1] ∧
      readLoad (giving 0 .process "one") (giving 0 .process "two") (giving 1 .main "") steps = .ok "one" := by decide

/-- **C113** (violated).  A run that asks for a restart counts as a success, but hands over no value: the one of before
stays, or there is none. -/
theorem C113_restart_violated :
    (successRuns (giving 0 .main "one") (restarting 0 .main) (giving 1 .main "") twoInLoop = [0, 1] ∧
      readLoad (giving 0 .main "one") (restarting 0 .main) (giving 1 .main "") twoInLoop = .ok "one") ∧
    (successRuns (restarting 0 .main) (giving 0 .main "two") (giving 1 .main "") (twoInLoop.take 3) = [0] ∧
      readLoad (restarting 0 .main) (giving 0 .main "two") (giving 1 .main "") (twoInLoop.take 3) = .error .key) := by decide

/-- **C113** (violated).  A process whose value cannot be pickled (here run 1), or that asks for a restart, has no
success in the log: the record is lost on its way.  The run in the first case has no record of its end at all, and
`Return` gives the value of before. -/
theorem C113_pickle_violated :
    let steps : List Returned.Step := [.start 0, .act 0 true, .handle true, .act 0 true, .handle true,
      .start 1, .act 1 true, .handle true, .act 1 true, .handle true, .act 1 true, .handle true]
    (let s := Returned.exec (returnSetup (giving 0 .process "one") (giving 0 .process "lambda") (giving 1 .main ""))
        (Returned.St.init returnTasks) steps;
      s.todo 1 = [] ∧ s.queue = [] ∧ s.log = [⟨0, 0, .run⟩, ⟨0, 0, .success⟩, ⟨0, 1, .run⟩]) ∧
    readLoad (giving 0 .process "one") (giving 0 .process "lambda") (giving 1 .main "") steps = .ok "one" ∧
    (let s := Returned.exec (returnSetup (giving 0 .process "one") (restarting 0 .process) (giving 1 .main ""))
        (Returned.St.init returnTasks) steps;
      s.todo 1 = [] ∧ s.queue = [] ∧ s.log = [⟨0, 0, .run⟩, ⟨0, 0, .success⟩, ⟨0, 1, .run⟩, ⟨0, 1, .fail⟩]) := by decide

/-- **C113** (violated).  With threads that overlap the value may be of another run than the latest success. -/
theorem C113_overlap_violated :
    let steps : List Returned.Step := [.start 0, .act 0 true, .start 1, .act 1 true, .act 0 true, .act 1 true, .act 1 true, .act 0 true]
    successRuns (giving 0 .thread "one") (giving 0 .thread "two") (giving 1 .main "") steps = [1, 0] ∧
      readLoad (giving 0 .thread "one") (giving 0 .thread "two") (giving 1 .main "") steps = .ok "two" := by decide

/-- **C113** (violated).  The value of a thread is there before its success is in the log: a task that is started for the
first success and a second time for the second one may get the same value twice, and the first value never. -/
theorem C113_twice_violated :
    readLoad (giving 0 .thread "one") (giving 0 .thread "two") (giving 1 .main "") (twoThreads.take 7) = .ok "two" ∧
      successRuns (giving 0 .thread "one") (giving 0 .thread "two") (giving 1 .main "") (twoThreads.take 7) = [0] ∧
      readLoad (giving 0 .thread "one") (giving 0 .thread "two") (giving 1 .main "") twoThreads = .ok "two" ∧
      successRuns (giving 0 .thread "one") (giving 0 .thread "two") (giving 1 .main "") twoThreads = [0, 1] := by decide

/-- **C113** (violated).  If the record of a success cannot be written, the task has failed, but its value is kept. -/
theorem C113_unlogged_violated :
    let steps : List Returned.Step := [.start 0, .act 0 true, .act 0 false]
    successRuns (giving 0 .main "one") (giving 0 .main "two") (giving 1 .main "") steps = [] ∧
      readLoad (giving 0 .main "one") (giving 0 .main "two") (giving 1 .main "") steps = .ok "one" := by decide

/-- **C113** (violated).  Values of processes go to the task that has the name when the record is read: "use" gets the
name "load" meanwhile and has, without any run of its own, the success and the value of the other. -/
theorem C113_renamed_violated :
    let S := returnSetup (giving 0 .process "one") (giving 0 .process "two") (giving 1 .main "")
    let s := Returned.exec S (Returned.St.init returnTasks)
      [.start 0, .act 0 true, .handle true, .act 0 true, .rename 0 "old", .rename 1 "load", .handle true]
    taskNamed s "load" = some 1 ∧ readReturn S s "load" none = .ok "one" ∧ readReturn S s "old" none = .error .key ∧
      s.log = [⟨0, 0, .run⟩, ⟨1, 0, .success⟩] := by decide

/-- **C113** (violated).  If a task returns an argument object, others do not get it but its value as read without a task
and session: for a secret the five stars. -/
theorem C113_argument_violated :
    readLoad (giving 0 .main "private") (giving 0 .main "two") (giving 1 .main "") (twoInLoop.take 3) = .ok "*****" := by decide

end Rocketry.Props
