import Verif.Sched.Trace
import Verif.Sched.Emits
import Verif.Base.Lists
import Verif.Spec.HoldSpec
import Verif.Props.PhaseProps

/-!
# C116: a scheduler on hold starts nothing new
-/

namespace Rocketry.Props
open Rocketry.Sched Rocketry.Spec

/-- What is followed in the record: whether the scheduler is on hold, the task it is busy with and has not started, and
whether it was not on hold at some time since it turned to this task. -/
structure HoldSt where
  held : Bool
  cur : Option String
  free : Bool

def HoldSt.step (h : HoldSt) : Obs → Option HoldSt
  | .env (.hold b) => some { h with held := b, free := h.free || !b }
  | .serve => some ⟨false, none, true⟩
  | .inspected n => some ⟨h.held, some n, !h.held⟩
  | .cycle => some { h with cur := none }
  | .cycleDone => some { h with cur := none }
  | .shutdown => some { h with cur := none }
  | .started n _ .cycle => if h.cur = some n ∧ h.free = true then some { h with cur := none } else none
  | _ => some h

def holds (h : HoldSt) (l : List Obs) : Option HoldSt := l.foldlM HoldSt.step h

theorem holds_append (h : HoldSt) (a b : List Obs) : holds h (a ++ b) = (holds h a).bind (fun h' => holds h' b) :=
  List.foldlM_append ..

theorem holds_snoc (h : HoldSt) (l : List Obs) (o : Obs) : holds h (l ++ [o]) = (holds h l).bind (fun h' => h'.step o) := by
  rw [holds_append]
  cases holds h l with
  | none => rfl
  | some h' =>
    show holds h' [o] = h'.step o
    unfold holds
    rw [List.foldlM_cons]
    cases h'.step o <;> rfl

theorem holds_cons (h : HoldSt) (o : Obs) (l : List Obs) : holds h (o :: l) = (h.step o).bind (fun h' => holds h' l) :=
  List.foldlM_cons ..

/-- The invariant: the record was in order, and what it tells agrees with the flag. -/
def Minds (h0 : HoldSt) (X : HoldSt → Prop) (w : World) : Prop :=
  ∃ h, holds h0 w.trace = some h ∧ w.st.enabled = !h.held ∧ (h.held = false → h.free = true) ∧ X h

/-- Nothing more is known. -/
def Whatever (_ : HoldSt) : Prop := True

/-- The task may be started. -/
def MayGoAhead (n : String) (h : HoldSt) : Prop := h.cur = some n ∧ h.free = true

/-- The scheduler is busy with the task. -/
def AtTask (n : String) (h : HoldSt) : Prop := h.cur = some n

theorem enabled_event (s : Sys) (e : EnvEv) (he : ∀ b, e ≠ .hold b) : (s.event e).enabled = s.enabled := by
  cases e <;> simp only [Sys.event, Sys.upd] <;> first
    | rfl
    | (split <;> rfl)
    | exact absurd rfl (he _)

theorem minds_snoc {h0 : HoldSt} {X Y : HoldSt → Prop} {w w' : World} (hw : Minds h0 X w) (o : Obs)
    (ht : w'.trace = w.trace ++ [o])
    (hs : ∀ h, w.st.enabled = !h.held → (h.held = false → h.free = true) → X h →
      ∃ h', h.step o = some h' ∧ w'.st.enabled = !h'.held ∧ (h'.held = false → h'.free = true) ∧ Y h') : Minds h0 Y w' := by
  obtain ⟨h, hh, he, hf, hx⟩ := hw
  obtain ⟨h', hst, he', hf', hy⟩ := hs h he hf hx
  exact ⟨h', by rw [ht, holds_snoc, hh]; exact hst, he', hf', hy⟩

/-- `X` survives holds and releases. -/
def LastsHold (X : HoldSt → Prop) : Prop := ∀ h b, X h → X { h with held := b, free := h.free || !b }

theorem minds_event {h0 : HoldSt} {X : HoldSt → Prop} (hX : LastsHold X) {w : World} (hw : Minds h0 X w) (e : EnvEv) :
    Minds h0 X (w.happen e) := by
  refine minds_snoc hw (.env e) rfl (fun h he hf hx => ?_)
  by_cases hb : ∃ b, e = .hold b
  · obtain ⟨b, rfl⟩ := hb
    refine ⟨_, rfl, rfl, fun h' => ?_, hX h b hx⟩
    simp only at h'
    subst h'
    simp
  · refine ⟨h, ?_, ?_, hf, hx⟩
    · cases e <;> first | rfl | exact absurd ⟨_, rfl⟩ hb
    · show (w.st.event e).enabled = _
      rw [enabled_event _ _ (fun b hbe => hb ⟨b, hbe⟩)]; exact he

theorem minds_same {h0 : HoldSt} {X Y : HoldSt → Prop} (hxy : ∀ h, X h → Y h) {w w' : World} (hw : Minds h0 X w) (o : Obs)
    (ht : w'.trace = w.trace ++ [o]) (he : w'.st.enabled = w.st.enabled)
    (hs : ∀ h : HoldSt, h.step o = some h) : Minds h0 Y w' :=
  minds_snoc hw o ht (fun h hh hf hx => ⟨h, hs h, by rw [he]; exact hh, hf, hxy h hx⟩)

theorem minds_move {h0 : HoldSt} {X : HoldSt → Prop} {w w' : World} (hw : Minds h0 X w) (ht : w'.trace = w.trace)
    (he : w'.st.enabled = w.st.enabled) : Minds h0 X w' := by
  obtain ⟨h, hh, hen, hf, hx⟩ := hw
  exact ⟨h, by rw [ht]; exact hh, by rw [he]; exact hen, hf, hx⟩

theorem minds_mono {h0 : HoldSt} {X Y : HoldSt → Prop} (hxy : ∀ h, X h → Y h) {w : World} (hw : Minds h0 X w) : Minds h0 Y w := by
  obtain ⟨h, hh, hen, hf, hx⟩ := hw
  exact ⟨h, hh, hen, hf, hxy h hx⟩

/-! ## While the scheduler is busy with a task -/

/-- The scheduler turns to a task. -/
def isTurn : Obs → Bool
  | .inspected _ => true
  | _ => false

/-- How often the scheduler turned to a task. -/
def turns (l : List Obs) : Nat := l.countP isTurn

theorem turns_snoc (l : List Obs) (o : Obs) : turns (l ++ [o]) = turns l + (if isTurn o = true then 1 else 0) := by
  unfold turns
  rw [List.countP_append, List.countP_singleton]

/-- The invariant holds until the scheduler turns to the next task. -/
def Upto (k : Nat) (h0 : HoldSt) (X : HoldSt → Prop) (w : World) : Prop :=
  k ≤ turns w.trace ∧ (turns w.trace = k → Minds h0 X w)

theorem upto_snoc {k : Nat} {h0 : HoldSt} {X Y : HoldSt → Prop} {w w' : World} (hw : Upto k h0 X w) (o : Obs)
    (ht : w'.trace = w.trace ++ [o]) (h : isTurn o = false → Minds h0 X w → Minds h0 Y w') : Upto k h0 Y w' := by
  have hs := turns_snoc w.trace o
  refine ⟨?_, fun he => ?_⟩
  · rw [ht, hs]; exact Nat.le_add_right_of_le hw.1
  · rw [ht, hs] at he
    cases ho : isTurn o with
    | true => rw [ho] at he; simp only [if_true] at he; have := hw.1; omega
    | false => rw [ho] at he; exact h ho (hw.2 (by simpa using he))

theorem plain_holds {o : Obs} (ho : o.plain = true) (hc : o ≠ .cycleDone) (ht : isTurn o = false) (h : HoldSt) :
    h.step o = some h := by
  cases o <;> first
    | rfl
    | exact absurd rfl hc
    | (exfalso; simp [isTurn] at ht; done)
    | (exfalso; simp [Obs.plain] at ho; done)

theorem base_upto {k : Nat} {h0 : HoldSt} {X : HoldSt → Prop} (hX : LastsHold X) : Base (Upto k h0 X) where
  pos := fun _ _ h => h
  env := fun _ _ e h _ => upto_snoc h (.env e) rfl (fun _ hm => minds_event hX hm e)
  note := fun _ o ho hc h => upto_snoc h o rfl (fun ht hm => minds_same (fun _ hx => hx) hm o rfl rfl (plain_holds ho hc ht))
  move := fun _ _ ht _ h => ⟨h.1, fun he => minds_move (h.2 he) rfl (tidy_flags ht).2.2.2⟩

theorem lasting_whatever : LastsHold Whatever := fun _ _ _ => trivial
theorem lasting_may (n : String) : LastsHold (MayGoAhead n) := fun h b hx => ⟨hx.1, by simp [hx.2]⟩
theorem lasting_at (n : String) : LastsHold (AtTask n) := fun _ _ hx => hx

/-- Not turning to a task. -/
def NoTurn (o : Obs) : Prop := isTurn o = false

theorem noTurn_env (e : EnvEv) : NoTurn (.env e) := rfl

theorem upto_done {α : Type} {h0 : HoldSt} {X Y : HoldSt → Prop} {m : M α} (he : Emits NoTurn m)
    (hk : ∀ k w, Upto k h0 X w → Upto k h0 Y (m w).2) (w : World) (hw : Minds h0 X w) : Minds h0 Y (m w).2 := by
  obtain ⟨o, ho, hp⟩ := he w
  refine (hk (turns w.trace) w ⟨Nat.le_refl _, fun _ => hw⟩).2 ?_
  rw [ho]
  unfold turns
  have h0 : o.countP isTurn = 0 := List.countP_eq_zero.2 (fun x hx => by have := hp x hx; unfold NoTurn at this; simp [this])
  rw [List.countP_append, h0, Nat.add_zero]

theorem noTurn_launch (name : String) (part : Part) : Emits NoTurn (launch name part) := by
  unfold launch
  refine emits_bind (emits_isTaskRunnable noTurn_env name (fun _ _ => rfl)) (fun b => emits_ite ?_ (emits_pure _))
  unfold runTask
  refine emits_tryCatch ?_ (fun e => emits_bind emits_get (fun s => ?_))
  · unfold startAsync
    refine emits_bind (emits_choose noTurn_env) (fun c => emits_bind emits_get (fun s => ?_))
    split
    · exact emits_raise _
    · rename_i t _
      have hfail : Emits NoTurn (do emit (.failedSetup name); raise .setup : M Unit) :=
        emits_bind (emits_emit rfl) (fun _ => emits_raise _)
      refine emits_ite hfail (emits_bind ?_ (fun _ => emits_ite hfail (emits_bind ?_ (fun id => emits_runOn noTurn_env _ _ _ _ rfl))))
      · unfold popBatch
        split
        · exact emits_pure _
        · exact emits_bind (emits_change _ _) (fun _ => emits_emit rfl)
      · unfold pushRun
        exact emits_bind emits_get (fun s => emits_bind (emits_put _) (fun _ => emits_bind (emits_emit rfl) (fun _ => emits_pure _)))
  · cases e <;> simp only <;> first
      | exact emits_ite (emits_pure _) (emits_raise _)
      | exact emits_raise _

/-- A start in a cycle. -/
theorem launch_minds (h0 : HoldSt) (n : String) (w : World) (hw : Minds h0 (MayGoAhead n) w) :
    Minds h0 Whatever (launch n .cycle w).2 := by
  refine upto_done (noTurn_launch n .cycle) (fun k w hw => ?_) w hw
  refine launch_rule' (base_upto (lasting_may n)) (base_upto lasting_whatever) n .cycle
    (fun w h => ⟨h.1, fun he => minds_mono (fun _ _ => trivial) (h.2 he)⟩)
    (fun w b h => upto_snoc h (.popped n b) rfl (fun _ hm => minds_same (fun _ hx => hx) hm _ rfl rfl (fun _ => rfl)))
    (fun w kd tm h => upto_snoc h (.started n w.st.nextId .cycle) rfl (fun _ hm =>
      minds_snoc hm _ rfl (fun h he hf hx => ⟨_, if_pos hx, he, hf, trivial⟩)))
    (fun w b h => ⟨h.1, fun he => minds_move (h.2 he) rfl rfl⟩) w hw

theorem consider_minds (h0 : HoldSt) (n : String) (w : World) (hw : Minds h0 (AtTask n) w) :
    Minds h0 Whatever (consider n w).2 := by
  have hm := minds_mono (Y := Whatever) (fun _ _ => trivial) hw
  unfold consider
  rw [get_bind_apply]
  rcases hf : w.st.find n with _ | t
  · exact hm
  simp only
  by_cases ho : (t.onStartup || t.onShutdown) = true
  · rw [if_pos ho]; exact hm
  rw [if_neg ho]
  by_cases he : w.st.enabled = true
  · rw [if_pos he]
    obtain ⟨h, hh, hen, hfr, hx⟩ := hw
    refine launch_minds h0 n w ⟨h, hh, hen, hfr, hx, hfr ?_⟩
    rw [he] at hen
    cases hd : h.held with
    | true => rw [hd] at hen; simp at hen
    | false => rfl
  · rw [if_neg he]; exact hm

/-! ## The rest of an execution -/

theorem calm_minds (h0 : HoldSt) : Calm (Minds h0 Whatever) where
  pos := fun _ _ h => h
  env := fun _ _ e h _ => minds_event lasting_whatever h e
  request := fun _ _ _ h => minds_event lasting_whatever h _
  note := fun w o ho h => by
    by_cases hc : o = .cycleDone
    · subst hc
      exact minds_snoc h _ rfl (fun h he hf _ => ⟨_, rfl, he, hf, trivial⟩)
    · cases ht : isTurn o with
      | false => exact minds_same (fun _ hx => hx) h o rfl rfl (plain_holds ho hc ht)
      | true =>
        cases o <;> first
          | exact minds_snoc h _ rfl (fun h he hf _ => ⟨_, rfl, he, fun hh => by simpa using hh, trivial⟩)
          | simp [isTurn] at ht
  move := fun _ _ ht h => minds_move h rfl (tidy_flags ht).2.2.2

theorem launch_special (h0 : HoldSt) (n : String) (part : Part) (hp : part ≠ .cycle) : Keeps (Minds h0 Whatever) (launch n part) := by
  intro w hw
  refine launch_rule' (calm_minds h0).toStill.base (calm_minds h0).toStill.base n part (fun _ h => h)
    (fun w b h => minds_same (fun _ hx => hx) h (.popped n b) rfl rfl (fun _ => rfl))
    (fun w kd tm h => minds_same (fun _ hx => hx) h (.started n w.st.nextId part) rfl rfl (fun _ => ?_))
    (fun w b h => minds_move h rfl rfl) w hw
  cases part <;> first | rfl | exact absurd rfl hp

theorem inspect_minds (h0 : HoldSt) (n : String) : Keeps (Minds h0 Whatever) (inspectTask n) := by
  intro w hw
  have h1 : Minds h0 (AtTask n) { w with trace := w.trace ++ [.inspected n] } :=
    minds_snoc hw _ rfl (fun h he hf _ => ⟨_, rfl, he, fun hh => by simpa using hh, rfl⟩)
  have h2 := upto_done (Y := AtTask n) (emits_handleLogs noTurn_env) (fun k w hw => keeps_handleLogs (base_upto (lasting_at n)) w hw) _ h1
  unfold inspectTask
  rw [bind_apply]
  show Minds h0 Whatever ((do handleLogs; cleanRunStack n; consider n; checkTermination n : M Unit) { w with trace := w.trace ++ [.inspected n] }).2
  rw [bind_apply]
  rcases hr : handleLogs { w with trace := w.trace ++ [.inspected n] } with ⟨r, w1⟩
  rw [hr] at h2
  cases r with
  | raise e => exact minds_mono (fun _ _ => trivial) h2
  | cut => exact minds_mono (fun _ _ => trivial) h2
  | ok a =>
    simp only
    rw [bind_apply]
    show Minds h0 Whatever ((do consider n; checkTermination n : M Unit) (cleanRunStack n w1).2).2
    have h3 : Minds h0 (AtTask n) (cleanRunStack n w1).2 := minds_move h2 rfl rfl
    have h4 := consider_minds h0 n _ h3
    rw [bind_apply]
    rcases hr' : consider n (cleanRunStack n w1).2 with ⟨r', w2⟩
    rw [hr'] at h4
    cases r' with
    | raise e => exact h4
    | cut => exact h4
    | ok a => exact keeps_checkTermination (calm_minds h0).toStill.base n w2 h4

theorem cycle_minds (h0 : HoldSt) : Keeps (Minds h0 Whatever) runCycle := by
  have hc := calm_minds h0
  unfold runCycle
  refine keeps_bind keeps_get (fun s => keeps_bind (fun w h => minds_snoc h .cycle rfl (fun h he hf _ => ⟨_, rfl, he, hf, trivial⟩)) (fun _ => ?_))
  refine keeps_bind (keeps_forEach (fun n _ => inspect_minds h0 n)) (fun _ => ?_)
  refine keeps_bind (keeps_handleLogs hc.toStill.base) (fun _ => keeps_bind (keeps_checkThreadErrors hc.toStill.base) (fun _ => ?_))
  exact keeps_bind (keeps_setCycles hc.toStill _) (fun _ => keeps_note hc.toStill rfl)

theorem loop_minds (h0 : HoldSt) : ∀ n, Keeps (Minds h0 Whatever) (serveLoop n)
  | 0 => keeps_cut
  | n + 1 => by
    have hc := calm_minds h0
    unfold serveLoop
    refine keeps_bind (keeps_checkShutCond hc.toStill.base) (fun b => keeps_ite (fun _ => keeps_pure _) (fun _ => ?_))
    refine keeps_bind (keeps_hibernate hc.toStill.base) (fun _ => keeps_bind keeps_get (fun s => ?_))
    refine keeps_ite (fun _ => keeps_pure _) (fun _ => keeps_ite (fun _ => keeps_raise _) (fun _ => ?_))
    exact keeps_bind (cycle_minds h0) (fun _ => loop_minds h0 n)

theorem serve_minds (h0 : HoldSt) : ∀ n, Keeps (Minds h0 Whatever) (serve n)
  | 0 => keeps_cut
  | n + 1 => by
    have hc := calm_minds h0
    have hd := fun e => keeps_shutDown' hc.mid (fun n => launch_special h0 n .shutdown (by simp))
      (fun w h => minds_snoc h .shutdown rfl (fun h he hf _ => ⟨_, rfl, he, hf, trivial⟩)) (serve_minds h0 n) n e
    intro w hw
    have h1 : Minds h0 Whatever ({ w with
        st := { w.st with shutdown := false, restart := false, enabled := true }, hist := w.st :: w.hist,
        trace := w.trace ++ [.serve] } : World) :=
      minds_snoc hw .serve rfl (fun h _ _ _ => ⟨_, rfl, rfl, fun _ => rfl, trivial⟩)
    have h2 : Keeps (Minds h0 Whatever) (do
        let e ← attempt (do startup; serveLoop n)
        match e with
        | none => shutDown (serve n) n none
        | some .systemExit => shutDown (serve n) n (some .systemExit)
        | some .exit => shutDown (serve n) n (some .exit)
        | some .restart => shutDown (serve n) n (some .restart)
        | some .interrupt => shutDown (serve n) n (some .interrupt)
        | some e => do
          shutDown (serve n) n (some e)
          raise e) := by
      refine keeps_bind (keeps_attempt (keeps_bind (keeps_startup hc (fun n => launch_special h0 n .startup (by simp)))
        (fun _ => loop_minds h0 n))) (fun e => ?_)
      split <;> first
        | exact hd _
        | exact keeps_bind (hd _) (fun _ => keeps_raise _)
    exact h2 _ h1

theorem sessions_minds (h0 : HoldSt) (ks : List Nat) : Keeps (Minds h0 Whatever) (sessions ks) :=
  keeps_forEach (fun k _ => keeps_bind (keeps_attempt (serve_minds h0 k)) (fun _ => keeps_pure _))

/-! ## What the record tells -/

theorem held_stays : ∀ (b : List Obs) (h h' : HoldSt), holds h b = some h' → h.held = true → SetsFree ∉ b → Obs.serve ∉ b →
    ∀ n, h'.cur = some n → h'.free = true →
    h.cur = some n ∧ h.free = true ∧ ∀ o ∈ b, ¬ TurnsAway o ∧ ¬ StartsInCycle o
  | [], h, h', hh, hd, _, _, n, hc, hf => by
    injection hh with hh
    subst hh
    exact ⟨hc, hf, fun o ho => by simp at ho⟩
  | o :: b, h, h', hh, hd, hr, hs, n, hc, hf => by
    rw [holds_cons] at hh
    rcases hst : h.step o with _ | h1
    · rw [hst] at hh; simp at hh
    rw [hst] at hh
    have hd1 : h1.held = true := by
      cases o with
      | env e =>
        cases e with
        | hold v =>
          cases v with
          | false => exact absurd (List.mem_cons_self ..) hr
          | true => injection hst with hst; subst hst; rfl
        | _ => injection hst with hst; subst hst; exact hd
      | serve => exact absurd (List.mem_cons_self ..) hs
      | started m id part =>
        cases part with
        | cycle =>
          simp only [HoldSt.step] at hst
          split at hst
          · injection hst with hst; subst hst; exact hd
          · simp at hst
        | _ => injection hst with hst; subst hst; exact hd
      | _ => injection hst with hst; subst hst; exact hd
    obtain ⟨hc1, hf1, ho1⟩ := held_stays b h1 h' hh hd1 (fun h => hr (List.mem_cons_of_mem _ h))
      (fun h => hs (List.mem_cons_of_mem _ h)) n hc hf
    have hsame : h1 = h → ¬ TurnsAway o ∧ ¬ StartsInCycle o →
        h.cur = some n ∧ h.free = true ∧ ∀ x ∈ o :: b, ¬ TurnsAway x ∧ ¬ StartsInCycle x := by
      intro he hno
      rw [he] at hc1 hf1
      refine ⟨hc1, hf1, fun x hx => ?_⟩
      rcases List.mem_cons.1 hx with hx | hx
      · subst hx; exact hno
      · exact ho1 x hx
    cases o with
    | env e =>
      cases e with
      | hold v =>
        cases v with
        | false => exact absurd (List.mem_cons_self ..) hr
        | true =>
          injection hst with hst
          have : h1 = h := by rw [← hst]; cases h; simp_all
          exact hsame this ⟨fun h => h, fun h => h⟩
      | _ => injection hst with hst; exact hsame hst.symm ⟨fun h => h, fun h => h⟩
    | serve => exact absurd (List.mem_cons_self ..) hs
    | inspected m => injection hst with hst; rw [← hst] at hf1; simp [hd] at hf1
    | cycle => injection hst with hst; rw [← hst] at hc1; simp at hc1
    | cycleDone => injection hst with hst; rw [← hst] at hc1; simp at hc1
    | shutdown => injection hst with hst; rw [← hst] at hc1; simp at hc1
    | started m id part =>
      cases part with
      | cycle =>
        simp only [HoldSt.step] at hst
        split at hst
        · injection hst with hst; rw [← hst] at hc1; simp at hc1
        · simp at hst
      | _ => injection hst with hst; exact hsame hst.symm ⟨fun h => h, fun h => h⟩
    | _ => injection hst with hst; exact hsame hst.symm ⟨fun h => h, fun h => h⟩

/-- While the scheduler is busy with a task and has not started it, the record shows when it turned to it. -/
theorem cur_busy (h0 : HoldSt) (h0c : h0.cur = none) : ∀ (a : List Obs) (h : HoldSt), holds h0 a = some h → ∀ n, h.cur = some n → BusyWith n a := by
  intro a
  induction a using snoc_ind with
  | nil =>
    intro h hh n hc
    injection hh with hh
    subst hh
    rw [h0c] at hc; simp at hc
  | snoc a o ih =>
    intro h' hh n hc
    rw [holds_snoc] at hh
    rcases ha : holds h0 a with _ | h
    · rw [ha] at hh; simp at hh
    rw [ha] at hh
    replace hh : h.step o = some h' := hh
    have hsame : h'.cur = h.cur → ¬ TurnsAway o ∧ ¬ StartsInCycle o → BusyWith n (a ++ [o]) := by
      intro he hno
      obtain ⟨a1, a2, rfl, h2⟩ := ih h ha n (he ▸ hc)
      refine ⟨a1, a2 ++ [o], by simp, fun x hx => ?_⟩
      rcases List.mem_append.1 hx with hx | hx
      · exact h2 x hx
      · rw [List.mem_singleton.1 hx]; exact hno
    cases o with
    | env e =>
      cases e with
      | hold v => injection hh with hh; exact hsame (by rw [← hh]) ⟨fun h => h, fun h => h⟩
      | _ => injection hh with hh; exact hsame (by rw [← hh]) ⟨fun h => h, fun h => h⟩
    | serve => injection hh with hh; rw [← hh] at hc; simp at hc
    | inspected m =>
      injection hh with hh
      rw [← hh] at hc
      injection hc with hc
      subst hc
      exact ⟨a, [], rfl, fun x hx => by simp at hx⟩
    | cycle => injection hh with hh; rw [← hh] at hc; simp at hc
    | cycleDone => injection hh with hh; rw [← hh] at hc; simp at hc
    | shutdown => injection hh with hh; rw [← hh] at hc; simp at hc
    | started m id part =>
      cases part with
      | cycle =>
        simp only [HoldSt.step] at hh
        split at hh
        · injection hh with hh; rw [← hh] at hc; simp at hc
        · simp at hh
      | _ => injection hh with hh; exact hsame (by rw [← hh]) ⟨fun h => h, fun h => h⟩
    | _ => injection hh with hh; exact hsame (by rw [← hh]) ⟨fun h => h, fun h => h⟩

theorem sessions_hold (ks : List Nat) (s : Sys) (env : Nat → Choice) :
    ∃ h, holds ⟨!s.enabled, none, s.enabled⟩ (sessions ks (World.init s env)).2.trace = some h := by
  obtain ⟨h, hh, _⟩ := sessions_minds ⟨!s.enabled, none, s.enabled⟩ ks (World.init s env)
    ⟨_, rfl, by simp [World.init], fun h => by simpa using h, trivial⟩
  exact ⟨h, hh⟩

/-- C116.  After the scheduler was put on hold, and before it is released or started anew, a task is started in a cycle only
if the scheduler was already busy with this very task when it was put on hold: it had turned to the task, had not
started it, and has not turned to anything else since.  In any execution of any number of calls of `serve`, with any
events at any time. -/
theorem C116_hold_partial (ks : List Nat) (s : Sys) (env : Nat → Choice) (a b c : List Obs) (n : String) (id : Nat)
    (ht : (sessions ks (World.init s env)).2.trace = a ++ .env (.hold true) :: b ++ .started n id .cycle :: c)
    (hr : SetsFree ∉ b) (hs : Obs.serve ∉ b) :
    BusyWith n a ∧ ∀ o ∈ b, ¬ TurnsAway o ∧ ¬ StartsInCycle o := by
  obtain ⟨h, hh⟩ := sessions_hold ks s env
  rw [ht, List.append_assoc, List.cons_append, holds_append] at hh
  rcases ha : holds ⟨!s.enabled, none, s.enabled⟩ a with _ | h1
  · rw [ha] at hh; simp at hh
  rw [ha] at hh
  simp only [Option.bind_some] at hh
  rw [holds_cons] at hh
  simp only [HoldSt.step, Option.bind_some, Bool.not_true, Bool.or_false] at hh
  rw [holds_append] at hh
  rcases hb : holds { h1 with held := true } b with _ | h2
  · rw [hb] at hh; simp at hh
  rw [hb] at hh
  simp only [Option.bind_some] at hh
  rw [holds_cons] at hh
  simp only [HoldSt.step] at hh
  split at hh
  · rename_i hcf
    obtain ⟨hc, _, ho⟩ := held_stays b _ h2 hb rfl hr hs n hcf.1 hcf.2
    exact ⟨cur_busy _ rfl a h1 ha n hc, ho⟩
  · simp at hh

theorem starts_once {b : List Obs} (h : ∀ b1 o b2, b = b1 ++ o :: b2 → StartsInCycle o → ∀ x ∈ b1, ¬ StartsInCycle x)
    (p : Obs → Bool) (hp : ∀ o, p o = true ↔ StartsInCycle o) : b.countP p ≤ 1 := by
  induction b using snoc_ind with
  | nil => simp
  | snoc b o ih =>
    rw [List.countP_append, List.countP_singleton]
    by_cases ho : p o = true
    · rw [if_pos ho]
      have : b.countP p = 0 := List.countP_eq_zero.2 (fun x hx hpx => h b o [] rfl ((hp o).1 ho) x hx ((hp x).1 hpx))
      omega
    · rw [if_neg ho]
      exact ih (fun b1 o' b2 hb => h b1 o' (b2 ++ [o]) (by rw [hb]; simp))

/-- C116.  After the scheduler was put on hold, and before it is released or started anew, at most one task is started in the
cycles, and none if the scheduler was not busy with a task it had not yet started. -/
theorem C116_once (ks : List Nat) (s : Sys) (env : Nat → Choice) (a b c : List Obs)
    (ht : (sessions ks (World.init s env)).2.trace = a ++ .env (.hold true) :: b ++ c)
    (hr : SetsFree ∉ b) (hs : Obs.serve ∉ b) (p : Obs → Bool) (hp : ∀ o, p o = true ↔ StartsInCycle o) :
    b.countP p ≤ 1 ∧ ((∀ n, ¬ BusyWith n a) → b.countP p = 0) := by
  have key : ∀ b1 o b2, b = b1 ++ o :: b2 → StartsInCycle o →
      (∃ n, BusyWith n a) ∧ ∀ x ∈ b1, ¬ TurnsAway x ∧ ¬ StartsInCycle x := by
    intro b1 o b2 hb ho
    obtain ⟨n, id, rfl⟩ : ∃ n id, o = .started n id .cycle := by
      cases o with
      | started n id part => cases part <;> first | exact ⟨n, id, rfl⟩ | exact ho.elim
      | _ => exact ho.elim
    have := C116_hold_partial ks s env a b1 (b2 ++ c) n id (by rw [ht, hb]; simp)
      (fun h => hr (by rw [hb]; exact List.mem_append_left _ h)) (fun h => hs (by rw [hb]; exact List.mem_append_left _ h))
    exact ⟨⟨n, this.1⟩, this.2⟩
  refine ⟨starts_once (fun b1 o b2 hb ho x hx => ((key b1 o b2 hb ho).2 x hx).2) p hp, fun hn => ?_⟩
  refine List.countP_eq_zero.2 (fun o ho hpo => ?_)
  obtain ⟨b1, b2, hb⟩ := List.append_of_mem ho
  obtain ⟨⟨n, hbn⟩, _⟩ := key b1 o b2 hb ((hp o).1 hpo)
  exact hn n hbn

/-! ## Cases -/

/-- A session with two tasks that run in threads or the loop, and one that is started at the shutdown. -/
def holdSys (on : Bool) : Sys :=
  ⟨⟨4, false, false, false, false, true, 1000, false⟩,
    [⟨"x", 1, .async, none, false, false, false, false, none, false, [], false, [], [], true⟩,
     ⟨"y", 0, .thread, none, false, false, false, false, none, false, [], false, [], [], true⟩,
     ⟨"z", 0, .async, none, false, false, true, false, none, true, [], false, [], [], true⟩],
    on, false, false, false, 0, 0⟩

/-- The choices: the events at some of them; the conditions hold at some of them. -/
def holdEnv (ev : List (Nat × EnvEv)) (yes : List Nat) (i : Nat) : Choice :=
  ⟨(ev.filter (fun e => e.1 == i)).map Prod.snd, some (yes.contains i), none, 0⟩

/-- The scheduler is put on hold while it checks the condition of `x`, which it then starts; `y`, which it turns to
next, is not started although its condition would hold. -/
example : BusyWith "x" [.serve, .cached "x", .cached "y", .cached "z", .cycle, .inspected "x"] :=
  (C116_hold_partial [3] (holdSys true) (holdEnv [(6, .hold true)] [6, 10])
    [.serve, .cached "x", .cached "y", .cached "z", .cycle, .inspected "x"] [.checked "x" false (some true)]
    [.inspected "y", .inspected "z", .cycleDone, .cycle, .inspected "x", .inspected "y", .inspected "z", .cycleDone] "x" 0
    (by decide +kernel) (by decide +kernel) (by decide +kernel)).1

/-- Between the cycles: nothing is started any more. -/
example : ∀ n, ¬ BusyWith n [.serve, .cached "x", .cached "y", .cached "z"] := by
  rintro n ⟨a1, a2, h, _⟩
  have : Obs.inspected n ∈ [Obs.serve, .cached "x", .cached "y", .cached "z"] := by rw [h]; simp
  simp at this

example : (sessions [3] (World.init (holdSys true) (holdEnv [(4, .hold true)] [6, 9]))).2.trace =
    [.serve, .cached "x", .cached "y", .cached "z"] ++ .env (.hold true) ::
      [.cycle, .inspected "x", .inspected "y", .inspected "z", .cycleDone, .cycle, .inspected "x", .inspected "y", .inspected "z", .cycleDone] ++ [] := by
  decide +kernel

/-- The case without the hold: both tasks are started. -/
example : Obs.started "x" 0 .cycle ∈ (sessions [3] (World.init (holdSys true) (holdEnv [] [6, 10]))).2.trace ∧
    Obs.started "y" 1 .cycle ∈ (sessions [3] (World.init (holdSys true) (holdEnv [] [6, 10]))).2.trace := by
  decide +kernel

/-- C116 is violated for a scheduler that is put on hold before it is run: `serve` releases it (schedule.py:114), although
nobody set `on_hold` to False. -/
theorem C116_before_violated : ∃ (s : Sys) (env : Nat → Choice), s.enabled = false ∧ (∀ i, (env i).events = []) ∧
    Obs.started "x" 0 .cycle ∈ (sessions [3] (World.init s env)).2.trace :=
  ⟨holdSys false, holdEnv [] [6], rfl, fun _ => rfl, by decide +kernel⟩

/-- The scheduler restarts by calling `serve` again. -/
def recallSys : Sys := { holdSys true with cfg := { (holdSys true).cfg with recall := true } }

/-- C116 is violated for tasks that are started at the shutdown: they are started although the scheduler is on hold
(schedule.py:344-354 does not look at the flag). -/
theorem C116_shutdown_violated : ∃ (s : Sys) (env : Nat → Choice),
    (sessions [3] (World.init s env)).2.trace[4]? = some (.env (.hold true)) ∧
    (sessions [3] (World.init s env)).2.trace[15]? = some (.started "z" 0 .shutdown) ∧
    SetsFree ∉ (sessions [3] (World.init s env)).2.trace :=
  ⟨recallSys, holdEnv [(4, .hold true), (5, .restart)] [], by decide +kernel, by decide +kernel, by decide +kernel⟩

/-- C116 is violated by a restart: the scheduler is released. -/
theorem C116_restart_violated : ∃ (s : Sys) (env : Nat → Choice),
    (sessions [4] (World.init s env)).2.trace[4]? = some (.env (.hold true)) ∧
    (sessions [4] (World.init s env)).2.trace[26]? = some (.started "y" 1 .cycle) ∧
    SetsFree ∉ (sessions [4] (World.init s env)).2.trace :=
  ⟨recallSys, holdEnv [(4, .hold true), (5, .restart)] [26, 27, 28, 29], by decide +kernel, by decide +kernel, by decide +kernel⟩

end Rocketry.Props
