import Verif.Spec.CreationSpec
import Verif.Props.HooksProps
import Mathlib.Data.List.Induction

/-!
# Property C78: the hooks of a session are run around the creation of its tasks
-/

namespace Rocketry.Props
open Rocketry.Hooks Rocketry.Session Rocketry.Creation Rocketry.Spec

theorem World.run_append (w : World) : ∀ (l m : List Act), (w.run (l ++ m)).1 = ((w.run l).1.run m).1 ∧
    (w.run (l ++ m)).2 = (w.run l).2 ++ ((w.run l).1.run m).2 := by
  intro l
  induction l generalizing w with
  | nil => intro m; exact ⟨rfl, rfl⟩
  | cons a l ih =>
    intro m
    obtain ⟨h1, h2⟩ := ih (w.act a).1 m
    simp only [List.cons_append, World.run]
    exact ⟨h1, by rw [h2, List.append_assoc]⟩

/-- What the program has done is what the state says. -/
theorem world_past (p : Nat → Policy) (past : List Act) :
    (∀ s, ((World.init p).run past).1.hooks s = hookedIn s past) ∧
    ((World.init p).run past).1.dflt = defaultOf past ∧
    (∀ s, ((World.init p).run past).1.naming s = namingIn s past) := by
  induction past using List.reverseRecOn with
  | nil => exact ⟨fun _ => rfl, rfl, fun _ => rfl⟩
  | append_singleton past a ih =>
    obtain ⟨h1, h2, h3⟩ := ih
    rw [(World.run_append _ past [a]).1]
    generalize ((World.init p).run past).1 = w at h1 h2 h3
    have hw : (w.run [a]).1 = (w.act a).1 := rfl
    rw [hw]
    simp only [hookedIn, defaultOf, namingIn, List.filterMap_append] at h1 h2 h3 ⊢
    cases a with
    | makeDefault s => exact ⟨fun t => by simpa [World.act] using h1 t, by simp [World.act], fun t => by simpa [World.act] using h3 t⟩
    | hook s h =>
      refine ⟨fun t => ?_, by simpa [World.act] using h2, fun t => by simpa [World.act] using h3 t⟩
      by_cases hs : s = t
      · subst hs; simp [World.act, put, h1]
      · have : t ≠ s := fun e => hs e.symm
        simp [World.act, put, h1, hs, this]
    | naming s b =>
      refine ⟨fun t => by simpa [World.act] using h1 t, by simpa [World.act] using h2, fun t => ?_⟩
      by_cases hs : s = t
      · subst hs; simp [World.act, put]
      · have : t ≠ s := fun e => hs e.symm
        simp [World.act, put, h3, hs, this]
    | tasks s op => exact ⟨fun t => by simpa [World.act] using h1 t, by simpa [World.act] using h2, fun t => by simpa [World.act] using h3 t⟩
    | create s n a i =>
      have hk : (w.initTask s n a i).1.hooks = w.hooks ∧ (w.initTask s n a i).1.dflt = w.dflt ∧
          (w.initTask s n a i).1.naming = w.naming := by
        unfold World.initTask
        rcases prerun (α := Unit) (w.hooks w.dflt) with ⟨e, k, _ | _⟩
        · simp only
          rcases (w.sess s).create (w.getName n a i) none with ⟨x, _ | _⟩ <;> exact ⟨rfl, rfl, rfl⟩
        · exact ⟨rfl, rfl, rfl⟩
      simp only [World.act, hk.1, hk.2.1, hk.2.2]
      exact ⟨fun t => by simpa using h1 t, by simpa using h2, fun t => by simpa using h3 t⟩

/-- A new name is taken as it is. -/
theorem create_new (x : Sess) (n : String) (hn : NewIn x n) : x.checkName n = some n ∧
    ∃ y, x.create n none = (y, false) ∧ (∃ o ∈ y.tasks, o.name = n) := by
  have hh : x.has n = false := by
    simp only [Sess.has, Sess.get, Option.isSome_eq_false_iff, Option.isNone_iff_eq_none, List.find?_eq_none]
    intro o ho; simpa using hn o ho
  have hc : x.checkName n = some n := by
    simp [Sess.checkName, Sess.parseName, Sess.validateName, hh]
  refine ⟨hc, ?_⟩
  have hb : (x.born n).has n = false := hh
  refine ⟨_, by simp only [Sess.create, hc, Sess.addTask, hb]; rfl, ⟨x.next, n⟩, ?_, rfl⟩
  exact List.mem_cons_self ..

/-- The events of a creation, whatever the hooks are: those of a run wrapped by the hooks of the default session. -/
theorem initTask_events (w : World) (s : Nat) (n : Option String) (a i : String) : ∃ ok,
    (w.initTask s n a i).2.events = wrapped (w.hooks w.dflt) ⟨ok, (), false⟩ ∧
    ((w.initTask s n a i).2.name.isSome = true → ok = true) := by
  unfold World.initTask
  rcases hp : prerun (α := Unit) (w.hooks w.dflt) with ⟨e, k, _ | _⟩
  · simp only
    rcases (w.sess s).create (w.getName n a i) none with ⟨x, _ | _⟩
    · exact ⟨true, by simp [wrapped, hp], fun _ => rfl⟩
    · exact ⟨false, by simp [wrapped, hp], fun h => by simp at h⟩
  · exact ⟨false, by simp [wrapped, hp], fun h => by simp at h⟩

/-- **C78**, partial: after any program, a task created in the session that is the default at that moment, under a
name that is new there, by hooks that do not raise exceptions: the hooks registered in the session, and only these,
run around the creation in order, the task has the wanted name and it is in the session.  Missing: sessions that are
not the default (`C78_other_violated`, `C78_foreign_violated`, `C78_naming_violated`) and tasks that are refused
(`C78_refused_violated`). -/
theorem C78_own_partial (p : Nat → Policy) (past : List Act) (s : Nat) (name : Option String) (auto ident : String)
    (hd : defaultOf past = s) (hpre : ∀ h ∈ hookedIn s past, PreOk h) (hpost : ∀ h ∈ hookedIn s past, PostOk h)
    (hn : NewIn (((World.init p).run past).1.sess s) (wantedName s past name auto ident)) :
    ∃ r, ((World.init p).run (past ++ [.create s name auto ident])).2 = ((World.init p).run past).2 ++ [r] ∧
      ProperCreation s past (wantedName s past name auto ident) r ∧
      ∃ o ∈ (((World.init p).run (past ++ [.create s name auto ident])).1.sess s).tasks,
        o.name = wantedName s past name auto ident := by
  obtain ⟨h1, h2, h3⟩ := world_past p past
  rw [(World.run_append _ past _).1, (World.run_append _ past _).2]
  generalize ((World.init p).run past).1 = w at h1 h2 h3 hn
  refine ⟨(w.initTask s name auto ident).2, rfl, ?_⟩
  have hname : w.getName name auto ident = wantedName s past name auto ident := by
    cases name with
    | some n => rfl
    | none => simp only [World.getName, wantedName, Option.getD_none, h2, hd, h3]
  obtain ⟨hc, y, hy, hm⟩ := create_new _ _ hn
  obtain ⟨kept, k1, k2⟩ := prerun_ok (α := Unit) (hookedIn s past) hpre
  have hk : postrun () kept = (((hookedIn s past).filter HasPost).map (fun h => .post h.id ()), false) := by
    rw [postrun_ok () kept, k2]
    intro h hh hw
    have hm : h ∈ kept.filter HasPost := List.mem_filter.2 ⟨hh, hw⟩
    rw [k2] at hm
    exact hpost h (List.mem_filter.1 hm).1
  have he : w.initTask s name auto ident = ({ w with sess := put w.sess s y },
      ⟨s, properTrace (hookedIn s past) (), some (wantedName s past name auto ident), false⟩) := by
    unfold World.initTask
    rw [h2, hd, h1, k1]
    simp only [hname, hy, hk, hc]
    rfl
  refine ⟨by rw [he]; rfl, ?_⟩
  have hw : (w.run [.create s name auto ident]).1 = (w.initTask s name auto ident).1 := rfl
  rw [hw, he]
  simpa [put] using hm

/-- A program with two sessions and hooks in both. -/
def twoSessions : List Act := [.hook 0 ⟨1, false, none⟩, .hook 1 ⟨2, false, some (.yields, .returns)⟩,
  .hook 0 ⟨3, false, some (.yields, .returns)⟩, .naming 1 true, .create 0 (some "a") "m:f" "77", .makeDefault 1]

example : ((World.init (fun _ => .raise)).run (twoSessions ++ [.create 1 none "m:f" "78"])).2 =
    [⟨0, [.pre 1, .pre 3, .task, .post 3 ()], some "a", false⟩, ⟨1, [.pre 2, .task, .post 2 ()], some "78", false⟩] := by
  decide

example : defaultOf twoSessions = 1 ∧ (∀ h ∈ hookedIn 1 twoSessions, PreOk h) ∧
    (∀ h ∈ hookedIn 1 twoSessions, PostOk h) ∧
    NewIn (((World.init (fun _ => .raise)).run twoSessions).1.sess 1) (wantedName 1 twoSessions none "m:f" "78") := by
  refine ⟨by decide, ?_, ?_, ?_⟩
  · simp [hookedIn, twoSessions, PreOk]
  · simp [hookedIn, twoSessions, PostOk]
  · intro o ho; exact absurd ho (by simp [twoSessions, World.run, World.act, World.init, put, World.initTask, prerun,
      Sess.init, Sess.create, World.getName, Sess.checkName, Sess.parseName, Sess.validateName, Sess.has, Sess.get,
      Sess.addTask, Sess.born])

/-- A task that is not refused is in the session under its name. -/
theorem create_named (x y : Sess) (n : String) (h : x.create n none = (y, false)) :
    ∃ v, x.checkName n = some v ∧ ∃ o ∈ y.tasks, o.name = v := by
  unfold Sess.create at h
  rcases hc : x.checkName n with _ | v
  · rw [hc] at h; simp at h
  rw [hc] at h
  simp only at h
  refine ⟨v, rfl, ?_⟩
  have there : ∀ z : Sess, z.has v = true → ∃ o ∈ z.tasks, o.name = v := by
    intro z hz
    simp only [Sess.has, Sess.get, List.find?_isSome] at hz
    obtain ⟨o, ho, hn⟩ := hz
    exact ⟨o, ho, by simpa using hn⟩
  rcases ha : (x.born v).addTask ⟨x.next, v⟩ with ⟨z, _ | _⟩
  · rw [ha] at h
    simp only [Prod.mk.injEq, and_true] at h
    subst h
    show ∃ o ∈ z.tasks, o.name = v
    unfold Sess.addTask at ha
    by_cases hh : (x.born v).has v = true
    · rw [if_pos hh] at ha
      have hz : z = x.born v := by
        split at ha
        · exact (Prod.mk.inj ha).1.symm
        · split at ha
          · exact (Prod.mk.inj ha).1.symm
          · simp at ha
        · simp at ha
        · exact (Prod.mk.inj ha).1.symm
      rw [hz]; exact there _ hh
    · rw [if_neg hh] at ha
      have hz := (Prod.mk.inj ha).1.symm
      rw [hz]
      exact ⟨_, List.mem_cons_self .., rfl⟩
  · rw [ha] at h; simp at h

/-- **C78**, in all programs: the task is registered in the session it is created in, under the name of the report, and
the tasks of other sessions stay. -/
theorem C78_registered (p : Nat → Policy) (past : List Act) (s : Nat) (name : Option String) (auto ident : String) :
    ∃ r, ((World.init p).run (past ++ [.create s name auto ident])).2 = ((World.init p).run past).2 ++ [r] ∧
      (∀ n, r.name = some n → ∃ o ∈ (((World.init p).run (past ++ [.create s name auto ident])).1.sess s).tasks, o.name = n) ∧
      (r.name = none → ((World.init p).run (past ++ [.create s name auto ident])).1.sess s = ((World.init p).run past).1.sess s) ∧
      (∀ t, t ≠ s → ((World.init p).run (past ++ [.create s name auto ident])).1.sess t = ((World.init p).run past).1.sess t) := by
  rw [(World.run_append _ past _).1, (World.run_append _ past _).2]
  generalize ((World.init p).run past).1 = w
  refine ⟨(w.initTask s name auto ident).2, rfl, ?_⟩
  have hw : (w.run [.create s name auto ident]).1 = (w.initTask s name auto ident).1 := rfl
  rw [hw]
  unfold World.initTask
  rcases prerun (α := Unit) (w.hooks w.dflt) with ⟨e, k, _ | _⟩
  · simp only
    rcases hc : (w.sess s).create (w.getName name auto ident) none with ⟨x, _ | _⟩
    · obtain ⟨v, hv, hm⟩ := create_named _ _ _ hc
      refine ⟨fun n hn => ?_, fun hn => ?_, fun t ht => by simp [put, ht]⟩
      · simp only [hv, Option.some.injEq] at hn
        subst hn
        simpa [put] using hm
      · simp [hv] at hn
    · exact ⟨fun n hn => by simp at hn, fun _ => rfl, fun _ _ => rfl⟩
  · exact ⟨fun n hn => by simp at hn, fun _ => rfl, fun _ _ => rfl⟩

/-- **C78**, what holds in all programs: the hooks called at the creation of a task are those registered in the
default session of that moment, in order; second parts are run only after the task is registered. -/
theorem C78_default (p : Nat → Policy) (past : List Act) (s : Nat) (name : Option String) (auto ident : String) :
    ∃ r, ((World.init p).run (past ++ [.create s name auto ident])).2 = ((World.init p).run past).2 ++ [r] ∧ r.sess = s ∧
      ((∃ k, r.events = ((hookedIn (defaultOf past) past).take k).map (fun h => .pre h.id)) ∨
       (∃ m, r.events = (hookedIn (defaultOf past) past).map (fun h => .pre h.id) ++ [.task] ++
          (((hookedIn (defaultOf past) past).filter HasPost).take m).map (fun h => .post h.id ()))) := by
  obtain ⟨h1, h2, h3⟩ := world_past p past
  rw [(World.run_append _ past _).2]
  generalize ((World.init p).run past).1 = w at h1 h2 h3
  refine ⟨(w.initTask s name auto ident).2, rfl, ?_, ?_⟩
  · unfold World.initTask
    rcases prerun (α := Unit) (w.hooks w.dflt) with ⟨e, k, _ | _⟩
    · simp only
      rcases (w.sess s).create (w.getName name auto ident) none with ⟨x, _ | _⟩ <;> rfl
    · rfl
  · obtain ⟨ok, he, -⟩ := initTask_events w s name auto ident
    rw [he, h2, h1]
    exact C52_order (α := Unit) _ _

/-- **C78** fails for a session that is not the default: its hooks are not run for its tasks. -/
theorem C78_other_violated : hookedIn 1 [.hook 1 ⟨2, false, none⟩] = [⟨2, false, none⟩] ∧
    ((World.init (fun _ => .raise)).run [.hook 1 ⟨2, false, none⟩, .create 1 (some "a") "m:f" "77"]).2 =
      [⟨1, [.task], some "a", false⟩] := by decide

/-- **C78** fails for a session that is not the default: hooks of the default session are run for its tasks. -/
theorem C78_foreign_violated : hookedIn 1 [.hook 0 ⟨2, false, none⟩] = [] ∧
    ((World.init (fun _ => .raise)).run [.hook 0 ⟨2, false, none⟩, .create 1 (some "a") "m:f" "77"]).2 =
      [⟨1, [.pre 2, .task], some "a", false⟩] := by decide

/-- **C78** fails for a session that is not the default: its option `use_instance_naming` has no effect. -/
theorem C78_naming_violated : wantedName 1 [.naming 1 true] none "m:f" "77" = "77" ∧
    ((World.init (fun _ => .raise)).run [.naming 1 true, .create 1 none "m:f" "77"]).2 =
      [⟨1, [.task], some "m:f", false⟩] := by decide

/-- **C78** fails for a task that is refused: the first parts of the hooks have run for a task that does not exist, and
the waiting second parts are never run. -/
theorem C78_refused_violated :
    ((World.init (fun _ => .raise)).run [.hook 0 ⟨1, false, some (.yields, .returns)⟩, .create 0 (some "a") "m:f" "77",
      .create 0 (some "a") "m:g" "78"]).2 =
      [⟨0, [.pre 1, .task, .post 1 ()], some "a", false⟩, ⟨0, [.pre 1], none, true⟩] := by decide

end Rocketry.Props
