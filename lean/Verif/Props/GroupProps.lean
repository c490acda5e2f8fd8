import Verif.Spec.GroupSpec
import Verif.Props.CondProps
import Verif.Props.NamesProps

/-!
# C57: including a group
-/

namespace Rocketry.Props
open Rocketry.Session Rocketry.Spec Rocketry.Cond

variable {L P σ : Type}

theorem observe_and (f : L → Obs σ) (a b : Cond L) :
    observe f (Cond.and a b) = thenAnd (observe f a) (observe f b) := by
  rw [Cond.and, mkAll, observe]
  simp only [List.flatMap_cons, List.flatMap_nil, List.append_nil]
  rw [observeAll_append, observe_allParts, observe_allParts]

/-- What the loop needs of the objects that are left. -/
structure Ready (w : World L P) (g : Grp L) (l : List Obj) : Prop where
  ids : (w.group.tasks.map Obj.id).Nodup
  sub : ∀ o ∈ l, o ∈ w.group.tasks
  idsLeft : (l.map Obj.id).Nodup
  names : (l.map Obj.name).Nodup
  freeGroup : g.pre ≠ "" → ∀ o ∈ l, ¬ Taken w.group (g.pre ++ o.name)
  freeApp : ∀ o ∈ l, ¬ Taken w.app (g.pre ++ o.name)

theorem find_id : ∀ {l : List Obj} {o : Obj}, (l.map Obj.id).Nodup → o ∈ l →
    l.find? (fun x => decide (x.id = o.id)) = some o
  | x :: l, o, hn, ho => by
    rw [List.map_cons, List.nodup_cons] at hn
    rcases List.mem_cons.1 ho with rfl | ho
    · simp
    · have : x.id ≠ o.id := fun h => hn.1 (h ▸ List.mem_map_of_mem ho)
      rw [List.find?_cons_of_neg (by simpa using this)]
      exact find_id hn.2 ho

/-- The object under its name in the application. -/
def titled (g : Grp L) (o : Obj) : Obj := ⟨o.id, g.pre ++ o.name⟩

theorem append_name_inj {p a b : String} (h : p ++ a = p ++ b) : a = b := (String.append_right_inj p).1 h

/-- A session with one object under another name. -/
def relabelled (s : Sess) (id : Nat) (v : String) : Sess :=
  { s with tasks := s.tasks.map (Obj.renamed id v), outside := s.outside.map (Obj.renamed id v) }

/-- The world after the first assignment. -/
theorem renamed_ready {w : World L P} {g : Grp L} {o : Obj} {l : List Obj} (h : Ready w g (o :: l)) :
    ∃ w1, w.renamed g o = (w1, false) ∧ w1.nameOf o = g.pre ++ o.name ∧ Ready w1 g l ∧ w1.app = w.app ∧
      w1.cond = w.cond ∧ w1.exec = w.exec ∧ w1.groupParams = w.groupParams ∧ w1.appParams = w.appParams := by
  have hidl := h.idsLeft
  have hnam := h.names
  rw [List.map_cons, List.nodup_cons] at hidl hnam
  have ho := h.sub o (by simp)
  by_cases hp : g.pre = ""
  · refine ⟨w, by rw [World.renamed, if_pos hp], ?_, ?_, rfl, rfl, rfl, rfl, rfl⟩
    · rw [World.nameOf, find_id h.ids ho, hp]; simp
    · exact ⟨h.ids, fun x hx => h.sub x (by simp [hx]), hidl.2, hnam.2, fun hne => absurd hp hne,
        fun x hx => h.freeApp x (by simp [hx])⟩
  · have hr : w.group.rename o.id (g.pre ++ o.name) = (relabelled w.group o.id (g.pre ++ o.name), false) := by
      rw [Sess.rename, checkName_free (h.freeGroup hp o (by simp))]
      rfl
    refine ⟨{ w with group := relabelled w.group o.id (g.pre ++ o.name) }, by rw [World.renamed, if_neg hp, hr], ?_, ?_,
      rfl, rfl, rfl, rfl, rfl⟩
    · have hm : Obj.renamed o.id (g.pre ++ o.name) o = titled g o := by simp [Obj.renamed, titled]
      have := find_id (l := w.group.tasks.map (Obj.renamed o.id (g.pre ++ o.name))) (o := titled g o)
        (by rw [rename_ids]; exact h.ids) (List.mem_map.2 ⟨o, ho, hm⟩)
      have this : (w.group.tasks.map (Obj.renamed o.id (g.pre ++ o.name))).find? (fun x => decide (x.id = o.id))
        = some (titled g o) := this
      simp only [World.nameOf, relabelled, this]
      rfl
    · refine ⟨by rw [relabelled, rename_ids]; exact h.ids, ?_, hidl.2, hnam.2, ?_, fun x hx => h.freeApp x (by simp [hx])⟩
      · intro x hx
        have hne : x.id ≠ o.id := fun e => hidl.1 (e ▸ List.mem_map_of_mem hx)
        exact List.mem_map.2 ⟨x, h.sub x (by simp [hx]), by simp [Obj.renamed, hne]⟩
      · rintro - x hx ⟨y, hy, hyn⟩
        obtain ⟨z, hz, rfl⟩ := List.mem_map.1 hy
        by_cases he : z.id = o.id
        · simp only [Obj.renamed, he, if_true] at hyn
          exact hnam.1 (append_name_inj hyn ▸ List.mem_map_of_mem hx)
        · simp only [Obj.renamed, he, if_false] at hyn
          exact h.freeGroup hp x (by simp [hx]) ⟨z, hz, hyn⟩

theorem includeAll_ready {g : Grp L} : ∀ (l : List Obj) (w : World L P), Ready w g l →
    ∃ w', w.includeAll g l = (w', false) ∧ w'.app.tasks = (l.map (titled g)).reverse ++ w.app.tasks ∧
      (∀ id, w'.cond id = if id ∈ l.map Obj.id then joined g (w.cond id) else w.cond id) ∧
      (∀ id, w'.exec id = if id ∈ l.map Obj.id then (w.exec id).or g.exec else w.exec id) ∧
      w'.groupParams = w.groupParams ∧ w'.appParams = w.appParams
  | [], w, _ => ⟨w, rfl, by simp, by simp, by simp, rfl, rfl⟩
  | o :: l, w, h => by
    obtain ⟨w1, h1, hn, hr, ha, hc, he, hg, hp⟩ := renamed_ready h
    have hfree : ¬ Taken w1.app (g.pre ++ o.name) := ha ▸ h.freeApp o (by simp)
    have hnam := h.names
    have hidl := h.idsLeft
    rw [List.map_cons, List.nodup_cons] at hnam hidl
    have hn2 : (w1.options g o).nameOf o = g.pre ++ o.name := hn
    let w2 : World L P := ((w1.options g o).added o).1
    have hadd : w1.app.addTask (titled g o) = ({ w1.app with
        tasks := titled g o :: w1.app.tasks,
        outside := w1.app.outside.filter (fun x => decide (x.id ≠ o.id)) }, false) := by
      rw [Sess.addTask, not_has (by exact hfree)]
      rfl
    have h2 : (w1.options g o).added o = (w2, false) := by
      refine Prod.ext rfl ?_
      show ((w1.options g o).app.addTask ⟨o.id, (w1.options g o).nameOf o⟩).2 = false
      rw [hn2]
      exact congrArg Prod.snd hadd
    have h2t : w2.app.tasks = titled g o :: w.app.tasks := by
      show ((w1.options g o).app.addTask ⟨o.id, (w1.options g o).nameOf o⟩).1.tasks = _
      rw [hn2, ← ha]
      exact congrArg (fun x => x.1.tasks) hadd
    have hr2 : Ready w2 g l := by
      refine ⟨hr.ids, hr.sub, hr.idsLeft, hr.names, hr.freeGroup, ?_⟩
      rintro x hx ⟨y, hy, hyn⟩
      rw [h2t] at hy
      rcases List.mem_cons.1 hy with rfl | hy
      · exact hnam.1 (append_name_inj hyn ▸ List.mem_map_of_mem hx)
      · exact h.freeApp x (by simp [hx]) ⟨y, hy, hyn⟩
    obtain ⟨w', hw, ht, hcs, hes, hgp, hap⟩ := includeAll_ready l w2 hr2
    refine ⟨w', ?_, ?_, ?_, ?_, hgp.trans hg, hap.trans hp⟩
    · rw [World.includeAll, World.include1, h1]
      simp only [h2]
      exact hw
    · rw [ht, h2t]; simp
    · intro id
      have hc2 : w2.cond id = if id = o.id then joined g (w.cond o.id) else w.cond id := by
        show setAt w1.cond o.id (joined g (w1.cond o.id)) id = _
        rw [hc]; rfl
      rw [hcs, hc2]
      by_cases hi : id = o.id
      · subst hi; simp [hidl.1]
      · simp [hi]
    · intro id
      have he2 : w2.exec id = if id = o.id then (w.exec o.id).or g.exec else w.exec id := by
        show setAt w1.exec o.id _ id = _
        rw [he]
        by_cases hi : id = o.id
        · rw [setAt, if_pos hi, if_pos hi]; cases w.exec o.id <;> rfl
        · rw [setAt, if_neg hi, if_neg hi]
      rw [hes, he2]
      by_cases hi : id = o.id
      · subst hi; simp [hidl.1]
      · simp [hi]

/-- C57 for a group none of whose prefixed names is taken in the session, or (if there is a prefix) in the group.
Missing: names that are taken, see the violations. -/
theorem C57_include_partial (w : World L P) (g : Grp L) (hids : (w.group.tasks.map Obj.id).Nodup)
    (hnames : (w.group.tasks.map Obj.name).Nodup) (happ : ∀ o ∈ w.group.tasks, ¬ Taken w.app (g.pre ++ o.name))
    (hgrp : g.pre ≠ "" → ∀ o ∈ w.group.tasks, ¬ Taken w.group (g.pre ++ o.name)) (hok : Dict.Ok w.groupParams) :
    ∃ w', w.includeGroup g = (w', false) ∧ Included w w' g := by
  obtain ⟨w1, h1, ht, hc, he, hg, hp⟩ := includeAll_ready w.group.tasks w ⟨hids, fun _ h => h, hids, hnames, hgrp, happ⟩
  refine ⟨{ w1 with appParams := Dict.update w1.appParams w1.groupParams }, by rw [World.includeGroup, h1], ?_⟩
  have mem : ∀ o ∈ w.group.tasks, o.id ∈ w.group.tasks.map Obj.id := fun o ho => List.mem_map_of_mem ho
  constructor
  · intro o ho
    show w1.app.tasks.find? _ = _
    have hin : titled g o ∈ w1.app.tasks := by
      rw [ht, List.mem_append, List.mem_reverse]; exact .inl (List.mem_map_of_mem ho)
    rcases hf : w1.app.tasks.find? (fun x => decide (x.name = g.pre ++ o.name)) with _ | x
    · have := List.find?_eq_none.1 hf _ hin
      simp [titled] at this
    · refine hf.trans ?_
      have hx := List.mem_of_find?_eq_some hf
      have hxn : x.name = g.pre ++ o.name := by simpa using List.find?_some hf
      rw [ht, List.mem_append, List.mem_reverse] at hx
      rcases hx with hx | hx
      · obtain ⟨y, hy, rfl⟩ := List.mem_map.1 hx
        have : y.name = o.name := append_name_inj hxn
        rw [List.inj_on_of_nodup_map hnames hy ho this]
        rfl
      · exact absurd ⟨x, hx, hxn⟩ (happ o ho)
  · intro x hx
    show x ∈ w1.app.tasks
    rw [ht]; exact List.mem_append_right _ hx
  · intro x (hx : x ∈ w1.app.tasks)
    rw [ht, List.mem_append, List.mem_reverse] at hx
    rcases hx with hx | hx
    · obtain ⟨y, hy, rfl⟩ := List.mem_map.1 hx
      exact .inr ⟨y, hy, rfl⟩
    · exact .inl hx
  · intro o ho d hd σ f
    show observe f (w1.cond o.id) = _
    rw [hc, if_pos (mem o ho), joined, hd]
    exact observe_and f _ _
  · intro hs o ho
    show w1.cond o.id = _
    rw [hc, if_pos (mem o ho), joined, hs]
  · intro o ho
    show (∀ e, w.exec o.id = some e → w1.exec o.id = some e) ∧ (w.exec o.id = none → w1.exec o.id = g.exec)
    rw [he, if_pos (mem o ho)]
    exact ⟨fun e h => by rw [h]; rfl, fun h => by rw [h]; rfl⟩
  · intro id hid
    have : id ∉ w.group.tasks.map Obj.id := fun h => by
      obtain ⟨o, ho, hoi⟩ := List.mem_map.1 h
      exact hid o ho hoi
    exact ⟨by show w1.cond id = _; rw [hc, if_neg this], by show w1.exec id = _; rw [he, if_neg this]⟩
  · intro k
    show (∀ v, _ → Dict.find (Dict.update w1.appParams w1.groupParams) k = some v) ∧
      (_ → Dict.find (Dict.update w1.appParams w1.groupParams) k = _)
    rw [hg, hp, Dict.find_update _ _ hok]
    exact ⟨fun v h => by rw [h]; rfl, fun h => by rw [h]; rfl⟩

/-- A session with the given tasks. -/
def sessOf (p : Policy) (l : List Obj) : Sess := ⟨p, l, [], fun _ => none, 10⟩

/-- Two groups of tasks and a session, for examples. -/
def groupWorld (p : Policy) (group app : List Obj) : World Nat Nat :=
  ⟨sessOf p group, sessOf p app, fun _ => .alwaysTrue, fun _ => none, [("k", 1)], []⟩

/-- The hypotheses are met by a group with a prefix, a task of which has the same name as one of the session. -/
example : let w := groupWorld .raise [⟨1, "a"⟩, ⟨2, "b"⟩] [⟨3, "a"⟩]
    let g : Grp Nat := ⟨"g.", some (.leaf 0), some "main"⟩
    (w.group.tasks.map Obj.id).Nodup ∧ (w.group.tasks.map Obj.name).Nodup ∧
    (∀ o ∈ w.group.tasks, ¬ Taken w.app (g.pre ++ o.name)) ∧
    (g.pre ≠ "" → ∀ o ∈ w.group.tasks, ¬ Taken w.group (g.pre ++ o.name)) ∧ Dict.Ok w.groupParams := by
  refine ⟨by decide, by decide, ?_, ?_, ?_⟩
  · simp [groupWorld, sessOf, Taken]
  · simp [groupWorld, sessOf, Taken]
  · simp [groupWorld, Dict.Ok, Dict.keys]

/-- C57 fails if a name is taken in the session: with the default policy the inclusion stops there, with one task
included, the others not, and the parameters not merged. -/
theorem C57_clash_violated : ∃ (w w' : World Nat Nat) (g : Grp Nat), w.includeGroup g = (w', true) ∧
    (∃ o ∈ w.group.tasks, w'.app.get (g.pre ++ o.name) = some ⟨o.id, g.pre ++ o.name⟩) ∧
    (∃ o ∈ w.group.tasks, w'.app.get (g.pre ++ o.name) = none) ∧ Dict.find w'.appParams "k" = none ∧
    Dict.find w.groupParams "k" = some 1 :=
  let w := groupWorld .raise [⟨1, "a"⟩, ⟨2, "b"⟩, ⟨4, "c"⟩] [⟨3, "b"⟩]
  let g : Grp Nat := ⟨"", none, none⟩
  ⟨w, (w.includeGroup g).1, g, rfl, ⟨⟨1, "a"⟩, by decide, by decide⟩, ⟨⟨4, "c"⟩, by decide, by decide⟩, rfl, rfl⟩

/-- With the policy `rename` a task whose name is taken is left out without a word. -/
theorem C57_dropped_violated : ∃ (w w' : World Nat Nat) (g : Grp Nat), w.app.policy = .rename ∧
    w.includeGroup g = (w', false) ∧ ∃ o ∈ w.group.tasks, ∀ x ∈ w'.app.tasks, x.id ≠ o.id :=
  let w := groupWorld .rename [⟨1, "a"⟩] [⟨3, "a"⟩]
  let g : Grp Nat := ⟨"", none, none⟩
  ⟨w, (w.includeGroup g).1, g, rfl, rfl, ⟨1, "a"⟩, by decide, by decide⟩

/-- C57 fails if a prefixed name is the name of another task of the group, although no name is taken in the session. -/
theorem C57_prefix_violated : ∃ (w w' : World Nat Nat) (g : Grp Nat), w.app.tasks = [] ∧
    (w.group.tasks.map Obj.name).Nodup ∧ w.includeGroup g = (w', true) ∧ w'.app.tasks = [] :=
  let w := groupWorld .raise [⟨1, "a"⟩, ⟨2, "xa"⟩] []
  let g : Grp Nat := ⟨"x", none, none⟩
  ⟨w, (w.includeGroup g).1, g, rfl, by decide, rfl, rfl⟩

/-- C57 fails if the start condition of the group is given as text, as tasks allow: it is not parsed, and as a text has
no method `observe`, the check of the task raises AttributeError whenever its own condition holds. -/
theorem C57_text_violated (w : World (L ⊕ String) P) (g : Grp (L ⊕ String)) (t : String)
    (hg : g.start = some (.leaf (.inr t))) (o : Obj) (ho : o ∈ w.group.tasks) (w' : World (L ⊕ String) P)
    (hi : Included w w' g) (f : L ⊕ String → Obs σ) (hf : ∀ t s, f (.inr t) s = (.error .attribute, s)) (s s' : σ)
    (hown : observe f (w.cond o.id) s = (.ok true, s')) : observe f (w'.cond o.id) s = (.error .attribute, s') := by
  rw [hi.both o ho _ hg σ f, thenAnd, hown]
  exact hf t s'

/-- The hypothesis on the own condition is met. -/
example : observe (σ := Unit) (fun l : Nat ⊕ String => match l with
    | .inl _ => fun s => (.ok true, s)
    | .inr _ => fun s => (.error .attribute, s)) (.leaf (.inl 0)) () = (.ok true, ()) := rfl

end Rocketry.Props
