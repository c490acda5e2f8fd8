import Verif.Spec.TaskCondSpec
import Verif.Props.NamesProps
import Verif.Props.AnchoredProps
import Mathlib.Tactic.ByContra

/-!
# Property C70: conditions defined by a task
-/

namespace Rocketry.Props
open Rocketry.Session Rocketry.Spec

/-! ### What the past says -/

/-- The value the last successful run has returned. -/
def lastValue (l : List CondEv) (id : Nat) : Option Bool :=
  l.foldl (fun acc e => match e with | .success i v _ => if i = id then some v else acc | _ => acc) none

/-- The time of the last success. -/
def lastTime (l : List CondEv) (id : Nat) : Option Int :=
  l.foldl (fun acc e => match e with
    | .success i _ t => if id = i then some t else acc
    | .restored i t => if id = i then some t else acc
    | _ => acc) none

theorem lastValue_snoc (l : List CondEv) (e : CondEv) (id : Nat) : lastValue (l ++ [e]) id =
    match e with | .success i v _ => if i = id then some v else lastValue l id | _ => lastValue l id := by
  unfold lastValue
  rw [List.foldl_append]
  rfl

theorem lastTime_snoc (l : List CondEv) (e : CondEv) (id : Nat) : lastTime (l ++ [e]) id =
    match e with
    | .success i _ t => if id = i then some t else lastTime l id
    | .restored i t => if id = i then some t else lastTime l id
    | _ => lastTime l id := by
  unfold lastTime
  rw [List.foldl_append]
  rfl

/-- Adding events one by one at the end. -/
theorem snoc_induction {α : Type} {P : List α → Prop} (h0 : P []) (h1 : ∀ l a, P l → P (l ++ [a])) (l : List α) : P l := by
  rw [← List.reverse_reverse l]
  induction l.reverse with
  | nil => exact h0
  | cons a l ih => rw [List.reverse_cons]; exact h1 _ _ ih

theorem last_of {id : Nat} {v : Bool} {t : Int} (pre : List CondEv) : ∀ post : List CondEv,
    (∀ e ∈ post, (∀ v' t', e ≠ .success id v' t') ∧ ∀ t', e ≠ .restored id t') →
    lastValue (pre ++ .success id v t :: post) id = some v ∧ lastTime (pre ++ .success id v t :: post) id = some t := by
  intro post
  induction post using snoc_induction with
  | h0 =>
    intro _
    rw [lastValue_snoc, lastTime_snoc]
    simp
  | h1 post e ih =>
    intro h
    obtain ⟨h1, h2⟩ := ih fun e he => h e (List.mem_append_left _ he)
    obtain ⟨h3, h4⟩ := h e (by simp)
    rw [show pre ++ .success id v t :: (post ++ [e]) = (pre ++ .success id v t :: post) ++ [e] by simp, lastValue_snoc,
      lastTime_snoc]
    cases e with
    | success i v' t' =>
      have hi : i ≠ id := fun he => h3 v' t' (by rw [he])
      simp only [hi, if_false, Ne.symm hi]
      exact ⟨h1, h2⟩
    | restored i t' =>
      have hi : id ≠ i := fun he => h4 t' (by rw [he])
      simp only [hi, if_false]
      exact ⟨h1, h2⟩
    | _ => exact ⟨h1, h2⟩

theorem last_none {id : Nat} (l : List CondEv) (h : NeverReturned l id) : lastValue l id = none := by
  induction l using snoc_induction with
  | h0 => rfl
  | h1 l e ih =>
    have h1 := ih fun e he => h e (List.mem_append_left _ he)
    have h2 := h e (by simp)
    rw [lastValue_snoc]
    cases e with
    | success i v t =>
      have hi : i ≠ id := fun he => h2 v t (by rw [he])
      simp only [hi, if_false, h1]
    | _ => exact h1

/-! ### The invariant -/

theorem put_absent {α : Type} : ∀ {d : Dict α} {x : String} {v : α}, Dict.find d x = none → Dict.put d x v = d ++ [(x, v)]
  | [], _, _, _ => rfl
  | (k, w) :: d, x, v, h => by
    rw [Dict.find_cons] at h
    by_cases hk : k = x
    · rw [if_pos hk] at h; cases h
    · rw [if_neg hk] at h
      unfold Dict.put
      rw [if_neg hk, put_absent h]
      rfl

theorem isCond_iff {s : CondSess} {id : Nat} : s.isCond id = true ↔ OfCond s id := by
  unfold CondSess.isCond OfCond
  simp

theorem ids_eq {s : Sess} (h : Ids s) {o o' : Obj} (ho : o ∈ s.tasks ++ s.outside) (ho' : o' ∈ s.tasks ++ s.outside)
    (he : o.id = o'.id) : o = o' := by
  have := h.1
  by_contra hne
  have hp := filter_id this ho
  have h2 := (hp.map Obj.id).nodup_iff.1 this
  rw [List.map_cons, List.nodup_cons] at h2
  rcases List.mem_cons.1 (hp.mem_iff.1 ho') with h3 | h3
  · exact hne h3.symm
  · have := (List.mem_filter.1 h3).2
    simp [he] at this

theorem object_of {s : Sess} (h : Ids s) {o : Obj} (ho : o ∈ s.tasks ++ s.outside) : s.object o.id = some o := by
  unfold Sess.object
  rcases hf : (s.tasks ++ s.outside).find? (fun x => decide (x.id = o.id)) with _ | x
  · have := List.find?_eq_none.1 hf o ho
    simp at this
  · have h1 := List.mem_of_find?_eq_some hf
    have h2 := List.find?_some hf
    rw [hf, ids_eq h h1 ho (by simpa using h2)]

structure CInv (s : CondSess) (l : List CondEv) : Prop where
  ninv : NInv s.sess
  policy : s.sess.policy ≠ .ignore
  kept : ∀ id, OfCond s id → ∃ o ∈ s.sess.tasks, o.id = id
  apart : (s.cache.map (fun x => x.2.id)).Nodup
  keys : s.cache.Ok
  owned : ∀ n v, s.states.find n = some v → ∃ o ∈ s.sess.tasks, o.name = n ∧ OfCond s o.id
  value : ∀ o ∈ s.sess.tasks, OfCond s o.id → s.states.find o.name = lastValue l o.id
  time : ∀ id, s.last id = lastTime l id
  future : ∀ id, s.sess.next ≤ id → lastValue l id = none

theorem CInv.nameOf {s : CondSess} {l : List CondEv} (h : CInv s l) {o : Obj} (ho : o ∈ s.sess.tasks) :
    s.nameOf o.id = o.name := by
  unfold CondSess.nameOf
  rw [object_of h.ninv.2 (List.mem_append_left _ ho)]

theorem addTask_keeps {s : Sess} {o x : Obj} (h : x ∈ s.tasks) : x ∈ (s.addTask o).1.tasks ∧ (s.addTask o).1.next = s.next := by
  unfold Sess.addTask
  by_cases hh : s.has o.name = true
  · rw [if_pos hh]
    rcases s.policy with _ | _ | _ | _ | _ <;> try exact ⟨h, rfl⟩
    by_cases hm : o ∈ s.tasks
    · simp only [if_pos hm]; exact ⟨h, trivial⟩
    · simp only [if_neg hm]; exact ⟨h, trivial⟩
  · rw [if_neg hh]
    exact ⟨List.mem_cons_of_mem _ h, rfl⟩

theorem addTask_next (s : Sess) (o : Obj) : (s.addTask o).1.next = s.next := by
  unfold Sess.addTask
  by_cases hh : s.has o.name = true
  · rw [if_pos hh]
    rcases s.policy with _ | _ | _ | _ | _ <;> try rfl
    by_cases hm : o ∈ s.tasks
    · simp only [if_pos hm]
    · simp only [if_neg hm]
  · rw [if_neg hh]

theorem create_keeps (s : Sess) (n : String) (f : Option Nat) :
    (∀ x ∈ s.tasks, x ∈ (s.create n f).1.tasks) ∧ s.next ≤ (s.create n f).1.next := by
  unfold Sess.create
  rcases s.checkName n with _ | v
  · exact ⟨fun _ h => h, Nat.le_refl _⟩
  simp only
  have h1 := addTask_next (s.born v) ⟨s.next, v⟩
  have h2 := fun x (hx : x ∈ s.tasks) => (addTask_keeps (s := s.born v) (o := ⟨s.next, v⟩) (x := x) hx).1
  rcases ha : (s.born v).addTask ⟨s.next, v⟩ with ⟨s', _ | _⟩
  · rw [ha] at h1 h2
    refine ⟨h2, ?_⟩
    have : s'.next = s.next + 1 := h1
    show s.next ≤ s'.next
    omega
  · exact ⟨fun _ h => h, Nat.le_refl _⟩

/-- What an operation does to the tasks of conditions. -/
theorem op_keeps {s : CondSess} {op : Op} (hu : Undisturbed s (.op op)) :
    (∀ o ∈ s.sess.tasks, OfCond s o.id → o ∈ (s.sess.step op).1.tasks) ∧ s.sess.next ≤ (s.sess.step op).1.next := by
  have hrem : ∀ p : Obj → Bool, (∀ o ∈ s.sess.tasks, OfCond s o.id → p o = false) →
      (∀ o ∈ s.sess.tasks, OfCond s o.id → o ∈ (s.sess.removeBy p).tasks) ∧ s.sess.next ≤ (s.sess.removeBy p).next := by
    intro p hp
    exact ⟨fun o ho hc => List.mem_filter.2 ⟨ho, by simp [hp o ho hc]⟩, Nat.le_refl _⟩
  cases op with
  | create n f => exact ⟨fun o ho _ => (create_keeps _ n f).1 o ho, (create_keeps _ n f).2⟩
  | add id =>
    show _ ∧ s.sess.next ≤ (s.sess.addId id).1.next
    simp only [Sess.step]
    unfold Sess.addId
    rcases s.sess.object id with _ | x
    · exact ⟨fun _ h _ => h, Nat.le_refl _⟩
    · exact ⟨fun o ho _ => (addTask_keeps ho).1, Nat.le_of_eq (addTask_next _ _).symm⟩
  | rename id n =>
    simp only [Sess.step]
    unfold Sess.rename
    rcases s.sess.checkName n with _ | v
    · exact ⟨fun _ h _ => h, Nat.le_refl _⟩
    · refine ⟨fun o ho hc => List.mem_map.2 ⟨o, ho, ?_⟩, Nat.le_refl _⟩
      have : o.id ≠ id := fun he => hu (he ▸ hc)
      simp [Obj.renamed, this]
  | removeObj id =>
    simp only [Sess.step]
    unfold Sess.removeObj
    split
    · exact hrem _ fun o _ hc => by simpa using fun he : o.id = id => hu (he ▸ hc)
    · exact ⟨fun _ h _ => h, Nat.le_refl _⟩
  | removeName n =>
    simp only [Sess.step]
    unfold Sess.removeName
    rcases hg : s.sess.get n with _ | x
    · exact ⟨fun _ h _ => h, Nat.le_refl _⟩
    · obtain ⟨h1, h2⟩ := get_some hg
      exact hrem _ fun o _ hc => by simpa using fun he : o.id = x.id => hu x h1 h2 (he ▸ hc)
  | clear => exact hu.elim
  | setPolicy p => exact ⟨fun _ h _ => h, Nat.le_refl _⟩

theorem op_policy {s : CondSess} {op : Op} (hp : s.sess.policy ≠ .ignore) (hu : Undisturbed s (.op op)) :
    (s.sess.step op).1.policy ≠ .ignore := by
  have := run_policy [op] s.sess hp
  refine this ?_
  intro h
  rw [List.mem_singleton] at h
  subst h
  exact hu rfl

/-- Reading a text: it changes nothing, or it makes a task. -/
theorem read_cases (s : CondSess) (text : String) : (s.read text).1 = s ∨
    ∃ d g s', s.builtin text = false ∧ matching s.parsers text = some (d, g) ∧ s.cache.find text = none ∧
      s.sess.create (condName d.fname) none = (s', false) ∧
      s.read text = ({ s with sess := s', cache := s.cache ++ [(text, ⟨s.sess.next, g, d.active⟩)] },
        .cond ⟨s.sess.next, g, d.active⟩) := by
  unfold CondSess.read
  by_cases hb : s.builtin text = true
  · rw [if_pos hb]; exact .inl rfl
  rw [if_neg hb]
  rcases hm : matching s.parsers text with _ | ⟨d, g⟩
  · exact .inl rfl
  simp only
  rcases hf : s.cache.find text with _ | b
  · simp only
    rcases hc : s.sess.create (condName d.fname) none with ⟨s', _ | _⟩
    · exact .inr ⟨d, g, s', by simpa using hb, rfl, trivial, hc, by simp only [put_absent hf]⟩
    · exact .inl rfl
  · exact .inl rfl

/-- What creation without an exception gives, unless the policy is `ignore`. -/
theorem create_made {s s' : Sess} {n : String} (hp : s.policy ≠ .ignore) (h : s.create n none = (s', false)) :
    ∃ v, ¬ Taken s v ∧ s'.tasks = ⟨s.next, v⟩ :: s.tasks ∧ s.next < s'.next ∧ s'.policy = s.policy := by
  have hk : ∃ v, s.checkName n = some v := by
    rcases hc : s.checkName n with _ | v
    · unfold Sess.create at h; rw [hc] at h; simp at h
    · exact ⟨v, rfl⟩
  obtain ⟨v, hv⟩ := hk
  have hfree : ¬ Taken s v := by
    rcases checkName_spec hv with h1 | ⟨h1, _, _⟩
    · exact h1
    · exact absurd h1 hp
  obtain ⟨_, h2, _⟩ := create_free none hv hfree
  rw [h] at h2
  refine ⟨v, hfree, h2, ?_, ?_⟩
  · have h1 := addTask_next (s.born v) ⟨s.next, v⟩
    unfold Sess.create at h
    rw [hv] at h
    simp only at h
    rcases ha : (s.born v).addTask ⟨s.next, v⟩ with ⟨x, _ | _⟩
    · rw [ha] at h h1
      simp only [Prod.mk.injEq] at h
      rw [← h.1]
      have : x.next = s.next + 1 := h1
      show s.next < x.next
      omega
    · rw [ha] at h; simp at h
  · have := (step_same s (.create n none)).1 (by intro p hp; cases hp)
    simpa only [Sess.step, h] using this

theorem CInv.init (p : Policy) (bi : String → Bool) (hp : p ≠ .ignore) : CInv (CondSess.init p bi) [] where
  ninv := init_ninv p
  policy := hp
  kept := fun id h => by obtain ⟨x, hx, _⟩ := h; simp [CondSess.init] at hx
  apart := by simp [CondSess.init]
  keys := by simp [CondSess.init, Dict.Ok, Dict.keys]
  owned := fun n v h => by simp [CondSess.init, Dict.find] at h
  value := fun o ho => by simp [CondSess.init, Sess.init] at ho
  time := fun _ => rfl
  future := fun _ _ => rfl

theorem CInv.text {s : CondSess} {l : List CondEv} (h : CInv s l) (text : String) : CInv (s.read text).1 (l ++ [.text text]) := by
  have hv : ∀ id, lastValue (l ++ [.text text]) id = lastValue l id := fun id => by rw [lastValue_snoc]
  have ht : ∀ id, lastTime (l ++ [.text text]) id = lastTime l id := fun id => by rw [lastTime_snoc]
  rcases read_cases s text with he | ⟨d, g, s', hb, hm, hf, hc, he⟩
  · rw [he]
    exact ⟨h.ninv, h.policy, h.kept, h.apart, h.keys, h.owned, fun o ho hc => (h.value o ho hc).trans (hv _).symm,
      fun id => (h.time id).trans (ht id).symm, fun id hi => (hv id).trans (h.future id hi)⟩
  · rw [he]
    obtain ⟨v, h1, h2, h3, h4⟩ := create_made h.policy hc
    have hinv : NInv s' := by have := create_ninv h.ninv (condName d.fname) none; rwa [hc] at this
    have hnew : ¬ OfCond s s.sess.next := by
      intro hx
      obtain ⟨o, ho, hi⟩ := h.kept _ hx
      have := h.ninv.2.2 o (List.mem_append_left _ ho)
      omega
    have hof : ∀ id, OfCond { s with sess := s', cache := s.cache ++ [(text, ⟨s.sess.next, g, d.active⟩)] } id ↔
        OfCond s id ∨ id = s.sess.next := by
      intro id
      unfold OfCond
      simp only [List.mem_append, List.mem_singleton]
      constructor
      · rintro ⟨x, hx | rfl, hi⟩
        · exact .inl ⟨x, hx, hi⟩
        · exact .inr hi.symm
      · rintro (⟨x, hx, hi⟩ | rfl)
        · exact ⟨x, .inl hx, hi⟩
        · exact ⟨_, .inr rfl, rfl⟩
    refine ⟨hinv, by rw [h4]; exact h.policy, ?_, ?_, ?_, ?_, ?_, fun id => (h.time id).trans (ht id).symm, ?_⟩
    · intro id hi
      show ∃ o ∈ s'.tasks, o.id = id
      rw [h2]
      rcases (hof id).1 hi with hi | rfl
      · obtain ⟨o, ho, hi⟩ := h.kept id hi
        exact ⟨o, List.mem_cons_of_mem _ ho, hi⟩
      · exact ⟨_, List.mem_cons_self, rfl⟩
    · show ((s.cache ++ [(text, (⟨s.sess.next, g, d.active⟩ : Bound))]).map (fun x => x.2.id)).Nodup
      rw [List.map_append, List.nodup_append]
      refine ⟨h.apart, by simp, ?_⟩
      intro a ha b hb he
      simp only [List.map_cons, List.map_nil, List.mem_singleton] at hb
      obtain ⟨x, hx, rfl⟩ := List.mem_map.1 ha
      exact hnew ⟨x, hx, by rw [he, hb]⟩
    · show Dict.Ok (s.cache ++ [(text, (⟨s.sess.next, g, d.active⟩ : Bound))])
      rw [← put_absent hf]
      exact Dict.ok_put h.keys _ _
    · intro n w hn
      obtain ⟨o, ho, h5, h6⟩ := h.owned n w hn
      exact ⟨o, by show o ∈ s'.tasks; rw [h2]; exact List.mem_cons_of_mem _ ho, h5, (hof _).2 (.inl h6)⟩
    · intro o ho hco
      have ho' : o ∈ s'.tasks := ho
      rw [h2] at ho'
      show s.states.find o.name = _
      rw [hv]
      rcases List.mem_cons.1 ho' with rfl | ho'
      · rw [h.future _ (Nat.le_refl _)]
        rcases hfs : s.states.find v with _ | w
        · rfl
        · obtain ⟨o, ho, h5, _⟩ := h.owned v w hfs
          exact absurd ⟨o, ho, h5⟩ h1
      · rcases (hof _).1 hco with hco | hco
        · exact h.value o ho' hco
        · have := h.ninv.2.2 o (List.mem_append_left _ ho')
          omega
    · intro id hi
      rw [hv]
      exact h.future id (by have : s'.next ≤ id := hi; omega)

theorem CInv.op {s : CondSess} {l : List CondEv} (h : CInv s l) {op : Op} (hu : Undisturbed s (.op op)) :
    CInv { s with sess := (s.sess.step op).1 } (l ++ [.op op]) := by
  have hv : ∀ id, lastValue (l ++ [.op op]) id = lastValue l id := fun id => by rw [lastValue_snoc]
  have ht : ∀ id, lastTime (l ++ [.op op]) id = lastTime l id := fun id => by rw [lastTime_snoc]
  obtain ⟨hk, hn⟩ := op_keeps hu
  have hinv : NInv (s.sess.step op).1 := step_ninv h.ninv op fun id n _ hi => absurd hi h.policy
  refine ⟨hinv, op_policy h.policy hu, ?_, h.apart, h.keys, ?_, ?_, fun id => (h.time id).trans (ht id).symm,
    fun id hi => (hv id).trans (h.future id (Nat.le_trans hn hi))⟩
  · intro id hi
    obtain ⟨o, ho, rfl⟩ := h.kept id hi
    exact ⟨o, hk o ho hi, rfl⟩
  · intro n v hf
    obtain ⟨o, ho, h1, h2⟩ := h.owned n v hf
    exact ⟨o, hk o ho h2, h1, h2⟩
  · intro o ho hc
    obtain ⟨x, hx, hi⟩ := h.kept _ hc
    have hx' := hk x hx (by rw [hi]; exact hc)
    have : x = o := ids_eq hinv.2 (List.mem_append_left _ hx') (List.mem_append_left _ ho) hi
    subst this
    exact (h.value x hx hc).trans (hv _).symm

theorem CInv.success {s : CondSess} {l : List CondEv} (h : CInv s l) (id : Nat) (v : Bool) (t : Int) (hid : id < s.sess.next) :
    CInv (s.success id v t) (l ++ [.success id v t]) := by
  have hof : ∀ x, OfCond (s.success id v t) x ↔ OfCond s x := fun _ => Iff.rfl
  have hfind : ∀ n, (s.success id v t).states.find n =
      if s.isCond id = true ∧ s.nameOf id = n then some v else s.states.find n := by
    intro n
    unfold CondSess.success
    by_cases hc : s.isCond id = true
    · simp [hc, Dict.find_put]
    · simp [hc]
  refine ⟨h.ninv, h.policy, h.kept, h.apart, h.keys, ?_, ?_, ?_, ?_⟩
  · intro n w hf
    rw [hfind] at hf
    split at hf
    · next hc =>
      obtain ⟨o, ho, hi⟩ := h.kept id (isCond_iff.1 hc.1)
      refine ⟨o, ho, ?_, ?_⟩
      · rw [← h.nameOf ho, hi]; exact hc.2
      · rw [hi]; exact isCond_iff.1 hc.1
    · exact h.owned n w hf
  · intro o ho hc
    rw [hfind, lastValue_snoc]
    by_cases hi : id = o.id
    · subst hi
      rw [if_pos ⟨isCond_iff.2 hc, h.nameOf ho⟩]
      simp
    · simp only [hi, if_false]
      rw [if_neg]
      · exact h.value o ho hc
      · rintro ⟨h1, h2⟩
        obtain ⟨x, hx, hxi⟩ := h.kept id (isCond_iff.1 h1)
        subst hxi
        rw [h.nameOf hx] at h2
        exact hi (by rw [h.ninv.1 x hx o ho h2])
  · intro x
    rw [lastTime_snoc]
    show (if x = id then some t else s.last x) = _
    rw [h.time x]
  · intro x hx
    rw [lastValue_snoc]
    have : s.sess.next ≤ x := hx
    simp only [show id ≠ x by omega, if_false]
    exact h.future x hx

theorem CInv.step {s : CondSess} {l : List CondEv} (h : CInv s l) {e : CondEv} (hu : Undisturbed s e) :
    CInv (s.step e) (l ++ [e]) := by
  cases e with
  | define syn d =>
    have hv : ∀ id, lastValue (l ++ [.define syn d]) id = lastValue l id := fun id => by rw [lastValue_snoc]
    have ht : ∀ id, lastTime (l ++ [.define syn d]) id = lastTime l id := fun id => by rw [lastTime_snoc]
    exact ⟨h.ninv, h.policy, h.kept, h.apart, h.keys, h.owned, fun o ho hc => (h.value o ho hc).trans (hv _).symm,
      fun id => (h.time id).trans (ht id).symm, fun id hi => (hv id).trans (h.future id hi)⟩
  | text t => exact h.text t
  | op o => exact h.op hu
  | success id v t => exact h.success id v t hu
  | restored i t =>
    have hv : ∀ id, lastValue (l ++ [.restored i t]) id = lastValue l id := fun id => by rw [lastValue_snoc]
    refine ⟨h.ninv, h.policy, h.kept, h.apart, h.keys, h.owned, fun o ho hc => (h.value o ho hc).trans (hv _).symm,
      fun id => ?_, fun id hi => (hv id).trans (h.future id hi)⟩
    rw [lastTime_snoc]
    show (if id = i then some t else s.last id) = _
    rw [h.time]

theorem run_snoc (s : CondSess) (l : List CondEv) (e : CondEv) : s.run (l ++ [e]) = (s.run l).step e := by
  unfold CondSess.run
  rw [List.foldl_append]
  rfl

theorem CInv.run (p : Policy) (bi : String → Bool) (hp : p ≠ .ignore) (l : List CondEv) :
    Calm (CondSess.init p bi) l → CInv ((CondSess.init p bi).run l) l := by
  induction l using snoc_induction with
  | h0 => exact fun _ => CInv.init p bi hp
  | h1 l e ih =>
    intro hc
    rw [run_snoc]
    refine (ih fun pre x post he => hc pre x (post ++ [e]) (by rw [he]; simp)).step ?_
    exact hc l e [] rfl

/-! ### C70 -/

/-- The active times. -/
theorem active_iff {a : ActiveTime} (ha : a.Sound) {fuel : Nat} {now t : Int} (h0 : MINT ≤ t) (h1 : t < MAXT) :
    ∃ r, isActive (fuel + 1) a.period now t = .ok r ∧ (r = true ↔ a.Valid now t) := by
  cases a with
  | always =>
    have hi : Interval.make (max MINT t) MAXT = .ok ⟨max MINT t, MAXT, .left⟩ := Interval.make_ok.2 ⟨by omega, rfl⟩
    refine ⟨true, ?_, by simp [ActiveTime.Valid]⟩
    simp only [isActive, ActiveTime.period, Period.contains, Period.rollforward, staticForward]
    rw [if_neg (by omega), hi]
    simp only [Interval.contains, Except.ok.injEq]
    simp
    omega
  | past us =>
    have h : 0 ≤ us := ha
    refine ⟨_, rfl, ?_⟩
    simp only [Bool.and_eq_true, decide_eq_true_eq, ActiveTime.Valid]
    omega
  | part sc s e =>
    obtain ⟨L, hL, hb⟩ := ha
    refine ⟨_, rfl, ?_⟩
    rw [C02_contains ⟨sc, s, e⟩ L hL ⟨hb.1, hb.2.1, hb.2.2.1, hb.2.2.2⟩]
    simp only [ActiveTime.Valid, hL, Option.getD_some]

/-- The answer of a condition, in terms of the past. -/
theorem getState_eq {s : CondSess} {l : List CondEv} (h : CInv s l) {b : Bound} (hb : OfCond s b.id) (fuel : Nat) (now : Int) :
    s.getState fuel b now = match lastTime l b.id with
      | none => .ok ((lastValue l b.id).getD false)
      | some t => match isActive fuel b.active now t with
        | .error e => .error e
        | .ok true => .ok ((lastValue l b.id).getD false)
        | .ok false => .ok false := by
  obtain ⟨o, ho, hi⟩ := h.kept _ hb
  unfold CondSess.getState
  rw [h.time, ← hi, h.nameOf ho, h.value o ho (by rw [hi]; exact hb)]
  rfl

/-- C70: a condition defined by a task is true exactly if the last successful run of its task returned true and the check is
still valid.  For every history in which the tasks of conditions are not renamed or removed and the policy for names that are
taken is never "ignore". -/
theorem C70_state_partial (p : Policy) (bi : String → Bool) (hp : p ≠ .ignore) (l : List CondEv)
    (hc : Calm (CondSess.init p bi) l) (text : String) (b : Bound)
    (hb : ((CondSess.init p bi).run l).cache.find text = some b) (a : ActiveTime) (ha : b.active = a.period) (hs : a.Sound)
    (v : Bool) (t : Int) (h0 : MINT ≤ t) (h1 : t < MAXT) (hl : LastReturn l b.id v t) (fuel : Nat) (now : Int) :
    ∃ r, ((CondSess.init p bi).run l).getState (fuel + 1) b now = .ok r ∧ (r = true ↔ v = true ∧ a.Valid now t) := by
  have hi := CInv.run p bi hp l hc
  rw [getState_eq hi ⟨_, Dict.find_mem hb, rfl⟩]
  obtain ⟨pre, post, rfl, hpost⟩ := hl
  obtain ⟨e1, e2⟩ := last_of (v := v) (t := t) pre post hpost
  rw [e1, e2, ha]
  obtain ⟨r, hr, hv⟩ := active_iff hs (fuel := fuel) (now := now) h0 h1
  simp only [hr]
  cases r with
  | false =>
    refine ⟨false, rfl, ?_⟩
    rw [← hv]
    simp
  | true =>
    refine ⟨v, rfl, ?_⟩
    rw [← hv]
    simp

/-- C70: as long as no run of the task has succeeded (in this program) the condition is false; also if a success before is
known from the log. -/
theorem C70_unknown_partial (p : Policy) (bi : String → Bool) (hp : p ≠ .ignore) (l : List CondEv)
    (hc : Calm (CondSess.init p bi) l) (text : String) (b : Bound)
    (hb : ((CondSess.init p bi).run l).cache.find text = some b) (hl : NeverReturned l b.id) (fuel : Nat) (now : Int) (r : Bool)
    (hr : ((CondSess.init p bi).run l).getState fuel b now = .ok r) : r = false := by
  have hi := CInv.run p bi hp l hc
  rw [getState_eq hi ⟨_, Dict.find_mem hb, rfl⟩, last_none l hl] at hr
  cases ht : lastTime l b.id with
  | none => rw [ht] at hr; simpa using hr.symm
  | some t =>
    rw [ht] at hr
    simp only at hr
    rcases ha : isActive fuel b.active now t with e | _ | _ <;> rw [ha] at hr
    · simp at hr
    · simpa using hr.symm
    · simpa using hr.symm

/-- C70: conditions of different texts have different tasks, with different names. -/
theorem C70_own_partial (p : Policy) (bi : String → Bool) (hp : p ≠ .ignore) (l : List CondEv)
    (hc : Calm (CondSess.init p bi) l) (text text' : String) (b b' : Bound) (hne : text ≠ text')
    (hb : ((CondSess.init p bi).run l).cache.find text = some b) (hb' : ((CondSess.init p bi).run l).cache.find text' = some b') :
    ∃ o ∈ ((CondSess.init p bi).run l).sess.tasks, ∃ o' ∈ ((CondSess.init p bi).run l).sess.tasks,
      o.id = b.id ∧ o'.id = b'.id ∧ o.id ≠ o'.id ∧ o.name ≠ o'.name := by
  have hi := CInv.run p bi hp l hc
  obtain ⟨o, ho, h1⟩ := hi.kept b.id ⟨_, Dict.find_mem hb, rfl⟩
  obtain ⟨o', ho', h1'⟩ := hi.kept b'.id ⟨_, Dict.find_mem hb', rfl⟩
  have hid : b.id ≠ b'.id := by
    intro he
    have := List.inj_on_of_nodup_map hi.apart (Dict.find_mem hb) (Dict.find_mem hb') he
    exact hne (congrArg Prod.fst this)
  exact ⟨o, ho, o', ho', h1, h1', by rw [h1, h1']; exact hid, fun he => hid (by rw [← h1, ← h1', hi.ninv.1 o ho o' ho' he])⟩

theorem matching_some : ∀ {ps : Dict CondDef} {text : String} {d : CondDef} {g : Dict String},
    matching ps text = some (d, g) → ∃ pre k post, ps = pre ++ (k, d) :: post ∧ d.groups text = some g ∧
      ∀ x ∈ pre, x.2.groups text = none
  | [], _, _, _, h => by simp [matching] at h
  | (k, d') :: l, text, d, g, h => by
    unfold matching at h
    rcases hg : d'.groups text with _ | g'
    · rw [hg] at h
      obtain ⟨pre, k', post, h1, h2, h3⟩ := matching_some h
      refine ⟨(k, d') :: pre, k', post, by rw [h1]; rfl, h2, ?_⟩
      intro x hx
      rcases List.mem_cons.1 hx with rfl | hx
      · exact hg
      · exact h3 x hx
    · rw [hg] at h
      simp only [Option.some.injEq, Prod.mk.injEq] at h
      obtain ⟨rfl, rfl⟩ := h
      exact ⟨[], k, l, rfl, hg, by simp⟩

/-- C70: when a text is read for the first time its task is made from the first definition that matches it, with the groups of
the text as parameters; whatever happens afterwards, the text stays bound to this task. -/
theorem C70_parameters (s : CondSess) (text : String) (b : Bound) (hn : s.cache.find text = none)
    (hr : (s.read text).2 = .cond b) :
    (∃ pre k d post, s.parsers = pre ++ (k, d) :: post ∧ (∀ x ∈ pre, x.2.groups text = none) ∧
      d.groups text = some b.args ∧ b.active = d.active) ∧
    ∀ l, ((s.read text).1.run l).cache.find text = some b := by
  constructor
  · unfold CondSess.read at hr
    by_cases hb : s.builtin text = true
    · rw [if_pos hb] at hr; cases hr
    rw [if_neg hb] at hr
    rcases hm : matching s.parsers text with _ | ⟨d, g⟩
    · rw [hm] at hr; cases hr
    rw [hm, hn] at hr
    simp only at hr
    obtain ⟨pre, k, post, h1, h2, h3⟩ := matching_some hm
    rcases hc : s.sess.create (condName d.fname) none with ⟨s', _ | _⟩
    · rw [hc] at hr
      simp only [CondRead.cond.injEq] at hr
      subst hr
      exact ⟨pre, k, d, post, h1, h3, h2, rfl⟩
    · rw [hc] at hr; cases hr
  · have h0 : (s.read text).1.cache.find text = some b := by
      rcases read_cases s text with he | ⟨d, g, s', hb, hm, hf, hc, he⟩
      · exfalso
        unfold CondSess.read at hr he
        by_cases hb : s.builtin text = true
        · rw [if_pos hb] at hr; cases hr
        rw [if_neg hb] at hr he
        rcases hm : matching s.parsers text with _ | ⟨d, g⟩
        · rw [hm] at hr; cases hr
        rw [hm, hn] at hr he
        simp only at hr he
        rcases hc : s.sess.create (condName d.fname) none with ⟨s', _ | _⟩
        · rw [hc] at he
          have := congrArg (fun x => x.cache.find text) he
          simp only [Dict.find_put, if_true, hn] at this
          cases this
        · rw [hc] at hr; cases hr
      · rw [he] at hr ⊢
        simp only [CondRead.cond.injEq] at hr
        subst hr
        rw [← put_absent hf, Dict.find_put, if_pos rfl]
    intro l
    induction l using snoc_induction with
    | h0 => exact h0
    | h1 l e ih =>
      rw [run_snoc]
      generalize (s.read text).1.run l = s' at ih ⊢
      cases e with
      | text t =>
        show (s'.read t).1.cache.find text = some b
        rcases read_cases s' t with he | ⟨d, g, s'', hb, hm, hf, hc, he⟩
        · rw [he]; exact ih
        · rw [he]
          simp only
          rw [← put_absent hf, Dict.find_put, if_neg]
          · exact ih
          · rintro rfl
            rw [ih] at hf
            cases hf
      | _ => exact ih

/-- C70: if names that are taken are changed ("rename"), every text that a definition matches becomes a condition. -/
theorem C70_rename (s : CondSess) (hp : s.sess.policy = .rename) (text : String) (hb : s.builtin text = false) (k : String)
    (d : CondDef) (hm : (k, d) ∈ s.parsers) (hg : d.groups text ≠ none) : ∃ b, (s.read text).2 = .cond b := by
  have h1 : ∃ d' g, matching s.parsers text = some (d', g) := by
    generalize s.parsers = ps at hm
    induction ps with
    | nil => simp at hm
    | cons x l ih =>
      obtain ⟨k', d'⟩ := x
      unfold matching
      rcases hg' : d'.groups text with _ | g'
      · refine ih ?_
        rcases List.mem_cons.1 hm with h | h
        · cases h; exact absurd hg' hg
        · exact h
      · exact ⟨d', g', rfl⟩
  obtain ⟨d', g, hm⟩ := h1
  unfold CondSess.read
  rw [hb, hm]
  simp only [Bool.false_eq_true, if_false]
  rcases s.cache.find text with _ | b
  · simp only
    have hcr : (s.sess.create (condName d'.fname) none).2 = false := by
      by_cases ht : Taken s.sess (condName d'.fname)
      · obtain ⟨_, _, _, _, h, _⟩ := C47_rename s.sess _ none hp ht
        exact h
      · exact (C47_free s.sess _ none ht).1
    rcases hc : s.sess.create (condName d'.fname) none with ⟨s', _ | _⟩
    · exact ⟨_, rfl⟩
    · rw [hc] at hcr; cases hcr
  · exact ⟨b, rfl⟩

theorem matching_put (ps : Dict CondDef) (syn : String) (d : CondDef) (text : String) (g : Dict String) (hg : d.groups text = some g)
    (hn : ∀ x ∈ ps, x.2.groups text = none) : matching (ps.put syn d) text = some (d, g) := by
  induction ps with
  | nil => simp only [Dict.put, matching, hg]
  | cons x l ih =>
    obtain ⟨k, d'⟩ := x
    unfold Dict.put
    split
    · simp only [matching, hg]
    · have h0 : d'.groups text = none := hn (k, d') List.mem_cons_self
      simp only [matching, h0]
      exact ih fun x hx => hn x (List.mem_cons_of_mem _ hx)

/-- **C70**: a condition defined with the decorator is known in the session it was given (and the default session stays as it
is): a text of its syntax, read for the first time, makes a task with the name of the function, with the values in the text.
Missing: texts that also other definitions match. -/
theorem C70_defined_partial (given default : CondSess) (syn : String) (d : CondDef) (text : String) (g : Dict String)
    (hb : given.builtin text = false) (hn : ∀ x ∈ given.parsers, x.2.groups text = none) (hg : d.groups text = some g)
    (hc : given.cache.find text = none) (hf : ¬ Taken given.sess ("_condition-" ++ d.fname)) :
    (CondSess.decorate given default syn d).2 = default ∧
      ∃ s, (CondSess.decorate given default syn d).1.read text = (s, .cond ⟨given.sess.next, g, d.active⟩) ∧
        s.sess.tasks = ⟨given.sess.next, "_condition-" ++ d.fname⟩ :: given.sess.tasks ∧
        s.cache.find text = some ⟨given.sess.next, g, d.active⟩ := by
  refine ⟨rfl, ?_⟩
  obtain ⟨h1, h2⟩ := C47_free given.sess _ none hf
  rcases hcr : given.sess.create ("_condition-" ++ d.fname) none with ⟨s', b⟩
  rw [hcr] at h1 h2
  cases (h1 : b = false)
  refine ⟨{ given with sess := s', parsers := given.parsers.put syn d, cache := given.cache.put text ⟨given.sess.next, g, d.active⟩ }, ?_, h2, ?_⟩
  · simp only [CondSess.decorate, CondSess.define, CondSess.read, hb, matching_put given.parsers syn d text g hg hn, hc, condName, hcr,
      Bool.false_eq_true, if_false]
  · simp only [Dict.find_put, if_true]

/-! ### Examples and violations -/

theorem calm_nil (s : CondSess) : Calm s [] := fun pre e post h => by simp at h

theorem calm_cons {s : CondSess} {e : CondEv} {l : List CondEv} (h : Undisturbed s e) (hl : Calm (s.step e) l) : Calm s (e :: l) := by
  intro pre x post he
  cases pre with
  | nil =>
    simp only [List.nil_append, List.cons.injEq] at he
    rw [← he.1]
    exact h
  | cons y pre =>
    simp only [List.cons_append, List.cons.injEq] at he
    rw [← he.1]
    exact hl pre x post he.2

/-- `@TaskCond(syntax=re.compile("is foo (?P<x>.)"), active_time="past 10 minutes")`, as far as two texts are concerned. -/
def fooCond : CondDef :=
  ⟨"is_foo", .delta (10 * MIN) 0, fun t => if t = "is foo a" then some [("x", "a")] else if t = "is foo b" then some [("x", "b")] else none⟩

/-- It is defined, a condition text is read, another task is made, the task of the condition succeeds and returns true. -/
def fooPast : List CondEv :=
  [.define "is foo (?P<x>.)" fooCond, .text "is foo a", .op (.create "user" none), .success 0 true (datetime 2024 1 1)]

/-- The hypotheses of `C70_state_partial`, and an answer. -/
example : Calm (CondSess.init .raise fun _ => false) fooPast ∧
    ((CondSess.init .raise fun _ => false).run fooPast).cache.find "is foo a" = some ⟨0, [("x", "a")], .delta (10 * MIN) 0⟩ ∧
    LastReturn fooPast 0 true (datetime 2024 1 1) ∧ (ActiveTime.past (10 * MIN)).Sound ∧
    ((CondSess.init .raise fun _ => false).run fooPast).getState 1 ⟨0, [("x", "a")], .delta (10 * MIN) 0⟩
      (datetime 2024 1 1 + 5 * MIN) = .ok true ∧
    ((CondSess.init .raise fun _ => false).run fooPast).getState 1 ⟨0, [("x", "a")], .delta (10 * MIN) 0⟩
      (datetime 2024 1 1 + 11 * MIN) = .ok false := by
  refine ⟨calm_cons trivial (calm_cons trivial (calm_cons trivial (calm_cons ?_ (calm_nil _)))), rfl, ⟨fooPast.take 3, [], rfl, by simp⟩,
    by unfold ActiveTime.Sound; decide, by decide +kernel, by decide +kernel⟩
  show 0 < _
  decide +kernel

/-- With "rename" the second text gets its own task. -/
example : Calm (CondSess.init .rename fun _ => false) [.define "is foo (?P<x>.)" fooCond, .text "is foo a", .text "is foo b"] ∧
    (((CondSess.init .rename fun _ => false).run [.define "is foo (?P<x>.)" fooCond, .text "is foo a", .text "is foo b"]).sess.tasks.map
      (fun o => (o.id, o.name))) = [(1, "_condition-is_foo - 1"), (0, "_condition-is_foo")] := by
  exact ⟨calm_cons trivial (calm_cons trivial (calm_cons trivial (calm_nil _))), by decide +kernel⟩

/-- Violated with the default policy: "Multiple tasks may be created when using a TaskCond with different parameters"
(meta.py:38-41), but the second text raises an exception, as its task would get the same name. -/
theorem C70_raise_violated : ∃ (s : CondSess) (text : String) (k : String) (d : CondDef),
    s = (CondSess.init .raise fun _ => false).run [.define "is foo (?P<x>.)" fooCond, .text "is foo a"] ∧
    (k, d) ∈ s.parsers ∧ d.groups text = some [("x", "b")] ∧ (s.read text).2 = .raised :=
  ⟨_, "is foo b", _, fooCond, rfl, .head _, rfl, rfl⟩

/-- Violated with the policy "ignore": the second text becomes a condition whose task is not in the session and never runs,
but it is true as soon as the task of the first has returned true (`_cond_states` goes by names). -/
theorem C70_ignore_violated : ∃ (l : List CondEv) (b b' : Bound) (s : CondSess),
    s = (CondSess.init .ignore fun _ => false).run l ∧
    s.cache.find "is foo a" = some b ∧ s.cache.find "is foo b" = some b' ∧ b.args ≠ b'.args ∧
    NeverReturned l b'.id ∧ (∀ o ∈ s.sess.tasks, o.id ≠ b'.id) ∧ ∀ fuel now, s.getState fuel b' now = .ok true := by
  refine ⟨[.define "is foo (?P<x>.)" fooCond, .text "is foo a", .text "is foo b", .success 0 true (datetime 2024 1 1)],
    ⟨0, [("x", "a")], .delta (10 * MIN) 0⟩, ⟨1, [("x", "b")], .delta (10 * MIN) 0⟩, _, rfl, rfl, rfl, by decide, ?_, by decide +kernel,
    fun _ _ => rfl⟩
  intro e he v t
  simp only [List.mem_cons, List.not_mem_nil, or_false] at he
  rcases he with rfl | rfl | rfl | rfl <;> simp

/-- Violated: `TaskCond(func=…, syntax=…, session=…)` does not make the syntax known in that session but in the default
session. -/
theorem C70_init_violated (given default : CondSess) (syn : String) (d : CondDef) (text : String)
    (_hg : d.groups text ≠ none) (hb : given.builtin text = false) (hn : ∀ x ∈ given.parsers, x.2.groups text = none) :
    ((CondSess.taskCond given default syn d true).1.read text).2 = .unknown := by
  have hm : matching given.parsers text = none := by
    revert hn
    generalize given.parsers = ps
    intro hn
    induction ps with
    | nil => rfl
    | cons x l ih =>
      obtain ⟨k, d⟩ := x
      unfold matching
      rw [hn _ List.mem_cons_self]
      exact ih fun x hx => hn x (List.mem_cons_of_mem _ hx)
  simp [CondSess.taskCond, CondSess.read, hb, hm]

/-- … while with the decorator it is known in the session. -/
example : ((CondSess.decorate (CondSess.init .raise fun _ => false) (CondSess.init .raise fun _ => false) "is foo" fooCond).1.read
    "is foo a").2 = .cond ⟨0, [("x", "a")], .delta (10 * MIN) 0⟩ := by
  obtain ⟨-, s, h, -⟩ := C70_defined_partial (CondSess.init .raise fun _ => false) (CondSess.init .raise fun _ => false) "is foo" fooCond
    "is foo a" [("x", "a")] rfl (by simp [CondSess.init]) rfl rfl (by simp [Taken, CondSess.init, Sess.init])
  rw [h]
  rfl

end Rocketry.Props
