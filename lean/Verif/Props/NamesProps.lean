import Verif.Spec.NamesSpec

/-!
# Properties C46, C47 and C51: names of tasks, ids of runs
-/

namespace Rocketry.Props
open Rocketry.Session Rocketry.Spec

/-! ### Lookup -/

theorem get_some {s : Sess} {n : String} {o : Obj} (h : s.get n = some o) : o ∈ s.tasks ∧ o.name = n := by
  unfold Sess.get at h
  exact ⟨List.mem_of_find?_eq_some h, by simpa using List.find?_some h⟩

theorem has_iff {s : Sess} {n : String} : s.has n = true ↔ Taken s n := by
  unfold Sess.has Sess.get Taken
  simp

theorem not_has {s : Sess} {n : String} (h : ¬ Taken s n) : s.has n = false := by
  rw [← has_iff] at h; simpa using h

theorem get_none {s : Sess} {n : String} (h : ¬ Taken s n) : s.get n = none := by
  have := not_has h
  unfold Sess.has at this
  simpa using this

theorem unique_looksUp {s : Sess} (h : Unique s) : LooksUp s := by
  refine ⟨fun o ho => ?_, fun n hn => get_none hn⟩
  have ht : s.has o.name = true := has_iff.2 ⟨o, ho, rfl⟩
  obtain ⟨x, hx⟩ := Option.isSome_iff_exists.1 ht
  obtain ⟨h1, h2⟩ := get_some hx
  rw [hx, h x h1 o ho h2]

theorem numbered_inj (b : String) (i j : Nat) (h : numbered b i = numbered b j) : i = j := by
  unfold numbered at h
  exact Nat.repr_injective ((String.append_right_inj _).1 h)

/-- The loop finds the least number whose name is free. -/
theorem freshName_spec (s : Sess) (b : String) : ∃ k, 1 ≤ k ∧ s.freshName b = some (numbered b k) ∧
    ¬ Taken s (numbered b k) ∧ ∀ i, 1 ≤ i → i < k → Taken s (numbered b i) := by
  obtain ⟨k, hk⟩ := seek_found (p := fun i => s.has (numbered b i)) (f := numbered b) (numbered_inj b)
    (L := s.tasks.map Obj.name) (k := s.tasks.length + 1) (n := 1)
    (fun i hi => by obtain ⟨o, ho, hn⟩ := has_iff.1 hi; exact List.mem_map.2 ⟨o, ho, hn⟩) (by simp)
  obtain ⟨h1, h2, h3⟩ := seek_some hk
  refine ⟨k, h2, by unfold Sess.freshName; rw [hk]; rfl, fun ht => ?_, fun i hi hik => has_iff.1 (h3 i hi hik)⟩
  have := has_iff.2 ht
  simp only [this] at h1
  exact absurd h1 (by simp)

/-- A name that passes the validators is free, unless the policy is `ignore`. -/
theorem checkName_spec {s : Sess} {v w : String} (h : s.checkName v = some w) :
    ¬ Taken s w ∨ (s.policy = .ignore ∧ w = v ∧ Taken s v) := by
  unfold Sess.checkName at h
  rcases hp : s.parseName v with _ | u
  · rw [hp] at h; simp at h
  rw [hp] at h
  simp only [Sess.validateName] at h
  by_cases hu : s.has u = true
  · rw [if_pos hu] at h
    by_cases hi : s.policy = .ignore
    · rw [if_pos hi] at h
      obtain rfl : u = w := by simpa using h
      unfold Sess.parseName at hp
      by_cases hv : s.has v = true
      · rw [if_pos hv, hi] at hp
        obtain rfl : v = u := by simpa using hp
        exact .inr ⟨hi, rfl, has_iff.1 hv⟩
      · rw [if_neg hv] at hp
        obtain rfl : v = u := by simpa using hp
        exact absurd hu hv
    · rw [if_neg hi] at h; simp at h
  · rw [if_neg hu] at h
    obtain rfl : u = w := by simpa using h
    exact .inl (fun ht => hu (has_iff.2 ht))

theorem checkName_free {s : Sess} {v : String} (h : ¬ Taken s v) : s.checkName v = some v := by
  have := not_has h
  simp [Sess.checkName, Sess.parseName, Sess.validateName, this]

/-! ### C47: the policy when a name exists -/

theorem taken_born {s : Sess} {v n : String} : Taken (s.born v) n ↔ Taken s n := Iff.rfl

/-- Registration of a new object under a free name. -/
theorem addTask_born {s : Sess} {v : String} (h : ¬ Taken s v) :
    ((s.born v).addTask ⟨s.next, v⟩).2 = false ∧ ((s.born v).addTask ⟨s.next, v⟩).1.tasks = ⟨s.next, v⟩ :: s.tasks ∧
      ((s.born v).addTask ⟨s.next, v⟩).1.fn = s.fn := by
  have := not_has (s := s.born v) (n := v) h
  unfold Sess.addTask
  simp only [this]
  exact ⟨rfl, rfl, rfl⟩

/-- Creation of a task whose name passes the validators. -/
theorem create_free {s : Sess} {n v : String} (f : Option Nat) (hc : s.checkName n = some v) (h : ¬ Taken s v) :
    (s.create n f).2 = false ∧ (s.create n f).1.tasks = ⟨s.next, v⟩ :: s.tasks ∧
      (s.create n f).1.fn = setFn s.fn f v := by
  obtain ⟨h1, h2, h3⟩ := addTask_born h
  unfold Sess.create
  rw [hc]
  simp only
  rcases ha : (s.born v).addTask ⟨s.next, v⟩ with ⟨s', b⟩
  rw [ha] at h1 h2 h3
  obtain rfl : b = false := h1
  exact ⟨rfl, h2, by rw [← h3]⟩

/-- **C47**, a name that is free: the task is registered under it, whatever the policy. -/
theorem C47_free (s : Sess) (n : String) (f : Option Nat) (h : ¬ Taken s n) :
    (s.create n f).2 = false ∧ (s.create n f).1.tasks = ⟨s.next, n⟩ :: s.tasks :=
  ⟨(create_free f (checkName_free h) h).1, (create_free f (checkName_free h) h).2.1⟩

/-- **C47**, policy `raise`: an exception, and nothing changes. -/
theorem C47_raise (s : Sess) (n : String) (f : Option Nat) (hp : s.policy = .raise) (h : Taken s n) :
    s.create n f = (s, true) := by
  simp [Sess.create, Sess.checkName, Sess.parseName, has_iff.2 h, hp]

/-- **C47**, policy `rename`: the task is registered as `base - k` for the least `k ≥ 1` for which that is free. -/
theorem C47_rename (s : Sess) (n : String) (f : Option Nat) (hp : s.policy = .rename) (h : Taken s n) :
    ∃ k, 1 ≤ k ∧ ¬ Taken s (n ++ " - " ++ Nat.repr k) ∧ (∀ i, 1 ≤ i → i < k → Taken s (n ++ " - " ++ Nat.repr i)) ∧
      (s.create n f).2 = false ∧
      (s.create n f).1.tasks = ⟨s.next, n ++ " - " ++ Nat.repr k⟩ :: s.tasks := by
  obtain ⟨k, h1, h2, h3, h4⟩ := freshName_spec s n
  have hc : s.checkName n = some (numbered n k) := by
    simp [Sess.checkName, Sess.parseName, has_iff.2 h, hp, h2, Sess.validateName, not_has h3]
  exact ⟨k, h1, h3, h4, (create_free f hc h3).1, (create_free f hc h3).2.1⟩

/-- **C47**, policy `ignore`: no exception, and the tasks of the session stay the same. -/
theorem C47_ignore (s : Sess) (n : String) (f : Option Nat) (hp : s.policy = .ignore) (h : Taken s n) :
    (s.create n f).2 = false ∧ (s.create n f).1.tasks = s.tasks := by
  have hc : s.checkName n = some n := by
    simp [Sess.checkName, Sess.parseName, has_iff.2 h, hp, Sess.validateName]
  have hh : (s.born n).has n = true := has_iff.2 (taken_born.2 h)
  have ha : (s.born n).addTask ⟨s.next, n⟩ = (s.born n, false) := by
    unfold Sess.addTask
    simp only [hh, if_true]
    rw [show (s.born n).policy = .ignore from hp]
  unfold Sess.create
  rw [hc]
  simp only [ha]
  exact ⟨trivial, rfl⟩

/-- **C47** fails for `replace`: no task is ever replaced; the creation raises an exception and nothing changes. -/
theorem C47_replace_violated (s : Sess) (n : String) (f : Option Nat) (hp : s.policy = .replace) (h : Taken s n) :
    s.create n f = (s, true) := by
  simp [Sess.create, Sess.checkName, Sess.parseName, has_iff.2 h, hp, Sess.validateName]

/-- `session.add_task` of another task with a taken name does not replace either: it raises an exception. -/
theorem C47_add_replace_violated (s : Sess) (o : Obj) (hp : s.policy = .replace) (h : Taken s o.name)
    (ho : o ∉ s.tasks) : s.addTask o = (s, true) := by
  simp [Sess.addTask, has_iff.2 h, hp, ho]

/-! ### C46: names are unique -/

/-- The objects are different and older than the next one. -/
def Ids (s : Sess) : Prop := ((s.tasks ++ s.outside).map Obj.id).Nodup ∧ ∀ o ∈ s.tasks ++ s.outside, o.id < s.next

def NInv (s : Sess) : Prop := Unique s ∧ Ids s

theorem filter_split (l : List Obj) (p : Obj → Bool) (r : List Obj) :
    (l.filter (fun o => !p o) ++ (l.filter p ++ r)).Perm (l ++ r) := by
  rw [← List.append_assoc]
  refine List.Perm.append_right r ?_
  exact (List.perm_append_comm).trans (List.filter_append_perm p l)

theorem ids_perm {s t : Sess} (h : Ids s) (hp : (t.tasks ++ t.outside).Perm (s.tasks ++ s.outside))
    (hn : t.next = s.next) : Ids t :=
  ⟨((hp.map Obj.id).nodup_iff).2 h.1, fun o ho => hn ▸ h.2 o (hp.mem_iff.1 ho)⟩

theorem removeBy_ninv {s : Sess} (h : NInv s) (p : Obj → Bool) : NInv (s.removeBy p) := by
  refine ⟨fun a ha b hb hab => ?_, ids_perm h.2 (filter_split _ _ _) rfl⟩
  exact h.1 a (List.mem_of_mem_filter ha) b (List.mem_of_mem_filter hb) hab

/-- The object with a given id moved to the front. -/
theorem filter_id : ∀ {l : List Obj} {o : Obj}, (l.map Obj.id).Nodup → o ∈ l →
    l.Perm (o :: l.filter (fun x => decide (x.id ≠ o.id)))
  | [], _, _, h => by simp at h
  | a :: l, o, hn, h => by
    rw [List.map_cons, List.nodup_cons] at hn
    by_cases hao : a = o
    · subst hao
      rw [List.filter_cons, if_neg (by simp)]
      refine List.Perm.cons _ ?_
      rw [List.filter_eq_self.2]
      intro x hx
      simp only [ne_eq, decide_not, Bool.not_eq_eq_eq_not, Bool.not_true, decide_eq_false_iff_not]
      exact fun he => hn.1 (List.mem_map.2 ⟨x, hx, he⟩)
    · have hol : o ∈ l := by
        rcases List.mem_cons.1 h with rfl | h
        · exact absurd rfl hao
        · exact h
      have hid : a.id ≠ o.id := fun he => hn.1 (he ▸ List.mem_map.2 ⟨o, hol, rfl⟩)
      rw [List.filter_cons, if_pos (by simpa using hid)]
      exact ((filter_id hn.2 hol).cons a).trans (List.Perm.swap _ _ _)

theorem addTask_ninv {s : Sess} (h : NInv s) {o : Obj} (ho : o ∈ s.tasks ++ s.outside) : NInv (s.addTask o).1 := by
  unfold Sess.addTask
  by_cases hh : s.has o.name = true
  · rw [if_pos hh]
    rcases s.policy with _ | _ | _ | _ | _ <;> try exact h
    by_cases hm : o ∈ s.tasks
    · simp only [if_pos hm]; exact h
    · simp only [if_neg hm]; exact h
  · rw [if_neg hh]
    have hnt : ¬ Taken s o.name := fun ht => hh (has_iff.2 ht)
    have hout : o ∈ s.outside := by
      rcases List.mem_append.1 ho with hm | hm
      · exact absurd ⟨o, hm, rfl⟩ hnt
      · exact hm
    refine ⟨fun a ha b hb hab => ?_, ?_⟩
    · have ha' : a = o ∨ a ∈ s.tasks := List.mem_cons.1 ha
      have hb' : b = o ∨ b ∈ s.tasks := List.mem_cons.1 hb
      clear ha hb
      rcases ha' with rfl | ha <;> rcases hb' with rfl | hb
      · rfl
      · exact absurd ⟨b, hb, hab.symm⟩ hnt
      · exact absurd ⟨a, ha, hab⟩ hnt
      · exact h.1 a ha b hb hab
    · refine ids_perm h.2 ?_ rfl
      have hnd : (s.outside.map Obj.id).Nodup := by
        have := h.2.1
        rw [List.map_append] at this
        exact (List.nodup_append.1 this).2.1
      have hp := filter_id hnd hout
      show ((o :: s.tasks) ++ s.outside.filter _).Perm _
      refine List.Perm.trans ?_ (List.Perm.append_left s.tasks hp.symm)
      exact (List.perm_middle).symm

theorem fn_ninv {s : Sess} (h : NInv s) (fn : Nat → Option String) : NInv { s with fn := fn } := h

theorem fresh_ninv {s : Sess} (h : NInv s) (v : String) : NInv (s.born v) := by
  have hp : (s.tasks ++ (⟨s.next, v⟩ : Obj) :: s.outside).Perm (⟨s.next, v⟩ :: (s.tasks ++ s.outside)) :=
    List.perm_middle
  refine ⟨h.1, ?_, fun o ho => ?_⟩
  · show ((s.tasks ++ (⟨s.next, v⟩ : Obj) :: s.outside).map Obj.id).Nodup
    rw [(hp.map Obj.id).nodup_iff, List.map_cons, List.nodup_cons]
    refine ⟨fun hm => ?_, h.2.1⟩
    obtain ⟨x, hx, hxe⟩ := List.mem_map.1 hm
    have := h.2.2 x hx
    dsimp only at hxe
    omega
  · show o.id < s.next + 1
    rcases List.mem_cons.1 (hp.mem_iff.1 ho) with rfl | ho
    · exact Nat.lt_succ_self _
    · have := h.2.2 o ho; omega

theorem renamed_id (id : Nat) (v : String) (o : Obj) : (Obj.renamed id v o).id = o.id := by
  unfold Obj.renamed; by_cases h : o.id = id <;> simp [h]

theorem rename_ids (id : Nat) (v : String) (l : List Obj) : (l.map (Obj.renamed id v)).map Obj.id = l.map Obj.id := by
  rw [List.map_map]
  exact List.map_congr_left fun o _ => renamed_id id v o

theorem create_ninv {s : Sess} (h : NInv s) (n : String) (f : Option Nat) : NInv (s.create n f).1 := by
  unfold Sess.create
  rcases hv : s.checkName n with _ | v
  · exact h
  have h1 := addTask_ninv (fresh_ninv h v) (o := ⟨s.next, v⟩) (by simp [Sess.born])
  simp only
  rcases ha : (s.born v).addTask ⟨s.next, v⟩ with ⟨s', _ | _⟩
  · rw [ha] at h1
    exact fn_ninv h1 _
  · exact h

theorem rename_ninv {s : Sess} (h : NInv s) (id : Nat) (n : String) (hc : s.policy = .ignore → ¬ Taken s n) :
    NInv (s.rename id n).1 := by
  unfold Sess.rename
  rcases hv : s.checkName n with _ | v
  · exact h
  have hfree : ¬ Taken s v := by
    rcases checkName_spec hv with h1 | ⟨h1, h2, h3⟩
    · exact h1
    · exact absurd h3 (hc h1)
  refine ⟨fun a ha b hb hab => ?_, ?_, fun o ho => ?_⟩
  · obtain ⟨x, hx, rfl⟩ := List.mem_map.1 ha
    obtain ⟨y, hy, rfl⟩ := List.mem_map.1 hb
    unfold Obj.renamed at hab ⊢
    by_cases h1 : x.id = id <;> by_cases h2 : y.id = id
    · simp only [if_pos h1, if_pos h2] at hab ⊢
      rw [Obj.mk.injEq]
      exact ⟨by omega, rfl⟩
    · simp only [if_pos h1, if_neg h2] at hab
      exact absurd ⟨y, hy, hab.symm⟩ hfree
    · simp only [if_neg h1, if_pos h2] at hab
      exact absurd ⟨x, hx, hab⟩ hfree
    · simp only [if_neg h1, if_neg h2] at hab ⊢
      exact h.1 x hx y hy hab
  · show ((s.tasks.map (Obj.renamed id v) ++ s.outside.map (Obj.renamed id v)).map Obj.id).Nodup
    rw [List.map_append, rename_ids, rename_ids, ← List.map_append]
    exact h.2.1
  · have ho' : o ∈ s.tasks.map (Obj.renamed id v) ++ s.outside.map (Obj.renamed id v) := ho
    rw [← List.map_append] at ho'
    obtain ⟨x, hx, rfl⟩ := List.mem_map.1 ho'
    rw [renamed_id]
    exact h.2.2 x hx

/-- What an operation does to uniqueness. -/
theorem step_ninv {s : Sess} (h : NInv s) (op : Op)
    (hc : ∀ id n, op = .rename id n → s.policy = .ignore → ¬ Taken s n) : NInv (s.step op).1 := by
  cases op with
  | create n f => exact create_ninv h n f
  | add id =>
    show NInv (s.addId id).1
    unfold Sess.addId
    rcases hf : s.object id with _ | o
    · exact h
    · exact addTask_ninv h (List.mem_of_find?_eq_some hf)
  | rename id n => exact rename_ninv h id n (hc id n rfl)
  | removeObj id =>
    show NInv (s.removeObj id).1
    unfold Sess.removeObj
    by_cases hm : s.tasks.any (fun o => decide (o.id = id)) = true
    · rw [if_pos hm]; exact removeBy_ninv h _
    · rw [if_neg hm]; exact h
  | removeName n =>
    show NInv (s.removeName n).1
    unfold Sess.removeName
    rcases s.get n with _ | x
    · exact h
    · exact removeBy_ninv h _
  | clear => exact ⟨fun a ha => absurd ha (by simp [Sess.step, Sess.clear]), ids_perm h.2 (by simp [Sess.step, Sess.clear]) rfl⟩
  | setPolicy p => exact h

theorem run_ninv : ∀ (l : List Op) {s : Sess}, NInv s → NoClash s l → NInv (s.run l)
  | [], _, h, _ => h
  | op :: l, s, h, hc => by
    refine run_ninv l (s := (s.step op).1) (step_ninv h op fun id n he hp => ?_) fun pre post id n he hp => ?_
    · exact hc [] l id n (by rw [he]; rfl) hp
    · exact hc (op :: pre) post id n (by rw [he]; rfl) hp

theorem init_ninv (p : Policy) : NInv (Sess.init p) :=
  ⟨fun a ha => by simp [Sess.init] at ha, by simp [Sess.init], fun o ho => by simp [Sess.init] at ho⟩

/-- **C46**, partial: whatever the operations on a session (creations, additions, renames, removals, also changes of
the policy), as long as no task is renamed to a taken name while the policy is `ignore`, names are unique and lookup
by name finds exactly the task of that name.  Missing: that case (`C46_ignore_violated`). -/
theorem C46_unique_partial (p : Policy) (l : List Op) (h : NoClash (Sess.init p) l) :
    Unique ((Sess.init p).run l) ∧ LooksUp ((Sess.init p).run l) := by
  have := run_ninv l (init_ninv p) h
  exact ⟨this.1, unique_looksUp this.1⟩

theorem addTask_same (s : Sess) (o : Obj) : (s.addTask o).1.policy = s.policy ∧ (s.addTask o).1.fn = s.fn := by
  have : (s.addTask o).1 = s ∨ (s.addTask o).1
      = { s with tasks := o :: s.tasks, outside := s.outside.filter (fun x => decide (x.id ≠ o.id)) } := by
    unfold Sess.addTask
    by_cases hh : s.has o.name = true
    · rw [if_pos hh]
      left
      rcases s.policy with _ | _ | _ | _ | _ <;> try rfl
      by_cases hm : o ∈ s.tasks
      · simp only [if_pos hm]
      · simp only [if_neg hm]
    · rw [if_neg hh]; exact .inr rfl
  rcases this with h | h <;> rw [h] <;> exact ⟨rfl, rfl⟩

/-- Only `setPolicy` changes the policy, and only a creation the link of a function. -/
theorem step_same (s : Sess) (op : Op) :
    ((∀ p, op ≠ .setPolicy p) → (s.step op).1.policy = s.policy) ∧
    (∀ f, (∀ n, op ≠ .create n (some f)) → (s.step op).1.fn f = s.fn f) := by
  cases op with
  | create n g =>
    show (_ → (s.create n g).1.policy = _) ∧ (∀ f, _ → (s.create n g).1.fn f = _)
    unfold Sess.create
    rcases s.checkName n with _ | v
    · exact ⟨fun _ => rfl, fun _ _ => rfl⟩
    have h1 := addTask_same (s.born v) ⟨s.next, v⟩
    simp only
    rcases ha : (s.born v).addTask ⟨s.next, v⟩ with ⟨s', _ | _⟩
    · rw [ha] at h1
      refine ⟨fun _ => h1.1, fun f hf => ?_⟩
      show setFn s'.fn g v f = s.fn f
      rw [h1.2]
      cases g with
      | none => rfl
      | some g =>
        have hne : f ≠ g := fun he => hf n (by rw [he])
        show (if f = g then some v else s.fn f) = s.fn f
        rw [if_neg hne]
    · exact ⟨fun _ => rfl, fun _ _ => rfl⟩
  | add id =>
    show (_ → (s.addId id).1.policy = _) ∧ (∀ f, _ → (s.addId id).1.fn f = _)
    unfold Sess.addId
    rcases s.object id with _ | o
    · exact ⟨fun _ => rfl, fun _ _ => rfl⟩
    · exact ⟨fun _ => (addTask_same s o).1, fun _ _ => by rw [(addTask_same s o).2]⟩
  | rename id n =>
    show (_ → (s.rename id n).1.policy = _) ∧ (∀ f, _ → (s.rename id n).1.fn f = _)
    unfold Sess.rename
    rcases s.checkName n with _ | v <;> exact ⟨fun _ => rfl, fun _ _ => rfl⟩
  | removeObj id =>
    show (_ → (s.removeObj id).1.policy = _) ∧ (∀ f, _ → (s.removeObj id).1.fn f = _)
    unfold Sess.removeObj
    by_cases hm : s.tasks.any (fun o => decide (o.id = id)) = true
    · rw [if_pos hm]; exact ⟨fun _ => rfl, fun _ _ => rfl⟩
    · rw [if_neg hm]; exact ⟨fun _ => rfl, fun _ _ => rfl⟩
  | removeName n =>
    show (_ → (s.removeName n).1.policy = _) ∧ (∀ f, _ → (s.removeName n).1.fn f = _)
    unfold Sess.removeName
    rcases s.get n with _ | x <;> exact ⟨fun _ => rfl, fun _ _ => rfl⟩
  | clear => exact ⟨fun _ => rfl, fun _ _ => rfl⟩
  | setPolicy p => exact ⟨fun h => absurd rfl (h p), fun _ _ => rfl⟩

theorem run_policy : ∀ (l : List Op) (s : Sess), s.policy ≠ .ignore → Op.setPolicy .ignore ∉ l →
    (s.run l).policy ≠ .ignore
  | [], _, h, _ => h
  | op :: l, s, h, hn => by
    refine run_policy l (s.step op).1 ?_ (fun hm => hn (List.mem_cons_of_mem _ hm))
    by_cases hp : ∃ p, op = .setPolicy p
    · obtain ⟨p, rfl⟩ := hp
      intro hh
      exact hn (by rw [show p = .ignore from hh]; exact List.mem_cons_self ..)
    · rw [(step_same s op).1 (fun p he => hp ⟨p, he⟩)]
      exact h

theorem run_fn (f : Nat) : ∀ (l : List Op) (s : Sess), (∀ n, Op.create n (some f) ∉ l) → (s.run l).fn f = s.fn f
  | [], _, _ => rfl
  | op :: l, s, h => by
    show ((s.step op).1.run l).fn f = _
    rw [run_fn f l _ (fun n hm => h n (List.mem_cons_of_mem _ hm))]
    exact (step_same s op).2 f (fun n he => h n (by rw [he]; exact List.mem_cons_self ..))

/-- **C46** without any condition on the renames, for sessions that never have the policy `ignore`. -/
theorem C46_unique (p : Policy) (hp : p ≠ .ignore) (l : List Op) (h : Op.setPolicy .ignore ∉ l) :
    Unique ((Sess.init p).run l) ∧ LooksUp ((Sess.init p).run l) := by
  refine C46_unique_partial p l fun pre post id n he hi => ?_
  exact absurd hi (run_policy pre _ hp (fun hm => h (by rw [he]; exact List.mem_append_left _ hm)))

/-- **C46**: removing by name takes out the task of that name and no other; if there is none it raises an exception and changes
nothing. -/
theorem C46_removed_partial (p : Policy) (l : List Op) (h : NoClash (Sess.init p) l) (n : String) :
    let s := (Sess.init p).run l
    (Taken s n → (s.step (.removeName n)).2 = false ∧
      (s.step (.removeName n)).1.tasks = s.tasks.filter (fun o => decide (o.name ≠ n))) ∧
    (¬ Taken s n → s.step (.removeName n) = (s, true)) := by
  intro s
  have hi : NInv s := run_ninv l (init_ninv p) h
  have hl := unique_looksUp hi.1
  refine ⟨fun ⟨x, hx, hn⟩ => ?_, fun ht => ?_⟩
  · have hg : s.get n = some x := by rw [← hn]; exact hl.1 x hx
    simp only [Sess.step, Sess.removeName, hg, Sess.removeBy, true_and]
    refine List.filter_congr fun o ho => ?_
    have hids : o.id = x.id ↔ o.name = n := by
      constructor
      · intro he
        have hnd : (s.tasks.map Obj.id).Nodup := by
          have := hi.2.1
          rw [List.map_append] at this
          exact (List.nodup_append.1 this).1
        rw [List.inj_on_of_nodup_map hnd ho hx he, hn]
      · intro he
        rw [hi.1 o ho x hx (he.trans hn.symm)]
    simp [hids]
  · simp only [Sess.step, Sess.removeName, hl.2 n ht]

/-- An example: creations with policy `rename`, a renaming and a removal. -/
def namesRun : List Op :=
  [.create "a" (some 7), .create "a" none, .create "a - 1" none, .rename 0 "a - 1", .removeName "a - 1", .add 1,
    .setPolicy .raise, .create "a" (some 8)]

example : Op.setPolicy .ignore ∉ namesRun ∧ ((Sess.init .rename).run namesRun).tasks
    = [⟨3, "a"⟩, ⟨1, "a - 1"⟩, ⟨2, "a - 1 - 1"⟩, ⟨0, "a - 1 - 2"⟩] := by decide +kernel

example : let s := (Sess.init .raise).run [.create "a" none, .create "b" none]
    Taken s "a" ∧ (s.step (.removeName "a")).1.tasks = [⟨1, "b"⟩] := by
  refine ⟨⟨⟨0, "a"⟩, by decide +kernel, rfl⟩, by decide +kernel⟩

/-- **C46**, lookup by function, partial: a task was created from a function under a name that passed; whatever
happened afterwards, if the function was not decorated again and the task still is in the session with that name, then
the lookup by the function finds exactly that task. -/
theorem C46_function_partial (p : Policy) (pre post : List Op) (n : String) (f : Nat)
    (hc : NoClash (Sess.init p) (pre ++ .create n (some f) :: post)) (hf : ∀ m, Op.create m (some f) ∉ post)
    (v : String) (hv : ((Sess.init p).run pre).checkName n = some v)
    (hfree : ¬ Taken ((Sess.init p).run pre) v)
    (hin : ⟨((Sess.init p).run pre).next, v⟩ ∈ ((Sess.init p).run (pre ++ .create n (some f) :: post)).tasks) :
    ((Sess.init p).run (pre ++ .create n (some f) :: post)).getFn f = some ⟨((Sess.init p).run pre).next, v⟩ := by
  have hl := (C46_unique_partial p _ hc).2.1 _ hin
  have hfn : ((Sess.init p).run (pre ++ .create n (some f) :: post)).fn f = some v := by
    have he : (Sess.init p).run (pre ++ .create n (some f) :: post)
        = ((((Sess.init p).run pre).step (.create n (some f))).1).run post := by
      unfold Sess.run; rw [List.foldl_append]; rfl
    rw [he, run_fn f post _ hf]
    show (((Sess.init p).run pre).create n (some f)).1.fn f = some v
    rw [(create_free (some f) hv hfree).2.2]
    show (if f = f then some v else _) = some v
    rw [if_pos rfl]
  unfold Sess.getFn
  rw [hfn]
  exact hl

example : ((Sess.init .rename).run namesRun).getFn 8 = some ⟨3, "a"⟩ := by decide +kernel

/-- **C46** fails for functions whose task is renamed: the lookup finds nothing, or another task that took the name. -/
theorem C46_function_violated : ∃ (l : List Op), Op.setPolicy .ignore ∉ l ∧
    (⟨0, "b"⟩ : Obj) ∈ ((Sess.init .raise).run (.create "a" (some 7) :: l)).tasks ∧
    ((Sess.init .raise).run (.create "a" (some 7) :: l)).getFn 7 = some ⟨1, "a"⟩ :=
  ⟨[.rename 0 "b", .create "a" none], by decide +kernel⟩

/-- **C46**: a function of which no task was made finds no task. -/
theorem C46_plain (p : Policy) (l : List Op) (f : Nat) (h : ∀ n, Op.create n (some f) ∉ l) :
    ((Sess.init p).run l).getFn f = none := by
  have hf : ((Sess.init p).run l).fn f = none := by rw [run_fn f l _ h]; rfl
  unfold Sess.getFn
  rw [hf]

example : (∀ n, Op.create n (some 9) ∉ namesRun) ∧ ((Sess.init .rename).run namesRun).getFn 9 = none := by
  refine ⟨fun n h => ?_, by decide +kernel⟩
  simp [namesRun] at h

/-- With `ignore` a function whose task was not registered is linked to the task of that name. -/
theorem C46_function_ignore_violated : ∃ (l : List Op),
    ((Sess.init .ignore).run l).getFn 8 = some ⟨0, "a"⟩ ∧ ((Sess.init .ignore).run l).getFn 7 = some ⟨0, "a"⟩ :=
  ⟨[.create "a" (some 7), .create "a" (some 8)], by decide +kernel⟩

/-- **C46** fails with policy `ignore`: a task can be renamed to the name of another one. -/
theorem C46_ignore_violated : ∃ (l : List Op), ¬ Unique ((Sess.init .ignore).run l) ∧
    ∃ o ∈ ((Sess.init .ignore).run l).tasks, ((Sess.init .ignore).run l).get o.name ≠ some o := by
  refine ⟨[.create "a" none, .create "b" none, .rename 1 "a"], ?_, ⟨0, "a"⟩, by decide +kernel, by decide +kernel⟩
  intro h
  exact absurd (h ⟨0, "a"⟩ (by decide +kernel) ⟨1, "a"⟩ (by decide +kernel) rfl) (by decide)

/-! ### Cases for C47 -/

/-- A session with the tasks `x`, `x - 1` and `x - 3`. -/
def threeTasks (p : Policy) : Sess := (Sess.init .raise).run [.create "x" none, .create "x - 1" none,
  .create "x - 3" none, .setPolicy p]

example : Taken (threeTasks .rename) "x" ∧ ((threeTasks .rename).create "x" none).1.tasks.map Obj.name
      = ["x - 2", "x - 3", "x - 1", "x"] ∧
    ((threeTasks .rename).create "x - 1" none).1.tasks.map Obj.name = ["x - 1 - 1", "x - 3", "x - 1", "x"] ∧
    (threeTasks .raise).policy = .raise ∧ (threeTasks .ignore).policy = .ignore ∧
    (threeTasks .replace).policy = .replace :=
  ⟨⟨⟨0, "x"⟩, by decide +kernel, rfl⟩, by decide +kernel, by decide +kernel, by decide +kernel, by decide +kernel,
    by decide +kernel⟩

/-! ### C51: ids of runs -/

/-- **C51**: `increment` gives the least positive number that is not the id of a tracked run, whatever ids there are. -/
theorem C51_least (ids : List (Option String)) : ∃ k, 1 ≤ k ∧ increment ids = some (Nat.repr k) ∧
    some (Nat.repr k) ∉ ids ∧ ∀ i, 1 ≤ i → i < k → some (Nat.repr i) ∈ ids := by
  obtain ⟨k, hk⟩ := seek_found (p := fun i => ids.contains (some (Nat.repr i))) (f := fun i => some (Nat.repr i))
    (fun i j h => Nat.repr_injective (by simpa using h)) (L := ids) (k := ids.length + 1) (n := 1)
    (fun i hi => by simpa using hi) (by simp)
  obtain ⟨h1, h2, h3⟩ := seek_some hk
  exact ⟨k, h2, by unfold increment; rw [hk]; rfl, by simpa using h1, fun i hi hik => by simpa using h3 i hi hik⟩

/-- **C51**: the tracked runs of a task have different ids, whatever runs have started and finished. -/
theorem C51_distinct {l : List (Option String)} (h : Tracked l) : l.Nodup := by
  induction h with
  | nil => exact List.nodup_nil
  | @start l i _ hi ih =>
    obtain ⟨k, _, hk, hn, _⟩ := C51_least l
    rw [hi] at hk
    obtain rfl : i = Nat.repr k := by simpa using hk
    rw [List.nodup_append]
    refine ⟨ih, by simp, fun a ha b hb => ?_⟩
    obtain rfl : b = some (Nat.repr k) := by simpa using hb
    exact fun he => hn (he ▸ ha)
  | drop _ hs ih => exact hs.nodup ih

/-- Three runs start, the second one finishes, and its id is given again. -/
example : Tracked [some "1", some "3", some "2"] :=
  .start (l := [some "1", some "3"]) (.drop (l := [some "1", some "2", some "3"])
    (.start (l := [some "1", some "2"]) (.start (l := [some "1"]) (.start (l := []) .nil (by decide +kernel))
      (by decide +kernel)) (by decide +kernel)) (by decide)) (by decide +kernel)

/-- Ids of other kinds do not matter. -/
example : increment [some "1", none, some "a", some "02"] = some "2" := by decide +kernel

end Rocketry.Props
