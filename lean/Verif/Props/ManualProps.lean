import Verif.Base.Lists
import Verif.Sched.Others
import Verif.Props.CycleProps

/-!
# C40: manual runs
-/

namespace Rocketry.Props
open Rocketry.Sched Rocketry.Spec

/-- The pending requests of a task. -/
def pend (n : String) (s : Sys) : Option (List Batch) := (s.find n).map TaskSt.batches

theorem find_none_iff {s : Sys} {n : String} : s.find n = none ↔ ∀ t ∈ s.tasks, t.name ≠ n := by
  unfold Sys.find
  rw [List.find?_eq_none]
  exact ⟨fun h t ht => by simpa using h t ht, fun h t ht => by simpa using h t ht⟩

theorem pend_upd_ne {s : Sys} (hn : (s.tasks.map TaskSt.name).Nodup) {n m : String} (h : m ≠ n) {g : TaskSt → TaskSt}
    (hg : ∀ t, (g t).name = t.name) : pend n (s.upd m g) = pend n s := by
  have hn' := upd_nodup (n := m) hn hg
  unfold pend
  rcases hf : s.find n with _ | t
  · have : (s.upd m g).find n = none := by
      rw [find_none_iff]
      intro t ht
      rcases mem_upd ht with ⟨ht, _⟩ | ⟨u, hu, hun, rfl⟩
      · exact find_none_iff.1 hf t ht
      · rw [hg, hun]; exact h
    rw [this]
  · have : (s.upd m g).find n = some t := by
      rw [find_iff hn']
      obtain ⟨ht, htn⟩ := find_mem hf
      exact ⟨List.mem_map.2 ⟨t, ht, if_neg (fun hc => h (hc.symm.trans htn))⟩, htn⟩
    rw [this]

theorem pend_upd_eq {s : Sys} (hn : (s.tasks.map TaskSt.name).Nodup) {n : String} {g : TaskSt → TaskSt}
    {k : List Batch → List Batch} (hg : ∀ t, (g t).name = t.name) (hk : ∀ t, (g t).batches = k t.batches) :
    pend n (s.upd n g) = (pend n s).map k := by
  have hn' := upd_nodup (n := n) hn hg
  unfold pend
  rcases hf : s.find n with _ | t
  · have : (s.upd n g).find n = none := by
      rw [find_none_iff]
      intro t ht
      rcases mem_upd ht with ⟨ht, _⟩ | ⟨u, hu, hun, rfl⟩
      · exact find_none_iff.1 hf t ht
      · exact absurd hun (find_none_iff.1 hf u hu)
    rw [this]; rfl
  · have : (s.upd n g).find n = some (g t) := by
      rw [find_iff hn']
      obtain ⟨ht, htn⟩ := find_mem hf
      exact ⟨List.mem_map.2 ⟨t, ht, if_pos htn⟩, by rw [hg]; exact htn⟩
    rw [this]
    simp only [Option.map_some]
    rw [hk]

/-- A change that does not touch the requests. -/
theorem pend_upd {s : Sys} (hn : (s.tasks.map TaskSt.name).Nodup) {n m : String} {g : TaskSt → TaskSt}
    (hg : ∀ t, (g t).name = t.name) (hk : ∀ t, (g t).batches = t.batches) : pend n (s.upd m g) = pend n s := by
  by_cases h : m = n
  · subst h
    rw [pend_upd_eq (k := id) hn hg hk]
    simp
  · exact pend_upd_ne hn h hg

theorem clean_batches (cfg : Config) (t : TaskSt) : (t.clean cfg).batches = t.batches := by
  unfold TaskSt.clean; split <;> rfl

theorem pend_tidy {s s' : Sys} (hn : (s.tasks.map TaskSt.name).Nodup) (n : String) (h : Tidy s s') : pend n s' = pend n s := by
  cases h with
  | clean m cfg => exact pend_upd hn (clean_name cfg) (clean_batches cfg)
  | finish m id exc => exact pend_upd hn (fun _ => rfl) (fun _ => rfl)
  | reset m cfg => exact pend_upd hn (fun t => clean_name cfg t) (fun t => clean_batches cfg t)
  | erase m r => exact pend_upd hn (fun _ => rfl) (fun _ => rfl)
  | cycles k => rfl

theorem asked_append (n : String) (a : Option (List Batch)) (l l' : List Obs) :
    asked n a (l ++ l') = asked n (asked n a l) l' := List.foldl_append

theorem pend_event {s : Sys} (hn : (s.tasks.map TaskSt.name).Nodup) (n : String) (e : EnvEv) :
    pend n (s.event e) = asked n (pend n s) [.env e] := by
  cases e with
  | ends m id exc => exact pend_upd hn (fun _ => rfl) (fun _ => rfl)
  | request m b =>
    show pend n (s.upd m _) = if m = n then (pend n s).map (· ++ [b]) else pend n s
    by_cases h : m = n
    · subst h
      rw [if_pos rfl]
      exact pend_upd_eq (k := (· ++ [b])) hn (fun _ => rfl) (fun _ => rfl)
    · rw [if_neg h]
      exact pend_upd_ne hn h (fun _ => rfl)
  | terminate m => exact pend_upd hn (fun _ => rfl) (fun _ => rfl)
  | disable m b => exact pend_upd hn (fun _ => rfl) (fun _ => rfl)
  | hold b => rfl
  | shutDown f => rfl
  | restart => rfl
  | add t =>
    show pend n (if t.name ∈ s.tasks.map TaskSt.name then s else _) = if t.name = n then some ((pend n s).getD []) else pend n s
    by_cases hm : t.name ∈ s.tasks.map TaskSt.name
    · rw [if_pos hm]
      by_cases h : t.name = n
      · rw [if_pos h]
        obtain ⟨u, hu, hun⟩ := List.mem_map.1 hm
        have : s.find n = some u := (find_iff hn).2 ⟨hu, hun.trans h⟩
        unfold pend
        rw [this]; rfl
      · rw [if_neg h]
    · rw [if_neg hm]
      unfold pend Sys.find
      dsimp only
      by_cases h : t.name = n
      · rw [if_pos h, List.find?_cons_of_pos (by simpa using h)]
        have : s.find n = none := by
          rw [find_none_iff]
          intro u hu hun
          exact hm (List.mem_map.2 ⟨u, hu, hun.trans h.symm⟩)
        unfold Sys.find at this
        rw [this]; rfl
      · rw [if_neg h, List.find?_cons_of_neg (by simpa using h)]
  | remove m => exact pend_upd hn (fun _ => rfl) (fun _ => rfl)
  | reorder l =>
    show pend n (if l.isPerm s.tasks then _ else s) = pend n s
    by_cases hl : l.isPerm s.tasks = true
    · rw [if_pos hl]
      have hp := List.isPerm_iff.1 hl
      have hn' : (l.map TaskSt.name).Nodup := (hp.map TaskSt.name).nodup_iff.2 hn
      unfold pend
      rcases hf : s.find n with _ | t
      · have : Sys.find { s with tasks := l } n = none := by
          rw [find_none_iff] at hf ⊢
          exact fun t ht => hf t (hp.mem_iff.1 ht)
        rw [this]
      · have : Sys.find { s with tasks := l } n = some t := by
          rw [find_iff (s := { s with tasks := l }) hn']
          obtain ⟨ht, htn⟩ := find_mem hf
          exact ⟨hp.mem_iff.2 ht, htn⟩
        rw [this]
    · rw [if_neg hl]

theorem servedWith_snoc (n : String) (l : List Obs) (o : Obs) :
    servedWith n (l ++ [o]) = match o with
      | .popped m b => ((servedWith n l).1, if m = n then some b else none)
      | .started m _ _ => (if m = n then (servedWith n l).1 ++ (servedWith n l).2.toList else (servedWith n l).1, none)
      | _ => ((servedWith n l).1, none) := by
  unfold servedWith
  rw [List.foldl_append]
  rfl

/-- The requests are those in `g`, followed by the pending ones. -/
def Agree (g : List Batch) (p a : Option (List Batch)) : Prop :=
  (p = none ∧ a = none ∧ g = []) ∨ ∃ l, p = some l ∧ a = some (g ++ l)

theorem agree_step {n : String} {g : List Batch} {p a : Option (List Batch)} (h : Agree g p a) (o : Obs) :
    Agree g (asked n p [o]) (asked n a [o]) := by
  have same : asked n p [o] = p → asked n a [o] = a → Agree g (asked n p [o]) (asked n a [o]) := fun h1 h2 => by rw [h1, h2]; exact h
  rcases o with e | _ | _ | _ | _ | _ | _ | _ | _ | _
  · rcases e with _ | ⟨m, b⟩ | _ | _ | _ | _ | _ | t | _ | _
    · exact same rfl rfl
    · show Agree g (if m = n then p.map (· ++ [b]) else p) (if m = n then a.map (· ++ [b]) else a)
      split
      · rcases h with ⟨rfl, rfl, hg⟩ | ⟨l, rfl, rfl⟩
        · exact Or.inl ⟨rfl, rfl, hg⟩
        · exact Or.inr ⟨l ++ [b], rfl, by simp⟩
      · exact h
    · exact same rfl rfl
    · exact same rfl rfl
    · exact same rfl rfl
    · exact same rfl rfl
    · exact same rfl rfl
    · show Agree g (if t.name = n then some (p.getD []) else p) (if t.name = n then some (a.getD []) else a)
      split
      · rcases h with ⟨rfl, rfl, hg⟩ | ⟨l, rfl, rfl⟩
        · exact Or.inr ⟨[], rfl, by rw [hg]; rfl⟩
        · exact Or.inr ⟨l, rfl, rfl⟩
      · exact h
    · exact same rfl rfl
    · exact same rfl rfl
  all_goals exact same rfl rfl

/-- Taking or starting. -/
def Obs.isTake : Obs → Bool
  | .popped .. => true
  | .started .. => true
  | _ => false

/-- `g` and `x` depend on starts only. -/
def Insensitive (g : List Obs → List Batch) (x : List Obs → Prop) : Prop :=
  ∀ l o, Obs.isTake o = false → x l → g (l ++ [o]) = g l ∧ x (l ++ [o])

/-- What is known of the requests. -/
def Queue (n : String) (start : Option (List Batch)) (g : List Obs → List Batch) (x : List Obs → Prop) (ok : Choice → Prop)
    (w : World) : Prop :=
  Named w ∧ Agree (g w.trace) (pend n w.st) (asked n start w.trace) ∧ x w.trace ∧ ∀ i, ok (w.env i)

variable {n : String} {start : Option (List Batch)} {g : List Obs → List Batch} {x : List Obs → Prop} {ok : Choice → Prop}

theorem queue_note (hi : Insensitive g x) {w : World} {s : Sys} {o : Obs} (hw : Queue n start g x ok w)
    (hn : (s.tasks.map TaskSt.name).Nodup) (ho : Obs.isTake o = false) (hp : pend n s = asked n (pend n w.st) [o]) (hist : List Sys) :
    Queue n start g x ok { w with st := s, hist := hist, trace := w.trace ++ [o] } := by
  obtain ⟨h1, h2, h3, h4⟩ := hw
  obtain ⟨hg, hx⟩ := hi w.trace o ho h3
  refine ⟨hn, ?_, hx, h4⟩
  dsimp only
  rw [hg, asked_append, hp]
  exact agree_step h2 o

theorem queue_quiet {w : World} {s : Sys} (hw : Queue n start g x ok w) (hn : (s.tasks.map TaskSt.name).Nodup)
    (hp : pend n s = pend n w.st) (hist : List Sys) : Queue n start g x ok { w with st := s, hist := hist } :=
  ⟨hn, by dsimp only; rw [hp]; exact hw.2.1, hw.2.2⟩

theorem asked_plain (n : String) (p : Option (List Batch)) (o : Obs) (h : ∀ e, o ≠ .env e) : asked n p [o] = p := by
  rcases o with e | _ | _ | _ | _ | _ | _ | _ | _ | _
  · exact absurd rfl (h e)
  all_goals rfl

theorem named_tidy {s s' : Sys} (hn : (s.tasks.map TaskSt.name).Nodup) (h : Tidy s s') : (s'.tasks.map TaskSt.name).Nodup :=
  (drift_tidy h).nodup hn

theorem steady_queue (hi : Insensitive g x) : Steady (Queue n start g x ok) where
  pos := fun _ _ hw => hw
  env := fun w _ e hw _ => queue_note hi hw ((shift_event w.st e).nodup hw.1) rfl (pend_event hw.1 n e) _
  request := fun w m _ hw => queue_note hi hw ((shift_event w.st (.request m [])).nodup hw.1) rfl (pend_event hw.1 n (.request m [])) _
  note := fun w o ho hw => queue_note (s := w.st) hi hw hw.1 (by cases o <;> first | rfl | simp [Obs.plain] at ho)
    (asked_plain n _ o (fun e h => by subst h; simp [Obs.plain] at ho)).symm w.hist
  move := fun w s ht hw => queue_quiet hw (named_tidy hw.1 ht) (pend_tidy hw.1 n ht) _
  mark := fun w o ho hw => queue_note (s := w.st) hi hw hw.1 (by cases o <;> first | rfl | simp [Obs.mark] at ho)
    (asked_plain n _ o (fun e h => by subst h; simp [Obs.mark] at ho)).symm w.hist
  flags := fun w hw => queue_quiet hw hw.1 rfl _

theorem named_pop {s : Sys} (hn : (s.tasks.map TaskSt.name).Nodup) (m : String) : ((s.pop m).tasks.map TaskSt.name).Nodup :=
  upd_nodup hn (fun _ => rfl)

theorem named_push {s : Sys} (hn : (s.tasks.map TaskSt.name).Nodup) (m : String) (k : Exec) (tm : Int) :
    ((s.push m k tm).tasks.map TaskSt.name).Nodup :=
  upd_nodup (n := m) hn (fun _ => rfl)

theorem pend_push {s : Sys} (hn : (s.tasks.map TaskSt.name).Nodup) (m : String) (k : Exec) (tm : Int) :
    pend n (s.push m k tm) = pend n s :=
  pend_upd (n := n) (m := m) (g := fun t => { t with stack := t.stack ++ [⟨s.nextId, k, tm, true, false⟩] }) hn (fun _ => rfl) (fun _ => rfl)

theorem queue_drop {w : World} (hw : Queue n start g x ok w) (m : String) (b : Bool) : Queue n start g x ok (w.drop m b) :=
  queue_quiet (s := w.st.drop m b) hw (upd_nodup (n := m) hw.1 (fun _ => rfl)) (pend_upd (m := m) hw.1 (fun _ => rfl) (fun _ => rfl)) _

/-- The request in front is taken. -/
theorem agree_pop {G : List Batch} {s : Sys} (hn : (s.tasks.map TaskSt.name).Nodup) {a : Option (List Batch)} {t : TaskSt}
    {b : Batch} {bs : List Batch} (h : Agree G (pend n s) a) (hf : s.find n = some t) (hb : t.batches = b :: bs) :
    Agree (G ++ [b]) (pend n (s.pop n)) a := by
  have hp : pend n s = some (b :: bs) := by unfold pend; rw [hf, Option.map_some, hb]
  have hp' : pend n (s.pop n) = some bs := by
    have h := pend_upd_eq (n := n) (g := fun t => { t with batches := t.batches.tail }) (k := List.tail) hn (fun _ => rfl) (fun _ => rfl)
    rw [hp] at h
    exact h
  rw [hp'] at *
  rcases h with ⟨h, _⟩ | ⟨l, hl, ha⟩
  · rw [hp] at h; simp at h
  · rw [hp] at hl
    obtain rfl : b :: bs = l := by simpa using hl
    exact Or.inr ⟨bs, rfl, by rw [ha]; simp⟩

theorem pend_pop_ne {s : Sys} (hn : (s.tasks.map TaskSt.name).Nodup) {m : String} (h : m ≠ n) : pend n (s.pop m) = pend n s :=
  pend_upd_ne hn h (fun _ => rfl)

theorem taken_snoc (n : String) (l : List Obs) (o : Obs) : taken n (l ++ [o]) = taken n l ++ taken n [o] := List.filterMap_append

theorem insensitive_taken : Insensitive (taken n) (fun _ => True) := by
  intro l o ho _
  refine ⟨?_, trivial⟩
  rw [taken_snoc]
  have : taken n [o] = [] := by
    cases o <;> first | rfl | simp [Obs.isTake] at ho
  rw [this, List.append_nil]

theorem taken_launch (m : String) (part : Part) : Keeps (Queue n start (taken n) (fun _ => True) ok) (launch m part) := by
  have hs := (steady_queue (n := n) (start := start) (ok := ok) (insensitive_taken (n := n))).toCalm
  refine launch_rule (Ip := fun _ => Queue n start (taken n) (fun _ => True) ok) hs hs m part (fun _ h => h) ?_ (fun _ _ h _ _ => h)
    (fun _ _ _ h => h) ?_ (fun w b h => queue_drop h m b)
  · intro w t b bs hw hf hb
    obtain ⟨h1, h2, _, h4⟩ := hw
    refine ⟨named_pop h1 m, ?_, trivial, h4⟩
    show Agree (taken n (w.trace ++ [.popped m b])) (pend n (w.st.pop m)) (asked n start (w.trace ++ [.popped m b]))
    rw [asked_append, taken_snoc]
    by_cases h : m = n
    · subst h
      have : taken m [.popped m b] = [b] := by simp [taken]
      rw [this]
      exact agree_pop h1 h2 hf hb
    · have : taken n [.popped m b] = [] := by simp [taken, h]
      rw [this, List.append_nil, pend_pop_ne h1 h]
      exact h2
  · intro o w kind time hw
    obtain ⟨h1, h2, _, h4⟩ := hw
    refine ⟨named_push h1 m kind time, ?_, trivial, h4⟩
    show Agree (taken n (w.trace ++ [.started m w.st.nextId part])) (pend n (w.st.push m kind time)) (asked n start (w.trace ++ [.started m w.st.nextId part]))
    have : taken n [.started m w.st.nextId part] = [] := rfl
    rw [asked_append, taken_snoc, pend_push h1, this, List.append_nil]
    exact h2

/-- No setup fails after the request was taken. -/
def NoSetup (c : Choice) : Prop := c.fault ≠ some .setup

theorem insensitive_served : Insensitive (served n) (fun l => (servedWith n l).2 = none) := by
  intro l o ho hx
  show (servedWith n (l ++ [o])).1 = (servedWith n l).1 ∧ (servedWith n (l ++ [o])).2 = none
  rw [servedWith_snoc]
  cases o <;> first | exact ⟨rfl, rfl⟩ | simp [Obs.isTake] at ho

theorem served_launch (m : String) (part : Part) :
    Keeps (Queue n start (served n) (fun l => (servedWith n l).2 = none) NoSetup) (launch m part) := by
  have hs := (steady_queue (n := n) (start := start) (ok := NoSetup) (insensitive_served (n := n))).toCalm
  refine launch_rule
    (Ip := fun _ => Queue n start (fun l => (servedWith n l).1 ++ (servedWith n l).2.toList)
      (fun l => (servedWith n l).2 = none ∨ m = n) NoSetup)
    hs hs m part (fun _ h => h) ?_ ?_ ?_ ?_ (fun w b h => queue_drop h m b)
  · intro w t b bs hw hf hb
    obtain ⟨h1, h2, h3, h4⟩ := hw
    unfold served at h2
    refine ⟨named_pop h1 m, ?_, ?_, h4⟩
    · show Agree ((servedWith n (w.trace ++ [.popped m b])).1 ++ (servedWith n (w.trace ++ [.popped m b])).2.toList)
        (pend n (w.st.pop m)) (asked n start (w.trace ++ [.popped m b]))
      rw [asked_append, servedWith_snoc]
      dsimp only
      by_cases h : m = n
      · subst h
        rw [if_pos rfl]
        exact agree_pop h1 h2 hf hb
      · rw [if_neg h, pend_pop_ne h1 h]
        rw [show ((servedWith n w.trace).1 ++ (none : Option Batch).toList) = (servedWith n w.trace).1 from List.append_nil _]
        exact h2
    · show (servedWith n (w.trace ++ [.popped m b])).2 = none ∨ m = n
      rw [servedWith_snoc]
      dsimp only
      by_cases h : m = n
      · exact Or.inr h
      · rw [if_neg h]; exact Or.inl rfl
  · intro w t hw _ _
    obtain ⟨h1, h2, h3, h4⟩ := hw
    refine ⟨h1, ?_, Or.inl h3, h4⟩
    dsimp only
    rw [h3]
    rw [show ((servedWith n w.trace).1 ++ (none : Option Batch).toList) = (servedWith n w.trace).1 from List.append_nil _]
    exact h2
  · intro _ w ⟨i, hf⟩ hw
    exact absurd hf (hw.2.2.2 i)
  · intro o w kind time hw
    obtain ⟨h1, h2, h3, h4⟩ := hw
    refine ⟨named_push h1 m kind time, ?_, ?_, h4⟩
    · show Agree (servedWith n (w.trace ++ [.started m w.st.nextId part])).1 (pend n (w.st.push m kind time)) (asked n start (w.trace ++ [.started m w.st.nextId part]))
      rw [asked_append, servedWith_snoc, pend_push h1]
      dsimp only
      by_cases h : m = n
      · rw [if_pos h]; exact h2
      · rw [if_neg h]
        rcases h3 with h3 | h3
        · dsimp only at h2
          rw [h3] at h2
          rw [show ((servedWith n w.trace).1 ++ (none : Option Batch).toList) = (servedWith n w.trace).1 from List.append_nil _] at h2
          exact h2
        · exact absurd h3 h
    · show (servedWith n (w.trace ++ [.started m w.st.nextId part])).2 = none
      rw [servedWith_snoc]

theorem agree_map {G : List Batch} {s : Sys} {a : Option (List Batch)} (h : Agree G (pend n s) a) :
    (s.find n).map (fun t => G ++ t.batches) = a := by
  unfold pend at h
  rcases h with ⟨h1, h2, _⟩ | ⟨l, h1, h2⟩
  · rw [h2, Option.map_eq_none_iff.1 h1]; rfl
  · obtain ⟨t, ht, htb⟩ := Option.map_eq_some_iff.1 h1
    rw [h2, ht, ← htb]; rfl

theorem served_sublist (n : String) (l : List Obs) :
    ((servedWith n l).1 ++ (servedWith n l).2.toList).Sublist (taken n l) := by
  induction l using snoc_ind with
  | nil => exact List.Sublist.refl _
  | snoc l o ih =>
    rw [servedWith_snoc, taken_snoc]
    have h1 : (servedWith n l).1.Sublist (taken n l) := (List.sublist_append_left _ _).trans ih
    cases o with
    | popped m b =>
      dsimp only
      by_cases h : m = n
      · have : taken n [.popped m b] = [b] := by simp [taken, h]
        rw [if_pos h, this]
        exact h1.append (List.Sublist.refl _)
      · have : taken n [.popped m b] = [] := by simp [taken, h]
        rw [if_neg h, this]
        exact h1.append (List.Sublist.refl _)
    | started m i p =>
      dsimp only
      by_cases h : m = n
      · rw [if_pos h]
        exact ih.append (List.Sublist.refl _)
      · rw [if_neg h]
        exact h1.append (List.Sublist.refl _)
    | _ => exact h1.append (List.Sublist.refl _)

/-- C40, first part.  In every execution the requests of a task are taken in the order in which they were made, each
once; what is not taken is pending.  The runs have the parameters of taken requests, in this order. -/
theorem C40_order (s : Sys) (env : Nat → Choice) (ks : List Nat) (n : String) (hn : (s.tasks.map TaskSt.name).Nodup) :
    let w := (sessions ks (World.init s env)).2
    (w.st.find n).map (fun t => taken n w.trace ++ t.batches) = asked n ((s.find n).map TaskSt.batches) w.trace ∧
      (served n w.trace).Sublist (taken n w.trace) := by
  intro w
  have h0 : Queue n (pend n s) (taken n) (fun _ => True) (fun _ => True) (World.init s env) := by
    refine ⟨hn, ?_, trivial, fun _ => trivial⟩
    show Agree [] (pend n s) (pend n s)
    rcases h : pend n s with _ | l
    · exact Or.inl ⟨rfl, rfl, rfl⟩
    · exact Or.inr ⟨l, rfl, rfl⟩
  have h := keeps_sessions (steady_queue insensitive_taken) taken_launch ks _ h0
  exact ⟨agree_map h.2.1, (List.sublist_append_left _ _).trans (served_sublist n _)⟩

/-- C40, as far as it holds.  If no setup fails after its request was taken, the requests of a task are those that led
to a run with their parameters, in this order, followed by the pending ones. -/
theorem C40_served_partial (s : Sys) (env : Nat → Choice) (ks : List Nat) (n : String) (hn : (s.tasks.map TaskSt.name).Nodup)
    (hok : ∀ i, (env i).fault ≠ some .setup) :
    let w := (sessions ks (World.init s env)).2
    (w.st.find n).map (fun t => served n w.trace ++ t.batches) = asked n ((s.find n).map TaskSt.batches) w.trace := by
  intro w
  have h0 : Queue n (pend n s) (served n) (fun l => (servedWith n l).2 = none) NoSetup (World.init s env) := by
    refine ⟨hn, ?_, rfl, hok⟩
    show Agree [] (pend n s) (pend n s)
    rcases h : pend n s with _ | l
    · exact Or.inl ⟨rfl, rfl, rfl⟩
    · exact Or.inr ⟨l, rfl, rfl⟩
  have h := keeps_sessions (steady_queue insensitive_served) served_launch ks _ h0
  exact agree_map h.2.1

/-- Two requests for a disabled task before and while it is served, then shutdown. -/
def twoRequests : World :=
  World.init (sessionOf 1 false [{ idleTask "a" .main with disabled := true }]) (fun i =>
    { quiet false with events := if i = 1 then [.request "a" [("x", "1")], .request "a" [("x", "2")]] else if i = 20 then [.shutDown none] else [] })

example : (twoRequests.st.tasks.map TaskSt.name).Nodup ∧ (∀ i, (twoRequests.env i).fault ≠ some .setup) ∧
    served "a" (sessions [10] twoRequests).2.trace = [[("x", "1")], [("x", "2")]] := by
  refine ⟨by decide, fun i => ?_, by decide +kernel⟩
  show (none : Option Fault) ≠ _
  simp

/-- C40 as stated fails: a request is lost if the setup of its run fails after the request was taken
(core/task.py:483-485, 529-537, 803-807). -/
theorem C40_lost_violated : ∃ s env, (s.tasks.map TaskSt.name).Nodup ∧
    asked "a" ((s.find "a").map TaskSt.batches) (sessions [10] (World.init s env)).2.trace = some [[("x", "1")]] ∧
    served "a" (sessions [10] (World.init s env)).2.trace = [] ∧
    ((sessions [10] (World.init s env)).2.st.find "a").map TaskSt.batches = some [] := by
  refine ⟨sessionOf 1 false [idleTask "a" .main], fun i =>
    { quiet false with events := if i = 1 then [.request "a" [("x", "1")]] else if i = 20 then [.shutDown none] else [],
                       fault := some .setup }, by decide, ?_⟩
  decide +kernel

end Rocketry.Props
