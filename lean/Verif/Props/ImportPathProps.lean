import Verif.Spec.ImportPathSpec
import Mathlib.Tactic.ByContra

/-!
# C71: importing the function of a task leaves the import path as it was
-/

namespace Rocketry.Props
open Spec Rocketry.Task

/-! ### how many entries the loads have put into the list -/

/-- The entries equal to `p` that a load has put into the list and not yet taken out. -/
def pendingOf (p : PathEntry) (L : Loading) : Nat :=
  match L.phase with
  | .entering r => L.paths.count p - r.count p
  | .inside => L.paths.count p
  | .leaving r => r.count p

/-- The same for all loads. -/
def pendingIn (p : PathEntry) (ls : List Loading) : Nat := (ls.map (pendingOf p)).sum

theorem pendingIn_append (p : PathEntry) (l m : List Loading) : pendingIn p (l ++ m) = pendingIn p l + pendingIn p m := by
  simp [pendingIn]

theorem pendingIn_set (p : PathEntry) : ∀ {ls : List Loading} {i : Nat} {L L' : Loading}, ls[i]? = some L →
    pendingIn p (ls.set i L') + pendingOf p L = pendingIn p ls + pendingOf p L' := by
  intro ls
  induction ls with
  | nil => intro i L L' h; simp at h
  | cons a ls ih =>
    intro i L L' h
    cases i with
    | zero =>
      simp only [List.getElem?_cons_zero, Option.some.injEq] at h
      subst h
      simp [pendingIn]; omega
    | succ i =>
      simp only [List.getElem?_cons_succ] at h
      have := @ih i L L' h
      simp only [pendingIn, List.set_cons_succ, List.map_cons, List.sum_cons] at this ⊢
      omega

theorem pendingIn_ge {p : PathEntry} {ls : List Loading} {i : Nat} {L : Loading} (h : ls[i]? = some L) :
    pendingOf p L ≤ pendingIn p ls := by
  have := pendingIn_set p (L' := ⟨[], .leaving []⟩) h
  simp only [pendingOf, List.count_nil] at this
  unfold pendingOf
  omega

/-- The other code does not touch `p`, nobody assigns a new list. -/
def Spares (p : PathEntry) : ImportEv → Prop
  | .append q | .prepend q | .remove q => q ≠ p
  | .rebind _ => False
  | _ => True

/-- The books are in order: besides the entries of the loads there are `c` entries equal to `p`. -/
structure Balanced (p : PathEntry) (c : Nat) (s : ImportSt) : Prop where
  bound : s.rebound = none
  shape : ∀ L ∈ s.loads, ∀ r, L.phase = .entering r → r <:+ L.paths
  count : s.first.count p = c + pendingIn p s.loads

theorem loads_mem_set {ls : List Loading} {i : Nat} {L' x : Loading} (h : x ∈ ls.set i L') : x ∈ ls ∨ x = L' := by
  rcases List.mem_or_eq_of_mem_set h with h | h
  · exact .inl h
  · exact .inr h

theorem Balanced.goes {p : PathEntry} {c : Nat} {s : ImportSt} (h : Balanced p c s) {i : Nat} {L : Loading}
    (hL : s.loads[i]? = some L) : Balanced p c (s.goes i L) := by
  obtain ⟨h1, h2, h3⟩ := h
  have hmem : L ∈ s.loads := List.mem_of_getElem? hL
  have hset := fun L' => pendingIn_set p (L' := L') hL
  have hge := pendingIn_ge (p := p) hL
  have hshape : ∀ L', L'.paths = L.paths → (∀ r, L'.phase = .entering r → r <:+ L.paths) →
      ∀ x ∈ s.loads.set i L', ∀ r, x.phase = .entering r → r <:+ x.paths := by
    intro L' e1 e2 x hx r hr
    rcases loads_mem_set hx with hx | rfl
    · exact h2 x hx r hr
    · rw [e1]; exact e2 r hr
  unfold ImportSt.goes
  split
  · rename_i hp
    have hs := hset { L with phase := .inside }
    refine ⟨h1, hshape _ rfl (by simp), ?_⟩
    simp only [pendingOf, hp, List.count_nil] at hs ⊢
    omega
  · rename_i q r hp
    have hs := hset { L with phase := .entering r }
    have hsuf := h2 L hmem _ hp
    have hc : (q :: r).count p ≤ L.paths.count p := hsuf.sublist.count_le p
    refine ⟨?_, ?_, ?_⟩
    · simp only [ImportSt.change, h1]
    · simp only
      refine hshape _ rfl ?_
      intro r' hr'
      simp only [LoadPhase.entering.injEq] at hr'
      subst hr'
      exact (List.suffix_cons q r).trans hsuf
    · simp only [ImportSt.change, h1, List.count_append, List.count_cons, List.count_nil] at hs hc ⊢
      simp only [pendingOf, hp, List.count_cons] at hs
      omega
  · rename_i hp
    have hs := hset { L with phase := .leaving L.paths }
    refine ⟨h1, hshape _ rfl (by simp), ?_⟩
    simp only [pendingOf, hp] at hs ⊢
    omega
  · exact ⟨h1, h2, h3⟩
  · rename_i q r hp
    have hs := hset { L with phase := .leaving r }
    refine ⟨h1, hshape _ rfl (by simp), ?_⟩
    simp only [pendingOf, hp, List.count_cons] at hs hge ⊢
    by_cases hq : q = p
    · subst hq
      rw [List.count_erase_self]
      simp only [beq_self_eq_true, if_true] at hs hge
      omega
    · rw [List.count_erase_of_ne (Ne.symm hq)]
      simp only [beq_iff_eq, hq, if_false] at hs hge
      omega

theorem Balanced.step {p : PathEntry} {c : Nat} {s : ImportSt} (h : Balanced p c s) {e : ImportEv} (he : Spares p e) :
    Balanced p c (s.step e) := by
  cases e with
  | start root ps =>
    obtain ⟨h1, h2, h3⟩ := h
    refine ⟨h1, ?_, ?_⟩
    · intro L hL r hr
      simp only [ImportSt.step, List.mem_append, List.mem_singleton] at hL
      rcases hL with hL | rfl
      · exact h2 L hL r hr
      · simp only [LoadPhase.entering.injEq] at hr
        subst hr
        exact List.suffix_refl _
    · simp only [ImportSt.step, pendingIn_append]
      simp [pendingIn, pendingOf] at h3 ⊢
      exact h3
  | go i =>
    simp only [ImportSt.step]
    split
    · exact h
    · rename_i L hL
      exact h.goes hL
  | append q =>
    obtain ⟨h1, h2, h3⟩ := h
    have hq : q ≠ p := he
    refine ⟨?_, ?_, ?_⟩ <;> simp only [ImportSt.step, ImportSt.change, h1]
    · exact h2
    · simp [List.count_append, List.count_cons, hq, h3]
  | prepend q =>
    obtain ⟨h1, h2, h3⟩ := h
    have hq : q ≠ p := he
    refine ⟨?_, ?_, ?_⟩ <;> simp only [ImportSt.step, ImportSt.change, h1]
    · exact h2
    · simp [List.count_cons, hq, h3]
  | remove q =>
    obtain ⟨h1, h2, h3⟩ := h
    have hq : q ≠ p := he
    refine ⟨?_, ?_, ?_⟩ <;> simp only [ImportSt.step, ImportSt.change, h1]
    · exact h2
    · rw [List.count_erase_of_ne (Ne.symm hq), h3]
  | rebind l => exact absurd he id

theorem Balanced.run {p : PathEntry} {c : Nat} : ∀ {es : List ImportEv} {s : ImportSt}, Balanced p c s →
    (∀ e ∈ es, Spares p e) → Balanced p c (s.run es) := by
  intro es
  induction es with
  | nil => intro s h _; exact h
  | cons e es ih =>
    intro s h he
    exact ih (h.step (he e (by simp))) (fun e' h' => he e' (by simp [h']))

theorem balanced_init (p : PathEntry) (l : List PathEntry) : Balanced p (l.count p) (ImportSt.init l) :=
  ⟨rfl, by simp [ImportSt.init], by simp [ImportSt.init, pendingIn]⟩

theorem pending_over {p : PathEntry} {s : ImportSt} (h : LoadsOver s) : pendingIn p s.loads = 0 := by
  unfold pendingIn
  rw [List.sum_eq_zero_iff_forall_eq_nat]
  intro n hn
  obtain ⟨L, hL, rfl⟩ := List.mem_map.1 hn
  simp [pendingOf, h L hL]

theorem onlyLoads_spares {e : ImportEv} (h : OnlyLoads e) (p : PathEntry) : Spares p e := by
  cases e <;> simp_all [OnlyLoads, Spares]

/-! ## C71 -/

/-- C71: for every interleaving of any number of loads, when all are over `sys.path` has the entries it had before, each
as often. -/
theorem C71_entries (orig : List PathEntry) (es : List ImportEv) (h : ∀ e ∈ es, OnlyLoads e)
    (hover : LoadsOver ((ImportSt.init orig).run es)) : ((ImportSt.init orig).run es).sysPath.Perm orig := by
  rw [List.perm_iff_count]
  intro p
  have hb := (balanced_init p orig).run (es := es) (fun e he => onlyLoads_spares (h e he) p)
  have := hb.count
  rw [pending_over hover] at this
  simp only [ImportSt.sysPath, hb.bound, Option.getD_none]
  omega

/-- Two loads of the same directory at the same time, with an entry that was there before. -/
example : let es := [ImportEv.start "tasks" ["lib"], .start "tasks" [], .go 0, .go 1, .go 0, .go 0, .go 1, .go 1, .go 1,
      .go 0, .go 0, .go 0]
    (∀ e ∈ es, OnlyLoads e) ∧ LoadsOver ((ImportSt.init [.str "app", .str "tasks"]).run es) ∧
    ((ImportSt.init [.str "app", .str "tasks"]).run (es.take 7)).sysPath =
      [.str "app", .str "tasks", .str "tasks", .str "tasks", .path "lib"] := by
  refine ⟨by simp [OnlyLoads], ?_, by decide⟩
  unfold LoadsOver
  decide

theorem apart_spares {mine : PathEntry → Prop} {e : ImportEv} (h : Apart mine e) {p : PathEntry} (hp : mine p) : Spares p e := by
  cases e <;> simp_all [Apart, Spares]
  all_goals (rintro rfl; exact h hp)

theorem filter_erase_not (f : PathEntry → Bool) (q : PathEntry) : ∀ l : List PathEntry,
    (f q = false → (l.erase q).filter f = l.filter f) ∧ (f q = true → (l.erase q).filter f = (l.filter f).erase q) := by
  intro l
  induction l with
  | nil => simp
  | cons a l ih =>
    by_cases ha : a = q
    · subst ha
      constructor
      · intro h; simp [h]
      · intro h; simp [h]
    · have hb : (a == q) = false := by simpa using ha
      constructor
      · intro h
        rw [List.erase_cons_tail (by simpa using ha), List.filter_cons, List.filter_cons, ih.1 h]
      · intro h
        rw [List.erase_cons_tail (by simpa using ha), List.filter_cons, List.filter_cons, ih.2 h]
        by_cases hfa : f a = true
        · rw [if_pos hfa, if_pos hfa, List.erase_cons_tail (by simpa using ha)]
        · rw [if_neg hfa, if_neg hfa]

open Classical in
/-- The other code sees its own entries, in its own order. -/
theorem own_run (mine : PathEntry → Prop) : ∀ (es : List ImportEv) (s : ImportSt), s.rebound = none →
    (∀ L ∈ s.loads, ∀ q ∈ L.paths, mine q) → (∀ L ∈ s.loads, ∀ r, L.phase = .entering r ∨ L.phase = .leaving r → r <:+ L.paths) →
    (∀ e ∈ es, Apart mine e) → (s.run es).rebound = none ∧
      (s.run es).first.filter (fun q => decide (¬ mine q)) = ownChanges es (s.first.filter (fun q => decide (¬ mine q))) := by
  intro es
  induction es with
  | nil => intro s h _ _ _; exact ⟨h, rfl⟩
  | cons e es ih =>
    intro s h1 h2 h3 he
    have hes := fun e' h' => he e' (List.mem_cons_of_mem _ h')
    have he := he e (by simp)
    cases e with
    | start root ps =>
      have := ih (s.step (.start root ps)) h1 (by
        intro L hL q hq
        simp only [ImportSt.step, List.mem_append, List.mem_singleton] at hL
        rcases hL with hL | rfl
        · exact h2 L hL q hq
        · simp only [loadPaths, List.mem_cons, List.mem_map] at hq
          rcases hq with rfl | ⟨d, hd, rfl⟩
          · exact he.1
          · exact he.2 d hd) (by
        intro L hL r hr
        simp only [ImportSt.step, List.mem_append, List.mem_singleton] at hL
        rcases hL with hL | rfl
        · exact h3 L hL r hr
        · simp only [LoadPhase.entering.injEq, reduceCtorEq, or_false] at hr
          subst hr
          exact List.suffix_refl _) hes
      exact this
    | go i =>
      cases hL : s.loads[i]? with
      | none =>
        have e1 : s.step (.go i) = s := by simp [ImportSt.step, hL]
        simp only [ImportSt.run, ownChanges, e1]
        exact ih s h1 h2 h3 hes
      | some L =>
        have e1 : s.step (.go i) = s.goes i L := by simp [ImportSt.step, hL]
        have hmem : L ∈ s.loads := List.mem_of_getElem? hL
        simp only [ImportSt.run, ownChanges, e1]
        have hmine : ∀ L', L'.paths = L.paths → ∀ x ∈ s.loads.set i L', ∀ q ∈ x.paths, mine q := by
          intro L' e2 x hx q hq
          rcases loads_mem_set hx with hx | rfl
          · exact h2 x hx q hq
          · rw [e2] at hq; exact h2 L hmem q hq
        have hshape : ∀ L', L'.paths = L.paths → (∀ r, L'.phase = .entering r ∨ L'.phase = .leaving r → r <:+ L.paths) →
            ∀ x ∈ s.loads.set i L', ∀ r, x.phase = .entering r ∨ x.phase = .leaving r → r <:+ x.paths := by
          intro L' e1 e2 x hx r hr
          rcases loads_mem_set hx with hx | rfl
          · exact h3 x hx r hr
          · rw [e1]; exact e2 r hr
        unfold ImportSt.goes
        split
        · exact ih { s with loads := _ } h1 (hmine _ rfl) (hshape _ rfl (by simp)) hes
        · rename_i q r hp
          have hsuf := h3 L hmem _ (.inl hp)
          have hq : mine q := h2 L hmem q (hsuf.subset (by simp))
          simp only [ImportSt.change, h1]
          have := ih { first := s.first ++ [q], rebound := none, loads := s.loads.set i { L with phase := .entering r } } rfl
            (hmine _ rfl) (hshape _ rfl (by
              intro r' hr'
              simp only [LoadPhase.entering.injEq, reduceCtorEq, or_false] at hr'
              subst hr'
              exact (List.suffix_cons q r).trans hsuf)) hes
          simpa [List.filter_append, hq] using this
        · exact ih { s with loads := _ } h1 (hmine _ rfl) (hshape _ rfl (by
            intro r hr
            simp only [LoadPhase.leaving.injEq, reduceCtorEq, false_or] at hr
            subst hr
            exact List.suffix_refl _)) hes
        · exact ih s h1 h2 h3 hes
        · rename_i q r hp
          have hsuf := h3 L hmem _ (.inr hp)
          have hq : mine q := h2 L hmem q (hsuf.subset (by simp))
          have := ih { s with first := s.first.erase q, loads := s.loads.set i { L with phase := .leaving r } } h1
            (hmine _ rfl) (hshape _ rfl (by
              intro r' hr'
              simp only [LoadPhase.leaving.injEq, reduceCtorEq, false_or] at hr'
              subst hr'
              exact (List.suffix_cons q r).trans hsuf)) hes
          rw [(filter_erase_not _ q s.first).1 (by simpa using hq)] at this
          exact this
    | append q =>
      have hq : ¬ mine q := he
      have := ih { s with first := s.first ++ [q] } h1 h2 h3 hes
      simp only [ImportSt.run, ImportSt.step, ImportSt.change, h1, ownChanges] at this ⊢
      simpa [List.filter_append, hq] using this
    | prepend q =>
      have hq : ¬ mine q := he
      have := ih { s with first := q :: s.first } h1 h2 h3 hes
      simp only [ImportSt.run, ImportSt.step, ImportSt.change, h1, ownChanges] at this ⊢
      simpa [List.filter_cons, hq] using this
    | remove q =>
      have hq : ¬ mine q := he
      have := ih { s with first := s.first.erase q } h1 h2 h3 hes
      rw [(filter_erase_not _ q s.first).2 (by simpa using hq)] at this
      simp only [ImportSt.run, ImportSt.step, ImportSt.change, h1, ownChanges] at this ⊢
      exact this
    | rebind l => exact absurd he id

/-- C71: for every interleaving of any number of loads with changes of `sys.path` by other code, when the loads are over
`sys.path` is what the other code alone would have made of it, if it did not have the directories of the loads as
entries.  Missing: directories that were entries before (`C71_order_violated`) and programs that assign a new list to
`sys.path` (`C71_rebound_violated`). -/
theorem C71_restored_partial (mine : PathEntry → Prop) (orig : List PathEntry) (es : List ImportEv) (h : ∀ e ∈ es, Apart mine e)
    (horig : ∀ q ∈ orig, ¬ mine q) (hover : LoadsOver ((ImportSt.init orig).run es)) :
    ((ImportSt.init orig).run es).sysPath = ownChanges es orig := by
  classical
  obtain ⟨h1, h2⟩ := own_run mine es (ImportSt.init orig) rfl (by simp [ImportSt.init]) (by simp [ImportSt.init]) h
  have e1 : (ImportSt.init orig).first.filter (fun q => decide (¬ mine q)) = orig := by
    show orig.filter _ = orig
    rw [List.filter_eq_self]
    intro q hq
    simpa using horig q hq
  have e2 : ((ImportSt.init orig).run es).first.filter (fun q => decide (¬ mine q)) = ((ImportSt.init orig).run es).first := by
    rw [List.filter_eq_self]
    intro q hq
    have hq' : ¬ mine q := by
      intro hm
      have hb := (balanced_init q orig).run (es := es) (fun e he => apart_spares (h e he) hm)
      have hc := hb.count
      rw [pending_over hover] at hc
      have : orig.count q = 0 := List.count_eq_zero.2 (fun k => horig q k hm)
      have := List.count_pos_iff.2 hq
      omega
    simpa using hq'
  rw [e1, e2] at h2
  simp only [ImportSt.sysPath, h1, Option.getD_none]
  exact h2

/-- Two loads; the module that the first one imports puts a directory in front. -/
example : let es := [ImportEv.start "tasks" ["lib"], .start "jobs" [], .go 0, .go 1, .go 0, .go 0, .prepend (.str "vendor"),
      .go 1, .go 1, .go 1, .go 0, .go 0, .go 0]
    (∀ e ∈ es, Apart (fun q => q = .str "tasks" ∨ q = .str "jobs" ∨ q = .path "lib") e) ∧
    LoadsOver ((ImportSt.init [.str "app"]).run es) ∧ ownChanges es [.str "app"] = [.str "vendor", .str "app"] := by
  refine ⟨by simp [Apart], ?_, by decide⟩
  unfold LoadsOver
  decide

/-- C71: while a file is imported its directory is one of those in which imports look, whatever the other loads do. -/
theorem C71_found (orig : List PathEntry) (es : List ImportEv) (i : Nat) (root : String) (ps : List String)
    (h : ∀ e ∈ es, Spares (.str root) e)
    (hi : ((ImportSt.init orig).run es).loads[i]? = some ⟨loadPaths root ps, .inside⟩) :
    root ∈ ((ImportSt.init orig).run es).searched := by
  have hb := (balanced_init (.str root) orig).run (es := es) h
  have hc := hb.count
  have hp := pendingIn_ge (p := .str root) hi
  have hone : 0 < pendingOf (.str root) ⟨loadPaths root ps, .inside⟩ := by
    simp [pendingOf, loadPaths]
  have hm : PathEntry.str root ∈ ((ImportSt.init orig).run es).first := List.count_pos_iff.1 (by omega)
  unfold ImportSt.searched ImportSt.sysPath
  rw [hb.bound]
  exact List.mem_filterMap.2 ⟨_, hm, rfl⟩

example : let es := [ImportEv.start "tasks" [], .start "tasks" [], .go 0, .go 1, .go 0, .go 1, .go 0, .go 0]
    (∀ e ∈ es, Spares (.str "tasks") e) ∧
    ((ImportSt.init []).run es).loads[1]? = some ⟨loadPaths "tasks" [], .inside⟩ := by
  refine ⟨by simp [Spares], by decide⟩

/-- C71 does not hold as stated: if the directory of the file is an entry already, the entry goes to the end of the list
(the first of the two equal entries is removed), so imports prefer other directories from then on. -/
theorem C71_order_violated : ∃ orig es, (∀ e ∈ es, OnlyLoads e) ∧ LoadsOver ((ImportSt.init orig).run es) ∧
    ((ImportSt.init orig).run es).sysPath ≠ orig := by
  refine ⟨[.str "tasks", .str "lib"], [.start "tasks" [], .go 0, .go 0, .go 0, .go 0], by simp [OnlyLoads], ?_, by decide⟩
  unfold LoadsOver
  decide

/-- One load after another. -/
def loadsInTurn (root : String) : Nat → Nat → List ImportEv
  | _, 0 => []
  | k, n + 1 => [.start root [], .go k, .go k, .go k, .go k] ++ loadsInTurn root (k + 1) n

theorem run_append (s : ImportSt) (l m : List ImportEv) : s.run (l ++ m) = (s.run l).run m := by
  induction l generalizing s with
  | nil => rfl
  | cons e l ih => simp only [List.cons_append, ImportSt.run]; exact ih _

/-- C71 does not hold as stated: after `sys.path` was assigned a new list, the entries are removed from the old list only,
so every run leaves one more entry in `sys.path`. -/
theorem C71_rebound_violated (orig l : List PathEntry) (root : String) (n : Nat) :
    ((ImportSt.init orig).run (.rebind l :: loadsInTurn root 0 n)).sysPath = l ++ List.replicate n (.str root) := by
  have key : ∀ (n : Nat) (s : ImportSt) (l : List PathEntry), s.rebound = some l →
      (s.run (loadsInTurn root s.loads.length n)).sysPath = l ++ List.replicate n (.str root) := by
    intro n
    induction n with
    | zero => intro s l h; simp [loadsInTurn, ImportSt.run, ImportSt.sysPath, h]
    | succ n ih =>
      intro s l h
      have hs : s.run [.start root [], .go s.loads.length, .go s.loads.length, .go s.loads.length, .go s.loads.length] =
          { first := s.first.erase (.str root), rebound := some (l ++ [.str root]),
              loads := s.loads ++ [⟨loadPaths root [], .leaving []⟩] } := by
        simp [ImportSt.run, ImportSt.step, ImportSt.goes, ImportSt.change, h, loadPaths]
      have := ih ⟨s.first.erase (.str root), some (l ++ [.str root]), s.loads ++ [⟨loadPaths root [], .leaving []⟩]⟩
        (l ++ [.str root]) rfl
      simp only [List.length_append, List.length_singleton] at this
      simp only [loadsInTurn]
      rw [run_append, hs, this, List.replicate_succ]
      simp
  have := key n ((ImportSt.init orig).step (.rebind l)) l rfl
  simpa [ImportSt.run, ImportSt.step, ImportSt.init] using this

/-- C71 does not hold as stated: the directories given as `sys_paths` are put into the list, but as `Path` objects, and
imports do not look there. -/
theorem C71_sys_paths_violated (orig : List PathEntry) (root d : String) (hd : d ≠ root) (ho : .str d ∉ orig) :
    let s := (ImportSt.init orig).run [.start root [d], .go 0, .go 0, .go 0]
    s.loads[0]? = some ⟨loadPaths root [d], .inside⟩ ∧ .path d ∈ s.sysPath ∧ d ∉ s.searched := by
  have hs : (ImportSt.init orig).run [.start root [d], .go 0, .go 0, .go 0] =
      { first := orig ++ [.str root] ++ [.path d], rebound := none, loads := [⟨loadPaths root [d], .inside⟩] } := by
    simp [ImportSt.run, ImportSt.step, ImportSt.goes, ImportSt.change, ImportSt.init, loadPaths]
  simp only [hs]
  refine ⟨rfl, by simp [ImportSt.sysPath], ?_⟩
  simp only [ImportSt.searched, ImportSt.sysPath, Option.getD_none, List.mem_filterMap, not_exists, not_and]
  intro q hq h
  simp only [List.mem_append, List.mem_singleton] at hq
  rcases hq with (hq | rfl) | rfl
  · cases q with
    | str s =>
      simp only [Option.some.injEq] at h
      subst h
      exact ho hq
    | path s => simp at h
  · simp only [Option.some.injEq] at h
    exact hd h.symm
  · simp at h

example : ∃ orig : List PathEntry, "lib" ≠ "tasks" ∧ PathEntry.str "lib" ∉ orig := ⟨[.str "app"], by decide, by decide⟩

end Rocketry.Props
