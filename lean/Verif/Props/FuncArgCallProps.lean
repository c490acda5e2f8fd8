import Verif.Props.FuncCondProps
import Verif.Session.FuncArgCall

/-!
# C124: the function of an argument is called with what was given for it, or else with its defaults
-/

namespace Rocketry.Props

open Rocketry.Args Rocketry.FuncConds Rocketry.Spec

variable {V : Type}

/-- **C124.** The function of a `FuncArg` is called with what is given, the values of the arguments among the defaults, and
the other defaults.  Missing: a value given for a parameter whose default is an argument (`C124_given_violated`). -/
theorem C124_call_partial (n : Nat) (c : Ctx V) (sig : Sig V) (args : List V) (kw : Dict V) (place : Option V)
    (hs : WellFormed sig) (hc : CanTake sig args kw)
    (hg : ∀ p ∈ sig.pars, ∀ a v, p.default = some (.arg a) → ¬ GivenValue sig args kw p v)
    (hm : ∀ p ∈ sig.pars, ∀ a, p.default = some (.arg a) → ∃ v, getValue n c a = .ok v) :
    ∃ k : Call V, FArg.called n c ⟨sig, args, kw, place⟩ = .ok k ∧
      k.vals.keys = sig.pars.map (·.name) ∧
      (∀ p ∈ sig.pars, ∃ v, MeantValue n c sig args kw p v ∧ k.vals.find p.name = some (.plain v)) ∧
      (∀ j, k.rest[j]? = args[j + (sig.pars.filter (fun q => !q.kwOnly)).length]?) ∧
      (∀ x v, (x, v) ∈ k.extra ↔ (x, v) ∈ kw ∧ ∀ p ∈ sig.pars, p.name ≠ x) := by
  obtain ⟨d, d1, d2, d3⟩ := mapItems_all (f := pvalue n c) (d := sig.argDefaults) (by
    intro x hx
    obtain ⟨p, hp, a, ha, rfl⟩ := mem_argDefaults.1 hx
    exact hm p hp a ha)
  -- the values of the arguments are those of parameters with such a default
  have hd : ∀ x ∈ d.keys, ∃ p ∈ sig.pars, ∃ a, p.default = some (.arg a) ∧ p.name = x := by
    intro x hx
    rw [d2] at hx
    obtain ⟨y, hy, rfl⟩ := List.mem_map.1 hx
    obtain ⟨p, hp, a, ha, rfl⟩ := mem_argDefaults.1 hy
    exact ⟨p, hp, a, ha, rfl⟩
  have hdk : d.keys.Nodup := by rw [d2]; exact (argDefaults_keys _).nodup hs.distinct
  have hdis : ∀ x ∈ d.keys, x ∉ kw.keys := by
    intro x hx hx'
    obtain ⟨p, hp, a, ha, rfl⟩ := hd x hx
    obtain ⟨y, hy, e⟩ := List.mem_map.1 hx'
    exact hg p hp a y.2 ha (Or.inr (e ▸ hy))
  have hj : joinKw d kw = .ok (d ++ kw) := by
    rw [joinKw, if_neg]
    simp only [List.any_eq_true, List.contains_iff_mem, not_exists, not_and]
    intro x hx hx'
    exact hdis _ hx' (List.mem_map.2 ⟨x, hx, rfl⟩)
  have hself : (Dict.keys (d ++ kw)).contains "self" = false := by
    rw [← Bool.not_eq_true, List.contains_iff_mem]
    intro h
    rw [Dict.keys, List.map_append, List.mem_append] at h
    rcases h.symm with h | h
    · exact hc.noSelf h
    · obtain ⟨p, hp, _, _, e⟩ := hd _ h
      exact hs.noSelf (List.mem_map.2 ⟨p, hp, e⟩)
  have hc' : CanTake sig args (d ++ kw) := by
    refine ⟨hc.enough, ?_, ?_, ?_, ?_, ?_⟩
    · rw [Dict.keys, List.map_append, List.nodup_append]
      refine ⟨hdk, hc.distinct, ?_⟩
      rintro a ha b hb rfl
      exact hdis a ha hb
    · rcases hc.known with h | h
      · exact Or.inl h
      · refine Or.inr (fun x hx => ?_)
        rw [Dict.keys, List.map_append, List.mem_append] at hx
        rcases hx.symm with hx | hx
        · exact h x hx
        · obtain ⟨p, hp, _, _, e⟩ := hd x hx; exact ⟨p, hp, e⟩
    · rw [← List.contains_iff_mem, hself]; simp
    · intro p i h1 h2 h3
      rw [Dict.keys, List.map_append, List.mem_append] at h3
      rcases h3.symm with h3 | h3
      · exact hc.once p i h1 h2 h3
      · obtain ⟨q, hq, a, ha, e⟩ := hd _ h3
        have := same_par hs hq (atPosition_mem h1) e
        subst this
        exact hg q hq a args[i] ha (Or.inl ⟨i, h1, List.getElem?_eq_getElem h2⟩)
    · intro p hp h
      obtain ⟨v, hv⟩ := hc.all p hp h
      refine ⟨v, ?_⟩
      rcases hv with hv | hv
      · exact Or.inl hv
      · exact Or.inr (List.mem_append.2 (Or.inr hv))
  have hgv : ∀ p ∈ sig.pars, ∀ v, GivenValue sig args (d ++ kw) p v ↔ GivenValue sig args kw p v ∨ (p.name, v) ∈ d := by
    intro p _ v
    unfold GivenValue
    rw [List.mem_append, or_assoc, or_comm (a := (p.name, v) ∈ d)]
  obtain ⟨k, k1, k2, k3, k4, k5, k6⟩ := bind_ok hs hc'
  refine ⟨k, ?_, k2, ?_, k5, ?_⟩
  · simp only [FArg.called, materialize, d1, hj, k1]
  · intro p hp
    by_cases hgiv : ∃ v, GivenValue sig args kw p v
    · obtain ⟨v, hv⟩ := hgiv
      exact ⟨v, .given hv, k3 p hp v ((hgv p hp v).2 (Or.inl hv))⟩
    · have hno : ∀ w, ¬ GivenValue sig args kw p w := fun w hw => hgiv ⟨w, hw⟩
      cases hdef : p.default with
      | none => exact absurd (hc.all p hp hdef) hgiv
      | some x =>
        cases x with
        | arg a =>
          obtain ⟨v, hv⟩ := hm p hp a hdef
          have hmem : (p.name, v) ∈ d := d3 (p.name, .arg a) (mem_argDefaults.2 ⟨p, hp, a, hdef, rfl⟩) v hv
          exact ⟨v, .argument hno hdef hv, k3 p hp v ((hgv p hp v).2 (Or.inr hmem))⟩
        | plain v =>
          refine ⟨v, .default hno hdef, k4 p hp _ ?_ hdef⟩
          intro w hw
          rcases (hgv p hp w).1 hw with h | h
          · exact hno w h
          · obtain ⟨q, hq, a, ha, e⟩ := hd _ (List.mem_map.2 ⟨_, h, rfl⟩)
            have := same_par hs hq hp e
            subst this
            rw [hdef] at ha; cases ha
  · intro x v
    rw [k6]
    simp only [List.mem_filter, List.mem_append, Bool.not_eq_true', ← Bool.not_eq_true, List.contains_iff_mem, List.mem_map, not_exists, not_and]
    constructor
    · rintro ⟨h | h, h'⟩
      · obtain ⟨q, hq, _, _, e⟩ := hd _ (List.mem_map.2 ⟨_, h, rfl⟩)
        exact absurd e (h' q hq)
      · exact ⟨h, h'⟩
    · rintro ⟨h, h'⟩
      exact ⟨Or.inr h, h'⟩

/-- **C124 does not hold** for parameters whose default is an argument: a value given for such a one, by position or by
keyword, is not used; the evaluation raises `TypeError`. -/
theorem C124_given_violated (n : Nat) (c : Ctx V) (sig : Sig V) (args : List V) (kw : Dict V) (place : Option V)
    (hm : ∀ p ∈ sig.pars, ∀ a, p.default = some (.arg a) → ∃ v, getValue n c a = .ok v)
    (p : Par V) (hp : p ∈ sig.pars) (a : Args.Arg V) (hd : p.default = some (.arg a)) (v : V)
    (hg : GivenValue sig args kw p v) : FArg.called n c ⟨sig, args, kw, place⟩ = .error .type := by
  obtain ⟨d, d1, d2, d3⟩ := mapItems_all (f := pvalue n c) (d := sig.argDefaults) (by
    intro x hx
    obtain ⟨p, hp, a, ha, rfl⟩ := mem_argDefaults.1 hx
    exact hm p hp a ha)
  obtain ⟨w, hw⟩ := hm p hp a hd
  have hmem : (p.name, w) ∈ d := d3 (p.name, .arg a) (mem_argDefaults.2 ⟨p, hp, a, hd, rfl⟩) w hw
  simp only [FArg.called, materialize, d1]
  cases hj : joinKw d kw with
  | error e => unfold joinKw at hj; split at hj <;> simp_all
  | ok m =>
    have hm' : m = d ++ kw := by unfold joinKw at hj; split at hj <;> simp_all
    subst hm'
    simp only
    rcases hg with ⟨i, h1, h2⟩ | h
    · have hi := (List.getElem?_eq_some_iff.1 h2).1
      have hin : p.name ∈ sig.positional.take args.length := by
        rw [positional_eq, ← List.map_take]
        refine List.mem_map.2 ⟨p, List.mem_iff_getElem?.2 ⟨i, ?_⟩, rfl⟩
        rw [List.getElem?_take, if_pos hi]; exact h1
      have hacc : sig.accepts (sig.positional.take args.length) (d ++ kw) = false := by
        rw [← Bool.not_eq_true, Sig.accepts, List.all_eq_true]
        intro h
        have := h _ (List.mem_append.2 (Or.inl hmem))
        rw [Bool.and_eq_true, Bool.not_eq_true', ← Bool.not_eq_true, List.contains_iff_mem] at this
        exact this.1 hin
      unfold Sig.bind
      split
      · rfl
      · rw [if_pos (by simp [hacc])]
    · exfalso
      unfold joinKw at hj
      rw [if_pos] at hj
      · cases hj
      · rw [List.any_eq_true]
        exact ⟨_, h, List.contains_iff_mem.2 (List.mem_map.2 ⟨_, hmem, rfl⟩)⟩

/-- A keyword `materialize` never gets to the function: it tells where the function is evaluated. -/
theorem C124_materialize_violated (sig : Sig V) (args : List V) (kw : Dict V) (v : V) (hv : Dict.find kw "materialize" = some v) :
    "materialize" ∉ (FArg.make sig args kw).kwargs.keys ∧ (FArg.make sig args kw).place = some v := by
  refine ⟨?_, hv⟩
  intro h
  obtain ⟨x, hx, e⟩ := List.mem_map.1 h
  have := (List.mem_filter.1 hx).2
  simp [e] at this

/-- All other keywords are kept for the function. -/
theorem C124_kept (sig : Sig V) (args : List V) (kw : Dict V) (x : String) (v : V) (hx : x ≠ "materialize") :
    (x, v) ∈ (FArg.make sig args kw).kwargs ↔ (x, v) ∈ kw := by
  simp [FArg.make, List.mem_filter, hx]

theorem paramFunc_eq (default : V) (sig : Sig V) (p : Par V) (hp : p ∈ sig.pars) (hn : p.name = "session") :
    paramFunc default sig = ⟨sig, [], [("session", default)], none⟩ := by
  have : (sig.pars.map (·.name)).contains "session" = true :=
    List.contains_iff_mem.2 (List.mem_map.2 ⟨p, hp, hn⟩)
  unfold paramFunc
  rw [if_pos this]
  simp [FArg.make, Dict.find]

/-- A function set with `param_func` gets as `session` the session that was the default when it was set, in whatever
session it is evaluated. -/
theorem C124_session_violated (n : Nat) (c : Ctx V) (sig : Sig V) (default : V) (hs : WellFormed sig)
    (p : Par V) (hp : p ∈ sig.pars) (hn : p.name = "session") (hd : ∀ a, p.default ≠ some (.arg a))
    (ho : ∀ q ∈ sig.pars, q.default = none → q.name = "session")
    (hm : ∀ p ∈ sig.pars, ∀ a, p.default = some (.arg a) → ∃ v, getValue n c a = .ok v) :
    ∃ k : Call V, (paramFunc default sig).called n c = .ok k ∧ k.vals.find "session" = some (.plain default) := by
  rw [paramFunc_eq default sig p hp hn]
  have hgv : ∀ q : Par V, ∀ v, GivenValue sig [] [("session", default)] q v ↔ q.name = "session" ∧ v = default := by
    intro q v
    simp [GivenValue]
  obtain ⟨k, h1, _, h3, _, _⟩ := C124_call_partial n c sig [] [("session", default)] none hs
    ⟨.inl (by simp), by simp [Dict.keys], .inr (by
      intro x hx
      simp [Dict.keys] at hx
      exact ⟨p, hp, hn.trans hx.symm⟩), by simp [Dict.keys], by simp, fun q hq hqd =>
        ⟨default, (hgv q default).2 ⟨ho q hq hqd, rfl⟩⟩⟩
    (by
      intro q hq a v hqa hgq
      have := same_par hs hq hp (((hgv q v).1 hgq).1.trans hn.symm)
      subst this
      exact hd a hqa) hm
  refine ⟨k, h1, ?_⟩
  obtain ⟨v, hv, hf⟩ := h3 p hp
  rw [hn] at hf
  rw [hf]
  cases hv with
  | given h => rw [((hgv p v).1 h).2]
  | argument h _ _ => exact absurd ((hgv p default).2 ⟨hn, rfl⟩) (h default)
  | default h _ => exact absurd ((hgv p default).2 ⟨hn, rfl⟩) (h default)

/-- A function set with `param_func` that asks for the session as an argument (`session=Session()`) can never be
evaluated: the session is given twice. -/
theorem C124_asked_violated (n : Nat) (c : Ctx V) (sig : Sig V) (default : V)
    (hm : ∀ p ∈ sig.pars, ∀ a, p.default = some (.arg a) → ∃ v, getValue n c a = .ok v)
    (p : Par V) (hp : p ∈ sig.pars) (hn : p.name = "session") (a : Args.Arg V) (hd : p.default = some (.arg a)) :
    (paramFunc default sig).called n c = .error .type := by
  rw [paramFunc_eq default sig p hp hn]
  exact C124_given_violated n c sig [] _ none hm p hp a hd default (.inr (by simp [hn]))

/-- Non-vacuity: `is_foo` of C77 with `myval=5`; its `task` is the task. -/
example : ∃ k, FArg.called 9 inTask (FArg.make isFoo.sig [] [("myval", 5), ("materialize", 1)]) = .ok k
    ∧ k.vals.find "myval" = some (.plain 5) ∧ k.vals.find "limit" = some (.plain 3)
    ∧ k.vals.find "task" = some (.plain 77) := ⟨_, rfl, rfl, rfl, rfl⟩

/-- Non-vacuity of `C124_session_violated`: `def f(session, task=Task())`. -/
example : ∃ k, (paramFunc 8 (⟨[⟨"session", false, none⟩, ⟨"task", false, some (.arg .task)⟩], false, false⟩ : Sig Nat)).called 9 inTask
    = .ok k ∧ k.vals.find "session" = some (.plain 8) := by
  refine C124_session_violated 9 inTask _ 8 ⟨by decide, by decide⟩ ⟨"session", false, none⟩ (by simp) rfl (by simp) ?_ ?_
  · intro q hq
    simp at hq
    rcases hq with rfl | rfl <;> simp
  · intro q hq a ha
    simp at hq
    rcases hq with rfl | rfl
    · cases ha
    · cases ha; exact ⟨77, rfl⟩

end Rocketry.Props
