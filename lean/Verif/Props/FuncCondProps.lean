import Verif.Spec.FuncCondSpec
import Mathlib.Data.List.Nodup

/-!
# C77: a condition made from a function is observed as a call of the function
-/

namespace Rocketry.Props

open Rocketry.Args Rocketry.FuncConds Rocketry.Spec

variable {V : Type}

theorem find_append {α : Type} (d e : Dict α) (x : String) : Dict.find (d ++ e) x = (Dict.find d x).or (Dict.find e x) := by
  induction d with
  | nil => simp [Dict.find]
  | cons a d ih =>
    obtain ⟨k, v⟩ := a
    simp only [List.cons_append, Dict.find_cons]
    by_cases h : k = x
    · simp [h]
    · simp [h, ih]

theorem find_of_mem {α : Type} {d : Dict α} (h : d.keys.Nodup) {x : String} {v : α} (hm : (x, v) ∈ d) : Dict.find d x = some v := by
  induction d with
  | nil => simp at hm
  | cons a d ih =>
    obtain ⟨k, w⟩ := a
    simp only [Dict.keys, List.map_cons, List.nodup_cons] at h
    rw [Dict.find_cons]
    rcases List.mem_cons.1 hm with hm | hm
    · cases hm; simp
    · have : k ≠ x := by
        rintro rfl
        exact h.1 (List.mem_map.2 ⟨_, hm, rfl⟩)
      rw [if_neg this]
      exact ih h.2 hm

theorem find_zip {α : Type} : ∀ {ns : List String} {as : List α} (_ : ns.Nodup) (x : String) (v : α),
    Dict.find (ns.zip as) x = some v ↔ ∃ i : Nat, ns[i]? = some x ∧ as[i]? = some v
  | [], as, _, x, v => by simp [Dict.find]
  | n :: ns, [], _, x, v => by simp [Dict.find]
  | n :: ns, a :: as, h, x, v => by
    rw [List.nodup_cons] at h
    rw [List.zip_cons_cons, Dict.find_cons]
    by_cases hx : n = x
    · rw [if_pos hx]
      constructor
      · intro e; exact ⟨0, by simp [hx], by simpa using e⟩
      · rintro ⟨i, h1, h2⟩
        cases i with
        | zero => simpa using h2
        | succ i =>
          simp only [List.getElem?_cons_succ] at h1
          exact absurd (hx ▸ List.mem_of_getElem? h1) h.1
    · rw [if_neg hx, find_zip h.2 x v]
      constructor
      · rintro ⟨i, h1, h2⟩; exact ⟨i + 1, by simpa using h1, by simpa using h2⟩
      · rintro ⟨i, h1, h2⟩
        cases i with
        | zero => simp at h1; exact absurd h1 hx
        | succ i => exact ⟨i, by simpa using h1, by simpa using h2⟩

theorem fill_ok (given : Dict V) : ∀ ps : List (Par V), (∀ p ∈ ps, Dict.find given p.name = none → p.default ≠ none) →
    ∃ d, Sig.fill given ps = .ok d ∧ d.keys = ps.map (·.name) ∧
      ∀ p ∈ ps, (p.name, match Dict.find given p.name with | some v => PVal.plain v | none => p.default.getD (PVal.arg .task)) ∈ d
  | [], _ => ⟨[], rfl, rfl, by simp⟩
  | p :: ps, h => by
    obtain ⟨d, h1, h2, h3⟩ := fill_ok given ps (fun q hq => h q (List.mem_cons_of_mem _ hq))
    have hp := h p (by simp)
    cases hf : Dict.find given p.name with
    | some v =>
      refine ⟨(p.name, .plain v) :: d, by simp [Sig.fill, hf, h1], by simp [Dict.keys] at h2 ⊢; exact h2, ?_⟩
      intro q hq
      rcases List.mem_cons.1 hq with rfl | hq
      · simp [hf]
      · exact List.mem_cons_of_mem _ (h3 q hq)
    | none =>
      cases hd : p.default with
      | none => exact absurd hd (hp hf)
      | some v =>
        refine ⟨(p.name, v) :: d, by simp [Sig.fill, hf, h1, hd], by simp [Dict.keys] at h2 ⊢; exact h2, ?_⟩
        intro q hq
        rcases List.mem_cons.1 hq with rfl | hq
        · simp [hf, hd]
        · exact List.mem_cons_of_mem _ (h3 q hq)

theorem mapItems_all {α β : Type} {f : α → Except Err β} : ∀ {d : Dict α}, (∀ x ∈ d, ∃ v, f x.2 = .ok v) →
    ∃ e, mapItems f d = .ok e ∧ e.keys = d.keys ∧ ∀ x ∈ d, ∀ v, f x.2 = .ok v → (x.1, v) ∈ e
  | [], _ => ⟨[], rfl, rfl, by simp⟩
  | (k, a) :: d, h => by
    obtain ⟨v, hv⟩ := h (k, a) (by simp)
    obtain ⟨e, h1, h2, h3⟩ := mapItems_all (d := d) (fun x hx => h x (List.mem_cons_of_mem _ hx))
    refine ⟨(k, v) :: e, by simp only at hv; simp [mapItems, hv, h1], by simp [Dict.keys] at h2 ⊢; exact h2, ?_⟩
    intro x hx w hw
    rcases List.mem_cons.1 hx with rfl | hx
    · simp only at hv hw; rw [hv] at hw; cases hw; simp
    · exact List.mem_cons_of_mem _ (h3 x hx w hw)

theorem mem_argDefaults {s : Sig V} {x : String × PVal V} :
    x ∈ s.argDefaults ↔ ∃ p ∈ s.pars, ∃ a, p.default = some (.arg a) ∧ x = (p.name, .arg a) := by
  simp only [Sig.argDefaults, List.mem_filterMap]
  constructor
  · rintro ⟨p, hp, h⟩
    refine ⟨p, hp, ?_⟩
    cases hd : p.default with
    | none => simp [hd] at h
    | some v =>
      cases v with
      | plain v => simp [hd] at h
      | arg a => simp only [hd, Option.some.injEq] at h; exact ⟨a, rfl, h.symm⟩
  · rintro ⟨p, hp, a, hd, rfl⟩
    exact ⟨p, hp, by simp [hd]⟩

theorem argDefaults_keys (s : Sig V) : s.argDefaults.keys.Sublist (s.pars.map (·.name)) := by
  unfold Sig.argDefaults Dict.keys
  induction s.pars with
  | nil => simp
  | cons p ps ih =>
    rw [List.filterMap_cons, List.map_cons]
    cases hd : p.default with
    | none => simp only; exact ih.cons _
    | some v =>
      cases v with
      | plain v => simp only; exact ih.cons _
      | arg a => simp only [List.map_cons]; exact ih.cons_cons _

theorem positional_eq (s : Sig V) : s.positional = (s.pars.filter (fun q => !q.kwOnly)).map (·.name) := rfl

theorem positional_nodup {s : Sig V} (h : WellFormed s) : s.positional.Nodup :=
  (List.Sublist.map _ List.filter_sublist).nodup h.distinct

theorem atPosition_mem {s : Sig V} {p : Par V} {i : Nat} (h : AtPosition s p i) : p ∈ s.pars :=
  (List.mem_filter.1 (List.mem_of_getElem? h)).1

theorem same_par {s : Sig V} (h : WellFormed s) {p q : Par V} (hp : p ∈ s.pars) (hq : q ∈ s.pars) (he : p.name = q.name) : p = q :=
  List.inj_on_of_nodup_map h.distinct hp hq he

/-- What is found among the arguments is what is given. -/
theorem find_given {s : Sig V} (hs : WellFormed s) {args : List V} {kw : Dict V} (hc : CanTake s args kw) {p : Par V} (hp : p ∈ s.pars) (v : V) :
    Dict.find (s.positional.zip args ++ kw) p.name = some v ↔ GivenValue s args kw p v := by
  have hz : ∀ w, Dict.find (s.positional.zip args) p.name = some w ↔ ∃ i, AtPosition s p i ∧ args[i]? = some w := by
    intro w
    rw [find_zip (positional_nodup hs)]
    constructor
    · rintro ⟨i, h1, h2⟩
      refine ⟨i, ?_, h2⟩
      rw [positional_eq, List.getElem?_map, Option.map_eq_some_iff] at h1
      obtain ⟨q, h1, h3⟩ := h1
      have := same_par hs (atPosition_mem (i := i) h1) hp h3
      subst this
      exact h1
    · rintro ⟨i, h1, h2⟩
      exact ⟨i, by rw [positional_eq, List.getElem?_map]; rw [AtPosition] at h1; rw [h1]; rfl, h2⟩
  rw [find_append]
  cases hf : Dict.find (s.positional.zip args) p.name with
  | some w =>
    obtain ⟨i, h1, h2⟩ := (hz w).1 hf
    simp only [Option.some_or, Option.some.injEq]
    constructor
    · rintro rfl; exact Or.inl ⟨i, h1, h2⟩
    · rintro (⟨j, h3, h4⟩ | h3)
      · have := (hz v).2 ⟨j, h3, h4⟩
        rw [hf] at this; cases this; rfl
      · exact absurd (List.mem_map.2 ⟨_, h3, rfl⟩) (hc.once p i h1 (List.getElem?_eq_some_iff.1 h2).1)
  | none =>
    simp only [Option.none_or]
    constructor
    · intro h; exact Or.inr (Dict.find_mem h)
    · rintro (⟨j, h3, h4⟩ | h3)
      · have := (hz v).2 ⟨j, h3, h4⟩
        rw [hf] at this; cases this
      · exact find_of_mem hc.distinct h3

/-- A call with arguments that can be taken: every parameter gets what is given, or its default. -/
theorem bind_ok {s : Sig V} (hs : WellFormed s) {args : List V} {kw : Dict V} (hc : CanTake s args kw) :
    ∃ k, s.bind args kw = .ok k ∧ k.vals.keys = s.pars.map (·.name) ∧
      (∀ p ∈ s.pars, ∀ v, GivenValue s args kw p v → k.vals.find p.name = some (.plain v)) ∧
      (∀ p ∈ s.pars, ∀ x, (∀ w, ¬ GivenValue s args kw p w) → p.default = some x → k.vals.find p.name = some x) ∧
      (∀ j, k.rest[j]? = args[j + (s.pars.filter (fun q => !q.kwOnly)).length]?) ∧
      k.extra = kw.filter (fun x => !(s.pars.map (·.name)).contains x.1) := by
  obtain ⟨vs, v1, v2, v3⟩ := fill_ok (s.positional.zip args ++ kw) s.pars (by
    intro p hp hf hn
    obtain ⟨v, hv⟩ := hc.all p hp hn
    rw [(find_given hs hc hp v).2 hv] at hf
    cases hf)
  have hlen : (s.positional.length < args.length && !s.varArgs) = false := by
    rcases hc.enough with h | h
    · have : ¬ s.positional.length < args.length := by rw [positional_eq, List.length_map]; omega
      simp [this]
    · simp [h]
  have hacc : s.accepts (s.positional.take args.length) kw = true := by
    rw [Sig.accepts, List.all_eq_true]
    intro x hx
    have hxk : x.1 ∈ Dict.keys kw := List.mem_map.2 ⟨x, hx, rfl⟩
    rw [Bool.and_eq_true, Bool.not_eq_true', Bool.or_eq_true, List.contains_iff_mem]
    constructor
    · rw [← Bool.not_eq_true, List.contains_iff_mem]
      intro h
      obtain ⟨i, hi, e⟩ := List.mem_iff_getElem.1 h
      rw [List.length_take] at hi
      rw [List.getElem_take] at e
      have hat : AtPosition s ((s.pars.filter (fun q => !q.kwOnly))[i]'(by rw [positional_eq, List.length_map] at hi; omega)) i :=
        List.getElem?_eq_getElem _
      refine hc.once _ i hat (by omega) ?_
      simp only [positional_eq, List.getElem_map] at e
      rw [e]; exact hxk
    · rcases hc.known with h | h
      · exact Or.inr h
      · obtain ⟨p, hp, e⟩ := h x.1 hxk
        exact Or.inl (List.mem_map.2 ⟨p, hp, e⟩)
  have hvn : vs.keys.Nodup := by rw [v2]; exact hs.distinct
  refine ⟨⟨vs, args.drop s.positional.length, kw.filter (fun x => !(s.pars.map (·.name)).contains x.1)⟩, ?_, v2, ?_, ?_, ?_, rfl⟩
  · simp only [Sig.bind, hlen, hacc, v1]
    simp
  · intro p hp v hv
    have hin := v3 p hp
    rw [(find_given hs hc hp v).2 hv] at hin
    exact find_of_mem hvn hin
  · intro p hp x hno hd
    have hin := v3 p hp
    have hnone : Dict.find (s.positional.zip args ++ kw) p.name = none := by
      cases hf : Dict.find (s.positional.zip args ++ kw) p.name with
      | none => rfl
      | some w => exact absurd ((find_given hs hc hp w).1 hf) (hno w)
    rw [hnone, hd] at hin
    exact find_of_mem hvn hin
  · intro j
    simp only
    rw [List.getElem?_drop, positional_eq, List.length_map, Nat.add_comm]

/-- C77: observing the condition calls the function, with what is given, the values of the arguments among the defaults,
and the other defaults.  Missing: a value given for a parameter whose default is an argument (`C77_given_violated`). -/
theorem C77_observe_partial (n : Nat) (c : Ctx V) (f : Func V) (args : List V) (kw : Dict V) (hs : WellFormed f.sig)
    (hc : CanTake f.sig args kw)
    (hg : ∀ p ∈ f.sig.pars, ∀ a v, p.default = some (.arg a) → ¬ GivenValue f.sig args kw p v)
    (hm : ∀ p ∈ f.sig.pars, ∀ a, p.default = some (.arg a) → ∃ v, getValue n c a = .ok v) :
    ∃ k : Call V, FCond.observe n c ⟨some f, args, kw⟩ = f.body k ∧
      k.vals.keys = f.sig.pars.map (·.name) ∧
      (∀ p ∈ f.sig.pars, ∃ v, MeantValue n c f.sig args kw p v ∧ k.vals.find p.name = some (.plain v)) ∧
      (∀ j, k.rest[j]? = args[j + (f.sig.pars.filter (fun q => !q.kwOnly)).length]?) ∧
      (∀ x v, (x, v) ∈ k.extra ↔ (x, v) ∈ kw ∧ ∀ p ∈ f.sig.pars, p.name ≠ x) := by
  obtain ⟨d, d1, d2, d3⟩ := mapItems_all (f := pvalue n c) (d := f.sig.argDefaults) (by
    intro x hx
    obtain ⟨p, hp, a, ha, rfl⟩ := mem_argDefaults.1 hx
    exact hm p hp a ha)
  -- the values of the arguments are those of parameters with such a default
  have hd : ∀ x ∈ d.keys, ∃ p ∈ f.sig.pars, ∃ a, p.default = some (.arg a) ∧ p.name = x := by
    intro x hx
    rw [d2] at hx
    obtain ⟨y, hy, rfl⟩ := List.mem_map.1 hx
    obtain ⟨p, hp, a, ha, rfl⟩ := mem_argDefaults.1 hy
    exact ⟨p, hp, a, ha, rfl⟩
  have hdk : d.keys.Nodup := by rw [d2]; exact (argDefaults_keys _).nodup hs.distinct
  have hdis : ∀ x ∈ d.keys, x ∉ kw.keys := by
    intro x hx hx'
    obtain ⟨p, hp, a, ha, rfl⟩ := hd x hx
    obtain ⟨y, hy, e⟩ := List.mem_map.1 hx'
    exact hg p hp a y.2 ha (Or.inr (e ▸ hy))
  have hj : joinKw kw d = .ok (kw ++ d) := by
    rw [joinKw, if_neg]
    simp only [List.any_eq_true, List.contains_iff_mem, not_exists, not_and]
    intro x hx
    exact hdis _ (List.mem_map.2 ⟨x, hx, rfl⟩)
  have hself : (Dict.keys (kw ++ d)).contains "self" = false := by
    rw [← Bool.not_eq_true, List.contains_iff_mem]
    intro h
    rw [Dict.keys, List.map_append, List.mem_append] at h
    rcases h with h | h
    · exact hc.noSelf h
    · obtain ⟨p, hp, _, _, e⟩ := hd _ h
      exact hs.noSelf (List.mem_map.2 ⟨p, hp, e⟩)
  have hc' : CanTake f.sig args (kw ++ d) := by
    refine ⟨hc.enough, ?_, ?_, ?_, ?_, ?_⟩
    · rw [Dict.keys, List.map_append, List.nodup_append]
      refine ⟨hc.distinct, hdk, ?_⟩
      rintro a ha b hb rfl
      exact hdis a hb ha
    · rcases hc.known with h | h
      · exact Or.inl h
      · refine Or.inr (fun x hx => ?_)
        rw [Dict.keys, List.map_append, List.mem_append] at hx
        rcases hx with hx | hx
        · exact h x hx
        · obtain ⟨p, hp, _, _, e⟩ := hd x hx; exact ⟨p, hp, e⟩
    · rw [← List.contains_iff_mem, hself]; simp
    · intro p i h1 h2 h3
      rw [Dict.keys, List.map_append, List.mem_append] at h3
      rcases h3 with h3 | h3
      · exact hc.once p i h1 h2 h3
      · obtain ⟨q, hq, a, ha, e⟩ := hd _ h3
        have := same_par hs hq (atPosition_mem h1) e
        subst this
        exact hg q hq a args[i] ha (Or.inl ⟨i, h1, List.getElem?_eq_getElem h2⟩)
    · intro p hp h
      obtain ⟨v, hv⟩ := hc.all p hp h
      refine ⟨v, ?_⟩
      rcases hv with hv | hv
      · exact Or.inl hv
      · exact Or.inr (List.mem_append.2 (Or.inl hv))
  have hgv : ∀ p ∈ f.sig.pars, ∀ v, GivenValue f.sig args (kw ++ d) p v ↔ GivenValue f.sig args kw p v ∨ (p.name, v) ∈ d := by
    intro p _ v
    unfold GivenValue
    rw [List.mem_append, or_assoc]
  obtain ⟨k, k1, k2, k3, k4, k5, k6⟩ := bind_ok hs hc'
  refine ⟨k, ?_, k2, ?_, k5, ?_⟩
  · simp only [FCond.observe, materialize, d1, hj, hself, Func.call, k1]
    simp
  · intro p hp
    by_cases hgiv : ∃ v, GivenValue f.sig args kw p v
    · obtain ⟨v, hv⟩ := hgiv
      exact ⟨v, .given hv, k3 p hp v ((hgv p hp v).2 (Or.inl hv))⟩
    · have hno : ∀ w, ¬ GivenValue f.sig args kw p w := fun w hw => hgiv ⟨w, hw⟩
      cases hdef : p.default with
      | none => exact absurd (hc.all p hp hdef) hgiv
      | some x =>
        cases x with
        | arg a =>
          obtain ⟨v, hv⟩ := hm p hp a hdef
          have hmem : (p.name, v) ∈ d := d3 (p.name, .arg a) (mem_argDefaults.2 ⟨p, hp, a, hdef, rfl⟩) v hv
          exact ⟨v, .argument hno hdef hv, k3 p hp v ((hgv p hp v).2 (Or.inr hmem))⟩
        | plain v =>
          refine ⟨v, .default hno hdef, k4 p hp _ ?_ hdef⟩
          intro w hw
          rcases (hgv p hp w).1 hw with h | h
          · exact hno w h
          · obtain ⟨q, hq, a, ha, e⟩ := hd _ (List.mem_map.2 ⟨_, h, rfl⟩)
            have := same_par hs hq hp e
            subst this
            rw [hdef] at ha; cases ha
  · intro x v
    rw [k6]
    simp only [List.mem_filter, List.mem_append, Bool.not_eq_true', ← Bool.not_eq_true, List.contains_iff_mem, List.mem_map, not_exists, not_and]
    constructor
    · rintro ⟨h | h, h'⟩
      · exact ⟨h, h'⟩
      · obtain ⟨q, hq, _, _, e⟩ := hd _ (List.mem_map.2 ⟨_, h, rfl⟩)
        exact absurd e (h' q hq)
    · rintro ⟨h, h'⟩
      exact ⟨Or.inl h, h'⟩

/-- A function for the examples: `def is_foo(myval, limit=3, *, task=Task())`; it looks at `myval` only. -/
def isFoo : Func Nat :=
  ⟨⟨[⟨"myval", false, none⟩, ⟨"limit", false, some (.plain 3)⟩, ⟨"task", true, some (.arg .task)⟩], false, false⟩,
    fun k => .ok (match k.vals.find "myval" with | some (.plain v) => v == 5 | _ => false)⟩

/-- Surroundings with a task, which is the value 77. -/
def inTask : Ctx Nat := ⟨true, true, [], [], [], [], [], fun _ => 0, fun _ _ _ => .error .other, 77⟩

theorem isFoo_wellFormed : WellFormed isFoo.sig := ⟨by decide, by decide⟩

theorem isFoo_pars {p : Par Nat} (h : p ∈ isFoo.sig.pars) :
    p = ⟨"myval", false, none⟩ ∨ p = ⟨"limit", false, some (.plain 3)⟩ ∨ p = ⟨"task", true, some (.arg .task)⟩ := by
  simpa [isFoo] using h

/-- `is_foo` with `myval=5` meets the hypotheses of `C77_observe_partial`. -/
example : WellFormed isFoo.sig ∧ CanTake isFoo.sig [] [("myval", 5)] ∧
    (∀ p ∈ isFoo.sig.pars, ∀ a v, p.default = some (.arg a) → ¬ GivenValue isFoo.sig [] [("myval", 5)] p v) ∧
    (∀ p ∈ isFoo.sig.pars, ∀ a, p.default = some (.arg a) → ∃ v, getValue 9 inTask a = .ok v) ∧
    FCond.observe 9 inTask ⟨some isFoo, [], [("myval", 5)]⟩ = .ok true := by
  refine ⟨isFoo_wellFormed, ⟨Or.inl (by simp), by decide, Or.inr ?_, by decide, by simp, ?_⟩, ?_, ?_, by decide⟩
  · intro k hk
    simp only [Dict.keys, List.map_cons, List.map_nil, List.mem_singleton] at hk
    subst hk
    exact ⟨⟨"myval", false, none⟩, by simp [isFoo], rfl⟩
  · intro p hp hd
    rcases isFoo_pars hp with rfl | rfl | rfl
    · exact ⟨5, Or.inr (by simp)⟩
    · cases hd
    · cases hd
  · intro p hp a v hd
    rcases isFoo_pars hp with rfl | rfl | rfl <;> simp [GivenValue] at hd ⊢
  · intro p hp a hd
    rcases isFoo_pars hp with rfl | rfl | rfl
    · cases hd
    · cases hd
    · cases hd; exact ⟨77, rfl⟩

/-- C77: if something that has to be given is missing, the observation raises `TypeError`. -/
theorem C77_missing (n : Nat) (c : Ctx V) (f : Func V) (args : List V) (kw : Dict V) (hs : WellFormed f.sig)
    (hm : ∀ p ∈ f.sig.pars, ∀ a, p.default = some (.arg a) → ∃ v, getValue n c a = .ok v)
    (p : Par V) (hp : p ∈ f.sig.pars) (hd : p.default = none) (hg : ∀ v, ¬ GivenValue f.sig args kw p v) :
    FCond.observe n c ⟨some f, args, kw⟩ = .error .type := by
  obtain ⟨d, d1, d2, d3⟩ := mapItems_all (f := pvalue n c) (d := f.sig.argDefaults) (by
    intro x hx
    obtain ⟨p, hp, a, ha, rfl⟩ := mem_argDefaults.1 hx
    exact hm p hp a ha)
  simp only [FCond.observe, materialize, d1]
  cases hj : joinKw kw d with
  | error e => unfold joinKw at hj; split at hj <;> simp_all
  | ok m =>
    have hm' : m = kw ++ d := by unfold joinKw at hj; split at hj <;> simp_all
    subst hm'
    simp only
    split
    · rfl
    · have hf : Dict.find (f.sig.positional.zip args ++ (kw ++ d)) p.name = none := by
        rw [Dict.find_none]
        intro h
        simp only [Dict.keys, List.map_append, List.mem_append] at h
        rcases h with h | h | h
        · obtain ⟨v, hv⟩ : ∃ v, Dict.find (f.sig.positional.zip args) p.name = some v := by
            cases hh : Dict.find (f.sig.positional.zip args) p.name with
            | none => exact absurd h (Dict.find_none.1 hh)
            | some v => exact ⟨v, rfl⟩
          obtain ⟨i, h1, h2⟩ := (find_zip (positional_nodup hs) _ _).1 hv
          rw [positional_eq, List.getElem?_map, Option.map_eq_some_iff] at h1
          obtain ⟨q, h1, h3⟩ := h1
          have := same_par hs (atPosition_mem (i := i) h1) hp h3
          subst this
          exact hg v (Or.inl ⟨i, h1, h2⟩)
        · obtain ⟨x, hx, e⟩ := List.mem_map.1 h
          exact hg x.2 (Or.inr (e ▸ hx))
        · rw [show List.map (fun x => x.1) d = d.keys from rfl, d2] at h
          obtain ⟨x, hx, e⟩ := List.mem_map.1 h
          obtain ⟨q, hq, a, ha, rfl⟩ := mem_argDefaults.1 hx
          have := same_par hs hq hp e
          subst this
          rw [hd] at ha; cases ha
      have : ∀ ps : List (Par V), p ∈ ps → Sig.fill (f.sig.positional.zip args ++ (kw ++ d)) ps = .error .type := by
        intro ps
        induction ps with
        | nil => intro h; simp at h
        | cons q ps ih =>
          intro h
          unfold Sig.fill
          rcases List.mem_cons.1 h with rfl | h
          · simp [hf, hd]
          · rw [ih h]
            cases Dict.find (f.sig.positional.zip args ++ (kw ++ d)) q.name <;> cases q.default <;> rfl
      unfold Func.call Sig.bind
      split
      · rename_i e he
        split at he
        · cases he; rfl
        · split at he
          · cases he; rfl
          · rw [this _ hp] at he; cases he; rfl
      · rename_i k he
        split at he
        · cases he
        · split at he
          · cases he
          · rw [this _ hp] at he; cases he

example : ∃ p ∈ isFoo.sig.pars, p.default = none ∧ ∀ v, ¬ GivenValue isFoo.sig [] [("limit", 4)] p v :=
  ⟨⟨"myval", false, none⟩, by simp [isFoo], rfl, by simp [GivenValue]⟩

/-- Violated: a value given for a parameter whose default is an argument is not used; the observation raises `TypeError`, for
all such functions and values, as the value of the argument is given as well (rocketry/conditions/func.py:101-104). -/
theorem C77_given_violated (n : Nat) (c : Ctx V) (f : Func V) (args : List V) (kw : Dict V)
    (hm : ∀ p ∈ f.sig.pars, ∀ a, p.default = some (.arg a) → ∃ v, getValue n c a = .ok v)
    (p : Par V) (hp : p ∈ f.sig.pars) (a : Args.Arg V) (hd : p.default = some (.arg a)) (v : V) (hg : GivenValue f.sig args kw p v) :
    FCond.observe n c ⟨some f, args, kw⟩ = .error .type := by
  obtain ⟨d, d1, d2, d3⟩ := mapItems_all (f := pvalue n c) (d := f.sig.argDefaults) (by
    intro x hx
    obtain ⟨p, hp, a, ha, rfl⟩ := mem_argDefaults.1 hx
    exact hm p hp a ha)
  obtain ⟨w, hw⟩ := hm p hp a hd
  have hmem : (p.name, w) ∈ d := d3 (p.name, .arg a) (mem_argDefaults.2 ⟨p, hp, a, hd, rfl⟩) w hw
  simp only [FCond.observe, materialize, d1]
  cases hj : joinKw kw d with
  | error e => unfold joinKw at hj; split at hj <;> simp_all
  | ok m =>
    have hm' : m = kw ++ d := by unfold joinKw at hj; split at hj <;> simp_all
    subst hm'
    simp only
    split
    · rfl
    · rcases hg with ⟨i, h1, h2⟩ | h
      · have hi := (List.getElem?_eq_some_iff.1 h2).1
        have hin : p.name ∈ f.sig.positional.take args.length := by
          rw [positional_eq, ← List.map_take]
          refine List.mem_map.2 ⟨p, List.mem_iff_getElem?.2 ⟨i, ?_⟩, rfl⟩
          rw [List.getElem?_take, if_pos hi]; exact h1
        have hacc : f.sig.accepts (f.sig.positional.take args.length) (kw ++ d) = false := by
          rw [← Bool.not_eq_true, Sig.accepts, List.all_eq_true]
          intro h
          have := h _ (List.mem_append.2 (Or.inr hmem))
          rw [Bool.and_eq_true, Bool.not_eq_true', ← Bool.not_eq_true, List.contains_iff_mem] at this
          exact this.1 hin
        have hb : f.sig.bind args (kw ++ d) = .error .type := by
          unfold Sig.bind
          split
          · rfl
          · rw [if_pos (by simp [hacc])]
        rw [Func.call, hb]
      · exfalso
        unfold joinKw at hj
        rw [if_pos] at hj
        · cases hj
        · rw [List.any_eq_true]
          exact ⟨_, hmem, List.contains_iff_mem.2 (List.mem_map.2 ⟨_, h, rfl⟩)⟩

example : GivenValue isFoo.sig [] [("myval", 5), ("task", 1)] ⟨"task", true, some (.arg .task)⟩ 1 := Or.inr (by simp)

/-- Violated: `bool(cond)` gives the function the arguments themselves instead of their values, for all functions with such
a default (rocketry/conditions/func.py:98-99). -/
theorem C77_bool_violated (f : Func V) (args : List V) (kw : Dict V) (hs : WellFormed f.sig) (hc : CanTake f.sig args kw)
    (p : Par V) (hp : p ∈ f.sig.pars) (a : Args.Arg V) (hd : p.default = some (.arg a)) (hg : ∀ v, ¬ GivenValue f.sig args kw p v) :
    ∃ k, FCond.bool ⟨some f, args, kw⟩ = f.body k ∧ k.vals.find p.name = some (.arg a) := by
  obtain ⟨k, k1, _, _, k4, _⟩ := bind_ok hs hc
  exact ⟨k, by simp only [FCond.bool, Func.call, k1], k4 p hp _ hg hd⟩

/-! ### reading texts -/

section
variable {groups : String → String → Option (Dict V)}

theorem found_only {l : Dict Nat} {syn t : String} {i : Nat} {g : Dict V} (h : Dict.find l syn = some i) (hg : groups syn t = some g)
    (ho : ∀ k ∈ l.keys, k ≠ syn → groups k t = none) : found groups l t = some (i, g) := by
  induction l with
  | nil => simp [Dict.find] at h
  | cons a l ih =>
    obtain ⟨k, j⟩ := a
    rw [Dict.find_cons] at h
    unfold found
    by_cases hk : k = syn
    · subst hk
      rw [if_pos rfl] at h
      cases h
      rw [hg]
    · rw [if_neg hk] at h
      rw [ho k (by simp [Dict.keys]) hk]
      exact ih h (fun k' hk' => ho k' (List.mem_cons_of_mem _ hk'))

theorem find_foldl_put (i : Nat) (syn : String) : ∀ (syns : List String) (d : Dict Nat),
    Dict.find (syns.foldl (fun d s => Dict.put d s i) d) syn = if syn ∈ syns then some i else Dict.find d syn
  | [], d => by simp
  | s :: syns, d => by
    rw [List.foldl_cons, find_foldl_put i syn syns, Dict.find_put]
    by_cases h : syn ∈ syns
    · simp [h]
    · by_cases h' : s = syn
      · simp [h']
      · have : syn ≠ s := fun e => h' e.symm
        simp [h, h', this]

/-- What one event does to an object that exists. -/
theorem step_object (s : FSess V) (e : FEv V) {i : Nat} {x : FCond V} (h : s.conds[i]? = some x) :
    (s.step groups e).conds[i]? = some x ∨
    (x.func = none ∧ ∃ f, e = .decorate i f ∧ (s.step groups e).conds[i]? = some { x with func := some f }) := by
  have hlt : i < s.conds.length := (List.getElem?_eq_some_iff.1 h).1
  have happ : ∀ y, (s.conds ++ [y])[i]? = some x := fun y => by rw [List.getElem?_append_left hlt, h]
  cases e with
  | make func syns args kw => exact Or.inl (happ _)
  | decorate j f =>
    cases hj : s.conds[j]? with
    | none => left; simp only [FSess.step, hj]; exact h
    | some y =>
      by_cases hy : y.func.isNone = true
      · by_cases hij : j = i
        · subst hij
          rw [h] at hj
          cases hj
          refine Or.inr ⟨Option.isNone_iff_eq_none.1 hy, f, rfl, ?_⟩
          simp only [FSess.step, h, if_pos hy]
          simp [hlt]
        · left
          simp only [FSess.step, hj, if_pos hy]
          rw [List.getElem?_set_ne hij, h]
      · left; simp only [FSess.step, hj, if_neg hy]; exact h
  | call j args kw =>
    left
    cases hj : s.conds[j]? with
    | none => simp only [FSess.step, hj]; exact h
    | some y =>
      simp only [FSess.step, hj]
      split
      · exact h
      · exact happ _
  | text t =>
    left
    cases hj : found groups s.parsers t with
    | none => simp only [FSess.step, hj]; exact h
    | some y =>
      obtain ⟨j, g⟩ := y
      cases hj' : s.conds[j]? with
      | none => simp only [FSess.step, hj, hj']; exact h
      | some y =>
        simp only [FSess.step, hj, hj']
        split
        · exact h
        · exact happ _

/-- C77: whatever happens, a condition that has got its function keeps it, and a condition keeps what it was made with. -/
theorem C77_kept (s : FSess V) (l : List (FEv V)) (i : Nat) (x : FCond V) (h : s.conds[i]? = some x) :
    ∃ y, (s.run groups l).conds[i]? = some y ∧ y.args = x.args ∧ y.kwargs = x.kwargs ∧ (∀ f, x.func = some f → y.func = some f) := by
  induction l generalizing s x with
  | nil => exact ⟨x, h, rfl, rfl, fun _ h => h⟩
  | cons e l ih =>
    rcases step_object (groups := groups) s e h with h' | ⟨hn, f, _, h'⟩
    · exact ih _ _ h'
    · obtain ⟨y, h1, h2, h3, _⟩ := ih _ _ h'
      exact ⟨y, h1, h2, h3, fun g hg => by rw [hn] at hg; cases hg⟩

theorem step_parsers (s : FSess V) (e : FEv V) (syn : String) (h : ∀ func syns args kw, e = .make func syns args kw → syn ∉ syns) :
    (s.step groups e).parsers.find syn = s.parsers.find syn := by
  cases e with
  | make func syns args kw =>
    simp only [FSess.step]
    rw [find_foldl_put, if_neg (h func syns args kw rfl)]
  | decorate j f =>
    cases hj : s.conds[j]? with
    | none => simp only [FSess.step, hj]
    | some y => simp only [FSess.step, hj]; split <;> rfl
  | call j args kw =>
    cases hj : s.conds[j]? with
    | none => simp only [FSess.step, hj]
    | some y => simp only [FSess.step, hj]; split <;> rfl
  | text t =>
    cases hj : found groups s.parsers t with
    | none => simp only [FSess.step, hj]
    | some y =>
      obtain ⟨j, g⟩ := y
      cases hj' : s.conds[j]? with
      | none => simp only [FSess.step, hj, hj']
      | some y => simp only [FSess.step, hj, hj']; split <;> rfl

theorem run_parsers (s : FSess V) (l : List (FEv V)) (syn : String)
    (h : ∀ e ∈ l, ∀ func syns args kw, e = .make func syns args kw → syn ∉ syns) :
    (s.run groups l).parsers.find syn = s.parsers.find syn := by
  induction l generalizing s with
  | nil => rfl
  | cons e l ih =>
    rw [FSess.run, List.foldl_cons]
    rw [show List.foldl (FSess.step groups) (s.step groups e) l = (s.step groups e).run groups l from rfl,
      ih _ (fun e' he' => h e' (List.mem_cons_of_mem _ he')), step_parsers s e syn (h e (by simp))]

theorem run_undecorated (s : FSess V) (l : List (FEv V)) (i : Nat) (x : FCond V) (h : s.conds[i]? = some x)
    (hn : ∀ f, FEv.decorate i f ∉ l) : (s.run groups l).conds[i]? = some x := by
  induction l generalizing s with
  | nil => exact h
  | cons e l ih =>
    rcases step_object (groups := groups) s e h with h' | ⟨_, f, rfl, _⟩
    · exact ih _ h' (fun f hf => hn f (List.mem_cons_of_mem _ hf))
    · exact absurd (List.mem_cons_self ..) (hn f)

/-- C77: a text that is matched by one syntax only is read as a condition with the function of the object that was made with
this syntax last — given when it was made, or decorated before the text is read — and with the groups of the text.
Missing: texts read before the function is decorated (`C77_early_violated`). -/
theorem C77_text_partial (s : FSess V) (func : Option (Func V)) (syns : List String) (args : List V) (kw : Dict V) (l : List (FEv V))
    (f : Func V) (syn t : String) (g : Dict V) (hsyn : syn ∈ syns)
    (hl : ∀ e ∈ l, ∀ func syns args kw, e = .make func syns args kw → syn ∉ syns)
    (hf : func = some f ∨ (func = none ∧ ∃ l1 l2, l = l1 ++ .decorate s.conds.length f :: l2 ∧
      ∀ f', FEv.decorate s.conds.length f' ∉ l1))
    (hg : groups syn t = some g) (hself : "self" ∉ g.keys)
    (ho : ∀ k ∈ (s.run groups (.make func syns args kw :: l)).parsers.keys, k ≠ syn → groups k t = none) :
    (s.run groups (.make func syns args kw :: l ++ [.text t])).conds =
      (s.run groups (.make func syns args kw :: l)).conds ++ [⟨some f, [], g⟩] := by
  have hrun : s.run groups (.make func syns args kw :: l ++ [.text t]) =
      (s.run groups (.make func syns args kw :: l)).step groups (.text t) := by
    simp only [FSess.run, List.foldl_append, List.foldl_cons, List.foldl_nil]
  have h0 : (s.step groups (.make func syns args kw)).conds[s.conds.length]? = some ⟨func, args, kw⟩ := by
    simp [FSess.step]
  have hp : (s.run groups (.make func syns args kw :: l)).parsers.find syn = some s.conds.length := by
    have := run_parsers (groups := groups) (s.step groups (.make func syns args kw)) l syn hl
    rw [show s.run groups (.make func syns args kw :: l) = (s.step groups (.make func syns args kw)).run groups l from rfl, this]
    simp only [FSess.step]
    rw [find_foldl_put, if_pos hsyn]
  obtain ⟨y, hy, hyf⟩ : ∃ y, (s.run groups (.make func syns args kw :: l)).conds[s.conds.length]? = some y ∧ y.func = some f := by
    rcases hf with rfl | ⟨rfl, l1, l2, rfl, hl1⟩
    · obtain ⟨y, h1, _, _, h4⟩ := C77_kept (groups := groups) _ l _ _ h0
      exact ⟨y, h1, h4 f rfl⟩
    · have h1 := run_undecorated (groups := groups) _ l1 _ _ h0 hl1
      have h2 : (((s.step groups (.make none syns args kw)).run groups l1).step groups (.decorate s.conds.length f)).conds[s.conds.length]? =
          some ⟨some f, args, kw⟩ := by
        generalize (s.step groups (.make none syns args kw)).run groups l1 = s1 at h1
        have hlt := (List.getElem?_eq_some_iff.1 h1).1
        simp only [FSess.step, h1, Option.isNone_none, if_true]
        simp [hlt]
      obtain ⟨y, h3, _, _, h4⟩ := C77_kept (groups := groups) _ l2 _ _ h2
      refine ⟨y, ?_, h4 f rfl⟩
      rw [← h3]
      simp only [FSess.run, List.foldl_append, List.foldl_cons]
  rw [hrun]
  generalize hs : s.run groups (.make func syns args kw :: l) = s' at hp hy ho ⊢
  simp only [FSess.step, found_only hp hg ho, hy]
  rw [if_neg (by rw [List.contains_iff_mem]; exact hself)]
  simp only [FCond.recreate, hyf]

/-- Violated: a text read before the function is decorated gives a condition that never gets the function; each observation
raises `TypeError`. -/
theorem C77_early_violated (n : Nat) (c : Ctx V) (syn t : String) (g : Dict V) (hg : groups syn t = some g) (hself : "self" ∉ g.keys)
    (f : Func V) :
    ∃ x, (FSess.run groups ⟨[], []⟩ [.make none [syn] [] [], .text t, .decorate 0 f]).conds = [⟨some f, [], []⟩, x] ∧
      x.observe n c = .error .type := by
  refine ⟨⟨none, [], g⟩, ?_, rfl⟩
  have h1 : found groups [(syn, 0)] t = some (0, g) := by unfold found; rw [hg]
  have h3 : "self" ∉ g.keys := hself
  simp [FSess.run, FSess.step, Dict.put, h1, h3, FCond.recreate]

end

/-- The syntax "is foo …" for the examples. -/
def fooGroups (syn t : String) : Option (Dict Nat) :=
  if syn = "is foo (?P<myval>.+)" ∧ t = "is foo 5" then some [("myval", 5)] else none

example : (FSess.run fooGroups ⟨[], []⟩ ([.make none ["is foo (?P<myval>.+)"] [] [], .decorate 0 isFoo] ++ [.text "is foo 5"])).conds.length = 2 ∧
    (∀ x ∈ ((FSess.run fooGroups ⟨[], []⟩ ([.make none ["is foo (?P<myval>.+)"] [] [], .decorate 0 isFoo] ++ [.text "is foo 5"])).conds)[1]?,
      x.observe 9 inTask = .ok true) := by
  have := C77_text_partial (groups := fooGroups) ⟨[], []⟩ none ["is foo (?P<myval>.+)"] [] [] [.decorate 0 isFoo] isFoo
    "is foo (?P<myval>.+)" "is foo 5" [("myval", 5)] (by simp) (by simp) (Or.inr ⟨rfl, [], [], rfl, by simp⟩) (by simp [fooGroups]) (by simp [Dict.keys])
    (by
      intro k hk hne
      simp [FSess.run, FSess.step, Dict.put, Dict.keys] at hk
      exact absurd hk hne)
  simp only [List.cons_append, List.nil_append] at this ⊢
  rw [this]
  constructor
  · simp [FSess.run, FSess.step]
  · intro x hx
    simp [FSess.run, FSess.step] at hx
    subst hx
    decide

end Rocketry.Props
