import Verif.Spec.OptionsSpec
import Verif.Props.DurationProps
import Mathlib.Data.List.Nodup

/-! # Options of sessions and tasks: C82 -/

namespace Rocketry.Props
open Rocketry.Spec Rocketry.Options

/-- Durations are read the same way for sessions and tasks. -/
theorem lasts_session {v : OptVal} {d : Int} (h : Lasts v d) : parseTimeout v = .ok (.span d) := by
  cases h with
  | seconds q d hr =>
    show Except.ok _ = _
    rw [RoundsTo.unique (roundHalfEven_spec _) hr]
  | text t d ht hr =>
    obtain ⟨e, he, hr'⟩ := C54_reads t ht
    show Except.map _ (stringToTimedelta t.text) = _
    rw [he, RoundsTo.unique hr' hr]
    rfl
  | span d => rfl

/-- A checked value is the one asked for. -/
theorem check_good {E : Pyd} (hE : E.Plain) {f : String} {v w : OptVal} (h : GoodValue E.cpus f v w) :
    checkField E f v = .ok w := by
  obtain ⟨ha, k, dflt, hk, hw⟩ := h
  have hp : preParse E f v = .ok w := by
    unfold AsksFor at ha
    unfold preParse
    by_cases h1 : f = "execution"
    · rw [if_pos h1] at ha ⊢
      rcases ha with ⟨rfl, rfl⟩ | ⟨hv, rfl⟩
      · rfl
      · rw [if_neg hv]
    rw [if_neg h1] at ha ⊢
    by_cases h2 : f = "timeout"
    · rw [if_pos h2] at ha
      obtain ⟨d, hd, rfl⟩ := ha
      rw [if_neg (by rw [h2]; decide), if_pos h2]
      exact lasts_session hd
    rw [if_neg h2] at ha
    by_cases h3 : f = "shut_cond"
    · rw [if_pos h3] at ha ⊢
      rcases ha with ⟨rfl, rfl⟩ | ⟨hv, rfl⟩
      · rfl
      · rw [if_neg hv]
        have : ∃ n, w = .obj n := by
          subst h3
          simp only [IsOption, options, List.mem_cons, Prod.mk.injEq, List.not_mem_nil, or_false] at hk
          simp at hk
          obtain ⟨rfl, rfl⟩ := hk
          rcases hw with hw | hw
          · exact absurd hw hv
          · exact hw
        obtain ⟨n, rfl⟩ := this
        exact hE.cond n
    · rw [if_neg h3] at ha ⊢
      rw [if_neg h2, ha]
  unfold checkField
  rw [hp]
  exact hE.coerce f k dflt w hk hw

/-- The names of the fields, in order. -/
def fieldNames : List String :=
  ["use_instance_naming", "task_priority", "execution", "task_pre_exist", "force_status_from_logs",
   "task_logger_basename", "scheduler_logger_basename", "silence_task_prerun", "silence_task_logging",
   "silence_cond_check", "cycle_sleep", "debug", "multilaunch", "func_run_id", "max_process_count", "tasks_as_daemon",
   "restarting", "instant_shutdown", "timeout", "shut_cond", "cls_lock", "param_materialize", "timezone", "time_func"]

theorem defaults_keys (E : Pyd) : (defaults E).keys = fieldNames := rfl

theorem defaults_nodup (E : Pyd) : (defaults E).keys.Nodup := by
  rw [defaults_keys]
  decide +kernel

theorem execution_good (cpus : Nat) : GoodValue cpus "execution" .none (.text c!"async") :=
  ⟨.inl ⟨rfl, rfl⟩, .word, _, .head _, _, rfl⟩

theorem timeout_good (cpus : Nat) : GoodValue cpus "timeout" (.span 1800000000) (.span 1800000000) := by
  refine ⟨?_, .duration, .span 1800000000, ?_, _, rfl⟩
  · exact ⟨_, .span _, rfl⟩
  · exact .tail _ (.tail _ (.tail _ (.head _)))

/-- The value that the option has when nothing is given for it. -/
theorem default_good {E : Pyd} (hE : E.Plain) {a : String × OptVal} (ha : a ∈ defaults E) :
    ∃ k v, IsOption E.cpus a.1 k v ∧
      (if a.1 = "execution" ∨ a.1 = "timeout" then checkField E a.1 a.2 = .ok v else v = a.2) := by
  by_cases h1 : a.1 = "execution"
  · have : a.2 = .none := by
      simp only [defaults, List.mem_cons, List.not_mem_nil, or_false] at ha
      rcases ha with rfl | rfl | rfl | rfl | rfl | rfl | rfl | rfl | rfl | rfl | rfl | rfl | rfl | rfl | rfl | rfl | rfl |
        rfl | rfl | rfl | rfl | rfl | rfl | rfl <;> first | rfl | (exact absurd h1 (show ¬ (_ : String) = _ by simp))
    rw [h1, this]
    exact ⟨.word, _, .head _, check_good hE (execution_good _)⟩
  by_cases h2 : a.1 = "timeout"
  · have : a.2 = .span 1800000000 := by
      simp only [defaults, List.mem_cons, List.not_mem_nil, or_false] at ha
      rcases ha with rfl | rfl | rfl | rfl | rfl | rfl | rfl | rfl | rfl | rfl | rfl | rfl | rfl | rfl | rfl | rfl | rfl |
        rfl | rfl | rfl | rfl | rfl | rfl | rfl <;> first | rfl | (exact absurd h2 (show ¬ (_ : String) = _ by simp))
    rw [h2, this]
    exact ⟨.duration, .span 1800000000, .tail _ (.tail _ (.tail _ (.head _))), check_good hE (timeout_good _)⟩
  have hn : ¬ (a.1 = "execution" ∨ a.1 = "timeout") := by simp [h1, h2]
  simp only [if_neg hn]
  clear hn
  simp only [defaults, List.mem_cons, List.not_mem_nil, or_false] at ha
  unfold IsOption options
  rcases ha with rfl | rfl | rfl | rfl | rfl | rfl | rfl | rfl | rfl | rfl | rfl | rfl | rfl | rfl | rfl | rfl | rfl |
    rfl | rfl | rfl | rfl | rfl | rfl | rfl <;>
  first
  | exact absurd rfl h1
  | exact absurd rfl h2
  | (refine ⟨.flag, _, ?_, rfl⟩; simp; done)
  | (refine ⟨.number, _, ?_, rfl⟩; simp; done)
  | (refine ⟨.numberOrNone, _, ?_, rfl⟩; simp; done)
  | (refine ⟨.word, _, ?_, rfl⟩; simp; done)
  | (refine ⟨.object, _, ?_, rfl⟩; simp; done)
  | (refine ⟨.objectOrNone, _, ?_, rfl⟩; simp; done)

/-- The names of the table are those of the fields. -/
theorem option_field {E : Pyd} {n : String} {k : OptKind} {v : OptVal} (h : IsOption E.cpus n k v) :
    n ∈ (defaults E).keys := by
  have hs : (options E.cpus).map (·.1) =
      ["execution", "task_pre_exist", "multilaunch", "timeout", "shut_cond", "max_process_count", "tasks_as_daemon",
       "instant_shutdown", "restarting", "cycle_sleep", "force_status_from_logs", "silence_task_prerun",
       "silence_task_logging", "silence_cond_check", "param_materialize", "func_run_id", "cls_lock", "timezone",
       "time_func", "task_logger_basename", "scheduler_logger_basename", "debug", "use_instance_naming",
       "task_priority"] := rfl
  have hn : n ∈ (options E.cpus).map (·.1) := List.mem_map.2 ⟨_, h, rfl⟩
  rw [hs] at hn
  rw [defaults_keys]
  have : ∀ x ∈ ["execution", "task_pre_exist", "multilaunch", "timeout", "shut_cond", "max_process_count",
      "tasks_as_daemon", "instant_shutdown", "restarting", "cycle_sleep", "force_status_from_logs",
      "silence_task_prerun", "silence_task_logging", "silence_cond_check", "param_materialize", "func_run_id",
      "cls_lock", "timezone", "time_func", "task_logger_basename", "scheduler_logger_basename", "debug",
      "use_instance_naming", "task_priority"], x ∈ fieldNames := by decide +kernel
  exact this n hn

/-- The table has each name once. -/
theorem option_unique {cpus : Nat} {n : String} {k k' : OptKind} {v v' : OptVal} (h : IsOption cpus n k v)
    (h' : IsOption cpus n k' v') : k = k' ∧ v = v' := by
  have hs : ((options cpus).map (·.1)).Nodup := by
    show List.Nodup ["execution", "task_pre_exist", "multilaunch", "timeout", "shut_cond", "max_process_count",
      "tasks_as_daemon", "instant_shutdown", "restarting", "cycle_sleep", "force_status_from_logs",
      "silence_task_prerun", "silence_task_logging", "silence_cond_check", "param_materialize", "func_run_id",
      "cls_lock", "timezone", "time_func", "task_logger_basename", "scheduler_logger_basename", "debug",
      "use_instance_naming", "task_priority"]
    decide +kernel
  have := List.inj_on_of_nodup_map hs h h' rfl
  simp only [Prod.mk.injEq, true_and] at this
  exact this

/-- The former name is not in the table. -/
theorem field_not_former {E : Pyd} {f : String} (h : f ∈ (defaults E).keys) : f ≠ "task_execution" := by
  rintro rfl
  rw [defaults_keys] at h
  revert h
  decide +kernel

theorem opt_found {d : Dict OptVal} (hd : d.keys.Nodup) {x : String} {v : OptVal} (h : (x, v) ∈ d) :
    d.find x = some v := by
  induction d with
  | nil => cases h
  | cons a d ih =>
    obtain ⟨k, w⟩ := a
    unfold Dict.keys at hd
    rw [List.map_cons, List.nodup_cons] at hd
    rw [Dict.find_cons]
    rcases List.mem_cons.1 h with h | h
    · cases h
      rw [if_pos rfl]
    · rw [if_neg, ih hd.2 h]
      rintro rfl
      exact hd.1 (List.mem_map.2 ⟨_, h, rfl⟩)

/-- What is found after `set_deprecated`, when no option is given twice. -/
theorem opt_given {g : Dict OptVal} (hg : (g.map fun a => optionNamed a.1).Nodup) {f : String}
    (hf : f ≠ "task_execution") (v : OptVal) :
    (setDeprecated g).find f = some v ↔ ∃ n, (n, v) ∈ g ∧ optionNamed n = f := by
  have hk : g.keys.Nodup := by
    unfold Dict.keys
    refine List.Nodup.of_map optionNamed ?_
    rw [List.map_map]
    exact hg
  have huniq : ∀ {n m : String} {v w : OptVal}, (n, v) ∈ g → (m, w) ∈ g → optionNamed n = optionNamed m →
      n = m ∧ v = w := by
    intro n m v w h1 h2 he
    have := List.inj_on_of_nodup_map hg h1 h2 he
    exact ⟨congrArg Prod.fst this, congrArg Prod.snd this⟩
  unfold setDeprecated
  cases ht : g.find "task_execution" with
  | none =>
    simp only
    have hno := Dict.find_none.1 ht
    constructor
    · intro h
      refine ⟨f, Dict.find_mem h, ?_⟩
      unfold optionNamed
      rw [if_neg hf]
    · rintro ⟨n, hn, he⟩
      have hne : n ≠ "task_execution" := by
        rintro rfl
        exact hno (List.mem_map.2 ⟨_, hn, rfl⟩)
      unfold optionNamed at he
      rw [if_neg hne] at he
      subst he
      exact opt_found hk hn
  | some u =>
    simp only
    have hu := Dict.find_mem ht
    rw [Dict.find_put]
    by_cases h : "execution" = f
    · rw [if_pos h]
      subst h
      constructor
      · intro hv
        cases hv
        exact ⟨_, hu, rfl⟩
      · rintro ⟨n, hn, he⟩
        rw [(huniq hn hu (by rw [he]; rfl)).2]
    · rw [if_neg h]
      rw [Dict.find_filterKey g (fun s => decide (s ≠ "task_execution")), if_pos (by simpa using hf)]
      constructor
      · intro hv
        refine ⟨f, Dict.find_mem hv, ?_⟩
        unfold optionNamed
        rw [if_neg hf]
      · rintro ⟨n, hn, he⟩
        by_cases hne : n = "task_execution"
        · subst hne
          exact absurd he h
        · unfold optionNamed at he
          rw [if_neg hne] at he
          subst he
          exact opt_found hk hn

/-- The fields of a new `Config`. -/
theorem build_fields {E : Pyd} {d : Dict OptVal} {F : String × OptVal → OptVal} :
    ∀ {l : Dict OptVal}, (∀ a ∈ l, buildField E d a = .ok (a.1, F a)) →
      buildFields E d l = .ok (l.map fun a => (a.1, F a)) := by
  intro l
  induction l with
  | nil => intro _; rfl
  | cons a l ih =>
    intro h
    unfold buildFields
    rw [h a (List.mem_cons_self ..)]
    simp only
    rw [ih fun b hb => h b (List.mem_cons_of_mem _ hb)]
    rfl

/-- A new `Config` has the options asked for and the defaults of the others. -/
theorem build_good {E : Pyd} (hE : E.Plain) {g : Dict OptVal} (hg : (g.map fun a => optionNamed a.1).Nodup)
    (hv : ∀ n v, (n, v) ∈ g → (∃ k dflt, IsOption E.cpus (optionNamed n) k dflt) →
      ∃ w, GoodValue E.cpus (optionNamed n) v w) :
    ∃ c, build E g = .ok c ∧
      (∀ n v w, (n, v) ∈ g → GoodValue E.cpus (optionNamed n) v w → c.find (optionNamed n) = some w) ∧
      (∀ f k dflt, IsOption E.cpus f k dflt → (∀ n v, (n, v) ∈ g → optionNamed n ≠ f) → c.find f = some dflt) := by
  have hx : ∀ a ∈ defaults E, ∃ w, buildField E (setDeprecated g) a = .ok (a.1, w) := by
    intro a ha
    have hak : a.1 ∈ (defaults E).keys := List.mem_map.2 ⟨a, ha, rfl⟩
    unfold buildField
    cases hf : (setDeprecated g).find a.1 with
    | some v =>
      obtain ⟨n, hn, he⟩ := (opt_given hg (field_not_former hak) v).1 hf
      obtain ⟨w, hw⟩ := hv n v hn (by
        obtain ⟨k, u, hu, _⟩ := default_good hE ha
        rw [he]
        exact ⟨k, u, hu⟩)
      rw [he] at hw
      refine ⟨w, ?_⟩
      show Except.map _ _ = _
      rw [check_good hE hw]
      rfl
    | none =>
      obtain ⟨k, v, _, hd⟩ := default_good hE ha
      by_cases h : a.1 = "execution" ∨ a.1 = "timeout"
      · rw [if_pos h] at hd
        exact ⟨v, by simp only; rw [if_pos h, hd]; rfl⟩
      · exact ⟨a.2, by simp only; rw [if_neg h]⟩
  have hx' : ∀ a : String × OptVal, ∃ w, a ∈ defaults E → buildField E (setDeprecated g) a = .ok (a.1, w) := by
    intro a
    by_cases ha : a ∈ defaults E
    · obtain ⟨w, hw⟩ := hx a ha
      exact ⟨w, fun _ => hw⟩
    · exact ⟨.none, fun h => absurd h ha⟩
  obtain ⟨F, hF⟩ := Classical.axiomOfChoice hx'
  have hfind : ∀ a ∈ defaults E, Dict.find ((defaults E).map fun a => (a.1, F a)) a.1 = some (F a) := by
    intro a ha
    refine opt_found ?_ (List.mem_map.2 ⟨a, ha, rfl⟩)
    have : Dict.keys ((defaults E).map fun a => (a.1, F a)) = (defaults E).keys := by
      unfold Dict.keys
      rw [List.map_map]
      rfl
    rw [this]
    exact defaults_nodup E
  refine ⟨_, build_fields (fun a ha => hF a ha), ?_, ?_⟩
  · intro n v w hn hw
    obtain ⟨_, k, dflt, hk, _⟩ := id hw
    have hkey := option_field hk
    obtain ⟨a, ha, hae⟩ := List.mem_map.1 hkey
    rw [← hae, hfind a ha]
    have hb := hF a ha
    unfold buildField at hb
    have hg' := (opt_given hg (field_not_former hkey) v).2 ⟨n, hn, rfl⟩
    rw [hae, hg'] at hb
    have hc := check_good hE hw
    simp only [hc, Except.map] at hb
    cases hb
    rfl
  · intro f k dflt hk hno
    have hkey := option_field hk
    obtain ⟨a, ha, hae⟩ := List.mem_map.1 hkey
    subst hae
    rw [hfind a ha]
    have hb := hF a ha
    unfold buildField at hb
    have hnone : (setDeprecated g).find a.1 = none := by
      cases hf : (setDeprecated g).find a.1 with
      | none => rfl
      | some v =>
        obtain ⟨n, hn, he⟩ := (opt_given hg (field_not_former hkey) v).1 hf
        exact absurd he (hno n v hn)
    rw [hnone] at hb
    obtain ⟨k', v, hk', hd⟩ := default_good hE ha
    obtain ⟨_, rfl⟩ := option_unique hk hk'
    simp only at hb
    by_cases h : a.1 = "execution" ∨ a.1 = "timeout"
    · rw [if_pos h] at hd hb
      rw [hd] at hb
      cases hb
      rfl
    · rw [if_neg h] at hd hb
      have : F a = a.2 := by
        simp only [Except.ok.injEq] at hb
        exact (congrArg Prod.snd hb).symm
      rw [this, hd]

/-- Sessions have a `Config` object. -/
def _root_.Rocketry.Options.World.Sound (w : World) : Prop := ∀ r ∈ w.sessions, r < w.configs.length

theorem opt_of {w : World} {s r : Nat} {c : Dict OptVal} (hs : w.sessions[s]? = some r) (hc : w.configs[r]? = some c)
    (n : String) : w.opt s n = c.find (optionNamed n) := by
  unfold World.opt
  rw [hs]
  simp only [hc, Option.bind_some]
  unfold readOpt optionNamed
  by_cases h : n = "task_execution"
  · rw [if_pos h, if_pos h]
  · rw [if_neg h, if_neg h]

/-- C82: a session made with options, by the argument `config`, by keywords or by both, has the options asked for and
the defaults of the others; its options are its own, and the sessions before it keep theirs. -/
theorem C82_created {E : Pyd} (hE : E.Plain) {w : World} (hw : w.Sound) {arg : CfgArg} {kw : Dict OptVal}
    (harg : arg = .none ∨ ∃ d, arg = .dict d)
    (honce : ((givenOpts arg kw).map fun a => optionNamed a.1).Nodup)
    (hgood : ∀ n v, (n, v) ∈ givenOpts arg kw → (∃ k dflt, IsOption E.cpus (optionNamed n) k dflt) →
      ∃ x, GoodValue E.cpus (optionNamed n) v x) :
    ∃ w', step E w (.session arg kw) = .ok w' ∧ step E w (.app none arg kw) = .ok w' ∧ w'.Sound ∧
      w'.sessions.length = w.sessions.length + 1 ∧
      (∀ n v x, (n, v) ∈ givenOpts arg kw → GoodValue E.cpus (optionNamed n) v x →
        ∀ m, optionNamed m = optionNamed n → w'.opt w.sessions.length m = some x) ∧
      (∀ f k dflt, IsOption E.cpus f k dflt → (∀ n v, (n, v) ∈ givenOpts arg kw → optionNamed n ≠ f) →
        w'.opt w.sessions.length f = some dflt) ∧
      (∀ s, s < w.sessions.length → ∀ n, w'.opt s n = w.opt s n) ∧
      (∀ s r, s < w.sessions.length → w'.sessions[s]? = some r → w'.sessions[w.sessions.length]? ≠ some r) := by
  obtain ⟨c, hc, hgiven, hdef⟩ := build_good hE honce hgood
  have hstep : newSession E w arg kw = .ok ⟨w.configs ++ [c], w.sessions ++ [w.configs.length]⟩ := by
    unfold newSession getConfig
    rcases harg with rfl | ⟨d, rfl⟩
    · simp only [givenOpts] at hc
      simp only [hc, Except.map]
    · simp only [givenOpts] at hc honce
      have hno : d.any (fun a => decide (a.1 ∈ kw.keys)) = false := by
        rw [List.any_eq_false]
        intro a ha hb
        obtain ⟨b, hb, he⟩ := List.mem_map.1 (of_decide_eq_true hb)
        rw [List.map_append, List.nodup_append] at honce
        refine honce.2.2 _ (List.mem_map.2 ⟨a, ha, rfl⟩) _ (List.mem_map.2 ⟨b, hb, rfl⟩) ?_
        rw [he]
      simp only [hno, hc, Except.map]
      rfl
  have hnew : (w.sessions ++ [w.configs.length])[w.sessions.length]? = some w.configs.length := by
    rw [List.getElem?_append_right (Nat.le_refl _)]
    simp
  have hcnew : (w.configs ++ [c])[w.configs.length]? = some c := by
    rw [List.getElem?_append_right (Nat.le_refl _)]
    simp
  refine ⟨_, hstep, hstep, ?_, by simp, ?_, ?_, ?_, ?_⟩
  · intro r hr
    rw [List.length_append]
    rcases List.mem_append.1 hr with hr | hr
    · have := hw r hr
      simp only [List.length_cons, List.length_nil]
      omega
    · have : r = w.configs.length := by simpa using hr
      simp only [List.length_cons, List.length_nil]
      omega
  · intro n v x hn hx m hm
    rw [opt_of (w := ⟨_, _⟩) hnew hcnew, hm]
    exact hgiven n v x hn hx
  · intro f k dflt hk hno
    have hf := field_not_former (option_field (E := E) hk)
    rw [opt_of (w := ⟨_, _⟩) hnew hcnew]
    unfold optionNamed
    rw [if_neg hf]
    exact hdef f k dflt hk hno
  · intro s hs n
    have h1 : (w.sessions ++ [w.configs.length])[s]? = w.sessions[s]? := List.getElem?_append_left hs
    unfold World.opt
    simp only [h1]
    cases hr : w.sessions[s]? with
    | none => rfl
    | some r =>
      have hlt := hw r (List.mem_of_getElem? hr)
      simp only
      rw [List.getElem?_append_left hlt]
  · intro s r hs hr
    simp only at hr ⊢
    rw [List.getElem?_append_left hs] at hr
    rw [hnew]
    have := hw r (List.mem_of_getElem? hr)
    intro he
    cases he
    omega

/-- C82: an option given both in the dictionary and by a keyword is refused. -/
theorem C82_twice (E : Pyd) (w : World) (d kw : Dict OptVal) (n : String) (v x : OptVal) (h : (n, v) ∈ d)
    (h' : (n, x) ∈ kw) : step E w (.session (.dict d) kw) = .error .type := by
  show newSession E w (.dict d) kw = _
  unfold newSession getConfig
  have : d.any (fun a => decide (a.1 ∈ kw.keys)) = true :=
    List.any_eq_true.2 ⟨_, h, decide_eq_true (List.mem_map.2 ⟨_, h', rfl⟩)⟩
  simp only [this, if_true]
  rfl

theorem build_fails {E : Pyd} {d : Dict OptVal} : ∀ {l : Dict OptVal}, (∃ a ∈ l, ∃ e, buildField E d a = .error e) →
    ∃ e, buildFields E d l = .error e
  | [], ⟨a, h, _⟩ => by cases h
  | b :: l, ⟨a, h, e, he⟩ => by
    unfold buildFields
    rcases List.mem_cons.1 h with rfl | h
    · exact ⟨e, by rw [he]⟩
    · obtain ⟨e', h'⟩ := build_fails (l := l) ⟨a, h, e, he⟩
      cases hb : buildField E d b with
      | error e1 => exact ⟨e1, rfl⟩
      | ok x => exact ⟨e', by simp only [h']⟩

/-- C82: a value that the checks refuse is refused: no session is made, and the option is not set. -/
theorem C82_refused {E : Pyd} {w : World} {arg : CfgArg} {kw : Dict OptVal} (harg : arg = .none ∨ ∃ d, arg = .dict d)
    (honce : ((givenOpts arg kw).map fun a => optionNamed a.1).Nodup) {n : String} {v : OptVal} (hn : (n, v) ∈ givenOpts arg kw)
    {k : OptKind} {dflt : OptVal} (hk : IsOption E.cpus (optionNamed n) k dflt)
    (hbad : (optionNamed n = "timeout" ∧ ∃ s e, v = .text s ∧ stringToTimedelta s = .error e) ∨
      (optionNamed n ∉ ["execution", "timeout", "shut_cond"] ∧ ∃ e, E.coerce (optionNamed n) v = .error e)) :
    (∃ e, step E w (.session arg kw) = .error e) ∧ (∃ e, step E w (.app none arg kw) = .error e) ∧
      ∀ r, ∃ e, step E w (.set r (optionNamed n) v) = .error e := by
  have hf := option_field (E := E) hk
  have hc : ∃ e, checkField E (optionNamed n) v = .error e := by
    rcases hbad with ⟨h1, s, e, rfl, h2⟩ | ⟨h1, e, h2⟩
    · refine ⟨e, ?_⟩
      rw [h1]
      simp only [checkField, preParse, parseTimeout, h2, Except.map]
      rfl
    · refine ⟨e, ?_⟩
      simp only [List.mem_cons, List.not_mem_nil, or_false, not_or] at h1
      unfold checkField preParse
      rw [if_neg h1.1, if_neg h1.2.2, if_neg h1.2.1]
      exact h2
  obtain ⟨e, hc⟩ := hc
  have hb : ∃ e, build E (givenOpts arg kw) = .error e := by
    obtain ⟨⟨f, x⟩, hx, hfx⟩ := List.mem_map.1 hf
    refine build_fails ⟨_, hx, e, ?_⟩
    have := (opt_given honce (field_not_former hf) v).2 ⟨n, hn, rfl⟩
    simp only [] at hfx
    simp only [buildField, hfx, this, hc, Except.map]
  obtain ⟨e', hb⟩ := hb
  have hs : ∃ e, newSession E w arg kw = .error e := by
    unfold newSession getConfig
    rcases harg with rfl | ⟨d, rfl⟩
    · simp only [givenOpts] at hb
      exact ⟨e', by simp only [hb, Except.map]⟩
    · simp only [givenOpts] at hb
      by_cases h : d.any (fun a => decide (a.1 ∈ kw.keys)) = true
      · exact ⟨.type, by simp only [h, if_true, Except.map]⟩
      · exact ⟨e', by simp only [if_neg h, hb, Except.map]⟩
  refine ⟨hs, hs, fun r => ?_⟩
  simp only [step]
  cases w.configs[r]? with
  | none => exact ⟨_, rfl⟩
  | some c =>
    simp only [assign, if_pos hf, hc, Except.map]
    exact ⟨_, rfl⟩

/-- C82: setting an option changes it to what is asked for, and no other option of the session, and no option of sessions
with other `Config` objects. -/
theorem C82_set {E : Pyd} (hE : E.Plain) {w : World} {s r : Nat} {c : Dict OptVal} (hs : w.sessions[s]? = some r)
    (hc : w.configs[r]? = some c) {f : String} {v x : OptVal} (hx : GoodValue E.cpus f v x) :
    ∃ w', step E w (.set r f v) = .ok w' ∧ w'.sessions = w.sessions ∧ w'.opt s f = some x ∧
      (∀ n, optionNamed n ≠ f → w'.opt s n = w.opt s n) ∧
      (∀ s', w.sessions[s']? ≠ some r → ∀ n, w'.opt s' n = w.opt s' n) := by
  obtain ⟨_, k, dflt, hk, _⟩ := id hx
  have hf := option_field (E := E) hk
  have hlt : r < w.configs.length := (List.getElem?_eq_some_iff.1 hc).1
  have hstep : step E w (.set r f v) = .ok ⟨w.configs.set r (c.put f x), w.sessions⟩ := by
    unfold step
    simp only [hc]
    unfold assign
    rw [if_pos hf, check_good hE hx]
    rfl
  have hc' : (w.configs.set r (c.put f x))[r]? = some (c.put f x) := List.getElem?_set_self hlt
  refine ⟨_, hstep, rfl, ?_, ?_, ?_⟩
  · rw [opt_of (w := ⟨w.configs.set r (c.put f x), w.sessions⟩) hs hc', Dict.find_put]
    unfold optionNamed
    rw [if_neg (field_not_former hf), if_pos rfl]
  · intro n hn
    rw [opt_of (w := ⟨w.configs.set r (c.put f x), w.sessions⟩) hs hc', Dict.find_put, if_neg (Ne.symm hn), opt_of hs hc]
  · intro s' hs' n
    unfold World.opt
    simp only
    cases hr : w.sessions[s']? with
    | none => rfl
    | some r' =>
      have hne : r ≠ r' := by
        rintro rfl
        exact hs' hr
      simp only
      rw [List.getElem?_set_ne hne]

/-- The operation gives a value to the option `f` of the `Config` object `r`: it sets it, or, for `debug`, starts an
application. -/
def _root_.Rocketry.Options.Op.Gives (r : Nat) (f : String) : Op → Prop
  | .set r' f' _ => r' = r ∧ f' = f
  | .run _ _ => f = "debug"
  | _ => False

theorem step_keeps {E : Pyd} {w w' : World} {r : Nat} {f : String} {o : Op} (hr : r < w.configs.length)
    (hg : ¬ o.Gives r f) (h : step E w o = .ok w') :
    r < w'.configs.length ∧ (w'.configs[r]?).bind (·.find f) = (w.configs[r]?).bind (·.find f) := by
  have happ : ∀ c : Dict OptVal, r < (w.configs ++ [c]).length ∧
      ((w.configs ++ [c])[r]?).bind (·.find f) = (w.configs[r]?).bind (·.find f) := by
    intro c
    rw [List.getElem?_append_left hr]
    exact ⟨by simp; omega, rfl⟩
  have hset : ∀ (r' : Nat) (c c' : Dict OptVal) (f' : String) (v : OptVal), w.configs[r']? = some c →
      assign E c f' v = .ok c' → ¬ (r' = r ∧ f' = f) → r < (w.configs.set r' c').length ∧
      ((w.configs.set r' c')[r]?).bind (·.find f) = (w.configs[r]?).bind (·.find f) := by
    intro r' c c' f' v hc ha hne
    refine ⟨by simpa using hr, ?_⟩
    by_cases he : r' = r
    · subst he
      rw [List.getElem?_set_self hr, hc]
      unfold assign at ha
      by_cases hm : f' ∈ (defaults E).keys
      · rw [if_pos hm] at ha
        cases hk : checkField E f' v with
        | error e => simp only [hk, Except.map] at ha; cases ha
        | ok u =>
          simp only [hk, Except.map] at ha
          cases ha
          show Dict.find _ f = Dict.find _ f
          rw [Dict.find_put, if_neg fun hf => hne ⟨rfl, hf⟩]
      · rw [if_neg hm] at ha
        cases ha
    · rw [List.getElem?_set_ne he]
  have hsess : ∀ arg kw, newSession E w arg kw = .ok w' → r < w'.configs.length ∧
      (w'.configs[r]?).bind (·.find f) = (w.configs[r]?).bind (·.find f) := by
    intro arg kw hn
    unfold newSession at hn
    cases hcfg : getConfig E w arg kw with
    | error e => simp only [hcfg, Except.map] at hn; cases hn
    | ok x =>
      simp only [hcfg, Except.map] at hn
      cases hn
      unfold getConfig at hcfg
      cases arg with
      | none =>
        cases hb : build E kw with
        | error e => simp only [hb, Except.map] at hcfg; cases hcfg
        | ok c =>
          simp only [hb, Except.map] at hcfg
          cases hcfg
          exact happ c
      | dict d =>
        simp only at hcfg
        by_cases ha : d.any (fun a => decide (a.1 ∈ kw.keys)) = true
        · rw [if_pos ha] at hcfg; cases hcfg
        · rw [if_neg ha] at hcfg
          cases hb : build E (d ++ kw) with
          | error e => simp only [hb, Except.map] at hcfg; cases hcfg
          | ok c =>
            simp only [hb, Except.map] at hcfg
            cases hcfg
            exact happ c
      | obj r' =>
        simp only at hcfg
        by_cases ha : r' < w.configs.length
        · rw [if_pos ha] at hcfg
          cases hcfg
          exact ⟨hr, rfl⟩
        · rw [if_neg ha] at hcfg; cases hcfg
      | other => cases hcfg
  cases o with
  | config kw =>
    unfold step at h
    cases hb : build E kw with
    | error e => simp only [hb, Except.map] at h; cases h
    | ok c =>
      simp only [hb, Except.map] at h
      cases h
      exact happ c
  | session arg kw => exact hsess arg kw h
  | app s arg kw =>
    cases s with
    | none => exact hsess arg kw h
    | some i =>
      unfold step at h
      simp only at h
      by_cases hi : i < w.sessions.length
      · rw [if_pos hi] at h; cases h; exact ⟨hr, rfl⟩
      · rw [if_neg hi] at h; cases h
  | set r' f' v =>
    unfold step at h
    cases hc : w.configs[r']? with
    | none => simp only [hc] at h; cases h
    | some c =>
      simp only [hc] at h
      cases ha : assign E c f' v with
      | error e => simp only [ha, Except.map] at h; cases h
      | ok c' =>
        simp only [ha, Except.map] at h
        cases h
        exact hset r' c c' f' v hc ha hg
  | run s b =>
    unfold step at h
    cases hs : w.sessions[s]? with
    | none => simp only [hs] at h; cases h
    | some r' =>
      simp only [hs] at h
      cases hc : w.configs[r']? with
      | none => simp only [hc] at h; cases h
      | some c =>
        simp only [hc] at h
        cases ha : assign E c "debug" (.bool b) with
        | error e => simp only [ha, Except.map] at h; cases h
        | ok c' =>
          simp only [ha, Except.map] at h
          cases h
          exact hset r' c c' _ _ hc ha fun hh => hg hh.2.symm

/-- C82: an option keeps its value, whatever else the program does with this and other sessions, as long as it is not
given another one. -/
theorem C82_kept (E : Pyd) (os : List Op) (w : World) (r : Nat) (f : String) (hr : r < w.configs.length)
    (hg : ∀ o ∈ os, ¬ o.Gives r f) :
    ((runOps E w os).configs[r]?).bind (·.find f) = (w.configs[r]?).bind (·.find f) := by
  induction os generalizing w with
  | nil => rfl
  | cons o os ih =>
    unfold runOps
    cases h : step E w o with
    | error e => exact ih w hr fun o' ho' => hg o' (List.mem_cons_of_mem _ ho')
    | ok w' =>
      obtain ⟨h1, h2⟩ := step_keeps hr (hg o (List.mem_cons_self ..)) h
      simp only
      rw [ih w' h1 fun o' ho' => hg o' (List.mem_cons_of_mem _ ho'), h2]

/-- C82: a task uses its own setting when it has one, otherwise the present one of its session.  A timeout of zero is
excluded, and so is the priority. -/
theorem C82_task_partial (c : Dict OptVal) (t : TaskOpts) :
    OwnOrSession t.execution (c.find "execution") (executionOf c t) ∧
    (t.timeout ≠ .span 0 → OwnOrSession t.timeout (c.find "timeout") (timeoutOf c t)) ∧
    OwnOrSession t.multilaunch (c.find "multilaunch") (multilaunchOf c t) ∧
    OwnOrSession t.daemon (c.find "tasks_as_daemon") (daemonOf c t) ∧
    OwnOrSession t.funcRunId (c.find "func_run_id") (funcRunIdOf c t) ∧
    (t.priority ≠ .none → priorityOf c t = some t.priority) := by
  refine ⟨⟨fun h => if_neg h, fun h => if_pos h⟩, fun h0 => ⟨fun h => if_neg ?_, fun h => if_pos (.inl h)⟩,
    ⟨fun h => if_neg h, fun h => if_pos h⟩, ⟨fun h => if_pos h, fun h => if_neg fun hh => hh h⟩,
    ⟨fun h => if_pos h, fun h => if_neg fun hh => hh h⟩, fun h => if_neg h⟩
  rintro (h' | h')
  · exact h h'
  · exact h0 h'

/-- C82: a timeout written for a task is the same time as when written for the session. -/
theorem C82_timeout {E : Pyd} (hE : E.Plain) {v : OptVal} {d : Int} (h : Lasts v d) :
    taskTimeout v = .ok (.span d) ∧ checkField E "timeout" v = .ok (.span d) := by
  refine ⟨?_, check_good hE ⟨⟨d, h, rfl⟩, .duration, _, .tail _ (.tail _ (.tail _ (.head _))), _, rfl⟩⟩
  cases h with
  | seconds q d hr =>
    show Except.ok _ = _
    rw [RoundsTo.unique (roundHalfEven_spec _) hr]
  | text t d ht hr =>
    obtain ⟨e, he, hr'⟩ := C54_reads t ht
    show (if t.text = c!"never" then _ else _) = _
    rw [if_neg, he, RoundsTo.unique hr' hr]
    · rfl
    · intro hn
      rw [hn] at he
      revert he
      rw [show stringToTimedelta c!"never" = .error .key by decide +kernel]
      intro he
      cases he
  | span d => rfl

/-- Checks that keep every value. -/
def plainPyd : Pyd := ⟨fun _ v => .ok v, fun v => .ok v, 4⟩

theorem plainPyd_plain : plainPyd.Plain := ⟨fun _ _ _ _ _ _ => rfl, fun _ => rfl⟩

theorem empty_sound : (World.mk [] []).Sound := by
  intro r hr
  cases hr

/-- A session with options from a dictionary, under a former name, and by a keyword. -/
example : ((givenOpts (.dict [("task_execution", .text c!"thread"), ("timeout", .num 10)]) [("multilaunch", .bool true)]).map
      fun a => optionNamed a.1).Nodup ∧
    GoodValue 4 "timeout" (.num 10) (.span 10000000) ∧ GoodValue 4 "execution" (.text c!"thread") (.text c!"thread") ∧
    GoodValue 4 "multilaunch" (.bool true) (.bool true) := by
  refine ⟨by decide, ⟨⟨_, .seconds _ _ ?_, rfl⟩, .duration, _, .tail _ (.tail _ (.tail _ (.head _))), _, rfl⟩,
    ⟨.inr ⟨by decide, rfl⟩, .word, _, .head _, _, rfl⟩, ⟨rfl, .flag, _, .tail _ (.tail _ (.head _)), _, rfl⟩⟩
  have : ((10 : Rat) * 1000000) = ((10000000 : Int) : Rat) := by norm_num
  rw [this]
  simp [RoundsTo]

/-- The same session, computed. -/
example :
    (match step plainPyd ⟨[], []⟩
        (.session (.dict [("task_execution", .text c!"thread"), ("timeout", .num 10)]) [("multilaunch", .bool true)]) with
      | .ok w => (w.opt 0 "execution", w.opt 0 "task_execution", w.opt 0 "timeout", w.opt 0 "multilaunch", w.opt 0 "debug")
      | .error _ => (none, none, none, none, none)) =
    (some (.text c!"thread"), some (.text c!"thread"), some (.span 10000000), some (.bool true), some (.bool false)) := by
  decide +kernel

/-- An option of the second session is set; the first keeps its own. -/
example :
    (let w := runOps plainPyd ⟨[], []⟩ [.session .none [], .session .none [], .set 1 "cycle_sleep" .none]
     (w.opt 0 "cycle_sleep", w.opt 1 "cycle_sleep")) = (some (.num (1 / 10)), some .none) := by decide +kernel

/-- A timeout that is no duration is refused. -/
example : step plainPyd ⟨[], []⟩ (.session .none [("timeout", .text c!"soon")]) = .error .key ∧
    stringToTimedelta c!"soon" = .error .key := ⟨by rfl, by decide +kernel⟩

/-- A task with a timeout of its own and one without. -/
example : timeoutOf (defaults plainPyd) { timeout := .span 5 } = some (.span 5) ∧
    timeoutOf (defaults plainPyd) {} = some (.span 1800000000) := by decide +kernel

/-- C82 fails when the session is given a `Config` object: the keywords are dropped. -/
theorem C82_object_violated :
    ¬ ∀ (w w' : World) (r : Nat) (n : String) (v : OptVal), GoodValue 4 n v v →
      step plainPyd w (.session (.obj r) [(n, v)]) = .ok w' → w'.opt w.sessions.length n = some v := by
  intro h
  have := h ⟨[defaults plainPyd], []⟩ ⟨[defaults plainPyd], [0]⟩ 0 "multilaunch" (.bool true)
    ⟨rfl, .flag, _, .tail _ (.tail _ (.head _)), _, rfl⟩ rfl
  revert this
  decide +kernel

/-- C82 fails for an application that is given a session: options given to the application are dropped. -/
theorem C82_app_violated :
    ¬ ∀ (w w' : World) (s : Nat) (n : String) (v : OptVal), GoodValue 4 n v v →
      step plainPyd w (.app (some s) .none [(n, v)]) = .ok w' → w'.opt s n = some v := by
  intro h
  have := h ⟨[defaults plainPyd], [0]⟩ ⟨[defaults plainPyd], [0]⟩ 0 "multilaunch" (.bool true)
    ⟨rfl, .flag, _, .tail _ (.tail _ (.head _)), _, rfl⟩ rfl
  revert this
  decide +kernel

/-- C82 fails for `debug`: starting the application takes the option back. -/
theorem C82_debug_violated :
    ¬ ∀ (w w' w'' : World), step plainPyd w (.session .none [("debug", .bool true)]) = .ok w' →
      step plainPyd w' (.run w.sessions.length false) = .ok w'' → w''.opt w.sessions.length "debug" = some (.bool true) := by
  intro h
  obtain ⟨w', hw'⟩ : ∃ w', step plainPyd ⟨[], []⟩ (.session .none [("debug", .bool true)]) = .ok w' := ⟨_, rfl⟩
  obtain ⟨w'', hw''⟩ : ∃ w'', step plainPyd w' (.run 0 false) = .ok w'' := by cases hw'; exact ⟨_, rfl⟩
  have := h _ _ _ hw' hw''
  cases hw'
  cases hw''
  revert this
  decide +kernel

/-- C82 fails for the former name of `execution`: the option can be made and read by it, but not set. -/
theorem C82_assign_violated : step plainPyd ⟨[defaults plainPyd], [0]⟩ (.set 0 "task_execution" (.text c!"thread")) =
    .error .value := rfl

/-- C82 fails when `execution` is given by both names: it is not refused, and the value given by its own name is
dropped. -/
theorem C82_names_violated :
    ¬ ∀ (w' : World) (v x : OptVal), v ≠ .none →
      step plainPyd ⟨[], []⟩ (.session .none [("execution", v), ("task_execution", x)]) = .ok w' →
      w'.opt 0 "execution" = some v := by
  intro h
  obtain ⟨w', hw'⟩ : ∃ w', step plainPyd ⟨[], []⟩
      (.session .none [("execution", .text c!"main"), ("task_execution", .text c!"thread")]) = .ok w' := ⟨_, rfl⟩
  have := h _ _ _ (by decide) hw'
  cases hw'
  revert this
  decide +kernel

/-- C82 fails for names that are no options: they are accepted and dropped. -/
theorem C82_unknown_violated :
    ∃ w', step plainPyd ⟨[], []⟩ (.session .none [("cycle_slep", .num 5)]) = .ok w' ∧ w'.opt 0 "cycle_slep" = none :=
  ⟨_, rfl, rfl⟩

/-- C82 fails for a timeout of zero: the timeout of the session is used instead. -/
theorem C82_zero_violated :
    ¬ ∀ (c : Dict OptVal) (t : TaskOpts), OwnOrSession t.timeout (c.find "timeout") (timeoutOf c t) := by
  intro h
  have := (h (defaults plainPyd) { timeout := .span 0 }).1 (by decide)
  revert this
  decide +kernel

/-- C82 fails for the priority: the option `task_priority` is not used. -/
theorem C82_priority_violated :
    ¬ ∀ (c : Dict OptVal) (t : TaskOpts), OwnOrSession t.priority (c.find "task_priority") (priorityOf c t) := by
  intro h
  have := (h ((defaults plainPyd).put "task_priority" (.num 5)) {}).2 rfl
  revert this
  decide +kernel

/-- C82 fails for two sessions made from one `Config` object: setting an option of one sets it for the other. -/
theorem C82_shared_violated :
    ∃ w, (∃ ops, w = runOps plainPyd ⟨[], []⟩ ops) ∧ w.sessions.length = 2 ∧
      ∃ r w', w.sessions[0]? = some r ∧ step plainPyd w (.set r "multilaunch" (.bool true)) = .ok w' ∧
        w'.opt 1 "multilaunch" ≠ w.opt 1 "multilaunch" :=
  ⟨_, ⟨[.config [], .session (.obj 0) [], .session (.obj 0) []], rfl⟩, rfl, 0, _, rfl, rfl, by decide +kernel⟩

/-- C82 fails for the word `never`: it is a timeout for tasks and none for sessions. -/
theorem C82_never_violated : taskTimeout (.text c!"never") = .ok (.span maxSpan) ∧
    checkField plainPyd "timeout" (.text c!"never") = .error .key := by decide +kernel

/-- **C82**: `never` is the longest `timedelta` there is, a microsecond less than a thousand million days. -/
theorem C82_never : ∃ s : Int, taskTimeout (.text c!"never") = .ok (.span s) ∧ s + 1 = 1000000000 * 24 * 3600 * 1000000 :=
  ⟨maxSpan, by rfl, by decide⟩

end Rocketry.Props
