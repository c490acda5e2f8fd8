import Verif.Spec.DelayedSpec
import Mathlib.Tactic.Tauto

/-!
# C72: a task given by path runs what is in the file
-/

namespace Rocketry.Props
open Spec Rocketry.Task

theorem funcRun_append (s : FuncSt) (l m : List FuncEv) :
    s.run (l ++ m) = match s.run l with | none => none | some s' => s'.run m := by
  induction l generalizing s with
  | nil => rfl
  | cons e l ih =>
    simp only [List.cons_append, FuncSt.run]
    cases s.step e with
    | none => rfl
    | some s' => exact ih s'

theorem fileAfter_append (f : Option Nat) (l m : List FuncEv) : fileAfter f (l ++ m) = fileAfter (fileAfter f l) m := by
  induction l generalizing f with
  | nil => rfl
  | cons e l ih => cases e <;> simp only [List.cons_append, fileAfter, ih]

/-- The file after a step. -/
theorem step_file {s s' : FuncSt} {e : FuncEv} (h : s.step e = some s') : s'.file = fileAfter s.file [e] := by
  cases e <;> simp only [FuncSt.step] at h
  all_goals (repeat' split at h) <;> simp only [Option.some.injEq, reduceCtorEq] at h <;> subst h <;>
    simp only [fileAfter, FuncSt.put, FuncSt.getFunc] <;> (try split) <;> rfl

theorem run_file {es : List FuncEv} : ∀ {s s' : FuncSt}, s.run es = some s' → s'.file = fileAfter s.file es := by
  induction es with
  | nil => intro s s' h; simp only [FuncSt.run, Option.some.injEq] at h; subst h; rfl
  | cons e es ih =>
    intro s s' h
    simp only [FuncSt.run] at h
    cases h1 : s.step e with
    | none => simp [h1] at h
    | some s1 =>
      rw [h1] at h
      rw [ih h, step_file h1, ← fileAfter_append]
      rfl

/-- After a step, the attribute is empty, as before, or what is in the file after a step that keeps the function; it is
empty after the end of a run. -/
theorem step_func {s s' : FuncSt} {e : FuncEv} (h : s.step e = some s') :
    (s'.func = none ∨ (s'.func = s.func ∨ (s.func = none ∧ s'.func = s.file ∧ Keeps e))) ∧
      ∀ k, e = .finish k → s'.func = none := by
  cases e <;> simp only [FuncSt.step] at h
  all_goals (repeat' split at h) <;> simp only [Option.some.injEq, reduceCtorEq] at h <;> subst h <;>
    simp only [FuncSt.put, FuncSt.getFunc, reduceCtorEq, false_implies, implies_true, and_true]
  all_goals first
    | (cases hc : s.cache <;> cases hf : s.func <;> simp [hf, FuncSt.got, Keeps]; done)
    | (cases hf : s.func <;> simp [hf, FuncSt.got, Keeps])

/-- Where a kept function comes from. -/
theorem func_origin {s0 : FuncSt} (h0 : s0.func = none) : ∀ (n : Nat) (es : List FuncEv), es.length = n → ∀ {s : FuncSt} {v : Nat},
    s0.run es = some s → s.func = some v →
    ∃ a e b, es = a ++ e :: b ∧ Keeps e ∧ (∀ k, FuncEv.finish k ∉ b) ∧ fileAfter s0.file a = some v := by
  intro n
  induction n with
  | zero =>
    intro es hn s v h hv
    rw [List.length_eq_zero_iff] at hn
    subst hn
    simp only [FuncSt.run, Option.some.injEq] at h
    subst h
    rw [h0] at hv
    simp at hv
  | succ n ih =>
    intro es hn s v h hv
    rcases List.eq_nil_or_concat es with rfl | ⟨l, e, rfl⟩
    · simp at hn
    simp only [List.concat_eq_append] at hn h ⊢
    have hl : l.length = n := by simpa using hn
    rw [funcRun_append] at h
    cases h1 : s0.run l with
    | none => simp [h1] at h
    | some s1 =>
      simp only [h1, FuncSt.run] at h
      cases h2 : s1.step e with
      | none => simp [h2] at h
      | some s2 =>
        simp only [h2, Option.some.injEq] at h
        subst h
        obtain ⟨h3, h4⟩ := step_func h2
        rcases h3 with h3 | h3 | ⟨_, h3, hk⟩
        · rw [h3] at hv; simp at hv
        · obtain ⟨a, e', b, rfl, hk, hb, hf⟩ := ih l hl h1 (h3 ▸ hv)
          refine ⟨a, e', b ++ [e], by simp, hk, ?_, hf⟩
          intro k hmem
          rcases List.mem_append.1 hmem with hmem | hmem
          · exact hb k hmem
          · simp only [List.mem_singleton] at hmem
            rw [h4 k hmem.symm] at hv
            simp at hv
        · refine ⟨l, e, [], rfl, hk, by simp, ?_⟩
          rw [← run_file h1, ← h3, hv]

/-- What a run executes is what `get_func` returns. -/
theorem exec_got {s s' : FuncSt} {i sig : Nat} {v : Nat} (h : s.step (.exec i) = some s')
    (hv : s'.runs[i]? = some (.executing sig (some v))) : s.got = some v := by
  simp only [FuncSt.step] at h
  split at h
  · rename_i sg hp
    have hi : i < s.runs.length := by
      rw [List.getElem?_eq_some_iff] at hp
      exact hp.1
    split at h
    · simp only [Option.some.injEq] at h
      subst h
      simp [FuncSt.put, hi] at hv
    · rename_i w hw
      simp only [Option.some.injEq] at h
      subst h
      cases hc : s.cache <;> simp [FuncSt.put, FuncSt.getFunc, hc, hi] at hv <;> rw [hw, hv.2]
  · simp at h

/-! ## C72 -/

/-- C72: for all interleavings of runs and changes of the file: what a run executes is a version that the file had between
the begin of the run and its execution, if every run that came as far as filtering its parameters before the begin is
followed by the end of some run.  Missing: the other cases (`C72_broke_violated`, `C72_overlap_violated`). -/
theorem C72_fresh_partial (file : Option Nat) (cache : Bool) (pre mid : List FuncEv) (i sig v : Nat) (s s' : FuncSt)
    (hrun : (FuncSt.init file cache).run (pre ++ .begin :: mid) = some s) (hexec : s.step (.exec i) = some s')
    (hv : s'.runs[i]? = some (.executing sig (some v))) (hrel : Released pre mid) :
    ∃ m, m <+: mid ∧ fileAfter file (pre ++ m) = some v := by
  have hgot := exec_got hexec hv
  unfold FuncSt.got at hgot
  cases hf : s.func with
  | none =>
    simp only [hf] at hgot
    refine ⟨mid, List.prefix_refl _, ?_⟩
    rw [← hgot, run_file hrun, fileAfter_append, fileAfter_append]
    rfl
  | some w =>
    simp only [hf, Option.some.injEq] at hgot
    subst hgot
    obtain ⟨a, e, b, hes, hk, hb, ha⟩ := func_origin (s0 := FuncSt.init file cache) rfl _ _ rfl hrun hf
    rcases List.append_eq_append_iff.1 hes.symm with ⟨a', h1, h2⟩ | ⟨c, h1, h2⟩
    · cases a' with
      | nil =>
        simp only [List.nil_append, List.cons.injEq] at h2
        rw [h2.1] at hk
        exact absurd hk id
      | cons x a'' =>
        simp only [List.cons_append, List.cons.injEq] at h2
        obtain ⟨rfl, rfl⟩ := h2
        obtain ⟨k, hk'⟩ := hrel a e a'' h1 hk
        refine absurd ?_ (hb k)
        simp only [List.mem_append, List.mem_cons] at hk' ⊢
        tauto
    · cases c with
      | nil =>
        simp only [List.nil_append, List.cons.injEq] at h2
        rw [← h2.1] at hk
        exact absurd hk id
      | cons x c' =>
        simp only [List.cons_append, List.cons.injEq] at h2
        obtain ⟨rfl, rfl⟩ := h2
        refine ⟨c', List.prefix_append _ _, ?_⟩
        rw [h1, fileAfter_append] at ha
        rw [fileAfter_append]
        exact ha

/-- Two runs at the same time, the first one ends while the second one is between its begin and its execution. -/
example : let pre := [FuncEv.begin, .filter 0, .exec 0, .edit (some 2)]
    let mid := [FuncEv.finish 0, .filter 1]
    Released pre mid ∧ (((FuncSt.init (some 1) false).run (pre ++ .begin :: mid)).bind (·.step (.exec 1))).map (·.runs) =
      some [.over 1 (some 1), .executing 1 (some 2)] := by
  refine ⟨?_, by decide⟩
  intro a e b _ _
  exact ⟨0, by simp⟩

/-- A kept function belongs to a run that is under way, as long as no run breaks off. -/
theorem kept_under_way : ∀ {es : List FuncEv} {s s' : FuncSt}, (∀ k, FuncEv.broke k ∉ es) → s.run es = some s' →
    (s.func ≠ none → ∃ p ∈ s.runs, ¬ AtRest p) → (s'.func ≠ none → ∃ p ∈ s'.runs, ¬ AtRest p) := by
  intro es
  induction es with
  | nil => intro s s' _ h hi; simp only [FuncSt.run, Option.some.injEq] at h; subst h; exact hi
  | cons e es ih =>
    intro s s' hb h hi
    simp only [FuncSt.run] at h
    cases h1 : s.step e with
    | none => simp [h1] at h
    | some s1 =>
      rw [h1] at h
      refine ih (fun k hk => hb k (by simp [hk])) h ?_
      have put_mem : ∀ {t : FuncSt} {i : Nat} {p q : FuncPhase}, t.runs[i]? = some p → q ∈ (t.put i q).runs := by
        intro t i p q hp
        obtain ⟨hlt, -⟩ := List.getElem?_eq_some_iff.1 hp
        exact List.mem_set hlt q
      cases e with
      | edit v => simp only [FuncSt.step, Option.some.injEq] at h1; subst h1; exact hi
      | begin =>
        simp only [FuncSt.step] at h1
        split at h1 <;> simp only [Option.some.injEq] at h1 <;> subst h1
        · intro hf
          obtain ⟨p, hp, hr⟩ := hi hf
          exact ⟨p, List.mem_append_left _ hp, hr⟩
        · intro hf
          obtain ⟨p, hp, hr⟩ := hi hf
          exact ⟨p, List.mem_append_left _ hp, hr⟩
      | broke k => exact absurd List.mem_cons_self (hb k)
      | filter i =>
        simp only [FuncSt.step] at h1
        split at h1
        · rename_i sig hp
          split at h1 <;> simp only [Option.some.injEq] at h1 <;> subst h1
          · rename_i hg
            intro hf
            have : s.func = none := by
              unfold FuncSt.got at hg
              split at hg
              · simp at hg
              · assumption
            exact absurd this hf
          · intro _
            refine ⟨.filtered sig, ?_, by simp [AtRest]⟩
            exact put_mem (t := s.getFunc true) (p := .begun sig) (by simpa [FuncSt.getFunc] using hp)
        · simp at h1
      | exec i =>
        simp only [FuncSt.step] at h1
        split at h1
        · rename_i sig hp
          split at h1 <;> simp only [Option.some.injEq] at h1 <;> subst h1
          · intro _
            exact ⟨_, put_mem hp, by simp [AtRest]⟩
          · rename_i w hw
            intro _
            refine ⟨.executing sig (some w), ?_, by simp [AtRest]⟩
            refine put_mem (t := s.getFunc s.cache) (p := .filtered sig) ?_
            cases hc : s.cache <;> simpa [FuncSt.getFunc] using hp
        · simp at h1
      | finish i =>
        intro hf
        exact absurd ((step_func h1).2 i rfl) hf

/-- No function is kept when all runs are over. -/
theorem nothing_kept {file : Option Nat} {cache : Bool} {pre : List FuncEv} {s0 : FuncSt}
    (h0 : (FuncSt.init file cache).run pre = some s0) (hb : ∀ k, FuncEv.broke k ∉ pre) (hrest : ∀ p ∈ s0.runs, AtRest p) :
    s0.func = none := by
  cases hf : s0.func with
  | none => rfl
  | some v =>
    obtain ⟨p, hp, hr⟩ := kept_under_way hb h0 (by simp [FuncSt.init]) (by simp [hf])
    exact absurd (hrest p hp) hr

/-- C72: a run that begins when no other run is between the filtering of its parameters and its end executes a version that the file had between its begin and its
execution, if no run before it broke off; whatever other runs begin meanwhile. -/
theorem C72_alone_partial (file : Option Nat) (cache : Bool) (pre mid : List FuncEv) (i sig v : Nat) (s0 s s' : FuncSt)
    (h0 : (FuncSt.init file cache).run pre = some s0) (hb : ∀ k, FuncEv.broke k ∉ pre) (hrest : ∀ p ∈ s0.runs, AtRest p)
    (hrun : s0.run (.begin :: mid) = some s) (hexec : s.step (.exec i) = some s')
    (hv : s'.runs[i]? = some (.executing sig (some v))) :
    ∃ m, m <+: mid ∧ fileAfter file (pre ++ m) = some v := by
  have hgot := exec_got hexec hv
  have hnone := nothing_kept h0 hb hrest
  unfold FuncSt.got at hgot
  cases hf : s.func with
  | none =>
    simp only [hf] at hgot
    refine ⟨mid, List.prefix_refl _, ?_⟩
    rw [← hgot, run_file hrun, run_file h0, fileAfter_append]
    rfl
  | some w =>
    simp only [hf, Option.some.injEq] at hgot
    subst hgot
    obtain ⟨a, e, b, hes, hk, hb, ha⟩ := func_origin hnone _ _ rfl hrun hf
    cases a with
    | nil =>
      simp only [List.nil_append, List.cons.injEq] at hes
      rw [← hes.1] at hk
      exact absurd hk id
    | cons x a =>
      simp only [List.cons_append, List.cons.injEq] at hes
      obtain ⟨rfl, rfl⟩ := hes
      refine ⟨a, List.prefix_append _ _, ?_⟩
      rw [run_file h0] at ha
      rw [fileAfter_append]
      exact ha

example : let pre := [FuncEv.begin, .filter 0, .exec 0, .finish 0, .edit (some 2)]
    let mid := [FuncEv.edit (some 3), .filter 1, .edit (some 4)]
    ((FuncSt.init (some 1) true).run pre).map (·.runs) = some [.over 1 (some 1)] ∧
    ((((FuncSt.init (some 1) true).run pre).bind (·.run (.begin :: mid))).bind (·.step (.exec 1))).map (·.runs) =
      some [.over 1 (some 1), .executing 2 (some 3)] := by decide

/-- The version whose signature a run uses stays the same. -/
theorem sig_step {s s' : FuncSt} {e : FuncEv} (h : s.step e = some s') {r σ : Nat}
    (hp : s.runs[r]? = some .broken ∨ (∃ p, s.runs[r]? = some p ∧ (p = .begun σ ∨ p = .filtered σ ∨ (∃ v, p = .executing σ v) ∨ ∃ v, p = .over σ v))) :
    s'.runs[r]? = some .broken ∨ (∃ p, s'.runs[r]? = some p ∧ (p = .begun σ ∨ p = .filtered σ ∨ (∃ v, p = .executing σ v) ∨ ∃ v, p = .over σ v)) := by
  have hlt : r < s.runs.length := by
    rcases hp with hp | ⟨p, hp, -⟩ <;> exact (List.getElem?_eq_some_iff.1 hp).1
  have hset : ∀ (i : Nat) (q : FuncPhase), (i = r → (q = .broken ∨ q = .begun σ ∨ q = .filtered σ ∨ (∃ v, q = .executing σ v) ∨ ∃ v, q = .over σ v)) →
      (s.runs.set i q)[r]? = some .broken ∨ (∃ p, (s.runs.set i q)[r]? = some p ∧ (p = .begun σ ∨ p = .filtered σ ∨ (∃ v, p = .executing σ v) ∨ ∃ v, p = .over σ v)) := by
    intro i q hq
    by_cases hi : i = r
    · subst hi
      rw [List.getElem?_set_self hlt]
      rcases hq rfl with rfl | hq
      · exact .inl rfl
      · exact .inr ⟨q, rfl, hq⟩
    · rw [List.getElem?_set_ne hi]
      exact hp
  have hruns : ∀ c, (s.getFunc c).runs = s.runs := by intro c; cases c <;> rfl
  cases e with
  | edit v => simp only [FuncSt.step, Option.some.injEq] at h; subst h; exact hp
  | begin =>
    simp only [FuncSt.step] at h
    split at h <;> simp only [Option.some.injEq] at h <;> subst h
    · simpa only [List.getElem?_append_left hlt] using hp
    · simpa only [List.getElem?_append_left hlt] using hp
  | filter i =>
    simp only [FuncSt.step] at h
    split at h
    · rename_i sig hi
      have : i = r → sig = σ := by
        rintro rfl
        rw [hi] at hp
        simpa using hp
      split at h <;> simp only [Option.some.injEq] at h <;> subst h <;> simp only [FuncSt.put, hruns] <;> apply hset
      · intro _; exact .inl rfl
      · intro k; rw [this k]; simp
    · simp at h
  | broke i =>
    simp only [FuncSt.step] at h
    split at h
    · simp only [Option.some.injEq] at h
      subst h
      simp only [FuncSt.put]
      apply hset
      intro _; exact .inl rfl
    · simp at h
  | exec i =>
    simp only [FuncSt.step] at h
    split at h
    · rename_i sig hi
      have : i = r → sig = σ := by
        rintro rfl
        rw [hi] at hp
        simpa using hp
      split at h <;> simp only [Option.some.injEq] at h <;> subst h <;> simp only [FuncSt.put, hruns] <;> apply hset
      · intro k; rw [this k]; simp
      · intro k; rw [this k]; simp
    · simp at h
  | finish i =>
    simp only [FuncSt.step] at h
    split at h
    · rename_i sig v hi
      have : i = r → sig = σ := by
        rintro rfl
        rw [hi] at hp
        simpa using hp
      simp only [Option.some.injEq] at h
      subst h
      simp only [FuncSt.put]
      apply hset
      intro k; rw [this k]; simp
    · simp at h

theorem sig_run {r σ : Nat} : ∀ {es : List FuncEv} {s s' : FuncSt}, s.run es = some s' →
    (s.runs[r]? = some .broken ∨ (∃ p, s.runs[r]? = some p ∧ (p = .begun σ ∨ p = .filtered σ ∨ (∃ v, p = .executing σ v) ∨ ∃ v, p = .over σ v))) →
    (s'.runs[r]? = some .broken ∨ (∃ p, s'.runs[r]? = some p ∧ (p = .begun σ ∨ p = .filtered σ ∨ (∃ v, p = .executing σ v) ∨ ∃ v, p = .over σ v))) := by
  intro es
  induction es with
  | nil => intro s s' h hp; simp only [FuncSt.run, Option.some.injEq] at h; subst h; exact hp
  | cons e es ih =>
    intro s s' h hp
    simp only [FuncSt.run] at h
    cases h1 : s.step e with
    | none => simp [h1] at h
    | some s1 =>
      rw [h1] at h
      exact ih h (sig_step h1 hp)

theorem fileAfter_noEdit {f : Option Nat} {es : List FuncEv} (h : ∀ v, FuncEv.edit v ∉ es) : fileAfter f es = f := by
  induction es generalizing f with
  | nil => rfl
  | cons e es ih =>
    cases e with
    | edit v => exact absurd List.mem_cons_self (h v)
    | _ => exact ih (fun v hv => h v (by simp [hv]))

/-- C72: in a run that begins when no other run is between the filtering of its parameters and its end, the function executed is the one whose signature the
parameters were taken from, if the file is not changed between and no run before broke off.  Missing: changes of the file
between (`C72_signature_violated`). -/
theorem C72_signature_partial (file : Option Nat) (cache : Bool) (pre mid : List FuncEv) (sig v : Nat) (s0 s s' : FuncSt)
    (h0 : (FuncSt.init file cache).run pre = some s0) (hb : ∀ k, FuncEv.broke k ∉ pre) (hrest : ∀ p ∈ s0.runs, AtRest p)
    (hrun : s0.run (.begin :: mid) = some s) (hmid : ∀ w, FuncEv.edit w ∉ mid)
    (hexec : s.step (.exec s0.runs.length) = some s')
    (hv : s'.runs[s0.runs.length]? = some (.executing sig (some v))) : sig = v ∧ fileAfter file pre = some v := by
  have hnone := nothing_kept h0 hb hrest
  obtain ⟨m, hm, hfile⟩ := C72_alone_partial file cache pre mid _ sig v s0 s s' h0 hb hrest hrun hexec hv
  rw [fileAfter_append, fileAfter_noEdit (fun w hw => hmid w (hm.subset hw))] at hfile
  refine ⟨?_, hfile⟩
  have hrun' := hrun
  simp only [FuncSt.run] at hrun
  cases h1 : s0.step .begin with
  | none => simp [h1] at hrun
  | some s1 =>
    rw [h1] at hrun
    have hgot : s0.got = some v := by
      unfold FuncSt.got
      rw [hnone]
      simp only
      rw [run_file h0]
      exact hfile
    have h2 : s1.runs[s0.runs.length]? = some (.begun v) := by
      simp only [FuncSt.step, hgot, Option.some.injEq] at h1
      subst h1
      simp
    have h3 := sig_step hexec (sig_run hrun (r := s0.runs.length) (σ := v) (.inr ⟨_, h2, .inl rfl⟩))
    rw [hv] at h3
    simpa using h3

/-- C72 does not hold as stated: a run that breaks off after its parameters were filtered (an argument that cannot be
materialized) leaves its function behind; the next run executes the old version, although the file was changed before it
began. -/
theorem C72_broke_violated (v w : Nat) (cache : Bool) :
    ((FuncSt.init (some v) cache).run [.begin, .filter 0, .broke 0, .edit (some w), .begin, .filter 1, .exec 1]).map (·.runs) =
      some [.broken, .executing v (some v)] := by
  cases cache <;> rfl

/-- C72 does not hold as stated: a run that begins while another one is under way executes the version of the other, although
the file was changed before it began. -/
theorem C72_overlap_violated (v w : Nat) (cache : Bool) :
    ((FuncSt.init (some v) cache).run [.begin, .filter 0, .exec 0, .edit (some w), .begin, .filter 1, .exec 1]).map (·.runs) =
      some [.executing v (some v), .executing v (some v)] := by
  cases cache <;> rfl

/-- C72 does not hold as stated: if the file changes between, a run passes the parameters of the old version to the new one. -/
theorem C72_signature_violated (v w : Nat) (cache : Bool) :
    ((FuncSt.init (some v) cache).run [.begin, .edit (some w), .filter 0, .exec 0]).map (·.runs) = some [.executing v (some w)] := by
  cases cache <;> rfl

end Rocketry.Props
