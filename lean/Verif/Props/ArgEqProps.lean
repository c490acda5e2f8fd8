import Verif.Session.ArgEq
import Verif.Spec.ArgEqSpec
import Mathlib.Data.List.Perm.Subperm
import Mathlib.Tactic.ByContra

/-!
# C91: equal parameters give a run the same
-/

namespace Rocketry.Props
open Rocketry.Args Rocketry.Spec

variable {V : Type}

/-! ### values without and with a task -/

theorem firstValue_lift {f g : Arg V → Except Err V} : ∀ {l : List (Arg V)},
    (∀ a ∈ l, (∀ v, f a = .ok v → g a = .ok v) ∧ (f a = .error .key → g a = .error .key)) →
    (∀ v, firstValue f l = .ok v → firstValue g l = .ok v) ∧ (firstValue f l = .error .key → firstValue g l = .error .key)
  | [], _ => ⟨fun _ h => by simp [firstValue] at h, fun _ => rfl⟩
  | a :: l, h => by
    obtain ⟨h1, h2⟩ := h a (List.mem_cons_self ..)
    have ih := firstValue_lift (l := l) (fun x hx => h x (List.mem_cons_of_mem _ hx))
    rcases hf : f a with e | v
    · by_cases he : e = .key
      · subst he
        simp only [firstValue, hf, h2 hf]
        exact ih
      · have hs : firstValue f (a :: l) = .error e := by
          simp only [firstValue, hf]
          cases e <;> first | rfl | exact absurd rfl he
        refine ⟨fun v hv => ?_, fun hv => ?_⟩
        · rw [hs] at hv; cases hv
        · rw [hs] at hv; cases hv; exact absurd rfl he
    · have hs : firstValue f (a :: l) = .ok v := by simp only [firstValue, hf]
      have hg : firstValue g (a :: l) = .ok v := by simp only [firstValue, h1 v hf]
      refine ⟨fun w hw => ?_, fun hw => ?_⟩
      · rw [hs] at hw; rw [hg]; exact hw
      · rw [hs] at hw; cases hw

/-- What an open argument gives without a task it gives with one, and if it is missing without, it is missing with one. -/
theorem open_lift (c : Ctx V) : ∀ (n : Nat) {a : Arg V}, OpenArg c a →
    (∀ v, getValue n c.bare a = .ok v → getValue n (inRun c) a = .ok v) ∧
    (getValue n c.bare a = .error .key → getValue n (inRun c) a = .error .key)
  | 0, _, _ => ⟨fun _ h => by simp [getValue] at h, fun h => by simp [getValue] at h⟩
  | n + 1, a, ha => by
    cases ha with
    | simple => exact ⟨fun _ h => h, fun h => h⟩
    | sess => exact ⟨fun _ h => by simp [getValue, Ctx.bare] at h, fun h => by simp [getValue, Ctx.bare] at h⟩
    | ret => exact ⟨fun _ h => by simp [getValue, Ctx.bare] at h, fun h => by simp [getValue, Ctx.bare] at h⟩
    | env => exact ⟨fun _ h => h, fun h => h⟩
    | cli => exact ⟨fun _ h => h, fun h => h⟩
    | func hf =>
      simp only [getValue, Ctx.bare, inRun]
      rw [hf]
      exact ⟨fun _ h => h, fun h => h⟩
    | task => exact ⟨fun _ h => by simp [getValue, Ctx.bare] at h, fun h => by simp [getValue, Ctx.bare] at h⟩
    | pipe hl =>
      simp only [getValue]
      exact firstValue_lift (fun a hal => open_lift c n (hl a hal))

variable [DecidableEq V]

theorem compared_same {n : Nat} {c : Ctx V} {a b : Arg V} (ha : OpenArg c a) (hb : OpenArg c b)
    (h : (match getValue n c.bare a with
      | .error e => .error e
      | .ok u => match getValue n c.bare b with
        | .error e => .error e
        | .ok v => .ok (decide (u = v))) = Except.ok true) :
    getValue n (inRun c) a = getValue n (inRun c) b := by
  rcases h1 : getValue n c.bare a with e | u
  · rw [h1] at h; cases h
  · rw [h1] at h
    rcases h2 : getValue n c.bare b with e | v
    · rw [h2] at h; cases h
    · rw [h2] at h
      simp only [Except.ok.injEq, decide_eq_true_eq] at h
      subst h
      rw [(open_lift c n ha).1 _ h1, (open_lift c n hb).1 _ h2]

/-- C91 (a part), single arguments: equal arguments give a run the same, if they are open and no references to one session
parameter with different defaults. -/
theorem C91_argument_partial (n : Nat) (c : Ctx V) (u v : PVal V) (hu : OpenVal c u) (hv : OpenVal c v)
    (hd : SameDefault u v) (h : pvalEq (n + 1) c u v = .ok true) : GivesSame (n + 1) c u v := by
  cases u with
  | plain u =>
    cases v with
    | plain v => simp only [pvalEq, Except.ok.injEq, decide_eq_true_eq] at h; subst h; rfl
    | arg b =>
      cases b with
      | priv v =>
        simp only [pvalEq, Except.ok.injEq, decide_eq_true_eq] at h; subst h
        simp [GivesSame, pvalue, getValue, inRun]
      | _ => simp [pvalEq] at h
  | arg a =>
    cases v with
    | plain v =>
      cases a with
      | priv u =>
        simp only [pvalEq, Except.ok.injEq, decide_eq_true_eq] at h; subst h
        simp [GivesSame, pvalue, getValue, inRun]
      | _ => simp [pvalEq] at h
    | arg b =>
      simp only [pvalEq] at h
      by_cases hpa : ∃ x, a = .priv x
      · obtain ⟨x, rfl⟩ := hpa
        cases b with
        | priv y =>
          simp only [argEq, Except.ok.injEq, decide_eq_true_eq] at h; subst h; rfl
        | _ => simp [argEq, sameClass] at h
      · by_cases hpb : ∃ x, b = .priv x
        · obtain ⟨x, rfl⟩ := hpb
          cases a with
          | priv y => exact absurd ⟨y, rfl⟩ hpa
          | _ => simp [argEq, sameClass] at h
        · have oa : OpenArg c a := hu.resolve_left hpa
          have ob : OpenArg c b := hv.resolve_left hpb
          unfold GivesSame
          simp only [pvalue]
          cases a <;> cases b <;> first
            | (simp only [argEq, Except.ok.injEq, decide_eq_true_eq] at h
               subst h
               rw [hd _ _ _ rfl rfl])
            | (simp only [argEq, sameClass, if_true] at h
               exact compared_same oa ob h)
            | (simp [argEq, sameClass] at h; done)
            | exact absurd ⟨_, rfl⟩ hpa

theorem itemsEq_find {n : Nat} {c : Ctx V} : ∀ {p q : Params V}, itemsEq n c p q = .ok true → ∀ k u, Dict.find p k = some u →
    ∃ v, Dict.find q k = some v ∧ pvalEq n c u v = .ok true
  | [], _, _, k, u, hu => by simp [Dict.find] at hu
  | (j, w) :: p, q, h, k, u, hu => by
    simp only [itemsEq] at h
    rcases hf : Dict.find q j with _ | v
    · rw [hf] at h; cases h
    · rw [hf] at h
      simp only at h
      rcases he : pvalEq n c w v with e | b
      · rw [he] at h; cases h
      · rw [he] at h
        cases b with
        | false => cases h
        | true =>
          rw [Dict.find_cons] at hu
          by_cases hj : j = k
          · rw [if_pos hj] at hu; cases hu; subst hj; exact ⟨v, hf, he⟩
          · rw [if_neg hj] at hu; exact itemsEq_find h k u hu

/-- A dictionary whose names are all names of another one that is not longer has all its names. -/
theorem keys_all {p q : Params V} (hp : Dict.Ok p) (hq : Dict.Ok q) (hl : p.length = q.length)
    (h : ∀ k ∈ Dict.keys p, k ∈ Dict.keys q) : ∀ k ∈ Dict.keys q, k ∈ Dict.keys p := by
  have hpl : (Dict.keys p).length = p.length := List.length_map ..
  have hql : (Dict.keys q).length = q.length := List.length_map ..
  have hperm := (List.subperm_of_subset hp h).perm_of_length_le (by omega)
  intro k hk
  exact hperm.mem_iff.2 hk

/-- C91 (a part): equal Parameters objects give a run the same names with the same values, if their arguments are open and
none is a reference to one session parameter with different defaults. -/
theorem C91_parameters_partial (n : Nat) (c : Ctx V) (p q : Params V) (hp : Dict.Ok p) (hq : Dict.Ok q)
    (ho : ∀ k u, Dict.find p k = some u → OpenVal c u) (ho' : ∀ k v, Dict.find q k = some v → OpenVal c v)
    (hd : ∀ k u v, Dict.find p k = some u → Dict.find q k = some v → SameDefault u v)
    (h : paramsEq (n + 1) c p q = .ok true) : GiveSame (n + 1) c p q := by
  unfold paramsEq at h
  by_cases hl : p.length = q.length
  · rw [if_pos hl] at h
    have hsub := keys_all hp hq hl (fun k hk => by
      rcases hf : Dict.find p k with _ | u
      · exact absurd hk (Dict.find_none.1 hf)
      · obtain ⟨v, hv, _⟩ := itemsEq_find h k u hf
        by_contra hn
        rw [Dict.find_none.2 hn] at hv; cases hv)
    intro k
    rcases hf : Dict.find p k with _ | u
    · rcases hg : Dict.find q k with _ | v
      · trivial
      · exfalso
        exact Dict.find_none.1 hf (hsub k (by
          by_contra hn
          rw [Dict.find_none.2 hn] at hg; cases hg))
    · obtain ⟨v, hv, he⟩ := itemsEq_find h k u hf
      rw [hv]
      exact C91_argument_partial n c u v (ho k u hf) (ho' k v hv) (hd k u v hf hv) he
  · rw [if_neg hl] at h; cases h

/-- C91: the answer does not depend on which of two values is asked. -/
theorem C91_symmetric (n : Nat) (c : Ctx V) (u v : PVal V) (r : Bool) :
    pvalEq n c u v = .ok r ↔ pvalEq n c v u = .ok r := by
  have swap : ∀ (x y : Except Err V), (match x with
      | .error e => .error e
      | .ok u => match y with
        | .error e => .error e
        | .ok v => .ok (decide (u = v))) = Except.ok r →
      (match y with
      | .error e => .error e
      | .ok u => match x with
        | .error e => .error e
        | .ok v => .ok (decide (u = v))) = Except.ok r := by
    intro x y h
    cases x with
    | error e => cases h
    | ok a =>
      cases y with
      | error e => cases h
      | ok b =>
        simp only [Except.ok.injEq] at h ⊢
        rw [← h]
        exact decide_eq_decide.2 eq_comm
  have dec : ∀ x y : V, decide (x = y) = decide (y = x) := fun x y => decide_eq_decide.2 eq_comm
  have decS : ∀ x y : String, decide (x = y) = decide (y = x) := fun x y => decide_eq_decide.2 eq_comm
  have arg : ∀ a b : Arg V, argEq n c a b = .ok r → argEq n c b a = .ok r := by
    intro a b h
    cases a <;> cases b <;> first
      | (simp only [argEq] at h ⊢; rw [dec]; exact h)
      | (simp only [argEq] at h ⊢; rw [decS]; exact h)
      | (simp only [argEq, sameClass, if_true] at h ⊢; exact swap _ _ h)
      | (simp only [argEq, sameClass, Bool.false_eq_true, if_false] at h ⊢; exact h)
  have one : ∀ u v : PVal V, pvalEq n c u v = .ok r → pvalEq n c v u = .ok r := by
    intro u v h
    cases u with
    | plain u =>
      cases v with
      | plain v => simp only [pvalEq] at h ⊢; rw [dec]; exact h
      | arg b => cases b <;> first | exact h | (simp only [pvalEq] at h ⊢; exact h)
    | arg a =>
      cases v with
      | plain v => cases a <;> first | exact h | (simp only [pvalEq] at h ⊢; exact h)
      | arg b => simp only [pvalEq] at h ⊢; exact arg a b h
  exact ⟨one u v, one v u⟩

/-! ### sample surroundings: a session with the parameter `x` -/

/-- A session with the parameter `x`, the variable `HOME` and the command line option `--n 3`; function 0 gives "f", function
1 asks for the task and gives "g" only with it. -/
def sampleCtx : Ctx String where
  task := false
  session := false
  params := [("x", .plain "1")]
  tasks := ["t"]
  returns := [("t", "r")]
  environ := [("HOME", "root"), ("USER", "root")]
  argv := ["prog", "--n", "3"]
  txt := id
  func f t _ := if f = 0 then .ok "f" else if t then .ok "g" else .ok "f"
  self := "self"

def sampleLeft : Params String :=
  [("a", .arg (.sess "x" none)), ("b", .arg (.priv "s")), ("c", .arg (.pipe [.env "LANG" none, .cli "--n" none])),
    ("d", .arg (.func 0 none))]

def sampleRight : Params String :=
  [("d", .arg (.func 0 (some true))), ("c", .arg (.pipe [.cli "--n" none, .env "HOME" none])), ("b", .plain "s"),
    ("a", .arg (.sess "x" none))]

example : paramsEq 5 sampleCtx sampleLeft sampleRight = .ok true := by decide +kernel

example : Dict.Ok sampleLeft ∧ Dict.Ok sampleRight := by unfold Dict.Ok; decide

example : ∀ x ∈ sampleLeft, OpenVal sampleCtx x.2 := by
  intro x hx
  simp only [sampleLeft, List.mem_cons, List.not_mem_nil, or_false] at hx
  rcases hx with rfl | rfl | rfl | rfl
  · exact .inr .sess
  · exact .inl ⟨_, rfl⟩
  · refine .inr (.pipe ?_)
    intro a ha
    simp only [List.mem_cons, List.not_mem_nil, or_false] at ha
    rcases ha with rfl | rfl
    · exact .env
    · exact .cli
  · exact .inr (.func rfl)

/-! ### where equal arguments differ -/

/-- C91 is violated: references to one session parameter with different defaults are equal. -/
theorem C91_default_violated :
    argEq 5 sampleCtx (.sess "y" (some "1")) (.sess "y" (some "2")) = .ok true ∧
    getValue 5 (inRun sampleCtx) (.sess "y" (some "1")) = .ok "1" ∧
    getValue 5 (inRun sampleCtx) (.sess "y" (some "2")) = .ok "2" := by decide +kernel

/-- C91 is violated: pipes with different secrets are equal, because secrets are compared_same hidden there. -/
theorem C91_secret_violated :
    argEq 5 sampleCtx (.pipe [.env "LANG" none, .priv "s"]) (.pipe [.env "LANG" none, .priv "t"]) = .ok true ∧
    getValue 5 (inRun sampleCtx) (.pipe [.env "LANG" none, .priv "s"]) = .ok "s" ∧
    getValue 5 (inRun sampleCtx) (.pipe [.env "LANG" none, .priv "t"]) = .ok "t" := by decide +kernel

/-- C91 is violated: functions are called without a task for the comparison. -/
theorem C91_func_violated :
    argEq 5 sampleCtx (.func 0 none) (.func 1 none) = .ok true ∧
    getValue 5 (inRun sampleCtx) (.func 0 none) = .ok "f" ∧ getValue 5 (inRun sampleCtx) (.func 1 none) = .ok "g" := by
  decide +kernel

/-- C91 is violated: the return value of a task cannot be compared_same at all, not even with the same one. -/
theorem C91_return_violated (n : Nat) (c : Ctx V) (t t' : String) (d d' : Option V) :
    argEq (n + 1) c (.ret t d) (.ret t' d') = .error .attr := by
  simp [argEq, sameClass, getValue, Ctx.bare]

/-- C91 is violated: arguments that are equal now need not be so later: two variables of the environment with one value. -/
theorem C91_later_violated :
    argEq 5 sampleCtx (.env "HOME" none) (.env "USER" none) = .ok true ∧
    argEq 5 { sampleCtx with environ := [("HOME", "root"), ("USER", "me")] } (.env "HOME" none) (.env "USER" none) = .ok false := by
  decide +kernel

end Rocketry.Props
