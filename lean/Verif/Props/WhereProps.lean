import Verif.Session.Where
import Verif.Base.ExceptEq
import Mathlib.Data.List.Forall2

/-! # Arguments in threads and processes: C83 -/

namespace Rocketry.Props
open Rocketry.Args

variable {V : Type}

/-- A value is what it is. -/
theorem wvalue_plain {n : Nat} (hn : n ≠ 0) (c : WCtx V) (v : V) : wvalue n c (.plain v) = .ok v := by
  cases n with
  | zero => exact absurd rfl hn
  | succ n => rfl

/-- What `stage` makes is the argument itself or its value. -/
theorem wstage_cases (n : Nat) (c : WCtx V) (post : Bool) (a : WArg V) :
    wstage n c post a = .ok a ∨ wstage n c post a = (wvalue n c a).map .plain := by
  cases a with
  | plain v => exact .inl rfl
  | func f p sig =>
    simp only [wstage]
    by_cases h : p.getD post = true
    · rw [if_pos h]; exact .inl rfl
    · rw [if_neg h]; exact .inr rfl
  | simple v => exact .inr rfl
  | sess k d => exact .inr rfl
  | ret t d => exact .inr rfl
  | pipe l => exact .inr rfl

/-- C83: in the main loop, in a thread and in a forked process the function gets the same. -/
theorem C83_same (n : Nat) (hn : n ≠ 0) (c : WCtx V) (post : Bool) (a : WArg V) (w : Place) (hw : w ≠ .spawn) :
    received n c post w a = received n c post .main a := by
  have key : (match wstage n c post a with
      | .error e => .error e
      | .ok b => wvalue n c b) = wvalue n c a := by
    rcases wstage_cases n c post a with h | h
    · rw [h]
    · rw [h]
      cases hv : wvalue n c a with
      | error e => rfl
      | ok v => exact wvalue_plain hn c v
  cases w with
  | main => rfl
  | async => rfl
  | thread => exact key
  | fork => exact key
  | spawn => exact absurd rfl hw

/-- In the copy of the session everything is as in the session, or fails with an AttributeError or a ValueError. -/
theorem child_cases (n : Nat) (c : WCtx V) (a : WArg V) :
    wvalue n c.child a = wvalue n c a ∨ wvalue n c.child a = .error .attr ∨ wvalue n c.child a = .error .value := by
  induction n generalizing a with
  | zero => exact .inl rfl
  | succ n ih =>
    cases a with
    | plain v => exact .inl rfl
    | simple v => exact .inl rfl
    | sess k d => exact .inr (.inl rfl)
    | ret t d => exact .inr (.inr rfl)
    | func f p sig =>
      have hv : values (wvalue n c.child) sig = values (wvalue n c) sig ∨
          values (wvalue n c.child) sig = .error .attr ∨ values (wvalue n c.child) sig = .error .value := by
        induction sig with
        | nil => exact .inl rfl
        | cons a l ihl =>
          unfold values
          rcases ih a with h | h | h
          · rw [h]
            cases wvalue n c a with
            | error e => exact .inl rfl
            | ok v =>
              rcases ihl with h' | h' | h'
              · rw [h']; exact .inl rfl
              · rw [h']; exact .inr (.inl rfl)
              · rw [h']; exact .inr (.inr rfl)
          · rw [h]; exact .inr (.inl rfl)
          · rw [h]; exact .inr (.inr rfl)
      unfold wvalue
      simp only
      rcases hv with h | h | h
      · rw [h]; exact .inl rfl
      · rw [h]; exact .inr (.inl rfl)
      · rw [h]; exact .inr (.inr rfl)
    | pipe l =>
      show firstOf (wvalue n c.child) l = firstOf (wvalue n c) l ∨ firstOf (wvalue n c.child) l = _ ∨
        firstOf (wvalue n c.child) l = _
      induction l with
      | nil => exact .inl rfl
      | cons a l ihl =>
        unfold firstOf
        rcases ih a with h | h | h
        · rw [h]
          cases hr : wvalue n c a with
          | ok v => exact .inl rfl
          | error e => cases e <;> first | exact ihl | exact .inl rfl
        · rw [h]; exact .inr (.inl rfl)
        · rw [h]; exact .inr (.inr rfl)

/-- C83: a spawned process never gets another value: it gets the same or the run fails. -/
theorem C83_spawn_same_or_fails (n : Nat) (hn : n ≠ 0) (c : WCtx V) (post : Bool) (a : WArg V) (v : V)
    (h : received n c post .spawn a = .ok v) : received n c post .main a = .ok v := by
  show wvalue n c a = .ok v
  unfold received at h
  rcases wstage_cases n c post a with hs | hs
  · simp only [hs] at h
    rcases child_cases n c a with hc | hc | hc
    · rw [← hc]; exact h
    · rw [hc] at h; cases h
    · rw [hc] at h; cases h
  · rw [hs] at h
    cases hv : wvalue n c a with
    | error e => rw [hv] at h; cases h
    | ok u =>
      rw [hv] at h
      rw [← h]
      exact (wvalue_plain hn _ u).symm

/-- The argument is not evaluated in the child: everything but a function argument that is to be evaluated there. -/
def SentAsValue (post : Bool) : WArg V → Prop
  | .func _ p _ => p.getD post = false
  | _ => True

mutual
/-- The argument does not look into the session. -/
def SelfContained : WArg V → Prop
  | .plain _ => True
  | .simple _ => True
  | .sess _ _ => False
  | .ret _ _ => False
  | .func _ _ sig => AllSelfContained sig
  | .pipe l => AllSelfContained l
/-- None of the arguments looks into the session. -/
def AllSelfContained : List (WArg V) → Prop
  | [] => True
  | a :: l => SelfContained a ∧ AllSelfContained l
end

theorem child_self (n : Nat) (c : WCtx V) (a : WArg V) (h : SelfContained a) : wvalue n c.child a = wvalue n c a := by
  induction n generalizing a with
  | zero => rfl
  | succ n ih =>
    have hall : ∀ {l : List (WArg V)}, AllSelfContained l →
        values (wvalue n c.child) l = values (wvalue n c) l ∧ firstOf (wvalue n c.child) l = firstOf (wvalue n c) l := by
      intro l
      induction l with
      | nil => intro _; exact ⟨rfl, rfl⟩
      | cons a l ihl =>
        intro hl
        unfold AllSelfContained at hl
        obtain ⟨h1, h2⟩ := ihl hl.2
        have h3 := ih a hl.1
        constructor
        · unfold values
          rw [h3, h1]
        · unfold firstOf
          rw [h3, h2]
    cases a with
    | plain v => rfl
    | simple v => rfl
    | sess k d => exact absurd h (by simp [SelfContained])
    | ret t d => exact absurd h (by simp [SelfContained])
    | func f p sig =>
      unfold SelfContained at h
      unfold wvalue
      simp only
      rw [(hall h).1]
      rfl
    | pipe l =>
      unfold SelfContained at h
      unfold wvalue
      simp only
      exact (hall h).2

/-- C83: a spawned process gets the same for every argument whose value is sent, and for function arguments evaluated in
the process that do not look into the session. -/
theorem C83_spawn_partial (n : Nat) (hn : n ≠ 0) (c : WCtx V) (post : Bool) (a : WArg V)
    (h : SentAsValue post a ∨ SelfContained a) : received n c post .spawn a = received n c post .main a := by
  show (match wstage n c post a with
    | .error e => .error e
    | .ok b => wvalue n c.child b) = wvalue n c a
  rcases h with h | h
  · have hs : wstage n c post a = (wvalue n c a).map .plain := by
      cases a with
      | plain v => rw [wvalue_plain hn]; rfl
      | func f p sig =>
        unfold SentAsValue at h
        simp only [wstage]
        rw [if_neg (by rw [h]; decide)]
      | simple v => rfl
      | sess k d => rfl
      | ret t d => rfl
      | pipe l => rfl
    rw [hs]
    cases hv : wvalue n c a with
    | error e => rfl
    | ok v => exact wvalue_plain hn _ v
  · rcases wstage_cases n c post a with hs | hs
    · rw [hs]
      exact child_self n c a h
    · rw [hs]
      cases hv : wvalue n c a with
      | error e => rfl
      | ok v => exact wvalue_plain hn _ v

/-- A session with a parameter, a task with a return value, and a function that gives its first argument. -/
def whereCtx : WCtx Nat :=
  ⟨some [("x", .plain 7)], ["t"], [("t", 5)], fun _ vs => match vs with
    | [] => .ok 1
    | v :: _ => .ok v⟩

/-- A reference, a return value behind a pipe, and a function argument with a reference, in all places; evaluated before
the process is made all are the same. -/
example : ∀ w ∈ [Place.main, .async, .thread, .fork, .spawn],
    received 9 whereCtx true w (.sess "x" none) = .ok 7 ∧
    received 9 whereCtx true w (.pipe [.sess "y" none, .ret "t" none]) = .ok 5 ∧
    received 9 whereCtx true w (.func 0 (some false) [.sess "x" none]) = .ok 7 ∧
    received 9 whereCtx true w (.func 0 none [.simple 3]) = .ok 3 := by decide

example : SentAsValue true (.sess "x" none : WArg Nat) ∧ SelfContained (.func 0 none [.simple 3] : WArg Nat) :=
  ⟨trivial, trivial, trivial⟩

/-- C83 fails in a spawned process for a function argument (with the default option `param_materialize`) whose function
takes a session parameter, even one with a default, or a return value: evaluated there, the session has no parameters
and no tasks. -/
theorem C83_spawn_violated :
    (received 9 whereCtx true .fork (.func 0 none [.sess "x" (some 0)]) = .ok 7 ∧
      received 9 whereCtx true .spawn (.func 0 none [.sess "x" (some 0)]) = .error .attr) ∧
    (received 9 whereCtx true .fork (.func 0 none [.ret "t" (some 0)]) = .ok 5 ∧
      received 9 whereCtx true .spawn (.func 0 none [.ret "t" (some 0)]) = .error .value) := by decide

theorem values_all {f : WArg V → Except Err V} : ∀ {sig : List (WArg V)} {vs : List V},
    List.Forall₂ (fun a v => f a = .ok v) sig vs → values f sig = .ok vs
  | _, _, .nil => rfl
  | _, _, .cons h t => by simp only [values, h, values_all t]

/-- C83: the function of an argument is called with the values of its own arguments, in their order, and the task gets what it
returns, everywhere but in a spawned process. -/
theorem C83_call (n : Nat) (c : WCtx V) (post : Bool) (f : Nat) (p : Option Bool) (sig : List (WArg V)) (vs : List V)
    (h : List.Forall₂ (fun a v => wvalue n c a = .ok v) sig vs) (w : Place) (hw : w ≠ .spawn) :
    received (n + 1) c post w (.func f p sig) = c.call f vs := by
  rw [C83_same (n + 1) (by omega) c post _ w hw]
  show wvalue (n + 1) c (.func f p sig) = _
  simp only [wvalue, values_all h]

example : List.Forall₂ (fun a v => wvalue 8 whereCtx a = .ok v) [.sess "x" (some 0), .ret "t" none] [7, 5] :=
  .cons rfl (.cons rfl .nil)

/-- C83: a termination flag given to a task whose execution is written on the task is the event of the run in a thread and
an event otherwise, except for `async`. -/
theorem C83_flag_partial (e session : Execution) :
    (e = .thread → runFlag (some e) session = .own) ∧ (e = .main ∨ e = .process → runFlag (some e) session = .fresh) := by
  cases e <;> cases session <;> decide

/-- C83: in a thread the flag is the event of the run also when the execution is the one of the session. -/
theorem C83_flag_thread (own : Option Execution) (session : Execution) (h : own.getD session = .thread) :
    runFlag own session = .own := by
  cases own with
  | none => cases session <;> first | rfl | cases h
  | some e => cases e <;> first | rfl | cases h

/-- C83 fails for termination flags: a task run as main or process because its session says so gets None, where the same
task with its own setting gets an event; with `async` it is always None. -/
theorem C83_flag_violated :
    runFlag none .main = .none ∧ runFlag (some .main) .main = .fresh ∧ runFlag none .process = .none ∧
    runFlag (some .process) .process = .fresh ∧ ∀ session, runFlag (some .async) session = .none := by
  refine ⟨by decide, by decide, by decide, by decide, ?_⟩
  intro s; cases s <;> decide

end Rocketry.Props
