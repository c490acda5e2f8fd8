import Verif.Spec.SessionsSpec
import Verif.Props.DenoteProps

/-!
# Property C105: the conditions of a session depend on this session only
-/

namespace Rocketry.Props
open Spec Cond

theorem seen_sit (m : Sessions) (s : Nat) : m.seen s = { m.sit s with fromLogs := (m.sit m.dflt).fromLogs } := rfl

/-- **C105**, partial: if the default session reads logs as this session does, the conditions of this session are those of
the session itself.  Missing: another setting of `force_status_from_logs` (`C105_history_violated`). -/
theorem C105_same_partial (m : Sessions) (s fuel : Nat) (c : Cond Builtin)
    (h : (m.sit m.dflt).fromLogs = (m.sit s).fromLogs) : m.look s fuel c = ownAnswer m s fuel c := by
  unfold Sessions.look ownAnswer
  rw [seen_sit, h]

/-- **C105**: nothing else of other sessions counts, whatever they contain and whichever is the default. -/
theorem C105_others (m m' : Sessions) (s fuel : Nat) (c : Cond Builtin) (hs : m.sit s = m'.sit s)
    (h : (m.sit m.dflt).fromLogs = (m'.sit m'.dflt).fromLogs) : m.look s fuel c = m'.look s fuel c := by
  unfold Sessions.look
  rw [seen_sit, seen_sit, hs, h]

mutual
theorem look_congr {f g : Builtin → Obs Unit} {P : Builtin → Prop} (h : ∀ l, P l → f l = g l) :
    ∀ c : Cond Builtin, EachLeaf P c → observe f c = observe g c
  | .leaf l, hc => by
    simp only [EachLeaf] at hc
    simp only [observe]
    exact h l hc
  | .alwaysTrue, _ => by simp only [observe]
  | .alwaysFalse, _ => by simp only [observe]
  | .any cs, hc => by
    simp only [EachLeaf] at hc
    simp only [observe]
    exact look_any h cs hc
  | .all cs, hc => by
    simp only [EachLeaf] at hc
    simp only [observe]
    exact look_all h cs hc
  | .not c, hc => by
    simp only [EachLeaf] at hc
    funext s
    simp only [observe]
    rw [look_congr h c hc]
theorem look_any {f g : Builtin → Obs Unit} {P : Builtin → Prop} (h : ∀ l, P l → f l = g l) :
    ∀ cs : List (Cond Builtin), EachLeafs P cs → observe.observeAny f cs = observe.observeAny g cs
  | [], _ => by simp only [observe.observeAny]
  | c :: cs, hc => by
    simp only [EachLeafs] at hc
    funext s
    simp only [observe.observeAny]
    rw [look_congr h c hc.1, look_any h cs hc.2]
theorem look_all {f g : Builtin → Obs Unit} {P : Builtin → Prop} (h : ∀ l, P l → f l = g l) :
    ∀ cs : List (Cond Builtin), EachLeafs P cs → observe.observeAll f cs = observe.observeAll g cs
  | [], _ => by simp only [observe.observeAll]
  | c :: cs, hc => by
    simp only [EachLeafs] at hc
    funext s
    simp only [observe.observeAll]
    rw [look_congr h c hc.1, look_all h cs hc.2]
end

theorem still_leaf (v : Sit) (b : Bool) (fuel : Nat) (l : Builtin) (h : Builtin.Still l) :
    Sit.obs { v with fromLogs := b } fuel l = v.obs fuel l := by
  funext s
  cases l <;> first | rfl | exact h.elim

/-- **C105**: conditions about times of the day, the scheduler, the environment and other tasks (`after_…`), and all
combinations of them, have the same value whichever session is the default. -/
theorem C105_still (m : Sessions) (s fuel : Nat) (c : Cond Builtin) (h : EachLeaf Builtin.Still c) :
    m.look s fuel c = ownAnswer m s fuel c := by
  unfold Sessions.look ownAnswer
  rw [seen_sit, look_congr (fun l hl => still_leaf (m.sit s) _ fuel l hl) c h]

example : EachLeaf Builtin.Still (.all [.leaf (.env c!"prod"), .not (.leaf (.cycles [(.gt, 3)])),
    .any [.leaf (.depend .success c!"fetch"), .alwaysFalse]]) := by
  simp [EachLeaf, EachLeafs, Builtin.Still]

theorem says_flag (v : Sit) (b : Bool) (s : Saying) (h : s.NotRunning) : Sit.Says { v with fromLogs := b } s ↔ v.Says s := by
  cases s <;> first | exact Iff.rfl | exact h.elim

theorem holds_congr {P Q : Txt → Prop} : ∀ e : Written, (∀ w ∈ e.words, P w ↔ Q w) → (e.Holds P ↔ e.Holds Q)
  | .item _ w _, h => by
    simp only [Written.Holds]
    exact h w (by simp [Written.words])
  | .not _ _ a, h => by
    simp only [Written.Holds]
    exact not_congr (holds_congr a fun w hw => h w (by simpa [Written.words] using hw))
  | .and a _ _ b, h => by
    simp only [Written.Holds]
    exact and_congr (holds_congr a fun w hw => h w (by simp [Written.words, hw]))
      (holds_congr b fun w hw => h w (by simp [Written.words, hw]))
  | .or a _ _ b, h => by
    simp only [Written.Holds]
    exact or_congr (holds_congr a fun w hw => h w (by simp [Written.words, hw]))
      (holds_congr b fun w hw => h w (by simp [Written.words, hw]))
  | .group a, h => by
    simp only [Written.Holds]
    exact holds_congr a fun w hw => h w (by simpa [Written.words] using hw)

/-- **C105**, partial: in a session whose kept times are those of its log, a condition text without `is running` has, for
every choice of the default session, the value that this session gives it.  Missing: sessions whose log is also written by
others (`C105_history_violated`), and `is running` (`C105_running_violated`). -/
theorem C105_text_partial (lib : TextLib) (strLeaf : Char → Builtin) (m : Sessions) (s : Nat)
    (hk : KeptBothWays (m.sit s)) (e : Written) (he : e.Proper) (sayingOf : Txt → Saying)
    (hw : ∀ w ∈ e.words, (sayingOf w).phrase.text = w ∧ (sayingOf w).Proper ∧ (sayingOf w).NotRunning ∧
      ∀ b, Sit.Ready { m.sit s with fromLogs := b } (sayingOf w)) :
    ∃ c, parseCondition strLeaf (parseCondItem (readTime lib)) e.text = .ok c ∧
      ∃ N, ∀ fuel, N ≤ fuel → ∀ n, (m.serve n).look s fuel c = ownAnswer m s fuel c := by
  have both := fun b => C65_text_partial lib strLeaf { m.sit s with fromLogs := b } (hk b) e he sayingOf
    (fun w h => ⟨(hw w h).1, (hw w h).2.1, (hw w h).2.2.2 b⟩)
  obtain ⟨c, hc, N, hN⟩ := both true
  obtain ⟨c', hc', N', hN'⟩ := both false
  cases hc.symm.trans hc'
  refine ⟨c, hc, N + N', fun fuel hf n => ?_⟩
  obtain ⟨b, h1, h2⟩ := hN fuel (by omega)
  obtain ⟨b', h1', h2'⟩ := hN' fuel (by omega)
  have hbb : b = b' := by
    rw [Bool.eq_iff_iff, h2, h2']
    refine holds_congr e fun w h => ?_
    exact (says_flag _ _ _ (hw w h).2.2.1).trans (says_flag _ _ _ (hw w h).2.2.1).symm
  have hall : ∀ x, observe (Sit.obs { m.sit s with fromLogs := x } fuel) c () = (.ok b, ()) := by
    intro x
    cases x
    · rw [h1', hbb]
    · exact h1
  unfold Sessions.look ownAnswer
  rw [seen_sit]
  have e1 := hall ((m.serve n).sit (m.serve n).dflt).fromLogs
  have e2 := hall (m.sit s).fromLogs
  show (observe (Sit.obs { m.sit s with fromLogs := ((m.serve n).sit (m.serve n).dflt).fromLogs } fuel) c ()).1 = _
  rw [e1]
  exact (congrArg Prod.fst e2).symm

theorem newYear_both : KeptBothWays newYear := by
  intro b
  exact {
    self := newYear_kept.self
    first := newYear_kept.first
    last := newYear_kept.last
    times := newYear_kept.times
    ordered := newYear_kept.ordered
    cache := fun _ => newYear_kept.cache rfl
    runs := fun _ => newYear_kept.runs rfl
    log := fun _ => ⟨rfl, fun name => ⟨fun r hr _ => (by rw [newYear_repo]; decide +kernel :
        ∀ r ∈ newYear.repo, r.runId ≠ none ∧ r.runId ≠ some "") r hr,
      (by rw [newYear_repo]; decide +kernel :
        newYear.repo.Pairwise (fun x r => r.action = .run → x.runId = r.runId → x.action = .run)).imp
        (fun h _ h2 h3 => h h2.2 h3),
      (by rw [newYear_repo]; decide +kernel :
        newYear.repo.Pairwise (fun r x => r.created ≤ x.created)).imp (fun h _ _ _ => h)⟩⟩
    params := newYear_kept.params }

/-- The hypotheses of `C105_text_partial` in an example: `every 10 minutes & daily`, in the session of `newYear`. -/
example : KeptBothWays newYear ∧ ∀ b, Sit.Ready { newYear with fromLogs := b } (.every tenMinutes (10 * MIN)) ∧
    Sit.Ready { newYear with fromLogs := b } (.exec .day .whole) ∧ (Saying.exec .day .whole).NotRunning := by
  refine ⟨newYear_both, fun b => ⟨⟨by simp [newYear], fun _ => ?_⟩, ⟨by simp [newYear], ?_, fun _ => ?_⟩, trivial⟩⟩
  · show ∀ r ∈ newYear.repo, newYear.now - 10 * MIN ≤ r.created → newYear.now - 10 * MIN ≤ r.noted
    rw [newYear_repo]; decide +kernel
  · rintro ⟨_, h⟩
    have h' : (newYear.now - (TPart.span Scope.day TPart.whole).1) % Sit.len Scope.day = 0 := h
    exact absurd h' (by decide +kernel)
  · show ∀ r ∈ newYear.repo, newYear.begins .day .whole ≤ r.created → newYear.begins .day .whole ≤ r.noted
    rw [newYear_repo]; decide +kernel

/-- Two sessions.  Session 1 has `force_status_from_logs`, as its log is also written by another program: that one has logged
a success of `fetch` at 60 and has started it again at 70, of which the task object knows nothing. -/
def sharedLogSessions : Sessions where
  dflt := 1
  sit := fun n =>
    { fromLogs := decide (n = 1), now := 738000 * DAY + 100, self := some "fetch", tasks := if n = 1 then ["fetch"] else [],
      repo := if n = 1 then
          [⟨"fetch", .run, 738000 * DAY + 50, 738000 * DAY + 50, some "1"⟩, ⟨"fetch", .success, 738000 * DAY + 60, 738000 * DAY + 60, some "1"⟩,
           ⟨"fetch", .run, 738000 * DAY + 70, 738000 * DAY + 70, some "2"⟩]
        else [],
      mem := fun _ => ⟨none, fun _ => none⟩, startCond := fun _ => .alwaysFalse, runs := fun _ => [], hasRunId := true,
      startup := none, nCycles := 0, params := [] }

/-- **C105** fails for conditions about what has happened: when another session, without `force_status_from_logs`, is made
the default (by `app.run()` or `app.serve()`), the conditions of this session no longer read its log.  Here `daily` is
false as it should be, and becomes true: the task would be run a second time. -/
theorem C105_history_violated :
    sharedLogSessions.look 1 9 (.leaf (.wrapper .day)) = .ok false ∧
    (sharedLogSessions.serve 2).look 1 9 (.leaf (.wrapper .day)) = .ok true := by
  decide +kernel

/-- **C105** fails for `is running` likewise. -/
theorem C105_running_violated :
    sharedLogSessions.look 1 9 (.leaf (.running c!"fetch")) = .ok true ∧
    (sharedLogSessions.serve 2).look 1 9 (.leaf (.running c!"fetch")) = .ok false := by
  decide +kernel

/-- **C105**: the texts of start and end conditions are read with the phrases of the task's session, whichever is the
default. -/
theorem C105_start {α : Type} (parsers : Nat → Txt → Option α) (d d' s : Nat) (t : Txt) :
    readStart parsers d s t = readStart parsers d' s t
      ∧ (∀ c, readStart parsers d s t = .ok c ↔ parsers s t = some c) := by
  refine ⟨rfl, fun c => ?_⟩
  unfold readStart
  cases parsers s t <;> simp

/-- **C105** fails for the text of `shut_cond`: it is read with the phrases of the default session, so a phrase that the
session itself knows is not understood, and one that it does not know is. -/
theorem C105_shut_violated {α : Type} (parsers : Nat → Txt → Option α) (d s : Nat) (t : Txt) (c : α)
    (h : parsers d t = none) (hs : parsers s t = some c) :
    readShut parsers d s t = .error .value ∧ readShut parsers s d t = .ok c ∧ readStart parsers d s t = .ok c := by
  simp [readShut, readStart, h, hs]

example : (fun (n : Nat) (t : Txt) => if n = 1 ∧ t = c!"is foo" then some true else none) 0 c!"is foo" = none
    ∧ (fun (n : Nat) (t : Txt) => if n = 1 ∧ t = c!"is foo" then some true else none) 1 c!"is foo" = some true := by
  decide +kernel

end Rocketry.Props
