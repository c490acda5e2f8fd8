import Mathlib.Data.List.Forall2
import Verif.Spec.RecordTextSpec
import Verif.Base.CharList

/-!
# Property C110: the record of a failure tells the message and the exception, wherever the task ran
-/

namespace Rocketry.Props
open Rocketry Rocketry.RecordText Rocketry.Spec

variable {E : Type}

theorem endsLine_iff (s : List Char) : EndsLine s ↔ s.getLast? = some '\n' := by
  constructor
  · rintro ⟨l, rfl⟩
    simp
  · intro h
    rcases List.eq_nil_or_concat s with rfl | ⟨l, a, rfl⟩
    · cases h
    · simp at h
      exact ⟨l, by rw [h]; simp⟩

/-- A record that will show the exception text `t`. -/
def Holding (tb : E → List Char) (msg : List Char) (t : Option (List Char)) (r : TRec E) : Prop :=
  r.msg = msg ∧ ((∃ e, t = some (tb e) ∧ r.excInfo = .exc e ∧ r.excText = none)
    ∨ (∃ s, t = some s ∧ s ≠ [] ∧ r.excText = some s)
    ∨ (t = none ∧ r.excInfo = .none ∧ r.excText = none))

theorem withText_some (s t : List Char) (ht : t ≠ []) :
    withText s (some t) = (if s.getLast? = some '\n' then s else s ++ ['\n']) ++ t := by
  have : t.isEmpty = false := by cases t with | nil => exact absurd rfl ht | cons a l => rfl
  simp [withText, this]

theorem tells_of (f : Fmt E) (msg : List Char) (t : Option (List Char)) (r : TRec E) (ht : ∀ s, t = some s → s ≠ [])
    (hm : r.message = some msg) (hx : r.excText = t) : TextTold msg t f ⟨withText (f.message msg) t, r⟩ := by
  refine ⟨hm, hx, ?_, ?_, ?_⟩
  · rintro rfl; rfl
  · rintro s rfl he
    dsimp only
    rw [withText_some _ _ (ht s rfl), if_pos ((endsLine_iff _).1 he)]
  · rintro s rfl he
    dsimp only
    rw [withText_some _ _ (ht s rfl), if_neg fun h => he ((endsLine_iff _).2 h)]
    simp

/-- Formatting shows it, and the record stays one that shows it. -/
theorem format_holding (tb : E → List Char) (htb : ∀ e, tb e ≠ []) (msg : List Char) (t : Option (List Char)) (f : Fmt E)
    (hf : f.exception = tb) (r : TRec E) (h : Holding tb msg t r) :
    ∃ r', format f r = some (r', withText (f.message msg) t) ∧ TextTold msg t f ⟨withText (f.message msg) t, r'⟩
      ∧ Holding tb msg t r' ∧ r'.ret = r.ret ∧ r'.action = r.action ∧ (t = none → r'.excInfo = .none)
      ∧ r'.excText = t := by
  obtain ⟨hm, ⟨e, rfl, hi, hx⟩ | ⟨s, rfl, hs, hx⟩ | ⟨rfl, hi, hx⟩⟩ := h
  · refine ⟨{ r with message := some r.msg, excText := some (tb e) }, ?_, ?_, ?_, rfl, rfl, (fun h => nomatch h), rfl⟩
    · simp only [format, fillText, hi, hx, ExcInfo.truth, textTruth, Bool.not_false, Bool.and_self, if_true, hf, hm]
    · exact tells_of f msg _ _ (fun s hs => by cases hs; exact htb e) (by rw [hm]) rfl
    · exact ⟨hm, .inr (.inl ⟨tb e, rfl, htb e, rfl⟩)⟩
  · have h1 : textTruth (some s) = true := by cases s with | nil => exact absurd rfl hs | cons a l => rfl
    refine ⟨{ r with message := some r.msg }, ?_, ?_, ?_, rfl, rfl, (fun h => nomatch h), hx⟩
    · simp only [format, fillText, hx, h1, Bool.not_true, Bool.and_false, Bool.false_eq_true, if_false, hm]
    · exact tells_of f msg _ _ (fun s' hs' => by cases hs'; exact hs) (by rw [hm]) hx
    · exact ⟨hm, .inr (.inl ⟨s, rfl, hs, hx⟩)⟩
  · refine ⟨{ r with message := some r.msg }, ?_, ?_, ?_, rfl, rfl, (fun _ => hi), hx⟩
    · simp only [format, fillText, hi, hx, ExcInfo.truth, Bool.false_and, Bool.false_eq_true, if_false, hm]
    · exact tells_of f msg _ _ (fun s' hs' => nomatch hs') (by rw [hm]) hx
    · exact ⟨hm, .inr (.inr ⟨rfl, hi, hx⟩)⟩

theorem emitAll_holding (tb : E → List Char) (htb : ∀ e, tb e ≠ []) (msg : List Char) (t : Option (List Char)) :
    ∀ (fs : List (Fmt E)) (_ : ∀ f ∈ fs, f.exception = tb) (r : TRec E), Holding tb msg t r →
      ∃ l, emitAll fs r = some l ∧ List.Forall₂ (TextTold msg t) fs l ∧ ∀ x ∈ l, x.record.ret = r.ret
  | [], _, r, _ => ⟨[], rfl, .nil, fun _ hx => nomatch hx⟩
  | f :: fs, hf, r, h => by
    obtain ⟨r', he, htl, hh, hret, -, -⟩ := format_holding tb htb msg t f (hf f (List.mem_cons_self ..)) r h
    obtain ⟨l, hl, hall, hr⟩ := emitAll_holding tb htb msg t fs (fun g hg => hf g (List.mem_cons_of_mem _ hg)) r' hh
    refine ⟨_, by simp only [emitAll, he, hl, Option.map_some], .cons htl hall, fun x hx => ?_⟩
    rcases List.mem_cons.1 hx with rfl | hx
    · exact hret
    · rw [hr x hx, hret]

theorem create_holding (tb : E → List Char) (a : Action) (msg : List Char) (ret : Option Nat) (c : LogCall E) :
    Holding tb msg (traceOf tb c) (create a msg ret c) := by
  cases c with
  | info => exact ⟨rfl, .inr (.inr ⟨rfl, rfl, rfl⟩)⟩
  | exception e => exact ⟨rfl, .inl ⟨e, rfl, rfl, rfl⟩⟩
  | critical => exact ⟨rfl, .inr (.inr ⟨rfl, rfl, rfl⟩)⟩

/-- What `prepare` sends. -/
theorem prepare_holding (tb : E → List Char) (htb : ∀ e, tb e ≠ []) (msg : List Char) (t : Option (List Char)) (r : TRec E)
    (h : Holding tb msg t r) :
    ∃ r', prepare tb r = some r' ∧ Holding tb msg t r' ∧ r'.ret = r.ret ∧ r'.action = r.action
      ∧ r'.message = some (withText msg t) ∧ r'.excText = t := by
  obtain ⟨r', he, -, hh, hret, ha, hi, hx⟩ := format_holding tb htb msg t (plain tb) rfl r h
  refine ⟨{ r' with message := some (withText msg t), excInfo := .none }, ?_, ?_, hret, ha, rfl, hx⟩
  · unfold prepare
    rw [he]
    rfl
  · refine ⟨hh.1, ?_⟩
    cases ht : t with
    | none => exact .inr (.inr ⟨rfl, rfl, hx.trans ht⟩)
    | some s =>
      refine .inr (.inl ⟨s, rfl, ?_, hx.trans ht⟩)
      obtain ⟨-, ⟨e, h1, -, -⟩ | ⟨s', h1, h2, -⟩ | ⟨h1, -, -⟩⟩ := hh
      · rw [ht] at h1; cases h1; exact htb e
      · rw [ht] at h1; cases h1; exact h2
      · rw [ht] at h1; cases h1

theorem isPrefixOf_self_append (t : List Char) : ∀ m : List Char, t.isPrefixOf (t ++ m) = true := by
  induction t with
  | nil => intro m; simp
  | cons a l ih => intro m; simp

theorem occurs_end (t : List Char) : ∀ s : List Char, occurs t (s ++ t) = true
  | [] => by
    cases t with
    | nil => rfl
    | cons a l =>
      have h := isPrefixOf_self_append (a :: l) []
      rw [List.append_nil] at h
      simp only [List.nil_append, occurs, h, Bool.true_or]
  | c :: s => by simp only [List.cons_append, occurs, occurs_end t s, Bool.or_true]

/-- **C110**: the message of a record that comes from a process is not doubled by `handle_logs`: the condition of line 279 is
never true. -/
theorem C110_not_doubled (tb : E → List Char) (htb : ∀ e, tb e ≠ []) (a : Action) (msg : List Char) (ret : Option Nat)
    (c : LogCall E) (r : TRec E) (h : prepare tb (create a msg ret c) = some r) : (handled r).message = r.message := by
  obtain ⟨r', hr, -, -, -, hm, hx⟩ := prepare_holding tb htb msg _ _ (create_holding tb a msg ret c)
  rw [hr] at h
  cases h
  unfold handled
  split
  · dsimp only
    rw [hm, hx]
    cases c with
    | info => rfl
    | critical => rfl
    | exception e =>
      have : occurs (tb e) (withText msg (some (tb e))) = true := by
        rw [withText_some _ _ (htb e)]
        exact occurs_end _ _
      simp only [traceOf, this, if_true]
  · split <;> rfl

theorem arrive_holding (tb : E → List Char) (htb : ∀ e, tb e ≠ []) (way : Way) (a : Action) (msg : List Char)
    (ret : Option Nat) (c : LogCall E) :
    ∃ r, arrive tb way (create a msg ret c) = some r ∧ Holding tb msg (traceOf tb c) r
      ∧ r.ret = (if way = .scheduler ∧ a = .success then none else ret) := by
  have h0 := create_holding tb a msg ret c
  obtain ⟨r', hr, hh, hret, ha, -, hx⟩ := prepare_holding tb htb msg _ _ h0
  cases way with
  | here => exact ⟨_, rfl, h0, by rw [if_neg (fun h => nomatch h.1)]; cases c <;> rfl⟩
  | lock => exact ⟨r', hr, hh, by rw [if_neg (fun h => nomatch h.1), hret]; cases c <;> rfl⟩
  | scheduler =>
    refine ⟨handled r', by simp only [arrive, hr, Option.map_some], ?_, ?_⟩
    · unfold handled
      split
      · refine ⟨hh.1, ?_⟩
        cases ht : traceOf tb c with
        | none => exact .inr (.inr ⟨rfl, by dsimp only; rw [hx, ht]; rfl, hx.trans ht⟩)
        | some s =>
          refine .inr (.inl ⟨s, rfl, ?_, hx.trans ht⟩)
          cases c with
          | exception e => cases ht; exact htb e
          | info => cases ht
          | critical => cases ht
      · split
        · exact hh
        · exact hh
    · have ha' : r'.action = a := by rw [ha]; cases c <;> rfl
      have hret' : r'.ret = ret := by rw [hret]; cases c <;> rfl
      unfold handled
      rw [ha']
      by_cases h1 : a = .fail
      · subst h1
        rw [if_pos rfl, if_neg (fun h => nomatch h.2)]
        exact hret'
      · rw [if_neg h1]
        by_cases h2 : a = .success
        · rw [if_pos h2, if_pos ⟨rfl, h2⟩]
        · rw [if_neg h2, if_neg (fun h => h2 h.2)]
          exact hret'

/-- **C110**, partial: wherever a record was made and on whichever way it came, every handler of the logger shows the message
and, for a failure, the whole text of the exception.  Missing: formatters with a `formatException` of their own
(`C110_formatter_violated`). -/
theorem C110_tells_partial (tb : E → List Char) (htb : ∀ e, tb e ≠ []) (way : Way) (fs : List (Fmt E))
    (hf : ∀ f ∈ fs, f.exception = tb) (a : Action) (msg : List Char) (ret : Option Nat) (c : LogCall E) :
    ∃ l, logged tb way fs (create a msg ret c) = some l ∧ List.Forall₂ (TextTold msg (traceOf tb c)) fs l := by
  obtain ⟨r, hr, hh, -⟩ := arrive_holding tb htb way a msg ret c
  obtain ⟨l, hl, hall, -⟩ := emitAll_holding tb htb msg _ fs hf r hh
  exact ⟨l, by simp only [logged, hr, Option.bind_some, hl], hall⟩

example : (logged (fun n : Nat => if n = 0 then c!"E: zero" else c!"E") .scheduler
      [plain (fun n : Nat => if n = 0 then c!"E: zero" else c!"E"), ⟨fun m => '!' :: m, fun n => if n = 0 then c!"E: zero" else c!"E"⟩]
      (create .fail c!"task failed" none (statusCall .fail 0))).map (·.map (·.text))
    = some [c!"task failed\nE: zero", c!"!task failed\nE: zero"] := by decide +kernel

/-- **C110**, partial, for the calls that `_set_status` makes: the exception under way is shown for a failure, and for nothing
else.  Missing: as in `C110_tells_partial`. -/
theorem C110_status_partial (tb : E → List Char) (htb : ∀ e, tb e ≠ []) (way : Way) (fs : List (Fmt E))
    (hf : ∀ f ∈ fs, f.exception = tb) (a : Action) (msg : List Char) (ret : Option Nat) (e : E) :
    ∃ l, logged tb way fs (create a msg ret (statusCall a e)) = some l ∧
      List.Forall₂ (TextTold msg (if a = .fail then some (tb e) else none)) fs l := by
  have h := C110_tells_partial tb htb way fs hf a msg ret (statusCall a e)
  by_cases ha : a = .fail
  · rw [if_pos ha]
    rwa [show traceOf tb (statusCall a e) = some (tb e) by simp only [statusCall, if_pos ha, traceOf]] at h
  · rw [if_neg ha]
    rwa [show traceOf tb (statusCall a e) = none by simp only [statusCall, if_neg ha, traceOf]] at h

/-- What is shown of a record does not depend on where it was made. -/
theorem C110_where (tb : E → List Char) (htb : ∀ e, tb e ≠ []) (v w : Way) (fs : List (Fmt E))
    (hf : ∀ f ∈ fs, f.exception = tb) (a : Action) (msg : List Char) (ret : Option Nat) (c : LogCall E) :
    (logged tb v fs (create a msg ret c)).map (·.map fun x => (x.text, x.record.message, x.record.excText))
      = (logged tb w fs (create a msg ret c)).map (·.map fun x => (x.text, x.record.message, x.record.excText)) := by
  obtain ⟨l, hl, h1⟩ := C110_tells_partial tb htb v fs hf a msg ret c
  obtain ⟨k, hk, h2⟩ := C110_tells_partial tb htb w fs hf a msg ret c
  rw [hl, hk]
  simp only [Option.map_some, Option.some.injEq]
  clear hl hk hf
  induction h1 generalizing k with
  | nil => cases h2; rfl
  | cons hx _ ih =>
    cases h2 with
    | cons hy h2 =>
      rw [List.map_cons, List.map_cons, ih _ h2]
      congr 1
      obtain ⟨m1, t1, n1, e1, o1⟩ := hx
      obtain ⟨m2, t2, n2, e2, o2⟩ := hy
      rw [m1, m2, t1, t2]
      congr 1
      cases ht : traceOf tb c with
      | none => rw [n1 ht, n2 ht]
      | some s =>
        rename_i f x fs' l' _ y k'
        rcases Classical.em (EndsLine (f.message msg)) with h | h
        · rw [e1 s ht h, e2 s ht h]
        · rw [o1 s ht h, o2 s ht h]

/-- **C110** fails for formatters with a `formatException` of their own: it is used for tasks that run in the main process, but
not for those in other processes, whose exceptions have been made texts before. -/
theorem C110_formatter_violated (tb : E → List Char) (htb : ∀ e, tb e ≠ []) (f : Fmt E) (e : E) (msg : List Char)
    (hd : f.exception e ≠ tb e) :
    (logged tb .here [f] (create .fail msg none (.exception e))).map (·.map (·.record.excText)) = some [some (f.exception e)]
      ∧ (logged tb .scheduler [f] (create .fail msg none (.exception e))).map (·.map (·.record.excText)) = some [some (tb e)]
      ∧ (logged tb .here [f] (create .fail msg none (.exception e))).map (·.map (·.record.excText))
        ≠ (logged tb .scheduler [f] (create .fail msg none (.exception e))).map (·.map (·.record.excText)) := by
  have h1 : (logged tb .here [f] (create .fail msg none (.exception e))).map (·.map (·.record.excText))
      = some [some (f.exception e)] := rfl
  have h2 : (logged tb .scheduler [f] (create .fail msg none (.exception e))).map (·.map (·.record.excText))
      = some [some (tb e)] := by
    obtain ⟨r, hr, hh, -⟩ := arrive_holding tb htb .scheduler .fail msg none (.exception e)
    have hx : r.excText = some (tb e) := by
      obtain ⟨r', hr', -, -, ha, -, hx⟩ := prepare_holding tb htb msg _ _ (create_holding tb .fail msg none (.exception e))
      simp only [arrive, hr', Option.map_some, Option.some.injEq] at hr
      rw [← hr]
      unfold handled
      split
      · exact hx
      · split <;> exact hx
    have ht : textTruth (some (tb e)) = true := by
      have := htb e
      cases h : tb e with
      | nil => exact absurd h this
      | cons a l => rfl
    simp only [logged, hr, Option.bind_some, emitAll, format, fillText, hx, ht, Bool.not_true, Bool.and_false,
      Bool.false_eq_true, if_false, Option.map_some, List.map_cons, List.map_nil]
  refine ⟨h1, h2, ?_⟩
  rw [h1, h2]
  intro h
  simp only [Option.some.injEq, List.cons.injEq, and_true] at h
  exact hd h

example : (⟨id, fun _ => c!"secret"⟩ : Fmt Nat).exception 0 ≠ (fun _ : Nat => c!"Traceback") 0 := by decide

/-- **C110**: the return value of a task in a process is taken out of its record by `handle_logs`, so that no handler gets it. -/
theorem C110_return_partial (tb : E → List Char) (htb : ∀ e, tb e ≠ []) (fs : List (Fmt E))
    (hf : ∀ f ∈ fs, f.exception = tb) (msg : List Char) (v : Nat) (l : List (Shown E))
    (h : logged tb .scheduler fs (create .success msg (some v) .info) = some l) : ∀ x ∈ l, x.record.ret = none := by
  obtain ⟨r, hr, hh, hret⟩ := arrive_holding tb htb .scheduler .success msg (some v) .info
  obtain ⟨k, hk, -, hall⟩ := emitAll_holding tb htb msg _ fs hf r hh
  simp only [logged, hr, Option.bind_some, hk, Option.some.injEq] at h
  intro x hx
  rw [← h] at hx
  rw [hall x hx, hret]
  rfl

/-- **C110** fails for records read while another process is started: their return values come to all handlers. -/
theorem C110_return_violated (tb : E → List Char) (htb : ∀ e, tb e ≠ []) (fs : List (Fmt E))
    (hf : ∀ f ∈ fs, f.exception = tb) (msg : List Char) (v : Nat) :
    ∃ l, logged tb .lock fs (create .success msg (some v) .info) = some l ∧ l.length = fs.length
      ∧ ∀ x ∈ l, x.record.ret = some v := by
  obtain ⟨r, hr, hh, hret⟩ := arrive_holding tb htb .lock .success msg (some v) .info
  obtain ⟨k, hk, hfa, hall⟩ := emitAll_holding tb htb msg _ fs hf r hh
  refine ⟨k, by simp only [logged, hr, Option.bind_some, hk], hfa.length_eq.symm, fun x hx => ?_⟩
  rw [hall x hx, hret]
  rfl

/-- A failure that is logged as critical has no exception in its record, though one is raised for it right afterwards
(core/task.py:1057-1058, 1326-1327). -/
theorem C110_critical (tb : E → List Char) (htb : ∀ e, tb e ≠ []) (way : Way) (f : Fmt E) (hf : f.exception = tb)
    (msg : List Char) :
    ∃ x, logged tb way [f] (create .fail msg none .critical) = some [x] ∧ x.record.excText = none
      ∧ x.text = f.message msg := by
  obtain ⟨l, hl, h⟩ := C110_tells_partial tb htb way [f] (fun g hg => by rw [List.mem_singleton.1 hg]; exact hf) .fail msg none
    .critical
  cases h with
  | cons hx h =>
    cases h
    exact ⟨_, hl, hx.2.1, hx.2.2.1 rfl⟩

end Rocketry.Props
