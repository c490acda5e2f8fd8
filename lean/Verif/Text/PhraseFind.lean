import Verif.Text.CondItemsSym
import Verif.Spec.PhraseSpec

/-!
# The entries of the table found for the phrases of the condition syntax

For each kind of phrase the shape of its text and the entry found for it, whatever its arguments are.  The shapes are
finitely many; the arguments are the unknown parts (`symFind_sound`).
-/

namespace Rocketry.Phrases

open Rocketry.Spec

/-! ### the table in its final order -/

/-- The table without the overwriting of "every". -/
def plainTable : Table :=
  timeParsers.map (fun e => (e.1, if e.1 = [.lit c!"every ", .any "past"] then .every else .isPeriod e.2)) ++
    taskHasEntries ++ schedulerEntries ++
    taskExecEntries.filter (fun e => e.1 ≠ [.lit c!"every ", .any "past"]) ++ runningEntries ++ pipeliningEntries ++
    miscEntries ++ defaultEntries

theorem condTable_eq : condTable = plainTable := by decide +kernel

def chars (l : List Char) : Shape := l.map .chr

theorem inst_chars' (σ : Nat → List Char) (l : List Char) : inst σ (chars l) = l := inst_chars σ l

theorem good_append {σ : Nat → List Char} {a b : Shape} : Good σ (a ++ b) ↔ Good σ a ∧ Good σ b := by
  constructor
  · intro h
    exact ⟨h.prefix (List.prefix_append _ _), h.suffix (List.suffix_append _ _)⟩
  · intro h i k hm
    rcases List.mem_append.1 hm with hm | hm
    · exact h.1 i k hm
    · exact h.2 i k hm

theorem good_chars {σ : Nat → List Char} (l : List Char) : Good σ (chars l) := by
  intro i k hm
  simp [chars] at hm

theorem good_var {σ : Nat → List Char} {i : Nat} {k : Kind} : Good σ [.var i k] ↔ k.Holds (σ i) := by
  constructor
  · intro h; exact h i k (by simp)
  · intro h j k' hm
    simp only [List.mem_singleton, SC.var.injEq] at hm
    rw [hm.1, hm.2]; exact h

theorem good_nil {σ : Nat → List Char} : Good σ [] := by intro i k hm; cases hm

theorem holds_plain {t : Txt} (h : Arg t) : Kind.plain.Holds t := by
  refine ⟨h.1, ?_, h.2.2⟩
  intro c hc
  simp only [notNewline, bne_iff_ne]
  rintro rfl
  exact h.2.1 hc

theorem holds_noAnd {t : Txt} (h : LastArg t) : Kind.noAnd.Holds t :=
  ⟨(holds_plain h.1).1, (holds_plain h.1).2.1, h.1.2.2, h.2⟩

theorem parse_shape {read : Scope → List Char → Except PyErr AVal} {σ : Nat → List Char} {st : Shape} {h : Handler}
    {g : List (String × Shape)} {s : List Char} (hs : inst σ st = s) (hg : Good σ st)
    (hf : symFind plainTable st = some (h, g)) : parseCondItem read s = callHandler read h (instG σ g) := by
  have h1 := symFind_sound hg hf
  rw [← condTable_eq, hs] at h1
  unfold parseCondItem
  generalize condTable = t at h1 ⊢
  rw [h1]

/-- No pattern matches. -/
theorem parse_none {read : Scope → List Char → Except PyErr AVal} {σ : Nat → List Char} {st : Shape} {s : List Char}
    (hs : inst σ st = s) (hg : Good σ st) (hf : plainTable.all (fun e => refute e.1 st) = true) :
    parseCondItem read s = .error .parser := by
  have h1 := findParser_none hg hf
  rw [← condTable_eq, hs] at h1
  unfold parseCondItem
  generalize condTable = t at h1 ⊢
  rw [h1]

theorem parse_found {read : Scope → List Char → Except PyErr AVal} {s : List Char} {h : Handler} {g : Groups}
    (hf : findParser plainTable s = some (h, g)) : parseCondItem read s = callHandler read h g := by
  rw [← condTable_eq] at hf
  unfold parseCondItem
  generalize condTable = t at hf ⊢
  rw [hf]

/-- The unknown parts of a phrase: at most three. -/
def parts (a b c : Txt) : Nat → Txt
  | 0 => a
  | 1 => b
  | _ => c

/-! ### the parts of shapes -/

def whoShape : Bool → Shape
  | false => []
  | true => chars c!"task '" ++ [.var 0 .plain] ++ chars c!"' "

/-- The kinds of restrictions. -/
inductive PK where | whole | starting | between | after | before | on
  deriving DecidableEq

def pks : List PK := [.whole, .starting, .between, .after, .before, .on]

def PK.shape : PK → Shape
  | .whole => []
  | .starting => chars c!" starting " ++ [.var 1 .plain]
  | .between => chars c!" between " ++ [.var 1 .plain] ++ chars c!" and " ++ [.var 2 .noAnd]
  | .after => chars c!" after " ++ [.var 1 .plain]
  | .before => chars c!" before " ++ [.var 1 .plain]
  | .on => chars c!" on " ++ [.var 1 .plain]

def kindOf : Part → PK
  | .whole => .whole
  | .starting _ => .starting
  | .between _ _ => .between
  | .after _ => .after
  | .before _ => .before
  | .on _ => .on

def arg1 : Part → Txt
  | .whole => []
  | .starting a => a
  | .between a _ => a
  | .after a => a
  | .before b => b
  | .on a => a

def arg2 : Part → Txt
  | .between _ b => b
  | _ => []

theorem inst_whoShape (task : Option Txt) (b c : Txt) :
    inst (parts (task.getD []) b c) (whoShape task.isSome) = whoText task := by
  cases task with
  | none => rfl
  | some t => simp [whoShape, whoText, inst_append, inst_chars', inst, parts]

theorem good_whoShape {task : Option Txt} (h : WhoProper task) (b c : Txt) :
    Good (parts (task.getD []) b c) (whoShape task.isSome) := by
  cases task with
  | none => exact good_nil
  | some t =>
    simp only [whoShape, Option.isSome_some, good_append, good_var]
    exact ⟨⟨good_chars _, holds_plain h⟩, good_chars _⟩

theorem inst_part (a : Txt) (w : Part) : inst (parts a (arg1 w) (arg2 w)) (kindOf w).shape = w.text := by
  cases w <;> simp [PK.shape, kindOf, Part.text, inst_append, inst_chars', inst, parts, arg1, arg2]

theorem good_part (a : Txt) {w : Part} (h : w.Proper) : Good (parts a (arg1 w) (arg2 w)) (kindOf w).shape := by
  cases w with
  | whole => exact good_nil
  | starting a => simp only [kindOf, PK.shape, good_append, good_var]; exact ⟨good_chars _, holds_plain h⟩
  | between a b =>
    simp only [kindOf, PK.shape, good_append, good_var]
    exact ⟨⟨⟨good_chars _, holds_plain h.1⟩, good_chars _⟩, holds_noAnd h.2⟩
  | after a => simp only [kindOf, PK.shape, good_append, good_var]; exact ⟨good_chars _, holds_plain h⟩
  | before a => simp only [kindOf, PK.shape, good_append, good_var]; exact ⟨good_chars _, holds_plain h⟩
  | on a => simp only [kindOf, PK.shape, good_append, good_var]; exact ⟨good_chars _, holds_plain h⟩

/-! ### what is found in the table for each shape -/

def verbs : List Verb := [.failed, .succeeded, .finished, .terminated, .inacted, .started]

def cycles5 : List Scope := [.minute, .hour, .day, .week, .month]

def whoGroup : Bool → List (String × Shape)
  | false => []
  | true => [("task", [.var 0 .plain])]

def PK.spanGroups : PK → List (String × Shape)
  | .whole => []
  | .starting => [("span_type", chars c!"starting"), ("start", [.var 1 .plain])]
  | .between => [("span_type", chars c!"between"), ("start", [.var 1 .plain]), ("end", [.var 2 .noAnd])]
  | .after => [("span_type", chars c!"after"), ("start", [.var 1 .plain])]
  | .before => [("span_type", chars c!"before"), ("end", [.var 1 .plain])]
  | .on => [("span_type", chars c!"on"), ("start", [.var 1 .plain])]

def hasShape (b : Bool) (v : Verb) : Shape := whoShape b ++ chars c!"has " ++ chars (verbText v)

theorem find_has_all : ([false, true].all fun b => verbs.all fun v =>
    decide (symFind plainTable (hasShape b v) = some (.status v, whoGroup b))) = true := by decide +kernel

def hasInShape (b : Bool) (v : Verb) (sc : Scope) (k : PK) : Shape :=
  whoShape b ++ chars c!"has " ++ chars (verbText v) ++ chars c!" " ++ chars (thisText sc) ++ k.shape

theorem find_hasIn_all : ([false, true].all fun b => verbs.all fun v => cycles5.all fun sc => pks.all fun k =>
    decide (symFind plainTable (hasInShape b v sc k) =
      some (.statusIn v false, whoGroup b ++ ("type_", chars (thisText sc)) :: k.spanGroups))) = true := by
  decide +kernel

def hasPastShape (b : Bool) (v : Verb) (inn : Bool) : Shape :=
  whoShape b ++ chars c!"has " ++ chars (verbText v) ++ chars (if inn then c!" in past " else c!" past ") ++
    [.var 1 .plain]

theorem find_hasPast_all : ([false, true].all fun b => verbs.all fun v => [false, true].all fun inn =>
    decide (symFind plainTable (hasPastShape b v inn) =
      some (.statusIn v true, whoGroup b ++ [("past", [.var 1 .plain])]))) = true := by decide +kernel

def PK.times : PK → List (String × Shape)
  | .whole => []
  | .starting => [("start", [.var 1 .plain])]
  | .between => [("start", [.var 1 .plain]), ("end", [.var 2 .noAnd])]
  | .after => [("start", [.var 1 .plain])]
  | .before => [("end", [.var 1 .plain])]
  | .on => [("start", [.var 1 .plain])]

/-- The function registered for `time of …`. -/
def PK.fn : PK → PeriodFn
  | .before => .before
  | .after => .after
  | .on => .on
  | _ => .between

def timeOfShape (sc : Scope) (k : PK) : Shape := chars c!"time of " ++ chars (unitWord sc) ++ k.shape

def timeOfCases : List (Scope × PK) :=
  (cycles5.flatMap fun sc => [(sc, .between), (sc, .after), (sc, .before)]) ++ [(.week, .on), (.month, .on)]

theorem find_timeOf_all : (timeOfCases.all fun c =>
    decide (symFind plainTable (timeOfShape c.1 c.2) =
      some (.isPeriod c.2.fn, ("type_", chars (unitWord c.1)) :: c.2.times))) = true := by decide +kernel

def PK.execHandler (sc : Scope) : PK → Handler
  | .whole => .wrapper sc
  | .starting => .wrapped sc .starting
  | .between => .wrapped sc .between
  | .after => .wrapped sc .after
  | .before => .wrapped sc .before
  | .on => .wrapped sc .on

def PK.execTimes : PK → List (String × Shape)
  | .on => [("span", [.var 1 .plain])]
  | k => k.times

def execShape (sc : Scope) (k : PK) : Shape := chars (cycleText sc) ++ k.shape

theorem find_exec_all : ((.second :: cycles5).all fun sc => pks.all fun k =>
    decide (symFind plainTable (execShape sc k) = some (k.execHandler sc, k.execTimes))) = true := by decide +kernel

/-- One unknown text between two known ones. -/
def around (a : Txt) (k : Kind) (b : Txt) : Shape := chars a ++ [.var 0 k] ++ chars b

theorem find_every : symFind plainTable (around c!"every " .plain []) = some (.every, [("past", [.var 0 .plain])]) := by
  decide +kernel

theorem find_cron : symFind plainTable (around c!"cron " .plain []) = some (.cron, [("__expr", [.var 0 .plain])]) := by
  decide +kernel

theorem find_running : ([false, true].all fun b =>
    decide (symFind plainTable (around (if b then c!"while task '" else c!"task '") .plain c!"' is running") =
      some (.running, [("task", [.var 0 .plain])]))) = true := by decide +kernel

def outcomes : List (DepKind × Bool) :=
  [(.success, false), (.success, true), (.failure, false), (.failure, true), (.finish, false), (.finish, true)]

theorem find_afterTask : (outcomes.all fun o =>
    decide (symFind plainTable (around c!"after task '" .plain (c!"'" ++ outcomeText o.1 o.2)) =
      some (.depend o.1, [("depend_task", [.var 0 .plain])]))) = true := by decide +kernel

theorem find_afterTasks : ([false, true].all fun b => outcomes.all fun o =>
    decide (symFind plainTable (around (if b then c!"after any tasks '" else c!"after tasks '") .wild
        (c!"'" ++ outcomeText o.1 o.2)) =
      some (.dependMulti o.1 b, [("depend_tasks", [.var 0 .wild])]))) = true := by decide +kernel

theorem find_env : symFind plainTable (around c!"env '" .plain c!"'") = some (.env, [("env", [.var 0 .plain])]) := by
  decide +kernel

theorem find_paramExists : symFind plainTable (around c!"param '" .plain c!"' exists") =
    some (.paramList, [("l", [.var 0 .plain])]) := by decide +kernel

theorem find_paramIs : symFind plainTable
    (around c!"param '" .plain [] ++ chars c!"' is '" ++ [.var 1 .plain] ++ chars c!"'") =
    some (.paramKeyValue, [("key", [.var 0 .plain]), ("value", [.var 1 .plain])]) := by decide +kernel

theorem find_schedOver : symFind plainTable (around c!"scheduler has run over " .plain []) =
    some (.schedStarted true, [("past", [.var 0 .plain])]) := by decide +kernel

theorem find_schedAgo : symFind plainTable (around c!"scheduler started " .plain c!" ago") =
    some (.schedStarted false, [("past", [.var 0 .plain])]) := by decide +kernel

theorem find_schedMore : symFind plainTable (around c!"scheduler has more than " .num c!" cycles") =
    some (.cycles, [("__gt__", [.var 0 .num])]) := by decide +kernel

theorem find_schedLess : symFind plainTable (around c!"scheduler has less than " .num c!" cycles") =
    some (.cycles, [("__lt__", [.var 0 .num])]) := by decide +kernel

theorem find_schedCycles : symFind plainTable (around c!"scheduler has " .num c!" cycles") =
    some (.cycles, [("__eq__", [.var 0 .num])]) := by decide +kernel

theorem find_const : ([false, true].all fun b => [false, true].all fun long =>
    decide (symFind plainTable (chars ((if long then c!"always " else []) ++ (if b then c!"true" else c!"false"))) =
      some (.always b, []))) = true := by decide +kernel

end Rocketry.Phrases
