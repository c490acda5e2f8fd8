import Verif.Spec.DefaultNameSpec
import Verif.Props.NamesProps

/-!
# C89: the default names of tasks tell what they run
-/

namespace Rocketry.Props
open Rocketry Rocketry.Session Rocketry.Spec

/-! ### texts -/

theorem joinWith_splitChar (sep : Char) : ∀ l : List Char, joinWith [sep] (splitChar sep l) = l
  | [] => rfl
  | c :: l => by
    have ih := joinWith_splitChar sep l
    have hne : splitChar sep l ≠ [] := by
      cases l with
      | nil => simp [splitChar]
      | cons d l => simp only [splitChar]; split <;> (try split) <;> simp
    simp only [splitChar]
    cases h : splitChar sep l with
    | nil => exact absurd h hne
    | cons w ws =>
      rw [h] at ih
      by_cases hc : c = sep
      · rw [if_pos hc, hc]; simp only [joinWith, List.nil_append, List.singleton_append]; rw [ih]
      · rw [if_neg hc]
        cases ws with
        | nil => simp only [joinWith] at ih ⊢; rw [ih]
        | cons v ws => simp only [joinWith, List.cons_append] at ih ⊢; rw [ih]

theorem splitChar_inj {sep : Char} {a b : List Char} (h : splitChar sep a = splitChar sep b) : a = b := by
  rw [← joinWith_splitChar sep a, h, joinWith_splitChar]

theorem splitDot_ne_nil (sep : Char) (l : List Char) : splitChar sep l ≠ [] := by
  cases l with
  | nil => simp [splitChar]
  | cons d l => simp only [splitChar]; split <;> (try split) <;> simp

/-- Two texts with a colon each, before which there is no other. -/
theorem colon_inj {a a' b b' : List Char} (ha : ':' ∉ a) (ha' : ':' ∉ a') :
    a ++ ':' :: b = a' ++ ':' :: b' ↔ a = a' ∧ b = b' := by
  constructor
  · intro h
    induction a generalizing a' with
    | nil => cases a' with
      | nil => simpa using h
      | cons c a' => simp only [List.nil_append, List.cons_append, List.cons.injEq] at h; exact absurd (List.mem_cons.2 (.inl h.1)) ha'
    | cons c a ih => cases a' with
      | nil => simp only [List.nil_append, List.cons_append, List.cons.injEq] at h; exact absurd (List.mem_cons.2 (.inl h.1.symm)) ha
      | cons c' a' =>
        simp only [List.cons_append, List.cons.injEq] at h
        have := ih (fun x => ha (by simp [x])) (a' := a') (fun x => ha' (by simp [x])) h.2
        exact ⟨by rw [h.1, this.1], this.2⟩
  · rintro ⟨rfl, rfl⟩; rfl

theorem removePy_word : ∀ {w : List Char} (r : List Char), '.' ∉ w → removePy (w ++ r) = w ++ removePy r
  | [], _, _ => rfl
  | c :: w, r, h => by
    simp only [List.mem_cons, not_or] at h
    have hc : c ≠ '.' := Ne.symm h.1
    rw [List.cons_append, removePy, removePy_word r h.2, List.cons_append]
    intro l he
    simp_all

theorem removePy_dot {l : List Char} (h : ¬ c!"py" <+: l) : removePy ('.' :: l) = '.' :: removePy l := by
  rw [removePy]
  intro l' _ he
  exact h ⟨l', he.symm⟩

theorem not_py {v : List Char} (r : List Char) (h : ¬ c!"py" <+: v) : ¬ c!"py" <+: v ++ '.' :: r := by
  rintro ⟨t, ht⟩
  match v, h, ht with
  | [], _, ht => simp at ht
  | [c], _, ht => simp at ht
  | c :: d :: v, h, ht =>
    simp only [List.cons_append, List.cons.injEq, List.nil_append] at ht
    exact h ⟨v, by rw [← ht.1, ← ht.2.1]; rfl⟩

theorem removePy_join : ∀ (ws : List (List Char)), ws ≠ [] → (∀ w ∈ ws, '.' ∉ w) → (∀ w ∈ ws.tail, ¬ c!"py" <+: w) →
    removePy (joinWith ['.'] ws ++ c!".py") = joinWith ['.'] ws
  | [], h, _, _ => absurd rfl h
  | [w], _, h, _ => by
    simp only [joinWith]
    rw [removePy_word _ (h w (by simp))]; simp [removePy]
  | w :: v :: ws, _, h, hp => by
    have ih := removePy_join (v :: ws) (by simp) (fun x hx => h x (by simp [hx])) (fun x hx => hp x (by
      simp only [List.tail_cons] at hx ⊢; simp [hx]))
    have he : joinWith ['.'] (w :: v :: ws) = w ++ '.' :: joinWith ['.'] (v :: ws) := by simp [joinWith]
    rw [he, List.append_assoc, List.cons_append, removePy_word _ (h w (by simp)), removePy_dot, ih]
    cases ws with
    | nil => simp only [joinWith]; exact not_py _ (hp v (by simp))
    | cons u ws => simp only [joinWith, List.append_assoc, List.singleton_append, List.cons_append]; exact not_py _ (hp v (by simp))

theorem join_last (sep e : List Char) : ∀ (ds : List (List Char)) (s : List Char),
    joinWith sep (ds ++ [s ++ e]) = joinWith sep (ds ++ [s]) ++ e
  | [], s => rfl
  | [d], s => by simp [joinWith]
  | d :: d' :: ds, s => by
    have := join_last sep e (d' :: ds) s
    simp only [List.cons_append, joinWith, List.append_assoc] at this ⊢
    rw [this]

theorem not_mem_join {c d : Char} (hcd : c ≠ d) : ∀ (ws : List (List Char)), (∀ w ∈ ws, c ∉ w) → c ∉ joinWith [d] ws
  | [], _ => by simp [joinWith]
  | [w], h => by simpa [joinWith] using h w (by simp)
  | w :: v :: ws, h => by
    have := not_mem_join hcd (v :: ws) (fun x hx => h x (by simp [hx]))
    simp only [joinWith, List.mem_append, not_or, List.mem_singleton]
    exact ⟨⟨h w (by simp), hcd⟩, this⟩

/-! ### the names -/

/-- C89 (a part): the default name of a function of a plain file is written as for functions of modules. -/
theorem C89_path_partial (dirs : List (List Char)) (stem f : List Char) (h : PlainFile dirs stem) :
    defaultName (.path (dirs ++ [stem ++ c!".py"]) (some f)) = .ok (joinWith ['.'] (dirs ++ [stem]) ++ ':' :: f) := by
  simp only [defaultName, Option.getD_some]
  rw [join_last, removePy_join _ (by simp) (fun w hw => (h.chars w hw).1) h.noPy]

example : defaultName (.path [c!"app", c!"jobs", c!"daily.py"] (some c!"run")) = .ok c!"app.jobs.daily:run" :=
  C89_path_partial [c!"app", c!"jobs"] c!"daily" c!"run" ⟨by decide, by decide⟩

/-- The module and the function that a telling source is named after: `none` is the program itself. -/
theorem telling_cases {x : Source} (h : Telling x) :
    (∃ f, ':' ∉ f ∧ defaultName x = .ok f ∧ target x = some ([], f)) ∨
    (∃ m f, ':' ∉ m ∧ defaultName x = .ok (m ++ ':' :: f) ∧ target x = some (splitChar '.' m, f)) := by
  cases h with
  | @func m f hm hf =>
    by_cases h : m = c!"__main__"
    · left; refine ⟨f, hf, ?_, ?_⟩
      · simp only [defaultName, if_pos h]
      · simp only [target, if_pos h]
    · right; refine ⟨m, f, hm, ?_, ?_⟩
      · simp only [defaultName, if_neg h]; rfl
      · simp only [target, if_neg h]
  | @path dirs stem f hp hf =>
    right
    refine ⟨joinWith ['.'] (dirs ++ [stem]), f, not_mem_join (by decide) _ (fun w hw => (hp.chars w hw).2),
      C89_path_partial dirs stem f hp, ?_⟩
    rw [splitChar_join (by simp) (fun w hw => (hp.chars w hw).1)]
    simp [target]

/-- C89 (a part): among functions given to `FuncTask` and functions named in plain files, the default names of two tasks
are the same exactly if they are the same function of the same module. -/
theorem C89_same_partial (x y : Source) (hx : Telling x) (hy : Telling y) :
    defaultName x = defaultName y ↔ target x = target y := by
  rcases telling_cases hx with ⟨f, hf, h1, h2⟩ | ⟨m, f, hm, h1, h2⟩ <;>
    rcases telling_cases hy with ⟨g, hg, h3, h4⟩ | ⟨n, g, hn, h3, h4⟩ <;> rw [h1, h2, h3, h4]
  · simp
  · simp only [Except.ok.injEq, Option.some.injEq, Prod.mk.injEq]
    constructor
    · intro h; exact absurd (by simp [h]) hf
    · intro h; exact absurd h.1.symm (splitDot_ne_nil _ _)
  · simp only [Except.ok.injEq, Option.some.injEq, Prod.mk.injEq]
    constructor
    · intro h; exact absurd (by simp [← h]) hg
    · intro h; exact absurd h.1 (splitDot_ne_nil _ _)
  · simp only [Except.ok.injEq, Option.some.injEq, Prod.mk.injEq]
    rw [colon_inj hm hn]
    constructor
    · rintro ⟨rfl, rfl⟩; exact ⟨rfl, rfl⟩
    · rintro ⟨h, rfl⟩; exact ⟨splitChar_inj h, rfl⟩

example : defaultName (.func c!"app.jobs" c!"run" false) ≠ defaultName (.path [c!"app", c!"tools.py"] (some c!"run")) := by
  exact fun h => absurd ((C89_same_partial (.func c!"app.jobs" c!"run" false) _ (.func (by decide) (by decide))
    (.path (dirs := [c!"app"]) (stem := c!"tools") ⟨by decide, by decide⟩ (by decide))).1 h) (by decide)

theorem makeAll_spec : ∀ (l : List Source) (s : Sess), (∀ x ∈ l, Telling x) → (l.map target).Nodup →
    (∀ x ∈ l, ∀ n, defaultName x = .ok n → ¬ Taken s (String.ofList n)) →
    (s.makeAll l).2 = l.map (fun _ => false) ∧
    s.tasks <:+ (s.makeAll l).1.tasks ∧ (s.makeAll l).1.tasks.length = s.tasks.length + l.length ∧
    (∀ m, (∀ x ∈ l, defaultName x ≠ .ok m.toList) → (s.makeAll l).1.get m = s.get m) ∧
    ∀ x ∈ l, ∃ n, defaultName x = .ok n ∧ ∃ o ∈ (s.makeAll l).1.tasks, o ∉ s.tasks ∧ o.name = String.ofList n ∧
      (s.makeAll l).1.get (String.ofList n) = some o
  | [], s, _, _, _ => ⟨rfl, List.suffix_refl _, rfl, fun _ _ => rfl, by simp⟩
  | x :: l, s, ht, hn, hf => by
    obtain ⟨n, hxn⟩ : ∃ n, defaultName x = .ok n := by
      rcases telling_cases (ht x (by simp)) with ⟨f, _, h, _⟩ | ⟨m, f, _, h, _⟩ <;> exact ⟨_, h⟩
    have hfree := hf x (by simp) n hxn
    have hm : s.make x = s.create (String.ofList n) none := by simp only [Sess.make, hxn]
    obtain ⟨h1, h2⟩ := C47_free s (String.ofList n) none hfree
    rw [← hm] at h1 h2
    have hn' := List.nodup_cons.1 hn
    have hother : ∀ y ∈ l, ∀ k, defaultName y = .ok k → String.ofList k ≠ String.ofList n := by
      intro y hy k hk he
      have he' : k = n := by simpa using congrArg String.toList he
      have := (C89_same_partial x y (ht x (by simp)) (ht y (by simp [hy]))).1 (by rw [hxn, hk, he'])
      exact hn'.1 (List.mem_map.2 ⟨y, hy, this.symm⟩)
    obtain ⟨g1, g2, g3, g5, g4⟩ := makeAll_spec l (s.make x).1 (fun y hy => ht y (by simp [hy])) hn'.2 (by
      intro y hy k hk ⟨o, ho, hok⟩
      rw [h2] at ho
      rcases List.mem_cons.1 ho with rfl | ho
      · exact hother y hy k hk hok.symm
      · exact hf y (by simp [hy]) k hk ⟨o, ho, hok⟩)
    simp only [Sess.makeAll]
    rw [h2] at g2 g3 g4
    refine ⟨by simp [h1, g1], (List.suffix_cons _ _).trans g2, by simp only [g3, List.length_cons]; omega, ?_, ?_⟩
    · intro m hm'
      rw [g5 m (fun y hy => hm' y (by simp [hy]))]
      unfold Sess.get
      rw [h2, List.find?_cons_of_neg]
      simp only [decide_eq_true_eq]
      rintro rfl
      exact hm' x (by simp) (by simpa using hxn)
    intro y hy
    rcases List.mem_cons.1 hy with rfl | hy
    · refine ⟨n, hxn, ⟨s.next, String.ofList n⟩, g2.subset (by simp), fun h => hfree ⟨_, h, rfl⟩, rfl, ?_⟩
      rw [g5 _ (fun y hy he => hother y hy _ he (by simp))]
      unfold Sess.get
      rw [h2, List.find?_cons_of_pos]; simp
    · obtain ⟨k, hk, o, ho, h3, h4, h5⟩ := g4 y hy
      exact ⟨k, hk, o, ho, fun h => h3 (List.mem_cons_of_mem _ h), h4, h5⟩

/-- C89 (a part): tasks made without names for different functions (telling sources) whose names are not taken are all
registered, in addition to the tasks that were there, each under its default name, whatever the policy. -/
theorem C89_registered_partial (l : List Source) (s : Sess) (ht : ∀ x ∈ l, Telling x) (hn : (l.map target).Nodup)
    (hf : ∀ x ∈ l, ∀ n, defaultName x = .ok n → ¬ Taken s (String.ofList n)) :
    (s.makeAll l).2 = l.map (fun _ => false) ∧
    s.tasks <:+ (s.makeAll l).1.tasks ∧ (s.makeAll l).1.tasks.length = s.tasks.length + l.length ∧
    ∀ x ∈ l, ∃ n, defaultName x = .ok n ∧ ∃ o ∈ (s.makeAll l).1.tasks, o ∉ s.tasks ∧ o.name = String.ofList n ∧
      (s.makeAll l).1.get (String.ofList n) = some o :=
  have h := makeAll_spec l s ht hn hf
  ⟨h.1, h.2.1, h.2.2.1, h.2.2.2.2⟩

/-- Three functions, two of the same name. -/
def threeSources : List Source :=
  [.func c!"app.jobs" c!"run" false, .path [c!"app", c!"tools.py"] (some c!"run"), .func c!"__main__" c!"run" false]

example : ((Sess.init .raise).makeAll threeSources).2 = [false, false, false] ∧
    ((Sess.init .raise).makeAll threeSources).1.tasks.length = 3 := by
  have h := C89_registered_partial threeSources (Sess.init .raise) (by
    intro x hx
    simp only [threeSources, List.mem_cons, List.not_mem_nil, or_false] at hx
    rcases hx with rfl | rfl | rfl
    · exact .func (by decide) (by decide)
    · exact .path (dirs := [c!"app"]) (stem := c!"tools") ⟨by decide, by decide⟩ (by decide)
    · exact .func (by decide) (by decide)) (by decide) (by rintro x _ n _ ⟨o, ho, _⟩; simp [Sess.init] at ho)
  exact ⟨h.1, h.2.2.1⟩

/-- C89 (a part): for functions decorated by the application the name is the one of the function; for commands given as a
text it is the text. -/
theorem C89_decorated (m m' f f' : List Char) :
    defaultName (.func m f true) = defaultName (.func m' f' true) ↔ f = f' := by
  simp [defaultName]

theorem C89_command (t t' : List Char) : defaultName (.command t) = defaultName (.command t') ↔ t = t' := by
  simp [defaultName]

/-! ### what does not hold -/

/-- C89 does not hold as stated: two functions of the same name in different modules, decorated by the application (`@app.task()`), have the
same default name; the second decoration raises an exception. -/
theorem C89_decorated_violated :
    target (.func c!"app.load" c!"main" true) ≠ target (.func c!"app.store" c!"main" true) ∧
    ((Sess.init .raise).makeAll [.func c!"app.load" c!"main" true, .func c!"app.store" c!"main" true]).2 = [false, true] := by
  decide +kernel

/-- C89 does not hold as stated: a task of a file without `func_name` runs the function `main` but is called `None`. -/
theorem C89_none_violated : pathFunc none = c!"main" ∧
    defaultName (.path [c!"jobs.py"] none) = .ok c!"jobs:None" ∧
    defaultName (.path [c!"jobs.py"] (some c!"main")) = .ok c!"jobs:main" := by
  decide

/-- C89 does not hold as stated: ".py" is removed wherever it occurs, also where a directory is joined with a name that
begins with "py"; the tasks of two different files get the same name and the second is refused. -/
theorem C89_py_violated :
    defaultName (.path [c!"src", c!"pyutils.py"] (some c!"run")) = .ok c!"srcutils:run" ∧
    target (.path [c!"src", c!"pyutils.py"] (some c!"run")) ≠ target (.path [c!"srcutils.py"] (some c!"run")) ∧
    ((Sess.init .raise).makeAll [.path [c!"src", c!"pyutils.py"] (some c!"run"),
      .path [c!"srcutils.py"] (some c!"run")]).2 = [false, true] := by
  decide +kernel

/-- C89 does not hold as stated: two different commands given as lists of words get the same name. -/
theorem C89_words_violated :
    defaultName (.words [c!"rm", c!"old file"]) = defaultName (.words [c!"rm", c!"old", c!"file"]) := by
  decide

end Rocketry.Props
