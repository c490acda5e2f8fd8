import Verif.Spec.ArgsSpec
import Verif.Base.ExceptEq

/-!
# Properties C49 and C50: parameters and arguments
-/

namespace Rocketry.Props
open Rocketry.Args Rocketry.Spec

variable {V : Type}

/-! ### C50: pipes -/

theorem parts_single {a : Arg V} (h : Single a) : parts a = [a] := by
  cases a <;> first | rfl | exact absurd rfl (h _)

theorem build_parts : ∀ (t : Chain V), (∀ a ∈ t.args, Single a) → parts t.build = t.args
  | .one a, h => parts_single (h a (List.mem_cons_self ..))
  | .join l r, h => by
    show parts l.build ++ parts r.build = l.args ++ r.args
    rw [build_parts l (fun a ha => h a (List.mem_append_left _ ha)),
      build_parts r (fun a ha => h a (List.mem_append_right _ ha))]

theorem firstValue_skip (f : Arg V → Except Err V) : ∀ (pre rest : List (Arg V)), (∀ x ∈ pre, f x = .error .key) →
    firstValue f (pre ++ rest) = firstValue f rest
  | [], _, _ => rfl
  | a :: pre, rest, h => by
    show firstValue f (a :: (pre ++ rest)) = _
    conv => lhs; unfold firstValue
    rw [h a (List.mem_cons_self ..)]
    exact firstValue_skip f pre rest (fun x hx => h x (List.mem_cons_of_mem _ hx))

/-- **C50**, pipes, partial: a chain of arguments, with any brackets, has the value of the first argument that has one,
if those before it are not there in the sense of raising KeyError; and a KeyError if none is there.  Missing: arguments
that are not there and raise something else (`C50_pipe_violated`). -/
theorem C50_pipe_partial (n : Nat) (c : Ctx V) (l r : Chain V) (hs : ∀ a ∈ (Chain.join l r).args, Single a) :
    (∀ pre a post v, (Chain.join l r).args = pre ++ a :: post → (∀ x ∈ pre, getValue n c x = .error .key) →
      getValue n c a = .ok v → getValue (n + 1) c (Chain.join l r).build = .ok v) ∧
    ((∀ x ∈ (Chain.join l r).args, getValue n c x = .error .key) →
      getValue (n + 1) c (Chain.join l r).build = .error .key) := by
  have hb : (Chain.join l r).build = .pipe (Chain.join l r).args := by
    show Arg.pipe _ = _
    rw [build_parts l (fun a ha => hs a (List.mem_append_left _ ha)),
      build_parts r (fun a ha => hs a (List.mem_append_right _ ha))]
    rfl
  have hv : getValue (n + 1) c (Chain.join l r).build = firstValue (getValue n c) (Chain.join l r).args := by
    rw [hb]; rfl
  refine ⟨fun pre a post v he hpre ha => ?_, fun hall => ?_⟩
  · rw [hv, he, firstValue_skip _ _ _ hpre]
    unfold firstValue
    rw [ha]
  · rw [hv]
    have := firstValue_skip (getValue n c) _ [] hall
    rw [List.append_nil] at this
    rw [this]
    rfl

/-- Surroundings for examples: a session with a parameter, a task and no return value. -/
def argCtx : Ctx String where
  task := true
  session := true
  params := [("x", .plain "5"), ("secret", .arg (.priv "psst")), ("y", .arg (.sess "secret" none))]
  tasks := ["a"]
  returns := []
  environ := [("HOME", "/root")]
  argv := ["prog", "--flag"]
  txt := id
  func := fun _ _ _ => .ok "f"
  self := "task"

example : getValue 9 argCtx (Chain.build (.join (.join (.one (.env "NO" none)) (.one (.ret "a" none)))
    (.join (.one (.sess "y" none)) (.one (.simple "z"))))) = .ok "psst" := by decide +kernel

/-- **C50** fails for arguments that are not there but raise another exception: the return value of a task that does
not exist (ValueError) and a command line option without a value (IndexError). -/
theorem C50_pipe_violated : getValue 9 argCtx (shift (.ret "b" none) (.simple "z")) = .error .value ∧
    getValue 9 argCtx (shift (.cli "--flag" (some "d")) (.simple "z")) = .error .index := by decide +kernel

/-! ### C59: defaults -/

/-- **C59**, partial: with a session at hand, `Arg`, `Return` (of a task of the session) and `EnvArg` give the stored value if there
is one; if there is none, the default, or a KeyError without default.  `CliArg` gives the word that follows the first
occurrence of its name; the default (or a KeyError) only if the name does not occur.  A failure of the argument stored under the key of an `Arg` that is not
a KeyError is passed on.  Missing: a KeyError of the argument stored under the key, `C59_default_violated`. -/
theorem C59_default_partial (n : Nat) (c : Ctx V) (hc : c.session = true) (key : String) (d : Option V) :
    (∀ v, Dict.find c.params key = some (.plain v) → getValue (n + 1) c (.sess key d) = .ok v) ∧
    (Dict.find c.params key = none →
      getValue (n + 1) c (.sess key (none : Option V)) = .error .key ∧ ∀ v, getValue (n + 1) c (.sess key (some v)) = .ok v) ∧
    (∀ a v, Dict.find c.params key = some (.arg a) → getValue n c a = .ok v → getValue (n + 1) c (.sess key d) = .ok v) ∧
    (∀ a e, Dict.find c.params key = some (.arg a) → getValue n c a = .error e → e ≠ .key →
      getValue (n + 1) c (.sess key d) = .error e) ∧
    (key ∈ c.tasks →
      (∀ v, Dict.find c.returns key = some v → getValue (n + 1) c (.ret key d) = .ok v) ∧
      (Dict.find c.returns key = none →
        getValue (n + 1) c (.ret key (none : Option V)) = .error .key ∧ ∀ v, getValue (n + 1) c (.ret key (some v)) = .ok v)) ∧
    (∀ v, Dict.find c.environ key = some v → getValue (n + 1) c (.env key d) = .ok v) ∧
    (Dict.find c.environ key = none →
      getValue (n + 1) c (.env key (none : Option V)) = .error .key ∧ ∀ v, getValue (n + 1) c (.env key (some v)) = .ok v) ∧
    (∀ pre v post, c.argv = pre ++ key :: v :: post → key ∉ pre → getValue (n + 1) c (.cli key d) = .ok (c.txt v)) ∧
    (key ∉ c.argv →
      getValue (n + 1) c (.cli key (none : Option V)) = .error .key ∧ ∀ v, getValue (n + 1) c (.cli key (some v)) = .ok v) := by
  have hcs : { c with session := true } = c := by rw [← hc]
  refine ⟨?_, ?_, ?_, ?_, ?_, ?_, ?_, ?_, ?_⟩
  · intro v h; cases d <;> simp [getValue, hc, h, orDefault]
  · intro h; simp [getValue, hc, h, orDefault]
  · intro a v h hv; cases d <;> simp [getValue, hc, h, hcs, hv, orDefault]
  · intro a e h hv he
    cases d <;> simp only [getValue, hc, h, hcs, hv, Bool.true_or, if_true] <;> cases e <;>
      first | rfl | exact absurd rfl he
  · intro ht
    refine ⟨?_, ?_⟩
    · intro v h; cases d <;> simp [getValue, hc, h, item, orDefault, ht]
    · intro h; simp [getValue, hc, h, item, orDefault, ht]
  · intro v h; cases d <;> simp [getValue, h, item, orDefault]
  · intro h; simp [getValue, h, item, orDefault]
  · intro pre v post h hk
    simp only [getValue, h]
    clear h
    induction pre with
    | nil => simp [cliValue]
    | cons x pre ih =>
      have h1 : x ≠ key := fun h => hk (by simp [h])
      have h2 : key ∉ pre := fun h => hk (by simp [h])
      rw [List.cons_append, cliValue.eq_def]
      simp only [h1, if_false]
      exact ih h2
  · intro h
    simp only [getValue]
    clear hcs
    generalize c.argv = l at *
    induction l with
    | nil => simp [cliValue]
    | cons x l ih =>
      have h1 : x ≠ key := fun e => h (by simp [e])
      have h2 : key ∉ l := fun e => h (by simp [e])
      have hx : ∀ d, cliValue c.txt key d (x :: l) = cliValue c.txt key d l := by
        intro d
        rw [cliValue.eq_def]
        simp only [h1, if_false]
      simp only [hx]
      exact ih h2

example : argCtx.session = true ∧ getValue 3 argCtx (.sess "y" (some "d")) = .ok "psst" ∧
    getValue 3 argCtx (.sess "z" (some "d")) = .ok "d" ∧ "a" ∈ argCtx.tasks ∧
    getValue 3 argCtx (.ret "a" (some "d")) = .ok "d" ∧ getValue 3 argCtx (.env "HOME" (some "d")) = .ok "/root" ∧
    getValue 3 argCtx (.cli "prog" none) = .ok "--flag" := by decide +kernel

/-- **C59** fails for a session parameter that is there but whose function raises a KeyError: the default is used as if
there were no such parameter. -/
theorem C59_default_violated :
    let c : Ctx String := { argCtx with params := [("x", .arg (.func 0 none))], func := fun _ _ _ => .error .key }
    (Dict.find c.params "x").isSome = true ∧ getValue 9 c (.sess "x" (some "d")) = .ok "d" := by decide +kernel

/-! ### C50: secrets -/

theorem same_find : ∀ {p q : Params V}, SameParams p q → ∀ k,
    (Dict.find p k = none ∧ Dict.find q k = none) ∨
    ∃ a b, Dict.find p k = some a ∧ Dict.find q k = some b ∧ SameVal a b
  | _, _, .nil, _ => .inl ⟨rfl, rfl⟩
  | _, _, .cons j (a := a) (b := b) h hs, k => by
    rw [Dict.find_cons, Dict.find_cons]
    by_cases hk : j = k
    · rw [if_pos hk, if_pos hk]; exact .inr ⟨a, b, rfl, rfl, h⟩
    · rw [if_neg hk, if_neg hk]; exact same_find hs k

theorem firstValue_same {f g : Arg V → Except Err V} : ∀ {l m : List (Arg V)},
    (∀ {a b : Arg V}, SameArg a b → f a = g b) → SameArgs l m → firstValue f l = firstValue g m
  | _, _, _, .nil => rfl
  | _, _, h, .cons (a := a) (b := b) ha hs => by
    unfold firstValue
    rw [h ha]
    rcases g b with e | v
    · cases e <;> first | rfl | exact firstValue_same h hs
    · rfl

/-- Without a task no value depends on a secret. -/
theorem value_same : ∀ (n : Nat) {c d : Ctx V} {a b : Arg V}, SameCtx c d → c.task = false → SameArg a b →
    getValue n c a = getValue n d b
  | 0, _, _, _, _, _, _, _ => rfl
  | n + 1, c, d, a, b, hc, ht, hab => by
    obtain ⟨q, rfl, hp⟩ : ∃ q, d = { c with params := q } ∧ SameParams c.params q := ⟨d.params, hc.2, hc.1⟩
    have hcq : SameCtx c { c with params := q } := ⟨hp, rfl⟩
    have hcs : SameCtx { c with session := true } { c with session := true, params := q } := ⟨hp, rfl⟩
    have key : ∀ a, getValue (n + 1) c a = getValue (n + 1) { c with params := q } a := by
      intro a
      unfold getValue
      cases a with
      | sess key dflt =>
        simp only
        by_cases hb : (c.session || c.task) = true
        · rw [if_pos hb, if_pos hb]
          rcases same_find hp key with ⟨h1, h2⟩ | ⟨x, y, h1, h2, h3⟩
          · rw [h1, h2]
          · rw [h1, h2]
            cases h3 with
            | plain v => rfl
            | arg h3 => exact congrArg _ (value_same n hcs ht h3)
        · rw [if_neg hb, if_neg hb]
      | pipe l =>
        have hl : SameArgs l l := by
          induction l with
          | nil => exact .nil
          | cons x l ih => exact .cons (.refl x) ih
        exact firstValue_same (fun h => value_same n hcq ht h) hl
      | _ => rfl
    cases hab with
    | priv v w => unfold getValue; simp [ht]
    | pipe h => exact firstValue_same (fun h => value_same n hcq ht h) h
    | refl => exact key a

theorem bare_same {c d : Ctx V} (h : SameCtx c d) : SameCtx c.bare d.bare :=
  ⟨h.1, by unfold Ctx.bare; rw [h.2]⟩

/-- **C50**: when it is materialised for a task a `Private` argument has its value. -/
theorem C50_private_value (n : Nat) (c : Ctx V) (h : c.task = true) (v : V) :
    getValue (n + 1) c (.priv v) = .ok v := by
  unfold getValue; simp [h]

/-- **C50**: without a task nothing that can be read depends on secrets: values of arguments, items of parameters,
and the texts (`repr` and `str`) of arguments, pipes and parameters. -/
theorem C50_private_hidden (n : Nat) (c d : Ctx V) (hc : SameCtx c d) (a b : Arg V) (hab : SameArg a b)
    (rep str : V → String) (repText : String → String) (name : Nat → String) :
    (c.task = false → getValue n c a = getValue n d b) ∧
    argRepr n c rep repText name a = argRepr n d rep repText name b ∧
    argStr n c str repText a = argStr n d str repText b := by
  have hb := bare_same hc
  have hv : ∀ {x y : Arg V}, SameArg x y → getValue n c.bare x = getValue n d.bare y :=
    fun h => value_same n hb rfl h
  refine ⟨fun ht => value_same n hc ht hab, ?_, ?_⟩
  · cases hab with
    | priv v w => rfl
    | pipe h => unfold argRepr; simp only; rw [hv (.pipe h)]
    | refl => unfold argRepr; cases a <;> first | rfl | (simp only; rw [hv (.refl _)])
  · cases hab with
    | priv v w => rfl
    | pipe h => unfold argStr; simp only; rw [hv (.pipe h)]
    | refl => unfold argStr; cases a <;> first | rfl | (simp only; rw [hv (.refl _)])

theorem mapItems_same {β : Type} {f g : PVal V → Except Err β} (h : ∀ {a b}, SameVal a b → f a = g b) :
    ∀ {p q : Params V}, SameParams p q → mapItems f p = mapItems g q
  | _, _, .nil => rfl
  | _, _, .cons k (a := a) (b := b) hab hs => by
    unfold mapItems
    rw [h hab, mapItems_same h hs]

/-- **C50**, the same for parameters. -/
theorem C50_params_hidden (n : Nat) (c d : Ctx V) (hc : SameCtx c d) (p q : Params V) (hpq : SameParams p q)
    (rep : V → String) (repText : String → String) (name : Nat → String) (k : String) :
    getItem n c p k = getItem n d q k ∧ reprParams n c rep repText name p = reprParams n d rep repText name q := by
  have hv : ∀ {a b : PVal V}, SameVal a b → pvalue n c.bare a = pvalue n d.bare b := by
    intro a b h
    cases h with
    | plain v => rfl
    | arg h => exact value_same n (bare_same hc) rfl h
  constructor
  · unfold getItem item
    rcases same_find hpq k with ⟨h1, h2⟩ | ⟨x, y, h1, h2, h3⟩
    · rw [h1, h2]
    · rw [h1, h2]; exact hv h3
  · unfold reprParams
    refine congrArg _ (mapItems_same (fun {a b} h => ?_) hpq)
    cases h with
    | plain v => rfl
    | arg h => exact (C50_private_hidden n c d hc _ _ h rep rep repText name).2.1

example : SameArg (shift (.env "NO" none) (.priv "1")) (shift (.env "NO" none) (.priv "2")) ∧
    argRepr 9 argCtx id id (fun _ => "") (shift (.env "NO" none) (.priv "1")) = .ok "PipeArg(*****)" ∧
    getItem 9 argCtx argCtx.params "secret" = .ok "*****" :=
  ⟨.pipe (.cons (.refl _) (.cons (.priv _ _) .nil)), by decide +kernel, by decide +kernel⟩

/-! ### C49: materialisation -/

theorem mapItems_find {α β : Type} {f : α → Except Err β} : ∀ {d : Dict α} {e : Dict β}, mapItems f d = .ok e →
    Dict.keys e = Dict.keys d ∧ ∀ k, (∀ a, Dict.find d k = some a → ∃ b, f a = .ok b ∧ Dict.find e k = some b)
  | [], e, h => by
    obtain rfl : [] = e := by simpa [mapItems] using h
    exact ⟨rfl, fun k a ha => by simp [Dict.find] at ha⟩
  | (j, a) :: d, e, h => by
    unfold mapItems at h
    rcases hf : f a with er | b
    · rw [hf] at h; simp at h
    rw [hf] at h
    rcases hd : mapItems f d with er | e'
    · rw [hd] at h; simp at h
    rw [hd] at h
    obtain rfl : (j, b) :: e' = e := by simpa using h
    obtain ⟨h1, h2⟩ := mapItems_find hd
    refine ⟨by show j :: Dict.keys e' = j :: Dict.keys d; rw [h1], fun k x hx => ?_⟩
    rw [Dict.find_cons] at hx ⊢
    by_cases hk : j = k
    · rw [if_pos hk] at hx ⊢
      obtain rfl : a = x := by simpa using hx
      exact ⟨b, hf, rfl⟩
    · rw [if_neg hk] at hx ⊢
      exact h2 k x hx

theorem mapItems_ok {α β : Type} {f : α → Except Err β} : ∀ {d : Dict α}, (∀ x ∈ d, ∃ b, f x.2 = .ok b) →
    ∃ e, mapItems f d = .ok e
  | [], _ => ⟨[], rfl⟩
  | (j, a) :: d, h => by
    obtain ⟨b, hb⟩ := h (j, a) (List.mem_cons_self ..)
    obtain ⟨e, he⟩ := mapItems_ok (f := f) (d := d) (fun x hx => h x (List.mem_cons_of_mem _ hx))
    exact ⟨(j, b) :: e, by unfold mapItems; rw [hb, he]⟩

/-- **C49**: materialising keeps the keys and replaces every argument by its value. -/
theorem C49_materialize (n : Nat) (c : Ctx V) (p : Params V) (d : Dict V) (h : materialize n c p = .ok d) :
    Dict.keys d = Dict.keys p ∧
    (∀ k v, Dict.find p k = some (.plain v) → Dict.find d k = some v) ∧
    (∀ k a, Dict.find p k = some (.arg a) → ∃ v, getValue n c a = .ok v ∧ Dict.find d k = some v) := by
  obtain ⟨h1, h2⟩ := mapItems_find h
  refine ⟨h1, fun k v hk => ?_, fun k a hk => h2 k _ hk⟩
  obtain ⟨b, hb, hf⟩ := h2 k _ hk
  obtain rfl : v = b := by simpa [pvalue] using hb
  exact hf

/-- Staging does not change what a parameter is worth. -/
theorem stage_value {n : Nat} {c : Ctx V} {b : Bool} {v w : PVal V} (h : stage n c b v = .ok w) :
    pvalue n c w = pvalue n c v := by
  unfold stage at h
  split at h
  · cases Except.ok.inj h; rfl
  · rename_i f post
    by_cases hp : post.getD b = true
    · rw [if_pos hp] at h; cases Except.ok.inj h; rfl
    · rw [if_neg hp] at h
      rcases hg : getValue n c (.func f post) with e | x
      · rw [hg] at h; simp [Except.map] at h
      · rw [hg] at h
        obtain rfl : PVal.plain x = w := by simpa [Except.map] using h
        show Except.ok x = getValue n c _
        rw [hg]
  · rename_i a _
    rcases hg : getValue n c a with e | x
    · rw [hg] at h; simp [Except.map] at h
    · rw [hg] at h
      obtain rfl : PVal.plain x = w := by simpa [Except.map] using h
      show Except.ok x = getValue n c _
      rw [hg]

theorem staged_find {n : Nat} {c : Ctx V} {s : Setup V} {p q : Params V} (h : staged n c s p = .ok q) :
    Dict.keys q = Dict.keys p ∧
    ∀ k, (Dict.find p k = none → Dict.find q k = none) ∧
      ∀ v, Dict.find p k = some v → ∃ w, Dict.find q k = some w ∧ pvalue n c w = pvalue n c v := by
  have hpre : preMaterialize n c s.postDefault p = .ok q → Dict.keys q = Dict.keys p ∧
    ∀ k, (Dict.find p k = none → Dict.find q k = none) ∧
      ∀ v, Dict.find p k = some v → ∃ w, Dict.find q k = some w ∧ pvalue n c w = pvalue n c v := by
    intro h
    obtain ⟨h1, h2⟩ := mapItems_find h
    refine ⟨h1, fun k => ⟨fun hn => ?_, fun v hv => ?_⟩⟩
    · rw [Dict.find_none] at hn ⊢; rwa [h1]
    · obtain ⟨w, hw, hf⟩ := h2 k v hv
      exact ⟨w, hf, stage_value hw⟩
  unfold staged at h
  split at h
  · exact hpre h
  · exact hpre h
  · obtain rfl : p = q := by simpa using h
    exact ⟨rfl, fun k => ⟨id, fun v hv => ⟨v, hv, rfl⟩⟩⟩

/-! ### C49: precedence -/

theorem sent_all {s : Setup V} (h : Pickles s) (p : Params V) : sent s p = p := by
  unfold sent
  by_cases hp : s.execution = .process
  · rw [if_pos hp]
    exact List.filter_eq_self.2 (fun x _ => h hp _)
  · rw [if_neg hp]

theorem or_assoc' {α : Type} (a b c : Option α) : (a.or b).or c = a.or (b.or c) := by cases a <;> rfl

/-- The parameters of the task, of its function and of the batch. -/
def ownParams (s : Setup V) : Params V := (Dict.update s.defaults s.own).update s.batch

/-- What `execute` is called with if no name is special. -/
def plainCall (n : Nat) (c : Ctx V) (s : Setup V) : Except Err (Dict V) :=
  match prefilter n c s ((Dict.update c.params s.passed).update s.extra) with
  | .error e => .error e
  | .ok p => match staged n c s p with
    | .error e => .error e
    | .ok p => match staged n c s (ownParams s) with
      | .error e => .error e
      | .ok d => materialize n c (Dict.update (postfilter s (sent s p)) (sent s d))

theorem unreserved_update {p q : Params V} (hp : Unreserved p) (hq : Unreserved q) : Unreserved (Dict.update p q) :=
  fun x hx => (Dict.mem_update hx).elim (hp x) (hq x)

theorem unreserved_filter {p : Params V} (hp : Unreserved p) (f : String × PVal V → Bool) : Unreserved (p.filter f) :=
  fun x hx => hp x (List.mem_filter.1 hx).1

theorem find_unreserved {p : Params V} {k : String} (h : ∀ x ∈ p, x.1 ≠ k) : Dict.find p k = none := by
  rw [Dict.find_none]
  intro hk
  obtain ⟨x, hx, rfl⟩ := List.mem_map.1 hk
  exact h x hx rfl

theorem union_plain (o : Special V) {p q : Params V} (hp : Unreserved p) (hq : Unreserved q) :
    union o p q = .ok (Dict.update p q) := by
  have h := unreserved_update hp hq
  unfold union construct
  rw [find_unreserved (k := "self") (fun x hx => (h x hx).1), find_unreserved (k := "_param") (fun x hx => (h x hx).2.1),
    find_unreserved (k := "type_") (fun x hx => (h x hx).2.2)]
  simp only [Option.isSome_none]
  rw [if_neg (by simp)]
  congr 1
  exact List.filter_eq_self.2 (fun x hx => by simpa using (h x hx).2)

theorem unreserved_keys {p q : Params V} (h : Dict.keys q = Dict.keys p) (hp : Unreserved p) : Unreserved q := by
  intro x hx
  have hk : x.1 ∈ Dict.keys p := by rw [← h]; exact List.mem_map.2 ⟨x, hx, rfl⟩
  obtain ⟨y, hy, he⟩ := List.mem_map.1 hk
  rw [← he]
  exact hp y hy

theorem call_plain (n : Nat) (c : Ctx V) (s : Setup V) (hk : s.kind ≠ .cls) (hr : NoReserved c s) :
    callParams n c s = plainCall n c s := by
  obtain ⟨hb, ho, hd, he, hpa, hc⟩ := hr
  have h1 := unreserved_update hc hpa
  have h2 := unreserved_update h1 he
  have h3 : Unreserved (ownParams s) := unreserved_update (unreserved_update hd ho) hb
  have hdir : directParams s = .ok (ownParams s) := by
    unfold directParams
    rcases hkind : s.kind with _ | _
    · simp only [union_plain s.special hd ho]; rfl
    · exact absurd hkind hk
  have hsent : ∀ {r : Params V}, Unreserved r → Unreserved (sent s r) := by
    intro r hr
    unfold sent
    by_cases hx : s.execution = .process
    · rw [if_pos hx]; exact unreserved_filter hr _
    · rw [if_neg hx]; exact hr
  have hpostf : ∀ {r : Params V}, Unreserved r → Unreserved (postfilter s r) := by
    intro r hr
    unfold postfilter
    rcases s.kind with del | _
    · cases del
      · exact hr
      · exact unreserved_filter hr _
    · exact hr
  unfold callParams plainCall extraParams
  rw [union_plain s.special hc hpa]
  simp only
  rw [union_plain s.special h1 he]
  simp only
  rcases hx : prefilter n c s ((Dict.update c.params s.passed).update s.extra) with er | p
  · rfl
  have hp : Unreserved p := by
    unfold prefilter at hx
    rcases hkind : s.kind with del | _
    · rw [hkind] at hx
      cases del with
      | true => cases Except.ok.inj hx; exact h2
      | false => cases Except.ok.inj hx; exact unreserved_filter h2 _
    · exact absurd hkind hk
  simp only [hdir]
  rw [union_plain s.special hp h3]
  simp only
  rcases hy : staged n c s p with er | p'
  · rfl
  simp only
  rcases hz : staged n c s (ownParams s) with er | q
  · rfl
  simp only
  rw [union_plain s.special (hpostf (hsent (unreserved_keys (staged_find hy).1 hp)))
    (hsent (unreserved_keys (staged_find hz).1 h3))]

theorem direct_find (s : Setup V) (h1 : Dict.Ok s.own) (h2 : Dict.Ok s.batch) (k : String) :
    Dict.find (ownParams s) k = (Dict.find s.batch k).or ((Dict.find s.own k).or (Dict.find s.defaults k)) := by
  unfold ownParams
  rw [Dict.find_update _ _ h2, Dict.find_update _ _ h1]

theorem merged_find (c : Ctx V) (s : Setup V) (h1 : Dict.Ok s.passed) (h2 : Dict.Ok s.extra) (k : String) :
    Dict.find ((Dict.update c.params s.passed).update s.extra) k
      = (Dict.find s.extra k).or ((Dict.find s.passed k).or (Dict.find c.params k)) := by
  rw [Dict.find_update _ _ h2, Dict.find_update _ _ h1]

theorem contains_names {l : List String} {k : String} : l.contains k = true ↔ k ∈ l := by simp

theorem or_none_iff {α : Type} {a b : Option α} : a.or b = none ↔ a = none ∧ b = none := by
  cases a <;> simp

/-- The heart of the matter: two levels merged after staging. -/
theorem final_find {n : Nat} {c : Ctx V} {p' q : Params V} {d' : Dict V} (hok : Dict.Ok q)
    (h : materialize n c (Dict.update p' q) = .ok d') (k : String) :
    (Dict.find q k = none → Dict.find p' k = none → Dict.find d' k = none) ∧
    (∀ w, (Dict.find q k).or (Dict.find p' k) = some w → ∃ v, pvalue n c w = .ok v ∧ Dict.find d' k = some v) := by
  have hf := Dict.find_update p' q hok k
  obtain ⟨h1, h2⟩ := mapItems_find h
  refine ⟨fun hq hp => ?_, fun w hw => ?_⟩
  · rw [Dict.find_none, h1, ← Dict.find_none, hf, hq, hp]; rfl
  · exact h2 k w (by rw [hf, hw])

/-- **C49**, partial: a task with a function gets, for every name, the value of the parameter from its proper source,
and no other parameters; in every kind of execution.  Missing: parameters that cannot be pickled on their way to a
process (`C49_pickle_violated`), tasks of other classes (`C49_class_violated`) and parameters with special names
(`C49_names_violated`). -/
theorem C49_precedence_partial (n : Nat) (c : Ctx V) (s : Setup V) (hk : s.kind ≠ .cls) (hp : Proper c s)
    (hpick : Pickles s) (hr : NoReserved c s) (d : Dict V) (h : callParams n c s = .ok d) (k : String) :
    (source c s k = none → Dict.find d k = none) ∧
    (∀ w, source c s k = some w → ∃ v, pvalue n c w = .ok v ∧ Dict.find d k = some v) := by
  obtain ⟨hb, ho, hd, he, hpa, hc⟩ := hp
  rw [call_plain n c s hk hr] at h
  unfold plainCall at h
  rcases hx : prefilter n c s ((Dict.update c.params s.passed).update s.extra) with er | p
  · rw [hx] at h; simp at h
  rw [hx] at h
  simp only at h
  rcases hy : staged n c s p with er | p'
  · rw [hy] at h; simp at h
  rw [hy] at h
  simp only at h
  rcases hz : staged n c s (ownParams s) with er | q
  · rw [hz] at h; simp at h
  rw [hz] at h
  simp only [sent_all hpick] at h
  obtain ⟨hpk, hpf⟩ := staged_find hy
  obtain ⟨hqk, hqf⟩ := staged_find hz
  have hqok : Dict.Ok q := by
    unfold Dict.Ok
    rw [hqk]
    exact Dict.ok_update (Dict.ok_update hd _) _
  have hfin := final_find hqok h k
  -- the parameters of the session, passed and extra, after both filters
  have hlow : Dict.find (postfilter s p') k
      = if k ∈ s.names then Dict.find p' k else none := by
    unfold postfilter
    rcases hkind : s.kind with _ | _
    · rename_i del
      cases del with
      | true =>
        simp only
        rw [Dict.find_filterKey p' (fun x => s.names.contains x) k]
        by_cases hm : k ∈ s.names
        · rw [if_pos (contains_names.2 hm), if_pos hm]
        · rw [if_neg (fun hh => hm (contains_names.1 hh)), if_neg hm]
      | false =>
        simp only
        by_cases hm : k ∈ s.names
        · rw [if_pos hm]
        · rw [if_neg hm, (hpf k).1]
          unfold prefilter at hx
          rw [hkind] at hx
          cases Except.ok.inj hx
          rw [Dict.find_filterKey _ (fun x => s.names.contains x) k, if_neg (fun hh => hm (contains_names.1 hh))]
    · exact absurd hkind hk
  have hpre : k ∈ s.names → Dict.find p k
      = (Dict.find s.extra k).or ((Dict.find s.passed k).or (Dict.find c.params k)) := by
    intro hm
    rw [← merged_find c s hpa he k]
    unfold prefilter at hx
    rcases hkind : s.kind with _ | _
    · rename_i del
      rw [hkind] at hx
      cases del with
      | true => cases Except.ok.inj hx; rfl
      | false =>
        cases Except.ok.inj hx
        rw [Dict.find_filterKey _ (fun x => s.names.contains x) k, if_pos (contains_names.2 hm)]
    · exact absurd hkind hk
  have hsrc : source c s k = (Dict.find (ownParams s) k).or (if k ∈ s.names then Dict.find p k else none) := by
    unfold source
    rw [direct_find s ho hb, or_assoc', or_assoc']
    by_cases hm : k ∈ s.names
    · rw [if_pos hm, if_pos hm, hpre hm]
    · rw [if_neg hm, if_neg hm]
  rw [hlow] at hfin
  rw [hsrc]
  rcases hdir : Dict.find (ownParams s) k with _ | w
  · have hq := (hqf k).1 hdir
    rw [hq] at hfin
    by_cases hm : k ∈ s.names
    · simp only [if_pos hm] at hfin ⊢
      refine ⟨fun hn => hfin.1 trivial ((hpf k).1 (by simpa using hn)), fun w hw => ?_⟩
      obtain ⟨w', hw', hv⟩ := (hpf k).2 w (by simpa using hw)
      obtain ⟨v, h1, h2⟩ := hfin.2 w' (by rw [hw']; rfl)
      exact ⟨v, hv ▸ h1, h2⟩
    · simp only [if_neg hm] at hfin ⊢
      exact ⟨fun _ => hfin.1 trivial trivial, fun w hw => by simp at hw⟩
  · obtain ⟨w', hw', hv⟩ := (hqf k).2 w hdir
    refine ⟨fun hn => by simp at hn, fun u hu => ?_⟩
    obtain rfl : w = u := by simpa using hu
    obtain ⟨v, h1, h2⟩ := hfin.2 w' (by rw [hw']; rfl)
    exact ⟨v, hv ▸ h1, h2⟩

/-- **C49**: session parameters (and extra ones) whose names are not in the signature are not passed. -/
theorem C49_not_passed (n : Nat) (c : Ctx V) (s : Setup V) (hk : s.kind ≠ .cls) (hp : Proper c s) (hpick : Pickles s)
    (hr : NoReserved c s) (d : Dict V) (h : callParams n c s = .ok d) (k : String) (hm : k ∉ s.names) (h1 : Dict.find s.batch k = none)
    (h2 : Dict.find s.own k = none) (h3 : Dict.find s.defaults k = none) : Dict.find d k = none := by
  refine (C49_precedence_partial n c s hk hp hpick hr d h k).1 ?_
  unfold source
  rw [h1, h2, h3, if_neg hm]
  rfl

theorem mapItems_mem {α β : Type} {f : α → Except Err β} : ∀ {d : Dict α} {e : Dict β}, mapItems f d = .ok e →
    ∀ x ∈ e, ∃ a, (x.1, a) ∈ d ∧ f a = .ok x.2
  | [], e, h, x, hx => by
    obtain rfl : [] = e := by simpa [mapItems] using h
    simp at hx
  | (j, a) :: d, e, h, x, hx => by
    unfold mapItems at h
    rcases hf : f a with er | b
    · rw [hf] at h; simp at h
    rw [hf] at h
    rcases hd : mapItems f d with er | e'
    · rw [hd] at h; simp at h
    rw [hd] at h
    obtain rfl : (j, b) :: e' = e := by simpa using h
    rcases List.mem_cons.1 hx with rfl | hx
    · exact ⟨a, List.mem_cons_self .., hf⟩
    · obtain ⟨a', h1, h2⟩ := mapItems_mem hd x hx
      exact ⟨a', List.mem_cons_of_mem _ h1, h2⟩

/-- Every parameter of the dictionary has a value. -/
def HasValues (n : Nat) (c : Ctx V) (p : Params V) : Prop := ∀ x ∈ p, ∃ v, pvalue n c x.2 = .ok v

theorem staged_ok {n : Nat} {c : Ctx V} (s : Setup V) {p : Params V} (h : HasValues n c p) :
    ∃ q, staged n c s p = .ok q ∧ HasValues n c q := by
  have hst : ∃ q, preMaterialize n c s.postDefault p = .ok q ∧ HasValues n c q := by
    obtain ⟨q, hq⟩ := mapItems_ok (f := stage n c s.postDefault) (d := p) (fun x hx => by
      obtain ⟨v, hv⟩ := h x hx
      unfold stage
      split
      · exact ⟨_, rfl⟩
      · rename_i f post heq
        rw [heq] at hv
        by_cases hp : post.getD s.postDefault = true
        · rw [if_pos hp]; exact ⟨_, rfl⟩
        · rw [if_neg hp, show getValue n c (.func f post) = .ok v from hv]; exact ⟨_, rfl⟩
      · rename_i a _ heq
        rw [heq] at hv
        rw [show getValue n c a = .ok v from hv]; exact ⟨_, rfl⟩)
    refine ⟨q, hq, fun x hx => ?_⟩
    obtain ⟨a, ha, hs⟩ := mapItems_mem hq x hx
    rw [stage_value hs]
    exact h (x.1, a) ha
  unfold staged
  rcases s.execution with _ | _ | _ | _
  · exact ⟨p, rfl, h⟩
  · exact ⟨p, rfl, h⟩
  · exact hst
  · exact hst

theorem hasValues_update {n : Nat} {c : Ctx V} {p q : Params V} (hp : HasValues n c p) (hq : HasValues n c q) :
    HasValues n c (Dict.update p q) := fun x hx => (Dict.mem_update hx).elim (hp x) (hq x)

theorem hasValues_filter {n : Nat} {c : Ctx V} {p : Params V} (hp : HasValues n c p) (f : String × PVal V → Bool) :
    HasValues n c (p.filter f) := fun x hx => hp x (List.mem_filter.1 hx).1

/-- **C49**: if all parameters have values, the function is called. -/
theorem C49_called (n : Nat) (c : Ctx V) (s : Setup V) (hk : s.kind ≠ .cls) (h1 : HasValues n c c.params)
    (h2 : HasValues n c s.passed) (h3 : HasValues n c s.extra) (h4 : HasValues n c s.defaults)
    (h5 : HasValues n c s.own) (h6 : HasValues n c s.batch) (hr : NoReserved c s) : ∃ d, callParams n c s = .ok d := by
  have hm := hasValues_update (hasValues_update h1 h2) h3
  have hx : ∃ p, prefilter n c s ((Dict.update c.params s.passed).update s.extra) = .ok p ∧ HasValues n c p := by
    unfold prefilter
    rcases hkind : s.kind with _ | _
    · rename_i del
      cases del with
      | true => exact ⟨_, rfl, hm⟩
      | false => exact ⟨_, rfl, hasValues_filter hm _⟩
    · exact absurd hkind hk
  obtain ⟨p, hp, hpv⟩ := hx
  obtain ⟨p', hp', hpv'⟩ := staged_ok s hpv
  obtain ⟨q, hq, hqv⟩ := staged_ok s (hasValues_update (hasValues_update h4 h5) h6)
  have hsent : ∀ {r : Params V}, HasValues n c r → HasValues n c (sent s r) := by
    intro r hr
    unfold sent
    by_cases he : s.execution = .process
    · rw [if_pos he]; exact hasValues_filter hr _
    · rw [if_neg he]; exact hr
  have hpost : HasValues n c (postfilter s (sent s p')) := by
    unfold postfilter
    rcases s.kind with _ | _
    · rename_i del
      cases del
      · exact hsent hpv'
      · exact hasValues_filter (hsent hpv') _
    · exact hsent hpv'
  obtain ⟨d, hd⟩ := mapItems_ok (f := pvalue n c) (hasValues_update hpost (hsent hqv))
  refine ⟨d, ?_⟩
  rw [call_plain n c s hk hr]
  unfold plainCall
  rw [hp]
  simp only
  rw [hp']
  simp only
  rw [show staged n c s (ownParams s) = .ok q from hq]
  exact hd

/-- A run for examples. -/
def argSetup (e : Execution) (k : Kind) : Setup String where
  kind := k
  names := ["x", "y", "z", "secret", "u"]
  defaults := [("u", .arg (.simple "default"))]
  own := [("x", .plain "own"), ("z", .plain "own")]
  batch := [("x", .plain "batch")]
  passed := []
  extra := [("_task_", .plain "task")]
  execution := e
  postDefault := false
  picklable := fun _ => true
  special := ⟨fun v => match v with
    | .plain "None" => true
    | _ => false, fun _ => none, fun t v => match t with
    | .plain "str" => .ok v
    | _ => .error .type⟩

theorem argSetup_reserved (e : Execution) (k : Kind) : NoReserved argCtx (argSetup e k) := by
  refine ⟨?_, ?_, ?_, ?_, ?_, ?_⟩ <;> simp [Unreserved, argSetup, argCtx]

theorem argSetup_proper (e : Execution) (k : Kind) : Proper argCtx (argSetup e k) := by
  refine ⟨?_, ?_, ?_, ?_, ?_, ?_⟩ <;> simp [Dict.Ok, Dict.keys, argSetup, argCtx]

example : callParams 9 argCtx (argSetup .main (.func false)) = .ok [("x", "batch"), ("secret", "psst"), ("y", "psst"),
      ("u", "default"), ("z", "own")] := by decide +kernel

/-- The other executions and a function given by a path: the same values. -/
example : callParams 9 argCtx (argSetup .process (.func true)) = callParams 9 argCtx (argSetup .main (.func false)) ∧
    callParams 9 argCtx (argSetup .thread (.func false)) = callParams 9 argCtx (argSetup .main (.func false)) := by
  decide +kernel

/-- **C49** fails for a parameter that cannot be pickled, in a process: the parameter of the batch is dropped and the
one of the session is used. -/
theorem C49_pickle_violated :
    callParams 9 argCtx { argSetup .process (.func false) with
        batch := [("secret", .plain "batch")]
        picklable := fun v => match v with
          | .plain "batch" => false
          | _ => true }
      = .ok [("x", "own"), ("secret", "psst"), ("y", "psst"), ("u", "default"), ("z", "own")] := by decide +kernel

/-- **C49** and **C50** fail for tasks of other classes: the session parameters are evaluated without a task, so that
`execute` gets `*****` for a secret, and a session parameter that refers to another one makes every run fail, even if
`execute` does not name it. -/
theorem C49_class_violated :
    callParams 9 { argCtx with params := [("x", .plain "5"), ("secret", .arg (.priv "psst"))] } (argSetup .main .cls)
      = .ok [("x", "batch"), ("secret", "*****"), ("z", "own")] ∧
    callParams 9 argCtx { argSetup .main .cls with names := [] } = .error .attr := by decide +kernel

/-- **C49** fails for the names that the constructor of `Parameters` uses itself: with a parameter `type_` of the
function, of the task or of the session the call fails, even if the function does not name it, or the parameter is
dropped; with `self` it fails as well. -/
theorem C49_names_violated :
    callParams 9 argCtx { argSetup .main (.func false) with names := ["x", "type_"], own := [("type_", .plain "a")] }
      = .error .type ∧
    callParams 9 { argCtx with params := [("type_", .plain "a"), ("x", .plain "b")] } (argSetup .main (.func false))
      = .error .type ∧
    callParams 9 argCtx { argSetup .main (.func false) with
      names := ["x", "type_"], own := [("type_", .plain "None")] } = .ok [("x", "batch"), ("u", "default")] ∧
    callParams 9 { argCtx with params := [("self", .plain "a")] } (argSetup .main (.func false)) = .error .type := by
  decide +kernel

end Rocketry.Props
