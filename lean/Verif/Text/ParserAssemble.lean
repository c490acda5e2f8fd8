import Verif.Text.ParserLemmas

/-! # From tokens to objects: the operator loops -/

set_option linter.unusedSimpArgs false

namespace Rocketry

variable {C D : Type}

/-- `f` applied `n` times. -/
def iter {α : Type} (f : α → α) : Nat → α → α
  | 0, x => x
  | n + 1, x => iter f n (f x)

theorem iter_succ' {α : Type} (f : α → α) : ∀ (n : Nat) (x : α), iter f (n + 1) x = f (iter f n x)
  | 0, _ => rfl
  | n + 1, x => iter_succ' f n (f x)

theorem iter_succ {α : Type} (f : α → α) (n : Nat) (x : α) : iter f (n + 1) x = iter f n (f x) := rfl

def NoOp (o : Char) (l : List (Tok C)) : Prop := ∀ t ∈ l, Tok.isOp o t = false

theorem noOp_append {o : Char} {a b : List (Tok C)} (ha : NoOp o a) (hb : NoOp o b) : NoOp o (a ++ b) := by
  intro t ht
  rcases List.mem_append.1 ht with h | h
  · exact ha t h
  · exact hb t h

theorem noOp_val (o : Char) (x : C) : NoOp o [.val x] := by
  intro t ht
  rw [List.mem_singleton] at ht
  subst ht
  rfl

theorem noOp_op {o p : Char} (h : p ≠ o) : NoOp o [(Tok.op p : Tok C)] := by
  intro t ht
  rw [List.mem_singleton] at ht
  subst ht
  simpa [Tok.isOp] using h

theorem findIdx_noOp {o : Char} {l : List (Tok C)} (h : NoOp o l) : l.findIdx? (Tok.isOp o) = none := by
  rw [List.findIdx?_eq_none_iff]
  exact h

theorem findIdx_at {o : Char} {pre tl : List (Tok C)} (h : NoOp o pre) :
    (pre ++ Tok.op o :: tl).findIdx? (Tok.isOp o) = some pre.length := by
  rw [List.findIdx?_append, findIdx_noOp h, List.findIdx?_cons]
  simp [Tok.isOp]

theorem operLoop_done {op : Oper C} {n : Nat} {s : List (Tok C)} (h : NoOp op.symbol s) : operLoop op n s = .ok s := by
  rw [operLoop.eq_def]
  dsimp only
  rw [findIdx_noOp h]

theorem operLoop_step {op : Oper C} {n : Nat} {pre tl s' : List (Tok C)} (h : NoOp op.symbol pre)
    (hs : operStep op (pre ++ .op op.symbol :: tl) pre.length = .ok s') :
    operLoop op (n + 1) (pre ++ .op op.symbol :: tl) = operLoop op n s' := by
  rw [operLoop.eq_def]
  dsimp only
  rw [findIdx_at h]
  dsimp only
  rw [hs]

/-- A part of the list is turned into another one by some rounds of the loop. -/
def Trans (op : Oper C) (seg seg' : List (Tok C)) : Prop :=
  NoOp op.symbol seg' ∧ ∃ m, m ≤ seg.length ∧ ∀ k pre tl, NoOp op.symbol pre →
    operLoop op (k + m) (pre ++ seg ++ tl) = operLoop op k (pre ++ seg' ++ tl)

theorem trans_refl {op : Oper C} {seg : List (Tok C)} (h : NoOp op.symbol seg) : Trans op seg seg :=
  ⟨h, 0, Nat.zero_le _, fun _ _ _ _ => rfl⟩

theorem trans_append {op : Oper C} {a a' b b' : List (Tok C)} (ha : Trans op a a') (hb : Trans op b b') :
    Trans op (a ++ b) (a' ++ b') := by
  obtain ⟨na, ma, la, ea⟩ := ha
  obtain ⟨nb, mb, lb, eb⟩ := hb
  refine ⟨noOp_append na nb, mb + ma, by rw [List.length_append]; omega, ?_⟩
  intro k pre tl hp
  have e1 := ea (k + mb) pre (b ++ tl) hp
  have e2 := eb k (pre ++ a') tl (noOp_append hp na)
  simp only [List.append_assoc] at e1 e2 ⊢
  rw [← Nat.add_assoc, e1, e2]

theorem trans_assemble {op : Oper C} {l s' : List (Tok C)} (h : Trans op l.reverse s') : assembleOper op l = .ok s'.reverse := by
  obtain ⟨n, m, hm, e⟩ := h
  rw [List.length_reverse] at hm
  have := e (l.length - m) [] [] (by intro t ht; simp at ht)
  rw [Nat.sub_add_cancel hm, List.nil_append, List.append_nil, List.nil_append, List.append_nil, operLoop_done n] at this
  rw [assembleOper, this]

/-- Segments joined with an operator. -/
def oj (o : Char) : List (List (Tok C)) → List (Tok C)
  | [] => []
  | [s] => s
  | s :: t :: l => s ++ .op o :: oj o (t :: l)

theorem oj_cons {o : Char} (s : List (Tok C)) {l : List (List (Tok C))} (h : l ≠ []) : oj o (s :: l) = s ++ .op o :: oj o l := by
  cases l with
  | nil => exact absurd rfl h
  | cons t l => rfl

theorem oj_append {o : Char} : ∀ (a b : List (List (Tok C))), a ≠ [] → b ≠ [] → oj o (a ++ b) = oj o a ++ .op o :: oj o b
  | [], _, h, _ => absurd rfl h
  | [s], b, _, hb => by rw [List.singleton_append, oj_cons s hb, oj]
  | s :: t :: l, b, _, hb => by
    rw [List.cons_append, oj_cons s (by simp), oj_append (t :: l) b (by simp) hb, oj_cons s (by simp)]
    simp

theorem trans_oj {op : Oper C} {o : Char} (ho : o ≠ op.symbol) {α : Type} (f g : α → List (Tok C)) :
    ∀ (l : List α), (∀ x ∈ l, Trans op (f x) (g x)) → Trans op (oj o (l.map f)) (oj o (l.map g))
  | [], _ => trans_refl (by intro t ht; simp [oj] at ht)
  | [x], h => h x (by simp)
  | x :: y :: l, h => by
    rw [List.map_cons (f := f), List.map_cons (f := g), oj_cons (f x) (by simp), oj_cons (g x) (by simp)]
    exact trans_append (h x (by simp)) (trans_append (a := [Tok.op o]) (a' := [Tok.op o]) (trans_refl (noOp_op ho))
      (trans_oj ho f g (y :: l) (fun z hz => h z (by simp [hz]))))

/-! ### negation -/

/-- A value under some negations, reversed. -/
def rFac (p : Nat × C) : List (Tok C) := .val p.2 :: List.replicate p.1 (.op '~')

theorem right_step {f : Tok C → Except PyErr C} {neg : C → C} {o : Char} {x : C} (hf : f (.val x) = .ok (neg x))
    (pre tl : List (Tok C)) :
    operStep (.right o f) (pre ++ .val x :: .op o :: tl) (pre.length + 1) = .ok (pre ++ .val (neg x) :: tl) := by
  rw [operStep]
  have e1 : prevIndex (pre ++ Tok.val x :: .op o :: tl).length (pre.length + 1) = pre.length := by simp [prevIndex]
  rw [e1]
  have e2 : (pre ++ Tok.val x :: .op o :: tl)[pre.length]? = some (.val x) := by simp
  rw [e2]
  simp only [hf]
  congr 1
  rw [List.set_append_right _ _ (Nat.le_refl _), List.eraseIdx_append_of_length_le (by omega)]
  simp

theorem trans_not {f : Tok C → Except PyErr C} {neg : C → C} (hf : ∀ x, f (.val x) = .ok (neg x)) :
    ∀ (n : Nat) (x : C), Trans (.right '~' f) (rFac (n, x)) [.val (iter neg (n) x)] := by
  intro n
  induction n with
  | zero => intro x; exact trans_refl (noOp_val _ _)
  | succ n ih =>
    intro x
    obtain ⟨h1, m, hm, e⟩ := ih (neg x)
    refine ⟨noOp_val _ _, m + 1, by simpa [rFac] using hm, ?_⟩
    intro k pre tl hp
    rw [show k + (m + 1) = (k + m) + 1 by omega]
    have es : pre ++ rFac (n + 1, x) ++ tl = (pre ++ [.val x]) ++ .op (Oper.right '~' f).symbol :: (List.replicate n (.op '~') ++ tl) := by
      simp [rFac, List.replicate_succ, Oper.symbol]
    rw [es, operLoop_step (s' := pre ++ rFac (n, neg x) ++ tl) (noOp_append hp (noOp_val _ _))]
    · rw [e k pre tl hp, iter_succ]
    · have := right_step (o := '~') (hf x) pre (List.replicate n (.op '~') ++ tl)
      simp only [List.length_append, List.length_singleton, Oper.symbol]
      simpa [rFac] using this

/-! ### conjunction and disjunction -/

/-- A non-empty list of meanings combined from the right end of the text. -/
def dAllR (f : D → D → D) (d0 : D) : List D → D
  | [] => d0
  | [d] => d
  | d :: e :: ds => f (dAllR f d0 (e :: ds)) d

theorem dAllR_cons {f : D → D → D} {d0 d : D} {ds : List D} (h : ds ≠ []) : dAllR f d0 (d :: ds) = f (dAllR f d0 ds) d := by
  cases ds with
  | nil => exact absurd rfl h
  | cons e ds => rfl

theorem dAllR_append {f : D → D → D} {d0 : D} (ha : ∀ a b c, f (f a b) c = f a (f b c)) :
    ∀ (xs ys : List D), xs ≠ [] → ys ≠ [] → dAllR f d0 (xs ++ ys) = f (dAllR f d0 ys) (dAllR f d0 xs)
  | [], _, h, _ => absurd rfl h
  | [x], ys, _, hy => by rw [List.singleton_append, dAllR_cons hy, dAllR]
  | x :: y :: xs, ys, _, hy => by
    rw [List.cons_append, dAllR_cons (by simp), dAllR_append ha (y :: xs) ys (by simp) hy, ha]
    rfl

theorem both_step {f : Tok C → Tok C → Except PyErr C} {o : Char} {x y z : C} (hf : f (.val y) (.val x) = .ok z)
    (pre tl : List (Tok C)) :
    operStep (.both o f) (pre ++ .val x :: .op o :: .val y :: tl) (pre.length + 1) = .ok (pre ++ .val z :: tl) := by
  rw [operStep]
  have e1 : prevIndex (pre ++ Tok.val x :: .op o :: .val y :: tl).length (pre.length + 1) = pre.length := by simp [prevIndex]
  rw [e1]
  have e2 : (pre ++ Tok.val x :: .op o :: .val y :: tl)[pre.length]? = some (.val x) := by simp
  have e3 : (pre ++ Tok.val x :: .op o :: .val y :: tl)[pre.length + 1 + 1]? = some (.val y) := by
    rw [List.getElem?_append_right (by omega)]
    simp [show pre.length + 1 + 1 - pre.length = 2 by omega]
  rw [e2, e3]
  simp only [hf]
  have e4 : (pre ++ Tok.val x :: .op o :: .val y :: tl).set (pre.length + 1) (.val z) = pre ++ .val x :: .val z :: .val y :: tl := by
    rw [List.set_append_right _ _ (by omega)]
    simp
  have e5 : prevIndex (pre ++ Tok.val x :: .val z :: .val y :: tl).length (pre.length + 1) = pre.length := by simp [prevIndex]
  have e6 : (pre ++ Tok.val x :: .val z :: .val y :: tl).eraseIdx pre.length = pre ++ .val z :: .val y :: tl := by
    rw [List.eraseIdx_append_of_length_le (Nat.le_refl _)]
    simp
  rw [e4, e5, e6, if_pos (by simp)]
  congr 1
  rw [List.eraseIdx_append_of_length_le (by omega)]
  simp

/-- A binary operator function with a meaning. -/
def BothOk (f : Tok C → Tok C → Except PyErr C) (Good : C → Prop) (interp : C → D) (d : D → D → D) : Prop :=
  ∀ x y, Good x → Good y → ∃ z, f (.val x) (.val y) = .ok z ∧ Good z ∧ interp z = d (interp x) (interp y)

theorem trans_both {f : Tok C → Tok C → Except PyErr C} {Good : C → Prop} {interp : C → D} {d : D → D → D} {d0 : D}
    (ha : ∀ a b c, d (d a b) c = d a (d b c)) (hf : BothOk f Good interp d) (o : Char) :
    ∀ (xs : List C) (x : C), Good x → (∀ y ∈ xs, Good y) →
    ∃ z, Good z ∧ interp z = dAllR d d0 ((x :: xs).map interp) ∧
      Trans (.both o f) (oj o ((x :: xs).map (fun y => [.val y]))) [.val z] := by
  intro xs
  induction xs with
  | nil => intro x hx _; exact ⟨x, hx, rfl, trans_refl (noOp_val _ _)⟩
  | cons y xs ih =>
    intro x hx hxs
    obtain ⟨w, hw1, hw2, hw3⟩ := hf y x (hxs y (by simp)) hx
    obtain ⟨z, hz1, hz2, hz3, m, hm, e⟩ := ih w hw2 (fun q hq => hxs q (by simp [hq]))
    refine ⟨z, hz1, ?_, noOp_val _ _, m + 1, ?_, ?_⟩
    · rw [hz2]
      simp only [List.map_cons]
      cases xs with
      | nil => simp [dAllR, hw3]
      | cons q qs =>
        rw [dAllR_cons (by simp), dAllR_cons (d := interp x) (by simp), dAllR_cons (d := interp y) (by simp), hw3, ha]
    · rw [List.map_cons, List.map_cons, oj_cons _ (by simp)]
      simp only [List.length_append, List.length_cons, List.length_nil]
      have : (oj o (List.map (fun y => [(Tok.val y : Tok C)]) (w :: xs))).length = (oj o ([Tok.val y] :: List.map (fun y => [Tok.val y]) xs)).length := by
        cases xs with
        | nil => rfl
        | cons q qs => simp [oj]
      omega
    · intro k pre tl hp
      have es : pre ++ oj o ((x :: y :: xs).map (fun y => [(Tok.val y : Tok C)])) ++ tl =
          (pre ++ [.val x]) ++ .op (Oper.both o f).symbol :: (oj o ((y :: xs).map (fun y => [.val y])) ++ tl) := by
        rw [List.map_cons, oj_cons _ (by simp)]
        simp [Oper.symbol]
      obtain ⟨r, hr, hr'⟩ : ∃ r, oj o ((y :: xs).map (fun y => [(Tok.val y : Tok C)])) = .val y :: r ∧
          oj o ((w :: xs).map (fun y => [(Tok.val y : Tok C)])) = .val w :: r := by
        cases xs with
        | nil => exact ⟨[], rfl, rfl⟩
        | cons q qs => exact ⟨.op o :: oj o ((q :: qs).map (fun y => [.val y])), rfl, rfl⟩
      rw [show k + (m + 1) = (k + m) + 1 by omega, es,
        operLoop_step (s' := pre ++ oj o ((w :: xs).map (fun y => [.val y])) ++ tl) (noOp_append hp (noOp_val _ _)), e k pre tl hp]
      rw [hr, hr']
      have := both_step (o := o) hw1 pre (r ++ tl)
      simp only [List.length_append, List.length_singleton, Oper.symbol]
      simpa using this

/-- Two levels: disjunctions of conjunctions. -/
theorem assemble_and_or {fa fo : Tok C → Tok C → Except PyErr C} {Good : C → Prop} {interp : C → D} {da dor : D → D → D} {d0 : D}
    (ha : ∀ a b c, da (da a b) c = da a (da b c)) (ho : ∀ a b c, dor (dor a b) c = dor a (dor b c))
    (hfa : BothOk fa Good interp da) (hfo : BothOk fo Good interp dor) (ts : List (List C)) (hne : ts ≠ [])
    (hts : ∀ t ∈ ts, t ≠ [] ∧ ∀ x ∈ t, Good x) (l : List (Tok C))
    (hl : l.reverse = oj '|' (ts.map (fun t => oj '&' (t.map (fun y => [.val y]))))) :
    ∃ z, assembleOpers [.both '&' fa, .both '|' fo] l = .ok [.val z] ∧ Good z ∧
      interp z = dAllR dor d0 (ts.map (fun t => dAllR da d0 (t.map interp))) := by
  have conj : ∀ t ∈ ts, ∃ z, Good z ∧ interp z = dAllR da d0 (t.map interp) ∧
      Trans (.both '&' fa) (oj '&' (t.map (fun y => [.val y]))) [.val z] := by
    intro t ht
    obtain ⟨h1, h2⟩ := hts t ht
    cases t with
    | nil => exact absurd rfl h1
    | cons x xs => exact trans_both ha hfa '&' xs x (h2 x (by simp)) (fun y hy => h2 y (by simp [hy]))
  -- choose the values
  have ch : ∃ zs : List C, zs.length = ts.length ∧ (∀ z ∈ zs, Good z) ∧
      zs.map interp = ts.map (fun t => dAllR da d0 (t.map interp)) ∧
      Trans (.both '&' fa) (oj '|' (ts.map (fun t => oj '&' (t.map (fun y => [.val y]))))) (oj '|' (zs.map (fun z => [.val z]))) := by
    clear hl hts hne
    induction ts with
    | nil => exact ⟨[], rfl, by intro z hz; simp at hz, rfl, trans_refl (by intro t ht; simp [oj] at ht)⟩
    | cons t ts ih =>
      obtain ⟨zs, e1, e2, e3, e4⟩ := ih (fun t ht => conj t (by simp [ht]))
      obtain ⟨z, g1, g2, g3⟩ := conj t (by simp)
      refine ⟨z :: zs, by simp [e1], ?_, by simp [g2, e3], ?_⟩
      · intro w hw
        rcases List.mem_cons.1 hw with rfl | hw
        · exact g1
        · exact e2 w hw
      · cases ts with
        | nil =>
          have : zs = [] := List.length_eq_zero_iff.1 (by simpa using e1)
          subst this
          simpa [oj] using g3
        | cons t' ts =>
          have hz : zs ≠ [] := by intro h; subst h; simp at e1
          rw [List.map_cons, List.map_cons (f := fun z => [(Tok.val z : Tok C)]), oj_cons _ (by simp), oj_cons _ (by simpa using hz)]
          exact trans_append g3 (trans_append (a := [Tok.op '|']) (a' := [Tok.op '|']) (trans_refl (noOp_op (by simp [Oper.symbol]))) e4)
  obtain ⟨zs, z1, z2, z3, z4⟩ := ch
  have hz : zs ≠ [] := by
    intro h; subst h
    cases ts with
    | nil => exact hne rfl
    | cons t ts => simp at z1
  obtain ⟨x, xs, rfl⟩ : ∃ x xs, zs = x :: xs := List.exists_cons_of_ne_nil hz
  obtain ⟨z, g1, g2, g3⟩ := trans_both (d0 := d0) ho hfo '|' xs x (z2 x (by simp)) (fun y hy => z2 y (by simp [hy]))
  refine ⟨z, ?_, g1, by rw [g2, z3]⟩
  rw [← hl] at z4
  rw [assembleOpers, trans_assemble z4]
  simp only
  rw [assembleOpers, trans_assemble (s' := [.val z]) (by rw [List.reverse_reverse]; exact g3)]
  rfl

/-- Three levels: negated items, conjunctions, disjunctions. -/
theorem assemble_not_and_or {fn : Tok C → Except PyErr C} {fa fo : Tok C → Tok C → Except PyErr C} {neg : C → C} {Good : C → Prop}
    {interp : C → D} {dn : D → D} {da dor : D → D → D} {d0 : D}
    (ha : ∀ a b c, da (da a b) c = da a (da b c)) (ho : ∀ a b c, dor (dor a b) c = dor a (dor b c))
    (hfn : ∀ x, fn (.val x) = .ok (neg x)) (hng : ∀ x, Good x → Good (neg x)) (hni : ∀ x, interp (neg x) = dn (interp x))
    (hfa : BothOk fa Good interp da) (hfo : BothOk fo Good interp dor) (ts : List (List (Nat × C))) (hne : ts ≠ [])
    (hts : ∀ t ∈ ts, t ≠ [] ∧ ∀ x ∈ t, Good x.2) (l : List (Tok C))
    (hl : l.reverse = oj '|' (ts.map (fun t => oj '&' (t.map rFac)))) :
    ∃ z, assembleOpers [.right '~' fn, .both '&' fa, .both '|' fo] l = .ok [.val z] ∧ Good z ∧
      interp z = dAllR dor d0 (ts.map (fun t => dAllR da d0 (t.map (fun p => iter dn (p.1) (interp p.2))))) := by
  have t1 : Trans (.right '~' fn) (oj '|' (ts.map (fun t => oj '&' (t.map rFac))))
      (oj '|' (ts.map (fun t => oj '&' (t.map (fun p => [.val (iter neg (p.1) p.2)]))))) := by
    refine trans_oj (by simp [Oper.symbol]) _ _ ts (fun t ht => ?_)
    refine trans_oj (by simp [Oper.symbol]) _ _ t (fun p hp => ?_)
    exact trans_not hfn p.1 p.2
  rw [← hl] at t1
  rw [assembleOpers, trans_assemble t1]
  simp only
  have good : ∀ n x, Good x → Good (iter neg (n) x) := by
    intro n
    induction n with
    | zero => intro x hx; exact hx
    | succ n ih => intro x hx; rw [iter_succ]; exact ih _ (hng x hx)
  have int : ∀ n x, interp (iter neg (n) x) = iter dn (n) (interp x) := by
    intro n
    induction n with
    | zero => intro x; rfl
    | succ n ih => intro x; rw [iter_succ, iter_succ, ih, hni]
  obtain ⟨z, h1, h2, h3⟩ := assemble_and_or (d0 := d0) ha ho hfa hfo (ts.map (fun t => t.map (fun p => iter neg (p.1) p.2)))
    (by simpa using hne)
    (by
      intro t ht
      rw [List.mem_map] at ht
      obtain ⟨t', ht', rfl⟩ := ht
      obtain ⟨q1, q2⟩ := hts t' ht'
      refine ⟨by simpa using q1, ?_⟩
      intro x hx
      rw [List.mem_map] at hx
      obtain ⟨p, hp, rfl⟩ := hx
      exact good _ _ (q2 p hp))
    (oj '|' (ts.map (fun t => oj '&' (t.map (fun p => [Tok.val (iter neg p.1 p.2)]))))).reverse (by
      rw [List.reverse_reverse, List.map_map]
      congr 1
      apply List.map_congr_left
      intro t _
      simp only [Function.comp, List.map_map]
      rfl)
  refine ⟨z, h1, h2, ?_⟩
  rw [h3, List.map_map]
  congr 1
  apply List.map_congr_left
  intro t _
  simp only [Function.comp, List.map_map]
  congr 1
  apply List.map_congr_left
  intro p _
  exact int _ _

end Rocketry
