import Mathlib.Data.List.Chain
import Verif.Base.CharList
import Verif.Props.ParserProps
import Verif.Spec.TextShapeSpec

/-!
# C92: texts that are no expressions are refused

Time texts: accepted texts whose operands are apart are texts of expressions, whatever the items are.  Condition texts:
refused when an operator is missing its operand at one end; but doubled operators, operators at both ends and misplaced
negations are accepted, and part of the text is silently dropped.
-/

namespace Rocketry.Props

open Rocketry Spec

variable {C L : Type}

/-! ### one level -/

/-- An element that is no operator. -/
def isV : Tok C → Bool
  | .op _ => false
  | .val _ => true

def AltToks (s : List (Tok C)) : Prop := (s.map isV).IsChain (· ≠ ·)
def ApartToks (s : List (Tok C)) : Prop := (s.map isV).IsChain (fun a b => ¬ (a = true ∧ b = true))
def OnlyToks (s : List (Tok C)) : Prop := ∀ t ∈ s, ∀ c, t = .op c → c = '&' ∨ c = '|'

theorem both_mid {f : Tok C → Tok C → Except PyErr C} {o : Char} (x y : Tok C) (pre tl : List (Tok C)) :
    operStep (.both o f) (pre ++ x :: .op o :: y :: tl) (pre.length + 1) =
      match f y x with
      | .error e => .error e
      | .ok z => .ok (pre ++ .val z :: tl) := by
  rw [operStep]
  have e1 : prevIndex (pre ++ x :: .op o :: y :: tl).length (pre.length + 1) = pre.length := by simp [prevIndex]
  rw [e1]
  have e2 : (pre ++ x :: .op o :: y :: tl)[pre.length]? = some x := by simp
  have e3 : (pre ++ x :: .op o :: y :: tl)[pre.length + 1 + 1]? = some y := by
    rw [List.getElem?_append_right (by omega)]
    simp [show pre.length + 1 + 1 - pre.length = 2 by omega]
  rw [e2, e3]
  cases hf : f y x with
  | error e => simp only [hf]
  | ok z =>
    simp only [hf]
    have e4 : (pre ++ x :: .op o :: y :: tl).set (pre.length + 1) (.val z) = pre ++ x :: .val z :: y :: tl := by
      rw [List.set_append_right _ _ (by omega)]
      simp
    have e5 : prevIndex (pre ++ x :: .val z :: y :: tl).length (pre.length + 1) = pre.length := by simp [prevIndex]
    have e6 : (pre ++ x :: .val z :: y :: tl).eraseIdx pre.length = pre ++ .val z :: y :: tl := by
      rw [List.eraseIdx_append_of_length_le (Nat.le_refl _)]
      simp
    rw [e4, e5, e6, if_pos (by simp)]
    congr 1
    rw [List.eraseIdx_append_of_length_le (by omega)]
    simp

theorem both_first {f : Tok C → Tok C → Except PyErr C} {o : Char} (y : Tok C) (m : List (Tok C)) :
    operStep (.both o f) (.op o :: y :: m) 0 =
      match f y ((y :: m).getLast (by simp)) with
      | .error e => .error e
      | .ok _ => .ok (y :: m).dropLast := by
  rw [operStep]
  have e1 : prevIndex (Tok.op o :: y :: m).length 0 = m.length + 1 := by simp [prevIndex]
  have e2 : (Tok.op o :: y :: m)[m.length + 1]? = some ((y :: m).getLast (by simp)) := by
    rw [List.getElem?_cons_succ, List.getLast_eq_getElem]
    simp
  have e3 : (Tok.op o :: y :: m)[0 + 1]? = some y := by simp
  rw [e1, e2, e3]
  cases hf : f y ((y :: m).getLast (by simp)) with
  | error e => simp only [hf]
  | ok z =>
    simp only [hf]
    rw [List.set_cons_zero]
    have e5 : prevIndex (Tok.val z :: y :: m).length 0 = m.length + 1 := by simp [prevIndex]
    have e6 : (Tok.val z :: y :: m).eraseIdx (m.length + 1) = .val z :: (y :: m).dropLast := by
      rw [List.eraseIdx_cons_succ, List.dropLast_eq_eraseIdx (i := m.length) (by simp)]
    rw [e5, e6, if_pos (by simp)]
    rfl

theorem both_last {f : Tok C → Tok C → Except PyErr C} {o : Char} (pre : List (Tok C)) :
    operStep (.both o f) (pre ++ [.op o]) pre.length = .error .index := by
  rw [operStep]
  have : (pre ++ [Tok.op o])[pre.length + 1]? = (none : Option (Tok C)) := by
    rw [List.getElem?_eq_none_iff]
    simp
  rw [this]

theorem findIdx_split {o : Char} {s : List (Tok C)} {pos : Nat} (h : s.findIdx? (Tok.isOp o) = some pos) :
    ∃ pre tl, s = pre ++ .op o :: tl ∧ pre.length = pos := by
  rw [List.findIdx?_eq_some_iff_getElem] at h
  obtain ⟨hl, h1, _⟩ := h
  have h2 : s[pos] = .op o := by
    cases hx : s[pos] with
    | val v => rw [hx] at h1; simp [Tok.isOp] at h1
    | op c => rw [hx] at h1; simp [Tok.isOp] at h1; rw [h1]
  refine ⟨s.take pos, s.drop (pos + 1), ?_, by simp; omega⟩
  rw [← h2, List.getElem_cons_drop, List.take_append_drop]

/-- What is kept by the rounds of a loop holds at its end. -/
theorem operLoop_inv {o : Char} {f : Tok C → Tok C → Except PyErr C} {P : List (Tok C) → Prop}
    (hmid : ∀ pre x y tl z, f y x = .ok z → P (pre ++ x :: .op o :: y :: tl) → P (pre ++ .val z :: tl))
    (hfirst : ∀ y m z, f y ((y :: m).getLast (by simp)) = .ok z → P (.op o :: y :: m) → P (y :: m).dropLast) :
    ∀ (n : Nat) (s s' : List (Tok C)), operLoop (.both o f) n s = .ok s' → P s → P s' ∧ NoOp o s' := by
  intro n
  induction n with
  | zero =>
    intro s s' h hp
    rw [operLoop.eq_def] at h
    dsimp only [Oper.symbol] at h
    cases hi : s.findIdx? (Tok.isOp o) with
    | none =>
      rw [hi] at h
      cases h
      exact ⟨hp, List.findIdx?_eq_none_iff.1 hi⟩
    | some pos => rw [hi] at h; cases h
  | succ n ih =>
    intro s s' h hp
    rw [operLoop.eq_def] at h
    dsimp only [Oper.symbol] at h
    cases hi : s.findIdx? (Tok.isOp o) with
    | none =>
      rw [hi] at h
      cases h
      exact ⟨hp, List.findIdx?_eq_none_iff.1 hi⟩
    | some pos =>
      rw [hi] at h
      dsimp only at h
      obtain ⟨pre, tl, rfl, rfl⟩ := findIdx_split hi
      rcases List.eq_nil_or_concat tl with rfl | _
      · rw [both_last] at h; cases h
      · cases tl with
        | nil => rw [both_last] at h; cases h
        | cons y tl =>
          rcases List.eq_nil_or_concat' pre with rfl | ⟨pre, x, rfl⟩
          · rw [List.nil_append, List.length_nil, both_first] at h
            cases hf : f y ((y :: tl).getLast (by simp)) with
            | error e => rw [hf] at h; cases h
            | ok z =>
              rw [hf] at h
              exact ih _ _ h (hfirst y tl z hf hp)
          · rw [List.append_assoc, List.singleton_append, List.length_append, List.length_singleton, both_mid] at h
            cases hf : f y x with
            | error e => rw [hf] at h; cases h
            | ok z =>
              rw [hf] at h
              refine ih _ _ h (hmid pre x y tl z hf ?_)
              simpa using hp

/-- What the rounds of the two loops keep holds at their end. -/
theorem pairs_inv {fa fo : Tok C → Tok C → Except PyErr C} {P : List (Tok C) → Prop} (hrev : ∀ s, P s → P s.reverse)
    (hmid : ∀ o f, (o = '&' ∧ f = fa) ∨ (o = '|' ∧ f = fo) → ∀ pre x y tl z, f y x = .ok z →
      P (pre ++ x :: .op o :: y :: tl) → P (pre ++ .val z :: tl))
    (hfirst : ∀ o f, (o = '&' ∧ f = fa) ∨ (o = '|' ∧ f = fo) → ∀ y m z, f y ((y :: m).getLast (by simp)) = .ok z →
      P (.op o :: y :: m) → P (y :: m).dropLast)
    {l r : List (Tok C)} (h : assembleOpers [.both '&' fa, .both '|' fo] l = .ok r) (hp : P l) :
    P r ∧ NoOp '&' r ∧ NoOp '|' r := by
  rw [assembleOpers, assembleOper] at h
  cases h1 : operLoop (.both '&' fa) l.length l.reverse with
  | error e => rw [h1] at h; cases h
  | ok s =>
    rw [h1] at h
    dsimp only at h
    obtain ⟨p1, n1⟩ := operLoop_inv (hmid _ _ (Or.inl ⟨rfl, rfl⟩)) (hfirst _ _ (Or.inl ⟨rfl, rfl⟩)) _ _ _ h1 (hrev _ hp)
    rw [assembleOpers, assembleOper] at h
    cases h2 : operLoop (.both '|' fo) s.reverse.length s.reverse.reverse with
    | error e => rw [h2] at h; cases h
    | ok s' =>
      rw [h2] at h
      dsimp only at h
      rw [assembleOpers, Except.ok.injEq] at h
      subst h
      rw [List.reverse_reverse] at h2
      suffices key : (P s' ∧ NoOp '&' s') ∧ NoOp '|' s' by
        obtain ⟨⟨p2, n2⟩, n3⟩ := key
        refine ⟨hrev _ p2, ?_, ?_⟩
        · intro t ht; exact n2 t (by simpa using ht)
        · intro t ht; exact n3 t (by simpa using ht)
      refine operLoop_inv (P := fun s => P s ∧ NoOp '&' s) (o := '|') (f := fo) ?_ ?_ _ _ _ h2 ⟨p1, n1⟩
      · rintro pre x y tl z hf ⟨q1, q2⟩
        refine ⟨hmid _ _ (Or.inr ⟨rfl, rfl⟩) _ _ _ _ _ hf q1, ?_⟩
        intro t ht
        simp only [List.mem_append, List.mem_cons] at ht
        rcases ht with ht | rfl | ht
        · exact q2 t (by simp [ht])
        · rfl
        · exact q2 t (by simp [ht])
      · rintro y m z hf ⟨q1, q2⟩
        refine ⟨hfirst _ _ (Or.inr ⟨rfl, rfl⟩) _ _ _ hf q1, ?_⟩
        intro t ht
        exact q2 t (List.mem_cons_of_mem _ (List.dropLast_subset _ ht))

theorem only_reverse {s : List (Tok C)} (h : OnlyToks s) : OnlyToks s.reverse :=
  fun t ht => h t (by simpa using ht)

theorem only_mid {o : Char} {pre tl : List (Tok C)} {x y : Tok C} {z : C} (h : OnlyToks (pre ++ x :: .op o :: y :: tl)) :
    OnlyToks (pre ++ .val z :: tl) := by
  intro t ht c hc
  simp only [List.mem_append, List.mem_cons] at ht
  rcases ht with ht | rfl | ht
  · exact h t (by simp [ht]) c hc
  · cases hc
  · exact h t (by simp [ht]) c hc

theorem only_first {o : Char} {y : Tok C} {m : List (Tok C)} (h : OnlyToks (.op o :: y :: m)) : OnlyToks (y :: m).dropLast :=
  fun t ht => h t (List.mem_cons_of_mem _ (List.dropLast_subset _ ht))

theorem alt_reverse {s : List (Tok C)} (h : AltToks s) : AltToks s.reverse := by
  rw [AltToks, List.map_reverse, List.isChain_reverse]
  exact h.imp (fun a b h => h.symm)

theorem apart_reverse {s : List (Tok C)} (h : ApartToks s) : ApartToks s.reverse := by
  rw [ApartToks, List.map_reverse, List.isChain_reverse]
  exact h.imp (fun a b h => fun hh => h hh.symm)

theorem chain_mid {R : Bool → Bool → Prop} {a b : List Bool} (h : (a ++ true :: false :: true :: b).IsChain R) :
    (a ++ true :: b).IsChain R := by
  rw [List.isChain_split] at h ⊢
  exact ⟨h.1, h.2.tail.tail⟩

theorem chain_first {R : Bool → Bool → Prop} {a : Bool} {b : List Bool} (h : (a :: b).IsChain R) : b.dropLast.IsChain R :=
  h.tail.dropLast

/-- Between two operators of alternating elements stands an element. -/
theorem alt_sides {o : Char} {pre tl : List (Tok C)} {x y : Tok C} (h : AltToks (pre ++ x :: .op o :: y :: tl)) :
    isV x = true ∧ isV y = true := by
  rw [AltToks, List.map_append, List.map_cons, List.isChain_split] at h
  have h2 := h.2
  rw [List.map_cons, List.map_cons, List.isChain_cons_cons, List.isChain_cons_cons] at h2
  exact ⟨by simpa [isV] using h2.1, by simpa [isV] using h2.2.1⟩

theorem map_mid {o : Char} {pre tl : List (Tok C)} {x y : Tok C} (hx : isV x = true) (hy : isV y = true) :
    (pre ++ x :: .op o :: y :: tl).map isV = pre.map isV ++ true :: false :: true :: tl.map isV := by
  rw [List.map_append, List.map_cons, List.map_cons, List.map_cons, hx, hy]
  rfl

theorem map_mid' {pre tl : List (Tok C)} {z : C} : (pre ++ .val z :: tl).map isV = pre.map isV ++ true :: tl.map isV := by
  simp [isV]

theorem plain_vals {r : List (Tok C)} (h : OnlyToks r) (h1 : NoOp '&' r) (h2 : NoOp '|' r) : ∀ t ∈ r, isV t = true := by
  intro t ht
  cases t with
  | val v => rfl
  | op c =>
    rcases h _ ht c rfl with rfl | rfl
    · have := h1 _ ht; simp [Tok.isOp] at this
    · have := h2 _ ht; simp [Tok.isOp] at this

/-- An even number of alternating elements is refused, or nothing is left of it. -/
theorem even_nothing {fa fo : Tok C → Tok C → Except PyErr C} {l r : List (Tok C)} (ha : AltToks l) (hl : l.length % 2 = 0)
    (ho : OnlyToks l) (h : assembleOpers [.both '&' fa, .both '|' fo] l = .ok r) : r = [] := by
  suffices key : (AltToks r ∧ r.length % 2 = 0 ∧ OnlyToks r) ∧ NoOp '&' r ∧ NoOp '|' r by
    obtain ⟨⟨p1, p2, p3⟩, n1, n2⟩ := key
    have hv := plain_vals p3 n1 n2
    match r, p1, p2, hv with
    | [], _, _, _ => rfl
    | [a], _, p2, _ => simp at p2
    | a :: b :: r, p1, _, hv =>
      rw [AltToks, List.map_cons, List.map_cons, List.isChain_cons_cons, hv a (by simp), hv b (by simp)] at p1
      exact absurd rfl p1.1
  refine pairs_inv (P := fun s => AltToks s ∧ s.length % 2 = 0 ∧ OnlyToks s) ?_ ?_ ?_ h ⟨ha, hl, ho⟩
  · rintro s ⟨q1, q2, q3⟩
    exact ⟨alt_reverse q1, by simpa using q2, only_reverse q3⟩
  · rintro o f _ pre x y tl z _ ⟨q1, q2, q3⟩
    obtain ⟨hx, hy⟩ := alt_sides q1
    refine ⟨?_, ?_, only_mid q3⟩
    · rw [AltToks, map_mid hx hy] at q1
      rw [AltToks, map_mid']
      exact chain_mid q1
    · simp only [List.length_append, List.length_cons] at q2 ⊢
      omega
  · rintro o f _ y m z _ ⟨q1, q2, q3⟩
    refine ⟨?_, ?_, only_first q3⟩
    · rw [AltToks] at q1 ⊢
      rw [List.map_dropLast]
      exact chain_first q1
    · simp only [List.length_dropLast, List.length_cons] at q2 ⊢
      omega

/-- Operator functions that take no operators for operands. -/
def Strict (f : Tok C → Tok C → Except PyErr C) : Prop := ∀ x y z, f x y = .ok z → isV x = true ∧ isV y = true

/-- With strict operators, elements that stand apart are refused unless they alternate. -/
theorem strict_alt {fa fo : Tok C → Tok C → Except PyErr C} (hfa : Strict fa) (hfo : Strict fo) {l r : List (Tok C)}
    (ha : ApartToks l) (ho : OnlyToks l) (h : assembleOpers [.both '&' fa, .both '|' fo] l = .ok r) : AltToks l := by
  by_contra hc
  have hst : ∀ o f, (o = '&' ∧ f = fa) ∨ (o = '|' ∧ f = fo) → Strict f := by
    rintro o f (⟨_, rfl⟩ | ⟨_, rfl⟩) <;> assumption
  suffices key : (ApartToks r ∧ ¬ AltToks r ∧ OnlyToks r) ∧ NoOp '&' r ∧ NoOp '|' r by
    obtain ⟨⟨p1, p2, p3⟩, n1, n2⟩ := key
    have hv := plain_vals p3 n1 n2
    match r, p1, p2, hv with
    | [], _, p2, _ => exact p2 List.isChain_nil
    | [a], _, p2, _ => exact p2 (List.isChain_singleton _)
    | a :: b :: r, p1, _, hv =>
      rw [ApartToks, List.map_cons, List.map_cons, List.isChain_cons_cons, hv a (by simp), hv b (by simp)] at p1
      exact absurd ⟨rfl, rfl⟩ p1.1
  refine pairs_inv (P := fun s => ApartToks s ∧ ¬ AltToks s ∧ OnlyToks s) ?_ ?_ ?_ h ⟨ha, hc, ho⟩
  · rintro s ⟨q1, q2, q3⟩
    exact ⟨apart_reverse q1, fun hh => q2 (by simpa using alt_reverse hh), only_reverse q3⟩
  · rintro o f hof pre x y tl z hz ⟨q1, q2, q3⟩
    obtain ⟨hy, hx⟩ := hst o f hof _ _ _ hz
    refine ⟨?_, ?_, only_mid q3⟩
    · rw [ApartToks, map_mid hx hy] at q1
      rw [ApartToks, map_mid']
      exact chain_mid q1
    · intro hh
      apply q2
      rw [AltToks, map_mid'] at hh
      rw [AltToks, map_mid hx hy]
      rw [List.isChain_split] at hh ⊢
      exact ⟨hh.1, List.isChain_cons_cons.2 ⟨by decide, List.isChain_cons_cons.2 ⟨by decide, hh.2⟩⟩⟩
  · rintro o f hof y m z hz ⟨q1, q2, q3⟩
    obtain ⟨hy, hx⟩ := hst o f hof _ _ _ hz
    refine ⟨?_, ?_, only_first q3⟩
    · rw [ApartToks] at q1 ⊢
      rw [List.map_dropLast]
      exact chain_first q1
    · intro hh
      apply q2
      rw [AltToks, List.map_cons]
      rw [AltToks] at hh
      have hs : (y :: m).map isV = (y :: m).dropLast.map isV ++ [true] := by
        conv => lhs; rw [← List.dropLast_append_getLast (l := y :: m) (by simp)]
        rw [List.map_append, List.map_singleton, hx]
      have q1' := q1
      rw [ApartToks, List.map_cons, hs] at q1'
      have : ((y :: m).map isV).IsChain (· ≠ ·) := by
        rw [hs]
        rcases List.eq_nil_or_concat' ((y :: m).dropLast.map isV) with h0 | ⟨D, d, h0⟩
        · rw [h0]; exact List.isChain_singleton _
        · rw [h0] at hh q1' ⊢
          rw [List.append_assoc, List.singleton_append, List.isChain_split] 
          refine ⟨hh, ?_⟩
          have q3' := q1'.tail
          rw [List.tail_cons, List.append_assoc, List.singleton_append, List.isChain_split] at q3'
          have := q3'.2
          rw [List.isChain_cons_cons] at this ⊢
          exact ⟨fun hd => this.1 ⟨hd, rfl⟩, List.isChain_singleton _⟩
      simp only [List.map_cons] at this ⊢
      exact List.isChain_cons_cons.2 ⟨by rw [hy]; simp [isV], this⟩

/-- With strict operators, alternating elements are refused when an operator is at both ends. -/
theorem strict_ends {fa fo : Tok C → Tok C → Except PyErr C} (hfa : Strict fa) (hfo : Strict fo) {l r : List (Tok C)}
    (ho : OnlyToks l) (h1 : (l.map isV).head? = some false) (h2 : (l.map isV).getLast? = some false)
    (h : assembleOpers [.both '&' fa, .both '|' fo] l = .ok r) : False := by
  have hst : ∀ o f, (o = '&' ∧ f = fa) ∨ (o = '|' ∧ f = fo) → Strict f := by
    rintro o f (⟨_, rfl⟩ | ⟨_, rfl⟩) <;> assumption
  suffices key : ((r.map isV).head? = some false ∧ (r.map isV).getLast? = some false ∧ OnlyToks r) ∧ NoOp '&' r ∧ NoOp '|' r by
    obtain ⟨⟨p1, p2, p3⟩, n1, n2⟩ := key
    have hv := plain_vals p3 n1 n2
    cases r with
    | nil => simp at p1
    | cons a r =>
      rw [List.map_cons, hv a (by simp)] at p1
      simp at p1
  refine pairs_inv (P := fun s => (s.map isV).head? = some false ∧ (s.map isV).getLast? = some false ∧ OnlyToks s) ?_ ?_ ?_ h ⟨h1, h2, ho⟩
  · rintro s ⟨q1, q2, q3⟩
    exact ⟨by rw [List.map_reverse, List.head?_reverse]; exact q2, by rw [List.map_reverse, List.getLast?_reverse]; exact q1,
      only_reverse q3⟩
  · rintro o f hof pre x y tl z hz ⟨q1, q2, q3⟩
    obtain ⟨hy, hx⟩ := hst o f hof _ _ _ hz
    rw [map_mid hx hy] at q1 q2
    refine ⟨?_, ?_, only_mid q3⟩
    · rw [map_mid']
      cases pre with
      | nil => simp at q1
      | cons p pre => simpa using q1
    · rw [map_mid']
      rcases List.eq_nil_or_concat' tl with rfl | ⟨tl, t, rfl⟩
      · simp at q2
      · simpa using q2
  · rintro o f hof y m z hz ⟨q1, q2, q3⟩
    obtain ⟨hy, hx⟩ := hst o f hof _ _ _ hz
    exfalso
    rw [List.map_cons, List.getLast?_cons, List.getLast?_map, List.getLast?_eq_getLast_of_ne_nil (by simp : y :: m ≠ [])] at q2
    simp [hx] at q2

/-! ### pieces and tokens -/

mutual
def pieceToks : List Piece → List LTok
  | [] => []
  | p :: l => pieceTok p :: pieceToks l
def pieceTok : Piece → LTok
  | .word pre w post => .item pre w post
  | .sign pre c post => .op pre c post
  | .group l => .grp (pieceToks l)
end

mutual
theorem pieceToks_text : ∀ l : List Piece, ltext (pieceToks l) = piecesText l
  | [] => rfl
  | p :: l => by rw [pieceToks, ltext, piecesText, pieceTok_text p, pieceToks_text l]
theorem pieceTok_text : ∀ p : Piece, (pieceTok p).text = p.text
  | .word pre w post => rfl
  | .sign pre c post => rfl
  | .group l => by rw [pieceTok, LTok.text, Piece.text, pieceToks_text l]
end

theorem pieceTok_item {p : Piece} (h : (pieceTok p).isItem = true) : p.operand = true := by
  cases p with
  | word pre w post => rfl
  | sign pre c post => simp [pieceTok, LTok.isItem] at h
  | group l => rfl

theorem pieceToks_noAdj : ∀ l : List Piece, OperandsApart l → NoAdj (pieceToks l)
  | [], _ => trivial
  | [_], _ => trivial
  | a :: b :: l, h => by
    have ih := pieceToks_noAdj (b :: l) h.2
    simp only [pieceToks] at ih ⊢
    exact ⟨fun hh => h.1 ⟨pieceTok_item hh.1, pieceTok_item hh.2⟩, ih⟩

mutual
theorem pieceToks_ok {syms : List Char} (hs : ∀ c ∈ syms, c = '~' ∨ c = '&' ∨ c = '|') (ha : '&' ∈ syms) (ho : '|' ∈ syms) :
    ∀ l : List Piece, Laid l → LOk syms (pieceToks l)
  | [], _ => trivial
  | p :: l, h => ⟨pieceTok_ok hs ha ho p h.1, pieceToks_ok hs ha ho l h.2⟩
theorem pieceTok_ok {syms : List Char} (hs : ∀ c ∈ syms, c = '~' ∨ c = '&' ∨ c = '|') (ha : '&' ∈ syms) (ho : '|' ∈ syms) :
    ∀ p : Piece, p.Laid → (pieceTok p).Ok syms
  | .word pre w post, ⟨h1, h2, h3⟩ => by
    refine ⟨blank_space h1, blank_space h3, (word_solid h2).1, (word_solid h2).2, ?_⟩
    intro c hc
    have := h2.2.2 c hc
    refine ⟨this.1, this.2.1, ?_⟩
    intro hm
    rcases hs c hm with rfl | rfl | rfl <;> tauto
  | .sign pre c post, ⟨h1, h2, h3⟩ => by
    refine ⟨blank_space h1, blank_space h2, ?_⟩
    rcases h3 with rfl | rfl <;> assumption
  | .group l, h => ⟨pieceToks_ok hs ha ho l h.1, pieceToks_noAdj l h.2⟩
end

/-- How a text of pieces is read: its tokens, the groups reduced, and the level assembled. -/
theorem instructionParse_pieces {item : List Char → Except PyErr C} {ops : List (Oper C)}
    (hs : ∀ c ∈ ops.map Oper.symbol, c = '~' ∨ c = '&' ∨ c = '|') (ha : '&' ∈ ops.map Oper.symbol)
    (ho : '|' ∈ ops.map Oper.symbol) {l : List Piece} (hl : Laid l) (hp : OperandsApart l) {t : Tok C}
    (h : instructionParse item ops (piecesText l) = .ok t) :
    ∃ ts args, parseTrees item (ltrees (pieceToks l)) = .ok ts ∧ reduceArgs ops ts = .ok args ∧ assemble ops args = .ok t := by
  have s1 : SymsPlain (ops.map Oper.symbol) := by
    intro c hc
    rcases hs c hc with rfl | rfl | rfl <;> decide
  have s2 : SymsOk (ops.map Oper.symbol) := by
    intro c hc
    rcases hs c hc with rfl | rfl | rfl <;> decide
  obtain ⟨tr, h1, h2⟩ := toList_text s1 s2 (pieceToks l) (pieceToks_ok hs ha ho l hl) (pieceToks_noAdj l hp)
  rw [pieceToks_text] at h1
  rw [instructionParse, h1] at h
  dsimp only at h
  rw [← parseTrees_norm, h2] at h
  cases h3 : parseTrees item (ltrees (pieceToks l)) with
  | error e => rw [h3] at h; cases h
  | ok ts =>
    rw [h3] at h
    dsimp only at h
    cases h4 : reduceArgs ops ts with
    | error e => rw [h4] at h; cases h
    | ok args =>
      rw [h4] at h
      exact ⟨ts, args, rfl, h4, h⟩

/-- What the level of a group has to give: an element that is no operator, and something about the group. -/
def GroupGives (ops : List (Oper C)) (Q : List Piece → Prop) : Prop :=
  ∀ (l : List Piece) (args : List (Tok C)) (t : Tok C), Laid l → OperandsApart l → (∀ p ∈ l, ∀ g, p = .group g → Q g) →
    args.map isV = l.map Piece.operand → OnlyToks args → assemble ops args = .ok t → isV t = true ∧ Q l

mutual
theorem reduced_pieces {item : List Char → Except PyErr C} {ops : List (Oper C)} {Q : List Piece → Prop} (hg : GroupGives ops Q) :
    ∀ (l : List Piece) (ts : List (TTree C)) (args : List (Tok C)), Laid l → parseTrees item (ltrees (pieceToks l)) = .ok ts →
      reduceArgs ops ts = .ok args →
      args.map isV = l.map Piece.operand ∧ OnlyToks args ∧ ∀ p ∈ l, ∀ g, p = .group g → Q g
  | [], ts, args, _, h1, h2 => by
    rw [pieceToks, ltrees, parseTrees, Except.ok.injEq] at h1
    subst h1
    rw [reduceArgs, Except.ok.injEq] at h2
    subst h2
    exact ⟨rfl, by simp [OnlyToks], by simp⟩
  | p :: l, ts, args, hl, h1, h2 => by
    rw [pieceToks, ltrees, parseTrees] at h1
    cases h3 : parseTree item (pieceTok p).tree with
    | error e => rw [h3] at h1; cases h1
    | ok t =>
      rw [h3] at h1
      dsimp only at h1
      cases h4 : parseTrees item (ltrees (pieceToks l)) with
      | error e => rw [h4] at h1; cases h1
      | ok ts' =>
        rw [h4] at h1
        cases h1
        rw [reduceArgs] at h2
        cases h5 : reduceArg ops t with
        | error e => rw [h5] at h2; cases h2
        | ok a =>
          rw [h5] at h2
          dsimp only at h2
          cases h6 : reduceArgs ops ts' with
          | error e => rw [h6] at h2; cases h2
          | ok args' =>
            rw [h6] at h2
            cases h2
            obtain ⟨i1, i2, i3⟩ := reduced_pieces hg l ts' args' hl.2 h4 h6
            obtain ⟨j1, j2, j3⟩ := reduced_piece hg p t a hl.1 h3 h5
            refine ⟨by rw [List.map_cons, List.map_cons, i1, j1], ?_, ?_⟩
            · intro x hx c hc
              rcases List.mem_cons.1 hx with rfl | hx
              · exact j2 c hc
              · exact i2 x hx c hc
            · intro q hq g hg'
              rcases List.mem_cons.1 hq with rfl | hq
              · exact j3 g hg'
              · exact i3 q hq g hg'
theorem reduced_piece {item : List Char → Except PyErr C} {ops : List (Oper C)} {Q : List Piece → Prop} (hg : GroupGives ops Q) :
    ∀ (p : Piece) (t : TTree C) (a : Tok C), p.Laid → parseTree item (pieceTok p).tree = .ok t → reduceArg ops t = .ok a →
      isV a = p.operand ∧ (∀ c, a = .op c → c = '&' ∨ c = '|') ∧ ∀ g, p = .group g → Q g
  | .word pre w post, t, a, hl, h1, h2 => by
    rw [pieceTok, LTok.tree, parseTree, parseString_word hl.2.1] at h1
    cases h3 : item w with
    | error e => rw [h3] at h1; cases h1
    | ok c =>
      rw [h3] at h1
      cases h1
      rw [reduceArg] at h2
      cases h2
      exact ⟨rfl, by simp, by simp⟩
  | .sign pre c post, t, a, hl, h1, h2 => by
    rw [pieceTok, LTok.tree, parseTree_op item (Or.inr hl.2.2)] at h1
    cases h1
    rw [reduceArg] at h2
    cases h2
    refine ⟨rfl, ?_, by simp⟩
    intro d hd
    cases hd
    exact hl.2.2
  | .group l, t, a, hl, h1, h2 => by
    rw [pieceTok, LTok.tree, parseTree] at h1
    cases h3 : parseTrees item (ltrees (pieceToks l)) with
    | error e => rw [h3] at h1; cases h1
    | ok ts =>
      rw [h3] at h1
      cases h1
      rw [reduceArg] at h2
      cases h4 : reduceArgs ops ts with
      | error e => rw [h4] at h2; cases h2
      | ok args =>
        rw [h4] at h2
        dsimp only at h2
        obtain ⟨i1, i2, i3⟩ := reduced_pieces hg l ts args hl.1 h3 h4
        obtain ⟨k1, k2⟩ := hg l args a hl.1 hl.2 i3 i1 i2 h2
        refine ⟨k1, ?_, ?_⟩
        · intro c hc
          subst hc
          cases k1
        · intro g hg'
          cases hg'
          exact k2
end

/-! ### from alternating pieces to a written expression -/

theorem turns_chain : ∀ l : List Piece, (l.map Piece.operand).IsChain (· ≠ ·) ↔ Turns l
  | [] => by simp [Turns]
  | [a] => by simp [Turns]
  | a :: b :: l => by
    have ih := turns_chain (b :: l)
    rw [List.map_cons] at ih
    rw [List.map_cons, List.map_cons, List.isChain_cons_cons, ih, Turns]

theorem apart_chain : ∀ l : List Piece, (l.map Piece.operand).IsChain (fun a b => ¬ (a = true ∧ b = true)) ↔ OperandsApart l
  | [] => by simp [OperandsApart]
  | [a] => by simp [OperandsApart]
  | a :: b :: l => by
    have ih := apart_chain (b :: l)
    rw [List.map_cons] at ih
    rw [List.map_cons, List.map_cons, List.isChain_cons_cons, ih, OperandsApart]

/-- A conjunct put before an expression. -/
def conjoin (x : Written) (pre post : List Char) : Written → Written
  | .or a p q b => .or (conjoin x pre post a) p q b
  | e => .and x pre post e

theorem conjoin_text (x : Written) (pre post : List Char) : ∀ e : Written,
    (conjoin x pre post e).text = x.text ++ pre ++ '&' :: post ++ e.text
  | .or a p q b => by rw [conjoin, Written.text, conjoin_text x pre post a, Written.text]; simp
  | .item .. => rfl
  | .group _ => rfl
  | .not .. => rfl
  | .and .. => rfl

theorem conjoin_proper {x : Written} {pre post : List Char} (hx : x.Proper) (hc : x.Conj) (h1 : Written.Blank pre)
    (h2 : Written.Blank post) : ∀ e : Written, e.Proper → (conjoin x pre post e).Proper
  | .or a p q b, h => ⟨h.1, h.2.1, conjoin_proper hx hc h1 h2 a h.2.2.1, h.2.2.2⟩
  | .item .., h => ⟨h1, h2, hc, trivial, hx, h⟩
  | .group _, h => ⟨h1, h2, hc, trivial, hx, h⟩
  | .not .., h => ⟨h1, h2, hc, trivial, hx, h⟩
  | .and .., h => ⟨h1, h2, hc, trivial, hx, h⟩

theorem conjoin_noNot {x : Written} {pre post : List Char} (hx : x.NoNot) : ∀ e : Written, e.NoNot → (conjoin x pre post e).NoNot
  | .or a p q b, h => ⟨conjoin_noNot hx a h.1, h.2⟩
  | .item .., h => ⟨hx, h⟩
  | .group _, h => ⟨hx, h⟩
  | .not .., h => ⟨hx, h⟩
  | .and .., h => ⟨hx, h⟩

/-- An operand with expressions in its brackets is an expression that may stand anywhere. -/
theorem operand_written {p : Piece} (hl : p.Laid) (hg : ∀ g, p = .group g → IsExpression (piecesText g)) (ho : p.operand = true) :
    ∃ e : Written, e.Proper ∧ e.NoNot ∧ e.Conj ∧ e.text = p.text := by
  cases p with
  | word pre w post => exact ⟨.item pre w post, hl, trivial, trivial, rfl⟩
  | sign pre c post => cases ho
  | group g =>
    obtain ⟨e, h1, h2, h3⟩ := hg g rfl
    refine ⟨.group e, h1, h2, trivial, ?_⟩
    rw [Written.text, Piece.text, h3]
    simp

theorem pieces_written : ∀ (n : Nat) (l : List Piece), l.length = 2 * n + 1 → Laid l → Turns l → (∀ p, l.head? = some p → p.operand = true) →
    (∀ p ∈ l, ∀ g, p = .group g → IsExpression (piecesText g)) → IsExpression (piecesText l)
  | 0, [p], _, hl, _, hh, hg => by
    obtain ⟨e, h1, h2, _, h3⟩ := operand_written hl.1 (hg p (by simp)) (hh p rfl)
    exact ⟨e, h1, h2, by simp [piecesText, h3]⟩
  | n + 1, p :: q :: r :: l, hn, hl, ht, hh, hg => by
    obtain ⟨e, h1, h2, h3, h4⟩ := operand_written hl.1 (hg p (by simp)) (hh p rfl)
    have hp := hh p rfl
    have hq : q.operand = false := by
      have := ht.1
      rw [hp] at this
      simpa using this.symm
    have hr : r.operand = true := by
      have := ht.2.1
      rw [hq] at this
      simpa using this.symm
    obtain ⟨e', i1, i2, i3⟩ := pieces_written n (r :: l) (by simp at hn ⊢; omega) hl.2.2 ht.2.2
      (fun p hp => by simp at hp; subst hp; exact hr) (fun p hp => hg p (by simp at hp ⊢; tauto))
    cases q with
    | word pre w post => cases hq
    | group g => cases hq
    | sign pre c post =>
      obtain ⟨b1, b2, hc⟩ := hl.2.1
      rcases hc with rfl | rfl
      · refine ⟨conjoin e pre post e', conjoin_proper h1 h3 b1 b2 e' i1, conjoin_noNot h2 e' i2, ?_⟩
        rw [conjoin_text, h4, i3]
        simp [piecesText, Piece.text]
      · refine ⟨.or e pre post e', ⟨b1, b2, h1, i1⟩, ⟨h2, i2⟩, ?_⟩
        rw [Written.text, h4, i3]
        simp [piecesText, Piece.text]
  | 0, [], hn, _, _, _, _ => by simp at hn
  | 0, _ :: _ :: _, hn, _, _, _, _ => by simp at hn
  | n + 1, [], hn, _, _, _, _ => by simp at hn
  | n + 1, [_], hn, _, _, _, _ => by simp at hn
  | n + 1, [_, _], hn, _, _, _, _ => by simp at hn; omega

/-! ### time texts -/

theorem strict_and : Strict (fun x y : Tok Period =>
    match x, y with
    | .val p, .val q => Period.mkAll ([p, q].flatMap allPeriodParts)
    | _, _ => .error .type) := by
  intro x y z h
  cases x <;> cases y <;> first | exact ⟨rfl, rfl⟩ | cases h

theorem strict_or : Strict (fun x y : Tok Period =>
    match x, y with
    | .val p, .val q => Period.mkAny ([p, q].flatMap anyPeriodParts)
    | _, _ => .error .type) := by
  intro x y z h
  cases x <;> cases y <;> first | exact ⟨rfl, rfl⟩ | cases h

/-- The first of what is left is no operator. -/
theorem assembled_val {fa fo : Tok C → Tok C → Except PyErr C} {args : List (Tok C)} {t : Tok C} (ho : OnlyToks args)
    (h : assemble [.both '&' fa, .both '|' fo] args = .ok t) : isV t = true := by
  rw [assemble] at h
  cases h1 : assembleOpers [.both '&' fa, .both '|' fo] args with
  | error e => rw [h1] at h; cases h
  | ok r =>
    rw [h1] at h
    have key : OnlyToks r ∧ NoOp '&' r ∧ NoOp '|' r := by
      refine pairs_inv (P := OnlyToks) (fun s hs => only_reverse hs) ?_ ?_ h1 ho
      · intro o f _ pre x y tl z _ hp
        exact only_mid hp
      · intro o f _ y m z _ hp
        exact only_first hp
    cases r with
    | nil => cases h
    | cons a r =>
      cases h
      exact plain_vals key.1 key.2.1 key.2.2 _ (List.mem_cons_self)

theorem chain_last : ∀ (l : List Bool), l.IsChain (· ≠ ·) → l.length % 2 = 1 → l.getLast? = l.head?
  | [], _, h => by simp at h
  | [a], _, _ => rfl
  | a :: b :: l, hc, h => by
    rw [List.isChain_cons_cons] at hc
    cases l with
    | nil => simp at h
    | cons c l =>
      have ih := chain_last (c :: l) hc.2.tail (by simp at h ⊢; omega)
      have hc2 := hc.2
      rw [List.isChain_cons_cons] at hc2
      have : a = c := by
        have h1 := hc.1
        have h2 := hc2.1
        cases a <;> cases b <;> cases c <;> simp_all
      subst this
      rw [List.getLast?_cons_cons, List.getLast?_cons_cons, ih]
      rfl

theorem time_level : GroupGives timeOpers (fun l => IsExpression (piecesText l)) := by
  intro l args t hl hap hg hm ho h
  refine ⟨assembled_val ho h, ?_⟩
  rw [assemble] at h
  cases h1 : assembleOpers timeOpers args with
  | error e => rw [h1] at h; cases h
  | ok r =>
    rw [h1] at h
    have hap' : ApartToks args := by rw [ApartToks, hm]; exact (apart_chain l).2 hap
    have halt := strict_alt strict_and strict_or hap' ho h1
    have hlen : args.length = l.length := by
      have := congrArg List.length hm
      simpa using this
    have hodd : args.length % 2 = 1 := by
      by_contra hc
      have := even_nothing halt (by omega) ho h1
      rw [this] at h
      cases h
    have hhead : ∀ p, l.head? = some p → p.operand = true := by
      intro p hp
      by_contra hc
      have e1 : (args.map isV).head? = some false := by
        rw [hm, List.head?_map, hp]
        simpa using hc
      have e2 : (args.map isV).getLast? = some false := by
        rw [chain_last _ halt (by simpa using hodd), e1]
      exact strict_ends strict_and strict_or ho e1 e2 h1
    have hturns : Turns l := by
      rw [← turns_chain, ← hm]
      exact halt
    exact pieces_written (l.length / 2) l (by omega) hl hturns hhead hg

/-- C92, time texts: whatever is accepted is the text of an expression, when operands are apart.  Nothing is assumed about
the items. -/
theorem C92_time_partial (item : List Char → Except PyErr Period) (l : List Piece) (hl : Laid l) (ha : OperandsApart l) (t : Tok Period)
    (h : parseTime item (piecesText l) = .ok t) : IsExpression (piecesText l) := by
  obtain ⟨ts, args, h1, h2, h3⟩ := instructionParse_pieces (ops := timeOpers) (by simp [timeOpers, Oper.symbol])
    (by simp [timeOpers, Oper.symbol]) (by simp [timeOpers, Oper.symbol]) hl ha h
  obtain ⟨i1, i2, i3⟩ := reduced_pieces time_level l ts args hl h1 h2
  exact (time_level l args t hl ha i3 i1 i2 h3).2

/-! ### condition texts -/

theorem cond_assemble (strLeaf : Char → L) {args : List (Tok (Cond L))} (ho : OnlyToks args) :
    assemble (condOpers strLeaf) args = assemble
      [.both '&' (fun x y => .ok (Cond.mkAll ([x.cond strLeaf, y.cond strLeaf].flatMap Cond.allParts))),
       .both '|' (fun x y => .ok (Cond.mkAny ([x.cond strLeaf, y.cond strLeaf].flatMap Cond.anyParts)))] args := by
  rw [assemble, condOpers, assembleOpers, assembleOper, operLoop_done ?_]
  · dsimp only
    rw [List.reverse_reverse]
    rfl
  · intro x hx
    have hx' : x ∈ args := by simpa using hx
    cases x with
    | val v => rfl
    | op c =>
      rcases ho _ hx' c rfl with rfl | rfl <;> simp [Tok.isOp, Oper.symbol]

theorem cond_level (strLeaf : Char → L) : GroupGives (condOpers strLeaf) (fun _ => True) := by
  intro l args t _ _ _ _ ho h
  rw [cond_assemble strLeaf ho] at h
  exact ⟨assembled_val ho h, trivial⟩

/-- C92, condition texts: operands and operators that take turns are refused when there is an even number of them, that
is, when an operator has no operand at one end of the text. -/
theorem C92_condition_partial (strLeaf : Char → L) (item : List Char → Except PyErr (Cond L)) (l : List Piece) (hl : Laid l)
    (ht : Turns l) (he : l.length % 2 = 0) : ∃ e, parseCondition strLeaf item (piecesText l) = .error e := by
  rw [parseCondition]
  cases h : instructionParse item (condOpers strLeaf) (piecesText l) with
  | error e => exact ⟨e, rfl⟩
  | ok t =>
    exfalso
    have ha : OperandsApart l := (apart_chain l).1 (((turns_chain l).2 ht).imp (fun a b h hh => h (by rw [hh.1, hh.2])))
    obtain ⟨ts, args, h1, h2, h3⟩ := instructionParse_pieces (ops := condOpers strLeaf) (by simp [condOpers, Oper.symbol])
      (by simp [condOpers, Oper.symbol]) (by simp [condOpers, Oper.symbol]) hl ha h
    obtain ⟨i1, i2, _⟩ := reduced_pieces (cond_level strLeaf) l ts args hl h1 h2
    rw [cond_assemble strLeaf i2, assemble] at h3
    cases h4 : assembleOpers
      [.both '&' (fun x y => .ok (Cond.mkAll ([x.cond strLeaf, y.cond strLeaf].flatMap Cond.allParts))),
       .both '|' (fun x y => .ok (Cond.mkAny ([x.cond strLeaf, y.cond strLeaf].flatMap Cond.anyParts)))] args with
    | error e => rw [h4] at h3; cases h3
    | ok r =>
      rw [h4] at h3
      have hlen : args.length = l.length := by
        have := congrArg List.length i1
        simpa using this
      have := even_nothing (by rw [AltToks, i1]; exact (turns_chain l).2 ht) (by omega) i2 h4
      rw [this] at h3
      cases h3

/-! ### what is accepted although it is no expression -/

/-- `daily && weekly` and `daily || weekly`: the operators doubled, as many languages write them.  The text is read as the
first operand alone. -/
theorem C92_doubled_violated (strLeaf : Char → L) (item : List Char → Except PyErr (Cond L)) (a b : Cond L)
    (ha : item ['a'] = .ok a) (hb : item ['b'] = .ok b) :
    parseCondition strLeaf item c!"a && b" = .ok a ∧ parseCondition strLeaf item c!"a || b" = .ok a := by
  refine ⟨?_, ?_⟩ <;> simp [parseCondition, instructionParse, toList, toListAux, findOuter, splitTrees, splitTree,
    splitOperations, strip, isSpace, splitKeep, condOpers, Oper.symbol, parseTrees, parseTree, parseString, ha, hb,
    reduceArgs, reduceArg, assemble, assembleOpers, assembleOper, operLoop, operStep, Tok.isOp, prevIndex, Tok.cond,
    List.findIdx?_cons]

/-- An operator at both ends: they cancel out. -/
theorem C92_ends_violated (strLeaf : Char → L) (item : List Char → Except PyErr (Cond L)) (a : Cond L)
    (ha : item ['a'] = .ok a) :
    parseCondition strLeaf item c!"& a &" = .ok a ∧ parseCondition strLeaf item c!"| a &" = .ok a := by
  refine ⟨?_, ?_⟩ <;> simp [parseCondition, instructionParse, toList, toListAux, findOuter, splitTrees, splitTree,
    splitOperations, strip, isSpace, splitKeep, condOpers, Oper.symbol, parseTrees, parseTree, parseString, ha,
    reduceArgs, reduceArg, assemble, assembleOpers, assembleOper, operLoop, operStep, Tok.isOp, prevIndex, Tok.cond,
    List.findIdx?_cons]

/-- A negation between two operands: the second operand is dropped. -/
theorem C92_negation_violated (strLeaf : Char → L) (item : List Char → Except PyErr (Cond L)) (a b : Cond L)
    (ha : item ['a'] = .ok a) (hb : item ['b'] = .ok b) :
    parseCondition strLeaf item c!"a ~ b" = .ok a := by
  simp [parseCondition, instructionParse, toList, toListAux, findOuter, splitTrees, splitTree,
    splitOperations, strip, isSpace, splitKeep, condOpers, Oper.symbol, parseTrees, parseTree, parseString, ha, hb,
    reduceArgs, reduceArg, assemble, assembleOpers, assembleOper, operLoop, operStep, Tok.isOp, prevIndex, Tok.cond,
    List.findIdx?_cons]

/-- Operands side by side in a time text: all but the first are dropped, and a dangling operator makes the second
remain. -/
theorem C92_beside_violated (item : List Char → Except PyErr Period) (z : Period) (a b : Period)
    (ha : item ['a'] = .ok a) (hb : item ['b'] = .ok b) (hz : Period.mkAll ([b, a].flatMap allPeriodParts) = .ok z) :
    parseTime item c!"a(b)" = .ok (.val a) ∧ parseTime item c!"a(b)&" = .ok (.val b) := by
  refine ⟨?_, ?_⟩
  · simp [parseTime, instructionParse, toList, toListAux, findOuter, splitTrees, splitTree,
      splitOperations, strip, isSpace, splitKeep, timeOpers, Oper.symbol, parseTrees, parseTree, parseString, ha, hb,
      reduceArgs, reduceArg, assemble, assembleOpers, assembleOper, operLoop, operStep, Tok.isOp, prevIndex,
      List.findIdx?_cons]
  · simp only [List.flatMap_cons, List.flatMap_nil, List.append_nil] at hz
    simp [parseTime, instructionParse, toList, toListAux, findOuter, splitTrees, splitTree,
      splitOperations, strip, isSpace, splitKeep, timeOpers, Oper.symbol, parseTrees, parseTree, parseString, ha, hb, hz,
      reduceArgs, reduceArg, assemble, assembleOpers, assembleOper, operLoop, operStep, Tok.isOp, prevIndex,
      List.findIdx?_cons]

/-! ### cases -/

/-- `a | (b & c)`. -/
def samplePieces : List Piece :=
  [.word [] ['a'] [' '], .sign [] '|' [' '], .group [.word [] ['b'] [' '], .sign [] '&' [' '], .word [] ['c'] []]]

example : piecesText samplePieces = c!"a | (b & c)" := by decide
theorem samplePieces_laid : Laid samplePieces ∧ OperandsApart samplePieces := by
  simp only [samplePieces, Laid, Piece.Laid, OperandsApart, Piece.operand, Written.Blank, Written.Word]
  simp

def sampleTimes (w : List Char) : Except PyErr Period := if w.length = 1 then .ok .always else .error .value

example : ∃ t, parseTime sampleTimes (piecesText samplePieces) = .ok t := by
  exact ⟨_, rfl⟩

/-- `a | b &`. -/
def sampleDangling : List Piece := [.word [] ['a'] [' '], .sign [] '|' [' '], .word [] ['b'] [' '], .sign [] '&' []]

example : piecesText sampleDangling = c!"a | b &" ∧ sampleDangling.length % 2 = 0 := by decide
example : Laid sampleDangling ∧ Turns sampleDangling := by
  simp only [sampleDangling, Laid, Piece.Laid, Turns, Piece.operand, Written.Blank, Written.Word]
  simp

/-! ### operators alone -/

/-- The operators left in the list are operators of the syntax. -/
def SyntaxToks (s : List (Tok C)) : Prop := ∀ t ∈ s, ∀ c, t = .op c → c = '~' ∨ c = '&' ∨ c = '|'

theorem mem_set_val {s : List (Tok C)} {i : Nat} {z : C} {t : Tok C} (h : t ∈ s.set i (.val z)) : t ∈ s ∨ t = .val z :=
  List.mem_or_eq_of_mem_set h

theorem operStep_from {o : Oper C} {s s' : List (Tok C)} {pos : Nat} (h : operStep o s pos = .ok s') :
    ∀ t ∈ s', t ∈ s ∨ ∃ z, t = .val z := by
  intro t ht
  cases o with
  | both sym f =>
    rw [operStep] at h
    split at h
    · rename_i l r _ _
      rcases hf : f l r with e | z
      · rw [hf] at h; cases h
      · rw [hf] at h
        dsimp only at h
        split at h
        · injection h with h
          subst h
          rcases mem_set_val (List.mem_of_mem_eraseIdx (List.mem_of_mem_eraseIdx ht)) with h1 | h1
          · exact .inl h1
          · exact .inr ⟨z, h1⟩
        · cases h
    · cases h
  | right sym f =>
    rw [operStep] at h
    split at h
    · cases h
    · rename_i x _
      rcases hf : f x with e | z
      · rw [hf] at h; cases h
      · rw [hf] at h
        injection h with h
        subst h
        rcases mem_set_val (List.mem_of_mem_eraseIdx ht) with h1 | h1
        · exact .inl h1
        · exact .inr ⟨z, h1⟩

theorem operLoop_from {o : Oper C} : ∀ (n : Nat) {s s' : List (Tok C)}, operLoop o n s = .ok s' →
    (∀ t ∈ s', t ∈ s ∨ ∃ z, t = .val z) ∧ ∀ t ∈ s', t.isOp o.symbol = false := by
  intro n
  induction n with
  | zero =>
    intro s s' h
    rw [operLoop] at h
    split at h
    · rename_i hf
      injection h with h
      subst h
      exact ⟨fun t ht => .inl ht, fun t ht => by simpa using List.findIdx?_eq_none_iff.mp hf t ht⟩
    · cases h
  | succ n ih =>
    intro s s' h
    rw [operLoop] at h
    split at h
    · rename_i hf
      injection h with h
      subst h
      exact ⟨fun t ht => .inl ht, fun t ht => by simpa using List.findIdx?_eq_none_iff.mp hf t ht⟩
    · rename_i pos _
      dsimp only at h
      rcases hs : operStep o s pos with e | s1
      · rw [hs] at h; cases h
      · rw [hs] at h
        obtain ⟨h1, h2⟩ := ih h
        refine ⟨fun t ht => ?_, h2⟩
        rcases h1 t ht with h3 | h3
        · exact operStep_from hs t h3
        · exact .inr h3

theorem assembleOpers_from : ∀ (ops : List (Oper C)) {s s' : List (Tok C)}, assembleOpers ops s = .ok s' →
    (∀ t ∈ s', t ∈ s ∨ ∃ z, t = .val z) ∧ ∀ o ∈ ops, ∀ t ∈ s', t.isOp o.symbol = false := by
  intro ops
  induction ops with
  | nil =>
    intro s s' h
    rw [assembleOpers] at h
    injection h with h
    subst h
    exact ⟨fun t ht => .inl ht, fun _ ho => nomatch ho⟩
  | cons o ops ih =>
    intro s s' h
    rw [assembleOpers] at h
    rcases h1 : assembleOper o s with e | s1
    · rw [h1] at h; cases h
    rw [h1] at h
    obtain ⟨i1, i2⟩ := ih h
    rw [assembleOper] at h1
    rcases h2 : operLoop o s.length s.reverse with e | s2
    · rw [h2] at h1; cases h1
    rw [h2] at h1
    injection h1 with h1
    subst h1
    obtain ⟨j1, j2⟩ := operLoop_from _ h2
    refine ⟨fun t ht => ?_, fun o' ho' t ht => ?_⟩
    · rcases i1 t ht with h3 | h3
      · rcases j1 t (List.mem_reverse.mp h3) with h4 | h4
        · exact .inl (List.mem_reverse.mp h4)
        · exact .inr h4
      · exact .inr h3
    · rcases List.mem_cons.mp ho' with rfl | ho'
      · rcases i1 t ht with h3 | ⟨z, rfl⟩
        · exact j2 t (List.mem_reverse.mp h3)
        · rfl
      · exact i2 o' ho' t ht

theorem cond_assembled (strLeaf : Char → L) {s : List (Tok (Cond L))} (h : SyntaxToks s) {t : Tok (Cond L)}
    (ht : assemble (condOpers strLeaf) s = .ok t) : ∃ c, t = .val c := by
  rw [assemble] at ht
  rcases h1 : assembleOpers (condOpers strLeaf) s with e | s1
  · rw [h1] at ht; cases ht
  rw [h1] at ht
  obtain ⟨i1, i2⟩ := assembleOpers_from _ h1
  cases s1 with
  | nil => cases ht
  | cons a s1 =>
    injection ht with ht
    subst ht
    cases a with
    | val c => exact ⟨c, rfl⟩
    | op d =>
      exfalso
      have hno : ∀ o ∈ condOpers strLeaf, (Tok.op d : Tok (Cond L)).isOp o.symbol = false := fun o ho => i2 o ho _ List.mem_cons_self
      rcases i1 (.op d) List.mem_cons_self with h2 | ⟨z, h2⟩
      · rcases h _ h2 d rfl with rfl | rfl | rfl
        · exact absurd (hno (.right '~' _) List.mem_cons_self) (by simp [Tok.isOp, Oper.symbol])
        · exact absurd (hno (.both '&' _) (List.mem_cons_of_mem _ List.mem_cons_self)) (by simp [Tok.isOp, Oper.symbol])
        · exact absurd (hno (.both '|' _) (List.mem_cons_of_mem _ (List.mem_cons_of_mem _ List.mem_cons_self)))
            (by simp [Tok.isOp, Oper.symbol])
      · exact nomatch h2

mutual
/-- The same for trees of tokens. -/
def SyntaxTree : TTree C → Prop
  | .tok t => ∀ c, t = .op c → c = '~' ∨ c = '&' ∨ c = '|'
  | .sub l => SyntaxTrees l
def SyntaxTrees : List (TTree C) → Prop
  | [] => True
  | t :: l => SyntaxTree t ∧ SyntaxTrees l
end

theorem parseString_syntax {item : List Char → Except PyErr C} {s : List Char} {t : Tok C} (h : parseString item s = .ok t) :
    ∀ c, t = .op c → c = '~' ∨ c = '&' ∨ c = '|' := by
  intro c hc
  subst hc
  unfold parseString at h
  split at h
  · injection h with h; injection h with h; exact .inr (.inl h.symm)
  split at h
  · injection h with h; injection h with h; exact .inr (.inr h.symm)
  split at h
  · injection h with h; injection h with h; exact .inl h.symm
  · split at h
    · injection h with h; cases h
    · cases h

mutual
theorem parseTree_syntax {item : List Char → Except PyErr C} : ∀ {p : PTree} {t : TTree C}, parseTree item p = .ok t → SyntaxTree t
  | .str s, t, h => by
    rw [parseTree] at h
    rcases h1 : parseString item s with e | k
    · rw [h1] at h; cases h
    · rw [h1] at h
      injection h with h
      subst h
      exact parseString_syntax h1
  | .sub l, t, h => by
    rw [parseTree] at h
    rcases h1 : parseTrees item l with e | k
    · rw [h1] at h; cases h
    · rw [h1] at h
      injection h with h
      subst h
      exact parseTrees_syntax h1
theorem parseTrees_syntax {item : List Char → Except PyErr C} : ∀ {p : List PTree} {t : List (TTree C)},
    parseTrees item p = .ok t → SyntaxTrees t
  | [], t, h => by
    rw [parseTrees] at h
    injection h with h
    subst h
    exact True.intro
  | a :: p, t, h => by
    rw [parseTrees] at h
    rcases h1 : parseTree item a with e | k
    · rw [h1] at h; cases h
    rw [h1] at h
    dsimp only at h
    rcases h2 : parseTrees item p with e | ks
    · rw [h2] at h; cases h
    rw [h2] at h
    injection h with h
    subst h
    exact ⟨parseTree_syntax h1, parseTrees_syntax h2⟩
end

mutual
theorem reduceArg_syntax (strLeaf : Char → L) : ∀ {p : TTree (Cond L)} {t : Tok (Cond L)}, SyntaxTree p →
    reduceArg (condOpers strLeaf) p = .ok t → ∀ c, t = .op c → c = '~' ∨ c = '&' ∨ c = '|'
  | .tok k, t, hp, h => by
    rw [reduceArg] at h
    injection h with h
    subst h
    exact hp
  | .sub l, t, hp, h => by
    rw [reduceArg] at h
    rcases h1 : reduceArgs (condOpers strLeaf) l with e | k
    · rw [h1] at h; cases h
    rw [h1] at h
    obtain ⟨c, hc⟩ := cond_assembled strLeaf (reduceArgs_syntax strLeaf hp h1) h
    intro d hd
    rw [hc] at hd
    exact nomatch hd
theorem reduceArgs_syntax (strLeaf : Char → L) : ∀ {p : List (TTree (Cond L))} {t : List (Tok (Cond L))}, SyntaxTrees p →
    reduceArgs (condOpers strLeaf) p = .ok t → SyntaxToks t
  | [], t, _, h => by
    rw [reduceArgs] at h
    injection h with h
    subst h
    exact fun _ ht => nomatch ht
  | a :: p, t, hp, h => by
    rw [reduceArgs] at h
    rcases h1 : reduceArg (condOpers strLeaf) a with e | k
    · rw [h1] at h; cases h
    rw [h1] at h
    dsimp only at h
    rcases h2 : reduceArgs (condOpers strLeaf) p with e | ks
    · rw [h2] at h; cases h
    rw [h2] at h
    injection h with h
    subst h
    intro t ht
    rcases List.mem_cons.mp ht with rfl | ht
    · exact reduceArg_syntax strLeaf hp.1 h1
    · exact reduceArgs_syntax strLeaf hp.2 h2 t ht
end

/-- C92: no text is read as an operator alone (for which `parse_condition` would raise an AttributeError of its own). -/
theorem C92_operator (strLeaf : Char → L) (item : List Char → Except PyErr (Cond L)) (s : List Char) (c : Char) :
    instructionParse item (condOpers strLeaf) s ≠ .ok (.op c) := by
  intro h
  rw [instructionParse] at h
  rcases h1 : toList s with e | l
  · rw [h1] at h; cases h
  rw [h1] at h
  dsimp only at h
  rcases h2 : parseTrees item (splitTrees ((condOpers strLeaf).map Oper.symbol) l) with e | ts
  · rw [h2] at h; cases h
  rw [h2] at h
  dsimp only at h
  rcases h3 : reduceArgs (condOpers strLeaf) ts with e | args
  · rw [h3] at h; cases h
  rw [h3] at h
  obtain ⟨v, hv⟩ := cond_assembled strLeaf (reduceArgs_syntax strLeaf (parseTrees_syntax h2) h3) h
  exact nomatch hv

/-- Texts without any operand are accepted: `~~` and `~&` are read as conditions with the operator strings as
parts, whatever the items mean; observing them raises AttributeError at every check. -/
theorem C92_operators_violated (strLeaf : Char → L) (item : List Char → Except PyErr (Cond L)) :
    parseCondition strLeaf item c!"~~" = .ok (.not (.leaf (strLeaf '~'))) ∧
    parseCondition strLeaf item c!"~&" = .ok (.not (.leaf (strLeaf '&'))) := by
  refine ⟨?_, ?_⟩ <;> simp [parseCondition, instructionParse, toList, toListAux, findOuter, splitTrees, splitTree,
    splitOperations, strip, isSpace, splitKeep, condOpers, Oper.symbol, parseTrees, parseTree, parseString,
    reduceArgs, reduceArg, assemble, assembleOpers, assembleOper, operLoop, operStep, Tok.isOp, prevIndex, Tok.cond,
    List.findIdx?_cons, Cond.invert]

end Rocketry.Props
