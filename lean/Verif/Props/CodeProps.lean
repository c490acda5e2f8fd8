import Verif.Spec.CodeSpec

/-!
# C90: a code task gives what its code gives as a script
-/

namespace Rocketry.Props
open Rocketry.Code Rocketry.Spec

variable {V : Type}

/-! ### functions do not see the variables of the code -/

theorem eval_isolated (o : Outside V) : ∀ (n : Nat) (loc loc' : Vars V) (fr : List (String × Val V)) (e : Expr V),
    eval o n loc (some fr) e = eval o n loc' (some fr) e
  | 0, _, _, _, _ => rfl
  | n + 1, loc, loc', fr, e => by
    cases e with
    | const v => rfl
    | name x => rfl
    | op k a b => simp only [eval]; rw [eval_isolated o n loc loc' fr a, eval_isolated o n loc loc' fr b]
    | call f a =>
      simp only [eval]
      rw [eval_isolated o n loc loc' fr f, eval_isolated o n loc loc' fr a]
      rcases eval o n loc' (some fr) f with _ | _ | g
      · rfl
      · rfl
      · rcases eval o n loc' (some fr) a with _ | _ | v
        · rfl
        · rfl
        · cases g with
          | base w => rfl
          | fn cap p body => exact eval_isolated o n loc loc' _ body
    | lam p body => rfl

/-! ### more fuel changes nothing -/

theorem eval_mono (o : Outside V) : ∀ {n : Nat} {loc : Vars V} {fr : Option (List (String × Val V))} {e : Expr V}
    {r : Except CErr (Val V)}, eval o n loc fr e = some r → eval o (n + 1) loc fr e = some r
  | 0, _, _, _, _, h => by simp [eval] at h
  | n + 1, loc, fr, e, r, h => by
    cases e with
    | const v => exact h
    | name x => exact h
    | op k a b =>
      rw [eval] at h ⊢
      rcases ha : eval o n loc fr a with _ | _ | u
      · rw [ha] at h; cases h
      · rw [ha] at h; rw [eval_mono o ha]; exact h
      · rw [ha] at h; rw [eval_mono o ha]
        simp only at h ⊢
        rcases hb : eval o n loc fr b with _ | _ | v
        · rw [hb] at h; cases h
        · rw [hb] at h; rw [eval_mono o hb]; exact h
        · rw [hb] at h; rw [eval_mono o hb]; exact h
    | call f a =>
      rw [eval] at h ⊢
      rcases ha : eval o n loc fr f with _ | _ | u
      · rw [ha] at h; cases h
      · rw [ha] at h; rw [eval_mono o ha]; exact h
      · rw [ha] at h; rw [eval_mono o ha]
        simp only at h ⊢
        rcases hb : eval o n loc fr a with _ | _ | v
        · rw [hb] at h; cases h
        · rw [hb] at h; rw [eval_mono o hb]; exact h
        · rw [hb] at h; rw [eval_mono o hb]
          cases u with
          | base w => exact h
          | fn cap p body => exact eval_mono o h
    | lam p body => exact h

theorem eval_le (o : Outside V) {n m : Nat} {loc : Vars V} {fr : Option (List (String × Val V))} {e : Expr V}
    {r : Except CErr (Val V)} (h : eval o n loc fr e = some r) (hm : n ≤ m) : eval o m loc fr e = some r := by
  obtain ⟨k, rfl⟩ := Nat.exists_eq_add_of_le hm
  clear hm
  induction k with
  | zero => exact h
  | succ k ih => exact eval_mono o ih

theorem exec_mono (o : Outside V) : ∀ {n : Nat} {loc : Vars V} {s : Stmt V} {r : Except CErr (Vars V)},
    exec o n loc s = some r → exec o (n + 1) loc s = some r
  | 0, _, _, _, h => by simp [exec] at h
  | n + 1, loc, s, r, h => by
    cases s with
    | pass => exact h
    | assign x e =>
      rw [exec] at h ⊢
      rcases ha : eval o n loc none e with _ | _ | u
      · rw [ha] at h; cases h
      · rw [ha] at h; rw [eval_mono o ha]; exact h
      · rw [ha] at h; rw [eval_mono o ha]; exact h
    | expr e =>
      rw [exec] at h ⊢
      rcases ha : eval o n loc none e with _ | _ | u
      · rw [ha] at h; cases h
      · rw [ha] at h; rw [eval_mono o ha]; exact h
      · rw [ha] at h; rw [eval_mono o ha]; exact h
    | ite e a b =>
      rw [exec] at h ⊢
      rcases ha : eval o n loc none e with _ | _ | u
      · rw [ha] at h; cases h
      · rw [ha] at h; rw [eval_mono o ha]; exact h
      · rw [ha] at h; rw [eval_mono o ha]; exact exec_mono o h
    | loop e a =>
      rw [exec] at h ⊢
      rcases ha : eval o n loc none e with _ | _ | u
      · rw [ha] at h; cases h
      · rw [ha] at h; rw [eval_mono o ha]; exact h
      · rw [ha] at h; rw [eval_mono o ha]
        simp only at h ⊢
        by_cases ht : o.truth u = true
        · rw [if_pos ht] at h ⊢
          rcases hb : exec o n loc a with _ | _ | d
          · rw [hb] at h; cases h
          · rw [hb] at h; rw [exec_mono o hb]; exact h
          · rw [hb] at h; rw [exec_mono o hb]; exact exec_mono o h
        · rw [if_neg ht] at h ⊢; exact h
    | seq a b =>
      rw [exec] at h ⊢
      rcases hb : exec o n loc a with _ | _ | d
      · rw [hb] at h; cases h
      · rw [hb] at h; rw [exec_mono o hb]; exact h
      · rw [hb] at h; rw [exec_mono o hb]; exact exec_mono o h

theorem exec_le (o : Outside V) {n m : Nat} {loc : Vars V} {s : Stmt V} {r : Except CErr (Vars V)}
    (h : exec o n loc s = some r) (hm : n ≤ m) : exec o m loc s = some r := by
  obtain ⟨k, rfl⟩ := Nat.exists_eq_add_of_le hm
  clear hm
  induction k with
  | zero => exact h
  | succ k ih => exact exec_mono o ih

/-! ### values whose functions avoid the variables -/

/-- A value whose functions do not use the names `N`. -/
inductive Avoiding (N : String → Prop) : Val V → Prop
  | base (v : V) : Avoiding N (.base v)
  | fn {cap : List (String × Val V)} {p : String} {body : Expr V} : (∀ y ∈ cap, Avoiding N y.2) →
      ClosedIn N (p :: cap.map Prod.fst) body → Avoiding N (.fn cap p body)

/-- An expression of the code itself (`none`) or inside of functions. -/
def FrameOk (N : String → Prop) (fr : Option (List (String × Val V))) (e : Expr V) : Prop := match fr with
  | none => FunctionsAvoid N e
  | some l => (∀ y ∈ l, Avoiding N y.2) ∧ ClosedIn N (l.map Prod.fst) e

/-- The variables are among `N`, and their values avoid them. -/
def VarsOk (N : String → Prop) (d : Vars V) : Prop := ∀ x v, d x = some v → N x ∧ Avoiding N v

theorem inFrame_mem : ∀ {l : List (String × Val V)} {x : String} {v : Val V}, inFrame l x = some v → (x, v) ∈ l
  | [], _, _, h => by simp [inFrame] at h
  | (y, w) :: l, x, v, h => by
    simp only [inFrame] at h
    by_cases hy : y = x
    · rw [if_pos hy] at h; cases h; simp [hy]
    · rw [if_neg hy] at h; exact List.mem_cons_of_mem _ (inFrame_mem h)

theorem inFrame_none : ∀ {l : List (String × Val V)} {x : String}, inFrame l x = none → x ∉ l.map Prod.fst
  | [], _, _ => by simp
  | (y, w) :: l, x, h => by
    simp only [inFrame] at h
    by_cases hy : y = x
    · rw [if_pos hy] at h; cases h
    · rw [if_neg hy] at h
      simp only [List.map_cons, List.mem_cons, not_or]
      exact ⟨Ne.symm hy, inFrame_none h⟩

theorem lookup_spec (o : Outside V) {N : String → Prop} {d : Vars V} (hd : VarsOk N d)
    {fr : Option (List (String × Val V))} {x : String} (hf : FrameOk N fr (.name x)) (r : Except CErr (Val V)) :
    NameIs o d (fr.getD []) x r ↔ lookupName o d fr x = r := by
  have glob : ∀ l : List (String × Val V), inFrame l x = none → d x = none → (NameIs o d l x r ↔ global o x = r) := by
    intro l h1 h2
    unfold global
    constructor
    · intro h
      cases h with
      | param h => rw [h1] at h; cases h
      | var _ h => rw [h2] at h; cases h
      | builtin _ _ h => rw [h]
      | unknown _ _ h => rw [h]
    · rintro rfl
      rcases h : o.builtin x with _ | v
      · exact .unknown h1 h2 h
      · exact .builtin h1 h2 h
  cases fr with
  | none =>
    simp only [lookupName, Option.getD_none]
    rcases h : d x with _ | v
    · exact glob [] rfl h
    · constructor
      · intro hn
        cases hn with
        | param h' => simp [inFrame] at h'
        | var _ h' => rw [h] at h'; cases h'; rfl
        | builtin _ h' _ => rw [h] at h'; cases h'
        | unknown _ h' _ => rw [h] at h'; cases h'
      · rintro rfl; exact .var rfl h
  | some l =>
    simp only [lookupName, Option.getD_some]
    rcases h : inFrame l x with _ | v
    · have hx : d x = none := by
        rcases hf.2 with hb | hb
        · exact absurd hb (inFrame_none h)
        · rcases hx : d x with _ | v
          · rfl
          · exact absurd (hd x v hx).1 hb
      exact glob l h hx
    · constructor
      · intro hn
        cases hn with
        | param h' => rw [h] at h'; cases h'; rfl
        | var h' _ => rw [h] at h'; cases h'
        | builtin h' _ _ => rw [h] at h'; cases h'
        | unknown h' _ _ => rw [h] at h'; cases h'
      · rintro rfl; exact .param h

theorem lookup_avoiding (o : Outside V) {N : String → Prop} {d : Vars V} (hd : VarsOk N d)
    {fr : Option (List (String × Val V))} {x : String} (hf : FrameOk N fr (.name x)) {v : Val V}
    (h : lookupName o d fr x = .ok v) : Avoiding N v := by
  have glob : global o x = .ok v → Avoiding N v := by
    unfold global
    intro h
    rcases hb : o.builtin x with _ | w
    · rw [hb] at h; cases h
    · rw [hb] at h; cases h; exact .base w
  cases fr with
  | none =>
    simp only [lookupName] at h
    rcases hx : d x with _ | w
    · rw [hx] at h; exact glob h
    · rw [hx] at h; cases h; exact (hd x v hx).2
  | some l =>
    simp only [lookupName] at h
    rcases hx : inFrame l x with _ | w
    · rw [hx] at h; exact glob h
    · rw [hx] at h; cases h; exact hf.1 _ (inFrame_mem hx)

theorem map_base_ok {r : Except CErr V} {N : String → Prop} {v : Val V} (h : r.map Val.base = .ok v) : Avoiding N v := by
  cases r with
  | error e => cases h
  | ok w => cases h; exact .base w

theorem frame_op {N : String → Prop} {fr : Option (List (String × Val V))} {k : Nat} {a b : Expr V}
    (h : FrameOk N fr (.op k a b)) : FrameOk N fr a ∧ FrameOk N fr b := by
  cases fr with
  | none => exact h
  | some l => exact ⟨⟨h.1, h.2.1⟩, ⟨h.1, h.2.2⟩⟩

theorem frame_call {N : String → Prop} {fr : Option (List (String × Val V))} {a b : Expr V}
    (h : FrameOk N fr (.call a b)) : FrameOk N fr a ∧ FrameOk N fr b := by
  cases fr with
  | none => exact h
  | some l => exact ⟨⟨h.1, h.2.1⟩, ⟨h.1, h.2.2⟩⟩

theorem frame_body {N : String → Prop} {cap : List (String × Val V)} {p : String} {body : Expr V} {v : Val V}
    (hf : Avoiding N (.fn cap p body)) (hv : Avoiding N v) : FrameOk N (some ((p, v) :: cap)) body := by
  cases hf with
  | fn h1 h2 =>
    refine ⟨?_, h2⟩
    intro y hy
    rcases List.mem_cons.1 hy with rfl | hy
    · exact hv
    · exact h1 y hy

theorem frame_lam {N : String → Prop} {fr : Option (List (String × Val V))} {p : String} {body : Expr V}
    (h : FrameOk N fr (.lam p body)) : Avoiding N (.fn (fr.getD []) p body) := by
  cases fr with
  | none => exact .fn (by simp) h
  | some l => exact .fn h.1 h.2

/-- What is computed is the value in the sense of scripts, and its functions avoid the variables. -/
theorem eval_sound (o : Outside V) {N : String → Prop} : ∀ {n : Nat} {d : Vars V} {fr : Option (List (String × Val V))}
    {e : Expr V} {r : Except CErr (Val V)}, VarsOk N d → FrameOk N fr e → eval o n d fr e = some r →
    Value o d (fr.getD []) e r ∧ ∀ v, r = .ok v → Avoiding N v
  | 0, _, _, _, _, _, _, h => by simp [eval] at h
  | n + 1, d, fr, e, r, hd, hf, h => by
    cases e with
    | const v => simp only [eval, Option.some.injEq] at h; subst h; exact ⟨.const, by rintro _ ⟨⟩; exact .base v⟩
    | name x =>
      simp only [eval, Option.some.injEq] at h
      exact ⟨.name ((lookup_spec o hd hf r).2 h), fun v hv => lookup_avoiding o hd hf (hv ▸ h)⟩
    | op k a b =>
      obtain ⟨fa, fb⟩ := frame_op hf
      simp only [eval] at h
      rcases ha : eval o n d fr a with _ | x | u
      · rw [ha] at h; cases h
      · rw [ha] at h; cases h; exact ⟨.opL (eval_sound o hd fa ha).1, by simp⟩
      · rw [ha] at h
        simp only at h
        rcases hb : eval o n d fr b with _ | x | v
        · rw [hb] at h; cases h
        · rw [hb] at h; cases h; exact ⟨.opR (eval_sound o hd fa ha).1 (eval_sound o hd fb hb).1, by simp⟩
        · rw [hb] at h; cases h
          exact ⟨.op (eval_sound o hd fa ha).1 (eval_sound o hd fb hb).1, fun w hw => map_base_ok hw⟩
    | call f a =>
      obtain ⟨ff, fa⟩ := frame_call hf
      simp only [eval] at h
      rcases hg : eval o n d fr f with _ | x | g
      · rw [hg] at h; cases h
      · rw [hg] at h; cases h; exact ⟨.callL (eval_sound o hd ff hg).1, by simp⟩
      · rw [hg] at h
        simp only at h
        rcases hb : eval o n d fr a with _ | x | v
        · rw [hb] at h; cases h
        · rw [hb] at h; cases h; exact ⟨.callR (eval_sound o hd ff hg).1 (eval_sound o hd fa hb).1, by simp⟩
        · rw [hb] at h
          obtain ⟨g1, g2⟩ := eval_sound o hd ff hg
          obtain ⟨v1, v2⟩ := eval_sound o hd fa hb
          cases g with
          | base w => cases h; exact ⟨.app g1 v1, fun w hw => map_base_ok hw⟩
          | fn cap p body =>
            obtain ⟨b1, b2⟩ := eval_sound o hd (frame_body (g2 _ rfl) (v2 _ rfl)) h
            exact ⟨.call g1 v1 b1, b2⟩
    | lam p body =>
      simp only [eval, Option.some.injEq] at h; subst h
      exact ⟨.lam, by rintro _ ⟨⟩; exact frame_lam hf⟩

/-- A value in the sense of scripts is computed with some fuel. -/
theorem eval_complete (o : Outside V) {N : String → Prop} {d : Vars V} (hd : VarsOk N d) {l : List (String × Val V)}
    {e : Expr V} {r : Except CErr (Val V)} (h : Value o d l e r) :
    ∀ fr : Option (List (String × Val V)), fr.getD [] = l → FrameOk N fr e → ∃ n, eval o n d fr e = some r := by
  induction h with
  | const => intro fr _ _; exact ⟨1, rfl⟩
  | name h =>
    intro fr hl hf
    subst hl
    exact ⟨1, by simp only [eval]; rw [(lookup_spec o hd hf _).1 h]⟩
  | op _ _ iha ihb =>
    intro fr hl hf
    obtain ⟨fa, fb⟩ := frame_op hf
    obtain ⟨n, hn⟩ := iha fr hl fa
    obtain ⟨m, hm⟩ := ihb fr hl fb
    refine ⟨n + m + 1, ?_⟩
    simp only [eval]
    rw [eval_le o hn (by omega), eval_le o hm (by omega)]
  | opL _ iha =>
    intro fr hl hf
    obtain ⟨n, hn⟩ := iha fr hl (frame_op hf).1
    exact ⟨n + 1, by simp only [eval]; rw [hn]⟩
  | opR _ _ iha ihb =>
    intro fr hl hf
    obtain ⟨fa, fb⟩ := frame_op hf
    obtain ⟨n, hn⟩ := iha fr hl fa
    obtain ⟨m, hm⟩ := ihb fr hl fb
    refine ⟨n + m + 1, ?_⟩
    simp only [eval]
    rw [eval_le o hn (by omega), eval_le o hm (by omega)]
  | app _ _ iha ihb =>
    intro fr hl hf
    obtain ⟨fa, fb⟩ := frame_call hf
    obtain ⟨n, hn⟩ := iha fr hl fa
    obtain ⟨m, hm⟩ := ihb fr hl fb
    refine ⟨n + m + 1, ?_⟩
    simp only [eval]
    rw [eval_le o hn (by omega), eval_le o hm (by omega)]
  | call _ _ _ iha ihb ihc =>
    intro fr hl hf
    obtain ⟨fa, fb⟩ := frame_call hf
    obtain ⟨n, hn⟩ := iha fr hl fa
    obtain ⟨m, hm⟩ := ihb fr hl fb
    obtain ⟨k, hk⟩ := ihc (some _) rfl (frame_body ((eval_sound o hd fa hn).2 _ rfl) ((eval_sound o hd fb hm).2 _ rfl))
    refine ⟨n + m + k + 1, ?_⟩
    simp only [eval]
    rw [eval_le o hn (by omega), eval_le o hm (by omega)]
    exact eval_le o hk (by omega)
  | callL _ iha =>
    intro fr hl hf
    obtain ⟨n, hn⟩ := iha fr hl (frame_call hf).1
    exact ⟨n + 1, by simp only [eval]; rw [hn]⟩
  | callR _ _ iha ihb =>
    intro fr hl hf
    obtain ⟨fa, fb⟩ := frame_call hf
    obtain ⟨n, hn⟩ := iha fr hl fa
    obtain ⟨m, hm⟩ := ihb fr hl fb
    refine ⟨n + m + 1, ?_⟩
    simp only [eval]
    rw [eval_le o hn (by omega), eval_le o hm (by omega)]
  | lam =>
    intro fr hl hf
    subst hl
    exact ⟨1, rfl⟩

theorem put_ok {N : String → Prop} {d : Vars V} (hd : VarsOk N d) {x : String} (hx : N x) {v : Val V}
    (hv : Avoiding N v) : VarsOk N (d.put x v) := by
  intro y w h
  simp only [Vars.put] at h
  by_cases hy : y = x
  · rw [if_pos hy] at h; cases h; exact ⟨hy ▸ hx, hv⟩
  · rw [if_neg hy] at h; exact hd y w h

theorem eval_top (o : Outside V) {N : String → Prop} {n : Nat} {d : Vars V} {e : Expr V} {r : Except CErr (Val V)}
    (hd : VarsOk N d) (hf : FunctionsAvoid N e) (h : eval o n d none e = some r) :
    Value o d [] e r ∧ ∀ v, r = .ok v → Avoiding N v := eval_sound (fr := none) o hd hf h

theorem exec_sound (o : Outside V) {N : String → Prop} : ∀ {n : Nat} {d : Vars V} {s : Stmt V}
    {r : Except CErr (Vars V)}, VarsOk N d → CodeAvoids N s → (∀ x ∈ sets s, N x) → exec o n d s = some r →
    Runs o d s r ∧ ∀ d', r = .ok d' → VarsOk N d'
  | 0, _, _, _, _, _, _, h => by simp [exec] at h
  | n + 1, d, s, r, hd, hc, hs, h => by
    cases s with
    | pass => simp only [exec, Option.some.injEq] at h; subst h; exact ⟨.pass, by rintro _ ⟨⟩; exact hd⟩
    | assign x e =>
      simp only [exec] at h
      rcases ha : eval o n d none e with _ | err | u
      · rw [ha] at h; cases h
      · rw [ha] at h; cases h; exact ⟨.assignE (eval_top o hd hc ha).1, by simp⟩
      · rw [ha] at h; cases h
        obtain ⟨a1, a2⟩ := eval_top o hd hc ha
        exact ⟨.assign a1, by rintro _ ⟨⟩; exact put_ok hd (hs x (by simp [sets])) (a2 _ rfl)⟩
    | expr e =>
      simp only [exec] at h
      rcases ha : eval o n d none e with _ | err | u
      · rw [ha] at h; cases h
      · rw [ha] at h; cases h; exact ⟨.exprE (eval_top o hd hc ha).1, by simp⟩
      · rw [ha] at h; cases h; exact ⟨.expr (eval_top o hd hc ha).1, by rintro _ ⟨⟩; exact hd⟩
    | ite e a b =>
      simp only [exec] at h
      rcases ha : eval o n d none e with _ | err | u
      · rw [ha] at h; cases h
      · rw [ha] at h; cases h; exact ⟨.iteE (eval_top o hd hc.1 ha).1, by simp⟩
      · rw [ha] at h
        simp only at h
        have h1 := (eval_top o hd hc.1 ha).1
        by_cases ht : o.truth u = true
        · rw [if_pos ht] at h
          obtain ⟨b1, b2⟩ := exec_sound o hd hc.2.1 (fun x hx => hs x (by simp [sets, hx])) h
          exact ⟨.iteT h1 ht b1, b2⟩
        · rw [if_neg ht] at h
          obtain ⟨b1, b2⟩ := exec_sound o hd hc.2.2 (fun x hx => hs x (by simp [sets, hx])) h
          exact ⟨.iteF h1 (by simpa using ht) b1, b2⟩
    | loop e a =>
      simp only [exec] at h
      rcases ha : eval o n d none e with _ | err | u
      · rw [ha] at h; cases h
      · rw [ha] at h; cases h; exact ⟨.loopE (eval_top o hd hc.1 ha).1, by simp⟩
      · rw [ha] at h
        simp only at h
        have h1 := (eval_top o hd hc.1 ha).1
        by_cases ht : o.truth u = true
        · rw [if_pos ht] at h
          rcases hb : exec o n d a with _ | err | d'
          · rw [hb] at h; cases h
          · rw [hb] at h; cases h
            exact ⟨.loopB h1 ht (exec_sound o hd hc.2 (fun x hx => hs x (by simpa [sets] using hx)) hb).1, by simp⟩
          · rw [hb] at h
            obtain ⟨b1, b2⟩ := exec_sound o hd hc.2 (fun x hx => hs x (by simpa [sets] using hx)) hb
            obtain ⟨c1, c2⟩ := exec_sound o (b2 _ rfl) hc hs h
            exact ⟨.loopT h1 ht b1 c1, c2⟩
        · rw [if_neg ht] at h; cases h
          exact ⟨.loopF h1 (by simpa using ht), by rintro _ ⟨⟩; exact hd⟩
    | seq a b =>
      simp only [exec] at h
      rcases hb : exec o n d a with _ | err | d'
      · rw [hb] at h; cases h
      · rw [hb] at h; cases h
        exact ⟨.seqE (exec_sound o hd hc.1 (fun x hx => hs x (by simp [sets, hx])) hb).1, by simp⟩
      · rw [hb] at h
        obtain ⟨b1, b2⟩ := exec_sound o hd hc.1 (fun x hx => hs x (by simp [sets, hx])) hb
        obtain ⟨c1, c2⟩ := exec_sound o (b2 _ rfl) hc.2 (fun x hx => hs x (by simp [sets, hx])) h
        exact ⟨.seq b1 c1, c2⟩

theorem exec_complete (o : Outside V) {N : String → Prop} {d : Vars V} {s : Stmt V} {r : Except CErr (Vars V)}
    (h : Runs o d s r) : VarsOk N d → CodeAvoids N s → (∀ x ∈ sets s, N x) → ∃ n, exec o n d s = some r := by
  induction h with
  | pass => intro _ _ _; exact ⟨1, rfl⟩
  | assign h =>
    intro hd hc _
    obtain ⟨n, hn⟩ := eval_complete o hd h none rfl hc
    exact ⟨n + 1, by simp only [exec]; rw [hn]; rfl⟩
  | assignE h =>
    intro hd hc _
    obtain ⟨n, hn⟩ := eval_complete o hd h none rfl hc
    exact ⟨n + 1, by simp only [exec]; rw [hn]⟩
  | expr h =>
    intro hd hc _
    obtain ⟨n, hn⟩ := eval_complete o hd h none rfl hc
    exact ⟨n + 1, by simp only [exec]; rw [hn]⟩
  | exprE h =>
    intro hd hc _
    obtain ⟨n, hn⟩ := eval_complete o hd h none rfl hc
    exact ⟨n + 1, by simp only [exec]; rw [hn]⟩
  | iteT h ht _ ih =>
    intro hd hc hs
    obtain ⟨n, hn⟩ := eval_complete o hd h none rfl hc.1
    obtain ⟨m, hm⟩ := ih hd hc.2.1 (fun x hx => hs x (by simp [sets, hx]))
    refine ⟨n + m + 1, ?_⟩
    simp only [exec]
    rw [eval_le o hn (by omega)]
    simp only [ht, if_true]
    exact exec_le o hm (by omega)
  | iteF h ht _ ih =>
    intro hd hc hs
    obtain ⟨n, hn⟩ := eval_complete o hd h none rfl hc.1
    obtain ⟨m, hm⟩ := ih hd hc.2.2 (fun x hx => hs x (by simp [sets, hx]))
    refine ⟨n + m + 1, ?_⟩
    simp only [exec]
    rw [eval_le o hn (by omega)]
    simp only [ht, if_false, Bool.false_eq_true]
    exact exec_le o hm (by omega)
  | iteE h =>
    intro hd hc _
    obtain ⟨n, hn⟩ := eval_complete o hd h none rfl hc.1
    exact ⟨n + 1, by simp only [exec]; rw [hn]⟩
  | loopT h ht _ _ ih1 ih2 =>
    intro hd hc hs
    obtain ⟨n, hn⟩ := eval_complete o hd h none rfl hc.1
    obtain ⟨m, hm⟩ := ih1 hd hc.2 (fun x hx => hs x (by simpa [sets] using hx))
    have hd' := (exec_sound o hd hc.2 (fun x hx => hs x (by simpa [sets] using hx)) hm).2 _ rfl
    obtain ⟨k, hk⟩ := ih2 hd' hc hs
    refine ⟨n + m + k + 1, ?_⟩
    rw [exec]
    rw [eval_le o hn (by omega)]
    simp only [ht, if_true]
    rw [exec_le o hm (by omega)]
    exact exec_le o hk (by omega)
  | loopB h ht _ ih1 =>
    intro hd hc hs
    obtain ⟨n, hn⟩ := eval_complete o hd h none rfl hc.1
    obtain ⟨m, hm⟩ := ih1 hd hc.2 (fun x hx => hs x (by simpa [sets] using hx))
    refine ⟨n + m + 1, ?_⟩
    rw [exec]
    rw [eval_le o hn (by omega)]
    simp only [ht, if_true]
    rw [exec_le o hm (by omega)]
  | loopF h ht =>
    intro hd hc _
    obtain ⟨n, hn⟩ := eval_complete o hd h none rfl hc.1
    refine ⟨n + 1, ?_⟩
    rw [exec]
    rw [hn]
    simp [ht]
  | loopE h =>
    intro hd hc _
    obtain ⟨n, hn⟩ := eval_complete o hd h none rfl hc.1
    exact ⟨n + 1, by rw [exec]; rw [hn]⟩
  | seq _ _ ih1 ih2 =>
    intro hd hc hs
    obtain ⟨m, hm⟩ := ih1 hd hc.1 (fun x hx => hs x (by simp [sets, hx]))
    have hd' := (exec_sound o hd hc.1 (fun x hx => hs x (by simp [sets, hx])) hm).2 _ rfl
    obtain ⟨k, hk⟩ := ih2 hd' hc.2 (fun x hx => hs x (by simp [sets, hx]))
    refine ⟨m + k + 1, ?_⟩
    simp only [exec]
    rw [exec_le o hm (by omega)]
    exact exec_le o hk (by omega)
  | seqE _ ih1 =>
    intro hd hc hs
    obtain ⟨m, hm⟩ := ih1 hd hc.1 (fun x hx => hs x (by simp [sets, hx]))
    exact ⟨m + 1, by simp only [exec]; rw [hm]⟩

/-! ### C90 -/

/-- C90 (a part): a code task whose functions use neither its parameters nor its variables ends exactly if the script ends
whose variables are the parameters at first, with the same return value or the same exception. -/
theorem C90_script_partial (o : Outside V) (output : String) (params : String → Option V) (code : Stmt V)
    (h : NoOuterUse params code) (r : Except CErr (Option (Val V))) :
    (∃ n, runCode o output n params code = some r) ↔ ScriptGives o output params code r := by
  have hd : VarsOk (fun x => params x ≠ none ∨ x ∈ sets code) (fun x => (params x).map Val.base) := by
    intro x v hv
    simp only at hv
    rcases hp : params x with _ | w
    · rw [hp] at hv; cases hv
    · rw [hp] at hv; cases hv; exact ⟨.inl (by rw [hp]; simp), .base w⟩
  constructor
  · rintro ⟨n, hn⟩
    unfold runCode at hn
    rcases he : exec o n (fun x => (params x).map Val.base) code with _ | e | d
    · rw [he] at hn; cases hn
    · rw [he] at hn; cases hn; exact .error (exec_sound o hd h (fun x hx => .inr hx) he).1
    · rw [he] at hn; cases hn; exact .ok (exec_sound o hd h (fun x hx => .inr hx) he).1
  · intro hs
    cases hs with
    | ok hr =>
      obtain ⟨n, hn⟩ := exec_complete o hr hd h (fun x hx => .inr hx)
      exact ⟨n, by simp only [runCode, hn]⟩
    | error hr =>
      obtain ⟨n, hn⟩ := exec_complete o hr hd h (fun x hx => .inr hx)
      exact ⟨n, by simp only [runCode, hn]⟩

/-- C90 (what the code does instead): inside of a function the variables of the code make no difference. -/
theorem C90_isolated (o : Outside V) (n : Nat) (loc loc' : Vars V) (cap : List (String × Val V)) (p : String) (v : Val V)
    (body : Expr V) : eval o n loc (some ((p, v) :: cap)) body = eval o n loc' (some ((p, v) :: cap)) body :=
  eval_isolated o n loc loc' _ body

/-! ### a task with numbers -/

/-- Operator 0 adds numbers, operator 1 is `<`, the builtin `abs` is the number -1. -/
def sampleOutside : Outside Int where
  builtin x := if x = "abs" then some (-1) else none
  op k u v := match k, u, v with
    | 0, .base a, .base b => .ok (a + b)
    | 1, .base a, .base b => .ok (if a < b then 1 else 0)
    | _, _, _ => .error (.other 0)
  app w v := match w, v with
    | -1, .base a => .ok a.natAbs
    | _, _ => .error (.other 1)
  truth v := match v with
    | .base a => a != 0
    | .fn _ _ _ => true

def sampleParams : String → Option Int := fun x => if x = "foo" then some 2 else none

/-- `while return_value < foo: return_value = f(return_value)` after `f = lambda x: abs(x) + 1; return_value = 0`. -/
def sampleLoop : Stmt Int :=
  .seq (.assign "f" (.lam "x" (.op 0 (.call (.name "abs") (.name "x")) (.const 1))))
    (.seq (.assign "return_value" (.const 0))
      (.loop (.op 1 (.name "return_value") (.name "foo"))
        (.assign "return_value" (.call (.name "f") (.name "return_value")))))

example : NoOuterUse sampleParams sampleLoop := by
  simp [NoOuterUse, sampleLoop, CodeAvoids, FunctionsAvoid, ClosedIn, sets, sampleParams]

example : (runCode sampleOutside "return_value" 20 sampleParams sampleLoop).map
    (fun r => match r with | .ok (some (.base v)) => some v | _ => none) = some (some 2) := by decide +kernel

example : ScriptGives sampleOutside "return_value" sampleParams sampleLoop (.ok (some (.base 2))) := by
  refine (C90_script_partial _ _ _ _ ?_ _).1 ⟨20, ?_⟩
  · simp [NoOuterUse, sampleLoop, CodeAvoids, FunctionsAvoid, ClosedIn, sets, sampleParams]
  · rfl

/-- `f = lambda x: x + foo`, then `return_value = f(1)`. -/
def sampleOuter : Stmt Int :=
  .seq (.assign "f" (.lam "x" (.op 0 (.name "x") (.name "foo"))))
    (.assign "return_value" (.call (.name "f") (.const 1)))

/-- C90 is violated: a function of the code does not find the parameter of the task; as a script the code gives 3. -/
theorem C90_parameter_violated :
    ScriptGives sampleOutside "return_value" sampleParams sampleOuter (.ok (some (.base 3))) ∧
    (∀ n r, runCode sampleOutside "return_value" n sampleParams sampleOuter = some r → r = .error (.name "foo")) ∧
    ∃ n, runCode sampleOutside "return_value" n sampleParams sampleOuter = some (.error (.name "foo")) := by
  have h5 : exec sampleOutside 5 (fun x => (sampleParams x).map Val.base) sampleOuter = some (.error (.name "foo")) := rfl
  refine ⟨?_, ?_, 5, rfl⟩
  · refine ScriptGives.ok (output := "return_value")
      (d := fun y => if y = "return_value" then some (.base 3) else
        if y = "f" then some (.fn [] "x" (.op 0 (.name "x") (.name "foo"))) else (sampleParams y).map Val.base) ?_
    exact .seq (.assign .lam) (.assign (.call (.name (.var rfl rfl)) .const
      (.op (o := sampleOutside) (u := .base 1) (v := .base 2) (.name (.param rfl)) (.name (.var rfl rfl)))))
  · intro n r h
    unfold runCode at h
    rcases he : exec sampleOutside n (fun x => (sampleParams x).map Val.base) sampleOuter with _ | x
    · rw [he] at h; cases h
    · have h1 := exec_le _ he (Nat.le_add_right n 5)
      rw [exec_le _ h5 (Nat.le_add_left 5 n)] at h1
      cases h1
      rw [he] at h; cases h; rfl

/-- `f = lambda x: f(0) if x else 5` (the condition left out): a function that calls itself. -/
def sampleRecursive : Stmt Int :=
  .seq (.assign "f" (.lam "x" (.call (.name "f") (.name "x"))))
    (.assign "return_value" (.call (.name "f") (.const 1)))

/-- C90 is violated: functions cannot call themselves; the script would not find an end. -/
theorem C90_recursion_violated :
    runCode sampleOutside "return_value" 5 (fun _ => none) sampleRecursive = some (.error (.name "f")) ∧
    ¬ ScriptGives sampleOutside "return_value" (fun _ => none) sampleRecursive (.error (.name "f")) := by
  refine ⟨rfl, ?_⟩
  have key : ∀ (d : Vars Int) (l : List (String × Val Int)) (e : Expr Int) (r : Except CErr (Val Int)),
      Value sampleOutside d l e r → d "f" = some (.fn [] "x" (.call (.name "f") (.name "x"))) →
      (e = .call (.name "f") (.name "x") → ∀ v, l = [("x", v)] → False) ∧ (e = .call (.name "f") (.const 1) → l = [] → False) := by
    intro d l e r h
    have atF : ∀ (l : List (String × Val Int)) (r' : Except CErr (Val Int)), inFrame l "f" = none →
        d "f" = some (.fn [] "x" (.call (.name "f") (.name "x"))) → Value sampleOutside d l (.name "f") r' →
        r' = .ok (.fn [] "x" (.call (.name "f") (.name "x"))) := by
      intro l r' hl hd h
      cases h with
      | name h => cases h with
        | param h' => rw [hl] at h'; cases h'
        | var _ h' => rw [hd] at h'; cases h'; rfl
        | builtin _ h' _ => rw [hd] at h'; cases h'
        | unknown _ h' _ => rw [hd] at h'; cases h'
    induction h with
    | const => intro _; exact ⟨(fun h => nomatch h), (fun h => nomatch h)⟩
    | name _ => intro _; exact ⟨(fun h => nomatch h), (fun h => nomatch h)⟩
    | op _ _ _ _ => intro _; exact ⟨(fun h => nomatch h), (fun h => nomatch h)⟩
    | opL _ _ => intro _; exact ⟨(fun h => nomatch h), (fun h => nomatch h)⟩
    | opR _ _ _ _ => intro _; exact ⟨(fun h => nomatch h), (fun h => nomatch h)⟩
    | lam => intro _; exact ⟨(fun h => nomatch h), (fun h => nomatch h)⟩
    | app h1 _ _ _ =>
      intro hd
      refine ⟨?_, ?_⟩
      · rintro ⟨⟩ v rfl
        have := atF _ _ rfl hd h1
        cases this
      · rintro ⟨⟩ rfl
        have := atF _ _ rfl hd h1
        cases this
    | callL h1 _ =>
      intro hd
      refine ⟨?_, ?_⟩
      · rintro ⟨⟩ v rfl
        have := atF _ _ rfl hd h1
        cases this
      · rintro ⟨⟩ rfl
        have := atF _ _ rfl hd h1
        cases this
    | call h1 _ _ _ _ ih =>
      intro hd
      refine ⟨?_, ?_⟩
      · rintro ⟨⟩ v rfl
        have := atF _ _ rfl hd h1
        cases this
        exact (ih hd).1 rfl _ rfl
      · rintro ⟨⟩ rfl
        have := atF _ _ rfl hd h1
        cases this
        exact (ih hd).1 rfl _ rfl
    | callR _ h2 _ _ =>
      intro hd
      refine ⟨?_, ?_⟩
      · rintro ⟨⟩ v rfl
        cases h2 with
        | name h => cases h with
          | unknown h' _ _ => simp [inFrame] at h'
      · rintro ⟨⟩ rfl
        cases h2
  intro h
  cases h with
  | error h => cases h with
    | seq h1 h2 =>
      cases h1 with
      | assign h1 =>
        cases h1
        cases h2 with
        | assignE h2 => exact (key _ _ _ _ h2 rfl).2 rfl rfl
    | seqE h1 => cases h1 with
      | assignE h1 => cases h1

end Rocketry.Props
