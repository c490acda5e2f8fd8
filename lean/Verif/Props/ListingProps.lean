import Verif.Spec.ListingSpec
import Verif.Base.ExceptEq

/-!
# C58: the dependency listing
-/

namespace Rocketry.Props
open Rocketry.Listing Rocketry.Spec Rocketry

variable {ts : Tasks} {child : String} {k : Option Kind}

theorem linkOf_ok {c : Cond DLeaf} {x : Option Link} (h : linkOf ts child k c = .ok x) (e : Link) :
    x = some e ↔ ∃ r t, c = .leaf (.depend r t) ∧ e = ⟨t, child, r, k⟩ := by
  unfold linkOf at h
  split at h
  · rename_i r t
    split at h
    · cases h
      constructor
      · intro h; cases h; exact ⟨r, t, rfl, rfl⟩
      · rintro ⟨r', t', hc, rfl⟩; cases hc; rfl
    · cases h
  · rename_i hc
    cases h
    constructor
    · intro h; cases h
    · rintro ⟨r, t, rfl, _⟩; exact absurd rfl (hc r t)

theorem linkOf_known {c : Cond DLeaf} {x : Option Link} (h : linkOf ts child k c = .ok x) {r : Relation} {t : String}
    (hc : c = .leaf (.depend r t)) : t ∈ ts.map (·.1) := by
  subst hc
  unfold linkOf at h
  simp only at h
  split at h
  · rename_i ha
    obtain ⟨y, hy, hyt⟩ := List.any_eq_true.1 ha
    exact List.mem_map.2 ⟨y, hy, by simpa using hyt⟩
  · cases h

/-- The links of a list of conditions: the dependencies that are members of the list. -/
theorem linksOf_ok : ∀ {l : List (Cond DLeaf)} {r : List Link}, linksOf ts child k l = .ok r → ∀ e, e ∈ r ↔
    ∃ q t, (.leaf (.depend q t) : Cond DLeaf) ∈ l ∧ t ∈ ts.map (·.1) ∧ e = ⟨t, child, q, k⟩
  | [], r, h, e => by cases Except.ok.inj h; simp
  | c :: l, r, h, e => by
    rw [linksOf] at h
    rcases hc : linkOf ts child k c with x | x <;> rw [hc] at h
    · cases h
    · rcases hl : linksOf ts child k l with y | y <;> simp only [hl] at h
      · cases h
      · cases Except.ok.inj h
        rw [List.mem_append, Option.mem_toList, linkOf_ok hc, linksOf_ok hl]
        constructor
        · rintro (⟨q, t, hq, he⟩ | ⟨q, t, hm, ht, he⟩)
          · exact ⟨q, t, by simp [hq], linkOf_known hc hq, he⟩
          · exact ⟨q, t, by simp [hm], ht, he⟩
        · rintro ⟨q, t, hm, ht, he⟩
          rcases List.mem_cons.1 hm with hm | hm
          · exact .inl ⟨q, t, hm.symm, he⟩
          · exact .inr ⟨q, t, hm, ht, he⟩

/-- There is no exception if the tasks named are in the session. -/
theorem linksOf_known : ∀ {l : List (Cond DLeaf)},
    (∀ q t, (.leaf (.depend q t) : Cond DLeaf) ∈ l → t ∈ ts.map (·.1)) → ∃ r, linksOf ts child k l = .ok r
  | [], _ => ⟨[], rfl⟩
  | c :: l, h => by
    obtain ⟨r, hr⟩ := linksOf_known (l := l) fun q t hm => h q t (by simp [hm])
    have : ∃ x, linkOf ts child k c = .ok x := by
      unfold linkOf
      split
      · rename_i q t
        obtain ⟨y, hy, hyt⟩ := List.mem_map.1 (h q t (by simp))
        rw [if_pos (List.any_eq_true.2 ⟨y, hy, by simpa using hyt⟩)]
        exact ⟨_, rfl⟩
      · exact ⟨_, rfl⟩
    obtain ⟨x, hx⟩ := this
    exact ⟨x.toList ++ r, by rw [linksOf, hx]; simp only [hr]⟩

/-- The conditions a listing looks at, and the type it gives. -/
def looked : Cond DLeaf → List (Cond DLeaf) × Option Kind
  | .any l => (l, some .any)
  | .all l => (l, some .all)
  | c => ([c], none)

theorem getLinks_eq (c : Cond DLeaf) : getLinks ts child c = linksOf ts child (looked c).2 (looked c).1 := by
  cases c <;> rfl

theorem linksFrom_ok : ∀ {l : Tasks} {r : List Link}, linksFrom ts l = .ok r → ∀ e, e ∈ r ↔
    ∃ n c, (n, c) ∈ l ∧ ∃ x, getLinks ts n c = .ok x ∧ e ∈ x
  | [], r, h, e => by cases Except.ok.inj h; simp
  | (n, c) :: l, r, h, e => by
    rw [linksFrom] at h
    rcases hc : getLinks ts n c with x | x <;> rw [hc] at h
    · cases h
    · rcases hl : linksFrom ts l with y | y <;> simp only [hl] at h
      · cases h
      · cases Except.ok.inj h
        rw [List.mem_append, linksFrom_ok hl]
        constructor
        · rintro (he | ⟨m, d, hm, z, hz, he⟩)
          · exact ⟨n, c, by simp, x, hc, he⟩
          · exact ⟨m, d, by simp [hm], z, hz, he⟩
        · rintro ⟨m, d, hm, z, hz, he⟩
          rcases List.mem_cons.1 hm with hm | hm
          · cases hm; rw [hc] at hz; cases Except.ok.inj hz; exact .inl he
          · exact .inr ⟨m, d, hm, z, hz, he⟩

theorem linksFrom_known : ∀ {l : Tasks}, (∀ n c, (n, c) ∈ l → ∃ x, getLinks ts n c = .ok x) →
    ∃ r, linksFrom ts l = .ok r
  | [], _ => ⟨[], rfl⟩
  | (n, c) :: l, h => by
    obtain ⟨x, hx⟩ := h n c (by simp)
    obtain ⟨r, hr⟩ := linksFrom_known (l := l) fun m d hm => h m d (by simp [hm])
    exact ⟨x ++ r, by rw [linksFrom, hx]; simp only [hr]⟩

theorem sits_leaf {L : Type} {x y : L} {b : Prop} (h : Sits x b (.leaf y)) : x = y ∧ ¬ b := by
  cases h; exact ⟨rfl, id⟩

/-- A member of the conditions looked at sits in the condition, under an `|` exactly if the type is `Any`. -/
theorem looked_sits {c : Cond DLeaf} {x : DLeaf} (h : (.leaf x : Cond DLeaf) ∈ (looked c).1) :
    ∃ b, Sits x b c ∧ (b ↔ (looked c).2 = some .any) := by
  cases c with
  | any l => exact ⟨True, .any h .leaf, by simp [looked]⟩
  | all l => exact ⟨False, .all h .leaf, by simp [looked]⟩
  | leaf y => cases List.mem_singleton.1 h; exact ⟨False, .leaf, by simp [looked]⟩
  | _ => cases List.mem_singleton.1 h

theorem sits_looked {c : Cond DLeaf} (hs : Shallow c) {r : Relation} {t : String} {b : Prop}
    (h : Sits (.depend r t) b c) :
    (.leaf (.depend r t) : Cond DLeaf) ∈ (looked c).1 ∧ (b ↔ (looked c).2 = some .any) := by
  have simple : ∀ {c : Cond DLeaf} {b}, Simple c → Sits (.depend r t) b c → c = .leaf (.depend r t) ∧ ¬ b := by
    rintro c b (⟨x, rfl⟩ | hi) h
    · obtain ⟨rfl, hb⟩ := sits_leaf h; exact ⟨rfl, hb⟩
    · exact absurd h (hi r t b)
  cases hs with
  | simple hc =>
    obtain ⟨rfl, hb⟩ := simple hc h
    exact ⟨by simp [looked], by simp [looked, hb]⟩
  | any hl =>
    cases h with
    | any hm h =>
      obtain ⟨rfl, -⟩ := simple (hl _ hm) h
      exact ⟨hm, by simp [looked]⟩
  | all hl =>
    cases h with
    | all hm h =>
      obtain ⟨rfl, hb⟩ := simple (hl _ hm) h
      exact ⟨hm, by simp [looked, hb]⟩

/-- C58, one direction, for all sessions and conditions: a link that is listed is a dependency on a task of the session,
and its type is `Any` exactly if it sits under an `|`. -/
theorem C58_sound {L : List Link} (h : getDependencies ts = .ok L) (e : Link) (he : e ∈ L) :
    e.parent ∈ ts.map (·.1) ∧ ∃ b, DependsOn ts e.child e.parent e.relation b ∧ (b ↔ e.type = some .any) := by
  obtain ⟨n, c, hm, x, hx, hex⟩ := (linksFrom_ok h e).1 he
  rw [getLinks_eq] at hx
  obtain ⟨q, t, hq, ht, rfl⟩ := (linksOf_ok hx e).1 hex
  obtain ⟨b, hb, hk⟩ := looked_sits hq
  exact ⟨ht, b, ⟨c, hm, hb⟩, hk⟩

/-- C58 for conditions whose dependencies stand alone or are joined by one operator, on tasks of the session: the listing
has exactly the dependencies.  Missing: deeper conditions and unknown tasks, see the violations. -/
theorem C58_exact_partial (hs : ∀ n c, (n, c) ∈ ts → Shallow c)
    (hk : ∀ n t r b, DependsOn ts n t r b → t ∈ ts.map (·.1)) :
    ∃ L, getDependencies ts = .ok L ∧ ∀ parent child r (b : Prop),
      (∃ k, ⟨parent, child, r, k⟩ ∈ L ∧ (b ↔ k = some .any)) ↔
        ∃ b', (b ↔ b') ∧ DependsOn ts child parent r b' := by
  have hok : ∀ n c, (n, c) ∈ ts → ∃ x, getLinks ts n c = .ok x := by
    intro n c hm
    rw [getLinks_eq]
    refine linksOf_known fun q t hq => ?_
    obtain ⟨b, hb, _⟩ := looked_sits hq
    exact hk n t q b ⟨c, hm, hb⟩
  obtain ⟨L, hL⟩ := linksFrom_known hok
  refine ⟨L, hL, fun parent child r b => ⟨?_, ?_⟩⟩
  · rintro ⟨k, he, hb⟩
    obtain ⟨_, b', hd, hb'⟩ := C58_sound hL _ he
    exact ⟨b', hb.trans hb'.symm, hd⟩
  · rintro ⟨b', hbb, c, hm, hsit⟩
    obtain ⟨hl, hb⟩ := sits_looked (hs child c hm) hsit
    obtain ⟨x, hx⟩ := hok child c hm
    refine ⟨(looked c).2, (linksFrom_ok hL _).2 ⟨child, c, hm, x, hx, ?_⟩, hbb.trans hb⟩
    rw [getLinks_eq] at hx
    exact (linksOf_ok hx _).2 ⟨r, parent, hl, hk child parent r b' ⟨c, hm, hsit⟩, rfl⟩

/-- The hypotheses are met by a session with three tasks, one after the two others. -/
example : let ts : Tasks := [("a", .leaf (.other 0)), ("b", .leaf (.depend .success "a")),
      ("c", .any [.leaf (.depend .finish "a"), .leaf (.depend .failure "b")])]
    (∀ n c, (n, c) ∈ ts → Shallow c) ∧ (∀ n t r b, DependsOn ts n t r b → t ∈ ts.map (·.1)) := by
  refine ⟨?_, ?_⟩
  · intro n c h
    simp only [List.mem_cons, Prod.mk.injEq, List.not_mem_nil, or_false] at h
    rcases h with ⟨-, rfl⟩ | ⟨-, rfl⟩ | ⟨-, rfl⟩
    · exact .simple (.inl ⟨_, rfl⟩)
    · exact .simple (.inl ⟨_, rfl⟩)
    · refine .any fun c hc => .inl ?_
      simp only [List.mem_cons, List.not_mem_nil, or_false] at hc
      rcases hc with rfl | rfl <;> exact ⟨_, rfl⟩
  · rintro n t r b ⟨c, h, hs⟩
    simp only [List.mem_cons, Prod.mk.injEq, List.not_mem_nil, or_false] at h
    rcases h with ⟨-, rfl⟩ | ⟨-, rfl⟩ | ⟨-, rfl⟩
    · cases (sits_leaf hs).1
    · cases (sits_leaf hs).1; decide
    · cases hs with
      | any hm h =>
        simp only [List.mem_cons, List.not_mem_nil, or_false] at hm
        rcases hm with rfl | rfl <;> cases (sits_leaf h).1 <;> decide

/-- C58 fails for nested conditions: `after a & (after b | after c)` has three dependencies, one of which is listed. -/
theorem C58_nested_violated : ∃ (ts : Tasks) (L : List Link), getDependencies ts = .ok L ∧
    DependsOn ts "d" "b" .success True ∧ ∀ e ∈ L, e.parent ≠ "b" := by
  refine ⟨[("a", .alwaysTrue), ("b", .alwaysTrue), ("c", .alwaysTrue),
    ("d", .all [.leaf (.depend .success "a"),
      .any [.leaf (.depend .success "b"), .leaf (.depend .success "c")]])],
    [⟨"a", "d", .success, some .all⟩], by decide,
    ⟨_, .tail _ (.tail _ (.tail _ (.head _))), .all (.tail _ (.head _)) (.any (.head _) .leaf)⟩, by decide⟩

/-- C58 fails under `~`: no link is listed. -/
theorem C58_not_violated : ∃ ts : Tasks, getDependencies ts = .ok [] ∧ DependsOn ts "b" "a" .success False :=
  ⟨[("a", .alwaysTrue), ("b", .not (.leaf (.depend .success "a")))], by decide, _, .tail _ (.head _), .not .leaf⟩

/-- C58 fails with a dependency on a task that is not in the session: nothing is listed, the call raises KeyError. -/
theorem C58_unknown_violated : ∃ ts : Tasks, getDependencies ts = .error .key ∧ DependsOn ts "b" "a" .success False ∧
    "a" ∈ ts.map (·.1) :=
  ⟨[("a", .alwaysTrue), ("b", .leaf (.depend .success "a")), ("c", .leaf (.depend .success "gone"))], by decide,
    ⟨_, .tail _ (.head _), .leaf⟩, by decide⟩

end Rocketry.Props
