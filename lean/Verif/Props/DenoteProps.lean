import Verif.Cond.Api
import Verif.Spec.DenoteSpec
import Verif.Props.DurationProps
import Verif.Props.DependProps

/-!
# C65: a condition text is true exactly when what it says holds
-/

namespace Rocketry.Props
open Spec Cond

/-! ### the log -/

theorem clear_now {v : Sit} (hk : v.Kept) : v.ClearTo v.now := fun _ r hr _ => (hk.times r hr).2.2

theorem clear_first {v : Sit} (hk : v.Kept) : v.Clear MINT := fun _ r hr _ => (hk.times r hr).1

/-- A status condition over a span compares the number of records in it, whether or not the cached times are used. -/
theorem status_log {v : Sit} (hk : v.Kept) {a b : Int} (ha : v.Clear a) (hb : v.ClearTo b) {name : String} (ht : name ∈ v.tasks) (acts : Acts)
    (ops : List (Comp × Int)) :
    statusObserve v.fromLogs acts (chain ops) (a, b) name (v.mem name) v.repo =
      compState (chain ops) (countIn v.repo name acts a b) := by
  cases hfl : v.fromLogs with
  | true => simp [statusObserve, measured_length]
  | false =>
    refine observe_cached ?_ ?_ acts ops
    · intro x
      have hc := hk.cache hfl name ht
      by_cases hex : ∃ r ∈ v.repo, OfAction name x r
      · obtain ⟨y, hy, hp⟩ := hex
        obtain ⟨r, hr⟩ := exists_latest hy hp
        obtain ⟨hm, hp⟩ := isLatest_mem hr
        right
        rcases hc.last_some x r hr with h | h
        · have := (hk.times r hm).2.1
          exact ⟨r, r.noted, hr, h, ⟨fun _ => by omega, ha hfl r hm⟩, ⟨hb hfl r hm, fun _ => by omega⟩⟩
        · exact ⟨r, r.created, hr, h, Iff.rfl, Iff.rfl⟩
      · left
        have h' : ∀ r ∈ v.repo, ¬ OfAction name x r := fun r hr hp => hex ⟨r, hr, hp⟩
        exact ⟨hc.last_none x h', h'⟩
    · intro x
      exact (hk.ordered name).imp (fun h h1 h2 => h h1.1 h2.1)

theorem compState_nil (n : Nat) : compState (chain []) (n : Int) = true ↔ 0 < n := by
  simp [compState, chain]

theorem compState_eq0 (n : Nat) : compState (chain [(.eq, 0)]) (n : Int) = true ↔ n = 0 := by
  rw [C23_equal_zero [(.eq, 0)] (by decide)]
  omega

/-- Whether there is a record in the span. -/
theorem happened_iff {v : Sit} {name : String} {vb : Verb} {a b : Int} {P : Int → Prop}
    (h : ∀ r ∈ v.repo, (a ≤ r.created ∧ r.created ≤ b) ↔ P r.created) :
    0 < countIn v.repo name vb.acts a b ↔ v.Happened name vb P := by
  rw [countIn_pos]
  constructor
  · rintro ⟨r, hr, h1, h2, h3⟩
    exact ⟨r, hr, h1, (acts_shown vb _).1 h2, (h r hr).1 h3⟩
  · rintro ⟨r, hr, h1, h2, h3⟩
    exact ⟨r, hr, h1, (acts_shown vb _).2 h2, (h r hr).2 h3⟩

/-! ### spans -/

theorem same_occurrence {L s now t : Int} (hL : 0 < L) (ht : t ≤ now) :
    s + L * occurrence L s now ≤ t ↔ occurrence L s t = occurrence L s now := by
  rw [start_le hL]
  have := occurrence_mono hL s ht
  omega

theorem rem_of_occurrence {L s now t : Int} (hL : 0 < L) (h : occurrence L s t = occurrence L s now) :
    (t - s) % L = t - (s + L * occurrence L s now) := by
  have := (occurrence_bounds hL s t).2.2
  rw [h] at this
  omega

/-- The span of a part of a cycle is its latest occurrence, up to now. -/
theorem rollback_latest (p : Anchored) (L : Int) (hL : cycleLen p.scope = some L) (hb : Bounds p L) (hd : ¬ Degenerate p L)
    (now : Int) (hx : p.isFull = true → (now - p.start) % L ≠ 0) (n : Nat) :
    ∃ b, Period.periodSpan (n + 1) (some (.anchored p)) now = .ok (p.start + L * occurrence L p.start now, b) ∧
      (b = now ∨ b = p.start + L * occurrence L p.start now + (p.stop - p.start) % L) ∧
      ∀ t, t ≤ now → ((p.start + L * occurrence L p.start now ≤ t ∧ t ≤ b) ↔ InLatest L p.start p.stop now t) := by
  have hLp := cycleLen_pos hL
  have hob := occurrence_bounds hLp p.start now
  by_cases hin : InArc L p.start p.stop now
  · refine ⟨now, rollback_inside p L hL hb now hin hx n, .inl rfl, ?_⟩
    intro t ht
    rw [same_occurrence hLp ht]
    constructor
    · rintro ⟨h1, _⟩
      refine ⟨ht, h1, ?_⟩
      rcases hin with h | h | h
      · exact .inl h
      · exact .inr (.inl h)
      · right; right
        rw [rem_of_occurrence hLp h1]
        omega
    · rintro ⟨_, h, _⟩
      exact ⟨h, ht⟩
  · have hf : p.isFull = false := by
      cases hc : p.isFull with
      | false => rfl
      | true =>
        exfalso; apply hin
        rcases (isFull_iff hL).1 hc with h | h
        · exact .inl h
        · exact .inr (.inl h)
    obtain ⟨l, r, h1, h2⟩ := C04_rollback_partial p L hL hb hf hd now
    have harc : ∀ t, InArc L p.start p.stop t ↔ (t - p.start) % L < (p.stop - p.start) % L := by
      intro t
      unfold InArc at hin ⊢
      constructor
      · rintro (h | h | h)
        · exact absurd (.inl h) hin
        · exact absurd (.inr (.inl h)) hin
        · exact h
      · exact fun h => .inr (.inr h)
    have hlt : l < r := by
      have := h2.ordered
      rcases Int.lt_or_eq_of_le this with h | h
      · exact h
      · exact absurd (h2.degenerate h).2 hin
    have hl0 := entry_start hLp h2.entry.1 h2.entry.2
    have hll := occurrence_of_start hLp hl0
    have hpos : 0 < (p.stop - p.start) % L := by
      have := (harc l).1 h2.entry.1
      omega
    have hlen := Int.emod_lt_of_pos (p.stop - p.start) hLp
    have hle := h2.le
    -- positions in a cycle that starts at `c`
    have pos : ∀ (k x : Int), 0 ≤ x → x < L → (p.start + L * k + x - p.start) % L = x := by
      intro k x h0 h1
      rw [show p.start + L * k + x - p.start = x + L * k by omega, Int.add_mul_emod_self_left, Int.emod_eq_of_lt h0 h1]
    have notin : ∀ k, ¬ InArc L p.start p.stop (p.start + L * k + (p.stop - p.start) % L) := by
      intro k h
      rw [harc, pos k _ (by omega) hlen] at h
      omega
    have hocc : occurrence L p.start l = occurrence L p.start now := by
      have hm := occurrence_mono hLp p.start (show l ≤ now by omega)
      rcases Int.lt_or_eq_of_le hm with hlt' | h
      · exfalso
        generalize hk : occurrence L p.start l = k at *
        generalize hk' : occurrence L p.start now = k' at *
        have hmul : L * (k + 1) ≤ L * k' := Int.mul_le_mul_of_nonneg_left (by omega) (by omega)
        rw [Int.mul_add, Int.mul_one] at hmul
        have hina : InArc L p.start p.stop (p.start + L * k') := by
          have := pos k' 0 (by omega) (by omega)
          rw [Int.add_zero] at this
          rw [harc, this]; exact hpos
        by_cases har : r ≤ p.start + L * k'
        · rcases Int.lt_or_eq_of_le hob.1 with h | h
          · exact h2.none_after _ har h hina
          · rw [h] at hina; exact hin hina
        · exact notin k (h2.inside _ (by omega) (by omega))
      · exact h
    rw [hocc] at hll
    generalize hk : occurrence L p.start now = k at *
    have hr : r = l + (p.stop - p.start) % L := by
      have hno := notin k
      rw [← hll] at hno
      have h3 : ¬ l + (p.stop - p.start) % L < r := fun h => hno (h2.inside _ (by omega) h)
      have h4 : ¬ r < l + (p.stop - p.start) % L := by
        intro h
        have hrin : InArc L p.start p.stop r := by
          have := pos k (r - l) (by omega) (by omega)
          rw [harc, show r = p.start + L * k + (r - l) by omega, this]
          omega
        rcases Int.lt_or_eq_of_le hle with h' | h'
        · exact h2.none_after r (Int.le_refl _) h' hrin
        · rw [h'] at hrin; exact hin hrin
      omega
    refine ⟨r, ?_, .inr (by omega), ?_⟩
    · simp only [Period.periodSpan, Period.rollback, h1, Except.ok.injEq, Prod.mk.injEq]
      exact ⟨hll, trivial⟩
    · intro t ht
      rw [← hk, same_occurrence hLp ht]
      unfold InLatest
      constructor
      · rintro ⟨h3, h4⟩
        refine ⟨ht, h3, .inr (.inr ?_)⟩
        rw [rem_of_occurrence hLp h3, hk]
        omega
      · rintro ⟨_, h3, h4⟩
        refine ⟨h3, ?_⟩
        rcases h4 with h4 | h4 | h4
        · exact absurd (.inl h4) hin
        · exact absurd (.inr (.inl h4)) hin
        · rw [rem_of_occurrence hLp h3, hk] at h4
          omega

/-! ### cron -/

theorem extendLeft_left : ∀ (l : List Interval) (c : Interval), (extendLeft c l).left ≤ c.left
  | [], c => by simp [extendLeft]
  | i :: l, c => by
    unfold extendLeft
    split
    · rename_i h
      simp only [Bool.and_eq_true, decide_eq_true_eq] at h
      have := extendLeft_left l i
      omega
    · exact Int.le_refl _

theorem mergeBack_ok {is : List Interval} (hne : is ≠ []) (h : ∀ i ∈ is, i.left ≤ i.right) : ∃ c, mergeBack is = .ok c := by
  unfold mergeBack
  have hperm := pySorted_perm (le := fun a b => decide (a.right ≥ b.right)) is
  cases hms : pySorted (fun a b => decide (a.right ≥ b.right)) is with
  | nil => rw [hms] at hperm; exact absurd hperm.nil_eq.symm hne
  | cons y l =>
    rw [hms] at hperm
    have hy := h y (hperm.mem_iff.1 List.mem_cons_self)
    have := extendLeft_left l y
    exact ⟨_, Interval.make_ok.2 ⟨by omega, rfl⟩⟩

theorem leaf_back_ok {p : Period} (hl : CronLeaf p) (hs : ∀ a, Inside a p → SoundArc a) {m n : Int} (h1 : m % MIN = 0)
    (h2 : m < n) (h3 : n < m + MIN) (fuel : Nat) : ∃ i, p.rollback (fuel + 2) n = .ok i := by
  rcases hl with ⟨a, rfl, -⟩ | ⟨as, hne, rfl, -⟩
  · obtain ⟨l, r, g1, -⟩ := (hs a (Or.inl rfl)).2 m n h1 h2 h3
    exact ⟨_, g1⟩
  · have each : ∀ a ∈ as.map Period.anchored, ∃ i, Period.rollback (fuel + 1) a n = .ok i ∧ i.left ≤ i.right := by
      intro q hq
      obtain ⟨a, ha, rfl⟩ := List.mem_map.1 hq
      obtain ⟨l, r, g1, g2, -⟩ := (hs a (Or.inr ⟨_, rfl, hq⟩)).2 m n h1 h2 h3
      exact ⟨⟨l, r, .left⟩, by simp only [Period.rollback, g1], by simp only; omega⟩
    obtain ⟨is, his⟩ := mapE_total (f := fun p => Period.rollback (fuel + 1) p n) (l := as.map Period.anchored)
      (fun a ha => (each a ha).imp fun _ h => h.1)
    obtain ⟨m1, m2, m3⟩ := mapE_ok his
    obtain ⟨c, hc⟩ := mergeBack_ok (is := is) (fun h => hne (by simpa using m3 h)) (by
      intro i hi
      obtain ⟨q, hq, e⟩ := m2 i hi
      obtain ⟨j, e', hj⟩ := each q hq
      rw [e] at e'
      cases e'
      exact hj)
    exact ⟨c, by simp only [Period.rollback, his, hc]⟩

/-- Inside a minute that matches, the cron period rolls back to the start of the minute. -/
theorem join_back_ok {ms : List Period} (hmin : Period.anchored minutely ∈ ms) (hl : ∀ p ∈ ms, CronLeaf p)
    (hs : ∀ p ∈ ms, ∀ a, Inside a p → SoundArc a) {m n : Int} (h1 : m % MIN = 0) (h2 : m < n) (h3 : n < m + MIN)
    (hm : ∀ p ∈ ms, sem p m) (fuel : Nat) : ∃ i, (joinP ms).rollback (fuel + 3) n = .ok i ∧ i.left = m ∧ i.right = n := by
  have hmb : ∀ {k : Nat} {i : Interval}, Period.rollback k (.anchored minutely) n = .ok i → i = ⟨m, n, .left⟩ :=
    fun h => minutely_back ⟨h1, h2, h3, h2, h3⟩ h
  match ms, hmin with
  | [p], hmin =>
    obtain ⟨i, hi⟩ := leaf_back_ok (hl p (by simp)) (hs p (by simp)) h1 h2 h3 (fuel + 1)
    have hp : p = .anchored minutely := (List.mem_singleton.1 hmin).symm
    subst hp
    have := hmb hi
    exact ⟨i, hi, by rw [this], by rw [this]⟩
  | p :: q :: l, hmin =>
    have hne : p :: q :: l ≠ [] := by simp
    have hj : joinP (p :: q :: l) = .all (p :: q :: l) := by rw [joinP]; simp
    generalize p :: q :: l = ps at *
    obtain ⟨is, his⟩ := mapE_total (f := fun p => Period.rollback (fuel + 2) p n) (l := ps)
      (fun a ha => leaf_back_ok (hl a ha) (hs a ha) h1 h2 h3 fuel)
    obtain ⟨m1, m2, m3⟩ := mapE_ok his
    have each : ∀ j ∈ is, j.closed = .left ∧ j.left ≤ m ∧ j.right = n := by
      intro j hj
      obtain ⟨p, hp, hpj⟩ := m2 j hj
      exact leaf_back (hl p hp) (hs p hp) h1 h2 h3 (hm p hp) hpj
    have hov : allOverlap is = true := allOverlap_of_common m (fun j hj => by
      have := each j hj
      exact contains_of_between (by rw [this.1]; rfl) this.2.1 (by omega))
    obtain ⟨c, hc⟩ : ∃ c, reduceAnd is = .ok c := by
      cases is with
      | nil => exact absurd (m3 rfl) hne
      | cons a is =>
        exact reduceFrom_total (fun i hi => (each i hi).1) (fun i hi j hj => by
          have := each i hi
          have := each j hj
          omega)
    obtain ⟨_, k2, ⟨x, hx, hx'⟩, ⟨y, hy, hy'⟩⟩ := reduceAnd_left (fun j hj => (each j hj).1) hc
    refine ⟨c, ?_, ?_, ?_⟩
    · rw [hj]
      simp only [Period.rollback, his]
      rw [if_pos hov, hc]
    · obtain ⟨i, hi, he⟩ := m1 _ hmin
      have hi' := hmb he
      have := k2 i hi
      have := each x hx
      rw [hi'] at *
      simp only at *
      omega
    · have := each y hy
      omega

theorem cron_back (c : CronExpr) (hc : ValidCron c) (hmon : Unrestricted c.month) (hdom : ∀ i ∈ c.dayOfMonth, EarlyItem .month i)
    {n : Int} (hn : n % MIN ≠ 0) (hm : CronMatches c n) (fuel : Nat) :
    ∃ i, c.rollback (fuel + 3) n = .ok i ∧ i.left = n - n % MIN ∧ i.right = n := by
  obtain ⟨ms, g1, g2⟩ := subperiod_ok c hc
  have hmm : CronMatches c (n - n % MIN) := (matches_minute c (by simp only [MIN]; omega)).1 hm
  have hsem := (g2.sem (n - n % MIN) (fun h => absurd hmon h)).2 hmm
  have hsound := g2.fwd (fun _ _ => trivial) (fun _ _ => trivial) hdom (fun _ _ => trivial) hmon
  obtain ⟨i, h1, h2, h3⟩ := join_back_ok g2.minute g2.leaf hsound (m := n - n % MIN) (n := n) (by simp only [MIN]; omega)
    (by simp only [MIN] at *; omega) (by simp only [MIN] at *; omega) hsem fuel
  exact ⟨i, by simp only [CronExpr.rollback, g1, bindE, h1], h2, h3⟩

/-! ### the phrases -/

theorem status_who {v : Sit} {fuel : Nat} {acts : Acts} {comps : Comps} {p : Option Period} {task : Option Txt} {name : String}
    (h : v.who task = some name) (ht : name ∈ v.tasks) : v.status fuel acts comps p task = v.statusOf fuel acts comps p name := by
  cases task with
  | some t =>
    simp only [Sit.who, Option.some.injEq] at h
    simp only [Sit.status, Sit.lookup, h]
    rw [if_pos ht]
  | none =>
    simp only [Sit.who] at h
    simp only [Sit.status, h]

theorem span_lasts {d : DText} {us : Int} (h : Saying.Lasts d us) : span d.text = .ok us := by
  obtain ⟨⟨hv, _⟩, h0, h | h⟩ := h
  · simp only [span, C54_exact d hv us h, Except.map]
    rw [if_neg (by omega)]
  · simp only [span, C54_exact d hv (-us) h, Except.map, Except.ok.injEq]
    split <;> omega

theorem delta_span (fuel : Nat) {us : Int} (h : 0 ≤ us) (now : Int) :
    Period.periodSpan (fuel + 1) (some (.delta us 0)) now = .ok (now - us, now) := by
  have hi : Interval.make (now - (us.natAbs : Int)) now .left = .ok ⟨now - (us.natAbs : Int), now, .left⟩ :=
    Interval.make_ok.2 ⟨by omega, rfl⟩
  simp only [Period.periodSpan, Period.rollback, hi]
  congr 2
  omega

/-- A condition whose leaf answers as the property says. -/
def Answers (v : Sit) (l : Builtin) (P : Prop) : Prop := ∃ N, ∀ fuel, N ≤ fuel → ∃ b, v.leaf fuel l = .ok b ∧ (b = true ↔ P)

theorem answers_of {v : Sit} {l : Builtin} {P : Prop} (N : Nat) (b : Nat → Bool)
    (h : ∀ k, v.leaf (k + N) l = .ok (b k) ∧ (b k = true ↔ P)) : Answers v l P := by
  refine ⟨N, fun fuel hf => ?_⟩
  obtain ⟨h1, h2⟩ := h (fuel - N)
  rw [Nat.sub_add_cancel hf] at h1
  exact ⟨_, h1, h2⟩

theorem part_bounds {sc : Scope} (hsc : sc ≠ .year) (w : TPart) (h : w.Of sc) :
    Bounds ⟨sc, (w.span sc).1, (w.span sc).2⟩ sc.max ∧ (w.span sc).1 < sc.max := by
  have hmax : 0 < sc.max := by cases sc <;> decide
  have hu : 0 < unitOf sc ∧ unitOf sc ≤ sc.max := by
    revert hsc; cases sc <;> intro hsc <;> first | exact absurd rfl hsc | decide
  have key : ∀ a : TimeText, a.Proper ∧ a.scope = sc → 0 ≤ a.first ∧ a.first < sc.max ∧ 0 ≤ a.last ∧ a.last ≤ sc.max := by
    rintro a ⟨h1, rfl⟩
    exact point_bounds a h1 (fun e => absurd e hsc)
  cases w with
  | whole => simp only [TPart.span, cycleOf_eq]; exact ⟨⟨by simp, by simp only; omega, by simp only; omega, by simp⟩, hmax⟩
  | starting a =>
    have := key a h
    exact ⟨⟨this.1, by simp only [TPart.span]; omega, this.1, by simp only [TPart.span]; omega⟩, this.2.1⟩
  | between a b =>
    have h1 := key a h.1
    have h2 := key b h.2
    exact ⟨⟨h1.1, by simp only [TPart.span]; omega, h2.2.2.1, h2.2.2.2⟩, h1.2.1⟩
  | after a =>
    have h1 := key a h
    simp only [TPart.span, cycleOf_eq]
    exact ⟨⟨h1.1, by simp only; omega, by simp only; omega, by simp⟩, h1.2.1⟩
  | before b =>
    have h1 := key b h
    exact ⟨⟨by simp [TPart.span], by simp only [TPart.span]; omega, h1.2.2.1, h1.2.2.2⟩, hmax⟩
  | on a =>
    have h1 := key a h
    simp only [TPart.span, cycleOf_eq, wrapAt]
    refine ⟨⟨h1.1, by simp only; omega, ?_, ?_⟩, h1.2.1⟩ <;> simp only <;> split <;> omega

theorem len_eq {sc : Scope} (h : cycleLen sc ≠ none) : cycleLen sc = some (Sit.len sc) ∧ Sit.len sc = sc.max ∧ sc ≠ .year := by
  cases sc <;> first | exact absurd rfl h | exact ⟨rfl, by decide, by decide⟩

theorem fixed_ne_month {sc : Scope} (h : cycleLen sc ≠ none) : sc ≠ .month := by
  rintro rfl
  exact h rfl

/-- "has … today between …". -/
theorem hasIn_answers {v : Sit} (hk : v.Kept) (task : Option Txt) (vb : Verb) {sc : Scope} (w : TPart) (hw : w.Of sc)
    (hc : cycleLen sc ≠ none) (hr : v.Ready (.hasIn task vb sc w)) :
    Answers v (.status vb task (some (.anchored ⟨sc, (w.span sc).1, (w.span sc).2⟩)) []) (v.Says (.hasIn task vb sc w)) := by
  have hnm := fixed_ne_month hc
  obtain ⟨⟨name, hn, ht⟩, hat, hc1, hc2⟩ := hr
  simp only [Sit.AtStart, Sit.begins, Sit.ends, if_neg hnm] at hat hc1 hc2
  obtain ⟨hL, hm, hy⟩ := len_eq hc
  obtain ⟨hb, hlt⟩ := part_bounds hy w hw
  rw [← hm] at hb hlt
  have hLp := cycleLen_pos hL
  have hx : Anchored.isFull ⟨sc, (w.span sc).1, (w.span sc).2⟩ = true → (v.now - (w.span sc).1) % Sit.len sc ≠ 0 :=
    fun hf h0 => hat ⟨(isFull_iff (p := ⟨sc, (w.span sc).1, (w.span sc).2⟩) hL).1 hf, h0⟩
  refine answers_of 1 (fun k => compState (chain []) (countIn v.repo name vb.acts
    ((w.span sc).1 + Sit.len sc * occurrence (Sit.len sc) (w.span sc).1 v.now)
    ((rollback_latest ⟨sc, (w.span sc).1, (w.span sc).2⟩ _ hL hb (fun h => absurd h.1 (by simp only; omega)) v.now hx k).choose))) ?_
  intro k
  obtain ⟨h1, h2, h3⟩ := (rollback_latest ⟨sc, (w.span sc).1, (w.span sc).2⟩ _ hL hb (fun h => absurd h.1 (by simp only; omega))
    v.now hx k).choose_spec
  generalize (rollback_latest ⟨sc, (w.span sc).1, (w.span sc).2⟩ _ hL hb (fun h => absurd h.1 (by simp only; omega)) v.now hx k).choose = b at *
  have hcb : v.ClearTo b := by
    rcases h2 with rfl | rfl
    · exact clear_now hk
    · exact hc2
  constructor
  · simp only [Sit.leaf, status_who hn ht, Sit.statusOf, statusCond, h1]
    exact congrArg _ (status_log hk hc1 hcb ht vb.acts [])
  · rw [compState_nil, happened_iff (P := InLatest (Sit.len sc) (w.span sc).1 (w.span sc).2 v.now)
      (fun r hr => h3 r.created (hk.times r hr).2.2)]
    have hlat : Sit.Latest sc (w.span sc).1 (w.span sc).2 v.now = InLatest (Sit.len sc) (w.span sc).1 (w.span sc).2 v.now := by
      funext t
      exact if_neg hnm
    simp only [Sit.Says, hn, Option.some.injEq, hlat]
    exact ⟨fun h => ⟨name, rfl, h⟩, fun ⟨x, e, h⟩ => e ▸ h⟩

/-- "has …". -/
theorem has_answers {v : Sit} (hk : v.Kept) (task : Option Txt) (vb : Verb) (hr : v.Ready (.has task vb)) :
    Answers v (.status vb task none []) (v.Says (.has task vb)) := by
  obtain ⟨name, hn, ht, hp⟩ := hr
  have h1 := hk.first
  have h2 := hk.last
  refine answers_of 1 (fun _ => compState (chain []) (countIn v.repo name vb.acts MINT v.now)) fun k => ?_
  have hspan : Period.periodSpan (k + 1) (some (.static MINT MAXT)) v.now = .ok (MINT, v.now) := by
    simp only [Period.periodSpan, Period.rollback, staticBack]
    rw [if_neg (by omega)]
    simp only [Interval.make]
    rw [if_neg (by omega)]
    simp; omega
  constructor
  · simp only [Sit.leaf, status_who hn ht, Sit.statusOf, bareStatus, period_plain hp, statusCond, hspan]
    exact congrArg _ (status_log hk (clear_first hk) (clear_now hk) ht vb.acts [])
  · rw [compState_nil, happened_iff (P := fun _ => True) (fun r hr => by have := hk.times r hr; simp; omega)]
    simp only [Sit.Says, hn, Option.some.injEq]
    exact ⟨fun h => ⟨name, rfl, h⟩, fun ⟨x, e, h⟩ => e ▸ h⟩

/-- "has … in past …". -/
theorem hasPast_answers {v : Sit} (hk : v.Kept) (task : Option Txt) (vb : Verb) (inn : Bool) (d : DText) {us : Int} (h0 : 0 ≤ us)
    (hr : v.Ready (.hasPast task vb inn d us)) :
    Answers v (.status vb task (some (.delta us 0)) []) (v.Says (.hasPast task vb inn d us)) := by
  obtain ⟨⟨name, hn, ht⟩, hc⟩ := hr
  refine answers_of 1 (fun _ => compState (chain []) (countIn v.repo name vb.acts (v.now - us) v.now)) fun k => ⟨?_, ?_⟩
  · simp only [Sit.leaf, status_who hn ht, Sit.statusOf, statusCond, delta_span k h0]
    exact congrArg _ (status_log hk hc (clear_now hk) ht vb.acts [])
  · rw [compState_nil, happened_iff (P := fun t => v.now - us ≤ t ∧ t ≤ v.now) (fun _ _ => Iff.rfl)]
    simp only [Sit.Says, hn, Option.some.injEq]
    exact ⟨fun h => ⟨name, rfl, h⟩, fun ⟨x, e, h⟩ => e ▸ h⟩

/-- No such record of the task in the past time. -/
theorem quiet_answers {v : Sit} (hk : v.Kept) (vb : Verb) {us : Int} (h0 : 0 ≤ us) {name : String} (hn : v.self = some name)
    (hc : v.Clear (v.now - us)) : Answers v (.status vb none (some (.delta us 0)) [(.eq, 0)])
      (¬ v.Happened name vb (fun t => v.now - us ≤ t ∧ t ≤ v.now)) := by
  refine answers_of 1 (fun _ => compState (chain [(.eq, 0)]) (countIn v.repo name (Verb.acts vb) (v.now - us) v.now))
    fun k => ⟨?_, ?_⟩
  · simp only [Sit.leaf, Sit.status, hn, Sit.statusOf, statusCond, delta_span k h0]
    exact congrArg _ (status_log hk hc (clear_now hk) (hk.self name hn) (Verb.acts vb) [(.eq, 0)])
  · rw [compState_eq0]
    have hz : ∀ n : Nat, n = 0 ↔ ¬ 0 < n := by omega
    rw [hz, happened_iff (P := fun t => v.now - us ≤ t ∧ t ≤ v.now) (fun _ _ => Iff.rfl)]

/-- "every …". -/
theorem every_answers {v : Sit} (hk : v.Kept) (d : DText) {us : Int} (h0 : 0 ≤ us) (hr : v.Ready (.every d us)) :
    Answers v (.status .started none (some (.delta us 0)) [(.eq, 0)]) (v.Says (.every d us)) := by
  obtain ⟨hs, hc⟩ := hr
  obtain ⟨name, hn⟩ := Option.ne_none_iff_exists'.1 hs
  have := quiet_answers hk .started h0 hn hc
  simpa only [Sit.Says, hn, Option.some.injEq, exists_eq_left'] using this

/-- `every(…, based="finish")`. -/
theorem finish_answers {v : Sit} (hk : v.Kept) {us : Int} (h0 : 0 ≤ us) {name : String} (hn : v.self = some name)
    (hc : v.Clear (v.now - us)) : Answers v (.executableFor us)
      (∀ r ∈ v.repo, r.task = name → r.action ∈ [.success, .fail, .inaction, .terminate] → ¬ (v.now - us ≤ r.created ∧ r.created ≤ v.now)) := by
  have ht := hk.self name hn
  have hmk : Period.mkDelta (some us) none = .delta us 0 := by
    simp only [Period.mkDelta, Option.getD_some, Option.getD_none]
    congr 1
    omega
  have hcond : ∀ (n : Nat) (a : Action) (ops : List (Comp × Int)),
      statusCond (n + 1) v.fromLogs (.one a) (chain ops) (some (.delta us 0)) v.now name (v.mem name) v.repo =
        .ok (compState (chain ops) (countIn v.repo name (.one a) (v.now - us) v.now)) := by
    intro n a ops
    simp only [statusCond, delta_span n h0]
    exact congrArg _ (status_log hk hc (clear_now hk) ht (.one a) ops)
  have hzero : ∀ a, countIn v.repo name (.one a) (v.now - us) v.now = 0 ↔
      ∀ r ∈ v.repo, r.task = name → r.action = a → ¬ (v.now - us ≤ r.created ∧ r.created ≤ v.now) := by
    intro a
    unfold countIn
    rw [List.length_eq_zero_iff, List.filter_eq_nil_iff]
    refine forall₂_congr fun r hr => ?_
    simp only [decide_eq_true_eq, Acts.has]
    tauto
  refine answers_of 1 (fun _ => compState (chain [(.eq, 0)]) (countIn v.repo name (.one .inaction) (v.now - us) v.now) &&
      (compState (chain [(.eq, 0)]) (countIn v.repo name (.one .success) (v.now - us) v.now) &&
      (compState (chain [(.le, 0)]) (countIn v.repo name (.one .fail) (v.now - us) v.now) &&
       compState (chain [(.eq, 0)]) (countIn v.repo name (.one .terminate) (v.now - us) v.now)))) fun k => ⟨?_, ?_⟩
  · simp only [Sit.leaf, Sit.executable, hn, if_pos ht, executable, Sit.reads, Option.getD_none, hmk]
    rw [andThen_ok (show isinPeriod (k + 1) (.delta us 0) v.now = .ok true from rfl), if_pos rfl]
    have h0 := fun a => hcond k a [(.eq, 0)]
    have h1 := hcond k .fail [(.le, 0)]
    rw [chain_le] at h1
    simp only [chain_eq0] at h0
    simp only [chain_eq0, chain_le, h0, h1]
    generalize compState [(.eq, 0)] (countIn v.repo name (.one .inaction) (v.now - us) v.now) = b1
    generalize compState [(.eq, 0)] (countIn v.repo name (.one .success) (v.now - us) v.now) = b2
    generalize compState [(.le, 0)] (countIn v.repo name (.one .fail) (v.now - us) v.now) = b3
    cases b1 <;> cases b2 <;> cases b3 <;> simp [andThen]
  · have h3 : compState (chain [(.le, 0)]) (countIn v.repo name (.one .fail) (v.now - us) v.now) = true ↔
        countIn v.repo name (.one .fail) (v.now - us) v.now = 0 := by
      simp [compState, chain_le, Comp.holds]
    simp only [Bool.and_eq_true, compState_eq0, h3, hzero]
    constructor
    · rintro ⟨h1, h2, h3, h4⟩ r hr hn ha
      simp only [List.mem_cons, List.not_mem_nil, or_false] at ha
      rcases ha with ha | ha | ha | ha
      · exact h2 r hr hn ha
      · exact h3 r hr hn ha
      · exact h1 r hr hn ha
      · exact h4 r hr hn ha
    · intro h
      refine ⟨?_, ?_, ?_, ?_⟩ <;> exact fun r hr hn ha => h r hr hn (by simp [ha])

/-- "daily between …". -/
theorem exec_answers {v : Sit} (hk : v.Kept) {sc : Scope} (w : TPart) (hw : w.Of sc) (hc : cycleLen sc ≠ none)
    (hr : v.Ready (.exec sc w)) : Answers v (.executable ⟨sc, (w.span sc).1, (w.span sc).2⟩) (v.Says (.exec sc w)) := by
  have hnm := fixed_ne_month hc
  obtain ⟨hs, hat, hc1⟩ := hr
  simp only [Sit.AtStart, if_neg hnm] at hat
  obtain ⟨name, hn⟩ := Option.ne_none_iff_exists'.1 hs
  have ht := hk.self name hn
  obtain ⟨hL, hm, hy⟩ := len_eq hc
  obtain ⟨hb, _⟩ := part_bounds hy w hw
  rw [← hm] at hb
  have hLp := cycleLen_pos hL
  have hx : Anchored.isFull ⟨sc, (w.span sc).1, (w.span sc).2⟩ = true → (v.now - (w.span sc).1) % Sit.len sc ≠ 0 :=
    fun hf h0 => hat ⟨(isFull_iff (p := ⟨sc, (w.span sc).1, (w.span sc).2⟩) hL).1 hf, h0⟩
  have hin : ∀ n, isinPeriod (n + 1) (.anchored ⟨sc, (w.span sc).1, (w.span sc).2⟩) v.now =
      .ok (Anchored.contains ⟨sc, (w.span sc).1, (w.span sc).2⟩ v.now) := by
    intro n; simp [isinPeriod, Period.isDelta, Period.contains]
  have harc := C02_contains ⟨sc, (w.span sc).1, (w.span sc).2⟩ (Sit.len sc) hL hb v.now
  by_cases hcn : Anchored.contains ⟨sc, (w.span sc).1, (w.span sc).2⟩ v.now = true
  · have hspan := fun n => rollback_inside ⟨sc, (w.span sc).1, (w.span sc).2⟩ (Sit.len sc) hL hb v.now (harc.1 hcn) hx n
    have hcond : ∀ (n : Nat) (a : Action) (ops : List (Comp × Int)),
        statusCond (n + 1) v.fromLogs (.one a) (chain ops) (some (.anchored ⟨sc, (w.span sc).1, (w.span sc).2⟩)) v.now name
          (v.mem name) v.repo = .ok (compState (chain ops) (countIn v.repo name (.one a) (v.begins sc w) v.now)) := by
      intro n a ops
      have hbeg : v.begins sc w = (w.span sc).1 + Sit.len sc * occurrence (Sit.len sc) (w.span sc).1 v.now := if_neg hnm
      simp only [statusCond, hspan]
      rw [← hbeg]
      exact congrArg _ (status_log hk hc1 (clear_now hk) ht (.one a) ops)
    have hzero : ∀ a, countIn v.repo name (.one a) (v.begins sc w) v.now = 0 ↔
        ∀ r ∈ v.repo, r.task = name → r.action = a →
          occurrence (Sit.len sc) (w.span sc).1 r.created ≠ occurrence (Sit.len sc) (w.span sc).1 v.now := by
      intro a
      unfold countIn
      rw [List.length_eq_zero_iff, List.filter_eq_nil_iff]
      refine forall₂_congr fun r hr => ?_
      have ht := (hk.times r hr).2.2
      have := same_occurrence (s := (w.span sc).1) hLp ht
      simp only [decide_eq_true_eq, Acts.has, Sit.begins, if_neg hnm]
      tauto
    refine answers_of 1 (fun _ => compState (chain [(.eq, 0)]) (countIn v.repo name (.one .inaction) (v.begins sc w) v.now) &&
      (compState (chain [(.eq, 0)]) (countIn v.repo name (.one .success) (v.begins sc w) v.now) &&
      (compState (chain [(.le, 0)]) (countIn v.repo name (.one .fail) (v.begins sc w) v.now) &&
       compState (chain [(.eq, 0)]) (countIn v.repo name (.one .terminate) (v.begins sc w) v.now)))) fun k => ⟨?_, ?_⟩
    · simp only [Sit.leaf, Sit.executable, hn, if_pos ht, executable, Sit.reads, Option.getD_none]
      rw [andThen_ok (hin k), if_pos hcn]
      have h0 := fun a => hcond k a [(.eq, 0)]
      have h1 := hcond k .fail [(.le, 0)]
      rw [chain_le] at h1
      simp only [chain_eq0] at h0
      simp only [chain_eq0, chain_le, h0, h1]
      generalize compState [(.eq, 0)] (countIn v.repo name (.one .inaction) (v.begins sc w) v.now) = b1
      generalize compState [(.eq, 0)] (countIn v.repo name (.one .success) (v.begins sc w) v.now) = b2
      generalize compState [(.le, 0)] (countIn v.repo name (.one .fail) (v.begins sc w) v.now) = b3
      cases b1 <;> cases b2 <;> cases b3 <;> simp [andThen]
    · have h3 : compState (chain [(.le, 0)]) (countIn v.repo name (.one .fail) (v.begins sc w) v.now) = true ↔
          countIn v.repo name (.one .fail) (v.begins sc w) v.now = 0 := by
        simp [compState, chain_le, Comp.holds]
      simp only [Bool.and_eq_true, compState_eq0, h3, hzero, Sit.Says, hn, Option.some.injEq, exists_eq_left', Sit.InPart,
        Sit.occ, if_neg hnm]
      constructor
      · rintro ⟨h1, h2, h3, h4⟩
        refine ⟨harc.1 hcn, fun r hr hn ha => ?_⟩
        simp only [List.mem_cons, List.not_mem_nil, or_false] at ha
        rcases ha with h | h | h | h
        · exact h2 r hr hn h
        · exact h3 r hr hn h
        · exact h1 r hr hn h
        · exact h4 r hr hn h
      · rintro ⟨_, h⟩
        exact ⟨fun r hr hn ha => h r hr hn (by simp [ha]), fun r hr hn ha => h r hr hn (by simp [ha]),
          fun r hr hn ha => h r hr hn (by simp [ha]), fun r hr hn ha => h r hr hn (by simp [ha])⟩
  · refine answers_of 1 (fun _ => false) fun k => ⟨?_, ?_⟩
    · simp only [Sit.leaf, Sit.executable, hn, if_pos ht, executable, Sit.reads]
      rw [andThen_ok (hin k), if_neg hcn]
    · simp only [Bool.false_eq_true, false_iff, Sit.Says, Sit.InPart, if_neg hnm]
      exact fun h => hcn (harc.2 h.1)

/-- "time of day between …". -/
theorem timeOf_answers {v : Sit} {sc : Scope} (w : TPart) (hw : w.Of sc) (hc : cycleLen sc ≠ none) :
    Answers v (.isPeriod ⟨sc, (w.span sc).1, (w.span sc).2⟩) (v.Says (.timeOf sc w)) := by
  obtain ⟨hL, hm, hy⟩ := len_eq hc
  obtain ⟨hb, _⟩ := part_bounds hy w hw
  rw [← hm] at hb
  refine answers_of 1 (fun _ => Anchored.contains ⟨sc, (w.span sc).1, (w.span sc).2⟩ v.now) fun k => ⟨?_, ?_⟩
  · simp [Sit.leaf, Period.contains]
  · simp only [Sit.Says, Sit.InPart, if_neg (fixed_ne_month hc)]
    exact C02_contains ⟨sc, (w.span sc).1, (w.span sc).2⟩ (Sit.len sc) hL hb v.now

/-! ### months -/

theorem month_bounds (w : TPart) (h : w.Of .month) : 0 ≤ (w.span .month).1 ∧ 0 ≤ (w.span .month).2 := by
  have := (part_bounds (sc := .month) (by decide) w h).1
  exact ⟨this.start_nonneg, this.stop_nonneg⟩

/-- "time of month between …". -/
theorem timeOf_month {v : Sit} (w : TPart) :
    Answers v (.isPeriod ⟨.month, (w.span .month).1, (w.span .month).2⟩) (v.Says (.timeOf .month w)) := by
  refine answers_of 1 (fun _ => Anchored.contains ⟨.month, (w.span .month).1, (w.span .month).2⟩ v.now) fun k => ⟨?_, ?_⟩
  · simp [Sit.leaf, Period.contains]
  · exact C07_contains _ _ _

/-- "has … this month between …". -/
theorem hasIn_month {v : Sit} (hk : v.Kept) (task : Option Txt) (vb : Verb) (w : TPart) (hw : w.Of .month)
    (hc : (w.span .month).1 < 28 * DAY) (he : Saying.EndsInTime .month w) (hr : v.Ready (.hasIn task vb .month w)) :
    Answers v (.status vb task (some (.anchored ⟨.month, (w.span .month).1, (w.span .month).2⟩)) [])
      (v.Says (.hasIn task vb .month w)) := by
  obtain ⟨⟨name, hn, ht⟩, hat, hc1, hc2⟩ := hr
  obtain ⟨h0, h0'⟩ := month_bounds w hw
  have hx := fun hf hs => hat (show v.AtStart .month w from ⟨hf, hs⟩)
  have key := month_rollback_latest h0 hc h0' (he rfl) v.now hx
  have hb : monthBegin (w.span .month).1 v.now = v.begins .month w := monthBegin_eq _ _
  refine answers_of 1 (fun k => compState (chain []) (countIn v.repo name vb.acts (v.begins .month w) (key k).choose)) ?_
  intro k
  obtain ⟨h1, h2, h3⟩ := (key k).choose_spec
  generalize (key k).choose = b at *
  rw [hb] at h1 h3
  have hcb : v.ClearTo b := by
    rcases h2 with rfl | rfl
    · exact clear_now hk
    · exact hc2
  constructor
  · simp only [Sit.leaf, status_who hn ht, Sit.statusOf, statusCond, h1]
    exact congrArg _ (status_log hk hc1 hcb ht vb.acts [])
  · rw [compState_nil, happened_iff (P := InLatestMonth (w.span .month).1 (w.span .month).2 v.now)
      (fun r hr => h3 r.created (hk.times r hr).2.2)]
    have hlat : Sit.Latest .month (w.span .month).1 (w.span .month).2 v.now =
        InLatestMonth (w.span .month).1 (w.span .month).2 v.now := by
      funext t
      exact if_pos rfl
    simp only [Sit.Says, hn, Option.some.injEq, hlat]
    exact ⟨fun h => ⟨name, rfl, h⟩, fun ⟨x, e, h⟩ => e ▸ h⟩

/-- "monthly between …". -/
theorem exec_month {v : Sit} (hk : v.Kept) (w : TPart) (hw : w.Of .month) (hc : (w.span .month).1 < 28 * DAY ∨ (w.span .month).1 < (w.span .month).2)
    (hr : v.Ready (.exec .month w)) :
    Answers v (.executable ⟨.month, (w.span .month).1, (w.span .month).2⟩) (v.Says (.exec .month w)) := by
  obtain ⟨hs, hat, hc1⟩ := hr
  obtain ⟨name, hn⟩ := Option.ne_none_iff_exists'.1 hs
  have ht := hk.self name hn
  obtain ⟨h0, h0'⟩ := month_bounds w hw
  have hx := fun hf hs => hat (show v.AtStart .month w from ⟨hf, hs⟩)
  have hb : monthBegin (w.span .month).1 v.now = v.begins .month w := monthBegin_eq _ _
  have hin : ∀ n, isinPeriod (n + 1) (.anchored ⟨.month, (w.span .month).1, (w.span .month).2⟩) v.now =
      .ok (Anchored.contains ⟨.month, (w.span .month).1, (w.span .month).2⟩ v.now) := by
    intro n; simp [isinPeriod, Period.isDelta, Period.contains]
  have harc := C07_contains (w.span .month).1 (w.span .month).2 v.now
  by_cases hcn : Anchored.contains ⟨.month, (w.span .month).1, (w.span .month).2⟩ v.now = true
  · have hc := begins_inside hc (harc.1 hcn)
    have hocc : ∀ r ∈ v.repo, (v.begins .month w ≤ r.created ↔
        monthOccurrence (w.span .month).1 r.created = monthOccurrence (w.span .month).1 v.now) := by
      intro r hr
      rw [← hb]
      exact monthBegin_iff h0 hc (hk.times r hr).2.2
    have hspan := fun n => month_rollback_inside v.now hc (harc.1 hcn) hx n
    have hcond : ∀ (n : Nat) (a : Action) (ops : List (Comp × Int)),
        statusCond (n + 1) v.fromLogs (.one a) (chain ops) (some (.anchored ⟨.month, (w.span .month).1, (w.span .month).2⟩)) v.now name
          (v.mem name) v.repo = .ok (compState (chain ops) (countIn v.repo name (.one a) (v.begins .month w) v.now)) := by
      intro n a ops
      simp only [statusCond, hspan, hb]
      exact congrArg _ (status_log hk hc1 (clear_now hk) ht (.one a) ops)
    have hzero : ∀ a, countIn v.repo name (.one a) (v.begins .month w) v.now = 0 ↔
        ∀ r ∈ v.repo, r.task = name → r.action = a →
          monthOccurrence (w.span .month).1 r.created ≠ monthOccurrence (w.span .month).1 v.now := by
      intro a
      unfold countIn
      rw [List.length_eq_zero_iff, List.filter_eq_nil_iff]
      refine forall₂_congr fun r hr => ?_
      have ht := (hk.times r hr).2.2
      have := hocc r hr
      simp only [decide_eq_true_eq, Acts.has]
      tauto
    refine answers_of 1 (fun _ => compState (chain [(.eq, 0)]) (countIn v.repo name (.one .inaction) (v.begins .month w) v.now) &&
      (compState (chain [(.eq, 0)]) (countIn v.repo name (.one .success) (v.begins .month w) v.now) &&
      (compState (chain [(.le, 0)]) (countIn v.repo name (.one .fail) (v.begins .month w) v.now) &&
       compState (chain [(.eq, 0)]) (countIn v.repo name (.one .terminate) (v.begins .month w) v.now)))) fun k => ⟨?_, ?_⟩
    · simp only [Sit.leaf, Sit.executable, hn, if_pos ht, executable, Sit.reads, Option.getD_none]
      rw [andThen_ok (hin k), if_pos hcn]
      have h0 := fun a => hcond k a [(.eq, 0)]
      have h1 := hcond k .fail [(.le, 0)]
      rw [chain_le] at h1
      simp only [chain_eq0] at h0
      simp only [chain_eq0, chain_le, h0, h1]
      generalize compState [(.eq, 0)] (countIn v.repo name (.one .inaction) (v.begins .month w) v.now) = b1
      generalize compState [(.eq, 0)] (countIn v.repo name (.one .success) (v.begins .month w) v.now) = b2
      generalize compState [(.le, 0)] (countIn v.repo name (.one .fail) (v.begins .month w) v.now) = b3
      cases b1 <;> cases b2 <;> cases b3 <;> simp [andThen]
    · have h3 : compState (chain [(.le, 0)]) (countIn v.repo name (.one .fail) (v.begins .month w) v.now) = true ↔
          countIn v.repo name (.one .fail) (v.begins .month w) v.now = 0 := by
        simp [compState, chain_le, Comp.holds]
      simp only [Bool.and_eq_true, compState_eq0, h3, hzero, Sit.Says, hn, Option.some.injEq, exists_eq_left', Sit.InPart,
        Sit.occ, if_true]
      constructor
      · rintro ⟨h1, h2, h3, h4⟩
        refine ⟨harc.1 hcn, fun r hr hn ha => ?_⟩
        simp only [List.mem_cons, List.not_mem_nil, or_false] at ha
        rcases ha with h | h | h | h
        · exact h2 r hr hn h
        · exact h3 r hr hn h
        · exact h1 r hr hn h
        · exact h4 r hr hn h
      · rintro ⟨_, h⟩
        exact ⟨fun r hr hn ha => h r hr hn (by simp [ha]), fun r hr hn ha => h r hr hn (by simp [ha]),
          fun r hr hn ha => h r hr hn (by simp [ha]), fun r hr hn ha => h r hr hn (by simp [ha])⟩
  · refine answers_of 1 (fun _ => false) fun k => ⟨?_, ?_⟩
    · simp only [Sit.leaf, Sit.executable, hn, if_pos ht, executable, Sit.reads]
      rw [andThen_ok (hin k), if_neg hcn]
    · simp only [Bool.false_eq_true, false_iff, Sit.Says, Sit.InPart, if_true]
      exact fun h => hcn (harc.2 h.1)

theorem cyclic_ne_year {sc : Scope} (h : cycleLen sc ≠ none ∨ sc = .month) : sc ≠ .year := by
  rcases h with h | rfl
  · exact (len_eq h).2.2
  · decide

/-- The fields of a written cron expression are read back. -/
theorem cronOf_texts {c : CronExpr} (h : Saying.PlainCron c) : Sit.cronOf (cronTexts c) = .ok c := by
  obtain ⟨w1, w2, w3, w4, w5⟩ := h.writable
  simp only [Sit.cronOf, cronTexts, parseCron, String.ofList_toList, C18_text _ _ h.valid.minute.1 w1,
    C18_text _ _ h.valid.hour.1 w2, C18_text _ _ h.valid.dayOfMonth.1 w3, C18_text _ _ h.valid.month.1 w4,
    C18_text _ _ h.valid.dayOfWeek.1 w5, bindE]

/-- "cron …". -/
theorem cron_answers {v : Sit} (hk : v.Kept) {c : CronExpr} (hc : Saying.PlainCron c) (hr : v.Ready (.cron c)) :
    Answers v (.cron (cronTexts c)) (v.Says (.cron c)) := by
  obtain ⟨hs, hne, hcl⟩ := hr
  obtain ⟨name, hn⟩ := Option.ne_none_iff_exists'.1 hs
  have ht := hk.self name hn
  obtain ⟨N, h⟩ := C18_answers c hc.valid hc.month hc.days v.now
  refine ⟨N + 3, fun fuel hf => ?_⟩
  obtain ⟨b, hb1, hb2⟩ := h fuel (by omega)
  simp only [Sit.leaf, cronOf_texts hc, bindE, Sit.cron, hn, if_pos ht, cronRunnable]
  rw [andThen_ok hb1]
  by_cases hm : b = true
  · obtain ⟨i, e1, e2, e3⟩ := cron_back c hc.valid hc.month hc.days (n := v.now) hne (hb2.1 hm) (fuel - 3)
    rw [Nat.sub_add_cancel (by omega)] at e1
    rw [if_pos hm]
    simp only [e1, e2, e3]
    refine ⟨_, rfl, ?_⟩
    rw [← chain_eq0, status_log hk hcl (clear_now hk) ht (.one .run) [(.eq, 0)], compState_eq0]
    have hz : ∀ n : Nat, n = 0 ↔ ¬ 0 < n := by omega
    rw [hz, show Acts.one .run = Verb.acts .started from rfl,
      happened_iff (P := fun t => t / 60000000 = v.now / 60000000) (fun r hr => by
        have := (hk.times r hr).2.2
        have : MIN = 60000000 := rfl
        omega)]
    simp only [Sit.Says, hn, Option.some.injEq, exists_eq_left']
    exact ⟨fun h => ⟨hb2.1 hm, h⟩, fun h => h.2⟩
  · rw [if_neg hm]
    refine ⟨false, rfl, ?_⟩
    simp only [Bool.false_eq_true, false_iff, Sit.Says]
    exact fun h => hm (hb2.2 h.1)

theorem openRuns_mem {name : String} : ∀ {l : List Record} {r : Record}, r ∈ openRuns name l → r ∈ l
  | [], _, h => h
  | x :: l, r, h => by
    unfold openRuns at h
    split at h
    · rcases List.mem_cons.1 h with h | h
      · exact h ▸ List.mem_cons_self
      · exact List.mem_cons_of_mem _ (openRuns_mem h)
    · exact List.mem_cons_of_mem _ (openRuns_mem h)

/-- "task '…' is running". -/
theorem running_answers {v : Sit} (hk : v.Kept) (whil : Bool) (t : Txt) (hr : v.Ready (.running whil t)) :
    Answers v (.running t) (v.Says (.running whil t)) := by
  refine answers_of 0 (fun _ => compState [] ((if v.fromLogs then runningCount v.hasRunId v.repo (String.ofList t) (MINT, MAXT)
    else ((v.runs (String.ofList t)).filter (fun r => r.2 && within MINT MAXT r.1)).length : Nat) : Int)) fun k => ⟨?_, ?_⟩
  · simp only [Sit.leaf, Sit.lookup]
    rw [if_pos (show String.ofList t ∈ v.tasks from hr)]
    rfl
  · rw [show ([] : Comps) = chain [] from rfl]
    simp only [Sit.Says]
    cases hf : v.fromLogs with
    | true =>
      obtain ⟨h1, h2⟩ := hk.log hf
      simp only [if_true, compState_nil]
      rw [h1, C35_ids_partial v.repo _ MINT MAXT (h2 _) (fun r hr _ => by have := hk.times r hr; have := hk.last; omega)]
      rw [List.filter_eq_self.2 (fun r hr => ?_)]
      · exact List.length_pos_iff
      · have := hk.times r (openRuns_mem hr)
        simp; omega
    | false =>
      simp only [Bool.false_eq_true, if_false, compState_nil]
      rw [List.length_pos_iff_exists_mem]
      constructor
      · rintro ⟨r, hr⟩
        obtain ⟨h1, h2⟩ := List.mem_filter.1 hr
        exact ⟨r, h1, by simpa using (Bool.and_eq_true_iff.1 h2).1⟩
      · rintro ⟨r, h1, h2⟩
        have := hk.runs hf _ r h1
        exact ⟨r, List.mem_filter.2 ⟨h1, by simp [h2, within, this]⟩⟩

theorem depend_leaf {v : Sit} (hk : v.Kept) (k : DepKind) {a : String} (hs : v.self = some a) (t : Txt) (ht : String.ofList t ∈ v.tasks)
    (fuel : Nat) : ∃ b, v.leaf fuel (.depend k t) = .ok b ∧ (b = true ↔ v.Since k a (String.ofList t)) := by
  refine ⟨dependState v.repo a (String.ofList t) (Sit.depActs k), ?_, ?_⟩
  · simp only [Sit.leaf, Sit.depend, Sit.lookup, hs]
    rw [if_pos ht]
  · obtain ⟨h1, h2, h3⟩ := C32_conditions v.repo a (String.ofList t)
      ((hk.ordered a).imp (fun h x y => h x.1 y.1)) (hk.ordered (String.ofList t))
    cases k <;> simp only [Sit.depActs, Sit.Since, h1, h2, h3, OfAction, and_imp]

/-- "env '…'". -/
theorem env_answers {v : Sit} (hk : v.Kept) (e : Txt) : Answers v (.env e) (v.Says (.env e)) := by
  refine answers_of 0 (fun _ => v.env e) fun _ => ⟨rfl, ?_⟩
  simp only [Sit.env, Sit.Says]
  cases hf : v.params.find? (fun p => decide (p.1 = c!"env")) with
  | none =>
    simp only [Bool.false_eq_true, false_iff]
    rintro ⟨p, hp, rfl⟩
    simpa using List.find?_eq_none.1 hf _ hp
  | some p =>
    have hp := List.mem_of_find?_eq_some hf
    have h1 : p.1 = c!"env" := by simpa using List.find?_some hf
    simp only [decide_eq_true_eq]
    constructor
    · intro h; exact ⟨p, hp, by rw [← h1, ← h]⟩
    · rintro ⟨q, hq, rfl⟩
      rw [hk.params p hp _ hq (by simpa using h1)]

theorem started_leaf {v : Sit} {s us : Int} (h0 : 0 ≤ us) (hs : v.startup = some s) (hle : s ≤ v.now) (fuel : Nat) :
    v.leaf (fuel + 1) (.schedStarted us) = .ok (decide (v.now - s ≤ us)) := by
  have : Period.mkDelta (some us) none = .delta us 0 := by
    simp only [Period.mkDelta]
    congr 1
    simp
    omega
  simp only [Sit.leaf, schedulerStarted, this, delta_span fuel h0, hs]
  congr 1
  rw [Bool.eq_iff_iff]
  simp; omega

/-! ### the arguments -/

theorem digit_noBlank {c : Char} (h : '0' ≤ c ∧ c ≤ '9') : c ≠ ' ' ∧ c ≠ '\n' ∧ c ≠ '\'' := by
  refine ⟨?_, ?_, ?_⟩ <;> rintro rfl <;> exact absurd h (by decide)

theorem showVal_plain (sc : Scope) {v : CVal} (h : Writable sc v) :
    showVal sc v ≠ [] ∧ ∀ c ∈ showVal sc v, c ≠ ' ' ∧ c ≠ '\n' ∧ c ≠ '\'' := by
  cases v with
  | num n => exact ⟨showNat_ne_nil _, fun c hc => digit_noBlank (showNat_digits _ c hc)⟩
  | name k =>
    obtain ⟨h0, h1⟩ := h
    have hk : k.toNat < (cronNames sc).length := by omega
    have key : ∀ n : String, n ∈ cronNames sc → n.toList ≠ [] ∧ ∀ c ∈ n.toList, c ≠ ' ' ∧ c ≠ '\n' ∧ c ≠ '\'' := by
      cases sc <;> simp [cronNames] <;> decide
    have := key _ (List.getElem_mem hk)
    simpa only [showVal, List.getElem?_eq_getElem hk, Option.getD_some] using this

theorem showStep_plain (st : Option Nat) : ∀ c ∈ showStep st, c ≠ ' ' ∧ c ≠ '\n' ∧ c ≠ '\'' := by
  cases st with
  | none => simp [showStep]
  | some n =>
    intro c hc
    rcases List.mem_cons.1 hc with rfl | hc
    · decide
    · exact digit_noBlank (showNat_digits _ c hc)

theorem showItem_plain (sc : Scope) {i : CItem} (h : WritableItem sc i) :
    showItem sc i ≠ [] ∧ ∀ c ∈ showItem sc i, c ≠ ' ' ∧ c ≠ '\n' ∧ c ≠ '\'' := by
  cases i with
  | star => simp [showItem]
  | starStep n =>
    refine ⟨by simp [showItem], fun c hc => ?_⟩
    simp only [showItem, List.mem_cons] at hc
    rcases hc with rfl | rfl | hc
    · decide
    · decide
    · exact digit_noBlank (showNat_digits _ c hc)
  | «at» v st =>
    obtain ⟨h1, h2⟩ := showVal_plain sc h
    refine ⟨by simp [showItem, h1], fun c hc => ?_⟩
    rcases List.mem_append.1 hc with hc | hc
    · exact h2 c hc
    · exact showStep_plain st c hc
  | range a b st =>
    obtain ⟨h1, h2⟩ := showVal_plain sc h.1
    obtain ⟨g1, g2⟩ := showVal_plain sc h.2
    refine ⟨by simp [showItem], fun c hc => ?_⟩
    simp only [showItem, List.append_assoc, List.cons_append, List.mem_append, List.mem_cons] at hc
    rcases hc with hc | rfl | hc | hc
    · exact h2 c hc
    · decide
    · exact g2 c hc
    · exact showStep_plain st c hc

theorem showField_plain (sc : Scope) {items : List CItem} (hne : items ≠ []) (h : ∀ i ∈ items, WritableItem sc i) :
    Arg (showField sc items).toList ∧ ' ' ∉ (showField sc items).toList := by
  have hp : ∀ c ∈ (showField sc items).toList, c ≠ ' ' ∧ c ≠ '\n' ∧ c ≠ '\'' := by
    intro c hc
    simp only [showField, String.toList_ofList] at hc
    rcases mem_joinWith hc with hc | ⟨w, hw, hc⟩
    · rw [List.mem_singleton.1 hc]; decide
    · obtain ⟨i, hi, rfl⟩ := List.mem_map.1 hw
      exact (showItem_plain sc (h i hi)).2 c hc
  refine ⟨⟨?_, fun hc => (hp _ hc).2.1 rfl, fun hc => (hp _ hc).2.2 rfl⟩, fun hc => (hp _ hc).1 rfl⟩
  simp only [showField, String.toList_ofList]
  refine joinWith_ne_nil (by simpa using hne) fun w hw => ?_
  obtain ⟨i, hi, rfl⟩ := List.mem_map.1 hw
  exact (showItem_plain sc (h i hi)).1

/-- The words for it exist and its times can be read. -/
theorem saying_phrase (lib : TextLib) (s : Saying) (hp : s.Proper) :
    s.phrase.Proper ∧ s.phrase.InSyntax ∧ SoundPhrase (valOf lib) s.phrase ∧
      ∀ x ∈ s.phrase.times, readTime lib x.1 x.2 = .ok (valOf lib x.1 x.2) := by
  have times : ∀ (sc : Scope) (w : TPart), w.Of sc → ∀ x ∈ w.part.times.map (fun t => (sc, t)),
      readTime lib x.1 x.2 = .ok (valOf lib x.1 x.2) := by
    intro sc w hw x hx
    obtain ⟨t, ht, rfl⟩ := List.mem_map.1 hx
    exact part_read lib w hw t ht
  cases s with
  | has task v => exact ⟨hp, trivial, trivial, by simp [Saying.phrase, Phrase.times]⟩
  | hasIn task v sc w =>
    obtain ⟨h1, h2, h3, _, h4, h5⟩ := hp
    have hy := cyclic_ne_year (h3.imp id And.left)
    refine ⟨⟨h1, part_proper hy w h2⟩, ⟨h4, hy⟩, ?_, times sc w h2⟩
    exact starting_sound lib task v w h2 hy h5
  | hasPast task v inn d us => exact ⟨⟨hp.1, hp.2.1.2⟩, trivial, trivial, by simp [Saying.phrase, Phrase.times]⟩
  | timeOf sc w =>
    obtain ⟨h1, h2, h3⟩ := hp
    exact ⟨part_proper (cyclic_ne_year h2) w h1, h3, trivial, times sc w h1⟩
  | exec sc w =>
    obtain ⟨h1, h2⟩ := hp
    have hy := cyclic_ne_year (h2.imp id And.left)
    exact ⟨part_proper hy w h1, hy, trivial, times sc w h1⟩
  | every d us => exact ⟨hp.1.2, trivial, trivial, by simp [Saying.phrase, Phrase.times]⟩
  | cron c =>
    obtain ⟨w1, w2, w3, w4, w5⟩ := hp.writable
    refine ⟨⟨by simp [cronTexts], by simp [cronTexts], ?_⟩, trivial, trivial, by simp [Saying.phrase, Phrase.times]⟩
    intro f hf
    simp only [cronTexts, List.mem_cons, List.not_mem_nil, or_false] at hf
    rcases hf with rfl | rfl | rfl | rfl | rfl
    · exact showField_plain _ hp.valid.minute.1 w1
    · exact showField_plain _ hp.valid.hour.1 w2
    · exact showField_plain _ hp.valid.dayOfMonth.1 w3
    · exact showField_plain _ hp.valid.month.1 w4
    · exact showField_plain _ hp.valid.dayOfWeek.1 w5
  | schedOver d us => exact ⟨hp.1.2, trivial, trivial, by simp [Saying.phrase, Phrase.times]⟩
  | schedAgo d us => exact ⟨hp.1.2, trivial, trivial, by simp [Saying.phrase, Phrase.times]⟩
  | _ => exact ⟨hp, trivial, trivial, by simp [Saying.phrase, Phrase.times]⟩

/-! ### C65 -/

theorem answers_observe {v : Sit} {l : Builtin} {P : Prop} (h : Answers v l P) :
    ∃ N, ∀ fuel, N ≤ fuel → ∃ b, observe (v.obs fuel) (.leaf l) () = (.ok b, ()) ∧ (b = true ↔ P) := by
  obtain ⟨N, h⟩ := h
  refine ⟨N, fun fuel hf => ?_⟩
  obtain ⟨b, h1, h2⟩ := h fuel hf
  exact ⟨b, by simp only [observe, Sit.obs, h1], h2⟩

theorem observe_depends {v : Sit} (hk : v.Kept) (k : DepKind) {a : String} (hs : v.self = some a) (fuel : Nat) :
    ∀ ts : List Txt, (∀ t ∈ ts, String.ofList t ∈ v.tasks) →
    (∃ b, observe.observeAll (v.obs fuel) (ts.map (fun t => .leaf (.depend k t))) () = (.ok b, ()) ∧
      (b = true ↔ ∀ t ∈ ts, v.Since k a (String.ofList t))) ∧
    ∃ b, observe.observeAny (v.obs fuel) (ts.map (fun t => .leaf (.depend k t))) () = (.ok b, ()) ∧
      (b = true ↔ ∃ t ∈ ts, v.Since k a (String.ofList t))
  | [], _ => ⟨⟨true, rfl, by simp⟩, ⟨false, rfl, by simp⟩⟩
  | t :: ts, h => by
    obtain ⟨b, h1, h2⟩ := depend_leaf hk k hs t (h t (by simp)) fuel
    obtain ⟨⟨x, x1, x2⟩, ⟨y, y1, y2⟩⟩ := observe_depends hk k hs fuel ts (fun t ht => h t (by simp [ht]))
    have ho : observe (v.obs fuel) (.leaf (.depend k t)) () = (.ok b, ()) := by simp only [observe, Sit.obs, h1]
    simp only [List.map_cons, observe.observeAll, observe.observeAny, ho]
    cases b with
    | true =>
      exact ⟨⟨x, x1, by rw [x2]; simp [h2.1 rfl]⟩, ⟨true, rfl, by simp [h2.1 rfl]⟩⟩
    | false =>
      have h3 : ¬ v.Since k a (String.ofList t) := fun h => by simpa using h2.2 h
      exact ⟨⟨false, rfl, by simp [h3]⟩, ⟨y, y1, by rw [y2]; simp [h3]⟩⟩

/-- C65: each phrase of the condition syntax, with its times, durations and fields written out, means a condition that is true
exactly when what the phrase says holds in the situation. -/
theorem C65_saying_partial (lib : TextLib) (v : Sit) (hk : v.Kept) (s : Saying) (hp : s.Proper) (hr : v.Ready s) :
    ∃ c, s.phrase.meaning (valOf lib) = .ok c ∧
      ∃ N, ∀ fuel, N ≤ fuel → ∃ b, observe (v.obs fuel) c () = (.ok b, ()) ∧ (b = true ↔ v.Says s) := by
  cases s with
  | has task vb => exact ⟨_, rfl, answers_observe (has_answers hk task vb hr)⟩
  | hasIn task vb sc w =>
    obtain ⟨_, h2, h3, h4, _, _⟩ := hp
    refine ⟨_, by simp only [Saying.phrase, Phrase.meaning, part_meaning lib (cyclic_ne_year (h3.imp id And.left)) w h2]; rfl, ?_⟩
    rcases h3 with h3 | ⟨rfl, h3⟩
    · exact answers_observe (hasIn_answers hk task vb w h2 h3 hr)
    · exact answers_observe (hasIn_month hk task vb w h2 h3 h4 hr)
  | hasPast task vb inn d us =>
    exact ⟨_, by simp only [Saying.phrase, Phrase.meaning, span_lasts hp.2]; rfl,
      answers_observe (hasPast_answers hk task vb inn d hp.2.2.1 hr)⟩
  | timeOf sc w =>
    obtain ⟨h1, h2, _⟩ := hp
    refine ⟨_, by simp only [Saying.phrase, Phrase.meaning, part_meaning lib (cyclic_ne_year h2) w h1]; rfl, ?_⟩
    rcases h2 with h2 | rfl
    · exact answers_observe (timeOf_answers w h1 h2)
    · exact answers_observe (timeOf_month w)
  | exec sc w =>
    obtain ⟨h1, h2⟩ := hp
    refine ⟨_, by simp only [Saying.phrase, Phrase.meaning, part_meaning lib (cyclic_ne_year (h2.imp id And.left)) w h1]; rfl, ?_⟩
    rcases h2 with h2 | ⟨rfl, h2⟩
    · exact answers_observe (exec_answers hk w h1 h2 hr)
    · exact answers_observe (exec_month hk w h1 h2 hr)
  | every d us =>
    exact ⟨_, by simp only [Saying.phrase, Phrase.meaning, span_lasts hp]; rfl,
      answers_observe (every_answers hk d hp.2.1 hr)⟩
  | cron c =>
    exact ⟨_, rfl, by simpa [cronTexts] using answers_observe (cron_answers hk hp hr)⟩
  | running whil t => exact ⟨_, rfl, answers_observe (running_answers hk whil t hr)⟩
  | afterTask t k said =>
    obtain ⟨a, ha⟩ := Option.ne_none_iff_exists'.1 hr.1
    refine ⟨_, rfl, 0, fun fuel _ => ?_⟩
    obtain ⟨b, h1, h2⟩ := depend_leaf hk k ha t hr.2 fuel
    refine ⟨b, by simp only [observe, Sit.obs, h1], ?_⟩
    simp only [h2, Sit.Says, ha, Option.some.injEq, exists_eq_left']
  | afterTasks isAny ts k said =>
    obtain ⟨a, ha⟩ := Option.ne_none_iff_exists'.1 hr.1
    refine ⟨_, rfl, 0, fun fuel _ => ?_⟩
    obtain ⟨h1, h2⟩ := observe_depends hk k ha fuel ts hr.2
    simp only [Sit.Says, ha, Option.some.injEq, exists_eq_left']
    cases isAny with
    | true => simpa only [if_true, observe] using h2
    | false => simpa only [Bool.false_eq_true, if_false, observe] using h1
  | env e => exact ⟨_, rfl, answers_observe (env_answers hk e)⟩
  | schedOver d us =>
    obtain ⟨st, h1, h2⟩ := hr
    refine ⟨_, by simp only [Saying.phrase, Phrase.meaning, span_lasts hp]; rfl, 1, fun fuel hf => ?_⟩
    obtain ⟨n, rfl⟩ : ∃ n, fuel = n + 1 := ⟨fuel - 1, by omega⟩
    refine ⟨!decide (v.now - st ≤ us), by simp only [observe, Sit.obs, started_leaf hp.2.1 h1 h2], ?_⟩
    simp [Sit.Says, h1]
    omega
  | schedAgo d us =>
    obtain ⟨st, h1, h2⟩ := hr
    refine ⟨_, by simp only [Saying.phrase, Phrase.meaning, span_lasts hp]; rfl, 1, fun fuel hf => ?_⟩
    obtain ⟨n, rfl⟩ : ∃ n, fuel = n + 1 := ⟨fuel - 1, by omega⟩
    refine ⟨decide (v.now - st ≤ us), by simp only [observe, Sit.obs, started_leaf hp.2.1 h1 h2], ?_⟩
    simp [Sit.Says, h1]
  | schedMore n =>
    refine ⟨_, rfl, 0, fun fuel _ => ⟨Sched.cyclesState [(.gt, n)] v.nCycles, by simp only [observe, Sit.obs, Sit.leaf], ?_⟩⟩
    simp [Sched.cyclesState, compState, Comp.holds, Sit.Says]
  | schedLess n =>
    refine ⟨_, rfl, 0, fun fuel _ => ⟨Sched.cyclesState [(.lt, n)] v.nCycles, by simp only [observe, Sit.obs, Sit.leaf], ?_⟩⟩
    simp [Sched.cyclesState, compState, Comp.holds, Sit.Says]
  | schedCycles n =>
    refine ⟨_, rfl, 0, fun fuel _ => ⟨Sched.cyclesState [(.eq, n)] v.nCycles, by simp only [observe, Sit.obs, Sit.leaf], ?_⟩⟩
    simp [Sched.cyclesState, compState, Comp.holds, Sit.Says]
  | const b long =>
    refine ⟨_, rfl, 0, fun fuel _ => ⟨b, ?_, Iff.rfl⟩⟩
    cases b <;> rfl

theorem holds_truth (P : Txt → Prop) [DecidablePred P] : ∀ e : Written, e.expr.truth (fun w => decide (P w)) ↔ e.Holds P
  | .item _ w _ => by simp [Written.expr, CExpr.truth, Written.Holds]
  | .group e => by rw [Written.expr, Written.Holds, holds_truth P e]
  | .not _ _ e => by rw [Written.expr, Written.Holds, CExpr.truth, holds_truth P e]
  | .and a _ _ b => by rw [Written.expr, Written.Holds, CExpr.truth, holds_truth P a, holds_truth P b]
  | .or a _ _ b => by rw [Written.expr, Written.Holds, CExpr.truth, holds_truth P a, holds_truth P b]

theorem leaves_words : ∀ e : Written, e.expr.leaves = e.words
  | .item _ w _ => by simp [Written.expr, CExpr.leaves, Written.words]
  | .group e => by rw [Written.expr, Written.words, leaves_words e]
  | .not _ _ e => by rw [Written.expr, Written.words, CExpr.leaves, leaves_words e]
  | .and a _ _ b => by rw [Written.expr, Written.words, CExpr.leaves, leaves_words a, leaves_words b]
  | .or a _ _ b => by rw [Written.expr, Written.words, CExpr.leaves, leaves_words a, leaves_words b]

theorem common_bound {Q : Txt → Nat → Prop} : ∀ l : List Txt, (∀ w ∈ l, ∃ N, ∀ n, N ≤ n → Q w n) →
    ∃ N, ∀ w ∈ l, ∀ n, N ≤ n → Q w n
  | [], _ => ⟨0, by simp⟩
  | w :: l, h => by
    obtain ⟨N, h1⟩ := h w (by simp)
    obtain ⟨M, h2⟩ := common_bound l (fun x hx => h x (by simp [hx]))
    refine ⟨N + M, fun x hx n hn => ?_⟩
    rcases List.mem_cons.1 hx with rfl | hx
    · exact h1 n (by omega)
    · exact h2 x hx n (by omega)

open Classical in
/-- C65: a whole condition text, with `~`, `&`, `|` and brackets over phrases whose times, durations and fields are written
out, is read as a condition that, observed in a situation the session has kept, gives the truth of what the text says. -/
theorem C65_text_partial (lib : TextLib) (strLeaf : Char → Builtin) (v : Sit) (hk : v.Kept) (e : Written) (he : e.Proper)
    (sayingOf : Txt → Saying)
    (hw : ∀ w ∈ e.words, (sayingOf w).phrase.text = w ∧ (sayingOf w).Proper ∧ v.Ready (sayingOf w)) :
    ∃ c, parseCondition strLeaf (parseCondItem (readTime lib)) e.text = .ok c ∧
      ∃ N, ∀ fuel, N ≤ fuel → ∃ b, observe (v.obs fuel) c () = (.ok b, ()) ∧
        (b = true ↔ e.Holds (fun w => v.Says (sayingOf w))) := by
  have key := fun w hm => C65_saying_partial lib v hk (sayingOf w) (hw w hm).2.1 (hw w hm).2.2
  have hg : ∀ fuel b, v.obs fuel b.resolve = v.obs fuel b := by
    intro fuel b; cases b <;> rfl
  have htext := fun fuel => C60_text_partial (read := readTime lib) (val := valOf lib) strLeaf (v.obs fuel) (hg fuel) e he
    (fun w => (sayingOf w).phrase) (fun w hm => by
      obtain ⟨h1, h2, h3, h4⟩ := saying_phrase lib (sayingOf w) (hw w hm).2.1
      obtain ⟨c, hc, _⟩ := key w hm
      exact ⟨(hw w hm).1, h1, h2, h3, h4, c, hc⟩)
  obtain ⟨c, hc, _⟩ := htext 0
  refine ⟨c, hc, ?_⟩
  obtain ⟨N, hN⟩ := common_bound (Q := fun w n => ∃ b, phraseObs (v.obs n) (valOf lib) (sayingOf w).phrase () = (.ok b, ()) ∧
      (b = true ↔ v.Says (sayingOf w))) e.words (fun w hm => by
    obtain ⟨c, hc, N, h⟩ := key w hm
    refine ⟨N, fun n hn => ?_⟩
    simp only [phraseObs, hc]
    exact h n hn)
  refine ⟨N, fun fuel hf => ?_⟩
  obtain ⟨c', hc', ho⟩ := htext fuel
  cases hc.symm.trans hc'
  obtain ⟨b, s', h1, _, h2⟩ := eval_truth (fun w => phraseObs (v.obs fuel) (valOf lib) (sayingOf w).phrase)
    (fun w => decide (v.Says (sayingOf w))) (fun _ => True) e.expr (fun w hm s _ => by
      rw [leaves_words] at hm
      obtain ⟨b, g1, g2⟩ := hN w hm fuel hf
      refine ⟨?_, trivial⟩
      rw [g1]
      refine congrArg Except.ok ?_
      rw [Bool.eq_iff_iff, g2, decide_eq_true_eq]) () trivial
  refine ⟨b, by rw [ho, h1], ?_⟩
  rw [h2, holds_truth]

/-- What `every` may be based on, with the records that count. -/
def bases : List (String × List Action) :=
  [("run", [.run]), ("success", [.success]), ("fail", [.fail]), ("finish", [.success, .fail, .inaction, .terminate])]

/-- C65.  `every(duration, based=…)` of the Python interface is true exactly if the task has no record of the kinds it is
based on in the past time of that length; any other basis is refused. -/
theorem C65_every (v : Sit) (hk : v.Kept) (d : DText) (us : Int) (hd : Saying.Lasts d us) (name : String) (hn : v.self = some name)
    (hc : v.Clear (v.now - us)) (based : String) :
    (∀ acts, (based, acts) ∈ bases → ∃ c, Api.every d.text based = .ok c ∧
      ∃ N, ∀ fuel, N ≤ fuel → ∃ b, observe (v.obs fuel) c () = (.ok b, ()) ∧
        (b = true ↔ ∀ r ∈ v.repo, r.task = name → r.action ∈ acts → ¬ (v.now - us ≤ r.created ∧ r.created ≤ v.now))) ∧
    (based ∉ bases.map Prod.fst → Api.every d.text based = .error .value) := by
  have hsp : readDelta d.text = .ok us := (readDelta_eq _).trans (span_lasts hd)
  have hst : ∀ (vb : Verb) (a : Action), shownBy vb = [a] →
      ∃ N, ∀ fuel, N ≤ fuel → ∃ b, observe (v.obs fuel) (.leaf (.status vb none (some (.delta us 0)) [(.eq, 0)])) () = (.ok b, ()) ∧
        (b = true ↔ ∀ r ∈ v.repo, r.task = name → r.action ∈ [a] → ¬ (v.now - us ≤ r.created ∧ r.created ≤ v.now)) := by
    intro vb a ha
    obtain ⟨N, h⟩ := answers_observe (quiet_answers hk vb hd.2.1 hn hc)
    refine ⟨N, fun fuel hf => ?_⟩
    obtain ⟨b, h1, h2⟩ := h fuel hf
    refine ⟨b, h1, h2.trans ?_⟩
    unfold Sit.Happened
    rw [ha]
    constructor
    · exact fun h r hr h1 h2 h3 => h ⟨r, hr, h1, h2, h3⟩
    · rintro h ⟨r, hr, h1, h2, h3⟩
      exact h r hr h1 h2 h3
  constructor
  · intro acts hb
    simp only [bases, List.mem_cons, Prod.mk.injEq, List.not_mem_nil, or_false] at hb
    rcases hb with ⟨rfl, rfl⟩ | ⟨rfl, rfl⟩ | ⟨rfl, rfl⟩ | ⟨rfl, rfl⟩
    · exact ⟨_, by simp only [Api.every, hsp]; rfl, hst .started .run rfl⟩
    · exact ⟨_, by simp only [Api.every, hsp]; rfl, hst .succeeded .success rfl⟩
    · exact ⟨_, by simp only [Api.every, hsp]; rfl, hst .failed .fail rfl⟩
    · exact ⟨_, by simp only [Api.every, hsp]; rfl, answers_observe (finish_answers hk hd.2.1 hn hc)⟩
  · intro h
    simp only [bases, List.map_cons, List.map_nil, List.mem_cons, List.not_mem_nil, or_false, not_or] at h
    simp only [Api.every, h.1, h.2.1, h.2.2.1, h.2.2.2, if_false]

/-- The log and the times kept in the tasks are as required after every history of successful log writes (C34): it is enough
that the clock does not go back. -/
theorem C65_kept (calls : List LogOp) (hf : ∀ op ∈ calls, op.Fine) (hs : ∀ op ∈ calls, op.NoStartup) (v : Sit)
    (hlogs : v.fromLogs = false)
    (hm : v.mem = (runLogOps false .fresh calls).mem) (hr : v.repo = (runLogOps false .fresh calls).repo)
    (hself : ∀ n, v.self = some n → n ∈ v.tasks) (h0 : MINT ≤ v.now) (h1 : v.now ≤ MAXT)
    (ht : ∀ r ∈ v.repo, MINT ≤ r.noted ∧ r.noted ≤ r.created ∧ r.created ≤ v.now) (ho : ∀ name, Ordered v.repo (Of name))
    (hruns : ∀ name, ∀ r ∈ v.runs name, MINT ≤ r.1 ∧ r.1 ≤ MAXT) (hp : ∀ p ∈ v.params, ∀ q ∈ v.params, p.1 = q.1 → p = q) :
    v.Kept where
  self := hself
  first := h0
  last := h1
  times := ht
  ordered := ho
  cache := fun _ name _ => by
    have h := C34_agrees false calls hf name (.inr hs)
    rw [hm, hr]
    exact ⟨h.last_none, h.last_some⟩
  runs := fun _ => hruns
  log := fun h => by rw [hlogs] at h; cases h
  params := hp

/-! ### an example -/

/-- `fetch` ran and succeeded on New Year's Day between 11:00 and 11:05, `send` has failed at 8:30 the next day. -/
def newYearCalls : List LogOp :=
  [.set "fetch" .run (some "1") (datetime 2024 1 1 + 11 * HOUR) (datetime 2024 1 1 + 11 * HOUR) .ok,
   .set "fetch" .success (some "1") (datetime 2024 1 1 + 11 * HOUR + 5 * MIN) (datetime 2024 1 1 + 11 * HOUR + 5 * MIN) .ok,
   .set "send" .run (some "2") (datetime 2024 1 2 + 8 * HOUR) (datetime 2024 1 2 + 8 * HOUR) .ok,
   .set "send" .fail (some "2") (datetime 2024 1 2 + 8 * HOUR + 30 * MIN) (datetime 2024 1 2 + 8 * HOUR + 30 * MIN) .ok]

/-- The day after New Year, one second after nine; the condition is that of `send`. -/
def newYear : Sit where
  fromLogs := false
  now := datetime 2024 1 2 + 9 * HOUR + SEC
  self := some "send"
  tasks := ["fetch", "send"]
  repo := (runLogOps false .fresh newYearCalls).repo
  mem := (runLogOps false .fresh newYearCalls).mem
  startCond := fun _ => .alwaysTrue
  runs := fun n => if n = "fetch" then [(datetime 2024 1 1 + 11 * HOUR, false)] else []
  hasRunId := true
  startup := some (datetime 2024 1 1)
  nCycles := 3
  params := [(c!"env", some c!"prod"), (c!"x", some c!"1")]

theorem newYear_repo : newYear.repo =
    [⟨"fetch", .run, datetime 2024 1 1 + 11 * HOUR, datetime 2024 1 1 + 11 * HOUR, some "1"⟩,
     ⟨"fetch", .success, datetime 2024 1 1 + 11 * HOUR + 5 * MIN, datetime 2024 1 1 + 11 * HOUR + 5 * MIN, some "1"⟩,
     ⟨"send", .run, datetime 2024 1 2 + 8 * HOUR, datetime 2024 1 2 + 8 * HOUR, some "2"⟩,
     ⟨"send", .fail, datetime 2024 1 2 + 8 * HOUR + 30 * MIN, datetime 2024 1 2 + 8 * HOUR + 30 * MIN, some "2"⟩] := by
  rfl

theorem newYear_kept : newYear.Kept := by
  refine C65_kept newYearCalls ?_ ?_ newYear rfl rfl rfl ?_ (by decide +kernel) (by decide +kernel) ?_ ?_ ?_ ?_
  · intro op h
    simp only [newYearCalls, List.mem_cons, List.not_mem_nil, or_false] at h
    rcases h with rfl | rfl | rfl | rfl <;> rfl
  · intro op h
    simp only [newYearCalls, List.mem_cons, List.not_mem_nil, or_false] at h
    rcases h with rfl | rfl | rfl | rfl <;> trivial
  · intro n h
    cases h
    decide
  · rw [newYear_repo]; decide +kernel
  · intro name
    exact (by decide +kernel : newYear.repo.Pairwise (fun r s => r.created ≤ s.created)).imp (fun h _ _ => h)
  · intro name r hr
    simp only [newYear] at hr
    split at hr
    · rw [List.mem_singleton.1 hr]; decide +kernel
    · cases hr
  · decide

def tenMinutes : DText := ⟨[], [⟨[], ⟨[1, 0], none⟩, [' '], "minutes", 60000000⟩], none⟩

theorem tenMinutes_lasts : Saying.Lasts tenMinutes (10 * MIN) := by
  refine ⟨⟨⟨by decide, ?_, by simp [tenMinutes], .inl (by simp [tenMinutes])⟩, ⟨by decide +kernel, by decide +kernel, by decide +kernel⟩⟩, by decide, .inl ?_⟩
  · intro p hp
    rw [List.mem_singleton.1 hp]
    exact ⟨by simp [IsSep], .inl (by simp), by simp [IsSep], by decide, by decide⟩
  · decide +kernel

/-- `time of day between 08:00 and 10:00 & ~(task 'fetch' is running | has failed past 10 minutes)`. -/
def newYearText : Written :=
  .and (.item [] c!"time of day between 08:00 and 10:00" []) [' '] [' ']
    (.not [] [] (.group (.or (.item [] c!"task 'fetch' is running" []) [' '] [' ']
      (.item [] c!"has failed past 10 minutes" []))))

/-- The phrases in it. -/
def newYearSays (w : Txt) : Saying :=
  if w = c!"task 'fetch' is running" then .running false c!"fetch"
  else if w = c!"has failed past 10 minutes" then .hasPast none .failed false tenMinutes (10 * MIN)
  else .timeOf .day (.between (.day ⟨8, 0, none⟩) (.day ⟨10, 0, none⟩))

theorem newYear_case : newYearText.Proper ∧
    (∀ w ∈ newYearText.words, (newYearSays w).phrase.text = w ∧ (newYearSays w).Proper ∧ newYear.Ready (newYearSays w)) ∧
    newYearText.Holds (fun w => newYear.Says (newYearSays w)) := by
  refine ⟨?_, ?_, ?_⟩
  · simp [newYearText, Written.Proper, Written.Word, Written.Conj, Written.Tight, Written.Blank]
  · intro w hw
    simp only [newYearText, Written.words, List.mem_append, List.mem_cons, List.not_mem_nil, or_false] at hw
    rcases hw with rfl | rfl | rfl
    · refine ⟨by decide +kernel, ⟨⟨⟨⟨by decide, by decide, by simp⟩, rfl⟩, ⟨by decide, by decide, by simp⟩, rfl⟩, by decide,
        ⟨by decide, by decide, trivial⟩⟩, trivial⟩
    · exact ⟨by decide +kernel, ⟨by decide, by decide, by decide⟩,
        (by decide +kernel : String.ofList c!"fetch" ∈ newYear.tasks)⟩
    · refine ⟨by decide +kernel, ⟨trivial, tenMinutes_lasts⟩, ⟨⟨"send", rfl, by decide⟩, fun _ => ?_⟩⟩
      rw [newYear_repo]
      decide +kernel
  · refine ⟨?_, ?_⟩
    · refine (?_ : InArc _ _ _ _)
      simp only [InArc]
      decide +kernel
    · rintro (h | ⟨name, h1, r, hr, h2, h3, h4⟩)
      · obtain ⟨r, hr, h⟩ := (h : ∃ r ∈ newYear.runs (String.ofList c!"fetch"), r.2 = true)
        revert r
        decide +kernel
      · cases h1
        revert h4
        rw [newYear_repo] at hr
        revert hr r
        decide +kernel

/-- The hypotheses of `C65_text_partial` hold in this example, and what the text says is true. -/
example : newYear.Kept ∧ newYearText.Proper ∧
    newYearText.text = c!"time of day between 08:00 and 10:00 & ~(task 'fetch' is running | has failed past 10 minutes)" ∧
    (∀ w ∈ newYearText.words, (newYearSays w).phrase.text = w ∧ (newYearSays w).Proper ∧ newYear.Ready (newYearSays w)) ∧
    newYearText.Holds (fun w => newYear.Says (newYearSays w)) :=
  ⟨newYear_kept, newYear_case.1, rfl, newYear_case.2⟩

/-- The other phrases with a time, at work: `daily`, `every 10 minutes` and `cron * 8-10 * * *` are ready; the first is false
(`send` has failed today), the others true. -/
example : newYear.Ready (.exec .day .whole) ∧ ¬ newYear.Says (.exec .day .whole) ∧
    newYear.Ready (.every tenMinutes (10 * MIN)) ∧ newYear.Says (.every tenMinutes (10 * MIN)) ∧
    Saying.PlainCron ⟨[.star], [.range (.num 8) (.num 10) none], [.star], [.star], [.star]⟩ ∧
    newYear.Ready (.cron ⟨[.star], [.range (.num 8) (.num 10) none], [.star], [.star], [.star]⟩) ∧
    newYear.leaf 9 (.cron (cronTexts ⟨[.star], [.range (.num 8) (.num 10) none], [.star], [.star], [.star]⟩)) = .ok true := by
  refine ⟨⟨by simp [newYear], ?_, fun _ => ?_⟩, ?_, ⟨by simp [newYear], fun _ => ?_⟩, ⟨"send", rfl, ?_⟩, ⟨?_, ?_, ?_, ?_⟩,
    ⟨by simp [newYear], by decide +kernel, fun _ => ?_⟩, by decide +kernel⟩
  · rintro ⟨_, h⟩
    exact absurd h (by decide +kernel)
  · rw [newYear_repo]; decide +kernel
  · rintro ⟨_, n, hn, h⟩
    cases hn
    exact absurd (h _ (by rw [newYear_repo]; exact List.mem_of_getLast? rfl) rfl (by simp)) (by decide +kernel)
  · rw [newYear_repo]; decide +kernel
  · rintro ⟨r, hr, h2, h3, h4⟩
    revert h4
    rw [newYear_repo] at hr
    revert hr r
    decide +kernel
  · refine ⟨⟨by simp, .inl (by simp)⟩, ⟨by simp, .inr ?_⟩, ⟨by simp, .inl (by simp)⟩, ⟨by simp, .inl (by simp)⟩,
      ⟨by simp, .inl (by simp)⟩⟩
    simp only [List.mem_singleton, forall_eq, ValidItem, ValidVal]
    refine ⟨by decide, ⟨by decide, by decide, ?_⟩, by decide, by decide, ?_⟩ <;> rintro ⟨_, h⟩ <;> cases h
  · simp [Unrestricted]
  · simp [EarlyItem]
  · simp [WritableItem, Writable]
  · rw [newYear_repo]; decide +kernel

/-- Months: `monthly` is ready and false (`send` has failed this month), `task 'fetch' has succeeded this month` is ready and
true. -/
example : newYear.Ready (.exec .month .whole) ∧ ¬ newYear.Says (.exec .month .whole) ∧
    (Saying.hasIn (some c!"fetch") .succeeded .month .whole).Proper ∧
    newYear.Ready (.hasIn (some c!"fetch") .succeeded .month .whole) ∧
    newYear.Says (.hasIn (some c!"fetch") .succeeded .month .whole) := by
  refine ⟨⟨by simp [newYear], ?_, fun _ => ?_⟩, ?_, ⟨⟨by decide, by decide, by decide⟩, trivial, .inr ⟨rfl, by decide⟩, fun _ => .inl (.inr ⟨rfl, rfl⟩), by decide, by simp⟩,
    ⟨⟨"fetch", rfl, by decide⟩, ?_, fun _ => ?_, fun _ => ?_⟩, ⟨"fetch", rfl, ⟨"fetch", .success, datetime 2024 1 1 + 11 * HOUR + 5 * MIN, datetime 2024 1 1 + 11 * HOUR + 5 * MIN, some "1"⟩, ?_, rfl, by decide, ?_⟩⟩
  · rintro ⟨_, h⟩
    exact absurd h (by rw [sinceMonthStart_eq]; decide +kernel)
  · rw [newYear_repo]; decide +kernel
  · rintro ⟨_, n, hn, h⟩
    cases hn
    exact absurd (h _ (by rw [newYear_repo]; exact List.mem_of_getLast? rfl) rfl (by simp)) (by decide +kernel)
  · rintro ⟨_, h⟩
    exact absurd h (by rw [sinceMonthStart_eq]; decide +kernel)
  · rw [newYear_repo]; decide +kernel
  · rw [newYear_repo]; decide +kernel
  · rw [newYear_repo]; exact .tail _ (.head _)
  · exact ⟨by decide +kernel, by decide +kernel, .inr (.inl ⟨rfl, rfl⟩)⟩

/-- Violated: "today between 10:00 and 12:00" is about yesterday until ten o'clock.  At nine, `has succeeded today between
10:00 and 12:00` is true for a task whose only success is from the day before. -/
theorem C65_today_violated :
    newYear.Kept ∧ newYear.Ready (.hasIn (some c!"fetch") .succeeded .day (.between (.day ⟨10, 0, none⟩) (.day ⟨12, 0, none⟩))) ∧
    (∀ r ∈ newYear.repo, r.task = "fetch" → r.created < datetime 2024 1 2) ∧ datetime 2024 1 2 ≤ newYear.now ∧
    newYear.leaf 1 (.status .succeeded (some c!"fetch") (some (.anchored ⟨.day, 10 * HOUR, 12 * HOUR⟩)) []) = .ok true := by
  refine ⟨newYear_kept, ⟨⟨"fetch", rfl, by decide⟩, ?_, ?_, ?_⟩, ?_, by decide +kernel, by decide +kernel⟩
  · rintro ⟨h | h, _⟩
    · exact absurd h (by decide +kernel)
    · exact absurd h.1 (by decide +kernel)
  · intro _
    rw [newYear_repo]
    decide +kernel
  · intro _
    rw [newYear_repo]
    decide +kernel
  · rw [newYear_repo]
    decide +kernel

/-- Violated: `param 'x' exists` and `param 'x' is '1'` are never true, whatever the parameters of the session. -/
theorem C65_param_violated (v : Sit) (fuel : Nat) (k val : Txt) :
    observe (v.obs fuel) (.leaf (.params [k])) () = (.ok false, ()) ∧
    observe (v.obs fuel) (.leaf (.paramIs k val)) () = (.ok false, ()) := ⟨rfl, rfl⟩

/-- The session has the parameter. -/
example : (c!"x", some c!"1") ∈ newYear.params ∧ observe (newYear.obs 9) (.leaf (.params [c!"x"])) () = (.ok false, ()) :=
  ⟨by decide, rfl⟩

/-- `every("10 minutes", based="fail")` for the task `send`: the case meets the hypotheses of `C65_every`. -/
example : newYear.Kept ∧ Saying.Lasts tenMinutes (10 * MIN) ∧ newYear.self = some "send" ∧ newYear.Clear (newYear.now - 10 * MIN) ∧
    ("fail", [Action.fail]) ∈ bases :=
  ⟨newYear_kept, tenMinutes_lasts, rfl, fun _ => by rw [newYear_repo]; decide +kernel, by decide⟩

end Rocketry.Props
