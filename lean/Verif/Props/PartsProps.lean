import Verif.Time.Parts
import Verif.Spec.PartsSpec
import Verif.Props.AnchoredProps

/-!
# C96: a time given by its parts is the time at which clocks show them
-/

namespace Rocketry.Props
open Rocketry Rocketry.Spec

theorem partOf_gives {d : List (String × Int)} {key : String} {n : Int} (hd : (d.map (·.1)).Nodup) (h : GivesPart d key n)
    (q : String → Bool) (hq : q key = true) : partOf (d.filter (fun kv => q kv.1)) key = n := by
  induction d with
  | nil =>
    rcases h with h | h
    · cases h
    · simp [partOf, h.1]
  | cons kv d ih =>
    simp only [List.map_cons, List.nodup_cons] at hd
    rw [List.filter_cons]
    by_cases hk : kv.1 = key
    · rw [if_pos (by rw [hk]; exact hq)]
      have hn : kv.2 = n := by
        rcases h with h | h
        · rcases List.mem_cons.1 h with h | h
          · rw [← h]
          · exact absurd (List.mem_map.2 ⟨_, h, hk.symm⟩) hd.1
        · exact absurd (List.mem_cons.2 (.inl (by rw [← hk]))) (h.2 kv.2)
      simp [partOf, List.find?_cons, hk, hn]
    · have ih' := ih hd.2 (by
        rcases h with h | h
        · rcases List.mem_cons.1 h with h | h
          · exact absurd (by rw [← h]) hk
          · exact .inl h
        · exact .inr ⟨h.1, fun m hm => h.2 m (List.mem_cons_of_mem _ hm)⟩)
      split
      · simpa [partOf, List.find?_cons, hk] using ih'
      · exact ih'

theorem partOf_other (d : List (String × Int)) (key : String) (q : String → Bool) (hq : q key = false) :
    partOf (d.filter (fun kv => q kv.1)) key = 0 := by
  have : (d.filter (fun kv => q kv.1)).find? (fun kv => decide (kv.1 = key)) = none := by
    rw [List.find?_eq_none]
    intro kv hkv
    have h := (List.mem_filter.1 hkv).2
    intro he
    rw [of_decide_eq_true he, hq] at h
    cases h
  simp [partOf, this]

/-- C96: for a cycle of fixed length, a dictionary that gives the parts that clocks show at an instant is the position of that
instant in the cycle, in whatever order the parts are given and without those that are zero. -/
theorem C96_parts_partial (sc : Scope) (L : Int) (hL : cycleLen sc = some L) (d : List (String × Int)) (hd : (d.map (·.1)).Nodup) (t : Int)
    (h : ∀ key ∈ cycleParts sc, GivesPart d key (shownPart key t)) : anchorDict sc d = .ok (t % L) := by
  have arith : ∀ a : Int, a % 1000000 + a / 1000000 % 60 * 1000000 = a % 60000000 ∧
      a % 60000000 + a / 60000000 % 60 * 60000000 = a % 3600000000 ∧
      a % 3600000000 + a / 3600000000 % 24 * 3600000000 = a % 86400000000 ∧
      a % 86400000000 + a / 86400000000 % 7 * 86400000000 = a % 604800000000 := by intro a; omega
  obtain ⟨a1, a2, a3, a4⟩ := arith t
  cases sc with
  | month => cases hL
  | year => cases hL
  | second =>
    cases hL
    have e_day := partOf_other d "day" ((["microsecond"] : List String).contains) rfl
    have e_hour := partOf_other d "hour" ((["microsecond"] : List String).contains) rfl
    have e_minute := partOf_other d "minute" ((["microsecond"] : List String).contains) rfl
    have e_second := partOf_other d "second" ((["microsecond"] : List String).contains) rfl
    have e_millisecond := partOf_other d "millisecond" ((["microsecond"] : List String).contains) rfl
    have e_microsecond := partOf_gives hd (h "microsecond" (by decide)) ((["microsecond"] : List String).contains) rfl
    simp only [anchorDict, fixedComponents, toMicroseconds]
    rw [e_day, e_hour, e_minute, e_second, e_millisecond, e_microsecond]
    simp [shownPart]
  | minute =>
    cases hL
    have e_day := partOf_other d "day" ((["second", "microsecond"] : List String).contains) rfl
    have e_hour := partOf_other d "hour" ((["second", "microsecond"] : List String).contains) rfl
    have e_minute := partOf_other d "minute" ((["second", "microsecond"] : List String).contains) rfl
    have e_second := partOf_gives hd (h "second" (by decide)) ((["second", "microsecond"] : List String).contains) rfl
    have e_millisecond := partOf_other d "millisecond" ((["second", "microsecond"] : List String).contains) rfl
    have e_microsecond := partOf_gives hd (h "microsecond" (by decide)) ((["second", "microsecond"] : List String).contains) rfl
    simp only [anchorDict, fixedComponents, toMicroseconds]
    rw [e_day, e_hour, e_minute, e_second, e_millisecond, e_microsecond]
    simp [shownPart]
    omega
  | hour =>
    cases hL
    have e_day := partOf_other d "day" ((["minute", "second", "microsecond"] : List String).contains) rfl
    have e_hour := partOf_other d "hour" ((["minute", "second", "microsecond"] : List String).contains) rfl
    have e_minute := partOf_gives hd (h "minute" (by decide)) ((["minute", "second", "microsecond"] : List String).contains) rfl
    have e_second := partOf_gives hd (h "second" (by decide)) ((["minute", "second", "microsecond"] : List String).contains) rfl
    have e_millisecond := partOf_other d "millisecond" ((["minute", "second", "microsecond"] : List String).contains) rfl
    have e_microsecond := partOf_gives hd (h "microsecond" (by decide)) ((["minute", "second", "microsecond"] : List String).contains) rfl
    simp only [anchorDict, fixedComponents, toMicroseconds]
    rw [e_day, e_hour, e_minute, e_second, e_millisecond, e_microsecond]
    simp [shownPart]
    omega
  | day =>
    cases hL
    have e_day := partOf_other d "day" ((["hour", "minute", "second", "microsecond"] : List String).contains) rfl
    have e_hour := partOf_gives hd (h "hour" (by decide)) ((["hour", "minute", "second", "microsecond"] : List String).contains) rfl
    have e_minute := partOf_gives hd (h "minute" (by decide)) ((["hour", "minute", "second", "microsecond"] : List String).contains) rfl
    have e_second := partOf_gives hd (h "second" (by decide)) ((["hour", "minute", "second", "microsecond"] : List String).contains) rfl
    have e_millisecond := partOf_other d "millisecond" ((["hour", "minute", "second", "microsecond"] : List String).contains) rfl
    have e_microsecond := partOf_gives hd (h "microsecond" (by decide)) ((["hour", "minute", "second", "microsecond"] : List String).contains) rfl
    simp only [anchorDict, fixedComponents, toMicroseconds]
    rw [e_day, e_hour, e_minute, e_second, e_millisecond, e_microsecond]
    simp [shownPart]
    omega
  | week =>
    cases hL
    have e_day := partOf_gives hd (h "day" (by decide)) ((["day", "hour", "minute", "second", "microsecond"] : List String).contains) rfl
    have e_hour := partOf_gives hd (h "hour" (by decide)) ((["day", "hour", "minute", "second", "microsecond"] : List String).contains) rfl
    have e_minute := partOf_gives hd (h "minute" (by decide)) ((["day", "hour", "minute", "second", "microsecond"] : List String).contains) rfl
    have e_second := partOf_gives hd (h "second" (by decide)) ((["day", "hour", "minute", "second", "microsecond"] : List String).contains) rfl
    have e_millisecond := partOf_other d "millisecond" ((["day", "hour", "minute", "second", "microsecond"] : List String).contains) rfl
    have e_microsecond := partOf_gives hd (h "microsecond" (by decide)) ((["day", "hour", "minute", "second", "microsecond"] : List String).contains) rfl
    simp only [anchorDict, fixedComponents, toMicroseconds]
    rw [e_day, e_hour, e_minute, e_second, e_millisecond, e_microsecond]
    simp [shownPart]
    omega

/-- C96: so a period from one such time to another contains the instants from the one to the other. -/
theorem C96_contains (sc : Scope) (L : Int) (hL : cycleLen sc = some L) (d e : List (String × Int)) (hd : (d.map (·.1)).Nodup)
    (he : (e.map (·.1)).Nodup) (a b t s f : Int) (ha : ∀ key ∈ cycleParts sc, GivesPart d key (shownPart key a))
    (hb : ∀ key ∈ cycleParts sc, GivesPart e key (shownPart key b)) (hs : anchorDict sc d = .ok s) (hf : anchorDict sc e = .ok f) :
    (⟨sc, s, f⟩ : Anchored).contains t = true ↔ (a % L = b % L ∨ (t - a) % L < (b - a) % L) := by
  rw [C96_parts_partial sc L hL d hd a ha] at hs
  rw [C96_parts_partial sc L hL e he b hb] at hf
  cases hs; cases hf
  have hpos : 0 < L := by cases sc <;> cases hL <;> decide
  have h1 := Int.emod_nonneg a (by omega : L ≠ 0)
  have h2 := Int.emod_lt_of_pos a hpos
  have h3 := Int.emod_nonneg b (by omega : L ≠ 0)
  have h4 := Int.emod_lt_of_pos b hpos
  have e1 : (t - a % L) % L = (t - a) % L := by rw [Int.sub_emod t (a % L), Int.emod_emod_of_dvd _ (Int.dvd_refl L), ← Int.sub_emod]
  have e2 : (b % L - a % L) % L = (b - a) % L := (Int.sub_emod b a L).symm
  rw [C02_contains ⟨sc, a % L, b % L⟩ L hL (by constructor <;> simp only <;> omega) t]
  simp only [InArc, e1, e2]
  constructor
  · rintro (h | ⟨_, h⟩ | h)
    · exact .inl h
    · omega
    · exact .inr h
  · rintro (h | h)
    · exact .inl h
    · exact .inr (.inr h)

/-- Wednesday 10:30, given by parts, in a period of the week. -/
example : anchorDict .week [("hour", 10), ("day", 2), ("minute", 30)] = .ok (2 * DAY + 10 * HOUR + 30 * MIN) := by decide

example : ∀ key ∈ cycleParts .week, GivesPart [("hour", 10), ("day", 2), ("minute", 30)] key (shownPart key (2 * DAY + 10 * HOUR + 30 * MIN)) := by
  intro key hk
  simp only [cycleParts, List.mem_cons, List.not_mem_nil, or_false] at hk
  rcases hk with rfl | rfl | rfl | rfl | rfl
  · exact .inr ⟨by decide, by intro m hm; simp at hm⟩
  · exact .inr ⟨by decide, by intro m hm; simp at hm⟩
  · exact .inl (by decide)
  · exact .inl (by decide)
  · exact .inl (by decide)

/-- Violated for months and years: every dictionary is refused. -/
theorem C96_month_violated (d : List (String × Int)) : anchorDict .month d = .error .value ∧ anchorDict .year d = .error .value :=
  ⟨rfl, rfl⟩

/-- Violated: entries that are no parts of the cycle are not refused but ignored, milliseconds among them. -/
theorem C96_ignored_violated (sc : Scope) (d : List (String × Int)) (key : String) (n : Int)
    (h : key ∉ ["day", "hour", "minute", "second", "microsecond"]) : anchorDict sc ((key, n) :: d) = anchorDict sc d := by
  have : ∀ comps, fixedComponents sc = some comps → comps.contains key = false := by
    intro comps hc
    apply Bool.eq_false_iff.2
    intro hk
    apply h
    have hm : key ∈ comps := by simpa using hk
    cases sc <;> cases hc <;> revert hm <;> simp only [List.mem_cons, List.not_mem_nil, or_false] <;> intro hm <;> tauto
  unfold anchorDict
  cases hc : fixedComponents sc with
  | none => rfl
  | some comps => simp only [List.filter_cons, this comps hc]; rfl

/-- C96: a float is as many units of the cycle, counted from its beginning. -/
theorem C96_float (n : Int) : anchorFloat .second (n * 1000000) = .ok (n * Scope.unit .second * 1000) ∧
    anchorFloat .minute (n * 1000000) = .ok (n * Scope.unit .minute * 1000) := by
  constructor <;> simp only [anchorFloat, Scope.unit, toMicroseconds, Except.ok.injEq] <;> omega

/-- Violated: equal numbers are different ends: until 30 includes the thirtieth second, until 30.0 does not. -/
theorem C96_float_violated : anchorInt .minute 30 .stop = .ok (31 * SEC) ∧ anchorFloat .minute (30 * 1000000) = .ok (30 * SEC * 1000) := by
  decide

end Rocketry.Props
