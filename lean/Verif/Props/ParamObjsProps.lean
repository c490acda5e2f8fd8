import Verif.Spec.ParamObjsSpec
import Verif.Props.ArgsProps
import Mathlib.Data.List.Nodup

/-!
# Property C79: `Parameters` objects are values
-/

namespace Rocketry.Props
open Rocketry.Args Rocketry.Spec

variable {V : Type}

/-- The heap as tables. -/
def _root_.Rocketry.Args.PHeap.view (h : PHeap V) : PTables V :=
  ⟨h.objs.map fun a => Dict.find (h.at a), h.held.map fun a => Dict.find (h.at a)⟩

/-- Nothing is shared. -/
structure _root_.Rocketry.Args.PHeap.Sep (h : PHeap V) : Prop where
  apart : (h.objs ++ h.held).Nodup
  there : ∀ a ∈ h.objs ++ h.held, a < h.dicts.length
  tidy : ∀ p ∈ h.dicts, Dict.Ok p ∧ Unreserved p

theorem at_tidy {h : PHeap V} (hs : h.Sep) (a : Nat) : Dict.Ok (h.at a) ∧ Unreserved (h.at a) := by
  unfold PHeap.at
  rw [List.getD_eq_getElem?_getD]
  rcases ha : h.dicts[a]? with _ | p
  · exact ⟨List.nodup_nil, fun x hx => by simp at hx⟩
  · exact hs.tidy p (List.mem_of_getElem? ha)

theorem at_append {h : PHeap V} {a : Nat} (ha : a < h.dicts.length) (q : Params V) (o l : List Nat) :
    PHeap.at ⟨h.dicts ++ [q], o, l⟩ a = h.at a := by
  simp [PHeap.at, List.getD_eq_getElem?_getD, List.getElem?_append_left ha]

theorem at_last (h : PHeap V) (q : Params V) (o l : List Nat) :
    PHeap.at ⟨h.dicts ++ [q], o, l⟩ h.dicts.length = q := by
  simp [PHeap.at, List.getD_eq_getElem?_getD]

theorem at_mutate {h : PHeap V} {a : Nat} (ha : a < h.dicts.length) (q : Params V) (b : Nat) :
    (h.mutate a q).at b = if b = a then q else h.at b := by
  simp only [PHeap.at, PHeap.mutate, List.getD_eq_getElem?_getD]
  by_cases hb : b = a
  · subst hb; simp [ha]
  · rw [if_neg hb, List.getElem?_set_ne (fun e => hb e.symm)]

theorem modify_at {α : Type} (l : List α) (i : Nat) (x : α) (g : α → α) (h : l[i]? = some x) :
    l.modify i g = l.set i (g x) := by
  apply List.ext_getElem?
  intro j
  rw [List.getElem?_modify, List.getElem?_set]
  by_cases hj : i = j
  · subst hj
    obtain ⟨h1, h2⟩ := List.getElem?_eq_some_iff.1 h
    simp [h1, h2]
  · simp [hj]

theorem modify_out {α : Type} (l : List α) (i : Nat) (g : α → α) (h : l[i]? = none) : l.modify i g = l := by
  apply List.ext_getElem?
  intro j
  rw [List.getElem?_modify]
  by_cases hj : i = j
  · subst hj; simp [h]
  · simp [hj]

theorem map_set_at {α β : Type} (l : List α) (hn : l.Nodup) (i : Nat) (a : α) (h : l[i]? = some a) (f g : α → β)
    (hg : ∀ b, b ≠ a → g b = f b) : l.map g = (l.map f).set i (g a) := by
  apply List.ext_getElem?
  intro j
  rw [List.getElem?_set, List.getElem?_map]
  by_cases hj : i = j
  · subst hj
    obtain ⟨h1, h2⟩ := List.getElem?_eq_some_iff.1 h
    simp [h1, h2]
  · rw [if_neg hj, List.getElem?_map]
    rcases hb : l[j]? with _ | b
    · rfl
    · simp only [Option.map_some, Option.some.injEq]
      refine hg b (fun hba => hj ?_)
      subst hba
      obtain ⟨h1, h2⟩ := List.getElem?_eq_some_iff.1 h
      obtain ⟨h3, h4⟩ := List.getElem?_eq_some_iff.1 hb
      exact (List.nodup_iff_injective_getElem.1 hn (a₁ := ⟨i, h1⟩) (a₂ := ⟨j, h3⟩) (h2.trans h4.symm) |> fun e => by simpa using e)

theorem table_put (d : Params V) (k : String) (v : PVal V) : Dict.find (Dict.put d k v) = PTable.with (Dict.find d) k v := by
  funext x
  rw [Dict.find_put]
  unfold PTable.with
  by_cases h : k = x
  · rw [if_pos h, if_pos h.symm]
  · rw [if_neg h, if_neg (fun e => h e.symm)]

theorem table_update (d e : Params V) (h : Dict.Ok e) : Dict.find (Dict.update d e) = PTable.over (Dict.find d) (Dict.find e) := by
  funext x
  exact Dict.find_update d e h x

/-- An object or a dictionary is changed. -/
theorem sep_mutate {h : PHeap V} (hs : h.Sep) (a : Nat) {q : Params V} (hq : Dict.Ok q ∧ Unreserved q) : (h.mutate a q).Sep :=
  ⟨hs.apart, by simpa [PHeap.mutate] using hs.there, fun p hp => by
    rcases List.mem_or_eq_of_mem_set hp with hp | rfl
    · exact hs.tidy p hp
    · exact hq⟩

theorem view_mutate_obj {h : PHeap V} (hs : h.Sep) {i a : Nat} (ha : h.objs[i]? = some a) (q : Params V) :
    PHeap.view (h.mutate a q) = ⟨(PHeap.view h).objs.set i (Dict.find q), (PHeap.view h).dicts⟩ := by
  have hm := List.mem_of_getElem? ha
  have hlt := hs.there a (List.mem_append_left _ hm)
  have hd := List.nodup_append.1 hs.apart
  unfold PHeap.view
  congr 1
  · show h.objs.map _ = _
    rw [map_set_at h.objs hd.1 i a ha (fun b => Dict.find (h.at b)) (fun b => Dict.find ((h.mutate a q).at b))
      (fun b hb => by rw [at_mutate hlt, if_neg hb])]
    simp only [at_mutate hlt, if_true]
  · show h.held.map _ = _
    refine List.map_congr_left fun b hb => ?_
    rw [at_mutate hlt, if_neg (fun e => hd.2.2 a hm b hb e.symm)]

theorem view_mutate_dict {h : PHeap V} (hs : h.Sep) {i a : Nat} (ha : h.held[i]? = some a) (q : Params V) :
    PHeap.view (h.mutate a q) = ⟨(PHeap.view h).objs, (PHeap.view h).dicts.set i (Dict.find q)⟩ := by
  have hm := List.mem_of_getElem? ha
  have hlt := hs.there a (List.mem_append_right _ hm)
  have hd := List.nodup_append.1 hs.apart
  unfold PHeap.view
  congr 1
  · show h.objs.map _ = _
    refine List.map_congr_left fun b hb => ?_
    rw [at_mutate hlt, if_neg (hd.2.2 b hb a hm)]
  · show h.held.map _ = _
    rw [map_set_at h.held hd.2.1 i a ha (fun b => Dict.find (h.at b)) (fun b => Dict.find ((h.mutate a q).at b))
      (fun b hb => by rw [at_mutate hlt, if_neg hb])]
    simp only [at_mutate hlt, if_true]

/-- A new object. -/
theorem new_ok {h : PHeap V} (hs : h.Sep) {q : Params V} (hq : Dict.Ok q ∧ Unreserved q) : (h.new q).Sep ∧
    PHeap.view (h.new q) = ⟨(PHeap.view h).objs ++ [Dict.find q], (PHeap.view h).dicts⟩ := by
  have hout : ∀ a ∈ h.objs ++ h.held, a ≠ h.dicts.length := fun a ha => Nat.ne_of_lt (hs.there a ha)
  have hd := List.nodup_append.1 hs.apart
  refine ⟨⟨?_, ?_, ?_⟩, ?_⟩
  · show ((h.objs ++ [h.dicts.length]) ++ h.held).Nodup
    rw [List.append_assoc, List.nodup_append]
    refine ⟨hd.1, List.nodup_cons.2 ⟨fun hm => hout _ (List.mem_append_right _ hm) rfl, hd.2.1⟩, ?_⟩
    intro a ha b hb
    rcases List.mem_cons.1 hb with rfl | hb
    · exact hout a (List.mem_append_left _ ha)
    · exact hd.2.2 a ha b hb
  · intro a ha
    show a < (h.dicts ++ [q]).length
    rw [List.length_append]
    have ha : a ∈ (h.objs ++ [h.dicts.length]) ++ h.held := ha
    simp only [List.mem_append, List.mem_singleton] at ha
    rcases ha with (ha | rfl) | ha
    · exact Nat.lt_succ_of_lt (hs.there a (List.mem_append_left _ ha))
    · exact Nat.lt_succ_self _
    · exact Nat.lt_succ_of_lt (hs.there a (List.mem_append_right _ ha))
  · intro p hp
    rcases List.mem_append.1 hp with hp | hp
    · exact hs.tidy p hp
    · rw [List.mem_singleton.1 hp]; exact hq
  · unfold PHeap.view PHeap.new
    simp only [List.map_append, List.map_cons, List.map_nil, at_last]
    congr 1
    · congr 1
      exact List.map_congr_left fun a ha => by rw [at_append (hs.there a (List.mem_append_left _ ha))]
    · exact List.map_congr_left fun a ha => by rw [at_append (hs.there a (List.mem_append_right _ ha))]

/-- An object with another dictionary. -/
theorem rebind_ok {h : PHeap V} (hs : h.Sep) {q : Params V} (hq : Dict.Ok q ∧ Unreserved q) {i a : Nat} (hi : h.objs[i]? = some a) :
    (h.rebind i q).Sep ∧
    PHeap.view (h.rebind i q) = ⟨(PHeap.view h).objs.set i (Dict.find q), (PHeap.view h).dicts⟩ := by
  have hout : ∀ a ∈ h.objs ++ h.held, a ≠ h.dicts.length := fun a ha => Nat.ne_of_lt (hs.there a ha)
  have hd := List.nodup_append.1 hs.apart
  have hmem : ∀ b ∈ h.objs.set i h.dicts.length, b ∈ h.objs ∨ b = h.dicts.length := fun b hb => List.mem_or_eq_of_mem_set hb
  have hnd : (h.objs.set i h.dicts.length).Nodup := by
    rw [List.nodup_iff_getElem?_ne_getElem?]
    intro j k hjk hk
    rw [List.length_set] at hk
    rw [List.getElem?_set, List.getElem?_set]
    have hnew : ∀ m, h.objs[m]? ≠ some h.dicts.length := fun m hm =>
      hout _ (List.mem_append_left _ (List.mem_of_getElem? hm)) rfl
    have hi' := (List.getElem?_eq_some_iff.1 hi).1
    by_cases h1 : i = j
    · subst h1
      rw [if_pos rfl, if_pos hi', if_neg (Nat.ne_of_lt hjk)]
      exact fun e => hnew k e.symm
    · rw [if_neg h1]
      by_cases h2 : i = k
      · subst h2; rw [if_pos rfl, if_pos hi']; exact hnew j
      · rw [if_neg h2]; exact List.nodup_iff_getElem?_ne_getElem?.1 hd.1 j k hjk hk
  refine ⟨⟨?_, ?_, ?_⟩, ?_⟩
  · show (h.objs.set i h.dicts.length ++ h.held).Nodup
    rw [List.nodup_append]
    refine ⟨hnd, hd.2.1, fun b hb x hx => ?_⟩
    rcases hmem b hb with hb | rfl
    · exact hd.2.2 b hb x hx
    · exact fun e => hout _ (List.mem_append_right _ hx) e.symm
  · intro b hb
    show b < (h.dicts ++ [q]).length
    rw [List.length_append]
    rcases List.mem_append.1 hb with hb | hb
    · rcases hmem b hb with hb | rfl
      · exact Nat.lt_succ_of_lt (hs.there b (List.mem_append_left _ hb))
      · exact Nat.lt_succ_self _
    · exact Nat.lt_succ_of_lt (hs.there b (List.mem_append_right _ hb))
  · intro p hp
    rcases List.mem_append.1 hp with hp | hp
    · exact hs.tidy p hp
    · rw [List.mem_singleton.1 hp]; exact hq
  · unfold PHeap.view PHeap.rebind
    simp only
    congr 1
    · rw [List.map_set, at_last]
      congr 1
      exact List.map_congr_left fun b hb => by rw [at_append (hs.there b (List.mem_append_left _ hb))]
    · exact List.map_congr_left fun b hb => by rw [at_append (hs.there b (List.mem_append_right _ hb))]

theorem view_obj (h : PHeap V) (i : Nat) : (PHeap.view h).objs[i]? = (h.params i).map Dict.find := by
  simp [PHeap.view, PHeap.params, List.getElem?_map, Option.map_map, Function.comp_def]

theorem view_read (h : PHeap V) (src : Src) : (PHeap.view h).read src = (h.read src).map Dict.find := by
  cases src with
  | none => rfl
  | obj i => exact view_obj h i
  | dict i => simp [PHeap.view, PHeap.read, PTables.read, List.getElem?_map, Option.map_map, Function.comp_def]

theorem read_tidy {h : PHeap V} (hs : h.Sep) {src : Src} {p : Params V} (hr : h.read src = some p) :
    Dict.Ok p ∧ Unreserved p := by
  cases src with
  | none =>
    obtain rfl : [] = p := by simpa [PHeap.read] using hr
    exact ⟨List.nodup_nil, fun x hx => by simp at hx⟩
  | obj i =>
    obtain ⟨a, -, rfl⟩ := Option.map_eq_some_iff.1 hr
    exact at_tidy hs a
  | dict i =>
    obtain ⟨a, -, rfl⟩ := Option.map_eq_some_iff.1 hr
    exact at_tidy hs a

theorem params_tidy {h : PHeap V} (hs : h.Sep) {i : Nat} {p : Params V} (hr : h.params i = some p) :
    Dict.Ok p ∧ Unreserved p := read_tidy (src := .obj i) hs hr

theorem put_tidy {p : Params V} (hp : Dict.Ok p ∧ Unreserved p) {k : String} (hk : k ≠ "self" ∧ k ≠ "_param" ∧ k ≠ "type_")
    (v : PVal V) : Dict.Ok (Dict.put p k v) ∧ Unreserved (Dict.put p k v) :=
  ⟨Dict.ok_put hp.1 k v, fun x hx => by
    rcases Dict.mem_put hx with rfl | hx
    · exact hk
    · exact hp.2 x hx⟩

theorem update_tidy {p q : Params V} (hp : Dict.Ok p ∧ Unreserved p) (hq : Dict.Ok q ∧ Unreserved q) :
    Dict.Ok (Dict.update p q) ∧ Unreserved (Dict.update p q) := ⟨Dict.ok_update hp.1 q, unreserved_update hp.2 hq.2⟩

theorem mapItems_error {α β : Type} {f : α → Except Err β} : ∀ {d : Dict α} {e : Err}, mapItems f d = .error e →
    ∃ x ∈ d, ∃ e, f x.2 = .error e
  | [], e, h => by simp [mapItems] at h
  | (j, a) :: d, e, h => by
    unfold mapItems at h
    rcases hf : f a with er | b
    · exact ⟨(j, a), List.mem_cons_self .., er, hf⟩
    rw [hf] at h
    rcases hd : mapItems f d with er | e'
    · obtain ⟨x, hx, he⟩ := mapItems_error hd
      exact ⟨x, List.mem_cons_of_mem _ hx, he⟩
    · rw [hd] at h; simp at h

theorem find_of_member {α : Type} : ∀ {d : Dict α}, Dict.Ok d → ∀ {x : String × α}, x ∈ d → Dict.find d x.1 = some x.2
  | [], _, x, hx => by simp at hx
  | (k, v) :: d, h, x, hx => by
    have hk : k ∉ Dict.keys d ∧ Dict.Ok d := by
      unfold Dict.Ok Dict.keys at h
      rw [List.map_cons, List.nodup_cons] at h
      exact h
    rw [Dict.find_cons]
    rcases List.mem_cons.1 hx with rfl | hx
    · rw [if_pos rfl]
    · rw [if_neg, find_of_member hk.2 hx]
      intro e
      exact hk.1 (by rw [e]; exact List.mem_map.2 ⟨x, hx, rfl⟩)

theorem op_does (o : Special V) (stg : PVal V → Except Err (PVal V)) {h : PHeap V} (hs : h.Sep) {op : POp V} (hop : TidyOp op) :
    Does stg (PHeap.view h) op (PHeap.view (h.step o stg op)) ∧ (h.step o stg op).Sep := by
  cases op with
  | dict d =>
    have hout : ∀ a ∈ h.objs ++ h.held, a ≠ h.dicts.length := fun a ha => Nat.ne_of_lt (hs.there a ha)
    have hd := List.nodup_append.1 hs.apart
    refine ⟨?_, ⟨?_, ?_, ?_⟩⟩
    · have hv : PHeap.view (h.step o stg (.dict d)) = ⟨(PHeap.view h).objs, (PHeap.view h).dicts ++ [Dict.find d]⟩ := by
        unfold PHeap.view
        simp only [PHeap.step, List.map_append, List.map_cons, List.map_nil, at_last]
        congr 1
        · exact List.map_congr_left fun a ha => by rw [at_append (hs.there a (List.mem_append_left _ ha))]
        · congr 1
          exact List.map_congr_left fun a ha => by rw [at_append (hs.there a (List.mem_append_right _ ha))]
      rw [hv]
      exact .dict _ _
    · show (h.objs ++ (h.held ++ [h.dicts.length])).Nodup
      rw [← List.append_assoc, List.nodup_append]
      exact ⟨hs.apart, by simp, fun a ha b hb => by rw [List.mem_singleton.1 hb]; exact hout a ha⟩
    · intro a ha
      show a < (h.dicts ++ [d]).length
      rw [List.length_append]
      have ha : a ∈ h.objs ++ (h.held ++ [h.dicts.length]) := ha
      rw [← List.append_assoc] at ha
      rcases List.mem_append.1 ha with ha | ha
      · exact Nat.lt_succ_of_lt (hs.there a ha)
      · rw [List.mem_singleton.1 ha]; exact Nat.lt_succ_self _
    · intro p hp
      rcases List.mem_append.1 hp with hp | hp
      · exact hs.tidy p hp
      · rw [List.mem_singleton.1 hp]; exact hop
  | setDict i k v =>
    have hgo := Does.setDict (stg := stg) (PHeap.view h) i k v
    rcases hi : h.held[i]? with _ | a
    · rw [modify_out _ _ _ (by simp [PHeap.view, hi])] at hgo
      simp only [PHeap.step, hi]
      exact ⟨hgo, hs⟩
    · simp only [PHeap.step, hi]
      rw [view_mutate_dict hs hi, table_put]
      rw [modify_at _ i (Dict.find (h.at a)) _ (by simp [PHeap.view, hi])] at hgo
      exact ⟨hgo, sep_mutate hs a (put_tidy (at_tidy hs a) hop v)⟩
  | make src kw =>
    rcases hr : h.read src with _ | p
    · simp only [PHeap.step, hr]
      exact ⟨.noMake _ _ _ (by rw [view_read, hr]; rfl), hs⟩
    · simp only [PHeap.step, hr]
      obtain ⟨h1, h2⟩ := new_ok hs (update_tidy hop (read_tidy hs hr))
      rw [h2, table_update _ _ (read_tidy hs hr).1]
      exact ⟨.make _ src kw _ (by rw [view_read, hr]; rfl), h1⟩
  | set i k v =>
    have hgo := Does.set (stg := stg) (PHeap.view h) i k v
    rcases hi : h.objs[i]? with _ | a
    · rw [modify_out _ _ _ (by simp [PHeap.view, hi])] at hgo
      simp only [PHeap.step, hi]
      exact ⟨hgo, hs⟩
    · simp only [PHeap.step, hi]
      rw [view_mutate_obj hs hi, table_put]
      rw [modify_at _ i (Dict.find (h.at a)) _ (by simp [PHeap.view, hi])] at hgo
      exact ⟨hgo, sep_mutate hs a (put_tidy (at_tidy hs a) hop v)⟩
  | update i src =>
    rcases hr : h.read src with _ | p
    · have hx : h.step o stg (.update i src) = h := by
        simp only [PHeap.step, hr]
        rcases h.objs[i]? with _ | a <;> rfl
      rw [hx]
      exact ⟨.noUpdate _ _ _ (by rw [view_read, hr]; rfl), hs⟩
    · have hgo := Does.update (stg := stg) (PHeap.view h) i src (Dict.find p) (by rw [view_read, hr]; rfl)
      rcases hi : h.objs[i]? with _ | a
      · rw [modify_out _ _ _ (by simp [PHeap.view, hi])] at hgo
        simp only [PHeap.step, hi]
        exact ⟨hgo, hs⟩
      · simp only [PHeap.step, hi, hr]
        rw [view_mutate_obj hs hi, table_update _ _ (read_tidy hs hr).1]
        rw [modify_at _ i (Dict.find (h.at a)) _ (by simp [PHeap.view, hi])] at hgo
        exact ⟨hgo, sep_mutate hs a (update_tidy (at_tidy hs a) (read_tidy hs hr))⟩
  | union i src =>
    rcases hi : h.params i with _ | p
    · simp only [PHeap.step, hi]
      refine ⟨.noUnion _ _ _ ?_, hs⟩
      exact Or.inl (by rw [view_obj, hi]; rfl)
    rcases hr : h.read src with _ | q
    · simp only [PHeap.step, hi, hr]
      refine ⟨.noUnion _ _ _ ?_, hs⟩
      exact Or.inr (by rw [view_read, hr]; rfl)
    · simp only [PHeap.step, hi, hr, union_plain o (params_tidy hs hi).2 (read_tidy hs hr).2]
      obtain ⟨h1, h2⟩ := new_ok hs (update_tidy (params_tidy hs hi) (read_tidy hs hr))
      rw [h2, table_update _ _ (read_tidy hs hr).1]
      exact ⟨.union _ i src _ _ (by rw [view_obj, hi]; rfl) (by rw [view_read, hr]; rfl), h1⟩
  | copy i =>
    rcases hi : h.params i with _ | p
    · simp only [PHeap.step, hi]
      exact ⟨.noCopy _ _ (by rw [view_obj, hi]; rfl), hs⟩
    · simp only [PHeap.step, hi]
      have he : Dict.Ok ([] : Params V) ∧ Unreserved ([] : Params V) := ⟨List.nodup_nil, fun x hx => by simp at hx⟩
      obtain ⟨h1, h2⟩ := new_ok hs (update_tidy he (params_tidy hs hi))
      have hf : Dict.find (Dict.update [] p) = Dict.find p := by
        rw [table_update _ _ (params_tidy hs hi).1]
        funext k
        unfold PTable.over
        cases Dict.find p k <;> rfl
      rw [h2, hf]
      exact ⟨.copy _ i _ (by rw [view_obj, hi]; rfl), h1⟩
  | clear i =>
    have hgo := Does.clear (stg := stg) (PHeap.view h) i
    rcases hi : h.objs[i]? with _ | a
    · rw [modify_out _ _ _ (by simp [PHeap.view, hi])] at hgo
      simp only [PHeap.step, hi]
      exact ⟨hgo, hs⟩
    · simp only [PHeap.step, hi]
      obtain ⟨h1, h2⟩ := rebind_ok hs (q := []) ⟨List.nodup_nil, fun x hx => by simp at hx⟩ hi
      rw [modify_at _ i (Dict.find (h.at a)) _ (by simp [PHeap.view, hi])] at hgo
      rw [h2]
      exact ⟨hgo, h1⟩
  | stage i =>
    rcases hi : h.params i with _ | p
    · simp only [PHeap.step, hi]
      exact ⟨.noStage _ _ (by rw [view_obj, hi]; rfl), hs⟩
    · obtain ⟨a, ha, -⟩ := Option.map_eq_some_iff.1 hi
      have hp := params_tidy hs hi
      rcases hm : mapItems stg p with e | q
      · simp only [PHeap.step, hi, hm]
        obtain ⟨x, hx, e', he⟩ := mapItems_error hm
        exact ⟨.fails _ i _ (by rw [view_obj, hi]; rfl) ⟨x.1, x.2, e', find_of_member hp.1 hx, he⟩, hs⟩
      · simp only [PHeap.step, hi, hm]
        obtain ⟨hk, hf⟩ := mapItems_find hm
        obtain ⟨h1, h2⟩ := rebind_ok hs (q := q) ⟨by unfold Dict.Ok; rw [hk]; exact hp.1, unreserved_keys hk hp.2⟩ ha
        rw [h2]
        refine ⟨.stage _ i _ _ (by rw [view_obj, hi]; rfl) (fun k => ⟨fun hn => ?_, fun v hv => hf k v hv⟩), h1⟩
        rw [Dict.find_none, hk, ← Dict.find_none, hn]
  | toDict i => exact absurd hop (by simp [TidyOp])

theorem sep_init : (PHeap.init (V := V)).Sep := ⟨by simp [PHeap.init], by simp [PHeap.init], by simp [PHeap.init]⟩

/-- **C79**, partial: in every program that uses no reserved names and does not ask an object for its dictionary, each
operation does to the tables what it should: objects are values, which no operation on other objects or on dictionaries
changes.  Missing: reserved names (`C79_reserved_violated`) and `to_dict` (`C79_alias_violated`). -/
theorem C79_values_partial (o : Special V) (stg : PVal V → Except Err (PVal V)) (l : List (POp V)) (hl : ∀ op ∈ l, TidyOp op) :
    DoesAll stg ⟨[], []⟩ l (PHeap.view (PHeap.init.run o stg l)) := by
  have key : ∀ (l : List (POp V)) (h : PHeap V), h.Sep → (∀ op ∈ l, TidyOp op) →
      DoesAll stg (PHeap.view h) l (PHeap.view (h.run o stg l)) := by
    intro l
    induction l with
    | nil => intro h _ _; exact .nil _
    | cons op l ih =>
      intro h hs hl
      obtain ⟨h1, h2⟩ := op_does o stg hs (hl op (List.mem_cons_self ..))
      exact .cons h1 (ih _ h2 (fun x hx => hl x (List.mem_cons_of_mem _ hx)))
  exact key l PHeap.init sep_init hl

/-- The value of a parameter of an object, or the given default if there is none: `get` never raises KeyError. -/
theorem C79_get [DecidableEq V] (n : Nat) (c : Ctx V) (p : Params V) (k : String) (d : V) :
    (Dict.find p k = none → getOr n c p k d = .ok d) ∧
    (∀ v, Dict.find p k = some (.plain v) → getOr n c p k d = .ok v) ∧
    (∀ a, Dict.find p k = some (.arg a) → getOr n c p k d =
      if getValue n c.bare a = .error .key then .ok d else getValue n c.bare a) := by
  refine ⟨fun h => ?_, fun v h => ?_, fun a h => ?_⟩
  · simp [getOr, getItem, item, h]
  · simp [getOr, getItem, item, h, pvalue]
  · have hg : getItem n c p k = getValue n c.bare a := by simp [getItem, item, h, pvalue]
    unfold getOr
    rw [hg]
    split
    · rename_i he; rw [if_pos he]
    · rename_i he; rw [if_neg he]

/-- A program for the example: a dictionary, two objects made from it, changes. -/
def paramProgram : List (POp String) := [.dict [("x", .plain "1")], .make (.dict 0) [("y", .plain "2")],
  .setDict 0 "x" (.plain "9"), .copy 0, .set 0 "x" (.plain "3"), .union 0 (.obj 1), .union 1 (.obj 0), .update 1 (.dict 0),
  .clear 0]

/-- Nothing special about objects. -/
def noSpecial : Special String := ⟨fun _ => false, fun _ => none, fun _ _ => .error .type⟩

example : (∀ op ∈ paramProgram, TidyOp op) ∧
    let h := PHeap.init.run noSpecial (fun v => .ok v) paramProgram
    ((h.params 0).map List.length, (h.params 1).map (fun p => p.map (·.1)), (h.params 2).isSome, (h.params 3).isSome)
      = (some 0, some ["y", "x"], true, true) ∧
    (h.params 1).bind (fun p => Dict.find p "x") = some (.plain "9") ∧
    (h.params 2).bind (fun p => Dict.find p "x") = some (.plain "1") ∧
    (h.params 3).bind (fun p => Dict.find p "x") = some (.plain "3") := by
  refine ⟨by simp [paramProgram, TidyOp, Dict.Ok, Dict.keys, Unreserved], ?_⟩
  exact ⟨by decide, rfl, rfl, rfl⟩

/-- **C79** fails for `to_dict`: the dictionary of the object itself is given away, so that a change of the dictionary
changes the object, and a change of the object the dictionary. -/
theorem C79_alias_violated :
    let h := PHeap.init.run noSpecial (fun v => .ok v) [.make .none [("x", .plain "1")], .toDict 0, .setDict 0 "x" (.plain "2")]
    (h.params 0).bind (fun p => Dict.find p "x") = some (.plain "2") := rfl

/-- **C79** fails for reserved names: the union of objects with a parameter `type_` raises an exception, or lacks the
parameter; the union of objects with `self` raises one. -/
theorem C79_reserved_violated :
    union noSpecial [("type_", .plain "1"), ("x", .plain "2")] [] = .error .type ∧
    union noSpecial [("type_", .plain "1")] [] = .ok [] ∧
    union noSpecial [("self", .plain "1")] [] = .error .type := ⟨rfl, rfl, rfl⟩

end Rocketry.Props
