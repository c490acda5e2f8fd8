/-!
# Python dictionaries

A dictionary is the list of its items in insertion order.
-/

namespace Rocketry

abbrev Dict (α : Type) := List (String × α)

namespace Dict
variable {α β : Type}

def find : Dict α → String → Option α
  | [], _ => none
  | (k, v) :: d, x => if k = x then some v else find d x

theorem find_cons (k : String) (v : α) (d : Dict α) (x : String) :
    find ((k, v) :: d) x = if k = x then some v else find d x := rfl

def keys (d : Dict α) : List String := d.map (·.1)

/-- `d[k] = v`: the item is replaced in place, or appended. -/
def put : Dict α → String → α → Dict α
  | [], x, v => [(x, v)]
  | (k, w) :: d, x, v => if k = x then (k, v) :: d else (k, w) :: put d x v

/-- `d.update(e)`, which also is `{**d, **e}`. -/
def update (d e : Dict α) : Dict α := e.foldl (fun d x => put d x.1 x.2) d

/-- Keys of a dictionary are distinct. -/
def Ok (d : Dict α) : Prop := (keys d).Nodup

theorem find_put (d : Dict α) (x y : String) (v : α) : find (put d x v) y = if x = y then some v else find d y := by
  induction d with
  | nil => rfl
  | cons a d ih =>
    obtain ⟨k, w⟩ := a
    unfold put
    by_cases h : k = x
    · rw [if_pos h]
      subst h
      unfold find
      by_cases h2 : k = y
      · rw [if_pos h2, if_pos h2]
      · rw [if_neg h2, if_neg h2, if_neg h2]
    · rw [if_neg h]
      unfold find
      by_cases h2 : k = y
      · rw [if_pos h2, if_pos h2, if_neg]
        exact fun he => h (by rw [h2, he])
      · rw [if_neg h2, if_neg h2, ih]

theorem find_none {d : Dict α} {x : String} : find d x = none ↔ x ∉ keys d := by
  induction d with
  | nil => simp [find, keys]
  | cons a d ih =>
    obtain ⟨k, w⟩ := a
    unfold find
    by_cases h : k = x
    · simp [h, keys]
    · rw [if_neg h, ih]
      simp only [keys, List.map_cons, List.mem_cons, not_or]
      exact ⟨fun hh => ⟨fun he => h he.symm, hh⟩, fun hh => hh.2⟩

theorem find_update (d e : Dict α) (h : Ok e) (x : String) : find (update d e) x = (find e x).or (find d x) := by
  induction e generalizing d with
  | nil => simp [update, find]
  | cons a e ih =>
    obtain ⟨k, v⟩ := a
    have hk : k ∉ keys e ∧ Ok e := by
      unfold Ok keys at h
      rw [List.map_cons, List.nodup_cons] at h
      exact h
    show find (update (put d k v) e) x = _
    rw [ih _ hk.2, find_put]
    rw [find_cons]
    by_cases hx : k = x
    · subst hx
      rw [if_pos rfl, if_pos rfl, find_none.2 hk.1]
      rfl
    · rw [if_neg hx, if_neg hx]

theorem keys_put (d : Dict α) (x : String) (v : α) :
    keys (put d x v) = if x ∈ keys d then keys d else keys d ++ [x] := by
  induction d with
  | nil => rfl
  | cons a d ih =>
    obtain ⟨k, w⟩ := a
    unfold put
    by_cases h : k = x
    · rw [if_pos h]; simp [keys, h]
    · rw [if_neg h]
      have hm : x ∈ keys ((k, w) :: d) ↔ x ∈ keys d := by
        simp only [keys, List.map_cons, List.mem_cons]
        exact ⟨fun hh => hh.resolve_left (fun he => h he.symm), .inr⟩
      show k :: keys (put d x v) = _
      rw [ih]
      by_cases hx : x ∈ keys d
      · rw [if_pos hx, if_pos (hm.2 hx)]; rfl
      · rw [if_neg hx, if_neg (fun hh => hx (hm.1 hh))]; rfl

theorem ok_put {d : Dict α} (h : Ok d) (x : String) (v : α) : Ok (put d x v) := by
  unfold Ok
  rw [keys_put]
  by_cases hx : x ∈ keys d
  · rw [if_pos hx]; exact h
  · rw [if_neg hx, List.nodup_append]
    refine ⟨h, by simp, fun a ha b hb => ?_⟩
    obtain rfl : b = x := by simpa using hb
    exact fun he => hx (he ▸ ha)

theorem ok_update {d : Dict α} (h : Ok d) (e : Dict α) : Ok (update d e) := by
  induction e generalizing d with
  | nil => exact h
  | cons a e ih => exact ih (ok_put h _ _)

/-- Filters on keys. -/
theorem find_filterKey (d : Dict α) (p : String → Bool) (x : String) :
    find (d.filter fun a => p a.1) x = if p x then find d x else none := by
  induction d with
  | nil => simp [find]
  | cons a d ih =>
    obtain ⟨k, v⟩ := a
    by_cases hp : p k = true
    · rw [List.filter_cons_of_pos (by simpa using hp)]
      unfold find
      by_cases h : k = x
      · subst h; simp [hp]
      · rw [if_neg h, ih, if_neg h]
    · rw [List.filter_cons_of_neg (by simpa using hp), ih]
      conv => rhs; unfold find
      by_cases h : k = x
      · subst h; simp [hp]
      · rw [if_neg h]

theorem keys_filter_sublist (d : Dict α) (p : String × α → Bool) : (keys (d.filter p)).Sublist (keys d) :=
  List.filter_sublist.map _

theorem ok_filter {d : Dict α} (h : Ok d) (p : String × α → Bool) : Ok (d.filter p) :=
  List.Sublist.nodup (keys_filter_sublist d p) h

theorem find_mem {d : Dict α} {x : String} {v : α} (h : find d x = some v) : (x, v) ∈ d := by
  induction d with
  | nil => simp [find] at h
  | cons a d ih =>
    obtain ⟨k, w⟩ := a
    unfold find at h
    by_cases hk : k = x
    · rw [if_pos hk] at h
      obtain rfl : w = v := by simpa using h
      subst hk
      exact List.mem_cons_self ..
    · rw [if_neg hk] at h
      exact List.mem_cons_of_mem _ (ih h)

theorem mem_put {d : Dict α} {x : String} {v : α} : ∀ {a : String × α}, a ∈ put d x v → a = (x, v) ∨ a ∈ d := by
  induction d with
  | nil => intro a h; exact .inl (by simpa [put] using h)
  | cons b d ih =>
    obtain ⟨k, w⟩ := b
    intro a h
    unfold put at h
    by_cases hk : k = x
    · rw [if_pos hk] at h
      rcases List.mem_cons.1 h with h | h
      · exact .inl (by rw [h, hk])
      · exact .inr (List.mem_cons_of_mem _ h)
    · rw [if_neg hk] at h
      rcases List.mem_cons.1 h with h | h
      · exact .inr (by rw [h]; exact List.mem_cons_self ..)
      · exact (ih h).imp_right (List.mem_cons_of_mem _)

theorem mem_update {d e : Dict α} {a : String × α} (h : a ∈ update d e) : a ∈ d ∨ a ∈ e := by
  induction e generalizing d with
  | nil => exact .inl h
  | cons b e ih =>
    rcases ih (d := put d b.1 b.2) h with h | h
    · rcases mem_put h with h | h
      · exact .inr (by rw [h]; exact List.mem_cons_self ..)
      · exact .inl h
    · exact .inr (List.mem_cons_of_mem _ h)

end Dict
end Rocketry
