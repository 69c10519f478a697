import Verif.Model.Py
/-! Lemmas about the association-list dictionary. -/
namespace OnnxTool.Dict
variable {α : Type}

@[simp] theorem get?_nil (q : String) : get? ([] : Dict α) q = none := rfl

theorem get?_set (d : Dict α) (k q : String) (v : α) :
    (d.set k v).get? q = if k = q then some v else d.get? q := by
  induction d with
  | nil => simp [set, get?]
  | cons a d ih =>
    obtain ⟨k', w⟩ := a
    by_cases h : k' = k
    · subst h; simp [set, get?]; split <;> simp_all
    · simp only [set, h, if_false, get?, ih]
      by_cases h2 : k' = q
      · subst h2; simp [Ne.symm h]
      · simp [h2]

theorem get?_set_self (d : Dict α) (k : String) (v : α) : (d.set k v).get? k = some v := by
  simp [get?_set]

theorem get?_set_ne (d : Dict α) {k q : String} (v : α) (h : k ≠ q) : (d.set k v).get? q = d.get? q := by
  simp [get?_set, h]

theorem get?_isSome_iff (d : Dict α) (q : String) : (d.get? q).isSome ↔ q ∈ d.keys := by
  induction d with
  | nil => simp [keys]
  | cons a d ih =>
    obtain ⟨k, v⟩ := a
    simp only [get?, keys, List.map_cons, List.mem_cons]
    by_cases h : k = q
    · simp [h]
    · simp only [h, if_false, ih, keys]; constructor
      · exact Or.inr
      · rintro (rfl | h'); exact absurd rfl h; exact h'

theorem get?_mem {d : Dict α} {q : String} {v : α} (h : d.get? q = some v) : (q, v) ∈ d := by
  induction d with
  | nil => simp at h
  | cons a d ih =>
    obtain ⟨k, w⟩ := a
    simp only [get?] at h
    split at h
    · simp_all
    · exact List.mem_cons_of_mem _ (ih h)

theorem keys_set (d : Dict α) (k : String) (v : α) :
    (d.set k v).keys = if k ∈ d.keys then d.keys else d.keys ++ [k] := by
  induction d with
  | nil => simp [set, keys]
  | cons a d ih =>
    obtain ⟨k', w⟩ := a
    by_cases h : k' = k
    · simp [set, keys, h]
    · simp only [set, h, if_false, keys, List.map_cons] at ih ⊢
      rw [ih]
      by_cases h3 : k ∈ List.map (·.1) d
      · simp [h3]
      · simp [h3, Ne.symm h]

theorem nodup_keys_set {d : Dict α} (k : String) (v : α) (h : d.keys.Nodup) : (d.set k v).keys.Nodup := by
  rw [keys_set]
  split
  · exact h
  · rename_i h2
    rw [List.nodup_append]
    exact ⟨h, by simp, by rintro a ha b hb; simp at hb; subst hb; rintro rfl; exact h2 ha⟩

theorem get?_eq_none_of_not_mem {d : Dict α} {q : String} (h : q ∉ d.keys) : d.get? q = none := by
  have := get?_isSome_iff d q
  cases hq : d.get? q <;> simp_all

theorem get?_pop {d : Dict α} (hd : d.keys.Nodup) (k q : String) :
    (d.pop k).get? q = if k = q then none else d.get? q := by
  induction d with
  | nil => simp [pop]
  | cons a d ih =>
    obtain ⟨k', w⟩ := a
    simp only [keys, List.map_cons, List.nodup_cons] at hd
    by_cases h : k' = k
    · subst h
      simp only [pop, if_true, get?]
      by_cases h2 : k' = q
      · subst h2; simp [get?_eq_none_of_not_mem (d := d) hd.1]
      · simp [h2]
    · simp only [pop, h, if_false, get?, ih hd.2]
      by_cases h2 : k' = q
      · subst h2; simp [Ne.symm h]
      · simp [h2]

theorem keys_pop_sub (d : Dict α) (k : String) : (d.pop k).keys.Sublist d.keys := by
  induction d with
  | nil => simp [pop]
  | cons a d ih =>
    obtain ⟨k', w⟩ := a
    by_cases h : k' = k
    · simp [pop, h, keys]
    · simpa [pop, h, keys] using ih

theorem nodup_keys_pop {d : Dict α} (k : String) (h : d.keys.Nodup) : (d.pop k).keys.Nodup :=
  h.sublist (keys_pop_sub d k)

theorem get?_appendAt (d : Dict (List String)) (k x q : String) :
    (d.appendAt k x).get? q = if k = q then some ((d.get? k).getD [] ++ [x]) else d.get? q := by
  simp [appendAt, get?_set]

theorem nodup_keys_appendAt {d : Dict (List String)} (k x : String) (h : d.keys.Nodup) :
    (d.appendAt k x).keys.Nodup := nodup_keys_set _ _ h

theorem has_iff (d : Dict α) (q : String) : d.has q = true ↔ q ∈ d.keys := by
  simp [has, get?_isSome_iff]

end OnnxTool.Dict
