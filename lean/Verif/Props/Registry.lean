import Verif.Model.Registry
import Verif.Proofs.Dict
/-! # C37: the operator registry is a map from names to the last object registered -/
namespace OnnxTool.Props
open OnnxTool Registry

variable {α : Type}

/-- the name a step registers under, and the object -/
def stepEntry : Step α → String × Obj α
  | .register o => (o.name, o)
  | .setItem n o => (n, o)

/-- specification: the last object registered under `name` in a history -/
def lastRegistered (h : List (Step α)) (name : String) : Option (Obj α) :=
  ((h.map stepEntry).filter (·.1 = name)).getLast?.map (·.2)

/-- C37: after any history, starting from any registry, `get` returns the last object registered under the name, or what was there before. -/
theorem C37_get_last (h : List (Step α)) (r : Reg α) (name : String) :
    (run h r).get name = (lastRegistered h name).or (r.get name) := by
  induction h generalizing r with
  | nil => simp [run, lastRegistered]
  | cons s h ih =>
    have hstep : run (s :: h) r = run h ⟨r.objs.set (stepEntry s).1 (stepEntry s).2⟩ := by cases s <;> rfl
    rw [hstep, ih]
    unfold lastRegistered
    simp only [List.map_cons, List.filter_cons]
    by_cases hn : (stepEntry s).1 = name
    · simp only [hn, decide_true, if_true]
      rw [List.getLast?_cons]
      cases hl : ((h.map stepEntry).filter (·.1 = name)).getLast? with
      | none => simp [Reg.get, Dict.get?_set_self]
      | some x => simp
    · simp only [hn, decide_false, Bool.false_eq_true, if_false]
      congr 1
      exact Dict.get?_set_ne _ _ hn

/-- C37: from an empty registry, `get` is exactly the last registration, `None` for a name never registered. -/
theorem C37_get (h : List (Step α)) (name : String) : (run h {}).get name = lastRegistered h name := by
  rw [C37_get_last]; simp [Reg.get, Dict.get?]

/-- C37: indexing and membership agree with `get` for every registry. -/
theorem C37_index_membership (r : Reg α) (name : String) :
    (r.contains name = true ↔ ∃ o, r.get name = some o) ∧
    (∀ o, r.getItem name = .ok o ↔ r.get name = some o) ∧
    (r.getItem name = .error .keyError ↔ r.get name = none) := by
  unfold Reg.contains Reg.getItem Reg.get Dict.has
  cases r.objs.get? name with
  | none => simp
  | some o => simp

/-- C37: a registration warns exactly when the name is already taken, and takes effect anyway. -/
theorem C37_warns (r : Reg α) (name : String) (o : Obj α) :
    ((r.setItem name o).2 = true ↔ ∃ x, r.get name = some x) ∧ (r.setItem name o).1.get name = some o := by
  refine ⟨?_, Dict.get?_set_self _ _ _⟩
  unfold Reg.setItem Reg.get Dict.has
  cases r.objs.get? name <;> simp

/-- C37: a registration changes no other name. -/
theorem C37_others_unchanged (r : Reg α) (o : Obj α) (name : String) (h : o.name ≠ name) : (r.register o).get name = r.get name :=
  Dict.get?_set_ne _ _ h

theorem mem_iff_get? {β : Type} {d : Dict β} (h : d.keys.Nodup) {k : String} {v : β} : (k, v) ∈ d ↔ d.get? k = some v := by
  refine ⟨fun hm => ?_, Dict.get?_mem⟩
  induction d with
  | nil => cases hm
  | cons x d ih =>
    obtain ⟨k', v'⟩ := x
    simp only [Dict.keys, List.map_cons, List.nodup_cons] at h
    rcases List.mem_cons.mp hm with hm | hm
    · cases hm; simp [Dict.get?]
    · have hne : k' ≠ k := fun e => h.1 (List.mem_map.mpr ⟨(k, v), hm, e.symm⟩)
      simp only [Dict.get?, hne, if_false]
      exact ih h.2 hm

/-- C37: iteration yields each registered name once, with the object `get` returns. -/
theorem C37_iterate (h : List (Step α)) :
    ((run h ({} : Reg α)).items.map (·.1)).Nodup ∧
    ∀ name o, (name, o) ∈ (run h ({} : Reg α)).items ↔ lastRegistered h name = some o := by
  have hnd : ∀ (h : List (Step α)) (r : Reg α), r.objs.keys.Nodup → (run h r).objs.keys.Nodup := by
    intro h
    induction h with
    | nil => intro r hr; exact hr
    | cons s h ih =>
      intro r hr
      have hstep : run (s :: h) r = run h ⟨r.objs.set (stepEntry s).1 (stepEntry s).2⟩ := by cases s <;> rfl
      rw [hstep]
      exact ih _ (Dict.nodup_keys_set _ _ hr)
  have h0 := hnd h {} (by simp [Dict.keys])
  refine ⟨h0, fun name o => ?_⟩
  rw [← C37_get]
  exact (mem_iff_get? h0)

/-- C37: the class used for a node is the last one registered under operator name + `Node`, the base class when there is none. -/
theorem C37_create_node (h : List (Step α)) (base : α) (op : String) :
    createNode (run h {}) base op = ((lastRegistered h (op ++ "Node")).map (·.val)).getD base := by
  unfold createNode
  rw [C37_get]
  cases lastRegistered h (op ++ "Node") <;> rfl

/-- a user class registered later replaces the shipped one -/
example : createNode (run [.register ⟨"ConvNode", 1⟩, .register ⟨"AddNode", 2⟩, .register ⟨"ConvNode", 3⟩] {}) 0 "Conv" = 3 := by decide
/-- Finding: a user class is found only when its `__name__` ends in `Node`: one named after the operator alone is ignored. -/
theorem C37_needs_suffix : createNode (run [.register ⟨"MyOp", 7⟩] {}) 0 "MyOp" = 0 := by decide

end OnnxTool.Props
