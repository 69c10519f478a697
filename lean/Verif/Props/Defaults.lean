import Verif.Spec.Defaults
/-!
# C107: attributes that are left out
-/
namespace OnnxTool.Props
open OnnxTool OnnxTool.Defaults

private theorem get_set_same (d : Dict AVal) (k : String) (v : AVal) : (d.set k v).get? k = some v := by
  induction d with
  | nil => simp [Dict.set, Dict.get?]
  | cons p d ih =>
    obtain ⟨a, b⟩ := p
    by_cases h : a = k <;> simp [Dict.set, Dict.get?, h, ih]

private theorem get_set_other (d : Dict AVal) {k q : String} (v : AVal) (h : q ≠ k) : (d.set k v).get? q = d.get? q := by
  induction d with
  | nil => simp [Dict.set, Dict.get?, Ne.symm h]
  | cons p d ih =>
    obtain ⟨a, b⟩ := p
    by_cases hk : a = k
    · subst hk; simp [Dict.set, Dict.get?, Ne.symm h]
    · rw [Dict.set, if_neg hk, Dict.get?, Dict.get?, ih]

private theorem fold_get (l : List (String × AVal)) (d : Dict AVal) (k : String) :
    (l.foldl addDefault d).get? k = match d.get? k with
      | some v => some v
      | Option.none => Dict.get? l k := by
  induction l generalizing d with
  | nil => simp [Dict.get?]; cases d.get? k <;> rfl
  | cons p l ih =>
    obtain ⟨a, b⟩ := p
    rw [List.foldl_cons, ih]
    unfold addDefault
    by_cases h : d.has a
    · rw [if_pos h]
      cases hk : d.get? k with
      | some v => rfl
      | none =>
        have : a ≠ k := by rintro rfl; simp [Dict.has, hk] at h
        simp [Dict.get?, this]
    · rw [if_neg h]
      have hn : d.get? a = Option.none := by simpa [Dict.has] using h
      by_cases e : k = a
      · subst e; rw [get_set_same, hn]; simp [Dict.get?]
      · rw [get_set_other _ _ e]
        cases hk : d.get? k with
        | some v => rfl
        | none => simp [Dict.get?, Ne.symm e]

/-- **C107, given attributes are taken as they are; the others are the class's first default**, and neither depends on other attributes. -/
theorem C107_fields (op : String) (given : Dict AVal) (k : String) :
    (construct op given).get? k = match given.get? k with
      | some v => some v
      | Option.none => Dict.get? (callsOf op) k := fold_get _ _ _

private theorem rep_prefix (a : Int) (n m : Nat) : List.replicate n a <+: List.replicate m a ↔ n ≤ m := by
  constructor
  · intro h; simpa using h.length_le
  · intro h; exact ⟨List.replicate (m - n) a, by rw [List.replicate_append_replicate]; congr 1; omega⟩

private theorem means_list (n : Nat) (a : Int) (m j : Nat) : Means n (.ints (List.replicate m a)) (.ints (List.replicate j a)) ↔ j ≤ m := by
  unfold Means
  constructor
  · rintro (h | ⟨_, _, h, _⟩ | ⟨l, m', h1, h2, h3⟩)
    · injection h with h
      have := congrArg List.length h
      simp at this; omega
    · cases h
    · injection h1 with h1; injection h2 with h2
      subst h1; subst h2
      exact (rep_prefix a j m).1 h3
  · intro h
    exact .inr (.inr ⟨_, _, rfl, rfl, (rep_prefix a j m).2 h⟩)

private theorem means_refl (n : Nat) (v : AVal) : Means n v v := .inl rfl

private theorem err_iff {e : PyErr} {n : Nat} {v : AVal} {W : Prop} (hw : W) : (∃ u, (Except.error e : Except PyErr AVal) = .ok u ∧ Means n u v) ↔ ¬ W :=
  ⟨fun ⟨_, h, _⟩ => (nomatch h), fun h => absurd hw h⟩

private theorem ok_iff {a : AVal} {n : Nat} {v : AVal} {W : Prop} (h : Means n a v ↔ ¬ W) : (∃ u, (Except.ok a : Except PyErr AVal) = .ok u ∧ Means n u v) ↔ ¬ W :=
  ⟨fun ⟨_, e, m⟩ => h.1 (by injection e with e; rw [e]; exact m), fun w => ⟨_, rfl, h.2 w⟩⟩

private theorem ok_refl {a : AVal} {n : Nat} {W : Prop} (h : ¬ W) : (∃ u, (Except.ok a : Except PyErr AVal) = .ok u ∧ Means n u a) ↔ ¬ W :=
  ok_iff ⟨fun _ => h, fun _ => means_refl n a⟩

private theorem ok_list {n m j : Nat} {a : Int} {W : Prop} (h : W ↔ m < j) :
    (∃ u, (Except.ok (.ints (List.replicate m a)) : Except PyErr AVal) = .ok u ∧ Means n u (.ints (List.replicate j a))) ↔ ¬ W :=
  ok_iff (by rw [means_list, h]; omega)

private theorem spatial_pool (op : String) (h : op = "AveragePool" ∨ op = "MaxPool" ∨ op = "ConvTranspose") : ∀ e ∈ spatial op, ∀ n,
    ((∃ u, seen e.1 e.2.1 n [] = .ok u ∧ Means n u (e.2.2 n)) ↔ ¬ Wrong e.1 e.2.1 n) := by
  intro e he n
  simp only [spatial, List.mem_cons, List.not_mem_nil, or_false] at he
  rcases h with rfl | rfl | rfl <;> rcases he with rfl | rfl | rfl
  all_goals first
    | exact ok_list (m := 4) (a := 0) (by simp [Wrong]; omega)
    | exact ok_list (m := 2) (a := 1) (by simp [Wrong])

private theorem spatial_conv (op : String) (h : op = "Conv" ∨ op = "QLinearConv" ∨ op = "ConvInteger") : ∀ e ∈ spatial op, ∀ n,
    ((∃ u, seen e.1 e.2.1 n [] = .ok u ∧ Means n u (e.2.2 n)) ↔ ¬ Wrong e.1 e.2.1 n) := by
  intro e he n
  simp only [spatial, List.mem_cons, List.not_mem_nil, or_false] at he
  rcases h with rfl | rfl | rfl <;> rcases he with rfl | rfl | rfl
  all_goals first
    | exact ok_list (m := 6) (a := 0) (by simp [Wrong]; omega)
    | exact ok_list (m := 3) (a := 1) (by simp [Wrong])

/-- **C107, exactly where a missing attribute means ONNX's default.** -/
theorem C107_default_iff : ∀ e ∈ onnx, ∀ n, ((∃ u, seen e.1 e.2.1 n [] = .ok u ∧ Means n u (e.2.2 n)) ↔ ¬ Wrong e.1 e.2.1 n) := by
  intro e he n
  simp only [onnx, List.mem_append] at he
  rcases he with (((((he | he) | he) | he) | he) | he) | he
  · exact spatial_conv _ (by simp) e he n
  · exact spatial_conv _ (by simp) e he n
  · exact spatial_conv _ (by simp) e he n
  · exact spatial_pool _ (by simp) e he n
  · exact spatial_pool _ (by simp) e he n
  · exact spatial_pool _ (by simp) e he n
  simp only [List.mem_cons, List.not_mem_nil, or_false] at he
  repeat' rcases he with rfl | he
  all_goals try subst he
  all_goals first
    | exact ok_refl (by simp [Wrong])
    | exact err_iff (by simp [Wrong])
    | exact ok_list (m := 4) (a := 0) (by simp [Wrong])
    | skip
  · refine ok_iff (a := .ints [0]) ?_
    simp [Wrong, Means]
  · by_cases h : n = 1
    · subst h
      exact ok_iff (a := .int 0) (by simp [Wrong, Means])
    · have : seen "TopK" "axis" n [] = .error .typeError := by
        show (if n = 1 then Except.ok (AVal.int 0) else Except.error PyErr.typeError) = _
        rw [if_neg h]
      simp only [this]
      exact err_iff (by simp [Wrong, h])

/-- **C107, an attribute that is given is used as given**, whatever else the node has (`Pad`'s mode is one of the texts of a file). -/
theorem C107_given (op k : String) (n : Nat) (given : Dict AVal) (v : AVal) (hv : v ≠ .none) (hm : op = "Pad" → k = "mode" → ∃ s, v = .bytes s) :
    seen op k n (given.set k v) = .ok v := by
  have : (construct op (given.set k v)).get? k = some v := by rw [C107_fields, get_set_same]
  unfold seen
  rw [this]
  unfold use
  simp only [hv, and_false, if_false]
  split
  · rename_i h
    obtain ⟨s, rfl⟩ := hm h.1 h.2
    rfl
  · rfl

/-- **C107, leaving out is giving the default.**  Outside the listed cases, a node without the attribute works with the same value as a node with ONNX's default written down, whatever
its other attributes are. -/
theorem C107_leave_out_partial {e : Entry} (he : e ∈ onnx) (n : Nat) (given : Dict AVal) (hg : given.get? e.2.1 = Option.none) (hw : ¬ Wrong e.1 e.2.1 n) :
    ∃ u, seen e.1 e.2.1 n given = .ok u ∧ Means n u (e.2.2 n) ∧
      (e.2.2 n ≠ .none → seen e.1 e.2.1 n (given.set e.2.1 (e.2.2 n)) = .ok (e.2.2 n)) := by
  obtain ⟨u, h1, h2⟩ := (C107_default_iff e he n).2 hw
  refine ⟨u, ?_, h2, fun hv => C107_given _ _ _ _ _ hv ?_⟩
  · rw [← h1]
    unfold seen
    rw [C107_fields, C107_fields, hg]
    rfl
  · intro e1 e2
    exact absurd (show Wrong e.1 e.2.1 n from .inr (.inr (.inr (.inr (.inr (.inl ⟨by simp [e1], e2⟩)))))) hw

/-- **C107, one attribute at a time**: what is given for one attribute does not change what another one is. -/
theorem C107_others (op k q : String) (n : Nat) (given : Dict AVal) (v : AVal) (h : q ≠ k) : seen op q n (given.set k v) = seen op q n given := by
  unfold seen
  rw [C107_fields, C107_fields, get_set_other _ _ h]

example : (("Gather", "axis", fun _ => .int 0) : Entry) ∈ onnx ∧ ¬ Wrong "Gather" "axis" 3 ∧ seen "Gather" "axis" 3 [("other", .int 7)] = .ok (.int 0) := by
  refine ⟨?_, by simp [Wrong], rfl⟩
  simp [onnx]
example : ¬ Wrong "Conv" "strides" 3 ∧ ¬ Wrong "MaxPool" "pads" 2 ∧ ¬ Wrong "Transpose" "perm" 9 ∧
    seen "Transpose" "perm" 3 [] = .ok (.ints [2, 1, 0]) ∧ seen "Flatten" "axis" 4 [] = .ok (.int 1) := by
  refine ⟨by simp [Wrong], by simp [Wrong], by simp [Wrong], rfl, rfl⟩
example : seen "Split" "axis" 3 [("axis", .int 1)] = .ok (.int 1) := rfl

/-- Finding: nodes that leave out an attribute that ONNX makes optional and then raise, for every number of axes: Split without `axis` (shape inference), Softmax without `axis`
(values), Resize and Upsample without `mode` (costs), Pad without `mode` (values), RoiAlign without sizes, Slice without `axes` as an attribute. -/
theorem C107_missing_raises (n : Nat) :
    seen "Split" "axis" n [] = .error .typeError ∧ seen "Softmax" "axis" n [] = .error .attributeError ∧ seen "Resize" "mode" n [] = .error .attributeError ∧
    seen "Upsample" "mode" n [] = .error .attributeError ∧ seen "Pad" "mode" n [] = .error .attributeError ∧
    seen "RoiAlign" "output_height" n [] = .error .attributeError ∧ seen "RoiAlign" "output_width" n [] = .error .attributeError ∧
    seen "Slice" "axes" n [] = .error .attributeError ∧ (n ≠ 1 → seen "TopK" "axis" n [] = .error .typeError) := by
  refine ⟨rfl, rfl, rfl, rfl, rfl, rfl, rfl, rfl, fun h => ?_⟩
  show (if n = 1 then Except.ok (AVal.int 0) else Except.error PyErr.typeError) = _
  rw [if_neg h]

/-- Finding: Squeeze without axes removes the first axis instead of all axes of size one; the epsilon of LayerNormalization is set under the name `"epsilon "`; strides, dilations and pads
of pooling and transposed convolutions are too short for three spatial axes. -/
theorem C107_wrong_defaults (n : Nat) :
    seen "Squeeze" "axes" n [] = .ok (.ints [0]) ∧ seen "LayerNormalization" "epsilon" n [] = .error .attributeError ∧
    seen "LayerNormalization" "epsilon " n [] = .ok (.real 1 100000) ∧
    seen "MaxPool" "strides" 3 [] = .ok (.ints [1, 1]) ∧ seen "ConvTranspose" "pads" 3 [] = .ok (.ints [0, 0, 0, 0]) := ⟨rfl, rfl, rfl, rfl, rfl⟩

/-- **C107, an optional attribute without a default is seen as missing**: the methods of these operators get `None` for it (and take their branch for it), they do not raise. -/
theorem C107_optional (n : Nat) : ∀ e ∈ ([("LSTM", "hidden_size"), ("LSTM", "direction"), ("Compress", "axis"), ("Slice", "steps"), ("Pad", "pads"), ("Split", "split"), ("ConstantOfShape", "value"),
      ("Scan", "num_scan_inputs"), ("Scan", "scan_input_directions"), ("RandomUniformLike", "dtype"), ("RandomNormalLike", "dtype"), ("RandomUniformLike", "seed"), ("RandomNormalLike", "seed"),
      ("ReduceMean", "axes"), ("ReduceProd", "axes"), ("ReduceSum", "axes"), ("ReduceMin", "axes"), ("ReduceMax", "axes"), ("ReduceL2", "axes")] : List (String × String)),
    seen e.1 e.2 n [] = .ok .none := by
  simp only [List.forall_mem_cons]
  refine ⟨rfl, rfl, rfl, rfl, rfl, rfl, rfl, rfl, rfl, rfl, rfl, rfl, rfl, rfl, rfl, rfl, rfl, rfl, rfl, ?_⟩
  intro x hx; cases hx

/-- Finding: the default of a subclass never replaces that of its superclass: QLinearMatMul asks for `None`, and has 0 (which is what its computation needs). -/
theorem C107_superclass_first (n : Nat) : seen "QLinearMatMul" "transA" n [] = .ok (.int 0) ∧ ("transA", AVal.none) ∈ callsOf "QLinearMatMul" := ⟨rfl, by decide⟩

end OnnxTool.Props
