import Verif.Proofs.Serial
import Verif.Model.TensorProto
/-! # C32: saving and reloading an initializer -/
namespace OnnxTool.Props
open OnnxTool OnnxTool.Serial OnnxTool.TProto

/-- a numpy array: as many elements as the shape says, each a bit pattern of the item size -/
def Arr.WF (a : Arr) : Prop := a.elems.length = count a.shape ∧ ∀ e ∈ a.elems, e < 256 ^ a.dtype.size

/-- **C32, type codes.** Every supported numpy type survives the translation to an ONNX code and back. -/
theorem C32_dtype_roundtrip (t : NpType) : onnxToNp (npToOnnx t) = some t := by cases t <;> rfl

/-- **C32, type codes.** An ONNX code that is translated comes back to itself: the maps are one to one. -/
theorem C32_code_roundtrip (c : Nat) (t : NpType) (h : onnxToNp c = some t) : npToOnnx t = c := by
  unfold onnxToNp at h
  split at h <;> first | (injection h with h; subst h; rfl) | cases h

private theorem leNat'_eq (b : Bytes) : chunks.leNat' b = leNat b := by
  induction b with
  | nil => rfl
  | cons x b ih => simp only [chunks.leNat', leNat, ih]

private theorem chunks_flatMap (n : Nat) (es : List Nat) (h : ∀ e ∈ es, e < 256 ^ n) :
    chunks n es.length (es.flatMap (leBytes n)) = es := by
  induction es with
  | nil => rfl
  | cons e es ih =>
    simp only [List.flatMap_cons, List.length_cons, chunks]
    have hl := leBytes_length n e
    rw [List.take_append_of_le_length (by omega), List.take_of_length_le (by omega), List.drop_append_of_le_length (by omega),
      List.drop_of_length_le (by omega), List.nil_append, leNat'_eq, leNat_leBytes,
      Nat.mod_eq_of_lt (h e List.mem_cons_self), ih (fun x hx => h x (List.mem_cons_of_mem _ hx))]

private theorem flatMap_length (n : Nat) (es : List Nat) : (es.flatMap (leBytes n)).length = n * es.length := by
  induction es with
  | nil => rfl
  | cons e es ih => rw [List.flatMap_cons, List.length_append, leBytes_length, ih, List.length_cons, Nat.mul_add, Nat.mul_one, Nat.add_comm]

private theorem size_pos (t : NpType) : 0 < t.size := by cases t <;> decide

private theorem frombuffer_ok (t : NpType) (es : List Nat) (h : ∀ e ∈ es, e < 256 ^ t.size) :
    frombuffer t (es.flatMap (leBytes t.size)) = .ok es := by
  unfold frombuffer
  rw [flatMap_length, if_pos (Nat.mul_mod_right _ _), Nat.mul_div_cancel_left _ (size_pos t), chunks_flatMap _ _ h]

private theorem ofSigned_toSigned {n v : Nat} (h : v < 256 ^ n) : ofSigned n (toSigned n v) = v := by
  unfold ofSigned toSigned
  have hv : (v : Int) % ((256 ^ n : Nat) : Int) = v := Int.emod_eq_of_lt (by omega) (by omega)
  split
  · rw [hv]; rfl
  · rw [Int.sub_emod_right, hv]; rfl

private theorem map_ofSigned {n : Nat} {es : List Nat} (h : ∀ e ∈ es, e < 256 ^ n) :
    (es.map (toSigned n)).map (ofSigned n) = es := by
  rw [List.map_map]
  conv => rhs; rw [← List.map_id es]
  apply List.map_congr_left
  intro e he
  exact ofSigned_toSigned (h e he)

private theorem map_ofNat {n : Nat} {es : List Nat} (h : ∀ e ∈ es, e < 256 ^ n) :
    (es.map (fun v : Nat => (v : Int))).map (ofSigned n) = es := by
  rw [List.map_map]
  conv => rhs; rw [← List.map_id es]
  apply List.map_congr_left
  intro e he
  show ofSigned n (e : Int) = e
  unfold ofSigned
  have hv : (e : Int) % ((256 ^ n : Nat) : Int) = e := Int.emod_eq_of_lt (by omega) (by have := h e he; omega)
  rw [hv]; rfl

private theorem reshape_wf {a : Arr} (h : Arr.WF a) : reshape a.dtype a.shape a.elems = .ok a := by
  unfold reshape; rw [if_pos h.1]

private theorem typed_read (t : NpType) (dims es : List Nat) (h : ∀ e ∈ es, e < 256 ^ t.size)
    (ht : t = .float32 ∨ t = .float64 ∨ t = .float16 ∨ t = .int32 ∨ t = .int64) :
    readProto (makeTyped t dims es) = reshape t dims es := by
  rcases ht with rfl | rfl | rfl | rfl | rfl
  · rfl
  · rfl
  · show reshape .float16 dims ((es.map (intVal .float16)).map (ofSigned 2)) = _
    rw [show es.map (intVal .float16) = es.map (fun v : Nat => (v : Int)) from rfl, map_ofNat (n := 2) h]
  · show reshape .int32 dims ((es.map (intVal .int32)).map (ofSigned 4)) = _
    rw [show es.map (intVal .int32) = es.map (toSigned 4) from rfl, map_ofSigned (n := 4) h]
  · show reshape .int64 dims ((es.map (intVal .int64)).map (ofSigned 8)) = _
    rw [show es.map (intVal .int64) = es.map (toSigned 8) from rfl, map_ofSigned (n := 8) h]

/-- **C32 (partial).** For every array with at least one dimension, of any of the ten types, and for every 0-dimensional array of a
float type, int32 or int64: converting it to a tensor proto and reading that back gives the same type, shape and data.
Missing: 0-dimensional int8, uint8, int16, uint16 and bool arrays, for which it is false (`C32_scalar_small_int_lost`). -/
theorem C32_roundtrip_partial (a : Arr) (hwf : Arr.WF a)
    (h : a.shape ≠ [] ∨ a.dtype = .float32 ∨ a.dtype = .float64 ∨ a.dtype = .float16 ∨ a.dtype = .int32 ∨ a.dtype = .int64) :
    readProto (makeProto a) = .ok a := by
  by_cases hs : a.shape = []
  · unfold makeProto
    rw [if_pos hs, typed_read _ _ _ hwf.2 (h.resolve_left (fun e => e hs)), ← hs]
    exact reshape_wf hwf
  · unfold makeProto
    rw [if_neg hs]
    by_cases ht : a.dtype = .float32 ∨ a.dtype = .int32
    · rw [if_pos ht, typed_read _ _ _ hwf.2 (ht.elim .inl (fun e => .inr (.inr (.inr (.inl e)))))]
      exact reshape_wf hwf
    · rw [if_neg ht]
      simp only [not_or] at ht
      unfold readProto
      simp only [C32_dtype_roundtrip, Option.getD_some]
      by_cases he : a.elems = []
      · have hc : count a.shape = 0 := by rw [← hwf.1, he]; rfl
        have hr : reshape a.dtype a.shape [] = .ok a := he ▸ reshape_wf hwf
        simp only [he, List.flatMap_nil, if_true]
        cases hd : a.dtype <;> simp only [hd, hc, List.replicate, List.map_nil] at hr ⊢ <;> first | exact hr | (exact absurd hd ht.1) | (exact absurd hd ht.2)
      · have hraw : a.elems.flatMap (leBytes a.dtype.size) ≠ [] := by
          intro e
          have := congrArg List.length e
          rw [flatMap_length] at this
          have h1 := size_pos a.dtype
          have h2 := List.length_pos_iff.mpr he
          have := Nat.mul_pos h1 h2
          simp_all
        rw [if_neg hraw, bind_eq (frombuffer_ok _ _ hwf.2)]
        exact reshape_wf hwf

example : Arr.WF ⟨.int8, [2, 3], [1, 2, 255, 128, 0, 7]⟩ := by unfold Arr.WF; decide
example : Arr.WF ⟨.float16, [], [15360]⟩ := by unfold Arr.WF; decide

/-- **C32 is false for 0-dimensional arrays of small integer types (finding).** Whatever the value, saving and reloading a scalar int8,
uint8, int16, uint16 or bool gives zero. -/
theorem C32_scalar_small_int_lost (t : NpType) (v : Nat) (ht : t = .int8 ∨ t = .uint8 ∨ t = .int16 ∨ t = .uint16 ∨ t = .bool) :
    readProto (makeProto ⟨t, [], [v]⟩) = .ok ⟨t, [], [0]⟩ := by
  rcases ht with rfl | rfl | rfl | rfl | rfl <;> rfl

/-- **C32, exactly.** A well-formed array survives saving and reloading exactly if it has a dimension, or is of a float type, int32 or int64, or is the scalar 0. -/
theorem C32_roundtrip_iff (a : Arr) (hwf : Arr.WF a) :
    readProto (makeProto a) = .ok a ↔
      a.shape ≠ [] ∨ a.dtype = .float32 ∨ a.dtype = .float64 ∨ a.dtype = .float16 ∨ a.dtype = .int32 ∨ a.dtype = .int64 ∨ a.elems = [0] := by
  constructor
  · intro h
    by_cases hs : a.shape = []
    · by_cases ht : a.dtype = .int8 ∨ a.dtype = .uint8 ∨ a.dtype = .int16 ∨ a.dtype = .uint16 ∨ a.dtype = .bool
      · obtain ⟨d, s, es⟩ := a
        simp only at hs ht
        subst hs
        have hl : es.length = 1 := hwf.1
        match es, hl with
        | [v], _ =>
          rw [C32_scalar_small_int_lost d v ht] at h
          injection h with h
          injection h with _ _ h
          exact .inr (.inr (.inr (.inr (.inr (.inr h.symm)))))
      · right
        revert ht
        cases a.dtype <;> simp
    · exact .inl hs
  · intro h
    by_cases hz : a.shape = [] ∧ a.elems = [0] ∧ (a.dtype = .int8 ∨ a.dtype = .uint8 ∨ a.dtype = .int16 ∨ a.dtype = .uint16 ∨ a.dtype = .bool)
    · obtain ⟨d, s, es⟩ := a
      obtain ⟨h1, h2, h3⟩ := hz
      simp only at h1 h2 h3
      subst h1 h2
      exact C32_scalar_small_int_lost d 0 h3
    · apply C32_roundtrip_partial a hwf
      rcases h with h | h | h | h | h | h | h
      · exact .inl h
      · exact .inr (.inl h)
      · exact .inr (.inr (.inl h))
      · exact .inr (.inr (.inr (.inl h)))
      · exact .inr (.inr (.inr (.inr (.inl h))))
      · exact .inr (.inr (.inr (.inr (.inr h))))
      · by_cases hs : a.shape = []
        · right
          have : ¬ (a.dtype = .int8 ∨ a.dtype = .uint8 ∨ a.dtype = .int16 ∨ a.dtype = .uint16 ∨ a.dtype = .bool) := fun ht => hz ⟨hs, h, ht⟩
          revert this
          cases a.dtype <;> simp
        · exact .inl hs

/-- **C32 (finding): typed storage of small integers.** A proto that keeps its int8, uint8, int16, uint16 or bool values in `int32_data`
(the ONNX form for values that are not raw, e.g. zero points written by `onnx.helper.make_tensor`) is read as all zeros. -/
theorem C32_typed_small_int_read_as_zero (t : NpType) (dims : List Nat) (vals : List Int)
    (ht : t = .int8 ∨ t = .uint8 ∨ t = .int16 ∨ t = .uint16 ∨ t = .bool) :
    readProto { dataType := npToOnnx t, dims := dims, int32Data := vals } = .ok ⟨t, dims, List.replicate (count dims) 0⟩ := by
  have : ∀ t : NpType, reshape t dims (List.replicate (count dims) 0) = .ok ⟨t, dims, List.replicate (count dims) 0⟩ := by
    intro t; unfold reshape; rw [if_pos (by simp)]
  rcases ht with rfl | rfl | rfl | rfl | rfl <;> exact this _

/-- **C32 (finding): unsupported types.** A raw initializer of a type without numpy counterpart in the map (uint32 = 12, uint64 = 13,
bfloat16 = 16, ...) is reinterpreted as float64: a uint64 array comes back with the same bits but as doubles, without an error. -/
theorem C32_unknown_type_read_as_float64 (c : Nat) (hc : onnxToNp c = none) (dims es : List Nat) (he : es.length = count dims)
    (hne : es ≠ []) (hb : ∀ e ∈ es, e < 256 ^ 8) :
    readProto { dataType := c, dims := dims, raw := es.flatMap (leBytes 8) } = .ok ⟨.float64, dims, es⟩ := by
  have hraw : es.flatMap (leBytes 8) ≠ [] := by
    intro e
    have := congrArg List.length e
    rw [flatMap_length] at this
    have h2 := List.length_pos_iff.mpr hne
    simp only [List.length_nil] at this
    omega
  unfold readProto
  simp only [hc, Option.getD_none]
  rw [if_neg hraw, bind_eq (show frombuffer .float64 (es.flatMap (leBytes 8)) = .ok es from frombuffer_ok .float64 es hb)]
  unfold reshape
  rw [if_pos he]

example : onnxToNp 13 = none ∧ onnxToNp 12 = none ∧ onnxToNp 16 = none := ⟨rfl, rfl, rfl⟩

/-- **C32, values.** What `make_tensor` writes into an integer field for an element of a signed type is the value in the range of that
type that is congruent to the bit pattern: the two's-complement value. -/
theorem C32_typed_values_in_range (t : NpType) (ht : t = .int8 ∨ t = .int16 ∨ t = .int32 ∨ t = .int64) (v : Nat) (h : v < 256 ^ t.size) :
    -(2 : Int) ^ (8 * t.size - 1) ≤ intVal t v ∧ intVal t v < (2 : Int) ^ (8 * t.size - 1) ∧
      (intVal t v - v) % (256 ^ t.size : Nat) = 0 := by
  rcases ht with rfl | rfl | rfl | rfl <;> (simp only [NpType.size] at h ⊢; simp only [intVal, toSigned]; split <;> omega)

example : intVal .int8 127 = 127 ∧ intVal .int8 128 = -128 ∧ intVal .int16 65535 = -1 := by decide

end OnnxTool.Props
