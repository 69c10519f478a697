/-! # Specification: ONNX / numpy multidirectional broadcasting -/
namespace OnnxTool.Shape

/-- dimension `i` counted from the right; a missing dimension counts as 1 -/
def dimR (s : List Nat) (i : Nat) : Nat := (s.reverse[i]?).getD 1

/-- `r` is the broadcast of the shapes `ss`: its rank is the largest rank; at every right-aligned position each operand has
dimension 1 or the result's, and the result's dimension is 1 or comes from an operand. -/
structure IsBroadcast (ss : List (List Nat)) (r : List Nat) : Prop where
  rank_ge : ∀ s ∈ ss, s.length ≤ r.length
  rank_le : r = [] ∨ ∃ s ∈ ss, s.length = r.length
  compat : ∀ i, i < r.length → ∀ s ∈ ss, dimR s i = 1 ∨ dimR s i = dimR r i
  attained : ∀ i, i < r.length → dimR r i = 1 ∨ ∃ s ∈ ss, dimR s i = dimR r i

end OnnxTool.Shape

namespace OnnxTool.Shape
/-- number of elements of a shape (1 for a scalar) -/
def elems (s : List Nat) : Nat := s.foldr (fun d v => d * v) 1
end OnnxTool.Shape
