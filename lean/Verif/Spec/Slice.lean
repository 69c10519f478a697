/-! # Specification: which indices a Slice selects (ONNX operator documentation, Slice-13) -/
namespace OnnxTool.Slice

/-- A negative position counts from the end of the axis. -/
def fromEnd (dim : Nat) (v : Int) : Int := if v < 0 then v + dim else v

/-- The first position: the start clamped into `[0, dim]` for positive and `[0, dim-1]` for negative stepping. -/
def firstPos (dim : Nat) (s st : Int) : Int :=
  max 0 (min (fromEnd dim s) (if st < 0 then (dim : Int) - 1 else dim))

/-- Index `i` of the axis is selected: it is reached from the first position in whole steps, strictly before the end. -/
def Selected (dim : Nat) (s e st : Int) (i : Nat) : Prop :=
  (∃ j : Nat, (i : Int) = firstPos dim s st + j * st) ∧
  (if st < 0 then fromEnd dim e < (i : Int) else (i : Int) < fromEnd dim e)

/-- `n` is the number of selected indices of the axis: they are listed by a duplicate-free list of length `n`. -/
def CountSelected (dim : Nat) (s e st : Int) (n : Nat) : Prop :=
  ∃ l : List Nat, l.Nodup ∧ l.length = n ∧ ∀ i, i ∈ l ↔ i < dim ∧ Selected dim s e st i

/-- The axis (counted from 0) an axis attribute denotes for a tensor of rank `r`: negative values count from the end. -/
def axisOf (r : Nat) (a : Int) : Nat := (if a < 0 then (r : Int) + a else a).toNat

end OnnxTool.Slice
