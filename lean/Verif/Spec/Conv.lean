/-! # Specification: counting window positions -/
namespace OnnxTool.Conv

/-- Number of positions of a window of `ek` elements moved in steps of `stride` over `size` elements: the `p` with
`p*stride + ek ≤ size`.  (All such `p` are below `size + 1` when `stride ≥ 1`.) -/
def windows (size ek stride : Nat) : Nat := (List.range (size + 1)).countP fun p => decide (p * stride + ek ≤ size)

/-- extent of a dilated kernel -/
def extent (k dil : Nat) : Nat := dil * (k - 1) + 1

end OnnxTool.Conv
