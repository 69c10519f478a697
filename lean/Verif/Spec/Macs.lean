import Mathlib.Algebra.BigOperators.Group.List.Basic
import Verif.Model.Py
/-!
# Specification: the scalar multiplications of an operator

An operator's multiplications are listed explicitly: one entry per output element and per term of the sum that defines it.
-/
namespace OnnxTool

/-- all multi-indices of a shape -/
def indices : List Nat → List (List Nat)
  | [] => [[]]
  | d :: ds => (List.range d).flatMap fun i => (indices ds).map (i :: ·)

/-- `Y[o] = Σ_k A[..k] * B[k..]`: the products of a matrix product with output shape `y` and inner length `K` -/
def matmulTerms (y : List Nat) (K : Nat) : List (List Nat × Nat) :=
  (indices y).flatMap fun o => (List.range K).map fun k => (o, k)

/-- `Y[n,m,p] = Σ_{c,r} X[n, c', p*stride + r*dilation] * W[m, c, r]`: the products of a convolution with output shape `y`, `cg` channels per
group and kernel size `ks` -/
def convTerms (y : List Nat) (cg : Nat) (ks : List Nat) : List (List Nat × List Nat) :=
  (indices y).flatMap fun o => (indices (cg :: ks)).map fun r => (o, r)

/-- a transposed convolution scatters: input element `i` of channel `c` is multiplied by `W[c, m, r]` for every output channel `m` of the
group and kernel position `r` -/
def convTransposeTerms (x : List Nat) (og : Nat) (ks : List Nat) : List (List Nat × List Nat) :=
  (indices x).flatMap fun i => (indices (og :: ks)).map fun r => (i, r)

theorem indices_length (s : List Nat) : (indices s).length = s.prod := by
  induction s with
  | nil => rfl
  | cons d ds ih =>
    simp only [indices, List.length_flatMap, List.length_map, ih]
    simp

end OnnxTool
