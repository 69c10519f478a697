import Verif.Model.Sparsity
import Mathlib.Data.Finset.Prod
import Mathlib.Data.Finset.Card
/-! # Block sparsity -/
namespace OnnxTool.Sparsity

/-- The number of `h × w` blocks — cut from the first two dimensions, one for each position of the others — in which every element is `zero` -/
def zeroBlocks (rows cols inner : ℕ) (zero : ℕ → ℕ → ℕ → Prop) [∀ i j p, Decidable (zero i j p)] (h w : ℕ) : ℕ :=
  ((Finset.range (rows / h) ×ˢ Finset.range (cols / w) ×ˢ Finset.range inner).filter fun b => ∀ k < h, ∀ l < w, zero (b.1 * h + k) (b.2.1 * w + l) b.2.2).card

/-- The fraction of `h × w` blocks that are zero -/
def zeroFraction (rows cols inner : ℕ) (zero : ℕ → ℕ → ℕ → Prop) [∀ i j p, Decidable (zero i j p)] (h w : ℕ) : ℚ :=
  zeroBlocks rows cols inner zero h w / ((rows / h * (cols / w) * inner : ℕ) : ℚ)

/-- The element that stands for 0: 128 in an array of uint8, else 0 -/
def Arr.Zero (a : Arr) (i j p : ℕ) : Prop := a.val i j p = if a.kind = .uint8 then 128 else 0

instance (a : Arr) (i j p : ℕ) : Decidable (a.Zero i j p) := by unfold Arr.Zero; infer_instance

/-- The fraction of zero `h × w` blocks of an array -/
def Arr.fraction (a : Arr) (h w : ℕ) : ℚ := zeroFraction a.rows a.cols a.inner a.Zero h w

/-- Blocks of this size tile the array, and the fraction of zero blocks is less than `thr` below the fraction of zero elements. -/
def Arr.Tiles (a : Arr) (thr : ℚ) (h w : ℕ) : Prop := h ∣ a.rows ∧ w ∣ a.cols ∧ a.fraction h w > a.fraction 1 1 - thr

/-- `s` is the largest power of two with the property -/
def Largest (P : ℕ → Prop) (s : ℕ) : Prop := (∃ k, s = 2 ^ k) ∧ P s ∧ ∀ k, P (2 ^ k) → 2 ^ k ≤ s

/-- An array that is searched: two or four dimensions, not empty, of a type whose zeros are counted -/
structure Arr.Searched (a : Arr) : Prop where
  dims : a.ndim = 2 ∨ a.ndim = 4
  rows : 0 < a.rows
  cols : 0 < a.cols
  inner : 0 < a.inner
  kind : a.kind ≠ .other

end OnnxTool.Sparsity
