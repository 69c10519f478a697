import Mathlib.Data.Rat.Defs
import Mathlib.Algebra.Order.Field.Rat
import Mathlib.Data.Nat.Notation
/-!
# Sparsity of weights

Models `narray_calc_sparsity`, `narray_zero_flag`, `search_sparse_blocksize` (`/repo/onnx_tool/tensor.py` 160-179, 251-365) and `Tensor.sparsity_search` (461-473).

Simplified: ratios are exact rationals instead of float64; an array is given by its shape, its element type and the function from positions to the values; the last two dimensions of a
four-dimensional array are one dimension (`inner`), as every function here treats them alike; arrays that are searched are not empty.
-/
namespace OnnxTool.Sparsity

/-- The element types that the functions distinguish -/
inductive Kind where
  /-- float32, float64, float16, int32, int8 -/
  | zeroIsZero
  | uint8
  | other
  deriving DecidableEq

/-- An array: number of dimensions, the first two dimensions, the product of the remaining ones, the values -/
structure Arr where
  ndim : ℕ
  rows : ℕ
  cols : ℕ
  inner : ℕ
  kind : Kind
  val : ℕ → ℕ → ℕ → ℚ

/-- `narray_zero_flag(arr)` (175-180), element by element.  (`other` does not reach it: the ratio of such an array is 0.) -/
def Arr.flag (a : Arr) (i j p : ℕ) : Bool :=
  match a.kind with
  | .zeroIsZero => a.val i j p == 0
  | .uint8 => a.val i j p == 128
  | .other => false

/-- `numpy.sum` of flags along an axis of `n` elements -/
def flagSum (n : ℕ) (z : ℕ → Bool) : ℕ := ((List.range n).map fun k => (z k).toNat).sum

/-- `x.sum()` for an `a × b × c` array of truth values -/
def total (a b c : ℕ) (x : ℕ → ℕ → ℕ → Bool) : ℕ :=
  ((List.range a).map fun i => ((List.range b).map fun j => ((List.range c).map fun p => (x i j p).toNat).sum).sum).sum

/-- `narray_calc_sparsity(arr)` (160-172) -/
def calcSparsity (a : Arr) : ℚ :=
  if a.ndim ≠ 2 ∧ a.ndim ≠ 4 then 0
  else
    match a.kind with
    | .zeroIsZero => total a.rows a.cols a.inner (fun i j p => a.val i j p == 0) / (a.rows * a.cols * a.inner)
    | .uint8 => total a.rows a.cols a.inner (fun i j p => a.val i j p == 128) / (a.rows * a.cols * a.inner)
    | .other => 0

/-- lines 262-265, 306-309: blocks of `s` along axis 1 -/
def ratio1 (a : Arr) (s : ℕ) : ℚ :=
  total a.rows (a.cols / s) a.inner (fun i b p => flagSum s (fun k => a.flag i (b * s + k) p) == s) / (a.rows * (a.cols / s : ℕ) * a.inner)

/-- lines 276-279, 320-323: blocks of `s` along axis 0 -/
def ratio0 (a : Arr) (s : ℕ) : ℚ :=
  total (a.rows / s) a.cols a.inner (fun b j p => flagSum s (fun k => a.flag (b * s + k) j p) == s) / ((a.rows / s : ℕ) * a.cols * a.inner)

/-- lines 297-300, 342-346: square blocks -/
def ratioS (a : Arr) (s : ℕ) : ℚ :=
  total (a.rows / s) (a.cols / s) a.inner (fun b c p => ((List.range s).map fun k => flagSum s fun l => a.flag (b * s + k) (c * s + l) p).sum == s * s) /
    ((a.rows / s : ℕ) * (a.cols / s : ℕ) * a.inner)

/-- The variables of the loop: `initsize` is twice `validsize`; `r0`, `r1` are `validratio0`, `validratio1` of the four-dimensional loop, and `r` is `validratio` of the two-dimensional one -/
structure Loop where
  initsize : ℕ
  validsize : ℕ
  pre0 : Bool
  pre1 : Bool
  r : ℚ
  r0 : ℚ
  r1 : ℚ

/-- lines 260-271, 304-315 -/
def try1 (a : Arr) (ratio thr : ℚ) (l : Loop) : Bool := l.pre1 && a.cols % l.initsize == 0 && decide (ratio1 a l.initsize > ratio - thr)

/-- lines 274-285, 318-329 -/
def try0 (a : Arr) (ratio thr : ℚ) (l : Loop) : Bool := l.pre0 && a.rows % l.initsize == 0 && decide (ratio0 a l.initsize > ratio - thr)

/-- lines 286-292, 330-336: the loop variables for the next round -/
def advance (a : Arr) (v0 v1 : Bool) (l : Loop) : Loop where
  initsize := l.initsize * 2
  validsize := l.initsize
  pre0 := v0
  pre1 := v1
  r := if v0 then ratio0 a l.initsize else if v1 then ratio1 a l.initsize else l.r
  r0 := if v0 then ratio0 a l.initsize else l.r0
  r1 := if v1 then ratio1 a l.initsize else l.r1

/-- the `while True` loop (258-292, 302-336); `none` when the fuel is used up -/
def loop (a : Arr) (ratio thr : ℚ) : ℕ → Loop → Option Loop
  | 0, _ => none
  | fuel + 1, l =>
    if !try1 a ratio thr l && !try0 a ratio thr l then some l
    else loop a ratio thr fuel (advance a (try0 a ratio thr l) (try1 a ratio thr l) l)

/-- the values before the loop -/
def start (ratio : ℚ) : Loop := ⟨2, 1, true, true, ratio, ratio, ratio⟩

/-- lines 294-303: after the loop, two dimensions -/
def finish2 (a : Arr) (ratio thr : ℚ) (l : Loop) : (ℕ × ℕ) × ℚ :=
  if l.pre1 && l.pre0 && decide (ratioS a l.validsize > ratio - thr) then ((l.validsize, l.validsize), ratioS a l.validsize)
  else ((if l.pre0 then l.validsize else 1, if l.pre1 then l.validsize else 1), l.r)

/-- lines 338-350: after the loop, four dimensions -/
def finish4 (a : Arr) (ratio thr : ℚ) (l : Loop) : (ℕ × ℕ) × ℚ :=
  if 1 < l.validsize ∧ l.pre1 && l.pre0 && decide (ratioS a l.validsize > ratio - thr) then ((l.validsize, l.validsize), ratioS a l.validsize)
  else if l.r0 > l.r1 then ((l.validsize, 1), l.r0)
  else ((1, l.validsize), l.r1)

/-- `search_sparse_blocksize(arr, ratio, deltar_thres)` (251-352) -/
def search (a : Arr) (ratio thr : ℚ) : Option ((ℕ × ℕ) × ℚ) :=
  if a.ndim = 2 then (loop a ratio thr (a.rows + a.cols) (start ratio)).map (finish2 a ratio thr)
  else if a.ndim = 4 then (loop a ratio thr (a.rows + a.cols) (start ratio)).map (finish4 a ratio thr)
  else some ((1, 1), ratio)

/-- `self.sparsity` after `sparsity_search` of a constant (461-473): block size, block ratio, ratio.  `volume` is the product of all dimensions. -/
def sparsitySearch (a : Arr) (volume : ℕ) : Option ((ℕ × ℕ) × ℚ × ℚ) :=
  if 4096 < volume then
    if calcSparsity a > 4 / 10 then (search a (calcSparsity a) (1 / 10)).map fun r => (r.1, r.2, calcSparsity a)
    else some ((1, 1), 0, calcSparsity a)
  else some ((1, 1), 0, 0)

end OnnxTool.Sparsity
