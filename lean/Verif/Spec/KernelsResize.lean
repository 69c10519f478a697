import Verif.Spec.KernelsElem
import Mathlib.Data.Rat.Floor
/-!
# ONNX Resize

An output element at index `i` of an axis of `n` elements resized to `m` with scale `s` stands for a coordinate of the operand; the element (nearest) or the weighted mean of the
neighbouring elements (linear) is taken there, positions outside being moved to the border.
-/
namespace OnnxTool.Kernels
open OnnxTool OnnxTool.Torch

/-- `coordinate_transformation_mode` -/
inductive Coord where
  | halfPixel | asymmetric | alignCorners
  deriving DecidableEq

/-- `nearest_mode` -/
inductive Near where
  | floor | roundPreferFloor
  deriving DecidableEq

/-- the coordinate of output position `i` -/
def Coord.src (c : Coord) (s : ℚ) (n m i : Nat) : ℚ :=
  match c with
  | .halfPixel => ((i : ℚ) + 1 / 2) / s - 1 / 2
  | .asymmetric => (i : ℚ) / s
  | .alignCorners => if m = 1 then 0 else (i : ℚ) * ((n : ℚ) - 1) / ((m : ℚ) - 1)

/-- a position moved into the axis -/
def clampTo (n : Nat) (k : Int) : Nat := (min (max 0 k) ((n : Int) - 1)).toNat

/-- the position taken: rounded down, or to the nearest whole number, halves down -/
def Near.pos (r : Near) (q : ℚ) : Int :=
  match r with
  | .floor => ⌊q⌋
  | .roundPreferFloor => ⌈q - 1 / 2⌉

/-- scales `out/in` -/
def ratios : List Nat → List Nat → List ℚ
  | n :: ns, m :: ms => (m : ℚ) / n :: ratios ns ms
  | _, _ => []

def nearestIdx (c : Coord) (r : Near) : List ℚ → List Nat → List Nat → List Nat → List Nat
  | s :: ss, n :: ns, m :: ms, i :: idx => clampTo n (r.pos (c.src s n m i)) :: nearestIdx c r ss ns ms idx
  | _, _, _, _ => []

/-- `mode = nearest`, with the given scales -/
structure IsNearest (c : Coord) (r : Near) (scales : List ℚ) (os : List Nat) (x y : Tensor ℚ) : Prop where
  shape : y.shape = os
  value : ∀ idx, InB os idx → y.at idx = x.at (nearestIdx c r scales x.shape os idx)

/-- linear interpolation of `f` at the coordinates `qs`, one axis after the other -/
def linearAt : List Nat → List ℚ → (List Nat → ℚ) → ℚ
  | n :: ns, q :: qs, f =>
    (1 - (q - ⌊q⌋)) * linearAt ns qs (fun t => f (clampTo n ⌊q⌋ :: t)) + (q - ⌊q⌋) * linearAt ns qs (fun t => f (clampTo n (⌊q⌋ + 1) :: t))
  | _, _, f => f []

def coords (c : Coord) : List ℚ → List Nat → List Nat → List Nat → List ℚ
  | s :: ss, n :: ns, m :: ms, i :: idx => c.src s n m i :: coords c ss ns ms idx
  | _, _, _, _ => []

/-- `mode = linear`, with the given scales -/
structure IsLinear (c : Coord) (scales : List ℚ) (os : List Nat) (x y : Tensor ℚ) : Prop where
  shape : y.shape = os
  value : ∀ idx, InB os idx → y.at idx = linearAt x.shape (coords c scales x.shape os idx) x.at

end OnnxTool.Kernels
