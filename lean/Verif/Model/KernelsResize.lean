import Verif.Model.KernelsElem
/-!
# The Resize kernel (`/repo/inference/kernels.py` 726-752)

Torch is not part of the repository: `interpolate` says what `torch.nn.functional.interpolate` is taken to do (exact arithmetic, so the scale `in/out` is not rounded; the bicubic
interpolation is a parameter).  String attributes of a model read from a file are `bytes` (`onnx.helper.get_attribute_value`), those of a model built in Python may be `str`.
-/
namespace OnnxTool.Kernels
open OnnxTool OnnxTool.Torch

/-- a string attribute -/
inductive PyText where
  | str (s : String)
  | bytes (s : String)
  deriving DecidableEq

inductive TMode where
  | nearest | bilinear | bicubic
  deriving DecidableEq

/-- lines 735 and 743: `attrs.get('mode', 'nearest')`, decoded -/
def modeText : Option PyText → String
  | none => "nearest"
  | some (.str s) => s
  | some (.bytes s) => s

/-- lines 737 and 744: the torch mode, `nearest` for every other text -/
def torchMode (mode : Option PyText) : TMode :=
  match modeText mode with
  | "nearest" => .nearest
  | "linear" => .bilinear
  | "cubic" => .bicubic
  | _ => .nearest

/-- line 736: `attrs.get('coordinate_transformation_mode', 'half_pixel') == 'align_corners'`; a `bytes` object never equals a `str` -/
def alignCorners (coord : Option PyText) : Bool := coord = some (.str "align_corners")

/-! ### Torch -/

/-- the source index of nearest interpolation: `floor(i * in / out)` on every axis -/
def nearestSrc : List Nat → List Nat → List Nat → List Nat
  | n :: ns, m :: ms, i :: idx => i * n / m :: nearestSrc ns ms idx
  | _, _, _ => []

/-- the source coordinate of linear interpolation -/
def linearSrc (align : Bool) (n m i : Nat) : ℚ :=
  if align then (if 1 < m then (i : ℚ) * ((n : ℚ) - 1) / ((m : ℚ) - 1) else 0)
  else max 0 (((i : ℚ) + 1 / 2) * n / m - 1 / 2)

/-- lower and upper neighbour and the weight of the upper one -/
def neighbours (n : Nat) (src : ℚ) : Nat × Nat × ℚ :=
  let i0 := min ⌊src⌋.toNat (n - 1)
  (i0, if i0 < n - 1 then i0 + 1 else i0, src - i0)

/-- bilinear interpolation of the last two axes -/
def bilinearAt (align : Bool) (x : Tensor ℚ) (oh ow : Nat) (b c i j : Nat) : ℚ :=
  let p := neighbours (x.shape.getD 2 0) (linearSrc align (x.shape.getD 2 0) oh i)
  let q := neighbours (x.shape.getD 3 0) (linearSrc align (x.shape.getD 3 0) ow j)
  (1 - p.2.2) * ((1 - q.2.2) * x.at [b, c, p.1, q.1] + q.2.2 * x.at [b, c, p.1, q.2.1]) +
    p.2.2 * ((1 - q.2.2) * x.at [b, c, p.2.1, q.1] + q.2.2 * x.at [b, c, p.2.1, q.2.1])

/-- `F.interpolate(x, size=size, mode=…, align_corners=…)` -/
def interpolate (cubic : Bool → Tensor ℚ → List Nat → Tensor ℚ) (mode : TMode) (align : Bool) (x : Tensor ℚ) (size : List Int) : Except PyErr (Tensor ℚ) :=
  if size.length + 2 ≠ x.shape.length then .error .valueError
  else
    let os := x.shape.take 2 ++ size.map Int.toNat
    let positive := size.all (0 < ·) && (x.shape.drop 2).all (0 < ·)
    match mode with
    | .nearest =>
      if 3 ≤ x.shape.length ∧ x.shape.length ≤ 5 then
        if positive then .ok ⟨os, fun idx => x.at (nearestSrc x.shape os idx)⟩ else .error .runtimeError
      else .error .notImplemented
    | .bilinear =>
      if x.shape.length = 4 then
        if positive then .ok ⟨os, fun idx => bilinearAt align x (os.getD 2 0) (os.getD 3 0) (idx.getD 0 0) (idx.getD 1 0) (idx.getD 2 0) (idx.getD 3 0)⟩
        else .error .runtimeError
      else .error .notImplemented
    | .bicubic =>
      if x.shape.length = 4 then
        if positive then .ok (cubic align x (size.map Int.toNat)) else .error .runtimeError
      else .error .notImplemented

/-! ### The kernel -/

/-- line 742: `[int(x.shape[i] * scales[i]) for i in range(len(scales))]`; `int` cuts towards zero -/
def scaledSizes : List Nat → List ℚ → Except PyErr (List Int)
  | _, [] => .ok []
  | [], _ :: _ => .error .indexError
  | n :: ns, s :: ss =>
    match scaledSizes ns ss with
    | .error e => .error e
    | .ok r => .ok ((if 0 ≤ (n : ℚ) * s then ⌊(n : ℚ) * s⌋ else ⌈(n : ℚ) * s⌉) :: r)

/-- `ResizeKernel.run` (728-747) with `scales` the third and `sizes` the fourth input (`none`: missing or empty).  Without both nothing is written. -/
def resizeKernel (mem : Nat → ℚ) (off : Nat) (os : List Nat) (cubic : Bool → Tensor ℚ → List Nat → Tensor ℚ) (mode coord : Option PyText) (x : Tensor ℚ)
    (scales : Option (List ℚ)) (sizes : Option (List Int)) : Except PyErr (Nat → ℚ) :=
  match sizes with
  | some sizes => copyStore mem off os (interpolate cubic (torchMode mode) (if torchMode mode = .nearest then false else alignCorners coord) x (sizes.drop 2))
  | none => match scales with
    | none => .ok mem
    | some scales => match scaledSizes x.shape scales with
      | .error e => .error e
      | .ok sizes => copyStore mem off os (interpolate cubic (torchMode mode) false x (sizes.drop 2))

end OnnxTool.Kernels
