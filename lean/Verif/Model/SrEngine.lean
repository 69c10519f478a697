import Verif.Model.Py
import Verif.Model.Quant
/-!
# The super-resolution engine (`/repo/inference/sr_gui.py` 54-76, 121-208)

`SREngine.process` from an image to an image.  The network is a parameter (`GraphInfer.forward`, `Model/Infer.lean`), numbers are exact rationals followed by
roundings of the element type (parameters: `rin` of the division and conversion in `image_to_tensor`, `rout` of the product in `tensor_to_image`; `roundBits` is the one of IEEE
types with `p` significant bits).  Left out: the window, files, timing, NaN.
-/
namespace OnnxTool.SrEngine
open OnnxTool

/-- an array of shape `h × w × channels` (images: `uint8` HWC; tensors: CHW without the leading 1, indexed the same way here): value at row, column, channel -/
structure Img (α : Type) where
  h : Nat
  w : Nat
  px : Nat → Nat → Nat → α

/-- `p in s` for strings -/
def inText (p : List Char) : List Char → Bool
  | [] => p.isEmpty
  | c :: s => p.isPrefixOf (c :: s) || inText p s

/-- `os.path.basename` -/
def basename (path : List Char) : List Char := (path.reverse.takeWhile (· ≠ '/')).reverse

/-- `SREngine._detect_scale` (136-144), also `get_model_info` (`test_super_resolution.py` 89-103) -/
def detectScale (path : String) : Nat :=
  let name := (basename path.toList).map Char.toLower
  if inText ['x', '2'] name || inText ['2', 'x'] name then 2
  else if inText ['x', '3'] name || inText ['3', 'x'] name then 3
  else if inText ['x', '4'] name || inText ['4', 'x'] name then 4
  else 4

/-- `(4 - h % 4) % 4` (191-192) -/
def padOf (n : Nat) : Nat := (4 - n % 4) % 4

/-- `numpy.pad(…, mode="reflect")` behind an axis of `n` entries: the entry that position `i` shows; an axis of one entry repeats it -/
def mirror (n i : Nat) : Nat :=
  if i < n then i
  else if n ≤ 1 then 0
  else
    let r := i % (2 * (n - 1))
    if r < n then r else 2 * (n - 1) - r

/-- lines 190-194 -/
def padImage (img : Img Nat) : Img Nat :=
  if 0 < padOf img.h ∨ 0 < padOf img.w then
    { h := img.h + padOf img.h, w := img.w + padOf img.w, px := fun y x c => img.px (mirror img.h y) (mirror img.w x) c }
  else img

/-- one value of `image_to_tensor` (68-76): `uint8 / 255` in the element type of the model -/
def ofPixel (rd : ℚ → ℚ) (v : Nat) : ℚ := rd ((v : ℚ) / 255)

/-- one value of `tensor_to_image` (60-63): `clip`, `* 255.0`, and `astype(uint8)`, which cuts off -/
def toPixel (rd : ℚ → ℚ) (x : ℚ) : Nat := (⌊rd ((if x < 0 then 0 else if 1 < x then 1 else x) * 255)⌋ % 256).toNat

/-- `image_to_tensor` (68-76) -/
def imageToTensor (rd : ℚ → ℚ) (img : Img Nat) : Img ℚ := { h := img.h, w := img.w, px := fun y x c => ofPixel rd (img.px y x c) }

/-- `tensor_to_image` (54-65) -/
def tensorToImage (rd : ℚ → ℚ) (t : Img ℚ) : Img Nat := { h := t.h, w := t.w, px := fun y x c => toPixel rd (t.px y x c) }

/-- `img[:a, :b, :]` -/
def crop {α : Type} (a b : Nat) (img : Img α) : Img α := { img with h := min a img.h, w := min b img.w }

/-- `SREngine.process` (185-208); `net` is `self.engine.forward` restricted to the first input and output; `scale` is `detectScale` of the model's path -/
def process (rin rout : ℚ → ℚ) (scale : Nat) (net : Img ℚ → Except PyErr (Img ℚ)) (img : Img Nat) : Except PyErr (Img Nat) :=
  match net (imageToTensor rin (padImage img)) with
  | .error e => .error e
  | .ok t => .ok (crop (img.h * scale) (img.w * scale) (tensorToImage rout t))

/-- `input_range` of `initialize` (159-163) admits a tensor of this size -/
def admits (maxH maxW : Nat) (t : Img ℚ) : Bool := decide (1 ≤ t.h ∧ t.h ≤ maxH ∧ 1 ≤ t.w ∧ t.w ≤ maxW)

/-- The rounding of an IEEE type with `p` significant bits (24: float32, 11: float16) for non-negative numbers, ties to even; `fuel` bounds the search for the exponent. -/
def roundBits (p : Nat) : Nat → ℚ → ℚ
  | 0, x => x
  | n + 1, x =>
    if x < 2 ^ (p - 1) then roundBits p n (2 * x) / 2
    else if 2 ^ p ≤ x then roundBits p n (x / 2) * 2
    else (Quant.pyRound x : ℚ)

end OnnxTool.SrEngine
