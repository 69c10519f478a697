import Mathlib.Data.Rat.Floor
import Verif.Model.Py
/-!
# Weight quantization

Models `/repo/onnx_tool/quantization.py`: `find_min_max` (16-37), `get_symmetric_parameter` (40-43), `get_asymmetric_u8_parameter`
(46-52), `symmetric_quant` (55-56), `asymmetric_quant` (59-60), the dequantizers (63-68), `quantize` (71-104) for two-dimensional
weights (the only ones `graph_quantize` passes) and `pack_4bits` (106-128).

Simplifications: float32 arithmetic is modelled by exact rationals.  A matrix is its size and a function of row and column.  A zero
scale makes numpy produce a NaN, whose `round` raises `ValueError`.
-/
namespace OnnxTool.Quant
open OnnxTool

/-- Python's `round(x)`: nearest integer, ties to even -/
def pyRound (q : ℚ) : ℤ :=
  let f := ⌊q⌋
  if q - f < 1 / 2 then f else if 1 / 2 < q - f then f + 1 else if f % 2 = 0 then f else f + 1

/-- `numpy.clip` -/
def clip (v lo hi : ℤ) : ℤ := if v < lo then lo else if hi < v then hi else v

/-- `get_symmetric_parameter` (40-43): the scale, and zero point 0 -/
def symParam (fmin fmax : ℚ) (bits : ℕ) : ℚ × ℤ := (max |fmin| |fmax| / (2 ^ (bits - 1) - 1), 0)

/-- `get_asymmetric_u8_parameter` (46-52) -/
def asymParam (fmin fmax : ℚ) (bits : ℕ) : ℚ × ℤ :=
  let fmin := min fmin 0
  let fmax := max fmax 0
  let scale := (fmax - fmin) / (2 ^ bits - 1)
  (scale, pyRound (-fmin / scale))

/-- `symmetric_quant` (55-56) -/
def symQuant (v scale : ℚ) : ℤ := clip (pyRound (v / scale)) (-128) 127

/-- `asymmetric_quant` (59-60) -/
def asymQuant (v scale : ℚ) (zp : ℤ) : ℤ := clip (pyRound (v / scale) + zp) 0 255

/-- `symmetric_dequant` (63-64) -/
def symDequant (q : ℤ) (scale : ℚ) : ℚ := q * scale

/-- `asymmetric_dequant` (67-68) -/
def asymDequant (q : ℤ) (scale : ℚ) (zp : ℤ) : ℚ := (q - zp) * scale

/-- `min()` / `max()` of an array; `ValueError` when it is empty -/
def npMin : List ℚ → Except PyErr ℚ
  | [] => .error .valueError
  | x :: xs => .ok (xs.foldl min x)
def npMax : List ℚ → Except PyErr ℚ
  | [] => .error .valueError
  | x :: xs => .ok (xs.foldl max x)

/-- the elements of one group: the whole array (block 0), a row (-1), `f32[i, b*block : b*block+block]` (> 0), (16-37) -/
def groupElems (f : ℕ → ℕ → ℚ) (rows cols : ℕ) (block : ℤ) (g : ℕ × ℕ) : List ℚ :=
  if block = 0 then (List.range rows).flatMap fun i => (List.range cols).map (f i)
  else if block = -1 then (List.range cols).map (f g.1)
  else (((List.range cols).drop (g.2 * block.toNat)).take block.toNat).map (f g.1)

/-- all group indices: `()`, `i`, or `(i, b)` with `b` running over `range(0, cols, block)` -/
def groups (rows cols : ℕ) (block : ℤ) : List (ℕ × ℕ) :=
  if block = 0 then [(0, 0)]
  else if block = -1 then (List.range rows).map fun i => (i, 0)
  else (List.range rows).flatMap fun i => (List.range ((cols + block.toNat - 1) / block.toNat)).map fun b => (i, b)

/-- the group index used for element `(i, j)` (84, 92, 101-102) -/
def groupOf (block : ℤ) (i j : ℕ) : ℕ × ℕ :=
  if block = 0 then (0, 0) else if block = -1 then (i, 0) else (i, j / block.toNat)

/-- scale and zero point of one group -/
def groupParam (f : ℕ → ℕ → ℚ) (rows cols : ℕ) (block : ℤ) (asym : Bool) (bits : ℕ) (g : ℕ × ℕ) : Except PyErr (ℚ × ℤ) :=
  match npMin (groupElems f rows cols block g), npMax (groupElems f rows cols block g) with
  | .ok lo, .ok hi => .ok (if asym then asymParam lo hi bits else symParam lo hi bits)
  | _, _ => .error .valueError

/-- parameters of all groups; a zero scale raises when the first element of the group is quantized -/
def allParams (f : ℕ → ℕ → ℚ) (rows cols : ℕ) (block : ℤ) (asym : Bool) (bits : ℕ) :
    List (ℕ × ℕ) → Except PyErr Unit
  | [] => .ok ()
  | g :: gs =>
    match groupParam f rows cols block asym bits g with
    | .error e => .error e
    | .ok p => if p.1 = 0 then .error .valueError else allParams f rows cols block asym bits gs

/-- `quantize` (71-104): the code of each element and the parameters of each group. -/
def quantize (f : ℕ → ℕ → ℚ) (rows cols : ℕ) (block : ℤ) (asym : Bool) (bits : ℕ) :
    Except PyErr ((ℕ → ℕ → ℤ) × (ℕ × ℕ → ℚ × ℤ)) :=
  if block < -1 then .error .typeError
  else
    match allParams f rows cols block asym bits (groups rows cols block) with
    | .error e => .error e
    | .ok _ =>
      let params : ℕ × ℕ → ℚ × ℤ := fun g => (groupParam f rows cols block asym bits g).toOption.getD (0, 0)
      .ok (fun i j =>
        let p := params (groupOf block i j)
        if asym then asymQuant (f i j) p.1 p.2 else symQuant (f i j) p.1, params)

/-- `cvt_s8bits_to_s4bits(ctypes.c_uint8(v).value)` (112-116) -/
def nibble (v : ℤ) : ℕ :=
  let u := (v % 256).toNat
  (u &&& 7) ||| ((u &&& 0x80) >>> 4)

/-- `pack_4bits` (106-128) along the last axis (the other axes are iterated over): two codes per byte, the first in the low half; the
output has `len // 2` entries, so the last code of an odd row is not stored. -/
def packRow : List ℤ → List ℕ
  | a :: b :: rest => (nibble a ||| (nibble b <<< 4)) :: packRow rest
  | _ => []

end OnnxTool.Quant
