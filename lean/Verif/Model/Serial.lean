import Verif.Model.ShapeEngine
/-!
# Binary serialization

Models `/repo/onnx_tool/serialization.py`: `__write_*` (8-64), `__write_ndarray` (67-90), `serialize_shape_engine` (93-124),
`serialize_graph` (127-173) and `serialize_memory_compression` (176-192).  The written file is the returned byte list.

Simplifications: a Python `str` is a Lean `String` (no lone surrogates); a Python float attribute is represented by its 32-bit
pattern (`struct.pack('f', ·)` of a value that came from an ONNX float attribute is exact); `float(expr.alpha)` for integers is rounded
once to 24 significant bits; an attribute value of any other type (tensors, graphs, ...) is `other`.
-/
namespace OnnxTool.Serial
open OnnxTool OnnxTool.Engine

abbrev Bytes := List UInt8

/-- the `k` low bytes of `v`, least significant first -/
def leBytes : Nat → Nat → Bytes
  | 0, _ => []
  | k + 1, v => UInt8.ofNat (v % 256) :: leBytes k (v / 256)

/-- `i.to_bytes(n, 'little', signed=True)` (14-17); out of range raises `OverflowError`. -/
def encInt (n : Nat) (i : Int) : Except PyErr Bytes :=
  if -(2 ^ (8 * n - 1) : Nat) ≤ i ∧ i < (2 ^ (8 * n - 1) : Nat) then .ok (leBytes n (i % (256 ^ n : Nat)).toNat)
  else .error .overflow

/-- `bytes(string, 'utf-8')` -/
def utf8 (s : String) : Bytes := s.toByteArray.data.toList

/-- `__write_str2buf` (26-31): a NUL is appended only if the string contains none. -/
def encStr (s : String) : Bytes := if s.toList.contains '\x00' then utf8 s else utf8 s ++ [0]

def encAll {α : Type} (f : α → Except PyErr Bytes) : List α → Except PyErr Bytes
  | [] => .ok []
  | x :: xs => do
    let a ← f x
    let b ← encAll f xs
    pure (a ++ b)

/-- `__write_len2buf` (20-23) followed by the elements -/
def encList {α : Type} (n : Nat) (f : α → Except PyErr Bytes) (xs : List α) : Except PyErr Bytes := do
  let a ← encInt n xs.length
  let b ← encAll f xs
  pure (a ++ b)

/-- Exponent and 24-bit significand of a positive integer rounded to 24 significant bits, ties to even. -/
def f32Parts (n : Nat) : Nat × Nat :=
  if Nat.log2 n ≤ 23 then (Nat.log2 n, n * 2 ^ (23 - Nat.log2 n))
  else
    let d := Nat.log2 n - 23
    let q := n / 2 ^ d
    let r := n % 2 ^ d
    let q := if 2 * r < 2 ^ d then q else if 2 ^ d < 2 * r then q + 1 else q + q % 2
    if q = 2 ^ 24 then (Nat.log2 n + 1, 2 ^ 23) else (Nat.log2 n, q)

/-- The 32-bit pattern of `struct.pack('f', float(x))` (8-11) for an integer `x`. -/
def f32OfInt (x : Int) : Except PyErr Nat :=
  if x.natAbs = 0 then .ok 0
  else if (f32Parts x.natAbs).1 > 127 then .error .overflow
  else .ok ((if x < 0 then 1 else 0) * 2 ^ 31 + ((f32Parts x.natAbs).1 + 127) * 2 ^ 23 + ((f32Parts x.natAbs).2 - 2 ^ 23))

def encF32Int (x : Int) : Except PyErr Bytes := do
  let b ← f32OfInt x
  pure (leBytes 4 b)

/-- `__write_data` (56-64) of a description entry: type tag, then the value. -/
def encDim : Dim → Except PyErr Bytes
  | .num i => do
    let t ← encInt 4 0
    let b ← encInt 4 i
    pure (t ++ b)
  | .var v => do
    let t ← encInt 4 2
    pure (t ++ encStr v)

/-- `serialize_expr` (109-114) -/
def encExpr (e : ValueExpr) : Except PyErr Bytes := do
  let a ← encF32Int e.alpha
  let b ← encF32Int e.beta
  let f ← encInt 4 (if e.factor then 1 else 0)
  let t ← encInt 4 (if e.truncmode then 1 else 0)
  pure (a ++ b ++ f ++ t)

def encName (s : String) : Except PyErr Bytes := .ok (encStr s)

/-- Lines 100-105 -/
def encDesc (p : String × List Dim) : Except PyErr Bytes := do
  let d ← encList 4 encDim p.2
  pure (encStr p.1 ++ d)

/-- Lines 116-121 -/
def encExprEntry (p : String × (String × ValueExpr)) : Except PyErr Bytes := do
  let e ← encExpr p.2.2
  pure (encStr p.1 ++ encStr p.2.1 ++ e)

/-- `serialize_shape_engine` (93-124) -/
def serializeEngine (g : Engine) : Except PyErr Bytes := do
  let a ← encList 4 encName g.variables.keys
  let b ← encList 4 encDesc g.tensorDesc
  let c ← encList 4 encExprEntry g.exprs
  pure (a ++ b ++ c)

/-- Lines 182-186 -/
def encBlock (p : String × (Int × Int)) : Except PyErr Bytes := do
  let a ← encInt 8 p.2.1
  let b ← encInt 8 p.2.2
  pure (encStr p.1 ++ a ++ b)

/-- Lines 188-190 -/
def encNamedInt (p : String × Int) : Except PyErr Bytes := do
  let a ← encInt 8 p.2
  pure (encStr p.1 ++ a)

/-- `serialize_memory_compression` (176-192): the offset map, the pool size and the maximum shapes. -/
def serializeMemory (blocks : Dict (Int × Int)) (size : Int) (maxShape : Dict Int) : Except PyErr Bytes := do
  let s ← encInt 8 size
  let a ← encList 8 encBlock blocks
  let b ← encList 8 encNamedInt maxShape
  pure (s ++ a ++ b)

/-- attribute values; a float is its 32-bit pattern -/
inductive AVal where
  | str (s : String)
  | bytes (b : Bytes)
  | int (i : Int)
  | float (bits : Nat)
  | other (id : Nat)

/-- `node.attr[key]`: a list or a single value -/
inductive Attr where
  | one (v : AVal)
  | many (vs : List AVal)

/-- `__write_data_type` (46-53); nothing is written for other types. -/
def encTag : AVal → Except PyErr Bytes
  | .str _ => encInt 4 2
  | .bytes _ => encInt 4 2
  | .int _ => encInt 4 0
  | .float _ => encInt 4 1
  | .other _ => .ok []

/-- `write_value` (145-154) -/
def encVal : AVal → Except PyErr Bytes
  | .str s => .ok (encStr s)
  | .bytes b => .ok (b ++ [0])
  | .int i => encInt 4 i
  | .float bits => .ok (leBytes 4 bits)
  | .other _ => .ok []

/-- `write_attribute` (144-162); `attrval[0]` raises for an empty list (after its length was written to the buffer). -/
def encAttr (a : Attr) : Except PyErr Bytes :=
  let vs := match a with | .one v => [v] | .many vs => vs
  match vs with
  | [] => .error .indexError
  | v :: _ => do
    let n ← encInt 4 vs.length
    let t ← encTag v
    let b ← encAll encVal vs
    pure (n ++ t ++ b)

structure SNode where
  name : String
  opType : String
  input : List String
  output : List String
  attr : List (String × Attr)

def encAttrEntry (p : String × Attr) : Except PyErr Bytes := do
  let a ← encAttr p.2
  pure (encStr p.1 ++ a)

/-- Lines 131-166 -/
def encNode (n : SNode) : Except PyErr Bytes := do
  let i ← encList 4 encName n.input
  let o ← encList 4 encName n.output
  let a ← encList 4 encAttrEntry n.attr
  pure (encStr n.name ++ encStr n.opType ++ i ++ o ++ a)

/-- numpy element types -/
inductive DType where
  | float32 | float16 | int32 | int8 | uint8 | int64 | other
  deriving DecidableEq

/-- `write_npdtype` (68-83) -/
def DType.code : DType → Except PyErr Int
  | .float32 => .ok 1
  | .float16 => .ok 3
  | .int32 => .ok 0
  | .int8 => .ok 5
  | .uint8 => .ok 6
  | .int64 => .ok 9
  | .other => .error .valueError

/-- bytes per element -/
def DType.size : DType → Nat
  | .float32 => 4 | .float16 => 2 | .int32 => 4 | .int8 => 1 | .uint8 => 1 | .int64 => 8 | .other => 8

structure NDArray where
  dtype : DType
  shape : List Nat
  data : Bytes

/-- `__write_ndarray` (67-90) -/
def encArray (a : NDArray) : Except PyErr Bytes := do
  let c ← a.dtype.code
  let t ← encInt 4 c
  let s ← encList 4 (fun d : Nat => encInt 4 (d : Int)) a.shape
  pure (t ++ s ++ a.data)

/-- Lines 168-171 -/
def encInitial (p : String × NDArray) : Except PyErr Bytes := do
  let a ← encArray p.2
  pure (encStr p.1 ++ a)

/-- `serialize_graph` (127-173): nodes in `nodemap` order, initializers in `initials` order. -/
def serializeGraph (nodes : List SNode) (initials : List (String × NDArray)) : Except PyErr Bytes := do
  let a ← encList 4 encNode nodes
  let b ← encList 4 encInitial initials
  pure (a ++ b)

end OnnxTool.Serial
