import Verif.Model.Serial
/-!
# Initializers and tensor protos

Models `onnxdtype2npdtype` (`/repo/onnx_tool/tensor.py` 37-59), `npdtype2onnxdtype` (66-90), `tensorproto2ndarray` (93-121) and
`Tensor.make_tensor_proto` (489-504).

An element is its bit pattern, a natural number below `256 ^ itemsize`.  Simplifications: `numpy.bytes_` (STRING) arrays and external
data are not modelled; `onnx.helper.make_tensor` stores the values it is given in the typed field ONNX prescribes for the type
(`float_data`, `double_data`, `int64_data`, and `int32_data` for all smaller types, float16 as its 16-bit pattern); converting a float
to a Python float and back (`.item()`) keeps the pattern; `numpy.frombuffer` of no bytes is an empty array.
-/
namespace OnnxTool.TProto
open OnnxTool OnnxTool.Serial

/-- numpy element types with a case in the maps -/
inductive NpType where
  | float32 | float64 | float16 | int32 | int16 | int64 | int8 | uint8 | uint16 | bool
  deriving DecidableEq

def NpType.size : NpType → Nat
  | .float32 => 4 | .float64 => 8 | .float16 => 2 | .int32 => 4 | .int16 => 2 | .int64 => 8 | .int8 => 1 | .uint8 => 1
  | .uint16 => 2 | .bool => 1

/-- `npdtype2onnxdtype` (66-90); the numbers are those of `onnx.TensorProto.DataType`. -/
def npToOnnx : NpType → Nat
  | .float32 => 1
  | .float64 => 11
  | .float16 => 10
  | .int32 => 6
  | .int16 => 5
  | .int64 => 7
  | .int8 => 3
  | .uint8 => 2
  | .uint16 => 4
  | .bool => 9

/-- `onnxdtype2npdtype` (37-59); `none` = `None`. -/
def onnxToNp : Nat → Option NpType
  | 1 => some .float32
  | 11 => some .float64
  | 10 => some .float16
  | 6 => some .int32
  | 5 => some .int16
  | 7 => some .int64
  | 3 => some .int8
  | 2 => some .uint8
  | 4 => some .uint16
  | 9 => some .bool
  | _ => none

structure Arr where
  dtype : NpType
  shape : List Nat
  elems : List Nat
  deriving DecidableEq

structure Proto where
  dataType : Nat
  dims : List Nat
  raw : Bytes := []
  floatData : List Nat := []
  doubleData : List Nat := []
  int32Data : List Int := []
  int64Data : List Int := []

/-- number of elements (`numpy`: 1 for the empty shape) -/
def count (shape : List Nat) : Nat := shape.foldr (· * ·) 1

/-- two's-complement reading of a bit pattern of `n` bytes -/
def toSigned (n v : Nat) : Int := if v < 2 ^ (8 * n - 1) then (v : Int) else (v : Int) - (256 ^ n : Nat)

/-- bit pattern of an integer in `n` bytes -/
def ofSigned (n : Nat) (i : Int) : Nat := (i % (256 ^ n : Nat)).toNat

/-- integer value of an element of a small integer type -/
def intVal : NpType → Nat → Int
  | .int8, v => toSigned 1 v
  | .int16, v => toSigned 2 v
  | .int32, v => toSigned 4 v
  | .int64, v => toSigned 8 v
  | _, v => v

/-- `onnx.helper.make_tensor(name, dt, dims, vals)` with `raw=False` -/
def makeTyped (t : NpType) (dims vals : List Nat) : Proto :=
  let p : Proto := { dataType := npToOnnx t, dims := dims }
  match t with
  | .float32 => { p with floatData := vals }
  | .float64 => { p with doubleData := vals }
  | .int64 => { p with int64Data := vals.map (intVal .int64) }
  | t => { p with int32Data := vals.map (intVal t) }

/-- `make_tensor_proto` (489-504): a 0-dimensional array goes to the typed field; otherwise float32 and int32 do and the rest is raw. -/
def makeProto (a : Arr) : Proto :=
  if a.shape = [] then makeTyped a.dtype [] a.elems
  else if a.dtype = .float32 ∨ a.dtype = .int32 then makeTyped a.dtype a.shape a.elems
  else { dataType := npToOnnx a.dtype, dims := a.shape, raw := a.elems.flatMap (leBytes a.dtype.size) }

/-- `k` elements of `n` bytes -/
def chunks (n : Nat) : Nat → Bytes → List Nat
  | 0, _ => []
  | k + 1, bs => leNat' (bs.take n) :: chunks n k (bs.drop n)
where
  leNat' : Bytes → Nat
    | [] => 0
    | b :: bs => b.toNat + 256 * leNat' bs

/-- `numpy.frombuffer(bs, dtype)`: `ValueError` unless the length is a multiple of the item size. -/
def frombuffer (t : NpType) (bs : Bytes) : Except PyErr (List Nat) :=
  if bs.length % t.size = 0 then .ok (chunks t.size (bs.length / t.size) bs) else .error .valueError

/-- `arr.reshape(shape)` -/
def reshape (t : NpType) (shape elems : List Nat) : Except PyErr Arr :=
  if elems.length = count shape then .ok ⟨t, shape, elems⟩ else .error .valueError

/-- `tensorproto2ndarray` (93-121); the type `None` becomes numpy's default float64 in `zeros` and `frombuffer`. -/
def readProto (p : Proto) : Except PyErr Arr :=
  let t := onnxToNp p.dataType
  let nt := t.getD .float64
  if p.raw = [] then
    match t with
    | some .float32 => reshape .float32 p.dims p.floatData
    | some .int32 => reshape .int32 p.dims (p.int32Data.map (ofSigned 4))
    | some .float16 => reshape .float16 p.dims (p.int32Data.map (ofSigned 2))
    | some .int64 => reshape .int64 p.dims (p.int64Data.map (ofSigned 8))
    | some .float64 => reshape .float64 p.dims p.doubleData
    | _ => reshape nt p.dims (List.replicate (count p.dims) 0)
  else do
    let es ← frombuffer nt p.raw
    reshape nt p.dims es

end OnnxTool.TProto
