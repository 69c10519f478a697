import Verif.Model.TensorProto
import Verif.Model.ShapeEngine
/-!
# The `Tensor` object

Models class `Tensor` (`/repo/onnx_tool/tensor.py` 367-504) without its sparsity (see `Model/Sparsity`), `shape_of_tensor` (15-26), `same_shape` (242-248),
`volume` (145-151) and the functions `create_initial_Tensor`, `create_dynamic_Tensor`, `create_tensor` (507-533).

Arrays and tensor protos are those of `Model/TensorProto`; `dtype = none` is Python's `None` (an ONNX type without numpy counterpart), which numpy reads as float64.
Simplified: `update_tensor` gets an array of one of the ten types (not a list that it converts); string arrays are left out; a dimension fits 64 bits.
-/
namespace OnnxTool.Tensor
open OnnxTool OnnxTool.Engine OnnxTool.TProto

/-- `onnx.ValueInfoProto`: name, element type and, if there is one, the shape; a dimension with neither value nor name is `none` -/
structure ValueInfo where
  name : String
  elemType : Nat
  shape : Option (List (Option Dim))
  deriving DecidableEq

/-- attribute `proto` -/
inductive Kept where
  | nothing
  | value (v : ValueInfo)
  | tensor (name : String) (p : Proto)

/-- an object of class `Tensor` -/
structure T where
  name : String
  proto : Kept
  shape : List Dim
  numpy : Option Arr
  isStatic : Bool
  dtype : Option NpType

/-- the shape of an array as a shape of a tensor -/
def asDims (s : List Nat) : List Dim := s.map fun n : Nat => Dim.num (n : Int)

/-- `shape_of_tensor(t)` (15-26) -/
def shapeOf (v : ValueInfo) : List Dim := (v.shape.getD []).map fun d => d.getD (.num (-1))

/-- `Tensor(t)` for a string (371-377) -/
def ofName (n : String) : T :=
  { name := n, proto := .nothing, shape := [], numpy := none, isStatic := n == "", dtype := some .float32 }

/-- `Tensor(t)` for a value info (378-384) -/
def ofValueInfo (v : ValueInfo) : T :=
  { name := v.name, proto := .value v, shape := shapeOf v, numpy := none, isStatic := false, dtype := onnxToNp v.elemType }

/-- `Tensor(t)` for a tensor proto (385-392) -/
def ofTensorProto (name : String) (p : Proto) : Except PyErr T :=
  match readProto p with
  | .error e => .error e
  | .ok a => .ok { name := name, proto := .tensor name p, shape := asDims a.shape, numpy := some a, isStatic := true, dtype := some a.dtype }

/-- `make_tensor_proto` (489-504); `none` = `None` -/
def makeTensorProto (t : T) : Option Proto := t.numpy.map makeProto

/-- `make_value_proto` (475-487); `onnx.helper.make_tensor_value_info` refuses the element type `None` -/
def makeValueProto (t : T) : Except PyErr (Option ValueInfo) :=
  let code : Option Nat := match t.numpy with
    | none => t.dtype.map npToOnnx
    | some a => some (npToOnnx a.dtype)
  if t.name = "" then .ok none
  else match code with
    | none => .error .typeError
    | some c => .ok (some { name := t.name, elemType := c, shape := if t.shape = [] then none else some (t.shape.map some) })

/-- `update_tensor` (397-402) -/
def updateTensor (t : T) (a : Arr) : T := { t with numpy := some a, shape := asDims a.shape, dtype := some a.dtype }

/-- `update_proto` (404-406) -/
def updateProto (t : T) (a : Arr) : T :=
  let t := updateTensor t a
  { t with proto := match makeTensorProto t with
      | none => .nothing
      | some p => .tensor t.name p }

/-- `update_shape` (408-411) -/
def updateShape (t : T) (s : List Dim) : T := { t with shape := s }

/-- `update_dtype` (413-414) -/
def updateDtype (t : T) (d : Option NpType) : T := { t with dtype := d }

def isVar : Dim → Bool
  | .var _ => true
  | .num _ => false

def isNeg : Dim → Bool
  | .var _ => false
  | .num n => n < 0

def asNat : Dim → Nat
  | .var _ => 0
  | .num n => n.toNat

/-- `numpy.zeros(shape, dtype)`: a name is a `TypeError`, a negative number a `ValueError` -/
def zeros (shape : List Dim) (d : Option NpType) : Except PyErr Arr :=
  if shape.any isVar then .error .typeError
  else if shape.any isNeg then .error .valueError
  else .ok { dtype := d.getD .float64, shape := shape.map asNat, elems := List.replicate (count (shape.map asNat)) 0 }

/-- `same_shape(a, s)` (242-248) -/
def sameShape : List Dim → List Dim → Bool
  | [], [] => true
  | a :: as, b :: bs => if a = b then sameShape as bs else false
  | _, _ => false

/-- `get_numpy` (436-441): the array it returns and the tensor afterwards -/
def getNumpy (t : T) : Except PyErr (Arr × T) :=
  let made := match zeros t.shape t.dtype with
    | .error e => .error e
    | .ok z => .ok (z, { t with numpy := some z })
  match t.numpy with
  | some a => if sameShape (asDims a.shape) t.shape then .ok (a, t) else made
  | none => made

/-- `get_shape` (427-434) -/
def getShape (t : T) : List Dim := t.shape

/-- `numpy_dtype2bytes` (238-239) -/
def bytesOf (d : Option NpType) : Nat := (d.getD .float64).size

/-- `get_elementsize` (453-456) -/
def getElementsize (t : T) : Nat :=
  match t.numpy with
  | none => bytesOf t.dtype
  | some a => a.dtype.size

/-- a Python number or string, as they occur in `volume` -/
inductive NumOrStr where
  | num (n : Int)
  | str (s : String)
  deriving DecidableEq

/-- `s * n` -/
def repeatStr (s : String) (n : Int) : String := String.ofList (List.replicate n.toNat s.toList).flatten

/-- `val *= v` -/
def mul : NumOrStr → Dim → Except PyErr NumOrStr
  | .num a, .num b => .ok (.num (a * b))
  | .num a, .var s => .ok (.str (repeatStr s a))
  | .str s, .num b => .ok (.str (repeatStr s b))
  | .str _, .var _ => .error .typeError

/-- the loop of `volume` (149-150) -/
def volumeLoop : NumOrStr → List Dim → Except PyErr NumOrStr
  | v, [] => .ok v
  | v, d :: ds => match mul v d with
    | .error e => .error e
    | .ok w => volumeLoop w ds

/-- `volume(shape)` (145-151) -/
def volume (s : List Dim) : Except PyErr NumOrStr := volumeLoop (.num (if s.length > 0 then 1 else 0)) s

/-- `get_memsize` (458-459) -/
def getMemsize (t : T) : Except PyErr NumOrStr :=
  match volume (getShape t) with
  | .error e => .error e
  | .ok v => mul v (.num (getElementsize t))

/-- `get_scalar` (443-446): the value itself, or the first row of it; `none` = `None` -/
def getScalar (t : T) : Except PyErr (Option Arr) :=
  if t.shape = [] then .ok t.numpy
  else match t.numpy with
    | none => .error .typeError
    | some a => match a.shape with
      | [] => .error .indexError
      | 0 :: _ => .error .indexError
      | _ :: ds => .ok (some { dtype := a.dtype, shape := ds, elems := a.elems.take (count ds) })

/-- `create_initial_Tensor` (507-514) -/
def createInitial (name : String) (a : Arr) : T :=
  let t := { ofName name with isStatic := true, numpy := some a, shape := asDims a.shape }
  let t := { t with proto := match makeTensorProto t with
      | none => .nothing
      | some p => .tensor t.name p }
  { t with dtype := some a.dtype }

/-- what a value info or nothing is as attribute `proto` -/
def keep : Option ValueInfo → Kept
  | none => .nothing
  | some v => .value v

/-- `create_dynamic_Tensor` (516-523) -/
def createDynamic (name : String) (a : Arr) : Except PyErr T :=
  let t := { ofName name with isStatic := false, numpy := some a, shape := asDims a.shape, dtype := some a.dtype }
  match makeValueProto t with
  | .error e => .error e
  | .ok v => .ok { t with proto := keep v }

/-- `create_tensor` (525-533) -/
def createTensor (name : String) (isStatic : Bool) (shape : List Dim) (d : Option NpType) : Except PyErr T :=
  let t := { ofName name with isStatic := isStatic, numpy := none, shape := shape }
  match makeValueProto t with
  | .error e => .error e
  | .ok v => .ok { { t with proto := keep v } with dtype := d }

/-- a call that can change a tensor -/
inductive Call where
  | updateTensor (a : Arr)
  | updateProto (a : Arr)
  | updateShape (s : List Dim)
  | updateDtype (d : Option NpType)
  | getNumpy

/-- the tensor after a call; `get_numpy` leaves it as it is when it raises -/
def step (t : T) : Call → T
  | .updateTensor a => updateTensor t a
  | .updateProto a => updateProto t a
  | .updateShape s => updateShape t s
  | .updateDtype d => updateDtype t d
  | .getNumpy => match getNumpy t with
    | .error _ => t
    | .ok r => r.2

/-- the tensor after a sequence of calls -/
def run (t : T) (cs : List Call) : T := cs.foldl step t

end OnnxTool.Tensor
