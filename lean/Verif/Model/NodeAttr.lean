import Verif.Model.Py
/-!
# Attributes of nodes, and the header of a model file

Models `get_attribute_data` (`/repo/onnx_tool/tensor.py` 124-142), `Node.__init__`, `set_attr`, `add_default_value`, `make_nodeproto`
(`/repo/onnx_tool/node.py` 172-208), the copying of attributes in `Graph.fuse_subgraph_node_names` (`/repo/onnx_tool/graph.py` 743-754) and the header written by
`Graph.save_model` (841-857) and `Model.save_model` (`/repo/onnx_tool/model.py` 28-29).

Of the `onnx` package: `helper.get_attribute_value`, `helper.make_attribute`, `helper.make_node` and `helper.make_model`, as documented (a list of no elements has no
type and is refused; `None` is skipped by `make_node`, refused by `make_attribute`; the parameters of `make_node` take keyword arguments of their name; the value of `overload` is dropped here).

Simplified: an attribute called like a field the constructor sets itself (`input`, `output`, `attr`, `proto`, `nextnodes`, `prevnodes`, `shape_calc`, `static_inputs`,
`dynamic_inputs`) is kept apart from that field; references to function attributes (`ref_attr_name`) are left out.  `F`: floating-point numbers; `M`: messages (tensors,
graphs, …); `A`: numpy arrays.
-/
namespace OnnxTool.NodeAttr
open OnnxTool

/-- the message types an attribute can hold -/
inductive MsgKind where
  | tensor | graph | sparse | type
  deriving DecidableEq

/-- a single Python value -/
inductive Scalar (F M : Type) where
  | int (i : Int)
  | float (f : F)
  | bytes (b : List UInt8)
  | text (s : String)
  | msg (k : MsgKind) (m : M)
  deriving DecidableEq

/-- a Python value of an attribute -/
inductive PyVal (F M : Type) where
  | none
  | one (s : Scalar F M)
  | many (l : List (Scalar F M))
  deriving DecidableEq

/-- `AttributeProto`: the type and the value -/
inductive AVal (F M : Type) where
  | undefined
  | int (i : Int)
  | float (f : F)
  | string (b : List UInt8)
  | msg (k : MsgKind) (m : M)
  | ints (l : List Int)
  | floats (l : List F)
  | strings (l : List (List UInt8))
  | msgs (k : MsgKind) (l : List M)
  deriving DecidableEq

variable {F M A : Type}

/-- `onnx.helper.get_attribute_value` -/
def getAttributeValue : AVal F M → PyVal F M
  | .undefined => .none
  | .int i => .one (.int i)
  | .float f => .one (.float f)
  | .string b => .one (.bytes b)
  | .msg k m => .one (.msg k m)
  | .ints l => .many (l.map .int)
  | .floats l => .many (l.map .float)
  | .strings l => .many (l.map .bytes)
  | .msgs k l => .many (l.map (.msg k))

def asInt : Scalar F M → Option Int
  | .int i => some i
  | _ => none

/-- integers count as real numbers -/
def asFloat (ofInt : Int → F) : Scalar F M → Option F
  | .int i => some (ofInt i)
  | .float f => some f
  | _ => none

def asBytes : Scalar F M → Option (List UInt8)
  | .bytes b => some b
  | .text s => some s.toUTF8.data.toList
  | _ => none

def asMsg (k : MsgKind) : Scalar F M → Option M
  | .msg k' m => if k' = k then some m else none
  | _ => none

/-- the element types are tried in this order -/
def makeList (ofInt : Int → F) (l : List (Scalar F M)) : Except PyErr (AVal F M) :=
  if l.length = 0 then .error .valueError
  else match l.mapM asInt with
    | some r => .ok (.ints r)
    | none => match l.mapM (asFloat ofInt) with
      | some r => .ok (.floats r)
      | none => match l.mapM asBytes with
        | some r => .ok (.strings r)
        | none => match l.mapM (asMsg .tensor) with
          | some r => .ok (.msgs .tensor r)
          | none => match l.mapM (asMsg .sparse) with
            | some r => .ok (.msgs .sparse r)
            | none => match l.mapM (asMsg .graph) with
              | some r => .ok (.msgs .graph r)
              | none => match l.mapM (asMsg .type) with
                | some r => .ok (.msgs .type r)
                | none => .error .valueError

/-- `onnx.helper.make_attribute(key, value)` -/
def makeAttribute (ofInt : Int → F) : PyVal F M → Except PyErr (AVal F M)
  | .none => .error .typeError
  | .one (.int i) => .ok (.int i)
  | .one (.float f) => .ok (.float f)
  | .one (.bytes b) => .ok (.string b)
  | .one (.text s) => .ok (.string s.toUTF8.data.toList)
  | .one (.msg k m) => .ok (.msg k m)
  | .many l => makeList ofInt l

/-- what `get_attribute_data` returns: a Python value or an array -/
inductive Data (F M A : Type) where
  | val (v : PyVal F M)
  | array (a : A)

/-- `get_attribute_data(att)` (124-142), `toArray` being `tensorproto2ndarray` -/
def getAttributeData (toArray : M → Except PyErr A) : AVal F M → Except PyErr (Data F M A)
  | .ints l => .ok (.val (.many (l.map .int)))
  | .int i => .ok (.val (.one (.int i)))
  | .float f => .ok (.val (.one (.float f)))
  | .string b => .ok (.val (.one (.bytes b)))
  | .floats l => .ok (.val (.many (l.map .float)))
  | .msg .tensor m => match toArray m with
    | .error e => .error e
    | .ok a => .ok (.array a)
  | _ => .ok (.val .none)

/-- a node of a file -/
structure NodeProto (F M : Type) where
  opType : String
  input : List String
  output : List String
  name : String
  domain : String
  docString : String
  attrs : List (String × AVal F M)

/-- an object of class `Node`: its fields that are written, `attr`, and the fields made from attributes -/
structure Obj (F M A : Type) where
  opType : String
  input : List String
  output : List String
  name : String
  attr : Dict (PyVal F M)
  fields : Dict (Data F M A)
  /-- `proto.attribute` -/
  proto : List (String × AVal F M)

/-- the loop over the attributes (191-196) -/
def readAttrs (toArray : M → Except PyErr A) : List (String × AVal F M) → Obj F M A → Except PyErr (Obj F M A)
  | [], o => .ok o
  | (k, v) :: as, o =>
    match getAttributeData toArray v with
    | .error e => .error e
    | .ok d => readAttrs toArray as { o with attr := o.attr.set k (getAttributeValue v), fields := o.fields.set k d }

/-- `Node.__init__` (172-196) for a node of a file, then its inputs and outputs (`graph.py` 421-434); a nameless node is named by its operator and its number
(`graph.py` 418-419) -/
def ofProto (toArray : M → Except PyErr A) (number : Nat) (n : NodeProto F M) : Except PyErr (Obj F M A) :=
  readAttrs toArray n.attrs
    { opType := n.opType, input := n.input, output := n.output,
      name := if n.name.length = 0 then n.opType ++ "_" ++ toString number else n.name,
      attr := [], fields := [], proto := n.attrs }

/-- `set_attr(key, val)` (198-200) -/
def setAttr (o : Obj F M A) (k : String) (v : PyVal F M) : Obj F M A :=
  { o with attr := o.attr.set k v, fields := o.fields.set k (.val v) }

/-- `add_default_value(attname, defaultvalue)` (202-204), for a name that is no field or method of the class -/
def addDefault (o : Obj F M A) (k : String) (v : Data F M A) : Obj F M A :=
  if o.fields.has k then o else { o with fields := o.fields.set k v }

/-- insertion by name, for `sorted(kwargs.items())` -/
def insertByName {α : Type} (p : String × α) : List (String × α) → List (String × α)
  | [] => [p]
  | q :: l => if p.1 ≤ q.1 then p :: q :: l else q :: insertByName p l

/-- `make_attribute(key, value) for key, value in … if value is not None` -/
def writeAttrs (ofInt : Int → F) : List (String × PyVal F M) → Except PyErr (List (String × AVal F M))
  | [] => .ok []
  | (k, v) :: l =>
    match v with
    | .none => writeAttrs ofInt l
    | v => match makeAttribute ofInt v with
      | .error e => .error e
      | .ok a => match writeAttrs ofInt l with
        | .error e => .error e
        | .ok r => .ok ((k, a) :: r)

/-- the parameters of `make_node` that `make_nodeproto` passes itself: a keyword argument of that name is a `TypeError` -/
def passed : List String := ["op_type", "inputs", "outputs", "name"]

/-- the other parameters of `make_node` -/
def others : List String := ["doc_string", "domain", "overload"]

/-- a keyword argument for a text field of the node: a text, or bytes that are text; anything else but `None` is a `TypeError` -/
def textArg (d : Dict (PyVal F M)) (k : String) : Except PyErr String :=
  match d.get? k with
  | none => .ok ""
  | some .none => .ok ""
  | some (.one (.text s)) => .ok s
  | some (.one (.bytes b)) => match String.fromUTF8? ⟨b.toArray⟩ with
    | some s => .ok s
    | none => .error .valueError
  | some _ => .error .typeError

/-- `make_nodeproto` (206-207) -/
def makeNodeproto (ofInt : Int → F) (o : Obj F M A) : Except PyErr (NodeProto F M) :=
  if passed.any o.attr.has then .error .typeError
  else match textArg o.attr "domain", textArg o.attr "doc_string" with
    | .ok dom, .ok doc =>
      match writeAttrs ofInt ((o.attr.filter fun p => !others.contains p.1).foldr insertByName []) with
      | .error e => .error e
      | .ok as => .ok { opType := o.opType, input := o.input, output := o.output, name := o.name, domain := dom, docString := doc, attrs := as }
    | .error e, _ => .error e
    | _, .error e => .error e

/-- `make_attribute(name, get_attribute_data(attribute))`.  `arrayValue`: what `make_attribute` sees of an array: its rows, if it has any (iterating over a 0-dimensional
array is a `TypeError`). -/
def remake (ofInt : Int → F) (arrayValue : A → Except PyErr (List (Scalar F M))) : Data F M A → Except PyErr (AVal F M)
  | .val v => makeAttribute ofInt v
  | .array a => match arrayValue a with
    | .error e => .error e
    | .ok l => makeList ofInt l

/-- lines 749-753 of `graph.py`: the attributes of one node copied under new names -/
def copyAttrs (ofInt : Int → F) (toArray : M → Except PyErr A) (arrayValue : A → Except PyErr (List (Scalar F M))) (pre : String) :
    List (String × AVal F M) → Except PyErr (List (String × AVal F M))
  | [] => .ok []
  | (k, v) :: as =>
    match getAttributeData toArray v with
    | .error e => .error e
    | .ok d =>
      match remake ofInt arrayValue d with
      | .error e => .error e
      | .ok w => match copyAttrs ofInt toArray arrayValue pre as with
        | .error e => .error e
        | .ok r => .ok ((pre ++ k, w) :: r)

/-- lines 746-754 of `graph.py`: the attributes of the fused node; each node is given by the operator and the attributes of its `proto` -/
def fusedAttrs (ofInt : Int → F) (toArray : M → Except PyErr A) (arrayValue : A → Except PyErr (List (Scalar F M))) :
    Nat → List (Obj F M A) → Except PyErr (List (String × AVal F M))
  | _, [] => .ok []
  | count, o :: os =>
    match copyAttrs ofInt toArray arrayValue (o.opType ++ toString count ++ "_") o.proto with
    | .error e => .error e
    | .ok r => match fusedAttrs ofInt toArray arrayValue (count + 1) os with
      | .error e => .error e
      | .ok rs => .ok (r ++ rs)

/-- the parts of a model file besides its graph -/
structure Header where
  irVersion : Nat
  opsets : List (String × Nat)
  functions : List String
  metadata : List (String × String)
  deriving DecidableEq

/-- `onnx.helper.make_model(graph, …)`: the newest versions the package knows -/
def newModel (ir opset : Nat) : Header := { irVersion := ir, opsets := [("", opset)], functions := [], metadata := [] }

/-- the header written by `Graph.save_model` (847-856) -/
def savedHeader (ir opset : Nat) (raw : Option Header) : Header :=
  let m := newModel ir opset
  match raw with
  | none => m
  | some r => { m with irVersion := r.irVersion, opsets := m.opsets.dropLast ++ r.opsets }

end OnnxTool.NodeAttr
