import Verif.Model.Py
/-!
# The operator registry

Models `class Registry` of `/repo/onnx_tool/utils.py` (103-152) and `create_node` of `/repo/onnx_tool/node.py` (3375-3382).

Simplifications: an object is its `__name__` and an opaque value of type `α` (the class); warnings are recorded as a flag.
-/
namespace OnnxTool.Registry
open OnnxTool

variable {α : Type}

/-- a class or function with its `__name__` -/
structure Obj (α : Type) where
  name : String
  val : α
  deriving DecidableEq, Repr

/-- `_obj_map` (`utils.py` 110) -/
structure Reg (α : Type) where
  objs : Dict (Obj α) := []

/-- `__setitem__` (`utils.py` 112-119): warns when the name exists, then overwrites.  Second component: warned? -/
def Reg.setItem (r : Reg α) (name : String) (o : Obj α) : Reg α × Bool := (⟨r.objs.set name o⟩, r.objs.has name)

/-- `register`, both as decorator and as call (`utils.py` 121-139) -/
def Reg.register (r : Reg α) (o : Obj α) : Reg α := (r.setItem o.name o).1

/-- `get` (`utils.py` 141-145): `None` when missing -/
def Reg.get (r : Reg α) (name : String) : Option (Obj α) := r.objs.get? name

/-- `__getitem__` (`utils.py` 147-150) -/
def Reg.getItem (r : Reg α) (name : String) : Except PyErr (Obj α) :=
  match r.objs.has name with
  | false => .error .keyError
  | true => match r.objs.get? name with
    | some o => .ok o
    | none => .error .keyError

/-- `__contains__` (`utils.py` 152-153) -/
def Reg.contains (r : Reg α) (name : String) : Bool := r.objs.has name

/-- `__iter__` (`utils.py` 155-156): `(name, object)` pairs -/
def Reg.items (r : Reg α) : List (String × Obj α) := r.objs

/-- one step of a registry's history -/
inductive Step (α : Type) where
  | register (o : Obj α)
  | setItem (name : String) (o : Obj α)

/-- a registry after a history -/
def run : List (Step α) → Reg α → Reg α
  | [], r => r
  | .register o :: h, r => run h (r.register o)
  | .setItem n o :: h, r => run h (r.setItem n o).1

/-- `create_node` (`node.py` 3375-3382): the class used for a node of operator `op`, the base class `base` when nothing is registered -/
def createNode (r : Reg α) (base : α) (op : String) : α :=
  match r.get (op ++ "Node") with
  | some o => o.val
  | none => base

end OnnxTool.Registry
