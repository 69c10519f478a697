/-!
# Python values used by the model

`Dict` is a Python `dict` with string keys: an association list in insertion order.
`PyErr` are the exceptions the modelled code can raise (exceptions are values here).
-/
namespace OnnxTool

/-- Python exceptions raised by the modelled code. -/
inductive PyErr where
  | keyError | valueError | indexError | zeroDivision | assertion | typeError | attributeError
  | overflow | notImplemented | recursion | runtimeError
  deriving DecidableEq, Repr

/-- Python `dict` with `str` keys, insertion ordered. -/
abbrev Dict (α : Type) := List (String × α)

namespace Dict
variable {α : Type}

/-- `d.get(k)` / `d[k]` (`none` = missing key). -/
def get? : Dict α → String → Option α
  | [], _ => none
  | (k, v) :: d, q => if k = q then some v else get? d q

/-- `k in d` -/
def has (d : Dict α) (q : String) : Bool := (d.get? q).isSome

/-- `d[k] = v`: overwrite in place, or append a new key at the end. -/
def set : Dict α → String → α → Dict α
  | [], q, v => [(q, v)]
  | (k, w) :: d, q, v => if k = q then (k, v) :: d else (k, w) :: set d q v

/-- `d.pop(k)` / `del d[k]` (no-op when missing; the code always checks first). -/
def pop : Dict α → String → Dict α
  | [], _ => []
  | (k, v) :: d, q => if k = q then d else (k, v) :: pop d q

/-- `d.keys()` in insertion order -/
def keys (d : Dict α) : List String := d.map (·.1)

/-- `if k not in d: d[k] = []` followed by `d[k].append(x)` -/
def appendAt (d : Dict (List String)) (k x : String) : Dict (List String) :=
  d.set k ((d.get? k).getD [] ++ [x])

end Dict
end OnnxTool
