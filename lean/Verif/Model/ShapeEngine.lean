import Verif.Model.Conv
/-!
# ValueExpr and ShapeEngine

Models `ValueExpr` (`/repo/onnx_tool/graph.py` 59-104) and `ShapeEngine` (107-160).  Dimension values are integers; Python's float
quotients are modelled as exact rationals (their rounding, ceiling and floor agree while all values are below 2^52).
-/
namespace OnnxTool.Engine
open OnnxTool OnnxTool.Conv

/-- `round(p / q)` for integers, `q ≠ 0`: nearest integer, ties to the even one (Python's `round`). -/
def roundDiv (p q : Int) : Int :=
  let p' := if q < 0 then -p else p
  let q' := if q < 0 then -q else q
  let f := p' / q'
  let r := p' % q'
  if 2 * r < q' then f else if q' < 2 * r then f + 1 else (if f % 2 = 0 then f else f + 1)

structure ValueExpr where
  alpha : Int := 1
  beta : Int := 0
  factor : Bool := false
  truncmode : Bool := false
  deriving DecidableEq, Repr

/-- `__call__` and `truncate` (91-104); `factor` true is the division form, `truncmode` true is floor. -/
def ValueExpr.call (e : ValueExpr) (x : Int) : Except PyErr Int :=
  if e.factor then
    if e.alpha = 0 then .error .zeroDivision
    else .ok (if e.truncmode then Int.fdiv x e.alpha + e.beta else ceilDiv x e.alpha + e.beta)
  else .ok (e.alpha * x + e.beta)

def callAll (e : ValueExpr) : List Int → Except PyErr (List Int)
  | [] => .ok []
  | x :: xs => do
    let y ← e.call x
    let ys ← callAll e xs
    pure (y :: ys)

/-- `build_expr` (73-89) -/
def buildExpr (src dst : List Int) : Except PyErr ValueExpr := do
  if src = [] then .error .indexError else
  let s0 ← idx src 0
  let sl ← idx src (src.length - 1)
  let d0 ← idx dst 0
  let dl ← idx dst (src.length - 1)
  let srclen := sl - s0
  let dstlen := dl - d0
  let e ← (if srclen ≤ dstlen then
      if srclen = 0 then Except.error PyErr.zeroDivision
      else
        let alpha := roundDiv dstlen srclen
        Except.ok { alpha := alpha, beta := dl - sl * alpha, factor := false }
    else
      if dstlen = 0 then Except.error PyErr.zeroDivision
      else
        let alpha := roundDiv srclen dstlen
        if alpha = 0 then Except.error PyErr.zeroDivision
        else Except.ok { alpha := alpha, beta := roundDiv (dl * alpha - sl) alpha, factor := true } : Except PyErr ValueExpr)
  let test ← callAll e src
  let diff := (List.zipWith (fun a b => a - b) test dst).sum
  pure (if diff ≠ 0 then { e with truncmode := true } else e)

/-- a dimension of a tensor description: a number or a variable name -/
inductive Dim where
  | num (n : Int)
  | var (v : String)
  deriving DecidableEq, Repr

/-- `ShapeEngine` (107-118) -/
structure Engine where
  variables : Dict Int := []
  tensorDesc : Dict (List Dim) := []
  exprs : Dict (String × ValueExpr) := []

/-- `update_variable` (117-118) -/
def Engine.updateVariable (g : Engine) (k : String) (v : Int) : Engine := { g with variables := g.variables.set k v }

/-- `add_tensor_desc` (129-130) -/
def Engine.addTensorDesc (g : Engine) (t : String) (d : List Dim) : Engine := { g with tensorDesc := g.tensorDesc.set t d }

/-- `add_expr` (142-144) -/
def Engine.addExpr (g : Engine) (v src : String) (e : ValueExpr) : Engine :=
  { g with exprs := g.exprs.set v (src, e), variables := g.variables.set v 0 }

/-- Lines 147-149: the loop of `update_variables`. -/
def updLoop : Dict (String × ValueExpr) → Dict Int → Except PyErr (Dict Int)
  | [], vs => .ok vs
  | (k, (src, e)) :: es, vs =>
    match vs.get? src with
    | none => .error .keyError
    | some x => do
      let y ← e.call x
      updLoop es (vs.set k y)

/-- `update_variables` (146-149) -/
def Engine.updateVariables (g : Engine) : Except PyErr Engine := do
  let vs ← updLoop g.exprs g.variables
  pure { g with variables := vs }

/-- Lines 123-126: the value of one dimension (`none` = unknown variable). -/
def dimVal (vs : Dict Int) : Dim → Option Int
  | .num n => some n
  | .var v => vs.get? v

/-- `__get_shape_from_desc__` (120-127) -/
def shapeFromDesc (vs : Dict Int) : List Dim → Except PyErr (List Int)
  | [] => .ok []
  | d :: ds =>
    match dimVal vs d with
    | none => .error .keyError
    | some x => do
      let r ← shapeFromDesc vs ds
      pure (x :: r)

/-- `get_tensorshape` (151-154) -/
def Engine.getTensorShape (g : Engine) (t : String) : Except PyErr (List Int) :=
  match g.tensorDesc.get? t with
  | none => .error .keyError
  | some d => shapeFromDesc g.variables d

end OnnxTool.Engine
