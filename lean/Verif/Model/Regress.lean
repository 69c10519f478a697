import Verif.Model.Graph
import Verif.Model.ShapeEngine
/-!
# Shape regression

Models `Graph.shape_regress` (`/repo/onnx_tool/graph.py` 1082-1181).

What `self.shape_infer(inputs)` leaves in the dynamic tensors is a parameter: `infer` maps the shapes of the described inputs to the shapes of all dynamic tensors, or raises.
(So a call depends on its inputs only, not on earlier calls; for the loop of `shape_infer` itself see C75.)  `self.dynamics` has no repetitions.  Simplified: the warnings,
and `str.isnumeric` is modelled for ASCII digits.
-/
namespace OnnxTool.Regress
open OnnxTool OnnxTool.Engine

/-- shapes of the dynamic tensors -/
abbrev Shapes := String → List Int

/-- `input_range` (1082): variable, smallest and largest value -/
abbrev Range := List (String × Int × Int)

/-- `ele.isnumeric()` (1148) -/
def isNumeric (s : String) : Bool := s != "" && s.toList.all Char.isDigit

/-- `int(ele)` (1149) of a numeric string -/
def numVal (s : String) : Nat := s.toList.foldl (fun n c => 10 * n + (c.toNat - '0'.toNat)) 0

/-- `ShapeEngine(input_desc)` (108-115) -/
def newEngine (inputDesc : Dict (List Dim)) : Engine := inputDesc.foldl (fun e d => e.addTensorDesc d.1 d.2) {}

/-- `generate_input` (155-160): the shapes of the described inputs -/
def generateInput (e : Engine) : Dict (List Dim) → Except PyErr (List (String × List Int))
  | [] => .ok []
  | (t, _) :: ds =>
    match e.getTensorShape t with
    | .error x => .error x
    | .ok s =>
      match generateInput e ds with
      | .error x => .error x
      | .ok r => .ok ((t, s) :: r)

/-- `tmp_input = shapeengine.generate_input(); self.shape_infer(tmp_input)` (e.g. 1086-1088) -/
def probe (infer : List (String × List Int) → Except PyErr Shapes) (inputDesc : Dict (List Dim)) (e : Engine) : Except PyErr Shapes :=
  match generateInput e inputDesc with
  | .error x => .error x
  | .ok i => infer i

/-- lines 1099-1106: a number where smallest and largest shape agree, a placeholder elsewhere -/
def firstDesc (mn mx : List Int) : List Dim := List.zipWith (fun i a => if i = a then Dim.num i else Dim.var "") mn mx

/-- lines 1096-1107 -/
def addDescs (inputDesc : Dict (List Dim)) (mn mx : Shapes) : List String → Engine → Engine
  | [], e => e
  | t :: ts, e => addDescs inputDesc mn mx ts (if inputDesc.has t then e else e.addTensorDesc t (firstDesc (mn t) (mx t)))

/-- what changes while one variable is examined: the engine, `dstranges`, `tensor_range_map` -/
structure St where
  engine : Engine
  dst : List (List Int)
  rmap : Dict (List Int) := []

/-- `range_in_rangelist` (1128-1137) -/
def rangeIn (r : List Int) (rs : List (List Int)) : Option Nat := rs.findIdx? fun r' => (List.zip r r').all fun p => p.1 = p.2

/-- lines 1145-1150: variables among the dimensions of the producer's inputs that were introduced for the current variable -/
def sources (e : Engine) (vcount : Nat) (inputs : List String) : List String :=
  inputs.flatMap fun t =>
    match e.tensorDesc.get? t with
    | none => []
    | some d => d.filterMap fun x =>
      match x with
      | .num _ => none
      | .var v => if isNumeric v = true ∧ vcount ≤ numVal v then some v else none

/-- `update_tensor_desc` (132-135) -/
def updateDesc (e : Engine) (t : String) (i : Nat) (v : String) : Except PyErr Engine :=
  match e.tensorDesc.get? t with
  | none => .error .keyError
  | some d =>
    match d[i]? with
    | none => .error .indexError
    | some (.num _) => .error .assertion
    | some (.var _) => .ok (e.addTensorDesc t (d.set i (.var v)))

/-- lines 1153-1162: source variable and expression -/
def chooseExpr (key : String) (s : St) (srcs : List String) (r : List Int) : Except PyErr (String × ValueExpr) :=
  match srcs with
  | [] =>
    match s.dst with
    | [] => .error .indexError
    | d0 :: _ =>
      match buildExpr d0 r with
      | .error x => .error x
      | .ok e => .ok (key, e)
  | k :: _ =>
    match s.rmap.get? k with
    | none => .error .keyError
    | some r0 =>
      match buildExpr r0 r with
      | .error x => .error x
      | .ok e => .ok (k, e)

/-- lines 1143-1168: a dimension with a new range of values gets a new variable, computed from a variable of the producer's inputs or from `key` -/
def newDim (g : Graph) (key : String) (vcount : Nat) (t : String) (i : Nat) (r : List Int) (s : St) : Except PyErr St :=
  match g.producedby.get? t with
  | none => .error .keyError
  | some [] => .error .indexError
  | some (p :: _) =>
    match findNode g.nodemap p with
    | none => .error .keyError
    | some n =>
      match chooseExpr key s (sources s.engine vcount n.input) r with
      | .error x => .error x
      | .ok (src, ex) =>
        let name := toString (vcount + s.dst.length)
        match updateDesc (s.engine.addExpr name src ex) t i name with
        | .error x => .error x
        | .ok e => .ok { engine := e, dst := s.dst ++ [r], rmap := s.rmap.set name r }

/-- lines 1139-1175 for one dimension; `r` are its values at the smallest, middle and largest value of the variable -/
def dimStep (g : Graph) (key : String) (vcount : Nat) (t : String) (i : Nat) (r : List Int) (s : St) : Except PyErr St :=
  match rangeIn r s.dst with
  | none => newDim g key vcount t i r s
  | some idx =>
    match updateDesc s.engine t i (if idx = 0 then key else toString (vcount + idx)) with
    | .error x => .error x
    | .ok e => .ok { s with engine := e }

/-- lines 1142-1176: the dimensions of one tensor, from number `i` on; unchanged ones are skipped -/
def dimLoop (g : Graph) (key : String) (vcount : Nat) (t : String) (a b c : List Int) : Nat → List Int → St → Except PyErr St
  | _, [], s => .ok s
  | i, x :: rest, s =>
    match b[i]?, c[i]? with
    | some y, some z =>
      if x ≠ y ∨ x ≠ z then
        match dimStep g key vcount t i [x, y, z] s with
        | .error e => .error e
        | .ok s' => dimLoop g key vcount t a b c (i + 1) rest s'
      else dimLoop g key vcount t a b c (i + 1) rest s
    | _, _ => .error .indexError

/-- lines 1138-1176: all tensors -/
def tensorLoop (g : Graph) (inputDesc : Dict (List Dim)) (key : String) (vcount : Nat) (a b c : Shapes) : List String → St → Except PyErr St
  | [], s => .ok s
  | t :: ts, s =>
    if inputDesc.has t then tensorLoop g inputDesc key vcount a b c ts s
    else
      match dimLoop g key vcount t (a t) (b t) (c t) 0 (a t) s with
      | .error e => .error e
      | .ok s' => tensorLoop g inputDesc key vcount a b c ts s'

/-- lines 1109-1177: one variable; returns the engine and the number of variables introduced so far -/
def varStep (g : Graph) (infer : List (String × List Int) → Except PyErr Shapes) (inputDesc : Dict (List Dim)) (mn : Shapes) (key : String) (lo hi : Int)
    (st : Engine × Nat) : Except PyErr (Engine × Nat) :=
  let mid := Int.fdiv (lo + hi) 2
  match probe infer inputDesc (st.1.updateVariable key mid) with
  | .error x => .error x
  | .ok b =>
    match probe infer inputDesc ((st.1.updateVariable key mid).updateVariable key hi) with
    | .error x => .error x
    | .ok c =>
      match tensorLoop g inputDesc key st.2 mn b c g.dynamics
          { engine := ((st.1.updateVariable key mid).updateVariable key hi).updateVariable key lo, dst := [[lo, mid, hi]] } with
      | .error x => .error x
      | .ok s => .ok (s.engine, st.2 + s.dst.length)

/-- lines 1109-1177 -/
def varLoop (g : Graph) (infer : List (String × List Int) → Except PyErr Shapes) (inputDesc : Dict (List Dim)) (mn : Shapes) :
    Range → Engine × Nat → Except PyErr (Engine × Nat)
  | [], st => .ok st
  | (k, lo, hi) :: ks, st =>
    match varStep g infer inputDesc mn k lo hi st with
    | .error x => .error x
    | .ok st' => varLoop g infer inputDesc mn ks st'

/-- `shape_regress(input_desc, input_range)` (1082-1178) -/
def shapeRegress (g : Graph) (infer : List (String × List Int) → Except PyErr Shapes) (inputDesc : Dict (List Dim)) (ranges : Range) : Except PyErr Engine :=
  let e1 := ranges.foldl (fun e r => e.updateVariable r.1 r.2.2) (newEngine inputDesc)
  match probe infer inputDesc e1 with
  | .error x => .error x
  | .ok mx =>
    let e2 := ranges.foldl (fun e r => e.updateVariable r.1 r.2.1) e1
    match probe infer inputDesc e2 with
    | .error x => .error x
    | .ok mn =>
      match varLoop g infer inputDesc mn ranges (addDescs inputDesc mn mx g.dynamics e2, 0) with
      | .error x => .error x
      | .ok st => .ok st.1

/-! ### Using the result -/

/-- `update_variable(k, v)` for several variables, then `update_variables()`, then `get_tensorshape(t)` (e.g. `/repo/benchmark/shape_regress.py` 20-30) -/
def predict (e : Engine) (vals : List (String × Int)) (t : String) : Except PyErr (List Int) :=
  match (vals.foldl (fun e v => e.updateVariable v.1 v.2) e).updateVariables with
  | .error x => .error x
  | .ok e' => e'.getTensorShape t

end OnnxTool.Regress
