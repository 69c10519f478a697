import Verif.Model.Graph
/-!
# Pattern search

Models `/repo/onnx_tool/fusion.py`: `AttrExpr` (220-249), `NodeCondition` (252-272), `FusionPattern.search_node` (314-438) and
`FusionPattern.search_pattern` (440-459).

Simplifications: attributes are integers or lists of integers (`hasattr` is membership in the attribute table `attrs node name`); a port
index is `none` for -1 and a natural number otherwise (other negative indices do not occur); the recursion carries fuel, and running out of
it is `PyErr.recursion` (C38_terminates shows that this never happens).
-/
namespace OnnxTool.Pattern
open OnnxTool

/-- an attribute value -/
inductive AttrV where
  | num (v : Int)
  | nums (vs : List Int)
  deriving DecidableEq, Repr

/-- comparison operators of `AttrExpr.logical` (239-249); `other` makes it return `None`, and `flag &= None` raises `TypeError` -/
inductive Cmp where
  | le | lt | ge | gt | eq | other
  deriving DecidableEq, Repr

/-- `AttrExpr` (220-229) -/
structure AttrExpr where
  attr : String
  cmp : Cmp
  idx : Option Nat
  num : Int
  deriving DecidableEq, Repr

def Cmp.eval (c : Cmp) (a b : Int) : Except PyErr Bool :=
  match c with
  | .le => .ok (a ≤ b) | .lt => .ok (a < b) | .ge => .ok (b ≤ a) | .gt => .ok (b < a) | .eq => .ok (a = b)
  | .other => .error .typeError

/-- comparing a whole list with a number: `==` is false, the orderings raise -/
def Cmp.evalList (c : Cmp) : Except PyErr Bool := match c with | .eq => .ok false | _ => .error .typeError

/-- `AttrExpr.__call__` (231-237) -/
def AttrExpr.call (e : AttrExpr) (attrs : Dict AttrV) : Except PyErr Bool :=
  match attrs.get? e.attr with
  | none => .ok false
  | some (.num v) => match e.idx with
    | none => e.cmp.eval v e.num
    | some _ => .error .typeError
  | some (.nums vs) => match e.idx with
    | none => e.cmp.evalList
    | some i => match vs[i]? with
      | none => .error .indexError
      | some v => e.cmp.eval v e.num

/-- the `op` entry: a name, a list of names, or `'Any'` -/
inductive OpCond where
  | one (op : String)
  | many (ops : List String)
  deriving DecidableEq, Repr

/-- a port `[own index, other position, other index]` -/
structure Port where
  own : Option Nat
  pos : String
  other : Option Nat
  deriving DecidableEq, Repr

/-- `NodeCondition` (252-260) -/
structure Desc where
  name : String
  op : OpCond
  attrs : List AttrExpr := []
  inport : List Port := []
  outport : List Port := []
  deriving DecidableEq, Repr

/-- the attribute conditions, all of them evaluated (270-271) -/
def attrsHold (as : Dict AttrV) : List AttrExpr → Except PyErr Bool
  | [] => .ok true
  | e :: es => match e.call as with
    | .error x => .error x
    | .ok b => match attrsHold as es with
      | .error x => .error x
      | .ok c => .ok (b && c)

/-- `NodeCondition.is_node` (262-272) -/
def Desc.isNode (d : Desc) (attrs : String → Dict AttrV) (n : Node) : Except PyErr Bool :=
  let f := match d.op with
    | .many ops => ops.contains n.op
    | .one op => op == "Any" || n.op == op
  match attrsHold (attrs n.name) d.attrs with
  | .error x => .error x
  | .ok b => .ok (f && b)

/-- a pattern: its positions in order, and whether consumers are to be appended in place (305-312) -/
structure Pat where
  descs : List Desc
  inplace : Bool := false

def Pat.desc? (p : Pat) (name : String) : Option Desc := p.descs.find? fun d => d.name = name

/-- position / node pairs -/
abbrev Path := List (String × String)

/-- the result of `search_node`: the path or `None`, and the list `searched` -/
abbrev Res := Except PyErr (Option Path × List String)

/-- a recursive call: position, node, `searched` -/
abbrev Rec := String → String → List String → Res

/-- loop state: flag, collected paths, `searched` -/
structure St where
  valid : Bool
  paths : List Path
  searched : List String

/-- the graph and attribute tables a search reads -/
structure Ctx where
  g : Graph
  attrs : String → Dict AttrV

/-- `prev_outidx == -1 or nodeobject.output.index(tname) == prev_outidx`; `index` raises `ValueError` when absent -/
def portOk (want : Option Nat) (names : List String) (t : String) : Except PyErr Bool :=
  match want with
  | none => .ok true
  | some i => if names.contains t then .ok (names.idxOf t == i) else .error .valueError

/-- the loop over the producers of a tensor (337-352, 356-370) -/
def tryProducers (c : Ctx) (rec : Rec) (next : Desc) (want : Option Nat) (t : String) : List String → St → Except PyErr St
  | [], st => .ok st
  | n :: ns, st =>
    match findNode c.g.nodemap n with
    | none => .error .keyError
    | some nd =>
      match portOk want nd.output t with
      | .error e => .error e
      | .ok false => tryProducers c rec next want t ns { st with valid := false }
      | .ok true =>
        match next.isNode c.attrs nd with
        | .error e => .error e
        | .ok false => tryProducers c rec next want t ns { st with valid := false }
        | .ok true =>
          if st.searched.contains n then tryProducers c rec next want t ns { st with valid := true }
          else
            match rec next.name n st.searched with
            | .error e => .error e
            | .ok (some p, s) => .ok ⟨true, st.paths ++ [p], s⟩
            | .ok (none, s) => tryProducers c rec next want t ns ⟨false, st.paths, s⟩

/-- the loop over the input tensors for a port with index -1 (332-352) -/
def tryInputs (c : Ctx) (rec : Rec) (next : Desc) (want : Option Nat) : List String → St → Except PyErr St
  | [], st => .ok st
  | t :: ts, st =>
    match c.g.producedby.get? t with
    | none => tryInputs c rec next want ts st
    | some ps =>
      match tryProducers c rec next want t ps st with
      | .error e => .error e
      | .ok st => tryInputs c rec next want ts st

/-- one entry of `desc.inport` (331-370) -/
def inPort (c : Ctx) (rec : Rec) (next : Desc) (node : Node) (pt : Port) (st : St) : Except PyErr St :=
  match pt.own with
  | none => tryInputs c rec next pt.other node.input st
  | some i => match node.input[i]? with
    | none => .ok st
    | some t => match c.g.producedby.get? t with
      | none => .error .keyError
      | some ps => tryProducers c rec next pt.other t ps st

/-- the loop over `desc.inport` (326-370) -/
def inPhase (c : Ctx) (p : Pat) (rec : Rec) (node : Node) : List Port → St → Except PyErr St
  | [], st => .ok st
  | pt :: pts, st =>
    match p.desc? pt.pos with
    | none => .error .keyError
    | some next =>
      match inPort c rec next node pt st with
      | .error e => .error e
      | .ok st => inPhase c p rec node pts st

/-- the loop over the consumers of a tensor (396-406, 417-428); `brk`: an already searched consumer ends the loop -/
def tryConsumers (c : Ctx) (rec : Rec) (next : Desc) (want : Option Nat) (t : String) (brk : Bool) : List String → St → Except PyErr St
  | [], st => .ok st
  | n :: ns, st =>
    match findNode c.g.nodemap n with
    | none => .error .keyError
    | some nd =>
      match portOk want nd.input t with
      | .error e => .error e
      | .ok false => tryConsumers c rec next want t brk ns st
      | .ok true =>
        match next.isNode c.attrs nd with
        | .error e => .error e
        | .ok false => tryConsumers c rec next want t brk ns st
        | .ok true =>
          if st.searched.contains n then
            if brk then .ok { st with valid := true } else tryConsumers c rec next want t brk ns { st with valid := true }
          else
            match rec next.name n st.searched with
            | .error e => .error e
            | .ok (some p, s) => .ok ⟨true, st.paths ++ [p], s⟩
            | .ok (none, s) => tryConsumers c rec next want t brk ns ⟨false, st.paths, s⟩

/-- one output tensor (388-394, 410-416): nothing when it has no consumers, or several with in-place fusion -/
def tryOutput (c : Ctx) (p : Pat) (rec : Rec) (next : Desc) (want : Option Nat) (brk : Bool) (t : String) (st : St) : Except PyErr St :=
  match c.g.consumedby.get? t with
  | none => .ok st
  | some cs => if p.inplace && cs.length > 1 then .ok st else tryConsumers c rec next want t brk cs st

/-- the loop over the output tensors for a port with index -1 (385-406) -/
def tryOutputs (c : Ctx) (p : Pat) (rec : Rec) (next : Desc) (want : Option Nat) : List String → St → Except PyErr St
  | [], st => .ok st
  | t :: ts, st =>
    if st.valid then .ok st
    else match tryOutput c p rec next want false t st with
      | .error e => .error e
      | .ok st => tryOutputs c p rec next want ts st

/-- one entry of `desc.outport` (385-428) -/
def outPort (c : Ctx) (p : Pat) (rec : Rec) (next : Desc) (node : Node) (pt : Port) (st : St) : Except PyErr St :=
  match pt.own with
  | none => tryOutputs c p rec next pt.other node.output st
  | some i => match node.output[i]? with
    | none => .ok st
    | some t => tryOutput c p rec next pt.other true t st

/-- the loop over `desc.outport` (380-428) -/
def outPhase (c : Ctx) (p : Pat) (rec : Rec) (node : Node) : List Port → St → Except PyErr St
  | [], st => .ok st
  | pt :: pts, st =>
    match p.desc? pt.pos with
    | none => .error .keyError
    | some next =>
      match outPort c p rec next node pt st with
      | .error e => .error e
      | .ok st => outPhase c p rec node pts st

/-- `FusionPattern.search_node` (314-438) -/
def searchNode (c : Ctx) (p : Pat) : Nat → Rec
  | 0, _, _, _ => .error .recursion
  | fuel + 1, pos, name, searched =>
    match p.desc? pos with
    | none => .error .keyError
    | some d =>
      match findNode c.g.nodemap name with
      | none => .error .keyError
      | some node =>
        match inPhase c p (searchNode c p fuel) node d.inport ⟨d.inport.isEmpty, [], searched ++ [name]⟩ with
        | .error e => .error e
        | .ok st =>
          if !st.valid then .ok (none, st.searched.erase name)
          else
            match outPhase c p (searchNode c p fuel) node d.outport ⟨d.outport.isEmpty, [], st.searched⟩ with
            | .error e => .error e
            | .ok st2 =>
              if st2.valid then .ok (some (st.paths.flatten ++ [(pos, name)] ++ st2.paths.flatten), st2.searched)
              else .ok (none, st2.searched.erase name)

/-- `nodes = ['a'] * len(desckeys)` filled from the path (452-457) -/
def fillPath (keys : List String) (path : Path) : List String :=
  path.foldl (fun nodes v => nodes.set (keys.idxOf v.1) v.2) (List.replicate keys.length "a")

/-- the loop of `search_pattern` (446-458) over the nodes -/
def searchAll (c : Ctx) (p : Pat) (first : Desc) (fuel : Nat) : List Node → Except PyErr (List (List String))
  | [] => .ok []
  | n :: ns =>
    match first.isNode c.attrs n with
    | .error e => .error e
    | .ok false => searchAll c p first fuel ns
    | .ok true =>
      match searchNode c p fuel first.name n.name [] with
      | .error e => .error e
      | .ok (none, _) => searchAll c p first fuel ns
      | .ok (some path, _) =>
        match searchAll c p first fuel ns with
        | .error e => .error e
        | .ok ms => .ok (fillPath (p.descs.map (·.name)) path :: ms)

/-- `FusionPattern.search_pattern` (440-459).  `found_node_names` is never filled, so no node is skipped. -/
def searchPattern (c : Ctx) (p : Pat) : Except PyErr (List (List String)) :=
  match p.descs with
  | [] => .error .indexError
  | first :: _ => searchAll c p first (c.g.nodemap.length + 1) c.g.nodemap

/-- `createSerialOpChain` (199-212) -/
def serialChain (ops : List String) : List Desc :=
  ops.mapIdx fun i op =>
    { name := toString i, op := .one op,
      inport := if i = 0 then [] else [⟨none, toString (i - 1), none⟩],
      outport := if i = ops.length - 1 then [] else [⟨none, toString (i + 1), none⟩] }

/-- the shipped pattern `ConvBN` (8-29) -/
def convDesc : Desc :=
  { name := "conv_0", op := .one "Conv",
    attrs := [⟨"kernel_shape", .le, some 0, 7⟩, ⟨"kernel_shape", .ge, some 0, 1⟩, ⟨"kernel_shape", .le, some 1, 7⟩, ⟨"kernel_shape", .ge, some 1, 1⟩],
    outport := [⟨some 0, "bn_0", some 0⟩] }
def bnDesc : Desc := { name := "bn_0", op := .one "BatchNormalization", inport := [⟨some 0, "conv_0", some 0⟩] }
def convBN : Pat := { descs := [convDesc, bnDesc] }

/-- the shipped pattern `Fused_Element` (31-47) -/
def fusedElement : Pat :=
  { descs := [{ name := "any", op := .one "Any", outport := [⟨some 0, "act_0", some 0⟩] },
              { name := "act_0", op := .many ["Relu", "LeakyRelu", "Add"], inport := [⟨some 0, "any", some 0⟩] }] }

/-- the shipped pattern `Conv_Res` (49-71) -/
def convRes : Pat :=
  { descs := [{ name := "conv_0", op := .one "Conv", outport := [⟨some 0, "add_0", some 1⟩] },
              { name := "add_0", op := .many ["Add"], inport := [⟨some 1, "conv_0", some 0⟩], outport := [⟨some 0, "act_0", some 0⟩] },
              { name := "act_0", op := .many ["Relu", "LeakyRelu"], inport := [⟨some 0, "add_0", some 0⟩] }] }

/-- the shipped pattern `MHAint8_Pattern` (73-131); position `QuantizeLinear_1` names `Add_0`, not `Softmax_0`, as its producer -/
def mhaInt8 : Pat :=
  { descs := [{ name := "MatMul_0", op := .one "QLinearMatMul", outport := [⟨some 0, "DequantizeLinea_0", some 0⟩] },
              { name := "DequantizeLinea_0", op := .one "DequantizeLinear", inport := [⟨some 0, "MatMul_0", some 0⟩], outport := [⟨some 0, "div_0", some 0⟩] },
              { name := "div_0", op := .one "Div", inport := [⟨some 0, "DequantizeLinea_0", some 0⟩], outport := [⟨some 0, "Add_0", some 0⟩] },
              { name := "Add_0", op := .one "Add", inport := [⟨some 0, "div_0", some 0⟩], outport := [⟨some 0, "Softmax_0", some 0⟩] },
              { name := "Softmax_0", op := .one "Softmax", inport := [⟨some 0, "Add_0", some 0⟩], outport := [⟨some 0, "QuantizeLinear_1", some 0⟩] },
              { name := "QuantizeLinear_1", op := .one "QuantizeLinear", inport := [⟨some 0, "Add_0", some 0⟩], outport := [⟨some 0, "MatMul_1", some 0⟩] },
              { name := "MatMul_1", op := .one "QLinearMatMul", inport := [⟨some 0, "QuantizeLinear_1", some 0⟩] }] }

/-- the shipped pattern `layernorm_pattern` (133-183) -/
def layernorm : Pat :=
  { descs := [{ name := "ReduceMean_196", op := .one "ReduceMean", outport := [⟨some 0, "Sub_197", some 1⟩] },
              { name := "Sub_197", op := .one "Sub", inport := [⟨some 1, "ReduceMean_196", some 0⟩],
                outport := [⟨some 0, "Pow_0", some 0⟩, ⟨some 0, "Div_0", some 0⟩] },
              { name := "Pow_0", op := .one "Pow", inport := [⟨some 0, "Sub_197", some 0⟩], outport := [⟨some 0, "ReduceMean_0", some 0⟩] },
              { name := "ReduceMean_0", op := .one "ReduceMean", inport := [⟨some 0, "Pow_0", some 0⟩], outport := [⟨some 0, "Add_0", some 0⟩] },
              { name := "Add_0", op := .one "Add", inport := [⟨some 0, "ReduceMean_0", some 0⟩], outport := [⟨some 0, "Sqrt_0", some 0⟩] },
              { name := "Sqrt_0", op := .one "Sqrt", inport := [⟨some 0, "Add_0", some 0⟩], outport := [⟨some 0, "Div_0", some 1⟩] },
              { name := "Div_0", op := .one "Div", inport := [⟨some 0, "Sub_197", some 0⟩, ⟨some 1, "Sqrt_0", some 0⟩] }] }

end OnnxTool.Pattern
