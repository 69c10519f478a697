import Verif.Model.Builder
import Verif.Model.Macs
import Verif.Model.Profile
/-!
# Figures of the nodes of a built decoder (`Graph.profile`, `/repo/onnx_tool/graph.py` 1433-1495, on the graphs of `/repo/onnx_tool/llm.py`)

`graph.profile()` stores `macs`, `io_params`, `static_params` (and `kv_size` for attention) on every node.  The model computes them from the
node, its operands' shapes and static flags, as `graph.tensormap` has them.  Left out: sparsity, element sizes, the test `name != ''` (the
builder gives no empty names).
-/
namespace OnnxTool.LlmCost
open OnnxTool OnnxTool.Builder OnnxTool.Macs

/-- `node.macs`, `node.io_params`, `node.static_params`, `node.kv_size` -/
structure Fig where
  macs : Nat
  io : Nat
  static : Nat
  kv : Nat := 0
  deriving DecidableEq, Repr

/-- attributes of the fused nodes that the configuration `Cfg` does not have: experts per token, convolution kernel of GDN, and those `add_mla`
takes from the builder (`/repo/onnx_tool/llm.py` 636, 681-685) with the defaults given there -/
structure Attrs where
  topK : Nat := 8
  conv : Nat := 4
  ropeDim : Nat := 64
  window : Nat := 128
  ratio : Nat := 0
  idxHeads : Nat := 64
  idxDim : Nat := 128
  idxTopK : Nat := 512

/-- the attributes of the MLA node (`/repo/onnx_tool/llm.py` 673-686) -/
def mlaAttrs (c : Cfg) (x : Attrs) : MLA :=
  ⟨c.hidden, c.heads, c.headSize, c.qLora, c.oLora, c.oGroups, x.ropeDim, x.window, x.ratio, x.idxHeads, x.idxDim, x.idxTopK⟩

/-- `TANH_MACS` (node.py 30) -/
def TANH : Nat := EXP + 2 * ADD + DIV

/-- elements of the static operands (node.py 228) -/
def statics (ins : List (Bool × List Nat)) : Nat := ((ins.filter (·.1)).map fun t => Profile.volume t.2).sum

/-- `Node.profile` (node.py 215-229) around `_profile_core` -/
def base (macs : Nat) (ins : List (Bool × List Nat)) (out : List Nat) : Fig := ⟨macs, Profile.volume out, statics ins, 0⟩

/-- `PWNode._profile_core` / `NpMathBase._profile_core` (node.py 260-263, 282-285): the factor `ratio` is computed in the constructor, where
`self.input` is still empty (node.py 181), so it is 1 -/
def pointwise (opMac : Nat) (out : List Nat) : Nat := Profile.volume out * max 1 (([] : List String).length - 1) * opMac

/-- `LayerNormalizationNode._profile_core` (node.py 2525-2531) with the default axis -1 -/
def lnMacs (t : List Nat) : Nat :=
  Profile.volume t * (MUL * 3 + ADD * 4) + Profile.volume (t.set (t.length - 1) 1) * (ADD + SQRT + DIV)

/-- `RopeNode.profile` (node.py 676-691): of a table only the rows of the sequence -/
def ropeStatics (seq : Nat) (ins : List (Bool × List Nat)) : Nat :=
  ((ins.filter (·.1)).map fun t =>
    match t.2 with
    | [a, b, r, h] => if r > seq then a * b * seq * h else Profile.volume t.2
    | _ => Profile.volume t.2).sum

/-- `node.profile(itensors, otensors)` for the operators the builder uses; `past` is the content of the tensor `n_past` -/
def opFig (c : Cfg) (x : Attrs) (past : Nat) (op : String) (ins : List (Bool × List Nat)) (out : List Nat) : Except PyErr Fig :=
  if op = "Gather" then
    match ins with
    | (_, w) :: (_, ids) :: _ => .ok ⟨0, Profile.volume out, Profile.volume ids * w.getLastD 0, 0⟩
    | _ => .error .indexError
  else if op = "LayerNormalization" then
    match ins with
    | (_, t) :: _ => if t = [] then .error .indexError else .ok (base (lnMacs t) ins out)
    | _ => .error .indexError
  else if op = "Silu" then .ok (base (pointwise (EXP + MUL) out) ins out)
  else if op = "Gelu" ∨ op = "GeGelu" then .ok (base (pointwise (EXP + MUL * 2) out) ins out)
  else if op = "Add" then .ok (base (pointwise ADD out) ins out)
  else if op = "Mul" then .ok (base (pointwise MUL out) ins out)
  else if op = "LogitSoftCapping" then .ok (base (pointwise (TANH + MUL + DIV) out) ins out)
  else if op = "Rope" then
    match ins with
    | (_, t) :: _ => .ok ⟨pointwise (COS + SIN + MUL * 2) out, Profile.volume out, ropeStatics (if t.length > 1 then t.getD 1 0 else 1) ins, 0⟩
    | _ => .error .indexError
  else if op = "MatMul" then
    match ins with
    | _ :: (_, w) :: _ =>
      match gemmMacs false false ins.length w out with
      | .ok m => .ok (base m ins out)
      | .error e => .error e
    | _ => .error .notImplemented
  else if op = "SDPA" then
    match ins with
    | [] => .error .indexError
    | (_, q) :: rest =>
      match (match rest with
        | _ :: _ :: _ :: (_, cache) :: _ => sdpaCacheMacs c.heads c.kvHeads c.headSize past (cache.getD 2 0) q
        | _ => sdpaMacs c.heads c.kvHeads c.headSize q) with
      | .ok (m, kv) => .ok { base m ins out with kv := kv }
      | .error e => .error e
  else if op = "MoE" then
    match ins with
    | (_, b :: s :: _) :: _ =>
      let f := (MoE.mk c.hidden c.moeInter c.sharedInter c.numExperts x.topK c.noSharedGate c.noSharedExpert).profile b s
      .ok ⟨f.1, f.2.1, f.2.2, 0⟩
    | _ => .error .indexError
  else if op = "GDN" then
    match ins with
    | (_, b :: s :: _) :: _ =>
      let f := (GDN.mk c.hidden c.gdnQkHeads c.gdnVHeads c.gdnQkDim c.gdnVDim x.conv).profile b s
      .ok ⟨f.1, f.2.1, f.2.2, 0⟩
    | _ => .error .indexError
  else if op = "MLA" then
    match ins with
    | (_, b :: s :: _) :: _ => let f := (mlaAttrs c x).profile b s; .ok ⟨f.1, f.2.1, f.2.2, 0⟩
    | _ => .error .indexError
  else .ok (base 0 ins out)

/-- `[self.tensormap[t] for t in names]` -/
def lookups (tm : Dict (Bool × List Nat)) : List String → Except PyErr (List (Bool × List Nat))
  | [] => .ok []
  | t :: ts =>
    match tm.get? t with
    | none => .error .keyError
    | some i =>
      match lookups tm ts with
      | .error e => .error e
      | .ok is => .ok (i :: is)

/-- one iteration of `Graph.profile` -/
def nodeFig (c : Cfg) (x : Attrs) (past : Nat) (s : St) (n : String × BNode) : Except PyErr Fig :=
  match lookups s.tensors n.2.input with
  | .error e => .error e
  | .ok ins =>
    match lookups s.tensors n.2.output with
    | .error e => .error e
    | .ok outs =>
      match outs with
      | (_, out) :: _ => opFig c x past n.2.op ins out
      | [] => .error .indexError

/-- a node with its figures -/
structure Row where
  name : String
  op : String
  fig : Fig
  deriving DecidableEq, Repr

/-- `graph.profile()` over `nodemap` -/
def rows (c : Cfg) (x : Attrs) (past : Nat) (s : St) : List (String × BNode) → Except PyErr (List Row)
  | [] => .ok []
  | n :: ns =>
    match nodeFig c x past s n with
    | .error e => .error e
    | .ok f =>
      match rows c x past s ns with
      | .error e => .error e
      | .ok r => .ok (⟨n.1, n.2.op, f⟩ :: r)

/-- the figures of a built graph -/
def profileGraph (c : Cfg) (x : Attrs) (past : Nat) (s : St) : Except PyErr (List Row) := rows c x past s s.nodes

end OnnxTool.LlmCost
