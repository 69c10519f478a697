import Mathlib.Algebra.Field.Defs
import Verif.Model.Pattern
import Verif.Model.Remove
import Verif.Model.Subgraph
/-!
# Folding a batch normalisation into a convolution

Models `ConvBNFusion` of `/repo/onnx_tool/fusion.py` (462-498).

Simplifications: numbers are elements of a field `K` (exact arithmetic; the code uses float32 arrays and float64 scalars), `math.sqrt` is an
arbitrary function `sqrt : K → K`; `env` holds the tensors of `tensormap` that carry data; `update_proto` keeps shape and data.
-/
namespace OnnxTool.ConvBN
open OnnxTool

/-- a tensor with data: shape and element at each multi-index -/
structure Tensor (K : Type) where
  shape : List Nat
  val : List Nat → K

/-- graph and tensors with data -/
structure St (K : Type) where
  g : Graph
  env : String → Option (Tensor K)

variable {K : Type} [Field K]

/-- `weight.numpy[i, j, k, l] = sm * weight.numpy[i, j, k, l]` (485): all elements whose first four indices are these (rank 4 or more) -/
def scaleAt (sm : K) (i j k l : Nat) (w : List Nat → K) : List Nat → K :=
  fun idx => if idx.take 4 = [i, j, k, l] then sm * w idx else w idx

/-- the loops over `j`, `k`, `l` (482-485) -/
def scaleRow (sm : K) (i d1 d2 d3 : Nat) (w : List Nat → K) : List Nat → K :=
  (List.range d1).foldl (fun w j => (List.range d2).foldl (fun w k => (List.range d3).foldl (fun w l => scaleAt sm i j k l w) w) w) w

/-- `newbias[i] = ...` -/
def setAt (b : List Nat → K) (i : Nat) (v : K) : List Nat → K := fun idx => if idx = [i] then v else b idx

/-- the loop over the output channels (479-486) -/
def foldChannels (sqrt : K → K) (eps : K) (gamma beta mean var : Tensor K) (d1 d2 d3 : Nat) :
    List Nat → (List Nat → K) × (List Nat → K) → (List Nat → K) × (List Nat → K)
  | [], s => s
  | i :: is, (w, b) =>
    let sm := gamma.val [i] / sqrt (var.val [i] + eps)
    let sv := beta.val [i]
    foldChannels sqrt eps gamma beta mean var d1 d2 d3 is (scaleRow sm i d1 d2 d3 w, setAt b i (sm * (b [i] - mean.val [i]) + sv))

/-- `self.tensormap[name]` -/
def lookup (env : String → Option (Tensor K)) (names : List String) (i : Nat) : Except PyErr (String × Tensor K) :=
  match names[i]? with
  | none => .error .indexError
  | some t => match env t with
    | none => .error .keyError
    | some v => .ok (t, v)

/-- name of the new bias (488) -/
def biasName (conv : Node) : String := conv.name ++ "_bias_"

/-- lines 489-498: the graph after folding `bn` into `conv` -/
def rewireGraph (g : Graph) (conv bn : Node) : Except PyErr Graph :=
  match Remove.removeOne { g with initials := g.initials ++ [biasName conv] } bn.name with
  | .error e => .error e
  | .ok (g1, _) =>
    match bn.output[0]?, conv.output with
    | some z, _ :: outs =>
      .ok { g1 with
        producedby := g1.producedby.set z [conv.name]
        nodemap := Subgraph.setNode g1.nodemap { conv with input := conv.input ++ [biasName conv], output := z :: outs } }
    | _, _ => .error .indexError

/-- the body of the loop over the matches (466-498) -/
def fuseOne (sqrt : K → K) (eps : String → K) (st : St K) (m0 m1 : String) : Except PyErr (St K) :=
  match findNode st.g.nodemap m0, findNode st.g.nodemap m1 with
  | some conv, some bn =>
    match lookup st.env conv.input 1 with
    | .error e => .error e
    | .ok (wname, weight) =>
      match lookup st.env bn.input 1 with
      | .error e => .error e
      | .ok (_, gamma) =>
        match lookup st.env bn.input 2 with
        | .error e => .error e
        | .ok (_, beta) =>
          match lookup st.env bn.input 3 with
          | .error e => .error e
          | .ok (_, mean) =>
            match lookup st.env bn.input 4 with
            | .error e => .error e
            | .ok (_, var) =>
              if conv.input.length = 3 then
                -- 474: the bias is looked up among the NODES; a node has no attribute `numpy`
                match findNode st.g.nodemap (conv.input.getD 2 "") with
                | none => .error .keyError
                | some _ => .error .attributeError
              else
                match weight.shape with
                | d0 :: d1 :: d2 :: d3 :: _ =>
                  let r := foldChannels sqrt (eps bn.name) gamma beta mean var d1 d2 d3 (List.range d0) (weight.val, fun _ => 0)
                  match rewireGraph st.g conv bn with
                  | .error e => .error e
                  | .ok g => .ok ⟨g, fun t => if t = biasName conv then some ⟨[d0], r.2⟩ else if t = wname then some ⟨weight.shape, r.1⟩ else st.env t⟩
                | _ => .error .indexError
  | _, _ => .error .keyError

/-- the loop over the matches (466) -/
def fuseAll (sqrt : K → K) (eps : String → K) : List (List String) → St K → Except PyErr (St K)
  | [], st => .ok st
  | m :: ms, st =>
    match m with
    | m0 :: m1 :: _ => match fuseOne sqrt eps st m0 m1 with
      | .error e => .error e
      | .ok st => fuseAll sqrt eps ms st
    | _ => .error .indexError

/-- `ConvBNFusion(graph)` (462-498) -/
def convBNFusion (sqrt : K → K) (eps : String → K) (attrs : String → Dict Pattern.AttrV) (st : St K) : Except PyErr (St K) :=
  match Pattern.searchPattern ⟨st.g, attrs⟩ Pattern.convBN with
  | .error e => .error e
  | .ok ms => fuseAll sqrt eps ms st

end OnnxTool.ConvBN
