import Verif.Model.Batch
import Verif.Spec.Topsort
import Verif.Spec.ShapeInfer
/-!
# Specification: two batch sizes (C120)
-/
namespace OnnxTool.Batch
open OnnxTool OnnxTool.Shape OnnxTool.ShapeInfer

/-- the shape of a tensor in a run with batch size `b` and one with batch size `c`: the first axis is the batch (`batched`), or the shape is the same -/
structure Scaled (batched : Prop) (b c : Nat) (s s' : List Nat) : Prop where
  batch : batched → ∃ r, s = b :: r ∧ s' = c :: r
  same : ¬ batched → s = s'

/-- which tensors have the batch as their first axis, of which the value is needed by a node and does not depend on the batch (the targets of Reshape, …), and how many axes they have, where a node needs that -/
structure Roles where
  batched : String → Prop
  constant : String → Prop
  rank : String → Option Nat := fun _ => none

/-- the shape of the tensor `t` in the two runs -/
def Shapes (R : Roles) (b c : Nat) (t : String) (s s' : List Nat) : Prop := Scaled (R.batched t) b c s s' ∧ ∀ k, R.rank t = some k → s.length = k

/-- the tensor `t` in the two runs -/
structure Pair (R : Roles) (b c : Nat) (t : String) (x x' : Seen Int) : Prop where
  shape : ∃ s s', x.shape = asDims s ∧ x'.shape = asDims s' ∧ Shapes R b c t s s'
  value : R.constant t → x.value = x'.value

/-- what a node does to its output `t` in the two runs -/
structure PairUpd (R : Roles) (b c : Nat) (t : String) (u u' : Upd Int) : Prop where
  shape : ∃ s s', u.newShape = asDims s ∧ u'.newShape = asDims s' ∧ Shapes R b c t s s'
  value : R.constant t → ∃ a, u = .arr a ∧ u' = .arr a

/-- A node works sample by sample: where it accepts its operands of batch size `b` and makes outputs without negative sizes, it accepts those of batch size `c`, and its outputs are the same but for the batch. -/
def BatchNode (run : Run Int) (value : Bool) (R : Roles) (b c : Nat) (n : Node) : Prop :=
  ∀ (G G' : String → Seen Int) (outs outs' : List (Seen Int)) (us : List (Upd Int)), (∀ t ∈ n.input, Pair R b c t (G t) (G' t)) →
    run value n (n.input.map G) outs = .ok us → us.length = n.output.length → (∀ u ∈ us, ∃ s, u.newShape = asDims s) →
    ∃ us', run value n (n.input.map G') outs' = .ok us' ∧ us'.length = n.output.length ∧
      ∀ (i : Nat) (o : String) (u u' : Upd Int), n.output[i]? = some o → us[i]? = some u → us'[i]? = some u' → PairUpd R b c o u u'

/-- the node sets all its outputs -/
def SetsAll (run : Run Int) (value : Bool) (n : Node) : Prop := ∀ ins outs us, run value n ins outs = .ok us → us.length = n.output.length

/-- an operator with one data operand works sample by sample on the shapes that satisfy `ok` (without the batch): it keeps the batch and does not look at it -/
def PerSample (ok : List Nat → Prop) {β : Type} [NatCast β] (f : List Nat → Except PyErr (List β)) : Prop :=
  ∃ g : List Nat → Except PyErr (List β), ∀ r, ok r → ∀ b : Nat, 0 < b → f (b :: r) = (g r).map ((b : β) :: ·)

/-- the shapes of the operands of a node whose cost grows with the batch: the first operand and the first output have the batch; the second operand of the operators with weights has not, or (MatMul) it
is a stack of matrices; LayerNormalization does not normalise over the batch; LSTM and GRU have the batch elsewhere -/
structure CostOk (a : NodeAttrs) (op : String) (b c : Nat) (ins ins' outs outs' : List Shp) : Prop where
  first : ∃ x ws ws', ins = (b :: x) :: ws ∧ ins' = (c :: x) :: ws' ∧ ws.length = ws'.length ∧
    (op ∈ ["Conv", "ConvTranspose", "Gemm", "ConvInteger"] → ws[0]? = ws'[0]?) ∧
    (op = "MatMul" → ws[0]? = ws'[0]? ∨ ∃ r, 2 ≤ r.length ∧ ws[0]? = some (b :: r) ∧ ws'[0]? = some (c :: r)) ∧
    (op ∈ ["QLinearMatMul", "QLinearConv"] → ws[2]? = ws'[2]?) ∧
    (op = "LayerNormalization" → ∃ k : Nat, k < x.length ∧ (a.cost.axis = (k : Int) + 1 ∨ a.cost.axis = (k : Int) - x.length))
  out : ∃ y ys ys', outs = (b :: y) :: ys ∧ outs' = (c :: y) :: ys' ∧ ys.length = ys'.length
  op : op ≠ "LSTM" ∧ op ≠ "GRU"

/-- A node of a network whose cost grows with the batch, said with the names of its tensors; `rank` is the number of axes of a tensor -/
structure CostNode (R : Roles) (rank : String → Nat) (a : NodeAttrs) (n : Node) : Prop where
  first : ∃ x ws, n.input = x :: ws ∧ R.batched x ∧
    (n.op ∈ ["Conv", "ConvTranspose", "Gemm", "ConvInteger"] → ∀ w, ws[0]? = some w → ¬ R.batched w) ∧
    (n.op = "MatMul" → ∀ w, ws[0]? = some w → R.batched w → 3 ≤ rank w) ∧
    (n.op ∈ ["QLinearMatMul", "QLinearConv"] → ∀ w, ws[2]? = some w → ¬ R.batched w) ∧
    (n.op = "LayerNormalization" → ∃ k : Nat, k + 1 < rank x ∧ (a.cost.axis = (k : Int) + 1 ∨ a.cost.axis = (k : Int) + 1 - rank x))
  out : ∃ y ys, n.output = y :: ys ∧ R.batched y
  op : n.op ≠ "LSTM" ∧ n.op ≠ "GRU"

end OnnxTool.Batch
