import Verif.Model.GraphQuant
import Verif.Spec.Graph
import Verif.Props.Quant
import Verif.Props.Pack
/-! # What quantizing the weights of a graph should do -/
namespace OnnxTool.GraphQuant
open OnnxTool Quant

/-- The node multiplies by a weight whose columns are the output channels: a product that does not transpose its second operand -/
def Multiplies (transB : String → Option ℤ) (n : Node) : Prop := (n.op = "Gemm" ∨ n.op = "MatMul" ∨ n.op = "MatMulInteger" ∨ n.op = "QLinearMatMul") ∧ transB n.name = some 0

instance (transB : String → Option ℤ) (n : Node) : Decidable (Multiplies transB n) := by unfold Multiplies; infer_instance

/-- The operands that stand for the weight `t` afterwards: codes, scales and — asymmetric — zero points, in this order -/
def operands (asym : Bool) (t : String) : List String := if asym then [t ++ "_ot_q", t ++ "_ot_s", t ++ "_ot_z"] else [t ++ "_ot_q", t ++ "_ot_s"]

/-- The node with every weight among `ws` replaced, in place, by its codes, scales and — asymmetric — zero points -/
def swapped (asym : Bool) (ws : List String) (n : Node) : Node := { n with input := n.input.flatMap fun i => if i ∈ ws then operands asym i else [i] }

/-- The consumer index is right for every tensor that is not the result of a quantization. -/
def Indexed (st : St) : Prop :=
  ∀ t, isQuantized t = false → st.consumedby t = if consumersOf st.nodes t = [] then none else some (.names (consumersOf st.nodes t))

/-- In every group of the matrix — the elements that share a scale — some element is not zero. -/
def NoZeroGroup (block : ℤ) (rows cols : ℕ) (f : ℕ → ℕ → ℚ) : Prop :=
  ∀ i < rows, ∀ j < cols, ∃ i' < rows, ∃ j' < cols, Props.SameGroup block i j i' j' ∧ f i' j' ≠ 0

/-- `t` is a weight that can be quantized: a float matrix, read once, by node `n`, not empty and without a zero group in the layout in which it is going to be stored, whose new names are free -/
structure Ready (transB : String → Option ℤ) (o : Opts) (st : St) (t : String) (n : Node) (rows cols : ℕ) (f : ℕ → ℕ → ℚ) : Prop where
  init : t ∈ st.initials
  plain : isQuantized t = false
  data : st.data t = some (.matrix rows cols f)
  node : n ∈ st.nodes
  once : consumersOf st.nodes t = [n.name]
  free : st.consumedby (qName t) = none
  freeInit : ∀ x ∈ operands o.asym t, x ∉ st.initials
  pos : 0 < rows ∧ 0 < cols
  nonzero : if Multiplies transB n then NoZeroGroup o.block cols rows (fun i j => f j i) else NoZeroGroup o.block rows cols f

/-- A tensor that is not quantized: the result of a quantization, or not a float matrix -/
def Inert (st : St) (t : String) : Prop := isQuantized t = true ∨ ∃ d, st.data t = some d ∧ ∀ rows cols f, d ≠ .matrix rows cols f

/-- `st'` is `st` with the weights `ws` quantized: each is replaced, in the nodes and among the initializers, by its codes, scales and zero points, and no other array changes. -/
structure Quantized (o : Opts) (st : St) (ws : List String) (st' : St) : Prop where
  nodes : st'.nodes = st.nodes.map (swapped o.asym ws)
  initials : st'.initials = st.initials.filter (fun t => t ∉ ws) ++ ws.flatMap (operands o.asym)
  gone : ∀ w ∈ ws, st'.data w = none
  kept : ∀ t, t ∉ ws → (∀ w ∈ ws, t ∉ operands o.asym w) → st'.data t = st.data t

/-- The layout in which the weight `f` of node `n` is stored: one row for each output channel of a product -/
def laidOut (transB : String → Option ℤ) (n : Node) (rows cols : ℕ) (f : ℕ → ℕ → ℚ) : ℕ × ℕ × (ℕ → ℕ → ℚ) :=
  if Multiplies transB n then (cols, rows, fun i j => f j i) else (rows, cols, f)

/-- The codes and scales (and zero points) stored for `w` give the elements of the `rows × cols` matrix `f` back to within half a step. `groupOf` is the position of an element's scale in the
array of scales: one scale in all, one for each row, or one for each block of columns in each row. -/
def Held (o : Opts) (st : St) (w : String) (rows cols : ℕ) (f : ℕ → ℕ → ℚ) : Prop :=
  ∃ q s, st.data (qName w) = some (.codes rows cols q) ∧ st.data (sName w) = some (.scales s) ∧
    (o.asym = false → ∀ i < rows, ∀ j < cols, |q i j * s (groupOf o.block i j) - f i j| ≤ s (groupOf o.block i j) / 2) ∧
    (o.asym = true → ∃ z, st.data (zName w) = some (.zeros z) ∧
      ∀ i < rows, ∀ j < cols, |(q i j - z (groupOf o.block i j)) * s (groupOf o.block i j) - f i j| ≤ s (groupOf o.block i j) / 2)

/-- The same for 4-bit codes packed in pairs: for the columns that are stored.  `s` are the scales before they are cast. -/
def HeldPacked (half : ℚ → ℚ) (o : Opts) (st : St) (w : String) (rows cols : ℕ) (f : ℕ → ℕ → ℚ) : Prop :=
  ∃ (bytes : List (List ℕ)) (s : ℕ × ℕ → ℚ), st.data (qName w) = some (.packed bytes) ∧ st.data (sName w) = some (.scales fun g => half (s g)) ∧ bytes.length = rows ∧
    ∀ i < rows, ∃ row, bytes[i]? = some row ∧ ∀ j < cols / 2 * 2, ∃ c, (Props.unpackRow row)[j]? = some c ∧ |c * s (groupOf o.block i j) - f i j| ≤ s (groupOf o.block i j) / 2

/-- Node names are distinct and no tensor is listed twice as an initializer. -/
structure Proper (st : St) : Prop where
  names : (st.nodes.map (·.name)).Nodup
  inits : st.initials.Nodup
  index : Indexed st

/-- The weights that a loop by position meets if the body removes the current element whenever `p` holds: the element after a removed one is skipped. -/
def skipping (p : String → Bool) : List String → List String
  | [] => []
  | [w] => if p w then [w] else []
  | w :: v :: rest => if p w then w :: skipping p rest else skipping p (v :: rest)

/-- every second element, beginning with the first -/
def everySecond : List String → List String
  | [] => []
  | [w] => [w]
  | w :: _ :: rest => w :: everySecond rest

end OnnxTool.GraphQuant
