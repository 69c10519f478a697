import Verif.Model.Quant
import Verif.Model.Graph
import Verif.Model.Subgraph
/-!
# Quantizing the weights of a graph

Models `graph_quantize` (`/repo/onnx_tool/quantization.py` 124-187) and the loop over `g.initials` in which it is used (`/repo/benchmark/examples.py` 53-75).

Simplified: exact rationals for floats, as in `Model/Quant`; the cast of 4-bit scales to float16 (line 159) is an arbitrary function `half`; `type` is `'sym'` or `'asym'`; an array is a
two-dimensional float matrix or something else (`other`); producers, dynamics and graph inputs and outputs are left out, because they are not touched.
-/
namespace OnnxTool.GraphQuant
open OnnxTool Quant

/-- A value of the dictionary `g.consumedby`: a list of node names — or, after lines 177-179, one node name. -/
inductive Entry where
  | names (l : List String)
  | text (s : String)
  deriving DecidableEq, Repr

/-- The array of a tensor -/
inductive Data where
  | matrix (rows cols : ℕ) (f : ℕ → ℕ → ℚ)
  | other
  | codes (rows cols : ℕ) (q : ℕ → ℕ → ℤ)
  | packed (rows : List (List ℕ))
  | scales (s : ℕ × ℕ → ℚ)
  | zeros (z : ℕ × ℕ → ℤ)

/-- The options: `block`, `type`, `bits` -/
structure Opts where
  block : ℤ
  asym : Bool
  bits : ℕ
  deriving DecidableEq

/-- The part of the graph that `graph_quantize` reads or changes: `nodemap`, `initials`, `consumedby`, `tensormap` (arrays), and the `OTQ_` attributes of the nodes -/
structure St where
  nodes : List Node
  initials : List String
  consumedby : String → Option Entry
  data : String → Option Data
  otq : String → Option Opts

/-- `d[k] = v` and `d.pop(k)` -/
def upd {α : Type} (d : String → Option α) (k : String) (v : Option α) : String → Option α := fun x => if x = k then v else d x

def qName (t : String) : String := t ++ "_ot_q"
def sName (t : String) : String := t ++ "_ot_s"
def zName (t : String) : String := t ++ "_ot_z"

/-- lines 128-131: `tname.endswith(suf)` for one of the three suffixes -/
def isQuantized (t : String) : Bool := "_ot_q".toList.isSuffixOf t.toList || "_ot_s".toList.isSuffixOf t.toList || "_ot_z".toList.isSuffixOf t.toList

/-- the operands that replace the weight (lines 172-175) -/
def newNames (asym : Bool) (t : String) : List String := if asym then [qName t, sName t, zName t] else [qName t, sName t]

/-- lines 170-175: `index`, `remove` and `insert` on `node.input`; `none` = `ValueError` -/
def replaceFirst (t : String) (new : List String) : List String → Option (List String)
  | [] => none
  | i :: is => if i = t then some (new ++ is) else (replaceFirst t new is).map (i :: ·)

/-- `g.consumedby[k].append(n)` for each key in turn (181-183) -/
def appendAll (n : String) : List String → (String → Option Entry) → (String → Option Entry) × Option PyErr
  | [], c => (c, none)
  | k :: ks, c =>
    match c k with
    | none => (c, some .keyError)
    | some (.text _) => (c, some .attributeError)
    | some (.names l) => appendAll n ks (upd c k (some (.names (l ++ [n]))))

/-- lines 176-183 -/
def index (t n : String) (c : String → Option Entry) : (String → Option Entry) × Option PyErr :=
  match c (qName t) with
  | none => (upd (upd (upd c (qName t) (some (.text n))) (sName t) (some (.text n))) (zName t) (some (.text n)), none)
  | some _ => appendAll n [qName t, sName t, zName t] c

/-- lines 168-183: the loop over the readers -/
def rewire (asym : Bool) (t : String) : List String → St → St × Option PyErr
  | [], st => (st, none)
  | n :: ns, st =>
    match findNode st.nodes n with
    | none => (st, some .keyError)
    | some nd =>
      match replaceFirst t (newNames asym t) nd.input with
      | none => (st, some .valueError)
      | some ins =>
        match index t n st.consumedby with
        | (c, some e) => ({ st with nodes := Subgraph.setNode st.nodes { nd with input := ins }, consumedby := c }, some e)
        | (c, none) => rewire asym t ns { st with nodes := Subgraph.setNode st.nodes { nd with input := ins }, consumedby := c }

/-- line 141-143: whether the weight is transposed; `transB` is the attribute of the node (`None` by default for QLinearMatMul, else 0) -/
def transposes (transB : String → Option ℤ) (n : Node) : Bool := ["Gemm", "MatMul", "MatMulInteger", "QLinearMatMul"].contains n.op && transB n.name == some 0

/-- lines 151-163: the array stored for the codes -/
def storedCodes (o : Opts) (rows cols : ℕ) (q : ℕ → ℕ → ℤ) : Data :=
  if o.bits = 4 then .packed ((List.range rows).map fun i => packRow ((List.range cols).map (q i)))
  else if o.bits = 8 then .codes rows cols fun i j => if o.asym then q i j % 256 else (q i j + 128) % 256 - 128
  else .codes rows cols q

/-- line 159: the array stored for the scales -/
def storedScales (half : ℚ → ℚ) (o : Opts) (p : ℕ × ℕ → ℚ × ℤ) : Data := .scales fun g => if o.bits = 4 then half (p g).1 else (p g).1

/-- lines 154, 162: the array stored for the zero points -/
def storedZeros (o : Opts) (p : ℕ × ℕ → ℚ × ℤ) : Data := .zeros fun g => if o.bits = 4 ∨ o.bits = 8 then (p g).2 % 256 else (p g).2

/-- lines 148-167: the new initializers -/
def addNew (half : ℚ → ℚ) (o : Opts) (t : String) (rows cols : ℕ) (r : (ℕ → ℕ → ℤ) × (ℕ × ℕ → ℚ × ℤ)) (st : St) : St :=
  let d := upd (upd st.data (qName t) (some (storedCodes o rows cols r.1))) (sName t) (some (storedScales half o r.2))
  { st with
    initials := st.initials ++ newNames o.asym t
    data := if o.asym then upd d (zName t) (some (storedZeros o r.2)) else d }

/-- lines 184-187 -/
def dropOld (t : String) (st : St) : St :=
  { st with
    initials := st.initials.erase t
    consumedby := upd st.consumedby t none
    data := upd st.data t none }

/-- lines 147-187, once the matrix `f` — transposed if need be — is there -/
def store (half : ℚ → ℚ) (o : Opts) (t : String) (readers : List String) (rows cols : ℕ) (f : ℕ → ℕ → ℚ) (st : St) : St × Option PyErr :=
  match quantize f rows cols o.block o.asym o.bits with
  | .error e => (st, some e)
  | .ok r =>
    match rewire o.asym t readers (addNew half o t rows cols r st) with
    | (st', some e) => (st', some e)
    | (st', none) => (dropOld t st', none)

/-- lines 138-187, for a two-dimensional float array.  (An `Entry.text` cannot be met here: only names with the suffixes have one.) -/
def quantizeMatrix (half : ℚ → ℚ) (transB : String → Option ℤ) (o : Opts) (t : String) (rows cols : ℕ) (f : ℕ → ℕ → ℚ) (st : St) : St × Option PyErr :=
  match st.consumedby t with
  | none => (st, some .keyError)
  | some (.text _) => (st, some .keyError)
  | some (.names []) => (st, some .indexError)
  | some (.names (n :: ns)) =>
    match findNode st.nodes n with
    | none => (st, some .keyError)
    | some nd =>
      let st1 := { st with otq := upd st.otq n (some o) }
      if transposes transB nd then store half o t (n :: ns) cols rows (fun i j => f j i) st1 else store half o t (n :: ns) rows cols f st1

/-- `graph_quantize(g, t, block, type, bits)` (124-187): the graph afterwards, and the exception if it raises -/
def graphQuantize (half : ℚ → ℚ) (transB : String → Option ℤ) (o : Opts) (st : St) (t : String) : St × Option PyErr :=
  if t ∉ st.initials then (st, none)
  else if isQuantized t then (st, none)
  else
    match st.data t with
    | none => (st, some .keyError)
    | some (.matrix rows cols f) => quantizeMatrix half transB o t rows cols f st
    | some _ => (st, none)

/-- `for t in ts: graph_quantize(g, t, ...)` for a list `ts` that is not changed -/
def quantizeEach (half : ℚ → ℚ) (transB : String → Option ℤ) (o : Opts) : List String → St → St × Option PyErr
  | [], st => (st, none)
  | t :: ts, st =>
    match graphQuantize half transB o st t with
    | (st', some e) => (st', some e)
    | (st', none) => quantizeEach half transB o ts st'

/-- `for key in g.initials: graph_quantize(g, key, ...)` (`benchmark/examples.py` 55-56): Python iterates by position over the list that the body changes.  `fuel` bounds the number of rounds. -/
def quantizeLoop (half : ℚ → ℚ) (transB : String → Option ℤ) (o : Opts) : ℕ → ℕ → St → St × Option PyErr
  | 0, _, st => (st, some .recursion)
  | fuel + 1, i, st =>
    match st.initials[i]? with
    | none => (st, none)
    | some t =>
      match graphQuantize half transB o st t with
      | (st', some e) => (st', some e)
      | (st', none) => quantizeLoop half transB o fuel (i + 1) st'

end OnnxTool.GraphQuant
