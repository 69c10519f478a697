import Mathlib.Data.Rat.Floor
import Verif.Model.Py
import Verif.Model.Graph
/-!
# The profile report

Models `print_node_map` (`/repo/onnx_tool/graph.py` 1497-1595) for a `.csv` file, `tuple2str`, `num2str` and the CSV branch of `print_table` (`/repo/onnx_tool/utils.py` 32-69), and the way
`model_profile` (`/repo/onnx_tool/__init__.py` 78-103) treats its `exclude_ops` and `hidden_ops`.

Simplified: MACs of a node are natural numbers; the percentages are texts produced by a function `pct`, which stands for `'{:.2%}'.format` of the quotient; floats are exact except where the
code rounds the totals, which is modelled (`f64`); the overflow of `float(n)` for `n ≥ 2 ^ 1024` is not.  The table printed to the screen and `.txt` files (`tabulate`) are not modelled.
-/
namespace OnnxTool.Report
open OnnxTool

/-- `float(n)` for a Python int: the nearest multiple of the spacing of 53-bit numbers, ties to even -/
def f64 (n : ℕ) : ℕ :=
  if Nat.log2 n ≤ 52 then n
  else
    let d := Nat.log2 n - 52
    let q := n / 2 ^ d
    let r := n % 2 ^ d
    (if 2 * r < 2 ^ d then q else if 2 ^ d < 2 * r then q + 1 else q + q % 2) * 2 ^ d

/-- `self.macs[0] += macs`, beginning with `0.0` (`graph.py` 1439, 1486) -/
def accumulate (macs : List ℕ) : ℕ := macs.foldl (fun acc m => f64 (acc + f64 m)) 0

/-- `tuple2str(t, splitch)` (`utils.py` 32-38) -/
def tuple2str (t : List ℕ) (splitch : String) : String :=
  t.zipIdx.foldl (fun s v => (s ++ toString v.1) ++ if v.2 ≠ t.length - 1 then splitch else "") ""

/-- `num2str(num, csv=True)` (40-42) -/
def num2str (n : ℕ) : String := toString n

/-- one line of a CSV file without its line break (51-55, 58-63) -/
def lineOf (row : List String) : String := row.zipIdx.foldl (fun s e => (s ++ e.1) ++ if e.2 ≠ row.length - 1 then "," else "") ""

/-- `print_table` to a CSV file (44-69): the contents of the file -/
def csvFile (header : List String) (table : List (List String)) : String := (header :: table).foldl (fun s row => s ++ (lineOf row ++ "\n")) ""

/-- what a profiled node knows: `node.macs`, `node.memory`, `node.params`, `node.inshape`, `node.outshape`, `node.sparsity` -/
structure NodeInfo where
  name : String
  op : String
  macs : ℕ
  memory : ℕ
  params : ℕ
  inshape : List ℕ
  outshape : List ℕ
  blocksize : List ℕ
  blockratio : ℚ
  ratio : ℚ

/-- the totals kept by the graph: `self.macs[0]`, `self.memory`, `self.params`, `self.dedup_params` -/
structure Sums where
  macs : ℕ
  memory : ℕ
  params : ℕ
  dedup : ℕ

/-- `x + 1e-18` (1540-1542) for an int `x`: a float, of which `int(...)` leaves `f64 x`; as a divisor it is not 0 -/
def divisor (x : ℕ) : ℚ := if x = 0 then 1 / 10 ^ 18 else f64 x

/-- the row of a node (1544-1560) -/
def nodeRow (pct : ℚ → String) (sparse : Bool) (factor : ℕ) (t : Sums) (n : NodeInfo) : List String :=
  [n.name, n.op] ++ (if sparse then [tuple2str n.blocksize "x", pct n.blockratio, pct n.ratio] else []) ++
    [num2str (n.macs * factor), pct (n.macs / divisor t.macs), num2str n.memory, pct (n.memory / divisor t.memory), num2str n.params, pct (n.params / divisor t.params),
     tuple2str n.inshape "x", tuple2str n.outshape "x"]

/-- the row of the totals (1561-1575) -/
def totalRow (sparse : Bool) (factor : ℕ) (t : Sums) : List String :=
  ["Total", "_"] ++ (if sparse then ["_", "_", "_"] else []) ++
    [num2str (f64 t.macs * factor), "100%", num2str (f64 t.memory), "100%", num2str (f64 t.params), "100%", "_", "_"]

/-- the row of the parameters without repetitions (1577-1582) -/
def dedupRow (sparse : Bool) (t : Sums) : List String :=
  ["Dedup_Params", "_"] ++ (if sparse then ["_", "_", "_"] else []) ++ ["_", "_", "_", "_", num2str t.dedup, "_", "_", "_"]

/-- the header (1583-1594) -/
def header (sparse : Bool) (metric : String) : List String :=
  ["Name", "Type"] ++ (if sparse then ["Sparse Pattern", "Sparse Block Ratio", "Sparse Ratio"] else []) ++ ["Forward_" ++ metric, "FPercent"] ++
    ["Memory", "MPercent", "Params", "PPercent", "InShape", "OutShape"]

/-- `print_node_map(f, metric)` (1497-1595) for a CSV file: its contents.  `nodes` are the covered nodes in the order in which they are visited. -/
def report (pct : ℚ → String) (sparse : Bool) (metric : String) (t : Sums) (nodes : List NodeInfo) : Except PyErr String :=
  if metric = "MACs" ∨ metric = "FLOPs" then
    let factor := if metric = "FLOPs" then 2 else 1
    .ok (csvFile (header sparse metric) (nodes.map (nodeRow pct sparse factor t) ++ [totalRow sparse factor t] ++ if t.dedup ≠ t.params then [dedupRow sparse t] else []))
  else .error .assertion

/-! ### `model_profile` -/

/-- What is passed as `hidden_ops`: nothing (the module's own set), a set — with the name of the object, since it is changed in place — or a list or tuple -/
inductive Hidden where
  | default
  | set (obj : String)
  | list (ops : List String)

/-- The sets that exist: the module's `NoMacsOps` and those of the caller -/
structure Sets where
  noMacs : List String
  user : String → List String

/-- The arguments of a call that matter here -/
structure Call where
  exclude : List String
  hidden : Hidden

def Sets.get (s : Sets) : Hidden → List String
  | .default => s.noMacs
  | .set o => s.user o
  | .list l => l

/-- `s | set(ops)` -/
def union (s ops : List String) : List String := s ++ ops.filter fun o => !s.contains o

/-- lines 85-89: `hidden_ops.update(exclude_ops)` after the check of the names; `valid` are the operators that `get_all_schemas` knows.  `exclude = []` stands for `None` as well. -/
def updateHidden (valid : List String) (s : Sets) (c : Call) : Sets × Option PyErr :=
  if c.exclude = [] then (s, none)
  else if ∃ o ∈ c.exclude, o ∉ valid then (s, some .assertion)
  else
    match c.hidden with
    | .default => ({ s with noMacs := union s.noMacs c.exclude }, none)
    | .set o => ({ s with user := fun x => if x = o then union (s.user o) c.exclude else s.user x }, none)
    | .list _ => (s, some .attributeError)

/-- `model_profile(m, exclude_ops, hidden_ops)`: the sets afterwards, and the operators whose nodes are left out of the profile.  (What else the call does, and whether it fails later, does not
change the sets.) -/
def modelProfile (valid : List String) (s : Sets) (c : Call) : Sets × Except PyErr (List String) :=
  match updateHidden valid s c with
  | (s', some e) => (s', .error e)
  | (s', none) => (s', .ok (s'.get c.hidden))

/-- A sequence of calls: the sets afterwards and the outcome of each call -/
def session (valid : List String) (s : Sets) : List Call → Sets × List (Except PyErr (List String))
  | [] => (s, [])
  | c :: cs => ((session valid (modelProfile valid s c).1 cs).1, (modelProfile valid s c).2 :: (session valid (modelProfile valid s c).1 cs).2)

end OnnxTool.Report
