import Mathlib.Data.Rat.Defs
import Mathlib.Algebra.Order.Ring.Rat
import Mathlib.Data.List.Sort
import Verif.Model.Py
/-!
# Diagnostics of the engine (`/repo/inference/infer.py` 290-300, 380-400, 425-499, 764-815) and of the comparison script
(`/repo/inference/compare.py` 168-197)

Times and array elements are exact rationals (the code uses floats).  Left out: the formatting of the printed lines, the mean difference
and the cosine similarity (printed only).
-/
namespace OnnxTool.Diagnostics
open OnnxTool

/-- the clock readings of one node (`t0`, `t_resolve`, `t_prep_output`, `t_kernel_lookup`, `t2`, `t3`) -/
structure Clock where
  node : String
  op : String
  t0 : ℚ
  resolve : ℚ
  prepare : ℚ
  lookup : ℚ
  t2 : ℚ
  t3 : ℚ

/-- an entry of `node_times` (398-400) -/
structure Lap where
  node : String
  op : String
  resolve : ℚ
  prepare : ℚ
  lookup : ℚ
  kernel : ℚ
  deriving DecidableEq

/-- `d[k] += v` on a `defaultdict` -/
def addTo {α : Type} [Add α] [Zero α] (d : Dict α) (k : String) (v : α) : Dict α := d.set k ((d.get? k).getD 0 + v)

/-- what is collected during a run (293-298) -/
structure Prof where
  opTime : Dict ℚ := []
  opCount : Dict Nat := []
  laps : List Lap := []
  overhead : ℚ := 0

/-- one node (390-401) -/
def note (p : Prof) (c : Clock) : Prof :=
  { opTime := addTo p.opTime c.op (c.t3 - c.t2)
    opCount := addTo p.opCount c.op 1
    laps := p.laps ++ [⟨c.node, c.op, c.resolve - c.t0, c.prepare - c.resolve, c.lookup - c.prepare, c.t3 - c.t2⟩]
    overhead := p.overhead + (c.lookup - c.t0) }

/-- a profiled run -/
def record (cs : List Clock) : Prof := cs.foldl note {}

/-- `overhead_breakdown` (429-443): resolve, prepare, lookup -/
def breakdown (p : Prof) : ℚ × ℚ × ℚ := ((p.laps.map (·.resolve)).sum, (p.laps.map (·.prepare)).sum, (p.laps.map (·.lookup)).sum)

/-- one line of the table: operator, number of nodes, time, average in milliseconds, percentage -/
structure Row where
  op : String
  count : Nat
  time : ℚ
  avg : ℚ
  pct : ℚ
  deriving DecidableEq

/-- the time a node took (493) -/
def Lap.time (l : Lap) : ℚ := l.kernel + l.resolve + l.prepare + l.lookup

/-- `sorted(..., key=..., reverse=True)` and `sorted(..., key=-...)`: descending, stable -/
def descending {α : Type} (key : α → ℚ) (l : List α) : List α := l.insertionSort fun a b => key b ≤ key a

/-- a line of the table; both divisions raise for 0 (466-469) -/
def row (p : Prof) (total : ℚ) (e : String × ℚ) : Except PyErr Row :=
  match p.opCount.get? e.1 with
  | none => .error .keyError
  | some c =>
    if c = 0 then .error .zeroDivision
    else if total = 0 then .error .zeroDivision
    else .ok ⟨e.1, c, e.2, e.2 / c * 1000, e.2 / total * 100⟩

/-- the lines in order -/
def rows (p : Prof) (total : ℚ) : List (String × ℚ) → Except PyErr (List Row)
  | [] => .ok []
  | e :: es =>
    match row p total e with
    | .error x => .error x
    | .ok r =>
      match rows p total es with
      | .error x => .error x
      | .ok rs => .ok (r :: rs)

/-- a percentage that is 0 when there is nothing to divide by (484-485) -/
def pctOr0 (t total : ℚ) : ℚ := if 0 < total then t / total * 100 else 0

/-- what `print_profile` shows (448-499) -/
structure Report where
  table : List Row
  nodes : Nat
  kernel : ℚ
  kernelPct : ℚ
  overhead : ℚ
  overheadPct : ℚ
  total : ℚ
  /-- share of each part of the overhead -/
  shares : ℚ × ℚ × ℚ
  slowest : List Lap

/-- `print_profile` (448-499) -/
def report (p : Prof) : Except PyErr Report :=
  let kernel := (p.opTime.map (·.2)).sum
  let total := kernel + p.overhead
  match rows p total (descending (·.2) p.opTime) with
  | .error x => .error x
  | .ok table =>
    if total = 0 then .error .zeroDivision
    else
      let b := breakdown p
      .ok { table := table, nodes := (p.opCount.map (·.2)).sum, kernel := kernel, kernelPct := kernel / total * 100
            overhead := p.overhead, overheadPct := p.overhead / total * 100, total := total
            shares := (pctOr0 b.1 p.overhead, pctOr0 b.2.1 p.overhead, pctOr0 b.2.2 p.overhead)
            slowest := (descending Lap.time p.laps).take 10 }

/-- a tensor with its block: name, start, end (771-774) -/
abbrev Block := String × Nat × Nat

/-- the blocks of the operands and results (769-774) -/
def nodeBlocks (blocks : Dict (Nat × Nat)) (input output : List String) : List Block :=
  (input ++ output).filterMap fun t => (blocks.get? t).map fun b => (t, b.1, b.1 + b.2)

/-- the pairs reported as overlapping (777-787), in order -/
def overlaps : List Block → List (String × String)
  | [] => []
  | a :: l => (l.filter fun b => decide (a.2.1 < b.2.2 ∧ b.2.1 < a.2.2)).map (fun b => (a.1, b.1)) ++ overlaps l

/-- `_check_overlap` (764-789): an empty list is `[OK]` -/
def checkOverlap (blocks : Dict (Nat × Nat)) (input output : List String) : List (String × String) := overlaps (nodeBlocks blocks input output)

/-- `op_counts` of `print_summary` (803-806) -/
def opCounts (ops : List String) : Dict Nat := ops.foldl (fun d op => addTo d op 1) []

/-- the larger of two tensors, the earlier one when they are equal -/
def larger (a b : String × Nat × Nat) : String × Nat × Nat := if a.2.2 < b.2.2 then b else a

/-- `max(..., key=size)` (812): the first largest; a model without pooled tensors raises -/
def largest : List (String × Nat × Nat) → Except PyErr (String × Nat × Nat)
  | [] => .error .valueError
  | a :: l => .ok (l.foldl larger a)

/-- `compare_outputs` (168-197): the verdict for two arrays given as shape and flat elements; `np.max` of nothing raises -/
def compareOutputs (rtol atol : ℚ) (shapeA : List Nat) (a : List ℚ) (shapeB : List Nat) (b : List ℚ) : Except PyErr Bool :=
  if shapeA ≠ shapeB then .ok false
  else if a.isEmpty then .error .valueError
  else .ok ((a.zip b).all fun p => decide (|p.1 - p.2| ≤ atol + rtol * |p.2|))

end OnnxTool.Diagnostics
