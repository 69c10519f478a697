import Verif.Model.Report
/-! # Reading a report -/
namespace OnnxTool.Report
open OnnxTool

/-- The cells of a CSV file, as a program reads them that knows no quotation marks: lines end with a line break, cells are separated by commas. -/
def readCsv (s : String) : List (List String) := ((s.toList.splitOn '\n').dropLast).map fun l => (l.splitOn ',').map String.ofList

/-- A text without commas and line breaks -/
def Plain (s : String) : Prop := ',' ∉ s.toList ∧ '\n' ∉ s.toList

/-- The numbers in a text like `3x224x224` -/
def readDims (s : String) : Option (List ℕ) := ((s.toList.splitOn 'x').map String.ofList).mapM String.toNat?

/-- The row of a table states these facts about a node; `shift` is the number of columns for the sparsity. -/
structure States (row : List String) (shift factor : ℕ) (n : NodeInfo) : Prop where
  name : row[0]? = some n.name
  op : row[1]? = some n.op
  macs : row[shift + 2]?.bind String.toNat? = some (n.macs * factor)
  memory : row[shift + 4]?.bind String.toNat? = some n.memory
  params : row[shift + 6]?.bind String.toNat? = some n.params
  inshape : row[shift + 8]?.bind readDims = some n.inshape
  outshape : row[shift + 9]?.bind readDims = some n.outshape

/-- The cells with percentages are the shares of the node in the totals shown (those of a total of 0: nothing), and the sparsity if there is any. -/
structure Shares (pct : ℚ → String) (row : List String) (sparse : Bool) (t : Sums) (n : NodeInfo) : Prop where
  macs : (t.macs = 0 → n.macs = 0) → row[(if sparse then 3 else 0) + 3]? = some (pct ((n.macs : ℚ) / (f64 t.macs : ℚ)))
  memory : (t.memory = 0 → n.memory = 0) → row[(if sparse then 3 else 0) + 5]? = some (pct ((n.memory : ℚ) / (f64 t.memory : ℚ)))
  params : (t.params = 0 → n.params = 0) → row[(if sparse then 3 else 0) + 7]? = some (pct ((n.params : ℚ) / (f64 t.params : ℚ)))
  pattern : sparse = true → n.blocksize ≠ [] → row[2]?.bind readDims = some n.blocksize
  blocks : sparse = true → row[3]? = some (pct n.blockratio)
  elements : sparse = true → row[4]? = some (pct n.ratio)

/-- The row of a table states these totals. -/
structure StatesTotal (row : List String) (shift : ℕ) (macs memory params : ℕ) : Prop where
  name : row[0]? = some "Total"
  macs : row[shift + 2]?.bind String.toNat? = some macs
  memory : row[shift + 4]?.bind String.toNat? = some memory
  params : row[shift + 6]?.bind String.toNat? = some params

/-- The operators that the earlier successful calls with the default `hidden_ops` excluded -/
def excludedByDefault (valid : List String) : List Call → List String
  | [] => []
  | c :: cs =>
    (match c.hidden with
    | .default => if ∀ o ∈ c.exclude, o ∈ valid then c.exclude else []
    | _ => []) ++ excludedByDefault valid cs

end OnnxTool.Report
