import Verif.Model.ShapeEngine
/-!
# What an LLM session should tell the engine about the model's inputs

Written from the documentation of `LLMInfer` and of `GraphInfer`: `input_desc` gives for each input its dimensions, a number or a
variable; `input_range` gives for each variable its least and greatest value.  No definition of `Model/LlmInit.lean` is used.
-/
namespace OnnxTool.LlmInit.Spec
open OnnxTool OnnxTool.Engine

/-- what is known of the loaded model: its inputs in order, its constants, the declared shapes -/
structure Facts where
  inputs : List String
  initials : List String
  shapes : Dict (List Dim)

/-- an input the caller must feed: not a constant of the model -/
def Fed (m : Facts) (n : String) : Prop := n ∈ m.inputs ∧ n ∉ m.initials

/-- a dimension declared as a positive number -/
def Known (d : Dim) : Prop := ∃ k, d = .num k ∧ 0 < k

/-- a fed tensor input under one of the names an LLM session understands, with its declared (non-empty) shape -/
def Declares (m : Facts) (n : String) (s : List Dim) : Prop :=
  Fed m n ∧ (n = "ids" ∨ n = "position" ∨ n = "kv_cache") ∧ m.shapes.get? n = some s ∧ s ≠ []

/-- some understood input has a dimension of unknown size -/
def HasFree (m : Facts) : Prop := ∃ n s d, Declares m n s ∧ d ∈ s ∧ ¬ Known d

/-- some input has an understood name and a declared shape (for `n_past`, any) -/
def Understood (m : Facts) : Prop := (∃ n s, Declares m n s) ∨ (Fed m "n_past" ∧ ∃ s, m.shapes.get? "n_past" = some s)

/-- the variable of dimension `i` of input `n` -/
def freeVar (n : String) (i : Nat) : String := "dim_" ++ n ++ "_" ++ toString i

/-- the description with one variable per unknown dimension -/
def DescribesFree (n : String) (s ds : List Dim) : Prop :=
  ds.length = s.length ∧ ∀ (i : Nat) (d : Dim), s[i]? = some d →
    (Known d → ds[i]? = some d) ∧ (¬ Known d → ds[i]? = some (.var (freeVar n i)))

/-- the description of a fully declared token input: the last dimension becomes the common variable `seq` when there are at least two -/
def DescribesSeq (s ds : List Dim) : Prop :=
  (2 ≤ s.length → ds = s.dropLast ++ [.var "seq"]) ∧ (s.length < 2 → ds = s)

/-- every variable of every description has a range -/
def AllRanged (d : Dict (List Dim)) (r : Dict (Int × Int)) : Prop :=
  ∀ n ds v, d.get? n = some ds → Dim.var v ∈ ds → ∃ hi, r.get? v = some (1, hi)

/-- every range is that of a variable in use -/
def NoSpare (d : Dict (List Dim)) (r : Dict (Int × Int)) : Prop :=
  ∀ v x, r.get? v = some x → ∃ n ds, d.get? n = some ds ∧ Dim.var v ∈ ds

end OnnxTool.LlmInit.Spec
