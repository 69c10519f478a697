import Verif.Model.ShapeEngine
/-!
# `LLMInfer.__init__`: the description of the model's inputs (`/repo/inference/llm_infer.py` 126-207)

From the inputs, constants and declared shapes of the loaded graph to the `input_desc` / `input_range` given to `GraphInfer`.
Dropped: the tokenizer, printing, and the construction of `GraphInfer` itself (`Model/Infer.lean`).  A declared dimension is an integer
or a symbolic name (`shape_of_tensor`, `/repo/onnx_tool/tensor.py` 15-26); they are Python `int`s, so `isinstance(s, int)` is true
exactly for the integers.
-/
namespace OnnxTool.LlmInit
open OnnxTool OnnxTool.Engine

abbrev Desc := Dict (List Dim)
abbrev Range := Dict (Int × Int)

/-- `isinstance(s, int) and s > 0` (166, 183) -/
def fixed : Dim → Bool
  | .num k => decide (0 < k)
  | .var _ => false

/-- `dynamic_input_names` (154) -/
def dynamicNames : List String := ["ids", "position", "n_past", "kv_cache"]

/-- `input_names = [n for n in all_inputs if n not in initials_set]` (138-140) -/
def inputNames (inputs initials : List String) : List String := inputs.filter fun n => !initials.contains n

/-- `f'dim_{name}_{i}'` (169) -/
def dimVar (name : String) (i : Nat) : String := "dim_" ++ name ++ "_" ++ toString i

/-- The upper end of a symbolic dimension (171-174) -/
def upper (name : String) (maxSeq : Int) : Int := if name = "kv_cache" then maxSeq * 32 else maxSeq

/-- The loop over the dimensions of one input (164-174), from dimension `i` on -/
def dims (name : String) (maxSeq : Int) : Nat → List Dim → Range → List Dim × Range
  | _, [], r => ([], r)
  | i, s :: shape, r =>
    if fixed s then
      let rest := dims name maxSeq (i + 1) shape r
      (s :: rest.1, rest.2)
    else
      let rest := dims name maxSeq (i + 1) shape (r.set (dimVar name i) (1, upper name maxSeq))
      (.var (dimVar name i) :: rest.1, rest.2)

/-- One turn of the loop over the inputs (155-175) -/
def describe (shapes : Dict (List Dim)) (maxSeq : Int) (acc : Desc × Range) (name : String) : Desc × Range :=
  if dynamicNames.contains name then
    match shapes.get? name with
    | none => acc
    | some shape =>
      if name = "n_past" then (acc.1.set name [], acc.2)
      else if shape.isEmpty then acc
      else
        let d := dims name maxSeq 0 shape acc.2
        (acc.1.set name d.1, d.2)
  else acc

/-- The correction for a cache whose declared shape is fixed (179-184) -/
def fixCache (names : List String) (shapes : Dict (List Dim)) (d : Desc) : Desc :=
  if names.contains "kv_cache" && d.has "kv_cache" then
    match shapes.get? "kv_cache" with
    | none => d
    | some s => if !s.isEmpty && s.all fixed then d.set "kv_cache" s else d
  else d

/-- The last dimension of a described input becomes `'seq'` (197-202): the new description and range, or nothing to do. -/
def lastToSeq (desc : List Dim) : Option (List Dim × Int) :=
  if 2 ≤ desc.length then
    match desc.getLast? with
    | some (.num k) => some (desc.dropLast ++ [.var "seq"], k)
    | _ => none
  else none

/-- One turn of the loop of the all-fixed case (194-203) -/
def makeSeq (acc : Desc × Range) (name : String) : Desc × Range :=
  if name = "kv_cache" ∨ name = "n_past" then acc
  else
    match acc.1.get? name with
    | none => acc
    | some desc =>
      match lastToSeq desc with
      | none => acc
      | some (d, k) => (acc.1.set name d, acc.2.set "seq" (1, k))

/-- The fallback when no input has a known name (187-191); `input_names[0]` may raise. -/
def fallback (names : List String) (maxSeq : Int) : Except PyErr (Desc × Range) :=
  match names with
  | [] => .error .indexError
  | [a] => .ok ([(a, [.num 1, .var "seq"])], [("seq", (1, maxSeq))])
  | a :: b :: _ =>
    .ok (Dict.set [(a, [.num 1, .var "seq"])] b [.num 1, .var "seq"], [("seq", (1, maxSeq))])

/-- `input_desc` and `input_range` given to the engine (137-203) -/
def build (inputs initials : List String) (shapes : Dict (List Dim)) (maxSeq : Int) : Except PyErr (Desc × Range) :=
  let names := inputNames inputs initials
  let first := names.foldl (describe shapes maxSeq) ([], [])
  let d := fixCache names shapes first.1
  if d.isEmpty then fallback names maxSeq
  else if first.2.isEmpty then .ok (d.keys.foldl makeSeq (d, first.2))
  else .ok (d, first.2)

end OnnxTool.LlmInit
