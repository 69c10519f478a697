import Verif.Model.Py
import Mathlib.Data.Rat.Defs
import Mathlib.Algebra.Order.Field.Rat
/-!
# The table that compares a vision encoder with its language model (`/repo/benchmark/vision_llm_compare.py`)

`vis` and `llm` stand for building and profiling the two graphs (58-62, 66-72): the MACs of the encoder for an image, those of the decoder for a number of
tokens (the models C67 and C66 are put in for them in the theorems).  Simplifications: floating point numbers are exact; the ratio is kept as a number, not
as the text with one decimal; the parameter counts (64, 74) are computed but never used, and not modelled; printing is left out.
-/
namespace OnnxTool.VisionTable
open OnnxTool

/-- one row (79-81) -/
structure Row where
  label : String
  patches : Nat
  tokens : Nat
  vis : Nat
  llm : Nat
  ratio : ℚ
  total : Nat
  deriving DecidableEq, Repr

/-- `int(macs / 1e9)` (63, 73) -/
def giga (macs : Nat) : Nat := macs / 1000000000

/-- the body of the loop (54-81); `patch` is `model_config.get('vision_patch_size')`, 14 when there is none (47) -/
def row (patch : Option Nat) (text : Nat) (vis : List Nat → Except PyErr Nat) (llm : Nat → Except PyErr Nat) (r : String × List Nat) : Except PyErr Row :=
  match r.2[1]?, r.2[2]? with
  | some h, some w =>
    let p := patch.getD 14
    if p = 0 then .error .zeroDivision
    else
      let n := (h / p) * (w / p)
      match vis r.2 with
      | .error e => .error e
      | .ok v =>
        match llm (n + text) with
        | .error e => .error e
        | .ok l =>
          if giga l = 0 then .error .zeroDivision
          else .ok ⟨r.1, n, n + text, giga v, giga l, (giga v : ℚ) / giga l * 100, giga v + giga l⟩
  | _, _ => .error .indexError

/-- the loop over the resolutions (53-87) -/
def table (patch : Option Nat) (text : Nat) (vis : List Nat → Except PyErr Nat) (llm : Nat → Except PyErr Nat) : List (String × List Nat) → Except PyErr (List Row)
  | [] => .ok []
  | r :: rs =>
    match row patch text vis llm r with
    | .error e => .error e
    | .ok x =>
      match table patch text vis llm rs with
      | .error e => .error e
      | .ok xs => .ok (x :: xs)

/-- one row of the comparison (121-125) -/
structure Cross where
  label : String
  patches : Nat
  tokens : Nat
  first : Nat × Nat × ℚ
  second : Nat × Nat × ℚ
  deriving DecidableEq, Repr

/-- the loop over the resolutions from `i` on (117-125) -/
def cross (a b : List Row) : Nat → List String → Except PyErr (List Cross)
  | _, [] => .ok []
  | i, l :: ls =>
    match a[i]?, b[i]? with
    | some x, some y =>
      match cross a b (i + 1) ls with
      | .error e => .error e
      | .ok cs => .ok (⟨l, x.patches, x.tokens, (x.vis, x.llm, x.ratio), (y.vis, y.llm, y.ratio)⟩ :: cs)
    | _, _ => .error .indexError

end OnnxTool.VisionTable
