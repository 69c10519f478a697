import Verif.Model.InferState
/-!
# What a call of `forward` should mean, whatever happened before it
-/
namespace OnnxTool.Infer
open OnnxTool

/-- The named dimensions of the model's inputs: variables of the input descriptions that have a range. -/
def boundVars (S : Setup) : List String :=
  S.inputDesc.flatMap fun d => d.2.filterMap fun
    | .var v => if v ∈ S.ranged then some v else none
    | .num _ => none

/-- Set the listed variables of an engine. -/
def bindVars (σ : String → Nat) : List String → Engine.Engine → Engine.Engine
  | [], se => se
  | v :: vs, se => bindVars σ vs (se.updateVariable v (σ v))

/-- The shape of `t` when the named dimensions have the values `σ`: from the engine of `__init__` with these values; the shape at the
maximum when the engine does not know `t` or gives no positive shape. -/
def refShape (S : Setup) (σ : String → Nat) (t : String) : List Nat :=
  match (bindVars σ (boundVars S) S.se0).updateVariables with
  | .error _ => []
  | .ok se =>
    match (se.getTensorShape t).toOption.filter (fun s => s.all fun d => decide (0 < d)), S.tm.get? t with
    | some s, _ => s.map Int.toNat
    | none, some i => i.shape
    | none, none => []

/-- The named dimensions have the values `σ` in a call whose first tensor has shape `shape`: every description of that rank agrees with
it, and every named dimension occurs in a description of that rank. -/
def Fits (S : Setup) (σ : String → Nat) (shape : List Nat) : Prop :=
  (∀ d ∈ S.inputDesc, d.2.length = shape.length → ∀ (i : Nat) (v : String) (n : Nat), d.2[i]? = some (.var v) → v ∈ S.ranged →
    shape[i]? = some n → n = σ v) ∧
  (∀ v ∈ boundVars S, ∃ d ∈ S.inputDesc, d.2.length = shape.length ∧ Engine.Dim.var v ∈ d.2)

/-- A call with its dimensions: there is a first tensor and it fits; no tensor outside the pool has the name of a weight. -/
structure ValidCall (S : Setup) (σ : String → Nat) (c : Call) : Prop where
  first : ∃ t shape b rest, c.inputs = (t, shape, b) :: rest ∧ Fits S σ shape
  noConst : ∀ t b, (t, b) ∈ c.bytes → S.eng.views.get? t = none → S.eng.consts.get? t = none

/-- The two assignments differ on a named dimension of the inputs. -/
def Differ (S : Setup) (σ τ : String → Nat) : Prop := ∃ v ∈ boundVars S, σ v ≠ τ v

end OnnxTool.Infer
