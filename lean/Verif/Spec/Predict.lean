import Verif.Model.Torch
/-! # Agreement of shape inference and value inference -/
namespace OnnxTool.Values
open OnnxTool OnnxTool.Torch

variable {V : Type}

/-- Whenever the value can be computed, the shape inferred without values is the shape of that value. -/
def Agrees (predicted : Except PyErr (List Nat)) (value : Except PyErr (Tensor V)) : Prop := ∀ y, value = .ok y → predicted = .ok y.shape

/-- The same for operators that may leave the shape of their output as it was (`none`). -/
def AgreesOpt (predicted : Option (List Nat)) (value : Except PyErr (Tensor V)) : Prop := ∀ y, value = .ok y → predicted = some y.shape

/-- The same for operators whose inferred sizes are integers. -/
def AgreesInt (predicted : Except PyErr (List Int)) (value : Except PyErr (Tensor V)) : Prop := ∀ y, value = .ok y → predicted = .ok (y.shape.map Int.ofNat)

end OnnxTool.Values
