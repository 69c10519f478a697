import Verif.Model.Memory
/-!
# When an operation raises, and what (C114)

`Fails r causes` lists, for the result `r` of a call, each exception together with its cause: the call raises exactly when one of the
causes is present, and then raises the exception listed with it.
-/
namespace OnnxTool.Raises
open OnnxTool

/-- `r` raises exactly the listed exceptions, each one exactly in the listed case -/
def Fails {α : Type} (r : Except PyErr α) (causes : List (PyErr × Prop)) : Prop :=
  ∀ e, r = .error e ↔ ∃ c ∈ causes, c.1 = e ∧ c.2

/-- a dynamic tensor that is neither an input nor an output of the graph -/
def Internal (g : Graph) (t : String) : Prop := t ∈ g.dynamics ∧ t ∉ g.input ∧ t ∉ g.output

instance (g : Graph) (t : String) : Decidable (Internal g t) := by unfold Internal; infer_instance

/-- what the internal tensors of known size occupy together -/
def internalBytes (g : Graph) (memsize : String → Option Int) : Int :=
  ((g.dynamics.filter fun t => Internal g t).map fun t => (memsize t).getD 0).sum

/-- a tensor of known size has to be placed -/
def HasWork (g : Graph) (memsize : String → Option Int) : Prop :=
  ∃ t ∈ g.dynamics, (t ∈ g.input ∨ ∃ l, g.producedby.get? t = some l) ∧ ∃ b, memsize t = some b

end OnnxTool.Raises
