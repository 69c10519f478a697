import Verif.Model.RangePool
import Verif.Spec.Regress
/-!
# Specification: a pool for a range of sizes (C115)
-/
namespace OnnxTool.RangePool
open OnnxTool OnnxTool.Engine OnnxTool.Regress

/-- the values `σ` lie in the announced ranges -/
def InRange (ranges : Range) (σ : String → Int) : Prop := ∀ r ∈ ranges, r.2.1 ≤ σ r.1 ∧ σ r.1 ≤ r.2.2

/-- `σ` gives every variable its largest value -/
def AtLargest (ranges : Range) (σ : String → Int) : Prop := ∀ r ∈ ranges, σ r.1 = r.2.2

/-- `σ` gives the last variable its largest value and all others their smallest -/
def AtLast (ranges : Range) (σ : String → Int) : Prop :=
  ∀ i r, ranges[i]? = some r → σ r.1 = if i + 1 = ranges.length then r.2.2 else r.2.1

/-- ordinary descriptions: one range for every variable, no variable called like a number, one description for every input, and only variables with a range -/
structure Ordinary (inputDesc : Dict (List Dim)) (ranges : Range) : Prop where
  keys_nodup : (ranges.map (·.1)).Nodup
  keys_names : ∀ r ∈ ranges, isNumeric r.1 = false
  desc_nodup : inputDesc.keys.Nodup
  desc_vars : ∀ p ∈ inputDesc, ∀ v, Dim.var v ∈ p.2 → v ∈ ranges.map (·.1)

/-- the number of elements of `t` for the values `σ` of the variables -/
def elements (s : Shapes) (t : String) : Nat := Pool.prod ((s t).map Int.toNat)

/-- larger values never make a tensor smaller -/
def Grows (infer : List (String × List Int) → Except PyErr Shapes) (inputDesc : Dict (List Dim)) (ranges : Range) (t : String) : Prop :=
  ∀ σ σ' s s', InRange ranges σ → InRange ranges σ' → (∀ r ∈ ranges, σ r.1 ≤ σ' r.1) →
    infer (inputsAt inputDesc σ) = .ok s → infer (inputsAt inputDesc σ') = .ok s' → elements s t ≤ elements s' t

/-- the pool hands out tensor `t` in every size that occurs in the ranges -/
def Serves (infer : List (String × List Int) → Except PyErr Shapes) (inputDesc : Dict (List Dim)) (ranges : Range) (m : Pool.MemoryPool) (t : String) : Prop :=
  ∀ σ s, InRange ranges σ → infer (inputsAt inputDesc σ) = .ok s → ∃ v, Pool.get m t (some ((s t).map Int.toNat)) = .ok v

end OnnxTool.RangePool
