import Mathlib.Data.List.Forall2
import Verif.Model.Py
import Verif.Model.Grow
import Verif.Spec.ShapeInfer
import Verif.Spec.RangePool
/-!
# Specification: larger inputs (C116)
-/
namespace OnnxTool.Grow
open OnnxTool

/-- shape `s` fits into shape `s'`: as many dimensions, none larger -/
def Fits {α : Type} [LE α] (s s' : List α) : Prop := List.Forall₂ (· ≤ ·) s s'

/-- an operator with one data operand rises: whenever it accepts both a shape and one that the shape fits into, its results fit in the same way -/
def Rises {α β : Type} [LE α] [LE β] (f : List α → Except PyErr (List β)) : Prop :=
  ∀ x x' y y', Fits x x' → f x = .ok y → f x' = .ok y' → Fits y y'

/-- the same for any number of data operands -/
def RisesAll {α β : Type} [LE α] [LE β] (f : List (List α) → Except PyErr (List β)) : Prop :=
  ∀ xs xs' y y', List.Forall₂ Fits xs xs' → f xs = .ok y → f xs' = .ok y' → Fits y y'

/-- the same for some operands that do not change: those at the positions `fixed` -/
def RisesBut (fixed : Nat → Prop) {α β : Type} [LE α] [LE β] (f : List (List α) → Except PyErr (List β)) : Prop :=
  ∀ xs xs' y y', List.Forall₂ Fits xs xs' → (∀ i, fixed i → xs[i]? = xs'[i]?) → f xs = .ok y → f xs' = .ok y' → Fits y y'

/-- one axis of a slice behaves while its size goes from `d` to `d'`: with a positive step, a start counted from the end comes with an end that is counted from the
end too or lies behind the axis; with a negative step, the start lies on the axis, and an end counted from the end comes with a start counted from the end too or
lies before the axis -/
def Steady (d d' : Nat) (s e st : Int) : Prop :=
  (0 < st ∧ (0 ≤ s ∨ e < 0 ∨ (d' : Int) ≤ e)) ∨
    (st < 0 ∧ 0 < d ∧ -(d : Int) ≤ s ∧ (s < 0 ∨ 0 ≤ e ∨ (d' : Int) + e ≤ -1))

/-! ### networks -/
open OnnxTool.Engine OnnxTool.ShapeInfer

/-- the same for shapes of tensors: all dimensions are numbers -/
def DimsFit (s s' : List Dim) : Prop := ∃ a b : List Int, s = a.map Dim.num ∧ s' = b.map Dim.num ∧ Fits a b

/-- an array of numbers that are not larger than those of another array of the same shape -/
def ArrLe (a a' : Arr Int) : Prop := a.shape = a'.shape ∧ List.Forall₂ (· ≤ ·) a.data a'.data

/-- what a tensor is: its value stands for sizes (the operand of Reshape, Expand, …), or its shape is fixed (a weight) -/
structure Roles where
  sizes : String → Prop
  fixed : String → Prop

/-- `x` is below `x'`: its shape fits — is the same, if it is fixed — and, if its value stands for sizes, its numbers are not larger -/
structure Below (sizes fixed : Prop) (x x' : Seen Int) : Prop where
  shape : DimsFit x.shape x'.shape
  same : fixed → x.shape = x'.shape
  value : sizes → ∃ a a', x.value = some a ∧ x'.value = some a' ∧ ArrLe a a'

/-- A node rises: from operands below others it computes outputs below the others. -/
def RisingNode (run : Run Int) (value : Bool) (R : Roles) (n : Node) : Prop :=
  ∀ G G' : String → Seen Int, (∀ t ∈ n.input, Below (R.sizes t) (R.fixed t) (G t) (G' t)) →
    ∀ us us', run value n (n.input.map G) (n.output.map G) = .ok us → run value n (n.input.map G') (n.output.map G') = .ok us' →
      ∀ (i : Nat) (o : String) (u u' : Upd Int), n.output[i]? = some o → us[i]? = some u → us'[i]? = some u' →
        DimsFit u.newShape u'.newShape ∧ (R.sizes o → ∃ a a', u = .arr a ∧ u' = .arr a' ∧ ArrLe a a')

/-- A network of rising nodes: the computed tensors that stand for sizes are computed with their values, and no computed tensor is called fixed. -/
structure Rising (run : Run Int) (g : Graph) (M : List String) (R : Roles) : Prop where
  nodes : ∀ n ∈ g.nodemap, RisingNode run (M.contains n.name) R n
  computed : ∀ n ∈ g.nodemap, ∀ o ∈ n.output, R.sizes o → n.name ∈ M
  given : ∀ t, R.fixed t → Unproduced g.nodemap t

end OnnxTool.Grow
