import Verif.Model.Torch
/-! # ONNX semantics of the remaining operators that move data -/
namespace OnnxTool.Values
open OnnxTool OnnxTool.Torch

variable {V : Type}

/-- a negative index counts from the end -/
def pos (d : Nat) (i : Int) : Nat := (if i < 0 then i + d else i).toNat

/-- Tile: axis `k` is repeated `reps[k]` times. -/
structure IsTile (reps : List Nat) (x y : Tensor V) : Prop where
  rank : y.shape.length = x.shape.length
  sizes : ∀ k, k < x.shape.length → y.shape.getD k 0 = x.shape.getD k 0 * reps.getD k 0
  value : ∀ idx src, InB y.shape idx → InB x.shape src → (∀ k, k < x.shape.length → src.getD k 0 = idx.getD k 0 % x.shape.getD k 0) →
    y.at idx = x.at src

/-- GatherElements along the axis at position `a`: only that coordinate is replaced, by the index found at the same place. -/
structure IsGatherElements (a : Nat) (x : Tensor V) (ids : Tensor Int) (y : Tensor V) : Prop where
  shape : y.shape = ids.shape
  value : ∀ idx, InB ids.shape idx → y.at idx = x.at (idx.set a (pos (x.shape.getD a 0) (ids.at idx)))

/-- GatherND with `b` batch axes; the index tensor has shape `B ++ I ++ [q]` where `B` are the first `b` axes of the data. -/
structure IsGatherND (b q : Nat) (I : List Nat) (x : Tensor V) (ids : Tensor Int) (y : Tensor V) : Prop where
  shape : y.shape = x.shape.take b ++ I ++ x.shape.drop (b + q)
  value : ∀ bi i post, InB (x.shape.take b) bi → InB I i → InB (x.shape.drop (b + q)) post →
    y.at (bi ++ i ++ post) = x.at (bi ++ ((List.range q).map fun j => pos (x.shape.getD (b + j) 0) (ids.at (bi ++ i ++ [j]))) ++ post)

/-- every entry of the index tensor (shape `I ++ [q]`) is valid for its axis of the data; negative entries count from the end -/
def TuplesOk (q : Nat) (I : List Nat) (x : Tensor V) (ids : Tensor Int) : Prop :=
  ∀ i, InB I i → ∀ j, j < q → -(x.shape.getD j 0 : Int) ≤ ids.at (i ++ [j]) ∧ ids.at (i ++ [j]) < x.shape.getD j 0

/-- where ScatterND writes the update number `i`: the first `q` coordinates -/
def scatterTarget (q : Nat) (x : Tensor V) (ids : Tensor Int) (i : List Nat) : List Nat :=
  (List.range q).map fun j => pos (x.shape.getD j 0) (ids.at (i ++ [j]))

/-- ScatterND (no reduction); the index tensor has shape `I ++ [q]`.  Positions nobody writes keep the data; the others hold the update of
one of those who write there. -/
structure IsScatterND (q : Nat) (I : List Nat) (x : Tensor V) (ids : Tensor Int) (updates y : Tensor V) : Prop where
  shape : y.shape = x.shape
  kept : ∀ idx, InB x.shape idx → (∀ i, InB I i → scatterTarget q x ids i ≠ idx.take q) → y.at idx = x.at idx
  written : ∀ idx, InB x.shape idx → (∃ i, InB I i ∧ scatterTarget q x ids i = idx.take q) →
    ∃ i, InB I i ∧ scatterTarget q x ids i = idx.take q ∧ y.at idx = updates.at (i ++ idx.drop q)

/-- Trilu: of every matrix (last two axes) the part on and above (below) diagonal `k` is kept, the rest is zero. -/
structure IsTrilu [Zero V] (upper : Bool) (k : Int) (x y : Tensor V) : Prop where
  shape : y.shape = x.shape
  value : ∀ pre (i j : Nat), InB x.shape (pre ++ [i, j]) →
    y.at (pre ++ [i, j]) = if (if upper then (i : Int) + k ≤ j else (j : Int) ≤ i + k) then x.at (pre ++ [i, j]) else 0

/-- Compress along the axis at position `a`: the entries whose flag is set, in order. -/
structure IsCompress (a : Nat) (cond : List Bool) (x y : Tensor V) : Prop where
  shape : y.shape = x.shape.take a ++ (cond.filter id).length :: x.shape.drop (a + 1)
  value : ∀ pre j src post, InB (x.shape.take a) pre → InB (x.shape.drop (a + 1)) post → cond[src]? = some true →
    ((cond.take src).filter id).length = j → y.at (pre ++ j :: post) = x.at (pre ++ src :: post)

end OnnxTool.Values
