import Verif.Model.YoloMetrics
import Mathlib.Algebra.BigOperators.Group.List.Basic
/-!
# What average precision should mean
-/
namespace OnnxTool.Yolo
open OnnxTool

/-- annotation number `j` of the image of prediction number `i` is of the class and no earlier prediction has it; `f` says which annotation of its image a prediction got -/
def Free (anns : List Ann) (c : Int) (preds : List Pred) (f : Nat → Option Nat) (i : Nat) (p : Pred) (j : Nat) (a : Ann) : Prop :=
  (anns.filter fun b => b.imageId = p.imageId)[j]? = some a ∧ a.category = c ∧
    ∀ (k : Nat) (q : Pred), k < i → preds[k]? = some q → q.imageId = p.imageId → f k ≠ some j

/-- the overlap of a prediction with an annotation -/
def overlap (p : Pred) (a : Ann) : ℚ := boxIou p.det ⟨a.x, a.y, a.x + a.w, a.y + a.h, 0, 0⟩

/-- the greedy matching: each prediction in turn gets the free annotation that overlaps it most (the first of several), if the overlap reaches the threshold -/
def IsMatching (anns : List Ann) (c : Int) (thr : ℚ) (preds : List Pred) (f : Nat → Option Nat) : Prop :=
  ∀ (i : Nat) (p : Pred), preds[i]? = some p →
    (∀ j, f i = some j → ∃ a, Free anns c preds f i p j a ∧ thr ≤ overlap p a ∧
      ∀ j' a', Free anns c preds f i p j' a' → overlap p a' ≤ overlap p a ∧ (overlap p a' = overlap p a → j ≤ j')) ∧
    (f i = none → ∀ j a, Free anns c preds f i p j a → overlap p a < thr)

/-- how many of the first `n` predictions got an annotation -/
def hits (f : Nat → Option Nat) (n : Nat) : Nat := (List.range n).countP fun i => (f i).isSome

/-- the largest of some numbers, 0 if there are none -/
def largest (l : List ℚ) : ℚ := l.foldr max 0

/-- average precision at 101 points: for each hundredth the best precision after which the recall is greater -/
def averagePrecision (f : Nat → Option Nat) (n total : Nat) : ℚ :=
  ((List.range 101).map fun k : Nat =>
    largest (((List.range n).filter fun i => (k : ℚ) / 100 < (hits f (i + 1) : ℚ) / total).map fun i => (hits f (i + 1) : ℚ) / (i + 1))).sum / 101

/-- average precision as COCO defines it: the recall has to reach the point -/
def cocoPrecision (f : Nat → Option Nat) (n total : Nat) : ℚ :=
  ((List.range 101).map fun k : Nat =>
    largest (((List.range n).filter fun i => (k : ℚ) / 100 ≤ (hits f (i + 1) : ℚ) / total).map fun i => (hits f (i + 1) : ℚ) / (i + 1))).sum / 101

end OnnxTool.Yolo
