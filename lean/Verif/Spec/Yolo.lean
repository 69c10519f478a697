import Verif.Model.Yolo
import Mathlib.Data.Int.Interval
import Mathlib.Data.Finset.Prod
/-!
# What is expected of the detections of an image
-/
namespace OnnxTool.Yolo
open OnnxTool

/-- a sort by falling confidence: nothing lost, nothing added, the higher confidence first -/
def SortsDown (order : List (Nat × Det) → List (Nat × Det)) : Prop :=
  ∀ l, (order l).Perm l ∧ (order l).Pairwise fun p q => q.2.conf ≤ p.2.conf

/-- the part of a row of the model's output that can become a detection: sure enough, and with a nonempty part in the image -/
def candidate (H W confThres : ℚ) (r : Nat → ℚ) : Option Det :=
  let d : Det := ⟨min (max (r 0) 0) W, min (max (r 1) 0) H, min (max (r 2) 0) W, min (max (r 3) 0) H, r 5, r 4⟩
  if confThres < r 4 ∧ d.x1 < d.x2 ∧ d.y1 < d.y2 then some d else none

/-- the unit cells covered by a box with whole corners -/
def cells (x1 y1 x2 y2 : Int) : Finset (Int × Int) := Finset.Ico x1 x2 ×ˢ Finset.Ico y1 y2

/-- the greedy choice: a row is kept iff no kept row of its class with more confidence overlaps it too much -/
def Greedy (dets : List Det) (thr : ℚ) (K : Nat → Prop) : Prop :=
  ∀ (i : Nat) (d : Det), dets[i]? = some d →
    (K i ↔ ∀ (j : Nat) (e : Det), dets[j]? = some e → K j → e.cls = d.cls → d.conf < e.conf → boxIou e d ≤ thr)

/-- no two rows of one class have the same confidence -/
def Distinct (dets : List Det) : Prop := dets.Pairwise fun a b => a.cls = b.cls → a.conf ≠ b.conf

/-- the row of an output that says the same as a detection -/
def rowOf (d : Det) : Nat → ℚ
  | 0 => d.x1
  | 1 => d.y1
  | 2 => d.x2
  | 3 => d.y2
  | 4 => d.conf
  | _ => d.cls

end OnnxTool.Yolo
