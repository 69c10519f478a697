import Verif.Spec.YoloMetrics
import Verif.Model.PrCurve
/-!
# What the exported curve should say
-/
namespace OnnxTool.Yolo
open OnnxTool

/-- the rows the network gives for an image: none without a file, the first matrix of a stack -/
def rowsSeen (output : String → Option Output) (im : ImageInfo) : List (Nat → ℚ) :=
  match output im.file with
  | some (.matrix _ rows) => rows
  | some (.stack _ (rows :: _)) => rows
  | _ => []

/-- the rows of some images as boxes with the id of their image, a whole number as class, and a score -/
def seen (output : String → Option Output) (images : List ImageInfo) : List Pred :=
  images.flatMap fun im => (rowsSeen output im).map fun r => ⟨im.id, ⟨r 0, r 1, r 2, r 3, (toInt (r 5) : ℚ), r 4⟩⟩

/-- the output has a first matrix whose rows, if any, have the columns four and five -/
def Readable : Output → Prop
  | .matrix width rows => 6 ≤ width ∨ rows = []
  | .stack _ [] => False
  | .stack width (rows :: _) => 6 ≤ width ∨ rows = []

/-- the first of the predictions has the highest score, and so on; equal scores keep their order -/
def Ranked (ranked preds : List Pred) : Prop :=
  ranked.Pairwise (fun p q => q.det.conf ≤ p.det.conf) ∧ ∀ s : ℚ, ranked.filter (fun p => p.det.conf = s) = preds.filter fun p => p.det.conf = s

end OnnxTool.Yolo
