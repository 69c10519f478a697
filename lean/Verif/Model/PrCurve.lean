import Verif.Model.YoloEval
/-!
# The exported curve of a detector

Models `export_pr_curve` (`/repo/inference/yolo_eval.py` 890-973).

Simplified as in `Model/YoloMetrics` and `Model/YoloEval`: numbers are exact rationals, what the network says about a file is a parameter, `none` when there is no such file
(an image that is there can be read); the written JSON is the list of its points; the name of the model in it is left out.
-/
namespace OnnxTool.Yolo
open OnnxTool

/-- lines 923-929 for one row of an output of enough columns -/
def predOfRow (id : Int) (r : Nat → ℚ) : Pred := ⟨id, { x1 := r 0, y1 := r 1, x2 := r 2, y2 := r 3, cls := (toInt (r 5) : ℚ), conf := r 4 }⟩

/-- the loop over the rows (923-929): `det[4]` and `det[5]` need six columns, if there is a row at all -/
def predsOfRows (id : Int) (width : Nat) (rows : List (Nat → ℚ)) : Except PyErr (List Pred) :=
  if width < 6 ∧ rows ≠ [] then .error .indexError else .ok (rows.map (predOfRow id))

/-- lines 920-929: the predictions of one image, `output[0]` of a stack -/
def predsOfOutput (id : Int) : Output → Except PyErr (List Pred)
  | .matrix width rows => predsOfRows id width rows
  | .stack _ [] => .error .indexError
  | .stack width (rows :: _) => predsOfRows id width rows

/-- the loop over the images (912-929): files that are not there are skipped -/
def collectPreds (output : String → Option Output) : List ImageInfo → Except PyErr (List Pred)
  | [] => .ok []
  | im :: rest =>
    match output im.file with
    | none => collectPreds output rest
    | some o =>
      match predsOfOutput im.id o with
      | .error err => .error err
      | .ok ps =>
        match collectPreds output rest with
        | .error err => .error err
        | .ok l => .ok (ps ++ l)

/-- `all_preds.sort(key=lambda x: -x['score'])` (932), a stable sort -/
def byScore (preds : List Pred) : List Pred := preds.insertionSort fun p q => q.det.conf ≤ p.det.conf

/-- `np.linspace(lo, hi, n)` for `n` that is not negative (935) -/
def linspace (lo hi : ℚ) (n : Nat) : List ℚ := (List.range n).map fun i : Nat => if n = 1 then lo else lo + (i : ℚ) * ((hi - lo) / ((n : ℚ) - 1))

/-- line 940 -/
def atLeast (thr : ℚ) (preds : List Pred) : List Pred := preds.filter fun p => thr ≤ p.det.conf

/-- lines 941-961: the predictions of each image, in the order of `images` -/
def byImage (images : List ImageInfo) (filtered : List Pred) : List ImageDets :=
  images.map fun im => ⟨im.id, (filtered.filter fun p => p.imageId = im.id).map (·.det)⟩

/-- an entry of `pr_points` (964-968) -/
structure PrPoint where
  threshold : ℚ
  map50 : ℚ
  numDetections : Nat
  deriving DecidableEq

/-- the body of the loop over the thresholds (938-968); the number of classes is the default 80 -/
def prPoint (label : ℚ → String) (images : List ImageInfo) (anns : List Ann) (preds : List Pred) (thr : ℚ) : PrPoint :=
  let filtered := atLeast thr preds
  { threshold := thr
    map50 := (cocoMetrics label (byImage images filtered) anns 80 [1 / 2]).map50
    numDetections := filtered.length }

/-- `export_pr_curve(evaluator, coco_path, output_path, max_images, num_thresholds)` (890-973): the `pr_points` that are written. `np.linspace` refuses a negative number of points, after the images have been run. -/
def exportPrCurve (label : ℚ → String) (output : String → Option Output) (images : List ImageInfo) (anns : List Ann) (maxImages numThresholds : Int) : Except PyErr (List PrPoint) :=
  let used := sliceTo images maxImages
  match collectPreds output used with
  | .error err => .error err
  | .ok preds =>
    if numThresholds < 0 then .error .valueError
    else .ok ((linspace (1 / 100) (99 / 100) numThresholds.toNat).map (prPoint label used anns (byScore preds)))

end OnnxTool.Yolo
