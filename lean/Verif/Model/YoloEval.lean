import Verif.Model.YoloMetrics
/-!
# Evaluating a detector on images

Models the letterbox of `load_image` (`/repo/inference/yolo_eval.py` 498-553, the branch with OpenCV), the way back in `_save_annotated_image` (848-859), and
`evaluate_coco` (630-729) and `evaluate_image_dir` (731-822) without timing, drawing and printing.

Simplified: numbers are exact rationals (in floats `int(H * scale)` can be one less); `cv2.resize` is a parameter that is only told the new size; a pixel is a function of row,
column and channel; the branch with PIL is left out; what the model says about a file is a parameter, `none` when there is no such file; a listing is a list of
names and the test of the extension a parameter.
-/
namespace OnnxTool.Yolo
open OnnxTool

/-- an image: size and pixels by row, column, channel -/
structure Image where
  height : Nat
  width : Nat
  pixel : Nat → Nat → Nat → ℚ

/-- the numbers of the letterbox -/
structure Letterbox where
  scale : ℚ
  newH : Nat
  newW : Nat
  padTop : Int
  padBottom : Int
  padLeft : Int
  padRight : Int

/-- lines 522-538 -/
def letterbox (hOrig wOrig hDst wDst : Nat) : Letterbox :=
  let scale : ℚ := min ((hDst : ℚ) / hOrig) ((wDst : ℚ) / wOrig)
  let newH := ((hOrig : ℚ) * scale).floor.toNat
  let newW := ((wOrig : ℚ) * scale).floor.toNat
  let padH : Int := hDst - newH
  let padW : Int := wDst - newW
  let padTop := padH / 2
  let padLeft := padW / 2
  { scale := scale, newH := newH, newW := newW, padTop := padTop, padBottom := padH - padTop, padLeft := padLeft, padRight := padW - padLeft }

/-- `cv2.copyMakeBorder(..., BORDER_CONSTANT, value=(114, 114, 114))` (540-541) -/
def withBorder (im : Image) (top bottom left right : Int) : Image :=
  { height := (im.height + top + bottom).toNat
    width := (im.width + left + right).toNat
    pixel := fun y x c =>
      if top ≤ y ∧ (y : Int) < top + im.height ∧ left ≤ x ∧ (x : Int) < left + im.width then im.pixel ((y : Int) - top).toNat ((x : Int) - left).toNat c else 114 }

/-- `load_image(path, target_size)` (516-548) for an image that OpenCV can read: the entries `[0, c, y, x]` and the letterbox. OpenCV refuses an empty result; the sizes of an image it read are not 0. -/
def loadImage (resize : Image → Nat → Nat → Image) (im : Image) (hDst wDst : Nat) : Except PyErr (Image × (Nat → Nat → Nat → ℚ) × Letterbox) :=
  if im.height = 0 ∨ im.width = 0 then .error .zeroDivision
  else
    let lb := letterbox im.height im.width hDst wDst
    if lb.newH = 0 ∨ lb.newW = 0 then .error .runtimeError
    else
      let b := withBorder (resize im lb.newW lb.newH) lb.padTop lb.padBottom lb.padLeft lb.padRight
      .ok (b, (fun c y x => b.pixel y x c / 255), lb)

/-- lines 852-856: a point of the letterbox in the original image -/
def toOriginal (lb : Letterbox) (d : Det) : Det :=
  { d with x1 := (d.x1 - lb.padLeft) / lb.scale, y1 := (d.y1 - lb.padTop) / lb.scale, x2 := (d.x2 - lb.padLeft) / lb.scale, y2 := (d.y2 - lb.padTop) / lb.scale }

/-- an entry of `gt['images']` -/
structure ImageInfo where
  id : Int
  file : String

/-- an evaluator: the sort of `postprocess`, the output of the network for a file, the input size and thresholds -/
structure Evaluator where
  order : List (Nat × Det) → List (Nat × Det)
  output : String → Option Output
  H : ℚ
  W : ℚ
  confThres : ℚ
  iouThres : ℚ

/-- the limit `max_det` both callers leave at its default (64) -/
def defaultMaxDet : Int := 300

/-- `images[:max_images]` if it is positive (652-653, 757-758) -/
def limited {α : Type} (l : List α) (maxImages : Int) : List α := if maxImages > 0 then l.take maxImages.toNat else l

/-- the loop of `evaluate_coco` (676-704): files that are not there are skipped -/
def detsOfImages (e : Evaluator) : List ImageInfo → Except PyErr (List ImageDets)
  | [] => .ok []
  | im :: rest =>
    match e.output im.file with
    | none => detsOfImages e rest
    | some o =>
      match postprocess e.order o e.H e.W e.confThres e.iouThres defaultMaxDet with
      | .error err => .error err
      | .ok ds =>
        match detsOfImages e rest with
        | .error err => .error err
        | .ok l => .ok (⟨im.id, ds⟩ :: l)

/-- the thresholds 0.5, 0.55, ..., 0.95 (209-210) -/
def defaultThresholds : List ℚ := (List.range 10).map fun k : Nat => (1 : ℚ) / 2 + (k : ℚ) / 20

/-- `evaluate_coco(coco_path, max_images)` (630-729): the metrics and `num_images` -/
def evaluateCoco (label : ℚ → String) (e : Evaluator) (images : List ImageInfo) (anns : List Ann) (numCategories : Nat) (maxImages : Int) : Except PyErr (Metrics × Nat) :=
  let used := limited images maxImages
  match detsOfImages e used with
  | .error err => .error err
  | .ok all => .ok (cocoMetrics label all anns numCategories defaultThresholds, used.length)

/-- the loop of `evaluate_image_dir` (765-784): the image id is the place in the listing -/
def detsOfFiles (e : Evaluator) : List String → Nat → Except PyErr (List ImageDets)
  | [], _ => .ok []
  | file :: rest, idx =>
    match e.output file with
    | none => .error .valueError
    | some o =>
      match postprocess e.order o e.H e.W e.confThres e.iouThres defaultMaxDet with
      | .error err => .error err
      | .ok ds =>
        match detsOfFiles e rest (idx + 1) with
        | .error err => .error err
        | .ok l => .ok (⟨(idx : Int), ds⟩ :: l)

/-- `evaluate_image_dir(image_dir, anno_file, max_images)` (731-822) with an annotation file: the detections and the metrics -/
def evaluateDir (label : ℚ → String) (e : Evaluator) (isImage : String → Bool) (listing : List String) (anns : List Ann) (numCategories : Nat) (maxImages : Int) :
    Except PyErr (List ImageDets × Metrics) :=
  let files := limited ((listing.filter isImage).insertionSort (· ≤ ·)) maxImages
  match detsOfFiles e files 0 with
  | .error err => .error err
  | .ok all => .ok (all, cocoMetrics label all anns numCategories defaultThresholds)

end OnnxTool.Yolo
