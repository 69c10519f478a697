import Verif.Model.YoloEval
/-!
# Images with the detections drawn in

Models `get_class_name`, `draw_detections`, `draw_gt_boxes` (`/repo/inference/yolo_eval.py` 337-485) and `_save_annotated_image` (824-883): which rectangles are
drawn, where, in which colour and with which name.

Simplified: numbers are exact rationals; the size of a text in pixels is a parameter; what OpenCV paints for a rectangle is not modelled, nor is the width of lines;
a detection has its seven numbers (396); the letterbox is known (852; both callers pass it); the confidence in the label is the number, not its two decimals.
-/
namespace OnnxTool.Draw
open OnnxTool OnnxTool.Yolo

/-- `COCO_CLASSES` (337-350) -/
def cocoClasses : List String :=
  ["person", "bicycle", "car", "motorcycle", "airplane", "bus", "train", "truck", "boat", "traffic light", "fire hydrant", "stop sign",
   "parking meter", "bench", "bird", "cat", "dog", "horse", "sheep", "cow", "elephant", "bear", "zebra", "giraffe", "backpack", "umbrella",
   "handbag", "tie", "suitcase", "frisbee", "skis", "snowboard", "sports ball", "kite", "baseball bat", "baseball glove", "skateboard", "surfboard",
   "tennis racket", "bottle", "wine glass", "cup", "fork", "knife", "spoon", "bowl", "banana", "apple", "sandwich", "orange", "broccoli", "carrot",
   "hot dog", "pizza", "donut", "cake", "chair", "couch", "potted plant", "bed", "dining table", "toilet", "tv", "laptop", "mouse", "remote",
   "keyboard", "cell phone", "microwave", "oven", "toaster", "sink", "refrigerator", "book", "clock", "vase", "scissors", "teddy bear", "hair drier",
   "toothbrush"]

/-- `_COLORS` (353-359) -/
def colors : List (Nat × Nat × Nat) :=
  [(0, 255, 0), (255, 0, 0), (0, 0, 255), (255, 255, 0), (255, 0, 255), (0, 255, 255), (128, 255, 0), (255, 128, 0), (0, 128, 255), (128, 0, 255),
   (255, 0, 128), (0, 255, 128), (128, 128, 0), (128, 0, 128), (0, 128, 128), (192, 192, 192), (128, 128, 128), (255, 128, 128), (128, 255, 128),
   (128, 128, 255)]

/-- an entry of `gt['categories']` -/
structure Category where
  id : Int
  name : String
  deriving DecidableEq

/-- `get_class_name` (362-370); an empty list counts as none -/
def className (categories : Option (List Category)) (c : Int) : String :=
  match (categories.getD []).find? (fun k => k.id = c) with
  | some k => k.name
  | none => if 0 ≤ c ∧ c < cocoClasses.length then cocoClasses.getD c.toNat "" else "cls_" ++ toString c

/-- `_COLORS[cls_id % len(_COLORS)]` (418, 463); Python's `%` is not negative -/
def colorOf (c : Int) : Nat × Nat × Nat := colors.getD (c % colors.length).toNat (0, 0, 0)

/-- two corners, in pixels -/
structure Rect where
  x1 : Int
  y1 : Int
  x2 : Int
  y2 : Int
  deriving DecidableEq

/-- a box with its label -/
structure Drawn where
  rect : Rect
  color : Nat × Nat × Nat
  name : String
  conf : ℚ
  deriving DecidableEq

/-- `int(v)`: towards zero -/
def whole (q : ℚ) : Int := q.num.tdiv q.den

/-- `max(0, min(v, n - 1))` (410-413) -/
def inRange (n v : Int) : Int := max 0 (min v (n - 1))

/-- one round of `draw_detections` (396-433) on an image of the given width and height -/
def drawOne (width height : Int) (categories : Option (List Category)) (thres : ℚ) (d : Det) : Option Drawn :=
  if d.conf < thres then none
  else
    let r : Rect := ⟨inRange width (whole d.x1), inRange height (whole d.y1), inRange width (whole d.x2), inRange height (whole d.y2)⟩
    if r.x2 ≤ r.x1 ∨ r.y2 ≤ r.y1 then none
    else some ⟨r, colorOf (whole d.cls), className categories (whole d.cls), d.conf⟩

/-- `draw_detections` (373-435) -/
def drawDetections (width height : Int) (categories : Option (List Category)) (thres : ℚ) (dets : List Det) : List Drawn :=
  dets.filterMap (drawOne width height categories thres)

/-- the background of a label (426-428); `tw`, `th`, `base`: size of the text -/
def labelBack (tw th base : Int) (r : Rect) : Rect := ⟨r.x1, max 0 (r.y1 - th - base - 4), r.x1 + tw + 4, r.y1⟩

/-- where the letters of a label are (431): the text stands on the line `y1 - baseline - 2`, `base` is below it -/
def labelText (tw th base : Int) (r : Rect) : Rect := ⟨r.x1 + 2, r.y1 - base - 2 - th, r.x1 + 2 + tw, r.y1 - 2⟩

/-- the dashes of one side (467-469, 471-473): `range(a, b, 16)`, each up to 8 long -/
def dashes (a b : Int) : List (Int × Int) :=
  (List.range ((b - a + 15) / 16).toNat).map fun k : Nat => (a + 16 * k, min (a + 16 * k + 8) b)

/-- a box of the annotations with its label (460-483): corners, dashes of the horizontal and of the vertical sides -/
structure DrawnGt where
  rect : Rect
  horizontal : List (Int × Int)
  vertical : List (Int × Int)
  color : Nat × Nat × Nat
  label : String
  deriving DecidableEq

/-- one round of `draw_gt_boxes` (459-483) -/
def drawGtOne (categories : Option (List Category)) (a : Ann) : DrawnGt :=
  let r : Rect := ⟨whole a.x, whole a.y, whole (a.x + a.w), whole (a.y + a.h)⟩
  ⟨r, dashes r.x1 r.x2, dashes r.y1 r.y2, colorOf a.category, "GT: " ++ className categories a.category⟩

/-- `_save_annotated_image` (824-883): what is drawn on an image of the given size, the annotations first -/
def annotate (lb : Letterbox) (width height : Int) (gt : Option (List Ann × Option (List Category))) (imageId : Int) (thres : ℚ) (dets : List Det) : List DrawnGt × List Drawn :=
  let categories := gt.bind (·.2)
  let gts := match gt with
    | none => []
    | some g => (g.1.filter fun a => a.imageId = imageId).map (drawGtOne categories)
  (gts, drawDetections width height categories thres (dets.map (toOriginal lb)))

end OnnxTool.Draw
