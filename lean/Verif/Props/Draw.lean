import Verif.Model.Draw
import Verif.Spec.Draw
import Verif.Props.YoloEval
import Mathlib.Data.List.GetD
/-!
# C130: images with the detections drawn in
-/
namespace OnnxTool.Props
open OnnxTool OnnxTool.Yolo OnnxTool.Draw

/-! ## Where the boxes are -/

/-- pixels that a rectangle encloses, its border included -/
def Encloses (r : Rect) (x y : Int) : Prop := r.x1 ≤ x ∧ x ≤ r.x2 ∧ r.y1 ≤ y ∧ y ≤ r.y2

/-- the box of a detection in whole pixels -/
def pixelBox (d : Det) : Rect := ⟨whole d.x1, whole d.y1, whole d.x2, whole d.y2⟩

/-- `int` takes an integer for itself, moves any number by less than one, and never away from zero. -/
theorem C130_toInt (q : ℚ) : |(whole q : ℚ) - q| < 1 ∧ |(whole q : ℚ)| ≤ |q| ∧ ∀ n : Int, whole (n : ℚ) = n := by
  have hd : (0 : ℚ) < q.den := by exact_mod_cast q.den_pos
  have hq : q * q.den = q.num := Rat.mul_den_eq_num q
  have hi : (q.num : ℚ) = q.den * (whole q : ℚ) + (q.num.tmod q.den : Int) := by
    have := Int.mul_tdiv_add_tmod q.num q.den
    unfold whole
    exact_mod_cast this.symm
  have hdz : (0 : Int) < q.den := by exact_mod_cast q.den_pos
  refine ⟨?_, ?_, ?_⟩
  · have hm : |(q.num.tmod q.den : Int)| < (q.den : Int) := by
      rw [abs_lt]
      have := Int.tmod_lt_of_pos q.num hdz
      have := Int.lt_tmod_of_pos q.num hdz
      omega
    have hm' : |((q.num.tmod q.den : Int) : ℚ)| < (q.den : ℚ) := by exact_mod_cast hm
    have : ((whole q : ℚ) - q) * q.den = -((q.num.tmod q.den : Int) : ℚ) := by
      rw [sub_mul, hq, hi]
      ring
    have h2 : |((whole q : ℚ) - q)| * q.den < 1 * q.den := by
      rw [one_mul, ← abs_of_pos hd, ← abs_mul, this, abs_neg, abs_of_pos hd]
      exact hm'
    exact lt_of_mul_lt_mul_right h2 hd.le
  · have h1 : (whole q).natAbs * q.den ≤ q.num.natAbs := by
      unfold whole
      rw [Int.natAbs_tdiv]
      exact Nat.div_mul_le_self _ _
    have h2 : |(whole q : ℚ)| * q.den ≤ |q| * q.den := by
      rw [show |q| * (q.den : ℚ) = |(q.num : ℚ)| by rw [← hq, abs_mul, abs_of_pos hd]]
      have : |whole q| * (q.den : Int) ≤ |q.num| := by
        rw [Int.abs_eq_natAbs, Int.abs_eq_natAbs]
        exact_mod_cast h1
      exact_mod_cast this
    exact le_of_mul_le_mul_right h2 hd
  · intro n
    simp [whole]

/-- **A detection is drawn exactly if its score reaches the threshold, its box is at least one pixel wide and high, and it reaches into the image beyond the first and before the last
row and column.** -/
theorem C130_drawn_iff (width height : Int) (hw : 0 < width) (hh : 0 < height) (categories : Option (List Category)) (thres : ℚ) (d : Det) :
    (∃ r, drawOne width height categories thres d = some r) ↔
      thres ≤ d.conf ∧ ((pixelBox d).x1 < (pixelBox d).x2 ∧ 0 < (pixelBox d).x2 ∧ (pixelBox d).x1 < width - 1 ∧ 1 < width) ∧
        ((pixelBox d).y1 < (pixelBox d).y2 ∧ 0 < (pixelBox d).y2 ∧ (pixelBox d).y1 < height - 1 ∧ 1 < height) := by
  unfold drawOne pixelBox inRange
  by_cases hc : d.conf < thres
  · simp [hc, not_le.mpr hc]
  · rw [if_neg hc]
    simp only []
    split
    · rename_i h
      simp only [reduceCtorEq, exists_false, false_iff]
      omega
    · rename_i h
      simp only [Option.some.injEq, exists_eq', true_iff]
      exact ⟨not_lt.mp hc, by omega, by omega⟩

/-- **The rectangle is the part of the box that lies in the image.** -/
theorem C130_rect (width height : Int) (hw : 0 < width) (hh : 0 < height) (categories : Option (List Category)) (thres : ℚ) (d : Det) (r : Drawn)
    (h : drawOne width height categories thres d = some r) (x y : Int) :
    Encloses r.rect x y ↔ Encloses (pixelBox d) x y ∧ 0 ≤ x ∧ x < width ∧ 0 ≤ y ∧ y < height := by
  have hd := (C130_drawn_iff width height hw hh categories thres d).mp ⟨r, h⟩
  unfold drawOne at h
  rw [if_neg (not_lt.mpr hd.1)] at h
  simp only [] at h
  split at h
  · cases h
  · injection h with h
    subst h
    unfold Encloses pixelBox inRange at *
    simp only [] at *
    omega

/-- The rectangle lies in the image; name, colour and number belong to the detection. -/
theorem C130_inside (width height : Int) (hw : 0 < width) (hh : 0 < height) (categories : Option (List Category)) (thres : ℚ) (d : Det) (r : Drawn)
    (h : drawOne width height categories thres d = some r) :
    (0 ≤ r.rect.x1 ∧ r.rect.x1 < r.rect.x2 ∧ r.rect.x2 < width) ∧ (0 ≤ r.rect.y1 ∧ r.rect.y1 < r.rect.y2 ∧ r.rect.y2 < height) ∧
      r.name = className categories (whole d.cls) ∧ r.color = colorOf (whole d.cls) ∧ r.conf = d.conf := by
  unfold drawOne at h
  split at h
  · cases h
  · simp only [] at h
    split at h
    · cases h
    · injection h with h
      subst h
      unfold inRange at *
      simp only [] at *
      refine ⟨by omega, by omega, ?_⟩
      simp

/-- A box of whole pixels in the original image, seen by the network in the letterbox, is drawn where it is. -/
theorem C130_roundtrip (hO wO hD wD : Nat) (h1 : 0 < hO) (h2 : 0 < wO) (h3 : 0 < hD) (h4 : 0 < wD) (thres : ℚ)
    (a b c e : Int) (hx : 0 ≤ a ∧ a < c ∧ c < wO) (hy : 0 ≤ b ∧ b < e ∧ e < hO) (cls conf : ℚ) (hconf : thres ≤ conf) :
    (annotate (letterbox hO wO hD wD) wO hO none 0 thres [inLetterbox (letterbox hO wO hD wD) ⟨a, b, c, e, cls, conf⟩]).2.map (·.rect) = [⟨a, b, c, e⟩] := by
  have hback := (C101_way_back hO wO hD wD h1 h2 h3 h4 ⟨a, b, c, e, cls, conf⟩).1
  have ht := fun n : Int => (C130_toInt 0).2.2 n
  have e1 : inRange wO a = a := by unfold inRange; omega
  have e2 : inRange hO b = b := by unfold inRange; omega
  have e3 : inRange wO c = c := by unfold inRange; omega
  have e4 : inRange hO e = e := by unfold inRange; omega
  have hone : drawOne wO hO none thres ⟨a, b, c, e, cls, conf⟩ = some ⟨⟨a, b, c, e⟩, colorOf (whole cls), className none (whole cls), conf⟩ := by
    unfold drawOne
    simp only [ht, e1, e2, e3, e4]
    rw [if_neg (not_lt.mpr hconf), if_neg (by omega)]
  unfold annotate drawDetections
  simp only [List.map_cons, List.map_nil, hback, Option.bind_none]
  rw [List.filterMap_cons_some hone]
  rfl

example : (drawOne 640 480 none (1 / 4) ⟨-5, 10 + 1 / 2, 100, 479, 0, 9 / 10⟩).map (fun r => (r.rect, r.name)) = some (⟨0, 10, 100, 479⟩, "person") := by decide +kernel

/-- a box one pixel wide, one in the last column, one without width: found by the network, not drawn -/
theorem C130_thin_counterexample : drawDetections 640 480 none (1 / 4) [⟨10 + 1 / 10, 10, 10 + 9 / 10, 20, 0, 9 / 10⟩, ⟨639, 10, 700, 20, 0, 9 / 10⟩] = [] := by decide +kernel

/-! ## Which are drawn -/

/-- The order is kept, and every rectangle belongs to a detection. -/
theorem C130_order (width height : Int) (categories : Option (List Category)) (thres : ℚ) (a b : List Det) :
    drawDetections width height categories thres (a ++ b) = drawDetections width height categories thres a ++ drawDetections width height categories thres b ∧
      (drawDetections width height categories thres a).length ≤ a.length := ⟨List.filterMap_append, List.length_filterMap_le _ _⟩

/-- The annotations drawn are all those of the image and no others, and without annotations none. -/
theorem C130_gt (lb : Letterbox) (width height : Int) (anns : List Ann) (categories : Option (List Category)) (imageId : Int) (thres : ℚ) (dets : List Det) (g : DrawnGt) :
    (g ∈ (annotate lb width height (some (anns, categories)) imageId thres dets).1 ↔ ∃ a ∈ anns, a.imageId = imageId ∧
      g.rect = ⟨whole a.x, whole a.y, whole (a.x + a.w), whole (a.y + a.h)⟩ ∧ g.horizontal = dashes (whole a.x) (whole (a.x + a.w)) ∧
      g.vertical = dashes (whole a.y) (whole (a.y + a.h)) ∧ g.color = colorOf a.category ∧ g.label = "GT: " ++ className categories a.category) ∧
    (annotate lb width height none imageId thres dets).1 = [] := by
  refine ⟨?_, rfl⟩
  unfold annotate drawGtOne
  simp only [List.mem_map, List.mem_filter, decide_eq_true_eq, Option.bind_some]
  constructor
  · rintro ⟨a, ⟨h1, h2⟩, rfl⟩
    exact ⟨a, h1, h2, rfl, rfl, rfl, rfl, rfl⟩
  · rintro ⟨a, h1, h2, h3, h4, h5, h6, h7⟩
    refine ⟨a, ⟨h1, h2⟩, ?_⟩
    cases g
    simp_all

/-- **The dashes of a side: 9 of 16 pixels, counted from its start; the end of a side whose length is a multiple of 16 is left out.** -/
theorem C130_dashes (a b p : Int) : (∃ s ∈ dashes a b, s.1 ≤ p ∧ p ≤ s.2) ↔ a ≤ p ∧ p ≤ b ∧ (p - a) % 16 ≤ 8 ∧ (p = b → (b - a) % 16 ≠ 0) := by
  unfold dashes
  simp only [List.mem_map, List.mem_range, exists_exists_and_eq_and]
  constructor
  · rintro ⟨k, h1, h2, h3⟩
    omega
  · rintro ⟨h1, h2, h3, h4⟩
    exact ⟨((p - a) / 16).toNat, by omega, by omega, by omega⟩

/-! ## Names and colours -/

theorem C130_coco_names : cocoClasses.length = 80 ∧ cocoClasses.Nodup ∧ colors.length = 20 ∧ colors.Nodup := by decide +kernel

/-- The default names are those of COCO, in the order of their numbers: class `k` is the `k`-th number in use. -/
theorem C130_coco_order : cocoClasses = cocoStandard.map (·.2) ∧ (cocoStandard.map (·.1)).Pairwise (· < ·) := by decide +kernel

/-- **C130 finding**: the default names counted from 0 under COCO's own numbers: without the category list a thing annotated as number 1, a person, is called a bicycle,
and no annotation gets its own name. -/
theorem C130_coco_numbers : className none 1 = "bicycle" ∧ ∀ x ∈ cocoStandard, className none x.1 ≠ x.2 := by decide +kernel

/-- Without categories: the 80 names of COCO, counted from 0, and a name made of the number for others. -/
theorem C130_names_default (c : Int) :
    (∀ k : Nat, c = k → k < 80 → cocoClasses[k]? = some (className none c)) ∧ (c < 0 ∨ 80 ≤ c → className none c = "cls_" ++ toString c) := by
  have hlen : cocoClasses.length = 80 := rfl
  constructor
  · rintro k rfl hk
    unfold className
    simp only [Option.getD_none, List.find?_nil]
    rw [if_pos ⟨by omega, by rw [hlen]; omega⟩]
    rw [List.getElem?_eq_getElem (by omega)]
    simp only [Int.toNat_natCast]
    rw [List.getD_eq_getElem _ _ (by omega)]
  · intro hc
    unfold className
    simp only [Option.getD_none, List.find?_nil]
    rw [if_neg (by rw [hlen]; omega)]

/-- **With the categories of an annotation file: the name of the category that has the number of the class as its id.** -/
theorem C130_names_categories (l : List Category) (hn : (l.map (·.id)).Nodup) (k : Category) (hk : k ∈ l) : className (some l) k.id = k.name := by
  unfold className
  have : l.find? (fun q => q.id = k.id) = some k := by
    cases hf : l.find? (fun q => q.id = k.id) with
    | none =>
      have := List.find?_eq_none.mp hf k hk
      simp at this
    | some q =>
      have h1 := List.find?_some hf
      have h2 := List.mem_of_find?_eq_some hf
      simp only [decide_eq_true_eq] at h1
      rw [List.inj_on_of_nodup_map hn h2 hk h1]
  simp only [Option.getD_some, this]

/-- **The classes of the network are counted from 0, in the order of the categories: all of them get their own name if the ids are counted that way …** -/
theorem C130_names_partial (l : List Category) (hids : l.map (·.id) = (List.range l.length).map Int.ofNat) (c : Nat) (hc : c < l.length) : className (some l) c = l[c].name := by
  have hn : (l.map (·.id)).Nodup := by
    rw [hids]
    exact List.nodup_range.map (fun _ _ h => Int.ofNat.inj h)
  have hid : l[c].id = c := by
    have := congrArg (·[c]?) hids
    simp only [List.getElem?_map, List.getElem?_range hc, List.getElem?_eq_getElem hc, Option.map_some, Option.some.injEq] at this
    exact this
  rw [← hid]
  exact C130_names_categories l hn l[c] (List.getElem_mem hc)

/-- **… and if they are counted from 1, as in COCO, every class but the first gets the name of the class before it.** -/
theorem C130_names_shifted (l : List Category) (hids : l.map (·.id) = (List.range l.length).map fun k : Nat => (k : Int) + 1) (c : Nat) (hc : c + 1 < l.length) :
    className (some l) ((c + 1 : Nat) : Int) = (l[c]'(by omega)).name := by
  have hn : (l.map (·.id)).Nodup := by
    rw [hids]
    exact List.nodup_range.map (fun a b h => by simpa using h)
  have hid : (l[c]'(by omega)).id = ((c + 1 : Nat) : Int) := by
    have := congrArg (·[c]?) hids
    simp only [List.getElem?_map, List.getElem?_range (show c < l.length by omega), List.getElem?_eq_getElem (show c < l.length by omega), Option.map_some, Option.some.injEq] at this
    rw [this]
    push_cast
    rfl
  rw [← hid]
  exact C130_names_categories l hn _ (List.getElem_mem _)

/-- COCO's file: a detected bicycle (class 1) is labelled `person`, the annotation of the same bicycle (category 2) `bicycle` -/
theorem C130_bicycle_counterexample :
    let coco : List Category := [⟨1, "person"⟩, ⟨2, "bicycle"⟩, ⟨3, "car"⟩]
    let r := annotate (letterbox 640 640 640 640) 640 640 (some ([⟨7, 2, 10, 10, 100, 100⟩], some coco)) 7 (1 / 4) [⟨10, 10, 110, 110, 1, 9 / 10⟩]
    r.1.map (fun g => (g.rect, g.label)) = [(⟨10, 10, 110, 110⟩, "GT: bicycle")] ∧ r.2.map (fun d => (d.rect, d.name)) = [(⟨10, 10, 110, 110⟩, "person")] ∧
      className none 1 = "bicycle" := by decide +kernel

/-- **Two classes have one colour exactly if they are a multiple of 20 apart.** -/
theorem C130_color_iff (c d : Int) : colorOf c = colorOf d ↔ (c - d) % 20 = 0 := by
  have hlen : colors.length = 20 := rfl
  have hn : colors.Nodup := C130_coco_names.2.2.2
  unfold colorOf
  rw [hlen]
  have h1 : (c % (20 : Nat)).toNat < colors.length := by rw [hlen]; omega
  have h2 : (d % (20 : Nat)).toNat < colors.length := by rw [hlen]; omega
  rw [List.getD_eq_getElem _ _ h1, List.getD_eq_getElem _ _ h2, hn.getElem_inj_iff]
  omega

/-- A box of the annotations and a detection of the same class in different numbering differ in colour. -/
theorem C130_color_shifted (c : Int) : colorOf (c + 1) ≠ colorOf c := by
  rw [Ne, C130_color_iff]
  omega

/-! ## Labels -/

/-- **The letters of a label are in the image exactly if there is room above the box and to its right.** -/
theorem C130_label_iff (width height : Int) (hw : 0 < width) (hh : 0 < height) (categories : Option (List Category)) (thres : ℚ) (d : Det) (r : Drawn)
    (h : drawOne width height categories thres d = some r) (tw th base : Int) (_ : 0 ≤ tw ∧ 0 ≤ th ∧ 0 ≤ base) :
    (0 ≤ (labelText tw th base r.rect).x1 ∧ (labelText tw th base r.rect).x2 < width ∧ 0 ≤ (labelText tw th base r.rect).y1 ∧ (labelText tw th base r.rect).y2 < height) ↔
      th + base + 2 ≤ r.rect.y1 ∧ r.rect.x1 + 2 + tw < width := by
  obtain ⟨h1, h2, _⟩ := C130_inside width height hw hh categories thres d r h
  unfold labelText
  simp only []
  omega

/-- Where there is room, the letters are on their background. -/
theorem C130_label_back (tw th base : Int) (r : Rect) (h : th + base + 4 ≤ r.y1) :
    (labelBack tw th base r).x1 < (labelText tw th base r).x1 ∧ (labelText tw th base r).x2 < (labelBack tw th base r).x2 ∧
      (labelBack tw th base r).y1 < (labelText tw th base r).y1 ∧ (labelText tw th base r).y2 < (labelBack tw th base r).y2 := by
  unfold labelText labelBack
  simp only []
  omega

/-- a box at the upper edge: background of height 0, letters above the image -/
theorem C130_label_counterexample : labelBack 80 10 4 ⟨5, 0, 100, 100⟩ = ⟨5, 0, 89, 0⟩ ∧ labelText 80 10 4 ⟨5, 0, 100, 100⟩ = ⟨7, -16, 87, -2⟩ := by decide

end OnnxTool.Props
