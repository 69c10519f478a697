import Verif.Model.YoloEval
import Verif.Props.Yolo
import Verif.Props.YoloMetrics
/-!
# C101 — evaluating a detector: letterbox, coordinates and the images that count
-/
namespace OnnxTool.Props
open OnnxTool OnnxTool.Yolo

/-! ## The letterbox -/

theorem lbScale_pos (a b c d : Nat) (ha : 0 < a) (hb : 0 < b) (hc : 0 < c) (hd : 0 < d) : 0 < (letterbox a b c d).scale := by
  unfold letterbox
  simp only []
  have a' : (0 : ℚ) < a := by exact_mod_cast ha
  have b' : (0 : ℚ) < b := by exact_mod_cast hb
  have c' : (0 : ℚ) < c := by exact_mod_cast hc
  have d' : (0 : ℚ) < d := by exact_mod_cast hd
  exact lt_min (div_pos c' a') (div_pos d' b')

theorem floor_facts (x : ℚ) (n : Nat) (h0 : 0 ≤ x) (hn : x ≤ n) : (x.floor.toNat : ℚ) ≤ x ∧ x < x.floor.toNat + 1 ∧ x.floor.toNat ≤ n ∧ (x = n → x.floor.toNat = n) := by
  have h1 : (x.floor : ℚ) ≤ x := Rat.floor_le x
  have h2 : x < x.floor + 1 := by have := Rat.lt_floor_add_one x; exact_mod_cast this
  have h3 : 0 ≤ x.floor := by
    by_contra h
    have : x.floor + 1 ≤ 0 := by omega
    have : ((x.floor : ℚ) + 1) ≤ 0 := by exact_mod_cast this
    linarith
  have e : ((x.floor.toNat : Nat) : Int) = x.floor := Int.toNat_of_nonneg h3
  have e' : ((x.floor.toNat : Nat) : ℚ) = (x.floor : ℚ) := by exact_mod_cast congrArg (fun z : Int => (z : ℚ)) e
  refine ⟨by rw [e']; exact h1, by rw [e']; exact h2, ?_, ?_⟩
  · have : ((x.floor.toNat : Nat) : ℚ) ≤ n := by rw [e']; linarith
    exact_mod_cast this
  · rintro rfl
    have h4 : ((n : Int)) ≤ (n : ℚ).floor := by
      have : ((n : Int) : ℚ) < (n : ℚ).floor + 1 := by push_cast; exact h2
      have : (n : Int) < (n : ℚ).floor + 1 := by exact_mod_cast this
      omega
    have h5 : (n : ℚ).floor ≤ (n : Int) := by
      have : ((n : ℚ).floor : ℚ) ≤ ((n : Int) : ℚ) := by push_cast; exact h1
      exact_mod_cast this
    omega

/-- C101: the letterbox keeps the proportions: one scale for both sides, the largest that fits; the scaled image (rounded down) fits, one side fills the target, and the borders, equal up to one
pixel, complete it to the target size -/
theorem C101_letterbox (hO wO hD wD : Nat) (h1 : 0 < hO) (h2 : 0 < wO) (h3 : 0 < hD) (h4 : 0 < wD) :
    let lb := letterbox hO wO hD wD
    (∀ s : ℚ, s * hO ≤ hD ∧ s * wO ≤ wD ↔ s ≤ lb.scale) ∧
    ((lb.newH : ℚ) ≤ lb.scale * hO ∧ lb.scale * hO < lb.newH + 1) ∧ ((lb.newW : ℚ) ≤ lb.scale * wO ∧ lb.scale * wO < lb.newW + 1) ∧
    (lb.newH = hD ∨ lb.newW = wD) ∧
    0 ≤ lb.padTop ∧ 0 ≤ lb.padLeft ∧ lb.padTop + lb.newH + lb.padBottom = hD ∧ lb.padLeft + lb.newW + lb.padRight = wD ∧
    (lb.padBottom = lb.padTop ∨ lb.padBottom = lb.padTop + 1) ∧ (lb.padRight = lb.padLeft ∨ lb.padRight = lb.padLeft + 1) := by
  have a' : (0 : ℚ) < hO := by exact_mod_cast h1
  have b' : (0 : ℚ) < wO := by exact_mod_cast h2
  have hs := lbScale_pos hO wO hD wD h1 h2 h3 h4
  intro lb
  have hscale : lb.scale = min ((hD : ℚ) / hO) ((wD : ℚ) / wO) := rfl
  have fitH : (hO : ℚ) * lb.scale ≤ hD := by
    have : lb.scale ≤ (hD : ℚ) / hO := by rw [hscale]; exact min_le_left _ _
    rw [le_div_iff₀ a'] at this
    linarith
  have fitW : (wO : ℚ) * lb.scale ≤ wD := by
    have : lb.scale ≤ (wD : ℚ) / wO := by rw [hscale]; exact min_le_right _ _
    rw [le_div_iff₀ b'] at this
    linarith
  obtain ⟨p1, p2, p3, p4⟩ := floor_facts ((hO : ℚ) * lb.scale) hD (mul_nonneg a'.le hs.le) fitH
  obtain ⟨q1, q2, q3, q4⟩ := floor_facts ((wO : ℚ) * lb.scale) wD (mul_nonneg b'.le hs.le) fitW
  have eH : lb.newH = ((hO : ℚ) * lb.scale).floor.toNat := rfl
  have eW : lb.newW = ((wO : ℚ) * lb.scale).floor.toNat := rfl
  have t1 : lb.padTop = ((hD : Int) - lb.newH) / 2 := rfl
  have t2 : lb.padLeft = ((wD : Int) - lb.newW) / 2 := rfl
  have t3 : lb.padBottom = ((hD : Int) - lb.newH) - ((hD : Int) - lb.newH) / 2 := rfl
  have t4 : lb.padRight = ((wD : Int) - lb.newW) - ((wD : Int) - lb.newW) / 2 := rfl
  rw [← eH] at p1 p2 p3 p4
  rw [← eW] at q1 q2 q3 q4
  refine ⟨?_, ⟨by linarith, by linarith⟩, ⟨by linarith, by linarith⟩, ?_, ?_, ?_, ?_, ?_, ?_, ?_⟩
  · intro s
    rw [hscale, le_min_iff, le_div_iff₀ a', le_div_iff₀ b']
  · rcases min_choice ((hD : ℚ) / hO) ((wD : ℚ) / wO) with h | h
    · left; apply p4; rw [hscale, h]; field_simp
    · right; apply q4; rw [hscale, h]; field_simp
  all_goals omega

/-- C101: the loaded image has the size of the network's input; it is the scaled image in the middle and grey (114) around, divided by 255 -/
theorem C101_loaded (resize : Image → Nat → Nat → Image) (im : Image) (hD wD : Nat) (h3 : 0 < hD) (h4 : 0 < wD) (b : Image) (v : Nat → Nat → Nat → ℚ) (lb : Letterbox)
    (hr : ∀ i w h, (resize i w h).height = h ∧ (resize i w h).width = w) (h : loadImage resize im hD wD = .ok (b, v, lb)) :
    b.height = hD ∧ b.width = wD ∧ lb = letterbox im.height im.width hD wD ∧
    (∀ c y x : Nat, y < lb.newH → x < lb.newW → v c (lb.padTop.toNat + y) (lb.padLeft.toNat + x) = (resize im lb.newW lb.newH).pixel y x c / 255) ∧
    (∀ c y x : Nat, ((y : Int) < lb.padTop ∨ lb.padTop + lb.newH ≤ y ∨ (x : Int) < lb.padLeft ∨ lb.padLeft + lb.newW ≤ x) → v c y x = 114 / 255) := by
  unfold loadImage at h
  split at h
  · cases h
  · rename_i hz
    push Not at hz
    simp only [] at h
    split at h
    · cases h
    · have h := Except.ok.inj h
      obtain ⟨e1, e2⟩ := Prod.mk.inj h
      obtain ⟨e2, e3⟩ := Prod.mk.inj e2
      obtain ⟨_, _, _, _, z1, z2, z3, z4, _⟩ := C101_letterbox im.height im.width hD wD (by omega) (by omega) h3 h4
      rw [e3] at z1 z2 z3 z4 e1 e2
      obtain ⟨r1, r2⟩ := hr im lb.newW lb.newH
      subst e1 e2
      refine ⟨?_, ?_, e3.symm, ?_, ?_⟩
      · simp only [withBorder, r1]; omega
      · simp only [withBorder, r2]; omega
      · intro c y x hy hx
        simp only [withBorder, r1, r2]
        rw [if_pos (by omega)]
        congr 2 <;> omega
      · intro c y x hout
        simp only [withBorder, r1, r2]
        rw [if_neg (by omega)]

/-- C101: loading fails only for an image so long and thin that its short side would vanish -/
theorem C101_loads (resize : Image → Nat → Nat → Image) (im : Image) (hD wD : Nat) (h1 : 0 < im.height) (h2 : 0 < im.width) (h3 : 0 < hD) (h4 : 0 < wD) :
    (∃ r, loadImage resize im hD wD = .ok r) ↔ im.height ≤ im.width * hD ∧ im.width ≤ im.height * wD := by
  have a' : (0 : ℚ) < im.height := by exact_mod_cast h1
  have b' : (0 : ℚ) < im.width := by exact_mod_cast h2
  have c' : (1 : ℚ) ≤ hD := by exact_mod_cast h3
  have d' : (1 : ℚ) ≤ wD := by exact_mod_cast h4
  obtain ⟨z0, ⟨p1, p2⟩, ⟨q1, q2⟩, _⟩ := C101_letterbox im.height im.width hD wD h1 h2 h3 h4
  have key : ((letterbox im.height im.width hD wD).newH = 0 ∨ (letterbox im.height im.width hD wD).newW = 0) ↔ ¬ (im.height ≤ im.width * hD ∧ im.width ≤ im.height * wD) := by
    have one : ∀ (n : Nat) (x : ℚ), (n : ℚ) ≤ x → x < n + 1 → (n = 0 ↔ x < 1) := by
      intro n x hl hu
      constructor
      · rintro rfl; simpa using hu
      · intro hx
        have : (n : ℚ) < 1 := by linarith
        have : n < 1 := by exact_mod_cast this
        omega
    rw [one _ _ p1 p2, one _ _ q1 q2]
    have e : ∀ x : ℚ, 0 < x → ((letterbox im.height im.width hD wD).scale * x < 1 ↔ ¬ ((1 / x) * im.height ≤ hD ∧ (1 / x) * im.width ≤ wD)) := by
      intro x hx
      rw [z0, not_le, lt_div_iff₀ hx]
    rw [e _ a', e _ b', ← not_and_or]
    refine not_congr ?_
    rw [one_div, one_div, inv_mul_cancel₀ a'.ne', inv_mul_cancel₀ b'.ne', inv_mul_le_iff₀ a', inv_mul_le_iff₀ b']
    constructor
    · rintro ⟨⟨_, h⟩, ⟨h', _⟩⟩
      exact ⟨by exact_mod_cast h', by exact_mod_cast h⟩
    · rintro ⟨h', h⟩
      exact ⟨⟨c', by exact_mod_cast h⟩, ⟨by exact_mod_cast h', d'⟩⟩
  unfold loadImage
  rw [if_neg (by omega)]
  simp only []
  constructor
  · rintro ⟨r, hr⟩
    by_contra hn
    rw [if_pos (key.2 hn)] at hr
    cases hr
  · intro h
    rw [if_neg (fun hk => key.1 hk h)]
    exact ⟨_, rfl⟩

/-- a box of the original image in the letterbox -/
def inLetterbox (lb : Letterbox) (d : Det) : Det :=
  { d with x1 := d.x1 * lb.scale + lb.padLeft, y1 := d.y1 * lb.scale + lb.padTop, x2 := d.x2 * lb.scale + lb.padLeft, y2 := d.y2 * lb.scale + lb.padTop }

/-- C101: the boxes drawn on the original image are the detections taken back through the letterbox -/
theorem C101_way_back (hO wO hD wD : Nat) (h1 : 0 < hO) (h2 : 0 < wO) (h3 : 0 < hD) (h4 : 0 < wD) (d : Det) :
    toOriginal (letterbox hO wO hD wD) (inLetterbox (letterbox hO wO hD wD) d) = d ∧ inLetterbox (letterbox hO wO hD wD) (toOriginal (letterbox hO wO hD wD) d) = d := by
  have hs := (lbScale_pos hO wO hD wD h1 h2 h3 h4).ne'
  unfold toOriginal inLetterbox
  constructor
  · simp only [add_sub_cancel_right, mul_div_cancel_right₀ _ hs]
  · simp only [div_mul_cancel₀ _ hs, sub_add_cancel]

/-- C101: the letterbox changes no coordinate iff the image has the size of the input, or is one pixel short in one direction -/
theorem C101_same_size (hO wO hD wD : Nat) (h1 : 0 < hO) (h2 : 0 < wO) (h3 : 0 < hD) (h4 : 0 < wD) :
    (∀ d : Det, inLetterbox (letterbox hO wO hD wD) d = d) ↔ (hO = hD ∧ (wO = wD ∨ wO + 1 = wD)) ∨ ((hO = hD ∨ hO + 1 = hD) ∧ wO = wD) := by
  obtain ⟨z0, ⟨p1, p2⟩, ⟨q1, q2⟩, z1, z2, z3, z4, z5, z6, z7⟩ := C101_letterbox hO wO hD wD h1 h2 h3 h4
  constructor
  · intro h
    have e0 := congrArg Det.x1 (h ⟨0, 0, 1, 1, 0, 0⟩)
    have e1 := congrArg Det.x2 (h ⟨0, 0, 1, 1, 0, 0⟩)
    have e2 := congrArg Det.y1 (h ⟨0, 0, 1, 1, 0, 0⟩)
    simp only [inLetterbox] at e0 e1 e2
    have hl : ((letterbox hO wO hD wD).padLeft : ℚ) = 0 := by linarith
    have ht : ((letterbox hO wO hD wD).padTop : ℚ) = 0 := by linarith
    have hs : (letterbox hO wO hD wD).scale = 1 := by linarith
    have hl' : (letterbox hO wO hD wD).padLeft = 0 := by exact_mod_cast hl
    have ht' : (letterbox hO wO hD wD).padTop = 0 := by exact_mod_cast ht
    rw [hs, one_mul] at p1 p2 q1 q2
    have c1 : (letterbox hO wO hD wD).newH = hO := by
      have u1 : (letterbox hO wO hD wD).newH ≤ hO := by exact_mod_cast p1
      have u2 : hO < (letterbox hO wO hD wD).newH + 1 := by exact_mod_cast p2
      omega
    have c2 : (letterbox hO wO hD wD).newW = wO := by
      have u1 : (letterbox hO wO hD wD).newW ≤ wO := by exact_mod_cast q1
      have u2 : wO < (letterbox hO wO hD wD).newW + 1 := by exact_mod_cast q2
      omega
    omega
  · intro h d
    have a' : (0 : ℚ) < hO := by exact_mod_cast h1
    have b' : (0 : ℚ) < wO := by exact_mod_cast h2
    have hs : (letterbox hO wO hD wD).scale = 1 := by
      apply le_antisymm
      · obtain ⟨u, w⟩ := (z0 _).2 (le_refl _)
        rcases h with ⟨rfl, _⟩ | ⟨_, rfl⟩
        · exact (mul_le_iff_le_one_left a').1 u
        · exact (mul_le_iff_le_one_left b').1 w
      · refine (z0 1).1 ⟨?_, ?_⟩ <;> rw [one_mul]
        · have : hO ≤ hD := by omega
          exact_mod_cast this
        · have : wO ≤ wD := by omega
          exact_mod_cast this
    rw [hs, one_mul] at p1 p2 q1 q2
    have u1 : (letterbox hO wO hD wD).newH ≤ hO := by exact_mod_cast p1
    have u2 : hO < (letterbox hO wO hD wD).newH + 1 := by exact_mod_cast p2
    have u3 : (letterbox hO wO hD wD).newW ≤ wO := by exact_mod_cast q1
    have u4 : wO < (letterbox hO wO hD wD).newW + 1 := by exact_mod_cast q2
    have ht' : (letterbox hO wO hD wD).padTop = 0 := by omega
    have hl' : (letterbox hO wO hD wD).padLeft = 0 := by omega
    unfold inLetterbox
    rw [hs, ht', hl']
    simp

/-! ## Which images and annotations count -/

theorem dets_ids (e : Evaluator) (images : List ImageInfo) (all : List ImageDets) (h : detsOfImages e images = .ok all) :
    all.map (·.imageId) = (images.filter fun im => (e.output im.file).isSome).map (·.id) := by
  induction images generalizing all with
  | nil => cases h; rfl
  | cons im rest ih =>
    rw [detsOfImages] at h
    cases ho : e.output im.file with
    | none =>
      rw [ho] at h
      rw [List.filter_cons, if_neg (by simp [ho])]
      exact ih all h
    | some o =>
      rw [ho] at h
      simp only [] at h
      rw [List.filter_cons, if_pos (by simp [ho])]
      cases hp : postprocess e.order o e.H e.W e.confThres e.iouThres defaultMaxDet with
      | error err => rw [hp] at h; cases h
      | ok ds =>
        rw [hp] at h
        simp only [] at h
        cases hr : detsOfImages e rest with
        | error err => rw [hr] at h; cases h
        | ok l =>
          rw [hr] at h
          cases h
          simp [ih l hr]

/-- C101: a limit of 0 or less means all images; a positive limit means the first so many -/
theorem C101_limit {α : Type} (l : List α) (maxImages : Int) :
    (maxImages ≤ 0 → limited l maxImages = l) ∧ (0 < maxImages → limited l maxImages = l.take maxImages.toNat) := by
  unfold limited
  constructor
  · intro h; rw [if_neg (by omega)]
  · intro h; rw [if_pos h]

/-- C101: `evaluate_coco` compares the detections of the files that are there, each under the id of its image, with all annotations; the number of images it reports counts the missing files too -/
theorem C101_coco (label : ℚ → String) (e : Evaluator) (images : List ImageInfo) (anns : List Ann) (n : Nat) (maxImages : Int) (m : Metrics) (k : Nat)
    (h : evaluateCoco label e images anns n maxImages = .ok (m, k)) :
    k = (limited images maxImages).length ∧ ∃ all, m = cocoMetrics label all anns n defaultThresholds ∧
      all.map (·.imageId) = ((limited images maxImages).filter fun im => (e.output im.file).isSome).map (·.id) := by
  unfold evaluateCoco at h
  simp only [] at h
  cases hd : detsOfImages e (limited images maxImages) with
  | error err => rw [hd] at h; cases h
  | ok all =>
    rw [hd] at h
    have h := Except.ok.inj h
    obtain ⟨rfl, rfl⟩ := Prod.mk.inj h
    exact ⟨rfl, all, rfl, dets_ids e _ all hd⟩

theorem preds_images (all : List ImageDets) (c : Int) (p : Pred) (hp : p ∈ predsOf all c) : p.imageId ∈ all.map (·.imageId) := by
  have := (C100_predictions all c).2.subset hp
  obtain ⟨im, him, h⟩ := List.mem_flatMap.1 this
  obtain ⟨d, _, rfl⟩ := List.mem_map.1 h
  exact List.mem_map.2 ⟨im, him, rfl⟩

theorem matchLoop_local (anns anns' : List Ann) (c : Int) (thr : ℚ) (preds : List Pred) (taken : List (Int × Nat))
    (h : ∀ p ∈ preds, annsOf anns p.imageId = annsOf anns' p.imageId) : matchLoop anns c thr preds taken = matchLoop anns' c thr preds taken := by
  induction preds generalizing taken with
  | nil => rfl
  | cons p rest ih =>
    have hf : freeAnns anns c p.imageId taken = freeAnns anns' c p.imageId taken := by
      unfold freeAnns
      rw [h p (by simp)]
    have ih' := fun t => ih t fun q hq => h q (by simp [hq])
    simp only [matchLoop, hf, ih']

theorem count_below (n : Nat) (r : ℚ) (hr : 0 ≤ r) : (((List.range n).countP fun k : Nat => (k : ℚ) < r : Nat) : ℚ) ≤ r + 1 := by
  induction n with
  | zero => simp; linarith
  | succ n ih =>
    rw [List.range_succ, List.countP_append]
    by_cases h : (n : ℚ) < r
    · have hle : (List.range n).countP (fun k : Nat => decide ((k : ℚ) < r)) ≤ n := le_trans List.countP_le_length (by simp)
      have hle' : (((List.range n).countP (fun k : Nat => decide ((k : ℚ) < r)) : Nat) : ℚ) ≤ n := by exact_mod_cast hle
      simp only [List.countP_cons, List.countP_nil, h, decide_true, if_true]
      push_cast
      linarith
    · simp only [List.countP_cons, List.countP_nil, h, decide_false]
      simpa using ih

/-- C101 (finding): annotations of images that are not evaluated (because of `max_images`, or without file) still count as missed: the value of a class is at most about the share of its annotations
that lie in evaluated images -/
theorem C101_share (all : List ImageDets) (anns : List Ann) (thr : ℚ) (c : Int) (v : ℚ) (h : apOfClass all anns thr c = some v) :
    v ≤ (100 * ((anns.countP fun a => a.category = c ∧ a.imageId ∈ all.map (·.imageId) : Nat) : ℚ) / ((anns.countP fun a => a.category = c : Nat) : ℚ) + 1) / 101 := by
  rw [apOfClass_eq] at h
  split at h
  · cases h
  · rename_i h0
    cases h
    have ht : (0 : ℚ) < totalGt anns c := by exact_mod_cast Nat.pos_of_ne_zero h0
    set S := anns.countP fun a => a.category = c ∧ a.imageId ∈ all.map (·.imageId) with hS
    have hhits : ∀ i, i < (predsOf all c).length → hits (gets anns c thr (predsOf all c)) (i + 1) ≤ S := by
      intro i hi
      let anns' := anns.filter fun a => a.imageId ∈ all.map (·.imageId)
      have hloc : matchLoop anns c thr (predsOf all c) [] = matchLoop anns' c thr (predsOf all c) [] := by
        refine matchLoop_local anns anns' c thr _ [] fun p hp => ?_
        have hm := preds_images all c p hp
        unfold annsOf
        rw [List.filter_filter]
        refine List.filter_congr fun a _ => ?_
        by_cases ha : a.imageId = p.imageId
        · rw [ha]; simp [hm]
        · simp [ha]
      have h1 := hits_gets anns c thr (predsOf all c) (i + 1) (by omega)
      have h2 := hits_gets anns' c thr (predsOf all c) (i + 1) (by omega)
      rw [h1, hloc, ← h2]
      have h3 := hits_le_total anns' c thr (predsOf all c) (i + 1) (by omega)
      unfold totalGt at h3
      rw [List.countP_filter] at h3
      refine le_trans h3 (le_of_eq ?_)
      rw [hS]
      refine List.countP_congr fun a _ => ?_
      simp
    show averagePrecision _ _ _ ≤ (100 * (S : ℚ) / (totalGt anns c : ℚ) + 1) / 101
    unfold averagePrecision
    rw [div_le_div_iff_of_pos_right (by norm_num)]
    set r : ℚ := 100 * (S : ℚ) / (totalGt anns c : ℚ) with hr
    have hr0 : 0 ≤ r := by positivity
    refine le_trans (sum_le_of (List.range 101) _ (fun k : Nat => if (k : ℚ) < r then 1 else 0) fun k _ => ?_) ?_
    · by_cases hk : (k : ℚ) < r
      · rw [if_pos hk]
        refine largest_le _ 1 (by norm_num) fun x hx => ?_
        obtain ⟨i, _, rfl⟩ := List.mem_map.1 hx
        exact precision_le _ i
      · rw [if_neg hk]
        have : ((List.range (predsOf all c).length).filter fun i => (k : ℚ) / 100 < (hits (gets anns c thr (predsOf all c)) (i + 1) : ℚ) / (totalGt anns c : ℚ)) = [] := by
          refine List.filter_eq_nil_iff.2 fun i hi => ?_
          rw [decide_eq_true_eq, not_lt]
          have h1 : (hits (gets anns c thr (predsOf all c)) (i + 1) : ℚ) ≤ S := by exact_mod_cast hhits i (List.mem_range.1 hi)
          have h2 : (hits (gets anns c thr (predsOf all c)) (i + 1) : ℚ) / (totalGt anns c : ℚ) ≤ (S : ℚ) / (totalGt anns c : ℚ) := (div_le_div_iff_of_pos_right ht).2 h1
          refine le_trans h2 ?_
          rw [le_div_iff₀ (by norm_num : (0 : ℚ) < 100)]
          push Not at hk
          refine le_trans (le_of_eq ?_) hk
          rw [hr]
          ring
        rw [this]
        simp [largest]
    · have : ∀ l : List Nat, (l.map fun k : Nat => if (k : ℚ) < r then (1 : ℚ) else 0).sum = ((l.countP fun k : Nat => (k : ℚ) < r : Nat) : ℚ) := by
        intro l
        induction l with
        | nil => simp
        | cons a l ih =>
          rw [List.map_cons, List.sum_cons, ih, List.countP_cons]
          by_cases ha : (a : ℚ) < r
          · simp [ha]; ring
          · simp [ha]
      rw [this]
      exact count_below 101 r hr0

theorem files_ids (e : Evaluator) (files : List String) (i : Nat) (all : List ImageDets) (h : detsOfFiles e files i = .ok all) :
    all.map (·.imageId) = (List.range' i files.length).map fun k : Nat => (k : Int) := by
  induction files generalizing i all with
  | nil => cases h; rfl
  | cons f rest ih =>
    rw [detsOfFiles] at h
    cases ho : e.output f with
    | none => rw [ho] at h; cases h
    | some o =>
      rw [ho] at h
      simp only [] at h
      cases hp : postprocess e.order o e.H e.W e.confThres e.iouThres defaultMaxDet with
      | error err => rw [hp] at h; cases h
      | ok ds =>
        rw [hp] at h
        simp only [] at h
        cases hr : detsOfFiles e rest (i + 1) with
        | error err => rw [hr] at h; cases h
        | ok l =>
          rw [hr] at h
          cases h
          rw [List.map_cons, ih (i + 1) l hr, List.length_cons, List.range'_succ, List.map_cons]

/-- C101: `evaluate_image_dir` numbers the image files 0, 1, 2, ... in alphabetic order, whatever ids the annotations have -/
theorem C101_dir_ids (label : ℚ → String) (e : Evaluator) (isImage : String → Bool) (listing : List String) (anns : List Ann) (n : Nat) (maxImages : Int) (all : List ImageDets) (m : Metrics)
    (h : evaluateDir label e isImage listing anns n maxImages = .ok (all, m)) :
    all.map (·.imageId) = (List.range (limited ((listing.filter isImage).insertionSort (· ≤ ·)) maxImages).length).map (fun k : Nat => (k : Int)) ∧
    m = cocoMetrics label all anns n defaultThresholds := by
  unfold evaluateDir at h
  simp only [] at h
  cases hd : detsOfFiles e (limited ((listing.filter isImage).insertionSort (· ≤ ·)) maxImages) 0 with
  | error err => rw [hd] at h; cases h
  | ok l =>
    rw [hd] at h
    have h := Except.ok.inj h
    obtain ⟨rfl, rfl⟩ := Prod.mk.inj h
    refine ⟨?_, rfl⟩
    rw [files_ids e _ 0 l hd, List.range_eq_range']

/-- without an annotation in an evaluated image every value is zero -/
theorem map_zero (all : List ImageDets) (anns : List Ann) (n : Nat) (thr : ℚ) (h : ∀ a ∈ anns, a.imageId ∉ all.map (·.imageId)) : mapAt all anns n thr = 0 := by
  have hz : ∀ c v, apOfClass all anns thr c = some v → v = 0 := by
    intro c v hv
    obtain ⟨f, hf, _⟩ := C100_matching_unique anns c thr (predsOf all c)
    rw [C100_class all anns thr c f hf] at hv
    split at hv
    · cases hv
    · cases hv
      refine C100_no_match f _ _ fun i hi => ?_
      cases hfi : f i with
      | none => rfl
      | some j =>
        obtain ⟨a, ha, _⟩ := (hf i _ (List.getElem?_eq_getElem hi)).1 j hfi
        have hmem := List.mem_of_getElem? ha.1
        rw [List.mem_filter] at hmem
        have hid : a.imageId = (predsOf all c)[i].imageId := by simpa using hmem.2
        exact absurd (hid ▸ preds_images all c _ (List.getElem_mem hi)) (h a hmem.1)
  unfold mapAt
  simp only []
  split
  · rfl
  · have : ((List.range n).filterMap fun c : Nat => apOfClass all anns thr (c : Int)).sum = 0 := by
      have hall : ∀ v ∈ (List.range n).filterMap (fun c : Nat => apOfClass all anns thr (c : Int)), v = 0 := by
        intro v hv
        obtain ⟨c, _, hc⟩ := List.mem_filterMap.1 hv
        exact hz c v hc
      exact List.sum_eq_zero hall
    unfold mean
    rw [this, zero_div]

/-- C101 (finding): if the annotations do not number the images 0, 1, 2, ... (COCO's ids are six-digit numbers) every value of `evaluate_image_dir` is zero, however good the detections are -/
theorem C101_dir_foreign_ids (label : ℚ → String) (e : Evaluator) (isImage : String → Bool) (listing : List String) (anns : List Ann) (n : Nat) (maxImages : Int) (all : List ImageDets) (m : Metrics)
    (hl : (defaultThresholds.map label).Nodup) (h : evaluateDir label e isImage listing anns n maxImages = .ok (all, m))
    (hids : ∀ a ∈ anns, a.imageId < 0 ∨ (listing.filter isImage).length ≤ a.imageId) : m.map = some 0 ∧ ∀ q ∈ m.perIou, q.2 = 0 := by
  obtain ⟨h1, rfl⟩ := C101_dir_ids label e isImage listing anns n maxImages all m h
  have hlen : (limited ((listing.filter isImage).insertionSort (· ≤ ·)) maxImages).length ≤ (listing.filter isImage).length := by
    unfold limited
    split
    · rw [List.length_take, List.length_insertionSort]; omega
    · rw [List.length_insertionSort]
  have hz : ∀ t, mapAt all anns n t = 0 := by
    intro t
    refine map_zero all anns n t fun a ha hmem => ?_
    rw [h1] at hmem
    obtain ⟨k, hk, e⟩ := List.mem_map.1 hmem
    have := List.mem_range.1 hk
    have := hids a ha
    omega
  obtain ⟨m1, m2, _⟩ := C100_metrics label all anns n defaultThresholds hl (by decide +kernel)
  constructor
  · rw [m2]
    simp only [hz]
    congr 1
    have : ∀ l : List ℚ, (l.map fun _ => (0 : ℚ)).sum = 0 := by intro l; induction l <;> simp_all
    rw [this, zero_div]
  · intro q hq
    rw [m1] at hq
    obtain ⟨t, _, rfl⟩ := List.mem_map.1 hq
    exact hz t

/-! ## Examples and findings -/

def shownLabel (t : ℚ) : String := "mAP@0." ++ toString (t * 100).floor

example : (defaultThresholds.map shownLabel).Nodup ∧ shownLabel (1/2) = "mAP@0.50" := by decide +kernel
example : (letterbox 480 640 640 640).scale = 1 ∧ (letterbox 480 640 640 640).padTop = 80 ∧ (letterbox 480 640 640 640).padLeft = 0 := by decide +kernel
example : (letterbox 1280 720 640 640).newW = 360 ∧ (letterbox 1280 720 640 640).padLeft = 140 := by decide +kernel

/-- the object of the image of 1280 by 1280 pixels: 100 by 100 pixels in the corner -/
def largeAnn (category : Int) : Ann := ⟨139, category, 0, 0, 100, 100⟩

/-- an errorless network for that image at an input of 640 by 640: it finds the object where the letterbox has put it, with the number of the class counted from 0 -/
def errorless : Evaluator := ⟨stableSort, fun f => if f = "a.jpg" then some (.matrix 6 [rowOf (inLetterbox (letterbox 1280 1280 640 640) ⟨0, 0, 100, 100, 0, 9/10⟩)]) else none, 640, 640, 1/4, 9/20⟩

/-- the same network for an image of 640 by 640 -/
def errorlessSmall : Evaluator := { errorless with output := fun f => if f = "a.jpg" then some (.matrix 6 [rowOf (inLetterbox (letterbox 640 640 640 640) ⟨0, 0, 100, 100, 0, 9/10⟩)]) else none }

/-- C101 (finding): detections in the coordinates of the letterbox are compared with annotations in the coordinates of the original image: an errorless network gets 0 unless the image has the
size of the input -/
theorem C101_coordinates_mixed :
    (evaluateCoco shownLabel errorless [⟨139, "a.jpg"⟩] [largeAnn 0] 80 (-1)).toOption.map (fun r => r.1.map) = some (some 0) ∧
    (evaluateCoco shownLabel errorlessSmall [⟨139, "a.jpg"⟩] [largeAnn 0] 80 (-1)).toOption.map (fun r => r.1.map) = some (some (100 / 101)) := by
  decide +kernel

/-- C101 (finding): the classes of the network, counted from 0, are compared with the category ids of the annotations, which COCO counts from 1: an errorless network gets 0 -/
theorem C101_class_ids_mixed :
    (evaluateCoco shownLabel errorlessSmall [⟨139, "a.jpg"⟩] [largeAnn 1] 80 (-1)).toOption.map (fun r => r.1.map) = some (some 0) := by
  decide +kernel

/-- C101 (finding): with `max_images` the annotations of the other images count as missed, and a missing file is counted as an image -/
theorem C101_limit_counts_all :
    (evaluateCoco shownLabel errorlessSmall [⟨139, "a.jpg"⟩, ⟨140, "b.jpg"⟩] [largeAnn 0, { largeAnn 0 with imageId := 140 }] 80 1).toOption.map (fun r => (r.1.map50, r.2)) = some (50 / 101, 1) ∧
    (evaluateCoco shownLabel errorlessSmall [⟨139, "a.jpg"⟩, ⟨140, "b.jpg"⟩] [largeAnn 0, { largeAnn 0 with imageId := 140 }] 80 (-1)).toOption.map (fun r => (r.1.map50, r.2)) = some (50 / 101, 2) := by
  decide +kernel

/-- the foreign ids of the finding above -/
example : (evaluateDir shownLabel errorlessSmall (fun _ => true) ["a.jpg"] [largeAnn 0] 80 (-1)).toOption.map (fun r => (r.1.map (·.imageId), r.2.map)) = some ([0], some 0) := by
  decide +kernel

/-- **C101, the thresholds** of the metrics are the ten of COCO: 0.5, 0.55, ..., 0.95. -/
theorem C101_thresholds : defaultThresholds = [50/100, 55/100, 60/100, 65/100, 70/100, 75/100, 80/100, 85/100, 90/100, 95/100] := by decide +kernel

end OnnxTool.Props
