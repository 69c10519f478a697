import Mathlib.Data.Rat.Floor
import Verif.Model.SrEngine
/-!
# What a user expects of the super-resolution engine
-/
namespace OnnxTool.SrEngine
open OnnxTool

/-- two arrays of the same size with the same entries (three channels) -/
def Same {α : Type} (a b : Img α) : Prop :=
  a.h = b.h ∧ a.w = b.w ∧ ∀ y x c, y < a.h → x < a.w → c < 3 → a.px y x c = b.px y x c

/-- an RGB image of eight bits per value -/
def Rgb (img : Img Nat) : Prop := 0 < img.h ∧ 0 < img.w ∧ ∀ y x c, y < img.h → x < img.w → c < 3 → img.px y x c < 256

/-- each pixel as a block of `k × k` equal pixels -/
def blocks {α : Type} (k : Nat) (img : Img α) : Img α := { h := k * img.h, w := k * img.w, px := fun y x c => img.px (y / k) (x / k) c }

/-- the left upper part of an image -/
def corner {α : Type} (h w : Nat) (img : Img α) : Img α := { img with h := h, w := w }

/-- a network that enlarges by the factor `k` -/
def Enlarges (k : Nat) (net : Img ℚ → Except PyErr (Img ℚ)) : Prop := ∀ t u, net t = .ok u → u.h = k * t.h ∧ u.w = k * t.w

/-- a value between 0 and 1 as one of 256 steps, rounded down; outside, the nearest end -/
def IsStep (x : ℚ) (v : Nat) : Prop :=
  (x < 0 → v = 0) ∧ (1 < x → v = 255) ∧ (0 ≤ x → x ≤ 1 → (v : ℚ) ≤ 255 * x ∧ 255 * x < v + 1)

/-- the element type keeps all 256 steps: writing a read pixel gives the same pixel -/
def Keeps (rin rout : ℚ → ℚ) : Prop := ∀ v, v < 256 → toPixel rout (ofPixel rin v) = v

/-- float32, as `image_to_tensor` and `tensor_to_image` compute with it -/
def f32 : ℚ → ℚ := roundBits 24 64
/-- float16: the division is done in float32 and converted, the product in float16 -/
def f16 : ℚ → ℚ := roundBits 11 64

/-- two tensors agree up to row `y` and column `x` -/
def AgreeUpTo (y x : Nat) (a b : Img ℚ) : Prop :=
  y < a.h ∧ y < b.h ∧ x < a.w ∧ x < b.w ∧ ∀ i j c, i ≤ y → j ≤ x → c < 3 → a.px i j c = b.px i j c

/-- the result of the network at a place depends only on entries at most `r` rows and columns further than the corresponding place of the input -/
def Local (k r : Nat) (net : Img ℚ → Except PyErr (Img ℚ)) : Prop :=
  ∀ a b u v, net a = .ok u → net b = .ok v → ∀ y x c, c < 3 → AgreeUpTo (y / k + r) (x / k + r) a b → u.px y x c = v.px y x c

end OnnxTool.SrEngine
