import Verif.Model.SrBatch
/-!
# What the output folder of a batch should contain
-/
namespace OnnxTool.SrBatch
open OnnxTool

/-- the result and the comparison of an image file -/
def Result {I R : Type} (t : Tool I R) (name : String) (r g : R) : Prop := ∃ im, t.imread name = .ok im ∧ t.process im = .ok r ∧ t.compare im r = .ok g

/-- the two files of an image in the output folder -/
def srFile (name : String) : String := stemOf name ++ "_sr.png"
def compareFile (name : String) : String := stemOf name ++ "_compare.png"

end OnnxTool.SrBatch
