import Verif.Model.Resample
/-! # The output shapes that ONNX prescribes for selecting, resampling and recurrent operators -/
namespace OnnxTool.Resample
open OnnxTool

/-- `out` is `x` with the dimension at `axis` — counted from the end if negative — replaced by `k` -/
def ReplacedAt (axis : Int) (k : Nat) (x out : List Nat) : Prop :=
  ∃ A d B, x = A ++ d :: B ∧ out = A ++ k :: B ∧ ((A.length : Int) = axis ∨ (A.length : Int) = axis + x.length)

/-- Resize by scales: every dimension is the floor of the scaled dimension -/
def ScaledBy (scales : List Rat) (x out : List Nat) : Prop :=
  out.length = x.length ∧ ∀ (i d o : Nat) (s : Rat), x[i]? = some d → scales[i]? = some s → out[i]? = some o → (o : Rat) ≤ d * s ∧ (d : Rat) * s < o + 1

/-- DepthToSpace: the channels are split into `b * b` parts, which extend the two last axes -/
def DepthToSpace (b : Nat) (x out : List Nat) : Prop := ∃ n c h w, x = [n, b * b * c, h, w] ∧ out = [n, c, h * b, w * b]

/-- GridSample: `r` spatial axes; the grid holds one point with `r` coordinates per output position -/
def GridSampled (x grid out : List Nat) : Prop := ∃ n c xs os, x = n :: c :: xs ∧ grid = n :: os ++ [xs.length] ∧ os.length = xs.length ∧ out = n :: c :: os

/-- A possible result of NonMaxSuppression: distinct triples (batch, class, box) in range, at most `m` for each batch and class -/
structure Selection (batches classes boxes m : Nat) (sel : List (Nat × Nat × Nat)) : Prop where
  distinct : sel.Nodup
  inRange : ∀ t ∈ sel, t.1 < batches ∧ t.2.1 < classes ∧ t.2.2 < boxes
  most : ∀ b c, (sel.filter fun t => t.1 = b ∧ t.2.1 = c).length ≤ m

/-- The shapes of the outputs of an LSTM (4 gates) or a GRU (3 gates): the whole sequence, then the last state (and, for an LSTM, the last cell state).  With `layout = 1` the batch
comes first. -/
def rnnShapes (batchFirst : Bool) (states seq batch dirs hidden : Nat) : List (List Nat) :=
  (if batchFirst then [batch, seq, dirs, hidden] else [seq, dirs, batch, hidden]) :: List.replicate states (if batchFirst then [batch, dirs, hidden] else [dirs, batch, hidden])

/-- One scalar multiplication of a recurrent layer for every direction, step, batch, gate unit, and element of the input or of the state -/
def rnnTerms (dirs seq batch gateUnits width : Nat) : List (Nat × Nat × Nat × Nat × Nat) :=
  (List.range dirs).flatMap fun d => (List.range seq).flatMap fun s => (List.range batch).flatMap fun b => (List.range gateUnits).flatMap fun g => (List.range width).map fun i => (d, s, b, g, i)

end OnnxTool.Resample
