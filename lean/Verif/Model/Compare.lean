import Verif.Model.Py
import Mathlib.Algebra.Order.Ring.Rat
import Mathlib.Algebra.BigOperators.Group.List.Basic
import Mathlib.Analysis.SpecialFunctions.Sqrt
/-!
# The accuracy reports

Models what the scripts say about the engine beside a reference: `compare_outputs`, `print_worst_samples` and the loops of `main` of `/repo/inference/test_accuracy.py`
(112-154, 168-177, 249-276, 287-291), `compare_outputs` and the verdict of `main` of `/repo/inference/compare.py` (168-197, 322-351, 392-393)
and the numerical part of `/repo/inference/test_multi_resolution.py` (162-175).

Simplified: a float is an exact rational or NaN (`none`), infinities and rounding are left out; an output is the list of its samples, each the list of its elements;
samples of different sizes, which numpy would broadcast in a subtraction and then refuse in `np.dot`, raise `ValueError`; what the networks compute is a parameter, as are timing and memory.
-/
namespace OnnxTool.Compare
open OnnxTool

/-- a float: a number, or NaN -/
abbrev Num := Option ℚ

/-- `np.abs(a - b)` -/
def diff : Num → Num → Num
  | some a, some b => some |a - b|
  | _, _ => none

/-- the largest of `m` and the numbers of a list; NaN if there is one -/
def maxFrom (m : ℚ) : List Num → Num
  | [] => some m
  | none :: _ => none
  | some v :: l => maxFrom (max m v) l

/-- `np.max`: of nothing a `ValueError` -/
def npMax : List Num → Except PyErr Num
  | [] => .error .valueError
  | none :: _ => .ok none
  | some v :: l => .ok (maxFrom v l)

/-- a sum, NaN if a summand is -/
def npSum : List Num → Num
  | [] => some 0
  | v :: l => match v, npSum l with
    | some a, some b => some (a + b)
    | _, _ => none

/-- `np.mean` of a list that is not empty -/
def npMean (l : List Num) : Num := (npSum l).map (· / l.length)

/-- test_accuracy.py line 132 (and 134-136, which refuse samples of different sizes) -/
def sampleDiff (a b : List Num) : Except PyErr Num :=
  if a.length = b.length then npMax (List.zipWith diff a b) else .error .valueError

/-- lines 131-137: `gi_output[i]` for the samples of `pt_output` -/
def perSample : List (List Num) → List (List Num) → Except PyErr (List Num)
  | [], _ => .ok []
  | _ :: _, [] => .error .indexError
  | a :: A, b :: B =>
    match sampleDiff a b with
    | .error e => .error e
    | .ok d =>
      match perSample A B with
      | .error e => .error e
      | .ok l => .ok (d :: l)

/-- the returned dictionary (148-154) without the cosines -/
structure Report where
  maxDiff : Num
  meanDiff : Num
  perSample : List Num
deriving DecidableEq

/-- `compare_outputs` of test_accuracy.py (112-154); line 144 refuses outputs of different sizes -/
def compareOutputs (pt gi : List (List Num)) : Except PyErr Report :=
  match perSample pt gi with
  | .error e => .error e
  | .ok l =>
    match npMax l with
    | .error e => .error e
    | .ok m => if pt.length = gi.length then .ok ⟨m, npMean l, l⟩ else .error .valueError

/-- `np.dot` of vectors of numbers -/
def dot (a b : List ℚ) : ℚ := (List.zipWith (· * ·) a b).sum

/-- `np.linalg.norm` -/
noncomputable def norm (a : List ℚ) : ℝ := √((dot a a : ℚ) : ℝ)

/-- lines 136 and 144-146, of outputs without NaN -/
noncomputable def cosine (a b : List ℚ) : ℝ := ((dot a b : ℚ) : ℝ) / (norm a * norm b + 1 / 10 ^ 12)

/-- lines 252-253 and 267-268: `images[i:i + batch_size] for i in range(0, len(images), batch_size)` for a positive size -/
def slices {α} (B : Nat) (l : List α) : List (List α) :=
  (List.range ((l.length + B - 1) / B)).map fun k => (l.drop (k * B)).take B

/-- the calls in order, their outputs put together -/
def runBatches {α β} (net : List α → Except PyErr (List β)) : List (List α) → Except PyErr (List β)
  | [] => .ok []
  | b :: bs =>
    match net b with
    | .error e => .error e
    | .ok o =>
      match runBatches net bs with
      | .error e => .error e
      | .ok l => .ok (o ++ l)

/-- lines 249-275 for one of the two networks: `range` refuses a batch size of zero, `np.concatenate` refuses no batch at all -/
def runAll {α β} (net : List α → Except PyErr (List β)) (batchSize : Int) (images : List α) : Except PyErr (List β) :=
  if batchSize ≤ 0 ∨ images = [] then .error .valueError else runBatches net (slices batchSize.toNat images)

/-- position of the first largest number, or of the first NaN; `best` at `bi` is the largest so far -/
def argmaxFrom (best : ℚ) (bi i : Nat) : List Num → Nat
  | [] => bi
  | none :: _ => i
  | some v :: l => if best < v then argmaxFrom v i (i + 1) l else argmaxFrom best bi (i + 1) l

/-- `np.argmax` of a row (288-289) that is not empty -/
def argmax : List Num → Nat
  | [] => 0
  | none :: _ => 0
  | some v :: l => argmaxFrom v 0 1 l

/-- `np.sum(pt_preds == gi_preds)` (290) -/
def predMatchCount (pt gi : List (List Num)) : Nat := (List.zipWith (fun a b => decide (argmax a = argmax b)) pt gi).count true

/-- line 291 -/
def predMatchRatio (pt gi : List (List Num)) : ℚ := predMatchCount pt gi / pt.length

/-- may `a` stand before `b` in `np.sort(-x)`?  NaN is put at the end -/
def Before : Num → Num → Prop
  | some a, some b => b ≤ a
  | some _, none => True
  | none, some _ => False
  | none, none => True

/-- `np.argsort(-np.array(per_sample))` (171): numpy's default sort leaves the order of ties open, so any order that sorts -/
def IsArgsort (per : List Num) (order : List Nat) : Prop :=
  order.Perm (List.range per.length) ∧ order.Pairwise fun i j => Before (per.getD i none) (per.getD j none)

/-- the rows that are printed (171, 176-177) -/
def worst (order : List Nat) (top : Nat) : List Nat := order.take top

/-- one element of `np.allclose(a, b)`: `|a - b| ≤ atol + rtol * |b|`, never with a NaN -/
def closeTo (rtol atol : ℚ) : Num → Num → Bool
  | some a, some b => decide (|a - b| ≤ atol + rtol * |b|)
  | _, _ => false

/-- an array: its shape and its elements -/
structure Arr where
  shape : List Nat
  data : List Num
deriving DecidableEq

/-- `compare_outputs` of compare.py (168-197): what it returns -/
def compareArrays (rtol atol : ℚ) (ref test : Arr) : Except PyErr Bool :=
  if ref.shape ≠ test.shape then .ok false
  else
    match npMax (List.zipWith diff ref.data test.data) with
    | .error e => .error e
    | .ok _ => .ok ((List.zipWith (closeTo rtol atol) ref.data test.data).all id)

/-- the outputs that compare.py collects (285-317) -/
structure Outputs where
  ort : Arr
  ptCpu : Arr
  giCpu : Arr
  ptXpu : Arr
  giXpu : Arr
  ptXpuHalf : Arr
  giXpuHalf : Arr

/-- lines 322-351 and 392-393: eight comparisons, four of which count -/
def allPass (o : Outputs) : Except PyErr Bool :=
  match compareArrays (1 / 10 ^ 4) (1 / 10 ^ 5) o.ort o.giCpu, compareArrays (1 / 10 ^ 4) (1 / 10 ^ 5) o.ort o.ptCpu,
    compareArrays (1 / 10 ^ 4) (1 / 10 ^ 5) o.ptCpu o.giCpu, compareArrays (1 / 10 ^ 4) (1 / 10 ^ 5) o.ptXpu o.giXpu,
    compareArrays (1 / 10 ^ 4) (1 / 10 ^ 5) o.ort o.giXpu, compareArrays (1 / 10 ^ 2) (1 / 10 ^ 3) o.ptXpuHalf o.giXpuHalf,
    compareArrays (1 / 10 ^ 2) (1 / 10 ^ 3) o.ort o.giXpuHalf, compareArrays (1 / 10 ^ 2) (1 / 10 ^ 3) o.ort o.ptXpuHalf with
  | .ok giCpuOrt, .ok _, .ok giCpuPt, .ok giXpuPt, .ok _, .ok giHalfPt, .ok _, .ok _ => .ok (giCpuOrt && giCpuPt && giXpuPt && giHalfPt)
  | .error e, _, _, _, _, _, _, _ => .error e
  | _, .error e, _, _, _, _, _, _ => .error e
  | _, _, .error e, _, _, _, _, _ => .error e
  | _, _, _, .error e, _, _, _, _ => .error e
  | _, _, _, _, .error e, _, _, _ => .error e
  | _, _, _, _, _, .error e, _, _ => .error e
  | _, _, _, _, _, _, .error e, _ => .error e
  | _, _, _, _, _, _, _, .error e => .error e

/-- test_multi_resolution.py lines 162-175: `all_match` over the images, `max_diff < 1e-4` for each (a NaN is not below) -/
def allMatch : List (List Num × List Num) → Except PyErr Bool
  | [] => .ok true
  | (pt, gi) :: rest =>
    match sampleDiff pt gi with
    | .error e => .error e
    | .ok m =>
      match allMatch rest with
      | .error e => .error e
      | .ok b => .ok ((match m with | some d => decide (d < 1 / 10 ^ 4) | none => false) && b)

end OnnxTool.Compare
