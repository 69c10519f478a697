import Verif.Model.Conv
import Verif.Model.Diagnostics
/-!
# Benchmarks

Models the numbers of `/repo/inference/benchmark_xpu.py` (`format_flops` 25-31, `format_time` 34-39, `benchmark_gemm` 46-88, `benchmark_conv2d` 95-158, the TFLOPS column 213 and 234),
`profile_graphinfer_overhead` and what `main` divides by in `/repo/inference/compare.py` (121-165, 363-367), and the axis of the plot of `/repo/inference/plot_xpu_memory.py` (114-120).

Simplified: times are given, exact rationals; a text is the number that is rounded and its unit.
-/
namespace OnnxTool.Benchmark
open OnnxTool

/-- a printed quantity: the number before rounding, and the unit -/
structure Shown where
  number : ℚ
  unit : String
deriving DecidableEq

/-- the loop of `format_flops` (27-30) -/
def unitLoop (n : ℚ) : List String → Shown
  | [] => ⟨n, "EFLOPS"⟩
  | u :: us => if |n| < 1000 then ⟨n, u⟩ else unitLoop (n / 1000) us

/-- `format_flops` (25-31) -/
def formatFlops (n : ℚ) : Shown := unitLoop n ["FLOPS", "TFLOPS", "PFLOPS"]

/-- `format_time` (34-39) -/
def formatTime (sec : ℚ) : Shown :=
  if sec < 1 / 10 ^ 3 then ⟨sec * 10 ^ 6, "us"⟩
  else if sec < 1 then ⟨sec * 10 ^ 3, "ms"⟩
  else ⟨sec, "s"⟩

/-- what a benchmark returns and what its line shows -/
structure Result where
  avgTime : ℚ
  flops : ℚ
  timeStr : Shown
  flopsStr : Shown
  tflops : ℚ
deriving DecidableEq

/-- lines 75-88 and 141-157 (with the column of 213 and 234): `work` operations per iteration -/
def measured (work elapsed : ℚ) (iterations : Nat) : Except PyErr Result :=
  if iterations = 0 then .error .zeroDivision
  else
    let avg := elapsed / iterations
    if avg = 0 then .error .zeroDivision
    else .ok ⟨avg, work / avg, formatTime avg, formatFlops (work / avg), work / avg / 10 ^ 12⟩

/-- `benchmark_gemm` (46-88) of matrices `[M, K]` and `[K, N]` -/
def benchmarkGemm (M N K : Nat) (elapsed : ℚ) (iterations : Nat) : Except PyErr Result := measured ((2 * M * N * K : Nat) : ℚ) elapsed iterations

/-- the output size of `benchmark_conv2d` (115-116): Python's floor division -/
def convSize (H : Int) (padding kernel stride : Int) : Except PyErr Int :=
  if stride = 0 then .error .zeroDivision else .ok (Int.fdiv (H + 2 * padding - kernel) stride + 1)

/-- `benchmark_conv2d` (95-158); a convolution that torch refuses is not considered -/
def benchmarkConv (N C H W oc k : Nat) (stride padding : Int) (elapsed : ℚ) (iterations : Nat) : Except PyErr Result :=
  match convSize H padding k stride with
  | .error e => .error e
  | .ok h =>
    match convSize W padding k stride with
    | .error e => .error e
    | .ok w => measured ((2 * N * oc * h * w * C * k * k : Int) : ℚ) elapsed iterations

/-- the result of `profile_graphinfer_overhead` (151-165) -/
structure Overhead where
  overheadTotal : ℚ
  kernelTotal : ℚ
  totalTime : ℚ
  overheadPct : ℚ
  kernelPct : ℚ
  nodes : Nat
  avgPerNode : ℚ
  resolve : ℚ
  prepare : ℚ
  lookup : ℚ
deriving DecidableEq

/-- `profile_graphinfer_overhead` (121-165) for a recorded run: `print_profile` (144) comes first -/
def overheadOf (p : Diagnostics.Prof) : Except PyErr Overhead :=
  match Diagnostics.report p with
  | .error e => .error e
  | .ok _ =>
    let kernel := (p.opTime.map (·.2)).sum
    let total := p.overhead + kernel
    let b := Diagnostics.breakdown p
    .ok ⟨p.overhead, kernel, total, if 0 < total then p.overhead / total * 100 else 0, if 0 < total then kernel / total * 100 else 0,
      p.laps.length, if p.laps = [] then 0 else p.overhead / p.laps.length * 1000, b.1, b.2.1, b.2.2⟩

/-- the three percentages that compare.py prints (365-367): no test for zero here -/
def printedShares (o : Overhead) : Except PyErr (ℚ × ℚ × ℚ) :=
  if o.overheadTotal = 0 then .error .zeroDivision
  else .ok (o.resolve / o.overheadTotal * 100, o.prepare / o.overheadTotal * 100, o.lookup / o.overheadTotal * 100)

/-- the top of the axis of the plot (114-117): fifteen percent above the largest of the values -/
def yMax (v : ℚ) (vals : List ℚ) : ℚ := vals.foldl max v * (115 / 100)

/-- `y_to_px` (119-120) of plot_xpu_memory.py, the chart `chartH` high and `top` below the edge; a range of zero divides by zero -/
def yToPx (top chartH yRange v : ℚ) : Except PyErr ℚ := if yRange = 0 then .error .zeroDivision else .ok (top + chartH - v / yRange * chartH)

end OnnxTool.Benchmark
