import Verif.Model.Diagnostics
/-! # What the diagnostics of the engine should say, stated directly on the clock readings, the blocks and the arrays -/
namespace OnnxTool.Diagnostics

/-- time the kernels of one operator took -/
def kernelTime (cs : List Clock) (op : String) : ℚ := ((cs.filter fun c => c.op = op).map fun c => c.t3 - c.t2).sum

/-- number of nodes of one operator -/
def nodesOf (cs : List Clock) (op : String) : Nat := (cs.filter fun c => c.op = op).length

/-- time all kernels took -/
def allKernels (cs : List Clock) : ℚ := (cs.map fun c => c.t3 - c.t2).sum

/-- time spent before the kernels -/
def allBefore (cs : List Clock) : ℚ := (cs.map fun c => c.lookup - c.t0).sum

/-- the readings of a run in the order they were taken -/
def readings (cs : List Clock) : List ℚ := cs.flatMap fun c => [c.t0, c.resolve, c.prepare, c.lookup, c.t2, c.t3]

/-- the clock never runs backwards -/
def ClockOk (cs : List Clock) : Prop := (readings cs).Pairwise (· ≤ ·)

/-- two blocks share a byte -/
def ShareByte (a b : Nat × Nat) : Prop := ∃ i, (a.1 ≤ i ∧ i < a.1 + a.2) ∧ (b.1 ≤ i ∧ i < b.1 + b.2)

/-- two arrays agree within the tolerances, the second being the one measured against -/
def Agrees (rtol atol : ℚ) (a b : List ℚ) : Prop := a.length = b.length ∧ ∀ (i : Nat) (x y : ℚ), a[i]? = some x → b[i]? = some y → |x - y| ≤ atol + rtol * |y|

end OnnxTool.Diagnostics
