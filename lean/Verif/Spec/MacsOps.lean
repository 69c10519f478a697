import Mathlib.Analysis.SpecialFunctions.Log.Basic
import Mathlib.Analysis.SpecialFunctions.Pow.Real
import Mathlib.Analysis.SpecialFunctions.Trigonometric.Basic
import Mathlib.Analysis.SpecialFunctions.Trigonometric.DerivHyp
import Verif.Spec.Macs
/-!
# Specification: the cost of an elementwise operator

The function of an elementwise operator is written as a straight-line program over real numbers; its cost is the sum of the unit costs (documented at the head of
`node.py`) of its instructions.
-/
namespace OnnxTool.Cost

/-- what an instruction reads: operand `i` of the element, attribute `i`, a whole number, the result of instruction `i` -/
inductive Arg where
  | x (i : Nat) | a (i : Nat) | num (n : Int) | r (i : Nat)
  deriving DecidableEq

/-- one instruction; `sel c u v` is `u` if `c ≥ 0`, else `v`; `lt`, `le`, `eq` give 1 or 0 -/
inductive Instr where
  | add (u v : Arg) | sub (u v : Arg) | mul (u v : Arg) | div (u v : Arg) | max (u v : Arg) | min (u v : Arg) | sel (c u v : Arg)
  | lt (u v : Arg) | le (u v : Arg) | eq (u v : Arg) | exp (u : Arg) | log (u : Arg) | sin (u : Arg) | cos (u : Arg) | sqrt (u : Arg) | pow (u v : Arg)
  deriving DecidableEq

/-- unit costs: additions, multiplications and comparisons 1, division 4, sqrt 24, exp and pow 32, log 43, sin and cos 39 -/
def Instr.cost : Instr → Nat
  | .div _ _ => 4
  | .exp _ => 32
  | .pow _ _ => 32
  | .log _ => 43
  | .sin _ => 39
  | .cos _ => 39
  | .sqrt _ => 24
  | _ => 1

/-- the arguments of an instruction -/
def Instr.args : Instr → List Arg
  | .add u v | .sub u v | .mul u v | .div u v | .max u v | .min u v | .lt u v | .le u v | .eq u v | .pow u v => [u, v]
  | .sel c u v => [c, u, v]
  | .exp u | .log u | .sin u | .cos u | .sqrt u => [u]

/-- a straight-line program; its value is that of the last instruction -/
abbrev Prog := List Instr

def Prog.cost (p : Prog) : Nat := (p.map Instr.cost).sum

/-- no instruction is useless: each but the last is read by another one, none is repeated -/
def Prog.Live (p : Prog) : Prop := p ≠ [] ∧ p.Nodup ∧ ∀ i < p.length - 1, ∃ j ∈ p.drop (i + 1), Arg.r i ∈ j.args

noncomputable section

def Arg.val (x a : Nat → ℝ) (regs : List ℝ) : Arg → ℝ
  | .x i => x i
  | .a i => a i
  | .num n => n
  | .r i => regs.getD i 0

def Instr.val (x a : Nat → ℝ) (regs : List ℝ) : Instr → ℝ
  | .add u v => u.val x a regs + v.val x a regs
  | .sub u v => u.val x a regs - v.val x a regs
  | .mul u v => u.val x a regs * v.val x a regs
  | .div u v => u.val x a regs / v.val x a regs
  | .max u v => Max.max (u.val x a regs) (v.val x a regs)
  | .min u v => Min.min (u.val x a regs) (v.val x a regs)
  | .sel c u v => if 0 ≤ c.val x a regs then u.val x a regs else v.val x a regs
  | .lt u v => if u.val x a regs < v.val x a regs then 1 else 0
  | .le u v => if u.val x a regs ≤ v.val x a regs then 1 else 0
  | .eq u v => if u.val x a regs = v.val x a regs then 1 else 0
  | .exp u => Real.exp (u.val x a regs)
  | .log u => Real.log (u.val x a regs)
  | .sin u => Real.sin (u.val x a regs)
  | .cos u => Real.cos (u.val x a regs)
  | .sqrt u => Real.sqrt (u.val x a regs)
  | .pow u v => Real.rpow (u.val x a regs) (v.val x a regs)

/-- the results of all instructions, on operands `x` and attributes `a` -/
def Prog.runFrom (x a : Nat → ℝ) : List ℝ → Prog → List ℝ
  | regs, [] => regs
  | regs, i :: p => Prog.runFrom x a (regs ++ [i.val x a regs]) p

/-- the value of the program -/
def Prog.run (p : Prog) (x a : Nat → ℝ) : ℝ := (Prog.runFrom x a [] p).getLastD 0

/-- an operator: its name, its function of operands and attributes, a program for it -/
structure Entry where
  op : String
  fn : (Nat → ℝ) → (Nat → ℝ) → ℝ
  prog : Prog

open Arg Instr in
/-- elementwise operators with the function the operator documentation gives and the evaluation of it -/
def elementwise : List Entry :=
  [⟨"Add", fun x _ => x 0 + x 1, [add (.x 0) (.x 1)]⟩,
   ⟨"Sub", fun x _ => x 0 - x 1, [sub (.x 0) (.x 1)]⟩,
   ⟨"Mul", fun x _ => x 0 * x 1, [mul (.x 0) (.x 1)]⟩,
   ⟨"Div", fun x _ => x 0 / x 1, [div (.x 0) (.x 1)]⟩,
   ⟨"Min", fun x _ => Min.min (x 0) (x 1), [min (.x 0) (.x 1)]⟩,
   ⟨"Max", fun x _ => Max.max (x 0) (x 1), [max (.x 0) (.x 1)]⟩,
   ⟨"Neg", fun x _ => -x 0, [sub (.num 0) (.x 0)]⟩,
   ⟨"Exp", fun x _ => Real.exp (x 0), [exp (.x 0)]⟩,
   ⟨"Log", fun x _ => Real.log (x 0), [log (.x 0)]⟩,
   ⟨"Sqrt", fun x _ => Real.sqrt (x 0), [sqrt (.x 0)]⟩,
   ⟨"Sin", fun x _ => Real.sin (x 0), [sin (.x 0)]⟩,
   ⟨"Cos", fun x _ => Real.cos (x 0), [cos (.x 0)]⟩,
   ⟨"Pow", fun x _ => Real.rpow (x 0) (x 1), [pow (.x 0) (.x 1)]⟩,
   ⟨"Reciprocal", fun x _ => 1 / x 0, [div (.num 1) (.x 0)]⟩,
   ⟨"Softplus", fun x _ => Real.log (Real.exp (x 0) + 1), [exp (.x 0), add (.r 0) (.num 1), log (.r 1)]⟩,
   ⟨"ImageScaler", fun x a => x 0 * a 0 + a 1, [mul (.x 0) (.a 0), add (.r 0) (.a 1)]⟩,
   ⟨"Relu", fun x _ => Max.max 0 (x 0), [max (.num 0) (.x 0)]⟩,
   ⟨"Clip", fun x _ => Min.min (Max.max (x 0) (x 1)) (x 2), [max (.x 0) (.x 1), min (.r 0) (.x 2)]⟩,
   ⟨"Relu6", fun x _ => Min.min (Max.max (x 0) 0) 6, [max (.x 0) (.num 0), min (.r 0) (.num 6)]⟩,
   ⟨"HardSigmoid", fun x a => Max.max 0 (Min.min 1 (a 0 * x 0 + a 1)), [mul (.a 0) (.x 0), add (.r 0) (.a 1), min (.num 1) (.r 1), max (.num 0) (.r 2)]⟩,
   ⟨"HardSwish", fun x a => x 0 * Max.max 0 (Min.min 1 (a 0 * x 0 + a 1)),
     [mul (.a 0) (.x 0), add (.r 0) (.a 1), min (.num 1) (.r 1), max (.num 0) (.r 2), mul (.x 0) (.r 3)]⟩,
   ⟨"LeakyRelu", fun x a => if 0 ≤ x 0 then x 0 else a 0 * x 0, [mul (.a 0) (.x 0), sel (.x 0) (.x 0) (.r 0)]⟩,
   ⟨"PRelu", fun x _ => if 0 ≤ x 0 then x 0 else x 1 * x 0, [mul (.x 1) (.x 0), sel (.x 0) (.x 0) (.r 0)]⟩,
   ⟨"Elu", fun x a => if 0 ≤ x 0 then x 0 else a 0 * (Real.exp (x 0) - 1), [exp (.x 0), sub (.r 0) (.num 1), mul (.a 0) (.r 1), sel (.x 0) (.x 0) (.r 2)]⟩,
   ⟨"DequantizeLinear", fun x _ => (x 0 - x 2) * x 1, [sub (.x 0) (.x 2), mul (.r 0) (.x 1)]⟩,
   ⟨"Less", fun x _ => if x 0 < x 1 then 1 else 0, [lt (.x 0) (.x 1)]⟩,
   ⟨"LessOrEqual", fun x _ => if x 0 ≤ x 1 then 1 else 0, [le (.x 0) (.x 1)]⟩,
   ⟨"Greater", fun x _ => if x 1 < x 0 then 1 else 0, [lt (.x 1) (.x 0)]⟩,
   ⟨"GreaterOrEqual", fun x _ => if x 1 ≤ x 0 then 1 else 0, [le (.x 1) (.x 0)]⟩,
   ⟨"Equal", fun x _ => if x 0 = x 1 then 1 else 0, [eq (.x 0) (.x 1)]⟩]

open Arg Instr in
/-- operators whose reported cost is not that of the evaluation -/
def misjudged : List (Entry × Nat) :=
  [(⟨"Sigmoid", fun x _ => 1 / (1 + Real.exp (-x 0)), [sub (.num 0) (.x 0), exp (.r 0), add (.num 1) (.r 1), div (.num 1) (.r 2)]⟩, 32),
   (⟨"Silu", fun x _ => x 0 / (1 + Real.exp (-x 0)), [sub (.num 0) (.x 0), exp (.r 0), add (.num 1) (.r 1), div (.x 0) (.r 2)]⟩, 33),
   (⟨"Tanh", fun x _ => Real.tanh (x 0), [add (.x 0) (.x 0), exp (.r 0), sub (.r 1) (.num 1), add (.r 1) (.num 1), div (.r 2) (.r 3)]⟩, 76),
   (⟨"LogitSoftCapping", fun x a => a 0 * Real.tanh (x 0 / a 0),
     [div (.x 0) (.a 0), add (.r 0) (.r 0), exp (.r 1), sub (.r 2) (.num 1), add (.r 2) (.num 1), div (.r 3) (.r 4), mul (.a 0) (.r 5)]⟩, 43),
   (⟨"BatchNormalization", fun x a => (x 0 - a 0) / Real.sqrt (a 1 + a 2) * a 3 + a 4,
     [sub (.x 0) (.a 0), add (.a 1) (.a 2), sqrt (.r 1), div (.r 0) (.r 2), mul (.r 3) (.a 3), add (.r 4) (.a 4)]⟩, 31)]

/-- the other operators charged by the element of their first output, and the charge in the unit costs above -/
def charged : List (String × Nat) :=
  [("Mod", 1), ("Abs", 1), ("Ceil", 1), ("Floor", 1), ("Round", 1), ("Sign", 1), ("Not", 1), ("And", 1), ("Or", 1), ("Xor", 1), ("NonZero", 1), ("Hardmax", 1),
   ("CumSum", 1), ("CategoryMapper", 0), ("QuantizeLinear", 1 + 1), ("Softmax", 32 + 4), ("LogSoftmax", 32 + 4 + 1 + 43), ("Gelu", 32 + 1 + 1),
   ("GeGelu", 32 + 1 + 1), ("Rope", 39 + 39 + 1 + 1), ("InstanceNormalization", 1 + 1 + 1 + 4), ("LpNormalization", 32 + 1), ("Atan", 2 * (24 + 3 + 1 + 4))]

/-- `x 0 + x 1 + … + x (n - 1)`: one addition per further operand -/
def sumProg : Nat → Prog
  | 0 => []
  | 1 => []
  | 2 => [.add (.x 0) (.x 1)]
  | n + 3 => sumProg (n + 2) ++ [.add (.r n) (.x (n + 2))]

/-- the largest of `x 0`, …, `x (n - 1)` -/
def maxProg : Nat → Prog
  | 0 => []
  | 1 => []
  | 2 => [.max (.x 0) (.x 1)]
  | n + 3 => maxProg (n + 2) ++ [.max (.r n) (.x (n + 2))]

end

end OnnxTool.Cost
