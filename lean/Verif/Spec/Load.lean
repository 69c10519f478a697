import Verif.Model.Load
import Verif.Spec.ConstFold
import Verif.Spec.Topsort
/-! # Specification: what a loaded and a saved model should be -/
namespace OnnxTool.Load
open OnnxTool ConstFold

variable {V : Type}

/-- the nodes of a file under the names they are addressed by: the name in the file, or (if it is empty, or all are renamed) operator type and position -/
def named (rename : Bool) (ns : List Node) : List Node :=
  ns.mapIdx fun i n => { n with name := if rename = true ∨ n.name = "" then n.op ++ "_" ++ toString i else n.name }

/-- some node reads `t` -/
def Reads (ns : List Node) (t : String) : Prop := ∃ n ∈ ns, t ∈ n.input

/-- some node produces `t` -/
def Makes (ns : List Node) (t : String) : Prop := ∃ n ∈ ns, t ∈ n.output

/-- `t` is the name of an initializer of the file -/
def IsInit (p : GraphProto V) (t : String) : Prop := ∃ v, (t, v) ∈ p.initializer

/-- what an execution of the file starts from: the initializers, the value `absent` of an operand left out, and the values `x` of the inputs -/
def start (p : GraphProto V) (absent : V) (x : Env V) : Env V := fun t =>
  match p.initializer.find? fun e => e.1 = t with
  | some e => some e.2
  | none => if t = "" then some absent else x t

/-- the semantics of operators does not look at the name of the node -/
def NameFree (f : Node → List V → Nat → V) : Prop := ∀ (n : Node) (s : String), f { n with name := s } = f n

/-- what a file computes: the value of tensor `t` -/
def Computes (p : GraphProto V) (f : Node → List V → Nat → V) (absent : V) (x : Env V) (t : String) (v : V) : Prop := Ev p.node f (start p absent x) t v

/-- a valid model, as far as used here: no two initializers or produced tensors have the same name, none has an empty name, and no cycle -/
structure Valid (p : GraphProto V) : Prop where
  inits : (p.initializer.map (·.1)).Nodup
  noEmpty : ∀ t, IsInit p t → t ≠ ""
  outs : (p.node.flatMap (·.output)).Nodup
  outNamed : ∀ n ∈ p.node, ∀ t ∈ n.output, t ≠ "" ∧ ¬ IsInit p t
  acyclic : Topsort.Acyclic p.node

end OnnxTool.Load
