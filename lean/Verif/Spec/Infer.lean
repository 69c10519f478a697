import Verif.Model.Infer
import Verif.Spec.Memory
/-!
# Reference meaning of running a graph (no shared memory)

Every tensor has its own storage: an environment from names to contents.
-/
namespace OnnxTool.Infer
open OnnxTool

/-- What an operator computes: the contents of its outputs from the contents of its inputs (`none` = absent input). -/
abbrev Sem := Node → List (Option Bytes) → List Bytes

abbrev Env := String → Option Bytes

/-- value assigned to `t` by the pairs (output name, content) -/
def assigned : List String → List Bytes → String → Option Bytes
  | o :: os, v :: vs, t => if o = t then some v else assigned os vs t
  | _, _, _ => none

/-- Execute one node: bind its outputs. -/
def refStep (sem : Sem) (env : Env) (n : Node) : Env := fun t =>
  match assigned n.output (sem n (n.input.map env)) t with
  | some v => some v
  | none => env t

/-- Execute nodes in order. -/
def refRun (sem : Sem) (ns : List Node) (env : Env) : Env := ns.foldl (refStep sem) env

/-- content of a kernel argument -/
def content (mem : Mem) : Arg → Option Bytes
  | .view v => some (readView mem v)
  | .data b => some b
  | .absent => none

/-- A kernel computes `f`: whenever its output buffers are pairwise disjoint, disjoint from its input buffers and of the right sizes,
it succeeds, changes nothing outside the output buffers and leaves `f` of the original inputs in them.  Nothing is promised when
buffers overlap. -/
def Computes (k : Kernel) (f : List (Option Bytes) → List Bytes) : Prop :=
  ∀ (args : List Arg) (outs : List (Nat × Nat)) (mem : Mem),
    outs.Pairwise DisjointRanges →
    (∀ v, Arg.view v ∈ args → ∀ o ∈ outs, DisjointRanges v o) →
    (f (args.map (content mem))).map List.length = outs.map (·.2) →
    ∃ mem', k args outs mem = .ok mem' ∧
      (∀ a, (∀ o ∈ outs, a < o.1 ∨ o.1 + o.2 ≤ a) → mem' a = mem a) ∧
      outs.map (readView mem') = f (args.map (content mem))

/-- The content of `t` matters to node `k` or a later one, or `t` is read by no node at all (a result): it exists before node `k`
and is read at `k` or later, or never. -/
def NeededFrom (inputs : List String) (ns : List Node) (k : Nat) (t : String) : Prop :=
  (t ∈ inputs ∨ ∃ j, j < k ∧ ProducedAt ns j t) ∧ ((∃ j, k ≤ j ∧ ReadAt ns j t) ∨ ∀ j, ¬ ReadAt ns j t)

end OnnxTool.Infer
