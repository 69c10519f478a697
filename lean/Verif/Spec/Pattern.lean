import Mathlib.Logic.Relation
import Verif.Model.Pattern
/-!
# Specification: a genuine match of a pattern

What a user expects of the pairs (position, node) that a search reports, independent of how the search proceeds.
-/
namespace OnnxTool.Pattern
open OnnxTool

/-- the operator condition of a position -/
def OpCond.Holds (o : OpCond) (op : String) : Prop :=
  match o with
  | .one x => x = "Any" ∨ op = x
  | .many xs => op ∈ xs

/-- the comparison holds -/
def Cmp.Holds : Cmp → Int → Int → Prop
  | .le, a, b => a ≤ b
  | .lt, a, b => a < b
  | .ge, a, b => a ≥ b
  | .gt, a, b => a > b
  | .eq, a, b => a = b
  | .other, _, _ => False

/-- an attribute condition: the attribute exists and its value (or its entry) compares as required -/
def AttrExpr.Holds (e : AttrExpr) (as : Dict AttrV) : Prop :=
  match e.idx with
  | none => ∃ v, as.get? e.attr = some (.num v) ∧ e.cmp.Holds v e.num
  | some i => ∃ vs v, as.get? e.attr = some (.nums vs) ∧ vs[i]? = some v ∧ e.cmp.Holds v e.num

/-- a node satisfies a position's operator and attribute conditions -/
def Desc.Holds (d : Desc) (attrs : String → Dict AttrV) (n : Node) : Prop :=
  d.op.Holds n.op ∧ ∀ e ∈ d.attrs, e.Holds (attrs n.name)

/-- tensor `t` is input number `i` of the node (any input for `none`) -/
def AtPort (names : List String) (i : Option Nat) (t : String) : Prop :=
  match i with
  | none => t ∈ names
  | some i => names[i]? = some t

/-- the first occurrence of `t` is number `i` (no condition for `none`) -/
def FirstAt (names : List String) (i : Option Nat) (t : String) : Prop :=
  match i with
  | none => True
  | some i => t ∈ names ∧ names.idxOf t = i

/-- the pattern has an edge between the two positions, and the graph a corresponding tensor between the two nodes: `b` produces an input of `a` -/
def EdgeIn (c : Ctx) (p : Pat) (a b : String × String) : Prop :=
  ∃ d na nb pt t ps, p.desc? a.1 = some d ∧ findNode c.g.nodemap a.2 = some na ∧ findNode c.g.nodemap b.2 = some nb ∧
    pt ∈ d.inport ∧ pt.pos = b.1 ∧ AtPort na.input pt.own t ∧ c.g.producedby.get? t = some ps ∧ b.2 ∈ ps ∧ FirstAt nb.output pt.other t

/-- `b` consumes an output of `a`; with in-place fusion it is the only consumer -/
def EdgeOut (c : Ctx) (p : Pat) (a b : String × String) : Prop :=
  ∃ d na nb pt t cs, p.desc? a.1 = some d ∧ findNode c.g.nodemap a.2 = some na ∧ findNode c.g.nodemap b.2 = some nb ∧
    pt ∈ d.outport ∧ pt.pos = b.1 ∧ AtPort na.output pt.own t ∧ c.g.consumedby.get? t = some cs ∧ b.2 ∈ cs ∧ FirstAt nb.input pt.other t ∧
    (p.inplace = true → cs.length ≤ 1)

def Link (c : Ctx) (p : Pat) (a b : String × String) : Prop := EdgeIn c p a b ∨ EdgeOut c p a b

/-- a set of (position, node) pairs grown from `root`: each pair satisfies its conditions, no node is used twice, and each pair is reached
from the root over edges that the pattern and the graph share, staying inside the set -/
structure Genuine (c : Ctx) (p : Pat) (root : String × String) (path : Path) : Prop where
  root_mem : root ∈ path
  conditions : ∀ x ∈ path, ∃ d n, p.desc? x.1 = some d ∧ findNode c.g.nodemap x.2 = some n ∧ d.Holds c.attrs n
  nodes_distinct : (path.map (·.2)).Nodup
  connected : ∀ x ∈ path, Relation.ReflTransGen (fun a b => Link c p a b ∧ b ∈ path) root x

/-- a reported match `m` presents the pairs `path`: one entry per position, the placeholder `"a"` at positions that no pair covers and a paired
node at the others -/
structure Presents (p : Pat) (path : Path) (m : List String) : Prop where
  length : m.length = p.descs.length
  entries : ∀ (i : Nat) (d : Desc) (s : String), p.descs[i]? = some d → m[i]? = some s → (d.name, s) ∈ path ∨ (s = "a" ∧ ∀ x ∈ path, x.1 ≠ d.name)

/-- the positions of a pattern agree about every connection: each output port is the input port of the position it names, and conversely -/
def Coherent (p : Pat) : Prop :=
  (p.descs.map (·.name)).Nodup ∧
  ∀ d ∈ p.descs,
    (∀ pt ∈ d.outport, ∃ e ∈ p.descs, e.name = pt.pos ∧ (⟨pt.other, d.name, pt.own⟩ : Port) ∈ e.inport) ∧
    (∀ pt ∈ d.inport, ∃ e ∈ p.descs, e.name = pt.pos ∧ (⟨pt.other, d.name, pt.own⟩ : Port) ∈ e.outport)

instance (p : Pat) : Decidable (Coherent p) := by unfold Coherent; infer_instance

end OnnxTool.Pattern
