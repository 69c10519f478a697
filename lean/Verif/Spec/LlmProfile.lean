import Mathlib.Data.Rat.Floor
import Verif.Model.LlmCost
/-!
# Roofline model of a decoder on one or several devices

Each node needs operations and bytes; a device has a peak rate per class of nodes and a memory bandwidth; matrix products, fused blocks and
attention are divided evenly among the devices and then exchange their result over a link.  Rates are per second.
-/
namespace OnnxTool.LlmProfile
open OnnxTool OnnxTool.LlmCost

/-- bits per element: matrix weights and embeddings, cached keys and values, everything else -/
structure Width where
  weights : ℚ
  cache : ℚ
  others : ℚ

structure Hardware where
  matrix : ℚ
  attention : ℚ
  others : ℚ
  memory : ℚ
  link : ℚ
  number : ℚ

/-- all rates positive, at least one device -/
structure Hardware.Ok (h : Hardware) : Prop where
  matrix : 0 < h.matrix
  attention : 0 < h.attention
  others : 0 < h.others
  memory : 0 < h.memory
  number : 1 ≤ h.number
  link : 1 < h.number → 0 < h.link

/-- matrix products and fused blocks -/
def isMatrix (r : Row) : Bool := ["MatMul", "MoE", "MLA", "GDN"].contains r.op
def isAttention (r : Row) : Bool := r.op == "SDPA"
/-- divided among the devices -/
def divided (r : Row) : Bool := isMatrix r || isAttention r
/-- constants stored like weights -/
def weightLike (r : Row) : Bool := isMatrix r || r.op == "Gather"

/-- bytes of results -/
def activationBytes (b : Width) (r : Row) : ℚ := r.fig.io * b.others / 8
/-- bytes of weights, other constants, or cached keys and values -/
def residentBytes (b : Width) (r : Row) : ℚ :=
  if isAttention r then r.fig.kv * b.cache / 8 else if weightLike r then r.fig.static * b.weights / 8 else r.fig.static * b.others / 8
def bytes (b : Width) (r : Row) : ℚ := activationBytes b r + residentBytes b r
/-- one MAC is two operations -/
def operations (r : Row) : ℚ := 2 * r.fig.macs

def peak (h : Hardware) (r : Row) : ℚ := if isAttention r then h.attention else if isMatrix r then h.matrix else h.others
def share (h : Hardware) (r : Row) : ℚ := if divided r then h.number else 1
def computeTime (h : Hardware) (r : Row) : ℚ := operations r / (peak h r * share h r)
def loadTime (b : Width) (h : Hardware) (r : Row) : ℚ := bytes b r / (h.memory * share h r)
def syncTime (b : Width) (h : Hardware) (r : Row) : ℚ := if divided r = true ∧ 1 < h.number then activationBytes b r / h.link else 0
def time (b : Width) (h : Hardware) (r : Row) : ℚ := max (computeTime h r) (loadTime b h r) + syncTime b h r

/-- sum over the nodes -/
def sumOf (f : Row → ℚ) (rs : List Row) : ℚ := (rs.map f).sum

end OnnxTool.LlmProfile
