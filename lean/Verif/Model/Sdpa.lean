import Mathlib.Algebra.Field.Defs
import Mathlib.Algebra.BigOperators.Group.Finset.Basic
import Verif.Model.Py
/-!
# Attention and rotary kernels (`/repo/inference/kernels.py`)

Models `SDPAKernel.run` (881-988) and `RopeKernel.run` (993-1059).  Numbers are elements of a field `F` (exact arithmetic); the
exponential of the softmax is an arbitrary function `ex`, a masked score (`-inf`) has weight 0 and `head_dim ** 0.5` is an arbitrary
`scale`; torch's softmax subtracts the row maximum first, which does not change the exact quotient.  A tensor is a function of its
indices together with its sizes; only elements inside the sizes are meaningful.
-/
namespace OnnxTool.Sdpa
open OnnxTool Finset

variable {F : Type} [Field F]

/-- a tensor `[B, S, D]`: batch, position, column -/
abbrev T3 (F : Type) := Nat → Nat → Nat → F

/-- the `kv_cache` tensor `[B, 2*num_layers, context_len, cols]` -/
abbrev Cache (F : Type) := Nat → Nat → Nat → Nat → F

/-- attributes and sizes: heads, key/value heads, columns of `q` and of `k`/`v`, sizes of the cache -/
structure Cfg where
  heads : Nat
  kvHeads : Nat
  qCols : Nat
  kvCols : Nat
  layers : Nat
  ctx : Nat
  cacheCols : Nat

/-- `head_dim` (906) -/
def Cfg.hd (c : Cfg) : Nat := c.qCols / c.heads

/-- `repeat` (956-959) -/
def Cfg.rep (c : Cfg) : Nat := if c.kvHeads < c.heads then c.heads / c.kvHeads else 1

/-- The reshapes and the matmul go through (913-919, 956-964): the columns are whole heads and every query head gets a key head. -/
def Cfg.shapesOk (c : Cfg) : Bool :=
  0 < c.heads && 0 < c.kvHeads && c.heads * c.hd = c.qCols && c.kvHeads * c.hd = c.kvCols && c.kvHeads * c.rep = c.heads

/-- Keys or values seen by the call (937-943): the first `n` positions from the cache, then the current ones. -/
def joined (n : Nat) (old cur : T3 F) : T3 F := fun b j c => if j < n then old b j c else cur b (j - n) c

/-- scores (963-964): query head `h` against key head `h / rep` (`repeat_interleave`) -/
def score (cf : Cfg) (scale : F) (q k : T3 F) (b h i j : Nat) : F :=
  (∑ e ∈ range cf.hd, q b i (h * cf.hd + e) * k b j (h / cf.rep * cf.hd + e)) / scale

/-- softmax weights before normalisation with the mask added (966-980): masked positions weigh 0 -/
def weight (cf : Cfg) (ex : F → F) (scale : F) (n : Nat) (q k : T3 F) (b h i j : Nat) : F :=
  if j < n + i + 1 then ex (score cf scale q k b h i j) else 0

/-- attention output (980-984): softmax over all `total` positions, weighted sum of the values, heads side by side -/
def attend (cf : Cfg) (ex : F → F) (scale : F) (n total : Nat) (q k v : T3 F) : T3 F := fun b i c =>
  ∑ j ∈ range total,
    weight cf ex scale n q k b (c / cf.hd) i j / (∑ j' ∈ range total, weight cf ex scale n q k b (c / cf.hd) i j') *
      v b j (c / cf.hd / cf.rep * cf.hd + c % cf.hd)

/-- write `S` positions from `n` on into one slot of the cache (945-949) -/
def writeCache (cache : Cache F) (slot n S cols : Nat) (x : T3 F) : Cache F := fun b s j c =>
  if s = slot ∧ n ≤ j ∧ j < n + S ∧ c < cols then x b (j - n) c else cache b s j c

/-- The kernel on three-dimensional inputs with a cache (926-988): the new cache and the output, or RuntimeError when a reshape, the
matmul or an assignment to a slice does not fit (`n_past` beyond the filled context, or no room for `S` more positions). -/
def run3 (cf : Cfg) (ex : F → F) (scale : F) (layer n S : Nat) (q k v : T3 F) (cache : Cache F) :
    Except PyErr (Cache F × T3 F) :=
  if ¬ (layer < cf.layers) then .error .indexError
  else if cf.shapesOk = true ∧ cf.kvCols ≤ cf.cacheCols ∧ n + S ≤ cf.ctx then
    let k' := joined n (fun b j c => cache b (layer * 2) j c) k
    let v' := joined n (fun b j c => cache b (layer * 2 + 1) j c) v
    .ok (writeCache (writeCache cache (layer * 2) n S cf.kvCols k) (layer * 2 + 1) n S cf.kvCols v,
      attend cf ex scale n (n + S) q k' v')
  else .error .runtimeError

/-- The kernel on three-dimensional inputs without a cache (950-951, 974-988): the mask is upper triangular. -/
def runPlain (cf : Cfg) (ex : F → F) (scale : F) (S : Nat) (q k v : T3 F) : Except PyErr (T3 F) :=
  if cf.shapesOk = true then .ok (attend cf ex scale 0 S q k v) else .error .runtimeError

/-- The slice assignment for four-dimensional inputs `[B, kvHeads, S, hd]` with a cache (909-910, 932-948): `kv_hidden_size` is
`hd * S`, the source has `kvHeads * hd` columns; torch needs the columns to agree (or one source column). -/
def cache4Fits (kvHeads S hd cacheCols : Nat) : Bool :=
  kvHeads * hd = min (hd * S) cacheCols || kvHeads * hd = 1

/-- What is written at position `n + s`, column `c` for four-dimensional inputs: `inputs[1].reshape(B, S, -1)` of `[B, N, S, hd]` in
row-major order (946), without the transpose that the cache layout needs. -/
def flat4 (kvHeads S hd : Nat) (x : Nat → Nat → Nat → Nat → F) : T3 F := fun b s c =>
  let p := s * (kvHeads * hd) + c
  x b (p / (S * hd)) (p / hd % S) (p % hd)

/-- `RopeKernel` (1016-1059) on `[B, S, D]` with tables of `half` columns: `D` is cut into groups of `2 * half` columns, each rotated by
the angles of its token's position. -/
def rope (half : Nat) (cosT sinT : Nat → Nat → F) (pos : Nat → Nat → Nat) (x : T3 F) : T3 F := fun b s c =>
  let g := c / (2 * half)
  let e := c % (2 * half)
  if e < half then
    x b s (g * (2 * half) + e) * cosT (pos b s) e - x b s (g * (2 * half) + half + e) * sinT (pos b s) e
  else
    x b s (g * (2 * half) + (e - half)) * sinT (pos b s) (e - half) + x b s (g * (2 * half) + e) * cosT (pos b s) (e - half)

end OnnxTool.Sdpa
