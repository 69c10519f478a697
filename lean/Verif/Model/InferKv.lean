import Verif.Model.KvPlan
import Verif.Model.InferState
/-!
# `GraphInfer` with a key/value cache (`/repo/inference/infer.py` 82-130)

Two torch allocations, the pool and the pool of `kv_cache`, are modelled as one address space: the second starts where the first ends
(two allocations never overlap; their distance does not matter).
-/
namespace OnnxTool.Infer
open OnnxTool OnnxTool.Pool

/-- `_tensor_views` (93-130) for the two plans: the views into the second pool are shifted by the size of the first. -/
def viewsKv (plan : Dict (Nat × Nat)) (poolSize : Nat) (kvPlan : Dict (Nat × Nat)) (kvSize : Nat) (tm : Dict TInfo) (elt : Nat) :
    Dict (Nat × Nat) :=
  views plan poolSize tm elt ++ (views kvPlan kvSize tm elt).map fun e => (e.1, (poolSize + e.2.1, e.2.2))

/-- `__init__` for a graph with a tensor `kv_cache`. -/
def mkEngineKv (g : Graph) (plan : Dict (Nat × Nat)) (poolSize : Nat) (kvPlan : Dict (Nat × Nat)) (kvSize : Nat) (tm : Dict TInfo)
    (elt : Nat) (consts : Dict Bytes) : Engine :=
  ⟨g.nodemap, g.output, viewsKv plan poolSize kvPlan kvSize tm elt, elt, consts⟩

end OnnxTool.Infer
