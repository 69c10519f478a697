import Verif.Model.Regress
import Verif.Model.ComputeGraph
import Verif.Model.Infer
/-!
# A pool for a range of sizes

Models `create_memory_pool_from_model` (`/repo/inference/memory_pool.py` 209-249) and the corresponding part of `GraphInfer.__init__` (`/repo/inference/infer.py` 60-94), which differ in
the sizes the plan is made for: the first plans right after `shape_regress`, i.e. for the shapes its last probe left in the tensor map; the second sets all variables to their largest
values first.  As in `Model/Regress.lean`, `infer` is what `shape_infer` computes from the shapes of the described inputs.  Simplified: `esize t` are the bytes of one element of `t` (the
type does not depend on the sizes); loading and reordering (C73, C07) happen before, shape regression changes no node.
-/
namespace OnnxTool.RangePool
open OnnxTool OnnxTool.Engine OnnxTool.Regress

/-- `/repo/onnx_tool/graph.py` 1109-1177: the shapes left in the tensor map by the last `shape_infer` of the loop over the variables; `s` is what was left before -/
def leaves (g : Graph) (infer : List (String × List Int) → Except PyErr Shapes) (inputDesc : Dict (List Dim)) (mn : Shapes) : Range → Engine × Nat → Shapes → Except PyErr Shapes
  | [], _, s => .ok s
  | (k, lo, hi) :: ks, st, _ =>
    match probe infer inputDesc ((st.1.updateVariable k (Int.fdiv (lo + hi) 2)).updateVariable k hi) with
    | .error x => .error x
    | .ok s =>
      match varStep g infer inputDesc mn k lo hi st with
      | .error x => .error x
      | .ok st' => leaves g infer inputDesc mn ks st' s

/-- `shape_regress` (1082-1178) with the shapes it leaves in the tensor map -/
def regress (g : Graph) (infer : List (String × List Int) → Except PyErr Shapes) (inputDesc : Dict (List Dim)) (ranges : Range) : Except PyErr (Engine × Shapes) :=
  match shapeRegress g infer inputDesc ranges with
  | .error x => .error x
  | .ok e =>
    let e1 := ranges.foldl (fun e r => e.updateVariable r.1 r.2.2) (newEngine inputDesc)
    let e2 := ranges.foldl (fun e r => e.updateVariable r.1 r.2.1) e1
    match probe infer inputDesc e1 with
    | .error x => .error x
    | .ok mx =>
      match probe infer inputDesc e2 with
      | .error x => .error x
      | .ok mn =>
        match leaves g infer inputDesc mn ranges (addDescs inputDesc mn mx g.dynamics e2, 0) mn with
        | .error x => .error x
        | .ok s => .ok (e, s)

/-- the tensor map: shapes and bytes per element of the dynamic tensors -/
def tensorMap (esize : String → Nat) (dyn : List String) (s : Shapes) : Dict Infer.TInfo :=
  dyn.map fun t => (t, ⟨(s t).map Int.toNat, esize t⟩)

/-- `get_compute_graph`, `compress_memory()` and `MemoryPool(...)` (memory_pool.py 245-248; infer.py 80-94) on a graph whose tensors have shapes `s`; `M` are the shape-calculation nodes -/
def planPool (fuel : Nat) (g : Graph) (M : List String) (esize : String → Nat) (elt : Nat) (s : Shapes) : Except PyErr (Graph × Pool.MemoryPool) :=
  match ComputeGraph.computeGraph fuel g M with
  | .error e => .error e
  | .ok (cg, _) =>
    match Mem.compressMemory cg (Infer.memsizes (tensorMap esize g.dynamics s)) 64 with
    | .error e => .error e
    | .ok (cm, sz) =>
      match Pool.mk cm sz elt with
      | .error e => .error e
      | .ok m => .ok (cg, m)

/-- `create_memory_pool_from_model` (209-249) on the loaded and reordered graph: compute graph, pool and shape engine -/
def poolFromModel (fuel : Nat) (g : Graph) (M : List String) (esize : String → Nat) (elt : Nat) (infer : List (String × List Int) → Except PyErr Shapes)
    (inputDesc : Dict (List Dim)) (ranges : Range) : Except PyErr (Graph × Pool.MemoryPool × Engine) :=
  match regress g infer inputDesc ranges with
  | .error e => .error e
  | .ok (e, s) =>
    match planPool fuel g M esize elt s with
    | .error x => .error x
    | .ok (cg, m) => .ok (cg, m, e)

/-- `GraphInfer.__init__`, lines 61-94 of infer.py: after the regression every variable is set to its largest value and the shapes are inferred again before planning -/
def poolOfEngine (fuel : Nat) (g : Graph) (M : List String) (esize : String → Nat) (elt : Nat) (infer : List (String × List Int) → Except PyErr Shapes)
    (inputDesc : Dict (List Dim)) (ranges : Range) : Except PyErr (Graph × Pool.MemoryPool × Engine) :=
  match regress g infer inputDesc ranges with
  | .error e => .error e
  | .ok (e, _) =>
    match probe infer inputDesc (ranges.foldl (fun e r => e.updateVariable r.1 r.2.2) e) with
    | .error x => .error x
    | .ok s =>
      match planPool fuel g M esize elt s with
      | .error x => .error x
      | .ok (cg, m) => .ok (cg, m, ranges.foldl (fun e r => e.updateVariable r.1 r.2.2) e)

end OnnxTool.RangePool
