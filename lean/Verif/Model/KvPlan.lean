import Verif.Model.Memory
/-!
# `compress_memory_with_kv_cache` (`/repo/benchmark/llm_test.py` 9-171)

The memory plan `GraphInfer` uses for graphs with a tensor named `kv_cache`: the lifetimes and the allocator of `compress_memory`, run
once for `kv_cache` alone and once for all the other tensors.
-/
namespace OnnxTool.Mem
open OnnxTool

/-- `tensor_sizes` and `kv_tensor_sizes` (44-57). -/
def kvSizes (g : Graph) (memsize : String → Option Int) (p : Nat) : Dict Nat × Dict Nat :=
  g.dynamics.foldl (fun d t =>
    if !(g.producedby.has t) && !(g.input.contains t) then d
    else match memsize t with
      | none => d
      | some s =>
        if 0 < padSize p s then
          if t = "kv_cache" then (d.1, d.2.set t (padSize p s).toNat) else (d.1.set t (padSize p s).toNat, d.2)
        else d) ([], [])

/-- One iteration of the loop over `new_tensors` (98-136).  Unlike `compress_memory` (`graph.py` 1285) it does not skip a name that has
meanwhile received a block. -/
def allocOneKv (sizes : Dict Nat) (thr : Nat) (st : St) (t : String) : St :=
  match sizes.get? t with
  | none => st
  | some size =>
    let bs := allocBlocks thr t size st.blocks
    match bs.find? (fun b => b.tag = t) with
    | none => { st with blocks := bs }
    | some b => ⟨bs, st.cm.set t (b.off, b.size)⟩

/-- One node (67-136): release, then allocate in order of descending size. -/
def stepNodeKv (sizes : Dict Nat) (thr : Nat) (st : St) (live : List String) : St :=
  let bs := releaseLoop live st.blocks.length 0 st.blocks
  let new := live.filter (fun t => !(bs.any (fun b => b.tag = t)) && sizes.has t)
  (sortDesc (fun t => (sizes.get? t).getD 0) new).foldl (allocOneKv sizes thr) { st with blocks := bs }

/-- `_allocate_pool` (60-139) on the lifetimes of the graph (24-42). -/
def allocatePool (g : Graph) (sizes : Dict Nat) (p : Nat) : St := (liveLists g).foldl (stepNodeKv sizes (max p 4096)) {}

/-- `raw_memsize` (160-164); unlike `compress_memory`, names missing from `tensormap` are skipped. -/
def rawSizeKv (g : Graph) (memsize : String → Option Int) : Int :=
  g.dynamics.foldl (fun acc t => if g.input.contains t || g.output.contains t then acc else acc + (memsize t).getD 0) 0

/-- `compress_memory_with_kv_cache(cg, size_padding=p)`: `((compress_mem, compress_size), (kv_compress_mem, kv_compress_size))`; the
division by `raw_memsize` in the log line (170) raises ZeroDivisionError when it is 0, `p = 0` raises at 52; the overlap check only
prints. -/
def compressMemoryKv (g : Graph) (memsize : String → Option Int) (p : Nat) :
    Except PyErr ((Dict (Nat × Nat) × Nat) × (Dict (Nat × Nat) × Nat)) :=
  if p = 0 && g.dynamics.any (fun t => (g.producedby.has t || g.input.contains t) && (memsize t).isSome) then
    .error .zeroDivision
  else
    let a := allocatePool g (kvSizes g memsize p).1 p
    let k := allocatePool g (kvSizes g memsize p).2 p
    if rawSizeKv g memsize = 0 then .error .zeroDivision
    else .ok ((a.cm, poolSize a.blocks), (k.cm, poolSize k.blocks))

end OnnxTool.Mem
