import Verif.Model.Graph
/-!
# `Graph.compress_memory` (`/repo/onnx_tool/graph.py` 1183-1381)
-/
namespace OnnxTool.Mem
open OnnxTool

/-- One entry of the parallel lists `mem_tags` / `mem_block` (`graph.py` 1234-1235).  The code always inserts and pops
at the same index in both lists, so they are modelled as one list.  Tag `""` means "free". -/
structure Block where
  tag : String
  off : Nat
  size : Nat
  deriving DecidableEq, Repr

/-- Consumption of one input name (`graph.py` 1205-1214).  `consumed` lists the names consumed so far with
multiplicity; `len(tensor_consumed[name])` is the number of its occurrences. -/
def consumeOne (consumedby : Dict (List String)) (st : List String × List String) (name : String) :
    List String × List String :=
  match consumedby.get? name with
  | none => st
  | some cons =>
    let consumed := st.2 ++ [name]
    if consumed.count name = cons.length then (st.1.erase name, consumed) else (st.1, consumed)

/-- First loop of `compress_memory` (`graph.py` 1196-1214): the tensors in memory at each node. -/
def liveLoop (consumedby : Dict (List String)) : List Node → List String → List String → List (List String)
  | [], _, _ => []
  | n :: ns, inMem, consumed =>
    let inMem := inMem ++ n.output
    let st := n.input.foldl (consumeOne consumedby) (inMem, consumed)
    inMem :: liveLoop consumedby ns st.1 st.2

/-- Padded size (`graph.py` 1230): `(size + p - 1) // p * p`. -/
def padSize (p : Nat) (s : Int) : Int := (s + p - 1) / p * p

/-- `tensor_sizes` (`graph.py` 1224-1232).  `memsize t` is `self.tensormap[t].get_memsize()`, `none` when `t` is not in
`tensormap`. -/
def tensorSizes (g : Graph) (memsize : String → Option Int) (p : Nat) : Dict Nat :=
  g.dynamics.foldl (fun d t =>
    if !(g.producedby.has t) && !(g.input.contains t) then d
    else match memsize t with
      | none => d
      | some s => if 0 < padSize p s then d.set t (padSize p s).toNat else d) []

/-- Release block `i` and merge it with free neighbours (`graph.py` 1248-1281).  Sizes are computed with natural
subtraction; the blocks are contiguous (proved), so no subtraction underflows. -/
def releaseAt (bs : List Block) (i : Nat) : List Block :=
  match bs[i]? with
  | none => bs
  | some b =>
    let prev := if 1 ≤ i then bs[i-1]?.filter (fun x => x.tag = "") else none
    let next := bs[i+1]?.filter (fun x => x.tag = "")
    match prev, next with
    | some q, some r => ((bs.eraseIdx i).eraseIdx i).set (i-1) ⟨"", q.off, r.off + r.size - q.off⟩
    | some q, none => (bs.eraseIdx i).set (i-1) ⟨"", q.off, b.off + b.size - q.off⟩
    | none, some r => (bs.eraseIdx i).set i ⟨"", b.off, r.off + r.size - b.off⟩
    | none, none => bs.set i ⟨"", b.off, b.size⟩

/-- Phase 1 (`graph.py` 1243-1281): `for i, tag in enumerate(mem_tags)` while the list is being popped; the iterator
keeps its own index `i` and stops when `i` reaches the current length.  `fuel` = initial length suffices because the
index grows by one per step and the list never grows. -/
def releaseLoop (live : List String) : Nat → Nat → List Block → List Block
  | 0, _, bs => bs
  | fuel+1, i, bs =>
    match bs[i]? with
    | none => bs
    | some b =>
      if b.tag ≠ "" ∧ b.tag ∉ live then releaseLoop live fuel (i+1) (releaseAt bs i)
      else releaseLoop live fuel (i+1) bs

/-- Best-fit search (`graph.py` 1294-1303): index and remainder of the free block with the smallest remainder, the first
one on ties. -/
def bestFit (size : Nat) : Nat → List Block → Option (Nat × Nat) → Option (Nat × Nat)
  | _, [], best => best
  | i, b :: bs, best =>
    bestFit size (i+1) bs <|
      if b.tag = "" ∧ size ≤ b.size then
        match best with
        | none => some (i, b.size - size)
        | some (j, r) => if b.size - size < r then some (i, b.size - size) else some (j, r)
      else best

/-- Allocation of one tensor (`graph.py` 1305-1330); `thr` is `split_threshold`. -/
def allocBlocks (thr : Nat) (t : String) (size : Nat) (bs : List Block) : List Block :=
  match bestFit size 0 bs none with
  | some (i, rem) =>
    match bs[i]? with
    | none => bs
    | some b =>
      if thr ≤ rem then (bs.set i ⟨t, b.off, size⟩).insertIdx (i+1) ⟨"", b.off + size, rem⟩
      else bs.set i ⟨t, b.off, b.size⟩
  | none =>
    match bs.getLast? with
    | none => [⟨t, 0, size⟩]
    | some l =>
      if l.tag = "" then bs.set (bs.length - 1) ⟨t, l.off, size⟩
      else bs ++ [⟨t, l.off + l.size, size⟩]

/-- State of the allocation loop: the block list and `compress_mem`. -/
structure St where
  blocks : List Block := []
  cm : Dict (Nat × Nat) := []
  deriving DecidableEq, Repr

/-- One iteration of the loop over `new_tensors` (`graph.py` 1288-1334). -/
def allocOne (sizes : Dict Nat) (thr : Nat) (st : St) (t : String) : St :=
  if st.blocks.any (fun b => b.tag = t) then st
  else match sizes.get? t with
    | none => st
    | some size =>
      let bs := allocBlocks thr t size st.blocks
      match bs.find? (fun b => b.tag = t) with
      | none => { st with blocks := bs }
      | some b => ⟨bs, st.cm.set t (b.off, b.size)⟩

/-- Insertion of `t` in front of the first strictly smaller element: one step of a stable sort by descending size. -/
def insertDesc (key : String → Nat) (t : String) : List String → List String
  | [] => [t]
  | u :: us => if key u ≤ key t then t :: u :: us else u :: insertDesc key t us

/-- `new_tensors.sort(key=lambda t: -tensor_sizes[t])` (`graph.py` 1286): stable, descending. -/
def sortDesc (key : String → Nat) (l : List String) : List String := l.foldr (insertDesc key) []

/-- One node of the allocation loop (`graph.py` 1241-1334). -/
def stepNode (sizes : Dict Nat) (thr : Nat) (st : St) (live : List String) : St :=
  let bs := releaseLoop live st.blocks.length 0 st.blocks
  let new := live.filter (fun t => !(bs.any (fun b => b.tag = t)) && sizes.has t)
  (sortDesc (fun t => (sizes.get? t).getD 0) new).foldl (allocOne sizes thr) { st with blocks := bs }

/-- `compress_size` (`graph.py` 1337): the largest block end, 0 without blocks. -/
def poolSize (bs : List Block) : Nat := bs.foldl (fun m b => max m (b.off + b.size)) 0

/-- `raw_memsize` (`graph.py` 1372-1376): `none` = KeyError for a dynamic tensor missing from `tensormap`. -/
def rawSize (g : Graph) (memsize : String → Option Int) : Option Int :=
  g.dynamics.foldl (fun acc t =>
    if g.input.contains t || g.output.contains t then acc
    else match acc, memsize t with
      | some a, some s => some (a + s)
      | _, _ => none) (some 0)

/-- `tensor_mem_per_node` of `compress_memory` -/
def liveLists (g : Graph) : List (List String) := liveLoop g.consumedby g.nodemap g.input []

/-- The allocation part of `compress_memory`: final block list and offset map. -/
def runAlloc (g : Graph) (memsize : String → Option Int) (p : Nat) : St :=
  (liveLists g).foldl (stepNode (tensorSizes g memsize p) (max p 4096)) {}

/-- `compress_memory(size_padding=p)` (`graph.py` 1183-1381).  The validation loop (1341-1370) only prints warnings and
is not modelled.  The final log lines are evaluated even when not printed: `self.tensormap[t]` (1375) may raise KeyError
and `compress_size / raw_memsize` (1380) raises ZeroDivisionError; `p = 0` raises ZeroDivisionError at 1230. -/
def compressMemory (g : Graph) (memsize : String → Option Int) (p : Nat) : Except PyErr (Dict (Nat × Nat) × Nat) :=
  if p = 0 && g.dynamics.any (fun t => (g.producedby.has t || g.input.contains t) && (memsize t).isSome) then
    .error .zeroDivision
  else
    let st := runAlloc g memsize p
    match rawSize g memsize with
    | none => .error .keyError
    | some 0 => .error .zeroDivision
    | some _ => .ok (st.cm, poolSize st.blocks)

end OnnxTool.Mem
