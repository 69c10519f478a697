import Mathlib.Data.Rat.Floor
import Verif.Model.LlmCost
/-!
# `Builder.profile` (`/repo/onnx_tool/llm.py` 1100-1193): memory and projected latency

Works on the figures `graph.profile()` has stored (`Row`).  Simplifications: floating-point numbers are exact rationals; `node.macs` is a
number (the branch for lists, 1130, is not reached by the builder's operators).
-/
namespace OnnxTool.LlmProfile
open OnnxTool OnnxTool.LlmCost

/-- `Config` (1100-1111): names of the compute rates and bits per element, for matrix products, attention and everything else -/
structure Config where
  mmKey : String := "FP32"
  mhaKey : String := "FP32"
  othersKey : String := "FP32"
  mm : ℚ := 9 / 2
  mha : ℚ := 16
  others : ℚ := 32

/-- what is read from the device (1118-1123) -/
structure Rates where
  link : ℚ
  num : ℚ
  mm : ℚ
  mha : ℚ
  others : ℚ
  mem : ℚ

/-- `Device.get(k, Device['FP32']) * 1e9`: the default is evaluated first -/
def rate (d : Dict ℚ) (k : String) : Except PyErr ℚ :=
  match d.get? "FP32" with
  | none => .error .keyError
  | some f => .ok ((d.get? k).getD f * 1000000000)

/-- `Device.get('LinkBandwidth', 0) * 1e9` and the number of devices (1118-1119) -/
def linkRate (d : Dict ℚ) : ℚ := (d.get? "LinkBandwidth").getD 0 * 1000000000
def deviceNumber (d : Dict ℚ) : ℚ := if linkRate d = 0 then 1 else (d.get? "Number").getD 1

/-- 1117-1123 -/
def rates (g : Config) (d : Dict ℚ) : Except PyErr Rates :=
  match rate d g.mmKey with
  | .error e => .error e
  | .ok a =>
    match rate d g.mhaKey with
    | .error e => .error e
    | .ok b =>
      match rate d g.othersKey with
      | .error e => .error e
      | .ok o =>
        match d.get? "Bandwidth" with
        | none => .error .typeError
        | some m => .ok ⟨linkRate d, deviceNumber d, a, b, o, m * 1000000000⟩

/-- Python division -/
def div (a b : ℚ) : Except PyErr ℚ := if b = 0 then .error .zeroDivision else .ok (a / b)

/-- `a / b / c` -/
def div2 (a b c : ℚ) : Except PyErr ℚ :=
  match div a b with
  | .error e => .error e
  | .ok x => div x c

/-- `latency` and `Bottleneck` of one node -/
structure Latency where
  compute : ℚ
  load : ℚ
  total : ℚ
  sync : ℚ
  bottleneck : String
  deriving DecidableEq

/-- `node.llm_profile` -/
structure NodeProfile where
  flops : ℚ
  memory : ℚ
  device : Option Latency
  deriving DecidableEq

/-- what one node adds: its profile and its share of `MM_mem`, `MHA_mem`, `Other_mem` -/
structure Share where
  prof : NodeProfile
  mm : ℚ
  mha : ℚ
  other : ℚ
  deriving DecidableEq

/-- memory of activations (`io_mem`) -/
def ioMem (g : Config) (f : Fig) : ℚ := f.io * g.others / 8

/-- the branch on `op_type` (1136-1177): `(memory, comm_mem, MM, MHA, Other)` -/
def memParts (g : Config) (op : String) (f : Fig) : ℚ × ℚ × ℚ × ℚ × ℚ :=
  if op = "MatMul" then
    let w := f.static * g.mm / 8
    (ioMem g f + w, ioMem g f, w, 0, 0)
  else if op = "SDPA" then
    let kv := f.kv * g.mha / 8
    (ioMem g f + kv, ioMem g f, 0, kv, 0)
  else if op = "MoE" ∨ op = "MLA" ∨ op = "GDN" then
    let w := f.static * g.mm / 8
    (ioMem g f + w, ioMem g f, w, 0, 0)
  else if op = "Gather" then
    let w := f.static * g.mm / 8
    (ioMem g f + w, 0, w, 0, 0)
  else
    let w := f.static * g.others / 8
    (ioMem g f + w, 0, 0, 0, w)

/-- `c_latency` and `l_latency` of the same branches -/
def times (r : Rates) (op : String) (flops mem : ℚ) : Except PyErr (ℚ × ℚ) :=
  let c := if op = "MatMul" then div2 flops r.mm r.num
    else if op = "SDPA" then div2 flops r.mha r.num
    else if op = "MoE" ∨ op = "MLA" ∨ op = "GDN" then div2 flops r.mm r.num
    else div flops r.others
  let l := if op = "MatMul" ∨ op = "SDPA" ∨ op = "MoE" ∨ op = "MLA" ∨ op = "GDN" then div2 mem r.mem r.num else div mem r.mem
  match c with
  | .error e => .error e
  | .ok a =>
    match l with
    | .error e => .error e
    | .ok b => .ok (a, b)

/-- 1182-1190 -/
def latency (r : Rates) (op : String) (flops mem comm : ℚ) : Except PyErr Latency :=
  match times r op flops mem with
  | .error e => .error e
  | .ok (c, l) =>
    match (if r.num > 1 then div comm r.link else .ok 0) with
    | .error e => .error e
    | .ok s => .ok ⟨c, l, max c l + s, s, if c > l then "Compute" else "Memory"⟩

/-- one iteration of the loop (1128-1191) -/
def nodeShare (g : Config) (r : Option Rates) (row : Row) : Except PyErr Share :=
  let flops : ℚ := row.fig.macs * 2
  let p := memParts g row.op row.fig
  match r with
  | none => .ok ⟨⟨flops, p.1, none⟩, p.2.2.1, p.2.2.2.1, p.2.2.2.2⟩
  | some r =>
    match latency r row.op flops p.1 p.2.1 with
    | .error e => .error e
    | .ok l => .ok ⟨⟨flops, p.1, some l⟩, p.2.2.1, p.2.2.2.1, p.2.2.2.2⟩

/-- `self.llm_profile`, `self.context_mem` and the profiles of the nodes -/
structure Report where
  flops : ℚ := 0
  memory : ℚ := 0
  latency : ℚ := 0
  mm : ℚ := 0
  mha : ℚ := 0
  other : ℚ := 0
  nodes : List (String × NodeProfile) := []

/-- the loop (1128-1191) -/
def loop (g : Config) (r : Option Rates) : List Row → Report → Except PyErr Report
  | [], acc => .ok acc
  | row :: rows, acc =>
    match nodeShare g r row with
    | .error e => .error e
    | .ok s => loop g r rows
        { flops := acc.flops + s.prof.flops
          memory := acc.memory + s.prof.memory
          latency := acc.latency + ((s.prof.device.map (·.total)).getD 0)
          mm := acc.mm + s.mm
          mha := acc.mha + s.mha
          other := acc.other + s.other
          nodes := acc.nodes ++ [(row.name, s.prof)] }

/-- `context_mem` (1193) -/
def Report.contextMem (r : Report) : List ℚ := [r.mm, r.mha, r.other, r.mm + r.mha + r.other]

/-- `Builder.profile(Config, Device)` after `graph.profile()` -/
def profile (g : Config) (device : Option (Dict ℚ)) (rows : List Row) : Except PyErr Report :=
  match device with
  | none => loop g none rows {}
  | some d =>
    match rates g d with
    | .error e => .error e
    | .ok r => loop g (some r) rows {}

end OnnxTool.LlmProfile
