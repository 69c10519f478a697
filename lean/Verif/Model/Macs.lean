import Verif.Model.Conv
/-!
# MAC counts of operators

Models the MAC constants (`/repo/onnx_tool/node.py` 19-37), `GemmNode._profile_core` (915-932), `ConvNode._profile_core` (2219-2230),
`ConvTransposeNode._profile_core` (2724-2735), `PoolBase._profile_core` (1446-1452), `EinsumNode._profile_core` (1249-1260),
`SDPANode` (2868-2904), `MoENode.profile` (3121-3187), `GDNNode.profile` (3022-3084) and `MLANode.profile` (3234-3372).

Simplification: all sizes are natural numbers (known, non-negative dimensions).
-/
namespace OnnxTool.Macs
open OnnxTool OnnxTool.Shape

/-! constants (19-37) -/
def MUL : Nat := 1
def ADD : Nat := 1
def CMP : Nat := 1
def DIV : Nat := 4
def EXP : Nat := 32
def SIN : Nat := 39
def COS : Nat := 39
def SQRT : Nat := 24

/-- `GemmNode._profile_core` (915-932) for 2 or more inputs; `nin` is `len(intensors)`, `w` the shape of the second, `y` the output's.
`gemm` tells class `GemmNode` from its subclasses (MatMul). -/
def gemmMacs (gemm transB : Bool) (nin : Nat) (w y : Shp) : Except PyErr Nat :=
  if nin ≥ 2 then
    let bias := if nin = 3 then volume y * ADD else 0
    if gemm then
      if transB then
        match w.getLast? with | some k => .ok (volume y * k + bias) | none => .error .indexError
      else if w.length ≥ 2 then .ok (volume y * w.getD (w.length - 2) 0 + bias) else .error .indexError
    else if w.length > 1 then .ok (volume y * w.getD (w.length - 2) 0 + bias)
    else .ok (volume y + bias)
  else .error .notImplemented

/-- `ConvNode._profile_core` (2219-2230) and `ConvTransposeNode._profile_core` (2724-2735), which is the same text -/
def convMacs (nin nout : Nat) (w y : Shp) : Nat :=
  if nout = 1 then
    if nin = 3 ∨ nin = 2 then volume y * volume (w.drop 1) * MUL + (if nin > 2 then volume y * ADD else 0) else 0
  else 0

/-- `PoolBase._profile_core` (1446-1452) -/
def poolMacs (kernel y : Shp) : Except PyErr Nat :=
  match kernel with
  | [] => .error .indexError
  | [a, b] => .ok (volume y * CMP * a * b)
  | a :: _ => .ok (volume y * CMP * a)

/-- `map[labels[i]] = v` over a shape (1254-1257): `IndexError` when there are fewer labels than dimensions -/
def einsumMap (m : List (Char × Nat)) (labels : List Char) : Shp → Nat → Except PyErr (List (Char × Nat))
  | [], _ => .ok m
  | v :: vs, i =>
    match labels[i]? with
    | none => .error .indexError
    | some c => einsumMap (if m.any (·.1 == c) then m.map fun p => if p.1 = c then (c, v) else p else m ++ [(c, v)]) labels vs (i + 1)

/-- `EinsumNode._profile_core` (1249-1260): product over the labels of the first two operands -/
def einsumMacs (l0 l1 : List Char) (s0 s1 : Shp) : Except PyErr Nat :=
  match einsumMap [] (l0.filter (· ≠ '.')) s0 0 with
  | .error e => .error e
  | .ok m =>
    match einsumMap m (l1.filter (· ≠ '.')) s1 0 with
    | .error e => .error e
    | .ok m => .ok ((m.map (·.2)).foldl (· * ·) 1)

/-- `SDPANode.shape_infer` (2872-2880) -/
def sdpaShape (q : Shp) : Shp :=
  match q with
  | [b, n, s, d] => [b, s, n * d]
  | q => q

/-- `SDPANode._profile_core` (2882-2904) without a cache: `seq` is `q_shape[1]`; the second component is `kv_size` -/
def sdpaMacs (heads kvHeads headSize : Nat) (q : Shp) : Except PyErr (Nat × Nat) :=
  match q with
  | bs :: seq :: _ =>
    .ok (bs * heads * seq * seq * headSize + bs * heads * seq * seq * (EXP + DIV) + bs * heads * seq * headSize * seq,
      bs * kvHeads * seq * headSize * 2)
  | _ => .error .indexError

/-- the same with a cache of `ctx` positions (2887-2896), `past` the largest number of past tokens -/
def sdpaCacheMacs (heads kvHeads headSize past ctx : Nat) (q : Shp) : Except PyErr (Nat × Nat) :=
  match q with
  | bs :: seq :: _ =>
    if past + seq ≤ ctx then
      .ok (bs * heads * seq * (past + seq) * headSize + bs * heads * seq * (past + seq) * (EXP + DIV) + bs * heads * seq * headSize * (past + seq),
        bs * kvHeads * (past + seq) * headSize * 2)
    else .error .assertion
  | _ => .error .indexError

/-- attributes of a MoE node (3107-3117) -/
structure MoE where
  H : Nat
  I : Nat
  SI : Nat
  E : Nat
  k : Nat
  noSharedGate : Bool := false
  noSharedExpert : Bool := false

/-- `MoENode.profile` (3123-3187): MACs, io_params, static_params for batch `B` and sequence length `S` -/
def MoE.profile (a : MoE) (B S : Nat) : Nat × Nat × Nat :=
  let macs := B * S * a.H * a.E
  let macs := macs + B * S * a.H * a.I * a.k
  let macs := macs + B * S * a.H * a.I * a.k
  let macs := macs + B * S * a.I * a.k * (EXP + MUL)
  let macs := macs + B * S * a.I * a.k * MUL
  let macs := macs + B * S * a.I * a.H * a.k
  let macs := if !a.noSharedExpert then
      macs + B * S * a.H * a.SI + B * S * a.H * a.SI + B * S * a.SI * (EXP + MUL) + B * S * a.SI * MUL + B * S * a.SI * a.H
    else macs
  let macs := if !a.noSharedGate then macs + B * S * a.H * (EXP + MUL) else macs
  let macs := macs + B * S * a.H * ADD
  let io := B * S * a.H * 2
  let total := B * S * a.k
  let shared := if a.noSharedExpert then 0 else 3 * a.SI * a.H
  let st := if total < a.E then a.H * a.E + total * 3 * a.I * a.H + shared else a.H * a.E + a.E * 3 * a.I * a.H + shared
  (macs, io, st)

/-- attributes of a GDN node (3009-3016) -/
structure GDN where
  H : Nat
  Nq : Nat
  Nv : Nat
  Dqk : Nat
  Dv : Nat
  K : Nat

/-- `GDNNode.profile` (3034-3084) -/
def GDN.profile (a : GDN) (B S : Nat) : Nat × Nat × Nat :=
  let macs := B * S * a.H * a.Nq * a.Dqk
  let macs := macs + B * S * a.H * a.Nq * a.Dqk
  let macs := macs + B * S * a.H * a.Nv * a.Dv
  let macs := macs + 2 * B * S * a.Nq * a.Dqk
  let macs := macs + B * a.Nq * S * a.Dqk * a.K
  let macs := macs + B * a.Nq * S * a.Dqk * a.K
  let macs := macs + B * a.Nq * S * a.Dqk * S
  let macs := macs + B * a.Nv * S * S * a.Dv
  let macs := macs + B * S * a.H * (EXP + MUL)
  let macs := macs + B * S * a.Nv * a.Dv * a.H
  (macs, B * S * a.H * 2, 0)

/-- attributes of an MLA node (3217-3229) -/
structure MLA where
  D : Nat
  N : Nat
  H : Nat
  Qr : Nat
  Or : Nat
  G : Nat
  Rd : Nat
  W : Nat
  CR : Nat
  IN : Nat
  ID : Nat
  IT : Nat

/-- the cost of an RMS norm / an L2 norm / a rotary embedding per element (3276, 3280, ...) -/
def rms : Nat := MUL * 2 + ADD * 2 + SQRT + DIV
def l2 : Nat := MUL * 2 + ADD + SQRT + DIV
def rope : Nat := COS + SIN + MUL * 2

/-- the number of key/value positions attended to (3344-3349) -/
def MLA.kvLen (a : MLA) (S : Nat) : Nat :=
  if a.CR > 0 then min a.W S + S / a.CR + min a.IT (S / a.CR) else S

/-- `MLANode.profile` (3246-3372); `int(math.log2(n))` is `Nat.log2 n` -/
def MLA.profile (a : MLA) (B S : Nat) : Nat × Nat × Nat :=
  let ct := S / a.CR
  let macs := B * S * a.D * a.Qr + B * S * a.Qr * rms + B * S * a.Qr * a.N * a.H + B * S * a.N * a.H * l2
  let macs := macs + B * S * a.D * a.H + B * S * a.H * rms
  let macs := if a.CR > 0 then
      macs + B * S * a.D * a.H + B * ct * a.CR * a.H * (EXP + DIV) + B * ct * a.CR * a.H * MUL + B * ct * a.CR * a.H * ADD +
        B * ct * a.H * rms + B * ct * a.Rd * rope
    else macs
  let macs := if a.CR = 4 then
      macs + B * S * a.D * a.ID + B * S * a.D * a.ID + B * ct * a.CR * a.ID * (EXP + DIV + MUL + ADD) + B * ct * a.ID * rms +
        B * ct * a.Rd * rope + B * S * a.Qr * a.IN * a.ID + B * a.IN * S * a.Rd * rope + B * a.IN * S * a.ID * ct +
        B * S * a.IN * ct * (CMP + MUL) + B * S * a.D * a.IN + (if ct > 1 then B * S * ct * Nat.log2 ct * CMP else 0)
    else macs
  let macs := macs + B * a.N * S * a.Rd * rope + B * S * a.Rd * rope
  let macs := macs + B * a.N * S * a.H * a.kvLen S + B * a.N * S * a.kvLen S * (EXP + DIV) + B * a.N * S * a.kvLen S * a.H
  let macs := macs + B * S * a.G * (a.N * a.H / a.G) * a.Or + B * S * a.G * a.Or * a.D
  let st := a.D * a.Qr + a.Qr + a.Qr * a.N * a.H + a.D * a.H + a.H + a.G * a.Or * (a.N * a.H / a.G) + a.D * a.G * a.Or
  (macs, B * S * a.D * 2, st)

end OnnxTool.Macs
