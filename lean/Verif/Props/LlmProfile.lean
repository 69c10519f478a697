import Verif.Model.LlmProfile
import Verif.Spec.LlmProfile
import Verif.Props.LlmCost
import Mathlib.Tactic.Linarith
import Mathlib.Tactic.FieldSimp
import Mathlib.Tactic.NormNum
import Mathlib.Tactic.Positivity
/-!
# C65: memory and projected latency of a decoder
-/
namespace OnnxTool.Props
open OnnxTool OnnxTool.LlmCost OnnxTool.LlmProfile

/-- the bits of a configuration -/
def widthOf (g : Config) : Width := ⟨g.mm, g.mha, g.others⟩

/-- What a device dictionary (giga-operations and gigabytes per second) says under a configuration: a rate that is not listed falls back to
`FP32`, and without a link only one device counts. -/
structure Describes (g : Config) (d : Dict ℚ) (h : Hardware) : Prop where
  fp32 : (d.get? "FP32").isSome
  bandwidth : d.get? "Bandwidth" = some (h.memory / 1000000000)
  matrix : h.matrix = (d.get? g.mmKey).getD ((d.get? "FP32").getD 0) * 1000000000
  attention : h.attention = (d.get? g.mhaKey).getD ((d.get? "FP32").getD 0) * 1000000000
  others : h.others = (d.get? g.othersKey).getD ((d.get? "FP32").getD 0) * 1000000000
  link : h.link = (d.get? "LinkBandwidth").getD 0 * 1000000000
  number : h.number = if h.link = 0 then 1 else (d.get? "Number").getD 1

/-- the entry of one node -/
def nodeReport (b : Width) (h : Hardware) (r : Row) : String × NodeProfile :=
  (r.name, ⟨operations r, bytes b r, some ⟨computeTime h r, loadTime b h r, time b h r, syncTime b h r,
    if computeTime h r > loadTime b h r then "Compute" else "Memory"⟩⟩)

/-- The report of a run on `rs`. -/
structure IsReport (b : Width) (h : Hardware) (rs : List Row) (rep : Report) : Prop where
  flops : rep.flops = sumOf operations rs
  memory : rep.memory = sumOf (bytes b) rs
  latency : rep.latency = sumOf (time b h) rs
  context : rep.contextMem = [sumOf (residentBytes b) (rs.filter weightLike), sumOf (residentBytes b) (rs.filter isAttention),
    sumOf (residentBytes b) (rs.filter fun r => !weightLike r && !isAttention r), sumOf (residentBytes b) rs]
  nodes : rep.nodes = rs.map (nodeReport b h)

theorem rates_ok {g : Config} {d : Dict ℚ} {h : Hardware} (hd : Describes g d h) :
    rates g d = .ok ⟨h.link, h.number, h.matrix, h.attention, h.others, h.memory⟩ := by
  obtain ⟨f, hf⟩ := Option.isSome_iff_exists.1 hd.fp32
  have e : ∀ k, rate d k = .ok ((d.get? k).getD ((d.get? "FP32").getD 0) * 1000000000) := by
    intro k
    simp [rate, hf]
  have el : linkRate d = h.link := hd.link.symm
  have en : deviceNumber d = h.number := by rw [deviceNumber, el, hd.number]
  unfold rates
  rw [e, e, e, hd.bandwidth, el, en, ← hd.matrix, ← hd.attention, ← hd.others]
  simp

theorem div_ok {a b : ℚ} (h : 0 < b) : div a b = .ok (a / b) := by simp [div, h.ne']
theorem div2_ok {a b c : ℚ} (h : 0 < b) (h' : 0 < c) : div2 a b c = .ok (a / (b * c)) := by
  simp [div2, div_ok h, div_ok h', div_div]

/-- the contribution of one node to the buckets -/
theorem nodeShare_ok (g : Config) (h : Hardware) (ho : h.Ok) (r : Row) :
    nodeShare g (some ⟨h.link, h.number, h.matrix, h.attention, h.others, h.memory⟩) r = .ok
      ⟨(nodeReport (widthOf g) h r).2, if weightLike r then residentBytes (widthOf g) r else 0, if isAttention r then residentBytes (widthOf g) r else 0,
        if !weightLike r && !isAttention r then residentBytes (widthOf g) r else 0⟩ := by
  have hn : 0 < h.number := lt_of_lt_of_le one_pos ho.number
  have hs : (if h.number > 1 then div 0 h.link else Except.ok 0) = Except.ok 0 := by
    split
    · rename_i hl
      simp [div_ok (ho.link hl)]
    · rfl
  unfold nodeShare nodeReport latency times memParts ioMem
  by_cases h1 : r.op = "MatMul"
  · by_cases hl : 1 < h.number
    · simp [h1, hl, div2_ok ho.matrix hn, div2_ok ho.memory hn, div_ok (ho.link hl), computeTime, loadTime, syncTime, time, operations, bytes,
        activationBytes, residentBytes, peak, share, divided, isMatrix, isAttention, weightLike, widthOf, mul_comm]
    · simp [h1, hl, div2_ok ho.matrix hn, div2_ok ho.memory hn, computeTime, loadTime, syncTime, time, operations, bytes,
        activationBytes, residentBytes, peak, share, divided, isMatrix, isAttention, weightLike, widthOf, mul_comm]
  by_cases h2 : r.op = "SDPA"
  · by_cases hl : 1 < h.number
    · simp [h2, hl, div2_ok ho.attention hn, div2_ok ho.memory hn, div_ok (ho.link hl), computeTime, loadTime, syncTime, time, operations, bytes,
        activationBytes, residentBytes, peak, share, divided, isMatrix, isAttention, weightLike, widthOf, mul_comm]
    · simp [h2, hl, div2_ok ho.attention hn, div2_ok ho.memory hn, computeTime, loadTime, syncTime, time, operations, bytes,
        activationBytes, residentBytes, peak, share, divided, isMatrix, isAttention, weightLike, widthOf, mul_comm]
  by_cases h3 : r.op = "MoE" ∨ r.op = "MLA" ∨ r.op = "GDN"
  · by_cases hl : 1 < h.number
    · rcases h3 with h3 | h3 | h3 <;>
      simp [h3, hl, div2_ok ho.matrix hn, div2_ok ho.memory hn, div_ok (ho.link hl), computeTime, loadTime, syncTime, time, operations, bytes,
        activationBytes, residentBytes, peak, share, divided, isMatrix, isAttention, weightLike, widthOf, mul_comm]
    · rcases h3 with h3 | h3 | h3 <;>
      simp [h3, hl, div2_ok ho.matrix hn, div2_ok ho.memory hn, computeTime, loadTime, syncTime, time, operations, bytes,
        activationBytes, residentBytes, peak, share, divided, isMatrix, isAttention, weightLike, widthOf, mul_comm]
  have h3a : r.op ≠ "MoE" := fun e => h3 (Or.inl e)
  have h3b : r.op ≠ "MLA" := fun e => h3 (Or.inr (Or.inl e))
  have h3c : r.op ≠ "GDN" := fun e => h3 (Or.inr (Or.inr e))
  by_cases h4 : r.op = "Gather"
  · simp [h4, hs, div_ok ho.others, div_ok ho.memory, computeTime, loadTime, syncTime, time, operations, bytes,
        activationBytes, residentBytes, peak, share, divided, isMatrix, isAttention, weightLike, widthOf, mul_comm]
  · simp [h1, h2, h3a, h3b, h3c, h4, hs, div_ok ho.others, div_ok ho.memory, computeTime, loadTime, syncTime, time, operations, bytes,
        activationBytes, residentBytes, peak, share, divided, isMatrix, isAttention, weightLike, widthOf, mul_comm]

/-! ### The loop -/

theorem sumOf_nil (f : Row → ℚ) : sumOf f [] = 0 := rfl
theorem sumOf_cons (f : Row → ℚ) (r : Row) (rs : List Row) : sumOf f (r :: rs) = f r + sumOf f rs := rfl
theorem sumOf_filter_cons (p : Row → Bool) (f : Row → ℚ) (r : Row) (rs : List Row) :
    sumOf f ((r :: rs).filter p) = (if p r then f r else 0) + sumOf f (rs.filter p) := by
  by_cases h : p r = true <;> simp [h, sumOf_cons]

/-- the entry of one node, with or without device -/
def entry (b : Width) (dev : Row → Option Latency) (r : Row) : NodeProfile := ⟨operations r, bytes b r, dev r⟩

theorem loop_ok (g : Config) (R : Option Rates) (dev : Row → Option Latency)
    (hr : ∀ r, nodeShare g R r = .ok ⟨entry (widthOf g) dev r, if weightLike r then residentBytes (widthOf g) r else 0,
      if isAttention r then residentBytes (widthOf g) r else 0, if !weightLike r && !isAttention r then residentBytes (widthOf g) r else 0⟩)
    (rs : List Row) (acc : Report) :
    loop g R rs acc = .ok
      { flops := acc.flops + sumOf operations rs
        memory := acc.memory + sumOf (bytes (widthOf g)) rs
        latency := acc.latency + sumOf (fun r => ((dev r).map (·.total)).getD 0) rs
        mm := acc.mm + sumOf (residentBytes (widthOf g)) (rs.filter weightLike)
        mha := acc.mha + sumOf (residentBytes (widthOf g)) (rs.filter isAttention)
        other := acc.other + sumOf (residentBytes (widthOf g)) (rs.filter fun r => !weightLike r && !isAttention r)
        nodes := acc.nodes ++ rs.map fun r => (r.name, entry (widthOf g) dev r) } := by
  induction rs generalizing acc with
  | nil => simp [loop, sumOf_nil]
  | cons r rs ih =>
    unfold loop
    rw [hr r]
    simp only [ih, sumOf_filter_cons, sumOf_cons, entry, add_assoc, List.append_assoc, List.map_cons, List.singleton_append]

theorem resident_split (b : Width) (rs : List Row) :
    sumOf (residentBytes b) (rs.filter weightLike) + sumOf (residentBytes b) (rs.filter isAttention) +
      sumOf (residentBytes b) (rs.filter fun r => !weightLike r && !isAttention r) = sumOf (residentBytes b) rs := by
  induction rs with
  | nil => simp [sumOf_nil]
  | cons r rs ih =>
    rw [sumOf_filter_cons, sumOf_filter_cons, sumOf_filter_cons, sumOf_cons, ← ih]
    have hx : weightLike r = true → isAttention r = false := by
      intro h
      by_contra h'
      have e : r.op = "SDPA" := by simpa [isAttention] using h'
      simp [weightLike, isMatrix, e] at h
    cases h1 : weightLike r <;> cases h2 : isAttention r
    · simp; ring
    · simp; ring
    · simp; ring
    · rw [hx h1] at h2; cases h2

/-- **C65, the report.** On a described device with positive rates the profile succeeds; totals are the sums over the nodes of operations, bytes and
roofline times, `context_mem` lists the bytes of weights, cache and other constants and their sum, and every node has its own entry. -/
theorem C65_report (g : Config) (d : Dict ℚ) (h : Hardware) (hd : Describes g d h) (ho : h.Ok) (rs : List Row) :
    ∃ rep, LlmProfile.profile g (some d) rs = .ok rep ∧ IsReport (widthOf g) h rs rep := by
  have e : LlmProfile.profile g (some d) rs = loop g (some ⟨h.link, h.number, h.matrix, h.attention, h.others, h.memory⟩) rs {} := by
    simp only [LlmProfile.profile, rates_ok hd]
  refine ⟨_, e.trans (loop_ok g _ (fun r => (nodeReport (widthOf g) h r).2.device) (fun r => nodeShare_ok g h ho r) rs {}), ?_⟩
  · refine ⟨?_, ?_, ?_, ?_, ?_⟩
    · simp
    · simp
    · simp [nodeReport]
    · simp only [Report.contextMem, zero_add]
      rw [resident_split]
    · simp only [List.nil_append]
      rfl

theorem nodeShare_none (g : Config) (r : Row) :
    nodeShare g none r = .ok ⟨entry (widthOf g) (fun _ => none) r, if weightLike r then residentBytes (widthOf g) r else 0,
      if isAttention r then residentBytes (widthOf g) r else 0, if !weightLike r && !isAttention r then residentBytes (widthOf g) r else 0⟩ := by
  unfold nodeShare entry memParts ioMem
  by_cases h1 : r.op = "MatMul"
  · simp [h1, operations, bytes, activationBytes, residentBytes, isMatrix, isAttention, weightLike, widthOf, mul_comm]
  by_cases h2 : r.op = "SDPA"
  · simp [h2, operations, bytes, activationBytes, residentBytes, isMatrix, isAttention, weightLike, widthOf, mul_comm]
  by_cases h3 : r.op = "MoE" ∨ r.op = "MLA" ∨ r.op = "GDN"
  · rcases h3 with h3 | h3 | h3 <;>
      simp [h3, operations, bytes, activationBytes, residentBytes, isMatrix, isAttention, weightLike, widthOf, mul_comm]
  have h3a : r.op ≠ "MoE" := fun e => h3 (Or.inl e)
  have h3b : r.op ≠ "MLA" := fun e => h3 (Or.inr (Or.inl e))
  have h3c : r.op ≠ "GDN" := fun e => h3 (Or.inr (Or.inr e))
  by_cases h4 : r.op = "Gather"
  · simp [h4, operations, bytes, activationBytes, residentBytes, isMatrix, isAttention, weightLike, widthOf, mul_comm]
  · simp [h1, h2, h3a, h3b, h3c, h4, operations, bytes, activationBytes, residentBytes, isMatrix, isAttention, weightLike, widthOf, mul_comm]

/-- **C65, without a device** the profile always succeeds, with the same operations, bytes and `context_mem`, no node times, and latency 0. -/
theorem C65_no_device (g : Config) (rs : List Row) :
    ∃ rep, LlmProfile.profile g none rs = .ok rep ∧ rep.flops = sumOf operations rs ∧ rep.memory = sumOf (bytes (widthOf g)) rs ∧ rep.latency = 0 ∧
      rep.contextMem = [sumOf (residentBytes (widthOf g)) (rs.filter weightLike), sumOf (residentBytes (widthOf g)) (rs.filter isAttention),
        sumOf (residentBytes (widthOf g)) (rs.filter fun r => !weightLike r && !isAttention r), sumOf (residentBytes (widthOf g)) rs] ∧
      rep.nodes = rs.map fun r => (r.name, ⟨operations r, bytes (widthOf g) r, none⟩) := by
  refine ⟨_, loop_ok g none (fun _ => none) (nodeShare_none g) rs {}, ?_, ?_, ?_, ?_, ?_⟩
  · simp
  · simp
  · simp [sumOf]
  · simp only [Report.contextMem, zero_add]
    rw [resident_split]
  · simp only [List.nil_append]
    rfl

/-- **C65, memory** is what stays resident (the last entry of `context_mem`) plus the activations. -/
theorem C65_memory_split (b : Width) (h : Hardware) (rs : List Row) (rep : Report) (hr : IsReport b h rs rep) :
    ∃ m c o, rep.contextMem = [m, c, o, m + c + o] ∧ rep.memory = m + c + o + sumOf (activationBytes b) rs := by
  refine ⟨_, _, _, hr.context.trans (by rw [resident_split]), ?_⟩
  rw [hr.memory, resident_split]
  clear hr
  induction rs with
  | nil => simp [sumOf_nil]
  | cons r rs ih =>
    simp only [sumOf_cons, ih, bytes]; ring

/-! ### What the latency means -/

theorem sumOf_le {f f' : Row → ℚ} {rs : List Row} (h : ∀ r ∈ rs, f r ≤ f' r) : sumOf f rs ≤ sumOf f' rs := by
  induction rs with
  | nil => exact le_refl _
  | cons r rs ih =>
    rw [sumOf_cons, sumOf_cons]
    exact add_le_add (h r (List.mem_cons_self ..)) (ih fun x hx => h x (List.mem_cons_of_mem _ hx))

theorem sumOf_add (f f' : Row → ℚ) (rs : List Row) : sumOf (fun r => f r + f' r) rs = sumOf f rs + sumOf f' rs := by
  induction rs with
  | nil => simp [sumOf_nil]
  | cons r rs ih => simp only [sumOf_cons, ih]; ring

theorem sumOf_div (f : Row → ℚ) (a : ℚ) (rs : List Row) : sumOf (fun r => f r / a) rs = sumOf f rs / a := by
  induction rs with
  | nil => simp [sumOf_nil]
  | cons r rs ih => simp only [sumOf_cons, ih]; ring

/-- bits per element are not negative -/
structure Width.Ok (b : Width) : Prop where
  weights : 0 ≤ b.weights
  cache : 0 ≤ b.cache
  others : 0 ≤ b.others

theorem activation_nonneg {b : Width} (hb : Width.Ok b) (r : Row) : 0 ≤ activationBytes b r := by
  have := hb.others
  unfold activationBytes
  positivity

theorem resident_nonneg {b : Width} (hb : Width.Ok b) (r : Row) : 0 ≤ residentBytes b r := by
  have h1 := hb.others
  have h2 := hb.weights
  have h3 := hb.cache
  unfold residentBytes
  split
  · positivity
  · split <;> positivity

theorem bytes_nonneg {b : Width} (hb : Width.Ok b) (r : Row) : 0 ≤ bytes b r := add_nonneg (activation_nonneg hb r) (resident_nonneg hb r)
theorem operations_nonneg (r : Row) : 0 ≤ operations r := by unfold operations; positivity

theorem peak_pos {h : Hardware} (ho : h.Ok) (r : Row) : 0 < peak h r := by
  have := ho.matrix
  have := ho.attention
  have := ho.others
  unfold peak
  split
  · assumption
  · split <;> assumption

theorem share_one {h : Hardware} (ho : h.Ok) (r : Row) : 1 ≤ share h r := by
  have := ho.number
  unfold share
  split
  · exact this
  · exact le_refl _

theorem share_le {h : Hardware} (ho : h.Ok) (r : Row) : share h r ≤ h.number := by
  have := ho.number
  unfold share
  split
  · exact le_refl _
  · exact this

theorem sync_nonneg {b : Width} (hb : Width.Ok b) {h : Hardware} (ho : h.Ok) (r : Row) : 0 ≤ syncTime b h r := by
  unfold syncTime
  split
  · rename_i hc
    exact div_nonneg (activation_nonneg hb r) (ho.link hc.2).le
  · exact le_refl _

theorem compute_nonneg {h : Hardware} (ho : h.Ok) (r : Row) : 0 ≤ computeTime h r :=
  div_nonneg (operations_nonneg r) (mul_nonneg (peak_pos ho r).le (le_trans zero_le_one (share_one ho r)))

theorem load_nonneg {b : Width} (hb : Width.Ok b) {h : Hardware} (ho : h.Ok) (r : Row) : 0 ≤ loadTime b h r :=
  div_nonneg (bytes_nonneg hb r) (mul_nonneg ho.memory.le (le_trans zero_le_one (share_one ho r)))

/-- **C65, roofline.** The latency is at least the time all operations need at the highest of the three peaks on all devices together, at least
the time all bytes need, and at most the sum of computing, loading and exchanging one after the other. -/
theorem C65_roofline (g : Config) (d : Dict ℚ) (h : Hardware) (hd : Describes g d h) (ho : h.Ok) (hb : Width.Ok (widthOf g)) (rs : List Row) :
    ∃ rep, LlmProfile.profile g (some d) rs = .ok rep ∧
      rep.flops / (max h.matrix (max h.attention h.others) * h.number) ≤ rep.latency ∧
      rep.memory / (h.memory * h.number) ≤ rep.latency ∧
      rep.latency ≤ sumOf (computeTime h) rs + sumOf (loadTime (widthOf g) h) rs + sumOf (syncTime (widthOf g) h) rs := by
  obtain ⟨rep, e, hr⟩ := C65_report g d h hd ho rs
  have hn : 0 < h.number := lt_of_lt_of_le one_pos ho.number
  refine ⟨rep, e, ?_, ?_, ?_⟩
  · rw [hr.flops, hr.latency, ← sumOf_div]
    refine sumOf_le fun r _ => ?_
    have h1 : operations r / (max h.matrix (max h.attention h.others) * h.number) ≤ computeTime h r := by
      refine div_le_div_of_nonneg_left (operations_nonneg r) (mul_pos (peak_pos ho r) (lt_of_lt_of_le one_pos (share_one ho r))) ?_
      refine mul_le_mul ?_ (share_le ho r) (le_trans zero_le_one (share_one ho r)) (le_trans ho.matrix.le (le_max_left _ _))
      unfold peak
      split
      · exact le_trans (le_max_left _ _) (le_max_right _ _)
      · split
        · exact le_max_left _ _
        · exact le_trans (le_max_right _ _) (le_max_right _ _)
    exact le_trans h1 (le_trans (le_max_left _ _) (le_add_of_nonneg_right (sync_nonneg hb ho r)))
  · rw [hr.memory, hr.latency, ← sumOf_div]
    refine sumOf_le fun r _ => ?_
    have h1 : bytes (widthOf g) r / (h.memory * h.number) ≤ loadTime (widthOf g) h r :=
      div_le_div_of_nonneg_left (bytes_nonneg hb r) (mul_pos ho.memory (lt_of_lt_of_le one_pos (share_one ho r)))
        (mul_le_mul_of_nonneg_left (share_le ho r) ho.memory.le)
    exact le_trans h1 (le_trans (le_max_right _ _) (le_add_of_nonneg_right (sync_nonneg hb ho r)))
  · rw [hr.latency, ← sumOf_add, ← sumOf_add]
    refine sumOf_le fun r _ => ?_
    have h1 := compute_nonneg ho r
    have h2 := load_nonneg hb ho r
    unfold time
    have : max (computeTime h r) (loadTime (widthOf g) h r) ≤ computeTime h r + loadTime (widthOf g) h r :=
      max_le (by linarith) (by linarith)
    linarith

/-- **C65, faster hardware** (every rate at least as high, at least as many bytes per second on the link, the same number of devices) is never
projected slower. -/
theorem C65_monotone (g : Config) (d d' : Dict ℚ) (h h' : Hardware) (hd : Describes g d h) (hd' : Describes g d' h') (ho : h.Ok) (ho' : h'.Ok)
    (hb : Width.Ok (widthOf g)) (h1 : h.matrix ≤ h'.matrix) (h2 : h.attention ≤ h'.attention) (h3 : h.others ≤ h'.others)
    (h4 : h.memory ≤ h'.memory) (h5 : h.link ≤ h'.link) (h6 : h.number = h'.number) (rs : List Row) :
    ∃ rep rep', LlmProfile.profile g (some d) rs = .ok rep ∧ LlmProfile.profile g (some d') rs = .ok rep' ∧ rep'.latency ≤ rep.latency := by
  obtain ⟨rep, e, hr⟩ := C65_report g d h hd ho rs
  obtain ⟨rep', e', hr'⟩ := C65_report g d' h' hd' ho' rs
  refine ⟨rep, rep', e, e', ?_⟩
  rw [hr.latency, hr'.latency]
  refine sumOf_le fun r _ => ?_
  have hs : share h r = share h' r := by simp only [share, h6]
  have s0 : 0 < share h r := lt_of_lt_of_le one_pos (share_one ho r)
  refine add_le_add (max_le_max ?_ ?_) ?_
  · unfold computeTime
    rw [← hs]
    refine div_le_div_of_nonneg_left (operations_nonneg r) (mul_pos (peak_pos ho r) s0) (mul_le_mul_of_nonneg_right ?_ s0.le)
    unfold peak
    split
    · exact h2
    · split <;> assumption
  · unfold loadTime
    rw [← hs]
    exact div_le_div_of_nonneg_left (bytes_nonneg hb r) (mul_pos ho.memory s0) (mul_le_mul_of_nonneg_right h4 s0.le)
  · unfold syncTime
    rw [← h6]
    split
    · rename_i hc
      exact div_le_div_of_nonneg_left (activation_nonneg hb r) (ho.link hc.2) h5
    · exact le_refl _

/-- **C65, several devices** (Amdahl's law): with `D` the one-device time of the divided nodes, `S` that of the others and `C` the bytes of activations
of the divided nodes, `n` devices take `D / n + S + C / link`, the last term only for `n > 1` and independent of `n`. -/
theorem C65_amdahl (g : Config) (d : Dict ℚ) (h : Hardware) (hd : Describes g d h) (ho : h.Ok) (rs : List Row) :
    ∃ rep, LlmProfile.profile g (some d) rs = .ok rep ∧
      rep.latency =
        sumOf (fun r => max (operations r / peak h r) (bytes (widthOf g) r / h.memory)) (rs.filter divided) / h.number +
        sumOf (fun r => max (operations r / peak h r) (bytes (widthOf g) r / h.memory)) (rs.filter fun r => !divided r) +
        (if 1 < h.number then sumOf (activationBytes (widthOf g)) (rs.filter divided) / h.link else 0) := by
  obtain ⟨rep, e, hr⟩ := C65_report g d h hd ho rs
  have hn : 0 < h.number := lt_of_lt_of_le one_pos ho.number
  refine ⟨rep, e, ?_⟩
  rw [hr.latency]
  clear hr e
  induction rs with
  | nil => simp [sumOf_nil]
  | cons r rs ih =>
    simp only [sumOf_filter_cons, sumOf_cons, ih]
    have ht : time (widthOf g) h r =
        (if divided r then max (operations r / peak h r) (bytes (widthOf g) r / h.memory) else 0) / h.number +
        (if !divided r then max (operations r / peak h r) (bytes (widthOf g) r / h.memory) else 0) +
        (if 1 < h.number then (if divided r then activationBytes (widthOf g) r else 0) / h.link else 0) := by
      unfold time computeTime loadTime syncTime share
      by_cases hdv : divided r = true
      · simp only [hdv, if_true, true_and, Bool.not_true, Bool.false_eq_true, if_false, add_zero]
        rw [← div_div, ← div_div, max_div_div_right hn.le]
      · simp [hdv]
    rw [ht]
    by_cases hl : 1 < h.number
    · simp only [hl, if_true]; ring
    · simp only [hl, if_false]; ring

/-- **C65, order.** The totals do not depend on the order of the nodes. -/
theorem C65_order (g : Config) (d : Dict ℚ) (h : Hardware) (hd : Describes g d h) (ho : h.Ok) (rs rs' : List Row) (hp : rs.Perm rs') :
    ∃ rep rep', LlmProfile.profile g (some d) rs = .ok rep ∧ LlmProfile.profile g (some d) rs' = .ok rep' ∧
      rep.flops = rep'.flops ∧ rep.memory = rep'.memory ∧ rep.latency = rep'.latency ∧ rep.contextMem = rep'.contextMem ∧
      rep.nodes.Perm rep'.nodes := by
  obtain ⟨rep, e, hr⟩ := C65_report g d h hd ho rs
  obtain ⟨rep', e', hr'⟩ := C65_report g d h hd ho rs'
  have hs : ∀ (f : Row → ℚ) (a b : List Row), a.Perm b → sumOf f a = sumOf f b := fun f a b hab => (hab.map f).sum_eq
  refine ⟨rep, rep', e, e', ?_, ?_, ?_, ?_, ?_⟩
  · rw [hr.flops, hr'.flops, hs _ _ _ hp]
  · rw [hr.memory, hr'.memory, hs _ _ _ hp]
  · rw [hr.latency, hr'.latency, hs _ _ _ hp]
  · rw [hr.context, hr'.context, hs _ _ _ hp, hs _ _ _ (hp.filter weightLike), hs _ _ _ (hp.filter isAttention),
      hs _ _ _ (hp.filter fun r => !weightLike r && !isAttention r)]
  · rw [hr.nodes, hr'.nodes]
    exact hp.map _

/-! ### Devices that do not work -/

/-- Without `FP32` there is no profile, even when all rates that are used are listed. -/
theorem C65_fp32_required (g : Config) (d : Dict ℚ) (rs : List Row) (h : d.get? "FP32" = none) : ∃ e, LlmProfile.profile g (some d) rs = .error e ∧ e = .keyError := by
  refine ⟨_, ?_, rfl⟩
  simp [LlmProfile.profile, rates, rate, h]

/-- Without a memory bandwidth there is none either. -/
theorem C65_bandwidth_required (g : Config) (d : Dict ℚ) (rs : List Row) (f : ℚ) (hf : d.get? "FP32" = some f) (h : d.get? "Bandwidth" = none) :
    LlmProfile.profile g (some d) rs = .error .typeError := by
  simp [LlmProfile.profile, rates, rate, hf, h]

/-- A device listed with bandwidth 0 raises as soon as there is a node. -/
theorem C65_zero_bandwidth (g : Config) (d : Dict ℚ) (r : Row) (rs : List Row) (f : ℚ) (hf : d.get? "FP32" = some f) (h : d.get? "Bandwidth" = some 0) :
    LlmProfile.profile g (some d) (r :: rs) = .error .zeroDivision := by
  have key : ∀ R : Rates, R.mem = 0 → ∀ op x y, times R op x y = .error .zeroDivision := by
    intro R hR op x y
    have e : ∀ a b, div2 a 0 b = .error .zeroDivision := by intro a b; simp [div2, div]
    have e' : ∀ a, div a 0 = .error .zeroDivision := by intro a; simp [div]
    have ec : ∀ a b, (∃ v, div a b = .ok v) ∨ div a b = .error .zeroDivision := by
      intro a b
      unfold div
      split
      · exact .inr rfl
      · exact .inl ⟨_, rfl⟩
    have ec2 : ∀ a b c, (∃ v, div2 a b c = .ok v) ∨ div2 a b c = .error .zeroDivision := by
      intro a b c
      unfold div2
      rcases ec a b with ⟨v, hv⟩ | hv
      · rw [hv]; exact ec v c
      · rw [hv]; exact .inr rfl
    have el : (if op = "MatMul" ∨ op = "SDPA" ∨ op = "MoE" ∨ op = "MLA" ∨ op = "GDN" then div2 y R.mem R.num else div y R.mem) = .error .zeroDivision := by
      rw [hR, e, e', ite_self]
    have eC : (∃ v, (if op = "MatMul" then div2 x R.mm R.num
        else if op = "SDPA" then div2 x R.mha R.num
        else if op = "MoE" ∨ op = "MLA" ∨ op = "GDN" then div2 x R.mm R.num
        else div x R.others) = .ok v) ∨ (if op = "MatMul" then div2 x R.mm R.num
        else if op = "SDPA" then div2 x R.mha R.num
        else if op = "MoE" ∨ op = "MLA" ∨ op = "GDN" then div2 x R.mm R.num
        else div x R.others) = .error .zeroDivision := by
      split
      · exact ec2 ..
      · split
        · exact ec2 ..
        · split
          · exact ec2 ..
          · exact ec ..
    unfold times
    simp only []
    rw [el]
    rcases eC with ⟨v, hv⟩ | hv <;> rw [hv]
  simp [LlmProfile.profile, rates, rate, hf, h, loop, nodeShare, latency, key]

/-- Without `LinkBandwidth` the number of devices is ignored. -/
theorem C65_number_needs_link (g : Config) (d : Dict ℚ) (n : ℚ) (rs : List Row) (h : d.get? "LinkBandwidth" = none) (hk : g.mmKey ≠ "Number")
    (hk' : g.mhaKey ≠ "Number") (hk'' : g.othersKey ≠ "Number") :
    LlmProfile.profile g (some (d.set "Number" n)) rs = LlmProfile.profile g (some d) rs := by
  have e : ∀ q, q ≠ "Number" → (d.set "Number" n).get? q = d.get? q := fun q hq => Dict.get?_set_ne _ _ (fun h => hq h.symm)
  have h1 : linkRate d = 0 := by simp [linkRate, h]
  have h2 : linkRate (d.set "Number" n) = 0 := by
    rw [linkRate, e _ (by decide), h]
    simp
  have er : ∀ q, q ≠ "Number" → rate (d.set "Number" n) q = rate d q := fun q hq => by simp only [rate, e _ hq, e "FP32" (by decide)]
  simp only [LlmProfile.profile, rates, er _ hk, er _ hk', er _ hk'', h1, h2, deviceNumber, e "Bandwidth" (by decide), if_true]

/-! ### Built decoders -/

theorem ite_kv {p : Prop} [Decidable p] {a b : Except PyErr Fig} {f : Fig} (ha : p → a = .ok f → f.kv = 0) (hb : b = .ok f → f.kv = 0) :
    (if p then a else b) = .ok f → f.kv = 0 := by
  split
  · exact ha ‹_›
  · exact hb

theorem opFig_kv {c : Builder.Cfg} {x : Attrs} {past : Nat} {op : String} {ins : List (Bool × List Nat)} {out : List Nat} {f : Fig}
    (h : opFig c x past op ins out = .ok f) (ho : op ≠ "SDPA") : f.kv = 0 := by
  unfold opFig at h
  revert h
  refine ite_kv (fun _ h => ?_) (ite_kv (fun _ h => ?_) (ite_kv (fun _ h => ?_) (ite_kv (fun _ h => ?_) (ite_kv (fun _ h => ?_)
    (ite_kv (fun _ h => ?_) (ite_kv (fun _ h => ?_) (ite_kv (fun _ h => ?_) (ite_kv (fun _ h => ?_) (ite_kv (fun e => absurd e ho)
    (ite_kv (fun _ h => ?_) (ite_kv (fun _ h => ?_) (ite_kv (fun _ h => ?_) (fun h => ?_)))))))))))))
  all_goals try (split at h)
  all_goals try (split at h)
  all_goals first
    | (cases h; rfl)
    | cases h

theorem rows_kv {c : Builder.Cfg} {x : Attrs} {past : Nat} {s : Builder.St} {ns : List (String × Builder.BNode)} {rs : List Row}
    (h : rows c x past s ns = .ok rs) : ∀ r ∈ rs, isAttention r = false → r.fig.kv = 0 := by
  induction ns generalizing rs with
  | nil => cases h; simp
  | cons n ns ih =>
    unfold rows at h
    split at h
    · cases h
    rename_i f hf
    split at h
    · cases h
    rename_i rs' hrs
    cases h
    intro r hr ha
    rcases List.mem_cons.1 hr with rfl | hr
    · have ho : n.2.op ≠ "SDPA" := by simpa [isAttention] using ha
      simp only
      unfold nodeFig at hf
      split at hf
      · cases hf
      split at hf
      · cases hf
      split at hf
      · exact opFig_kv hf ho
      · cases hf
    · exact ih hrs r hr ha

theorem sumOf_nat (f : Row → Nat) (a : ℚ) (rs : List Row) : sumOf (fun r => (f r : ℚ) * a / 8) rs = ((rs.map f).sum : Nat) * a / 8 := by
  induction rs with
  | nil => simp [sumOf_nil]
  | cons r rs ih => simp only [sumOf_cons, ih, List.map_cons, List.sum_cons]; push_cast; ring

theorem sumOf_congr {f f' : Row → ℚ} {rs : List Row} (h : ∀ r ∈ rs, f r = f' r) : sumOf f rs = sumOf f' rs :=
  le_antisymm (sumOf_le fun r hr => (h r hr).le) (sumOf_le fun r hr => (h r hr).ge)

theorem sum_filter_zero (f : Row → Nat) (p : Row → Bool) (rs : List Row) (h : ∀ r ∈ rs, p r = false → f r = 0) :
    ((rs.filter p).map f).sum = (rs.map f).sum := by
  induction rs with
  | nil => rfl
  | cons r rs ih =>
    have := ih fun x hx => h x (List.mem_cons_of_mem _ hx)
    by_cases hp : p r = true
    · simp [hp, this]
    · simp [hp, this, h r (List.mem_cons_self ..) (by simpa using hp)]

theorem weightLike_ops (r : Row) : weightLike r = matrixOps.contains r.op := by
  simp only [weightLike, isMatrix, matrixOps, List.contains_cons, List.contains_nil, Bool.or_false, Bool.or_assoc]

/-- the totals of a decoder from the closed forms of C66 -/
theorem report_of_cost {c : Builder.Cfg} {k keys : Nat} {rs : List Row} (hc : HasCost c k keys rs)
    (hk : ∀ r ∈ rs, isAttention r = false → r.fig.kv = 0) (b : Width) :
    sumOf operations rs = 2 * (LlmCost.macs c k keys : ℚ) ∧
    sumOf (residentBytes b) (rs.filter weightLike) = (weightsRead c k : ℚ) * b.weights / 8 ∧
    sumOf (residentBytes b) (rs.filter isAttention) = (LlmCost.cached c keys : ℚ) * b.cache / 8 ∧
    sumOf (residentBytes b) (rs.filter fun r => !weightLike r && !isAttention r) = (othersRead c : ℚ) * b.others / 8 ∧
    sumOf (activationBytes b) rs = (LlmCost.written c : ℚ) * b.others / 8 := by
  refine ⟨?_, ?_, ?_, ?_, ?_⟩
  · rw [← hc.macs]
    have : sumOf operations rs = 16 * sumOf (fun r => (r.fig.macs : ℚ) * 1 / 8) rs := by
      clear hc hk
      induction rs with
      | nil => simp [sumOf_nil]
      | cons r rs ih => simp only [sumOf_cons, ih, operations]; ring
    rw [this, sumOf_nat]
    ring
  · rw [← hc.weights, ← sumOf_nat]
    rw [show (fun r : Row => matrixOps.contains r.op) = weightLike from funext fun r => (weightLike_ops r).symm]
    refine sumOf_congr fun r hr => ?_
    have hw := (List.mem_filter.1 hr).2
    have ha : isAttention r = false := by
      by_contra h'
      have e : r.op = "SDPA" := by simpa [isAttention] using h'
      simp [weightLike, isMatrix, e] at hw
    simp [residentBytes, ha, hw]
  · rw [← hc.cache, ← sum_filter_zero _ isAttention rs hk, ← sumOf_nat]
    refine sumOf_congr fun r hr => ?_
    simp [residentBytes, (List.mem_filter.1 hr).2]
  · rw [← hc.others, ← sumOf_nat]
    rw [show (fun r : Row => !matrixOps.contains r.op && r.op != "SDPA") = (fun r => !weightLike r && !isAttention r) from
      funext fun r => by rw [weightLike_ops]; rfl]
    refine sumOf_congr fun r hr => ?_
    have := (List.mem_filter.1 hr).2
    simp only [Bool.and_eq_true, Bool.not_eq_true'] at this
    simp [residentBytes, this.1, this.2]
  · rw [← hc.written, ← sumOf_nat]
    rfl

/-- **C65, built decoders.** For every configuration with ordinary attention, every bit widths and every working device, profiling the built
decoder with a cache succeeds; operations, the four entries of `context_mem` and the memory are the closed forms of the architecture. -/
theorem C65_built_decoder (c : Builder.Cfg) (w : Builder.WMap) (x : Attrs) (nContext nPast : Nat) (h : Builder.CfgOk c w) (hn : Builder.NamesOk c w)
    (hs : Standard c) (hfit : nPast + c.seq ≤ nContext) (g : Config) (d : Dict ℚ) (hw : Hardware) (hd : Describes g d hw) (ho : hw.Ok) :
    ∃ s rs rep, Builder.buildGraph c w = .ok s ∧ profileGraph c x nPast (Builder.addKvCache c nContext s) = .ok rs ∧
      LlmProfile.profile g (some d) rs = .ok rep ∧ rep.flops = 2 * (LlmCost.macs c x.topK (nPast + c.seq) : ℚ) ∧
      (let m : ℚ := (weightsRead c x.topK : ℚ) * g.mm / 8
       let kv : ℚ := (Builder.kvParams c nPast : ℚ) * g.mha / 8
       let o : ℚ := (othersRead c : ℚ) * g.others / 8
       rep.contextMem = [m, kv, o, m + kv + o] ∧ rep.memory = m + kv + o + (LlmCost.written c : ℚ) * g.others / 8) := by
  obtain ⟨s, rs, e1, e2, hc, hkv⟩ := C66_cached_cost c w x nContext nPast h hn hs hfit
  obtain ⟨rep, e3, hr⟩ := C65_report g d hw hd ho rs
  obtain ⟨a1, a2, a3, a4, a5⟩ := report_of_cost hc (rows_kv e2) (widthOf g)
  have hkv' : (LlmCost.cached c (nPast + c.seq) : ℚ) = Builder.kvParams c nPast := by rw [← hkv, hc.cache]
  rw [hkv'] at a3
  have hsplit := resident_split (widthOf g) rs
  rw [a2, a3, a4] at hsplit
  obtain ⟨m, c', o, q1, q2⟩ := C65_memory_split _ _ _ _ hr
  refine ⟨s, rs, rep, e1, e2, e3, hr.flops.trans a1, ?_, ?_⟩
  · rw [hr.context, a2, a3, a4, ← hsplit]
    rfl
  · rw [hr.context] at q1
    simp only [List.cons.injEq, and_true] at q1
    rw [q2, ← q1.2.2.2, ← hsplit, a5]
    rfl

/-- **C65, defaults.** Without a configuration a weight takes 4.5 bits, a cached element 2 bytes, everything else 4 bytes, and all nodes compute at
the `FP32` rate. -/
theorem C65_default_configuration (d : Dict ℚ) (f : ℚ) (hw : Hardware) (hd : Describes {} d hw) (ho : hw.Ok) (hf : d.get? "FP32" = some f) (rs : List Row) :
    hw.matrix = f * 1000000000 ∧ hw.attention = f * 1000000000 ∧ hw.others = f * 1000000000 ∧
    ∃ rep, LlmProfile.profile {} (some d) rs = .ok rep ∧ rep.nodes = rs.map (nodeReport ⟨9 / 2, 16, 32⟩ hw) ∧
      rep.memory = sumOf (fun r => 4 * (r.fig.io : ℚ) + (if isAttention r then 2 * (r.fig.kv : ℚ) else if weightLike r then 9 / 16 * (r.fig.static : ℚ)
        else 4 * (r.fig.static : ℚ))) rs := by
  obtain ⟨rep, e, hr⟩ := C65_report {} d hw hd ho rs
  refine ⟨by rw [hd.matrix, hf]; rfl, by rw [hd.attention, hf]; rfl, by rw [hd.others, hf]; rfl, rep, e, hr.nodes, ?_⟩
  rw [hr.memory]
  refine sumOf_congr fun r _ => ?_
  simp only [bytes, activationBytes, residentBytes, widthOf]
  split
  · ring
  · split <;> ring

/-- The latency is in seconds: a device of `f` giga-operations per second reports 1 for `f` giga-operations.  (The printed table and its users
label the number as milliseconds.) -/
theorem C65_latency_in_seconds (f n : Nat) (hf : 0 < f) (hn : 2 * n = f * 1000000000) :
    ∃ rep, LlmProfile.profile {} (some [("FP32", (f : ℚ)), ("Bandwidth", 1)]) [⟨"a", "Add", ⟨n, 0, 0, 0⟩⟩] = .ok rep ∧ rep.latency = 1 := by
  have hf' : (0 : ℚ) < f := by exact_mod_cast hf
  have hn' : (2 : ℚ) * n = f * 1000000000 := by exact_mod_cast hn
  let h : Hardware := ⟨f * 1000000000, f * 1000000000, f * 1000000000, 1000000000, 0, 1⟩
  have hd : Describes {} [("FP32", (f : ℚ)), ("Bandwidth", 1)] h := by
    refine ⟨rfl, ?_, rfl, rfl, rfl, ?_, rfl⟩
    · simp [h, Dict.get?]
    · simp [h, Dict.get?]
  have ho : h.Ok := by
    have : (0 : ℚ) < f * 1000000000 := by positivity
    exact ⟨this, this, this, by norm_num [h], le_refl _, fun hh => absurd hh (lt_irrefl _)⟩
  obtain ⟨rep, e, hr⟩ := C65_report {} _ h hd ho [⟨"a", "Add", ⟨n, 0, 0, 0⟩⟩]
  refine ⟨rep, e, ?_⟩
  rw [hr.latency]
  simp [sumOf, time, computeTime, loadTime, syncTime, operations, bytes, activationBytes, residentBytes, peak, share, divided, isMatrix, isAttention, h, hn',
    hf'.ne']

/-- eight linked devices: FP16 for matrix products, FP32 by default -/
def cluster : Dict ℚ := [("FP32", 19500), ("FP16", 312000), ("Bandwidth", 1935), ("LinkBandwidth", 300), ("Number", 8)]
def clusterCfg : Config := { mmKey := "FP16", mhaKey := "BF16" }
def clusterHw : Hardware := ⟨312000000000000, 19500000000000, 19500000000000, 1935000000000, 300000000000, 8⟩

theorem cluster_describes : Describes clusterCfg cluster clusterHw := by
  refine ⟨rfl, ?_, ?_, ?_, ?_, ?_, ?_⟩ <;> simp [clusterCfg, cluster, clusterHw, Dict.get?] <;> norm_num
theorem cluster_ok : clusterHw.Ok := by
  refine ⟨?_, ?_, ?_, ?_, ?_, ?_⟩ <;> norm_num [clusterHw]
theorem cluster_width : Width.Ok (widthOf clusterCfg) := by
  refine ⟨?_, ?_, ?_⟩ <;> norm_num [clusterCfg, widthOf]

example := C65_built_decoder llama7b Builder.WMap.default {} 4096 1000 C55_llama_hypotheses.1 C55_llama_hypotheses.2.1 llama_standard (by decide)
  clusterCfg cluster clusterHw cluster_describes cluster_ok
example := C65_roofline clusterCfg cluster clusterHw cluster_describes cluster_ok cluster_width
example : LlmProfile.profile clusterCfg (some (cluster.filter fun p => p.1 != "FP32")) [] = .error .keyError := rfl

end OnnxTool.Props
