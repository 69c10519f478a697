import Verif.Proofs.KvPlan
import Verif.Props.Memory
/-!
# C51: the memory plan of graphs with a key/value cache (`compress_memory_with_kv_cache`)

The function returns two plans with their pool sizes: `act` for all tensors but `kv_cache`, `kv` for `kv_cache`.
-/
namespace OnnxTool.Props
open OnnxTool OnnxTool.Mem

variable {g : Graph} {memsize : String → Option Int} {p : Nat} {cm kcm : Dict (Nat × Nat)} {sz ksz : Nat}

/-- Both plans are plans of the allocator of `compress_memory`, for the tensors without and with the name `kv_cache`. -/
theorem kv_cases (hssa : SSA g.input g.nodemap) (hempty : ∀ b, memsize "" = some b → b ≤ 0)
    (h : compressMemoryKv g memsize p = .ok ((cm, sz), (kcm, ksz))) :
    Planned g (withoutKv memsize) p cm sz ∧ Planned g (onlyKv memsize) p kcm ksz := by
  have e1 : (tensorSizes g (withoutKv memsize) p).get? "" = none :=
    tensorSizes_unsized g _ p "" (by simpa [withoutKv] using hempty)
  have e2 : (tensorSizes g (onlyKv memsize) p).get? "" = none := by rw [tensorSizes_get]; simp [onlyKv]
  have hi1 := (run_inv (sizes := tensorSizes g (withoutKv memsize) p) (p := p) (max p 4096) (liveLists g)
    (inv_init _ _) (tensorSizes_dvd g _ p)).1
  have hi2 := (run_inv (sizes := tensorSizes g (onlyKv memsize) p) (p := p) (max p 4096) (liveLists g)
    (inv_init _ _) (tensorSizes_dvd g _ p)).1
  unfold compressMemoryKv at h
  split at h
  · cases h
  · rw [kvSizes_eq] at h
    simp only [allocatePool_eq g _ p hssa e1, allocatePool_eq g _ p hssa e2] at h
    split at h
    · cases h
    · simp only [Except.ok.injEq, Prod.mk.injEq] at h
      obtain ⟨⟨h1, h2⟩, h3, h4⟩ := h
      exact ⟨⟨h1.symm, by rw [← h2]; exact poolSize_eq hi1.tiled⟩, ⟨h3.symm, by rw [← h4]; exact poolSize_eq hi2.tiled⟩⟩

private theorem planned_key (ms : String → Option Int) {cm : Dict (Nat × Nat)} {sz : Nat} (h : Planned g ms p cm sz) (t : String)
    (hn : ms t = none) : cm.get? t = none := by
  obtain ⟨rfl, rfl⟩ := h
  cases hc : (runAlloc g ms p).cm.get? t with
  | none => rfl
  | some a =>
    obtain ⟨_, _, _, z, hz, _⟩ := (run_inv (max p 4096) (liveLists g) (inv_init (tensorSizes g ms p) p)
      (tensorSizes_dvd g ms p)).1.bound t a.1 a.2 hc
    rw [tensorSizes_get] at hz
    split at hz
    · simp [hn] at hz
    · cases hz

/-- **C51, separate pools.** `kv_cache` is never in the activation pool, and nothing else is in the pool of `kv_cache`. -/
theorem C51_separate_pools (hssa : SSA g.input g.nodemap) (hempty : ∀ b, memsize "" = some b → b ≤ 0)
    (h : compressMemoryKv g memsize p = .ok ((cm, sz), (kcm, ksz))) :
    cm.get? "kv_cache" = none ∧ ∀ t, t ≠ "kv_cache" → kcm.get? t = none := by
  obtain ⟨h1, h2⟩ := kv_cases hssa hempty h
  exact ⟨planned_key _ h1 _ (by simp [withoutKv]), fun t ht => planned_key _ h2 _ (by simp [onlyKv, ht])⟩

/-- **C51, live tensors.** Two different tensors, live at the same node, have disjoint byte ranges in the activation pool. -/
theorem C51_live_disjoint (hidx : g.IndexExact) (hssa : SSA g.input g.nodemap) (hempty : ∀ b, memsize "" = some b → b ≤ 0)
    (h : compressMemoryKv g memsize p = .ok ((cm, sz), (kcm, ksz)))
    (k : Nat) (t u : String) (htu : t ≠ u) (ht : t ≠ "") (hu : u ≠ "")
    (hlt : LiveAt g.input g.nodemap k t) (hlu : LiveAt g.input g.nodemap k u)
    (a b : Nat × Nat) (ha : cm.get? t = some a) (hb : cm.get? u = some b) : DisjointRanges a b :=
  planned_live_disjoint g _ p cm sz hidx hssa (kv_cases hssa hempty h).1 k t u htu ht hu hlt hlu a b ha hb

/-- **C51, blocks.** Every block of the activation pool lies inside it, is aligned to the padding and holds its tensor. -/
theorem C51_blocks (hp : 0 < p) (hssa : SSA g.input g.nodemap) (hempty : ∀ b, memsize "" = some b → b ≤ 0)
    (h : compressMemoryKv g memsize p = .ok ((cm, sz), (kcm, ksz))) (t : String) (off size : Nat)
    (ht : cm.get? t = some (off, size)) :
    off + size ≤ sz ∧ p ∣ off ∧ p ∣ size ∧ ∃ bytes, memsize t = some bytes ∧ 0 < bytes ∧ bytes ≤ size := by
  have hpl := (kv_cases hssa hempty h).1
  obtain ⟨h1, h2, bytes, h3, h4, h5⟩ := planned_aligned_and_large_enough g _ p hp cm sz hpl t off size ht
  refine ⟨planned_within_pool g _ p cm sz hpl t off size ht, h1, h2, bytes, ?_, h4, h5⟩
  unfold withoutKv at h3
  split at h3
  · cases h3
  · exact h3

/-- **C51, completeness.** Every live tensor of positive size other than `kv_cache` has a block in the activation pool. -/
theorem C51_every_live_tensor_allocated (hp : 0 < p) (hidx : g.IndexExact) (hssa : SSA g.input g.nodemap) (hempty : ∀ b, memsize "" = some b → b ≤ 0)
    (h : compressMemoryKv g memsize p = .ok ((cm, sz), (kcm, ksz))) (k : Nat) (t : String) (ht : t ≠ "") (hkv : t ≠ "kv_cache")
    (hl : LiveAt g.input g.nodemap k t) (hdyn : t ∈ g.dynamics) (bytes : Int) (hb : memsize t = some bytes) (hpos : 0 < bytes) :
    ∃ a, cm.get? t = some a :=
  planned_every_live_tensor_allocated g _ p hp cm sz hidx hssa (kv_cases hssa hempty h).1 k t ht hl hdyn bytes
    (by simp [withoutKv, hkv, hb]) hpos

/-- **C51, the cache.** When `kv_cache` is a graph input of positive size, its pool consists of exactly one block for it, of the padded
size: the pool has no other byte. -/
theorem C51_cache_block (hp : 0 < p) (hidx : g.IndexExact) (hssa : SSA g.input g.nodemap) (hempty : ∀ b, memsize "" = some b → b ≤ 0)
    (h : compressMemoryKv g memsize p = .ok ((cm, sz), (kcm, ksz))) (hin : "kv_cache" ∈ g.input) (hne : g.nodemap ≠ [])
    (hdyn : "kv_cache" ∈ g.dynamics) (bytes : Int) (hb : memsize "kv_cache" = some bytes) (hpos : 0 < bytes) :
    kcm.get? "kv_cache" = some (0, ksz) ∧ (ksz : Int) = padSize p bytes := by
  have hpl := (kv_cases hssa hempty h).2
  have hms : onlyKv memsize "kv_cache" = some bytes := by simp [onlyKv, hb]
  have hlive : LiveAt g.input g.nodemap 0 "kv_cache" := by
    refine ⟨List.length_pos_iff.2 hne, .inl hin, ?_⟩
    by_cases hr : ∃ j, ReadAt g.nodemap j "kv_cache"
    · obtain ⟨j, hj⟩ := hr; exact .inr (.inl ⟨j, Nat.zero_le _, hj⟩)
    · exact .inr (.inr fun j hj => hr ⟨j, hj⟩)
  obtain ⟨⟨off, size⟩, ha⟩ := planned_every_live_tensor_allocated g _ p hp kcm ksz hidx hssa hpl 0 "kv_cache" (by decide) hlive hdyn
    bytes hms hpos
  obtain ⟨_, h2, bytes', h3, _, h5⟩ := planned_aligned_and_large_enough g _ p hp kcm ksz hpl _ off size ha
  rw [hms] at h3; cases h3
  have h6 := planned_within_pool g _ p kcm ksz hpl _ off size ha
  obtain ⟨hnd, hub⟩ := planned_not_worse_than_no_sharing g _ p kcm ksz hssa (by simp [onlyKv]) hpl
  -- the plan has one key
  have hkeys : ∀ t ∈ kcm.keys, t = "kv_cache" := by
    intro t ht
    by_contra hne
    have := (C51_separate_pools hssa hempty h).2 t hne
    have hmem : t ∈ Dict.keys kcm := ht
    have hh : (Dict.get? kcm t).isSome := by
      clear * - hmem
      induction kcm with
      | nil => simp [Dict.keys] at hmem
      | cons a l ih =>
        obtain ⟨u, b⟩ := a
        simp only [Dict.keys, List.map_cons, List.mem_cons] at hmem
        by_cases hu : u = t
        · simp [Dict.get?, hu]
        · simp only [Dict.get?, if_neg hu]
          exact ih (hmem.resolve_left (fun h => hu h.symm))
    rw [this] at hh; cases hh
  have hsum : (kcm.keys.map fun t => padSize p ((onlyKv memsize t).getD 0)).sum ≤ padSize p bytes := by
    have hpp : 0 ≤ padSize p bytes := by have := le_padSize hp bytes; omega
    revert hkeys hnd
    generalize kcm.keys = ks
    intro hnd hk
    match ks, hnd, hk with
    | [], _, _ => simpa using hpp
    | [a], _, hk => rw [hk a (by simp)]; simp [hms]
    | a :: b :: l, hnd, hk =>
      have := hk a (by simp); have := hk b (by simp)
      subst_vars
      simp at hnd
  -- the padded size is the least multiple of the padding
  have hle : padSize p bytes ≤ size := by
    obtain ⟨c, hc⟩ := padSize_dvd p bytes
    obtain ⟨d, hd⟩ := h2
    have hlt := padSize_lt hp bytes
    have hsd : (size : Int) = (p : Int) * d := by rw [hd, Int.natCast_mul]
    have hcd : c < (d : Int) + 1 := by
      rcases Int.lt_or_le c ((d : Int) + 1) with h | h
      · exact h
      · have h' : (p : Int) * ((d : Int) + 1) ≤ p * c := Int.mul_le_mul_of_nonneg_left h (by omega)
        rw [Int.mul_add, Int.mul_one] at h'
        omega
    have : (p : Int) * c ≤ p * d := Int.mul_le_mul_of_nonneg_left (by omega) (by omega)
    omega
  have e1 : off = 0 := by omega
  have e2 : size = ksz := by omega
  subst e1; subst e2
  exact ⟨ha, by omega⟩

/-- **C51, when it returns.** With a positive padding the function raises exactly when the sizes of the intermediate tensors add up to 0
(the log line divides by the sum). -/
theorem C51_returns_iff (g : Graph) (memsize : String → Option Int) (hp : 0 < p) :
    (∃ r, compressMemoryKv g memsize p = .ok r) ↔
      ((g.dynamics.filter fun t => !(g.input.contains t) && !(g.output.contains t)).map fun t => (memsize t).getD 0).sum ≠ 0 := by
  have hraw : rawSizeKv g memsize =
      ((g.dynamics.filter fun t => !(g.input.contains t) && !(g.output.contains t)).map fun t => (memsize t).getD 0).sum := by
    unfold rawSizeKv
    have : ∀ (l : List String) (a : Int),
        l.foldl (fun acc t => if g.input.contains t || g.output.contains t then acc else acc + (memsize t).getD 0) a =
          a + ((l.filter fun t => !(g.input.contains t) && !(g.output.contains t)).map fun t => (memsize t).getD 0).sum := by
      intro l
      induction l with
      | nil => intro a; simp
      | cons t l ih =>
        intro a
        simp only [List.foldl_cons]
        rw [ih]
        rw [List.filter_cons]
        cases h1 : g.input.contains t <;> cases h2 : g.output.contains t <;> simp [Int.add_assoc]
    rw [this]; omega
  rw [← hraw]
  unfold compressMemoryKv
  rw [if_neg (by simp; intro h; omega)]
  simp only []
  split
  · rename_i h0; simp [h0]
  · rename_i h0; simp [h0]

/-- a decoder step: `x → h → (attention with the cache) a → y` -/
def kvGraph : Graph :=
  Graph.updateConsumerProducer
    { nodemap := [⟨"n1", "Relu", ["x"], ["h"]⟩, ⟨"n2", "SDPA", ["h", "h", "h", "n_past", "kv_cache"], ["a"]⟩, ⟨"n3", "Exp", ["a"], ["y"]⟩]
      input := ["x", "n_past", "kv_cache"], output := ["y"], dynamics := ["x", "n_past", "kv_cache", "y", "h", "a", "y"] }

def kvSize (t : String) : Option Int := if t = "" then some 0 else if t = "kv_cache" then some 1000 else if t = "n_past" then some 0 else some 100

/-- the hypotheses of the C51 theorems are met, and the plan is a sharing one (`x` and `a` use the same bytes) -/
example : kvGraph.IndexExact ∧ SSA kvGraph.input kvGraph.nodemap ∧ "kv_cache" ∈ kvGraph.dynamics ∧ (∀ b, kvSize "" = some b → b ≤ 0) ∧
    compressMemoryKv kvGraph kvSize 64 =
      .ok (([("x", (0, 128)), ("h", (128, 128)), ("a", (0, 128)), ("y", (128, 128))], 256), ([("kv_cache", (0, 1024))], 1024)) :=
  ⟨updateConsumerProducer_exact _, by decide, by decide, fun b h => by cases h; decide, rfl⟩

/-- **C51 (finding): an input listed twice.** When a graph lists an input twice (calling `add_kv_cache` twice does), the cache's pool is
twice as large as needed: the allocator gives the second mention a block of its own, which no view ever uses. -/
theorem C51_duplicate_input_wastes :
    (compressMemoryKv { kvGraph with input := ["x", "n_past", "kv_cache", "kv_cache"] } kvSize 64).toOption.map (·.2.2) = some 2048 := by
  decide

end OnnxTool.Props
