import Verif.Proofs.MemRun
/-!
# Properties C01-C05, C41: the memory plan of `compress_memory`

`memsize t` is `tensormap[t].get_memsize()` (`none`: not in the tensor map); the theorems hold for every such function.
`cm.get? t = some (offset, size)` is the entry `compress_mem[t] = [offset, size]`.
-/
namespace OnnxTool.Props
open OnnxTool OnnxTool.Mem

/-- Example graph used for the non-vacuity checks: a diamond with an extra tail. -/
def exNodes : List Node :=
  [⟨"n1", "Relu", ["x"], ["a"]⟩, ⟨"n2", "Exp", ["a"], ["b"]⟩, ⟨"n3", "Add", ["a", "b"], ["c"]⟩,
   ⟨"n4", "Neg", ["c"], ["d"]⟩, ⟨"n5", "Neg", ["d"], ["y"]⟩]

def exGraph : Graph :=
  Graph.updateConsumerProducer
    { nodemap := exNodes, input := ["x"], output := ["y"], dynamics := ["x", "a", "b", "c", "d", "y"] }

def exSize (t : String) : Option Int := if t = "x" then some 100 else some 5000

/-- The plan and pool size computed by the allocation part. -/
def Planned (g : Graph) (memsize : String → Option Int) (p : Nat) (cm : Dict (Nat × Nat)) (sz : Nat) : Prop :=
  cm = (runAlloc g memsize p).cm ∧ sz = total (runAlloc g memsize p).blocks

theorem ok_cases {g : Graph} {memsize : String → Option Int} {p : Nat} {cm : Dict (Nat × Nat)} {sz : Nat}
    (h : compressMemory g memsize p = .ok (cm, sz)) : Planned g memsize p cm sz := by
  have hi := (run_inv (sizes := tensorSizes g memsize p) (p := p) (max p 4096) (liveLists g)
    (inv_init _ _) (tensorSizes_dvd g memsize p)).1
  have e := poolSize_eq hi.tiled
  unfold compressMemory at h
  split at h
  · simp at h
  · dsimp only at h
    split at h
    · simp at h
    · simp at h
    · simp only [Except.ok.injEq, Prod.mk.injEq] at h
      refine ⟨h.1.symm, ?_⟩
      rw [← h.2]; exact e

theorem ssa_contig {g : Graph} (h : SSA g.input g.nodemap) : Contig (liveLists g) :=
  liveLoop_contig _ _ _ _ h

/-- C01 for the allocation part alone -/
theorem planned_live_disjoint (g : Graph) (memsize : String → Option Int) (p : Nat) (cm : Dict (Nat × Nat)) (sz : Nat)
    (hidx : g.IndexExact) (hssa : SSA g.input g.nodemap)
    (hrun : Planned g memsize p cm sz)
    (k : Nat) (t u : String) (htu : t ≠ u) (ht : t ≠ "") (hu : u ≠ "")
    (hlt : LiveAt g.input g.nodemap k t) (hlu : LiveAt g.input g.nodemap k u)
    (a b : Nat × Nat) (ha : cm.get? t = some a) (hb : cm.get? u = some b) :
    DisjointRanges a b := by
  obtain ⟨rfl, rfl⟩ := hrun
  have hc := ssa_contig hssa
  obtain ⟨l, hk, h1⟩ := live_in_snapshot g hidx.1 hlt
  obtain ⟨l', hk', h2⟩ := live_in_snapshot g hidx.1 hlu
  rw [hk] at hk'; cases hk'
  have hsz := tensorSizes_dvd g memsize p
  obtain ⟨st, hinv, _, hst⟩ := at_node (max p 4096) (liveLists g) hc hsz k l hk
  have hall := (run_inv (max p 4096) (liveLists g) (inv_init (tensorSizes g memsize p) p) hsz).1
  have has : ∀ v c, (runAlloc g memsize p).cm.get? v = some c → (tensorSizes g memsize p).has v := by
    intro v c hv
    obtain ⟨_, _, _, z, hz, _⟩ := hall.bound v c.1 c.2 hv
    simp [Dict.has, hz]
  obtain ⟨t1, e1⟩ := hst t ht h1 (has t a ha)
  obtain ⟨t2, e2⟩ := hst u hu h2 (has u b hb)
  have ha' : st.cm.get? t = some a := e1.symm.trans ha
  have hb' : st.cm.get? u = some b := e2.symm.trans hb
  obtain ⟨bt, hbt, hbtt⟩ := List.mem_map.mp t1
  obtain ⟨bu, hbu, hbut⟩ := List.mem_map.mp t2
  have o1 := hinv.own bt hbt
  have o2 := hinv.own bu hbu
  rw [show bt.tag = t from hbtt, ha'] at o1
  rw [show bu.tag = u from hbut, hb'] at o2
  simp only [Option.some.injEq] at o1 o2
  subst o1; subst o2
  have m1 : bt ∈ st.blocks := (List.mem_filter.mp hbt).1
  have m2 : bu ∈ st.blocks := (List.mem_filter.mp hbu).1
  have hne : bt ≠ bu := by rintro rfl; exact htu (hbtt.symm.trans hbut)
  have til := hinv.tiled
  -- two different blocks of a tiling are disjoint
  have disj : ∀ (s : Nat) (l : List Block), Tiled s l → (∀ b ∈ l, s ≤ b.off) ∧
      ∀ b ∈ l, ∀ c ∈ l, b ≠ c → b.off + b.size ≤ c.off ∨ c.off + c.size ≤ b.off := by
    intro s l
    induction l generalizing s with
    | nil => intro _; exact ⟨by simp, by simp⟩
    | cons x l ih =>
      intro hx
      obtain ⟨hx1, hx2⟩ := hx
      obtain ⟨i1, i2⟩ := ih _ hx2
      refine ⟨?_, ?_⟩
      · intro b hb
        rcases List.mem_cons.mp hb with rfl | hb
        · omega
        · have := i1 b hb; omega
      · intro b hb c hc hbc
        rcases List.mem_cons.mp hb with rfl | hb <;> rcases List.mem_cons.mp hc with rfl | hc
        · exact absurd rfl hbc
        · have := i1 c (by assumption); omega
        · have := i1 b (by assumption); omega
        · exact i2 b hb c hc hbc
  exact (disj 0 st.blocks til).2 bt m1 bu m2 hne

/-- **C01** Two different tensors that are live at the same node occupy disjoint byte ranges. -/
theorem C01_live_disjoint (g : Graph) (memsize : String → Option Int) (p : Nat) (cm : Dict (Nat × Nat)) (sz : Nat)
    (hidx : g.IndexExact) (hssa : SSA g.input g.nodemap)
    (hrun : compressMemory g memsize p = .ok (cm, sz))
    (k : Nat) (t u : String) (htu : t ≠ u) (ht : t ≠ "") (hu : u ≠ "")
    (hlt : LiveAt g.input g.nodemap k t) (hlu : LiveAt g.input g.nodemap k u)
    (a b : Nat × Nat) (ha : cm.get? t = some a) (hb : cm.get? u = some b) :
    DisjointRanges a b :=
  planned_live_disjoint g memsize p cm sz hidx hssa (ok_cases hrun) k t u htu ht hu hlt hlu a b ha hb

/-- C02 for the allocation part alone -/
theorem planned_within_pool (g : Graph) (memsize : String → Option Int) (p : Nat) (cm : Dict (Nat × Nat)) (sz : Nat)
    (hrun : Planned g memsize p cm sz) (t : String) (off size : Nat)
    (h : cm.get? t = some (off, size)) : off + size ≤ sz := by
  obtain ⟨rfl, rfl⟩ := hrun
  exact ((run_inv (max p 4096) (liveLists g) (inv_init (tensorSizes g memsize p) p)
    (tensorSizes_dvd g memsize p)).1.bound t off size h).1

/-- **C02** Every block lies inside the reported pool (no hypothesis on the graph at all). -/
theorem C02_within_pool (g : Graph) (memsize : String → Option Int) (p : Nat) (cm : Dict (Nat × Nat)) (sz : Nat)
    (hrun : compressMemory g memsize p = .ok (cm, sz)) (t : String) (off size : Nat)
    (h : cm.get? t = some (off, size)) : off + size ≤ sz :=
  planned_within_pool g memsize p cm sz (ok_cases hrun) t off size h

/-- C03 for the allocation part alone -/
theorem planned_aligned_and_large_enough (g : Graph) (memsize : String → Option Int) (p : Nat) (hp : 0 < p)
    (cm : Dict (Nat × Nat)) (sz : Nat) (hrun : Planned g memsize p cm sz) (t : String)
    (off size : Nat) (h : cm.get? t = some (off, size)) :
    p ∣ off ∧ p ∣ size ∧ ∃ bytes, memsize t = some bytes ∧ 0 < bytes ∧ bytes ≤ size := by
  obtain ⟨rfl, rfl⟩ := hrun
  obtain ⟨_, h1, h2, z, hz, hle⟩ := (run_inv (max p 4096) (liveLists g) (inv_init (tensorSizes g memsize p) p)
    (tensorSizes_dvd g memsize p)).1.bound t off size h
  refine ⟨h1, h2, ?_⟩
  rw [tensorSizes_get] at hz
  split at hz
  · rename_i hc
    obtain ⟨_, _, s, hs, hpos⟩ := hc
    simp only [hs, Option.map_some, Option.some.injEq] at hz
    have := le_padSize hp s
    have hlt := padSize_lt hp s
    refine ⟨s, hs, ?_, by omega⟩
    -- a padded size is a positive multiple of p only for positive s
    obtain ⟨c, hc⟩ := padSize_dvd p s
    have hc1 : 1 ≤ c := by
      rcases Int.lt_or_le c 1 with h | h
      · have : (p:Int) * c ≤ 0 := Int.mul_nonpos_of_nonneg_of_nonpos (by omega) (by omega)
        omega
      · exact h
    have : (p:Int) * 1 ≤ p * c := Int.mul_le_mul_of_nonneg_left hc1 (by omega)
    omega
  · simp at hz

/-- **C03** Offsets and sizes are multiples of the padding, and the block is at least as large as the tensor. -/
theorem C03_aligned_and_large_enough (g : Graph) (memsize : String → Option Int) (p : Nat) (hp : 0 < p)
    (cm : Dict (Nat × Nat)) (sz : Nat) (hrun : compressMemory g memsize p = .ok (cm, sz)) (t : String)
    (off size : Nat) (h : cm.get? t = some (off, size)) :
    p ∣ off ∧ p ∣ size ∧ ∃ bytes, memsize t = some bytes ∧ 0 < bytes ∧ bytes ≤ size :=
  planned_aligned_and_large_enough g memsize p hp cm sz (ok_cases hrun) t off size h

/-- C03 for the allocation part alone -/
theorem planned_every_live_tensor_allocated (g : Graph) (memsize : String → Option Int) (p : Nat) (hp : 0 < p)
    (cm : Dict (Nat × Nat)) (sz : Nat) (hidx : g.IndexExact) (hssa : SSA g.input g.nodemap)
    (hrun : Planned g memsize p cm sz) (k : Nat) (t : String) (ht : t ≠ "")
    (hl : LiveAt g.input g.nodemap k t) (hdyn : t ∈ g.dynamics) (bytes : Int)
    (hb : memsize t = some bytes) (hpos : 0 < bytes) : ∃ a, cm.get? t = some a := by
  obtain ⟨rfl, rfl⟩ := hrun
  have hsz := tensorSizes_dvd g memsize p
  obtain ⟨l, hk, h1⟩ := live_in_snapshot g hidx.1 hl
  obtain ⟨st, hinv, _, hst⟩ := at_node (max p 4096) (liveLists g) (ssa_contig hssa) hsz k l hk
  have hprod : g.producedby.has t ∨ t ∈ g.input := by
    rcases hl.2.1 with h | ⟨j, _, n, hn, htn⟩
    · exact Or.inr h
    · left
      have hne : producersOf g.nodemap t ≠ [] := by
        intro e
        have hmem : n ∈ g.nodemap := List.mem_of_getElem? hn
        have : n.name ∈ producersOf g.nodemap t := by
          unfold producersOf
          rw [List.mem_flatMap]
          exact ⟨n, hmem, by rw [List.mem_replicate]; exact ⟨by have := List.count_pos_iff.mpr htn; omega, rfl⟩⟩
        simp [e] at this
      simp [Dict.has, hidx.2 t, hne]
  have hhas : (tensorSizes g memsize p).has t := by
    have := le_padSize hp bytes
    simp only [Dict.has, tensorSizes_get]
    rw [if_pos ⟨hdyn, hprod, bytes, hb, by omega⟩]
    simp [hb]
  obtain ⟨t1, e1⟩ := hst t ht h1 hhas
  obtain ⟨bt, hbt, hbtt⟩ := List.mem_map.mp t1
  exact ⟨_, (show (runAlloc g memsize p).cm.get? t = _ from e1).trans
    ((show bt.tag = t from hbtt) ▸ hinv.own bt hbt)⟩

/-- **C03** Every live activation of positive size gets a block. -/
theorem C03_every_live_tensor_allocated (g : Graph) (memsize : String → Option Int) (p : Nat) (hp : 0 < p)
    (cm : Dict (Nat × Nat)) (sz : Nat) (hidx : g.IndexExact) (hssa : SSA g.input g.nodemap)
    (hrun : compressMemory g memsize p = .ok (cm, sz)) (k : Nat) (t : String) (ht : t ≠ "")
    (hl : LiveAt g.input g.nodemap k t) (hdyn : t ∈ g.dynamics) (bytes : Int)
    (hb : memsize t = some bytes) (hpos : 0 < bytes) : ∃ a, cm.get? t = some a :=
  planned_every_live_tensor_allocated g memsize p hp cm sz hidx hssa (ok_cases hrun) k t ht hl hdyn bytes hb hpos

/-- C04 for the allocation part alone -/
theorem planned_not_worse_than_no_sharing (g : Graph) (memsize : String → Option Int) (p : Nat)
    (cm : Dict (Nat × Nat)) (sz : Nat) (hssa : SSA g.input g.nodemap) (hempty : ∀ b, memsize "" = some b → b ≤ 0)
    (hrun : Planned g memsize p cm sz) :
    cm.keys.Nodup ∧ (sz : Int) ≤ (cm.keys.map fun t => padSize p ((memsize t).getD 0)).sum := by
  obtain ⟨rfl, rfl⟩ := hrun
  have hsz := tensorSizes_dvd g memsize p
  have he : (tensorSizes g memsize p).get? "" = none := tensorSizes_unsized g memsize p "" hempty
  have u := ub_all (max p 4096) (liveLists g) hsz (ssa_contig hssa) he
  refine ⟨u.keysNodup, ?_⟩
  have hle := u.le
  have key : ∀ ks : List String, (∀ t ∈ ks, (tensorSizes g memsize p).has t) →
      ((sumSizes (tensorSizes g memsize p) ks : Nat) : Int) = (ks.map fun t => padSize p ((memsize t).getD 0)).sum := by
    intro ks
    induction ks with
    | nil => simp [sumSizes]
    | cons t ks ih =>
      intro hk
      have h1 := ih (fun x hx => hk x (by simp [hx]))
      have h2 := hk t (by simp)
      simp only [Dict.has, tensorSizes_get] at h2
      split at h2
      · rename_i hc
        have hc' := hc
        obtain ⟨_, _, s, hs, hpos⟩ := hc
        simp only [sumSizes, List.map_cons, List.sum_cons] at h1 ⊢
        rw [Int.natCast_add, h1, tensorSizes_get, if_pos hc']
        simp only [hs, Option.map_some, Option.getD_some]
        omega
      · simp at h2
  have := key _ u.sized
  unfold runAlloc at *
  omega

/-- **C04** (upper bound) The pool is never larger than giving every allocated tensor its own padded block. -/
theorem C04_not_worse_than_no_sharing (g : Graph) (memsize : String → Option Int) (p : Nat)
    (cm : Dict (Nat × Nat)) (sz : Nat) (hssa : SSA g.input g.nodemap) (hempty : ∀ b, memsize "" = some b → b ≤ 0)
    (hrun : compressMemory g memsize p = .ok (cm, sz)) :
    cm.keys.Nodup ∧ (sz : Int) ≤ (cm.keys.map fun t => padSize p ((memsize t).getD 0)).sum :=
  planned_not_worse_than_no_sharing g memsize p cm sz hssa hempty (ok_cases hrun)

/-- C04 for the allocation part alone -/
theorem planned_at_least_peak (g : Graph) (memsize : String → Option Int) (p : Nat) (hp : 0 < p)
    (cm : Dict (Nat × Nat)) (sz : Nat) (hidx : g.IndexExact) (hssa : SSA g.input g.nodemap)
    (hrun : Planned g memsize p cm sz) (k : Nat) (ts : List String) (hnd : ts.Nodup)
    (hts : ∀ t ∈ ts, t ≠ "" ∧ LiveAt g.input g.nodemap k t ∧ t ∈ g.dynamics ∧ ∃ b, memsize t = some b ∧ 0 < b) :
    (ts.map fun t => padSize p ((memsize t).getD 0)).sum ≤ sz := by
  obtain ⟨rfl, rfl⟩ := hrun
  have hsz := tensorSizes_dvd g memsize p
  cases hts0 : ts with
  | nil => simp
  | cons t0 ts0 =>
  obtain ⟨l, hk, _⟩ := live_in_snapshot g hidx.1 (hts t0 (by simp [hts0])).2.1
  obtain ⟨st, hinv, hmono, hst⟩ := at_node (max p 4096) (liveLists g) (ssa_contig hssa) hsz k l hk
  rw [← hts0]
  -- every member owns a used block
  have hown : ∀ t ∈ ts, ∃ b ∈ used st.blocks, b.tag = t ∧ padSize p ((memsize t).getD 0) ≤ b.size := by
    intro t ht
    obtain ⟨hne, hl, hdyn, bytes, hb, hpos⟩ := hts t ht
    obtain ⟨a, ha⟩ := planned_every_live_tensor_allocated g memsize p hp _ _ hidx hssa ⟨rfl, rfl⟩ k t hne hl hdyn bytes hb hpos
    obtain ⟨l', hk', h1⟩ := live_in_snapshot g hidx.1 hl
    rw [hk] at hk'; cases hk'
    have hall := (run_inv (max p 4096) (liveLists g) (inv_init (tensorSizes g memsize p) p) hsz).1
    obtain ⟨_, _, _, z, hz, hle⟩ := hall.bound t a.1 a.2 ha
    obtain ⟨t1, e1⟩ := hst t hne h1 (by simp [Dict.has, hz])
    obtain ⟨bt, hbt, hbtt⟩ := List.mem_map.mp t1
    refine ⟨bt, hbt, hbtt, ?_⟩
    have o1 := hinv.own bt hbt
    rw [show bt.tag = t from hbtt, ← e1] at o1
    rw [show (runAlloc g memsize p).cm.get? t = some (bt.off, bt.size) from o1] at ha
    simp only [Option.some.injEq] at ha
    rw [tensorSizes_get] at hz
    split at hz
    · simp only [hb, Option.map_some, Option.some.injEq, Option.getD_some] at hz ⊢
      have : a.2 = bt.size := by rw [← ha]
      omega
    · simp at hz
  -- total of the used blocks of distinct tags
  have sumUsed : ∀ (L : List Block) (ks : List String), ks.Nodup → (L.map (·.tag)).Nodup →
      (∀ t ∈ ks, ∃ b ∈ L, b.tag = t ∧ padSize p ((memsize t).getD 0) ≤ b.size) →
      (ks.map fun t => padSize p ((memsize t).getD 0)).sum ≤ (L.map (fun b => (b.size : Int))).sum := by
    intro L ks
    induction ks generalizing L with
    | nil =>
      intro _ _ _
      have : ∀ L : List Block, 0 ≤ (L.map (fun b => (b.size : Int))).sum := by
        intro L; induction L with
        | nil => simp
        | cons b L ih => simp only [List.map_cons, List.sum_cons]; omega
      simpa using this L
    | cons t ks ih =>
      intro hnd hL hks
      obtain ⟨b, hb, hbt, hle⟩ := hks t (by simp)
      obtain ⟨L1, L2, rfl⟩ := List.append_of_mem hb
      rw [List.nodup_cons] at hnd
      have := ih (L1 ++ L2) hnd.2 (hL.sublist (by simp)) (by
        intro u hu
        obtain ⟨c, hc, hcu, hcl⟩ := hks u (by simp [hu])
        refine ⟨c, ?_, hcu, hcl⟩
        simp only [List.mem_append, List.mem_cons] at hc ⊢
        rcases hc with hc | rfl | hc
        · exact Or.inl hc
        · exact absurd (hbt ▸ hcu ▸ hu) hnd.1
        · exact Or.inr hc)
      simp only [List.map_append, List.sum_append, List.map_cons, List.sum_cons] at this ⊢
      omega
  have h1 := sumUsed (used st.blocks) ts hnd hinv.nodup hown
  have h2 : ∀ L : List Block, ((used L).map (fun b => (b.size : Int))).sum ≤ total L := by
    intro L
    induction L with
    | nil => simp [total]
    | cons b L ih =>
      rw [used_cons]; split
      · simp only [total]; omega
      · simp only [total, List.map_cons, List.sum_cons]; omega
  have h3 := h2 st.blocks
  have : (total st.blocks : Int) ≤ total (runAlloc g memsize p).blocks := by
    exact_mod_cast hmono
  omega

/-- **C04** (lower bound) The pool is at least the total padded size of any set of tensors that are live together. -/
theorem C04_at_least_peak (g : Graph) (memsize : String → Option Int) (p : Nat) (hp : 0 < p)
    (cm : Dict (Nat × Nat)) (sz : Nat) (hidx : g.IndexExact) (hssa : SSA g.input g.nodemap)
    (hrun : compressMemory g memsize p = .ok (cm, sz)) (k : Nat) (ts : List String) (hnd : ts.Nodup)
    (hts : ∀ t ∈ ts, t ≠ "" ∧ LiveAt g.input g.nodemap k t ∧ t ∈ g.dynamics ∧ ∃ b, memsize t = some b ∧ 0 < b) :
    (ts.map fun t => padSize p ((memsize t).getD 0)).sum ≤ sz :=
  planned_at_least_peak g memsize p hp cm sz hidx hssa (ok_cases hrun) k ts hnd hts

/-- **C05** (what holds) A graph output that no node reads keeps its bytes until the end: at every node from its
production on, no other live tensor overlaps it.  The general property is false of the code, see
`C05_output_overwritten`. -/
theorem C05_unread_output_kept_partial (g : Graph) (memsize : String → Option Int) (p : Nat) (cm : Dict (Nat × Nat))
    (sz : Nat) (hidx : g.IndexExact) (hssa : SSA g.input g.nodemap)
    (hrun : compressMemory g memsize p = .ok (cm, sz))
    (o : String) (_ho : o ∈ g.output) (hone : o ≠ "") (hunread : ∀ j, ¬ ReadAt g.nodemap j o)
    (j : Nat) (hj : ProducedAt g.nodemap j o) (k : Nat) (hk : j ≤ k)
    (u : String) (hu : u ≠ "") (huo : u ≠ o) (hl : LiveAt g.input g.nodemap k u)
    (a b : Nat × Nat) (ha : cm.get? o = some a) (hb : cm.get? u = some b) : DisjointRanges a b :=
  C01_live_disjoint g memsize p cm sz hidx hssa hrun k o u (Ne.symm huo) hone hu
    ⟨hl.1, Or.inr ⟨j, hk, hj⟩, Or.inr (Or.inr hunread)⟩ hl a b ha hb

/-- A graph whose output `a` is also read inside. -/
def outGraph : Graph :=
  Graph.updateTensorRelations
    { nodemap := [⟨"n1", "Relu", ["x"], ["a"]⟩, ⟨"n2", "Exp", ["a"], ["b"]⟩, ⟨"n3", "Exp", ["b"], ["c"]⟩]
      input := ["x"], output := ["a", "c"] }

/-- **C05** (negation) The code does overwrite a graph output: in `outGraph` the output `a` and the later tensor `c`
get the same bytes `[64, 128)`. -/
theorem C05_output_overwritten :
    ∃ cm sz, compressMemory outGraph (fun _ => some 64) 64 = .ok (cm, sz) ∧ "a" ∈ outGraph.output ∧
      LiveAt outGraph.input outGraph.nodemap 2 "c" ∧
      cm.get? "a" = some (0, 64) ∧ cm.get? "c" = some (0, 64) := by
  refine ⟨_, _, by rfl, by decide, ⟨by decide, Or.inr ⟨2, Nat.le_refl _, _, rfl, by decide⟩, Or.inl ⟨_, rfl, by decide⟩⟩,
    by decide, by decide⟩

/-- **C41** `compress_memory` returns a result exactly when the padding is usable, every intermediate (neither graph input
nor graph output) dynamic tensor is in the tensor map, and their total size is not zero. -/
theorem C41_returns_iff (g : Graph) (memsize : String → Option Int) (p : Nat) (hp : 0 < p) :
    (∃ r, compressMemory g memsize p = .ok r) ↔
      (∀ t ∈ g.dynamics, t ∉ g.input → t ∉ g.output → (memsize t).isSome) ∧
      ((g.dynamics.filter (fun t => t ∉ g.input ∧ t ∉ g.output)).map (fun t => (memsize t).getD 0)).sum ≠ 0 := by
  have aux : ∀ (l : List String) (a : Int),
      l.foldl (fun acc t =>
        if g.input.contains t || g.output.contains t then acc
        else match acc, memsize t with
          | some a, some s => some (a + s)
          | _, _ => none) (some a) =
      if ∀ t ∈ l, t ∉ g.input → t ∉ g.output → (memsize t).isSome then
        some (a + ((l.filter (fun t => t ∉ g.input ∧ t ∉ g.output)).map (fun t => (memsize t).getD 0)).sum) else none := by
    intro l
    have none_ : ∀ l : List String, l.foldl (fun acc t =>
        if g.input.contains t || g.output.contains t then acc
        else match acc, memsize t with
          | some a, some s => some (a + s)
          | _, _ => none) (none : Option Int) = none := by
      intro l; induction l with
      | nil => rfl
      | cons b l ih => simp only [List.foldl_cons]; split <;> exact ih
    induction l with
    | nil => intro a; simp
    | cons b l ih =>
      intro a
      simp only [List.foldl_cons]
      by_cases hb : b ∈ g.input ∨ b ∈ g.output
      · have hc : (g.input.contains b || g.output.contains b) = true := by
          rcases hb with h | h <;> simp [h]
        have hd : ¬ (b ∉ g.input ∧ b ∉ g.output) := by
          rcases hb with h | h <;> simp [h]
        rw [if_pos hc, ih a]
        have : (∀ t ∈ b :: l, t ∉ g.input → t ∉ g.output → (memsize t).isSome) ↔
            (∀ t ∈ l, t ∉ g.input → t ∉ g.output → (memsize t).isSome) := by
          constructor
          · intro h t ht; exact h t (by simp [ht])
          · intro h t ht h1 h2
            rcases List.mem_cons.mp ht with rfl | ht
            · exact absurd ⟨h1, h2⟩ hd
            · exact h t ht h1 h2
        simp only [this]
        rw [List.filter_cons_of_neg (by simpa using hd)]
      · have hc : ¬ (g.input.contains b || g.output.contains b) = true := by
          simpa using hb
        have hd : b ∉ g.input ∧ b ∉ g.output := by simpa using hb
        rw [if_neg hc]
        cases hm : memsize b with
        | none =>
          dsimp only
          rw [none_, if_neg]
          intro h; have := h b (by simp) hd.1 hd.2; simp [hm] at this
        | some s =>
          dsimp only
          rw [ih]
          have : (∀ t ∈ b :: l, t ∉ g.input → t ∉ g.output → (memsize t).isSome) ↔
              (∀ t ∈ l, t ∉ g.input → t ∉ g.output → (memsize t).isSome) := by
            constructor
            · intro h t ht; exact h t (by simp [ht])
            · intro h t ht h1 h2
              rcases List.mem_cons.mp ht with rfl | ht
              · simp [hm]
              · exact h t ht h1 h2
          simp only [this]
          rw [List.filter_cons_of_pos (by simpa using hd)]
          simp only [List.map_cons, hm, Option.getD_some, List.sum_cons, Int.add_assoc]
  have hraw := aux g.dynamics 0
  simp only [Int.zero_add] at hraw
  have hraw' : rawSize g memsize = _ := hraw
  unfold compressMemory
  rw [if_neg (by simp; omega), hraw']
  dsimp only
  by_cases h1 : ∀ t ∈ g.dynamics, t ∉ g.input → t ∉ g.output → (memsize t).isSome
  · rw [if_pos h1]
    generalize ((g.dynamics.filter (fun t => t ∉ g.input ∧ t ∉ g.output)).map (fun t => (memsize t).getD 0)).sum = z
    by_cases hz : z = 0
    · subst hz; simp
    · constructor
      · intro _; exact ⟨h1, hz⟩
      · intro _
        split
        · rename_i e; simp at e
        · rename_i e; simp at e; exact absurd e hz
        · exact ⟨_, rfl⟩
  · rw [if_neg h1]
    constructor
    · rintro ⟨r, hr⟩; simp at hr
    · intro h; exact absurd h.1 h1

/-- **C41** (negation of "it always returns") A one-node graph has no intermediate tensor: ZeroDivisionError. -/
theorem C41_single_node_raises :
    compressMemory (Graph.updateTensorRelations
      { nodemap := [⟨"n", "Relu", ["x"], ["y"]⟩], input := ["x"], output := ["y"] }) (fun _ => some 64) 64
      = .error .zeroDivision := rfl

/-! ### Non-vacuity -/

example : exGraph.IndexExact := updateConsumerProducer_exact _
example : SSA exGraph.input exGraph.nodemap := by decide
example : ∃ cm sz, compressMemory exGraph exSize 64 = .ok (cm, sz) ∧ cm.get? "a" = some (0, 5056) ∧
    cm.get? "x" = some (5056, 128) ∧ cm.get? "b" = some (5056, 5056) ∧ cm.get? "d" = some (0, 5056) ∧ sz = 15168 := by
  refine ⟨_, _, rfl, ?_⟩; decide
example : LiveAt exGraph.input exGraph.nodemap 1 "a" ∧ LiveAt exGraph.input exGraph.nodemap 1 "b" :=
  ⟨⟨by decide, Or.inr ⟨0, by decide, _, rfl, by decide⟩, Or.inr (Or.inl ⟨2, by decide, _, rfl, by decide⟩)⟩,
   ⟨by decide, Or.inr ⟨1, by decide, _, rfl, by decide⟩, Or.inl ⟨_, rfl, by decide⟩⟩⟩

end OnnxTool.Props
