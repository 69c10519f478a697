import Verif.Proofs.RangePool
import Verif.Props.Pool
/-!
# C115: a pool made for a range of sizes
-/
namespace OnnxTool.Props
open OnnxTool OnnxTool.Engine OnnxTool.Regress OnnxTool.RangePool

variable {fuel : Nat} {g cg : Graph} {M : List String} {esize : String → Nat} {elt : Nat} {infer : List (String × List Int) → Except PyErr Shapes}
  {inputDesc : Dict (List Dim)} {ranges : Range} {m : Pool.MemoryPool} {e : Engine}

private theorem planPool_ok {s : Shapes} (h : planPool fuel g M esize elt s = .ok (cg, m)) :
    Mem.compressMemory cg (Infer.memsizes (tensorMap esize g.dynamics s)) 64 = .ok (m.plan, m.size) ∧ m = ⟨m.plan, m.size, elt⟩ := by
  unfold planPool at h
  split at h
  · cases h
  · split at h
    · cases h
    · rename_i cm sz hc
      split at h
      · cases h
      · rename_i m' hm
        cases h
        unfold Pool.mk at hm
        split at hm
        · cases hm
        · split at hm
          · cases hm; exact ⟨hc, rfl⟩
          · cases hm

private theorem tensorMap_get (dyn : List String) (s : Shapes) (t : String) :
    (tensorMap esize dyn s).get? t = if t ∈ dyn then some ⟨(s t).map Int.toNat, esize t⟩ else none := by
  unfold tensorMap
  induction dyn with
  | nil => rfl
  | cons u dyn ih =>
    simp only [List.map_cons, Dict.get?, List.mem_cons]
    by_cases h : u = t
    · subst h; simp
    · have h' : ¬ t = u := fun x => h x.symm
      simp only [h, h', if_false, false_or]
      exact ih

/-- the slot of a planned tensor holds the shape it was planned for -/
private theorem slot_size {s : Shapes} (h : planPool fuel g M esize elt s = .ok (cg, m)) {t : String} {off size : Nat} (ht : m.plan.get? t = some (off, size)) :
    elements s t * esize t ≤ size := by
  obtain ⟨hc, -⟩ := planPool_ok h
  obtain ⟨-, -, b, hb, hpos, hle⟩ := C03_aligned_and_large_enough cg _ 64 (by decide) m.plan m.size hc t off size ht
  unfold Infer.memsizes at hb
  rw [tensorMap_get] at hb
  split at hb
  · simp only [Option.map_some, Option.some.injEq] at hb
    unfold Infer.TInfo.memsize at hb
    split at hb
    · omega
    · unfold elements
      simp only [] at hb
      omega
  · cases hb

private theorem served {s : Shapes} (h : planPool fuel g M esize elt s = .ok (cg, m)) (helt : 0 < elt) (hdiv : elt ∣ 64) {t : String} (hw : elt ≤ esize t)
    (ht : m.plan.has t = true) (s' : Shapes) (hle : elements s' t ≤ elements s t) : ∃ v, Pool.get m t (some ((s' t).map Int.toNat)) = .ok v := by
  obtain ⟨⟨off, size⟩, hb⟩ := Option.isSome_iff_exists.mp ht
  obtain ⟨hc, he⟩ := planPool_ok h
  have h1 := slot_size h hb
  have h2 := C02_within_pool cg _ 64 m.plan m.size hc t off size hb
  refine ⟨(off, Pool.prod ((s' t).map Int.toNat) * elt), ?_⟩
  rw [he]
  rw [C06_get_iff_fits cg _ 64 elt (by decide) helt hdiv m.plan m.size hc t off size hb]
  have h3 : elements s' t * elt ≤ elements s t * esize t := Nat.mul_le_mul hle hw
  unfold elements at *
  exact ⟨rfl, by omega, by dsimp only; omega⟩

/-- **C115, the engine's pool.** `GraphInfer` plans for the largest values: for every tensor in its pool whose size grows with the variables and
whose type is not narrower than the run type, the pool hands out the tensor in every size the ranges allow. -/
theorem C115_engine (ho : Ordinary inputDesc ranges) (h : poolOfEngine fuel g M esize elt infer inputDesc ranges = .ok (cg, m, e))
    (helt : 0 < elt) (hdiv : elt ∣ 64) (t : String) (hg : Grows infer inputDesc ranges t) (hw : elt ≤ esize t) (ht : m.plan.has t = true) :
    Serves infer inputDesc ranges m t := by
  unfold poolOfEngine at h
  split at h
  · cases h
  · rename_i e0 s0 hr
    split at h
    · cases h
    · rename_i s hs
      split at h
      · cases h
      · rename_i cg' m' hp
        simp only [Except.ok.injEq, Prod.mk.injEq] at h
        obtain ⟨rfl, rfl, -⟩ := h
        intro σ s' hσ hs'
        have hhi : ∀ r ∈ ranges, pick (·.2.2) ranges r.1 = r.2.2 := pick_all ho.keys_nodup _
        have hh := newEngine_holds ho (·.2.2) e0 (regress_desc ho hr) (pick (·.2.2) ranges) hhi
        rw [probe_holds ho hh] at hs
        refine served hp helt hdiv hw ht s' (hg σ (pick (·.2.2) ranges) s' s hσ ?_ ?_ hs' hs)
        · intro r hr
          rw [hhi r hr]
          exact ⟨Int.le_trans (hσ r hr).1 (hσ r hr).2, Int.le_refl _⟩
        · intro r hr
          rw [hhi r hr]
          exact (hσ r hr).2

/-- **C115, the engine starts at the largest values.** After `GraphInfer` is built, every variable of the ranges has its largest value, and every input is described as the user gave it. -/
theorem C115_engine_variables (ho : Ordinary inputDesc ranges) (h : poolOfEngine fuel g M esize elt infer inputDesc ranges = .ok (cg, m, e)) :
    (∀ r ∈ ranges, e.variables.get? r.1 = some r.2.2) ∧ ∀ p ∈ inputDesc, e.tensorDesc.get? p.1 = some p.2 := by
  unfold poolOfEngine at h
  split at h
  · cases h
  · rename_i e0 s0 hr
    split at h
    · cases h
    · rename_i s hs
      split at h
      · cases h
      · rename_i cg' m' hp
        simp only [Except.ok.injEq, Prod.mk.injEq] at h
        obtain ⟨-, -, rfl⟩ := h
        have hh := newEngine_holds ho (·.2.2) e0 (regress_desc ho hr) (pick (·.2.2) ranges) (pick_all ho.keys_nodup _)
        exact ⟨fun r hr => by rw [hh.vars r hr, pick_all ho.keys_nodup _ r hr], hh.desc⟩

/-- **C115, the pool of a model file.** `create_memory_pool_from_model` plans for the last variable at its largest and all others at their smallest
value: a tensor is handed out in every size if none of them is larger than the one for these values. -/
theorem C115_from_model_partial (ho : Ordinary inputDesc ranges) (h : poolFromModel fuel g M esize elt infer inputDesc ranges = .ok (cg, m, e))
    (helt : 0 < elt) (hdiv : elt ∣ 64) (t : String) (hw : elt ≤ esize t) (ht : m.plan.has t = true)
    (hmax : ∀ σ σ' s s', InRange ranges σ → AtLast ranges σ' → infer (inputsAt inputDesc σ) = .ok s → infer (inputsAt inputDesc σ') = .ok s' →
      elements s t ≤ elements s' t) : Serves infer inputDesc ranges m t := by
  unfold poolFromModel at h
  split at h
  · cases h
  · rename_i e0 s0 hr
    split at h
    · cases h
    · rename_i cg' m' hp
      simp only [Except.ok.injEq, Prod.mk.injEq] at h
      obtain ⟨rfl, rfl, -⟩ := h
      intro σ s' hσ hs'
      let τ : String → Int := fun k => match ranges.getLast? with
        | some r => if k = r.1 then r.2.2 else pick (·.2.1) ranges k
        | none => 0
      have hτ : AtLast ranges τ := by
        intro i r hi
        have hmem : r ∈ ranges := List.mem_of_getElem? hi
        rcases List.eq_nil_or_concat ranges with hnil | ⟨rs, q, hrs⟩
        · rw [hnil] at hi; simp at hi
        · rw [List.concat_eq_append] at hrs
          have hl : ranges.getLast? = some q := by rw [hrs]; simp
          have hlen : ranges.length = rs.length + 1 := by rw [hrs]; simp
          show (match ranges.getLast? with
            | some r' => if r.1 = r'.1 then r'.2.2 else pick (·.2.1) ranges r.1
            | none => 0) = _
          rw [hl]
          simp only []
          have hq : ranges[rs.length]? = some q := by rw [hrs]; simp
          by_cases hi1 : i + 1 = ranges.length
          · have : i = rs.length := by omega
            rw [this, hq] at hi
            cases hi
            rw [if_pos rfl, if_pos hi1]
          · have hne : r.1 ≠ q.1 := by
              intro he
              have hlt : i < rs.length := by
                have := (List.getElem?_eq_some_iff.mp hi).1
                omega
              have hi' : rs[i]? = some r := by rw [← hi, hrs, List.getElem?_append_left hlt]
              have hnd := ho.keys_nodup
              rw [hrs, List.map_append, List.nodup_append] at hnd
              exact hnd.2.2 r.1 (List.mem_map.mpr ⟨r, List.mem_of_getElem? hi', rfl⟩) q.1 (by simp) he
            rw [if_neg hne, if_neg hi1]
            exact pick_all ho.keys_nodup _ r hmem
      exact served hp helt hdiv hw ht s' (hmax σ τ s' s0 hσ hτ hs' (regress_leaves ho hr hτ))

/-- **C115, one variable.** With a single variable both ways of planning serve the whole range. -/
theorem C115_one_variable (k : String) (lo hi : Int) (ho : Ordinary inputDesc [(k, lo, hi)])
    (h : poolFromModel fuel g M esize elt infer inputDesc [(k, lo, hi)] = .ok (cg, m, e)) (helt : 0 < elt) (hdiv : elt ∣ 64) (t : String)
    (hg : Grows infer inputDesc [(k, lo, hi)] t) (hw : elt ≤ esize t) (ht : m.plan.has t = true) : Serves infer inputDesc [(k, lo, hi)] m t := by
  refine C115_from_model_partial ho h helt hdiv t hw ht ?_
  intro σ σ' s s' hσ hσ' hs hs'
  have h1 : σ' k = hi := by simpa using hσ' 0 (k, lo, hi) rfl
  have h2 := hσ (k, lo, hi) (by simp)
  simp only [] at h2
  refine hg σ σ' s s' hσ ?_ ?_ hs hs'
  · intro r hr
    simp only [List.mem_singleton] at hr
    subst hr
    simp only [h1]
    omega
  · intro r hr
    simp only [List.mem_singleton] at hr
    subst hr
    simp only [h1]
    exact h2.2

/-- **C115, no interference.** Whatever sizes within the ranges are asked for, the tensors live at one node get disjoint parts of the pool. -/
theorem C115_disjoint (h : poolFromModel fuel g M esize elt infer inputDesc ranges = .ok (cg, m, e) ∨ poolOfEngine fuel g M esize elt infer inputDesc ranges = .ok (cg, m, e))
    (hidx : cg.IndexExact) (hssa : SSA cg.input cg.nodemap) (k : Nat) (t u : String) (htu : t ≠ u) (ht : t ≠ "") (hu : u ≠ "")
    (hlt : LiveAt cg.input cg.nodemap k t) (hlu : LiveAt cg.input cg.nodemap k u) (sh sh' : Option (List Nat)) (v w : Nat × Nat)
    (hv : Pool.get m t sh = .ok v) (hw : Pool.get m u sh' = .ok w) (mem : Nat → UInt8) (data : Nat → UInt8) :
    (∀ i, i < w.2 → Pool.read (Pool.write mem v data) w i = Pool.read mem w i) ∧ ∀ i, i < v.2 → Pool.read (Pool.write mem v data) v i = data i := by
  have hp : ∃ s, planPool fuel g M esize elt s = .ok (cg, m) := by
    rcases h with h | h
    · unfold poolFromModel at h
      split at h
      · cases h
      · rename_i e0 s0 hr
        split at h
        · cases h
        · rename_i cg' m' hp
          simp only [Except.ok.injEq, Prod.mk.injEq] at h
          obtain ⟨rfl, rfl, -⟩ := h
          exact ⟨s0, hp⟩
    · unfold poolOfEngine at h
      split at h
      · cases h
      · split at h
        · cases h
        · rename_i s hs
          split at h
          · cases h
          · rename_i cg' m' hp
            simp only [Except.ok.injEq, Prod.mk.injEq] at h
            obtain ⟨rfl, rfl, -⟩ := h
            exact ⟨s, hp⟩
  obtain ⟨s, hp⟩ := hp
  obtain ⟨hc, he⟩ := planPool_ok hp
  rw [he] at hv hw
  exact C06_no_interference cg _ 64 elt m.plan m.size hidx hssa hc k t u htu ht hu hlt hlu sh sh' v w hv hw mem data

/-! ### a network of two nodes on an image of variable size -/

private def imageGraph : Graph :=
  { nodemap := [{ name := "a", op := "Relu", input := ["x"], output := ["t"] }, { name := "b", op := "Relu", input := ["t"], output := ["y"] }],
    input := ["x"], output := ["y"], initials := [], dynamics := ["x", "t", "y"],
    producedby := [("t", ["a"]), ("y", ["b"])], consumedby := [("x", ["a"]), ("t", ["b"])] }

/-- every tensor has the shape of the input -/
private def sameShape : List (String × List Int) → Except PyErr Shapes
  | [(_, s)] => .ok fun _ => s
  | _ => .error .valueError

private def twoSizes : Range := [("h", 1, 100), ("w", 1, 100)]
private def imageDesc : Dict (List Dim) := [("x", [.var "h", .var "w"])]

/-- **C115, several variables.** The pool of a model file for images of 1..100 by 1..100 cannot hold an image of 100 by 100: asking for it raises
ValueError, although the engine's pool hands it out. -/
theorem C115_two_variables_counterexample :
    ∃ cg m e, poolFromModel 10 imageGraph [] (fun _ => 4) 4 sameShape imageDesc twoSizes = .ok (cg, m, e) ∧
      (sameShape (inputsAt imageDesc fun _ => 100)).toOption.map (fun s => s "t") = some [100, 100] ∧ InRange twoSizes (fun _ => 100) ∧
      Pool.get m "t" (some [1, 100]) = .ok (448, 400) ∧ Pool.get m "t" (some [100, 100]) = .error .valueError ∧
    ∃ cg m e, poolOfEngine 10 imageGraph [] (fun _ => 4) 4 sameShape imageDesc twoSizes = .ok (cg, m, e) ∧
      ∃ v, Pool.get m "t" (some [100, 100]) = .ok v := by
  refine ⟨_, _, _, rfl, rfl, by simp [InRange, twoSizes], rfl, rfl, _, _, _, rfl, _, rfl⟩

/-- a size that falls when the variable grows -/
private def falling : List (String × List Int) → Except PyErr Shapes
  | [(_, [n])] => .ok fun t => if t = "t" then [1000 - n] else [n]
  | _ => .error .valueError

/-- **C115, falling sizes.** If a tensor gets smaller while the input grows, planning for the largest input does not serve the small ones. -/
theorem C115_falling_counterexample :
    ∃ cg m e, poolOfEngine 10 imageGraph [] (fun _ => 4) 4 falling [("x", [.var "n"])] [("n", 1, 900)] = .ok (cg, m, e) ∧
      (falling (inputsAt [("x", [.var "n"])] fun _ => 1)).toOption.map (fun s => s "t") = some [999] ∧
      Pool.get m "t" (some [999]) = .error .valueError := by
  refine ⟨_, _, _, rfl, rfl, rfl⟩

/-- the hypotheses of the theorems hold for the image network -/
example : Ordinary imageDesc twoSizes ∧ Grows sameShape imageDesc twoSizes "t" := by
  refine ⟨⟨by decide, by decide, by decide, ?_⟩, ?_⟩
  · intro p hp v hv
    simp only [imageDesc, List.mem_singleton] at hp
    subst hp
    simp only [List.mem_cons, Dim.var.injEq, List.not_mem_nil, or_false] at hv
    simp only [twoSizes, List.map_cons, List.map_nil, List.mem_cons, List.not_mem_nil, or_false]
    exact hv
  · intro σ σ' s s' h1 h2 h3 hs hs'
    simp only [sameShape, inputsAt, imageDesc, List.map_cons, List.map_nil, dimAt, Except.ok.injEq] at hs hs'
    subst hs; subst hs'
    have a := h3 ("h", 1, 100) (by simp [twoSizes])
    have b := h3 ("w", 1, 100) (by simp [twoSizes])
    simp only [elements, Pool.prod, List.map_cons, List.map_nil, List.foldl_cons, List.foldl_nil, Nat.one_mul]
    exact Nat.mul_le_mul (Int.toNat_le_toNat a) (Int.toNat_le_toNat b)

end OnnxTool.Props
