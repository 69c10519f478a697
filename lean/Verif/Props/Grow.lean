import Verif.Proofs.Broadcast
import Verif.Proofs.Grow
import Verif.Props.ShapeInfer
import Verif.Props.RangePool
import Mathlib.Data.List.Induction
/-!
# C116: larger inputs never make a tensor smaller
-/
namespace OnnxTool.Props
open OnnxTool OnnxTool.Engine OnnxTool.Grow OnnxTool.ShapeInfer

/-! ### networks -/

/-- **C116, networks.** Two solutions of the equations of a sorted network of rising nodes, the tensors that nobody produces below one another: then every tensor is
below. -/
theorem C116_network (run : Run Int) (g : Graph) (M : List String) (R : Roles) (hr : Rising run g M R)
    (htopo : Topsort.TopoOrdered g.nodemap) (F F' : String → Seen Int) (hF : Solves run M g.nodemap F) (hF' : Solves run M g.nodemap F')
    (hu : ∀ t, Unproduced g.nodemap t → Below (R.sizes t) (R.fixed t) (F t) (F' t)) (t : String) : Below (R.sizes t) (R.fixed t) (F t) (F' t) := by
  have key : ∀ (ns rest : List Node), g.nodemap = ns ++ rest → ∀ t, (∀ n ∈ rest, t ∉ n.output) → Below (R.sizes t) (R.fixed t) (F t) (F' t) := by
    intro ns
    induction ns using List.reverseRecOn with
    | nil => intro rest hs t ht; exact hu t (by unfold Unproduced; rw [hs]; simpa using ht)
    | append_singleton ns n ih =>
      intro rest hs t ht
      by_cases hto : t ∈ n.output
      · have hn : n ∈ g.nodemap := by rw [hs]; simp
        have hin : ∀ q ∈ n.input, Below (R.sizes q) (R.fixed q) (F q) (F' q) := by
          intro q hq
          refine ih (n :: rest) (by rw [hs]; simp) q ?_
          intro k hk hqk
          rcases List.mem_cons.mp hk with rfl | hk
          · exact htopo.2 k hn ⟨q, hq, hqk⟩
          · have hp := htopo.1
            rw [hs, List.append_assoc, List.singleton_append] at hp
            exact (List.pairwise_cons.mp (List.pairwise_append.mp hp).2.1).1 k hk ⟨q, hq, hqk⟩
        obtain ⟨us, h1, h2, h3⟩ := hF n hn
        obtain ⟨us', g1, g2, g3⟩ := hF' n hn
        obtain ⟨i, hi⟩ := List.mem_iff_getElem?.mp hto
        have hil : i < n.output.length := (List.getElem?_eq_some_iff.mp hi).1
        obtain ⟨u, hu1⟩ : ∃ u, us[i]? = some u := ⟨us[i], List.getElem?_eq_getElem (by omega)⟩
        obtain ⟨u', hu2⟩ : ∃ u, us'[i]? = some u := ⟨us'[i], List.getElem?_eq_getElem (by omega)⟩
        obtain ⟨a1, a2⟩ := hr.nodes n hn F F' hin us us' h1 g1 i t u u' hi hu1 hu2
        obtain ⟨b1, b2⟩ := h3 i t u hi hu1
        obtain ⟨c1, c2⟩ := g3 i t u' hi hu2
        refine ⟨by rw [b1, c1]; exact a1, fun hf => absurd hto (hr.given t hf n hn), fun hs => ?_⟩
        obtain ⟨a, a', rfl, rfl, hle⟩ := a2 hs
        have hm := hr.computed n hn t hto hs
        exact ⟨a, a', by rw [b2 hm a rfl], by rw [c2 hm a' rfl], hle⟩
      · refine ih (n :: rest) (by rw [hs]; simp) t ?_
        intro k hk
        rcases List.mem_cons.mp hk with rfl | hk
        · exact hto
        · exact ht k hk
  exact key g.nodemap [] (by simp) t (by simp)

/-- **C116, shape inference.** Two successful calls of `shape_infer` on a network of rising nodes, the second one with larger inputs: no tensor is smaller. -/
theorem C116_shape_infer (run : Run Int) (g : Graph) (M : List String) (R : Roles) (hg : WellFormed run g M) (hr : Rising run g M R)
    (d d' : Dict (Arr Int)) (m m' r r' : TMap Int) (h : shapeInfer run g M d m = (r, none, true)) (h' : shapeInfer run g M d' m' = (r', none, true))
    (hu : ∀ t, Unproduced g.nodemap t → Below (R.sizes t) (R.fixed t) (seen (updateInputs d m t)) (seen (updateInputs d' m' t))) (t : String) :
    DimsFit (r t).shape (r' t).shape := by
  obtain ⟨h1, h2⟩ := C75_solution run g M hg d m r h
  obtain ⟨g1, g2⟩ := C75_solution run g M hg d' m' r' h'
  exact (C116_network run g M R hr hg.topo _ _ h1 g1 (fun q hq => by simp only [h2 q hq, g2 q hq]; exact hu q hq) t).shape

private theorem generated_keys {l : List (String × List Int)} {d : Dict (Arr Int)} (h : generated l = .ok d) : d.map (·.1) = l.map (·.1) := by
  induction l generalizing d with
  | nil => cases h; rfl
  | cons p l ih =>
    unfold generated at h
    split at h
    · cases h
    · split at h
      · cases h
      · rename_i a _ d' hd
        cases h
        simp [ih hd]

private theorem zeros_ok {s : List Int} {a : Arr Int} (h : zeros s = .ok a) : asDims a.shape = s.map Dim.num := by
  unfold zeros at h
  split at h
  · cases h
  · rename_i hn
    cases h
    unfold asDims
    simp only [List.map_map]
    refine List.map_congr_left fun x hx => ?_
    simp only [List.any_eq_true, decide_eq_true_eq, not_exists, not_and, not_lt] at hn
    have := hn x hx
    simp only [Function.comp, Dim.num.injEq]
    omega

/-- **C116, the probe.** `generate_input` raises exactly if some dimension is negative (a dimension 0 is accepted), and then it is a ValueError; otherwise it gives, for each described input, a float64 array of exactly its shape, full of zeros. -/
theorem C116_generated (l : List (String × List Int)) :
    ((∃ p ∈ l, ∃ x ∈ p.2, x < 0) → generated l = .error .valueError) ∧
    ((∀ p ∈ l, ∀ x ∈ p.2, 0 ≤ x) → ∃ d, generated l = .ok d ∧
      List.Forall₂ (fun p q => q.1 = p.1 ∧ q.2.shape.map Int.ofNat = p.2 ∧ q.2.dtype = "float64" ∧ q.2.data.length = q.2.shape.prod ∧ ∀ x ∈ q.2.data, x = 0) l d) := by
  have hz : ∀ s : List Int, (∃ x ∈ s, x < 0) → zeros s = .error .valueError := by
    rintro s ⟨x, hx, hn⟩
    unfold zeros
    rw [if_pos (List.any_eq_true.mpr ⟨x, hx, decide_eq_true hn⟩)]
  have ho : ∀ s : List Int, (∀ x ∈ s, 0 ≤ x) → zeros s = .ok { shape := s.map Int.toNat, dtype := "float64", data := List.replicate (s.map Int.toNat).prod 0 } := by
    intro s hs
    unfold zeros
    rw [if_neg]
    intro h
    obtain ⟨x, hx, hn⟩ := List.any_eq_true.mp h
    have := hs x hx
    have := of_decide_eq_true hn
    omega
  induction l with
  | nil => exact ⟨fun ⟨_, h, _⟩ => (by cases h), fun _ => ⟨[], rfl, List.Forall₂.nil⟩⟩
  | cons p l ih =>
    obtain ⟨k, s⟩ := p
    refine ⟨?_, ?_⟩
    · rintro ⟨p, hp, x, hx, hn⟩
      simp only [generated]
      by_cases hs : ∃ x ∈ s, x < 0
      · rw [hz s hs]
      · have hs' : ∀ x ∈ s, 0 ≤ x := fun x hx => by by_contra h; exact hs ⟨x, hx, by omega⟩
        rw [ho s hs']
        rcases List.mem_cons.mp hp with rfl | hp
        · exact absurd ⟨x, hx, hn⟩ hs
        · simp only
          rw [ih.1 ⟨p, hp, x, hx, hn⟩]
    · intro h
      obtain ⟨d, hd, hf⟩ := ih.2 fun p hp => h p (List.mem_cons_of_mem _ hp)
      have hs := h (k, s) List.mem_cons_self
      simp only [generated]
      rw [ho s hs, hd]
      refine ⟨_, rfl, List.Forall₂.cons ⟨rfl, ?_, rfl, by simp, ?_⟩ hf⟩
      · simp only [List.map_map]
        conv => rhs; rw [← List.map_id s]
        exact List.map_congr_left fun x hx => Int.toNat_of_nonneg (hs x hx)
      · intro x hx
        exact (List.mem_replicate.mp hx).2

example : (∀ p ∈ [("x", [(0 : Int), 3]), ("y", [2])], ∀ x ∈ p.2, 0 ≤ x) ∧ ∃ p ∈ [("x", [(0 : Int), 3]), ("y", [-2])], ∃ x ∈ p.2, x < 0 := by decide

/-- two generated inputs whose shapes fit -/
private theorem generated_fit {l l' : List (String × List Int)} (hl : List.Forall₂ (fun p p' => p.1 = p'.1 ∧ Fits p.2 p'.2) l l') {d d' : Dict (Arr Int)}
    (h : generated l = .ok d) (h' : generated l' = .ok d') : List.Forall₂ (fun p p' => p.1 = p'.1 ∧ DimsFit (asDims p.2.shape) (asDims p'.2.shape)) d d' := by
  induction hl generalizing d d' with
  | nil => cases h; cases h'; exact List.Forall₂.nil
  | cons hp _ ih =>
    unfold generated at h h'
    split at h
    · cases h
    · rename_i a ha
      split at h
      · cases h
      · rename_i e he
        cases h
        split at h'
        · cases h'
        · rename_i a' ha'
          split at h'
          · cases h'
          · rename_i e' he'
            cases h'
            exact List.Forall₂.cons ⟨hp.1, _, _, zeros_ok ha, zeros_ok ha', hp.2⟩ (ih he he')

private theorem updateInputs_fit {d d' : Dict (Arr Int)} (hd : List.Forall₂ (fun p p' => p.1 = p'.1 ∧ DimsFit (asDims p.2.shape) (asDims p'.2.shape)) d d')
    (m m' : TMap Int) (t : String) (hm : t ∉ d.map (·.1) → DimsFit (m t).shape (m' t).shape) :
    DimsFit (updateInputs d m t).shape (updateInputs d' m' t).shape := by
  unfold updateInputs
  induction hd generalizing m m' with
  | nil => exact hm (by simp)
  | @cons p p' d d' hp _ ih =>
    simp only [List.foldl_cons]
    refine ih _ _ fun ht => ?_
    unfold put
    rw [← hp.1]
    by_cases hq : t = p.1
    · rw [if_pos hq, if_pos hq]
      exact hp.2
    · rw [if_neg hq, if_neg hq]
      exact hm (by simp only [List.map_cons, List.mem_cons, not_or]; exact ⟨hq, ht⟩)

private theorem elements_le {a b : List Int} (h : Fits a b) : Pool.prod (a.map Int.toNat) ≤ Pool.prod (b.map Int.toNat) := by
  have hf : ∀ (l : List Nat) (v : Nat), l.foldl (fun v d => v * d) v = v * l.prod := by
    intro l
    induction l with
    | nil => intro v; simp
    | cons x l ih => intro v; rw [List.foldl_cons, ih, List.prod_cons, Nat.mul_assoc]
  unfold Pool.prod
  induction h with
  | nil => exact le_refl _
  | cons hab _ ih =>
    simp only [List.map_cons, hf, List.prod_cons] at *
    exact Nat.mul_le_mul_left _ (Nat.mul_le_mul (by omega) (by simpa using ih))

/-- **C116, pools.** A network of rising nodes whose loaded tensors have numeric shapes (except the described inputs): larger values of the variables never make a
tensor smaller — the hypothesis under which the pool of the engine serves every size of the ranges (C115). -/
theorem C116_grows (run : Run Int) (g : Graph) (M : List String) (R : Roles) (hg : WellFormed run g M) (hr : Rising run g M R) (m : TMap Int)
    (inputDesc : Dict (List Dim)) (ranges : Regress.Range) (ho : RangePool.Ordinary inputDesc ranges)
    (hin : ∀ t ∈ inputDesc.map (·.1), ¬ R.sizes t ∧ ¬ R.fixed t)
    (hm : ∀ t, Unproduced g.nodemap t → t ∉ inputDesc.map (·.1) → Below (R.sizes t) (R.fixed t) (seen (m t)) (seen (m t))) (t : String) :
    RangePool.Grows (inferShapes run g M m) inputDesc ranges t := by
  intro σ σ' s s' _ _ hle hs hs'
  unfold inferShapes at hs hs'
  split at hs
  · cases hs
  · rename_i d hd
    split at hs'
    · cases hs'
    · rename_i d' hd'
      have hfit : List.Forall₂ (fun p p' : String × List Int => p.1 = p'.1 ∧ Fits p.2 p'.2) (Regress.inputsAt inputDesc σ) (Regress.inputsAt inputDesc σ') := by
        unfold Regress.inputsAt
        have hv : ∀ p ∈ inputDesc, ∀ v, Dim.var v ∈ p.2 → σ v ≤ σ' v := by
          intro p hp v hv
          obtain ⟨r, hr, he⟩ := List.mem_map.mp (ho.desc_vars p hp v hv)
          rw [← he]
          exact hle r hr
        clear hd hd' hm hin ho
        induction inputDesc with
        | nil => exact List.Forall₂.nil
        | cons p ps ih =>
          refine List.Forall₂.cons ⟨rfl, ?_⟩ (ih fun q hq => hv q (List.mem_cons_of_mem _ hq))
          have h0 := hv p List.mem_cons_self
          revert h0
          show (∀ v, Dim.var v ∈ p.2 → σ v ≤ σ' v) → Fits (p.2.map _) (p.2.map _)
          generalize p.2 = ds
          intro h0
          induction ds with
          | nil => exact Fits.nil
          | cons x ds ihd =>
            refine Fits.cons ?_ (ihd fun v hv => h0 v (List.mem_cons_of_mem _ hv))
            cases x with
            | num n => exact le_refl _
            | var v => exact h0 v List.mem_cons_self
      have hdd := generated_fit hfit hd hd'
      have hkeys : d.map (·.1) = inputDesc.map (·.1) := by
        rw [generated_keys hd]; unfold Regress.inputsAt; simp
      have hkeys' : d'.map (·.1) = inputDesc.map (·.1) := by
        rw [generated_keys hd']; unfold Regress.inputsAt; simp
      split at hs
      · cases hs
      · rename_i r b hrun
        split at hs'
        · cases hs'
        · rename_i r' b' hrun'
          have hb : b = true := by
            have := (C75_valid_shape run g M d m).1
            rw [hrun] at this
            exact this.mpr rfl
          have hb' : b' = true := by
            have := (C75_valid_shape run g M d' m).1
            rw [hrun'] at this
            exact this.mpr rfl
          subst hb hb'
          have := C116_shape_infer run g M R hg hr d d' m m r r' hrun hrun' (fun q hq => by
            refine ⟨?_, fun hfx => ?_, fun hsz => ?_⟩
            · exact updateInputs_fit hdd m m q fun hqd => (hm q hq (by rw [← hkeys]; exact hqd)).shape
            · have hqd : q ∉ inputDesc.map (·.1) := fun c => (hin q c).2 hfx
              rw [updateInputs_other d m q (by rw [hkeys]; exact hqd), updateInputs_other d' m q (by rw [hkeys']; exact hqd)]
            · have hqd : q ∉ inputDesc.map (·.1) := fun c => (hin q c).1 hsz
              rw [updateInputs_other d m q (by rw [hkeys]; exact hqd), updateInputs_other d' m q (by rw [hkeys']; exact hqd)]
              exact (hm q hq hqd).value hsz) t
          obtain ⟨a, b, e1, e2, hab⟩ := this
          simp only [Except.ok.injEq] at hs hs'
          unfold RangePool.elements
          rw [← hs, ← hs']
          simp only [e1, e2, List.map_map]
          have hc : (Int.toNat ∘ number ∘ Dim.num) = Int.toNat := by funext x; rfl
          rw [hc]
          exact elements_le hab

/-- **C116, the engine.** For a network of rising nodes the engine's pool hands out every tensor in every size the ranges allow (C115 without the condition on sizes). -/
theorem C116_pool (run : Run Int) (g : Graph) (M : List String) (R : Roles) (hg : WellFormed run g M) (hr : Rising run g M R) (m0 : TMap Int)
    (inputDesc : Dict (List Dim)) (ranges : Regress.Range) (ho : RangePool.Ordinary inputDesc ranges)
    (hin : ∀ t ∈ inputDesc.map (·.1), ¬ R.sizes t ∧ ¬ R.fixed t)
    (hm : ∀ t, Unproduced g.nodemap t → t ∉ inputDesc.map (·.1) → Below (R.sizes t) (R.fixed t) (seen (m0 t)) (seen (m0 t)))
    (fuel : Nat) (esize : String → Nat) (elt : Nat) (cg : Graph) (m : Pool.MemoryPool) (e : Engine)
    (h : RangePool.poolOfEngine fuel g M esize elt (inferShapes run g M m0) inputDesc ranges = .ok (cg, m, e)) (helt : 0 < elt) (hdiv : elt ∣ 64) (t : String)
    (hw : elt ≤ esize t) (ht : m.plan.has t = true) : RangePool.Serves (inferShapes run g M m0) inputDesc ranges m t :=
  C115_engine ho h helt hdiv t (C116_grows run g M R hg hr m0 inputDesc ranges ho hin hm t) hw ht

/-! ### operators -/

open OnnxTool.Shape OnnxTool.Axes OnnxTool.Conv OnnxTool.Slice OnnxTool.Resample

/-- **C116, elementwise operators** (Add, Sub, Mul, Div, Min, Max, Less, And, Where, …): broadcasting rises. -/
theorem C116_broadcast : RisesAll broadcastShape := broadcast_rises

/-- **C116, Expand**: also when the target grows with the input. -/
theorem C116_expand (x x' e e' : List Nat) (hx : Fits x x') (he : Fits e e') : Fits (expandShape x e) (expandShape x' e') := expand_rises hx he

/-- **C116, Transpose.** -/
theorem C116_transpose (perm : Option (List Int)) : Rises (transposeShape perm) := by
  intro x x' y y' h hy hy'
  unfold transposeShape at hy hy'
  cases perm with
  | none => cases hy; cases hy'; exact h.reverse
  | some p => exact gatherAll_rises p x x' y y' h hy hy'

/-- **C116, Gather**: in the data and in the indices. -/
theorem C116_gather (axis : Int) (x x' ids ids' : List Nat) (hx : Fits x x') (hi : Fits ids ids') : Fits (gatherShape axis x ids) (gatherShape axis x' ids') := by
  unfold gatherShape
  rw [hx.length]
  exact gatherLoop_rises _ hi 0 hx

/-- **C116, Squeeze.** -/
theorem C116_squeeze (axes : List Int) (x x' : List Nat) (h : Fits x x') : Fits (squeezeShape axes x) (squeezeShape axes x') := by
  unfold squeezeShape
  rw [h.length]
  exact dropAxes_rises _ 0 h

/-- **C116, Unsqueeze.** -/
theorem C116_unsqueeze (axes : List Int) : Rises (unsqueezeShape axes) := by
  intro x x' y y' h hy hy'
  unfold unsqueezeShape at hy hy'
  rw [← h.length] at hy'
  exact insLoop_rises _ _ _ _ _ _ _ h hy hy'

/-- **C116, reductions** with axes. -/
theorem C116_reduce (keepdims : Bool) (axes : List Int) (x x' y y' : List Nat) (h : Fits x x') (hy : reduceShape keepdims (some axes) x = some y)
    (hy' : reduceShape keepdims (some axes) x' = some y') : Fits y y' := by
  unfold reduceShape at hy hy'
  simp only [Option.some.injEq] at hy hy'
  rw [← hy, ← hy', ← h.length]
  cases keepdims
  · exact dropAxes_rises _ 0 h
  · exact onesAt_rises _ 0 h

/-- **C116, Pad** (also with negative pads). -/
theorem C116_pad (pads : Option (List Int)) : Rises (padShape pads) := by
  intro x x' y y' h hy hy'
  unfold padShape at hy hy'
  cases pads with
  | none => cases hy; cases hy'; exact Fits.nil
  | some p =>
    simp only at hy hy'
    rw [← h.length] at hy'
    exact padLoop_rises _ _ _ _ _ _ _ h hy hy'

/-- **C116, Concat.** -/
theorem C116_concat (axis : Int) : RisesAll (concatShape axis) := by
  intro xs xs' y y' h hy hy'
  unfold concatShape at hy hy'
  cases h with
  | nil => cases hy
  | cons hs ht => exact concatLoop_rises axis ht hs hy hy'

/-- **C116, OneHot.** -/
theorem C116_oneHot (axis : Int) (depth : Nat) (x x' : List Nat) (h : Fits x x') : Fits (oneHotShape axis depth x) (oneHotShape axis depth x') := by
  unfold oneHotShape
  simp only [h.length]
  exact (h.take _).append (Fits.cons (le_refl _) (h.drop _))

/-- **C116, Conv**: every rank and padding mode, positive strides. -/
theorem C116_conv (a : Attrs) (ha : ∀ s ∈ a.strides, 0 < s) (w : List Int) : Rises fun x => convShape a x w := conv_rises ha w

/-- **C116, pooling.** -/
theorem C116_pooling (a : Attrs) (ha : ∀ s ∈ a.strides, 0 < s) : Rises (poolShape a) := pool_rises ha

/-- **C116, ConvTranspose.** -/
theorem C116_convTranspose (a : Attrs) (ha : ∀ s ∈ a.strides, 0 ≤ s) (w : List Int) : Rises fun x => convTransShape a x w := convTrans_rises ha w

/-- **C116, MatMul and Gemm** with a matrix on the right. -/
theorem C116_gemm (gemm ta tb : Bool) (a a' b b' y y' : List Nat) (ha : Fits a a') (hb : Fits b b') (h2 : b.length = 2)
    (hy : gemmShape gemm ta tb a b = .ok y) (hy' : gemmShape gemm ta tb a' b' = .ok y') : Fits y y' := gemm_rises ha hb h2 hy hy'

/-- **C116, batched MatMul and Gemm**, when the result's batch is the broadcast of the operands' batches in both runs. -/
theorem C116_gemm_batched (gemm ta tb : Bool) (a a' b b' r r' y y' : List Nat) (ha : Fits a a') (hb : Fits b b')
    (hr : IsBroadcast [a.take (a.length - 2), b.take (b.length - 2)] r) (hr' : IsBroadcast [a'.take (a'.length - 2), b'.take (b'.length - 2)] r')
    (hy : gemmShape gemm ta tb a b = .ok y) (hy' : gemmShape gemm ta tb a' b' = .ok y') (e : y.take (y.length - 2) = r) (e' : y'.take (y'.length - 2) = r') : Fits y y' := by
  have hrr : Fits r r' := broadcast_rises _ _ _ _ (List.Forall₂.cons (by rw [← ha.length]; exact ha.take _) (List.Forall₂.cons (by rw [← hb.length]; exact hb.take _) List.Forall₂.nil))
    ((broadcast_iff _ _).mpr hr) ((broadcast_iff _ _).mpr hr')
  exact gemm_rises_batch ha hb hrr hy hy' e e'

example : IsBroadcast [[1, 5], [2, 5]] [2, 5] ∧ IsBroadcast [[1, 6], [4, 6]] [4, 6] ∧ gemmShape false false false [1, 5, 3, 4] [2, 5, 4, 6] = .ok [2, 5, 3, 6] ∧
    gemmShape false false false [1, 6, 3, 4] [4, 6, 4, 7] = .ok [4, 6, 3, 7] := ⟨(broadcast_iff _ _).mp rfl, (broadcast_iff _ _).mp rfl, rfl, rfl⟩

/-- **C116, batched MatMul and Gemm whose operands share their batch**, whatever the batch is in each run. -/
theorem C116_gemm_same_batch (gemm ta tb : Bool) (a a' b b' y y' : List Nat) (ha : Fits a a') (hb : Fits b b')
    (hs : a.take (a.length - 2) = b.take (b.length - 2)) (hs' : a'.take (a'.length - 2) = b'.take (b'.length - 2))
    (hy : gemmShape gemm ta tb a b = .ok y) (hy' : gemmShape gemm ta tb a' b' = .ok y') : Fits y y' := by
  have k := gemm_batch hy
  have k' := gemm_batch hy'
  rw [← hs, ite_self] at k
  rw [← hs', ite_self] at k'
  exact gemm_rises_batch ha hb (by rw [← ha.length]; exact ha.take _) hy hy' k k'

example : Fits [8, 7, 2, 3] [9, 7, 4, 3] ∧ gemmShape true false true [8, 7, 2, 3] [8, 7, 5, 3] = .ok [8, 7, 2, 5] ∧ gemmShape true false true [9, 7, 4, 3] [9, 7, 6, 3] = .ok [9, 7, 4, 6] := by
  refine ⟨?_, rfl, rfl⟩
  unfold Fits
  decide

/-- **C116 finding**: batched MatMul falls: growing the right batch makes the tool take the right operand's batch, which is smaller in the last batch dimension. -/
theorem C116_matmul_falls : Fits [1, 8, 2, 3] [1, 8, 2, 3] ∧ Fits [4, 1, 3, 5] [9, 1, 3, 5] ∧ gemmShape false false false [1, 8, 2, 3] [4, 1, 3, 5] = .ok [1, 8, 2, 5] ∧
    gemmShape false false false [1, 8, 2, 3] [9, 1, 3, 5] = .ok [9, 1, 2, 5] ∧ ¬ Fits [1, 8, 2, 5] [9, 1, 2, 5] := by
  refine ⟨?_, ?_, rfl, rfl, ?_⟩ <;> unfold Fits <;> decide

/-- **C116, Split** by given sizes: every part. -/
theorem C116_split (axis : Int) (split : List Int) (nout : Nat) (x x' : List Nat) (ys ys' : List (List Int)) (h : Fits x x')
    (hy : splitShape x (some axis) (some split) nout = .ok ys) (hy' : splitShape x' (some axis) (some split) nout = .ok ys') : List.Forall₂ Fits ys ys' := by
  unfold splitShape at hy hy'
  simp only at hy hy'
  rw [← h.length] at hy'
  replace hy := bindOk hy; obtain ⟨sp, h1, hy⟩ := hy
  replace hy' := bindOk hy'; obtain ⟨sp', g1, hy'⟩ := hy'
  cases h1; cases g1
  generalize (if axis < 0 then ((x.length : Int) + axis) else axis) = ax at hy hy'
  split at hy
  · split at hy'
    · cases hy; cases hy'
      exact splitLoop_rises ax 0 split h
    · cases hy'
  · cases hy

/-- **C116, Resize** by scales. -/
theorem C116_resize (nin : Nat) (scales : List Rat) (hs : ∀ s ∈ scales, 0 ≤ s) : Rises fun x => resizeShape nin x scales [] := by
  intro x x' y y' h hy hy'
  simp only [resizeShape, ne_eq, not_true_eq_false, and_false, if_false] at hy hy'
  split at hy
  · cases hy
  · rename_i hn
    rw [if_neg hn] at hy'
    cases hy; cases hy'
    exact zipFloor_rises scales hs h

/-- **C116, DepthToSpace.** -/
theorem C116_depthToSpace (b : Nat) : Rises (depthToSpaceShape b) := by
  intro x x' y y' h hy hy'
  unfold depthToSpaceShape at hy
  split at hy
  · rename_i n c hh w
    cases h with
    | cons h1 h => cases h with
      | cons h2 h => cases h with
        | cons h3 h => cases h with
          | cons h4 h =>
            cases h
            unfold depthToSpaceShape at hy'
            simp only at hy'
            split at hy
            · cases hy
            · rename_i hb
              rw [if_neg hb] at hy'
              cases hy; cases hy'
              exact Fits.cons h1 (Fits.cons (Nat.div_le_div_right h2) (Fits.cons (Nat.mul_le_mul_right _ h3) (Fits.cons (Nat.mul_le_mul_right _ h4) Fits.nil)))
  · cases hy

/-- **C116, Slice**: while every named axis is steady. -/
theorem C116_slice (starts ends : List Int) (axes steps : Option (List Int)) (x x' y y' : List Nat) (h : Fits x x')
    (hs : ∀ j a k, (axesNeg2Pos x.length (axes.getD ((List.range x.length).map Int.ofNat)))[j]? = some a → normIndex x.length a = .ok k →
      Steady (x.getD k 0) (x'.getD k 0) (starts.getD j 0) (ends.getD j 0) ((steps.getD (List.replicate starts.length 1)).getD j 0))
    (hy : sliceShape x starts ends axes steps = .ok y) (hy' : sliceShape x' starts ends axes steps = .ok y') : Fits y y' := slice_rises h hs hy hy'

/-- **C116, Reshape** to a given target, copied dimensions and a `-1` included, of a tensor without empty dimensions. -/
theorem C116_reshape (target : List Int) (x x' : List Nat) (y y' : List Int) (h : Fits x x') (hx : ∀ d ∈ x, 0 < d) (hy : reshapeShape x target = .ok y)
    (hy' : reshapeShape x' target = .ok y') : Fits y y' := reshape_rises h hx hy hy'

/-- **C116, TopK** with a given `k`. -/
theorem C116_topk (axis : Option Int) (k : Nat) (x x' y y' : List Nat) (a a' : Option Int) (h : Fits x x') (hy : topkShape axis x k = .ok (a, y))
    (hy' : topkShape axis x' k = .ok (a', y')) : Fits y y' := by
  unfold topkShape at hy hy'
  rw [← h.length] at hy'
  split at hy
  · cases hy
  · rename_i b hb
    rw [hb] at hy'
    simp only [Except.ok.injEq, Prod.mk.injEq] at hy hy'
    rw [← hy.2, ← hy'.2]
    generalize axesNeg2Pos x.length [b] = q
    clear hy hy' hb
    have key : ∀ (f : Nat → Nat → Nat), (∀ i d d', d ≤ d' → f i d ≤ f i d') → Fits (x.mapIdx f) (x'.mapIdx f) := by
      induction h with
      | nil => intro f _; exact Fits.nil
      | cons hab _ ih =>
        intro f hf
        rw [List.mapIdx_cons, List.mapIdx_cons]
        exact Fits.cons (hf 0 _ _ hab) (ih (fun i => f (i + 1)) fun i => hf (i + 1))
    refine key _ fun i d d' hd => ?_
    split
    · exact le_refl _
    · exact hd

/-! ### nodes -/

private theorem concrete_fits {a b : List Int} (h : Fits a b) : ∀ {u v : List Nat}, concrete (a.map Dim.num) = some u → concrete (b.map Dim.num) = some v → Fits u v := by
  induction h with
  | nil => intro u v hu hv; cases hu; cases hv; exact Fits.nil
  | @cons x y a b hxy _ ih =>
    intro u v hu hv
    simp only [List.map_cons, concrete] at hu hv
    split at hu
    · cases hu
    · split at hv
      · cases hv
      · cases hc : concrete (a.map Dim.num) with
        | none => rw [hc] at hu; cases hu
        | some u' =>
          cases hd : concrete (b.map Dim.num) with
          | none => rw [hd] at hv; cases hv
          | some v' =>
            rw [hc] at hu; rw [hd] at hv
            cases hu; cases hv
            exact Fits.cons (by omega) (ih hc hd)

private theorem shapesOf_fits (G G' : String → Seen Int) : ∀ (l : List String) (ss ss' : List (List Nat)), (∀ t ∈ l, DimsFit (G t).shape (G' t).shape) →
    shapesOf (l.map G) = some ss → shapesOf (l.map G') = some ss' → List.Forall₂ Fits ss ss'
  | [], ss, ss', _, h, h' => by cases h; cases h'; exact List.Forall₂.nil
  | t :: l, ss, ss', hl, h, h' => by
    simp only [List.map_cons, shapesOf] at h h'
    obtain ⟨a, b, e1, e2, hab⟩ := hl t List.mem_cons_self
    rw [e1] at h
    rw [e2] at h'
    split at h
    · rename_i s q hs hq
      split at h'
      · rename_i s' q' hs' hq'
        cases h; cases h'
        exact List.Forall₂.cons (concrete_fits hab hs hs') (shapesOf_fits G G' l _ _ (fun t ht => hl t (List.mem_cons_of_mem _ ht)) hq hq')
      · cases h'
    · cases h

private theorem shapesOf_at (G : String → Seen Int) : ∀ (l : List String) (ss : List (List Nat)), shapesOf (l.map G) = some ss → ∀ i : Nat, 
    ss[i]? = (l[i]?).bind fun t => concrete (G t).shape
  | [], ss, h, i => by cases h; simp
  | t :: l, ss, h, i => by
    simp only [List.map_cons, shapesOf] at h
    split at h
    · rename_i s q hs hq
      cases h
      cases i with
      | zero => simp [hs]
      | succ i => simp only [List.getElem?_cons_succ]; exact shapesOf_at G l q hq i
    · cases h

private theorem toDims_fit {a b : List Int} (h : Fits a b) : DimsFit (a.map Dim.num) (b.map Dim.num) := ⟨a, b, rfl, rfl, h⟩

/-- **C116, nodes.** A node that computes the shape of its output from the shapes of its operands by a rising function is a rising node. -/
theorem C116_by_shape (run : Run Int) (value : Bool) (R : Roles) (n : Node) (f : List (List Nat) → Except PyErr (List Int))
    (hf : RisesBut (fun i => ∃ t, n.input[i]? = some t ∧ R.fixed t) f)
    (hrun : ∀ ins outs, run value n ins outs = byShape f ins) (hs : ∀ o ∈ n.output, ¬ R.sizes o) : RisingNode run value R n := by
  intro G G' hG us us' h h' i o u u' ho hu hu'
  rw [hrun] at h h'
  unfold byShape at h h'
  split at h
  · cases h
  · rename_i ss hss
    split at h'
    · cases h'
    · rename_i ss' hss'
      split at h
      · cases h
      · rename_i y hy
        split at h'
        · cases h'
        · rename_i y' hy'
          have hfit := hf ss ss' y y' (shapesOf_fits G G' n.input ss ss' (fun t ht => (hG t ht).shape) hss hss') (fun i hi => by
            obtain ⟨t, ht, hfx⟩ := hi
            rw [shapesOf_at G _ _ hss, shapesOf_at G' _ _ hss', ht]
            simp only [Option.bind_some]
            rw [(hG t (List.mem_of_getElem? ht)).same hfx]) hy hy'
          refine ⟨?_, fun hso => absurd hso (hs o (List.mem_of_getElem? ho))⟩
          cases h; cases h'
          cases i with
          | succ i => simp at hu
          | zero =>
            simp only [List.getElem?_cons_zero, Option.some.injEq] at hu hu'
            rw [← hu, ← hu']
            exact toDims_fit hfit

/-- **C116, Shape.** The node that reads a tensor's shape as a value rises, and its value stands for sizes. -/
theorem C116_shape (value : Bool) (R : Roles) (name x : String) (outs : List String) (run : Run Int)
    (hrun : ∀ ins outs', run value ⟨name, "Shape", [x], outs⟩ ins outs' = shapeOf ins) : RisingNode run value R ⟨name, "Shape", [x], outs⟩ := by
  intro G G' hG us us' h h' i o u u' hi hu hu'
  rw [hrun] at h h'
  simp only [List.map_cons, List.map_nil] at h h'
  have hx := (hG x (by simp)).shape
  unfold shapeOf at h h'
  obtain ⟨a, b, e1, e2, hab⟩ := hx
  simp only [e1] at h
  simp only [e2] at h'
  split at h
  · rename_i s hs
    split at h'
    · rename_i s' hs'
      have hfit := concrete_fits hab hs hs'
      cases h; cases h'
      cases i with
      | succ i => simp at hu
      | zero =>
        simp only [List.getElem?_cons_zero, Option.some.injEq] at hu hu'
        rw [← hu, ← hu']
        refine ⟨⟨[(s.length : Int)], [(s'.length : Int)], rfl, rfl, ?_⟩, fun _ => ⟨_, _, rfl, rfl, ?_, ?_⟩⟩
        · rw [hfit.length]; exact Fits.cons (le_refl _) Fits.nil
        · simp [hfit.length]
        · simp only [List.forall₂_map_left_iff, List.forall₂_map_right_iff]
          exact hfit.imp fun _ _ h => by exact_mod_cast h
    · cases h'
  · cases h

/-! The hypotheses of the operator theorems are met: -/

/-- a slice that drops the last two elements, in two sizes -/
example : Steady 7 9 0 (-2) 1 ∧ sliceShape [7] [0] [-2] (some [0]) none = .ok [5] ∧ sliceShape [9] [0] [-2] (some [0]) none = .ok [7] :=
  ⟨Or.inl (by decide), rfl, rfl⟩
/-- a reversed axis, `x[::-1]` -/
example : Steady 7 9 (-1) (-100) (-1) ∧ sliceShape [7] [-1] [-100] (some [0]) (some [-1]) = .ok [7] := ⟨Or.inr (by decide), rfl⟩
example : reshapeShape [2, 3, 4] [0, -1] = .ok [2, 12] ∧ reshapeShape [2, 5, 4] [0, -1] = .ok [2, 20] := ⟨rfl, rfl⟩
example : splitShape [6, 2] (some (-2)) (some [2, 4]) 2 = .ok [[2, 2], [4, 2]] ∧ splitShape [6, 5] (some (-2)) (some [2, 4]) 2 = .ok [[2, 5], [4, 5]] := ⟨rfl, rfl⟩
example : broadcastShape [[4, 1], [1, 3]] = .ok [4, 3] ∧ broadcastShape [[4, 2], [1, 1]] = .ok [4, 2] := ⟨rfl, rfl⟩
example : convShape padded [1, 3, 8, 8] [5, 3, 3, 3] = .ok [1, 5, 8, 8] ∧ poolShape halved [1, 3, 9, 8] = .ok [1, 3, 4, 4] := ⟨rfl, rfl⟩
example : concatShape 1 [[2, 3], [2, 4]] = .ok [2, 7] ∧ transposeShape (some [1, 0]) [2, 3] = .ok [3, 2] := ⟨rfl, rfl⟩

/-! ### where it fails -/

/-- **C116, finding: Slice.** The slice `x[-3:2]` gets smaller while the axis grows. -/
theorem C116_slice_falls : sliceShape [3] [-3] [2] (some [0]) none = .ok [2] ∧ sliceShape [4] [-3] [2] (some [0]) none = .ok [1] ∧
    sliceShape [5] [-3] [2] (some [0]) none = .ok [0] := ⟨rfl, rfl, rfl⟩

/-- **C116, finding: uneven Split.** Without sizes the last of three parts has 2 of 6 elements, but 1 of 7. -/
theorem C116_split_falls : splitShape [6] (some 0) none 3 = .ok [[2], [2], [2]] ∧ splitShape [7] (some 0) none 3 = .ok [[3], [3], [1]] := ⟨rfl, rfl⟩

/-- **C116, finding: `_max_shape`.** The operators that take the largest operand's shape instead of broadcasting (PRelu, Sum, …) do not rise dimension by
dimension: a longer second operand shrinks the last dimension. -/
theorem C116_largest_operand_falls : maxShape [[1, 8], [4, 1]] = .ok [1, 8] ∧ maxShape [[1, 8], [9, 1]] = .ok [9, 1] := ⟨rfl, rfl⟩

/-- the slice `x[-300:200]`, then Relu -/
private def cutGraph : Graph :=
  { nodemap := [⟨"cut", "Slice", ["x"], ["t"]⟩, ⟨"relu", "Relu", ["t"], ["y"]⟩], input := ["x"], output := ["y"],
    dynamics := ["x", "t", "y"], producedby := [("t", ["cut"]), ("y", ["relu"])], consumedby := [("x", ["cut"]), ("t", ["relu"])] }

private def cutTensors : TMap Int := fun _ => { shape := [], dtype := "f" }

/-- **C116, finding: the pool.** An engine for vectors of 300 to 450 elements with the slice `x[-300:200]`: the pool is planned for 450 elements, where the slice
has 50; for 300 elements it has 200, and asking the pool for it raises ValueError. -/
theorem C116_slice_pool_counterexample :
    ∃ cg m e, RangePool.poolOfEngine 10 cutGraph [] (fun _ => 4) 4 (inferShapes blockRun cutGraph [] cutTensors) [("x", [.var "n"])] [("n", 300, 450)] = .ok (cg, m, e) ∧
      ((inferShapes blockRun cutGraph [] cutTensors) (Regress.inputsAt [("x", [.var "n"])] fun _ => 300)).toOption.map (fun s => s "t") = some [200] ∧
      Pool.get m "t" (some [200]) = .error .valueError := by
  refine ⟨_, _, _, rfl, rfl, rfl⟩

/-! ### a network that meets the hypotheses -/

/-- `MaxPool(Relu(Conv(x, w)) + x)` -/
private def residual : Graph :=
  { nodemap := [⟨"conv", "Conv", ["x", "w"], ["c"]⟩, ⟨"relu", "Relu", ["c"], ["r"]⟩, ⟨"add", "Add", ["r", "x"], ["a"]⟩, ⟨"pool", "MaxPool", ["a"], ["y"]⟩],
    input := ["x"], output := ["y"], initials := ["w"], dynamics := ["x", "c", "r", "a", "y"],
    producedby := [("c", ["conv"]), ("r", ["relu"]), ("a", ["add"]), ("y", ["pool"])],
    consumedby := [("x", ["conv", "add"]), ("w", ["conv"]), ("c", ["relu"]), ("r", ["add"]), ("a", ["pool"])] }

private def residualTensors : TMap Int := fun t =>
  if t = "w" then { shape := [.num 3, .num 3, .num 3, .num 3], dtype := "f" } else { shape := [], dtype := "f" }

private theorem byShape_local (n : Node) (y : String) (hy : n.output = [y]) (f : List (List Nat) → Except PyErr (List Int))
    (hrun : ∀ ins outs, blockRun false n ins outs = byShape f ins) : Local blockRun false n where
  count := by
    intro ins outs us h
    rw [hrun] at h
    unfold byShape at h
    split at h
    · cases h
    · split at h
      · cases h
      · cases h; rw [hy]; rfl
  shapes := by
    intro _ G G' us hsh _ h
    rw [hrun] at h
    have e : ∀ l : List String, (∀ t ∈ l, (G t).shape = (G' t).shape) → shapesOf (l.map G) = shapesOf (l.map G') := by
      intro l
      induction l with
      | nil => intro _; rfl
      | cons t l ih =>
        intro hl
        simp only [List.map_cons, shapesOf]
        rw [hl t List.mem_cons_self, ih fun q hq => hl q (List.mem_cons_of_mem _ hq)]
    unfold byShape at h
    rw [e _ hsh] at h
    split at h
    · cases h
    · rename_i ss hss
      split at h
      · cases h
      · rename_i s hs
        cases h
        refine ⟨[.shape (s.map Dim.num) ((n.input.map G').head?.map (·.dtype))], ?_, rfl⟩
        rw [hrun]
        unfold byShape
        rw [hss]
        simp only [hs]
  values := by intro h; cases h

private theorem one_rises {P : Nat → Prop} {f : List Int → Except PyErr (List Int)} (hf : Rises f) : RisesBut P fun ss : List (List Nat) => match ss with
    | [x] => f (x.map Int.ofNat)
    | _ => .error .indexError := by
  intro xs xs' y y' h _ hy hy'
  cases h with
  | nil => cases hy
  | cons h1 h2 =>
    cases h2 with
    | nil =>
      refine hf _ _ _ _ ?_ hy hy'
      unfold Fits at h1 ⊢
      simp only [List.forall₂_map_left_iff, List.forall₂_map_right_iff]
      exact h1.imp fun _ _ h => Int.ofNat_le.mpr h
    | cons _ _ => cases hy

private theorem toInt_fits {x x' : List Nat} (h : Fits x x') : Fits (x.map Int.ofNat) (x'.map Int.ofNat) := by
  unfold Fits at h ⊢
  simp only [List.forall₂_map_left_iff, List.forall₂_map_right_iff]
  exact h.imp fun _ _ h => Int.ofNat_le.mpr h

/-- **C116, non-vacuity.** The residual block is a network of rising nodes. -/
theorem C116_residual_rising : Rising blockRun residual [] ⟨fun _ => False, fun t => t = "w"⟩ where
  computed := by intro _ _ _ _ h; exact h.elim
  given := by
    rintro t rfl n hn
    have : ∀ n ∈ residual.nodemap, "w" ∉ n.output := by decide
    exact this n hn
  nodes := by
    intro n hn
    simp only [residual, List.mem_cons, List.not_mem_nil, or_false] at hn
    rcases hn with rfl | rfl | rfl | rfl
    · refine C116_by_shape blockRun false _ _ _ ?_ (fun _ _ => rfl) (fun _ _ h => h)
      intro xs xs' y y' h hw hy hy'
      cases h with
      | nil => cases hy
      | cons h1 h =>
        cases h with
        | nil => cases hy
        | @cons w w' _ _ h2 h =>
          cases h with
          | cons _ _ => cases hy
          | nil =>
            have := hw 1 ⟨"w", rfl, rfl⟩
            simp only [List.getElem?_cons_succ, List.getElem?_cons_zero, Option.some.injEq] at this
            subst this
            exact C116_conv padded (by decide) _ _ _ _ _ (toInt_fits h1) hy hy'
    · exact C116_by_shape blockRun false _ _ _ (one_rises (f := fun x => .ok x) (by intro x x' y y' h hy hy'; cases hy; cases hy'; exact h)) (fun _ _ => rfl)
        (fun _ _ h => h)
    · refine C116_by_shape blockRun false _ _ _ ?_ (fun _ _ => rfl) (fun _ _ h => h)
      intro xs xs' y y' h _ hy hy'
      simp only at hy hy'
      cases hb : broadcastShape xs with
      | error e => rw [hb] at hy; cases hy
      | ok s =>
        cases hb' : broadcastShape xs' with
        | error e => rw [hb'] at hy'; cases hy'
        | ok s' =>
          rw [hb] at hy; rw [hb'] at hy'
          cases hy; cases hy'
          exact toInt_fits (C116_broadcast xs xs' s s' h hb hb')
    · exact C116_by_shape blockRun false _ _ _ (one_rises (C116_pooling halved (by decide))) (fun _ _ => rfl) (fun _ _ h => h)

theorem C116_residual_wellFormed : WellFormed blockRun residual [] where
  names := by decide
  once := by decide
  topo := by decide
  initials := by
    intro t ht n hn
    have : ∀ n ∈ residual.nodemap, ∀ t ∈ residual.initials, t ∉ n.output := by decide
    exact this n hn t ht
  inputs := by
    intro t ht n hn
    have : ∀ n ∈ residual.nodemap, ∀ t ∈ residual.input, t ∉ n.output := by decide
    exact this n hn t ht
  marks := ⟨[], by
    intro t
    rw [← List.mem_flatMap, show residual.nodemap.flatMap ShapeCalc.shapeInputs = [] from by decide], rfl⟩
  reads := by
    intro n hn
    simp only [residual, List.mem_cons, List.not_mem_nil, or_false] at hn
    rcases hn with rfl | rfl | rfl | rfl
    · exact byShape_local _ "c" rfl _ fun _ _ => rfl
    · exact byShape_local _ "r" rfl _ fun _ _ => rfl
    · exact byShape_local _ "a" rfl _ fun _ _ => rfl
    · exact byShape_local _ "y" rfl _ fun _ _ => rfl

private def imageDims : Dict (List Dim) := [("x", [.num 1, .num 3, .var "h", .var "w"])]
private def imageSizes : Regress.Range := [("h", 8, 64), ("w", 8, 64)]

/-- **C116, non-vacuity.** The engine for the residual block on images of 8..64 by 8..64 is created, and its pool serves every size of every planned tensor. -/
theorem C116_residual_pool : ∃ cg m e, RangePool.poolOfEngine 10 residual [] (fun _ => 4) 4 (inferShapes blockRun residual [] residualTensors) imageDims imageSizes = .ok (cg, m, e) ∧
    (m.plan.map (·.1)).length = 5 ∧
    ∀ t, m.plan.has t = true → RangePool.Serves (inferShapes blockRun residual [] residualTensors) imageDims imageSizes m t := by
  have hok : (RangePool.poolOfEngine 10 residual [] (fun _ => 4) 4 (inferShapes blockRun residual [] residualTensors) imageDims imageSizes).toOption.map
      (fun r => (r.2.1.plan.map (·.1)).length) = some 5 := by decide +kernel
  cases h : RangePool.poolOfEngine 10 residual [] (fun _ => 4) 4 (inferShapes blockRun residual [] residualTensors) imageDims imageSizes with
  | error e => rw [h] at hok; cases hok
  | ok r =>
    obtain ⟨cg, m, e⟩ := r
    rw [h] at hok
    refine ⟨cg, m, e, rfl, Option.some.inj hok, fun t ht => ?_⟩
    refine C116_pool blockRun residual [] ⟨fun _ => False, fun t => t = "w"⟩ C116_residual_wellFormed C116_residual_rising residualTensors imageDims imageSizes
      ⟨by decide, by decide, by decide, ?_⟩ ?_ ?_ 10 (fun _ => 4) 4 cg m e h (by decide) (by decide) t (by decide) ht
    · intro p hp v hv
      simp only [imageDims, List.mem_singleton] at hp
      subst hp
      simpa [imageSizes] using hv
    · intro t ht
      simp only [imageDims, List.map_cons, List.map_nil, List.mem_singleton] at ht
      subst ht
      exact ⟨fun h => h, by decide⟩
    · intro t _ _
      refine ⟨?_, fun _ => rfl, fun h => h.elim⟩
      show DimsFit (residualTensors t).shape (residualTensors t).shape
      unfold residualTensors
      split
      · exact ⟨[3, 3, 3, 3], [3, 3, 3, 3], rfl, rfl, Fits.refl _⟩
      · exact ⟨[], [], rfl, rfl, Fits.nil⟩

end OnnxTool.Props
