import Verif.Model.Preload
import Verif.Spec.Preload
import Mathlib.Tactic.Ring
/-!
# C60: constants reach the kernels with the right layout
-/
namespace OnnxTool.Props
open OnnxTool OnnxTool.Torch OnnxTool.Preload Finset

/-- What the constructor loads: initializers, names updated from the checkpoint, and static tensors without embedded data. -/
def Loadable {V : Type} (s : Setup V) (w : String) : Prop := w ∈ s.initials ∨ w ∈ s.updated ∨ s.statics.get? w = some none

theorem loadable {V : Type} {s : Setup V} {w : String} (h : Loadable s w) : s.loaded w = true := by
  rcases h with h | h | h <;> simp [Setup.loaded, h]

section
variable {F : Type} [CommRing F]

theorem matmulKernel_spec (lead : List Nat) (k n : Nat) (x w : Tensor F) (b : Option (Tensor F)) (hx : x.shape = lead ++ [k]) (hw : w.shape = [k, n])
    (hb : ∀ b', b = some b' → b'.shape = [n]) : ∃ y, matmulKernel x w b = .ok y ∧ IsMatMul lead k n x w b y := by
  have hm : matmul x w = .ok ⟨lead ++ [n], fun idx => ∑ j ∈ range k, x.at (idx.dropLast ++ [j]) * w.at [j, idx.getLastD 0]⟩ := by
    simp [matmul, hw, hx]
  unfold matmulKernel
  rw [hm]
  cases b with
  | none =>
    refine ⟨_, rfl, rfl, ?_⟩
    intro i hi j hj
    simp [biasAt]
  | some b =>
    have hs := hb b rfl
    have hc : canExpand b.shape (lead ++ [n]) = true := by
      rw [hs]
      simp [canExpand]
    simp only [addTo, hc, if_true]
    refine ⟨_, rfl, rfl, ?_⟩
    intro i hi j hj
    have : bcastIdx b.shape (i ++ [j]) = [j] := by
      rw [hs]
      by_cases hn : n = 1
      · have : j = 0 := by omega
        simp [bcastIdx, hn, this]
      · simp [bcastIdx, hn]
    simp [biasAt, this]

theorem gemmKernel_spec (alpha beta : F) (transA : Bool) (m k n : Nat) (a b : Tensor F) (c : Option (Tensor F))
    (ha : a.shape = if transA then [k, m] else [m, k]) (hb : b.shape = [k, n]) (hc : GemmBiasOk c m n) :
    ∃ y, gemmKernel alpha beta transA a b c = .ok y ∧ IsGemm alpha beta transA false m k n a b c y := by
  have ha' : (if transA = true then a.T else a).shape = [m, k] := by
    cases transA
    · simpa using ha
    · simp only [if_true] at ha ⊢; simp [Tensor.T, ha]
  have hat : ∀ i l, (if transA = true then a.T else a).at [i, l] = if transA = true then a.at [l, i] else a.at [i, l] := by
    intro i l; cases transA <;> rfl
  have hm : matmul (if transA = true then a.T else a) b =
      .ok ⟨[m, n], fun idx => ∑ j ∈ range k, (if transA = true then a.T else a).at (idx.dropLast ++ [j]) * b.at [j, idx.getLastD 0]⟩ := by
    simp [matmul, hb, ha']
  unfold gemmKernel
  simp only [ha', hm, List.length_cons, List.length_nil, Nat.reduceAdd, if_true]
  cases c with
  | none =>
    refine ⟨_, rfl, rfl, ?_⟩
    intro i hi j hj
    simp [gemmBias, hat, mul_comm]
  | some c =>
    rcases hc c rfl with h | ⟨d, h, hd⟩ | ⟨d, e, h, hd, he⟩
    · have hce : canExpand c.shape [m, n] = true := by rw [h]; rfl
      simp only [addTo, hce, if_true]
      refine ⟨_, rfl, rfl, ?_⟩
      intro i hi j hj
      simp [gemmBias, hat, h, bcastIdx, mul_comm]
    · have hce : canExpand c.shape [m, n] = true := by rw [h]; simpa [canExpand] using hd
      simp only [addTo, hce, if_true]
      refine ⟨_, rfl, rfl, ?_⟩
      intro i hi j hj
      simp [gemmBias, hat, h, bcastIdx, mul_comm]
    · have hce : canExpand c.shape [m, n] = true := by rw [h]; simpa [canExpand] using ⟨hd, he⟩
      simp only [addTo, hce, if_true]
      refine ⟨_, rfl, rfl, ?_⟩
      intro i hi j hj
      simp [gemmBias, hat, h, bcastIdx, mul_comm]

/-- **C60 (part), projections from a checkpoint.** Every MatMul node whose weight is found in the checkpoint - under its own name, or through the
name map - computes the checkpoint's linear layer, if the first node that reads the weight is a MatMul; the bias vector is used unchanged. -/
theorem C60_checkpoint_linear_partial (s : Setup F) (w : String) (W : Tensor F) (lead : List Nat) (k n : Nat) (x : Tensor F) (b : Option (Tensor F))
    (ck : Dict (Tensor F)) (hck : s.checkpoint = some ck)
    (hW : ck.get? w = some W ∨ ck.get? w = none ∧ ∃ w', s.weightMap.get? w = some w' ∧ ck.get? w' = some W)
    (hl : Loadable s w) (hs : W.shape = [n, k]) (first : ∃ m, s.consumer w = some m ∧ m.op = "MatMul")
    (hx : x.shape = lead ++ [k]) (hb : ∀ b', b = some b' → b'.shape = [n]) :
    ∃ C, s.constant w = some C ∧ ∃ y, matmulKernel x C b = .ok y ∧ IsLinear lead k n x W b y := by
  obtain ⟨m, hm, hop⟩ := first
  have hsrc : s.source w = some W := by
    unfold Setup.source
    rw [hck]
    rcases hW with h | ⟨h1, w', h2, h3⟩
    · simp [h]
    · simp [h1, h2, h3]
  refine ⟨W.T, ?_, ?_⟩
  · simp [Setup.constant, loadable hl, hsrc, hm, preprocess, transposed, hop, hs]
  · obtain ⟨y, hy, h⟩ := matmulKernel_spec lead k n x W.T b hx (by simp [Tensor.T, hs]) hb
    exact ⟨y, hy, h.shape, fun i hi j hj => h.value i hi j hj⟩

/-- **C60 (part), Gemm.** Every Gemm node whose second operand is a constant computes ONNX Gemm on the stored value (from whichever source),
if the first node that reads the constant is a Gemm with the same `transB`. -/
theorem C60_gemm_partial (s : Setup F) (w : String) (W : Tensor F) (alpha beta : F) (transA transB : Bool) (m k n : Nat) (a : Tensor F)
    (c : Option (Tensor F)) (hsrc : s.source w = some W) (hl : Loadable s w)
    (first : ∃ f, s.consumer w = some f ∧ f.op = "Gemm" ∧ f.transB = transB)
    (ha : a.shape = if transA then [k, m] else [m, k]) (hs : W.shape = if transB then [n, k] else [k, n]) (hc : GemmBiasOk c m n) :
    ∃ C, s.constant w = some C ∧ ∃ y, gemmKernel alpha beta transA a C c = .ok y ∧ IsGemm alpha beta transA transB m k n a W c y := by
  obtain ⟨f, hf, hop, ht⟩ := first
  cases transB
  · refine ⟨W, by simp [Setup.constant, loadable hl, hsrc, hf, preprocess, transposed, hop, ht], ?_⟩
    exact gemmKernel_spec alpha beta transA m k n a W c ha (by simpa using hs) hc
  · simp only [if_true] at hs
    refine ⟨W.T, by simp [Setup.constant, loadable hl, hsrc, hf, preprocess, transposed, hop, ht], ?_⟩
    obtain ⟨y, hy, h⟩ := gemmKernel_spec alpha beta transA m k n a W.T c ha (by simp [Tensor.T, hs]) hc
    exact ⟨y, hy, h.shape, fun i hi j hj => h.value i hi j hj⟩

omit [CommRing F] in
/-- **C60 (part), everything else.** A constant first read by any operator other than MatMul and a transposing Gemm - embedding tables, norm
scales, biases, slice bounds - has exactly its stored value; so has any vector or scalar. -/
theorem C60_other_constants_partial (s : Setup F) (w : String) (W : Tensor F) (hsrc : s.source w = some W) (hl : Loadable s w)
    (first : (∀ f, s.consumer w = some f → f.op ≠ "MatMul" ∧ ¬ (f.op = "Gemm" ∧ f.transB = true)) ∨ W.shape.length ≤ 1) :
    ∃ C, s.constant w = some C ∧ C.Same W := by
  have hT : W.shape.length ≤ 1 → W.T.Same W := by
    intro h
    have rev : ∀ l : List Nat, l.length ≤ 1 → l.reverse = l := by
      intro l hl
      rcases l with _ | ⟨a, _ | ⟨b, l⟩⟩
      · rfl
      · rfl
      · simp at hl
    refine ⟨rev _ h, fun idx hidx => ?_⟩
    have inb : ∀ (s idx : List Nat), InB s idx → idx.length = s.length := by
      intro s
      induction s with
      | nil => intro idx h; cases idx with
        | nil => rfl
        | cons _ _ => exact h.elim
      | cons d s ih => intro idx h; cases idx with
        | nil => exact h.elim
        | cons i idx => simp [ih idx h.2]
    show W.at idx.reverse = W.at idx
    rw [rev idx (by have := inb _ _ hidx; simp only [Tensor.T, List.length_reverse] at this; omega)]
  cases hf : s.consumer w with
  | none =>
    exact ⟨W, by simp [Setup.constant, loadable hl, hsrc, hf, transposed], rfl, fun _ _ => rfl⟩
  | some f =>
    have hc : s.constant w = some (preprocess f (transposed f.op W)) := by simp [Setup.constant, loadable hl, hsrc, hf]
    rcases first with h | h
    · obtain ⟨h1, h2⟩ := h f hf
      exact ⟨W, by rw [hc]; simp [preprocess, transposed, h1, h2], rfl, fun _ _ => rfl⟩
    · have ht : transposed f.op W = W := by
        unfold transposed
        rw [if_neg]
        omega
      rw [ht] at hc
      by_cases hg : f.op = "Gemm" ∧ f.transB = true
      · exact ⟨W.T, by rw [hc]; simp [preprocess, hg], hT h⟩
      · exact ⟨W, by rw [hc]; simp only [preprocess, if_neg hg], rfl, fun _ _ => rfl⟩

omit [CommRing F] in
/-- Constants that are not loaded have no value for the kernels: static tensors with data that are not initializers (the results of
`Constant` nodes when constant folding is off). -/
theorem C60_not_loaded (s : Setup F) (w : String) (hi : w ∉ s.initials) (hu : w ∉ s.updated) (W : Tensor F) (hd : s.statics.get? w = some (some W)) :
    s.constant w = none := by
  have : s.loaded w = false := by simp [Setup.loaded, hi, hu, hd]
  simp [Setup.constant, this]

/-! ### Where the full property fails -/

/-- **Embedded MatMul weights are transposed.** A matrix stored in the ONNX file (input × output features, no checkpoint) and first read by a
MatMul is handed to the kernel transposed: for unequal sizes the kernel raises, for equal sizes it multiplies with the transposed matrix. -/
theorem C60_embedded_matmul_transposed (s : Setup F) (w : String) (W : Tensor F) (lead : List Nat) (k n : Nat) (x : Tensor F)
    (hck : s.checkpoint = none) (hd : s.statics.get? w = some (some W)) (hi : w ∈ s.initials) (hs : W.shape = [k, n])
    (first : ∃ m, s.consumer w = some m ∧ m.op = "MatMul") (hx : x.shape = lead ++ [k]) :
    ∃ C, s.constant w = some C ∧ (k ≠ n → matmulKernel x C none = .error .runtimeError) ∧
      (k = n → ∃ y, matmulKernel x C none = .ok y ∧ IsMatMul lead k n x W.T none y) := by
  obtain ⟨m, hm, hop⟩ := first
  have hsrc : s.source w = some W := by simp [Setup.source, hck, hd]
  have hl : Loadable s w := .inl hi
  refine ⟨W.T, by simp [Setup.constant, loadable hl, hsrc, hm, preprocess, transposed, hop, hs], ?_, ?_⟩
  · intro hne
    have : matmul x W.T = .error .runtimeError := by simp [matmul, Tensor.T, hs, hx, hne]
    simp only [matmulKernel, this]
  · rintro rfl
    exact matmulKernel_spec lead k k x W.T none hx (by simp [Tensor.T, hs]) (by simp)

end

/-- a matrix of integers -/
def mat (rows : List (List Int)) : Tensor Int := ⟨[rows.length, (rows.headD []).length], fun idx => (rows.getD (idx.getD 0 0) []).getD (idx.getD 1 0) 0⟩

/-- ...silently wrong numbers: `[[1, 0]] · [[1, 2], [3, 4]]` gives 1 and 3 instead of 1 and 2. -/
theorem C60_embedded_matmul_wrong :
    let s : Setup Int := { nodes := [⟨"MatMul", false, ["x", "w"]⟩], initials := ["w"], statics := [("w", some (mat [[1, 2], [3, 4]]))] }
    ((s.constant "w").bind fun C => (matmulKernel (mat [[1, 0]]) C none).toOption.map Tensor.flat) = some [1, 3] ∧
    (matmulKernel (mat [[1, 0]]) (mat [[1, 2], [3, 4]]) none).toOption.map Tensor.flat = some [1, 2] := by decide

/-- **`transB` with a computed second operand is ignored**: no constant, so no preprocessing, and the kernel does not look at the attribute. -/
theorem C60_dynamic_transB_wrong :
    (gemmKernel 1 0 false (mat [[1, 0]]) (mat [[1, 2], [3, 4]]) none).toOption.map Tensor.flat = some [1, 2] ∧
    ¬ ∃ y, gemmKernel 1 0 false (mat [[1, 0]]) (mat [[1, 2], [3, 4]]) none = .ok y ∧
      IsGemm 1 0 false true 1 2 2 (mat [[1, 0]]) (mat [[1, 2], [3, 4]]) none y := by
  refine ⟨by decide, ?_⟩
  rintro ⟨y, hy, h⟩
  have h2 : (gemmKernel 1 0 false (mat [[1, 0]]) (mat [[1, 2], [3, 4]]) none).toOption.map (fun y => y.at [0, 1]) = some 2 := by decide
  rw [hy] at h2
  have := h.value 0 (by omega) 1 (by omega)
  simp only [Except.toOption, Option.map_some, Option.some.injEq] at h2
  rw [h2] at this
  revert this
  decide

/-- **Shared constants.** The first reader decides for all: with tied embeddings (a Gather first) the output projection gets the table
untransposed and raises. -/
theorem C60_tied_embedding_raises :
    let s : Setup Int :=
      { nodes := [⟨"Gather", false, ["w", "ids"]⟩, ⟨"MatMul", false, ["x", "w"]⟩]
        updated := ["w"]
        checkpoint := some [("w", mat [[1, 2], [3, 4], [5, 6]])] }
    (s.constant "w").map (fun C => (matmulKernel (mat [[1, 0]]) C none).toOption.isSome) = some false := by decide

/-- A checkpoint projection that meets the hypotheses of `C60_checkpoint_linear_partial`: weight found through the name map, with bias. -/
theorem C60_checkpoint_example :
    let s : Setup Int :=
      { nodes := [⟨"Gather", false, ["e", "ids"]⟩, ⟨"MatMul", false, ["x", "w", "b"]⟩]
        updated := ["w", "b"]
        checkpoint := some [("h.0.w", mat [[1, 2], [3, 4], [5, 6]]), ("b", ⟨[3], fun idx => 10 * idx.getD 0 0⟩)]
        weightMap := [("w", "h.0.w")] }
    (s.constant "w").bind (fun C => (matmulKernel (mat [[1, 1]]) C (s.constant "b")).toOption.map Tensor.flat) = some [3, 17, 31] := by decide

/-- A Gemm that meets the hypotheses of `C60_gemm_partial`: embedded weight, `transB`, scaled, with a bias vector. -/
theorem C60_gemm_example :
    let s : Setup Int :=
      { nodes := [⟨"Gemm", true, ["a", "b", "c"]⟩]
        initials := ["b", "c"]
        statics := [("b", some (mat [[1, 2], [3, 4], [5, 6]])), ("c", some ⟨[3], fun idx => 10 * idx.getD 0 0⟩)] }
    (s.constant "b").bind (fun C => (gemmKernel 2 1 false (mat [[1, 1]]) C (s.constant "c")).toOption.map Tensor.flat) = some [6, 24, 42] := by decide

/-- **A matrix as third operand of a transposing Gemm** is transposed as well. -/
theorem C60_gemm_bias_transposed :
    let s : Setup Int := { nodes := [⟨"Gemm", true, ["a", "b", "c"]⟩], initials := ["c"], statics := [("c", some (mat [[1, 2], [3, 4]]))] }
    (s.constant "c").map Tensor.flat = some [1, 3, 2, 4] := by decide

end OnnxTool.Props
