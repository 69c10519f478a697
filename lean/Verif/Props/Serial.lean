import Verif.Proofs.Serial
/-! # C29 (shape-engine file), C30 (memory-plan file), C31 (graph file)

`rdEngine`, `rdMemory` and `rdGraph` are readers of the format, written independently of the writer (`Verif/Spec/Serial.lean`). -/
namespace OnnxTool.Props
open OnnxTool OnnxTool.Engine OnnxTool.Serial

/-! ## C29 -/

/-- names without NUL, dimensions in 32 bits, coefficients a single-precision float can hold, lengths in 31 bits -/
structure EngineInDomain (g : Engine) : Prop where
  vars : ∀ v ∈ g.variables.keys, NulFree v
  desc : ∀ p ∈ g.tensorDesc, NulFree p.1 ∧ p.2.length < 2 ^ 31 ∧ ∀ d ∈ p.2,
    (∀ v, d = Dim.var v → NulFree v) ∧ (∀ i, d = Dim.num i → -(2 ^ 31) ≤ i ∧ i < 2 ^ 31)
  expr : ∀ p ∈ g.exprs, NulFree p.1 ∧ NulFree p.2.1 ∧ Single p.2.2.alpha ∧ Single p.2.2.beta
  nvars : g.variables.keys.length < 2 ^ 31
  ndesc : g.tensorDesc.length < 2 ^ 31
  nexpr : g.exprs.length < 2 ^ 31

theorem serializeEngine_read {g : Engine} {b : Bytes} (rest : Bytes) (hv : ∀ v ∈ g.variables.keys, NulFree v)
    (hd : ∀ p ∈ g.tensorDesc, NulFree p.1 ∧ ∀ d ∈ p.2, ∀ v, d = Dim.var v → NulFree v)
    (he : ∀ p ∈ g.exprs, NulFree p.1 ∧ NulFree p.2.1 ∧ Single p.2.2.alpha ∧ Single p.2.2.beta)
    (h : serializeEngine g = .ok b) : rdEngine (b ++ rest) = some (((g.variables.keys, g.tensorDesc), g.exprs), rest) := by
  unfold serializeEngine at h
  obtain ⟨a, ha, h⟩ := bind_ok h
  obtain ⟨c, hc, h⟩ := bind_ok h
  obtain ⟨d, hd', h⟩ := bind_ok h
  cases h
  unfold rdEngine
  simp only [List.append_assoc]
  have h2 := rt_list rt_desc (n := 4) (by omega) _ c (d ++ rest) hd hc
  have h3 := rt_list rt_exprEntry (n := 4) (by omega) _ d rest he hd'
  simp only [List.map_id] at h2 h3
  exact rdPair_of (rdPair_of (rt_strs (by omega) hv ha) h2) h3

theorem fits4 {i : Int} (h : -(2 ^ 31) ≤ i ∧ i < 2 ^ 31) : Fits 4 i := by unfold Fits; simp; omega

/-- **C29.** For every engine in the domain the writer returns, and the reader recovers the variables, the tensor descriptions
and the expressions from the bytes. -/
theorem C29_roundtrip (g : Engine) (h : EngineInDomain g) :
    ∃ b, serializeEngine g = .ok b ∧ rdEngine b = some (((g.variables.keys, g.tensorDesc), g.exprs), []) := by
  have e1 : ∃ b, encList 4 encName g.variables.keys = .ok b :=
    encList_ok.mpr ⟨fits4 (by have := h.nvars; omega), fun x _ => ⟨_, rfl⟩⟩
  have e2 : ∃ b, encList 4 encDesc g.tensorDesc = .ok b := by
    refine encList_ok.mpr ⟨fits4 (by have := h.ndesc; omega), fun p hp => ?_⟩
    obtain ⟨_, hl, hx⟩ := h.desc p hp
    have : ∃ b, encList 4 encDim p.2 = .ok b := by
      refine encList_ok.mpr ⟨fits4 (by omega), fun d hd => ?_⟩
      cases d with
      | num i =>
        obtain ⟨b1, h1⟩ := encInt_ok.mpr (show Fits 4 0 from fits4 (by omega))
        obtain ⟨b2, h2⟩ := encInt_ok.mpr (fits4 ((hx _ hd).2 i rfl))
        simp only [encDim]; rw [h1, h2]; exact ⟨_, rfl⟩
      | var v =>
        obtain ⟨b1, h1⟩ := encInt_ok.mpr (show Fits 4 2 from fits4 (by omega))
        simp only [encDim]; rw [h1]; exact ⟨_, rfl⟩
    obtain ⟨b, hb⟩ := this
    unfold encDesc; rw [hb]; exact ⟨_, rfl⟩
  have e3 : ∃ b, encList 4 encExprEntry g.exprs = .ok b := by
    refine encList_ok.mpr ⟨fits4 (by have := h.nexpr; omega), fun p hp => ?_⟩
    obtain ⟨_, _, ha, hb⟩ := h.expr p hp
    obtain ⟨b1, h1, -⟩ := f32_exact ha
    obtain ⟨b2, h2, -⟩ := f32_exact hb
    have hbool : ∀ v : Bool, ∃ b, encInt 4 (if v then 1 else 0) = .ok b := fun v => encInt_ok.mpr (fits4 (by cases v <;> decide))
    obtain ⟨b3, h3⟩ := hbool p.2.2.factor
    obtain ⟨b4, h4⟩ := hbool p.2.2.truncmode
    have : ∃ b, encExpr p.2.2 = .ok b := by
      unfold encExpr encF32Int; rw [h1, h2, h3, h4]; exact ⟨_, rfl⟩
    obtain ⟨b, hb⟩ := this
    unfold encExprEntry; rw [hb]; exact ⟨_, rfl⟩
  obtain ⟨b1, h1⟩ := e1
  obtain ⟨b2, h2⟩ := e2
  obtain ⟨b3, h3⟩ := e3
  have hs : serializeEngine g = .ok (b1 ++ b2 ++ b3) := by unfold serializeEngine; rw [h1, h2, h3]; rfl
  refine ⟨_, hs, ?_⟩
  have := serializeEngine_read [] h.vars (fun p hp => ⟨(h.desc p hp).1, fun d hd => ((h.desc p hp).2.2 d hd).1⟩) h.expr hs
  simpa using this

/-- **C29, uniqueness.** Two engines in the domain written as the same bytes have the same contents. -/
theorem C29_injective (g g' : Engine) (h : EngineInDomain g) (h' : EngineInDomain g') (e : serializeEngine g = serializeEngine g') :
    g.variables.keys = g'.variables.keys ∧ g.tensorDesc = g'.tensorDesc ∧ g.exprs = g'.exprs := by
  obtain ⟨b, h1, h2⟩ := C29_roundtrip g h
  obtain ⟨b', h1', h2'⟩ := C29_roundtrip g' h'
  rw [h1, h1'] at e
  injection e with e
  subst e
  rw [h2] at h2'
  simp only [Option.some.injEq, Prod.mk.injEq] at h2'
  exact ⟨h2'.1.1.1, h2'.1.1.2, h2'.1.2⟩

def sampleEngine : Engine :=
  { variables := [("w", 3), ("h", 4)], tensorDesc := [("x", [.num 1, .var "w", .var "h"]), ("y", [.num (-1)])],
    exprs := [("v0", ("w", { alpha := 2, beta := -1, factor := true, truncmode := true }))] }

example : EngineInDomain sampleEngine where
  vars := by decide
  desc := by
    simp only [sampleEngine, List.mem_cons, List.not_mem_nil, or_false, forall_eq_or_imp, forall_eq]
    refine ⟨⟨by decide, by decide, ⟨by simp, by simp⟩, ⟨?_, by simp⟩, ?_, by simp⟩, by decide, by decide, by simp, by simp⟩
    · intro v hv; injection hv with hv; subst hv; decide
    · intro v hv; injection hv with hv; subst hv; decide
  expr := by
    simp only [sampleEngine, List.mem_cons, List.not_mem_nil, or_false, forall_eq]
    exact ⟨by decide, by decide, ⟨2, 0, by decide, by decide, rfl⟩, 1, 0, by decide, by decide, rfl⟩
  nvars := by decide
  ndesc := by decide
  nexpr := by decide

/-- **C29, limit (finding).** A coefficient of more than 24 bits is stored as a rounded float: `2^24 + 1` and `2^24` are written as the
same bytes, so the two engines cannot be told apart although every integer fits 32 bits. -/
theorem C29_large_coefficient_lost :
    encExpr { alpha := 2 ^ 24 + 1, beta := 0 } = encExpr { alpha := 2 ^ 24, beta := 0 } := rfl

/-- **C29, large coefficients.** A coefficient below `2^127` is read back with a relative error of at most `2^-24`. -/
theorem C29_coefficient_error (x : Int) (h : x.natAbs < 2 ^ 127) (rest : Bytes) :
    ∃ b y, encF32Int x = .ok b ∧ rdF32Int (b ++ rest) = some (y, rest) ∧ 2 ^ 24 * (y - x).natAbs ≤ x.natAbs := by
  obtain ⟨bits, h1, h2, h3⟩ := f32_error h
  refine ⟨leBytes 4 bits, intOfF32 (bits % 256 ^ 4), ?_, ?_, ?_⟩
  · unfold encF32Int; rw [h1]; rfl
  · unfold rdF32Int
    rw [rdMap_of (rdBytes_append' (leBytes_length 4 bits)), leNat_leBytes]
  · rw [Nat.mod_eq_of_lt (by simpa using h3)]; exact h2

example : (2 ^ 24 + 1 : Int).natAbs < 2 ^ 127 := by decide

/-- **C29, exactly when.** A coefficient is read back as it was if and only if single precision holds it (24 significant bits, exponent at most 104). -/
theorem C29_coefficient_iff (x : Int) (rest : Bytes) : (∃ b, encF32Int x = .ok b ∧ rdF32Int (b ++ rest) = some (x, rest)) ↔ Single x := by
  constructor
  · rintro ⟨b, h1, h2⟩
    unfold encF32Int at h1
    obtain ⟨bits, h3, h4⟩ := bind_ok h1
    cases h4
    unfold rdF32Int at h2
    rw [rdMap_of (rdBytes_append' (leBytes_length 4 bits)), leNat_leBytes] at h2
    have hb : bits < 256 ^ 4 := by
      unfold f32OfInt at h3
      split at h3
      · injection h3 with h3; subst h3; decide
      · rename_i h0
        have := f32Parts_range h0
        split at h3
        · cases h3
        · injection h3 with h3
          have hs : (if x < 0 then 1 else 0 : Nat) ≤ 1 := by split <;> omega
          generalize (if x < 0 then 1 else 0 : Nat) = s at *
          generalize (f32Parts x.natAbs).1 = k at *
          generalize (f32Parts x.natAbs).2 = m at *
          subst h3
          omega
    rw [Nat.mod_eq_of_lt hb] at h2
    simp only [Option.some.injEq, Prod.mk.injEq, and_true] at h2
    rw [← h2]
    exact f32_image h3
  · intro h
    obtain ⟨bits, h1, _, _⟩ := f32_exact h
    have he : encF32Int x = .ok (leBytes 4 bits) := by unfold encF32Int; rw [h1]; rfl
    exact ⟨_, he, rt_f32 x _ rest h he⟩

example : Single (2 ^ 31 - 128) ∧ Single (-(2 ^ 31)) := ⟨⟨2 ^ 24 - 1, 7, by decide, by decide, by decide⟩, 1, 31, by decide, by decide, by decide⟩

/-- **C29, overflow.** A dimension outside the signed 32-bit range makes the writer raise. -/
theorem C29_dim_overflow (i : Int) (h : i < -(2 ^ 31) ∨ 2 ^ 31 ≤ i) : encDim (.num i) = .error .overflow := by
  have : ¬ Fits 4 i := by unfold Fits; simp; omega
  obtain ⟨b1, h1⟩ := encInt_ok.mpr (show Fits 4 0 from fits4 (by omega))
  simp only [encDim]; rw [h1, encInt_err this]; rfl

example : (2 : Int) ^ 31 ≤ 2 ^ 31 := by decide

/-! ## C30 -/

/-- fits a signed 64-bit integer -/
def In64 (i : Int) : Prop := -(2 ^ 63) ≤ i ∧ i < 2 ^ 63

theorem fits8 {i : Int} : Fits 8 i ↔ In64 i := by unfold Fits In64; simp

/-- **C30, reading.** Whatever bytes the writer returned, the reader recovers the pool size, every block and the maximum shapes,
provided no name contains a NUL. -/
theorem C30_roundtrip (blocks : Dict (Int × Int)) (size : Int) (maxShape : Dict Int) (b : Bytes) (hb : ∀ p ∈ blocks, NulFree p.1)
    (hm : ∀ p ∈ maxShape, NulFree p.1) (h : serializeMemory blocks size maxShape = .ok b) :
    rdMemory b = some (((size, blocks), maxShape), []) := by
  unfold serializeMemory at h
  obtain ⟨a, ha, h⟩ := bind_ok h
  obtain ⟨c, hc, h⟩ := bind_ok h
  obtain ⟨d, hd, h⟩ := bind_ok h
  cases h
  unfold rdMemory
  have h2 := rt_list rt_block (n := 8) (by omega) _ c (d ++ []) hb hc
  have h3 := rt_list rt_namedInt (n := 8) (by omega) _ d [] hm hd
  simp only [List.map_id] at h2 h3
  have := rdPair_of (rdPair_of (rt_int (n := 8) (by omega) size a (c ++ (d ++ [])) trivial ha) h2) h3
  simpa using this

/-- **C30, when the writer returns.** Exactly when every number fits a signed 64-bit integer. -/
theorem C30_returns_iff (blocks : Dict (Int × Int)) (size : Int) (maxShape : Dict Int) :
    (∃ b, serializeMemory blocks size maxShape = .ok b) ↔
      In64 size ∧ In64 blocks.length ∧ (∀ p ∈ blocks, In64 p.2.1 ∧ In64 p.2.2) ∧ In64 maxShape.length ∧ ∀ p ∈ maxShape, In64 p.2 := by
  have h1 := @encInt_ok 8 size
  have h2 := @encList_ok _ 8 encBlock blocks
  have h3 := @encList_ok _ 8 encNamedInt maxShape
  simp only [encBlock_ok, encNamedInt_ok, fits8] at h1 h2 h3
  constructor
  · rintro ⟨b, h⟩
    unfold serializeMemory at h
    obtain ⟨a, ha, h⟩ := bind_ok h
    obtain ⟨c, hc, h⟩ := bind_ok h
    obtain ⟨d, hd, h⟩ := bind_ok h
    exact ⟨h1.mp ⟨a, ha⟩, (h2.mp ⟨c, hc⟩).1, (h2.mp ⟨c, hc⟩).2, (h3.mp ⟨d, hd⟩).1, (h3.mp ⟨d, hd⟩).2⟩
  · rintro ⟨a, b, c, d, e⟩
    obtain ⟨b1, e1⟩ := h1.mpr a
    obtain ⟨b2, e2⟩ := h2.mpr ⟨b, c⟩
    obtain ⟨b3, e3⟩ := h3.mpr ⟨d, e⟩
    unfold serializeMemory; rw [e1, e2, e3]; exact ⟨_, rfl⟩

/-- **C30, uniqueness.** Two plans with NUL-free names written as the same bytes are equal. -/
theorem C30_injective (blocks blocks' : Dict (Int × Int)) (size size' : Int) (ms ms' : Dict Int) (b : Bytes)
    (hb : ∀ p ∈ blocks, NulFree p.1) (hm : ∀ p ∈ ms, NulFree p.1) (hb' : ∀ p ∈ blocks', NulFree p.1) (hm' : ∀ p ∈ ms', NulFree p.1)
    (h : serializeMemory blocks size ms = .ok b) (h' : serializeMemory blocks' size' ms' = .ok b) :
    size = size' ∧ blocks = blocks' ∧ ms = ms' := by
  have e1 := C30_roundtrip blocks size ms b hb hm h
  have e2 := C30_roundtrip blocks' size' ms' b hb' hm' h'
  rw [e1] at e2
  simp only [Option.some.injEq, Prod.mk.injEq] at e2
  exact ⟨e2.1.1.1, e2.1.1.2, e2.1.2⟩

/-- The hypotheses are met: a plan of two blocks. -/
example : ∃ b, serializeMemory [("a", (0, 64)), ("b", (64, 128))] 192 [("w", 640)] = .ok b ∧
    rdMemory b = some (((192, [("a", (0, 64)), ("b", (64, 128))]), [("w", 640)]), []) := by
  obtain ⟨b, hb⟩ := (C30_returns_iff [("a", (0, 64)), ("b", (64, 128))] 192 [("w", 640)]).mpr (by unfold In64; decide)
  exact ⟨b, hb, C30_roundtrip _ _ _ b (by decide) (by decide) hb⟩

/-- **C30, names with a NUL (finding).** A name that already contains a NUL is not terminated, and two different plans (with different
tensor names and offsets) are written as the same bytes. -/
theorem C30_nul_name_ambiguous :
    (serializeMemory [("a\x00b", (0, 0x61 * 2 ^ 56)), ("c", (1, 2))] 0 []).toOption =
      (serializeMemory [("a", (0x62, 0)), ("ac", (1, 2))] 0 []).toOption ∧
    (serializeMemory [("a", (0x62, 0)), ("ac", (1, 2))] 0 []).toOption ≠ none := by
  decide

/-! ## C31 -/

/-- **C31.** For every graph whose names contain no NUL, whose attributes are non-empty lists of integers, of floats or of NUL-free
strings (or single such values), and whose arrays hold as many bytes as their shapes say, whatever bytes the writer returned the
reader recovers: every node with name, operator, inputs, outputs and attribute values, and every initializer. -/
theorem C31_roundtrip (nodes : List SNode) (initials : List (String × NDArray)) (b : Bytes) (hn : ∀ n ∈ nodes, n.Supported)
    (hi : ∀ p ∈ initials, NulFree p.1 ∧ p.2.WF) (h : serializeGraph nodes initials = .ok b) :
    rdGraph b = some ((nodes.map SNode.view, initials), []) := by
  unfold serializeGraph at h
  obtain ⟨a, ha, h⟩ := bind_ok h
  obtain ⟨c, hc, h⟩ := bind_ok h
  cases h
  unfold rdGraph
  have h1 := rt_list rt_node (n := 4) (by omega) _ a (c ++ []) hn ha
  have h2 := rt_list rt_initial (n := 4) (by omega) _ c [] hi hc
  simp only [List.map_id] at h2
  have := rdPair_of h1 h2
  simpa using this

/-- the integers of a node fit 32 bits and its lists 31 bits -/
def SNode.Small (n : SNode) : Prop :=
  n.input.length < 2 ^ 31 ∧ n.output.length < 2 ^ 31 ∧ n.attr.length < 2 ^ 31 ∧
    ∀ p ∈ n.attr, p.2.vals.length < 2 ^ 31 ∧ ∀ i, AVal.int i ∈ p.2.vals → -(2 ^ 31) ≤ i ∧ i < 2 ^ 31

theorem encVal_ok {v : AVal} (h : ∀ i, v = AVal.int i → -(2 ^ 31) ≤ i ∧ i < 2 ^ 31) : ∃ b, encVal v = .ok b := by
  cases v with
  | int i => exact encInt_ok.mpr (fits4 (h i rfl))
  | str s => exact ⟨_, rfl⟩
  | bytes s => exact ⟨_, rfl⟩
  | float s => exact ⟨_, rfl⟩
  | other s => exact ⟨_, rfl⟩

theorem encTag_ok (v : AVal) : ∃ b, encTag v = .ok b := by
  cases v with
  | int i => exact encInt_ok.mpr (fits4 (by omega))
  | str s => exact encInt_ok.mpr (fits4 (by omega))
  | bytes s => exact encInt_ok.mpr (fits4 (by omega))
  | float s => exact encInt_ok.mpr (fits4 (by omega))
  | other s => exact ⟨_, rfl⟩

/-- **C31, the writer returns** for graphs in the domain whose integers fit 32 bits and whose element types are supported. -/
theorem C31_returns (nodes : List SNode) (initials : List (String × NDArray)) (hn : ∀ n ∈ nodes, n.Supported)
    (hs : ∀ n ∈ nodes, SNode.Small n) (hl : nodes.length < 2 ^ 31) (hli : initials.length < 2 ^ 31)
    (hi : ∀ p ∈ initials, p.2.dtype ≠ .other ∧ p.2.shape.length < 2 ^ 31 ∧ ∀ d ∈ p.2.shape, d < 2 ^ 31) :
    ∃ b, serializeGraph nodes initials = .ok b := by
  have e1 : ∃ b, encList 4 encNode nodes = .ok b := by
    refine encList_ok.mpr ⟨fits4 (by omega), fun n hn' => ?_⟩
    obtain ⟨s1, s2, s3, s4⟩ := hs n hn'
    obtain ⟨b1, h1⟩ : ∃ b, encList 4 encName n.input = .ok b := encList_ok.mpr ⟨fits4 (by omega), fun x _ => ⟨_, rfl⟩⟩
    obtain ⟨b2, h2⟩ : ∃ b, encList 4 encName n.output = .ok b := encList_ok.mpr ⟨fits4 (by omega), fun x _ => ⟨_, rfl⟩⟩
    obtain ⟨b3, h3⟩ : ∃ b, encList 4 encAttrEntry n.attr = .ok b := by
      refine encList_ok.mpr ⟨fits4 (by omega), fun p hp => ?_⟩
      have : ∃ b, encAttr p.2 = .ok b := by
        obtain ⟨l, hint⟩ := s4 p hp
        have hne := ((hn n hn').2.2.2.2 p hp).2.1
        rw [encAttr_vals]
        generalize p.2.vals = vs at *
        cases vs with
        | nil => exact absurd rfl hne
        | cons v vs =>
          obtain ⟨c1, k1⟩ := encInt_ok.mpr (show Fits 4 (v :: vs).length from fits4 (by omega))
          obtain ⟨c2, k2⟩ := encTag_ok v
          obtain ⟨c3, k3⟩ : ∃ b, encAll encVal (v :: vs) = .ok b :=
            encAll_ok.mpr fun x hx => encVal_ok fun i e => hint i (e ▸ hx)
          refine ⟨c1 ++ c2 ++ c3, ?_⟩
          show (encInt 4 _ >>= _) = _
          rw [k1]
          show (encTag v >>= _) = _
          rw [k2]
          show (encAll encVal (v :: vs) >>= _) = _
          rw [k3]
          rfl
      obtain ⟨b, hb⟩ := this
      unfold encAttrEntry; rw [hb]; exact ⟨_, rfl⟩
    unfold encNode; rw [h1, h2, h3]; exact ⟨_, rfl⟩
  have e2 : ∃ b, encList 4 encInitial initials = .ok b := by
    refine encList_ok.mpr ⟨fits4 (by omega), fun p hp => ?_⟩
    obtain ⟨hd, hl, hsh⟩ := hi p hp
    obtain ⟨c, hc, hcf⟩ : ∃ c, p.2.dtype.code = .ok c ∧ Fits 4 c := by
      cases h : p.2.dtype <;> first | exact absurd h hd | exact ⟨_, rfl, fits4 (by omega)⟩
    obtain ⟨c1, k1⟩ := encInt_ok.mpr hcf
    obtain ⟨c2, k2⟩ : ∃ b, encList 4 (fun d : Nat => encInt 4 (d : Int)) p.2.shape = .ok b := by
      refine encList_ok.mpr ⟨fits4 (by omega), fun d hd => encInt_ok.mpr (fits4 ?_)⟩
      have := hsh d hd
      omega
    have : ∃ b, encArray p.2 = .ok b := by
      unfold encArray
      rw [bind_eq hc, bind_eq k1, bind_eq k2]
      exact ⟨_, rfl⟩
    obtain ⟨b, hb⟩ := this
    unfold encInitial; rw [hb]; exact ⟨_, rfl⟩
  obtain ⟨b1, h1⟩ := e1
  obtain ⟨b2, h2⟩ := e2
  unfold serializeGraph; rw [h1, h2]; exact ⟨_, rfl⟩

/-- **C31, uniqueness.** Two graphs in the domain written as the same bytes have the same nodes (up to the reader's view of attributes)
and the same initializers. -/
theorem C31_injective (n n' : List SNode) (i i' : List (String × NDArray)) (b : Bytes) (hn : ∀ x ∈ n, x.Supported)
    (hi : ∀ p ∈ i, NulFree p.1 ∧ p.2.WF) (hn' : ∀ x ∈ n', x.Supported) (hi' : ∀ p ∈ i', NulFree p.1 ∧ p.2.WF)
    (h : serializeGraph n i = .ok b) (h' : serializeGraph n' i' = .ok b) : n.map SNode.view = n'.map SNode.view ∧ i = i' := by
  have e1 := C31_roundtrip n i b hn hi h
  have e2 := C31_roundtrip n' i' b hn' hi' h'
  rw [e1] at e2
  simp only [Option.some.injEq, Prod.mk.injEq] at e2
  exact e2.1

def sampleNode : SNode :=
  { name := "conv0", opType := "Conv", input := ["x", "w"], output := ["y"],
    attr := [("pads", .many [.int 1, .int (-1)]), ("alpha", .one (.float 1065353216)), ("auto_pad", .one (.bytes [78, 79]))] }

example : sampleNode.Supported ∧ SNode.Small sampleNode := by
  refine ⟨⟨by decide, by decide, by decide, by decide, ?_⟩,
    by decide, by decide, by decide, ?_⟩
  · simp only [sampleNode, List.mem_cons, List.not_mem_nil, or_false, forall_eq_or_imp, forall_eq, Attr.Supported, Attr.vals]
    refine ⟨⟨by decide, by simp, Or.inl ⟨⟨1, rfl⟩, ⟨-1, rfl⟩⟩⟩, ⟨by decide, by simp, Or.inr (Or.inl ⟨_, rfl, by decide⟩)⟩,
      by decide, by simp, Or.inr (Or.inr (Or.inr ⟨_, rfl, by decide⟩))⟩
  · simp [sampleNode, Attr.vals]

example : (⟨.int8, [2, 3], [1, 2, 3, 4, 5, 6]⟩ : NDArray).WF := by unfold NDArray.WF; decide

/-- **C31, limits (finding): tensor attributes.** An attribute value that is neither string, bytes, integer nor float (the `value` tensor of a
`Constant`, for example) writes nothing, so two graphs that differ in it are written as the same bytes. -/
theorem C31_other_attr_lost (k : String) (x y : Nat) : encAttrEntry (k, .one (.other x)) = encAttrEntry (k, .one (.other y)) := rfl

/-- **C31, limits (finding): empty lists.** A node with an empty-list attribute makes the writer raise `IndexError`. -/
theorem C31_empty_attr_raises (k : String) : encAttrEntry (k, .many []) = .error .indexError := rfl

/-- **C31, limits (finding): 64-bit attributes.** An integer attribute outside the 32-bit range (`INT64_MAX` is the usual "to the end" of
`Slice`) makes the writer raise. -/
theorem C31_int64_attr_raises (k : String) (i : Int) (h : i < -(2 ^ 31) ∨ 2 ^ 31 ≤ i) :
    encAttrEntry (k, .one (.int i)) = .error .overflow := by
  have hf : ¬ Fits 4 i := by unfold Fits; simp; omega
  obtain ⟨b1, h1⟩ := encInt_ok.mpr (show Fits 4 (([AVal.int i].length : Nat) : Int) from fits4 (by simp))
  obtain ⟨b2, h2⟩ := encTag_ok (.int i)
  have : encAttr (.one (.int i)) = .error .overflow := by
    rw [encAttr_vals]
    simp only [Attr.vals, h1, h2, bind, Except.bind, encAll, encVal, encInt_err hf]
  unfold encAttrEntry; rw [this]; rfl

/-- **C31, limits: a single value and a list of one** are written alike, and so are a string and its UTF-8 bytes. -/
theorem C31_scalar_list_alike (k : String) (v : AVal) : encAttrEntry (k, .one v) = encAttrEntry (k, .many [v]) := rfl

end OnnxTool.Props
