import Verif.Spec.DTypes
/-! Proofs about element types. -/
namespace OnnxTool.DTypes
open OnnxTool

theorem nth_nil (k : Nat) : nth [] k = none := by simp [nth]
theorem nth_zero (a : Known) (l : List Known) : nth (a :: l) 0 = a := by simp [nth]
theorem nth_succ (a : Known) (l : List Known) (k : Nat) : nth (a :: l) (k + 1) = nth l k := by simp [nth]

theorem nth_single {a : Known} {k : Nat} {t : DType} (h : nth [a] k = some t) : k = 0 ∧ a = some t := by
  cases k with
  | zero => exact ⟨rfl, by rwa [nth_zero] at h⟩
  | succ k => rw [nth_succ, nth_nil] at h; cases h

theorem nth_some {ins : List Known} {k : Nat} {t : DType} (h : nth ins k = some t) : ins[k]? = some (some t) := by
  unfold nth at h
  cases e : ins[k]? with
  | none => rw [e] at h; cases h
  | some a => rw [e] at h; simp at h; rw [h]

theorem inputAt_ok {ins : List Known} {k : Nat} {t : Known} (h : inputAt ins k = .ok t) : ins[k]? = some t := by
  unfold inputAt at h; split at h
  · rename_i e; cases h; exact e
  · cases h

theorem fromEnd_of {ins : List Known} {k i : Nat} {t : Known} (hl : ins.length = i + k) (h : ins[i]? = some t) : inputFromEnd ins k = .ok t := by
  have e : ins.length - k = i := by omega
  rw [inputFromEnd, if_pos (by omega), e, inputAt, h]

theorem give_ok {nout : Nat} {ts r : List Known} (h : give nout ts = .ok r) : r = ts ∧ ts.length ≤ nout := by
  unfold give at h; split at h
  · cases h; exact ⟨rfl, by assumption⟩
  · cases h

theorem typeWithCode_code {c : Nat} {t : DType} (h : typeWithCode c = some t) : code t = c := by
  have := List.find?_some h
  simpa using this

theorem typeWithCode_of (t : DType) : typeWithCode (code t) = some t := by cases t <;> decide

/-- the table of numpy types is the ONNX one without three types -/
theorem ofCode_iff {c : Nat} {t : DType} (h : typeWithCode c = some t) : ofCode c = some t ↔ t ≠ .uint32 ∧ t ≠ .uint64 ∧ t ≠ .bfloat16 := by
  have e := typeWithCode_code h
  subst e
  cases t <;> decide

theorem likeFirst_rule : ∀ op ∈ likeFirst, op ≠ "Round" → op ≠ "ReduceL2" → op ∉ reductions → ruleOf op = some (.input 0) := by decide
theorem likeFirst_reduce : ∀ op ∈ reductions, ruleOf op = some .reduce := by decide
theorem likeBool_rule : ∀ op ∈ likeBool, ruleOf op = some (.const .bool) := by decide
theorem likeInt64_rule : ∀ op ∈ likeInt64, ruleOf op = some (.const .int64) := by decide

theorem run_input {n : TNode} {ins : List Known} {nout k : Nat} {ts : List Known} (h : runRule n ins nout (.input k) = .ok ts) :
    ∃ t, ins[k]? = some t ∧ ts = [t] ∧ 1 ≤ nout := by
  simp only [runRule] at h
  split at h
  · rename_i t e
    obtain ⟨rfl, hl⟩ := give_ok h
    exact ⟨t, inputAt_ok e, rfl, hl⟩
  · cases h

/-- a rule that gives one known type to the first output -/
theorem one_iff {a : Known} {t : DType} {P : Prop} (hP : a = some t ↔ P) : ([a] : List Known)[0]? = some (some t) ↔ P := by
  simpa using hP

theorem sqrtSum_iff (t : DType) : npSqrtSum t = t ↔ isFloat t = true := by cases t <;> decide

/-- the operators a condition of `Reliable` speaks about -/
def special : List String :=
  ["Round", "CategoryMapper", "QLinearConv", "MaxPool", "BatchNormalization", "LayerNormalization", "ReduceMax", "ReduceMean", "ReduceMin", "ReduceProd",
   "ReduceSum", "Split", "Cast", "RandomUniformLike", "RandomNormalLike", "ReduceL2"]

theorem reliable_plain {n : TNode} {ins : List Known} {k : Nat} (h : n.op ∉ special) : Reliable n ins k := by
  simp only [special, List.mem_cons, List.not_mem_nil, or_false, not_or] at h
  obtain ⟨h1, h2, h3, h4, h5, h6, h7, h8, h9, h10, h11, h12, h13, h14, h15, h16⟩ := h
  constructor <;> simp_all

/-- the rule of an operator that has a single-output ONNX signature and gives the right type unconditionally -/
theorem single {n : TNode} {ins ts : List Known} {k : Nat} {t : DType} {a : Known} (hs : n.op ∉ special) (ht : nth [a] k = some t) (hts : ts = [a]) :
    ts[k]? = some (some t) ↔ Reliable n ins k := by
  obtain ⟨rfl, rfl⟩ := nth_single ht
  subst hts
  exact ⟨fun _ => reliable_plain hs, fun _ => rfl⟩

theorem input_single {n : TNode} {ins ts : List Known} {k i : Nat} {t : DType} (hs : n.op ∉ special) (ht : nth [nth ins i] k = some t)
    (h : runRule n ins n.outputs.length (.input i) = .ok ts) : ts[k]? = some (some t) ↔ Reliable n ins k := by
  obtain ⟨a, ha, rfl, -⟩ := run_input h
  refine single hs ht ?_
  have := nth_some (nth_single ht).2
  rw [ha] at this
  rw [(nth_single ht).2]
  simpa using this

theorem const_single {n : TNode} {ins ts : List Known} {k : Nat} {t c : DType} (hs : n.op ∉ special) (ht : nth [some c] k = some t)
    (h : runRule n ins n.outputs.length (.const c) = .ok ts) : ts[k]? = some (some t) ↔ Reliable n ins k := by
  simp only [runRule] at h
  obtain ⟨rfl, -⟩ := give_ok h
  exact single hs ht rfl

theorem likeFirst_case {n : TNode} {ins ts : List Known} {k : Nat} {t : DType} (hleg : Legal n ins) (hop : n.op ∈ likeFirst)
    (ht : nth [nth ins 0] k = some t) {r : Rule} (hr : ruleOf n.op = some r) (h : runRule n ins n.outputs.length r = .ok ts) :
    ts[k]? = some (some t) ↔ Reliable n ins k := by
  obtain ⟨hk, h0⟩ := nth_single ht
  have hi := nth_some h0
  by_cases h1 : n.op = "Round"
  · have e : ruleOf n.op = some (.const .bool) := by rw [h1]; decide
    rw [e] at hr; cases hr
    simp only [runRule] at h
    obtain ⟨rfl, -⟩ := give_ok h
    subst hk
    constructor
    · intro e2
      simp at e2
      exact absurd e2.symm (hleg.round h1 t h0)
    · intro hrel; exact absurd h1 hrel.round
  by_cases h2 : n.op = "ReduceL2"
  · have e : ruleOf n.op = some .sqrtSum := by rw [h2]; decide
    rw [e] at hr; cases hr
    simp only [runRule] at h
    have ei : inputAt ins 0 = .ok (some t) := by simp [inputAt, hi]
    rw [ei] at h
    obtain ⟨rfl, -⟩ := give_ok h
    subst hk
    have : (([Option.map npSqrtSum (some t)] : List Known)[0]? = some (some t)) ↔ isFloat t = true := by
      rw [← sqrtSum_iff]; simp
    rw [this]
    constructor
    · intro hf
      constructor <;> simp_all
    · intro hrel; exact hrel.l2 h2 t h0
  by_cases h3 : n.op ∈ reductions
  · have e := likeFirst_reduce _ h3
    rw [e] at hr; cases hr
    simp only [runRule] at h
    have hmem : n.op ∈ ["ReduceMax", "ReduceMean", "ReduceMin", "ReduceProd", "ReduceSum"] := by
      revert h3; generalize n.op = o; revert o; decide
    by_cases ha : n.hasAxes = true
    · rw [if_pos ha] at h
      have ei : inputAt ins 0 = .ok (some t) := by simp [inputAt, hi]
      rw [ei] at h
      obtain ⟨rfl, -⟩ := give_ok h
      subst hk
      have hne : n.op ∉ ["Round", "CategoryMapper", "QLinearConv", "MaxPool", "BatchNormalization", "LayerNormalization", "Split", "Cast",
          "RandomUniformLike", "RandomNormalLike", "ReduceL2"] := by
        revert hmem; generalize n.op = o; revert o; decide
      simp only [List.mem_cons, List.not_mem_nil, or_false, not_or] at hne
      obtain ⟨a1, a2, a3, a4, a5, a6, a7, a8, a9, a10, a11⟩ := hne
      refine ⟨fun _ => ?_, fun _ => rfl⟩
      exact ⟨a1, a2, fun c => absurd c a3, fun c => rfl, fun _ => ha, fun c => absurd c a7, fun c => absurd c a8, fun c => (by
        rcases c with c | c
        · exact absurd c a9
        · exact absurd c a10), fun c => absurd c a11⟩
    · rw [if_neg ha] at h
      cases h
      constructor
      · intro c; simp at c
      · intro hrel; exact absurd (hrel.axes hmem) ha
  · have e := likeFirst_rule _ hop h1 h2 h3
    rw [e] at hr; cases hr
    refine input_single ?_ ht h
    have : ∀ o ∈ likeFirst, o ≠ "Round" → o ≠ "ReduceL2" → o ∉ reductions → o ∉ special := by decide
    exact this _ hop h1 h2 h3

theorem not_special {n : TNode} {o : String} (h : n.op = o) (ho : o ∉ special) : n.op ∉ special := h ▸ ho

theorem input_case {n : TNode} {ins ts : List Known} {k i : Nat} {t : DType} {o : String} (ho : n.op = o) (hs : o ∉ special) (hro : ruleOf o = some (.input i))
    (ht : nth [nth ins i] k = some t) {r : Rule} (hr : ruleOf n.op = some r) (h : runRule n ins n.outputs.length r = .ok ts) :
    ts[k]? = some (some t) ↔ Reliable n ins k := by
  rw [ho, hro] at hr; cases hr
  exact input_single (not_special ho hs) ht h

theorem const_case {n : TNode} {ins ts : List Known} {k : Nat} {t c : DType} (hs : n.op ∉ special) (hro : ruleOf n.op = some (.const c))
    (ht : nth [some c] k = some t) {r : Rule} (hr : ruleOf n.op = some r) (h : runRule n ins n.outputs.length r = .ok ts) :
    ts[k]? = some (some t) ↔ Reliable n ins k := by
  rw [hro] at hr; cases hr
  exact const_single hs ht h

theorem conv_case {n : TNode} {ins ts : List Known} {k : Nat} {t : DType} (hleg : Legal n ins) (ho : n.op = "QLinearConv")
    (ht : nth [nth ins 7] k = some t) {r : Rule} (hr : ruleOf n.op = some r) (h : runRule n ins n.outputs.length r = .ok ts) :
    ts[k]? = some (some t) ↔ Reliable n ins k := by
  obtain ⟨rfl, h7⟩ := nth_single ht
  have e : ruleOf n.op = some (.fromEnd 2) := by rw [ho]; decide
  rw [e] at hr; cases hr
  obtain ⟨hl, hne⟩ := hleg.conv ho
  obtain ⟨s, hs⟩ := hleg.scales ho
  have i6 := nth_some hs
  have i7 := nth_some h7
  simp only [runRule] at h
  rcases hl with hl | hl
  · have ei : inputFromEnd ins 2 = .ok (some s) := fromEnd_of (i := 6) hl i6
    rw [ei] at h
    obtain ⟨rfl, -⟩ := give_ok h
    constructor
    · intro c; simp at c; exact absurd c (hne s t hs h7)
    · intro hrel; have := hrel.conv ho; omega
  · have ei : inputFromEnd ins 2 = .ok (some t) := fromEnd_of (i := 7) hl i7
    rw [ei] at h
    obtain ⟨rfl, -⟩ := give_ok h
    refine ⟨fun _ => ?_, fun _ => rfl⟩
    constructor <;> simp_all

theorem matmul_case {n : TNode} {ins ts : List Known} {k : Nat} {t : DType} (hleg : Legal n ins) (ho : n.op = "QLinearMatMul")
    (ht : nth [nth ins 7] k = some t) {r : Rule} (hr : ruleOf n.op = some r) (h : runRule n ins n.outputs.length r = .ok ts) :
    ts[k]? = some (some t) ↔ Reliable n ins k := by
  have e : ruleOf n.op = some (.fromEnd 1) := by rw [ho]; decide
  rw [e] at hr; cases hr
  have hl := hleg.matmul ho
  have i7 := nth_some (nth_single ht).2
  simp only [runRule] at h
  have ei : inputFromEnd ins 1 = .ok (some t) := fromEnd_of (i := 7) hl i7
  rw [ei] at h
  obtain ⟨rfl, -⟩ := give_ok h
  refine single (not_special ho (by decide)) ht ?_
  rw [(nth_single ht).2]

theorem split_case {n : TNode} {ins ts : List Known} {k : Nat} {t : DType} (ho : n.op = "Split")
    (ht : nth ins 0 = some t) {r : Rule} (hr : ruleOf n.op = some r) (h : runRule n ins n.outputs.length r = .ok ts) :
    ts[k]? = some (some t) ↔ Reliable n ins k := by
  have e : ruleOf n.op = some .split := by rw [ho]; decide
  rw [e] at hr; cases hr
  simp only [runRule] at h
  have ei : inputAt ins 0 = .ok (some t) := by simp [inputAt, nth_some ht]
  rw [ei] at h
  obtain ⟨rfl, -⟩ := give_ok h
  by_cases hk : k < n.pieces
  · refine ⟨fun _ => ?_, fun _ => ?_⟩
    · constructor <;> simp_all
    · rw [List.getElem?_replicate, if_pos hk]
  · refine ⟨fun c => ?_, fun hrel => absurd (hrel.pieces ho) hk⟩
    rw [List.getElem?_replicate, if_neg hk] at c; cases c

theorem lstm_case {n : TNode} {ins ts : List Known} {k : Nat} {t : DType} (ho : n.op = "LSTM") (hk : k < n.outputs.length)
    (ht : nth [nth ins 0, nth ins 0, nth ins 0] k = some t) {r : Rule} (hr : ruleOf n.op = some r) (h : runRule n ins n.outputs.length r = .ok ts) :
    ts[k]? = some (some t) ↔ Reliable n ins k := by
  have e : ruleOf n.op = some .lstm := by rw [ho]; decide
  rw [e] at hr; cases hr
  have h0 : k < 3 ∧ nth ins 0 = some t := by
    match k, ht with
    | 0, ht => exact ⟨by omega, ht⟩
    | 1, ht => exact ⟨by omega, ht⟩
    | 2, ht => exact ⟨by omega, ht⟩
    | k + 3, ht => rw [nth_succ, nth_succ, nth_succ, nth_nil] at ht; cases ht
  simp only [runRule] at h
  have ei : inputAt ins 0 = .ok (some t) := by simp [inputAt, nth_some h0.2]
  rw [ei] at h
  obtain ⟨rfl, -⟩ := give_ok h
  refine ⟨fun _ => reliable_plain (not_special ho (by decide)), fun _ => ?_⟩
  rw [List.getElem?_replicate, if_pos]
  split
  · exact h0.1
  · split <;> omega

theorem gru_case {n : TNode} {ins ts : List Known} {k : Nat} {t : DType} (ho : n.op = "GRU")
    (ht : nth [nth ins 0, nth ins 0] k = some t) {r : Rule} (hr : ruleOf n.op = some r) (h : runRule n ins n.outputs.length r = .ok ts) :
    ts[k]? = some (some t) ↔ Reliable n ins k := by
  have e : ruleOf n.op = some .gru := by rw [ho]; decide
  rw [e] at hr; cases hr
  have h0 : nth ins 0 = some t ∧ ∀ x : Known, ([x, x] : List Known)[k]? = some x := by
    match k, ht with
    | 0, ht => exact ⟨ht, fun _ => rfl⟩
    | 1, ht => exact ⟨ht, fun _ => rfl⟩
    | k + 2, ht => rw [nth_succ, nth_succ, nth_nil] at ht; cases ht
  simp only [runRule] at h
  have ei : inputAt ins 0 = .ok (some t) := by simp [inputAt, nth_some h0.1]
  rw [ei] at h
  obtain ⟨rfl, -⟩ := give_ok h
  exact ⟨fun _ => reliable_plain (not_special ho (by decide)), fun _ => h0.2 _⟩

theorem second_case {n : TNode} {ins ts : List Known} {k : Nat} {t s : DType} {o : String} (ho : n.op = o) (hs : o ∉ special) (hro : ruleOf o = some (.second s))
    (hout : n.outputs.length ≤ 2) (hk : k < n.outputs.length) (hi : ∃ x, nth ins 0 = some x)
    (ht : nth [nth ins 0, some s] k = some t) {r : Rule} (hr : ruleOf n.op = some r) (h : runRule n ins n.outputs.length r = .ok ts) :
    ts[k]? = some (some t) ↔ Reliable n ins k := by
  rw [ho, hro] at hr; cases hr
  obtain ⟨x, hx⟩ := hi
  simp only [runRule] at h
  have ei : inputAt ins 0 = .ok (some x) := by simp [inputAt, nth_some hx]
  rw [ei] at h
  refine ⟨fun _ => reliable_plain (not_special ho hs), fun _ => ?_⟩
  rw [hx] at ht
  simp only at h
  by_cases h2 : n.outputs.length = 2
  · rw [if_pos h2] at h
    cases h
    match k, ht with
    | 0, ht => rw [nth_zero] at ht; rw [← ht]; rfl
    | 1, ht => rw [nth_succ, nth_zero] at ht; rw [← ht]; rfl
    | k + 2, ht => rw [nth_succ, nth_succ, nth_nil] at ht; cases ht
  · rw [if_neg h2] at h
    obtain ⟨rfl, -⟩ := give_ok h
    have : k = 0 := by omega
    subst this
    rw [nth_zero] at ht; rw [← ht]; rfl

/-- MaxPool, BatchNormalization, LayerNormalization -/
theorem extra_case {n : TNode} {ins ts : List Known} {k : Nat} {t : DType} {more : List Known}
    (ho : n.op = "MaxPool" ∨ n.op = "BatchNormalization" ∨ n.op = "LayerNormalization")
    (ht : nth (nth ins 0 :: more) k = some t) {r : Rule} (hr : ruleOf n.op = some r) (h : runRule n ins n.outputs.length r = .ok ts) :
    ts[k]? = some (some t) ↔ Reliable n ins k := by
  have e : ruleOf n.op = some (.input 0) := by rcases ho with ho | ho | ho <;> rw [ho] <;> decide
  rw [e] at hr; cases hr
  obtain ⟨a, ha, rfl, -⟩ := run_input h
  cases k with
  | zero =>
    rw [nth_zero] at ht
    have := nth_some ht
    rw [ha] at this; cases this
    refine ⟨fun _ => ?_, fun _ => rfl⟩
    rcases ho with ho | ho | ho <;> constructor <;> simp_all
  | succ k =>
    refine ⟨fun c => by simp at c, fun hrel => ?_⟩
    have := hrel.extra ho
    omega

theorem cast_case {n : TNode} {ins ts : List Known} {k : Nat} {t : DType} (ho : n.op = "Cast")
    (ht : nth [n.castTo.bind typeWithCode] k = some t) {r : Rule} (hr : ruleOf n.op = some r) (h : runRule n ins n.outputs.length r = .ok ts) :
    ts[k]? = some (some t) ↔ Reliable n ins k := by
  have e : ruleOf n.op = some .cast := by rw [ho]; decide
  rw [e] at hr; cases hr
  obtain ⟨rfl, h0⟩ := nth_single ht
  cases hc : n.castTo with
  | none => rw [hc] at h0; cases h0
  | some c =>
    have ht2 : typeWithCode c = some t := by rw [hc] at h0; exact h0
    simp only [runRule, hc] at h
    obtain ⟨rfl, -⟩ := give_ok h
    have : ([ofCode c] : List Known)[0]? = some (some t) ↔ ofCode c = some t := by simp
    rw [this, ofCode_iff ht2]
    constructor
    · intro hu
      constructor <;> simp_all
    · intro hrel
      exact hrel.cast ho t h0

theorem like_case {n : TNode} {ins ts : List Known} {k : Nat} {t : DType} (ho : n.op = "RandomUniformLike" ∨ n.op = "RandomNormalLike")
    (ht : nth [match n.likeType with | some c => typeWithCode c | none => nth ins 0] k = some t) {r : Rule} (hr : ruleOf n.op = some r)
    (h : runRule n ins n.outputs.length r = .ok ts) :
    ts[k]? = some (some t) ↔ Reliable n ins k := by
  have e : ruleOf n.op = some .like := by rcases ho with ho | ho <;> rw [ho] <;> decide
  rw [e] at hr; cases hr
  obtain ⟨rfl, h0⟩ := nth_single ht
  cases hc : n.likeType with
  | none =>
    rw [hc] at h0
    simp only at h0
    simp only [runRule, hc] at h
    have ei : inputAt ins 0 = .ok (some t) := by simp [inputAt, nth_some h0]
    rw [ei] at h
    obtain ⟨rfl, -⟩ := give_ok h
    refine ⟨fun _ => ?_, fun _ => rfl⟩
    rcases ho with ho | ho <;> constructor <;> simp_all
  | some c =>
    have ht2 : typeWithCode c = some t := by rw [hc] at h0; exact h0
    simp only [runRule, hc] at h
    obtain ⟨rfl, -⟩ := give_ok h
    have : ([ofCode c] : List Known)[0]? = some (some t) ↔ ofCode c = some t := by simp
    rw [this, ofCode_iff ht2]
    constructor
    · intro hu
      have hl : n.op = "RandomUniformLike" ∨ n.op = "RandomNormalLike" → ∀ c t, n.likeType = some c → typeWithCode c = some t →
          t ≠ .uint32 ∧ t ≠ .uint64 ∧ t ≠ .bfloat16 := by
        intro _ c2 t2 e1 e2
        rw [hc] at e1; cases e1
        rw [ht2] at e2; cases e2
        exact hu
      rcases ho with ho | ho <;> refine ⟨?_, ?_, ?_, ?_, ?_, ?_, ?_, hl, ?_⟩ <;> simp [ho]
    · intro hrel
      exact hrel.like ho c t hc ht2

/-- **every operator**: an output gets the type ONNX gives it exactly if the node is reliable for this output -/
theorem effects_iff {n : TNode} {ins ts : List Known} {k : Nat} {t : DType} (hleg : Legal n ins) (hk : k < n.outputs.length)
    (hi : n.op = "TopK" ∨ n.op = "Dropout" → ∃ x, nth ins 0 = some x)
    (h : effects n ins = .ok ts) (ht : onnxType n ins k = some t) : ts[k]? = some (some t) ↔ Reliable n ins k := by
  unfold effects at h
  split at h
  · cases h
  split at h
  case h_2 => cases h
  rename_i r hr
  unfold onnxType at ht
  by_cases ho : n.op ∈ likeFirst
  · rw [if_pos ho] at ht
    exact likeFirst_case hleg ho ht hr h
  rw [if_neg ho] at ht
  by_cases ho : n.op ∈ likeBool
  · rw [if_pos ho] at ht
    have : ∀ o ∈ likeBool, o ∉ special := by decide
    exact const_case (this _ ho) (likeBool_rule _ ho) ht hr h
  rw [if_neg ho] at ht
  by_cases ho : n.op ∈ likeInt64
  · rw [if_pos ho] at ht
    have : ∀ o ∈ likeInt64, o ∉ special := by decide
    exact const_case (this _ ho) (likeInt64_rule _ ho) ht hr h
  rw [if_neg ho] at ht
  by_cases ho : n.op = "Where"
  · rw [if_pos ho] at ht
    exact input_case ho (by decide) (by decide) ht hr h
  rw [if_neg ho] at ht
  by_cases ho : n.op = "OneHot"
  · rw [if_pos ho] at ht
    exact input_case ho (by decide) (by decide) ht hr h
  rw [if_neg ho] at ht
  by_cases ho : n.op = "DequantizeLinear"
  · rw [if_pos ho] at ht
    exact input_case ho (by decide) (by decide) ht hr h
  rw [if_neg ho] at ht
  by_cases ho : n.op = "QuantizeLinear"
  · rw [if_pos ho] at ht
    have e : ruleOf n.op = some (.input 2) := by rw [ho]; decide
    by_cases h2 : ins.length = 2
    · rw [e] at hr; cases hr
      obtain ⟨a, ha, -, -⟩ := run_input h
      rw [List.getElem?_eq_none (by omega)] at ha; cases ha
    · rw [if_neg h2] at ht
      exact input_case ho (by decide) (by decide) ht hr h
  rw [if_neg ho] at ht
  by_cases ho : n.op = "QLinearConv"
  · rw [if_pos ho] at ht
    exact conv_case hleg ho ht hr h
  rw [if_neg ho] at ht
  by_cases ho : n.op = "QLinearMatMul"
  · rw [if_pos ho] at ht
    exact matmul_case hleg ho ht hr h
  rw [if_neg ho] at ht
  by_cases ho : n.op = "ConvInteger" ∨ n.op = "MatMulInteger"
  · rw [if_pos ho] at ht
    have hs : n.op ∉ special := by rcases ho with ho | ho <;> exact not_special ho (by decide)
    have hc : ruleOf n.op = some (.const .int32) := by rcases ho with ho | ho <;> rw [ho] <;> decide
    exact const_case hs hc ht hr h
  rw [if_neg ho] at ht
  by_cases ho : n.op = "Split"
  · rw [if_pos ho] at ht
    exact split_case ho ht hr h
  rw [if_neg ho] at ht
  by_cases ho : n.op = "LSTM"
  · rw [if_pos ho] at ht
    exact lstm_case ho hk ht hr h
  rw [if_neg ho] at ht
  by_cases ho : n.op = "GRU"
  · rw [if_pos ho] at ht
    exact gru_case ho ht hr h
  rw [if_neg ho] at ht
  by_cases ho : n.op = "TopK"
  · rw [if_pos ho] at ht
    exact second_case ho (by decide) (by decide) (hleg.dropout (.inr ho)) hk (hi (.inl ho)) ht hr h
  rw [if_neg ho] at ht
  by_cases ho : n.op = "MaxPool"
  · rw [if_pos ho] at ht
    exact extra_case (.inl ho) ht hr h
  rw [if_neg ho] at ht
  by_cases ho : n.op = "Dropout"
  · rw [if_pos ho] at ht
    exact second_case ho (by decide) (by decide) (hleg.dropout (.inl ho)) hk (hi (.inr ho)) ht hr h
  rw [if_neg ho] at ht
  by_cases ho : n.op = "BatchNormalization"
  · rw [if_pos ho] at ht
    exact extra_case (.inr (.inl ho)) ht hr h
  rw [if_neg ho] at ht
  by_cases ho : n.op = "LayerNormalization"
  · rw [if_pos ho] at ht
    exact extra_case (.inr (.inr ho)) ht hr h
  rw [if_neg ho] at ht
  by_cases ho : n.op = "Cast"
  · rw [if_pos ho] at ht
    exact cast_case ho ht hr h
  rw [if_neg ho] at ht
  by_cases ho : n.op = "RandomUniformLike" ∨ n.op = "RandomNormalLike"
  · rw [if_pos ho] at ht
    exact like_case ho ht hr h
  rw [if_neg ho] at ht
  by_cases ho : n.op = "Constant"
  · rw [if_pos ho] at ht
    have e : ruleOf n.op = some .constant := by rw [ho]; decide
    rw [e] at hr; cases hr
    have hv := (nth_single ht).2
    simp only [runRule, hv] at h
    obtain ⟨rfl, -⟩ := give_ok h
    refine single (not_special ho (by decide)) ht ?_
    rw [hv]
  rw [if_neg ho] at ht
  by_cases ho : n.op = "ConstantOfShape"
  · rw [if_pos ho] at ht
    have e : ruleOf n.op = some .constantOfShape := by rw [ho]; decide
    rw [e] at hr; cases hr
    simp only [runRule] at h
    obtain ⟨rfl, -⟩ := give_ok h
    exact single (not_special ho (by decide)) ht rfl
  rw [if_neg ho] at ht
  by_cases ho : n.op = "CategoryMapper"
  · rw [if_pos ho] at ht
    have e : ruleOf n.op = some (.input 0) := by rw [ho]; decide
    rw [e] at hr; cases hr
    obtain ⟨a, ha, rfl, -⟩ := run_input h
    obtain ⟨rfl, h0⟩ := nth_single ht
    constructor
    · intro c
      have ea : a = some t := by simpa using c
      subst ea
      have : nth ins 0 = some t := by simp [nth, ha]
      rw [this] at h0
      cases t <;> cases h0
    · intro hrel; exact absurd ho hrel.mapper
  rw [if_neg ho] at ht
  cases ht

/-! ### graphs -/

theorem assign_other {os : List String} {ts : List Known} {env : Types} {x : String} (h : x ∉ os) : assign os ts env x = env x := by
  induction os generalizing ts env with
  | nil => cases ts <;> rfl
  | cons o os ih =>
    cases ts with
    | nil => rfl
    | cons t ts =>
      simp only [List.mem_cons, not_or] at h
      rw [assign, ih h.2, put, if_neg h.1]

theorem assign_at {os : List String} {ts : List Known} {env : Types} {k : Nat} {o : String} {t : Known} (hnd : os.Nodup) (ho : os[k]? = some o)
    (ht : ts[k]? = some t) : assign os ts env o = t := by
  induction os generalizing ts env k with
  | nil => simp at ho
  | cons a os ih =>
    cases ts with
    | nil => simp at ht
    | cons b ts =>
      rw [List.nodup_cons] at hnd
      cases k with
      | zero =>
        simp at ho ht
        subst ho; subst ht
        rw [assign, assign_other hnd.1, put, if_pos rfl]
      | succ k =>
        simp at ho ht
        rw [assign]
        exact ih hnd.2 ho ht

theorem step_ok {values : TNode → List Known → Except PyErr (List Known)} {n : TNode} {env e : Types} (h : step values n env = .ok e) :
    ∃ ts, (if n.shapeCalc then values n (n.inputs.map env) else effects n (n.inputs.map env)) = .ok ts ∧ e = assign n.outputs ts env := by
  unfold step at h
  split at h
  · rename_i ts e2; cases h; exact ⟨ts, e2, rfl⟩
  · cases h

theorem infer_other {values : TNode → List Known → Except PyErr (List Known)} {nodes : List TNode} {env e : Types} (h : inferTypes values nodes env = .ok e)
    {x : String} (hx : ∀ n ∈ nodes, x ∉ n.outputs) : e x = env x := by
  induction nodes generalizing env with
  | nil => simp only [inferTypes] at h; cases h; rfl
  | cons n rest ih =>
    rw [inferTypes] at h
    split at h
    · rename_i e1 he1
      rw [ih h fun m hm => hx m (List.mem_cons_of_mem _ hm)]
      obtain ⟨ts, -, rfl⟩ := step_ok he1
      exact assign_other (hx n (List.mem_cons_self ..))
    · cases h

/-- in a sorted graph every node sees the final types of its inputs, and what it set stays -/
theorem infer_node {values : TNode → List Known → Except PyErr (List Known)} {nodes : List TNode} {env e : Types} (h : inferTypes values nodes env = .ok e)
    (hself : ∀ n ∈ nodes, ∀ x ∈ n.inputs, x ∉ n.outputs)
    (hsort : nodes.Pairwise fun a b => (∀ x ∈ a.inputs, x ∉ b.outputs) ∧ (∀ x ∈ a.outputs, x ∉ b.outputs))
    {n : TNode} (hn : n ∈ nodes) :
    ∃ ts, (if n.shapeCalc then values n (n.inputs.map e) else effects n (n.inputs.map e)) = .ok ts ∧
      (n.outputs.Nodup → ∀ (k : Nat) (o : String) (t : Known), n.outputs[k]? = some o → ts[k]? = some t → e o = t) := by
  induction nodes generalizing env with
  | nil => cases hn
  | cons m rest ih =>
    rw [inferTypes] at h
    split at h
    case h_2 => cases h
    rename_i e1 he1
    rw [List.pairwise_cons] at hsort
    rcases List.mem_cons.1 hn with rfl | hn
    · obtain ⟨ts, hts, rfl⟩ := step_ok he1
      have same : n.inputs.map e = n.inputs.map env := by
        apply List.map_congr_left
        intro x hx
        rw [infer_other h fun b hb => (hsort.1 b hb).1 x hx]
        exact assign_other (hself n (List.mem_cons_self ..) x hx)
      refine ⟨ts, by rw [same]; exact hts, ?_⟩
      intro hnd k o t ho ht
      rw [infer_other h fun b hb => (hsort.1 b hb).2 o (List.mem_of_getElem? ho)]
      exact assign_at hnd ho ht
    · exact ih h (fun a ha => hself a (List.mem_cons_of_mem _ ha)) hsort.2 hn

end OnnxTool.DTypes
