import Verif.Spec.Raises
import Verif.Model.KvPlan
import Verif.Model.Registry
import Verif.Model.PatternMake
import Verif.Model.ShapeEngine
import Verif.Model.TensorProto
import Verif.Model.Predict
import Verif.Proofs.Skip
import Verif.Model.Remove
import Verif.Model.ConvBN
import Verif.Model.Conv
import Verif.Model.Torch
import Verif.Model.ValueReduce
import Verif.Model.ValueConv
import Verif.Model.Preload
import Verif.Model.Broadcast
/-!
# C114: the exception tells the cause
-/
namespace OnnxTool.Props
open OnnxTool OnnxTool.Raises

private theorem fails_nil {α : Type} (x : α) (cs : List (PyErr × Prop)) (h : ∀ c ∈ cs, ¬ c.2) : Fails (Except.ok x : Except PyErr α) cs := by
  intro e
  constructor
  · intro h'; cases h'
  · rintro ⟨c, hc, -, hp⟩; exact absurd hp (h c hc)

private theorem fails_error {α : Type} (x : PyErr) (cs : List (PyErr × Prop)) (h : ∃ c ∈ cs, c.1 = x ∧ c.2) (hu : ∀ c ∈ cs, c.2 → c.1 = x) :
    Fails (Except.error x : Except PyErr α) cs := by
  intro e
  constructor
  · intro h'; cases h'; exact h
  · rintro ⟨c, hc, he, hp⟩; rw [← he, hu c hc hp]

private theorem hasWork_iff (g : Graph) (m : String → Option Int) :
    (g.dynamics.any (fun t => (g.producedby.has t || g.input.contains t) && (m t).isSome)) = true ↔ HasWork g m := by
  simp only [List.any_eq_true, Bool.and_eq_true, Bool.or_eq_true, HasWork, Option.isSome_iff_exists, List.contains_iff_mem]
  constructor
  · rintro ⟨t, ht, h1 | h1, h2⟩
    · exact ⟨t, ht, .inr (Option.isSome_iff_exists.mp h1), h2⟩
    · exact ⟨t, ht, .inl h1, h2⟩
  · rintro ⟨t, ht, h1 | h1, h2⟩
    · exact ⟨t, ht, .inr h1, h2⟩
    · exact ⟨t, ht, .inl (Option.isSome_iff_exists.mpr h1), h2⟩

private theorem raw_none (inp out : List String) (m : String → Option Int) (l : List String) :
    l.foldl (fun (acc : Option Int) t => if inp.contains t || out.contains t then acc else match acc, m t with
      | some a, some s => some (a + s)
      | _, _ => none) none = none := by
  induction l with
  | nil => rfl
  | cons t l ih =>
    simp only [List.foldl_cons]
    split
    · exact ih
    · exact ih

private theorem raw_fold (inp out : List String) (m : String → Option Int) (l : List String) (a : Int) :
    l.foldl (fun (acc : Option Int) t => if inp.contains t || out.contains t then acc else match acc, m t with
      | some a, some s => some (a + s)
      | _, _ => none) (some a) =
    if ∃ t ∈ l, (t ∉ inp ∧ t ∉ out) ∧ m t = none then none
    else some (a + ((l.filter fun t => t ∉ inp ∧ t ∉ out).map fun t => (m t).getD 0).sum) := by
  induction l generalizing a with
  | nil => simp
  | cons t l ih =>
    simp only [List.foldl_cons]
    by_cases ht : t ∉ inp ∧ t ∉ out
    · have hc : ¬ ((inp.contains t || out.contains t) = true) := by simp [ht.1, ht.2]
      rw [if_neg hc]
      cases hm : m t with
      | none =>
        simp only []
        rw [raw_none, if_pos ⟨t, by simp, ht, hm⟩]
      | some s =>
        simp only []
        rw [ih]
        have : (∃ u ∈ t :: l, (u ∉ inp ∧ u ∉ out) ∧ m u = none) ↔ ∃ u ∈ l, (u ∉ inp ∧ u ∉ out) ∧ m u = none := by
          simp [hm]
        rw [List.filter_cons_of_pos (by simp [ht])]
        simp only [this, List.map_cons, List.sum_cons, hm, Option.getD_some]
        split
        · rfl
        · congr 1; omega
    · have hc : (inp.contains t || out.contains t) = true := by
        simp only [Bool.or_eq_true, List.contains_iff_mem]
        rcases Classical.em (t ∈ inp) with h | h
        · exact .inl h
        · exact .inr (Classical.byContradiction fun h' => ht ⟨h, h'⟩)
      rw [if_pos hc, ih, List.filter_cons_of_neg (by simpa using ht)]
      have : (∃ u ∈ t :: l, (u ∉ inp ∧ u ∉ out) ∧ m u = none) ↔ ∃ u ∈ l, (u ∉ inp ∧ u ∉ out) ∧ m u = none := by
        constructor
        · rintro ⟨u, hu, h1, h2⟩
          rcases List.mem_cons.mp hu with rfl | hu
          · exact absurd h1 ht
          · exact ⟨u, hu, h1, h2⟩
        · rintro ⟨u, hu, h⟩; exact ⟨u, by simp [hu], h⟩
      simp only [this]

private theorem internal_eq (g : Graph) (m : String → Option Int) :
    ((g.dynamics.filter fun t => t ∉ g.input ∧ t ∉ g.output).map fun t => (m t).getD 0).sum = internalBytes g m := by
  unfold internalBytes
  congr 2
  refine List.filter_congr fun t ht => ?_
  simp [Internal, ht]

/-- **C114, planning memory.** `compress_memory(size_padding=p)` raises ZeroDivisionError exactly when `p = 0` and something has to be
placed, or when the internal tensors all have a known size and occupy 0 bytes together; KeyError exactly when (with `p ≠ 0` or nothing
to place) an internal tensor is missing from `tensormap`; nothing else. -/
theorem C114_plan (g : Graph) (memsize : String → Option Int) (p : Nat) :
    Fails (Mem.compressMemory g memsize p)
      [(.zeroDivision, p = 0 ∧ HasWork g memsize),
       (.keyError, ¬ (p = 0 ∧ HasWork g memsize) ∧ ∃ t, Internal g t ∧ memsize t = none),
       (.zeroDivision, ¬ (p = 0 ∧ HasWork g memsize) ∧ (∀ t, Internal g t → memsize t ≠ none) ∧ internalBytes g memsize = 0)] := by
  have hcond : ((p = 0 && g.dynamics.any (fun t => (g.producedby.has t || g.input.contains t) && (memsize t).isSome)) = true) ↔ (p = 0 ∧ HasWork g memsize) := by
    rw [Bool.and_eq_true, hasWork_iff, decide_eq_true_iff]
  unfold Mem.compressMemory
  by_cases hw : p = 0 ∧ HasWork g memsize
  · rw [if_pos (hcond.mpr hw)]
    refine fails_error _ _ ⟨_, List.mem_cons_self .., rfl, hw⟩ ?_
    simp only [List.forall_mem_cons]
    exact ⟨by simp, fun h => absurd hw h.1, by simp, by simp⟩
  · rw [if_neg (fun h => hw (hcond.mp h))]
    have hex : (∃ t ∈ g.dynamics, (t ∉ g.input ∧ t ∉ g.output) ∧ memsize t = none) ↔ ∃ t, Internal g t ∧ memsize t = none :=
      ⟨fun ⟨t, h1, h2, h3⟩ => ⟨t, ⟨h1, h2⟩, h3⟩, fun ⟨t, ⟨h1, h2⟩, h3⟩ => ⟨t, h1, h2, h3⟩⟩
    have hr : Mem.rawSize g memsize = _ := raw_fold g.input g.output memsize g.dynamics 0
    rw [internal_eq, Int.zero_add] at hr
    by_cases hm : ∃ t, Internal g t ∧ memsize t = none
    · rw [if_pos (hex.mpr hm)] at hr
      simp only [hr]
      refine fails_error _ _ ⟨_, List.mem_cons_of_mem _ (List.mem_cons_self ..), rfl, hw, hm⟩ ?_
      simp only [List.forall_mem_cons]
      refine ⟨fun h => absurd h hw, fun _ => trivial, fun h => ?_, by simp⟩
      obtain ⟨t, h1, h2⟩ := hm
      exact absurd h2 (h.2.1 t h1)
    · rw [if_neg (fun h => hm (hex.mp h))] at hr
      by_cases hz : internalBytes g memsize = 0
      · rw [hz] at hr
        simp only [hr]
        refine fails_error _ _ ⟨_, List.mem_cons_of_mem _ (List.mem_cons_of_mem _ (List.mem_cons_self ..)), rfl, hw, fun t h1 h2 => hm ⟨t, h1, h2⟩, hz⟩ ?_
        simp only [List.forall_mem_cons]
        exact ⟨by simp, fun h => absurd h.2 hm, by simp, by simp⟩
      · have : ∀ (s : Int), s ≠ 0 → ∀ (v : Dict (Nat × Nat) × Nat), (match (some s : Option Int) with
            | none => Except.error PyErr.keyError
            | some 0 => .error .zeroDivision
            | some _ => .ok v) = (.ok v : Except PyErr _) := by
          intro s hs v
          split
          · cases ‹some s = none›
          · rename_i h; injection h with h; exact absurd h hs
          · rfl
        simp only [hr]
        refine fails_nil _ _ ?_
        simp only [List.forall_mem_cons]
        exact ⟨hw, fun h => hm h.2, fun h => hz h.2.2, by simp⟩

private theorem rawKv_fold (inp out : List String) (m : String → Option Int) (l : List String) (a : Int) :
    l.foldl (fun (acc : Int) t => if inp.contains t || out.contains t then acc else acc + (m t).getD 0) a =
    a + ((l.filter fun t => t ∉ inp ∧ t ∉ out).map fun t => (m t).getD 0).sum := by
  induction l generalizing a with
  | nil => simp
  | cons t l ih =>
    simp only [List.foldl_cons]
    by_cases ht : t ∉ inp ∧ t ∉ out
    · have hc : ¬ ((inp.contains t || out.contains t) = true) := by simp [ht.1, ht.2]
      rw [if_neg hc, ih, List.filter_cons_of_pos (by simp [ht])]
      simp only [List.map_cons, List.sum_cons]
      omega
    · have hc : (inp.contains t || out.contains t) = true := by
        simp only [Bool.or_eq_true, List.contains_iff_mem]
        rcases Classical.em (t ∈ inp) with h | h
        · exact .inl h
        · exact .inr (Classical.byContradiction fun h' => ht ⟨h, h'⟩)
      rw [if_pos hc, ih, List.filter_cons_of_neg (by simpa using ht)]

/-- **C114, planning memory with a cache.** `compress_memory_with_kv_cache` raises only ZeroDivisionError: exactly when `p = 0` and
something has to be placed, or the internal tensors of known size occupy 0 bytes together. -/
theorem C114_plan_kv (g : Graph) (memsize : String → Option Int) (p : Nat) :
    Fails (Mem.compressMemoryKv g memsize p)
      [(.zeroDivision, (p = 0 ∧ HasWork g memsize) ∨ internalBytes g memsize = 0)] := by
  have hcond : ((p = 0 && g.dynamics.any (fun t => (g.producedby.has t || g.input.contains t) && (memsize t).isSome)) = true) ↔ (p = 0 ∧ HasWork g memsize) := by
    rw [Bool.and_eq_true, hasWork_iff, decide_eq_true_iff]
  have hr : Mem.rawSizeKv g memsize = internalBytes g memsize := by
    unfold Mem.rawSizeKv
    rw [rawKv_fold, internal_eq]; omega
  unfold Mem.compressMemoryKv
  by_cases hw : p = 0 ∧ HasWork g memsize
  · rw [if_pos (hcond.mpr hw)]
    exact fails_error _ _ ⟨_, List.mem_cons_self .., rfl, .inl hw⟩ (by simp)
  · rw [if_neg (fun h => hw (hcond.mp h))]
    simp only [hr]
    by_cases hz : internalBytes g memsize = 0
    · rw [if_pos hz]
      exact fails_error _ _ ⟨_, List.mem_cons_self .., rfl, .inr hz⟩ (by simp)
    · rw [if_neg hz]
      refine fails_nil _ _ ?_
      simp only [List.mem_singleton, forall_eq]
      rintro (h | h)
      · exact hw h
      · exact hz h

private def planGraph : Graph :=
  { nodemap := [{ name := "a", op := "Relu", input := ["x"], output := ["t"] }, { name := "b", op := "Relu", input := ["t"], output := ["y"] }],
    input := ["x"], output := ["y"], dynamics := ["x", "t", "y"], initials := [],
    producedby := [("t", ["a"]), ("y", ["b"])], consumedby := [("x", ["a"]), ("t", ["b"])] }

/-- all three causes occur, and so does success -/
example : (HasWork planGraph fun _ => some 4) ∧ (Internal planGraph "t") ∧ internalBytes planGraph (fun _ => some 4) = 4 ∧
    internalBytes planGraph (fun _ => some 0) = 0 ∧ ¬ Internal planGraph "x" := by
  refine ⟨⟨"t", by decide, .inr ⟨["a"], by decide⟩, 4, rfl⟩, by decide, by decide, by decide, by decide⟩

/-- **C114, registries.** `registry[name]` raises KeyError exactly for names that `registry.get` does not know; nothing else. -/
theorem C114_registry {α : Type} (r : Registry.Reg α) (name : String) :
    Fails (r.getItem name) [(.keyError, r.get name = none)] := by
  unfold Registry.Reg.getItem Registry.Reg.get
  cases h : r.objs.get? name with
  | none =>
    have : r.objs.has name = false := by simp [Dict.has, h]
    simp only [this]
    exact fails_error _ _ ⟨_, List.mem_cons_self .., rfl, trivial⟩ (by simp)
  | some o =>
    have : r.objs.has name = true := by simp [Dict.has, h]
    simp only [this]
    exact fails_nil _ _ (by simp)

/-- **C114, dimension formulas.** Evaluating the formula of a dimension raises ZeroDivisionError exactly for a division by `alpha = 0`; nothing else. -/
theorem C114_formula (e : Engine.ValueExpr) (x : Int) : Fails (e.call x) [(.zeroDivision, e.factor = true ∧ e.alpha = 0)] := by
  unfold Engine.ValueExpr.call
  cases hf : e.factor with
  | false => exact fails_nil _ _ (by simp)
  | true =>
    simp only [if_true]
    by_cases h : e.alpha = 0
    · rw [if_pos h]; exact fails_error _ _ ⟨_, List.mem_cons_self .., rfl, trivial, h⟩ (by simp)
    · rw [if_neg h]; exact fails_nil _ _ (by simp [h])

/-- **C114, raw tensor data.** The bytes of a tensor in a file are refused with ValueError exactly when their number is no multiple of the item size. -/
theorem C114_raw_data (t : TProto.NpType) (bs : Serial.Bytes) :
    Fails (TProto.frombuffer t bs) [(.valueError, ¬ t.size ∣ bs.length)] := by
  unfold TProto.frombuffer
  by_cases h : bs.length % t.size = 0
  · rw [if_pos h]; exact fails_nil _ _ (by simpa using Nat.dvd_of_mod_eq_zero h)
  · rw [if_neg h]; exact fails_error _ _ ⟨_, List.mem_cons_self .., rfl, fun hd => h (Nat.mod_eq_zero_of_dvd hd)⟩ (by simp)

/-- **C114, GatherND.** IndexError exactly without indices, AssertionError exactly when an index names more axes than there are. -/
theorem C114_gatherND (x ids : List Nat) :
    Fails (Values.gatherNDShape x ids) [(.indexError, ids = []), (.assertion, ∃ q, ids.getLast? = some q ∧ x.length < q)] := by
  unfold Values.gatherNDShape
  rcases List.eq_nil_or_concat ids with rfl | ⟨l, q, rfl⟩
  · simp only [List.reverse_nil]
    exact fails_error _ _ ⟨_, List.mem_cons_self .., rfl, trivial⟩ (by simp)
  · simp only [List.concat_eq_append, List.reverse_append, List.reverse_cons, List.reverse_nil, List.nil_append, List.singleton_append]
    by_cases h : q ≤ x.length
    · rw [if_pos h]
      have hn : ∀ c ∈ ([(.indexError, l ++ [q] = []), (.assertion, ∃ k, (l ++ [q]).getLast? = some k ∧ x.length < k)] : List (PyErr × Prop)), ¬ c.2 := by
        simp only [List.forall_mem_cons]
        refine ⟨by simp, ?_, by simp⟩
        rintro ⟨k, hk, hlt⟩
        simp only [List.getLast?_append, List.getLast?_singleton, Option.some_or, Option.some.injEq] at hk
        omega
      split
      · exact fails_nil _ _ hn
      · exact fails_nil _ _ hn
    · rw [if_neg h]
      refine fails_error _ _ ⟨_, List.mem_cons_of_mem _ (List.mem_cons_self ..), rfl, q, by simp, by omega⟩ ?_
      simp only [List.forall_mem_cons]
      exact ⟨by simp, fun _ => trivial, by simp⟩

/-- **C114, the largest operand.** `_max_shape` raises IndexError exactly without operands. -/
theorem C114_maxShape (ss : List Shape.Shp) : Fails (Shape.maxShape ss) [(.indexError, ss = [])] := by
  cases ss with
  | nil => exact fails_error _ _ ⟨_, List.mem_cons_self .., rfl, rfl⟩ (by simp)
  | cons s ss => exact fails_nil _ _ (by simp)

/-- **C114, ConstantOfShape.** AttributeError exactly without the attribute, otherwise ValueError exactly for a negative size. -/
theorem C114_constantOfShape (value : Option (List Int)) (shape : List Int) :
    Fails (Values.constantOfShapeValue value shape) [(.attributeError, value = none), (.valueError, value ≠ none ∧ ∃ d ∈ shape, d < 0)] := by
  unfold Values.constantOfShapeValue
  cases value with
  | none => exact fails_error _ _ ⟨_, List.mem_cons_self .., rfl, rfl⟩ (by simp)
  | some l =>
    simp only []
    by_cases h : shape.any (· < 0) = true
    · rw [if_pos h]
      refine fails_error _ _ ⟨_, List.mem_cons_of_mem _ (List.mem_cons_self ..), rfl, by simp, by simpa using h⟩ ?_
      simp
    · rw [if_neg h]
      exact fails_nil _ _ (by simpa using h)

/-- **C114, padding.** `F.pad` raises RuntimeError exactly when a resulting size is negative. -/
theorem C114_pad {V : Type} (t : Torch.Tensor V) (p : List (Int × Int)) (v : V) :
    Fails (t.pad p v) [(.runtimeError, ∃ (k d : Nat) (a : Int × Int), t.shape[k]? = some d ∧ p.reverse[k]? = some a ∧ a.1 + d + a.2 < 0)] := by
  unfold Torch.Tensor.pad
  simp only []
  have hex : ¬ ((List.zipWith (fun (d : Nat) (a : Int × Int) => a.1 + d + a.2) t.shape p.reverse).all (0 ≤ ·)) = true ↔
      ∃ (k d : Nat) (a : Int × Int), t.shape[k]? = some d ∧ p.reverse[k]? = some a ∧ a.1 + d + a.2 < 0 := by
    simp only [List.all_eq_true, decide_eq_true_eq, Classical.not_forall]
    constructor
    · rintro ⟨x, hx, hn⟩
      obtain ⟨k, hk⟩ := List.mem_iff_getElem?.mp hx
      rw [List.getElem?_zipWith] at hk
      split at hk
      · rename_i d a h1 h2
        cases hk
        exact ⟨k, d, a, h1, h2, by omega⟩
      · cases hk
    · rintro ⟨k, d, a, h1, h2, hn⟩
      refine ⟨a.1 + d + a.2, List.mem_iff_getElem?.mpr ⟨k, ?_⟩, by omega⟩
      rw [List.getElem?_zipWith, h1, h2]
  by_cases h : ((List.zipWith (fun (d : Nat) (a : Int × Int) => a.1 + d + a.2) t.shape p.reverse).all (0 ≤ ·)) = true
  · rw [if_pos h]
    refine fails_nil _ _ ?_
    simp only [List.mem_singleton, forall_eq]
    exact fun h' => (hex.mpr h') h
  · rw [if_neg h]
    exact fails_error _ _ ⟨_, List.mem_cons_self .., rfl, hex.mp h⟩ (by simp)

/-- **C114, unknown automatic padding.** A convolution whose `auto_pad` is none of the handled words raises AssertionError, whatever the shapes. -/
theorem C114_auto_pad (a : Conv.Attrs) (x w : List Int) (h : a.autoPad = some .other) : Conv.convShape a x w = .error .assertion := by
  unfold Conv.convShape
  rw [h]

/-- **C114, global average.** An operand without exactly four axes raises IndexError; an empty window of a non-empty result raises
ZeroDivisionError; nothing else raises. -/
theorem C114_globalAverage (x : Torch.Tensor ℚ) :
    Fails (Values.globalAveragePoolValue x) [(.indexError, x.shape.length ≠ 4),
      (.zeroDivision, ∃ n c h w, x.shape = [n, c, h, w] ∧ n * c ≠ 0 ∧ h * w = 0)] := by
  unfold Values.globalAveragePoolValue
  split
  · rename_i n c h w hs
    by_cases hc : n * c ≠ 0 ∧ h * w = 0
    · rw [if_pos hc]
      refine fails_error _ _ ⟨_, List.mem_cons_of_mem _ (List.mem_cons_self ..), rfl, n, c, h, w, hs, hc⟩ ?_
      simp only [List.forall_mem_cons]
      exact ⟨fun h' => absurd (by rw [hs]; rfl) h', by simp, by simp⟩
    · rw [if_neg hc]
      refine fails_nil _ _ ?_
      simp only [List.forall_mem_cons]
      refine ⟨fun h' => absurd (by rw [hs]; rfl) h', ?_, by simp⟩
      rintro ⟨n', c', h', w', e, hc'⟩
      rw [hs] at e
      cases e
      exact hc hc'
  · rename_i hs
    have hl : x.shape.length ≠ 4 := by
      intro hl
      match hx : x.shape, hl with
      | [n, c, h, w], _ => exact hs n c h w hx
    refine fails_error _ _ ⟨_, List.mem_cons_self .., rfl, hl⟩ ?_
    simp only [List.forall_mem_cons]
    refine ⟨by simp, ?_, by simp⟩
    rintro ⟨n, c, h, w, e, -⟩
    exact absurd (by rw [e]; rfl) hl

/-- **C114, GemmKernel.** Whatever goes wrong is a RuntimeError: a first operand (transposed if asked) or second operand that is no
matrix, inner sizes that differ, or a bias that does not fit. -/
theorem C114_gemm (alpha beta : ℚ) (a b : Torch.Tensor ℚ) (c : Option (Torch.Tensor ℚ)) :
    Fails (Preload.gemmKernel alpha beta false a b c) [(.runtimeError,
      ¬ ∃ m k n, a.shape = [m, k] ∧ b.shape = [k, n] ∧ ∀ v, c = some v → Torch.canExpand v.shape [m, n] = true)] := by
  unfold Preload.gemmKernel Preload.matmul
  simp only [Bool.false_eq_true, if_false]
  by_cases ha : a.shape.length = 2
  · rw [if_pos ha]
    match hx : a.shape, ha with
    | [m, k'], _ =>
      split
      · rename_i e he
        split at he
        · rename_i k n hb
          split at he
          · cases he
          · rename_i hk
            cases he
            refine fails_error _ _ ⟨_, List.mem_cons_self .., rfl, ?_⟩ (by simp)
            rintro ⟨m1, k1, n1, h1, h2, -⟩
            cases h1
            rw [hb] at h2
            cases h2
            exact hk rfl
        · rename_i hb
          cases he
          refine fails_error _ _ ⟨_, List.mem_cons_self .., rfl, ?_⟩ (by simp)
          rintro ⟨m1, k1, n1, h1, h2, -⟩
          exact hb _ _ h2
      · rename_i y he
        split at he
        · rename_i k n hb
          split at he
          · rename_i hk
            cases he
            simp only [List.getLast?_cons_cons, List.getLast?_singleton, Option.some.injEq] at hk
            subst hk
            cases c with
            | none =>
              refine fails_nil _ _ ?_
              simp only [List.mem_singleton, forall_eq]
              exact fun h => h ⟨m, k', n, rfl, hb, by simp⟩
            | some v =>
              simp only [Preload.addTo]
              have hd : [m, k'].dropLast ++ [n] = [m, n] := rfl
              rw [hd]
              by_cases hv : Torch.canExpand v.shape [m, n] = true
              · rw [if_pos hv]
                refine fails_nil _ _ ?_
                simp only [List.mem_singleton, forall_eq]
                exact fun h => h ⟨m, k', n, rfl, hb, by rintro _ ⟨⟩; exact hv⟩
              · rw [if_neg hv]
                refine fails_error _ _ ⟨_, List.mem_cons_self .., rfl, ?_⟩ (by simp)
                rintro ⟨m1, k1, n1, h1, h2, h3⟩
                cases h1
                rw [hb] at h2
                cases h2
                exact hv (h3 v rfl)
          · cases he
        · cases he
  · rw [if_neg ha]
    refine fails_error _ _ ⟨_, List.mem_cons_self .., rfl, ?_⟩ (by simp)
    rintro ⟨m, k, n, h1, -⟩
    exact ha (by rw [h1]; rfl)

/-- **C114, removing a node.** An unknown name changes nothing and raises nothing, recursive or not. -/
theorem C114_remove_unknown (g : Graph) (name : String) (recursive : Bool) (h : findNode g.nodemap name = none) :
    Remove.removeNode g name recursive = .ok g := by
  unfold Remove.removeNode Remove.removeOne
  rw [h]
  cases recursive <;> rfl

private theorem rmProducers_free (name : String) (os : List String) (g : Graph) (h : ∀ o ∈ os, g.producedby.get? o = none) :
    Remove.rmProducers name os g = .ok g := by
  induction os with
  | nil => rfl
  | cons o os ih =>
    unfold Remove.rmProducers
    rw [h o (by simp)]
    exact ih fun o ho => h o (by simp [ho])

/-- **C114, removing from a broken index.** When the producers recorded for the first input of a node with unrecorded outputs are an
unknown node, nobody, or several nodes, and the node is its only reader, removing the node raises KeyError, IndexError, AssertionError. -/
theorem C114_remove_broken (g : Graph) (name : String) (nd : Node) (recursive : Bool) (i : String) (is c ps : List String)
    (hn : findNode g.nodemap name = some nd) (ho : ∀ o ∈ nd.output, g.producedby.get? o = none) (hi : nd.input = i :: is)
    (hc : g.consumedby.get? i = some c) (h1 : c.length = 1) (hp : g.producedby.get? i = some ps) :
    (ps = [] → Remove.removeNode g name recursive = .error .indexError) ∧
    (∀ p, ps = [p] → findNode g.nodemap p = none → Remove.removeNode g name recursive = .error .keyError) ∧
    (2 ≤ ps.length → Remove.removeNode g name recursive = .error .assertion) := by
  unfold Remove.removeNode Remove.removeOne
  simp only [hn, rmProducers_free name _ g ho, hi, Remove.rmConsumers, Remove.danglingProducer, hc, hp, h1, if_true]
  refine ⟨?_, ?_, ?_⟩
  · rintro rfl; rfl
  · rintro p rfl hp; simp only [hp]
  · intro h
    match ps, h with
    | _ :: _ :: _, _ => rfl

example : ∃ g : Graph, Remove.removeNode g "b" false = .error .keyError :=
  ⟨_, (C114_remove_broken { planGraph with nodemap := [{ name := "b", op := "Relu", input := ["t"], output := [] }] } "b" _ false "t" [] ["b"] ["a"]
    rfl (by simp) rfl rfl rfl rfl).2.1 "a" rfl rfl⟩

/-! ### skipping a node -/

/-- **C114, skipping an unknown node** raises KeyError. -/
theorem C114_skip_unknown (g : Graph) (x : String) (h : findNode g.nodemap x = none) : Skip.skipNode g x = .error .keyError := by
  unfold Skip.skipNode
  rw [h]

/-- **C114, skipping a node that is not listed.** The node has one variable operand and one result: KeyError when nobody is listed as
reading the operand, ValueError when others are. -/
theorem C114_skip_unlisted (g : Graph) (x : String) (nd : Node) (ind out : String) (hn : findNode g.nodemap x = some nd)
    (hi : nd.input.filter (· ∈ g.dynamics) = [ind]) (ho : nd.output = [out]) :
    (g.consumedby.get? ind = none → Skip.skipNode g x = .error .keyError) ∧
    (∀ l, g.consumedby.get? ind = some l → x ∉ l → Skip.skipNode g x = .error .valueError) := by
  have hi' : nd.input.filter (fun t => g.dynamics.contains t) = [ind] := by
    rw [← hi]; refine List.filter_congr fun t _ => ?_; simp
  unfold Skip.skipNode
  simp only [hn, hi', ho]
  constructor
  · intro h; simp only [h]
  · intro l h hx
    have : ¬ (l.contains x = true) := by simpa using hx
    simp only [h, if_neg this]

private theorem findNode_none (ns : List Node) (x : String) : findNode ns x = none ↔ x ∉ ns.map (·.name) := by
  unfold findNode
  simp only [List.find?_eq_none, List.mem_map, decide_eq_true_eq]
  constructor
  · rintro h ⟨n, hn, e⟩; exact h n hn e
  · intro h n hn e; exact h ⟨n, hn, e⟩

private theorem rewire_fails (out ind : String) (cs : List String) (ns : List Node) (cb : Dict (List String)) :
    Fails (Skip.rewire out ind cs (ns, cb)) [(.keyError, ∃ c ∈ cs, c ∉ ns.map (·.name))] := by
  induction cs generalizing ns cb with
  | nil => exact fails_nil _ _ (by simp)
  | cons c cs ih =>
    unfold Skip.rewire
    cases hf : findNode ns c with
    | none =>
      exact fails_error _ _ ⟨_, List.mem_cons_self .., rfl, c, by simp, (findNode_none ns c).mp hf⟩ (by simp)
    | some nd =>
      have hc : c ∈ ns.map (·.name) := by
        refine Classical.byContradiction fun h => ?_
        rw [(findNode_none ns c).mpr h] at hf; cases hf
      have hex : (∃ d ∈ c :: cs, d ∉ ns.map (·.name)) ↔ ∃ d ∈ cs, d ∉ ns.map (·.name) := by
        constructor
        · rintro ⟨d, hd, hn⟩
          rcases List.mem_cons.mp hd with rfl | hd
          · exact absurd hc hn
          · exact ⟨d, hd, hn⟩
        · rintro ⟨d, hd, hn⟩; exact ⟨d, by simp [hd], hn⟩
      rw [hex]
      simp only []
      split
      · have := ih (Subgraph.setNode ns { nd with input := Skip.substFirst out ind nd.input }) (cb.appendAt ind c)
        rwa [Skip.setNode_names (n := { nd with input := Skip.substFirst out ind nd.input }) (m := nd) (List.mem_of_find?_eq_some hf) rfl] at this
      · exact ih ns cb

/-- **C114, skipping a node whose result is read.** The node has one variable operand, is listed as reading it, and its result, another
tensor, is read: KeyError exactly when a listed reader of the result does not exist; nothing else. -/
theorem C114_skip_read (g : Graph) (x : String) (nd : Node) (ind out : String) (l cs : List String) (hn : findNode g.nodemap x = some nd)
    (hi : nd.input.filter (· ∈ g.dynamics) = [ind]) (ho : nd.output = [out]) (hl : g.consumedby.get? ind = some l) (hx : x ∈ l)
    (hne : ind ≠ out) (hcs : g.consumedby.get? out = some cs) :
    Fails (Skip.skipNode g x) [(.keyError, ∃ c ∈ cs, ∀ n ∈ g.nodemap, n.name ≠ c)] := by
  have hi' : nd.input.filter (fun t => g.dynamics.contains t) = [ind] := by
    rw [← hi]; refine List.filter_congr fun t _ => ?_; simp
  have hc : l.contains x = true := by simpa using hx
  have hg : (g.consumedby.set ind (l.erase x)).get? out = some cs := by rw [Dict.get?_set, if_neg hne]; exact hcs
  unfold Skip.skipNode
  simp only [hn, hi', ho, hl, hc, if_true, hg, hne, false_and, if_false]
  have h := rewire_fails out ind cs g.nodemap (g.consumedby.set ind (l.erase x))
  have hex : (∃ c ∈ cs, ∀ n ∈ g.nodemap, n.name ≠ c) ↔ ∃ c ∈ cs, c ∉ g.nodemap.map (·.name) := by
    simp only [List.mem_map, not_exists, not_and]
  rw [hex]
  cases hr : Skip.rewire out ind cs (g.nodemap, g.consumedby.set ind (l.erase x)) with
  | error e =>
    rw [hr] at h
    intro e'
    have he := h e'
    constructor
    · intro h'; cases h'; exact he.mp rfl
    · intro h'; have := he.mpr h'; cases this; rfl
  | ok p =>
    rw [hr] at h
    refine fails_nil _ _ ?_
    simp only [List.mem_singleton, forall_eq]
    intro hb
    have := (h .keyError).mpr ⟨_, List.mem_cons_self .., rfl, hb⟩
    cases this

/-- **C114, skipping a node whose result is not read.** KeyError when the operand has no recorded producer or the first unusable one does
not exist, AssertionError when it has several results. -/
theorem C114_skip_unread (g : Graph) (x : String) (nd : Node) (ind out : String) (l : List String) (hn : findNode g.nodemap x = some nd)
    (hi : nd.input.filter (· ∈ g.dynamics) = [ind]) (ho : nd.output = [out]) (hl : g.consumedby.get? ind = some l) (hx : x ∈ l)
    (hne : ind ≠ out) (hcs : g.consumedby.get? out = none) :
    (g.producedby.get? ind = none → Skip.skipNode g x = .error .keyError) ∧
    (∀ p ps, g.producedby.get? ind = some (p :: ps) →
      (findNode g.nodemap p = none → Skip.skipNode g x = .error .keyError) ∧
      (∀ pn, findNode g.nodemap p = some pn → pn.output.length ≠ 1 → Skip.skipNode g x = .error .assertion)) := by
  have hi' : nd.input.filter (fun t => g.dynamics.contains t) = [ind] := by
    rw [← hi]; refine List.filter_congr fun t _ => ?_; simp
  have hc : l.contains x = true := by simpa using hx
  have hg : (g.consumedby.set ind (l.erase x)).get? out = none := by rw [Dict.get?_set, if_neg hne]; exact hcs
  unfold Skip.skipNode
  simp only [hn, hi', ho, hl, hc, if_true, hg]
  refine ⟨fun h => by simp only [h], fun p ps h => ?_⟩
  simp only [h, Skip.renameProducers]
  exact ⟨fun hp => by simp only [hp], fun pn hp h1 => by simp only [hp, if_neg h1]⟩

/-- a reader that does not exist -/
example : Skip.skipNode { planGraph with consumedby := [("x", ["a"]), ("t", ["b", "gone"])] } "a" = .error .keyError :=
  ((C114_skip_read { planGraph with consumedby := [("x", ["a"]), ("t", ["b", "gone"])] } "a" _ "x" "t" ["a"] ["b", "gone"] rfl (by decide) rfl rfl
    (by decide) (by decide) rfl) .keyError).mpr ⟨_, List.mem_cons_self .., rfl, "gone", by decide, by decide⟩

/-! ### fusing batch normalisations -/

section
variable {K : Type} [Field K]

/-- **C114, fusing into a convolution.** A match naming a node that does not exist raises KeyError. -/
theorem C114_fuse_unknown (sqrt : K → K) (eps : String → K) (st : ConvBN.St K) (m0 m1 : String) (rest : List String) (ms : List (List String))
    (h : findNode st.g.nodemap m0 = none ∨ findNode st.g.nodemap m1 = none) :
    ConvBN.fuseAll sqrt eps ((m0 :: m1 :: rest) :: ms) st = .error .keyError := by
  have : ConvBN.fuseOne sqrt eps st m0 m1 = .error .keyError := by
    unfold ConvBN.fuseOne
    rcases h with h | h
    · simp only [h]
    · cases h0 : findNode st.g.nodemap m0 <;> simp only [h]
  unfold ConvBN.fuseAll
  simp only [this]

/-- the constants a match needs, in the order they are read: the weight, then scale, shift, mean and variance; a missing operand raises
IndexError, an operand without constant KeyError -/
def firstMissing (env : String → Option (ConvBN.Tensor K)) (conv bn : Node) : Option PyErr :=
  [conv.input[1]?, bn.input[1]?, bn.input[2]?, bn.input[3]?, bn.input[4]?].findSome? fun o =>
    match o with
    | none => some .indexError
    | some t => if (env t).isSome then none else some .keyError

/-- **C114, constants of a fused pair.** The first missing constant decides the exception. -/
theorem C114_fuse_missing (sqrt : K → K) (eps : String → K) (st : ConvBN.St K) (m0 m1 : String) (rest : List String) (ms : List (List String))
    (conv bn : Node) (h0 : findNode st.g.nodemap m0 = some conv) (h1 : findNode st.g.nodemap m1 = some bn) (e : PyErr)
    (h : firstMissing st.env conv bn = some e) : ConvBN.fuseAll sqrt eps ((m0 :: m1 :: rest) :: ms) st = .error e := by
  have hl : ∀ (names : List String) (i : Nat),
      (∃ v, ConvBN.lookup st.env names i = .ok v) ∧ (match names[i]? with
        | none => some PyErr.indexError
        | some t => if (st.env t).isSome then none else some .keyError) = none ∨
      ∃ x, ConvBN.lookup st.env names i = .error x ∧ (match names[i]? with
        | none => some PyErr.indexError
        | some t => if (st.env t).isSome then none else some .keyError) = some x := by
    intro names i
    unfold ConvBN.lookup
    cases hn : names[i]? with
    | none => exact .inr ⟨_, rfl, rfl⟩
    | some t =>
      cases he : st.env t with
      | none => exact .inr ⟨.keyError, by simp only [he], by simp [he]⟩
      | some v => exact .inl ⟨⟨(t, v), by simp only [he]⟩, by simp [he]⟩
  have : ConvBN.fuseOne sqrt eps st m0 m1 = .error e := by
    unfold ConvBN.fuseOne
    unfold firstMissing at h
    simp only [List.findSome?_cons] at h
    simp only [h0, h1]
    rcases hl conv.input 1 with ⟨⟨v, hv⟩, hn⟩ | ⟨x, hv, hn⟩
    · simp only [hv]; simp only [hn] at h
      rcases hl bn.input 1 with ⟨⟨v, hv⟩, hn⟩ | ⟨x, hv, hn⟩
      · simp only [hv]; simp only [hn] at h
        rcases hl bn.input 2 with ⟨⟨v, hv⟩, hn⟩ | ⟨x, hv, hn⟩
        · simp only [hv]; simp only [hn] at h
          rcases hl bn.input 3 with ⟨⟨v, hv⟩, hn⟩ | ⟨x, hv, hn⟩
          · simp only [hv]; simp only [hn] at h
            rcases hl bn.input 4 with ⟨⟨v, hv⟩, hn⟩ | ⟨x, hv, hn⟩
            · simp only [hn] at h; cases h
            · simp only [hv]; simp only [hn] at h; cases h; rfl
          · simp only [hv]; simp only [hn] at h; cases h; rfl
        · simp only [hv]; simp only [hn] at h; cases h; rfl
      · simp only [hv]; simp only [hn] at h; cases h; rfl
    · simp only [hv]; simp only [hn] at h; cases h; rfl
  unfold ConvBN.fuseAll
  simp only [this]

/-- a normalisation without variance, and one whose mean is no constant -/
example : firstMissing (K := ℚ) (fun t => if t = "w" ∨ t = "s" ∨ t = "b" ∨ t = "m" then some ⟨[1], fun _ => 1⟩ else none)
      { name := "c", op := "Conv", input := ["x", "w"], output := ["t"] } { name := "n", op := "BatchNormalization", input := ["t", "s", "b", "m"], output := ["y"] } =
    some .indexError ∧
    firstMissing (K := ℚ) (fun t => if t = "w" ∨ t = "s" ∨ t = "b" then some ⟨[1], fun _ => 1⟩ else none)
      { name := "c", op := "Conv", input := ["x", "w"], output := ["t"] } { name := "n", op := "BatchNormalization", input := ["t", "s", "b", "m", "v"], output := ["y"] } =
    some .keyError := ⟨by simp [firstMissing], by simp [firstMissing]⟩

end

/-- **C114, fusing an empty region.** When no node lies between the given tensors, `fuse_subgraph_iotensors` raises IndexError. -/
theorem C114_fuse_empty (g : Graph) (inputs outputs : List String) (op : String) (pre : Option String) (a b : List String)
    (h : Subgraph.subnodesByIO g inputs outputs = .ok (a, [], b)) : Pattern.fuseByIO g inputs outputs op pre = .error .indexError := by
  unfold Pattern.fuseByIO
  simp only [h]
  rfl

end OnnxTool.Props
