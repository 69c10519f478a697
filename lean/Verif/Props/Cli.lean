import Verif.Spec.Cli
import Verif.Props.Tools
/-! # C92: command line arguments -/
namespace OnnxTool.Props
open OnnxTool OnnxTool.Cli

variable {V : Type}

/-! ### numbers -/

theorem natOf_text (n : Nat) : natOf (toString n).toList = .ok n := by
  unfold natOf
  rw [if_pos (digits_numeric n).1, (digits_numeric n).2]

theorem intOf_text (n : Nat) : intOf (toString n).toList = .ok (n : Int) := by
  have h1 := (digits_numeric n).1
  have h : intOf (toString n).toList = (natOf (toString n).toList).map fun n => (n : Int) := by
    generalize hs : (toString n).toList = s
    rw [hs] at h1
    obtain ⟨-, h2⟩ := (numeric_iff s).1 h1
    unfold intOf
    split
    · exact absurd (h2 '-' (by simp)) (by decide)
    · exact absurd (h2 '+' (by simp)) (by decide)
    · rfl
  rw [h, natOf_text]
  rfl

theorem listLoop_ok {α : Type} (conv : List Char → Except PyErr α) : ∀ (ss : List (List Char)) (vs : List α), ss.length = vs.length →
    (∀ (i : Nat) (s : List Char) (v : α), ss[i]? = some s → vs[i]? = some v → conv s = .ok v) → listLoop conv ss = .ok vs
  | [], [], _, _ => rfl
  | [], _ :: _, h, _ => by cases h
  | _ :: _, [], h, _ => by cases h
  | s :: ss, v :: vs, hl, h => by
    rw [listLoop, h 0 s v rfl rfl]
    simp only
    rw [listLoop_ok conv ss vs (by simpa using hl) fun i s v h1 h2 => h (i + 1) s v h1 h2]
    rfl

theorem listLoop_len {α : Type} (conv : List Char → Except PyErr α) : ∀ (ss : List (List Char)) (vs : List α), listLoop conv ss = .ok vs → vs.length = ss.length
  | [], vs, h => by injection h with h; subst h; rfl
  | s :: ss, vs, h => by
    rw [listLoop] at h
    cases hc : conv s with
    | error e => rw [hc] at h; cases h
    | ok a =>
      rw [hc] at h
      simp only at h
      cases hr : listLoop conv ss with
      | error e => rw [hr] at h; cases h
      | ok r =>
        rw [hr] at h
        injection h with h
        subst h
        simp [listLoop_len conv ss r hr]

theorem listLoop_error {α : Type} (conv : List Char → Except PyErr α) (e : PyErr) : ∀ (ss : List (List Char)), (∀ s ∈ ss, (∃ v, conv s = .ok v) ∨ conv s = .error e) →
    (∃ s ∈ ss, conv s = .error e) → listLoop conv ss = .error e
  | [], _, ⟨s, hs, _⟩ => by cases hs
  | s :: ss, h, ⟨s', hs', he⟩ => by
    rw [listLoop]
    rcases h s (by simp) with ⟨v, hv⟩ | hv
    · rw [hv]
      simp only
      rw [listLoop_error conv e ss (fun t ht => h t (List.mem_cons_of_mem _ ht))]
      · rfl
      · rcases List.mem_cons.1 hs' with rfl | hs'
        · rw [hv] at he; cases he
        · exact ⟨s', hs', he⟩
    · rw [hv]

theorem dims_list {dims : List Nat} (hne : dims ≠ []) : listOf intOf (dimsText dims) = .ok (dims.map fun d : Nat => (d : Int)) := by
  unfold listOf dimsText
  rw [List.splitOn_intercalate]
  · refine listLoop_ok intOf _ _ (by simp) ?_
    intro i s v h1 h2
    rw [List.getElem?_map] at h1 h2
    cases hd : dims[i]? with
    | none => rw [hd] at h1; cases h1
    | some d =>
      rw [hd] at h1 h2
      injection h1 with h1; injection h2 with h2
      subst h1; subst h2
      exact intOf_text d
  · intro l hl
    obtain ⟨d, -, rfl⟩ := List.mem_map.1 hl
    exact digits_no_x d
  · simpa using hne

theorem dims_no_colon (dims : List Nat) : ':' ∉ dimsText dims := by
  intro h
  unfold dimsText at h
  have key : ∀ l : List (List Char), ':' ∈ ['x'].intercalate l → ∃ s ∈ l, ':' ∈ s := by
    intro l
    induction l with
    | nil => intro h; simp at h
    | cons a l ih =>
      intro h
      cases l with
      | nil => exact ⟨a, by simp, by simpa using h⟩
      | cons b l =>
        rw [List.intercalate_cons_of_ne_nil (by simp), List.mem_append, List.mem_append] at h
        rcases h with (h | h) | h
        · exact ⟨a, by simp, h⟩
        · simp at h
        · obtain ⟨s, h1, h2⟩ := ih h
          exact ⟨s, List.mem_cons_of_mem _ h1, h2⟩
  obtain ⟨s, h1, h2⟩ := key _ h
  obtain ⟨d, -, rfl⟩ := List.mem_map.1 h1
  exact absurd (Report.digit_of_mem h2) (by decide)

theorem cast_toNat (dims : List Nat) : (dims.map fun d : Nat => (d : Int)).map (fun a : Int => a.toNat) = dims := by
  rw [List.map_map]
  conv_rhs => rw [← List.map_id dims]
  exact List.map_congr_left fun d _ => by simp

theorem cast_nonneg (dims : List Nat) : (dims.map fun d : Nat => (d : Int)).all (0 ≤ ·) = true := by
  rw [List.all_eq_true]
  intro x hx
  obtain ⟨d, -, rfl⟩ := List.mem_map.1 hx
  simp

theorem numpyType_text {dt : DT} {ty : List Char} (h : typeText dt = some ty) : numpyType ty = some dt ∧ ':' ∉ ty := by
  cases dt with
  | f64 => cases h
  | f32 => injection h with h; subst h; constructor <;> decide
  | i32 => injection h with h; subst h; constructor <;> decide

theorem split_colons {parts : List (List Char)} (hne : parts ≠ []) (h : ∀ s ∈ parts, ':' ∉ s) : (colons parts).splitOn ':' = parts := by
  unfold colons
  exact List.splitOn_intercalate ':' h hne

/-! ### C92 -/

/-- **C92**, shapes: `name:type:AxBxC` with a documented type and a name without colon gives the zero array of that type and shape under that name.  (All ranks from 1, all sizes.) -/
theorem C92_shape (elem : DT → List Char → Except PyErr V) (zero : V) {name ty : List Char} {dt : DT} {dims : List Nat} (hname : ':' ∉ name) (hty : typeText dt = some ty)
    (hd : dims ≠ []) : dynamicArg elem zero (colons [name, ty, dimsText dims]) = .ok (name, ⟨dt, dims, List.replicate (count dims) zero⟩) := by
  obtain ⟨t1, t2⟩ := numpyType_text hty
  unfold dynamicArg
  rw [split_colons (by simp) (by simp [hname, t2, dims_no_colon])]
  simp only
  rw [dims_list hd]
  simp only
  unfold zeros
  rw [if_pos (cast_nonneg dims), cast_toNat, t1]
  rfl

/-- **C92**, values: `name:type:AxBxC:v1xv2x…` with as many values as the shape has elements gives that array, the values in row-major order; with any other number of values it raises
`ValueError`. -/
theorem C92_values (elem : DT → List Char → Except PyErr V) (zero : V) {name ty : List Char} {dt : DT} {dims : List Nat} {texts : List (List Char)} {vals : List V}
    (hname : ':' ∉ name) (hty : typeText dt = some ty) (hd : dims ≠ []) (ht : texts ≠ []) (hx : ∀ s ∈ texts, 'x' ∉ s ∧ ':' ∉ s)
    (hl : texts.length = vals.length) (hv : ∀ (i : Nat) (s : List Char) (v : V), texts[i]? = some s → vals[i]? = some v → elem dt s = .ok v) :
    dynamicArg elem zero (colons [name, ty, dimsText dims, ['x'].intercalate texts]) =
      if vals.length = count dims then .ok (name, ⟨dt, dims, vals⟩) else .error .valueError := by
  obtain ⟨t1, t2⟩ := numpyType_text hty
  have key : ∀ l : List (List Char), (∀ s ∈ l, ':' ∉ s) → ':' ∉ ['x'].intercalate l := by
    intro l
    induction l with
    | nil => intro _ h; simp at h
    | cons a l ih =>
      intro hs h
      cases l with
      | nil => exact hs a (by simp) (by simpa using h)
      | cons b l =>
        rw [List.intercalate_cons_of_ne_nil (by simp), List.mem_append, List.mem_append] at h
        rcases h with (h | h) | h
        · exact hs a (by simp) h
        · simp at h
        · exact ih (fun s hs' => hs s (List.mem_cons_of_mem _ hs')) h
  unfold dynamicArg
  rw [split_colons (by simp) (by
    intro s hs
    rcases List.mem_cons.1 hs with rfl | hs
    · exact hname
    rcases List.mem_cons.1 hs with rfl | hs
    · exact t2
    rcases List.mem_cons.1 hs with rfl | hs
    · exact dims_no_colon dims
    rcases List.mem_cons.1 hs with rfl | hs
    · exact key texts fun s hs => (hx s hs).2
    · cases hs)]
  simp only
  rw [dims_list hd]
  simp only
  have hlist : listOf (elem dt) (['x'].intercalate texts) = .ok vals := by
    unfold listOf
    rw [List.splitOn_intercalate 'x' (fun l hl => (hx l hl).1) ht]
    exact listLoop_ok _ _ _ hl hv
  unfold withValues
  rw [t1]
  simp only
  rw [hlist]
  simp only
  unfold reshape
  rw [if_pos (cast_nonneg dims), cast_toNat]
  by_cases hc : vals.length = count dims
  · rw [if_pos hc, if_pos hc]; rfl
  · rw [if_neg hc, if_neg hc]; rfl

/-- **C92**, whatever is accepted is well formed: the array has as many elements as its shape says, and its name is the text before the first colon. -/
theorem C92_well_formed {elem : DT → List Char → Except PyErr V} {zero : V} {arg name : List Char} {a : Arr V} (h : dynamicArg elem zero arg = .ok (name, a)) :
    a.data.length = count a.shape ∧ ∃ rest, arg = name ++ ':' :: rest ∧ ':' ∉ name := by
  unfold dynamicArg at h
  split at h
  case h_2 => cases h
  rename_i nm ty dims rest hs
  split at h
  · cases h
  rename_i shape hshape
  have hname : ∃ r, arg = nm ++ ':' :: r ∧ ':' ∉ nm := by
    have h1 : [':'].intercalate (arg.splitOn ':') = arg := List.intercalate_splitOn ':'
    refine ⟨[':'].intercalate (ty :: dims :: rest), ?_, Report.not_mem_splitOn (by rw [hs]; simp)⟩
    rw [hs, List.intercalate_cons_of_ne_nil (by simp)] at h1
    rw [← h1]
    simp
  split at h
  · unfold zeros at h
    split at h
    · injection h with h
      rw [Prod.mk.injEq] at h
      obtain ⟨h1, h2⟩ := h
      subst h1; subst h2
      exact ⟨by simp, hname⟩
    · cases h
  · unfold withValues at h
    split at h
    · cases h
    split at h
    · cases h
    rename_i dt _ data hdata
    unfold reshape at h
    split at h
    · split at h
      · rename_i hc
        injection h with h
        rw [Prod.mk.injEq] at h
        obtain ⟨h1, h2⟩ := h
        subst h1; subst h2
        exact ⟨hc, hname⟩
      · cases h
    · simp only [] at h
      split at h
      · rename_i hneg hc
        injection h with h
        rw [Prod.mk.injEq] at h
        obtain ⟨h1, h2⟩ := h
        subst h1; subst h2
        refine ⟨?_, hname⟩
        obtain ⟨c1, c2, c3⟩ := hc
        have gen : ∀ (s : List Int) (m : Nat), count (s.map fun d => if d < 0 then m else d.toNat) =
            count ((s.filter (0 ≤ ·)).map fun a : Int => a.toNat) * m ^ (s.filter (· < 0)).length := by
          intro s m
          induction s with
          | nil => rfl
          | cons d s ih =>
            by_cases hd : d < 0
            · rw [List.filter_cons_of_neg (by simp; omega), List.filter_cons_of_pos (by simpa using hd), List.map_cons, if_pos hd]
              show m * count _ = _
              rw [ih, List.length_cons, Nat.pow_succ]
              ac_rfl
            · rw [List.filter_cons_of_pos (by simp; omega), List.filter_cons_of_neg (by simpa using hd), List.map_cons, if_neg hd, List.map_cons]
              show d.toNat * count _ = d.toNat * count _ * _
              rw [ih]
              ac_rfl
        show data.length = count (shape.map _)
        rw [gen, c1]
        simp only [List.length_cons, List.length_nil, Nat.pow_one, Nat.zero_add]
        rw [Nat.mul_div_cancel' (Nat.dvd_of_mod_eq_zero c3)]
      · cases h

/-- **C92 finding**: no tensor whose name contains a colon (`input:0`) can be given: every accepted argument is for another name. -/
theorem C92_no_colon_name {elem : DT → List Char → Except PyErr V} {zero : V} {arg name : List Char} {a : Arr V} (hc : ':' ∈ name) : dynamicArg elem zero arg ≠ .ok (name, a) :=
  fun h => by
    obtain ⟨-, r, -, h2⟩ := C92_well_formed h
    exact h2 hc

/-- **C92 finding**: any other type name (`int64`, `f16`, `float32`, …) silently gives `float64` zeros; with values it raises `TypeError`. -/
theorem C92_other_type (elem : DT → List Char → Except PyErr V) (zero : V) {name ty vals : List Char} {dims : List Nat} (hname : ':' ∉ name) (hty : ':' ∉ ty)
    (h1 : ty ≠ "f32".toList) (h2 : ty ≠ "int32".toList) (hd : dims ≠ []) (hvals : ':' ∉ vals) :
    dynamicArg elem zero (colons [name, ty, dimsText dims]) = .ok (name, ⟨.f64, dims, List.replicate (count dims) zero⟩) ∧
    dynamicArg elem zero (colons [name, ty, dimsText dims, vals]) = .error .typeError := by
  have t1 : numpyType ty = none := by unfold numpyType; rw [if_neg h1, if_neg h2]
  constructor
  · unfold dynamicArg
    rw [split_colons (by simp) (by simp [hname, hty, dims_no_colon])]
    simp only
    rw [dims_list hd]
    simp only
    unfold zeros
    rw [if_pos (cast_nonneg dims), cast_toNat, t1]
    rfl
  · unfold dynamicArg
    rw [split_colons (by simp) (by simp [hname, hty, hvals, dims_no_colon])]
    simp only
    rw [dims_list hd]
    simp only
    rw [t1]
    rfl

/-- **C92 finding**: the short form `input:1x3x224x224` that the help text of `--dynamic_shapes` also gives raises `IndexError` when profiling. -/
theorem C92_short_form (elem : DT → List Char → Except PyErr V) (zero : V) {name text : List Char} (hname : ':' ∉ name) (ht : ':' ∉ text) :
    dynamicArg elem zero (colons [name, text]) = .error .indexError := by
  unfold dynamicArg
  rw [split_colons (by simp) (by simp [hname, ht])]

/-- **C92**: a scalar cannot be given: an empty shape raises `ValueError`. -/
theorem C92_scalar (elem : DT → List Char → Except PyErr V) (zero : V) {name ty : List Char} (hname : ':' ∉ name) (hty : ':' ∉ ty) :
    dynamicArg elem zero (colons [name, ty, []]) = .error .valueError := by
  unfold dynamicArg
  rw [split_colons (by simp) (by simp [hname, hty])]
  rfl

/-- **C92**, several arguments: every name gets the array of the last argument given for it. -/
theorem C92_last_wins (elem : DT → List Char → Except PyErr V) (zero : V) : ∀ (args : List (List Char)) (res : List (List Char × Arr V)) (d : List Char → Option (Arr V)),
    args.length = res.length → (∀ (i : Nat) a r, args[i]? = some a → res[i]? = some r → dynamicArg elem zero a = .ok r) →
    ∃ d', dynamicArgs elem zero args d = .ok d' ∧ ∀ k, d' k = match res.reverse.find? (·.1 = k) with | some r => some r.2 | none => d k
  | [], [], d, _, _ => ⟨d, rfl, fun _ => rfl⟩
  | [], _ :: _, _, h, _ => by cases h
  | _ :: _, [], _, h, _ => by cases h
  | a :: args, (n, x) :: res, d, hl, h => by
    obtain ⟨d', h1, h2⟩ := C92_last_wins elem zero args res (fun k => if k = n then some x else d k) (by simpa using hl) fun i a r ha hr => h (i + 1) a r ha hr
    refine ⟨d', ?_, fun k => ?_⟩
    · rw [dynamicArgs, h 0 a (n, x) rfl rfl]; exact h1
    · rw [h2 k, List.reverse_cons, List.find?_append]
      cases hf : res.reverse.find? (·.1 = k) with
      | some r => rfl
      | none =>
        by_cases e : k = n
        · subst e; simp
        · have : n ≠ k := fun h => e h.symm
          simp [e, this]

/-- **C92**, `io_modify`: `name:shape` gives exactly that text for that name, so (C87) sets that shape; but a name with a colon is cut, and the long form `name:f32:1x3` gives `f32` as the
shape. -/
theorem C92_io (name text : List Char) (rest : List (List Char)) (hname : ':' ∉ name) (ht : ':' ∉ text) (hr : ∀ s ∈ rest, ':' ∉ s) :
    strArg (colons (name :: text :: rest)) = .ok (name, text) := by
  unfold strArg
  rw [split_colons (by simp) (by
    intro s hs
    rcases List.mem_cons.1 hs with rfl | hs
    · exact hname
    rcases List.mem_cons.1 hs with rfl | hs
    · exact ht
    · exact hr s hs)]

/-- **C92**, the shapes of `io_modify`: every tensor mentioned gets the text of its last mention, the others keep what they had. -/
theorem C92_io_last_wins : ∀ (args : List (List Char)) (res : List (List Char × List Char)) (d : List Char → Option (List Char)),
    args.length = res.length → (∀ (i : Nat) a r, args[i]? = some a → res[i]? = some r → strArg a = .ok r) →
    ∃ d', strArgs args d = .ok d' ∧ ∀ k, d' k = match res.reverse.find? (·.1 = k) with | some r => some r.2 | none => d k
  | [], [], d, _, _ => ⟨d, rfl, fun _ => rfl⟩
  | [], _ :: _, _, h, _ => by cases h
  | _ :: _, [], _, h, _ => by cases h
  | a :: args, (n, x) :: res, d, hl, h => by
    obtain ⟨d', h1, h2⟩ := C92_io_last_wins args res (fun k => if k = n then some x else d k) (by simpa using hl) fun i a r ha hr => h (i + 1) a r ha hr
    refine ⟨d', ?_, fun k => ?_⟩
    · rw [strArgs, h 0 a (n, x) rfl rfl]; exact h1
    · rw [h2 k, List.reverse_cons, List.find?_append]
      cases hf : res.reverse.find? (·.1 = k) with
      | some r => rfl
      | none =>
        by_cases e : k = n
        · subst e; simp
        · have : n ≠ k := fun h => e h.symm
          simp [e, this]

example : ∃ d', strArgs ["a:1x3".toList, "b:2".toList, "a:4".toList] (fun _ => none) = .ok d' ∧ d' "a".toList = some "4".toList ∧ d' "b".toList = some "2".toList := by
  obtain ⟨d', h1, h2⟩ := C92_io_last_wins ["a:1x3".toList, "b:2".toList, "a:4".toList] [("a".toList, "1x3".toList), ("b".toList, "2".toList), ("a".toList, "4".toList)] (fun _ => none) rfl (by
    intro i a r ha hr
    match i, ha, hr with
    | 0, ha, hr => injection ha with ha; injection hr with hr; subst ha; subst hr; rfl
    | 1, ha, hr => injection ha with ha; injection hr with hr; subst ha; subst hr; rfl
    | 2, ha, hr => injection ha with ha; injection hr with hr; subst ha; subst hr; rfl
    | _ + 3, ha, _ => simp at ha)
  exact ⟨d', h1, (h2 _).trans rfl, (h2 _).trans rfl⟩

/-- **C92 finding**, composed with C87: the documented long form given to `io_modify` raises `AssertionError` for every tensor whose rank is not 1. -/
theorem C92_io_long_form (name shape : List Char) (hname : ':' ∉ name) (hs : ':' ∉ shape) (old : List Tools.Dim) (hold : old.length ≠ 1) :
    (strArg (colons [name, "f32".toList, shape])).bind (fun r => Tools.modifyDims old r.2) = .error .assertion := by
  rw [C92_io name "f32".toList [shape] hname (by decide) (by simpa using hs)]
  show Tools.modifyDims old "f32".toList = _
  rw [C87_rank]
  intro h
  exact hold (by rw [← h]; decide)

/-- **C92**, composed with C87: `name:AxBxC` given to `io_modify` sets exactly the shape `A, B, C` of the tensor of that rank. -/
theorem C92_io_sets_shape (name : List Char) (hname : ':' ∉ name) (old new : List Tools.Dim) (hl : old.length = new.length) (hne : new ≠ [])
    (hex : ∀ d ∈ new, Tools.Expressible d) (hc : ':' ∉ Tools.render new) :
    (strArg (colons [name, Tools.render new])).bind (fun r => Tools.modifyDims old r.2) = .ok new := by
  rw [C92_io name (Tools.render new) [] hname hc (by simp)]
  exact (C87_set_shape_partial old new hl hne).2 hex

/-- **C92**, `--exclude-ops`: the comma separated list of operator types gives exactly these types; without the option nothing is excluded. -/
theorem C92_exclude (ops : List (List Char)) (hne : ops ≠ [[]]) (hne' : ops ≠ []) (h : ∀ s ∈ ops, ',' ∉ s) :
    excludeOps (some ([','].intercalate ops)) = some ops ∧ excludeOps none = none ∧ excludeOps (some []) = none := by
  refine ⟨?_, rfl, rfl⟩
  have hs := List.splitOn_intercalate ',' h hne'
  generalize [','].intercalate ops = s at hs
  cases s with
  | nil => exact absurd hs.symm (by simpa using hne)
  | cons c s => exact congrArg some hs

/-- the documented examples -/
example : (dynamicArg (fun _ s => intOf s) 0 "input:f32:1x3".toList).toOption = some ("input".toList, ⟨.f32, [1, 3], [0, 0, 0]⟩) := by decide
example : (dynamicArg (fun _ s => intOf s) 0 "scale:int32:1x2:5x-7".toList).toOption = some ("scale".toList, ⟨.i32, [1, 2], [5, -7]⟩) := by decide
example : (dynamicArg (fun _ s => intOf s) 0 "input:0:f32:1x3".toList).toOption = none := by decide
example : colons ["input".toList, "f32".toList, dimsText [1, 3, 224]] = "input:f32:1x3x224".toList := by decide

end OnnxTool.Props
