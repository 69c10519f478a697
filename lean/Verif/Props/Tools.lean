import Verif.Spec.Tools
import Verif.Proofs.Report
/-! # C86 and C87: exporting weights, changing the shapes of inputs and outputs -/
namespace OnnxTool.Props
open OnnxTool OnnxTool.Tools

/-! ### paths -/

theorem exportName_safe {key : List Char} (h : '\\' ∉ key) : exportName key = safeName key := by
  unfold exportName safeName
  simp only [if_neg h]
  by_cases hs : '/' ∈ key
  · rw [if_pos hs]
    refine List.map_congr_left fun c hc => ?_
    by_cases e : c = '/'
    · simp [e]
    · have : c ≠ '\\' := fun e => h (e ▸ hc)
      simp [e, this]
  · rw [if_neg hs]
    conv_lhs => rw [← List.map_id key]
    refine List.map_congr_left fun c hc => ?_
    have h1 : c ≠ '/' := fun e => hs (e ▸ hc)
    have h2 : c ≠ '\\' := fun e => h (e ▸ hc)
    simp [h1, h2]

theorem safe_no_slash (key : List Char) : '/' ∉ safeName key := by
  intro h
  obtain ⟨c, -, hc⟩ := List.mem_map.mp h
  by_cases e : c = '/' ∨ c = '\\'
  · rw [if_pos e] at hc; exact absurd hc (by decide)
  · rw [if_neg e] at hc; exact e (.inl hc)

theorem npy_no_slash : '/' ∉ ".npy".toList := by decide

theorem dirOf_append (p n : List Char) (h : '/' ∉ n) : dirOf (p ++ '/' :: n) = p := by
  unfold dirOf
  have : (p ++ '/' :: n).reverse = n.reverse ++ '/' :: p.reverse := by simp
  rw [this, List.dropWhile_append_of_pos]
  · simp
  · intro c hc
    have : c ≠ '/' := fun e => h (e ▸ List.mem_reverse.mp hc)
    simpa using this

/-- joining a folder and a name without separators -/
theorem join_name {f : List Char} (hf : f ≠ []) : ∃ p, dirOf (join f ['x']) = p ∧ ∀ n, '/' ∉ n → join f n = p ++ '/' :: n := by
  have hx : ∀ n : List Char, '/' ∉ n → n.head? ≠ some '/' := by
    intro n hn e
    cases n with
    | nil => cases e
    | cons c n => simp only [List.head?_cons, Option.some.injEq] at e; subst e; exact hn List.mem_cons_self
  by_cases hl : f.getLast? = some '/'
  · obtain ⟨p, rfl⟩ : ∃ p, f = p ++ ['/'] := by
      refine ⟨f.dropLast, ?_⟩
      conv_lhs => rw [← List.dropLast_append_getLast? '/' hl]
    have key : ∀ n, '/' ∉ n → join (p ++ ['/']) n = p ++ '/' :: n := by
      intro n hn
      unfold join
      rw [if_neg (hx n hn), if_pos (.inr hl)]
      simp
    exact ⟨p, by rw [key _ (by decide)]; exact dirOf_append _ _ (by decide), key⟩
  · have key : ∀ n, '/' ∉ n → join f n = f ++ '/' :: n := by
      intro n hn
      unfold join
      rw [if_neg (hx n hn), if_neg (by rintro (h | h); exacts [hf h, hl h])]
    exact ⟨f, by rw [key _ (by decide)]; exact dirOf_append _ _ (by decide), key⟩

/-- the file of a tensor without backslashes in its name lies in the folder -/
theorem path_in_folder {f : List Char} (hf : f ≠ []) {key : List Char} (h : '\\' ∉ key) :
    exportPath f key = dirOf (join f ['x']) ++ '/' :: (safeName key ++ ".npy".toList) ∧ dirOf (exportPath f key) = dirOf (join f ['x']) := by
  obtain ⟨p, hp, hj⟩ := join_name hf
  have hs : '/' ∉ safeName key ++ ".npy".toList := by
    intro hm
    rcases List.mem_append.mp hm with hm | hm
    · exact safe_no_slash _ hm
    · exact npy_no_slash hm
  rw [hp]
  unfold exportPath
  rw [exportName_safe h, hj _ hs]
  exact ⟨rfl, dirOf_append _ _ hs⟩

theorem path_inj {f : List Char} (hf : f ≠ []) {a b : List Char} (ha : '\\' ∉ a) (hb : '\\' ∉ b) : exportPath f a = exportPath f b ↔ safeName a = safeName b := by
  rw [(path_in_folder hf ha).1, (path_in_folder hf hb).1]
  constructor
  · intro h
    have := List.append_cancel_left h
    injection this with _ h
    exact List.append_cancel_right h
  · intro h; rw [h]

/-! ### exporting -/

/-- what the loop leaves in a file: the last array written there -/
theorem exportLoop_spec {α : Type} (half : α → α) (isFloat : α → Bool) (fp16 : Bool) (f : List Char) : ∀ (l : List (List Char × α)) (fs : FileSys α),
    (∀ x ∈ l, fs.dirs (dirOf (exportPath f x.1)) = true) →
    ∃ fs', exportLoop half isFloat fp16 f l fs = (fs', true) ∧ fs'.dirs = fs.dirs ∧
      ∀ p, fs'.files p = match (l.filter fun x => exportPath f x.1 = p).getLast? with
        | some x => some (converted half isFloat fp16 x.2)
        | none => fs.files p
  | [], fs, _ => ⟨fs, rfl, rfl, fun _ => rfl⟩
  | (k, a) :: l, fs, h => by
    have hd := h (k, a) List.mem_cons_self
    obtain ⟨fs', h1, h2, h3⟩ := exportLoop_spec half isFloat fp16 f l
      { fs with files := fun p => if p = exportPath f k then some (converted half isFloat fp16 a) else fs.files p } fun x hx => h x (List.mem_cons_of_mem _ hx)
    refine ⟨fs', ?_, h2, fun p => ?_⟩
    · rw [exportLoop, save, if_pos hd]
      exact h1
    · rw [h3]
      by_cases e : exportPath f k = p
      · rw [List.filter_cons_of_pos (by simpa using e)]
        cases hl : (l.filter fun x => exportPath f x.1 = p).getLast? with
        | none =>
          rw [List.getLast?_eq_none_iff] at hl
          rw [hl]
          simp [e]
        | some x => rw [List.getLast?_cons, hl]; rfl
      · rw [List.filter_cons_of_neg (by simpa using e)]
        cases hl : (l.filter fun x => exportPath f x.1 = p).getLast? with
        | none => simp only [if_neg (Ne.symm e)]
        | some x => rfl

theorem prepared {α : Type} {inits : List (List Char × α)} {f : List Char} (hf : f ≠ []) (h : ∀ x ∈ inits, '\\' ∉ x.1) (fs : FileSys α) :
    ∀ x ∈ inits, (prepare (some f) fs).2.dirs (dirOf (exportPath f x.1)) = true := by
  intro x hx
  rw [(path_in_folder hf (h x hx)).2]
  simp [prepare]

/-- **C86 (partial)**: if no initializer has a backslash in its name, and the names stay different when their separators are replaced, then exporting writes each initializer — in float16 if
wanted — to its own file in the folder, named after it, and changes no other file. -/
theorem C86_export_partial {α : Type} (half : α → α) (isFloat : α → Bool) (fp16 : Bool) (inits : List (List Char × α)) (f : List Char) (hf : f ≠ []) (fs : FileSys α)
    (hb : ∀ x ∈ inits, '\\' ∉ x.1) (hn : (inits.map fun x => safeName x.1).Nodup) :
    ∃ fs' d, exportTensors half isFloat fp16 inits none (some f) fs = (fs', true) ∧ d = dirOf (join f ['x']) ∧
      (∀ x ∈ inits, fs'.files (d ++ '/' :: (safeName x.1 ++ ".npy".toList)) = some (if fp16 ∧ isFloat x.2 then half x.2 else x.2)) ∧
      ∀ p, (∀ x ∈ inits, p ≠ d ++ '/' :: (safeName x.1 ++ ".npy".toList)) → fs'.files p = fs.files p := by
  obtain ⟨fs', h1, -, h3⟩ := exportLoop_spec half isFloat fp16 f inits (prepare (some f) fs).2 (prepared hf hb fs)
  refine ⟨fs', _, h1, rfl, fun x hx => ?_, fun p hp => ?_⟩
  · rw [h3]
    have : (inits.filter fun y => exportPath f y.1 = dirOf (join f ['x']) ++ '/' :: (safeName x.1 ++ ".npy".toList)) = [x] := by
      rw [← (path_in_folder hf (hb x hx)).1]
      have e : (inits.filter fun y => exportPath f y.1 = exportPath f x.1) = inits.filter fun y => safeName y.1 = safeName x.1 :=
        List.filter_congr fun y hy => by simp only [path_inj hf (hb y hy) (hb x hx)]
      rw [e]
      clear h1 h3 e hb
      induction inits with
      | nil => cases hx
      | cons y ys ih =>
        rw [List.map_cons, List.nodup_cons] at hn
        rcases List.mem_cons.mp hx with rfl | hx
        · rw [List.filter_cons_of_pos (by simp), List.filter_eq_nil_iff.mpr]
          intro z hz e
          exact hn.1 (List.mem_map.mpr ⟨z, hz, by simpa using e⟩)
        · rw [List.filter_cons_of_neg, ih hn.2 hx]
          intro e
          exact hn.1 (List.mem_map.mpr ⟨x, hx, by simpa using (by simpa using e : safeName y.1 = safeName x.1).symm⟩)
    rw [this]
    simp only [List.getLast?_singleton, converted, Bool.and_eq_true]
  · rw [h3]
    have : (inits.filter fun y => exportPath f y.1 = p) = [] := by
      refine List.filter_eq_nil_iff.mpr fun y hy e => ?_
      refine hp y hy ?_
      rw [← (path_in_folder hf (hb y hy)).1]
      exact (by simpa using e : exportPath f y.1 = p).symm
    rw [this]
    rfl

/-- **C86, a selection**: naming the tensors to export is the same as exporting a graph with these initializers; names that are not initializers are ignored. -/
theorem C86_selection {α : Type} (half : α → α) (isFloat : α → Bool) (fp16 : Bool) (inits : List (List Char × α)) (names : List (List Char)) (folder : Option (List Char)) (fs : FileSys α) :
    exportTensors half isFloat fp16 inits (some names) folder fs = exportTensors half isFloat fp16 (names.filterMap fun n => inits.find? (·.1 == n)) none folder fs := rfl

/-- **C86 finding: overwritten weights.** Of several initializers whose names differ only in separators and underscores, the file holds the last one; the others are lost, without a warning. -/
theorem C86_overwrites {α : Type} (half : α → α) (isFloat : α → Bool) (inits : List (List Char × α)) (f : List Char) (hf : f ≠ []) (fs : FileSys α) (hb : ∀ x ∈ inits, '\\' ∉ x.1)
    (before between after : List (List Char × α)) (k k' : List Char) (a a' : α) (hi : inits = before ++ (k, a) :: between ++ (k', a') :: after) (he : safeName k = safeName k')
    (hl : ∀ x ∈ after, safeName x.1 ≠ safeName k') :
    ∃ fs', exportTensors half isFloat false inits none (some f) fs = (fs', true) ∧ exportPath f k = exportPath f k' ∧ fs'.files (exportPath f k) = some a' := by
  obtain ⟨fs', h1, -, h3⟩ := exportLoop_spec half isFloat false f inits (prepare (some f) fs).2 (prepared hf hb fs)
  have hk : '\\' ∉ k := hb (k, a) (by rw [hi]; simp)
  have hk' : '\\' ∉ k' := hb (k', a') (by rw [hi]; simp)
  have hp := (path_inj hf hk hk').mpr he
  refine ⟨fs', h1, hp, ?_⟩
  rw [h3, hp]
  have hnil : (after.filter fun x => exportPath f x.1 = exportPath f k') = [] := by
    refine List.filter_eq_nil_iff.mpr fun x hx e => hl x hx ?_
    exact (path_inj hf (hb x (by rw [hi]; simp [hx])) hk').mp (by simpa using e)
  have : (inits.filter fun x => exportPath f x.1 = exportPath f k') = ((before ++ (k, a) :: between).filter fun x => exportPath f x.1 = exportPath f k') ++ [(k', a')] := by
    rw [hi, List.filter_append, List.filter_cons_of_pos (by simp), hnil]
  rw [this, List.getLast?_concat]
  rfl

/-- **C86 finding: outside of the folder.** A tensor whose name begins with `/` and contains a backslash is written to an absolute path taken from its name, whatever the folder is: the second
replacement starts again from the original name. -/
theorem C86_absolute_path (folder key : List Char) (h : '\\' ∈ key) (hs : key.head? = some '/') : exportPath folder key = (key.map fun c => if c = '\\' then '_' else c) ++ ".npy".toList := by
  unfold exportPath exportName
  simp only [if_pos h]
  cases key with
  | nil => cases hs
  | cons c key =>
    simp only [List.head?_cons, Option.some.injEq] at hs
    subst hs
    unfold join
    rw [if_pos]
    simp

/-- **C86 finding: both separators.** A name with a backslash keeps its slashes, so its directory has to exist; if it does not, the export stops there: the files written before stay, the later
tensors are not written. -/
theorem C86_missing_directory {α : Type} (half : α → α) (isFloat : α → Bool) (fp16 : Bool) (f : List Char) (before after : List (List Char × α)) (key : List Char) (a : α) (fs : FileSys α)
    (hd : ∀ x ∈ before, fs.dirs (dirOf (exportPath f x.1)) = true) (hm : fs.dirs (dirOf (exportPath f key)) = false) :
    ∃ fs', exportLoop half isFloat fp16 f (before ++ (key, a) :: after) fs = (fs', false) ∧ exportLoop half isFloat fp16 f before fs = (fs', true) := by
  induction before generalizing fs with
  | nil => exact ⟨fs, by simp [exportLoop, save, hm], rfl⟩
  | cons x before ih =>
    obtain ⟨k, b⟩ := x
    have h0 := hd (k, b) List.mem_cons_self
    obtain ⟨fs', h1, h2⟩ := ih { fs with files := fun p => if p = exportPath f k then some (converted half isFloat fp16 b) else fs.files p }
      (fun x hx => hd x (List.mem_cons_of_mem _ hx)) hm
    refine ⟨fs', ?_, ?_⟩
    · rw [List.cons_append, exportLoop, save, if_pos h0]; exact h1
    · rw [exportLoop, save, if_pos h0]; exact h2

/-! ### changing shapes -/

theorem numeric_iff (s : List Char) : isNumeric s = true ↔ s ≠ [] ∧ ∀ c ∈ s, c.isDigit = true := by
  unfold isNumeric
  simp [List.all_eq_true]

theorem digits_numeric (n : Nat) : isNumeric (toString n).toList = true ∧ Nat.ofDigitChars 10 (toString n).toList 0 = n := by
  have h : (toString n).toList = Nat.toDigits 10 n := Nat.toList_repr
  refine ⟨(numeric_iff _).mpr ⟨?_, fun c hc => Report.digit_of_mem hc⟩, ?_⟩
  · rw [h]; exact Nat.toDigits_ne_nil
  · rw [h]; exact Nat.ofDigitChars_toDigits (by omega) (by omega)

theorem digits_no_x (n : Nat) : 'x' ∉ (toString n).toList := fun h => absurd (Report.digit_of_mem h) (by decide)

/-- the text for one dimension -/
def dimText : Dim → List Char
  | .value n => (toString n).toList
  | .param s => s
  | .unset => []

theorem render_eq (dims : List Dim) : render dims = ['x'].intercalate (dims.map dimText) := rfl

theorem dimOf_text {d : Dim} (h : Expressible d) : dimOf (dimText d) = d ∧ 'x' ∉ dimText d := by
  cases d with
  | value n => exact ⟨by rw [dimText, dimOf, if_pos (digits_numeric n).1, (digits_numeric n).2], digits_no_x n⟩
  | param s => exact ⟨by rw [dimText, dimOf, if_neg (fun e => h.2 ((numeric_iff s).mp e))], h.1⟩
  | unset => exact absurd h id

theorem dimOf_expressible {s : List Char} (h : 'x' ∉ s) : Expressible (dimOf s) := by
  unfold dimOf
  by_cases e : isNumeric s = true
  · rw [if_pos e]; exact trivial
  · rw [if_neg e]; exact ⟨h, fun h' => e ((numeric_iff s).mpr h')⟩

/-- **C87 (iff, partial)**: giving the text of a shape of the right rank sets exactly that shape, if — and only if — its names are not numbers and contain no `x`. -/
theorem C87_set_shape_partial (old new : List Dim) (hl : old.length = new.length) (hne : new ≠ []) : modifyDims old (render new) = .ok new ↔ ∀ d ∈ new, Expressible d := by
  constructor
  · intro h
    unfold modifyDims at h
    split at h
    · injection h with h
      intro d hd
      rw [← h] at hd
      obtain ⟨s, hs, rfl⟩ := List.mem_map.mp hd
      exact dimOf_expressible (Report.not_mem_splitOn hs)
    · cases h
  · intro h
    have hs : (render new).splitOn 'x' = new.map dimText := by
      rw [render_eq, List.splitOn_intercalate]
      · intro l hl
        obtain ⟨d, hd, rfl⟩ := List.mem_map.mp hl
        exact (dimOf_text (h d hd)).2
      · simpa using hne
    unfold modifyDims
    rw [hs, List.length_map, if_pos hl.symm, List.map_map]
    congr 1
    conv_rhs => rw [← List.map_id new]
    exact List.map_congr_left fun d hd => (dimOf_text (h d hd)).1

/-- **C87, the other tensors** keep their shapes; the named ones get theirs. -/
theorem C87_all (custom : String → Option (List Dim)) (l : List (String × List Dim))
    (h : ∀ x ∈ l, ∀ new, custom x.1 = some new → x.2.length = new.length ∧ new ≠ [] ∧ ∀ d ∈ new, Expressible d) :
    modifyAll (fun n => (custom n).map render) l = .ok (l.map fun x => (x.1, (custom x.1).getD x.2)) := by
  induction l with
  | nil => rfl
  | cons x l ih =>
    obtain ⟨n, dims⟩ := x
    have ih := ih fun x hx => h x (List.mem_cons_of_mem _ hx)
    rw [modifyAll]
    cases hc : custom n with
    | none => simp only [Option.map_none, ih, List.map_cons, hc]; rfl
    | some new =>
      obtain ⟨h1, h2, h3⟩ := h (n, dims) List.mem_cons_self new hc
      simp only [Option.map_some, (C87_set_shape_partial dims new h1 h2).mpr h3, ih, List.map_cons, hc]
      rfl

/-- **C87, inputs and outputs** -/
theorem C87_io (custom : String → Option (List Dim)) (inputs outputs : List (String × List Dim))
    (h : ∀ x ∈ inputs ++ outputs, ∀ new, custom x.1 = some new → x.2.length = new.length ∧ new ≠ [] ∧ ∀ d ∈ new, Expressible d) :
    ioModify (fun n => (custom n).map render) inputs outputs =
      .ok (inputs.map (fun x => (x.1, (custom x.1).getD x.2)), outputs.map fun x => (x.1, (custom x.1).getD x.2)) := by
  unfold ioModify
  rw [C87_all custom inputs fun x hx => h x (List.mem_append_left _ hx), C87_all custom outputs fun x hx => h x (List.mem_append_right _ hx)]

theorem split_length (s : List Char) : (s.splitOn 'x').length = s.count 'x' + 1 := by
  induction s with
  | nil => rfl
  | cons c s ih =>
    rw [List.splitOn_cons_eq_if_modifyHead]
    by_cases e : c = 'x'
    · subst e; simp [ih]
    · rw [if_neg (by simpa using e), List.length_modifyHead, ih, List.count_cons_of_ne e]

/-- **C87, errors**: the call raises `AssertionError` exactly if the number of `x` in the text is not the rank less one. -/
theorem C87_rank (old : List Dim) (text : List Char) : modifyDims old text = .error .assertion ↔ text.count 'x' + 1 ≠ old.length := by
  unfold modifyDims
  rw [split_length]
  by_cases h : text.count 'x' + 1 = old.length
  · rw [if_pos h]; exact ⟨fun e => (by cases e), fun e => absurd h e⟩
  · rw [if_neg h]; exact ⟨fun _ => h, fun _ => rfl⟩

/-- **C87 finding: names with an `x`** (`max_length`, `index`) cannot be given: the text of a shape of the right rank that contains such a name is refused. -/
theorem C87_names_with_x (old new : List Dim) (hl : old.length = new.length) (s : List Char) (hx : 'x' ∈ s) (hm : Dim.param s ∈ new) : modifyDims old (render new) = .error .assertion := by
  rw [C87_rank]
  have key : ∀ l : List (List Char), l ≠ [] → (['x'].intercalate l).count 'x' + 1 = l.length + (l.map (·.count 'x')).sum := by
    intro l
    induction l with
    | nil => intro h; exact absurd rfl h
    | cons a l ih =>
      intro _
      cases l with
      | nil => simp; omega
      | cons b l =>
        have := ih (List.cons_ne_nil _ _)
        rw [List.intercalate_cons_cons, List.count_append, List.count_append, List.map_cons, List.sum_cons, List.length_cons]
        simp only [List.count_singleton_self] at *
        omega
  have hne : new.map dimText ≠ [] := by
    intro e
    rw [List.map_eq_nil_iff] at e
    subst e
    cases hm
  have := key _ hne
  rw [render_eq, this, List.length_map, hl]
  have hpos : 0 < s.count 'x' := List.count_pos_iff.mpr hx
  have hmem : s.count 'x' ∈ (new.map dimText).map (·.count 'x') := List.mem_map.mpr ⟨s, List.mem_map.mpr ⟨_, hm, rfl⟩, rfl⟩
  have hle : ∀ (l : List Nat) (x : Nat), x ∈ l → x ≤ l.sum := by
    intro l x hx
    induction l with
    | nil => cases hx
    | cons y l ih =>
      rw [List.sum_cons]
      rcases List.mem_cons.mp hx with rfl | hx
      · omega
      · have := ih hx; omega
  have := hle _ _ hmem
  omega

/-! ### examples -/

/-- two weights whose names collide -/
example : safeName "block/0/w".toList = safeName "block_0/w".toList ∧ "block/0/w" ≠ "block_0/w" := by decide

/-- a weight written outside of the folder -/
example : exportPath "weights".toList "/etc/a\\b".toList = "/etc/a_b.npy".toList := by decide

/-- a text that names a rank-2 shape by accident -/
example : modifyDims [.unset, .unset] "max".toList = .ok [.param "ma".toList, .param []] := by rfl

/-- the shape of an image batch -/
example : (∀ d ∈ [Dim.param "N".toList, .value 3, .value 224, .param "width".toList], Expressible d) ∧
    render [Dim.param "N".toList, .value 3, .value 224, .param "width".toList] = "Nx3x224xwidth".toList := by
  refine ⟨fun d hd => ?_, by decide⟩
  simp only [List.mem_cons, List.not_mem_nil, or_false] at hd
  rcases hd with rfl | rfl | rfl | rfl
  · exact ⟨by decide, by decide⟩
  · trivial
  · trivial
  · exact ⟨by decide, by decide⟩

end OnnxTool.Props
