import Verif.Model.LlmCli
import Mathlib.Data.List.Sort
import Mathlib.Data.List.TakeWhile
/-!
# C125: what the LLM command loads
-/
namespace OnnxTool.Props
open OnnxTool OnnxTool.LlmCli

/-- `f` is a safetensors file of the listing -/
def IsWeights (files : List String) (f : String) : Prop := f ∈ files ∧ (f = "model.safetensors" ∨ ends f ".safetensors" = true)

private theorem weightsOf_some {files f} (h : weightsOf files = some f) : IsWeights files f := by
  unfold weightsOf at h
  split at h
  · rename_i hm; cases h; exact ⟨hm, .inl rfl⟩
  · exact ⟨List.mem_of_find?_eq_some h, .inr (List.find?_some (p := fun f => ends f ".safetensors") h)⟩

private theorem weightsOf_none {files} : weightsOf files = none ↔ ∀ f ∈ files, ends f ".safetensors" = false := by
  constructor
  · intro h f hf
    unfold weightsOf at h
    split at h
    · cases h
    · have := List.find?_eq_none.mp h f hf
      simpa using this
  · intro h
    unfold weightsOf
    rw [if_neg (fun hm => by have := h _ hm; revert this; decide)]
    exact List.find?_eq_none.mpr fun f hf => by simp [h f hf]

/-- A directory of weights gives a file of its listing that is called `model.safetensors`, or ends so; -/
theorem C125_file (files : List String) (f : String) (h : weightsOf files = some f) : IsWeights files f := weightsOf_some h

/-- it gives `model.safetensors` whenever that is there, and nothing only if there is no such file. -/
theorem C125_preferred (files : List String) :
    ("model.safetensors" ∈ files → weightsOf files = some "model.safetensors") ∧ (weightsOf files = none ↔ ∀ f ∈ files, ends f ".safetensors" = false) :=
  ⟨fun h => by unfold weightsOf; rw [if_pos h], weightsOf_none⟩

/-- **A local directory with weights is used, whatever is in the cache and whatever the model is called.** -/
theorem C125_local (d : Disk) (name p : String) (files : List String) (f : String) (hp : p ≠ "") (hd : d.dir p = some files) (hf : f ∈ files) (he : ends f ".safetensors" = true) :
    ∃ g, findWeights d name (some p) = some (.inDir p g) ∧ IsWeights files g ∧ ("model.safetensors" ∈ files → g = "model.safetensors") := by
  cases hw : weightsOf files with
  | none => exact absurd (weightsOf_none.mp hw f hf) (by simp [he])
  | some g =>
    refine ⟨g, ?_, weightsOf_some hw, fun hm => ?_⟩
    · unfold findWeights inModelDir
      simp only [if_neg hp, hd, hw, Option.map_some]
    · rw [(C125_preferred files).1 hm] at hw
      exact (Option.some.inj hw).symm

private theorem newest_mem {l} {s : String × List String} : s ∈ newestFirst l ↔ s ∈ l := (List.perm_insertionSort _ l).mem_iff

private theorem newest_sorted (l : List (String × List String)) : (newestFirst l).Pairwise fun a b => b.1 ≤ a.1 := by
  haveI : Std.Total (fun a b : String × List String => b.1 ≤ a.1) := ⟨fun a b => le_total b.1 a.1⟩
  haveI : IsTrans (String × List String) (fun a b => b.1 ≤ a.1) := ⟨fun _ _ _ h1 h2 => le_trans h2 h1⟩
  exact List.pairwise_insertionSort _ l

private theorem findSome_first {α β} {R : α → α → Prop} (g : α → Option β) : ∀ (l : List α), l.Pairwise R → (∀ a, R a a) → ∀ r, l.findSome? g = some r →
    ∃ s ∈ l, g s = some r ∧ ∀ t ∈ l, (g t).isSome → R s t := by
  intro l
  induction l with
  | nil => intro _ _ r h; cases h
  | cons a l ih =>
    intro hp hr r h
    rw [List.pairwise_cons] at hp
    rw [List.findSome?_cons] at h
    cases hg : g a with
    | some b =>
      rw [hg] at h
      cases h
      refine ⟨a, List.mem_cons_self, hg, fun t ht _ => ?_⟩
      rcases List.mem_cons.mp ht with rfl | ht
      · exact hr _
      · exact hp.1 t ht
    | none =>
      rw [hg] at h
      obtain ⟨s, hs, h1, h2⟩ := ih hp.2 hr r h
      refine ⟨s, List.mem_cons_of_mem _ hs, h1, fun t ht hsome => ?_⟩
      rcases List.mem_cons.mp ht with rfl | ht
      · rw [hg] at hsome; cases hsome
      · exact h2 t ht hsome

/-- **Among the snapshots of a repository, the one with the greatest name is used of those that have weights.** -/
theorem C125_newest (l : List (String × List String)) (snap f : String) (h : inSnapshots l = some (snap, f)) :
    ∃ files, (snap, files) ∈ l ∧ weightsOf files = some f ∧ ∀ s ∈ l, (weightsOf s.2).isSome → s.1 ≤ snap := by
  obtain ⟨s, hs, h1, h2⟩ := findSome_first _ _ (newest_sorted l) (fun _ => le_refl _) _ h
  obtain ⟨g, hg, he⟩ := Option.map_eq_some_iff.mp h1
  cases he
  exact ⟨s.2, newest_mem.mp hs, hg, fun t ht hsome => h2 t (newest_mem.mpr ht) (by simpa using hsome)⟩

theorem inSnapshots_none {l} : inSnapshots l = none ↔ ∀ s ∈ l, ∀ f ∈ s.2, ends f ".safetensors" = false := by
  unfold inSnapshots
  rw [List.findSome?_eq_none_iff]
  constructor
  · intro h s hs
    exact weightsOf_none.mp (by simpa using h s (newest_mem.mpr hs))
  · intro h s hs
    simpa using weightsOf_none.mpr (h s (newest_mem.mp hs))

/-- **Weights from the cache are of the model that was named, or, if it has none, of that name with `-Base`; and they are used only if the model directory has none.** -/
theorem C125_cached (d : Disk) (name : String) (dir : Option String) (n snap f : String) (h : findWeights d name dir = some (.inCache n snap f)) :
    inModelDir d dir = none ∧ inSnapshots (d.snapshots (hubKey n)) = some (snap, f) ∧
      (n = name ∨ (n = name ++ "-Base" ∧ ends name "-Base" = false ∧ inSnapshots (d.snapshots (hubKey name)) = none)) := by
  unfold findWeights at h
  cases hm : inModelDir d dir with
  | some w =>
    rw [hm] at h
    cases h
    exfalso
    unfold inModelDir at hm
    cases dir with
    | none => cases hm
    | some p =>
      simp only [] at hm
      split at hm
      · cases hm
      · split at hm
        · cases hm
        · obtain ⟨_, _, h2⟩ := Option.map_eq_some_iff.mp hm
          cases h2
  | none =>
    rw [hm] at h
    simp only [] at h
    refine ⟨rfl, ?_⟩
    unfold namesToTry at h
    split at h
    · rename_i hb
      rw [List.findSome?_cons, List.findSome?_nil] at h
      cases hs : inSnapshots (d.snapshots (hubKey name)) with
      | none => rw [hs] at h; cases h
      | some r => rw [hs] at h; cases h; exact ⟨hs, .inl rfl⟩
    · rename_i hb
      rw [List.findSome?_cons, List.findSome?_cons, List.findSome?_nil] at h
      cases hs : inSnapshots (d.snapshots (hubKey name)) with
      | some r => rw [hs] at h; cases h; exact ⟨hs, .inl rfl⟩
      | none =>
        rw [hs] at h
        simp only [Option.map_none] at h
        cases hs2 : inSnapshots (d.snapshots (hubKey (name ++ "-Base"))) with
        | none => rw [hs2] at h; cases h
        | some r => rw [hs2] at h; cases h; exact ⟨hs2, .inr ⟨rfl, by simpa using hb, rfl⟩⟩

/-- Weights from the directory are from that directory. -/
theorem C125_from_dir (d : Disk) (name : String) (dir : Option String) (p f : String) (h : findWeights d name dir = some (.inDir p f)) :
    dir = some p ∧ ∃ files, d.dir p = some files ∧ weightsOf files = some f := by
  unfold findWeights at h
  cases hm : inModelDir d dir with
  | none =>
    rw [hm] at h
    simp only [] at h
    obtain ⟨n, _, hn⟩ := List.exists_of_findSome?_eq_some h
    obtain ⟨_, _, h2⟩ := Option.map_eq_some_iff.mp hn
    cases h2
  | some w =>
    rw [hm] at h
    cases h
    unfold inModelDir at hm
    cases dir with
    | none => cases hm
    | some q =>
      simp only [] at hm
      split at hm
      · cases hm
      · split at hm
        · cases hm
        · rename_i files hd
          obtain ⟨g, h1, h2⟩ := Option.map_eq_some_iff.mp hm
          cases h2
          exact ⟨rfl, files, hd, h1⟩

/-- **Nothing is found exactly when there is no safetensors file in the model directory nor in any snapshot of the names that are tried.** -/
theorem C125_nothing (d : Disk) (name : String) (dir : Option String) :
    findWeights d name dir = none ↔
      (∀ p files, dir = some p → p ≠ "" → d.dir p = some files → ∀ f ∈ files, ends f ".safetensors" = false) ∧
      (∀ s ∈ d.snapshots (hubKey name), ∀ f ∈ s.2, ends f ".safetensors" = false) ∧
      (ends name "-Base" = false → ∀ s ∈ d.snapshots (hubKey (name ++ "-Base")), ∀ f ∈ s.2, ends f ".safetensors" = false) := by
  have hin : inModelDir d dir = none ↔ ∀ p files, dir = some p → p ≠ "" → d.dir p = some files → ∀ f ∈ files, ends f ".safetensors" = false := by
    unfold inModelDir
    cases dir with
    | none => simp
    | some p =>
      simp only []
      by_cases hp : p = ""
      · rw [if_pos hp]
        exact iff_of_true rfl fun q _ h1 h2 => absurd (by cases h1; exact hp) h2
      · rw [if_neg hp]
        cases hd : d.dir p with
        | none => exact iff_of_true rfl fun q _ h1 _ h3 => by cases h1; rw [hd] at h3; cases h3
        | some files =>
          simp only [Option.map_eq_none_iff, weightsOf_none]
          constructor
          · intro h q fs h1 _ h3
            cases h1
            rw [hd] at h3
            cases h3
            exact h
          · intro h
            exact h p files rfl hp hd
  rw [← hin]
  unfold findWeights
  cases hm : inModelDir d dir with
  | some w => simp
  | none =>
    simp only [true_and]
    unfold namesToTry
    split
    · rename_i hb
      rw [List.findSome?_cons, List.findSome?_nil, ← inSnapshots_none]
      cases hs : inSnapshots (d.snapshots (hubKey name)) <;> simp [hb]
    · rename_i hb
      rw [List.findSome?_cons, List.findSome?_cons, List.findSome?_nil, ← inSnapshots_none, ← inSnapshots_none]
      cases hs : inSnapshots (d.snapshots (hubKey name)) <;> cases hs2 : inSnapshots (d.snapshots (hubKey (name ++ "-Base"))) <;> simp [hb]

/-- **The order in which the system lists a directory does not matter if it has `model.safetensors`, or at most one file with the suffix;** -/
theorem C125_listing_order (files files' : List String) (hperm : files.Perm files')
    (h : "model.safetensors" ∈ files ∨ ∀ f ∈ files, ∀ g ∈ files, ends f ".safetensors" = true → ends g ".safetensors" = true → f = g) :
    weightsOf files = weightsOf files' := by
  by_cases hm : "model.safetensors" ∈ files
  · rw [(C125_preferred files).1 hm, (C125_preferred files').1 (hperm.mem_iff.mp hm)]
  · rcases h with h | h
    · exact absurd h hm
    · cases h1 : weightsOf files with
      | none => exact (weightsOf_none.mpr fun f hf => weightsOf_none.mp h1 f (hperm.mem_iff.mpr hf)).symm
      | some f =>
        cases h2 : weightsOf files' with
        | none =>
          have := weightsOf_none.mpr fun g hg => weightsOf_none.mp h2 g (hperm.mem_iff.mp hg)
          rw [this] at h1
          cases h1
        | some g =>
          have suffix : ∀ {l : List String} {x}, IsWeights l x → ends x ".safetensors" = true := fun hx => by
            rcases hx.2 with e | e
            · rw [e]; decide
            · exact e
          have a := weightsOf_some h1
          have b := weightsOf_some h2
          rw [h f a.1 g (hperm.mem_iff.mpr b.1) (suffix a) (suffix b)]

/-- a checkpoint in shards has several files, and the one that is listed first is the only one that is used -/
theorem C125_one_shard_counterexample :
    weightsOf ["model-00001-of-00002.safetensors", "model-00002-of-00002.safetensors"] = some "model-00001-of-00002.safetensors" ∧
    weightsOf ["model-00002-of-00002.safetensors", "model-00001-of-00002.safetensors"] = some "model-00002-of-00002.safetensors" := by decide +kernel

/-- The name a model directory gives (line 597, 656): what comes after the last slash — nothing, for a path that ends with one. -/
theorem C125_basename (p : String) : ∃ front, p.toList = front ++ (basename p).toList ∧ '/' ∉ (basename p).toList ∧ (front = [] ∨ front.getLast? = some '/') := by
  have key : ∀ l : List Char, ∃ front, l = front ++ (l.reverse.takeWhile (· ≠ '/')).reverse ∧ '/' ∉ (l.reverse.takeWhile (· ≠ '/')).reverse ∧
      (front = [] ∨ front.getLast? = some '/') := by
    intro l
    refine ⟨(l.reverse.dropWhile (· ≠ '/')).reverse, ?_, ?_, ?_⟩
    · rw [← List.reverse_append, List.takeWhile_append_dropWhile, List.reverse_reverse]
    · intro h
      have := List.mem_takeWhile_imp (List.mem_reverse.mp h)
      simp at this
    · cases hd : l.reverse.dropWhile (· ≠ '/') with
      | nil => exact .inl rfl
      | cons c cs =>
        refine .inr ?_
        have : ¬ ((decide ((l.reverse.dropWhile (· ≠ '/')).head (by rw [hd]; exact List.cons_ne_nil _ _) ≠ '/')) = true) := by
          simpa using List.head_dropWhile_not (fun c : Char => decide (c ≠ '/')) (l := l.reverse) (by rw [hd]; exact List.cons_ne_nil _ _)
        simp only [hd, List.head_cons, decide_eq_true_eq, not_not] at this
        rw [List.reverse_cons, List.getLast?_concat, this]
  unfold basename
  rw [String.toList_ofList]
  exact key p.toList

/-! ## The command -/

variable (d : Disk) (readConfig : String → Config) (downloaded : String → Disk)

/-- the parts of a successful run -/
private theorem run_ok {d readConfig downloaded a p} (h : run d readConfig downloaded a = .ok p) :
    chooseConfig d readConfig (names d a).1 (names d a).2 = .ok (p.config, p.name) ∧ checkArch p.config = .ok () ∧
      chooseWeights d downloaded p.name (names d a).2 = .ok p.weights ∧ p.onnx = chooseOnnx d p.config (names d a).2 a.onnxPath := by
  unfold run at h
  simp only [] at h
  split at h
  · cases h
  · rename_i c name hc
    split at h
    · cases h
    · rename_i ha
      split at h
      · cases h
      · rename_i w hw
        cases h
        exact ⟨hc, ha, hw, rfl⟩

/-- **A model is loaded only if its configuration names one of the three supported architectures first.** -/
theorem C125_architecture (a : Args) (p : Plan) (h : run d readConfig downloaded a = .ok p) :
    ∃ arch rest, p.config.architectures = some (arch :: rest) ∧ (arch = "Qwen2ForCausalLM" ∨ arch = "Qwen3ForCausalLM" ∨ arch = "LlamaForCausalLM") := by
  have := (run_ok h).2.1
  unfold checkArch at this
  cases hc : p.config.architectures with
  | none => rw [hc] at this; exact absurd this (by decide)
  | some l =>
    rw [hc] at this
    cases l with
    | nil => cases this
    | cons arch rest =>
      simp only [Option.getD_some] at this
      split at this
      · rename_i hm
        refine ⟨arch, rest, rfl, ?_⟩
        simpa [supportedArchs] using hm
      · cases this

/-- **A model directory decides the configuration: it must have `config.json`, and what the plan has is that file with `head_dim` filled in.** -/
theorem C125_directory_config (a : Args) (p : Plan) (path : String) (files : List String) (h : run d readConfig downloaded a = .ok p)
    (hd : dirOf d (names d a).2 = some (path, files)) :
    "config.json" ∈ files ∧ p.config = { readConfig path with headDim := some ((readConfig path).headDim.getD ((readConfig path).hidden.getD 1024 / (readConfig path).heads.getD 16)) } := by
  have hc := (run_ok h).1
  unfold chooseConfig at hc
  rw [hd] at hc
  simp only [] at hc
  split at hc
  · rename_i hm
    refine ⟨hm, ?_⟩
    unfold setHeadDim at hc
    simp only [] at hc
    split at hc
    · cases hc
    · rename_i c hcc
      split at hcc
      · cases hcc
      · cases hcc
        injection hc with hc
        exact (Prod.mk.inj hc).1.symm
  · cases hc

/-- **Without a directory only the two supported names load anything, with the built-in configuration.** -/
theorem C125_named (a : Args) (p : Plan) (h : run d readConfig downloaded a = .ok p) (hd : dirOf d (names d a).2 = none) :
    (p.name = some "Qwen/Qwen3-0.6B-Base" ∨ p.name = some "Qwen/Qwen3-0.6B") ∧ p.config = qwen ∧ p.name = (names d a).1 := by
  have hc := (run_ok h).1
  unfold chooseConfig at hc
  rw [hd] at hc
  simp only [] at hc
  split at hc
  · cases hc
  · rename_i n hn
    split at hc
    · rename_i c hs
      injection hc with hc
      obtain ⟨h1, h2⟩ := Prod.mk.inj hc
      rw [← h1, ← h2, hn]
      unfold supportedConfig at hs
      obtain ⟨e, he, hec⟩ := Option.map_eq_some_iff.mp hs
      have hm := List.mem_of_find?_eq_some he
      have hq := List.find?_some he
      simp only [beq_iff_eq] at hq
      simp only [supported, List.mem_cons, List.not_mem_nil, or_false] at hm
      rcases hm with rfl | rfl
      · exact ⟨.inl (by rw [← hq]), hec.symm, rfl⟩
      · exact ⟨.inr (by rw [← hq]), hec.symm, rfl⟩
    · cases hc

/-- **A model that starts has weights, unless a download left none where they are looked for.** -/
theorem C125_weights (a : Args) (p : Plan) (h : run d readConfig downloaded a = .ok p) :
    p.weights = findWeights d (p.name.getD "") (names d a).2 ∧ p.weights.isSome ∨
    findWeights d (p.name.getD "") (names d a).2 = none ∧ ∃ n, p.name = some n ∧ (n = "Qwen/Qwen3-0.6B-Base" ∨ n = "Qwen/Qwen3-0.6B") ∧ p.weights = findWeights (downloaded n) n none := by
  have hw := (run_ok h).2.2.1
  unfold chooseWeights at hw
  split at hw
  · rename_i w hf
    injection hw with hw
    exact .inl ⟨by rw [← hw, hf], by rw [← hw]; rfl⟩
  · rename_i hf
    refine .inr ⟨hf, ?_⟩
    split at hw
    · cases hw
    · rename_i n hn
      split at hw
      · rename_i hs
        injection hw with hw
        have hname : p.name = some n := by
          unfold truthy at hn
          split at hn
          · split at hn
            · cases hn
            · rename_i heq _; cases hn; exact heq
          · cases hn
        refine ⟨n, hname, ?_, hw.symm⟩
        unfold supportedConfig at hs
        rw [Option.isSome_map, List.find?_isSome] at hs
        obtain ⟨e, hm, hq⟩ := hs
        simp only [beq_iff_eq] at hq
        simp only [supported, List.mem_cons, List.not_mem_nil, or_false] at hm
        rcases hm with rfl | rfl
        · exact .inl hq.symm
        · exact .inr hq.symm
      · cases hw

/-- **An ONNX file that is given is the one that is loaded.** -/
theorem C125_given_onnx (a : Args) (p : Plan) (o : String) (h : run d readConfig downloaded a = .ok p) (ho : a.onnxPath = some o) (hne : o ≠ "") : p.onnx = .given o := by
  rw [(run_ok h).2.2.2]
  unfold chooseOnnx
  have : truthy a.onnxPath = some o := by rw [ho]; exact if_neg hne
  rw [this]

private theorem dirOnnx_spec {files f} (h : dirOnnx files = some f) : f ∈ files ∧ ends f ".onnx" = true ∧ ∀ g ∈ files, ends g ".onnx" = true → f ≤ g := by
  unfold dirOnnx at h
  have hp := List.perm_insertionSort (· ≤ ·) files
  have hs : (files.insertionSort (· ≤ ·)).Pairwise (· ≤ ·) := List.pairwise_insertionSort _ files
  have h1 := List.mem_of_find?_eq_some h
  have h2 := List.find?_some (p := fun f => ends f ".onnx") h
  refine ⟨hp.mem_iff.mp h1, h2, fun g hg he => ?_⟩
  obtain ⟨_, as, bs, hl, hno⟩ := List.find?_eq_some_iff_append.mp h
  have hg' := hp.mem_iff.mpr hg
  rw [hl] at hg' hs
  rcases List.mem_append.mp hg' with hg' | hg'
  · have := hno g hg'
    rw [he] at this
    cases this
  · rcases List.mem_cons.mp hg' with rfl | hg'
    · exact le_refl _
    · exact (List.pairwise_cons.mp (List.pairwise_append.mp hs).2.1).1 g hg'

/-- **Otherwise, of a model directory's ONNX files the first in alphabetical order is loaded, in whatever order they are listed; if it has none a model is exported into it, and the working directory is not looked at.** -/
theorem C125_directory_onnx (a : Args) (p : Plan) (path : String) (files : List String) (h : run d readConfig downloaded a = .ok p)
    (ho : truthy a.onnxPath = none) (hd : dirOf d (names d a).2 = some (path, files)) :
    (∃ f, p.onnx = .inDir path f ∧ f ∈ files ∧ ends f ".onnx" = true ∧ ∀ g ∈ files, ends g ".onnx" = true → f ≤ g) ∨
    (p.onnx = .exported (some path) (basename path ++ "_kvcache.onnx") ∧ ∀ g ∈ files, ends g ".onnx" = false) := by
  rw [(run_ok h).2.2.2]
  unfold chooseOnnx
  rw [ho, hd]
  simp only [Option.bind_some]
  cases hf : dirOnnx files with
  | some f => exact .inl ⟨f, rfl, dirOnnx_spec hf⟩
  | none =>
    refine .inr ⟨?_, fun g hg => ?_⟩
    · simp only [Option.map_none]
      unfold dirOf at hd
      split at hd
      · cases hd
      · rename_i q hq
        obtain ⟨l, _, hl2⟩ := Option.map_eq_some_iff.mp hd
        obtain ⟨rfl, _⟩ := Prod.mk.inj hl2
        rw [hq]
    · have := List.find?_eq_none.mp hf g ((List.perm_insertionSort (· ≤ ·) files).mem_iff.mpr hg)
      simpa using this

/-- **Without a model directory a file of the working directory is taken: one that ends in `kvcache.onnx` if there is any, else any that ends in `.onnx`; a model is exported only if there is none.** -/
theorem C125_cwd_onnx (a : Args) (p : Plan) (h : run d readConfig downloaded a = .ok p)
    (ho : truthy a.onnxPath = none) (hd : truthy (names d a).2 = none) :
    (∃ f, p.onnx = .inCwd f ∧ f ∈ d.cwd ∧ ends f ".onnx" = true ∧ ((∃ g ∈ d.cwd, ends g "kvcache.onnx" = true ∧ g.toList.head? ≠ some '.') → ends f "kvcache.onnx" = true)) ∨
    ((∃ s, p.onnx = .exported none s) ∧ ∀ g ∈ d.cwd, ends g ".onnx" = true → g.toList.head? = some '.') := by
  have hdir : dirOf d (names d a).2 = none := by unfold dirOf; rw [hd]
  have hsuf : ∀ s, ends s "kvcache.onnx" = true → ends s ".onnx" = true := fun s hs => by
    unfold ends at *
    rw [List.isSuffixOf_iff_suffix] at *
    exact List.IsSuffix.trans ⟨"kvcache".toList, by decide⟩ hs
  rw [(run_ok h).2.2.2]
  unfold chooseOnnx
  rw [ho, hdir, hd]
  simp only [Option.bind_none]
  cases hc : cwdOnnx d with
  | some f =>
    refine .inl ⟨f, rfl, ?_⟩
    unfold cwdOnnx at hc
    have hm := List.mem_of_head? hc
    have hmem : f ∈ d.cwd := by
      rcases List.mem_append.mp hm with hm | hm <;> exact (List.mem_filter.mp hm).1
    refine ⟨hmem, ?_, fun ⟨g, hg, he, hdot⟩ => ?_⟩
    · rcases List.mem_append.mp hm with hm | hm
      · have := (List.mem_filter.mp hm).2
        exact hsuf _ (by simp only [Bool.and_eq_true] at this; exact this.1)
      · have := (List.mem_filter.mp hm).2
        simp only [Bool.and_eq_true] at this
        exact this.1
    · have hgm : g ∈ globbed d "kvcache.onnx" := List.mem_filter.mpr ⟨hg, by simp [he, hdot]⟩
      cases hk : globbed d "kvcache.onnx" with
      | nil => rw [hk] at hgm; cases hgm
      | cons x xs =>
        rw [hk] at hc
        simp only [List.cons_append, List.head?_cons, Option.some.injEq] at hc
        have hx : x ∈ globbed d "kvcache.onnx" := by rw [hk]; exact List.mem_cons_self
        have := (List.mem_filter.mp hx).2
        simp only [Bool.and_eq_true] at this
        rw [← hc]
        exact this.1
  | none =>
    refine .inr ⟨⟨_, rfl⟩, fun g hg he => ?_⟩
    unfold cwdOnnx at hc
    rw [List.head?_eq_none_iff, List.append_eq_nil_iff] at hc
    by_contra hdot
    have : g ∈ globbed d ".onnx" := List.mem_filter.mpr ⟨hg, by simp [he, hdot]⟩
    rw [hc.2] at this
    cases this

/-- **A command that does not start fails before anything is loaded, with a `RuntimeError`; only a configuration without heads or with an empty list of architectures gives another error.** -/
theorem C125_errors (a : Args) (e : PyErr) (h : run d readConfig downloaded a = .error e) :
    e = .runtimeError ∨ (∃ path files, dirOf d (names d a).2 = some (path, files) ∧ (((readConfig path).heads = some 0 ∧ e = .zeroDivision) ∨ ((readConfig path).architectures = some [] ∧ e = .indexError))) := by
  unfold run at h
  simp only [] at h
  split at h
  · rename_i e' hc
    cases h
    unfold chooseConfig at hc
    split at hc
    · rename_i path files hd
      split at hc
      · split at hc
        · rename_i e2 hh
          cases hc
          unfold setHeadDim at hh
          simp only [] at hh
          split at hh
          · rename_i h0
            cases hh
            refine .inr ⟨path, files, hd, .inl ⟨?_, rfl⟩⟩
            cases hq : (readConfig path).heads with
            | none => rw [hq] at h0; cases h0
            | some k => rw [hq] at h0; simpa using h0
          · cases hh
        · cases hc
      · cases hc; exact .inl rfl
    · split at hc
      · cases hc; exact .inl rfl
      · split at hc
        · cases hc
        · cases hc; exact .inl rfl
  · rename_i c name hc
    split at h
    · rename_i e' ha
      cases h
      unfold checkArch at ha
      split at ha
      · rename_i hnil
        cases ha
        unfold chooseConfig at hc
        split at hc
        · rename_i path files hd
          split at hc
          · split at hc
            · cases hc
            · rename_i c' hh
              injection hc with hc
              obtain ⟨rfl, _⟩ := Prod.mk.inj hc
              unfold setHeadDim at hh
              simp only [] at hh
              split at hh
              · cases hh
              · cases hh
                refine .inr ⟨path, files, hd, .inr ⟨?_, rfl⟩⟩
                simp only [] at hnil
                cases hq : (readConfig path).architectures with
                | none => rw [hq] at hnil; cases hnil
                | some l => rw [hq] at hnil; exact congrArg some hnil
          · cases hc
        · split at hc
          · cases hc
          · split at hc
            · rename_i c' hs
              injection hc with hc
              obtain ⟨rfl, _⟩ := Prod.mk.inj hc
              exfalso
              unfold supportedConfig at hs
              obtain ⟨e2, he, rfl⟩ := Option.map_eq_some_iff.mp hs
              have hm := List.mem_of_find?_eq_some he
              simp only [supported, List.mem_cons, List.not_mem_nil, or_false] at hm
              rcases hm with rfl | rfl <;> cases hnil
            · cases hc
      · split at ha
        · cases ha
        · cases ha; exact .inl rfl
    · split at h
      · rename_i e' hw
        cases h
        unfold chooseWeights at hw
        split at hw
        · cases hw
        · split at hw
          · cases hw; exact .inl rfl
          · split at hw
            · cases hw
            · cases hw; exact .inl rfl
      · cases h

/-! ## A case, and what can be loaded by mistake -/

/-- a disk with one model directory, a cache with two snapshots of the supported model, and a working directory -/
def modelDisk (files cwd : List String) : Disk where
  dir p := if p = "/m/tiny" then some files else none
  snapshots k := if k = "Qwen--Qwen3-0.6B-Base" then [("1a", ["config.json", "model.safetensors"]), ("9f", ["config.json"]), ("3c", ["tokenizer.json", "model.safetensors"])] else []
  cwd := cwd

/-- a small model that was made from the supported one -/
def tinyConfig : String → Config := fun _ => { architectures := some ["Qwen3ForCausalLM"], nameOrPath := some "Qwen/Qwen3-0.6B", hidden := some 64, heads := some 4 }

/-- a directory with weights and two ONNX files -/
theorem C125_directory_case :
    (run (modelDisk ["tiny_kvcache.onnx", "model.safetensors", "config.json", "a.onnx"] ["other.onnx"]) tinyConfig (fun _ => modelDisk [] []) { modelName := some "/m/tiny" }).toOption =
      some { config := { tinyConfig "" with headDim := some 16 }, name := some "Qwen/Qwen3-0.6B", weights := some (.inDir "/m/tiny" "model.safetensors"), onnx := .inDir "/m/tiny" "a.onnx" } := by
  decide +kernel

/-- a supported name: the newest snapshot with weights, here of the name with `-Base` -/
theorem C125_named_case :
    (run (modelDisk [] []) tinyConfig (fun _ => modelDisk [] []) { modelName := some "Qwen/Qwen3-0.6B" }).toOption =
      some { config := qwen, name := some "Qwen/Qwen3-0.6B", weights := some (.inCache "Qwen/Qwen3-0.6B-Base" "3c" "model.safetensors"), onnx := .exported none "qwen3_0.6b_base_kvcache.onnx" } := by
  decide +kernel

/-- a directory without weights: the weights of the cached model its configuration was made from are used, though the sizes differ, and nothing is said -/
theorem C125_wrong_weights_counterexample :
    ((run (modelDisk ["config.json"] []) tinyConfig (fun _ => modelDisk [] []) { modelDir := some "/m/tiny" }).toOption.map fun p => (p.config.hidden, p.weights)) =
      some (some 64, some (.inCache "Qwen/Qwen3-0.6B-Base" "3c" "model.safetensors")) := by
  decide +kernel

/-- a supported name in a working directory with some other model: that model is loaded -/
theorem C125_wrong_onnx_counterexample :
    ((run (modelDisk [] ["resnet50.onnx"]) tinyConfig (fun _ => modelDisk [] []) { modelName := some "Qwen/Qwen3-0.6B" }).toOption.map fun p => p.onnx) = some (.inCwd "resnet50.onnx") := by
  decide +kernel

/-- names that differ can have the same place in the cache -/
theorem C125_same_cache_counterexample : hubKey "a/b" = hubKey "a--b" ∧ "a/b" ≠ "a--b" := by decide +kernel

/-- two names with no `-` have different places in the cache -/
theorem C125_cache_key (a b : String) (ha : '-' ∉ a.toList) (hb : '-' ∉ b.toList) (h : hubKey a = hubKey b) : a = b := by
  have key : ∀ x y : List Char, '-' ∉ x → '-' ∉ y →
      (x.flatMap fun c => if c = '/' then ['-', '-'] else [c]) = (y.flatMap fun c => if c = '/' then ['-', '-'] else [c]) → x = y := by
    intro x
    induction x with
    | nil =>
      intro y _ _ hxy
      cases y with
      | nil => rfl
      | cons c cs =>
        rw [List.flatMap_nil, List.flatMap_cons] at hxy
        split at hxy <;> cases hxy
    | cons c cs ih =>
      intro y hx hy hxy
      cases y with
      | nil =>
        rw [List.flatMap_nil, List.flatMap_cons] at hxy
        split at hxy <;> cases hxy
      | cons e es =>
        rw [List.flatMap_cons, List.flatMap_cons] at hxy
        simp only [List.mem_cons, not_or] at hx hy
        by_cases h1 : c = '/' <;> by_cases h2 : e = '/'
        · rw [if_pos h1, if_pos h2] at hxy
          rw [h1, h2, ih es hx.2 hy.2 (by simpa using hxy)]
        · rw [if_pos h1, if_neg h2] at hxy
          injection hxy with h3 _
          exact absurd h3 hy.1
        · rw [if_neg h1, if_pos h2] at hxy
          injection hxy with h3 _
          exact absurd h3.symm hx.1
        · rw [if_neg h1, if_neg h2] at hxy
          injection hxy with h3 h4
          rw [h3, ih es hx.2 hy.2 h4]
  unfold hubKey at h
  exact String.toList_inj.mp (key _ _ ha hb (String.ofList_injective h))

end OnnxTool.Props
