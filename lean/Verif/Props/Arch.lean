import Verif.Model.Arch
import Verif.Proofs.Dict
/-!
# C58: builders do not disturb each other
-/
namespace OnnxTool.Props
open OnnxTool OnnxTool.Arch

/-- What the configuration alone asks for: the defaults of its architecture, overridden by what it says itself. -/
def intended (m : Dict Flags) (k : Config) : Option Flags :=
  (m.get? (if m.has k.arch then k.arch else "LlamaForCausalLM")).map fun f =>
    ⟨k.attnBias.getD f.qkvBias, k.attnBias.getD f.oBias, k.mlpBias.getD f.mlpBias⟩

theorem overwrite_eq (f : Flags) (k : Config) :
    overwrite f k = ⟨k.attnBias.getD f.qkvBias, k.attnBias.getD f.oBias, k.mlpBias.getD f.mlpBias⟩ := by
  unfold overwrite
  cases k.attnBias <;> cases k.mlpBias <;> rfl

theorem create_get (m : Dict Flags) (k : Config) (e : String) :
    (create m k).get? e = if e = key m k then (m.get? e).map (overwrite · k) else m.get? e := by
  unfold create
  cases h : m.get? (key m k) with
  | none =>
    simp only
    split
    · rename_i he; rw [he, h]; rfl
    · rfl
  | some f =>
    simp only
    split
    · rename_i he; rw [he, h, Dict.get?_set_self]; rfl
    · rename_i he; exact Dict.get?_set_ne _ _ (fun x => he x.symm)

theorem create_has (m : Dict Flags) (k : Config) (e : String) : (create m k).has e = m.has e := by
  unfold Dict.has
  rw [create_get]
  split
  · cases m.get? e <;> rfl
  · rfl

theorem create_key (m : Dict Flags) (k j : Config) : key (create m k) j = key m j := by
  unfold key; rw [create_has]

theorem history_key (m : Dict Flags) (hs : List Config) (j : Config) : key (hs.foldl create m) j = key m j := by
  induction hs generalizing m with
  | nil => rfl
  | cons k hs ih => rw [List.foldl_cons, ih, create_key]

/-- The entry after a history of constructions: each flag has the value given by the last construction that set it. -/
theorem history_entry (hs : List Config) : ∀ (m : Dict Flags) (e : String), (hs.foldl create m).get? e =
    (m.get? e).map fun f => (hs.filter fun k => key m k = e).foldl overwrite f := by
  induction hs with
  | nil => intro m e; simp
  | cons k hs ih =>
    intro m e
    rw [List.foldl_cons, ih, create_get]
    simp only [create_key, List.filter_cons]
    by_cases h : key m k = e
    · rw [if_pos h.symm]; simp only [h, decide_true, if_true, List.foldl_cons, Option.map_map]; rfl
    · rw [if_neg (fun x => h x.symm)]; simp only [h, decide_false, Bool.false_eq_true, if_false]

theorem fold_attn_none (hs : List Config) (f : Flags) (h : ∀ k ∈ hs, k.attnBias = none) :
    (hs.foldl overwrite f).qkvBias = f.qkvBias ∧ (hs.foldl overwrite f).oBias = f.oBias := by
  induction hs generalizing f with
  | nil => exact ⟨rfl, rfl⟩
  | cons k hs ih =>
    rw [List.foldl_cons]
    obtain ⟨a, b⟩ := ih (overwrite f k) fun j hj => h j (List.mem_cons_of_mem _ hj)
    rw [a, b, overwrite_eq, h k (by simp)]
    exact ⟨rfl, rfl⟩

theorem fold_mlp_none (hs : List Config) (f : Flags) (h : ∀ k ∈ hs, k.mlpBias = none) : (hs.foldl overwrite f).mlpBias = f.mlpBias := by
  induction hs generalizing f with
  | nil => rfl
  | cons k hs ih =>
    rw [List.foldl_cons, ih (overwrite f k) fun j hj => h j (List.mem_cons_of_mem _ hj), overwrite_eq, h k (by simp)]
    rfl

/-- **C58 (part).** After any history of constructions, a new builder gets the flags its configuration asks for, provided that for each of
the two keys it either sets the key itself or no earlier configuration that used the same entry set it.  Without this the flags leak from
earlier models (`C58_flags_leak`). -/
theorem C58_flags_partial (m : Dict Flags) (hs : List Config) (k : Config)
    (ha : k.attnBias.isSome ∨ ∀ j ∈ hs, key m j = key m k → j.attnBias = none)
    (hm : k.mlpBias.isSome ∨ ∀ j ∈ hs, key m j = key m k → j.mlpBias = none) :
    seen ((hs ++ [k]).foldl create m) (key m k) = intended m k := by
  unfold seen intended
  rw [List.foldl_append, List.foldl_cons, List.foldl_nil, create_get, history_key, if_pos rfl, history_entry, Option.map_map]
  change (m.get? (key m k)).map _ = (m.get? (key m k)).map _
  cases m.get? (key m k) with
  | none => rfl
  | some f =>
    simp only [Option.map_some, Function.comp, overwrite_eq, Option.some.injEq, Flags.mk.injEq]
    refine ⟨?_, ?_, ?_⟩
    · rcases ha with ha | ha
      · cases hk : k.attnBias with
        | none => rw [hk] at ha; cases ha
        | some b => rfl
      · rw [(fold_attn_none _ f fun j hj => ha j (List.mem_filter.1 hj).1 (by simpa using (List.mem_filter.1 hj).2)).1]
    · rcases ha with ha | ha
      · cases hk : k.attnBias with
        | none => rw [hk] at ha; cases ha
        | some b => rfl
      · rw [(fold_attn_none _ f fun j hj => ha j (List.mem_filter.1 hj).1 (by simpa using (List.mem_filter.1 hj).2)).2]
    · rcases hm with hm | hm
      · cases hk : k.mlpBias with
        | none => rw [hk] at hm; cases hm
        | some b => rfl
      · rw [fold_mlp_none _ f fun j hj => hm j (List.mem_filter.1 hj).1 (by simpa using (List.mem_filter.1 hj).2)]

/-- Other architectures are never touched. -/
theorem C58_other_entries (m : Dict Flags) (hs : List Config) (e : String) (h : ∀ j ∈ hs, key m j ≠ e) :
    seen (hs.foldl create m) e = seen m e := by
  unfold seen
  rw [history_entry, List.filter_eq_nil_iff.2 (by simpa using h)]
  simp

/-- A configuration meeting the hypotheses after a history in which other models set the keys. -/
theorem C58_example : seen (([⟨"Qwen3ForCausalLM", some false, none⟩, ⟨"LlamaForCausalLM", none, none⟩, ⟨"LlamaForCausalLM", none, some true⟩] : List Config).foldl create
    archMap) "LlamaForCausalLM" = intended archMap ⟨"LlamaForCausalLM", none, some true⟩ := by decide

/-- The flags a first builder works with, for every configuration: biases of the query, key and value projections for Qwen2, Qwen3, Phi and
GPT-2, of the output projection for Phi and GPT-2, of the feed-forward layers for GPT-2, unless the configuration says otherwise. -/
theorem C58_first (k : Config) : seen (create archMap k) (key archMap k) =
    some ⟨k.attnBias.getD (decide (k.arch ∈ ["Qwen2ForCausalLM", "Qwen3ForCausalLM", "PhiForCausalLM", "GPT2LMHeadModel"])),
      k.attnBias.getD (decide (k.arch ∈ ["PhiForCausalLM", "GPT2LMHeadModel"])), k.mlpBias.getD (decide (k.arch = "GPT2LMHeadModel"))⟩ := by
  obtain ⟨a, b, m⟩ := k
  have hent : ∃ f, archMap.get? (key archMap ⟨a, b, m⟩) = some f ∧
      f = ⟨decide (a ∈ ["Qwen2ForCausalLM", "Qwen3ForCausalLM", "PhiForCausalLM", "GPT2LMHeadModel"]),
        decide (a ∈ ["PhiForCausalLM", "GPT2LMHeadModel"]), decide (a = "GPT2LMHeadModel")⟩ := by
    by_cases ha : a ∈ archMap.map (·.1)
    · simp only [archMap, List.map_cons, List.map_nil, List.mem_cons, List.not_mem_nil, or_false] at ha
      rcases ha with rfl | rfl | rfl | rfl | rfl | rfl | rfl | rfl | rfl | rfl | rfl | rfl <;> exact ⟨_, rfl, by decide⟩
    · have hh : archMap.has a = false := by
        have := Dict.get?_isSome_iff archMap a
        unfold Dict.has
        cases hg : (archMap.get? a).isSome with
        | false => rfl
        | true => exact absurd (this.1 hg) ha
      have hk : key archMap ⟨a, b, m⟩ = "LlamaForCausalLM" := by simp [key, hh]
      rw [hk]
      refine ⟨_, rfl, ?_⟩
      simp only [archMap, List.map_cons, List.map_nil, List.mem_cons, List.not_mem_nil, or_false, not_or] at ha
      simp [ha]
  obtain ⟨f, h1, h2⟩ := hent
  unfold create seen
  rw [h1]
  simp only [Dict.get?_set_self]
  subst h2
  cases b <;> cases m <;> rfl

/-- Leak to a later builder: a Llama model with `attention_bias` makes the next model without the key, even of an unknown
architecture, get attention biases. -/
theorem C58_flags_leak : seen (([⟨"LlamaForCausalLM", some true, none⟩, ⟨"MistralForCausalLM", none, none⟩] : List Config).foldl create archMap)
    (key archMap ⟨"MistralForCausalLM", none, none⟩) = some ⟨true, true, false⟩ ∧
    intended archMap ⟨"MistralForCausalLM", none, none⟩ = some ⟨false, false, false⟩ := by decide

/-- Leak to an earlier builder: constructing a second builder of the same architecture changes what the first one, which has already been
constructed, will put into its graph. -/
theorem C58_flags_leak_back : seen (create archMap ⟨"Qwen3ForCausalLM", some true, none⟩) "Qwen3ForCausalLM" = some ⟨true, true, false⟩ ∧
    seen (create (create archMap ⟨"Qwen3ForCausalLM", some true, none⟩) ⟨"Qwen3ForCausalLM", some false, none⟩) "Qwen3ForCausalLM" =
      some ⟨false, false, false⟩ := by decide

end OnnxTool.Props
