import Verif.Proofs.Load
import Verif.Props.ConstFold
/-!
# C73, C74: loading a model file and saving it again
-/
namespace OnnxTool.Props
open OnnxTool ConstFold Load Topsort

variable {V : Type}

/-! ## C73: loading -/

/-- **C73**, returning: for every file without cyclic dependencies and with distinct node names, whatever the configuration and the node order, loading returns a graph. -/
theorem C73_load_returns {cfg : Config} {p : GraphProto V} (f : Node → List V → Nat → V) (absent : V)
    (hn : ((named cfg.nodeRename p.node).map (·.name)).Nodup) (hac : Acyclic p.node) : ∃ N, ∀ fuel, N ≤ fuel → ∃ l, load cfg f absent fuel p = .ok l :=
  load_returns f absent hn hac

/-- **C73**, without constant folding: the graph has exactly the nodes of the file in their order, exact producer and consumer indexes, the initializers with their values, and as
inputs, each once, exactly the tensors that some node reads, no node produces and no initializer supplies.  The outputs are the declared ones (`remove_dangling`, the default) or
the produced tensors nobody reads. -/
theorem C73_load_plain {cfg : Config} {p : GraphProto V} {f : Node → List V → Nat → V} {absent : V} {fuel : Nat} {l : Loaded V} (hv : Valid p)
    (hn : ((named cfg.nodeRename p.node).map (·.name)).Nodup) (hcf : cfg.constantFolding = false) (h : load cfg f absent fuel p = .ok l) :
    l.graph.nodemap = named cfg.nodeRename p.node ∧ l.graph.IndexExact ∧
    l.graph.initials = p.initializer.map (·.1) ∧ (∀ t v, (t, v) ∈ p.initializer → l.env t = some v) ∧
    l.graph.input.Nodup ∧ (∀ t, t ∈ l.graph.input ↔ Reads p.node t ∧ ¬ Makes p.node t ∧ ¬ IsInit p t) ∧
    (cfg.removeDangling = true → l.graph.output = p.output) ∧
    (cfg.removeDangling = false → ∀ t, t ∈ l.graph.output ↔ Makes p.node t ∧ ¬ Reads p.node t) := by
  obtain ⟨h1, h2, h3⟩ := load_plain hv hn hcf h
  refine ⟨h2.nodes, h1.index, h2.inits, ?_, h1.nodup_inp, ?_, ?_, ?_⟩
  · intro t v hm
    rw [h3, env0_start hv.inits, start_init hv hm]
  · intro t
    rw [h1.mem_inp, h2.nodes, h2.inits, isInit_iff, reads_named, makes_named]
  · intro hrd
    rw [h2.out, if_pos hrd]
  · intro hrd t
    rw [h2.out, if_neg (by simp [hrd]), h2.nodes]
    unfold collect
    rw [mem_foldl_news, ← reads_named cfg.nodeRename p.node, ← makes_named cfg.nodeRename p.node]
    simp only [List.mem_filter, Bool.not_eq_true', ← Bool.not_eq_true, readsB_iff, List.not_mem_nil, false_or]
    constructor
    · rintro ⟨n, a, b, c⟩; exact ⟨⟨n, a, b⟩, c⟩
    · rintro ⟨⟨n, a, b⟩, c⟩; exact ⟨n, a, b, c⟩

/-- **C73**, with constant folding: the remaining nodes are those of the file, in order, that are not constant; inputs are the tensors the remaining nodes read that neither the
file produces nor initializes (and that are not absent operands); initializers are exactly the static tensors the remaining nodes read. -/
theorem C73_load_folded {cfg : Config} {p : GraphProto V} {f : Node → List V → Nat → V} {absent : V} {fuel : Nat} {l : Loaded V} (hv : Valid p)
    (hn : ((named cfg.nodeRename p.node).map (·.name)).Nodup) (hcf : cfg.constantFolding = true) (h : load cfg f absent fuel p = .ok l) :
    l.graph.nodemap.Sublist (named cfg.nodeRename p.node) ∧
    (∀ n, n ∈ l.graph.nodemap ↔ n ∈ named cfg.nodeRename p.node ∧ ¬ ConstNode (named cfg.nodeRename p.node) (fun t => IsInit p t ∨ t = "") n) ∧ l.graph.IndexExact ∧
    (∀ t, t ∈ l.graph.initials ↔ Reads l.graph.nodemap t ∧ StaticT (named cfg.nodeRename p.node) (fun t => IsInit p t ∨ t = "") t) ∧
    l.graph.input.Nodup ∧ (∀ t, t ∈ l.graph.input ↔ Reads l.graph.nodemap t ∧ ¬ Makes p.node t ∧ ¬ IsInit p t ∧ t ≠ "") ∧
    (cfg.removeDangling = true → l.graph.output = p.output) := by
  obtain ⟨h1, h2⟩ := load_folded hv hn hcf h
  obtain ⟨C, hC, hk⟩ := h2.nodes
  have hst : (fun t => (env0 absent p t).isSome = true) = fun t => IsInit p t ∨ t = "" := by
    funext t; exact propext (env0_isSome absent p t)
  have hstat := h2.static
  rw [hst] at hC hstat
  have hmem : ∀ n, n ∈ l.graph.nodemap ↔ n ∈ named cfg.nodeRename p.node ∧ n.name ∉ C := by
    intro n
    rw [hk, List.mem_filter, Bool.not_eq_true', ← Bool.not_eq_true, List.contains_iff_mem]
  have hini : ∀ t, t ∈ l.graph.initials ↔ Reads l.graph.nodemap t ∧ StaticT (named cfg.nodeRename p.node) (fun t => IsInit p t ∨ t = "") t := by
    intro t
    rw [h2.inits, ← hstat]
    exact mem_foldedInitials l.env l.graph.nodemap t
  refine ⟨hk ▸ List.filter_sublist, ?_, h1.index, hini, h1.nodup_inp, ?_, ?_⟩
  · intro n
    rw [hmem]
    constructor
    · rintro ⟨a, b⟩; exact ⟨a, fun c => b ((hC n a).2 c)⟩
    · rintro ⟨a, b⟩; exact ⟨a, fun c => b ((hC n a).1 c)⟩
  · intro t
    rw [h1.mem_inp, hini, ← makes_named cfg.nodeRename p.node]
    constructor
    · rintro ⟨a, b, c⟩
      have c' : ¬ StaticT (named cfg.nodeRename p.node) (fun t => IsInit p t ∨ t = "") t := fun d => c ⟨a, d⟩
      refine ⟨a, ?_, fun d => c' (StaticT.init (Or.inl d)), fun d => c' (StaticT.init (Or.inr d))⟩
      rintro ⟨n, hn1, ho⟩
      have hc2 : ¬ n.name ∉ C := fun d => b ⟨n, (hmem n).2 ⟨hn1, d⟩, ho⟩
      obtain ⟨-, hop, hin⟩ := (hC n hn1).1 (Classical.not_not.1 hc2)
      exact c' (StaticT.out hn1 hop hin ho)
    · rintro ⟨a, b, c, d⟩
      refine ⟨a, fun ⟨n, e, g⟩ => b ⟨n, ((hmem n).1 e).1, g⟩, fun ⟨_, e⟩ => ?_⟩
      cases e with
      | init e => rcases e with e | e
                  · exact c e
                  · exact d e
      | @out m _ hm _ _ hom => exact b ⟨m, hm, hom⟩
  · intro hrd
    rw [h2.out, if_pos hrd]

private theorem load_search {cfg : Config} {p : GraphProto V} {f : Node → List V → Nat → V} {absent : V} {fuel : Nat} {l : Loaded V}
    (hn : ((named cfg.nodeRename p.node).map (·.name)).Nodup) (hcf : cfg.constantFolding = true) (h : load cfg f absent fuel p = .ok l) :
    ∃ C, constantSearch (rawGraph cfg p).updateConsumerProducer f fuel (env0 absent p) = .ok (l.env, C) ∧
      l.graph = updateNodesTensors cfg.removeDangling (rawGraph cfg p).updateConsumerProducer l.env C := by
  unfold load at h
  rw [initGraph_distinct hn] at h
  simp only at h
  split at h
  · cases h
  rename_i env C hs
  injection h with h
  rw [hcf] at h
  simp only [if_true] at h
  have henv : l.env = env := by rw [← h]
  refine ⟨C, ?_, ?_⟩
  · rw [henv]; exact hs
  · rw [henv, ← h]
    unfold finish
    rw [if_pos hcf]
    rfl

/-- **C73**, meaning: with or without constant folding, whatever the operators compute, every tensor that a node of the loaded graph reads or produces has exactly the values it has
in the file, for all values `x` of the inputs. -/
theorem C73_same_values {cfg : Config} {p : GraphProto V} {f : Node → List V → Nat → V} {absent : V} {fuel : Nat} {l : Loaded V} (hv : Valid p)
    (hn : ((named cfg.nodeRename p.node).map (·.name)).Nodup) (h : load cfg f absent fuel p = .ok l) (hf : NameFree f)
    (x : Env V) (hx : ∀ t, Makes p.node t → x t = none) (t : String) (ht : Reads l.graph.nodemap t ∨ Makes l.graph.nodemap t) (v : V) :
    Ev l.graph.nodemap f (startL l absent x) t v ↔ Computes p f absent x t v := by
  unfold Computes
  rw [← ev_named hf cfg.nodeRename p.node]
  cases hcf : cfg.constantFolding with
  | false =>
    obtain ⟨h1, h2, h3⟩ := load_plain hv hn hcf h
    have e : startL l absent x = start p absent x := by
      funext t
      unfold startL
      rw [h2.inits]
      by_cases hi : IsInit p t
      · obtain ⟨v, hm⟩ := hi
        rw [if_pos ((isInit_iff p t).2 ⟨v, hm⟩), h3, env0_start hv.inits, start_init hv hm, start_init hv hm]
      · rw [if_neg (fun c => hi ((isInit_iff p t).1 c)), start_other hi]
    rw [e, h2.nodes]
  | true =>
    obtain ⟨h1, h2⟩ := load_folded hv hn hcf h
    obtain ⟨C, hs, hG⟩ := load_search hn hcf h
    let x' : Env V := fun t => if (env0 absent p t).isSome then none else x t
    have hbase : (fun t => (env0 absent p t).or (x' t)) = start p absent x := by
      funext t
      by_cases hi : IsInit p t
      · obtain ⟨v, hm⟩ := hi
        rw [env0_start hv.inits, start_init hv hm, start_init hv hm]
        rfl
      · rw [start_other hi]
        have he : env0 absent p t = if t = "" then some absent else none := by rw [env0_start hv.inits, start_other hi]
        show (env0 absent p t).or (if (env0 absent p t).isSome then none else x t) = _
        rw [he]
        by_cases hq : t = "" <;> simp [hq]
    obtain ⟨N, hN⟩ := C18_folding_preserves_values_partial cfg.removeDangling (rawGraph cfg p) hn (acyclic_named hv.acyclic) f (env0 absent p) x'
      (by
        show ((named cfg.nodeRename p.node).flatMap (·.output)).Nodup
        rw [outputs_named]; exact hv.outs)
      (by
        intro n hnm o ho
        have hm : Makes (named cfg.nodeRename p.node) o := ⟨n, hnm, ho⟩
        obtain ⟨e1, e2, e3⟩ := valid_env0 hv absent hm
        refine ⟨e1, ?_⟩
        show (if (env0 absent p o).isSome then none else x o) = none
        rw [e1]
        exact hx o ((makes_named _ _ _).1 hm))
      (by intro t ht; cases ht) (by intro t ht; cases ht)
      (by
        intro t ht
        show (if (env0 absent p t).isSome then none else x t) = none
        rw [if_pos ht])
    obtain ⟨env, C', h3, h4⟩ := hN (max fuel N) (Nat.le_max_right _ _)
    have h5 := searchNodes_mono (Nat.le_max_left fuel N) _ _ _ _ hs
    have h3 : searchNodes (rawGraph cfg p).updateConsumerProducer f (max fuel N) (rawGraph cfg p).updateConsumerProducer.nodemap (env0 absent p) [] = .ok (env, C') := h3
    rw [h5] at h3
    injection h3 with h3
    rw [Prod.mk.injEq] at h3
    obtain ⟨e1, e2⟩ := h3
    subst e1; subst e2
    simp only [] at h4
    rw [← hG, hbase] at h4
    have hio : ∃ n ∈ l.graph.nodemap, t ∈ n.input ++ n.output := by
      rcases ht with ⟨n, a, b⟩ | ⟨n, a, b⟩
      · exact ⟨n, a, List.mem_append_left _ b⟩
      · exact ⟨n, a, List.mem_append_right _ b⟩
    obtain ⟨n, hnm, hio⟩ := hio
    rw [show Ev (named cfg.nodeRename p.node) f (start p absent x) t v ↔ _ from (h4.1 n hnm t hio v).symm]
    have agree : ∀ s, Reads l.graph.nodemap s ∨ Makes l.graph.nodemap s → startL l absent x s = foldedEnv l.graph l.env x' s := by
      intro s hs
      unfold startL foldedEnv
      by_cases hi : s ∈ l.graph.initials
      · rw [if_pos hi, if_pos hi]
      · rw [if_neg hi, if_neg hi]
        have hnone : (env0 absent p s).isSome = false := by
          rcases hs with hr | hm
          · rw [Bool.eq_false_iff, ne_eq]
            intro hc
            have : (l.env s).isSome = true := (h2.static s).2 (StaticT.init hc)
            exact hi (by rw [h2.inits]; exact (mem_foldedInitials l.env l.graph.nodemap s).2 ⟨hr, this⟩)
          · obtain ⟨C2, -, hk⟩ := h2.nodes
            obtain ⟨n, a, b⟩ := hm
            rw [hk, List.mem_filter] at a
            rw [(valid_env0 hv absent ⟨n, a.1, b⟩).1]
            rfl
        show _ = if (env0 absent p s).isSome then none else x s
        rw [hnone]
        have hne : s ≠ "" := by
          intro e
          rw [Bool.eq_false_iff, ne_eq, env0_isSome] at hnone
          exact hnone (Or.inr e)
        simp [hne]
    exact ev_congr (fun s hs => agree s (Or.inl hs)) (agree t ht) v

/-- **C73**, renaming: with `node_rename` the node names are distinct, whatever the file. -/
theorem C73_rename_distinct (ns : List Node) : ((named true ns).map (·.name)).Nodup := rename_nodup ns

/-- **C73**, counting: the loaded graph has as many nodes as the file exactly if the names are distinct; otherwise nodes have been dropped silently.  (Without folding.) -/
theorem C73_node_count {cfg : Config} {p : GraphProto V} {f : Node → List V → Nat → V} {absent : V} {fuel : Nat} {l : Loaded V}
    (hcf : cfg.constantFolding = false) (h : load cfg f absent fuel p = .ok l) :
    l.graph.nodemap.length ≤ p.node.length ∧ (l.graph.nodemap.length = p.node.length ↔ ((named cfg.nodeRename p.node).map (·.name)).Nodup) := by
  have hnm : l.graph.nodemap = (named cfg.nodeRename p.node).foldl Subgraph.setNode [] := by
    unfold load at h
    rw [initGraph_eq] at h
    simp only at h
    split at h
    · cases h
    injection h with h
    rw [← h]
    unfold finish
    rw [if_neg (by simp [hcf])]
    rfl
  have hlen : l.graph.nodemap.length = (((named cfg.nodeRename p.node).map (·.name)).foldl Subgraph.addNew []).length := by
    rw [hnm, ← List.length_map (f := fun n : Node => n.name), foldl_setNode_names]
    rfl
  have hl2 : p.node.length = ((named cfg.nodeRename p.node).map (·.name)).length := by rw [List.length_map, named_length]
  obtain ⟨h1, h2⟩ := foldl_addNew_length ((named cfg.nodeRename p.node).map (·.name)) [] List.nodup_nil
  rw [hlen, hl2]
  refine ⟨by simpa using h1, fun e => by simpa using h2 (by simpa using e), fun e => ?_⟩
  rw [← hl2, ← hlen, hnm, foldl_setNode _ _ (by simpa using e), List.nil_append, named_length]

/-! ## C74: saving -/

/-- **C74**, meaning: load a file and save it again (with or without constant folding).  Every tensor that a saved node reads or produces, and every saved output, has in the saved
file exactly the values it has in the original file, for all values `x` of the inputs. -/
theorem C74_save_same_values {cfg : Config} {p : GraphProto V} {f : Node → List V → Nat → V} {absent : V} {fuel : Nat} {l : Loaded V} (hv : Valid p)
    (hn : ((named cfg.nodeRename p.node).map (·.name)).Nodup) (h : load cfg f absent fuel p = .ok l) (hf : NameFree f) (ws : Bool)
    (x : Env V) (hx : ∀ t, Makes p.node t → x t = none) :
    (∀ t, Reads (save true ws l).node t ∨ Makes (save true ws l).node t → ∀ v, (Computes (save true ws l) f absent x t v ↔ Computes p f absent x t v)) ∧
    (∀ t ∈ (save true ws l).output, ¬ (IsInit p t ∧ ¬ Reads p.node t) → ∀ v, (Computes (save true ws l) f absent x t v ↔ Computes p f absent x t v)) := by
  have h1 := load_ok hv hn h
  have key : ∀ t, Reads (save true ws l).node t ∨ Makes (save true ws l).node t → ∀ v, (Computes (save true ws l) f absent x t v ↔ Computes p f absent x t v) := by
    intro t ht v
    rw [← C73_same_values hv hn h hf x hx t ht v]
    exact ev_congr (fun s hs => start_saved h1 ws x (Or.inl hs)) (start_saved h1 ws x ht) v
  refine ⟨key, fun t ht hu v => ?_⟩
  obtain ⟨-, h3, -⟩ := mem_infos.1 ht
  rw [h1.tens, h1.mem_dyn] at h3
  refine key t ?_ v
  rcases h3 with h3 | h3 | h3
  · cases hcf : cfg.constantFolding with
    | false =>
      obtain ⟨-, h4, -⟩ := load_plain hv hn hcf h
      rw [h4.inits, isInit_iff] at h3
      refine Or.inl ?_
      show Reads l.graph.nodemap t
      rw [h4.nodes, reads_named]
      exact Classical.not_not.1 fun hc => hu ⟨h3, hc⟩
    | true =>
      obtain ⟨-, h4⟩ := load_folded hv hn hcf h
      rw [h4.inits] at h3
      exact Or.inl ((mem_foldedInitials l.env l.graph.nodemap t).1 h3).1
  · exact Or.inl h3.1
  · exact Or.inr h3

/-- **C74**, contents: without constant folding the saved file has the nodes of the original under their names, in order; exactly the initializers that some node reads, with their
values; as outputs the declared ones, in order, that some node reads or produces or that are initializers; and as inputs those tensors nobody produces or initializes that some
node reads — and also every initializer that no node reads. -/
theorem C74_saved_file {cfg : Config} {p : GraphProto V} {f : Node → List V → Nat → V} {absent : V} {fuel : Nat} {l : Loaded V} (hv : Valid p)
    (hn : ((named cfg.nodeRename p.node).map (·.name)).Nodup) (hcf : cfg.constantFolding = false) (hrd : cfg.removeDangling = true)
    (h : load cfg f absent fuel p = .ok l) (ws : Bool) :
    (save true ws l).node = named cfg.nodeRename p.node ∧
    ((save true ws l).initializer.map (·.1)).Nodup ∧ (∀ t v, (t, v) ∈ (save true ws l).initializer ↔ (t, v) ∈ p.initializer ∧ Reads p.node t) ∧
    (save true ws l).output.Sublist p.output ∧ (∀ t, t ∈ (save true ws l).output ↔ t ∈ p.output ∧ t ≠ "" ∧ (Reads p.node t ∨ Makes p.node t ∨ IsInit p t)) ∧
    (∀ t, t ∈ (save true ws l).input ↔ t ≠ "" ∧ ((Reads p.node t ∧ ¬ Makes p.node t ∧ ¬ IsInit p t) ∨ (IsInit p t ∧ ¬ Reads p.node t))) := by
  obtain ⟨h1, h2, h3⟩ := load_plain hv hn hcf h
  have hini : ∀ t, t ∈ l.graph.initials ↔ IsInit p t := fun t => by rw [h2.inits, isInit_iff]
  have hr : ∀ t, Reads l.graph.nodemap t ↔ Reads p.node t := fun t => by rw [h2.nodes, reads_named]
  have hm : ∀ t, Makes l.graph.nodemap t ↔ Makes p.node t := fun t => by rw [h2.nodes, makes_named]
  have hval : ∀ t v, IsInit p t → (l.env t = some v ↔ (t, v) ∈ p.initializer) := by
    rintro t v ⟨w, hw⟩
    rw [h3, env0_start hv.inits, start_init hv hw, Option.some.injEq]
    constructor
    · rintro rfl; exact hw
    · intro hv'
      have e1 := find_some hv.inits hw
      have e2 := find_some hv.inits hv'
      rw [e1] at e2
      simpa using e2
  have htens : ∀ t, t ∈ l.tensors ↔ Reads p.node t ∨ Makes p.node t ∨ IsInit p t := by
    intro t
    rw [h1.tens, h1.mem_dyn, hini, hr, hm]
    by_cases hi : IsInit p t <;> simp [hi]
  have hdr : ∀ t, Makes p.node t → ¬ IsInit p t := fun t ⟨n, a, b⟩ => (hv.outNamed n a t b).2
  have hout : l.graph.output = p.output := by rw [h2.out, if_pos hrd]
  refine ⟨h2.nodes, used_nodup l, ?_, ?_, ?_, ?_⟩
  · intro t v
    show (t, v) ∈ usedInitials l ↔ _
    rw [mem_used, hini, hr]
    constructor
    · rintro ⟨a, b, c, d⟩; exact ⟨(hval t v b).1 d, a⟩
    · rintro ⟨a, b⟩; exact ⟨b, ⟨v, a⟩, hv.noEmpty t ⟨v, a⟩, (hval t v ⟨v, a⟩).2 a⟩
  · show (infos l l.graph.output).Sublist p.output
    rw [hout]
    exact List.filter_sublist
  · intro t
    show t ∈ infos l l.graph.output ↔ _
    rw [mem_infos, hout, htens]
    constructor
    · rintro ⟨a, b, c⟩; exact ⟨a, c, b⟩
    · rintro ⟨a, c, b⟩; exact ⟨a, b, c⟩
  · intro t
    show t ∈ infos l l.graph.input ++ infos l (l.graph.initials.filter fun t => !((usedInitials l).map (·.1)).contains t) ↔ _
    rw [List.mem_append, mem_infos, mem_infos, h1.mem_inp, hr, hm, hini, htens, List.mem_filter, hini, Bool.not_eq_true', ← Bool.not_eq_true, List.contains_iff_mem]
    have hu : t ∈ (usedInitials l).map (·.1) ↔ Reads p.node t ∧ IsInit p t ∧ t ≠ "" := by
      rw [show (t ∈ (usedInitials l).map (·.1)) ↔ IsInit (save true ws l) t from isInit_iff (save true ws l) t, saved_isInit h1, hr, hini]
    rw [hu]
    have := hv.noEmpty t
    constructor
    · rintro (⟨⟨a, b, c⟩, -, d⟩ | ⟨⟨a, b⟩, -, d⟩)
      · exact ⟨d, Or.inl ⟨a, b, c⟩⟩
      · exact ⟨d, Or.inr ⟨a, fun e => b ⟨e, a, d⟩⟩⟩
    · rintro ⟨d, ⟨a, b, c⟩ | ⟨a, b⟩⟩
      · exact Or.inl ⟨⟨a, b, c⟩, Or.inl a, d⟩
      · exact Or.inr ⟨⟨a, fun e => b e.1⟩, Or.inr (Or.inr a), d⟩

/-- **C74**, contents with constant folding: nodes are the remaining ones; initializers exactly the static tensors they read; inputs exactly the graph inputs; outputs, in
order, the declared ones that a remaining node reads or produces. -/
theorem C74_saved_file_folded {cfg : Config} {p : GraphProto V} {f : Node → List V → Nat → V} {absent : V} {fuel : Nat} {l : Loaded V} (hv : Valid p)
    (hn : ((named cfg.nodeRename p.node).map (·.name)).Nodup) (hcf : cfg.constantFolding = true) (hrd : cfg.removeDangling = true)
    (h : load cfg f absent fuel p = .ok l) (ws : Bool) :
    (save true ws l).node = l.graph.nodemap ∧
    (∀ t, IsInit (save true ws l) t ↔ Reads l.graph.nodemap t ∧ StaticT (named cfg.nodeRename p.node) (fun t => IsInit p t ∨ t = "") t ∧ t ≠ "") ∧
    (∀ t, t ∈ (save true ws l).input ↔ t ∈ l.graph.input) ∧
    (save true ws l).output.Sublist p.output ∧
    (∀ t, t ∈ (save true ws l).output ↔ t ∈ p.output ∧ t ≠ "" ∧ (Reads l.graph.nodemap t ∨ Makes l.graph.nodemap t)) := by
  obtain ⟨h1, h2⟩ := load_folded hv hn hcf h
  obtain ⟨-, -, -, h3, -, h4, h5⟩ := C73_load_folded hv hn hcf h
  have hout := h5 hrd
  have hir : ∀ t ∈ l.graph.initials, Reads l.graph.nodemap t := fun t ht => ((h3 t).1 ht).1
  refine ⟨rfl, ?_, ?_, ?_, ?_⟩
  · intro t
    rw [saved_isInit h1, h3]
    constructor
    · rintro ⟨a, b, c⟩; exact ⟨a, b.2, c⟩
    · rintro ⟨a, b, c⟩; exact ⟨a, ⟨a, b⟩, c⟩
  · intro t
    show t ∈ infos l l.graph.input ++ infos l (l.graph.initials.filter fun t => !((usedInitials l).map (·.1)).contains t) ↔ _
    rw [List.mem_append, mem_infos, mem_infos, List.mem_filter, Bool.not_eq_true', ← Bool.not_eq_true, List.contains_iff_mem,
      show (t ∈ (usedInitials l).map (·.1)) ↔ IsInit (save true ws l) t from isInit_iff (save true ws l) t, saved_isInit h1]
    constructor
    · rintro (⟨a, -, -⟩ | ⟨⟨a, b⟩, -, c⟩)
      · exact a
      · exact absurd ⟨hir t a, a, c⟩ b
    · intro a
      refine Or.inl ⟨a, ?_, ((h4 t).1 a).2.2.2⟩
      rw [h1.tens, h1.mem_dyn]
      obtain ⟨b, -, c⟩ := (h1.mem_inp t).1 a
      exact Or.inr (Or.inl ⟨b, c⟩)
  · show (infos l l.graph.output).Sublist p.output
    rw [hout]
    exact List.filter_sublist
  · intro t
    show t ∈ infos l l.graph.output ↔ _
    rw [mem_infos, hout, h1.tens, h1.mem_dyn]
    constructor
    · rintro ⟨a, b, c⟩
      refine ⟨a, c, ?_⟩
      rcases b with b | b | b
      · exact Or.inl (hir t b)
      · exact Or.inl b.1
      · exact Or.inr b
    · rintro ⟨a, c, b⟩
      refine ⟨a, ?_, c⟩
      rcases b with b | b
      · by_cases hi : t ∈ l.graph.initials
        · exact Or.inl hi
        · exact Or.inr (Or.inl ⟨b, hi⟩)
      · exact Or.inr (Or.inr b)

/-- **C74**, validity: a saved file is again a valid model with distinct, non-empty node names; so it can be loaded again. -/
theorem C74_saved_valid {cfg : Config} {p : GraphProto V} {f : Node → List V → Nat → V} {absent : V} {fuel : Nat} {l : Loaded V} (hv : Valid p)
    (hn : ((named cfg.nodeRename p.node).map (·.name)).Nodup) (h : load cfg f absent fuel p = .ok l) (ws : Bool) :
    Valid (save true ws l) ∧ ((save true ws l).node.map (·.name)).Nodup ∧ ∀ n ∈ (save true ws l).node, n.name ≠ "" :=
  ⟨saved_valid (load_ok hv hn h) ws, (load_ok hv hn h).names, (load_ok hv hn h).named⟩

/-- **C74**, stability without folding: if every initializer of the original is read by some node, loading the saved file and saving it again writes exactly the same file. -/
theorem C74_save_again_plain {cfg : Config} {p : GraphProto V} {f : Node → List V → Nat → V} {absent : V} {fuel fuel' : Nat} {l l' : Loaded V} (hv : Valid p)
    (hn : ((named cfg.nodeRename p.node).map (·.name)).Nodup) (hcf : cfg.constantFolding = false) (hused : ∀ t, IsInit p t → Reads p.node t) (ws : Bool)
    (h : load cfg f absent fuel p = .ok l) (h' : load cfg f absent fuel' (save true ws l) = .ok l') : save true ws l' = save true ws l := by
  obtain ⟨k1, k2, k3⟩ := load_plain hv hn hcf h
  have hs := saved_valid k1 ws
  have hfix : named cfg.nodeRename (save true ws l).node = l.graph.nodemap := by
    show named cfg.nodeRename l.graph.nodemap = _
    rw [k2.nodes, named_idem]
  obtain ⟨m1, m2, m3⟩ := load_plain hs (by rw [hfix]; exact k1.names) hcf h'
  have hnodes : l'.graph.nodemap = l.graph.nodemap := by rw [m2.nodes, hfix]
  have hu : ∀ t ∈ l.graph.initials, Reads l.graph.nodemap t := by
    intro t ht
    rw [k2.inits, isInit_iff] at ht
    rw [k2.nodes, reads_named]
    exact hused t ht
  have hmem : ∀ t, t ∈ l'.graph.initials ↔ Reads l.graph.nodemap t ∧ t ∈ l.graph.initials ∧ t ≠ "" := by
    intro t
    rw [m2.inits, isInit_iff, saved_isInit k1]
  have hne : ∀ t ∈ l.graph.initials, t ≠ "" := by
    intro t ht
    rw [k2.inits, isInit_iff] at ht
    exact hv.noEmpty t ht
  have hini : ∀ t, Reads l.graph.nodemap t → (t ∈ l'.graph.initials ↔ t ∈ l.graph.initials) := by
    intro t hr
    rw [hmem]
    exact ⟨fun a => a.2.1, fun a => ⟨hr, a, hne t a⟩⟩
  have htens : ∀ t, t ∈ l.tensors → t ∈ l'.tensors := by
    intro t ht
    rw [k1.tens, k1.mem_dyn] at ht
    rw [m1.tens, m1.mem_dyn, hnodes]
    rcases ht with a | a | a
    · exact Or.inl ((hini t (hu t a)).2 a)
    · exact Or.inr (Or.inl ⟨a.1, fun b => a.2 ((hini t a.1).1 b)⟩)
    · exact Or.inr (Or.inr a)
  have hout : infos l' l'.graph.output = infos l l.graph.output ∧ ∀ t, t ≠ "" → t ∈ l.tensors → (t ∈ l'.graph.output ↔ t ∈ l.graph.output) := by
    by_cases hrd : cfg.removeDangling = true
    · have e : l'.graph.output = infos l l.graph.output := by rw [m2.out, if_pos hrd]; rfl
      rw [e]
      refine ⟨infos_infos htens _, fun t h1 h2 => ?_⟩
      rw [mem_infos]
      exact ⟨fun a => a.1, fun a => ⟨a, h2, h1⟩⟩
    · have e : l'.graph.output = l.graph.output := by rw [m2.out, if_neg hrd, k2.out, if_neg hrd, hnodes]
      rw [e]
      refine ⟨?_, fun t _ _ => Iff.rfl⟩
      unfold infos
      refine List.filter_congr fun t _ => ?_
      have : l'.tensors.contains t = l.tensors.contains t := by
        rw [Bool.eq_iff_iff, List.contains_iff_mem, List.contains_iff_mem]
        refine ⟨fun a => ?_, htens t⟩
        rw [m1.tens, m1.mem_dyn, hnodes] at a
        rw [k1.tens, k1.mem_dyn]
        rcases a with a | a | a
        · exact Or.inl ((hmem t).1 a).2.1
        · exact Or.inr (Or.inl ⟨a.1, fun b => a.2 ((hini t a.1).2 b)⟩)
        · exact Or.inr (Or.inr a)
      rw [this]
  refine save_again k1 m1 hnodes hini ?_ hu (fun t ht => ((hmem t).1 ht).1) hout.2 hout.1 ws
  intro t hr hi ht
  rw [m3, env0_start hs.inits, start_saved k1 ws _ (Or.inl hr)]
  unfold startL
  rw [if_pos hi]

/-- **C74**, stability in general (without folding): whatever the original, from the second save on nothing changes. -/
theorem C74_second_save_stable {cfg : Config} {p : GraphProto V} {f : Node → List V → Nat → V} {absent : V} {fuel fuel' fuel'' : Nat} {l l' l'' : Loaded V} (hv : Valid p)
    (hn : ((named cfg.nodeRename p.node).map (·.name)).Nodup) (hcf : cfg.constantFolding = false) (ws : Bool)
    (h : load cfg f absent fuel p = .ok l) (h' : load cfg f absent fuel' (save true ws l) = .ok l') (h'' : load cfg f absent fuel'' (save true ws l') = .ok l'') :
    save true ws l'' = save true ws l' := by
  obtain ⟨k1, k2, k3⟩ := load_plain hv hn hcf h
  have hfix : named cfg.nodeRename (save true ws l).node = l.graph.nodemap := by
    show named cfg.nodeRename l.graph.nodemap = _
    rw [k2.nodes, named_idem]
  exact C74_save_again_plain (saved_valid k1 ws) (by rw [hfix]; exact k1.names) hcf (fun t ht => ((saved_isInit k1 ws t).1 ht).1) ws h' h''

/-- **C74**, stability with constant folding (without `node_rename`, which numbers the remaining nodes anew): loading the saved file and saving it again writes exactly the same
file; there is nothing left to fold. -/
theorem C74_save_again_folded {cfg : Config} {p : GraphProto V} {f : Node → List V → Nat → V} {absent : V} {fuel fuel' : Nat} {l l' : Loaded V} (hv : Valid p)
    (hn : ((named cfg.nodeRename p.node).map (·.name)).Nodup) (hcf : cfg.constantFolding = true) (hren : cfg.nodeRename = false) (ws : Bool)
    (h : load cfg f absent fuel p = .ok l) (h' : load cfg f absent fuel' (save true ws l) = .ok l') : save true ws l' = save true ws l := by
  obtain ⟨k1, k2⟩ := load_folded hv hn hcf h
  obtain ⟨C, hC, hk⟩ := k2.nodes
  have hs := saved_valid k1 ws
  have hfix : named cfg.nodeRename (save true ws l).node = l.graph.nodemap := by
    show named cfg.nodeRename l.graph.nodemap = _
    rw [hren, named_fix k1.named]
  have hkm : ∀ n, n ∈ l.graph.nodemap ↔ n ∈ named cfg.nodeRename p.node ∧ n.name ∉ C := by
    intro n
    rw [hk, List.mem_filter, Bool.not_eq_true', ← Bool.not_eq_true, List.contains_iff_mem]
  obtain ⟨m1, m2⟩ := load_folded hs (by rw [hfix]; exact k1.names) hcf h'
  have hst := m2.static
  obtain ⟨C', hC', hk'⟩ := m2.nodes
  have hval := m2.value
  have hmout := m2.out
  rw [hfix] at hst hC' hk' hval hmout
  have hir : ∀ t, t ∈ l.graph.initials ↔ Reads l.graph.nodemap t ∧ (l.env t).isSome = true := by
    intro t
    rw [k2.inits]
    exact mem_foldedInitials l.env l.graph.nodemap t
  have hir' : ∀ t, t ∈ l'.graph.initials ↔ Reads l'.graph.nodemap t ∧ (l'.env t).isSome = true := by
    intro t
    rw [m2.inits]
    exact mem_foldedInitials l'.env l'.graph.nodemap t
  -- what is static for the saved file is static for the original
  have hlift : ∀ t, StaticT l.graph.nodemap (fun t => (env0 absent (save true ws l) t).isSome = true) t →
      StaticT (named cfg.nodeRename p.node) (fun t => (env0 absent p t).isSome = true) t := by
    intro t ht
    induction ht with
    | init h0 =>
      rcases (env0_isSome _ _ _).1 h0 with h0 | h0
      · exact (k2.static _).1 (((hir _).1 ((saved_isInit k1 ws _).1 h0).2.1).2)
      · exact StaticT.init ((env0_isSome _ _ _).2 (Or.inr h0))
    | out hn' hop _ ho ih => exact StaticT.out ((hkm _).1 hn').1 hop ih ho
  have hnone : ∀ n ∈ l.graph.nodemap, n.name ∉ C' := by
    intro n hnm hc
    obtain ⟨-, hop, hin⟩ := (hC' n hnm).1 hc
    exact ((hkm n).1 hnm).2 ((hC n ((hkm n).1 hnm).1).2 ⟨((hkm n).1 hnm).1, hop, fun t ht => hlift t (hin t ht)⟩)
  have hnodes : l'.graph.nodemap = l.graph.nodemap := by
    rw [hk', List.filter_eq_self]
    intro n hnm
    rw [Bool.not_eq_true', ← Bool.not_eq_true, List.contains_iff_mem]
    exact hnone n hnm
  have hst0 : ∀ t, (l'.env t).isSome = true ↔ IsInit (save true ws l) t ∨ t = "" := by
    intro t
    rw [hst, ← env0_isSome absent]
    constructor
    · intro ht
      cases ht with
      | init h0 => exact h0
      | out hn' hop hin ho => exact absurd ((hC' _ hn').2 ⟨hn', hop, hin⟩) (hnone _ hn')
    · exact fun ht => StaticT.init ht
  have hini : ∀ t, Reads l.graph.nodemap t → (t ∈ l'.graph.initials ↔ t ∈ l.graph.initials) := by
    intro t hr
    rw [hir', hnodes, hst0, saved_isInit k1]
    constructor
    · rintro ⟨-, a | a⟩
      · exact a.2.1
      · rw [hir]
        exact ⟨hr, (k2.static t).2 (StaticT.init ((env0_isSome _ _ _).2 (Or.inr a)))⟩
    · intro a
      by_cases he : t = ""
      · exact ⟨hr, Or.inr he⟩
      · exact ⟨hr, Or.inl ⟨hr, a, he⟩⟩
  have htens : ∀ t, t ∈ l'.tensors ↔ t ∈ l.tensors := by
    intro t
    rw [m1.tens, m1.mem_dyn, k1.tens, k1.mem_dyn, hnodes]
    constructor
    · rintro (a | a | a)
      · exact Or.inl ((hini t (hnodes ▸ ((hir' t).1 a).1)).1 a)
      · exact Or.inr (Or.inl ⟨a.1, fun b => a.2 ((hini t a.1).2 b)⟩)
      · exact Or.inr (Or.inr a)
    · rintro (a | a | a)
      · exact Or.inl ((hini t ((hir t).1 a).1).2 a)
      · exact Or.inr (Or.inl ⟨a.1, fun b => a.2 ((hini t a.1).1 b)⟩)
      · exact Or.inr (Or.inr a)
  have hmadeNot : ∀ t, Makes l.graph.nodemap t → ¬ StaticT (named cfg.nodeRename p.node) (fun t => (env0 absent p t).isSome = true) t := by
    rintro t ⟨n, hnm, ho⟩ hs'
    obtain ⟨hn1, hn2⟩ := (hkm n).1 hnm
    cases hs' with
    | init h0 => rw [(valid_env0 hv absent ⟨n, hn1, ho⟩).1] at h0; cases h0
    | @out m _ hm hop hin hom =>
      obtain ⟨i, hi⟩ := List.mem_iff_getElem?.1 ho
      obtain ⟨j, hj⟩ := List.mem_iff_getElem?.1 hom
      obtain ⟨e, -⟩ := output_unique (by rw [outputs_named]; exact hv.outs) hn1 hm hi hj
      subst e
      exact hn2 ((hC n hn1).2 ⟨hn1, hop, hin⟩)
  have hout : infos l' l'.graph.output = infos l l.graph.output ∧ ∀ t, t ≠ "" → t ∈ l.tensors → (t ∈ l'.graph.output ↔ t ∈ l.graph.output) := by
    by_cases hrd : cfg.removeDangling = true
    · have e : l'.graph.output = infos l l.graph.output := by rw [hmout, if_pos hrd]; rfl
      rw [e]
      refine ⟨infos_infos (fun t => (htens t).2) _, fun t h1 h2 => ?_⟩
      rw [mem_infos]
      exact ⟨fun a => a.1, fun a => ⟨a, h2, h1⟩⟩
    · have e : l'.graph.output = l.graph.output := by
        rw [hmout, if_neg hrd, k2.out, if_neg hrd, hnodes]
        refine collect_congr fun n hnm => List.filter_congr fun t ht => ?_
        have : readsB l.graph.nodemap t = readsB (named cfg.nodeRename p.node) t := by
          rw [Bool.eq_iff_iff, readsB_iff, readsB_iff]
          refine ⟨fun ⟨m, a, b⟩ => ⟨m, ((hkm m).1 a).1, b⟩, fun ⟨m, a, b⟩ => ⟨m, (hkm m).2 ⟨a, fun hc => ?_⟩, b⟩⟩
          obtain ⟨-, -, hin⟩ := (hC m a).1 hc
          exact hmadeNot t ⟨n, hnm, ht⟩ (hin t b)
        rw [this]
      rw [e]
      refine ⟨?_, fun t _ _ => Iff.rfl⟩
      unfold infos
      refine List.filter_congr fun t _ => ?_
      have : l'.tensors.contains t = l.tensors.contains t := by
        rw [Bool.eq_iff_iff, List.contains_iff_mem, List.contains_iff_mem]
        exact htens t
      rw [this]
  refine save_again k1 m1 hnodes hini ?_ (fun t ht => ((hir t).1 ht).1) (fun t ht => hnodes ▸ ((hir' t).1 ht).1) hout.2 hout.1 ws
  intro t hr hi ht
  obtain ⟨v, hv'⟩ := Option.isSome_iff_exists.1 ((hir' t).1 ((hini t hr).2 hi)).2
  have hdet : Det l.graph.nodemap (env0 absent (save true ws l)) := by
    refine ⟨k1.outs, fun n hnm o ho => ?_⟩
    exact (valid_env0 hs absent (r := cfg.nodeRename) (by rw [hfix]; exact ⟨n, hnm, ho⟩)).1
  have e : env0 absent (save true ws l) t = l.env t := by
    rw [env0_start hs.inits, start_saved k1 ws _ (Or.inl hr)]
    unfold startL
    rw [if_pos hi]
  obtain ⟨w, hw⟩ := Option.isSome_iff_exists.1 ((hir t).1 hi).2
  rw [hw] at e
  rw [hv', hw, ev_det hdet (hval t v hv') (Ev.base e)]

/-- **C74**, `shape_only`: the file has no initializers; every initializer of the graph is declared as an input instead. -/
theorem C74_shape_only {absent : V} {cfg : Config} {p : GraphProto V} {f : Node → List V → Nat → V} {fuel : Nat} {l : Loaded V} (hv : Valid p)
    (hn : ((named cfg.nodeRename p.node).map (·.name)).Nodup) (h : load cfg f absent fuel p = .ok l) (ws : Bool) :
    (save false ws l).initializer = [] ∧ (save false ws l).node = l.graph.nodemap ∧ (save false ws l).output = (save true ws l).output ∧
    ∀ t, t ∈ (save false ws l).input ↔ t ≠ "" ∧ (t ∈ l.graph.input ∨ t ∈ l.graph.initials) := by
  have h1 := load_ok hv hn h
  refine ⟨rfl, rfl, rfl, fun t => ?_⟩
  show t ∈ infos l l.graph.input ++ infos l (l.graph.initials.filter fun t => !([] : List String).contains t) ↔ _
  rw [List.mem_append, mem_infos, mem_infos, h1.tens, h1.mem_dyn]
  simp only [List.contains_nil, Bool.not_false, List.mem_filter, and_true]
  constructor
  · rintro (⟨a, -, b⟩ | ⟨a, -, b⟩)
    · exact ⟨b, Or.inl a⟩
    · exact ⟨b, Or.inr a⟩
  · rintro ⟨b, a | a⟩
    · refine Or.inl ⟨a, ?_, b⟩
      obtain ⟨c, -, d⟩ := (h1.mem_inp t).1 a
      exact Or.inr (Or.inl ⟨c, d⟩)
    · exact Or.inr ⟨a, Or.inl a, b⟩

/-! ## Instances and findings -/

/-- `Neg c → d`, `x, d → Add → y` (unnamed), `y → Relu → z`; `w` is an initializer nobody reads, `u` an input nobody reads -/
def loadFile : GraphProto Int :=
  { node := [⟨"n0", "Neg", ["c"], ["d"]⟩, ⟨"", "Add", ["x", "d"], ["y"]⟩, ⟨"r", "Relu", ["y"], ["z"]⟩]
    initializer := [("c", 5), ("w", 9)]
    input := ["u", "x"]
    output := ["z", "u"] }

example : Valid loadFile := by
  have key : ∀ n ∈ loadFile.node, ∀ t ∈ n.output, t ≠ "" ∧ t ∉ loadFile.initializer.map (·.1) := by decide
  refine ⟨by decide, ?_, by decide, fun n hn t ht => ⟨(key n hn t ht).1, fun h => (key n hn t ht).2 ((isInit_iff _ _).2 h)⟩, ⟨loadFile.node, List.Perm.refl _, by decide⟩⟩
  intro t h
  have : ∀ t ∈ loadFile.initializer.map (·.1), t ≠ "" := by decide
  exact this t ((isInit_iff _ _).2 h)
example : ((named false loadFile.node).map (·.name)).Nodup := by decide
example : NameFree foldSem := fun _ _ => rfl

/-- the loaded graph, without and with folding; saving keeps what is needed -/
example : ((load {} foldSem 0 10 loadFile).toOption.map fun l => (l.graph.nodemap.map (·.name), l.graph.input, l.graph.output, l.graph.initials, save true true l)) =
    some (["n0", "Add_1", "r"], ["x"], ["z", "u"], ["c", "w"],
      { node := [⟨"n0", "Neg", ["c"], ["d"]⟩, ⟨"Add_1", "Add", ["x", "d"], ["y"]⟩, ⟨"r", "Relu", ["y"], ["z"]⟩]
        initializer := [("c", 5)]
        input := ["x", "w"]
        output := ["z"]
        valueInfo := ["d", "y"] }) := by decide
example : ((load { constantFolding := true } foldSem 0 10 loadFile).toOption.map fun l => save true true l) =
    some { node := [⟨"Add_1", "Add", ["x", "d"], ["y"]⟩, ⟨"r", "Relu", ["y"], ["z"]⟩]
           initializer := [("d", -5)]
           input := ["x"]
           output := ["z"]
           valueInfo := ["y"] } := by decide

/-- **C73 finding**: two nodes with the same name: the first is dropped silently; its output `y` is then neither produced nor a graph input, the saved model cannot run. -/
theorem C73_duplicate_names_lose_nodes :
    ((load {} foldSem 0 10 ({ node := [⟨"n", "Neg", ["x"], ["y"]⟩, ⟨"n", "Relu", ["y"], ["z"]⟩], input := ["x"], output := ["z"] } : GraphProto Int)).toOption.map fun l =>
      ((save true false l).node.map (fun n => (n.op, n.input)), (save true false l).input)) = some ([("Relu", ["y"])], []) := by decide

/-- **C73 finding**: a name given to an unnamed node can be the name of another node of the file, with the same effect. -/
theorem C73_generated_name_collides :
    ((load {} foldSem 0 10 ({ node := [⟨"Relu_1", "Neg", ["x"], ["y"]⟩, ⟨"", "Relu", ["y"], ["z"]⟩], input := ["x"], output := ["z"] } : GraphProto Int)).toOption.map fun l =>
      ((save true false l).node.map (fun n => (n.op, n.input)), (save true false l).input)) = some ([("Relu", ["y"])], []) := by decide

/-- **C73 finding**: without folding, the empty name of an absent operand becomes a graph input (it is left out again on saving). -/
theorem C73_absent_operand_is_input :
    ((load {} foldSem 0 10 ({ node := [⟨"n", "Clip", ["x", "", "m"], ["z"]⟩], initializer := [("m", 3)], input := ["x"], output := ["z"] } : GraphProto Int)).toOption.map fun l =>
      (l.graph.input, (save true false l).input)) = some (["x", ""], ["x"]) := by decide

/-- **C73 finding**: the order of the inputs is that of their first use, not the declared one, and declared inputs nobody reads are dropped. -/
theorem C73_input_order :
    ((load {} foldSem 0 10 ({ node := [⟨"n", "Sub", ["b", "a"], ["z"]⟩], input := ["a", "b", "c"], output := ["z"] } : GraphProto Int)).toOption.map fun l =>
      l.graph.input) = some ["b", "a"] := by decide

/-- **C74 finding**: with folding and `node_rename` saving is not stable: the second load numbers the remaining nodes anew. -/
theorem C74_rename_folded_unstable :
    ((load { constantFolding := true, nodeRename := true } foldSem 0 10 loadFile).toOption.bind fun l =>
      (load { constantFolding := true, nodeRename := true } foldSem 0 10 (save true false l)).toOption.map fun l' =>
        ((save true false l).node.map (·.name), (save true false l').node.map (·.name))) = some (["Add_1", "Relu_2"], ["Add_0", "Relu_1"]) := by decide

end OnnxTool.Props
