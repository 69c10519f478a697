import Verif.Model.Subgraph
import Verif.Spec.Subgraph
import Verif.Proofs.Dangling
/-! `__get_subnodes_byio__` computes the reachable sets. -/
namespace OnnxTool.Subgraph
open OnnxTool Remove Topsort

/-- distinct node names and exact indexes -/
structure Ix (g : Graph) : Prop where
  names : (g.nodemap.map (·.name)).Nodup
  exact_ : g.IndexExact

/-- search invariant: V found, P pending tensors -/
structure BInv (ns : List Node) (ts E V P : List String) : Prop where
  nodup : V.Nodup
  found : ∀ x ∈ V, x ∉ E ∧ ∃ n ∈ ns, n.name = x ∧ Reach ns ts n
  pend : ∀ t ∈ P, t ∈ ts ∨ ∃ n, Reach ns ts n ∧ t ∈ n.output
  done : ∀ t, (t ∈ ts ∨ ∃ n ∈ ns, n.name ∈ V ∧ t ∈ n.output) → t ∈ P ∨ ∀ n ∈ ns, t ∈ n.input → n.name ∈ V ∨ n.name ∈ E

theorem visitConsumers_ok {g : Graph} (hn : (g.nodemap.map (·.name)).Nodup) {ts E : List String} {t : String}
    (ht : t ∈ ts ∨ ∃ n, Reach g.nodemap ts n ∧ t ∈ n.output) :
    ∀ (cs : List String) (V new : List String) (rest : List String)
      (_ : ∀ c ∈ cs, ∃ n ∈ g.nodemap, n.name = c ∧ t ∈ n.input) (_ : BInv g.nodemap ts E V (t :: rest ++ new)),
      ∃ V' new', visitConsumers g E cs (V, new) = .ok (V', new') ∧ BInv g.nodemap ts E V' (t :: rest ++ new') ∧
        (∀ c ∈ cs, c ∈ V' ∨ c ∈ E) ∧ V.length ≤ V'.length ∧ (∀ x ∈ V, x ∈ V') ∧
        (V'.length = V.length → new' = new)
  | [], V, new, rest, hc, h => ⟨V, new, rfl, h, by simp, Nat.le_refl _, fun _ h => h, fun _ => rfl⟩
  | c :: cs, V, new, rest, hc, h => by
    by_cases hin : (E.contains c || V.contains c) = true
    · obtain ⟨V', new', h1, h2, h3, h4, h5, h6⟩ := visitConsumers_ok (E := E) hn ht cs V new rest
        (fun d hd => hc d (List.mem_cons_of_mem _ hd)) h
      refine ⟨V', new', ?_, h2, ?_, h4, h5, h6⟩
      · unfold visitConsumers; rw [if_pos hin]; exact h1
      · intro d hd
        rcases List.mem_cons.mp hd with rfl | hd
        · rw [Bool.or_eq_true, List.contains_iff_mem, List.contains_iff_mem] at hin
          rcases hin with h | h
          · exact Or.inr h
          · exact Or.inl (h5 _ h)
        · exact h3 d hd
    · obtain ⟨n, hnm, rfl, htn⟩ := hc c (by simp)
      have hin' : n.name ∉ E ∧ n.name ∉ V := by
        rw [Bool.or_eq_true, List.contains_iff_mem, List.contains_iff_mem, not_or] at hin; exact hin
      have hreach : Reach g.nodemap ts n := by
        rcases ht with h | ⟨m, hm, htm⟩
        · exact Reach.start hnm h htn
        · exact Reach.step hnm hm htm htn
      obtain ⟨V', new', h1, h2, h3, h4, h5, h6⟩ := visitConsumers_ok (E := E) hn ht cs (V ++ [n.name]) (new ++ n.output) rest
        (fun d hd => hc d (List.mem_cons_of_mem _ hd)) (by
          refine ⟨?_, ?_, ?_, ?_⟩
          · rw [List.nodup_append]
            refine ⟨h.nodup, by simp, ?_⟩
            rintro a ha b hb rfl
            rw [List.mem_singleton] at hb; subst hb; exact hin'.2 ha
          · intro x hx
            rcases List.mem_append.mp hx with hx | hx
            · exact h.found x hx
            · rw [List.mem_singleton] at hx; subst hx; exact ⟨hin'.1, n, hnm, rfl, hreach⟩
          · intro s hs
            rw [← List.append_assoc] at hs
            rcases List.mem_append.mp hs with hs | hs
            · exact h.pend s hs
            · exact Or.inr ⟨n, hreach, hs⟩
          · intro s hs
            rw [← List.append_assoc]
            have old : (s ∈ ts ∨ ∃ n ∈ g.nodemap, n.name ∈ V ∧ s ∈ n.output) → s ∈ t :: rest ++ new ++ n.output ∨
                ∀ m ∈ g.nodemap, s ∈ m.input → m.name ∈ V ++ [n.name] ∨ m.name ∈ E := by
              intro h0
              rcases h.done s h0 with h1 | h1
              · exact Or.inl (List.mem_append_left _ h1)
              · refine Or.inr (fun m hm hsm => ?_)
                rcases h1 m hm hsm with h2 | h2
                · exact Or.inl (List.mem_append_left _ h2)
                · exact Or.inr h2
            rcases hs with hs | ⟨m, hm, hmV, hsm⟩
            · exact old (Or.inl hs)
            · rcases List.mem_append.mp hmV with hmV | hmV
              · exact old (Or.inr ⟨m, hm, hmV, hsm⟩)
              · rw [List.mem_singleton] at hmV
                have : m = n := name_inj hn hm hnm hmV
                subst this
                exact Or.inl (List.mem_append_right _ hsm))
      refine ⟨V', new', ?_, h2, ?_, ?_, ?_, ?_⟩
      · unfold visitConsumers; rw [if_neg hin, findNode_mem hn hnm]; exact h1
      · intro d hd
        rcases List.mem_cons.mp hd with rfl | hd
        · exact Or.inl (h5 _ (by simp))
        · exact h3 d hd
      · simp at h4; omega
      · intro x hx; exact h5 x (List.mem_append_left _ hx)
      · intro e; simp at h4; omega

theorem visitTensors_ok {g : Graph} (hw : Ix g) {ts E : List String} :
    ∀ (W V new : List String) (_ : BInv g.nodemap ts E V (W ++ new)),
      ∃ V' new', visitTensors g E W (V, new) = .ok (V', new') ∧ BInv g.nodemap ts E V' new' ∧
        V.length ≤ V'.length ∧ (V'.length = V.length → new' = new)
  | [], V, new, h => ⟨V, new, rfl, h, Nat.le_refl _, fun _ => rfl⟩
  | t :: W, V, new, h => by
    have hx := hw.exact_.1 t
    by_cases hnil : consumersOf g.nodemap t = []
    · rw [if_pos hnil] at hx
      obtain ⟨V', new', h1, h2, h3, h4⟩ := visitTensors_ok hw W V new (by
        refine ⟨h.nodup, h.found, fun s hs => h.pend s (List.mem_cons_of_mem _ hs), ?_⟩
        intro s hs
        rcases h.done s hs with h1 | h1
        · rcases List.mem_cons.mp h1 with rfl | h1
          · refine Or.inr (fun n hn hsn => ?_)
            have : n.name ∈ consumersOf g.nodemap s := (mem_occ (f := Node.input)).mpr ⟨n, hn, rfl, hsn⟩
            rw [hnil] at this; cases this
          · exact Or.inl h1
        · exact Or.inr h1)
      exact ⟨V', new', by unfold visitTensors; rw [hx]; exact h1, h2, h3, h4⟩
    · rw [if_neg hnil] at hx
      obtain ⟨V1, new1, h1, h2, h3, h4, -, h6⟩ := visitConsumers_ok hw.names (h.pend t (by simp))
        (consumersOf g.nodemap t) V new W (fun c hc => (mem_occ (f := Node.input)).mp hc) h
      obtain ⟨V', new', k1, k2, k3, k4⟩ := visitTensors_ok hw W V1 new1 (by
        refine ⟨h2.nodup, h2.found, fun s hs => h2.pend s (List.mem_cons_of_mem _ hs), ?_⟩
        intro s hs
        rcases h2.done s hs with h1 | h1
        · rcases List.mem_cons.mp h1 with rfl | h1
          · refine Or.inr (fun n hn hsn => ?_)
            exact h3 _ ((mem_occ (f := Node.input)).mpr ⟨n, hn, rfl, hsn⟩)
          · exact Or.inl h1
        · exact Or.inr h1)
      refine ⟨V', new', ?_, k2, Nat.le_trans h4 k3, ?_⟩
      · unfold visitTensors; rw [hx]; simp only; rw [h1]; exact k1
      · intro e
        rw [k4 (by omega), h6 (by omega)]

theorem binv_length {g : Graph} {ts E V P : List String} (h : BInv g.nodemap ts E V P) :
    V.length ≤ g.nodemap.length := by
  have : V.length ≤ (g.nodemap.map (·.name)).length := nodup_sub_length h.nodup (by
    intro x hx
    obtain ⟨-, n, hn, rfl, -⟩ := h.found x hx
    exact List.mem_map.mpr ⟨n, hn, rfl⟩)
  simpa using this

theorem bfs_ok {g : Graph} (hw : Ix g) {ts E : List String} : ∀ (fuel : Nat) (W V : List String)
    (_ : BInv g.nodemap ts E V W)
    (_ : (W = [] ∧ 1 ≤ fuel) ∨ g.nodemap.length + 2 ≤ fuel + V.length),
    ∃ V', bfs g E fuel W V = .ok V' ∧ BInv g.nodemap ts E V' []
  | 0, W, V, h, hf => by have := binv_length h; omega
  | fuel + 1, [], V, h, hf => ⟨V, rfl, h⟩
  | fuel + 1, t :: W, V, h, hf => by
    obtain ⟨V1, new, h1, h2, h3, h4⟩ := visitTensors_ok hw (t :: W) V [] (by simpa using h)
    have hf' := hf.resolve_left (by simp)
    have hl := binv_length h
    obtain ⟨V', k1, k2⟩ := bfs_ok hw fuel new V1 h2 (by
      rcases Nat.lt_or_eq_of_le h3 with hlt | heq
      · exact Or.inr (by omega)
      · refine Or.inl ⟨h4 heq.symm, by omega⟩)
    refine ⟨V', ?_, k2⟩
    unfold bfs
    rw [h1]; exact k1

theorem binv_init (ns : List Node) (ts E : List String) : BInv ns ts E [] ts :=
  ⟨by simp, by simp, fun t ht => Or.inl ht, by
    rintro t (ht | ⟨n, _, h, _⟩)
    · exact Or.inl ht
    · cases h⟩

theorem reach_mem {ns : List Node} {ts : List String} {n : Node} (h : Reach ns ts n) : n ∈ ns := by cases h <;> assumption

theorem binv_final {ns : List Node} {ts E V : List String} (h : BInv ns ts E V [])
    (hE : ∀ n ∈ ns, n.name ∈ E → ∀ t ∈ n.output, ∀ m ∈ ns, t ∈ m.input → m.name ∈ E) {n : Node} (hr : Reach ns ts n) :
    n.name ∈ V ∨ n.name ∈ E := by
  induction hr with
  | start hn ht hi =>
    exact ((h.done _ (Or.inl ht)).resolve_left (by simp)) _ hn hi
  | step hn hm ho hi ih =>
    rcases ih with h1 | h1
    · exact ((h.done _ (Or.inr ⟨_, reach_mem hm, h1, ho⟩)).resolve_left (by simp)) _ hn hi
    · exact Or.inr (hE _ (reach_mem hm) h1 _ ho _ hn hi)

theorem subnodes_ok {g : Graph} (hw : Ix g) (inputs outputs : List String) :
    ∃ l1 l2, subnodesByIO g inputs outputs =
        .ok ((g.nodemap.map (·.name)).filter (fun n => !l1.contains n && !l2.contains n), l1, l2) ∧
      l1.Nodup ∧ l2.Nodup ∧
      (∀ x, x ∈ l2 ↔ ∃ n ∈ g.nodemap, n.name = x ∧ Reach g.nodemap outputs n) ∧
      (∀ x, x ∈ l1 ↔ (∃ n ∈ g.nodemap, n.name = x ∧ Reach g.nodemap inputs n) ∧ x ∉ l2) := by
  obtain ⟨l2, h1, h2⟩ := bfs_ok hw (g.nodemap.length + 2) outputs [] (binv_init g.nodemap outputs []) (Or.inr (by simp))
  obtain ⟨l1, k1, k2⟩ := bfs_ok hw (g.nodemap.length + 2) inputs [] (binv_init g.nodemap inputs l2) (Or.inr (by simp))
  have hl2 : ∀ x, x ∈ l2 ↔ ∃ n ∈ g.nodemap, n.name = x ∧ Reach g.nodemap outputs n := by
    intro x
    constructor
    · exact fun hx => (h2.found x hx).2
    · rintro ⟨n, _, rfl, hr⟩
      exact (binv_final h2 (by simp) hr).resolve_right (by simp)
  have hE : ∀ n ∈ g.nodemap, n.name ∈ l2 → ∀ t ∈ n.output, ∀ m ∈ g.nodemap, t ∈ m.input → m.name ∈ l2 := by
    intro n hn hx t ht m hm htm
    rw [hl2] at hx ⊢
    obtain ⟨n', hn', e, hr⟩ := hx
    have : n' = n := name_inj hw.names hn' hn e
    subst this
    exact ⟨m, hm, rfl, Reach.step hm hr ht htm⟩
  refine ⟨l1, l2, ?_, k2.nodup, h2.nodup, hl2, ?_⟩
  · unfold subnodesByIO
    rw [h1]; simp only; rw [k1]
  · intro x
    constructor
    · intro hx
      obtain ⟨ha, hb⟩ := k2.found x hx
      exact ⟨hb, ha⟩
    · rintro ⟨⟨n, _, rfl, hr⟩, hx⟩
      exact (binv_final k2 hE hr).resolve_right hx

end OnnxTool.Subgraph
