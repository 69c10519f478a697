import Verif.Proofs.Subnodes
/-! `get_iotensors` and `fuse_subgraph_node_names`. -/
namespace OnnxTool.Subgraph
open OnnxTool Remove Topsort

theorem mem_addNew {l : List String} {x y : String} : y ∈ addNew l x ↔ y ∈ l ∨ y = x := by
  unfold addNew
  split
  · rename_i h
    rw [List.contains_iff_mem] at h
    constructor
    · exact Or.inl
    · rintro (h1 | rfl); exact h1; exact h
  · simp

theorem nodup_addNew {l : List String} {x : String} (h : l.Nodup) : (addNew l x).Nodup := by
  unfold addNew
  split
  · exact h
  · rename_i hx
    rw [List.contains_iff_mem] at hx
    rw [List.nodup_append]
    refine ⟨h, by simp, ?_⟩
    rintro a ha b hb rfl
    rw [List.mem_singleton] at hb; subst hb; exact hx ha

theorem mem_fold_addNew {ts l : List String} {y : String} : y ∈ ts.foldl addNew l ↔ y ∈ l ∨ y ∈ ts := by
  induction ts generalizing l with
  | nil => simp
  | cons a ts ih => rw [List.foldl_cons, ih, mem_addNew, List.mem_cons, or_assoc]

theorem nodup_fold_addNew {ts l : List String} (h : l.Nodup) : (ts.foldl addNew l).Nodup := by
  induction ts generalizing l with
  | nil => exact h
  | cons a ts ih => exact ih (nodup_addNew h)

theorem ioLoop_ok {g : Graph} (hn : (g.nodemap.map (·.name)).Nodup) (names : List String) (r : Bool) :
    ∀ (xs I O : List String) (_ : ∀ x ∈ xs, ∃ n ∈ g.nodemap, n.name = x) (_ : I.Nodup) (_ : O.Nodup),
    ∃ I' O', ioLoop g names r xs (I, O) = .ok (I', O') ∧ I'.Nodup ∧ O'.Nodup ∧
      (∀ t, t ∈ I' ↔ t ∈ I ∨ (∃ n ∈ g.nodemap, n.name ∈ xs ∧ t ∈ n.input) ∧ inputWanted g names r t = true) ∧
      (∀ t, t ∈ O' ↔ t ∈ O ∨ (∃ n ∈ g.nodemap, n.name ∈ xs ∧ t ∈ n.output) ∧ outputWanted g names r t = true)
  | [], I, O, hx, hI, hO => ⟨I, O, rfl, hI, hO, by simp, by simp⟩
  | x :: xs, I, O, hx, hI, hO => by
    obtain ⟨n, hnm, rfl⟩ := hx x (by simp)
    obtain ⟨I', O', h1, h2, h3, h4, h5⟩ := ioLoop_ok hn names r xs
      ((n.input.filter (inputWanted g names r)).foldl addNew I)
      ((n.output.filter (outputWanted g names r)).foldl addNew O)
      (fun y hy => hx y (List.mem_cons_of_mem _ hy)) (nodup_fold_addNew hI) (nodup_fold_addNew hO)
    refine ⟨I', O', ?_, h2, h3, ?_, ?_⟩
    · unfold ioLoop; rw [findNode_mem hn hnm]; exact h1
    · intro t
      rw [h4, mem_fold_addNew, List.mem_filter]
      constructor
      · rintro ((h | ⟨h, hw⟩) | ⟨⟨m, hm, hmx, ht⟩, hw⟩)
        · exact Or.inl h
        · exact Or.inr ⟨⟨n, hnm, by simp, h⟩, hw⟩
        · exact Or.inr ⟨⟨m, hm, List.mem_cons_of_mem _ hmx, ht⟩, hw⟩
      · rintro (h | ⟨⟨m, hm, hmx, ht⟩, hw⟩)
        · exact Or.inl (Or.inl h)
        · rcases List.mem_cons.mp hmx with e | hmx
          · have : m = n := name_inj hn hm hnm e
            subst this; exact Or.inl (Or.inr ⟨ht, hw⟩)
          · exact Or.inr ⟨⟨m, hm, hmx, ht⟩, hw⟩
    · intro t
      rw [h5, mem_fold_addNew, List.mem_filter]
      constructor
      · rintro ((h | ⟨h, hw⟩) | ⟨⟨m, hm, hmx, ht⟩, hw⟩)
        · exact Or.inl h
        · exact Or.inr ⟨⟨n, hnm, by simp, h⟩, hw⟩
        · exact Or.inr ⟨⟨m, hm, List.mem_cons_of_mem _ hmx, ht⟩, hw⟩
      · rintro (h | ⟨⟨m, hm, hmx, ht⟩, hw⟩)
        · exact Or.inl (Or.inl h)
        · rcases List.mem_cons.mp hmx with e | hmx
          · have : m = n := name_inj hn hm hnm e
            subst this; exact Or.inl (Or.inr ⟨ht, hw⟩)
          · exact Or.inr ⟨⟨m, hm, hmx, ht⟩, hw⟩

theorem wanted_idx {d : Dict (List String)} {ns : List Node} {f : Node → List String} (hi : IndexIs d (occ f ns))
    (names : List String) (t : String) :
    someOutside names (d.get? t) = true ↔
      ((∀ n ∈ ns, t ∉ f n) ∨ ∃ n ∈ ns, t ∈ f n ∧ n.name ∉ names) := by
  rw [hi t]
  by_cases h : occ f ns t = []
  · simp only [someOutside, h, if_true, true_iff]
    refine Or.inl (fun n hn ht => ?_)
    have : n.name ∈ occ f ns t := mem_occ.mpr ⟨n, hn, rfl, ht⟩
    rw [h] at this; cases this
  · simp only [someOutside, h, if_false, Bool.not_eq_true', List.all_eq_false, List.contains_iff_mem]
    constructor
    · rintro ⟨x, hx, hnx⟩
      obtain ⟨n, hn, rfl, ht⟩ := mem_occ.mp hx
      exact Or.inr ⟨n, hn, ht, hnx⟩
    · rintro (h0 | ⟨n, hn, ht, hnx⟩)
      · obtain ⟨x, hx⟩ := List.exists_mem_of_ne_nil _ h
        obtain ⟨n, hn, rfl, ht⟩ := mem_occ.mp hx
        exact absurd ht (h0 n hn)
      · exact ⟨n.name, mem_occ.mpr ⟨n, hn, rfl, ht⟩, hnx⟩

theorem inputWanted_iff {g : Graph} (hx : g.IndexExact) (names : List String) (r : Bool) (t : String) :
    inputWanted g names r t = true ↔ t ≠ "" ∧ (r = true → t ∉ g.initials) ∧
      ((∀ n ∈ g.nodemap, t ∉ n.output) ∨ ∃ n ∈ g.nodemap, t ∈ n.output ∧ n.name ∉ names) := by
  unfold inputWanted
  rw [Bool.and_eq_true, Bool.and_eq_true, wanted_idx (f := Node.output) hx.2, and_assoc]
  apply and_congr
  · simp
  · apply and_congr
    · cases r <;> simp
    · rfl

theorem outputWanted_iff {g : Graph} (hx : g.IndexExact) (names : List String) (r : Bool) (t : String) :
    outputWanted g names r t = true ↔ (r = true → t ∉ g.initials) ∧
      ((∀ n ∈ g.nodemap, t ∉ n.input) ∨ ∃ n ∈ g.nodemap, t ∈ n.input ∧ n.name ∉ names) := by
  unfold outputWanted
  rw [Bool.and_eq_true, wanted_idx (f := Node.input) hx.1]
  apply and_congr
  · cases r <;> simp
  · rfl

theorem ioLoop_missing {g : Graph} (names : List String) (r : Bool) :
    ∀ (xs : List String) (s : List String × List String) (_ : ∃ x ∈ xs, ∀ n ∈ g.nodemap, n.name ≠ x),
    ioLoop g names r xs s = .error .keyError
  | [], s, h => by obtain ⟨x, hx, _⟩ := h; cases hx
  | x :: xs, (I, O), h => by
    unfold ioLoop
    cases hf : findNode g.nodemap x with
    | none => rfl
    | some nd =>
      simp only
      apply ioLoop_missing
      obtain ⟨y, hy, hno⟩ := h
      rcases List.mem_cons.mp hy with rfl | hy
      · exact absurd (findNode_some hf).2 (hno nd (findNode_some hf).1)
      · exact ⟨y, hy, hno⟩

theorem setNode_fresh {ms : List Node} {n : Node} (h : ∀ m ∈ ms, m.name ≠ n.name) : setNode ms n = ms ++ [n] := by
  induction ms with
  | nil => rfl
  | cons m ms ih =>
    unfold setNode
    rw [if_neg (h m (by simp)), ih (fun k hk => h k (List.mem_cons_of_mem _ hk))]; rfl

theorem occ_append_one (f : Node → List String) (ns : List Node) (n : Node) (t : String) :
    occ f (ns ++ [n]) t = occ f ns t ++ List.replicate ((f n).count t) n.name := by
  simp [occ]

theorem fold_set_get? (os : List String) (v : List String) (d : Dict (List String)) (t : String) :
    (os.foldl (fun d o => d.set o v) d).get? t = if t ∈ os then some v else d.get? t := by
  induction os generalizing d with
  | nil => simp
  | cons a os ih =>
    rw [List.foldl_cons, ih, Dict.get?_set]
    by_cases h : t ∈ os
    · simp [h]
    · by_cases e : a = t
      · subst e; simp
      · have e' : ¬ t = a := fun h => e h.symm
        simp [h, e, e']

theorem fold_set_nodup (os : List String) (v : List String) {d : Dict (List String)} (h : d.keys.Nodup) :
    (os.foldl (fun d o => d.set o v) d).keys.Nodup := by
  induction os generalizing d with
  | nil => exact h
  | cons a os ih => exact ih (Dict.nodup_keys_set _ _ h)

theorem removeEach_output : ∀ (names : List String) {g g' : Graph} (_ : WF g) (_ : removeEach names g = .ok g')
    (_ : ∀ n ∈ g.nodemap, n.name ∈ names → ∀ o ∈ n.output, o ∉ g.output), g'.output = g.output
  | [], g, g', hw, h, hno => by cases h; rfl
  | x :: xs, g, g', hw, h, hno => by
    unfold removeEach at h
    cases hf : findNode g.nodemap x with
    | none =>
      rw [removeOne_missing hf] at h
      exact removeEach_output xs hw h (fun n hn hx => hno n hn (List.mem_cons_of_mem _ hx))
    | some nd =>
      obtain ⟨hm, rfl⟩ := findNode_some hf
      obtain ⟨g1, new, h1, h2, h3, h4, -⟩ := removeOne_ok hw hm
      rw [h1] at h
      have ho : g1.output = g.output := by rw [h4]; exact foldl_erase_none (hno nd hm (by simp))
      rw [removeEach_output xs h2 h (fun n hn hx => by
        rw [ho]; rw [h3] at hn
        exact hno n ((popNode_sub _ _).subset hn) (List.mem_cons_of_mem _ hx)), ho]

theorem outCount_two {ns : List Node} {n m : Node} (hn : n ∈ ns) (hm : m ∈ ns) (hne : n ≠ m)
    {t : String} (h1 : t ∈ n.output) (h2 : t ∈ m.output) : 2 ≤ (ns.flatMap (·.output)).count t := by
  obtain ⟨a, b, rfl⟩ := List.append_of_mem hn
  have hm' : m ∈ a ++ b := by
    rcases List.mem_append.mp hm with h | h
    · exact List.mem_append_left _ h
    · rcases List.mem_cons.mp h with rfl | h
      · exact absurd rfl hne
      · exact List.mem_append_right _ h
  have e1 : 0 < n.output.count t := List.count_pos_iff.mpr h1
  have e2 : 0 < ((a ++ b).flatMap (·.output)).count t :=
    List.count_pos_iff.mpr (List.mem_flatMap.mpr ⟨m, hm', h2⟩)
  simp only [List.flatMap_append, List.flatMap_cons, List.count_append] at e2 ⊢
  omega

theorem fuse_ok {g : Graph} (hw : WF g) {names : List String} {op name : String}
    (hex : ∀ x ∈ names, ∃ n ∈ g.nodemap, n.name = x)
    (hfresh : ∀ n ∈ g.nodemap, n.name = name → n.name ∈ names)
    (hone : ∀ n ∈ g.nodemap, n.name ∈ names → ∀ o ∈ n.output, (g.nodemap.flatMap (·.output)).count o ≤ 1) :
    ∃ g' I O, getIOTensors g names false = .ok (I, O) ∧ fuseNodes g names op name = .ok g' ∧ WF g' ∧
      g'.nodemap = g.nodemap.filter (fun n => !names.contains n.name) ++ [⟨name, op, I, O⟩] ∧
      ((∀ n ∈ g.nodemap, n.name ∈ names → ∀ o ∈ n.output, o ∉ g.output) → g'.output = g.output) := by
  obtain ⟨I, O, h1, h2, h3, h4, h5⟩ := ioLoop_ok hw.names names false names [] [] hex (by simp) (by simp)
  obtain ⟨g1, k1, k2, k3⟩ := removeEach_any names hw
  rw [fold_popNode] at k3
  have hfr : ∀ m ∈ g1.nodemap, m.name ≠ name := by
    intro m hm e
    rw [k3, List.mem_filter] at hm
    have := hfresh m hm.1 e
    have h2 := hm.2
    rw [Bool.not_eq_true', ← Bool.not_eq_true, List.contains_iff_mem] at h2
    exact h2 this
  have hO1 : ∀ t ∈ O, ∀ m ∈ g1.nodemap, t ∉ m.output := by
    intro t ht m hm htm
    rcases (h5 t).mp ht with h | ⟨⟨n, hn, hnx, hto⟩, -⟩
    · cases h
    rw [k3, List.mem_filter] at hm
    have hne : n ≠ m := by
      rintro rfl
      have h2 := hm.2
      rw [Bool.not_eq_true', ← Bool.not_eq_true, List.contains_iff_mem] at h2
      exact h2 hnx
    have := hone n hn hnx t hto
    have h2 : 2 ≤ (g.nodemap.flatMap (·.output)).count t := outCount_two hn hm.1 hne hto htm
    omega
  refine ⟨{ g1 with
        consumedby := I.foldl (fun d i => d.appendAt i name) g1.consumedby
        producedby := O.foldl (fun d o => d.set o [name]) g1.producedby
        nodemap := setNode g1.nodemap ⟨name, op, I, O⟩ }, I, O, h1, ?_, ?_, ?_, ?_⟩
  · unfold fuseNodes getIOTensors
    rw [h1]; simp only; rw [k1]
  · rw [setNode_fresh (n := ⟨name, op, I, O⟩) hfr]
    refine ⟨?_, ⟨?_, ?_⟩, fold_appendAt_nodup _ _ _ k2.ckeys, fold_set_nodup _ _ k2.pkeys, ?_⟩
    · simp only [List.map_append, List.map_cons, List.map_nil]
      rw [List.nodup_append]
      refine ⟨k2.names, by simp, ?_⟩
      rintro a ha b hb rfl
      rw [List.mem_singleton] at hb; subst hb
      obtain ⟨m, hm, e⟩ := List.mem_map.mp ha
      exact hfr m hm e
    · intro t
      show _ = if occ Node.input _ t = [] then none else some (occ Node.input _ t)
      simp only
      rw [fold_appendAt, occ_append_one, k2.exact_.1 t]
      show _ = if consumersOf g1.nodemap t ++ _ = [] then _ else some (consumersOf g1.nodemap t ++ _)
      by_cases hc : I.count t = 0
      · simp [hc]
      · by_cases hn : consumersOf g1.nodemap t = []
        · simp [hc, hn]
        · simp [hc, hn]
    · intro t
      show _ = if occ Node.output _ t = [] then none else some (occ Node.output _ t)
      simp only
      rw [fold_set_get?, occ_append_one, k2.exact_.2 t]
      show _ = if producersOf g1.nodemap t ++ _ = [] then _ else some (producersOf g1.nodemap t ++ _)
      by_cases hc : t ∈ O
      · have e1 : producersOf g1.nodemap t = [] := by
          rw [List.eq_nil_iff_forall_not_mem]
          intro x hx
          obtain ⟨m, hm, -, htm⟩ := (mem_occ (f := Node.output)).mp hx
          exact hO1 t hc m hm htm
        have e2 : O.count t = 1 := by rw [h3.count, if_pos hc]
        simp [hc, e1, e2]
      · have e2 : O.count t = 0 := List.count_eq_zero_of_not_mem hc
        simp [hc, e2]
    · intro n hn t ht
      simp only [List.flatMap_append, List.flatMap_cons, List.flatMap_nil, List.append_nil, List.count_append]
      have hsub : (g1.nodemap.flatMap (·.output)).count t ≤ (g.nodemap.flatMap (·.output)).count t := by
        rw [k3]; exact (sub_flatMap List.filter_sublist _).count_le t
      by_cases hc : t ∈ O
      · have e2 : O.count t = 1 := by rw [h3.count, if_pos hc]
        have e1 : (g1.nodemap.flatMap (·.output)).count t = 0 := by
          rw [List.count_eq_zero]
          intro h
          obtain ⟨m, hm, htm⟩ := List.mem_flatMap.mp h
          exact hO1 t hc m hm htm
        omega
      · have e2 : O.count t = 0 := List.count_eq_zero_of_not_mem hc
        have : ∃ m ∈ g.nodemap, t ∈ m.input := by
          rcases List.mem_append.mp hn with hn | hn
          · rw [k3, List.mem_filter] at hn; exact ⟨n, hn.1, ht⟩
          · rw [List.mem_singleton] at hn; subst hn
            rcases (h4 t).mp ht with h | ⟨⟨m, hm, -, htm⟩, -⟩
            · cases h
            · exact ⟨m, hm, htm⟩
        obtain ⟨m, hm, htm⟩ := this
        have := hw.uniq m hm t htm
        omega
  · rw [setNode_fresh (n := ⟨name, op, I, O⟩) hfr, k3]
  · intro hno
    exact (removeEach_output names hw k1 hno : g1.output = g.output)

end OnnxTool.Subgraph
