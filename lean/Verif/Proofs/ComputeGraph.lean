import Verif.Model.ComputeGraph
import Verif.Proofs.ShapeCalc
import Verif.Proofs.Weights
/-! `get_compute_graph`. -/
namespace OnnxTool.ComputeGraph
open OnnxTool Remove Topsort Subgraph ShapeCalc

structure CHyp (g : Graph) (M : List String) : Prop where
  wf : WF g
  noout : ∀ n ∈ g.nodemap, ∀ t ∈ n.input, t ∉ g.output
  single : ∀ n ∈ g.nodemap, ∀ o ∈ n.output, ∀ o' ∈ n.output, o = o'

/-- a name that must not be kept (not the name of a needed node) -/
def Free (g : Graph) (M : List String) (x : String) : Prop :=
  ∃ n ∈ g.nodemap, n.name = x ∧ ¬ NeededCompute g.nodemap g.output M n

theorem consumers_get {g : Graph} (hw : WF g) {n : Node} (hn : n ∈ g.nodemap) {t : String} (ht : t ∈ n.input) :
    g.consumedby.get? t = some (consumersOf g.nodemap t) := by
  rw [hw.exact_.1 t, if_neg]
  intro h
  have : n.name ∈ consumersOf g.nodemap t := (mem_occ (f := Node.input)).mpr ⟨n, hn, rfl, ht⟩
  rw [h] at this; cases this

theorem upInputs_ok {g : Graph} (hw : WF g) {M : List String} {nd : Node} (hnd : nd ∈ g.nodemap) :
    ∀ (is rm q : List String) (_ : ∀ i ∈ is, i ∈ nd.input),
    ∃ rm' new, upInputs g is (rm, q) = .ok (rm', q ++ new) ∧ (∀ x ∈ rm, x ∈ rm') ∧
      (∀ x ∈ rm', x ∈ rm ∨ x ∈ new) ∧ new.length ≤ is.length ∧
      (∀ p ∈ new, ∃ m ∈ g.nodemap, m.name = p ∧ Dep nd m) ∧
      (CHyp g M → ¬ NeededCompute g.nodemap g.output M nd → ∀ p ∈ new, Free g M p)
  | [], rm, q, _ => ⟨rm, [], by simp [upInputs], fun _ h => h, fun _ h => Or.inl h, by simp, by simp, by simp⟩
  | i :: is, rm, q, hi => by
    have hi' : ∀ i ∈ is, i ∈ nd.input := fun j hj => hi j (List.mem_cons_of_mem _ hj)
    have hin : i ∈ nd.input := hi i (by simp)
    unfold upInputs
    cases hp : g.producedby.get? i with
    | none =>
      obtain ⟨rm', new, h1, h2, h3, h4, h5, h6⟩ := upInputs_ok (M := M) hw hnd is rm q hi'
      exact ⟨rm', new, h1, h2, h3, by simp; omega, h5, h6⟩
    | some ps =>
      rw [consumers_get hw hnd hin]
      simp only
      by_cases hl : (consumersOf g.nodemap i).length = 1
      · rw [if_pos hl]
        have hpi := hw.exact_.2 i
        rw [hp] at hpi
        obtain ⟨hps, hpne⟩ := norm_eq_some.mp hpi.symm
        cases ps with
        | nil => exact absurd rfl hpne
        | cons p ps' =>
          simp only
          obtain ⟨m, hm, hmp, him⟩ := (mem_occ (f := Node.output) (t := i) (x := p) (ns := g.nodemap)).mp
            (by show p ∈ producersOf g.nodemap i; rw [hps]; simp)
          obtain ⟨rm', new, h1, h2, h3, h4, h5, h6⟩ := upInputs_ok (M := M) hw hnd is (addNew rm p) (q ++ [p]) hi'
          refine ⟨rm', p :: new, by rw [h1, List.append_assoc]; rfl, fun x hx => h2 x (mem_addNew.mpr (Or.inl hx)), ?_,
            by simp; omega, ?_, ?_⟩
          · intro x hx
            rcases h3 x hx with h | h
            · rcases mem_addNew.mp h with h | rfl
              · exact Or.inl h
              · exact Or.inr (by simp)
            · exact Or.inr (List.mem_cons_of_mem _ h)
          · intro r hr
            rcases List.mem_cons.mp hr with rfl | hr
            · exact ⟨m, hm, hmp, i, hin, him⟩
            · exact h5 r hr
          · intro hc hnn r hr
            rcases List.mem_cons.mp hr with rfl | hr
            · refine ⟨m, hm, hmp, ?_⟩
              intro hN
              cases hN with
              | output _ _ ho hout =>
                rw [hc.single m hm _ ho i him] at hout
                exact hc.noout nd hnd i hin hout
              | @feeds _ k _ _ hK hd =>
                obtain ⟨t, ht1, ht2⟩ := hd
                rw [hc.single m hm _ ht2 i him] at ht1
                have hk : k ∈ g.nodemap := by cases hK <;> assumption
                have hkc : k.name ∈ consumersOf g.nodemap i := (mem_occ (f := Node.input)).mpr ⟨k, hk, rfl, ht1⟩
                have hnc : nd.name ∈ consumersOf g.nodemap i := (mem_occ (f := Node.input)).mpr ⟨nd, hnd, rfl, hin⟩
                obtain ⟨a, ha⟩ := List.length_eq_one_iff.mp hl
                rw [ha, List.mem_singleton] at hkc hnc
                have : k = nd := name_inj hw.names hk hnd (hkc.trans hnc.symm)
                subst this; exact hnn hK
            · exact h6 hc hnn r hr
      · rw [if_neg hl]
        obtain ⟨rm', new, h1, h2, h3, h4, h5, h6⟩ := upInputs_ok (M := M) hw hnd is rm q hi'
        exact ⟨rm', new, h1, h2, h3, by simp; omega, h5, h6⟩

theorem upstream_ok {g : Graph} (hw : WF g) {M : List String} {w : String → Nat}
    (hwt : ∀ n ∈ g.nodemap, ∀ ps : List String, (∀ p ∈ ps, ∃ m ∈ g.nodemap, m.name = p ∧ Dep n m) →
      ps.length ≤ n.input.length → (ps.map w).sum + 1 ≤ w n.name) :
    ∀ (fuel : Nat) (q rm : List String) (_ : ∀ x ∈ q, ∃ n ∈ g.nodemap, n.name = x) (_ : (q.map w).sum + 1 ≤ fuel),
    ∃ rm', upstream g fuel q rm = .ok rm' ∧ (∀ x ∈ rm, x ∈ rm') ∧
      (CHyp g M → (∀ x ∈ q, Free g M x) → (∀ x ∈ rm, Free g M x) → ∀ x ∈ rm', Free g M x)
  | 0, q, rm, hq, hf => by omega
  | fuel + 1, [], rm, hq, hf => ⟨rm, rfl, fun _ h => h, fun _ _ h => h⟩
  | fuel + 1, x :: q, rm, hq, hf => by
    obtain ⟨n, hn, rfl⟩ := hq x (by simp)
    obtain ⟨rm1, new, h1, h2, h3, h4, h5, h6⟩ := upInputs_ok (M := M) hw hn n.input rm q (fun _ h => h)
    have hdec := hwt n hn new h5 h4
    obtain ⟨rm', k1, k2, k3⟩ := upstream_ok (M := M) hw hwt fuel (q ++ new) rm1 (by
      intro y hy
      rcases List.mem_append.mp hy with hy | hy
      · exact hq y (List.mem_cons_of_mem _ hy)
      · obtain ⟨m, hm, e, -⟩ := h5 y hy; exact ⟨m, hm, e⟩) (by
      simp only [List.map_cons, List.sum_cons, List.map_append, List.sum_append] at hf ⊢
      omega)
    refine ⟨rm', ?_, fun y hy => k2 y (h2 y hy), ?_⟩
    · unfold upstream; rw [findNode_mem hw.names hn]; simp only; rw [h1]; exact k1
    · intro hc hfq hfr
      have hnn : ¬ NeededCompute g.nodemap g.output M n := by
        obtain ⟨m, hm, e, hN⟩ := hfq n.name (by simp)
        have : m = n := name_inj hw.names hm hn e
        subst this; exact hN
      apply k3 hc
      · intro y hy
        rcases List.mem_append.mp hy with hy | hy
        · exact hfq y (List.mem_cons_of_mem _ hy)
        · exact h6 hc hnn y hy
      · intro y hy
        rcases h3 y hy with hy | hy
        · exact hfr y hy
        · exact h6 hc hnn y hy

theorem dummy_not_needed {g : Graph} {M : List String} (hc : CHyp g M) {n : Node}
    (hd : isDummy g M n = true) : ¬ NeededCompute g.nodemap g.output M n := by
  unfold isDummy at hd
  rw [List.all_eq_true] at hd
  intro hN
  cases hN with
  | @output _ o hn _ ho hout =>
    have := hd o ho
    rw [hc.wf.exact_.1 o] at this
    by_cases hnil : consumersOf g.nodemap o = []
    · simp [hnil] at this
    · obtain ⟨x, hx⟩ := List.exists_mem_of_ne_nil _ hnil
      obtain ⟨k, hk, -, hok⟩ := (mem_occ (f := Node.input)).mp hx
      exact hc.noout k hk o hok hout
  | @feeds _ k hn _ hK hdep =>
    obtain ⟨t, ht1, ht2⟩ := hdep
    have hk : k ∈ g.nodemap := by cases hK <;> assumption
    have hkM : k.name ∉ M := by cases hK <;> assumption
    have := hd t ht2
    rw [consumers_get hc.wf hk ht1] at this
    simp only [List.all_eq_true, List.contains_iff_mem] at this
    exact hkM (this _ ((mem_occ (f := Node.input)).mpr ⟨k, hk, rfl, ht1⟩))

theorem collect_ok {g : Graph} (hw : WF g) {M : List String} {w : String → Nat}
    (hwt : ∀ n ∈ g.nodemap, ∀ ps : List String, (∀ p ∈ ps, ∃ m ∈ g.nodemap, m.name = p ∧ Dep n m) →
      ps.length ≤ n.input.length → (ps.map w).sum + 1 ≤ w n.name)
    (fuel : Nat) (hfuel : ∀ n ∈ g.nodemap, w n.name + 1 ≤ fuel) :
    ∀ (ns : List Node) (rm : List String) (_ : ∀ n ∈ ns, n ∈ g.nodemap),
    ∃ rm', collect g M fuel ns rm = .ok rm' ∧ (∀ x ∈ rm, x ∈ rm') ∧
      (∀ n ∈ ns, n.name ∈ M → n.name ∈ rm') ∧
      (CHyp g M → (∀ x ∈ rm, Free g M x) → ∀ x ∈ rm', Free g M x)
  | [], rm, _ => ⟨rm, rfl, fun _ h => h, by simp, fun _ h => h⟩
  | n :: ns, rm, hs => by
    have hn := hs n (by simp)
    have hs' : ∀ m ∈ ns, m ∈ g.nodemap := fun m hm => hs m (List.mem_cons_of_mem _ hm)
    unfold collect
    by_cases hM : M.contains n.name = true
    · rw [if_pos hM]
      rw [List.contains_iff_mem] at hM
      obtain ⟨rm', h1, h2, h3, h4⟩ := collect_ok (M := M) hw hwt fuel hfuel ns (rm ++ [n.name]) hs'
      refine ⟨rm', h1, fun x hx => h2 x (List.mem_append_left _ hx), ?_, ?_⟩
      · intro m hm hmM
        rcases List.mem_cons.mp hm with rfl | hm
        · exact h2 _ (by simp)
        · exact h3 m hm hmM
      · intro hc hr
        apply h4 hc
        intro x hx
        rcases List.mem_append.mp hx with hx | hx
        · exact hr x hx
        · rw [List.mem_singleton] at hx; subst hx
          exact ⟨n, hn, rfl, fun hN => by cases hN <;> exact absurd hM (by assumption)⟩
    · rw [if_neg hM]
      rw [List.contains_iff_mem] at hM
      by_cases hd : isDummy g M n = true
      · rw [if_pos hd]
        obtain ⟨rm1, k1, k2, k3⟩ := upstream_ok (M := M) hw hwt fuel [n.name] (rm ++ [n.name])
          (by intro x hx; rw [List.mem_singleton] at hx; exact ⟨n, hn, hx.symm⟩) (by simpa using hfuel n hn)
        rw [k1]
        simp only
        obtain ⟨rm', h1, h2, h3, h4⟩ := collect_ok (M := M) hw hwt fuel hfuel ns rm1 hs'
        refine ⟨rm', h1, fun x hx => h2 x (k2 x (List.mem_append_left _ hx)), ?_, ?_⟩
        · intro m hm hmM
          rcases List.mem_cons.mp hm with rfl | hm
          · exact absurd hmM hM
          · exact h3 m hm hmM
        · intro hc hr
          have hfn : Free g M n.name := ⟨n, hn, rfl, dummy_not_needed hc hd⟩
          apply h4 hc
          apply k3 hc
          · intro x hx; rw [List.mem_singleton] at hx; subst hx; exact hfn
          · intro x hx
            rcases List.mem_append.mp hx with hx | hx
            · exact hr x hx
            · rw [List.mem_singleton] at hx; subst hx; exact hfn
      · rw [if_neg hd]
        obtain ⟨rm', h1, h2, h3, h4⟩ := collect_ok (M := M) hw hwt fuel hfuel ns rm hs'
        refine ⟨rm', h1, h2, ?_, h4⟩
        intro m hm hmM
        rcases List.mem_cons.mp hm with rfl | hm
        · exact absurd hmM hM
        · exact h3 m hm hmM

theorem upstream_mono {g : Graph} : ∀ (fuel fuel' : Nat) (_ : fuel ≤ fuel') (q rm r : List String)
    (_ : upstream g fuel q rm = .ok r), upstream g fuel' q rm = .ok r
  | 0, _, _, q, rm, r, h => by cases h
  | fuel + 1, fuel' + 1, _, [], rm, r, h => h
  | fuel + 1, fuel' + 1, hle, x :: q, rm, r, h => by
    unfold upstream at h ⊢
    split at h
    · cases h
    · split at h
      · cases h
      · exact upstream_mono fuel fuel' (by omega) _ _ _ h

theorem collect_mono {g : Graph} {M : List String} {fuel fuel' : Nat} (hle : fuel ≤ fuel') :
    ∀ (ns : List Node) (rm r : List String) (_ : collect g M fuel ns rm = .ok r), collect g M fuel' ns rm = .ok r
  | [], rm, r, h => h
  | n :: ns, rm, r, h => by
    unfold collect at h ⊢
    split
    · rename_i hM; rw [if_pos hM] at h; exact collect_mono hle ns _ _ h
    · rename_i hM
      rw [if_neg hM] at h
      split
      · rename_i hd
        rw [if_pos hd] at h
        split at h
        · cases h
        · rename_i rm' hu
          rw [upstream_mono fuel fuel' hle _ _ _ hu]
          exact collect_mono hle ns _ _ h
      · rename_i hd; rw [if_neg hd] at h; exact collect_mono hle ns _ _ h

theorem computeGraph_ok {g : Graph} (hw : WF g) (ha : Acyclic g.nodemap) (M : List String) :
    ∃ (cg rest : Graph) (N : Nat) (rm : List String), (∀ fuel, N ≤ fuel → computeGraph fuel g M = .ok (cg, rest)) ∧
      cg.IndexExact ∧ cg.nodemap = g.nodemap.filter (fun n => !rm.contains n.name) ∧ rest.nodemap = cg.nodemap ∧
      rest.output = cg.output ∧
      (∀ n ∈ g.nodemap, n.name ∈ M → n.name ∈ rm) ∧ (CHyp g M → ∀ x ∈ rm, Free g M x) := by
  obtain ⟨w, hwt⟩ := acyclic_weight_up hw.names ha (fun n => n.input.length)
  let N := (g.nodemap.map (fun n => w n.name)).sum + 1
  have hN : ∀ fuel, N ≤ fuel → ∀ n ∈ g.nodemap, w n.name + 1 ≤ fuel := by
    intro fuel hf n hn
    have := le_sum_of_mem (w := w) hn
    have : N = (g.nodemap.map (fun n => w n.name)).sum + 1 := rfl
    omega
  obtain ⟨rm, h1, -, h3, h4⟩ := collect_ok (M := M) hw hwt N (hN N (Nat.le_refl _)) g.nodemap [] (fun _ h => h)
  obtain ⟨cg, k1, k2, k3⟩ := removeEach_any rm hw
  have hmono : ∀ fuel, N ≤ fuel → collect g M fuel g.nodemap [] = .ok rm := by
    exact fun fuel hf => collect_mono hf _ _ _ h1
  refine ⟨{ cg with dynamics := rebuildDynamics cg }, { cg with dynamics := g.dynamics }, N, rm, fun fuel hf => ?_, k2.exact_, ?_, rfl, rfl, h3, fun hc => h4 hc (by simp)⟩
  · unfold computeGraph
    rw [hmono fuel hf]; simp only; rw [k1]
  · rw [← fold_popNode]; exact k3

theorem computeGraph_mono {g : Graph} {M : List String} {fuel fuel' : Nat} (hle : fuel ≤ fuel') {r : Graph × Graph} (h : computeGraph fuel g M = .ok r) :
    computeGraph fuel' g M = .ok r := by
  unfold computeGraph at h ⊢
  split at h
  · cases h
  rename_i rm hrm
  rw [collect_mono hle _ _ _ hrm]
  exact h

end OnnxTool.ComputeGraph
