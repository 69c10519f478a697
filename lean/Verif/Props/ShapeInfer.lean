import Verif.Proofs.ShapeInfer
import Verif.Props.ShapeCalc
/-!
# C75: shape inference delivers the solution of the node equations, whatever happened before
-/
namespace OnnxTool.Props
open OnnxTool OnnxTool.Engine OnnxTool.ShapeInfer
open OnnxTool.ShapeCalc (shapeInputs findShape ShapeDep)

section
set_option linter.unusedSectionVars false
variable {V : Type} [Zero V]

/-- what the marks mean -/
private theorem marks_iff {run : Run V} {g : Graph} {M : List String} (h : WellFormed run g M) :
    ∀ n ∈ g.nodemap, (n.name ∈ M ↔ ShapeDep g.nodemap g.initials (g.nodemap.flatMap shapeInputs) n) := by
  obtain ⟨order, h1, h2⟩ := h.marks
  obtain ⟨M', h3, -, h4⟩ := C15_marks_exactly_closure g h.names order h1
  rw [h2] at h3
  cases h3
  exact h4

private theorem known_shape {run : Run V} {g : Graph} {M : List String} (h : WellFormed run g M) :
    ∀ n ∈ g.nodemap, ∀ t ∈ shapeInputs n, Known M g.nodemap t ∧ t ∈ n.input := by
  intro n hn t ht
  refine ⟨?_, C15_shape_operands_are_inputs n t ht⟩
  intro k hk hto
  exact (marks_iff h k hk).mpr (.seed hk (List.mem_flatMap.mpr ⟨n, hn, ht⟩) (fun hi => h.initials t hi k hk hto) hto)

private theorem known_input {run : Run V} {g : Graph} {M : List String} (h : WellFormed run g M) :
    ∀ n ∈ g.nodemap, n.name ∈ M → n.op ≠ "Shape" → ∀ t ∈ n.input, Known M g.nodemap t := by
  intro n hn hM hop t ht k hk hto
  exact (marks_iff h k hk).mpr (.step hk ((marks_iff h n hn).mp hM) hop ht (fun hi => h.initials t hi k hk hto) hto)

/-- **C75, `valid_shape`.** After a call `valid_shape` is set exactly if no exception was raised; the only exception is `ValueError`. -/
theorem C75_valid_shape (run : Run V) (g : Graph) (M : List String) (d : Dict (Arr V)) (m : TMap V) :
    ((shapeInfer run g M d m).2.2 = true ↔ (shapeInfer run g M d m).2.1 = none) ∧
      ∀ e, (shapeInfer run g M d m).2.1 = some e → e = .valueError := by
  unfold shapeInfer
  simp only
  split
  · have he := loop_error (run := run) (marked := M) g.nodemap (updateInputs d m)
    cases hl : inferLoop run M g.nodemap (updateInputs d m) with
    | mk m' o =>
      rw [hl] at he
      cases o with
      | none => simp
      | some e => exact ⟨by simp, fun e' h' => by cases h'; exact he e rfl⟩
  · exact ⟨by simp, fun e h => by cases h; rfl⟩

/-- **C75, unusable inputs.** A graph input with a named or negative dimension that the caller does not set raises `ValueError` before any node runs: nothing but
the given tensors is changed. -/
theorem C75_unusable_inputs (run : Run V) (g : Graph) (M : List String) (d : Dict (Arr V)) (m : TMap V) (t : String) (ht : t ∈ g.input)
    (hd : t ∉ d.map (·.1)) (hbad : ∃ x ∈ (m t).shape, (∃ v, x = .var v) ∨ ∃ n : Int, x = .num n ∧ n < 0) :
    (shapeInfer run g M d m).2.1 = some .valueError ∧ ∀ q, q ∉ d.map (·.1) → (shapeInfer run g M d m).1 q = m q := by
  have hc : checkInputs g (updateInputs d m) = false := by
    rw [Bool.eq_false_iff]
    intro h
    unfold checkInputs at h
    rw [List.all_eq_true] at h
    have h1 := h t ht
    rw [updateInputs_other d m t hd, List.all_eq_true] at h1
    obtain ⟨x, hx, hb⟩ := hbad
    have h2 := h1 x hx
    rcases hb with ⟨v, rfl⟩ | ⟨n, rfl, hn⟩
    · cases h2
    · simp only [decide_eq_true_eq] at h2
      omega
  unfold shapeInfer
  simp only [hc]
  exact ⟨rfl, fun q hq => updateInputs_other d m q hq⟩

/-- **C75, `get_numpy`.** For every tensor with a known shape (also with zero dimensions) it returns an array of that shape: the stored one if it has that shape, and
zeros of the tensor's type otherwise — also when a stored array has another shape. -/
theorem C75_get_numpy (t : TState V) (s : List Nat) (hs : t.shape = s.map fun n : Nat => Dim.num (n : Int)) :
    ∃ a, getNumpy t = some a ∧ a.shape = s ∧
      ((∃ b, t.numpy = some b ∧ b.shape = s ∧ a = b) ∨
        ((∀ b, t.numpy = some b → b.shape ≠ s) ∧ a.dtype = t.dtype ∧ a.data = List.replicate s.prod 0)) := by
  have hinj : ∀ s s' : List Nat, asDims s = asDims s' → s = s' := by
    intro s
    induction s with
    | nil => intro s' h; cases s' with
      | nil => rfl
      | cons _ _ => cases h
    | cons x s ih =>
      intro s' h
      cases s' with
      | nil => cases h
      | cons y s' =>
        simp only [asDims, List.map_cons, List.cons.injEq, Dim.num.injEq] at h
        rw [ih s' h.2, Int.ofNat.inj h.1]
  have hconc : ∀ s : List Nat, concrete (s.map fun n : Nat => Dim.num (n : Int)) = some s := by
    intro s
    induction s with
    | nil => rfl
    | cons x s ih => rw [List.map_cons, concrete, if_neg (by omega), ih]; simp
  unfold getNumpy
  simp only [hs, hconc, Option.map_some]
  cases hn : t.numpy with
  | none => exact ⟨_, rfl, rfl, .inr ⟨fun b h => by simp at h, rfl, rfl⟩⟩
  | some b =>
    simp only
    by_cases hb : b.shape = s
    · rw [if_pos (by rw [hb]; rfl)]
      exact ⟨b, rfl, hb, .inl ⟨b, rfl, hb, rfl⟩⟩
    · rw [if_neg (show ¬ asDims b.shape = s.map (fun n : Nat => Dim.num (n : Int)) from fun h => hb (hinj _ _ h))]
      exact ⟨_, rfl, rfl, .inr ⟨fun c hc => by cases hc; exact hb, rfl, rfl⟩⟩

/-- **C75, the zeros `get_numpy` makes up.** Storing them in the tensor changes nothing that a later reader can see. -/
theorem C75_made_up_zeros_invisible (t : TState V) : seen (filled t) = seen t := by
  unfold filled seen
  cases hg : getNumpy t with
  | none =>
    simp only
    congr 1
  | some a =>
    simp only [Seen.mk.injEq, true_and]
    have ha : asDims a.shape = t.shape := by
      have hconc : ∀ (ds : List Dim) (s : List Nat), concrete ds = some s → asDims s = ds := by
        intro ds
        induction ds with
        | nil => intro s h; cases h; rfl
        | cons x ds ih =>
          intro s h
          cases x with
          | var v => cases h
          | num n =>
            rw [concrete] at h
            split at h
            · cases h
            · rename_i hn
              cases hc : concrete ds with
              | none => rw [hc] at h; cases h
              | some s' =>
                rw [hc] at h
                cases h
                have := ih s' hc
                simp only [asDims, List.map_cons] at this ⊢
                rw [this, Int.toNat_of_nonneg (by omega)]
      have hmade : ∀ a, ((concrete t.shape).map fun s => ({ shape := s, dtype := t.dtype, data := List.replicate s.prod 0 } : Arr V)) = some a →
          asDims a.shape = t.shape := by
        intro a h
        cases hc : concrete t.shape with
        | none => rw [hc] at h; cases h
        | some s => rw [hc] at h; cases h; exact hconc _ _ hc
      unfold getNumpy at hg
      simp only at hg
      split at hg
      · split at hg
        · rename_i h; cases hg; exact h
        · exact hmade a hg
      · exact hmade a hg
    simp only [getNumpy, ha, if_true]

/-- **C75, solution.** If `shape_infer` succeeds, the tensors satisfy the equation of every node — its outputs have the shapes (and, for nodes computing shapes, the
values) that the node computes from the final operands — and a tensor that no node produces is what the caller gave, or what it was. -/
theorem C75_solution (run : Run V) (g : Graph) (M : List String) (hg : WellFormed run g M) (d : Dict (Arr V)) (m m' : TMap V)
    (h : shapeInfer run g M d m = (m', none, true)) :
    Solves run M g.nodemap (fun t => seen (m' t)) ∧ ∀ t, Unproduced g.nodemap t → m' t = updateInputs d m t := by
  unfold shapeInfer at h
  simp only at h
  split at h
  · cases hl : inferLoop run M g.nodemap (updateInputs d m) with
    | mk r o =>
      rw [hl] at h
      cases o with
      | some e => cases h
      | none =>
        cases h
        refine ⟨loop_solves g.nodemap _ m' hg.topo hg.once hg.reads hl, ?_⟩
        intro t ht
        have := loop_other (run := run) (marked := M) g.nodemap (updateInputs d m) t ht
        rw [hl] at this
        exact this
  · cases h

/-- **C75, uniqueness.** If the equations have a solution that agrees with the given tensors where no node produces, and the graph inputs are usable, `shape_infer`
succeeds and shows that solution. -/
theorem C75_finds_the_solution (run : Run V) (g : Graph) (M : List String) (hg : WellFormed run g M) (d : Dict (Arr V)) (m : TMap V) (F : String → Seen V)
    (hF : Solves run M g.nodemap F) (hu : ∀ t, Unproduced g.nodemap t → F t = seen (updateInputs d m t))
    (hin : ∀ t ∈ g.input, ∀ x ∈ (F t).shape, ∃ n : Nat, x = .num (n : Int)) :
    ∃ m', shapeInfer run g M d m = (m', none, true) ∧ Same M g.nodemap (fun t => seen (m' t)) F := by
  have hc : checkInputs g (updateInputs d m) = true := by
    unfold checkInputs
    rw [List.all_eq_true]
    intro t ht
    rw [List.all_eq_true]
    intro x hx
    have e := hu t (hg.inputs t ht)
    obtain ⟨n, rfl⟩ := hin t ht x (by rw [e]; exact hx)
    simp
  obtain ⟨r, h1, h2⟩ := loop_reaches hg.reads (known_shape hg) (known_input hg) g.nodemap (fun n hn => hn) hg.topo
    (fun n hn => (List.nodup_flatMap.mp hg.once).1 n hn) hF (updateInputs d m)
    (fun t ht => by rw [hu t ht]; exact ⟨rfl, fun _ => rfl⟩)
  refine ⟨r, ?_, fun t => h2 t (fun n hn => by cases hn)⟩
  unfold shapeInfer
  simp only [hc, if_true, h1]

/-- agreement of two starting states -/
private theorem agree {run : Run V} {g : Graph} {M : List String} (hg : WellFormed run g M) (d : Dict (Arr V)) (m1 m2 : TMap V)
    (hm : ∀ t, Unproduced g.nodemap t → t ∉ d.map (·.1) → seen (m1 t) = seen (m2 t)) {r : TMap V} (h : shapeInfer run g M d m1 = (r, none, true)) :
    ∃ r', shapeInfer run g M d m2 = (r', none, true) ∧ Same M g.nodemap (fun t => seen (r t)) (fun t => seen (r' t)) := by
  have hm' := updateInputs_seen (Unproduced g.nodemap) d m1 m2 hm
  have hc : checkInputs g (updateInputs d m1) = checkInputs g (updateInputs d m2) :=
    checkInputs_congr fun t ht => congrArg Seen.shape (hm' t (hg.inputs t ht))
  unfold shapeInfer at h ⊢
  simp only at h ⊢
  rw [← hc]
  split at h
  · rename_i hcc
    cases hl : inferLoop run M g.nodemap (updateInputs d m1) with
    | mk q o =>
      rw [hl] at h
      cases o with
      | some e => cases h
      | none =>
        cases h
        obtain ⟨r', h1, h2⟩ := loop_agree hg.reads (known_shape hg) (known_input hg) (fun n => Iff.rfl) (fun n => Iff.rfl) hg.once hg.topo hg.topo hm' hl
        exact ⟨r', by rw [if_pos hcc, h1], h2⟩
  · cases h

private theorem outcome {run : Run V} {g : Graph} {M : List String} {d : Dict (Arr V)} {m : TMap V} :
    (∃ r, shapeInfer run g M d m = (r, none, true)) ∨ ∃ r, shapeInfer run g M d m = (r, some .valueError, false) := by
  have h := C75_valid_shape run g M d m
  cases hr : shapeInfer run g M d m with
  | mk r o =>
    obtain ⟨e, b⟩ := o
    rw [hr] at h
    cases e with
    | none =>
      have hb : b = true := h.1.mpr rfl
      exact .inl ⟨r, by rw [hb]⟩
    | some e =>
      have hb : b = false := by
        cases b with
        | false => rfl
        | true => exact absurd (h.1.mp rfl) (by simp)
      exact .inr ⟨r, by rw [h.2 e rfl, hb]⟩

/-- **C75, independence of the state.** Two graphs objects that show the same tensors where no node produces and the caller gives nothing: `shape_infer(inputs)`
succeeds on both or fails on both, and then all shapes agree, and so do the values of the tensors whose value is computed. -/
theorem C75_state_independent (run : Run V) (g : Graph) (M : List String) (hg : WellFormed run g M) (d : Dict (Arr V)) (m1 m2 : TMap V)
    (hm : ∀ t, Unproduced g.nodemap t → t ∉ d.map (·.1) → seen (m1 t) = seen (m2 t)) :
    (shapeInfer run g M d m1).2 = (shapeInfer run g M d m2).2 ∧
      ((shapeInfer run g M d m1).2.1 = none →
        Same M g.nodemap (fun t => seen ((shapeInfer run g M d m1).1 t)) (fun t => seen ((shapeInfer run g M d m2).1 t))) := by
  rcases outcome (run := run) (g := g) (M := M) (d := d) (m := m1) with ⟨r, h⟩ | ⟨r, h⟩
  · obtain ⟨r', h1, h2⟩ := agree hg d m1 m2 hm h
    rw [h, h1]
    exact ⟨rfl, fun _ => h2⟩
  · rcases outcome (run := run) (g := g) (M := M) (d := d) (m := m2) with ⟨r2, h2⟩ | ⟨r2, h2⟩
    · obtain ⟨r', h1, -⟩ := agree hg d m2 m1 (fun t a b => (hm t a b).symm) h2
      rw [h] at h1
      cases h1
    · rw [h, h2]
      exact ⟨rfl, fun hn => by cases hn⟩

private theorem changes {run : Run V} {g : Graph} {M : List String} (d : Dict (Arr V)) (m : TMap V) {t : String} (hu : Unproduced g.nodemap t)
    (hd : t ∉ d.map (·.1)) : (shapeInfer run g M d m).1 t = m t := by
  have h1 := loop_other (run := run) (marked := M) g.nodemap (updateInputs d m) t hu
  rw [updateInputs_other d m t hd] at h1
  unfold shapeInfer
  simp only
  split
  · cases hl : inferLoop run M g.nodemap (updateInputs d m) with
    | mk r o =>
      rw [hl] at h1
      cases o <;> exact h1
  · exact updateInputs_other d m t hd

/-- **C75, history.** After any number of earlier calls — also failed ones — that gave tensors for graph inputs which the new call gives again, or for produced tensors,
`shape_infer(inputs)` has the outcome, the shapes and the computed values it would have on the graph as loaded. -/
theorem C75_history (run : Run V) (g : Graph) (M : List String) (hg : WellFormed run g M) (hist : List (Dict (Arr V))) (d : Dict (Arr V)) (m : TMap V)
    (hh : ∀ c ∈ hist, ∀ t ∈ c.map (·.1), t ∈ d.map (·.1) ∨ ¬ Unproduced g.nodemap t) :
    (shapeInfer run g M d (calls run g M hist m)).2 = (shapeInfer run g M d m).2 ∧
      ((shapeInfer run g M d m).2.1 = none →
        Same M g.nodemap (fun t => seen ((shapeInfer run g M d (calls run g M hist m)).1 t)) (fun t => seen ((shapeInfer run g M d m).1 t))) := by
  have key : ∀ (hist : List (Dict (Arr V))) (m : TMap V), (∀ c ∈ hist, ∀ t ∈ c.map (·.1), t ∈ d.map (·.1) ∨ ¬ Unproduced g.nodemap t) →
      ∀ t, Unproduced g.nodemap t → t ∉ d.map (·.1) → seen (calls run g M hist m t) = seen (m t) := by
    intro hist
    induction hist with
    | nil => intro m _ t _ _; rfl
    | cons c hist ih =>
      intro m h t hu hd
      refine (ih (shapeInfer run g M c m).1 (fun c' hc' => h c' (List.mem_cons_of_mem _ hc')) t hu hd).trans ?_
      rw [changes c m hu]
      intro hc
      rcases h c List.mem_cons_self t hc with h' | h'
      · exact hd h'
      · exact h' hu
  obtain ⟨h1, h2⟩ := C75_state_independent run g M hg d (calls run g M hist m) m (key hist m hh)
  exact ⟨h1, fun hn => h2 (by rw [h1]; exact hn)⟩

/-- **C75, idempotence.** After a successful call, `shape_infer()` succeeds again and changes no shape and no computed value. -/
theorem C75_idempotent (run : Run V) (g : Graph) (M : List String) (hg : WellFormed run g M) (d : Dict (Arr V)) (m m' : TMap V)
    (h : shapeInfer run g M d m = (m', none, true)) :
    ∃ m'', shapeInfer run g M [] m' = (m'', none, true) ∧ Same M g.nodemap (fun t => seen (m'' t)) (fun t => seen (m' t)) := by
  obtain ⟨h1, h2⟩ := C75_solution run g M hg d m m' h
  refine C75_finds_the_solution run g M hg [] m' _ h1 (fun t _ => rfl) ?_
  intro t ht x hx
  have hc : checkInputs g (updateInputs d m) = true := by
    unfold shapeInfer at h
    simp only at h
    split at h
    · assumption
    · cases h
  unfold checkInputs at hc
  rw [List.all_eq_true] at hc
  have h3 := hc t ht
  rw [← h2 t (hg.inputs t ht), List.all_eq_true] at h3
  have h4 := h3 x hx
  cases x with
  | var v => cases h4
  | num n =>
    simp only [decide_eq_true_eq] at h4
    exact ⟨n.toNat, by rw [Int.toNat_of_nonneg h4]⟩

private theorem shapeDep_mono {ns ns' : List Node} {ini s s' : List String} (h : ∀ n ∈ ns, n ∈ ns') (hs : ∀ t ∈ s, t ∈ s') {n : Node}
    (hd : ShapeDep ns ini s n) : ShapeDep ns' ini s' n := by
  induction hd with
  | seed h1 h2 h3 h4 => exact .seed (h _ h1) (hs _ h2) h3 h4
  | step h1 _ h3 h4 h5 h6 ih => exact .step (h _ h1) ih h3 h4 h5 h6

/-- **C75, order of the nodes.** Two graphs with the same nodes in different sorted orders: same outcome, same shapes, same computed values. -/
theorem C75_node_order (run : Run V) (g g' : Graph) (M M' : List String) (hg : WellFormed run g M) (hg' : WellFormed run g' M')
    (hp : g'.nodemap.Perm g.nodemap) (hini : ∀ t, t ∈ g'.initials ↔ t ∈ g.initials) (hinp : g'.input = g.input) (d : Dict (Arr V)) (m : TMap V) :
    (shapeInfer run g' M' d m).2 = (shapeInfer run g M d m).2 ∧
      ((shapeInfer run g M d m).2.1 = none →
        Same M g.nodemap (fun t => seen ((shapeInfer run g' M' d m).1 t)) (fun t => seen ((shapeInfer run g M d m).1 t))) := by
  have hM : ∀ n ∈ g'.nodemap, n.name ∈ M' ↔ n.name ∈ M := by
    intro n hn
    have hmem : ∀ ns ns' : List Node, (∀ n ∈ ns, n ∈ ns') → ∀ t ∈ ns.flatMap shapeInputs, t ∈ ns'.flatMap shapeInputs := by
      intro ns ns' h t ht
      obtain ⟨k, hk, hkt⟩ := List.mem_flatMap.mp ht
      exact List.mem_flatMap.mpr ⟨k, h k hk, hkt⟩
    have hsub : ∀ {ns : List Node} {i i' s : List String}, (∀ t, t ∈ i ↔ t ∈ i') → ∀ {n}, ShapeDep ns i s n → ShapeDep ns i' s n := by
      intro ns i i' s hi n hd
      induction hd with
      | seed h1 h2 h3 h4 => exact .seed h1 h2 (fun h => h3 ((hi _).mpr h)) h4
      | step h1 _ h3 h4 h5 h6 ih => exact .step h1 ih h3 h4 (fun h => h5 ((hi _).mpr h)) h6
    rw [marks_iff hg' n hn, marks_iff hg n (hp.mem_iff.mp hn)]
    constructor
    · intro h
      exact hsub hini (shapeDep_mono (fun k hk => hp.mem_iff.mp hk) (hmem _ _ fun k hk => hp.mem_iff.mp hk) h)
    · intro h
      exact hsub (fun t => (hini t).symm) (shapeDep_mono (fun k hk => hp.mem_iff.mpr hk) (hmem _ _ fun k hk => hp.mem_iff.mpr hk) h)
  have hcong : ∀ m, inferLoop run M' g'.nodemap m = inferLoop run M g'.nodemap m := fun m => loop_congr g'.nodemap m hM
  have hck : checkInputs g' (updateInputs d m) = checkInputs g (updateInputs d m) := by
    unfold checkInputs
    rw [hinp]
  have fwd : ∀ {r : TMap V}, inferLoop run M g.nodemap (updateInputs d m) = (r, none) →
      ∃ r', inferLoop run M' g'.nodemap (updateInputs d m) = (r', none) ∧ Same M g.nodemap (fun t => seen (r t)) (fun t => seen (r' t)) := by
    intro r hr
    rw [hcong]
    exact loop_agree hg.reads (known_shape hg) (known_input hg) (fun n => Iff.rfl) (fun n => hp.mem_iff) hg.once hg.topo hg'.topo (fun t _ => rfl) hr
  have bwd : ∀ {r : TMap V}, inferLoop run M' g'.nodemap (updateInputs d m) = (r, none) →
      ∃ r', inferLoop run M g.nodemap (updateInputs d m) = (r', none) := by
    intro r hr
    rw [hcong] at hr
    obtain ⟨r', h1, -⟩ := loop_agree hg.reads (known_shape hg) (known_input hg) (fun n => hp.mem_iff) (fun n => Iff.rfl) hg'.once hg'.topo hg.topo
      (fun t _ => rfl) hr
    exact ⟨r', h1⟩
  have he := loop_error (run := run) (marked := M) g.nodemap (updateInputs d m)
  have he' := loop_error (run := run) (marked := M') g'.nodemap (updateInputs d m)
  unfold shapeInfer
  simp only
  rw [hck]
  split
  · cases hl : inferLoop run M g.nodemap (updateInputs d m) with
    | mk r o =>
      rw [hl] at he
      cases o with
      | none =>
        obtain ⟨r', h1, h2⟩ := fwd hl
        rw [h1]
        exact ⟨rfl, fun _ t => ⟨(h2 t).1.symm, fun hk => ((h2 t).2 hk).symm⟩⟩
      | some e =>
        cases hl' : inferLoop run M' g'.nodemap (updateInputs d m) with
        | mk r' o' =>
          rw [hl'] at he'
          cases o' with
          | none =>
            obtain ⟨r2, h1⟩ := bwd hl'
            rw [h1] at hl
            cases hl
          | some e' =>
            rw [he e rfl, he' e' rfl]
            exact ⟨rfl, fun h => by cases h⟩
  · exact ⟨rfl, fun h => by cases h⟩

/-- **C75, `value_infer`.** On a sorted graph whose nodes compute their outputs from their operands, `value_infer(inputs)` is independent of what the graph object held for
produced tensors before (earlier calls of `shape_infer` or `value_infer`): it succeeds from both states or from none, and returns the same array for each produced
graph output. -/
theorem C75_value_infer (run : Run V) (g : Graph) (honce : (g.nodemap.flatMap (·.output)).Nodup) (htopo : Topsort.TopoOrdered g.nodemap)
    (hloc : ∀ n ∈ g.nodemap, Local run true n) (d : Dict (Arr V)) (m1 m2 : TMap V)
    (hm : ∀ t, Unproduced g.nodemap t → t ∉ d.map (·.1) → seen (m1 t) = seen (m2 t)) (r : TMap V) (ys : List (Option (Arr V)))
    (h : valueInfer run g d m1 = (r, .ok ys)) (hout : ∀ o ∈ g.output, ∃ n ∈ g.nodemap, o ∈ n.output) :
    (∃ r', valueInfer run g d m2 = (r', .ok ys)) ∧ ys.length = g.output.length ∧ ∀ y ∈ ys, ∃ a, y = some a := by
  have hm' := updateInputs_seen (Unproduced g.nodemap) d m1 m2 hm
  have hall : ∀ n ∈ g.nodemap, n.name ∈ g.nodemap.map (·.name) := fun n hn => List.mem_map.mpr ⟨n, hn, rfl⟩
  have hloc' : ∀ n ∈ g.nodemap, Local run ((g.nodemap.map (·.name)).contains n.name) n := by
    intro n hn
    rw [List.contains_iff_mem.mpr (hall n hn)]
    exact hloc n hn
  have hk : ∀ t, Known (g.nodemap.map (·.name)) g.nodemap t := fun t n hn _ => hall n hn
  have hsub : ∀ n ∈ g.nodemap, ∀ t ∈ shapeInputs n, Known (g.nodemap.map (·.name)) g.nodemap t ∧ t ∈ n.input :=
    fun n _ t ht => ⟨hk t, C15_shape_operands_are_inputs n t ht⟩
  obtain ⟨e1, e2⟩ := valueLoop_infer (run := run) (marked := g.nodemap.map (·.name)) g.nodemap (updateInputs d m1) hall
  obtain ⟨e3, e4⟩ := valueLoop_infer (run := run) (marked := g.nodemap.map (·.name)) g.nodemap (updateInputs d m2) hall
  unfold valueInfer at h
  cases hl : valueLoop run g.nodemap (updateInputs d m1) with
  | mk q o =>
    rw [hl] at h e1 e2
    cases o with
    | some e => cases h
    | none =>
      cases h
      have hi : inferLoop run (g.nodemap.map (·.name)) g.nodemap (updateInputs d m1) = (r, none) := Prod.ext e1.symm (e2.mp rfl)
      obtain ⟨r', h1, h2⟩ := loop_agree hloc' hsub (fun n _ _ _ t _ => hk t) (fun n => Iff.rfl) (fun n => Iff.rfl) honce htopo htopo hm' hi
      have hv : valueLoop run g.nodemap (updateInputs d m2) = (r', none) := by
        rw [h1] at e3 e4
        exact Prod.ext e3 (e4.mpr rfl)
      -- a produced tensor holds an array of its shape
      have hnum : ∀ (ns : List Node), (∀ n ∈ ns, n ∈ g.nodemap) → (ns.flatMap (·.output)).Nodup → ∀ (s s' : TMap V), valueLoop run ns s = (s', none) →
          ∀ n ∈ ns, ∀ o ∈ n.output, ∃ a, s' o = { shape := asDims a.shape, dtype := a.dtype, numpy := some a } := by
        intro ns
        induction ns with
        | nil => intro _ _ s s' _ n hn; cases hn
        | cons k ns ih =>
          intro hsubs hnd s s' hs n hn o ho
          obtain ⟨n1, n2, n3⟩ := flat_nodup hnd
          rw [valueLoop] at hs
          cases hr : run true k (k.input.map fun t => seen (s t)) (k.output.map fun t => seen (s t)) with
          | error e => rw [hr] at hs; cases hs
          | ok us =>
            rw [hr] at hs
            simp only at hs
            rcases List.mem_cons.mp hn with rfl | hn
            · have hL := hloc n (hsubs n List.mem_cons_self)
              have hlen := hL.count _ _ _ hr
              obtain ⟨-, harr⟩ := hL.values rfl (fun t => seen (s t)) (fun t => seen (s t)) us (fun _ _ => rfl) (fun _ _ _ => rfl) hr
              obtain ⟨i, hi', rfl⟩ := List.getElem_of_mem ho
              have hu : us[i]? = some (us[i]'(by omega)) := List.getElem?_eq_getElem (by omega)
              have hoi : n.output[i]? = some n.output[i] := List.getElem?_eq_getElem hi'
              obtain ⟨a, ha⟩ := harr _ (List.getElem_mem (l := us) (n := i) (by omega))
              have hlast := loop_other (run := run) (marked := ns.map (·.name)) ns (applyAll s (n.output.zip us)) n.output[i] (n3 _ ho)
              obtain ⟨v1, -⟩ := valueLoop_infer (run := run) (marked := ns.map (·.name)) ns (applyAll s (n.output.zip us))
                (fun n hn => List.mem_map.mpr ⟨n, hn, rfl⟩)
              rw [hs] at v1
              rw [← v1] at hlast
              replace hlast : s' n.output[i] = _ := hlast
              refine ⟨a, ?_⟩
              rw [hlast, applyAll_at _ _ _ n1 hlen i _ _ hoi hu, ha]
              rfl
            · exact ih (fun n hn => hsubs n (List.mem_cons_of_mem _ hn)) n2 _ _ hs n hn o ho
      refine ⟨⟨r', ?_⟩, by simp, ?_⟩
      · unfold valueInfer
        rw [hv]
        show (r', Except.ok (g.output.map fun o => (r' o).numpy)) = (r', Except.ok (g.output.map fun o => (r o).numpy))
        congr 2
        refine List.map_congr_left fun o ho => ?_
        obtain ⟨n, hn, hno⟩ := hout o ho
        obtain ⟨a, ha⟩ := hnum g.nodemap (fun n hn => hn) honce _ _ hl n hn o hno
        obtain ⟨b, hb⟩ := hnum g.nodemap (fun n hn => hn) honce _ _ hv n hn o hno
        have hs := (h2 o).2 (hk o)
        simp only [ha, hb, seen, getNumpy, if_true, Seen.mk.injEq, Option.some.injEq] at hs
        rw [ha, hb, hs.2.2]
      · intro y hy
        obtain ⟨o, ho, rfl⟩ := List.mem_map.mp hy
        obtain ⟨n, hn, hno⟩ := hout o ho
        obtain ⟨a, ha⟩ := hnum g.nodemap (fun n hn => hn) honce _ _ hl n hn o hno
        exact ⟨a, by rw [ha]⟩

end

/-- The nodes of `shapeGraph` read what the operand table says. -/
private theorem nodeRun_local (nm x y o : String) (v : Bool) :
    Local nodeRun v ⟨nm, "Relu", [x], [o]⟩ ∧ Local nodeRun v ⟨nm, "Shape", [x], [o]⟩ ∧ Local nodeRun v ⟨nm, "Gather", [x, y], [o]⟩ ∧
      Local nodeRun v ⟨nm, "Reshape", [x, y], [o]⟩ := by
  have hcopy : ∀ (ins : List (Seen Int)) us, copyShape ins = .ok us → us.length = 1 := by
    intro ins us h; unfold copyShape at h; split at h <;> cases h; rfl
  have hrelu : ∀ (ins : List (Seen Int)) us, reluOf ins = .ok us → us.length = 1 ∧ ∀ u ∈ us, ∃ a, u = .arr a := by
    intro ins us h; unfold reluOf at h; split at h <;> cases h
    exact ⟨rfl, fun u hu => ⟨_, List.mem_singleton.mp hu⟩⟩
  have hshape : ∀ (ins : List (Seen Int)) us, shapeOf ins = .ok us → us.length = 1 ∧ ∀ u ∈ us, ∃ a, u = .arr a := by
    intro ins us h; unfold shapeOf at h; split at h
    · split at h <;> cases h
      exact ⟨rfl, fun u hu => ⟨_, List.mem_singleton.mp hu⟩⟩
    · cases h
  have hgather : ∀ (ins : List (Seen Int)) us, gatherOf ins = .ok us → us.length = 1 ∧ ∀ u ∈ us, ∃ a, u = .arr a := by
    intro ins us h; unfold gatherOf at h; split at h
    · split at h <;> cases h
      exact ⟨rfl, fun u hu => ⟨_, List.mem_singleton.mp hu⟩⟩
    · cases h
  have hreshape : ∀ (ins : List (Seen Int)) us, reshapeOf ins = .ok us → us.length = 1 := by
    intro ins us h; unfold reshapeOf at h; split at h
    · split at h
      · split at h <;> cases h
        rfl
      · cases h
    · cases h
  have hshape_congr : ∀ s s' : Seen Int, s.shape = s'.shape → shapeOf [s] = shapeOf [s'] := by
    intro s s' h; simp only [shapeOf, h]
  refine ⟨⟨?_, ?_, ?_⟩, ⟨?_, ?_, ?_⟩, ⟨?_, ?_, ?_⟩, ⟨?_, ?_, ?_⟩⟩
  · intro ins outs us h
    cases v
    · exact hcopy _ _ h
    · exact (hrelu _ _ h).1
  · rintro rfl G G' us h _ hr
    replace hr : copyShape [G x] = .ok us := hr
    refine ⟨[.shape (G' x).shape (some (G' x).dtype)], rfl, ?_⟩
    cases hr
    simp only [List.map_cons, List.map_nil, Upd.newShape]
    rw [h x List.mem_cons_self]
  · rintro rfl G G' us _ h hr
    replace hr : reluOf [G x] = .ok us := hr
    refine ⟨?_, (hrelu _ _ hr).2⟩
    show reluOf [G' x] = .ok us
    rw [← h (by simp) x List.mem_cons_self]
    exact hr
  · intro ins outs us h
    cases v <;> exact (hshape _ _ h).1
  · rintro rfl G G' us h _ hr
    replace hr : shapeOf [G x] = .ok us := hr
    refine ⟨us, ?_, rfl⟩
    show shapeOf [G' x] = .ok us
    rw [← hshape_congr _ _ (h x List.mem_cons_self)]
    exact hr
  · rintro rfl G G' us h _ hr
    replace hr : shapeOf [G x] = .ok us := hr
    refine ⟨?_, (hshape _ _ hr).2⟩
    show shapeOf [G' x] = .ok us
    rw [← hshape_congr _ _ (h x List.mem_cons_self)]
    exact hr
  · intro ins outs us h
    cases v
    · cases h
    · exact (hgather _ _ h).1
  · rintro rfl G G' us _ _ hr; cases hr
  · rintro rfl G G' us _ h hr
    replace hr : gatherOf [G x, G y] = .ok us := hr
    refine ⟨?_, (hgather _ _ hr).2⟩
    show gatherOf [G' x, G' y] = .ok us
    rw [← h (by simp) x (by simp), ← h (by simp) y (by simp)]
    exact hr
  · intro ins outs us h
    cases v
    · exact hreshape _ _ h
    · cases h
  · rintro rfl G G' us h hs hr
    replace hr : reshapeOf [G x, G y] = .ok us := hr
    have hy : G y = G' y := hs y (by simp [shapeInputs, OnnxTool.ShapeCalc.shapeTable])
    rw [hy] at hr
    show ∃ us', reshapeOf [G' x, G' y] = .ok us' ∧ _
    unfold reshapeOf at hr ⊢
    cases hg : G' y with
    | mk sh dt v =>
      rw [hg] at hr
      cases v with
      | none => cases hr
      | some a =>
        simp only at hr ⊢
        rw [← h x (by simp)]
        cases hc : concrete (G x).shape with
        | none => rw [hc] at hr; cases hr
        | some s =>
          rw [hc] at hr
          simp only at hr ⊢
          cases hq : Axes.reshapeShape s a.data with
          | error e => rw [hq] at hr; cases hr
          | ok r =>
            rw [hq] at hr
            cases hr
            exact ⟨_, rfl, rfl⟩
  · rintro rfl G G' us _ _ hr; cases hr

/-- **C75, non-vacuity.** The graph `Relu, Shape, Gather, Reshape` meets the hypotheses. -/
theorem C75_wellFormed_example : WellFormed nodeRun shapeGraph ["gather", "shape"] where
  names := by decide
  once := by decide
  topo := by decide
  initials := by
    intro t ht n hn
    have : ∀ n ∈ shapeGraph.nodemap, ∀ t ∈ shapeGraph.initials, t ∉ n.output := by decide
    exact this n hn t ht
  inputs := by
    intro t ht n hn
    have : ∀ n ∈ shapeGraph.nodemap, ∀ t ∈ shapeGraph.input, t ∉ n.output := by decide
    exact this n hn t ht
  marks := ⟨["d"], by
    intro t
    rw [← List.mem_flatMap, show shapeGraph.nodemap.flatMap shapeInputs = ["d"] from by decide], rfl⟩
  reads := by
    intro n hn
    rcases List.mem_cons.mp hn with rfl | hn
    · exact (nodeRun_local "relu" "x" "" "y" _).1
    · rcases List.mem_cons.mp hn with rfl | hn
      · exact (nodeRun_local "shape" "y" "" "s" _).2.1
      · rcases List.mem_cons.mp hn with rfl | hn
        · exact (nodeRun_local "gather" "s" "c" "d" _).2.2.1
        · rcases List.mem_cons.mp hn with rfl | hn
          · exact (nodeRun_local "reshape" "y" "d" "z" _).2.2.2
          · cases hn

/-- the tensors as loaded: `x` is 2×3, the constant selects the two dimensions in reverse order; the shapes of the other tensors are not known -/
def loadedTensors : TMap Int := fun t =>
  if t = "x" then { shape := [.num 2, .num 3], dtype := "f" }
  else if t = "c" then { shape := [.num 2], dtype := "int64", numpy := some ⟨[2], "int64", [1, 0]⟩ }
  else { shape := [], dtype := "f" }

/-- `Relu(x)` 2×3, its shape reversed, and the reshaped tensor is 3×2. -/
example : (["y", "s", "d", "z"].map fun t => ((shapeInfer nodeRun shapeGraph ["gather", "shape"] [] loadedTensors).1 t).shape) =
      [[.num 2, .num 3], [.num 2], [.num 2], [.num 3, .num 2]] ∧
    (shapeInfer nodeRun shapeGraph ["gather", "shape"] [] loadedTensors).2 = (none, true) := by decide
/-- with another input given by the caller -/
example : ((shapeInfer nodeRun shapeGraph ["gather", "shape"] [("x", ⟨[4, 1], "f", [1, 2, 3, 4]⟩)] loadedTensors).1 "z").shape = [.num 1, .num 4] := by decide
/-- and back: the earlier call has left no trace (an instance of `C75_history`) -/
example : ((shapeInfer nodeRun shapeGraph ["gather", "shape"] [("x", ⟨[2, 3], "f", [1, 2, 3, 4, 5, 6]⟩)]
    (calls nodeRun shapeGraph ["gather", "shape"] [[("x", ⟨[4, 1], "f", [1, 2, 3, 4]⟩)]] loadedTensors)).1 "z").shape = [.num 3, .num 2] := by decide
/-- named dimensions are refused -/
example : (shapeInfer nodeRun shapeGraph ["gather", "shape"] [] (put loadedTensors "x" { shape := [.var "batch", .num 3], dtype := "f" })).2 =
    (some .valueError, false) := by decide

/-- one `ReduceMean` without axes -/
def meanGraph : Graph := { nodemap := [⟨"mean", "ReduceMean", ["x"], ["y"]⟩], input := ["x"], output := ["y"] }

/-- **C75 finding: a node that sets nothing.** `ReduceMean` over all axes (no `axes`) returns without setting its output: `shape_infer` reports success and the output
keeps the shape it had — whatever that was. -/
theorem C75_reduce_without_axes_keeps_the_old_shape (m : TMap Int) (hx : (m "x").shape = [.num 2, .num 3]) :
    (shapeInfer nodeRun meanGraph [] [] m).2 = (none, true) ∧ ((shapeInfer nodeRun meanGraph [] [] m).1 "y").shape = (m "y").shape := by
  have hc : checkInputs meanGraph m = true := by
    simp only [checkInputs, meanGraph, List.all_cons, hx, List.all_nil]
    decide
  unfold shapeInfer
  simp only [show updateInputs ([] : Dict (Arr Int)) m = m from rfl, hc, if_true]
  exact ⟨rfl, rfl⟩

/-- the two nodes of an unsorted graph -/
def unsortedGraph : Graph :=
  { nodemap := [⟨"b", "Relu", ["y"], ["z"]⟩, ⟨"a", "Relu", ["x"], ["y"]⟩], input := ["x"], output := ["z"] }

/-- **C75, sorted nodes are needed.** With the consumer listed first `shape_infer` succeeds and propagates the shape the intermediate tensor had before; only the
second call is right. -/
theorem C75_unsorted_uses_old_shapes :
    ((shapeInfer nodeRun unsortedGraph [] [] loadedTensors).1 "z").shape = [] ∧ (shapeInfer nodeRun unsortedGraph [] [] loadedTensors).2 = (none, true) ∧
      ((shapeInfer nodeRun unsortedGraph [] [] (shapeInfer nodeRun unsortedGraph [] [] loadedTensors).1).1 "z").shape = [.num 2, .num 3] := by decide

/-- `NonZero(Relu(x))` -/
def nonZeroGraph : Graph :=
  { nodemap := [⟨"relu", "Relu", ["x"], ["y"]⟩, ⟨"nz", "NonZero", ["y"], ["z"]⟩], input := ["x"], output := ["z"] }

/-- a vector whose `Relu` has one non-zero element -/
def nzInput : Dict (Arr Int) := [("x", ⟨[3], "f", [-1, 5, 0]⟩)]

/-- **C75 finding: shapes that depend on data.** The operand of `NonZero` is not marked (no operator of the table), so its shape is computed from made-up zeros — and
after `value_infer` from the values of that run: the same call gives the output shape 1×3 before and 1×1 after. -/
theorem C75_data_dependent_shape :
    findShape nonZeroGraph.updateTensorRelations [] = .ok [] ∧
    ((shapeInfer nodeRun nonZeroGraph [] nzInput loadedTensors).1 "z").shape = [.num 1, .num 3] ∧
    ((shapeInfer nodeRun nonZeroGraph [] nzInput (valueInfer nodeRun nonZeroGraph nzInput loadedTensors).1).1 "z").shape = [.num 1, .num 1] :=
  ⟨rfl, by decide, by decide⟩

/-- `value_infer` returns the indices of the non-zero elements -/
example : (valueInfer nodeRun nonZeroGraph nzInput loadedTensors).2.toOption = some [some ⟨[1, 1], "int64", [1]⟩] := by decide

/-- the hypotheses of `C75_value_infer` hold for this graph -/
example : (nonZeroGraph.nodemap.flatMap (·.output)).Nodup ∧ Topsort.TopoOrdered nonZeroGraph.nodemap ∧
    (∀ n ∈ nonZeroGraph.nodemap, Local nodeRun true n) ∧ ∀ o ∈ nonZeroGraph.output, ∃ n ∈ nonZeroGraph.nodemap, o ∈ n.output := by
  refine ⟨by decide, by decide, ?_, by decide⟩
  intro n hn
  have hnz : ∀ (ins : List (Seen Int)) us, nonZeroOf ins = .ok us → us.length = 1 ∧ ∀ u ∈ us, ∃ a, u = .arr a := by
    intro ins us h; unfold nonZeroOf at h; split at h <;> cases h
    exact ⟨rfl, fun u hu => ⟨_, List.mem_singleton.mp hu⟩⟩
  rcases List.mem_cons.mp hn with rfl | hn
  · exact (nodeRun_local "relu" "x" "" "y" _).1
  · rcases List.mem_cons.mp hn with rfl | hn
    · refine ⟨fun ins outs us h => (hnz ins us h).1, (fun h => by cases h), ?_⟩
      intro _ G G' us _ h hr
      replace hr : nonZeroOf [G "y"] = .ok us := hr
      refine ⟨?_, (hnz _ _ hr).2⟩
      show nonZeroOf [G' "y"] = .ok us
      rw [← h (by decide) "y" (by simp)]
      exact hr
    · cases hn

end OnnxTool.Props
