import Verif.Spec.ShapeInfer
import Mathlib.Data.List.Nodup
/-! # The loop of shape inference computes the solution of the node equations -/
namespace OnnxTool.ShapeInfer
open OnnxTool OnnxTool.Engine OnnxTool.ShapeCalc OnnxTool.Topsort

set_option linter.unusedSectionVars false

variable {V : Type} [Zero V]

theorem seen_arr (a : Arr V) (t : TState V) : seen (Upd.apply (.arr a) t) = { shape := asDims a.shape, dtype := a.dtype, value := some a } := by
  simp [seen, Upd.apply, getNumpy]

theorem apply_shape (u : Upd V) (t : TState V) : (u.apply t).shape = u.newShape := by cases u <;> rfl

theorem applyAll_other : ∀ (l : List (String × Upd V)) (m : TMap V) (t : String), t ∉ l.map (·.1) → applyAll m l t = m t := by
  intro l
  induction l with
  | nil => intro m t _; rfl
  | cons p l ih =>
    obtain ⟨o, u⟩ := p
    intro m t ht
    simp only [List.map_cons, List.mem_cons, not_or] at ht
    rw [applyAll, ih _ _ ht.2, put, if_neg ht.1]

theorem applyAll_at : ∀ (os : List String) (us : List (Upd V)) (m : TMap V), os.Nodup → us.length = os.length →
    ∀ (i : Nat) (o : String) (u : Upd V), os[i]? = some o → us[i]? = some u → applyAll m (os.zip us) o = u.apply (m o) := by
  intro os
  induction os with
  | nil => intro us m _ _ i o u ho; simp at ho
  | cons x os ih =>
    intro us m hn hl i o u ho hu
    cases us with
    | nil => simp at hl
    | cons v us =>
      simp only [List.nodup_cons] at hn
      simp only [List.zip_cons_cons, applyAll]
      cases i with
      | zero =>
        simp only [List.getElem?_cons_zero, Option.some.injEq] at ho hu
        subst ho hu
        rw [applyAll_other, put, if_pos rfl]
        intro h
        obtain ⟨p, hp, he⟩ := List.mem_map.mp h
        exact hn.1 (he ▸ (List.of_mem_zip hp).1)
      | succ i =>
        simp only [List.getElem?_cons_succ] at ho hu
        have := ih us (put m x (v.apply (m x))) hn.2 (by simpa using hl) i o u ho hu
        rw [this, put, if_neg]
        rintro rfl
        exact hn.1 (List.mem_of_getElem? ho)

theorem zip_keys (os : List String) (us : List (Upd V)) {t : String} (h : t ∈ (os.zip us).map (·.1)) : t ∈ os := by
  obtain ⟨p, hp, he⟩ := List.mem_map.mp h
  exact he ▸ (List.of_mem_zip hp).1

/-- the state shows `F`, except for the tensors still to be produced -/
def Shows (marked : List String) (all rest : List Node) (m : TMap V) (F : String → Seen V) : Prop :=
  ∀ t, Unproduced rest t → (m t).shape = (F t).shape ∧ (Known marked all t → seen (m t) = F t)

theorem step_shows {run : Run V} {marked : List String} {all : List Node} (hloc : ∀ n ∈ all, Local run (marked.contains n.name) n)
    (hsk : ∀ n ∈ all, ∀ t ∈ shapeInputs n, Known marked all t ∧ t ∈ n.input)
    (hik : ∀ n ∈ all, n.name ∈ marked → n.op ≠ "Shape" → ∀ t ∈ n.input, Known marked all t)
    {n : Node} {rest : List Node} {m : TMap V} {F : String → Seen V} (hn : n ∈ all) (hnd : n.output.Nodup)
    (hin : ∀ t ∈ n.input, Unproduced (n :: rest) t) (hsolve : Solves run marked [n] F) (hm : Shows marked all (n :: rest) m F)
    (hdet : ∀ o ∈ n.output, Known marked all o → n.name ∈ marked) :
    ∃ us, run (marked.contains n.name) n (n.input.map fun t => seen (m t)) (n.output.map fun t => seen (m t)) = .ok us ∧
      Shows marked all rest (applyAll m (n.output.zip us)) F := by
  obtain ⟨us, h1, h2, h3⟩ := hsolve n (List.mem_singleton.mpr rfl)
  have hL := hloc n hn
  have hshape : ∀ t ∈ n.input, (F t).shape = (seen (m t)).shape := fun t ht => (hm t (hin t ht)).1.symm
  have hrest : ∀ us' : List (Upd V), ∀ t, Unproduced rest t → t ∉ n.output →
      (applyAll m (n.output.zip us') t).shape = (F t).shape ∧ (Known marked all t → seen (applyAll m (n.output.zip us') t) = F t) := by
    intro us' t ht hto
    rw [applyAll_other _ _ _ (fun h => hto (zip_keys _ _ h))]
    refine hm t ?_
    intro k hk
    rcases List.mem_cons.mp hk with rfl | hk
    · exact hto
    · exact ht k hk
  by_cases hmk : n.name ∈ marked
  · rw [List.contains_iff_mem.mpr hmk] at h1 ⊢
    obtain ⟨h4, h5⟩ := hL.values (List.contains_iff_mem.mpr hmk) F (fun t => seen (m t)) us hshape
      (fun hop t ht => ((hm t (hin t ht)).2 (hik n hn hmk hop t ht)).symm) h1
    refine ⟨us, h4, ?_⟩
    intro t ht
    by_cases hto : t ∈ n.output
    · obtain ⟨i, hi, rfl⟩ := List.getElem_of_mem hto
      have hu : us[i]? = some (us[i]'(by omega)) := List.getElem?_eq_getElem (by omega)
      have ho : n.output[i]? = some n.output[i] := List.getElem?_eq_getElem hi
      obtain ⟨a, ha⟩ := h5 _ (List.getElem_mem (l := us) (n := i) (by omega))
      rw [applyAll_at _ _ _ hnd h2 i _ _ ho hu, ha]
      have hF := (h3 i _ _ ho hu).2 hmk a ha
      rw [hF]
      exact ⟨rfl, fun _ => seen_arr a _⟩
    · exact hrest us t ht hto
  · have hc : marked.contains n.name = false := by
      cases h : marked.contains n.name with
      | false => rfl
      | true => exact absurd (List.contains_iff_mem.mp h) hmk
    rw [hc] at h1 ⊢
    obtain ⟨us', h4, h5⟩ := hL.shapes hc F (fun t => seen (m t)) us hshape
      (fun t ht => ((hm t (hin t (hsk n hn t ht).2)).2 (hsk n hn t ht).1).symm) h1
    refine ⟨us', h4, ?_⟩
    have hlen := hL.count _ _ _ (by rw [hc]; exact h4)
    intro t ht
    by_cases hto : t ∈ n.output
    · obtain ⟨i, hi, rfl⟩ := List.getElem_of_mem hto
      have hu : us[i]? = some (us[i]'(by omega)) := List.getElem?_eq_getElem (by omega)
      have hu' : us'[i]? = some (us'[i]'(by omega)) := List.getElem?_eq_getElem (by omega)
      have ho : n.output[i]? = some n.output[i] := List.getElem?_eq_getElem hi
      have hsame : (us'[i]'(by omega)).newShape = (us[i]'(by omega)).newShape := by
        have := congrArg (fun l => l[i]?) h5
        simp only [List.getElem?_map, hu, hu', Option.map_some, Option.some.injEq] at this
        exact this
      rw [applyAll_at _ _ _ hnd hlen i _ _ ho hu', apply_shape, hsame, (h3 i _ _ ho hu).1]
      exact ⟨rfl, fun hk => absurd (hdet _ (List.getElem_mem hi) hk) hmk⟩
    · exact hrest us' t ht hto

/-- **Any order of the nodes that lists producers first reaches the solution.** -/
theorem loop_reaches {run : Run V} {marked : List String} {all : List Node} (hloc : ∀ n ∈ all, Local run (marked.contains n.name) n)
    (hsk : ∀ n ∈ all, ∀ t ∈ shapeInputs n, Known marked all t ∧ t ∈ n.input)
    (hik : ∀ n ∈ all, n.name ∈ marked → n.op ≠ "Shape" → ∀ t ∈ n.input, Known marked all t) {F : String → Seen V} :
    ∀ (rest : List Node), (∀ n ∈ rest, n ∈ all) → TopoOrdered rest → (∀ n ∈ rest, n.output.Nodup) → Solves run marked rest F → ∀ (m : TMap V),
      Shows marked all rest m F → ∃ m', inferLoop run marked rest m = (m', none) ∧ Shows marked all [] m' F := by
  intro rest
  induction rest with
  | nil => intro _ _ _ _ m hm; exact ⟨m, rfl, hm⟩
  | cons n rest ih =>
    intro hall htopo hnd hsolve m hm
    obtain ⟨ht1, ht2⟩ := htopo
    rw [List.pairwise_cons] at ht1
    have hin : ∀ t ∈ n.input, Unproduced (n :: rest) t := by
      intro t ht k hk hto
      rcases List.mem_cons.mp hk with rfl | hk
      · exact ht2 k List.mem_cons_self ⟨t, ht, hto⟩
      · exact ht1.1 k hk ⟨t, ht, hto⟩
    obtain ⟨us, h1, h2⟩ := step_shows hloc hsk hik (hall n List.mem_cons_self) (hnd n List.mem_cons_self) hin
      (fun k hk => hsolve k (by rw [List.mem_singleton.mp hk]; exact List.mem_cons_self)) hm
      (fun o ho hk => hk n (hall n List.mem_cons_self) ho)
    rw [inferLoop, h1]
    exact ih (fun k hk => hall k (List.mem_cons_of_mem _ hk)) ⟨ht1.2, fun k hk => ht2 k (List.mem_cons_of_mem _ hk)⟩
      (fun k hk => hnd k (List.mem_cons_of_mem _ hk)) (fun k hk => hsolve k (List.mem_cons_of_mem _ hk)) _ h2

/-- the loop changes outputs of its nodes only -/
theorem loop_other {run : Run V} {marked : List String} : ∀ (ns : List Node) (m : TMap V) (t : String), Unproduced ns t →
    (inferLoop run marked ns m).1 t = m t := by
  intro ns
  induction ns with
  | nil => intro m t _; rfl
  | cons n ns ih =>
    intro m t ht
    rw [inferLoop]
    split
    · rfl
    · rw [ih _ _ (fun k hk => ht k (List.mem_cons_of_mem _ hk)), applyAll_other]
      exact fun h => ht n List.mem_cons_self (zip_keys _ _ h)

theorem flat_nodup {n : Node} {ns : List Node} (h : ((n :: ns).flatMap (·.output)).Nodup) :
    n.output.Nodup ∧ (ns.flatMap (·.output)).Nodup ∧ ∀ t ∈ n.output, Unproduced ns t := by
  rw [List.flatMap_cons, List.nodup_append] at h
  refine ⟨h.1, h.2.1, fun t ht k hk hto => h.2.2 t ht t (List.mem_flatMap.mpr ⟨k, hk, hto⟩) rfl⟩

/-- **A successful run ends in a solution.** -/
theorem loop_solves {run : Run V} {marked : List String} : ∀ (ns : List Node) (m m' : TMap V), TopoOrdered ns → (ns.flatMap (·.output)).Nodup →
    (∀ n ∈ ns, Local run (marked.contains n.name) n) → inferLoop run marked ns m = (m', none) → Solves run marked ns (fun t => seen (m' t)) := by
  intro ns
  induction ns with
  | nil => intro m m' _ _ _ _ n hn; cases hn
  | cons n ns ih =>
    intro m m' htopo hnd hloc h
    obtain ⟨ht1, ht2⟩ := htopo
    rw [List.pairwise_cons] at ht1
    obtain ⟨n1, n2, n3⟩ := flat_nodup hnd
    rw [inferLoop] at h
    cases hr : run (marked.contains n.name) n (n.input.map fun t => seen (m t)) (n.output.map fun t => seen (m t)) with
    | error e => rw [hr] at h; cases h
    | ok us =>
      rw [hr] at h
      simp only at h
      intro k hk
      rcases List.mem_cons.mp hk with rfl | hk
      · have hlen := (hloc k List.mem_cons_self).count _ _ _ hr
        -- operands are not touched any more
        have hin : ∀ t ∈ k.input, m' t = m t := by
          intro t ht
          have h1 := loop_other (run := run) (marked := marked) ns (applyAll m (k.output.zip us)) t (fun q hq hto => ht1.1 q hq ⟨t, ht, hto⟩)
          rw [h] at h1
          replace h1 : m' t = _ := h1
          rw [h1, applyAll_other]
          exact fun hz => ht2 k List.mem_cons_self ⟨t, ht, zip_keys _ _ hz⟩
        have hout : ∀ (i : Nat) (o : String) (u : Upd V), k.output[i]? = some o → us[i]? = some u → m' o = u.apply (m o) := by
          intro i o u ho hu
          have h1 := loop_other (run := run) (marked := marked) ns (applyAll m (k.output.zip us)) o (n3 o (List.mem_of_getElem? ho))
          rw [h] at h1
          replace h1 : m' o = _ := h1
          rw [h1, applyAll_at _ _ _ n1 hlen i o u ho hu]
        have hG : k.input.map (fun t => seen (m' t)) = k.input.map (fun t => seen (m t)) := List.map_congr_left fun t ht => by rw [hin t ht]
        have hL := hloc k List.mem_cons_self
        have hsame : ∀ t ∈ k.input, seen (m t) = seen (m' t) := fun t ht => by rw [hin t ht]
        by_cases hmk : k.name ∈ marked
        · rw [List.contains_iff_mem.mpr hmk] at hr ⊢
          obtain ⟨h4, h5⟩ := hL.values (List.contains_iff_mem.mpr hmk) (fun t => seen (m t)) (fun t => seen (m' t)) us (fun t ht => by rw [hin t ht]) (fun _ => hsame) hr
          refine ⟨us, h4, hlen, ?_⟩
          intro i o u ho hu
          simp only [hout i o u ho hu]
          refine ⟨apply_shape u _, ?_⟩
          rintro _ a rfl
          exact seen_arr a _
        · have hc : marked.contains k.name = false := by
            cases h : marked.contains k.name with
            | false => rfl
            | true => exact absurd (List.contains_iff_mem.mp h) hmk
          rw [hc] at hr ⊢
          by_cases hsi : ∀ t ∈ shapeInputs k, seen (m t) = seen (m' t)
          · obtain ⟨us', h4, h5⟩ := hL.shapes hc (fun t => seen (m t)) (fun t => seen (m' t)) us (fun t ht => by rw [hin t ht]) hsi hr
            refine ⟨us', h4, hL.count _ _ _ (by rw [hc]; exact h4), ?_⟩
            intro i o u ho hu
            have hi : i < us.length := by
              have := (List.getElem?_eq_some_iff.mp ho).1
              omega
            have hu0 : us[i]? = some us[i] := List.getElem?_eq_getElem hi
            have hs : u.newShape = us[i].newShape := by
              have := congrArg (fun l => l[i]?) h5
              simp only [List.getElem?_map, hu, hu0, Option.map_some, Option.some.injEq] at this
              exact this
            simp only [hout i o _ ho hu0]
            exact ⟨by rw [hs]; exact apply_shape _ _, fun hm => absurd hm hmk⟩
          · exfalso
            apply hsi
            intro t ht
            refine hsame t ?_
            simp only [shapeInputs, List.mem_flatMap] at ht
            obtain ⟨d, -, hd⟩ := ht
            split at hd
            · obtain ⟨i, -, hi⟩ := List.mem_filterMap.mp hd
              exact List.mem_of_getElem? hi
            · cases hd
      · exact ih _ _ ⟨ht1.2, fun q hq => ht2 q (List.mem_cons_of_mem _ hq)⟩ n2 (fun q hq => hloc q (List.mem_cons_of_mem _ hq)) h k hk

theorem updateInputs_seen (P : String → Prop) : ∀ (d : Dict (Arr V)) (m1 m2 : TMap V), (∀ t, P t → t ∉ d.map (·.1) → seen (m1 t) = seen (m2 t)) →
    ∀ t, P t → seen (updateInputs d m1 t) = seen (updateInputs d m2 t) := by
  intro d
  induction d with
  | nil => intro m1 m2 h t ht; exact h t ht (by simp)
  | cons p d ih =>
    intro m1 m2 h t ht
    refine ih (put m1 p.1 (Upd.apply (.arr p.2) (m1 p.1))) (put m2 p.1 (Upd.apply (.arr p.2) (m2 p.1))) ?_ t ht
    intro q hq hqd
    unfold put
    split
    · rw [seen_arr, seen_arr]
    · rename_i hne
      refine h q hq ?_
      simp only [List.map_cons, List.mem_cons, not_or]
      exact ⟨hne, hqd⟩

theorem updateInputs_other : ∀ (d : Dict (Arr V)) (m : TMap V) (t : String), t ∉ d.map (·.1) → updateInputs d m t = m t := by
  intro d
  induction d with
  | nil => intro m t _; rfl
  | cons p d ih =>
    intro m t ht
    simp only [List.map_cons, List.mem_cons, not_or] at ht
    refine (ih (put m p.1 (Upd.apply (.arr p.2) (m p.1))) t ht.2).trans ?_
    rw [put, if_neg ht.1]

theorem checkInputs_congr {g : Graph} {m1 m2 : TMap V} (h : ∀ t ∈ g.input, (m1 t).shape = (m2 t).shape) : checkInputs g m1 = checkInputs g m2 := by
  unfold checkInputs
  rw [Bool.eq_iff_iff, List.all_eq_true, List.all_eq_true]
  constructor
  · intro h1 t ht; rw [← h t ht]; exact h1 t ht
  · intro h1 t ht; rw [h t ht]; exact h1 t ht

theorem loop_error {run : Run V} {marked : List String} : ∀ (ns : List Node) (m : TMap V) (e : PyErr),
    (inferLoop run marked ns m).2 = some e → e = .valueError := by
  intro ns
  induction ns with
  | nil => intro m e h; cases h
  | cons n ns ih =>
    intro m e h
    rw [inferLoop] at h
    split at h
    · cases h; rfl
    · exact ih _ _ h

theorem loop_congr {run : Run V} {M M' : List String} : ∀ (ns : List Node) (m : TMap V), (∀ n ∈ ns, n.name ∈ M ↔ n.name ∈ M') →
    inferLoop run M ns m = inferLoop run M' ns m := by
  intro ns
  induction ns with
  | nil => intro m _; rfl
  | cons n ns ih =>
    intro m h
    have hc : M.contains n.name = M'.contains n.name := by
      rw [Bool.eq_iff_iff, List.contains_iff_mem, List.contains_iff_mem]
      exact h n List.mem_cons_self
    rw [inferLoop, inferLoop, hc]
    split
    · rfl
    · exact ih _ fun k hk => h k (List.mem_cons_of_mem _ hk)

theorem valueLoop_infer {run : Run V} {marked : List String} : ∀ (ns : List Node) (m : TMap V), (∀ n ∈ ns, n.name ∈ marked) →
    (valueLoop run ns m).1 = (inferLoop run marked ns m).1 ∧ ((valueLoop run ns m).2 = none ↔ (inferLoop run marked ns m).2 = none) := by
  intro ns
  induction ns with
  | nil => intro m _; exact ⟨rfl, Iff.rfl⟩
  | cons n ns ih =>
    intro m h
    rw [valueLoop, inferLoop, List.contains_iff_mem.mpr (h n List.mem_cons_self)]
    split
    · exact ⟨rfl, by simp⟩
    · exact ih _ fun k hk => h k (List.mem_cons_of_mem _ hk)

/-- two runs from states that agree on what no node produces -/
theorem loop_agree {run : Run V} {marked : List String} {all ns ns' : List Node} (hloc : ∀ n ∈ all, Local run (marked.contains n.name) n)
    (hsk : ∀ n ∈ all, ∀ t ∈ shapeInputs n, Known marked all t ∧ t ∈ n.input)
    (hik : ∀ n ∈ all, n.name ∈ marked → n.op ≠ "Shape" → ∀ t ∈ n.input, Known marked all t)
    (h1 : ∀ n, n ∈ ns ↔ n ∈ all) (h2 : ∀ n, n ∈ ns' ↔ n ∈ all) (ho : (ns.flatMap (·.output)).Nodup) (ht : TopoOrdered ns) (ht' : TopoOrdered ns')
    {m1 m2 : TMap V} (hm : ∀ t, Unproduced all t → seen (m1 t) = seen (m2 t)) {r : TMap V} (hr : inferLoop run marked ns m1 = (r, none)) :
    ∃ r', inferLoop run marked ns' m2 = (r', none) ∧ Same marked all (fun t => seen (r t)) (fun t => seen (r' t)) := by
  have hsol := loop_solves ns m1 r ht ho (fun n hn => hloc n ((h1 n).mp hn)) hr
  have hnd : ∀ n ∈ ns', n.output.Nodup := by
    intro n hn
    exact (List.nodup_flatMap.mp ho).1 n ((h1 n).mpr ((h2 n).mp hn))
  obtain ⟨r', h3, h4⟩ := loop_reaches hloc hsk hik ns' (fun n hn => (h2 n).mp hn) ht' hnd (F := fun t => seen (r t))
    (fun n hn => hsol n ((h1 n).mpr ((h2 n).mp hn))) m2 (by
      intro t hu
      have hu' : Unproduced all t := fun n hn => hu n ((h2 n).mpr hn)
      have e := loop_other (run := run) (marked := marked) ns m1 t (fun n hn => hu' n ((h1 n).mp hn))
      rw [hr] at e
      replace e : r t = m1 t := e
      have hs := hm t hu'
      simp only [e]
      exact ⟨(congrArg Seen.shape hs).symm, fun _ => hs.symm⟩)
  refine ⟨r', h3, ?_⟩
  intro t
  obtain ⟨h5, h6⟩ := h4 t (fun n hn => by cases hn)
  exact ⟨h5.symm, fun hk => (h6 hk).symm⟩

end OnnxTool.ShapeInfer
