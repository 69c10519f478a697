import Verif.Spec.Batch
import Verif.Proofs.ShapeInfer
import Verif.Proofs.Grow
import Mathlib.Tactic.Ring
import Mathlib.Tactic.Linarith
/-! # Lemmas about two batch sizes -/
namespace OnnxTool.Batch
open OnnxTool OnnxTool.Shape OnnxTool.ShapeInfer OnnxTool.Topsort

theorem pair_apply {R : Roles} {b c : Nat} {o : String} {u u' : Upd Int} (h : PairUpd R b c o u u') (t t' : TState Int) :
    Pair R b c o (seen (u.apply t)) (seen (u'.apply t')) := by
  refine ⟨?_, fun hc => ?_⟩
  · obtain ⟨s, s', h1, h2, h3⟩ := h.shape
    exact ⟨s, s', by show (u.apply t).shape = _; rw [apply_shape, h1], by show (u'.apply t').shape = _; rw [apply_shape, h2], h3⟩
  · obtain ⟨a, rfl, rfl⟩ := h.value hc
    rw [seen_arr, seen_arr]

/-- the loop of shape inference, side by side -/
theorem loop_pair (run : Run Int) (M : List String) (R : Roles) (b c : Nat) : ∀ (ns : List Node), TopoOrdered ns → (ns.flatMap (·.output)).Nodup →
    (∀ n ∈ ns, SetsAll run (M.contains n.name) n) → (∀ n ∈ ns, BatchNode run (M.contains n.name) R b c n) → ∀ (m m' r : TMap Int),
    (∀ t, Unproduced ns t → Pair R b c t (seen (m t)) (seen (m' t))) → inferLoop run M ns m = (r, none) →
    (∀ n ∈ ns, ∀ o ∈ n.output, ∃ s, (r o).shape = asDims s) →
    ∃ r', inferLoop run M ns m' = (r', none) ∧ ∀ t, Pair R b c t (seen (r t)) (seen (r' t)) := by
  intro ns
  induction ns with
  | nil =>
    intro _ _ _ _ m m' r hp h _
    cases h
    exact ⟨m', rfl, fun t => hp t (by intro n hn; cases hn)⟩
  | cons n ns ih =>
    intro ht ho hset hb m m' r hp h hnn
    obtain ⟨ho1, ho2, ho3⟩ := flat_nodup ho
    have hin : ∀ t ∈ n.input, Unproduced (n :: ns) t := by
      intro t htn k hk hto
      rcases List.mem_cons.1 hk with rfl | hk
      · exact ht.2 k (by simp) ⟨t, htn, hto⟩
      · exact (List.pairwise_cons.1 ht.1).1 k hk ⟨t, htn, hto⟩
    rw [inferLoop] at h
    split at h
    · cases h
    · rename_i us hus
      have hlen := hset n (by simp) _ _ _ hus
      have hpos : ∀ u ∈ us, ∃ s, u.newShape = asDims s := by
        intro u hu
        obtain ⟨i, hi⟩ := List.mem_iff_getElem?.1 hu
        have hil := (List.getElem?_eq_some_iff.1 hi).1
        have e : n.output[i]? = some n.output[i] := List.getElem?_eq_getElem (by omega)
        have hr : r n.output[i] = applyAll m (n.output.zip us) n.output[i] := by
          have := loop_other (run := run) (marked := M) ns (applyAll m (n.output.zip us)) n.output[i] (ho3 _ (List.getElem_mem (by omega)))
          rw [h] at this
          exact this
        obtain ⟨s, hs⟩ := hnn n (by simp) _ (List.getElem_mem (by omega : i < n.output.length))
        rw [hr, applyAll_at n.output us m ho1 hlen i _ u e hi, apply_shape] at hs
        exact ⟨s, hs⟩
      obtain ⟨us', h1, h3, h4⟩ := hb n (by simp) (fun t => seen (m t)) (fun t => seen (m' t)) _ (n.output.map fun t => seen (m' t)) us (fun t htn => hp t (hin t htn)) hus hlen hpos
      rw [inferLoop]
      simp only [h1]
      refine ih ⟨(List.pairwise_cons.1 ht.1).2, fun k hk => ht.2 k (by simp [hk])⟩ ho2 (fun k hk => hset k (by simp [hk])) (fun k hk => hb k (by simp [hk])) _ _ _ ?_ h
        (fun k hk => hnn k (by simp [hk]))
      intro t hun
      by_cases hto : t ∈ n.output
      · obtain ⟨i, hi⟩ := List.mem_iff_getElem?.1 hto
        have hil := (List.getElem?_eq_some_iff.1 hi).1
        have e1 : us[i]? = some us[i] := List.getElem?_eq_getElem (by omega)
        have e2 : us'[i]? = some us'[i] := List.getElem?_eq_getElem (by omega)
        rw [applyAll_at n.output us m ho1 hlen i t _ hi e1, applyAll_at n.output us' m' ho1 h3 i t _ hi e2]
        exact pair_apply (h4 i t _ _ hi e1 e2) _ _
      · rw [applyAll_other _ _ _ (fun h => hto (zip_keys _ _ h)), applyAll_other _ _ _ (fun h => hto (zip_keys _ _ h))]
        refine hp t fun k hk hko => ?_
        rcases List.mem_cons.1 hk with rfl | hk
        · exact hto hko
        · exact hun k hk hko

theorem numeric_asDims (s : List Nat) : (asDims s).all (fun d => match d with | .var _ => false | .num n => decide (0 ≤ n)) = true := by
  unfold asDims
  rw [List.all_eq_true]
  intro d hd
  obtain ⟨n, _, rfl⟩ := List.mem_map.1 hd
  simp

theorem concrete_asDims (s : List Nat) : concrete (asDims s) = some s := by
  induction s with
  | nil => rfl
  | cons d s ih =>
    show concrete (.num (d : Int) :: asDims s) = _
    rw [concrete, if_neg (by omega), ih]
    simp

end OnnxTool.Batch
