import Verif.Model.Remove
import Verif.Spec.Graph
import Verif.Spec.Topsort
import Verif.Proofs.Relations
import Verif.Proofs.Kahn
/-! `remove_node` keeps the indexes exact. -/
namespace OnnxTool.Remove
open OnnxTool Topsort

/-- erase `x` `k` times -/
def eraseK (x : String) : Nat → List String → List String
  | 0, l => l
  | k + 1, l => eraseK x k (l.erase x)

theorem eraseK_nil (x : String) (k : Nat) : eraseK x k [] = [] := by
  induction k with
  | zero => rfl
  | succ k ih => simpa [eraseK] using ih

theorem eraseK_cons_self (x : String) (k : Nat) (l : List String) : eraseK x (k+1) (x :: l) = eraseK x k l := by
  simp [eraseK]

theorem eraseK_cons_ne {x a : String} (h : a ≠ x) (k : Nat) (l : List String) :
    eraseK x k (a :: l) = a :: eraseK x k l := by
  induction k generalizing l with
  | zero => rfl
  | succ k ih =>
    simp only [eraseK]
    rw [List.erase_cons_tail (by simpa using h)]
    exact ih _

theorem eraseK_filter (x : String) (l : List String) (k : Nat) (h : l.count x ≤ k) :
    eraseK x k l = l.filter (· ≠ x) := by
  induction l generalizing k with
  | nil => simp [eraseK_nil]
  | cons a l ih =>
    by_cases ha : a = x
    · subst ha
      rw [List.count_cons_self] at h
      obtain ⟨k, rfl⟩ : ∃ j, k = j + 1 := ⟨k - 1, by omega⟩
      rw [eraseK_cons_self, ih k (by omega)]
      simp
    · rw [eraseK_cons_ne ha, ih k (by rw [List.count_cons_of_ne (by simpa using ha)] at h; exact h)]
      simp [ha]

/-- `some l`, or `none` when `l` is empty -/
def norm (l : List String) : Option (List String) := if l = [] then none else some l

theorem get?_eraseAt {d : Dict (List String)} (hd : d.keys.Nodup) {f : String → List String}
    (hf : ∀ t, d.get? t = norm (f t)) (k x t : String) :
    (eraseAt d k x).get? t = norm (if k = t then (f t).erase x else f t) := by
  unfold eraseAt
  have hk := hf k
  split
  · rename_i h
    rw [h] at hk
    unfold norm at hk
    split at hk
    · rename_i h0
      by_cases e : k = t
      · subst e; rw [if_pos rfl, h, h0]; rfl
      · rw [if_neg e, hf]
    · cases hk
  · rename_i l h
    rw [h] at hk
    unfold norm at hk
    split at hk
    · cases hk
    · cases hk
      split
      · rename_i h1
        rw [Dict.get?_pop hd]
        by_cases e : k = t
        · subst e; rw [if_pos rfl, if_pos rfl, h1]; rfl
        · rw [if_neg e, if_neg e, hf]
      · rename_i h1
        rw [Dict.get?_set]
        by_cases e : k = t
        · subst e; rw [if_pos rfl, if_pos rfl]; unfold norm; rw [if_neg h1]
        · rw [if_neg e, if_neg e, hf]

theorem nodup_eraseAt {d : Dict (List String)} (hd : d.keys.Nodup) (k x : String) : (eraseAt d k x).keys.Nodup := by
  unfold eraseAt
  split
  · exact hd
  · split
    · exact Dict.nodup_keys_pop _ hd
    · exact Dict.nodup_keys_set _ _ hd

theorem eraseK_erase (x : String) (k : Nat) (l : List String) : eraseK x k (l.erase x) = (eraseK x k l).erase x := by
  induction k generalizing l with
  | zero => rfl
  | succ k ih => exact ih _

/-- invariant of the removal loops: `d` is `f` with `x` erased `count` times for the processed names -/
theorem fold_eraseAt_get? (x : String) : ∀ (ts : List String) {d : Dict (List String)} (_ : d.keys.Nodup)
    {f : String → List String} (_ : ∀ t, d.get? t = norm (f t)) (t : String),
    (ts.foldl (fun d t => eraseAt d t x) d).get? t = norm (eraseK x (ts.count t) (f t))
  | [], d, hd, f, hf, t => by simp [eraseK, hf]
  | a :: ts, d, hd, f, hf, t => by
    rw [List.foldl_cons]
    rw [fold_eraseAt_get? x ts (nodup_eraseAt hd a x) (f := fun t => if a = t then (f t).erase x else f t)
      (get?_eraseAt hd hf a x) t]
    by_cases e : a = t
    · subst e; simp [eraseK]
    · rw [List.count_cons_of_ne (by simpa using e)]; simp [e]

theorem fold_eraseAt_nodup (x : String) : ∀ (ts : List String) {d : Dict (List String)} (_ : d.keys.Nodup),
    (ts.foldl (fun d t => eraseAt d t x) d).keys.Nodup
  | [], _, hd => hd
  | a :: ts, _, hd => fold_eraseAt_nodup x ts (nodup_eraseAt hd a x)

/-- well-formed graph state -/
structure WF (g : Graph) : Prop where
  names : (g.nodemap.map (·.name)).Nodup
  exact_ : g.IndexExact
  ckeys : g.consumedby.keys.Nodup
  pkeys : g.producedby.keys.Nodup
  uniq : UniqueProducers g.nodemap

/-- names of the occurrences of `t`, for inputs or outputs -/
def occ (f : Node → List String) (ns : List Node) (t : String) : List String :=
  ns.flatMap fun n => List.replicate ((f n).count t) n.name

theorem mem_occ {f : Node → List String} {ns : List Node} {t x : String} :
    x ∈ occ f ns t ↔ ∃ n ∈ ns, n.name = x ∧ t ∈ f n := by
  simp only [occ, List.mem_flatMap, List.mem_replicate, ne_eq, List.count_eq_zero, Decidable.not_not]
  constructor
  · rintro ⟨n, hn, h1, h2⟩; exact ⟨n, hn, h2.symm, h1⟩
  · rintro ⟨n, hn, h1, h2⟩; exact ⟨n, hn, h2, h1.symm⟩

theorem occ_filter (f : Node → List String) (ns : List Node) (t x : String) :
    (occ f ns t).filter (· ≠ x) = occ f (popNode ns x) t := by
  induction ns with
  | nil => rfl
  | cons n ns ih =>
    simp only [occ, List.flatMap_cons, List.filter_append] at ih ⊢
    by_cases e : n.name = x
    · have : popNode (n :: ns) x = popNode ns x := by simp [popNode, e]
      rw [this, ← ih]
      simp [e]
    · have : popNode (n :: ns) x = n :: popNode ns x := by simp [popNode, e]
      rw [this, List.flatMap_cons, ← ih]
      simp [e]

theorem occ_count {f : Node → List String} {ns : List Node} (hn : (ns.map (·.name)).Nodup) {n : Node} (hm : n ∈ ns)
    (t : String) : (occ f ns t).count n.name = (f n).count t := by
  induction ns with
  | nil => cases hm
  | cons a ns ih =>
    simp only [List.map_cons, List.nodup_cons] at hn
    simp only [occ, List.flatMap_cons, List.count_append] at ih ⊢
    rcases List.mem_cons.mp hm with rfl | hm
    · have : (ns.flatMap fun m => List.replicate ((f m).count t) m.name).count n.name = 0 := by
        rw [List.count_eq_zero]
        intro h
        obtain ⟨m, hm, h1, h2⟩ := (mem_occ (f := f)).mp h
        exact hn.1 (List.mem_map.mpr ⟨m, hm, h1⟩)
      rw [this, List.count_replicate_self]; rfl
    · have hne : a.name ≠ n.name := fun e => hn.1 (List.mem_map.mpr ⟨n, hm, e.symm⟩)
      rw [ih hn.2 hm, List.count_eq_zero_of_not_mem (a := n.name) (l := List.replicate _ a.name)]
      · omega
      · simp [List.mem_replicate]; intro _; exact fun e => hne e.symm

theorem indexIs_iff {d : Dict (List String)} {f : String → List String} : IndexIs d f ↔ ∀ t, d.get? t = norm (f t) :=
  Iff.rfl

theorem fold_eraseAt_index {f : Node → List String} {ns : List Node} (hn : (ns.map (·.name)).Nodup) {n : Node}
    (hm : n ∈ ns) {d : Dict (List String)} (hd : d.keys.Nodup) (hi : IndexIs d (occ f ns)) :
    IndexIs ((f n).foldl (fun d t => eraseAt d t n.name) d) (occ f (popNode ns n.name)) := by
  intro t
  rw [fold_eraseAt_get? n.name (f n) hd hi t, eraseK_filter _ _ _ (Nat.le_of_eq (occ_count hn hm t)), occ_filter]
  rfl

theorem rmProducers_ok (name : String) : ∀ (ts : List String) (g : Graph) (f : String → List String)
    (_ : g.producedby.keys.Nodup) (_ : ∀ t, g.producedby.get? t = norm (f t))
    (_ : ∀ t, ts.count t ≤ (f t).count name),
    rmProducers name ts g = .ok { g with
      producedby := ts.foldl (fun d t => eraseAt d t name) g.producedby
      output := ts.foldl List.erase g.output }
  | [], g, f, hk, hf, hc => rfl
  | o :: os, g, f, hk, hf, hc => by
    have hpos : 0 < (f o).count name := by have := hc o; rw [List.count_cons_self] at this; omega
    have hmem : name ∈ f o := List.count_pos_iff.mp hpos
    have hg : g.producedby.get? o = some (f o) := by
      rw [hf]; unfold norm; rw [if_neg (List.ne_nil_of_mem hmem)]
    unfold rmProducers
    rw [hg]
    simp only [List.contains_iff_mem.mpr hmem, if_true]
    rw [rmProducers_ok name os _ (fun t => if o = t then (f t).erase name else f t) (nodup_eraseAt hk _ _)
      (get?_eraseAt hk hf o name)]
    · rfl
    · intro t
      have := hc t
      by_cases e : o = t
      · subst e; rw [List.count_cons_self] at this
        simp only [if_true, List.count_erase_self]; omega
      · rw [List.count_cons_of_ne (by simpa using e)] at this
        simpa [e] using this


theorem norm_eq_some {l m : List String} : norm l = some m ↔ l = m ∧ m ≠ [] := by
  unfold norm
  split
  · rename_i h; subst h; simp only [reduceCtorEq, false_iff]; rintro ⟨rfl, h⟩; exact h rfl
  · rename_i h; simp only [Option.some.injEq]; constructor
    · rintro rfl; exact ⟨rfl, h⟩
    · exact fun h => h.1

theorem norm_eq_none {l : List String} : norm l = none ↔ l = [] := by
  unfold norm; split <;> simp_all

/-- what is known about a reported dangling producer -/
structure Dangle (ns : List Node) (out : List String) (cons : Dict (List String)) (ts : List String) (pn : String) :
    Prop where
  ex : ∃ p ∈ ns, p.name = pn ∧ ∃ i ∈ ts, i ∈ p.output ∧
    (∀ o ∈ p.output, cons.get? o = none) ∧ (∀ o ∈ p.output, o ≠ i → o ∉ out)

theorem fold_none (x : String) (ts : List String) {d : Dict (List String)} (hd : d.keys.Nodup) {f : String → List String}
    (hf : ∀ t, d.get? t = norm (f t)) {t : String} (h : d.get? t = none) :
    (ts.foldl (fun d t => eraseAt d t x) d).get? t = none := by
  rw [fold_eraseAt_get? x ts hd hf t]
  rw [hf, norm_eq_none] at h
  rw [h, eraseK_nil]; rfl

theorem rmConsumers_ok (name : String) : ∀ (ts : List String) (g : Graph) (new : List String) (f : String → List String)
    (_ : g.consumedby.keys.Nodup) (_ : ∀ t, g.consumedby.get? t = norm (f t))
    (_ : ∀ t, ts.count t ≤ (f t).count name)
    (_ : ∀ t ∈ ts, ∀ p, g.producedby.get? t = some p → ∃ n ∈ g.nodemap, n.name ≠ name ∧ p = [n.name] ∧ t ∈ n.output)
    (_ : (g.nodemap.map (·.name)).Nodup),
    ∃ d, rmConsumers name ts g new = .ok ({ g with
      consumedby := ts.foldl (fun d t => eraseAt d t name) g.consumedby }, new ++ d) ∧
      ∀ pn ∈ d, Dangle (popNode g.nodemap name) g.output (ts.foldl (fun d t => eraseAt d t name) g.consumedby) ts pn
  | [], g, new, f, hk, hf, hc, hp, hn => ⟨[], by simp [rmConsumers], by simp⟩
  | i :: is, g, new, f, hk, hf, hc, hp, hn => by
    have hpos : 0 < (f i).count name := by have := hc i; rw [List.count_cons_self] at this; omega
    have hmem : name ∈ f i := List.count_pos_iff.mp hpos
    have hg : g.consumedby.get? i = some (f i) := by
      rw [hf]; unfold norm; rw [if_neg (List.ne_nil_of_mem hmem)]
    have hk' := nodup_eraseAt hk i name
    have hf' := get?_eraseAt hk hf i name
    have hdp : ∃ d, danglingProducer g i = .ok d ∧ ∀ pn ∈ d.toList,
        Dangle (popNode g.nodemap name) g.output (eraseAt g.consumedby i name) (i :: is) pn := by
      unfold danglingProducer
      rw [hg]
      cases hpi : g.producedby.get? i with
      | none => exact ⟨none, rfl, by simp⟩
      | some p =>
        obtain ⟨n, hnm, hnn, rfl, hio⟩ := hp i (by simp) p hpi
        simp only
        split
        · rename_i hlen
          rw [show findNode g.nodemap n.name = some n from findNode_mem hn hnm]
          simp only
          split
          · rename_i hall
            refine ⟨some n.name, rfl, ?_⟩
            simp only [Option.toList_some, List.mem_singleton]
            rintro _ rfl
            have hfi : f i = [name] := by
              obtain ⟨a, ha⟩ := List.length_eq_one_iff.mp hlen
              rw [ha] at hmem ⊢; simp at hmem; rw [hmem]
            rw [List.all_eq_true] at hall
            refine ⟨n, by simp [popNode, hnm, hnn], rfl, i, by simp, hio, ?_, ?_⟩
            · intro o ho
              rw [hf']
              by_cases e : i = o
              · subst e; rw [if_pos rfl, hfi]; simp [norm]
              · rw [if_neg e, ← hf]
                have := hall o ho
                simp only [Bool.or_eq_true, beq_iff_eq, Bool.not_eq_true', Bool.or_eq_false_iff, Dict.has,
                  Option.isSome_eq_false_iff, Option.isNone_iff_eq_none] at this
                rcases this with h | h
                · exact absurd h.symm e
                · exact h.1
            · intro o ho hne hout
              have := hall o ho
              simp only [Bool.or_eq_true, beq_iff_eq, Bool.not_eq_true', Bool.or_eq_false_iff] at this
              rcases this with h | h
              · exact hne h
              · have h2 := h.2
                rw [← Bool.not_eq_true, List.contains_iff_mem] at h2
                exact h2 hout
          · exact ⟨none, rfl, by simp⟩
        · exact ⟨none, rfl, by simp⟩
    obtain ⟨d, hd, hdang⟩ := hdp
    obtain ⟨d2, hd2, hdang2⟩ := rmConsumers_ok name is { g with consumedby := eraseAt g.consumedby i name }
      (new ++ d.toList) _ hk' hf' (by
        intro t
        have := hc t
        by_cases e : i = t
        · subst e; rw [List.count_cons_self] at this
          simp only [if_true, List.count_erase_self]; omega
        · rw [List.count_cons_of_ne (by simpa using e)] at this
          simpa [e] using this) (fun t ht => hp t (List.mem_cons_of_mem _ ht)) hn
    refine ⟨d.toList ++ d2, ?_, ?_⟩
    · unfold rmConsumers
      rw [hd]
      simp only
      rw [hd2, List.append_assoc, List.foldl_cons]
    · intro pn hpn
      rcases List.mem_append.mp hpn with h | h
      · obtain ⟨p, hp1, hp2, j, hj, hj2, h3, h4⟩ := (hdang pn h).ex
        exact ⟨p, hp1, hp2, j, hj, hj2, fun o ho => fold_none name is hk' hf' (h3 o ho), h4⟩
      · obtain ⟨p, hp1, hp2, j, hj, hj2, h3, h4⟩ := (hdang2 pn h).ex
        exact ⟨p, hp1, hp2, j, List.mem_cons_of_mem _ hj, hj2, h3, h4⟩

theorem popNode_sub (ns : List Node) (x : String) : (popNode ns x).Sublist ns := List.filter_sublist

theorem mem_popNode {ns : List Node} {x : String} {n : Node} : n ∈ popNode ns x ↔ n ∈ ns ∧ n.name ≠ x := by
  simp [popNode]

theorem occ_length (f : Node → List String) (ns : List Node) (t : String) :
    (occ f ns t).length = (ns.flatMap f).count t := by
  induction ns with
  | nil => rfl
  | cons n ns ih => simp only [occ, List.flatMap_cons, List.length_append, List.count_append, List.length_replicate] at ih ⊢
                    rw [ih]

theorem sub_flatMap {ns ms : List Node} (h : ms.Sublist ns) (f : Node → List String) :
    (ms.flatMap f).Sublist (ns.flatMap f) := by
  induction h with
  | slnil => exact List.Sublist.refl _
  | cons a _ ih => simp only [List.flatMap_cons]; exact ih.trans (List.sublist_append_right _ _)
  | cons_cons a _ ih => simp only [List.flatMap_cons]; exact List.Sublist.append (List.Sublist.refl _) ih

theorem uniq_sub {ns ms : List Node} (h : ms.Sublist ns) (hu : UniqueProducers ns) : UniqueProducers ms := by
  intro n hn t ht
  exact Nat.le_trans ((sub_flatMap h _).count_le t) (hu n (h.subset hn) t ht)

theorem nodup_names_sub {ns ms : List Node} (h : ms.Sublist ns) (hn : (ns.map (·.name)).Nodup) :
    (ms.map (·.name)).Nodup := hn.sublist (h.map _)

/-- One `remove_node` on a well-formed graph. -/
theorem removeOne_ok {g : Graph} (hw : WF g) {nd : Node} (hm : nd ∈ g.nodemap) :
    ∃ g' new, removeOne g nd.name = .ok (g', new) ∧ WF g' ∧ g'.nodemap = popNode g.nodemap nd.name ∧
      g'.output = nd.output.foldl List.erase g.output ∧ g'.input = g.input ∧ g'.initials = g.initials ∧
      g'.dynamics = g.dynamics ∧
      ∀ pn ∈ new, Dangle (popNode g.nodemap nd.name) g'.output g'.consumedby nd.input pn := by
  have hP := hw.exact_.2
  have hC := hw.exact_.1
  have hfind : findNode g.nodemap nd.name = some nd := findNode_mem hw.names hm
  have h1 := rmProducers_ok nd.name nd.output g (producersOf g.nodemap) hw.pkeys hP
    (fun t => Nat.le_of_eq (occ_count (f := Node.output) hw.names hm t).symm)
  have hP' := fold_eraseAt_index (f := Node.output) hw.names hm hw.pkeys hP
  have hC' := fold_eraseAt_index (f := Node.input) hw.names hm hw.ckeys hC
  obtain ⟨d, h2, h3⟩ := rmConsumers_ok nd.name nd.input { g with
      producedby := nd.output.foldl (fun d t => eraseAt d t nd.name) g.producedby
      output := nd.output.foldl List.erase g.output } [] (consumersOf g.nodemap) hw.ckeys hC
    (fun t => Nat.le_of_eq (occ_count (f := Node.input) hw.names hm t).symm)
    (by
      intro t ht p hp
      simp only at hp
      rw [hP' t] at hp
      obtain ⟨rfl, hne⟩ := norm_eq_some.mp hp
      have hlen : (occ Node.output (popNode g.nodemap nd.name) t).length ≤ 1 := by
        rw [occ_length]
        exact Nat.le_trans ((sub_flatMap (popNode_sub _ _) _).count_le t) (hw.uniq nd hm t ht)
      have hlen1 : (occ Node.output (popNode g.nodemap nd.name) t).length = 1 := by
        have := List.length_pos_iff.mpr hne; omega
      obtain ⟨x, hx⟩ := List.length_eq_one_iff.mp hlen1
      have : x ∈ occ Node.output (popNode g.nodemap nd.name) t := by rw [hx]; simp
      obtain ⟨n, hn, hnx, hto⟩ := mem_occ.mp this
      exact ⟨n, (popNode_sub _ _).subset hn, (mem_popNode.mp hn).2, by rw [hx, hnx], hto⟩) hw.names
  refine ⟨{ g with
      producedby := nd.output.foldl (fun d t => eraseAt d t nd.name) g.producedby
      output := nd.output.foldl List.erase g.output
      consumedby := nd.input.foldl (fun d t => eraseAt d t nd.name) g.consumedby
      nodemap := popNode g.nodemap nd.name }, d, ?_, ⟨?_, ⟨hC', hP'⟩, fold_eraseAt_nodup _ _ hw.ckeys, fold_eraseAt_nodup _ _ hw.pkeys, ?_⟩,
    rfl, rfl, rfl, rfl, rfl, ?_⟩
  · unfold removeOne
    rw [hfind]
    simp only
    rw [h1]
    simp only
    rw [h2]
    rfl
  · exact nodup_names_sub (popNode_sub _ _) hw.names
  · exact uniq_sub (popNode_sub _ _) hw.uniq
  · exact h3

end OnnxTool.Remove
