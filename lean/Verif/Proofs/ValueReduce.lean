import Verif.Model.ValueReduce
import Verif.Spec.ValueReduce
import Verif.Proofs.Torch
import Verif.Proofs.KernelsConv
import Mathlib.Data.List.Nodup
import Mathlib.Data.List.GetD
import Mathlib.Tactic.ByContra
import Mathlib.Tactic.Ring
import Mathlib.Tactic.SplitIfs
import Mathlib.Tactic.Linarith
/-! # Reductions -/
namespace OnnxTool.Values
open OnnxTool OnnxTool.Torch OnnxTool.Kernels

variable {V W : Type}

/-! ### Axes -/

theorem npAxis_ok {r : Nat} {a : Int} (h : -(r : Int) ≤ a ∧ a < r) : npAxis r a = .ok (if a < 0 then a + r else a).toNat := by
  unfold npAxis; rw [if_pos h]

theorem npAxis_error {r : Nat} {a : Int} (h : ¬ (-(r : Int) ≤ a ∧ a < r)) : npAxis r a = .error .valueError := by
  unfold npAxis; rw [if_neg h]

theorem npAxesList_ok {r : Nat} {l : List Int} (h : ∀ a ∈ l, -(r : Int) ≤ a ∧ a < r) :
    npAxesList r l = .ok (l.map fun a : Int => (if a < 0 then a + r else a).toNat) := by
  induction l with
  | nil => rfl
  | cons a l ih =>
    unfold npAxesList
    rw [npAxis_ok (h a (by simp)), ih fun b hb => h b (by simp [hb])]
    rfl

theorem npAxesList_error {r : Nat} {l : List Int} (h : ¬ ∀ a ∈ l, -(r : Int) ≤ a ∧ a < r) : npAxesList r l = .error .valueError := by
  induction l with
  | nil => exact absurd (by simp) h
  | cons a l ih =>
    unfold npAxesList
    by_cases ha : -(r : Int) ≤ a ∧ a < r
    · rw [npAxis_ok ha, ih fun hl => h fun b hb => ?_]
      rcases List.mem_cons.1 hb with rfl | hb
      · exact ha
      · exact hl b hb
    · rw [npAxis_error ha]

theorem nodup_toNat {r : Nat} {l : List Int} (h : ∀ a ∈ l, -(r : Int) ≤ a ∧ a < r) :
    (l.map fun a : Int => (if a < 0 then a + r else a).toNat).Nodup ↔ (l.map fun a : Int => if a < 0 then a + r else a).Nodup := by
  have e : (l.map fun a : Int => (if a < 0 then a + r else a).toNat) = (l.map fun a : Int => if a < 0 then a + r else a).map Int.toNat := by
    rw [List.map_map]; rfl
  rw [e]
  constructor
  · exact List.Nodup.of_map _
  · intro hn
    refine hn.map_on fun x hx y hy hxy => ?_
    obtain ⟨a, ha, rfl⟩ := List.mem_map.1 hx
    obtain ⟨b, hb, rfl⟩ := List.mem_map.1 hy
    have h1 := h a ha
    have h2 := h b hb
    split_ifs at hxy ⊢ <;> omega

theorem npAxes_ok {r : Nat} {l : List Int} (h : GoodAxes r l) : ∃ ks, npAxes r l = .ok ks ∧ ∀ k, k ∈ ks ↔ Listed r l k := by
  refine ⟨l.map fun a : Int => (if a < 0 then a + r else a).toNat, ?_, fun k => ?_⟩
  · unfold npAxes
    rw [npAxesList_ok h.1]
    exact if_pos ((nodup_toNat h.1).2 h.2)
  · rw [List.mem_map]
    constructor
    · rintro ⟨a, ha, rfl⟩
      refine ⟨a, ha, ?_⟩
      have := h.1 a ha
      split_ifs <;> omega
    · rintro ⟨a, ha, he⟩
      exact ⟨a, ha, by omega⟩

theorem npAxes_error {r : Nat} {l : List Int} (h : ¬ GoodAxes r l) : npAxes r l = .error .valueError := by
  unfold npAxes
  by_cases h1 : ∀ a ∈ l, -(r : Int) ≤ a ∧ a < r
  · rw [npAxesList_ok h1]
    exact if_neg fun hn => h ⟨h1, (nodup_toNat h1).1 hn⟩
  · rw [npAxesList_error h1]

/-! ### Shape -/

theorem filter_range_succ (p : Nat → Bool) (n : Nat) :
    (List.range (n + 1)).filter p = (if p 0 then [0] else []) ++ ((List.range n).filter fun j => p (j + 1)).map (· + 1) := by
  rw [List.range_succ_eq_map, List.filter_cons]
  have : ((List.range n).map Nat.succ).filter p = ((List.range n).filter fun j => p (j + 1)).map (· + 1) := by
    rw [List.filter_map]; rfl
  rw [this]
  cases p 0 <;> rfl

theorem reducedShape_keep (ax : List Nat) : ∀ (s : List Nat) (i : Nat),
    reducedShape ax true i s = (List.range s.length).map fun k => if i + k ∈ ax then 1 else s.getD k 0 := by
  intro s
  induction s with
  | nil => intro i; rfl
  | cons d s ih =>
    intro i
    rw [reducedShape, ih (i + 1), List.length_cons, List.range_succ_eq_map, List.map_cons, List.map_map]
    have e : (List.range s.length).map (fun k => if i + 1 + k ∈ ax then 1 else s.getD k 0) =
        (List.range s.length).map ((fun k => if i + k ∈ ax then 1 else (d :: s).getD k 0) ∘ Nat.succ) := by
      refine List.map_congr_left fun k _ => ?_
      simp only [Function.comp_apply, List.getD_cons_succ, Nat.succ_eq_add_one]
      rw [show i + 1 + k = i + (k + 1) by omega]
    rw [e]
    simp only [if_true, Nat.add_zero, List.getD_cons_zero]
    split_ifs <;> rfl

theorem reducedShape_drop (ax : List Nat) : ∀ (s : List Nat) (i : Nat),
    reducedShape ax false i s = ((List.range s.length).filter fun k => decide (i + k ∉ ax)).map fun k => s.getD k 0 := by
  intro s
  induction s with
  | nil => intro i; rfl
  | cons d s ih =>
    intro i
    rw [reducedShape, ih (i + 1), List.length_cons, filter_range_succ, List.map_append, List.map_map]
    have e : ((List.range s.length).filter fun k => decide (i + 1 + k ∉ ax)).map (fun k => s.getD k 0) =
        ((List.range s.length).filter fun k => decide (i + (k + 1) ∉ ax)).map ((fun k => (d :: s).getD k 0) ∘ (· + 1)) := by
      have : (fun k => decide (i + 1 + k ∉ ax)) = fun k => decide (i + (k + 1) ∉ ax) := by
        funext k; rw [show i + 1 + k = i + (k + 1) by omega]
      rw [this]
      refine List.map_congr_left fun k _ => ?_
      simp only [Function.comp_apply, List.getD_cons_succ]
    rw [e]
    by_cases hi : i ∈ ax
    · rw [if_pos hi]; simp [hi]
    · rw [if_neg hi]; simp [hi]

/-! ### Sources -/

/-- where a kept axis is found, positions counted from `i` -/
def keptFrom (ax : List Nat) (keep : Bool) (i k : Nat) : Nat :=
  if keep then k else ((List.range k).filter fun j => decide (i + j ∉ ax)).length

theorem keptFrom_succ (ax : List Nat) (keep : Bool) (i k : Nat) :
    keptFrom ax keep i (k + 1) = if i ∈ ax ∧ keep = false then keptFrom ax keep (i + 1) k else keptFrom ax keep (i + 1) k + 1 := by
  unfold keptFrom
  cases keep with
  | true => simp
  | false =>
    have : (fun j => decide (i + (j + 1) ∉ ax)) = fun k => decide (i + 1 + k ∉ ax) := by
      funext k; rw [show i + 1 + k = i + (k + 1) by omega]
    simp only [Bool.false_eq_true, if_false]
    rw [filter_range_succ, this]
    by_cases hi : i ∈ ax
    · simp [hi]
    · simp [hi, Nat.add_comm]

theorem keptFrom_zero (ax : List Nat) (keep : Bool) (i : Nat) : keptFrom ax keep i 0 = 0 := by
  unfold keptFrom; cases keep <;> rfl

theorem headD_getD (l : List Nat) : l.headD 0 = l.getD 0 0 := by cases l <;> rfl
theorem tail_getD (l : List Nat) (k : Nat) : l.tail.getD k 0 = l.getD (k + 1) 0 := by cases l <;> rfl

theorem mem_fibre (ax : List Nat) (keep : Bool) : ∀ (s : List Nat) (i : Nat) (idx src : List Nat),
    InB (reducedShape ax keep i s) idx → (src ∈ fibre ax keep i s idx ↔ InB s src ∧ ∀ k, k < s.length → i + k ∉ ax → src.getD k 0 = idx.getD (keptFrom ax keep i k) 0) := by
  intro s
  induction s with
  | nil =>
    intro i idx src _
    simp only [fibre, List.mem_singleton, List.length_nil]
    constructor
    · rintro rfl; exact ⟨trivial, fun k hk => absurd hk (by omega)⟩
    · rintro ⟨h, _⟩
      cases src with
      | nil => rfl
      | cons a l => exact h.elim
  | cons d s ih =>
    intro i idx src hidx
    by_cases hi : i ∈ ax
    · have hsub : InB (reducedShape ax keep (i + 1) s) (if keep then idx.tail else idx) := by
        rw [reducedShape, if_pos hi] at hidx
        cases keep with
        | true =>
          simp only [if_true] at hidx ⊢
          cases idx with
          | nil => exact hidx.elim
          | cons a l => exact hidx.2
        | false => simpa using hidx
      rw [fibre, if_pos hi, List.mem_flatMap]
      constructor
      · rintro ⟨j, hj, hm⟩
        obtain ⟨t, ht, rfl⟩ := List.mem_map.1 hm
        obtain ⟨h1, h2⟩ := (ih (i + 1) _ t hsub).1 ht
        refine ⟨⟨List.mem_range.1 hj, h1⟩, fun k hk hkx => ?_⟩
        cases k with
        | zero => exact absurd hi hkx
        | succ k =>
          rw [List.getD_cons_succ, h2 k (by simpa using hk) (by rwa [show i + 1 + k = i + (k + 1) by omega]), keptFrom_succ]
          cases keep with
          | true => simp only [if_true]; rw [tail_getD]; simp
          | false => simp [hi]
      · rintro ⟨h1, h2⟩
        cases src with
        | nil => exact h1.elim
        | cons j t =>
          refine ⟨j, List.mem_range.2 h1.1, List.mem_map.2 ⟨t, (ih (i + 1) _ t hsub).2 ⟨h1.2, fun k hk hkx => ?_⟩, rfl⟩⟩
          have := h2 (k + 1) (by simpa using hk) (by rwa [show i + (k + 1) = i + 1 + k by omega])
          rw [List.getD_cons_succ, keptFrom_succ] at this
          rw [this]
          cases keep with
          | true => simp only [if_true]; rw [tail_getD]; simp
          | false => simp [hi]
    · rw [reducedShape, if_neg hi] at hidx
      cases idx with
      | nil => exact hidx.elim
      | cons a l =>
        rw [fibre, if_neg hi, List.mem_map]
        simp only [List.tail_cons, List.headD_cons]
        constructor
        · rintro ⟨t, ht, rfl⟩
          obtain ⟨h1, h2⟩ := (ih (i + 1) _ t hidx.2).1 ht
          refine ⟨⟨hidx.1, h1⟩, fun k hk hkx => ?_⟩
          cases k with
          | zero => rw [keptFrom_zero]; rfl
          | succ k =>
            rw [List.getD_cons_succ, h2 k (by simpa using hk) (by rwa [show i + 1 + k = i + (k + 1) by omega]), keptFrom_succ, if_neg (by simp [hi]),
              List.getD_cons_succ]
        · rintro ⟨h1, h2⟩
          cases src with
          | nil => exact h1.elim
          | cons j t =>
            have h0 := h2 0 (by simp) (by simpa using hi)
            rw [keptFrom_zero] at h0
            refine ⟨t, (ih (i + 1) _ t hidx.2).2 ⟨h1.2, fun k hk hkx => ?_⟩, ?_⟩
            · have := h2 (k + 1) (by simpa using hk) (by rwa [show i + (k + 1) = i + 1 + k by omega])
              rwa [List.getD_cons_succ, keptFrom_succ, if_neg (by simp [hi]), List.getD_cons_succ] at this
            · simp only [List.getD_cons_zero] at h0; rw [h0]

theorem fibre_nodup (ax : List Nat) (keep : Bool) : ∀ (s : List Nat) (i : Nat) (idx : List Nat), (fibre ax keep i s idx).Nodup := by
  intro s
  induction s with
  | nil => intro i idx; simp [fibre]
  | cons d s ih =>
    intro i idx
    rw [fibre]
    split_ifs with hi hk
    · refine List.nodup_flatMap.2 ⟨fun j _ => (ih _ _).map (fun a b h => by injection h), ?_⟩
      refine List.nodup_range.imp ?_
      intro a b hab
      rw [Function.onFun, List.disjoint_left]
      intro t ht ht'
      obtain ⟨u, _, rfl⟩ := List.mem_map.1 ht
      obtain ⟨v, _, hv⟩ := List.mem_map.1 ht'
      injection hv with hv
      exact hab hv.symm
    · refine List.nodup_flatMap.2 ⟨fun j _ => (ih _ _).map (fun a b h => by injection h), ?_⟩
      refine List.nodup_range.imp ?_
      intro a b hab
      rw [Function.onFun, List.disjoint_left]
      intro t ht ht'
      obtain ⟨u, _, rfl⟩ := List.mem_map.1 ht
      obtain ⟨v, _, hv⟩ := List.mem_map.1 ht'
      injection hv with hv
      exact hab hv.symm
    · exact (ih _ _).map (fun a b h => by injection h)

theorem fibre_length (ax : List Nat) (keep : Bool) : ∀ (s : List Nat) (i : Nat) (idx : List Nat), (fibre ax keep i s idx).length = fibreSize ax i s := by
  intro s
  induction s with
  | nil => intro i idx; rfl
  | cons d s ih =>
    intro i idx
    rw [fibre, fibreSize]
    by_cases hi : i ∈ ax
    · rw [if_pos hi, if_pos hi, List.length_flatMap]
      have : ((List.range d).map fun j => ((fibre ax keep (i + 1) s (if keep then idx.tail else idx)).map (j :: ·)).length) = List.replicate d (fibreSize ax (i + 1) s) := by
        rw [← List.length_range (n := d), ← List.map_const', List.length_range]
        refine List.map_congr_left fun j _ => ?_
        rw [List.length_map, ih]
      rw [this, List.sum_replicate_nat]
    · rw [if_neg hi, if_neg hi, List.length_map, ih]

/-- a reduction over the axes `ax` combines exactly the right elements -/
theorem reduceOver_ok (red : Nat → Prop) [DecidablePred red] (ax : List Nat) (x : Tensor V) (hred : ∀ k, k < x.shape.length → (k ∈ ax ↔ red k)) (keep : Bool) (op : List V → W)
    (R : List V → W → Prop) (hR : ∀ l : List V, l.length = fibreSize ax 0 x.shape → R l (op l)) :
    IsReduce red keep R x (reduceOver ax keep op x) := by
  have hsh : reducedShape ax keep 0 x.shape = if keep then (List.range x.shape.length).map (fun k => if red k then 1 else x.shape.getD k 0)
    else ((List.range x.shape.length).filter fun k => decide (¬ red k)).map fun k => x.shape.getD k 0 := by
    cases keep with
    | true =>
      rw [reducedShape_keep, if_pos rfl]
      refine List.map_congr_left fun k hk => ?_
      have := hred k (List.mem_range.1 hk)
      rw [Nat.zero_add]
      by_cases h : k ∈ ax
      · rw [if_pos h, if_pos (this.1 h)]
      · rw [if_neg h, if_neg (fun h' => h (this.2 h'))]
    | false =>
      rw [reducedShape_drop, if_neg (by decide)]
      congr 1
      refine List.filter_congr fun k hk => ?_
      rw [Nat.zero_add, decide_eq_decide, hred k (List.mem_range.1 hk)]
  refine ⟨hsh, fun idx hidx => ⟨fibre ax keep 0 x.shape idx, fibre_nodup _ _ _ _ _, fun src => ?_, hR _ ?_⟩⟩
  · rw [mem_fibre ax keep x.shape 0 idx src hidx]
    have hpos : ∀ k, k < x.shape.length → keptFrom ax keep 0 k = keptPos red keep k := by
      intro k hk
      unfold keptFrom keptPos
      cases keep with
      | true => rfl
      | false =>
        rw [if_neg (by decide), if_neg (by decide)]
        congr 1
        refine List.filter_congr fun j hj => ?_
        have := List.mem_range.1 hj
        rw [Nat.zero_add, decide_eq_decide, hred j (by omega)]
    constructor
    · rintro ⟨h1, h2⟩
      exact ⟨h1, fun k hk hr => by rw [← hpos k hk]; exact h2 k hk (by rw [Nat.zero_add, hred k hk]; exact hr)⟩
    · rintro ⟨h1, h2⟩
      exact ⟨h1, fun k hk hr => by rw [hpos k hk]; exact h2 k hk (by rwa [Nat.zero_add, hred k hk] at hr)⟩
  · rw [List.length_map, fibre_length]

theorem foldl_min (l : List ℚ) : ∀ a, l.foldl min a ≤ a ∧ (∀ b ∈ l, l.foldl min a ≤ b) ∧ (l.foldl min a = a ∨ l.foldl min a ∈ l) := by
  induction l with
  | nil => intro a; exact ⟨le_refl _, (fun b hb => absurd hb (by simp)), Or.inl rfl⟩
  | cons c l ih =>
    intro a
    obtain ⟨h1, h2, h3⟩ := ih (min a c)
    rw [List.foldl_cons]
    refine ⟨le_trans h1 (min_le_left _ _), fun b hb => ?_, ?_⟩
    · rcases List.mem_cons.1 hb with rfl | hb
      · exact le_trans h1 (min_le_right _ _)
      · exact h2 b hb
    · rcases h3 with h3 | h3
      · rcases min_choice a c with h | h
        · exact Or.inl (h3.trans h)
        · exact Or.inr (by rw [h3, h]; simp)
      · exact Or.inr (List.mem_cons_of_mem _ h3)

/-! ### One axis -/

theorem fibre_none (ax : List Nat) (keep : Bool) : ∀ (s : List Nat) (i : Nat) (idx : List Nat), (∀ j, j < s.length → i + j ∉ ax) → InB s idx →
    fibre ax keep i s idx = [idx] := by
  intro s
  induction s with
  | nil =>
    intro i idx _ hi
    cases idx with
    | nil => rfl
    | cons a l => exact hi.elim
  | cons d s ih =>
    intro i idx h hi
    cases idx with
    | nil => exact hi.elim
    | cons a l =>
      rw [fibre, if_neg (by simpa using h 0 (by simp))]
      rw [show (a :: l).tail = l from rfl, ih (i + 1) l (fun j hj => by rw [show i + 1 + j = i + (j + 1) by omega]; exact h (j + 1) (by simpa using hj)) hi.2]
      rfl

theorem fibre_one (keep : Bool) : ∀ (s : List Nat) (i k : Nat) (src : List Nat), k < s.length → InB s src →
    fibre [i + k] keep i s (if keep then src.set k 0 else src.eraseIdx k) = (List.range (s.getD k 0)).map fun j => src.set k j := by
  intro s
  induction s with
  | nil => intro i k src hk; simp at hk
  | cons d s ih =>
    intro i k src hk hi
    cases src with
    | nil => exact hi.elim
    | cons a l =>
      cases k with
      | zero =>
        have e : (if keep then (if keep then (a :: l).set 0 0 else (a :: l).eraseIdx 0).tail else (if keep then (a :: l).set 0 0 else (a :: l).eraseIdx 0)) = l := by
          cases keep <;> rfl
        rw [fibre, if_pos (by simp), e, fibre_none _ _ s (i + 1) l (fun j _ => by simp; omega) hi.2]
        simp only [List.map_cons, List.map_nil, List.getD_cons_zero, List.set_cons_zero]
        rw [← List.map_eq_flatMap]
      | succ k =>
        have e1 : (if keep then (a :: l).set (k + 1) 0 else (a :: l).eraseIdx (k + 1)).tail = if keep then l.set k 0 else l.eraseIdx k := by
          cases keep <;> rfl
        have e2 : (if keep then (a :: l).set (k + 1) 0 else (a :: l).eraseIdx (k + 1)).headD 0 = a := by
          cases keep <;> rfl
        have := ih (i + 1) k l (by simpa using hk) hi.2
        rw [show i + 1 + k = i + (k + 1) by omega] at this
        rw [fibre, if_neg (by simp), e1, e2, this, List.map_map]
        rfl

theorem reducedShape_none (ax : List Nat) (keep : Bool) : ∀ (s : List Nat) (i : Nat), (∀ j, j < s.length → i + j ∉ ax) → reducedShape ax keep i s = s := by
  intro s
  induction s with
  | nil => intro i _; rfl
  | cons d s ih =>
    intro i h
    rw [reducedShape, if_neg (by simpa using h 0 (by simp)),
      ih (i + 1) (fun j hj => by rw [show i + 1 + j = i + (j + 1) by omega]; exact h (j + 1) (by simpa using hj))]

theorem reducedShape_one (keep : Bool) : ∀ (s : List Nat) (i k : Nat), k < s.length →
    reducedShape [i + k] keep i s = if keep then s.set k 1 else s.eraseIdx k := by
  intro s
  induction s with
  | nil => intro i k hk; simp at hk
  | cons d s ih =>
    intro i k hk
    cases k with
    | zero =>
      rw [reducedShape, if_pos (by simp), reducedShape_none _ _ s (i + 1) (fun j _ => by simp; omega)]
      cases keep <;> rfl
    | succ k =>
      have := ih (i + 1) k (by simpa using hk)
      rw [show i + 1 + k = i + (k + 1) by omega] at this
      rw [reducedShape, if_neg (by simp), this]
      cases keep <;> rfl

theorem argmaxFrom_ok (L : List ℚ) : ∀ (l pre : List ℚ) (best : ℚ) (bi : Nat), L = pre ++ l → bi < pre.length → L.getD bi 0 = best →
    (∀ j, j < pre.length → L.getD j 0 ≤ best ∧ (j < bi → L.getD j 0 < best)) →
    argmaxFrom best bi pre.length l < L.length ∧ ∀ j, j < L.length →
      L.getD j 0 ≤ L.getD (argmaxFrom best bi pre.length l) 0 ∧ (j < argmaxFrom best bi pre.length l → L.getD j 0 < L.getD (argmaxFrom best bi pre.length l) 0) := by
  intro l
  induction l with
  | nil =>
    intro pre best bi hL hbi hb h
    rw [List.append_nil] at hL
    subst hL
    rw [argmaxFrom, hb]
    exact ⟨hbi, h⟩
  | cons v l ih =>
    intro pre best bi hL hbi hb h
    have hv : L.getD pre.length 0 = v := by
      rw [hL, List.getD_append_right _ _ _ _ (Nat.le_refl _), Nat.sub_self]; rfl
    have hL' : L = (pre ++ [v]) ++ l := by rw [hL, List.append_assoc]; rfl
    have hlen : (pre ++ [v]).length = pre.length + 1 := by simp
    rw [argmaxFrom]
    split_ifs with hc
    · have := ih (pre ++ [v]) v pre.length hL' (by omega) hv (fun j hj => by
        rcases Nat.lt_or_ge j pre.length with hj' | hj'
        · have := (h j hj').1
          exact ⟨le_of_lt (lt_of_le_of_lt this hc), fun _ => lt_of_le_of_lt this hc⟩
        · have : j = pre.length := by omega
          subst this
          exact ⟨le_of_eq hv, fun h' => absurd h' (by omega)⟩)
      rwa [hlen] at this
    · have := ih (pre ++ [v]) best bi hL' (by omega) hb (fun j hj => by
        rcases Nat.lt_or_ge j pre.length with hj' | hj'
        · exact h j hj'
        · have : j = pre.length := by omega
          subst this
          exact ⟨by rw [hv]; exact not_lt.1 hc, fun h' => absurd h' (by omega)⟩)
      rwa [hlen] at this

theorem inb_set {s idx : List Nat} (h : InB s idx) {k j : Nat} (hj : j < s.getD k 0) : InB s (idx.set k j) := by
  rw [inb_iff] at h ⊢
  refine ⟨by rw [List.length_set]; exact h.1, fun m hm => ?_⟩
  rcases Nat.decEq k m with hkm | hkm
  · rw [List.getD_eq_getElem _ _ (by rw [List.length_set]; omega), List.getElem_set_ne hkm, ← List.getD_eq_getElem _ 0]
    exact h.2 m hm
  · subst hkm
    rw [List.getD_eq_getElem _ _ (by rw [List.length_set]; omega), List.getElem_set_self]
    exact hj

theorem argMax_ok {axis : Int} {x : Tensor ℚ} (keepdims : Int) (h : -(x.shape.length : Int) ≤ axis ∧ axis < x.shape.length) (k : Nat)
    (hk : (k : Int) = if axis < 0 then axis + x.shape.length else axis) (hd : 0 < x.shape.getD k 0) :
    ∃ y, argMaxValue axis keepdims x = .ok y ∧ IsArgMax k (keepdims == 1) x y := by
  have hkk : (if axis < 0 then axis + x.shape.length else axis).toNat = k := by omega
  have hkl : k < x.shape.length := by
    split_ifs at hk <;> omega
  refine ⟨_, by unfold argMaxValue; rw [npAxis_ok h, hkk]; exact if_neg (by omega), ?_, fun src hsrc m hm => ?_⟩
  · have := reducedShape_one (keepdims == 1) x.shape 0 k hkl
    rw [Nat.zero_add] at this
    exact this
  · have hf := fibre_one (keepdims == 1) x.shape 0 k src hkl hsrc
    rw [Nat.zero_add] at hf
    simp only [reduceOver, hf, List.map_map] at hm
    have hget : ∀ j, j < x.shape.getD k 0 → ((List.range (x.shape.getD k 0)).map (x.at ∘ fun j => src.set k j)).getD j 0 = x.at (src.set k j) := by
      intro j hj
      rw [List.getD_eq_getElem _ _ (by rw [List.length_map, List.length_range]; exact hj), List.getElem_map, List.getElem_range]
      rfl
    have hlen : ((List.range (x.shape.getD k 0)).map (x.at ∘ fun j => src.set k j)).length = x.shape.getD k 0 := by simp
    generalize hL : (List.range (x.shape.getD k 0)).map (x.at ∘ fun j => src.set k j) = L at hm hget hlen
    cases L with
    | nil => rw [List.length_nil] at hlen; omega
    | cons a l =>
      have := argmaxFrom_ok (a :: l) l [a] a 0 rfl (by simp) rfl (fun j hj => by
        have : j = 0 := by simpa using hj
        subst this
        exact ⟨le_refl _, fun h => absurd h (by omega)⟩)
      simp only [List.length_singleton] at this
      have hm : m = argmaxFrom a 0 1 l := hm
      rw [← hm, hlen] at this
      have hs : src.getD k 0 < x.shape.getD k 0 := (inb_iff.1 hsrc).2 k hkl
      have hself : src.set k (src.getD k 0) = src := by
        rw [List.getD_eq_getElem _ _ (by have := inb_length hsrc; omega), List.set_getElem_self]
      have h2 := this.2 _ hs
      rw [hget _ hs, hget _ this.1, hself] at h2
      exact ⟨this.1, h2⟩

/-! ### CumSum -/

theorem cumSum_ok {axis : Int} {x : Tensor ℚ} (h : -(x.shape.length : Int) ≤ axis ∧ axis < x.shape.length) (k : Nat)
    (hk : (k : Int) = if axis < 0 then axis + x.shape.length else axis) :
    ∃ y, cumSumValue 0 0 axis x = .ok y ∧ IsCumSum k x y := by
  have hkk : (if axis < 0 then axis + x.shape.length else axis).toNat = k := by omega
  have hkl : k < x.shape.length := by
    split_ifs at hk <;> omega
  refine ⟨⟨x.shape, fun idx => ((List.range (idx.getD k 0 + 1)).map fun j => x.at (idx.set k j)).sum⟩, ?_, rfl, fun idx hi h0 => ?_, fun idx hi h0 => ?_⟩
  · unfold cumSumValue; rw [if_pos ⟨rfl, rfl⟩, npAxis_ok h, hkk]
  · have hself : idx.set k (idx.getD k 0) = idx := by
      rw [List.getD_eq_getElem _ _ (by have := inb_length hi; omega), List.set_getElem_self]
    rw [h0] at hself
    simp only [h0]
    simp [hself]
  · have hself : idx.set k (idx.getD k 0) = idx := by
      rw [List.getD_eq_getElem _ _ (by have := inb_length hi; omega), List.set_getElem_self]
    have hg : (idx.set k (idx.getD k 0 - 1)).getD k 0 = idx.getD k 0 - 1 := by
      rw [List.getD_eq_getElem _ _ (by rw [List.length_set]; have := inb_length hi; omega), List.getElem_set_self]
    simp only [hg, Nat.sub_add_cancel h0, List.set_set]
    rw [List.range_succ, List.map_append, List.sum_append, List.map_singleton, List.sum_singleton, hself]

/-! ### NonZero -/

theorem allIdx_inb {s idx : List Nat} : idx ∈ allIdx s ↔ InB s idx := by
  unfold allIdx
  rw [List.mem_map]
  constructor
  · rintro ⟨n, hn, rfl⟩; exact unravel_inb (List.mem_range.1 hn)
  · intro h; exact ⟨ravel s idx, List.mem_range.2 (ravel_lt h), unravel_ravel h⟩

theorem allIdx_sorted (s : List Nat) : (allIdx s).Pairwise fun a b => ravel s a < ravel s b := by
  unfold allIdx
  rw [List.pairwise_map]
  refine (List.pairwise_lt_range (n := numel s)).imp_of_mem fun {a b} ha hb hab => ?_
  rw [ravel_unravel (List.mem_range.1 ha), ravel_unravel (List.mem_range.1 hb)]
  exact hab

theorem column_columns {r : Nat} {l : List (List Nat)} {m : Nat} (hm : m < l.length) (hl : ∀ i ∈ l, i.length = r) : column (columns r l) r m = l[m] := by
  have hlen := hl l[m] (List.getElem_mem hm)
  unfold column
  refine List.ext_getElem (by simp [hlen]) fun k h1 h2 => ?_
  have e : (columns r l).at [k, m] = (l.getD m []).getD k 0 := rfl
  rw [List.getElem_map, List.getElem_range, e, List.getD_eq_getElem _ _ hm, List.getD_eq_getElem _ _ h2]

theorem nonZero_ok (x : Tensor ℚ) (hr : x.shape ≠ []) (h : numel x.shape = 0 ∨ ∃ idx, InB x.shape idx ∧ x.at idx ≠ 0) : ∃ n, IsNonZero x n (nonZeroValue x) := by
  have hall : ∀ idx, InB x.shape idx → x.at idx ≠ 0 → idx ∈ (allIdx x.shape).filter fun i => decide (x.at i ≠ 0) := by
    intro idx hi hx
    exact List.mem_filter.2 ⟨allIdx_inb.2 hi, by simpa using hx⟩
  have hone : ∀ idx ∈ (allIdx x.shape).filter fun i => decide (x.at i ≠ 0), InB x.shape idx ∧ x.at idx ≠ 0 := by
    intro idx hi
    have := List.mem_filter.1 hi
    exact ⟨allIdx_inb.1 this.1, by simpa using this.2⟩
  have hval : nonZeroValue x = columns x.shape.length ((allIdx x.shape).filter fun i => decide (x.at i ≠ 0)) := by
    unfold nonZeroValue
    simp only []
    split_ifs with hc
    · rcases h with h | ⟨idx, hi, hx⟩
      · have : allIdx x.shape = [] := by unfold allIdx; rw [h]; rfl
        rw [this]; rfl
      · exfalso
        have h1 := List.length_pos_of_mem (hall idx hi hx)
        have h2 := List.length_pos_iff.2 hr
        have := Nat.mul_pos h2 h1
        omega
    · rfl
  rw [hval]
  generalize hL : (allIdx x.shape).filter (fun i => decide (x.at i ≠ 0)) = L at hall hone
  have hlen : ∀ i ∈ L, i.length = x.shape.length := fun i hi => inb_length (hone i hi).1
  refine ⟨L.length, rfl, fun m hm => ?_, fun idx hi hx => ?_, fun m m' hmm hm' => ?_⟩
  · rw [column_columns hm hlen]; exact hone _ (List.getElem_mem hm)
  · obtain ⟨m, hm, he⟩ := List.getElem_of_mem (hall idx hi hx)
    exact ⟨m, hm, by rw [column_columns hm hlen, he]⟩
  · rw [column_columns (by omega) hlen, column_columns hm' hlen]
    have hs : L.Pairwise fun a b => ravel x.shape a < ravel x.shape b := by rw [← hL]; exact (allIdx_sorted x.shape).filter _
    exact List.pairwise_iff_getElem.1 hs m m' (by omega) hm' hmm

/-! ### OneHot -/

theorem fmod_small {v : Int} {depth j : Nat} (hv : -(depth : Int) ≤ v ∧ v < depth) (hj : j < depth) :
    (j : Int) = v.fmod depth ↔ v = j ∨ v = (j : Int) - depth := by
  have h1 := Int.mul_fdiv_add_fmod v depth
  have h2 := Int.fmod_nonneg_of_pos v (show (0 : Int) < depth by omega)
  have h3 := Int.fmod_lt_of_pos v (show (0 : Int) < depth by omega)
  generalize v.fmod depth = m at *
  generalize v.fdiv depth = q at *
  have hq : q = 0 ∨ q = -1 := by
    have hq1 : q < 1 := by
      by_contra hc
      have : (depth : Int) * 1 ≤ depth * q := Int.mul_le_mul_of_nonneg_left (by omega) (by omega)
      omega
    have hq2 : -2 < q := by
      by_contra hc
      have : (depth : Int) * q ≤ depth * (-2) := Int.mul_le_mul_of_nonneg_left (by omega) (by omega)
      omega
    omega
  rcases hq with rfl | rfl <;> omega

theorem oneHot_ok (axis : Int) (x : Tensor Int) (depth : Nat) (vals : Tensor ℚ) (h : -((x.shape.length : Int) + 1) ≤ axis ∧ axis ≤ x.shape.length) (k : Nat)
    (hk : (k : Int) = if axis < 0 then axis + (x.shape.length + 1) else axis)
    (hin : ∀ idx, InB x.shape idx → -(depth : Int) ≤ x.at idx ∧ x.at idx < depth) :
    IsOneHot k depth 1 0 x (oneHotValue axis x depth vals) := by
  have hk' : (if (if axis < 0 then axis + ((x.shape.length : Int) + 1) else axis) < 0 then
      max 0 ((if axis < 0 then axis + ((x.shape.length : Int) + 1) else axis) + x.shape.length)
      else min (if axis < 0 then axis + ((x.shape.length : Int) + 1) else axis) x.shape.length).toNat = k := by
    rw [← hk]
    have : (k : Int) ≤ x.shape.length := by split_ifs at hk <;> omega
    rw [if_neg (by omega), min_eq_left this]
    rfl
  refine ⟨?_, fun l j r hl hi hj => ?_⟩
  · unfold oneHotValue oneHot
    simp only [hk']
  · unfold oneHotValue oneHot
    simp only [hk']
    have e1 : (l ++ j :: r).getD k 0 = j := by rw [← hl, List.getD_append_right _ _ _ _ (Nat.le_refl _), Nat.sub_self]; rfl
    have e2 : (l ++ j :: r).eraseIdx k = l ++ r := by rw [← hl, List.eraseIdx_append_of_length_le (Nat.le_refl _), Nat.sub_self]; rfl
    rw [e1, e2]
    have := fmod_small (hin _ hi) hj
    by_cases hc : (j : Int) = (x.at (l ++ r)).fmod depth
    · rw [if_pos hc, if_pos (this.1 hc)]
    · rw [if_neg hc, if_neg (fun h' => hc (this.2 h'))]

end OnnxTool.Values
