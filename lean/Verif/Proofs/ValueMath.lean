import Verif.Model.ValueMath
import Verif.Spec.ValueMath
import Verif.Proofs.KernelsCut
import Verif.Props.Broadcast
import Mathlib.Tactic.Ring
import Mathlib.Tactic.Push
import Mathlib.Tactic.Linarith
import Mathlib.Tactic.NormNum
/-!
# Value inference: broadcasting arithmetic
-/
namespace OnnxTool.Values
open OnnxTool OnnxTool.Torch OnnxTool.Shape OnnxTool.Kernels

variable {U V W : Type}

/-! ### numpy broadcasting -/

/-- entry of a reversed shape, 1 beyond the end -/
theorem npMerge_iff : ∀ (s t r : List Nat), npMerge s t = some r ↔
    r.length = max s.length t.length ∧ ∀ i, i < r.length →
      ((s[i]?.getD 1 = 1 ∨ s[i]?.getD 1 = r[i]?.getD 1) ∧ (t[i]?.getD 1 = 1 ∨ t[i]?.getD 1 = r[i]?.getD 1) ∧
        (r[i]?.getD 1 = 1 ∨ s[i]?.getD 1 = r[i]?.getD 1 ∨ t[i]?.getD 1 = r[i]?.getD 1)) := by
  intro s
  have ext : ∀ s r : List Nat, r.length = s.length → (∀ i, i < r.length → s[i]?.getD 1 = r[i]?.getD 1) → s = r := by
    intro s r hl h
    refine List.ext_getElem hl.symm fun i h1 h2 => ?_
    have := h i h2
    rwa [List.getElem?_eq_getElem h1, List.getElem?_eq_getElem h2, Option.getD_some, Option.getD_some] at this
  have hnil : ∀ i : Nat, ([] : List Nat)[i]?.getD 1 = 1 := fun i => by simp
  induction s with
  | nil =>
    intro t r
    simp only [npMerge, Option.some.injEq, List.length_nil, Nat.zero_max, hnil]
    constructor
    · rintro rfl
      exact ⟨rfl, fun i _ => ⟨by simp, Or.inr rfl, Or.inr (Or.inr rfl)⟩⟩
    · rintro ⟨hl, h⟩
      refine ext t r hl fun i hi => ?_
      obtain ⟨_, h2, h3⟩ := h i hi
      rcases h2 with h2 | h2
      · rcases h3 with h3 | h3 | h3
        · rw [h2, h3]
        · exact h2.trans h3
        · exact h3
      · exact h2
  | cons a s ih =>
    intro t r
    cases t with
    | nil =>
      simp only [npMerge, Option.some.injEq, List.length_nil, Nat.max_zero, hnil]
      constructor
      · rintro rfl
        exact ⟨rfl, fun i _ => ⟨Or.inr rfl, by simp, Or.inr (Or.inl rfl)⟩⟩
      · rintro ⟨hl, h⟩
        refine ext (a :: s) r hl fun i hi => ?_
        obtain ⟨h2, _, h3⟩ := h i hi
        rcases h2 with h2 | h2
        · rcases h3 with h3 | h3 | h3
          · rw [h2, h3]
          · exact h3
          · exact h2.trans h3
        · exact h2
    | cons b t =>
      simp only [npMerge]
      constructor
      · intro h
        cases hm : npMerge s t with
        | none => rw [hm] at h; cases h
        | some q =>
          rw [hm] at h
          simp only at h
          obtain ⟨hl, hq⟩ := (ih t q).1 hm
          have key : ∃ d, r = d :: q ∧ (a = 1 ∨ a = d) ∧ (b = 1 ∨ b = d) ∧ (a = d ∨ b = d) := by
            by_cases h1 : a = b ∨ b = 1
            · rw [if_pos h1] at h
              injection h with h
              exact ⟨a, h.symm, Or.inr rfl, h1.symm.imp_right Eq.symm, Or.inl rfl⟩
            · rw [if_neg h1] at h
              by_cases h2 : a = 1
              · rw [if_pos h2] at h
                injection h with h
                exact ⟨b, h.symm, Or.inl h2, Or.inr rfl, Or.inr rfl⟩
              · rw [if_neg h2] at h; cases h
          obtain ⟨d, rfl, ha, hb, hd⟩ := key
          refine ⟨by simp only [List.length_cons, hl]; omega, fun i hi => ?_⟩
          cases i with
          | zero => simpa using ⟨ha, hb, Or.inr hd⟩
          | succ i =>
            simp only [List.getElem?_cons_succ]
            exact hq i (by simpa using hi)
      · rintro ⟨hl, h⟩
        cases r with
        | nil => simp only [List.length_nil, List.length_cons] at hl; omega
        | cons d q =>
          have hm : npMerge s t = some q := by
            refine (ih t q).2 ⟨by simp only [List.length_cons] at hl; omega, fun i hi => ?_⟩
            have := h (i + 1) (by simpa using hi)
            simpa only [List.getElem?_cons_succ] using this
          rw [hm]
          simp only
          have h0 := h 0 (by simp)
          simp only [List.getElem?_cons_zero, Option.getD_some] at h0
          obtain ⟨ha, hb, hd⟩ := h0
          by_cases h1 : a = b ∨ b = 1
          · rw [if_pos h1]
            have : a = d := by omega
            rw [this]
          · rw [if_neg h1]
            rw [if_pos (by omega)]
            have : b = d := by omega
            rw [this]

theorem npShape_iff (s t r : List Nat) : npShape s t = some r ↔ IsBroadcast [s, t] r := by
  unfold npShape
  have e : (npMerge s.reverse t.reverse).map List.reverse = some r ↔ npMerge s.reverse t.reverse = some r.reverse := by
    cases npMerge s.reverse t.reverse with
    | none => simp
    | some q =>
      simp only [Option.map_some, Option.some.injEq]
      exact ⟨fun h => by rw [← h, List.reverse_reverse], fun h => by rw [h, List.reverse_reverse]⟩
  rw [e, npMerge_iff]
  simp only [List.length_reverse]
  constructor
  · rintro ⟨hl, h⟩
    refine ⟨?_, ?_, ?_, ?_⟩
    · intro q hq
      simp only [List.mem_cons, List.not_mem_nil, or_false] at hq
      rcases hq with rfl | rfl <;> omega
    · right
      rcases Nat.le_total s.length t.length with hle | hle
      · exact ⟨t, by simp, by omega⟩
      · exact ⟨s, by simp, by omega⟩
    · intro i hi q hq
      simp only [List.mem_cons, List.not_mem_nil, or_false] at hq
      obtain ⟨h1, h2, _⟩ := h i hi
      rcases hq with rfl | rfl
      · exact h1
      · exact h2
    · intro i hi
      obtain ⟨_, _, h3⟩ := h i hi
      rcases h3 with h3 | h3 | h3
      · exact Or.inl h3
      · exact Or.inr ⟨s, by simp, h3⟩
      · exact Or.inr ⟨t, by simp, h3⟩
  · intro h
    refine ⟨?_, fun i hi => ⟨h.compat i hi s (by simp), h.compat i hi t (by simp), ?_⟩⟩
    · have h1 := h.rank_ge s (by simp)
      have h2 := h.rank_ge t (by simp)
      rcases h.rank_le with h3 | ⟨q, hq, h3⟩
      · subst h3
        simp only [List.length_nil] at *
        omega
      · simp only [List.mem_cons, List.not_mem_nil, or_false] at hq
        rcases hq with rfl | rfl <;> omega
    · rcases h.attained i hi with h3 | ⟨q, hq, h3⟩
      · exact Or.inl h3
      · simp only [List.mem_cons, List.not_mem_nil, or_false] at hq
        rcases hq with rfl | rfl
        · exact Or.inr (Or.inl h3)
        · exact Or.inr (Or.inr h3)

/-! ### Sources -/

/-- `s` can be broadcast to `r` -/
def Fit (s r : List Nat) : Prop := s.length ≤ r.length ∧ ∀ k, k < s.length → s.getD k 0 = 1 ∨ s.getD k 0 = r.getD (r.length - s.length + k) 0

theorem dimR_getD {s : List Nat} {k : Nat} (hk : k < s.length) : dimR s (s.length - 1 - k) = s.getD k 0 := by
  rw [← getD_reverse hk, List.getD_eq_getElem _ _ hk, List.getD_eq_getElem _ _ hk]

theorem fit_of_broadcast {ss : List (List Nat)} {s r : List Nat} (h : IsBroadcast ss r) (hs : s ∈ ss) : Fit s r := by
  have hl := h.rank_ge s hs
  refine ⟨hl, fun k hk => ?_⟩
  have hi : s.length - 1 - k < r.length := by omega
  have := h.compat _ hi s hs
  rw [dimR_getD hk] at this
  have e : dimR r (s.length - 1 - k) = r.getD (r.length - s.length + k) 0 := by
    rw [show s.length - 1 - k = r.length - 1 - (r.length - s.length + k) by omega, dimR_getD (by omega)]
  rwa [e] at this

theorem source_eq {s r idx src : List Nat} (hl : s.length ≤ r.length) (hi : InB r idx) (h : Source s r idx src) : bcastIdx s idx = src := by
  have hil := inb_length hi
  exact bcastIdx_of (by omega) (inb_length h.1) (by rw [hil]; exact h.2)

theorem bcastIdx_length (s idx : List Nat) (hl : s.length ≤ idx.length) : (bcastIdx s idx).length = s.length := by
  unfold bcastIdx
  rw [List.length_zipWith, List.length_drop]
  omega

theorem bcastIdx_getD (s idx : List Nat) (hl : s.length ≤ idx.length) (k : Nat) (hk : k < s.length) :
    (bcastIdx s idx).getD k 0 = if s.getD k 0 = 1 then 0 else idx.getD (idx.length - s.length + k) 0 := by
  rw [List.getD_eq_getElem _ _ (by rw [bcastIdx_length s idx hl]; exact hk)]
  unfold bcastIdx
  rw [List.getElem_zipWith, List.getElem_drop, List.getD_eq_getElem _ _ hk, List.getD_eq_getElem _ _ (by omega)]

theorem source_exists {s r idx : List Nat} (h : Fit s r) (hi : InB r idx) : Source s r idx (bcastIdx s idx) := by
  have hil := inb_length hi
  have hl : s.length ≤ idx.length := by rw [hil]; exact h.1
  have hg := bcastIdx_getD s idx hl
  refine ⟨inb_iff.2 ⟨bcastIdx_length s idx hl, fun k hk => ?_⟩, fun k hk => by rw [hg k hk, hil]⟩
  rw [hg k hk]
  have hlt := (inb_iff.1 hi).2 (r.length - s.length + k) (by have := h.1; omega)
  rcases h.2 k hk with e | e
  · rw [if_pos e, e]; omega
  · by_cases e1 : s.getD k 0 = 1
    · rw [if_pos e1, e1]; omega
    · rw [if_neg e1, hil, e]; exact hlt

theorem source_down {s c r idx m src : List Nat} (hsc : Fit s c) (hcr : c.length ≤ r.length) (hm : Source c r idx m) (hs : Source s r idx src) :
    Source s c m src := by
  refine ⟨hs.1, fun k hk => ?_⟩
  rw [hs.2 k hk]
  have hl := hsc.1
  by_cases e : s.getD k 0 = 1
  · rw [if_pos e, if_pos e]
  · rw [if_neg e, if_neg e, hm.2 _ (by omega)]
    rw [if_neg]
    · congr 1
      omega
    · intro e1
      rcases hsc.2 k hk with e2 | e2
      · exact e e2
      · exact e (e2.trans e1)

theorem ufunc2_ok (f : U → V → W) (x : Tensor U) (y : Tensor V) (r : List Nat) (h : IsBroadcast [x.shape, y.shape] r) :
    ∃ z, ufunc2 f x y = .ok z ∧ z.shape = r ∧ IsElementwise2 f x y z := by
  unfold ufunc2
  rw [(npShape_iff _ _ _).2 h]
  have f1 : Fit x.shape r := fit_of_broadcast h (by simp)
  have f2 : Fit y.shape r := fit_of_broadcast h (by simp)
  refine ⟨_, rfl, rfl, h, fun idx i j hi h1 h2 => ?_, fun idx hi => ⟨_, source_exists f1 hi⟩, fun idx hi => ⟨_, source_exists f2 hi⟩⟩
  show f (x.at (bcastIdx x.shape idx)) (y.at (bcastIdx y.shape idx)) = _
  rw [source_eq f1.1 hi h1, source_eq f2.1 hi h2]

theorem ufunc2_error (f : U → V → W) (x : Tensor U) (y : Tensor V) (h : ¬ ∃ r, IsBroadcast [x.shape, y.shape] r) : ufunc2 f x y = .error .valueError := by
  unfold ufunc2
  cases hn : npShape x.shape y.shape with
  | none => rfl
  | some r => exact absurd ⟨r, (npShape_iff _ _ _).1 hn⟩ h

theorem ufunc2_inv {f : U → V → W} {x : Tensor U} {y : Tensor V} {z : Tensor W} (h : ufunc2 f x y = .ok z) : IsElementwise2 f x y z := by
  by_cases hb : ∃ r, IsBroadcast [x.shape, y.shape] r
  · obtain ⟨r, hr⟩ := hb
    obtain ⟨z', h1, _, h2⟩ := ufunc2_ok f x y r hr
    rw [h] at h1
    injection h1 with h1
    rw [h1]
    exact h2
  · rw [ufunc2_error f x y hb] at h; cases h

/-! ### Several operands -/

theorem broadcast_group {ss ts : List (List Nat)} {r q : List Nat} (h : IsBroadcast ss r) : IsBroadcast (r :: ts) q ↔ IsBroadcast (ss ++ ts) q := by
  have := Props.C19_grouping ss ts r ((broadcast_iff ss r).2 h)
  rw [← broadcast_iff, ← broadcast_iff, this]

theorem broadcast_single (s : List Nat) : IsBroadcast [s] s := by
  refine ⟨fun t ht => ?_, Or.inr ⟨s, by simp, rfl⟩, fun i _ t ht => ?_, fun i _ => Or.inr ⟨s, by simp, rfl⟩⟩
  · rw [List.mem_singleton.1 ht]
  · rw [List.mem_singleton.1 ht]; exact Or.inr rfl

theorem source_self {s idx src : List Nat} (hi : InB s idx) (h : Source s s idx src) : src = idx := by
  rw [← source_eq (Nat.le_refl _) hi h, bcastIdx_self hi]

theorem foldFrom_ok (f : V → V → V) : ∀ (xs : List (Tensor V)) (a : Tensor V) (r : List Nat), IsBroadcast ((a :: xs).map (·.shape)) r →
    ∃ z, foldFrom f a xs = .ok z ∧ z.shape = r ∧ IsFolded f (a :: xs) z := by
  intro xs
  induction xs with
  | nil =>
    intro a r h
    have hr : r = a.shape := by
      have h1 := (broadcast_iff _ _).2 h
      have h2 := (broadcast_iff _ _).2 (broadcast_single a.shape)
      rw [List.map_cons, List.map_nil, h2] at h1
      injection h1 with h1
      exact h1.symm
    subst hr
    refine ⟨a, rfl, rfl, h, fun idx x rest s ss he hi hs hf => ?_, fun x hx idx hi => ?_⟩
    · injection he with e1 e2
      subst e1 e2
      cases hf
      rw [source_self hi hs]
      rfl
    · rw [List.mem_singleton.1 hx]
      exact ⟨_, source_exists (fit_of_broadcast (broadcast_single a.shape) (by simp)) hi⟩
  | cons b xs ih =>
    intro a r h
    have hex : ∃ c, IsBroadcast [a.shape, b.shape] c := by
      cases hc : broadcastShape [a.shape, b.shape] with
      | ok c => exact ⟨c, (broadcast_iff _ _).1 hc⟩
      | error e =>
        exfalso
        have hfa := fit_of_broadcast h (s := a.shape) (by simp)
        have hfb := fit_of_broadcast h (s := b.shape) (by simp)
        have hnp : npShape a.shape b.shape ≠ none := by
          intro hn
          unfold npShape at hn
          rw [Option.map_eq_none_iff] at hn
          have compat : ∀ i, dimR a.shape i = 1 ∨ dimR b.shape i = 1 ∨ dimR a.shape i = dimR b.shape i := by
            intro i
            by_cases hi : i < r.length
            · have h1 := h.compat i hi a.shape (by simp)
              have h2 := h.compat i hi b.shape (by simp)
              omega
            · left
              have := hfa.1
              unfold dimR
              rw [List.getElem?_eq_none (by rw [List.length_reverse]; omega)]
              rfl
          have go : ∀ s t : List Nat, (∀ i : Nat, s[i]?.getD 1 = 1 ∨ t[i]?.getD 1 = 1 ∨ s[i]?.getD 1 = t[i]?.getD 1) → npMerge s t ≠ none := by
            intro s
            induction s with
            | nil => intro t _; simp [npMerge]
            | cons x s ihs =>
              intro t ht
              cases t with
              | nil => simp [npMerge]
              | cons y t =>
                have := ihs t fun i => by simpa using ht (i + 1)
                simp only [npMerge]
                cases hm : npMerge s t with
                | none => exact absurd hm this
                | some q =>
                  simp only
                  have h0 := ht 0
                  simp only [List.getElem?_cons_zero, Option.getD_some] at h0
                  split_ifs with g1 g2
                  · simp
                  · simp
                  · omega
          exact go _ _ compat hn
        cases hn : npShape a.shape b.shape with
        | none => exact hnp hn
        | some c =>
          have := (broadcast_iff _ _).2 ((npShape_iff _ _ _).1 hn)
          rw [hc] at this
          cases this
    obtain ⟨c, hc⟩ := hex
    obtain ⟨z0, h1, h2, h3⟩ := ufunc2_ok f a b c hc
    have hgroup : IsBroadcast (c :: xs.map (·.shape)) r := (broadcast_group hc).2 h
    obtain ⟨z, h4, h5, h6⟩ := ih z0 r (by rw [List.map_cons, h2]; exact hgroup)
    refine ⟨z, by simp only [foldFrom, h1]; exact h4, h5, by rw [h5]; exact h, fun idx x rest s ss he hi hs hf => ?_, fun x hx idx hi => ?_⟩
    · injection he with e1 e2
      subst e1 e2
      cases hf with
      | cons hb hrest =>
        rename_i sb ss
        obtain ⟨m, hm⟩ := h6.inside z0 (by simp) idx hi
        have hzr : IsBroadcast (c :: xs.map (·.shape)) z.shape := by rw [h5]; exact hgroup
        have hcz : c.length ≤ z.shape.length := hzr.rank_ge c (by simp)
        rw [h6.value idx z0 xs m ss rfl hi hm hrest]
        rw [h2] at hm
        have sa := source_down (fit_of_broadcast hc (by simp)) hcz hm hs
        have sb' := source_down (fit_of_broadcast hc (by simp)) hcz hm hb
        rw [h3.value m s sb (by rw [h2]; exact hm.1) (by rw [h2]; exact sa) (by rw [h2]; exact sb')]
        rfl
    · refine ⟨_, source_exists (fit_of_broadcast (ss := (a :: b :: xs).map (·.shape)) (by rw [h5]; exact h) (List.mem_map_of_mem hx)) hi⟩

theorem foldFrom_error (f : V → V → V) : ∀ (xs : List (Tensor V)) (a : Tensor V), (¬ ∃ r, IsBroadcast ((a :: xs).map (·.shape)) r) →
    foldFrom f a xs = .error .valueError := by
  intro xs
  induction xs with
  | nil => intro a h; exact absurd ⟨_, broadcast_single a.shape⟩ h
  | cons b xs ih =>
    intro a h
    simp only [foldFrom]
    by_cases hc : ∃ c, IsBroadcast [a.shape, b.shape] c
    · obtain ⟨c, hc⟩ := hc
      obtain ⟨z0, h1, h2, _⟩ := ufunc2_ok f a b c hc
      rw [h1]
      simp only
      refine ih z0 fun ⟨r, hr⟩ => h ⟨r, ?_⟩
      rw [List.map_cons, h2] at hr
      exact (broadcast_group (ts := xs.map (·.shape)) hc).1 hr
    · rw [ufunc2_error f a b hc]

/-! ### Where and Expand -/

theorem where_ok (c : Tensor Bool) (x y : Tensor V) (r : List Nat) (h : IsBroadcast [c.shape, x.shape, y.shape] r) :
    ∃ z, whereValue c x y = .ok z ∧ z.shape = r ∧ IsWhere c x y z := by
  have hperm : IsBroadcast ([x.shape, y.shape] ++ [c.shape]) r := by
    rw [← broadcast_iff] at h ⊢
    rw [← h]
    exact Props.C19_order_independent _ _ fun s => by simp; tauto
  obtain ⟨p, hp⟩ : ∃ p, IsBroadcast [x.shape, y.shape] p := by
    by_contra hc
    have h1 := foldFrom_ok (V := Unit) (fun _ _ => ()) [⟨y.shape, fun _ => ()⟩, ⟨c.shape, fun _ => ()⟩] ⟨x.shape, fun _ => ()⟩ r hperm
    obtain ⟨z, h1, _⟩ := h1
    simp only [foldFrom] at h1
    rw [ufunc2_error (fun _ _ => ()) (⟨x.shape, fun _ => ()⟩ : Tensor Unit) (⟨y.shape, fun _ => ()⟩ : Tensor Unit) hc] at h1
    cases h1
  obtain ⟨q, h1, h2, h3⟩ := ufunc2_ok (fun (a b : V) => (a, b)) x y p hp
  have hcp : IsBroadcast [c.shape, q.shape] r := by
    have := (broadcast_group (q := r) (ts := [c.shape]) hp).2 hperm
    rw [← broadcast_iff] at this ⊢
    rw [← this, h2]
    exact Props.C19_order_independent _ _ fun s => by simp; tauto
  obtain ⟨z, h4, h5, h6⟩ := ufunc2_ok (fun c (p : V × V) => if c then p.1 else p.2) c q r hcp
  refine ⟨z, by unfold whereValue; simp only [h1]; exact h4, h5, by rw [h5]; exact h, fun idx i j k hi hi1 hj hk => ?_, fun s hs idx hi => ?_⟩
  · obtain ⟨m, hm⟩ := h6.right idx hi
    have hl : p.length ≤ z.shape.length := by
      have := h6.shape.rank_ge q.shape (by simp)
      rwa [h2] at this
    rw [h6.value idx i m hi hi1 hm]
    rw [h2] at hm
    rw [h3.value m j k (by rw [h2]; exact hm.1) (by rw [h2]; exact source_down (fit_of_broadcast hp (by simp)) hl hm hj)
      (by rw [h2]; exact source_down (fit_of_broadcast hp (by simp)) hl hm hk)]
  · exact ⟨_, source_exists (fit_of_broadcast (by rw [h5]; exact h) hs) hi⟩

theorem expand_value_ok [MulOneClass V] (e : List Nat) (x : Tensor V) (r : List Nat) (h : IsBroadcast [x.shape, e] r) :
    ∃ z, expandValue e x = .ok z ∧ z.shape = r ∧ IsExpandBoth e x z := by
  obtain ⟨z, h1, h2, h3⟩ := ufunc2_ok (· * ·) x (⟨e, fun _ => 1⟩ : Tensor V) r h
  refine ⟨z, h1, h2, h3.shape, fun idx i hi hs => ?_⟩
  obtain ⟨j, hj⟩ := h3.right idx hi
  rw [h3.value idx i j hi hs hj]
  exact mul_one _

/-! ### Numbers -/

theorem fmod_isMod (a b : Int) (h : b ≠ 0) : IsMod a b (a.fmod b) := by
  refine ⟨⟨a.fdiv b, ?_⟩, fun hb => ⟨Int.fmod_nonneg_of_pos a hb, Int.fmod_lt_of_pos a hb⟩, fun hb => ?_⟩
  · have := Int.mul_fdiv_add_fmod a b
    omega
  · have e := Int.fmod_eq_emod (a := a) (b := b)
    have h1 := Int.emod_nonneg a h
    have h2 := Int.emod_lt_abs a h
    rw [abs_of_neg hb] at h2
    rw [e]
    split_ifs with hc
    · rcases hc with hc | hc
      · omega
      · rw [Int.emod_eq_zero_of_dvd hc]; omega
    · have : a % b ≠ 0 := fun h0 => hc (Or.inr (Int.dvd_of_emod_eq_zero h0))
      omega

theorem range_ok (start limit delta : Int) (h : delta ≠ 0) : ∃ y, rangeValue start limit delta = .ok y ∧ IsRange start limit delta y := by
  refine ⟨_, by unfold rangeValue; rw [if_neg h], _, rfl, fun k _ => rfl, fun k => ?_⟩
  have hq := Int.mul_fdiv_add_fmod (start - limit) delta
  have hm := fmod_isMod (start - limit) delta h
  unfold arangeLen
  generalize hQ : (start - limit).fdiv delta = q at *
  generalize hR : (start - limit).fmod delta = r at *
  by_cases hd : 0 < delta
  · rw [if_pos hd]
    obtain ⟨h1, h2⟩ := hm.2.1 hd
    constructor
    · intro hk
      have hk' : (k : Int) + 1 ≤ -q := by omega
      have := Int.mul_le_mul_of_nonneg_right hk' (Int.le_of_lt hd)
      nlinarith
    · intro hk
      by_contra hc
      have hk' : -q ≤ (k : Int) := by omega
      have := Int.mul_le_mul_of_nonneg_right hk' (Int.le_of_lt hd)
      nlinarith
  · have hd' : delta < 0 := by omega
    rw [if_neg hd]
    obtain ⟨h1, h2⟩ := hm.2.2 hd'
    constructor
    · intro hk
      have hk' : (k : Int) + 1 ≤ -q := by omega
      have := Int.mul_le_mul_of_nonpos_right hk' (Int.le_of_lt hd')
      nlinarith
    · intro hk
      by_contra hc
      have hk' : -q ≤ (k : Int) := by omega
      have := Int.mul_le_mul_of_nonpos_right hk' (Int.le_of_lt hd')
      nlinarith

theorem floor_div (a b : Int) : ⌊(a : ℚ) / b⌋ = a.fdiv b := by
  rcases lt_trichotomy b 0 with h | h | h
  · have e : (a : ℚ) / b = ((-a : Int) : ℚ) / ((-b).toNat : ℕ) := by
      have : (((-b).toNat : ℕ) : ℚ) = -(b : ℚ) := by
        have h1 : (((-b).toNat : ℕ) : Int) = -b := by omega
        have : ((((-b).toNat : ℕ) : Int) : ℚ) = ((-b : Int) : ℚ) := by rw [h1]
        push_cast at this ⊢
        exact this
      rw [this]
      push_cast
      rw [neg_div_neg_eq]
    rw [e, Rat.floor_intCast_div_natCast]
    have h1 : (((-b).toNat : ℕ) : Int) = -b := by omega
    rw [h1, ← Int.fdiv_eq_ediv_of_nonneg _ (by omega), Int.neg_fdiv_neg]
  · subst h; simp
  · have e : (a : ℚ) / b = (a : ℚ) / (b.toNat : ℕ) := by
      have h1 : ((b.toNat : ℕ) : Int) = b := by omega
      have : (((b.toNat : ℕ) : Int) : ℚ) = (b : ℚ) := by rw [h1]
      push_cast at this
      rw [this]
    rw [e, Rat.floor_intCast_div_natCast]
    have h1 : ((b.toNat : ℕ) : Int) = b := by omega
    rw [h1, ← Int.fdiv_eq_ediv_of_nonneg _ (by omega)]

theorem fdiv_eq_tdiv_iff (a b : Int) (h : b ≠ 0) : a.fdiv b = a.tdiv b ↔ b ∣ a ∨ (0 ≤ a ∧ 0 < b) ∨ (a ≤ 0 ∧ b < 0) := by
  by_cases h1 : b ∣ a
  · rw [Int.fdiv_eq_tdiv, if_pos h1]
    simp [h1]
  · have ha : a ≠ 0 := fun e => h1 (e ▸ Int.dvd_zero b)
    have hs : b.sign = if 0 < b then 1 else -1 := by
      split_ifs with hb
      · exact Int.sign_eq_one_of_pos hb
      · exact Int.sign_eq_neg_one_of_neg (by omega)
    rw [Int.fdiv_eq_tdiv, if_neg h1]
    simp only [h1, false_or]
    split_ifs at hs ⊢ <;> omega

end OnnxTool.Values

namespace OnnxTool.Values
open OnnxTool OnnxTool.Torch OnnxTool.Shape OnnxTool.Kernels

variable {U V W : Type}

/-! ### Scalars and single elements -/

theorem broadcast_scalar (s : List Nat) : IsBroadcast [s, []] s := by
  refine ⟨fun t ht => ?_, Or.inr ⟨s, by simp, rfl⟩, fun i _ t ht => ?_, fun i _ => Or.inr ⟨s, by simp, rfl⟩⟩
  · simp only [List.mem_cons, List.not_mem_nil, or_false] at ht
    rcases ht with rfl | rfl <;> simp
  · simp only [List.mem_cons, List.not_mem_nil, or_false] at ht
    rcases ht with rfl | rfl
    · exact Or.inr rfl
    · left; simp [dimR]

/-- an operation with a scalar -/
theorem ufunc2_scalar (f : U → V → W) (x : Tensor U) (b : Tensor V) (hb : b.shape = []) :
    ∃ z, ufunc2 f x b = .ok z ∧ z.shape = x.shape ∧ ∀ idx, InB x.shape idx → z.at idx = f (x.at idx) (b.at []) := by
  obtain ⟨z, h1, h2, h3⟩ := ufunc2_ok f x b x.shape (by rw [hb]; exact broadcast_scalar _)
  refine ⟨z, h1, h2, fun idx hi => h3.value idx idx [] (by rw [h2]; exact hi) ⟨hi, fun k hk => ?_⟩ ⟨by rw [hb]; trivial, fun k hk => by rw [hb] at hk; simp at hk⟩⟩
  rw [h2, Nat.sub_self, Nat.zero_add]
  have := (inb_iff.1 hi).2 k hk
  split_ifs with h
  · omega
  · rfl

/-- the only element of an array of one element -/
theorem only_index {s idx : List Nat} (h : numel s = 1) (hi : InB s idx) : idx = unravel s 0 := by
  have h1 := ravel_lt hi
  have h2 : ravel s idx = 0 := by omega
  rw [← unravel_ravel hi, h2]

theorem flat_one (x : Tensor V) (h : numel x.shape = 1) : x.flat = [x.at (unravel x.shape 0)] := by
  unfold Tensor.flat
  rw [h]
  rfl

theorem pyClamp_flat {a c : Tensor ℚ} (h : pyClamp a = .ok c) : numel a.shape = 1 ∧ c.flat = a.flat.map fun v => max 0 (min 1 v) := by
  unfold pyClamp at h
  by_cases h1 : numel a.shape = 1
  · rw [if_pos h1] at h
    refine ⟨h1, ?_⟩
    rw [flat_one a h1]
    simp only [List.map_cons, List.map_nil]
    simp only at h
    split_ifs at h with h2 h3
    · injection h with h
      rw [← h, flat_one a h1, min_eq_right (le_of_lt h2), max_eq_right (le_of_lt h3)]
    · injection h with h
      rw [← h, min_eq_right (le_of_lt h2), max_eq_left (not_lt.1 h3)]
      rfl
    · injection h with h
      rw [← h, min_eq_left (not_lt.1 h2), max_eq_right (by norm_num)]
      rfl
  · rw [if_neg h1] at h; cases h

theorem pyClamp_one (a : Tensor ℚ) (h : numel a.shape = 1) : ∃ c, pyClamp a = .ok c ∧ (c.shape = a.shape ∨ c.shape = []) ∧
    ∀ idx, InB c.shape idx → c.at idx = max 0 (min 1 (a.at (unravel a.shape 0))) := by
  unfold pyClamp
  rw [if_pos h]
  simp only
  split_ifs with h2 h3
  · refine ⟨a, rfl, Or.inl rfl, fun idx hi => ?_⟩
    rw [only_index h hi, min_eq_right (le_of_lt h2), max_eq_right (le_of_lt h3)]
  · refine ⟨_, rfl, Or.inr rfl, fun idx hi => ?_⟩
    rw [min_eq_right (le_of_lt h2), max_eq_left (not_lt.1 h3)]
  · refine ⟨_, rfl, Or.inr rfl, fun idx hi => ?_⟩
    rw [min_eq_left (not_lt.1 h2), max_eq_right (by norm_num)]

end OnnxTool.Values
