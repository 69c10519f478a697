import Verif.Model.Axes
import Verif.Spec.Axes
import Verif.Spec.Slice
import Verif.Proofs.Slice
import Verif.Proofs.Volume
/-! # Reshape, Split, Concat, Transpose, Squeeze, Unsqueeze -/
namespace OnnxTool.Axes
open OnnxTool OnnxTool.Conv OnnxTool.Slice OnnxTool.Shape

/-! ## Products -/
def prodI (s : List Int) : Int := s.foldr (fun d v => d * v) 1

theorem foldl_prodI : ∀ (s : List Int) (v : Int), s.foldl (fun v d => v * d) v = v * prodI s := by
  intro s
  induction s with
  | nil => intro v; simp [prodI]
  | cons d s ih => intro v; simp only [List.foldl_cons, ih, prodI, List.foldr_cons]; rw [Int.mul_assoc]

theorem volumeInt_eq {s : List Int} (h : s ≠ []) : volumeInt s = prodI s := by
  unfold volumeInt
  rw [if_pos (List.length_pos_iff.mpr h), foldl_prodI]; simp

theorem prodI_append (a b : List Int) : prodI (a ++ b) = prodI a * prodI b := by
  induction a with
  | nil => simp [prodI]
  | cons d a ih =>
    simp only [List.cons_append, prodI, List.foldr_cons] at ih ⊢
    rw [ih, Int.mul_assoc]

theorem prodI_cons (d : Int) (a : List Int) : prodI (d :: a) = d * prodI a := rfl

theorem prodI_pos : ∀ {s : List Int}, (∀ d ∈ s, 0 < d) → 0 < prodI s := by
  intro s
  induction s with
  | nil => intro _; simp [prodI]
  | cons d s ih =>
    intro h
    rw [prodI_cons]
    exact Int.mul_pos (h d List.mem_cons_self) (ih (fun x hx => h x (List.mem_cons_of_mem _ hx)))

theorem prodI_ofNat : ∀ (s : List Nat), prodI (s.map Int.ofNat) = (elems s : Int) := by
  intro s
  induction s with
  | nil => rfl
  | cons d s ih =>
    rw [List.map_cons, prodI_cons, ih]
    show (d : Int) * elems s = ((d * elems s : Nat) : Int)
    push_cast; rfl

/-! ## Reshape -/
theorem copyZeros_ok (src : List Nat) : ∀ (t : List Int) (i : Nat),
    (∀ j, j < t.length → t.getD j 0 = 0 → i + j < src.length) →
    ∃ new, copyZeros src i t = .ok new ∧ new.length = t.length ∧
      ∀ j, j < t.length → new.getD j 0 = if t.getD j 0 = 0 then (src.getD (i + j) 0 : Int) else t.getD j 0 := by
  intro t
  induction t with
  | nil => intro i _; exact ⟨[], rfl, rfl, fun j hj => by simp at hj⟩
  | cons a t ih =>
    intro i h
    obtain ⟨new, e1, e2, e3⟩ := ih (i + 1) (by
      intro j hj h0
      have := h (j + 1) (by simpa using hj) (by simpa using h0)
      omega)
    by_cases ha : a = 0
    · have hi := h 0 (by simp) (by simpa using ha)
      refine ⟨(src.getD i 0 : Int) :: new, ?_, by simp [e2], ?_⟩
      · simp only [copyZeros, ha, if_true, e1, bind, Except.bind, pure, Except.pure]
        have : idx (src.map Int.ofNat) i = .ok (src.getD i 0 : Int) := by
          unfold idx
          rw [List.getElem?_map, List.getElem?_eq_getElem (by omega)]
          simp [List.getD_eq_getElem?_getD, List.getElem?_eq_getElem (show i < src.length by omega)]
        rw [this]
      · intro j hj
        cases j with
        | zero => simp [ha]
        | succ j =>
          have := e3 j (by simpa using hj)
          simp only [List.getD_cons_succ]
          rw [this, show i + 1 + j = i + (j + 1) by omega]
    · refine ⟨a :: new, ?_, by simp [e2], ?_⟩
      · simp only [copyZeros, ha, if_false, e1, bind, Except.bind, pure, Except.pure]
      · intro j hj
        cases j with
        | zero => simp [ha]
        | succ j =>
          have := e3 j (by simpa using hj)
          simp only [List.getD_cons_succ]
          rw [this, show i + 1 + j = i + (j + 1) by omega]

theorem fillFirst_append (v : Int) : ∀ (A B : List Int), (-1 : Int) ∉ A → fillFirst v (A ++ -1 :: B) = A ++ v :: B := by
  intro A
  induction A with
  | nil => intro B _; simp [fillFirst]
  | cons a A ih =>
    intro B h
    simp only [List.mem_cons, not_or] at h
    simp only [List.cons_append, fillFirst, if_neg (fun e => h.1 (Eq.symm e)), ih B h.2]

theorem list_ext_getD {a b : List Int} (hl : a.length = b.length) (h : ∀ i, i < a.length → a.getD i 0 = b.getD i 0) : a = b := by
  apply List.ext_getElem? 
  intro i
  by_cases hi : i < a.length
  · have := h i hi
    rw [List.getD_eq_getElem?_getD, List.getD_eq_getElem?_getD, List.getElem?_eq_getElem hi,
      List.getElem?_eq_getElem (by omega)] at this
    rw [List.getElem?_eq_getElem hi, List.getElem?_eq_getElem (by omega)]
    simpa using this
  · rw [List.getElem?_eq_none (by omega), List.getElem?_eq_none (by omega)]

theorem prodI_nonneg : ∀ {s : List Int}, (∀ d ∈ s, 0 ≤ d) → 0 ≤ prodI s := by
  intro s
  induction s with
  | nil => intro _; simp [prodI]
  | cons d s ih =>
    intro h
    rw [prodI_cons]
    exact Int.mul_nonneg (h d List.mem_cons_self) (ih (fun x hx => h x (List.mem_cons_of_mem _ hx)))

theorem reshape_iff_wild {src : List Nat} {t : List Int} (hs : src ≠ []) (hw : (-1 : Int) ∈ t → ∀ j, j < t.length → t.getD j 0 = 0 → 0 < src.getD j 0) (ht : t ≠ [])
    (hge : ∀ v ∈ t, -1 ≤ v) (hone : ∀ i j : Nat, t[i]? = some (-1) → t[j]? = some (-1) → i = j)
    (hz : ∀ j, j < t.length → t.getD j 0 = 0 → j < src.length) (out' : List Int) :
    reshapeShape src t = .ok out' ↔ ∃ out, out' = out.map Int.ofNat ∧ IsReshape src t out := by
  obtain ⟨new, e1, e2, e3⟩ := copyZeros_ok src t 0 (by simpa using hz)
  simp only [Nat.zero_add] at e3
  have hnew : new ≠ [] := by
    intro h; rw [h] at e2; exact ht (List.length_eq_zero_iff.mp e2.symm)
  have hgetD : ∀ i (h : i < t.length), t.getD i 0 = t[i] := fun i h => by
    simp [List.getD_eq_getElem?_getD, h]
  have hnn : ∀ i, i < t.length → t.getD i 0 ≠ -1 → 0 ≤ new.getD i 0 := by
    intro i hi hne
    rw [e3 i hi]
    have hm := hge (t[i]) (List.getElem_mem hi)
    rw [← hgetD i hi] at hm
    split
    · omega
    · omega
  have hpos : (-1 : Int) ∈ t → ∀ i, i < t.length → t.getD i 0 ≠ -1 → 0 < new.getD i 0 := by
    intro hmt i hi hne
    rw [e3 i hi]
    have hm := hge (t[i]) (List.getElem_mem hi)
    rw [← hgetD i hi] at hm
    split
    · rename_i h0
      have := hw hmt i hi h0
      omega
    · omega
  have hm1 : ∀ i, i < t.length → (new.getD i 0 = -1 ↔ t.getD i 0 = -1) := by
    intro i hi
    constructor
    · intro h
      by_cases hne : t.getD i 0 = -1
      · exact hne
      · have := hnn i hi hne; omega
    · intro h; rw [e3 i hi, if_neg (by omega)]; exact h
  have hraw : volumeInt (src.map Int.ofNat) = (elems src : Int) := by
    rw [volumeInt_eq (by simpa using hs), prodI_ofNat]
  -- a returned list determines the reshape
  have spec_of : ∀ out : List Nat, (∀ i, i < t.length → t.getD i 0 ≠ -1 → (out.getD i 0 : Int) = new.getD i 0) →
      out.length = t.length → elems out = elems src → IsReshape src t out := by
    intro out h1 h2 h3
    refine ⟨h2, ?_, ?_, h3⟩
    · intro i hi h0
      have := h1 i hi (by omega)
      rw [e3 i hi, if_pos h0] at this
      exact_mod_cast this
    · intro i hi h0
      have := h1 i hi (by omega)
      rw [e3 i hi, if_neg (by omega)] at this
      exact this
  have of_spec : ∀ out : List Nat, IsReshape src t out → ∀ i, i < t.length → t.getD i 0 ≠ -1 → (out.getD i 0 : Int) = new.getD i 0 := by
    intro out ho i hi hne
    rw [e3 i hi]
    have hm := hge (t[i]) (List.getElem_mem hi)
    rw [← hgetD i hi] at hm
    split
    · rename_i h0; rw [ho.zero i hi h0]
    · exact ho.pos i hi (by omega)
  simp only [reshapeShape, e1, bind, Except.bind, hraw]
  rw [volumeInt_eq hnew]
  by_cases hmem : (-1 : Int) ∈ new
  · obtain ⟨A, B, hAB, hA⟩ := List.eq_append_cons_of_mem hmem
    have hp : A.length < t.length := by rw [← e2, hAB]; simp
    have htp : t.getD A.length 0 = -1 := by
      rw [← hm1 _ hp, hAB]; simp [List.getD_eq_getElem?_getD]
    have hmt : (-1 : Int) ∈ t := by rw [← htp, hgetD _ hp]; exact List.getElem_mem hp
    have hpos := hpos hmt
    have hothers : ∀ i, i < t.length → i ≠ A.length → t.getD i 0 ≠ -1 := by
      intro i hi hne h
      apply hne
      apply hone
      · rw [hgetD i hi] at h; rw [List.getElem?_eq_getElem hi, h]
      · rw [hgetD _ hp] at htp; rw [List.getElem?_eq_getElem hp, htp]
    have hApos : ∀ d ∈ A, 0 < d := by
      intro d hd
      obtain ⟨i, hi, rfl⟩ := List.getElem_of_mem hd
      have := hpos i (by omega) (hothers i (by omega) (by omega))
      rw [hAB, List.getD_eq_getElem?_getD, List.getElem?_append_left hi] at this
      simpa [hi] using this
    have hBpos : ∀ d ∈ B, 0 < d := by
      intro d hd
      obtain ⟨i, hi, rfl⟩ := List.getElem_of_mem hd
      have hlen : A.length + 1 + B.length = t.length := by rw [← e2, hAB]; simp; omega
      have := hpos (A.length + 1 + i) (by omega) (hothers _ (by omega) (by omega))
      rw [hAB, List.getD_eq_getElem?_getD, List.getElem?_append_right (by omega)] at this
      rw [show A.length + 1 + i - A.length = i + 1 by omega] at this
      simpa [hi] using this
    have hPpos : 0 < prodI A * prodI B := Int.mul_pos (prodI_pos hApos) (prodI_pos hBpos)
    have hs : prodI new = -(prodI A * prodI B) := by
      rw [hAB, prodI_append, prodI_cons]; rw [Int.mul_comm (-1), Int.mul_neg, Int.mul_one, Int.mul_neg]
    have hvf : ∀ q : Int, volumeInt (A ++ q :: B) = (prodI A * prodI B) * q := by
      intro q
      rw [volumeInt_eq (by simp), prodI_append, prodI_cons, Int.mul_comm q, Int.mul_assoc]
    have hlt : prodI new < 0 := by rw [hs]; omega
    simp only [hlt, if_true]
    rw [hs, Int.neg_neg]
    rw [Int.fdiv_eq_ediv_of_nonneg _ (by omega)]
    generalize hP : prodI A * prodI B = P at *
    rw [hAB, fillFirst_append _ A B hA, hvf]
    constructor
    · intro h
      split at h
      · rename_i hv
        injection h with h
        have hq0 : 0 ≤ (elems src : Int) / P := Int.ediv_nonneg (by omega) (by omega)
        refine ⟨A.map Int.toNat ++ ((elems src : Int) / P).toNat :: B.map Int.toNat, ?_, ?_⟩
        · rw [← h]
          have key : ∀ l : List Int, (∀ d ∈ l, 0 < d) → l = (l.map Int.toNat).map Int.ofNat := by
            intro l hl
            rw [List.map_map]
            symm
            conv => rhs; rw [← List.map_id l]
            apply List.map_congr_left
            intro d hd
            have := hl d hd
            simp only [Function.comp, id]
            exact Int.toNat_of_nonneg (by omega)
          rw [List.map_append, List.map_cons, ← key A hApos, ← key B hBpos]
          congr 2
          exact (Int.toNat_of_nonneg hq0).symm
        · have hco : ((A.map Int.toNat ++ ((elems src : Int) / P).toNat :: B.map Int.toNat)).map Int.ofNat = A ++ ((elems src : Int) / P) :: B := by
            have key : ∀ l : List Int, (∀ d ∈ l, 0 < d) → l = (l.map Int.toNat).map Int.ofNat := by
              intro l hl
              rw [List.map_map]
              symm
              conv => rhs; rw [← List.map_id l]
              apply List.map_congr_left
              intro d hd
              have := hl d hd
              simp only [Function.comp, id]
              exact Int.toNat_of_nonneg (by omega)
            rw [List.map_append, List.map_cons, ← key A hApos, ← key B hBpos]
            congr 2
            exact Int.toNat_of_nonneg hq0
          apply spec_of
          · intro i hi hne
            have hne' : i ≠ A.length := fun e => hne (e ▸ htp)
            have : ((A.map Int.toNat ++ ((elems src : Int) / P).toNat :: B.map Int.toNat).getD i 0 : Int) =
                (A ++ ((elems src : Int) / P) :: B).getD i 0 := by
              rw [← hco, List.getD_eq_getElem?_getD, List.getD_eq_getElem?_getD, List.getElem?_map]
              cases (A.map Int.toNat ++ ((elems src : Int) / P).toNat :: B.map Int.toNat)[i]? <;> rfl
            rw [this, hAB]
            rw [List.getD_eq_getElem?_getD, List.getD_eq_getElem?_getD]
            by_cases hlt : i < A.length
            · rw [List.getElem?_append_left hlt, List.getElem?_append_left hlt]
            · rw [List.getElem?_append_right (by omega), List.getElem?_append_right (by omega)]
              obtain ⟨m, hm⟩ : ∃ m, i - A.length = m + 1 := ⟨i - A.length - 1, by omega⟩
              rw [hm]; rfl
          · rw [← e2, hAB]; simp
          · have : (elems (A.map Int.toNat ++ ((elems src : Int) / P).toNat :: B.map Int.toNat) : Int) = elems src := by
              rw [← prodI_ofNat, hco, prodI_append, prodI_cons, Int.mul_comm _ (prodI B), ← Int.mul_assoc, hP]
              exact hv.symm
            exact_mod_cast this
      · cases h
    · rintro ⟨out, rfl, ho⟩
      have hof := of_spec out ho
      -- out = A ++ q :: B
      have hout : out.map Int.ofNat = A ++ (out.getD A.length 0 : Int) :: B := by
        apply list_ext_getD
        · rw [List.length_map, ho.rank, ← e2, hAB]; simp
        · intro i hi
          rw [List.length_map, ho.rank] at hi
          have h1 : (out.map Int.ofNat).getD i 0 = (out.getD i 0 : Int) := by
            rw [List.getD_eq_getElem?_getD, List.getD_eq_getElem?_getD, List.getElem?_map]
            cases out[i]? <;> rfl
          rw [h1]
          by_cases hip : i = A.length
          · subst hip; simp [List.getD_eq_getElem?_getD]
          · rw [hof i hi (hothers i hi hip), hAB]
            rw [List.getD_eq_getElem?_getD, List.getD_eq_getElem?_getD]
            by_cases hlt : i < A.length
            · rw [List.getElem?_append_left hlt, List.getElem?_append_left hlt]
            · rw [List.getElem?_append_right (by omega), List.getElem?_append_right (by omega)]
              obtain ⟨m, hm⟩ : ∃ m, i - A.length = m + 1 := ⟨i - A.length - 1, by omega⟩
              rw [hm]; rfl
      have hcount : (elems src : Int) = P * (out.getD A.length 0 : Int) := by
        rw [← ho.count, ← prodI_ofNat, hout, prodI_append, prodI_cons, Int.mul_comm _ (prodI B), ← Int.mul_assoc, hP]
      have hq : (elems src : Int) / P = (out.getD A.length 0 : Int) := by
        rw [hcount, Int.mul_ediv_cancel_left _ (by omega)]
      rw [hq, if_pos hcount, hout]
  · have hallpos : ∀ d ∈ new, 0 ≤ d := by
      intro d hd
      obtain ⟨i, hi, rfl⟩ := List.getElem_of_mem hd
      have hne : t.getD i 0 ≠ -1 := by
        rw [Ne, ← hm1 i (by omega)]
        intro h
        apply hmem
        have : new.getD i 0 = new[i] := by simp [List.getD_eq_getElem?_getD, hi]
        rw [← h, this]; exact List.getElem_mem hi
      have := hnn i (by omega) hne
      simpa [List.getD_eq_getElem?_getD, hi] using this
    have hne1 : ∀ i, i < t.length → t.getD i 0 ≠ -1 := by
      intro i hi h
      rw [← hm1 i hi] at h
      apply hmem
      have hi' : i < new.length := by omega
      have : new.getD i 0 = new[i] := by simp [List.getD_eq_getElem?_getD, hi']
      rw [← h, this]; exact List.getElem_mem hi'
    have hp := prodI_nonneg hallpos
    have hnlt : ¬ prodI new < 0 := by omega
    simp only [hnlt, if_false]
    rw [volumeInt_eq hnew]
    have key : new = (new.map Int.toNat).map Int.ofNat := by
      rw [List.map_map]
      symm
      conv => rhs; rw [← List.map_id new]
      apply List.map_congr_left
      intro d hd
      have := hallpos d hd
      simp only [Function.comp, id]
      exact Int.toNat_of_nonneg (by omega)
    have hg : ∀ (l : List Nat) (i : Nat), (l.map Int.ofNat).getD i 0 = (l.getD i 0 : Int) := by
      intro l i
      rw [List.getD_eq_getElem?_getD, List.getD_eq_getElem?_getD, List.getElem?_map]
      cases l[i]? <;> rfl
    constructor
    · intro h
      split at h
      · rename_i hv
        injection h with h
        refine ⟨new.map Int.toNat, by rw [← key, h], ?_⟩
        apply spec_of
        · intro i hi hne
          rw [← hg, ← key]
        · simpa using e2
        · have : (elems (new.map Int.toNat) : Int) = elems src := by rw [← prodI_ofNat, ← key, hv]
          exact_mod_cast this
      · cases h
    · rintro ⟨out, rfl, ho⟩
      have hout : out.map Int.ofNat = new := by
        apply list_ext_getD
        · rw [List.length_map, ho.rank, e2]
        · intro i hi
          rw [List.length_map, ho.rank] at hi
          rw [hg, of_spec out ho i hi (hne1 i hi)]
      rw [← hout, prodI_ofNat, ho.count, if_pos rfl]

theorem reshape_iff {src : List Nat} {t : List Int} (hs : src ≠ []) (hsp : ∀ d ∈ src, 0 < d) (ht : t ≠ [])
    (hge : ∀ v ∈ t, -1 ≤ v) (hone : ∀ i j : Nat, t[i]? = some (-1) → t[j]? = some (-1) → i = j)
    (hz : ∀ j, j < t.length → t.getD j 0 = 0 → j < src.length) (out' : List Int) :
    reshapeShape src t = .ok out' ↔ ∃ out, out' = out.map Int.ofNat ∧ IsReshape src t out :=
  reshape_iff_wild hs (fun _ j hj h0 => by
    have := hz j hj h0
    have h1 := hsp _ (List.getElem_mem this)
    simpa [List.getD_eq_getElem?_getD, this] using h1) ht hge hone hz out'

theorem copyZeros_error (src : List Nat) : ∀ (t : List Int) (i j : Nat), j < t.length → t.getD j 0 = 0 → src.length ≤ i + j → copyZeros src i t = .error .indexError
  | [], _, _, h, _, _ => by simp at h
  | a :: t, i, 0, _, h0, hl => by
    have ha : a = 0 := by simpa using h0
    have : idx (src.map Int.ofNat) i = .error .indexError := by
      unfold idx
      rw [List.getElem?_eq_none (by simpa using hl)]
    simp only [copyZeros, ha, if_true, this, bind, Except.bind]
  | a :: t, i, j + 1, hj, h0, hl => by
    have ih := copyZeros_error src t (i + 1) j (by simpa using hj) (by simpa using h0) (by omega)
    by_cases ha : a = 0
    · simp only [copyZeros, ha, if_true, ih, bind, Except.bind]
      unfold idx
      split <;> rename_i e <;> split at e <;> simp_all
    · simp only [copyZeros, ha, if_false, ih, bind, Except.bind, pure, Except.pure]

theorem prodI_zero {s : List Int} (h : (0 : Int) ∈ s) : prodI s = 0 := by
  induction s with
  | nil => simp at h
  | cons d s ih =>
    rw [prodI_cons]
    rcases List.mem_cons.1 h with h | h
    · rw [← h, Int.zero_mul]
    · rw [ih h, Int.mul_zero]

end OnnxTool.Axes
