import Verif.Proofs.Regress
import Verif.Props.Engine
/-! # C76: shape regression -/
namespace OnnxTool.Props
open OnnxTool OnnxTool.Engine OnnxTool.Regress OnnxTool.Conv OnnxTool.Slice

/-- `update_variable` for every variable of the description, then `update_variables()` -/
def setAndUpdate (ranges : Range) (e : Engine) (σ : String → Int) : Except PyErr Engine :=
  (ranges.foldl (fun e r => e.updateVariable r.1 (σ r.1)) e).updateVariables

/-- several rounds of setting all variables and updating -/
def rounds (ranges : Range) : Engine → List (String → Int) → Except PyErr Engine
  | e, [] => .ok e
  | e, σ :: σs =>
    match setAndUpdate ranges e σ with
    | .error x => .error x
    | .ok e' => rounds ranges e' σs

/-- **C76.** For a network whose dynamic dimensions are numbers or functions of one variable (`Regular`), `shape_regress` succeeds, and the engine it
returns predicts, after any number of earlier rounds with other values in the domain, for all values `σ` of the variables in their domains — not only
the sampled ones — the shapes `shape_infer` computes: those of the described inputs and of every dynamic tensor. -/
theorem C76_regress_partial (g : Graph) (infer : List (String × List Int) → Except PyErr Shapes) (inputDesc : Dict (List Dim)) (ranges : Range)
    (dom : String → Int → Prop) (F : String → (Int → Int) → Prop) (laws : String → List Law) (hreg : Regular g infer inputDesc ranges dom F laws) :
    ∃ e, shapeRegress g infer inputDesc ranges = .ok e ∧
      ∀ (before : List (String → Int)), (∀ σ ∈ before, InDom ranges dom σ) → ∀ σ, InDom ranges dom σ →
        ∃ e' S, rounds ranges e (before ++ [σ]) = .ok e' ∧ infer (inputsAt inputDesc σ) = .ok S ∧
          (∀ p ∈ inputDesc, e'.getTensorShape p.1 = .ok (p.2.map (dimAt σ))) ∧
          ∀ t ∈ g.dynamics, t ∉ inputDesc.keys → e'.getTensorShape t = .ok (S t) := by
  obtain ⟨e, h1, _, h3⟩ := regress_ok hreg
  refine ⟨e, h1, ?_⟩
  have hone : ∀ e0 : Engine, e0.exprs = e.exprs → e0.tensorDesc = e.tensorDesc → ∀ σ, InDom ranges dom σ →
      ∃ e', setAndUpdate ranges e0 σ = .ok e' ∧ e'.exprs = e.exprs ∧ e'.tensorDesc = e.tensorDesc ∧
        (∀ p ∈ inputDesc, e'.getTensorShape p.1 = .ok (p.2.map (dimAt σ))) ∧
        ∀ t ∈ g.dynamics, t ∉ inputDesc.keys → e'.getTensorShape t = .ok ((laws t).map (Law.at σ)) := by
    intro e0 hx hd σ hσ
    obtain ⟨a1, a2, a3, _⟩ := setAll_vars (fun r => σ r.1) ranges e0 hreg.keys_nodup
    obtain ⟨e', b1, b2, b3, _, b5, b6⟩ := h3 σ hσ _ a3
    refine ⟨e', ?_, b2, b3, b5, b6⟩
    rw [← b1, setAndUpdate]
    simp only [Engine.updateVariables, a1, hx]
    cases updLoop e.exprs (ranges.foldl (fun e r => e.updateVariable r.1 (σ r.1)) e0).variables with
    | error x => rfl
    | ok vs => simp only [bind, Except.bind, pure, Except.pure]; rw [a2, hd]
  have hall : ∀ (before : List (String → Int)) (e0 : Engine), e0.exprs = e.exprs → e0.tensorDesc = e.tensorDesc →
      (∀ σ ∈ before, InDom ranges dom σ) → ∀ σ, InDom ranges dom σ →
      ∃ e', rounds ranges e0 (before ++ [σ]) = .ok e' ∧
        (∀ p ∈ inputDesc, e'.getTensorShape p.1 = .ok (p.2.map (dimAt σ))) ∧
        ∀ t ∈ g.dynamics, t ∉ inputDesc.keys → e'.getTensorShape t = .ok ((laws t).map (Law.at σ)) := by
    intro before
    induction before with
    | nil =>
      intro e0 hx hd _ σ hσ
      obtain ⟨e', c1, _, _, c4, c5⟩ := hone e0 hx hd σ hσ
      exact ⟨e', by simp only [List.nil_append, rounds, c1], c4, c5⟩
    | cons τ before ih =>
      intro e0 hx hd hb σ hσ
      obtain ⟨e1, c1, c2, c3, _⟩ := hone e0 hx hd τ (hb τ List.mem_cons_self)
      obtain ⟨e', d1, d2⟩ := ih e1 c2 c3 (fun σ h => hb σ (List.mem_cons_of_mem _ h)) σ hσ
      exact ⟨e', by simp only [List.cons_append, rounds, c1, d1], d2⟩
  intro before hb σ hσ
  obtain ⟨e', c1, c2, c3⟩ := hall before e rfl rfl hb σ hσ
  obtain ⟨S, s1, s2⟩ := hreg.infer_ok σ hσ
  exact ⟨e', S, c1, s1, c2, fun t ht hti => by rw [s2 t ht]; exact c3 t ht hti⟩

/-! ### Affine dimensions -/

/-- `x` is `x ↦ a * (x / u) + b` on the multiples of `u` -/
def AffineOn (u a b : Int) (f : Int → Int) : Prop := ∀ q, f (u * q) = a * q + b

/-- constant, or affine with a slope of `A` -/
def AffineFam (u : Int) (A : Int → Prop) (f : Int → Int) : Prop := (∃ c, ∀ q, f (u * q) = c) ∨ ∃ a b, A a ∧ AffineOn u a b f

/-- positive slopes, any two of which divide one another -/
def Chain (A : Int → Prop) : Prop := (∀ a, A a → 0 < a) ∧ ∀ a b, A a → A b → a ∣ b ∨ b ∣ a

/-- the expression fitted to a quotient with offset is exact -/
theorem fit_div (c : Int) (hc : 2 ≤ c) (a b1 b2 q0 q1 q2 : Int) (ha : 0 < a) (hq : q0 < q2) :
    ∃ e, buildExpr [c * a * q0 + b1, c * a * q1 + b1, c * a * q2 + b1] [a * q0 + b2, a * q1 + b2, a * q2 + b2] = .ok e ∧
      ∀ q, e.call (c * a * q + b1) = .ok (a * q + b2) := by
  have hD : 0 < a * q2 - a * q0 := by
    rw [← Int.mul_sub]
    exact Int.mul_pos ha (by omega)
  have hS : c * a * q2 + b1 - (c * a * q0 + b1) = c * (a * q2 + b2 - (a * q0 + b2)) := by
    rw [Int.mul_sub, Int.mul_add, Int.mul_add, Int.mul_assoc, Int.mul_assoc]; omega
  have hr : roundDiv (c * a * q2 + b1 - (c * a * q0 + b1)) (a * q2 + b2 - (a * q0 + b2)) = c := by
    rw [hS]
    apply roundDiv_near <;> omega
  have hgt : ¬ (c * a * q2 + b1 - (c * a * q0 + b1) ≤ a * q2 + b2 - (a * q0 + b2)) := by
    rw [hS]
    have : 2 * (a * q2 + b2 - (a * q0 + b2)) ≤ c * (a * q2 + b2 - (a * q0 + b2)) := Int.mul_le_mul_of_nonneg_right hc (by omega)
    omega
  obtain ⟨k, r, hk, hr0, hrc⟩ : ∃ k r, b1 = c * k + r ∧ 0 ≤ r ∧ r < c :=
    ⟨b1 / c, b1 % c, (Int.mul_ediv_add_emod b1 c).symm, Int.emod_nonneg _ (by omega), Int.emod_lt_of_pos _ (by omega)⟩
  have hbeta : (a * q2 + b2) * c - (c * a * q2 + b1) = (b2 - k) * c - r := by
    rw [hk, Int.add_mul, Int.sub_mul, Int.mul_comm c a, Int.mul_assoc a c q2, Int.mul_comm c q2, ← Int.mul_assoc, Int.mul_comm c k]; omega
  have hx : ∀ q, c * a * q + b1 = (a * q + k) * c + r := by
    intro q
    rw [hk, Int.add_mul, Int.mul_comm c a, Int.mul_assoc a c q, Int.mul_comm c q, ← Int.mul_assoc, Int.mul_comm c k]; omega
  have hfloor : ∀ q, Int.fdiv (c * a * q + b1) c = a * q + k := by
    intro q
    refine floor_unique (by omega) ?_ ?_
    · rw [hx]; omega
    · rw [hx, Int.add_mul (a * q + k) 1 c]; omega
  have hceil : ∀ q, ceilDiv (c * a * q + b1) c = a * q + k + (if r = 0 then 0 else 1) := by
    intro q
    split
    · rename_i h0
      refine ceil_unique (by omega) ?_ ?_
      · rw [hx, show a * q + k + 0 - 1 = (a * q + k) - 1 by omega, Int.sub_mul (a * q + k) 1 c]; omega
      · rw [hx, show a * q + k + 0 = a * q + k by omega]; omega
    · rename_i h0
      refine ceil_unique (by omega) ?_ ?_
      · rw [hx, show a * q + k + 1 - 1 = (a * q + k) by omega]; omega
      · rw [hx, Int.add_mul (a * q + k) 1 c]; omega
  -- the offset is one of two values
  have hoff : roundDiv ((b2 - k) * c - r) c = b2 - k ∨ (r ≠ 0 ∧ roundDiv ((b2 - k) * c - r) c = b2 - k - 1) := by
    by_cases h1 : 2 * r < c
    · left; apply roundDiv_near <;> omega
    · by_cases h2 : c < 2 * r
      · right
        refine ⟨by omega, ?_⟩
        have h3 : (b2 - k - 1) * c = (b2 - k) * c - c := by rw [Int.sub_mul (b2 - k) 1 c]; omega
        apply roundDiv_near <;> omega
      · -- a tie
        have hdm := (Int.ediv_emod_unique (a := (b2 - k) * c - r) (b := c) (q := b2 - k - 1) (r := c - r) (by omega)).mpr
          ⟨by rw [Int.mul_comm c, Int.sub_mul (b2 - k) 1 c]; omega, by omega, by omega⟩
        unfold roundDiv
        simp only [show ¬ c < 0 by omega, if_false, hdm.1, hdm.2]
        rw [if_neg (by omega), if_neg (by omega)]
        split
        · right; exact ⟨by omega, rfl⟩
        · left; omega
  obtain ⟨ρ, hρ⟩ : ∃ ρ, ρ = if r = 0 then (0 : Int) else 1 := ⟨_, rfl⟩
  have hρ0 : r ≠ 0 → ρ = 1 := fun h => by rw [hρ, if_neg h]
  rw [← hρ] at hceil
  have hne : ([c * a * q0 + b1, c * a * q1 + b1, c * a * q2 + b1] : List Int) ≠ [] := by simp
  generalize hbt : roundDiv ((b2 - k) * c - r) c = β at hoff
  have hcall : ∀ q, ({ alpha := c, beta := β, factor := true } : ValueExpr).call (c * a * q + b1) = .ok (a * q + k + ρ + β) := by
    intro q
    simp only [ValueExpr.call, if_true, if_neg (show c ≠ 0 by omega), Bool.false_eq_true, if_false, hceil]
  have hbuild : buildExpr [c * a * q0 + b1, c * a * q1 + b1, c * a * q2 + b1] [a * q0 + b2, a * q1 + b2, a * q2 + b2] =
      .ok (if 3 * (ρ + β + k - b2) ≠ 0 then { alpha := c, beta := β, factor := true, truncmode := true } else { alpha := c, beta := β, factor := true }) := by
    simp only [buildExpr, if_neg hne, List.length_cons, List.length_nil, idx, List.getElem?_cons_zero, List.getElem?_cons_succ, Nat.reduceAdd, Nat.reduceSub,
      bind, Except.bind, if_neg hgt, hr, if_neg (show a * q2 + b2 - (a * q0 + b2) ≠ 0 by omega), if_neg (show c ≠ 0 by omega), hbeta, hbt, callAll, hcall, pure, Except.pure]
    have hsum : (List.zipWith (fun a b => a - b) [a * q0 + k + ρ + β, a * q1 + k + ρ + β, a * q2 + k + ρ + β] [a * q0 + b2, a * q1 + b2, a * q2 + b2]).sum =
        3 * (ρ + β + k - b2) := by
      simp only [List.zipWith_cons_cons, List.zipWith_nil_left, List.sum_cons, List.sum_nil]
      omega
    rw [hsum]
  refine ⟨_, hbuild, ?_⟩
  intro q
  by_cases hd : 3 * (ρ + β + k - b2) = 0
  · rw [if_neg (by omega), hcall]
    congr 1
    omega
  · rw [if_pos (by omega)]
    simp only [ValueExpr.call, if_true, if_neg (show c ≠ 0 by omega), hfloor]
    congr 1
    rcases hoff with h | ⟨h0, h⟩
    · omega
    · have := hρ0 h0; omega

/-- **C76, affine dimensions are told apart.** -/
theorem C76_affine_told (u lo hi : Int) (A : Int → Prop) (hu : A u) (hA : Chain A) (hlt : lo < hi)
    (h1 : u ∣ lo) (h2 : u ∣ middle lo hi) (h3 : u ∣ hi) : Told lo hi (fun x => u ∣ x) (AffineFam u A) := by
  have hpos := hA.1 u hu
  obtain ⟨q0, rfl⟩ := h1
  obtain ⟨q2, rfl⟩ := h3
  have hq : q0 < q2 := Int.lt_of_mul_lt_mul_left hlt (by omega)
  have hsl : ∀ a b a' b', 0 < a → 0 < a' → a * q0 + b = a' * q0 + b' → a * q2 + b = a' * q2 + b' → a = a' ∧ b = b' := by
    intro a b a' b' _ _ e1 e2
    have h : (a - a') * (q2 - q0) = 0 := by
      rw [Int.sub_mul, Int.mul_sub, Int.mul_sub]; omega
    rcases Int.mul_eq_zero.mp h with h | h
    · have : a = a' := by omega
      subst this
      exact ⟨rfl, by omega⟩
    · omega
  refine ⟨⟨q0, rfl⟩, h2, ⟨q2, rfl⟩, Or.inr ⟨u, 0, hu, fun q => (Int.add_zero _).symm⟩, ?_, ?_⟩
  · rintro f g (⟨c, hf⟩ | ⟨a, b, ha, hf⟩) (⟨c', hg⟩ | ⟨a', b', ha', hg⟩) e1 _ e3 x ⟨q, rfl⟩
    · rw [hf, hg] at e1 ⊢; exact e1
    · rw [hf, hg] at e1 e3
      have := Int.mul_lt_mul_of_pos_left hq (hA.1 a' ha')
      omega
    · rw [hf, hg] at e1 e3
      have := Int.mul_lt_mul_of_pos_left hq (hA.1 a ha)
      omega
    · rw [hf, hg] at e1 e3 ⊢
      obtain ⟨rfl, rfl⟩ := hsl a b a' b' (hA.1 a ha) (hA.1 a' ha') e1 e3
      rfl
  · rintro f (⟨c, hf⟩ | ⟨a, b, ha, hf⟩) e x ⟨q, rfl⟩
    · rw [hf, hf]
    · rw [hf, hf] at e
      have := Int.mul_lt_mul_of_pos_left hq (hA.1 a ha)
      omega

/-- **C76, affine dimensions are fitted exactly**, whichever of the two is the source. -/
theorem C76_affine_fitted (u lo hi : Int) (A : Int → Prop) (hu : A u) (hA : Chain A) (hlt : lo < hi)
    (h1 : u ∣ lo) (h2 : u ∣ middle lo hi) (h3 : u ∣ hi) (f g : Int → Int) (hf : AffineFam u A f) (hg : AffineFam u A g)
    (hfn : f lo ≠ f hi) (hgn : g lo ≠ g hi) : Fitted lo hi (fun x => u ∣ x) f g := by
  have hpos := hA.1 u hu
  unfold Fitted
  obtain ⟨q1, hq1⟩ := h2
  rw [hq1]
  obtain ⟨q0, rfl⟩ := h1
  obtain ⟨q2, rfl⟩ := h3
  have hq : q0 < q2 := Int.lt_of_mul_lt_mul_left hlt (by omega)
  rcases hf with ⟨c, hf⟩ | ⟨a, b, ha, hf⟩
  · exact absurd ((hf q0).trans (hf q2).symm) hfn
  rcases hg with ⟨c, hg⟩ | ⟨a', b', ha', hg⟩
  · exact absurd ((hg q0).trans (hg q2).symm) hgn
  have hap := hA.1 a ha
  have hap' := hA.1 a' ha'
  rw [hf, hf, hf, hg, hg, hg]
  have hmul : (∃ c, 1 ≤ c ∧ a' = c * a) ∨ ∃ c, 2 ≤ c ∧ a = c * a' := by
    rcases hA.2 a a' ha ha' with ⟨c, hc⟩ | ⟨c, hc⟩
    · left
      refine ⟨c, ?_, by rw [hc, Int.mul_comm]⟩
      rcases Int.lt_or_le 0 c with h | h
      · omega
      · have := Int.mul_nonpos_of_nonneg_of_nonpos (show 0 ≤ a by omega) h
        omega
    · by_cases hc1 : c = 1
      · left; exact ⟨1, by omega, by rw [hc, hc1]; omega⟩
      · right
        refine ⟨c, ?_, by rw [hc, Int.mul_comm]⟩
        rcases Int.lt_or_le 0 c with h | h
        · omega
        · have := Int.mul_nonpos_of_nonneg_of_nonpos (show 0 ≤ a' by omega) h
          omega
  rcases hmul with ⟨c, hc, rfl⟩ | ⟨c, hc, rfl⟩
  · have hx : ∀ q, c * (a * q + b) + (b' - c * b) = c * a * q + b' := by
      intro q; rw [Int.mul_add, Int.mul_assoc]; omega
    obtain ⟨e, he1, he2⟩ := C27_affine c (b' - c * b) hc (a * q0 + b) (a * q2 + b) [a * q1 + b] (by
      have := Int.mul_lt_mul_of_pos_left hq hap; omega)
    simp only [List.map_append, List.map_cons, List.map_nil, hx] at he1
    refine ⟨e, he1, ?_⟩
    rintro x ⟨q, rfl⟩
    rw [hf, hg, he2, hx]
  · obtain ⟨e, he1, he2⟩ := fit_div c hc a' b b' q0 q1 q2 hap' hq
    refine ⟨e, he1, ?_⟩
    rintro x ⟨q, rfl⟩
    rw [hf, hg, he2]

/-- **C76, networks with affine dimensions.** If every dynamic dimension is a number or affine in one variable, the values of the variable are multiples of a
unit `u k`, and the slopes per unit (with `u k` among them) divide one another, shape regression is exact for all multiples of the units.
(With `u k = 1`: dimensions `n`, `2*n+1`, `4*n`; with `u k = 32`: strides 2, 4, 8, 16, 32, each with an offset, and upsampling back.) -/
theorem C76_affine_partial (g : Graph) (infer : List (String × List Int) → Except PyErr Shapes) (inputDesc : Dict (List Dim)) (ranges : Range)
    (u : String → Int) (A : String → Int → Prop) (laws : String → List Law)
    (hkeys : (ranges.map (·.1)).Nodup) (hnames : ∀ r ∈ ranges, isNumeric r.1 = false) (hdesc : inputDesc.keys.Nodup)
    (hvars : ∀ p ∈ inputDesc, ∀ v, Dim.var v ∈ p.2 → v ∈ ranges.map (·.1))
    (hprod : ∀ t ∈ g.dynamics, t ∉ inputDesc.keys → ∃ p ps n, g.producedby.get? t = some (p :: ps) ∧ findNode g.nodemap p = some n)
    (hslopes : ∀ r ∈ ranges, A r.1 (u r.1) ∧ Chain (A r.1) ∧ r.2.1 < r.2.2 ∧ u r.1 ∣ r.2.1 ∧ u r.1 ∣ middle r.2.1 r.2.2 ∧ u r.1 ∣ r.2.2)
    (hlaws : ∀ t ∈ g.dynamics, ∀ k f, Law.along k f ∈ laws t → k ∈ ranges.map (·.1) ∧ AffineFam (u k) (A k) f)
    (hinfer : ∀ σ : String → Int, (∀ r ∈ ranges, u r.1 ∣ σ r.1) → ∃ S, infer (inputsAt inputDesc σ) = .ok S ∧ ∀ t ∈ g.dynamics, S t = (laws t).map (Law.at σ)) :
    ∃ e, shapeRegress g infer inputDesc ranges = .ok e ∧
      ∀ σ : String → Int, (∀ r ∈ ranges, u r.1 ∣ σ r.1) →
        ∃ e' S, setAndUpdate ranges e σ = .ok e' ∧ infer (inputsAt inputDesc σ) = .ok S ∧
          ∀ t ∈ g.dynamics, t ∉ inputDesc.keys → e'.getTensorShape t = .ok (S t) := by
  have hreg : Regular g infer inputDesc ranges (fun k x => u k ∣ x) (fun k => AffineFam (u k) (A k)) laws := by
    refine ⟨hkeys, hnames, hdesc, hvars, ?_, hlaws, hinfer, hprod, ?_⟩
    · intro r hr
      obtain ⟨a1, a2, a3, a4, a5, a6⟩ := hslopes r hr
      exact C76_affine_told _ _ _ _ a1 a2 a3 a4 a5 a6
    · intro r hr t ht hti f hf hne
      obtain ⟨a1, a2, a3, a4, a5, a6⟩ := hslopes r hr
      have hF := (hlaws t ht _ f hf).2
      refine ⟨C76_affine_fitted _ _ _ _ a1 a2 a3 a4 a5 a6 _ f (Or.inr ⟨u r.1, 0, a1, fun q => (Int.add_zero _).symm⟩) hF (by omega) hne, ?_⟩
      intro p ps n _ _ w _ hwd _ f' hf' hne'
      exact C76_affine_fitted _ _ _ _ a1 a2 a3 a4 a5 a6 f' f (hlaws w hwd _ f' hf').2 hF hne' hne
  obtain ⟨e, h1, h2⟩ := C76_regress_partial g infer inputDesc ranges _ _ laws hreg
  refine ⟨e, h1, fun σ hσ => ?_⟩
  obtain ⟨e', S, c1, c2, _, c4⟩ := h2 [] (by simp) σ hσ
  refine ⟨e', S, ?_, c2, c4⟩
  simp only [List.nil_append, rounds] at c1
  cases hs : setAndUpdate ranges e σ with
  | error x => rw [hs] at c1; cases c1
  | ok e1 => rw [hs] at c1; exact c1

/-! ### Rounded-up quotients -/

theorem isCeil_lt {a : Int} (ha : 0 < a) {f : Int → Int} (hf : IsCeil a 0 f) (n x : Int) : n < f x ↔ n * a < x := by
  obtain ⟨h1, h2⟩ := hf x
  rw [Int.sub_zero] at h1 h2
  constructor
  · intro h
    have := Int.mul_le_mul_of_nonneg_right (show n ≤ f x - 1 by omega) (show 0 ≤ a by omega)
    omega
  · intro h
    have h3 : n * a < f x * a := by omega
    exact Int.lt_of_mul_lt_mul_right h3 (by omega)

theorem isCeil_mult {a : Int} (ha : 0 < a) {f : Int → Int} (hf : IsCeil a 0 f) (q : Int) : f (q * a) = q := by
  have h1 := isCeil_lt ha hf (q - 1) (q * a)
  have h2 := isCeil_lt ha hf q (q * a)
  have h3 : (q - 1) * a < q * a := by rw [Int.sub_mul]; omega
  have := h1.mpr h3
  have : ¬ q < f (q * a) := fun h => by have := h2.mp h; omega
  omega

/-- the largest value is a positive multiple of the stride, and the range is wide -/
def WideRange (lo hi a : Int) : Prop := 0 < a ∧ ∃ q, 0 < q ∧ hi = q * a ∧ lo ≤ (q - 2 * a) * a

/-- **C76, rounded-up quotients.** If every dynamic dimension is a number or `⌈x/a⌉` for a variable `x` (a chain of strided layers that round up), strides only
grow by factors from the operands of a node to its results, the largest value of each variable is a multiple of all its strides, and the ranges are wide
enough for the strides, shape regression is exact for all values of the variables. -/
theorem C76_ceil_partial (g : Graph) (infer : List (String × List Int) → Except PyErr Shapes) (inputDesc : Dict (List Dim)) (ranges : Range)
    (A : String → Int → Prop) (laws : String → List Law)
    (hkeys : (ranges.map (·.1)).Nodup) (hnames : ∀ r ∈ ranges, isNumeric r.1 = false) (hdesc : inputDesc.keys.Nodup)
    (hvars : ∀ p ∈ inputDesc, ∀ v, Dim.var v ∈ p.2 → v ∈ ranges.map (·.1))
    (hprod : ∀ t ∈ g.dynamics, t ∉ inputDesc.keys → ∃ p ps n, g.producedby.get? t = some (p :: ps) ∧ findNode g.nodemap p = some n)
    (hwide : ∀ r ∈ ranges, A r.1 1 ∧ ∀ a, A r.1 a → WideRange r.2.1 r.2.2 a)
    (hlaws : ∀ t ∈ g.dynamics, ∀ k f, Law.along k f ∈ laws t → k ∈ ranges.map (·.1) ∧ ∃ a, A k a ∧ IsCeil a 0 f)
    (hedge : ∀ t ∈ g.dynamics, t ∉ inputDesc.keys → ∀ p ps n, g.producedby.get? t = some (p :: ps) → findNode g.nodemap p = some n →
      ∀ u ∈ n.input, u ∈ g.dynamics → u ∉ inputDesc.keys → ∀ k f f' a a', Law.along k f ∈ laws t → IsCeil a 0 f → A k a →
        Law.along k f' ∈ laws u → IsCeil a' 0 f' → A k a' → a' ∣ a)
    (hinfer : ∀ σ : String → Int, ∃ S, infer (inputsAt inputDesc σ) = .ok S ∧ ∀ t ∈ g.dynamics, S t = (laws t).map (Law.at σ)) :
    ∃ e, shapeRegress g infer inputDesc ranges = .ok e ∧
      ∀ σ : String → Int, ∃ e' S, setAndUpdate ranges e σ = .ok e' ∧ infer (inputsAt inputDesc σ) = .ok S ∧
        ∀ t ∈ g.dynamics, t ∉ inputDesc.keys → e'.getTensorShape t = .ok (S t) := by
  have hid : IsCeil 1 0 (fun x => x) := fun x => ⟨by show (x - 0 - 1) * 1 < x; omega, by show x ≤ (x - 0) * 1; omega⟩
  -- the samples
  have hhi : ∀ lo hi a f, WideRange lo hi a → IsCeil a 0 f → ∃ q, hi = q * a ∧ 0 < q ∧ f hi = q ∧ f lo ≤ q - 2 * a := by
    rintro lo hi a f ⟨ha, q, hq, he, hl⟩ hf
    refine ⟨q, he, hq, by rw [he]; exact isCeil_mult ha hf q, ?_⟩
    have h2 := isCeil_lt ha hf (q - 2 * a) lo
    have : ¬ (q - 2 * a < f lo) := fun h => by have := h2.mp h; omega
    omega
  have hfit : ∀ lo hi a a' f f', WideRange lo hi a → WideRange lo hi a' → IsCeil a 0 f → IsCeil a' 0 f' → a' ∣ a →
      Fitted lo hi (fun _ => True) f' f := by
    intro lo hi a a' f f' hw hw' hf hf' hdiv
    obtain ⟨q, he, hq, h1, h2⟩ := hhi lo hi a f hw hf
    obtain ⟨q', he', hq', h1', h2'⟩ := hhi lo hi a' f' hw' hf'
    obtain ⟨c, rfl⟩ := hdiv
    have ha' : 0 < a' := hw'.1
    have hac : 0 < a' * c := hw.1
    have hc : 0 < c := by
      rcases Int.lt_or_le 0 c with h | h
      · exact h
      · have := Int.mul_nonpos_of_nonneg_of_nonpos (show 0 ≤ a' by omega) h
        omega
    -- the quotient of the operand
    have hcomp : ∀ x, f x = ceilDiv (f' x) c := by
      intro x
      have hk : ∀ n, n < f x ↔ n < ceilDiv (f' x) c := by
        intro n
        rw [isCeil_lt hac hf, lt_ceilDiv hc, isCeil_lt ha' hf', Int.mul_comm a' c, ← Int.mul_assoc]
      have := hk (f x - 1)
      have := hk (f x)
      omega
    have hqq : q' = q * c := by
      have : q' * a' = q * c * a' := by rw [← he', he, Int.mul_comm a' c, ← Int.mul_assoc]
      exact Int.eq_of_mul_eq_mul_right (by omega) this
    by_cases hc1 : c = 1
    · subst hc1
      have hsame : ∀ x, f x = 1 * f' x + 0 := by
        intro x
        rw [hcomp, show (1 : Int) * f' x + 0 = f' x by omega]
        exact ceil_unique (by omega) (by omega) (by omega)
      obtain ⟨e, g1, g2⟩ := C27_affine 1 0 (by omega) (f' lo) (f' hi) [f' (middle lo hi)] (by omega)
      refine ⟨e, ?_, fun x _ => by rw [hsame]; exact g2 _⟩
      rw [hsame lo, hsame (middle lo hi), hsame hi]
      exact g1
    · have hisc : IsCeil c 0 (fun y => ceilDiv y c) := by
        intro y
        have k1 := lt_ceilDiv (a := y) hc (ceilDiv y c - 1)
        have k2 := lt_ceilDiv (a := y) hc (ceilDiv y c)
        rw [Int.sub_zero]
        refine ⟨k1.mp (by omega), ?_⟩
        rcases Int.lt_or_le (ceilDiv y c * c) y with h | h
        · have := k2.mpr h; omega
        · exact h
      have hlo := hisc (f' lo)
      have hac' : c ≤ a' * c := by
        have := Int.mul_le_mul_of_nonneg_right (show 1 ≤ a' by omega) (show 0 ≤ c by omega)
        omega
      simp only [← hcomp, Int.sub_zero] at hlo
      rw [Int.sub_mul] at hlo
      have hw2 : Wide c (f' hi - f' lo) (f hi - f lo) := by
        have hm : c * (f hi - f lo) = q * c - f lo * c := by rw [Int.mul_sub, h1, Int.mul_comm c q, Int.mul_comm c (f lo)]
        unfold Wide
        rw [hm, h1', hqq]
        omega
      have hend : 2 * ((f hi - 0) * c - f' hi) < c := by
        rw [Int.sub_zero, h1, h1', hqq]
        omega
      obtain ⟨e, g1, g2⟩ := C27_ceil_partial c 0 (by omega) (fun y => ceilDiv y c) hisc (f' lo) (f' hi) [f' (middle lo hi)]
        (by simp only [← hcomp]; exact hw2) (by simp only [← hcomp]; exact hend)
      simp only [List.map_append, List.map_cons, List.map_nil, ← hcomp] at g1
      exact ⟨e, g1, fun x _ => by rw [hcomp x]; exact g2 _⟩
  have hreg : Regular g infer inputDesc ranges (fun _ _ => True) (fun k f => ∃ a, A k a ∧ IsCeil a 0 f) laws := by
    refine ⟨hkeys, hnames, hdesc, hvars, ?_, hlaws, fun σ _ => hinfer σ, hprod, ?_⟩
    · intro r hr
      obtain ⟨w1, w2⟩ := hwide r hr
      refine ⟨trivial, trivial, trivial, ⟨1, w1, hid⟩, ?_, ?_⟩
      · rintro f f' ⟨a, ha, hf⟩ ⟨a', ha', hf'⟩ _ _ e x _
        obtain ⟨q, he, hq, h1, _⟩ := hhi _ _ a f (w2 a ha) hf
        obtain ⟨q', he', _, h1', _⟩ := hhi _ _ a' f' (w2 a' ha') hf'
        have hqq : q = q' := by rw [← h1, e, h1']
        subst hqq
        have : a = a' := Int.eq_of_mul_eq_mul_left (show q ≠ 0 by omega) (he.symm.trans he')
        subst this
        have ha0 := (w2 a ha).1
        have hk : ∀ n, n < f x ↔ n < f' x := fun n => by rw [isCeil_lt ha0 hf, isCeil_lt ha0 hf']
        have := hk (f x - 1)
        have := hk (f x)
        omega
      · rintro f ⟨a, ha, hf⟩ e x _
        have := (w2 a ha).1
        obtain ⟨q, _, _, h1, h2⟩ := hhi _ _ a f (w2 a ha) hf
        omega
    · intro r hr t ht hti f hf _
      obtain ⟨w1, w2⟩ := hwide r hr
      obtain ⟨a, ha, hfa⟩ := (hlaws t ht _ f hf).2
      refine ⟨hfit _ _ a 1 f _ (w2 a ha) (w2 1 w1) hfa hid ⟨a, by omega⟩, ?_⟩
      intro p ps n hp hn w hw hwd hwi f' hf' _
      obtain ⟨a', ha', hfa'⟩ := (hlaws w hwd _ f' hf').2
      exact hfit _ _ a a' f f' (w2 a ha) (w2 a' ha') hfa hfa' (hedge t ht hti p ps n hp hn w hw hwd hwi r.1 f f' a a' hf hfa ha hf' hfa' ha')
  obtain ⟨e, h1, h2⟩ := C76_regress_partial g infer inputDesc ranges _ _ laws hreg
  refine ⟨e, h1, fun σ => ?_⟩
  obtain ⟨e', S, c1, c2, _, c4⟩ := h2 [] (by simp) σ (fun _ _ => trivial)
  refine ⟨e', S, ?_, c2, c4⟩
  simp only [List.nil_append, rounds] at c1
  cases hs : setAndUpdate ranges e σ with
  | error x => rw [hs] at c1; cases c1
  | ok e1 => rw [hs] at c1; exact c1

/-! ### Examples -/

/-- two nodes: `y = Concat(x, x)`, `z = Concat(y, y)` along the second axis -/
def concats : Graph where
  nodemap := [{ name := "c1", op := "Concat", input := ["x", "x"], output := ["y"] }, { name := "c2", op := "Concat", input := ["y", "y"], output := ["z"] }]
  input := ["x"]
  output := ["z"]
  dynamics := ["y", "z"]
  producedby := [("y", ["c1"]), ("z", ["c2"])]

/-- its shape inference, for an input of rank 2 -/
def concatsInfer (i : List (String × List Int)) : Except PyErr Shapes :=
  match Dict.get? i "x" with
  | some [b, n] => .ok fun t => if t = "y" then [b, 2 * n] else if t = "z" then [b, 4 * n] else []
  | _ => .error .valueError

/-- the dimensions of `y` and `z` -/
def concatsLaws (t : String) : List Law :=
  if t = "y" then [.along "b" fun x => x, .along "n" fun x => 2 * x] else if t = "z" then [.along "b" fun x => x, .along "n" fun x => 4 * x] else []

/-- The hypotheses of `C76_affine_partial` hold for this network, so its regression is exact for every batch and length. -/
example : ∃ e, shapeRegress concats concatsInfer [("x", [.var "b", .var "n"])] [("b", 1, 4), ("n", 16, 384)] = .ok e ∧
    ∀ σ : String → Int, ∃ e' S, setAndUpdate [("b", 1, 4), ("n", 16, 384)] e σ = .ok e' ∧ concatsInfer [("x", [σ "b", σ "n"])] = .ok S ∧
      e'.getTensorShape "z" = .ok (S "z") ∧ S "z" = [σ "b", 4 * σ "n"] := by
  have h := C76_affine_partial concats concatsInfer [("x", [.var "b", .var "n"])] [("b", 1, 4), ("n", 16, 384)] (fun _ => 1)
    (fun _ a => a = 1 ∨ a = 2 ∨ a = 4) concatsLaws (by decide) (by decide) (by decide)
    (by
      intro p hp v hv
      rw [List.mem_singleton.mp hp] at hv
      simp only [List.mem_cons, Dim.var.injEq, List.not_mem_nil, or_false] at hv
      rcases hv with rfl | rfl <;> decide)
    (by
      intro t ht _
      simp only [concats, List.mem_cons, List.not_mem_nil, or_false] at ht
      rcases ht with rfl | rfl
      · exact ⟨"c1", [], _, rfl, rfl⟩
      · exact ⟨"c2", [], _, rfl, rfl⟩)
    (by
      intro r hr
      refine ⟨Or.inl rfl, ⟨?_, ?_⟩, ?_, Int.one_dvd _, Int.one_dvd _, Int.one_dvd _⟩
      · rintro a (rfl | rfl | rfl) <;> decide
      · rintro a b (rfl | rfl | rfl) (rfl | rfl | rfl) <;> decide
      · simp only [List.mem_cons, List.not_mem_nil, or_false] at hr
        rcases hr with rfl | rfl <;> decide)
    (by
      intro t ht k f hf
      simp only [concats, List.mem_cons, List.not_mem_nil, or_false] at ht
      rcases ht with rfl | rfl
      · rw [show concatsLaws "y" = [.along "b" fun x => x, .along "n" fun x => 2 * x] from rfl] at hf
        simp only [List.mem_cons, Law.along.injEq, List.not_mem_nil, or_false] at hf
        rcases hf with ⟨rfl, rfl⟩ | ⟨rfl, rfl⟩
        · exact ⟨by decide, Or.inr ⟨1, 0, Or.inl rfl, fun q => (Int.add_zero _).symm⟩⟩
        · exact ⟨by decide, Or.inr ⟨2, 0, Or.inr (Or.inl rfl), fun q => by show 2 * (1 * q) = 2 * q + 0; omega⟩⟩
      · rw [show concatsLaws "z" = [.along "b" fun x => x, .along "n" fun x => 4 * x] from rfl] at hf
        simp only [List.mem_cons, Law.along.injEq, List.not_mem_nil, or_false] at hf
        rcases hf with ⟨rfl, rfl⟩ | ⟨rfl, rfl⟩
        · exact ⟨by decide, Or.inr ⟨1, 0, Or.inl rfl, fun q => (Int.add_zero _).symm⟩⟩
        · exact ⟨by decide, Or.inr ⟨4, 0, Or.inr (Or.inr rfl), fun q => by show 4 * (1 * q) = 4 * q + 0; omega⟩⟩)
    (by
      intro σ _
      refine ⟨_, rfl, ?_⟩
      intro t ht
      simp only [concats, List.mem_cons, List.not_mem_nil, or_false] at ht
      rcases ht with rfl | rfl <;> rfl)
  obtain ⟨e, h1, h2⟩ := h
  refine ⟨e, h1, fun σ => ?_⟩
  obtain ⟨e', S, c1, c2, c3⟩ := h2 σ (fun r _ => Int.one_dvd _)
  have c2' : concatsInfer [("x", [σ "b", σ "n"])] = .ok S := c2
  refine ⟨e', S, c1, c2', c3 "z" (by decide) (by decide), ?_⟩
  have := Except.ok.inj c2'
  rw [← this]
  rfl

/-- two layers of stride 2 that round up -/
def strided : Graph where
  nodemap := [{ name := "p1", op := "MaxPool", input := ["x"], output := ["y"] }, { name := "p2", op := "MaxPool", input := ["y"], output := ["z"] }]
  input := ["x"]
  output := ["z"]
  dynamics := ["y", "z"]
  producedby := [("y", ["p1"]), ("z", ["p2"])]

def stridedInfer (i : List (String × List Int)) : Except PyErr Shapes :=
  match Dict.get? i "x" with
  | some [n] => .ok fun t => if t = "y" then [ceilDiv n 2] else if t = "z" then [ceilDiv n 4] else []
  | _ => .error .valueError

def stridedLaws (t : String) : List Law :=
  if t = "y" then [.along "n" fun x => ceilDiv x 2] else if t = "z" then [.along "n" fun x => ceilDiv x 4] else []

theorem isCeil_ceilDiv {c : Int} (hc : 0 < c) : IsCeil c 0 (fun y => ceilDiv y c) := by
  intro y
  have k1 := lt_ceilDiv (a := y) hc (ceilDiv y c - 1)
  have k2 := lt_ceilDiv (a := y) hc (ceilDiv y c)
  rw [Int.sub_zero]
  refine ⟨k1.mp (by omega), ?_⟩
  rcases Int.lt_or_le (ceilDiv y c * c) y with h | h
  · have := k2.mpr h; omega
  · exact h

/-- The hypotheses of `C76_ceil_partial` hold for this network: the regression sampled at 16, 40 and 64 is exact for every length, odd ones included. -/
example : ∃ e, shapeRegress strided stridedInfer [("x", [.var "n"])] [("n", 16, 64)] = .ok e ∧
    ∀ σ : String → Int, ∃ e' S, setAndUpdate [("n", 16, 64)] e σ = .ok e' ∧ stridedInfer [("x", [σ "n"])] = .ok S ∧
      e'.getTensorShape "z" = .ok (S "z") ∧ S "z" = [ceilDiv (σ "n") 4] := by
  have h := C76_ceil_partial strided stridedInfer [("x", [.var "n"])] [("n", 16, 64)] (fun _ a => a = 1 ∨ a = 2 ∨ a = 4) stridedLaws
    (by decide) (by decide) (by decide)
    (by
      intro p hp v hv
      rw [List.mem_singleton.mp hp] at hv
      simp only [List.mem_cons, Dim.var.injEq, List.not_mem_nil, or_false] at hv
      rw [hv]
      decide)
    (by
      intro t ht _
      simp only [strided, List.mem_cons, List.not_mem_nil, or_false] at ht
      rcases ht with rfl | rfl
      · exact ⟨"p1", [], _, rfl, rfl⟩
      · exact ⟨"p2", [], _, rfl, rfl⟩)
    (by
      intro r hr
      rw [List.mem_singleton.mp hr]
      refine ⟨Or.inl rfl, ?_⟩
      rintro a (rfl | rfl | rfl)
      · exact ⟨by decide, 64, by decide, by decide, by decide⟩
      · exact ⟨by decide, 32, by decide, by decide, by decide⟩
      · exact ⟨by decide, 16, by decide, by decide, by decide⟩)
    (by
      intro t ht k f hf
      simp only [strided, List.mem_cons, List.not_mem_nil, or_false] at ht
      rcases ht with rfl | rfl
      · rw [show stridedLaws "y" = [.along "n" fun x => ceilDiv x 2] from rfl] at hf
        simp only [List.mem_cons, Law.along.injEq, List.not_mem_nil, or_false] at hf
        obtain ⟨rfl, rfl⟩ := hf
        exact ⟨by decide, 2, Or.inr (Or.inl rfl), isCeil_ceilDiv (by decide)⟩
      · rw [show stridedLaws "z" = [.along "n" fun x => ceilDiv x 4] from rfl] at hf
        simp only [List.mem_cons, Law.along.injEq, List.not_mem_nil, or_false] at hf
        obtain ⟨rfl, rfl⟩ := hf
        exact ⟨by decide, 4, Or.inr (Or.inr rfl), isCeil_ceilDiv (by decide)⟩)
    (by
      intro t ht _ p ps n hp hn w hw hwd _ k f f' a a' hf hfa ha _ _ ha'
      simp only [strided, List.mem_cons, List.not_mem_nil, or_false] at ht
      rcases ht with rfl | rfl
      · simp only [strided, Dict.get?, if_true, Option.some.injEq, List.cons.injEq] at hp
        rw [← hp.1] at hn
        simp only [strided, findNode, List.find?_cons, decide_true, Option.some.injEq] at hn
        rw [← hn] at hw
        rw [List.mem_singleton.mp hw] at hwd
        exact absurd hwd (by decide)
      · rw [show stridedLaws "z" = [.along "n" fun x => ceilDiv x 4] from rfl] at hf
        simp only [List.mem_cons, Law.along.injEq, List.not_mem_nil, or_false] at hf
        rw [hf.2] at hfa
        have h4 : (4 : Int) ≤ (1 - 0) * a := (hfa 4).2
        have : a = 4 := by omega
        subst this
        rcases ha' with rfl | rfl | rfl <;> decide)
    (by
      intro σ
      refine ⟨_, rfl, ?_⟩
      intro t ht
      simp only [strided, List.mem_cons, List.not_mem_nil, or_false] at ht
      rcases ht with rfl | rfl <;> rfl)
  obtain ⟨e, h1, h2⟩ := h
  refine ⟨e, h1, fun σ => ?_⟩
  obtain ⟨e', S, c1, c2, c3⟩ := h2 σ
  have c2' : stridedInfer [("x", [σ "n"])] = .ok S := c2
  refine ⟨e', S, c1, c2', c3 "z" (by decide) (by decide), ?_⟩
  have := Except.ok.inj c2'
  rw [← this]
  rfl

/-- what is actually found: `"2"` (for `2*n`) is computed from `n`, `"3"` (for `4*n`) from `"2"` — the batch used up number 0 -/
example : (shapeRegress concats concatsInfer [("x", [.var "b", .var "n"])] [("b", 1, 4), ("n", 16, 384)]).toOption.map (fun e => (e.exprs, e.tensorDesc)) =
    some ([("2", ("n", { alpha := 2 })), ("3", ("2", { alpha := 2 }))],
      [("x", [.var "b", .var "n"]), ("y", [.var "b", .var "2"]), ("z", [.var "b", .var "3"])]) := by decide

/-- the description a regression ends with, and its predictions at some values -/
def regressed (g : Graph) (infer : List (String × List Int) → Except PyErr Shapes) (inputDesc : Dict (List Dim)) (ranges : Range) (vals : List (String × Int))
    (t : String) : Except PyErr (List Int) :=
  match shapeRegress g infer inputDesc ranges with
  | .error x => .error x
  | .ok e => predict e vals t

/-- `y = Concat(x, x)`, `z = Concat(y, x)`: lengths `n`, `2*n`, `3*n` -/
def oneAndHalf : Graph := { concats with nodemap := [{ name := "c1", op := "Concat", input := ["x", "x"], output := ["y"] }, { name := "c2", op := "Concat", input := ["y", "x"], output := ["z"] }] }

def oneAndHalfInfer (i : List (String × List Int)) : Except PyErr Shapes :=
  match Dict.get? i "x" with
  | some [n] => .ok fun t => if t = "y" then [2 * n] else if t = "z" then [3 * n] else []
  | _ => .error .valueError

/-- **C76, counterexample** to exactness for affine dimensions whose slopes do not divide one another: `3*n` is computed from `2*n` with factor
`round(3/2) = 2`; for `n = 4` the engine says 6 where shape inference says 12, and even at the sampled smallest value it says -2 (only a warning is issued). -/
theorem C76_slopes_counterexample :
    regressed oneAndHalf oneAndHalfInfer [("x", [.var "n"])] [("n", 2, 10)] [("n", 4)] "z" = .ok [6] ∧
    (oneAndHalfInfer [("x", [4])]).toOption.map (· "z") = some [12] ∧
    regressed oneAndHalf oneAndHalfInfer [("x", [.var "n"])] [("n", 2, 10)] [("n", 2)] "z" = .ok [-2] := ⟨rfl, rfl, rfl⟩

/-- one node that flattens `[n, m]` to `[n*m]` -/
def flat : Graph where
  nodemap := [{ name := "f", op := "Flatten", input := ["x"], output := ["y"] }]
  input := ["x"]
  output := ["y"]
  dynamics := ["y"]
  producedby := [("y", ["f"])]

def flatInfer (i : List (String × List Int)) : Except PyErr Shapes :=
  match Dict.get? i "x" with
  | some [n, m] => .ok fun _ => [n * m]
  | _ => .error .valueError

/-- **C76, counterexample**: a dimension that depends on two variables follows the last one only. -/
theorem C76_product_counterexample :
    regressed flat flatInfer [("x", [.var "n", .var "m"])] [("n", 2, 6), ("m", 2, 6)] [("n", 6), ("m", 6)] "y" = .ok [12] ∧
    (flatInfer [("x", [6, 6])]).toOption.map (· "y") = some [36] := ⟨rfl, rfl⟩

/-- **C76, counterexample**: a dimension that is equal at both ends of the range but not in the middle makes the search raise a ZeroDivisionError. -/
theorem C76_hump_counterexample :
    regressed flat (fun i => match Dict.get? i "x" with | some [n] => .ok fun _ => [(n - 2) * (10 - n)] | _ => .error .valueError)
      [("x", [.var "n"])] [("n", 2, 10)] [("n", 4)] "y" = .error .zeroDivision := rfl

/-- **C76, counterexample**: a variable the user calls `"1"` is taken for one the search introduced, which raises a KeyError. -/
theorem C76_numeric_name_counterexample :
    regressed flat (fun i => match Dict.get? i "x" with | some [n, m] => .ok fun _ => [2 * n + 0 * m] | _ => .error .valueError)
      [("x", [.var "n", .var "1"])] [("n", 2, 10), ("1", 3, 7)] [("n", 4), ("1", 5)] "x" = .error .keyError := rfl

/-- **C76, counterexample**: a varying dynamic tensor without producer that is not described raises a KeyError. -/
theorem C76_unproduced_counterexample :
    regressed { flat with producedby := [] } (fun i => match Dict.get? i "x" with | some [n] => .ok fun _ => [2 * n] | _ => .error .valueError)
      [("x", [.var "n"])] [("n", 2, 10)] [("n", 4)] "y" = .error .keyError := rfl

end OnnxTool.Props
