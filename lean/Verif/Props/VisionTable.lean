import Verif.Spec.VisionTable
import Verif.Props.LlmCost
import Verif.Props.Vision
import Mathlib.Tactic.Linarith
import Mathlib.Tactic.FieldSimp
import Mathlib.Tactic.Positivity
/-!
# C131: the table that compares vision encoder and language model
-/
namespace OnnxTool.Props
open OnnxTool OnnxTool.VisionTable OnnxTool.Builder

private theorem giga_is (n : Nat) : IsGiga n (giga n) := by
  unfold IsGiga giga
  omega

private theorem giga_unique {n k : Nat} (h : IsGiga n k) : k = giga n := by
  unfold IsGiga at h
  unfold giga
  omega

private theorem patches_is (p h w : Nat) (hp : 0 < p) : IsPatchCount p h w (h / p * (w / p)) := by
  have key : ∀ n i, i < n / p ↔ i * p + p ≤ n := fun n i => by
    rw [Nat.lt_iff_add_one_le, Nat.le_div_iff_mul_le hp, Nat.add_mul, Nat.one_mul]
  exact ⟨_, _, rfl, key h, key w⟩

private theorem patches_unique {p h w n : Nat} (hp : 0 < p) (hn : IsPatchCount p h w n) : n = h / p * (w / p) := by
  obtain ⟨a, b, rfl, ha, hb⟩ := hn
  have key : ∀ n x, (∀ i, i < x ↔ i * p + p ≤ n) → x = n / p := fun n x hx => by
    have k : ∀ i, i < x ↔ i < n / p := fun i => by
      rw [hx i, Nat.lt_iff_add_one_le, Nat.le_div_iff_mul_le hp, Nat.add_mul, Nat.one_mul]
    rcases Nat.lt_trichotomy x (n / p) with h | h | h
    · exact absurd ((k x).mpr h) (lt_irrefl _)
    · exact h
    · exact absurd ((k _).mp h) (lt_irrefl _)
  rw [key h a ha, key w b hb]

/-- **C131, a row.** A row is printed exactly when the patches have a size, both graphs can be profiled, the decoder on the patches and the text, and the
decoder needs at least a thousand million operations; it then says what `IsRow` says. -/
theorem C131_row (patch : Option Nat) (text : Nat) (vis : List Nat → Except PyErr Nat) (llm : Nat → Except PyErr Nat) (label : String) (ch h w : Nat) (rest : List Nat) (x : Row) :
    row patch text vis llm (label, ch :: h :: w :: rest) = .ok x ↔
      0 < patch.getD 14 ∧ ∃ v l, vis (ch :: h :: w :: rest) = .ok v ∧ llm x.tokens = .ok l ∧ 1000000000 ≤ l ∧ IsRow (patch.getD 14) text label h w v l x := by
  unfold row
  simp only [List.getElem?_cons_succ, List.getElem?_cons_zero]
  generalize patch.getD 14 = p
  constructor
  · intro e
    split at e
    · cases e
    rename_i hp
    have hp : 0 < p := Nat.pos_of_ne_zero hp
    split at e
    · cases e
    rename_i v hv
    split at e
    · cases e
    rename_i l hl
    split at e
    · cases e
    rename_i hg
    cases e
    have hg' : (giga l : ℚ) ≠ 0 := by exact_mod_cast hg
    refine ⟨hp, v, l, hv, hl, by unfold giga at hg; omega, ⟨rfl, patches_is p h w hp, rfl, giga_is v, giga_is l, ?_, rfl⟩⟩
    field_simp
  · rintro ⟨hp, v, l, hv, hl, h9, hx⟩
    obtain ⟨xl, xp, xt, xv, xL, xr, xo⟩ := x
    obtain ⟨h1, h2, h3, h4, h5, h6, h7⟩ := hx
    simp only at h1 h2 h3 h4 h5 h6 h7 hl
    have e2 := patches_unique hp h2
    have e4 := giga_unique h4
    have e5 := giga_unique h5
    subst e2 e4 e5 h1 h3 h7
    have hg : giga l ≠ 0 := by unfold giga; omega
    rw [if_neg (by omega), hv]
    simp only [hl]
    rw [if_neg hg]
    have hg' : (giga l : ℚ) ≠ 0 := by exact_mod_cast hg
    congr 2
    field_simp
    linarith

/-- **C131, the table** has one row for every resolution, in order, each the row of its own image. -/
theorem C131_table (patch : Option Nat) (text : Nat) (vis : List Nat → Except PyErr Nat) (llm : Nat → Except PyErr Nat) (rs : List (String × List Nat)) (xs : List Row) :
    table patch text vis llm rs = .ok xs ↔ List.Forall₂ (fun r x => row patch text vis llm r = .ok x) rs xs := by
  induction rs generalizing xs with
  | nil =>
    unfold table
    constructor
    · intro e; cases e; exact List.Forall₂.nil
    · intro e; cases e; rfl
  | cons r rs ih =>
    unfold table
    constructor
    · intro e
      split at e
      · cases e
      rename_i x hx
      split at e
      · cases e
      rename_i ys hys
      cases e
      exact List.Forall₂.cons hx ((ih ys).mp hys)
    · intro e
      cases e with
      | cons hx ht => rw [hx, (ih _).mpr ht]

/-- **C131, no rows.** Nothing is printed as soon as one row fails, with the error of the first one that does. -/
theorem C131_first_error (patch : Option Nat) (text : Nat) (vis : List Nat → Except PyErr Nat) (llm : Nat → Except PyErr Nat) (pre post : List (String × List Nat))
    (r : String × List Nat) (e : PyErr) (hpre : ∀ q ∈ pre, ∃ x, row patch text vis llm q = .ok x) (he : row patch text vis llm r = .error e) :
    table patch text vis llm (pre ++ r :: post) = .error e := by
  induction pre with
  | nil => simp only [List.nil_append, table, he]
  | cons q qs ih =>
    obtain ⟨x, hx⟩ := hpre q List.mem_cons_self
    simp only [List.cons_append, table, hx, ih fun q hq => hpre q (List.mem_cons_of_mem _ hq)]

/-- **C131 finding**: a decoder of less than a thousand million operations stops the program, whatever the encoder costs. -/
theorem C131_small_decoder (patch : Option Nat) (text : Nat) (vis : List Nat → Except PyErr Nat) (llm : Nat → Except PyErr Nat) (label : String) (ch h w v l : Nat)
    (rest : List Nat) (hv : vis (ch :: h :: w :: rest) = .ok v) (hl : llm (h / patch.getD 14 * (w / patch.getD 14) + text) = .ok l) (h9 : l < 1000000000) :
    row patch text vis llm (label, ch :: h :: w :: rest) = .error .zeroDivision := by
  unfold row
  simp only [List.getElem?_cons_succ, List.getElem?_cons_zero]
  split
  · rfl
  · rw [hv]
    simp only [hl]
    rw [if_pos (by unfold giga; omega)]

example : row none 0 (fun _ => .ok 3000000000) (fun n => .ok (n * 1000000)) ("224", [3, 224, 224]) = .error .zeroDivision := by decide +kernel

/-- **C131, the percentage** is less than 100 / L too low and at most 100 V / (L (L + 1)) too high, `V` and `L` the two printed figures. -/
theorem C131_ratio (p text : Nat) (label : String) (h w v l : Nat) (x : Row) (hx : IsRow p text label h w v l x) (hL : 0 < x.llm) :
    (v : ℚ) / l * 100 < x.ratio + 100 / x.llm ∧ x.ratio - 100 * x.vis / (x.llm * (x.llm + 1)) ≤ (v : ℚ) / l * 100 := by
  obtain ⟨_, _, _, ⟨a1, a2⟩, ⟨b1, b2⟩, hr, _⟩ := hx
  have L0 : (0 : ℚ) < x.llm := by exact_mod_cast hL
  have l0 : (0 : ℚ) < l := by
    have : 0 < l := by omega
    exact_mod_cast this
  have a1' : (x.vis : ℚ) * 1000000000 ≤ v := by exact_mod_cast a1
  have a2' : (v : ℚ) < (x.vis + 1) * 1000000000 := by exact_mod_cast a2
  have b1' : (x.llm : ℚ) * 1000000000 ≤ l := by exact_mod_cast b1
  have b2' : (l : ℚ) < (x.llm + 1) * 1000000000 := by exact_mod_cast b2
  have er : x.ratio = 100 * x.vis / x.llm := by
    field_simp
    linarith
  have V0 : (0 : ℚ) ≤ x.vis := by positivity
  rw [er]
  constructor
  · rw [← add_div, div_mul_eq_mul_div, div_lt_div_iff₀ l0 L0]
    nlinarith
  · have e2 : (100 * x.vis / x.llm - 100 * x.vis / (x.llm * (x.llm + 1)) : ℚ) = 100 * x.vis / (x.llm + 1) := by
      field_simp
      ring
    rw [e2, div_mul_eq_mul_div, div_le_div_iff₀ (by linarith) l0]
    nlinarith

/-- **C131, the total** is the sum of two rounded figures: as much as two thousand million operations below. -/
theorem C131_total (p text : Nat) (label : String) (h w v l : Nat) (x : Row) (hx : IsRow p text label h w v l x) :
    x.total * 1000000000 ≤ v + l ∧ v + l < (x.total + 2) * 1000000000 := by
  obtain ⟨_, _, _, ⟨a1, a2⟩, ⟨b1, b2⟩, _, ho⟩ := hx
  omega

/-- **C131 findings**: 1.9 + 1.9 G are printed as 2 G, not 3; an encoder of almost the decoder's size as 0 %, a decoder of almost twice the encoder's as 100 %. -/
theorem C131_rounding :
    (row none 0 (fun _ => .ok 1900000000) (fun _ => .ok 1900000000) ("a", [3, 14, 14])).toOption.map (·.total) = some 2 ∧ ¬ IsGiga (1900000000 + 1900000000) 2 ∧
    (row none 0 (fun _ => .ok 999999999) (fun _ => .ok 1000000000) ("a", [3, 14, 14])).toOption.map (·.ratio) = some 0 ∧
    (row none 0 (fun _ => .ok 1000000000) (fun _ => .ok 1999999999) ("a", [3, 14, 14])).toOption.map (·.ratio) = some 100 := by
  refine ⟨by decide +kernel, ?_, by decide +kernel, by decide +kernel⟩
  unfold IsGiga
  omega

example : (row none 1024 (fun _ => .ok 339000000000) (fun _ => .ok 9000000000001) ("448", [3, 448, 448])).toOption.map (fun x => (x.patches, x.tokens, x.total)) = some (1024, 2048, 9339) := by
  decide +kernel

/-- **C131, the tokens are the encoder's.** The patches printed are the positions of the encoder's result, which the projector turns into tokens one by one:
the vision graph built for the same image with the same patches returns `[1, patches, hidden size of the language model]`. -/
theorem C131_patches_are_tokens (c : Vision.VCfg) (hc : Vision.VisionOk c) (text : Nat) (label : String) (v l : Nat) (x : Row)
    (hx : IsRow c.patch text label c.height c.width v l x) :
    ∃ s o, Vision.buildVision c = .ok s ∧ s.output = [o] ∧ s.shape o = [1, x.patches, c.llm] := by
  obtain ⟨s, o, h1, _, _, _, _, h6, h7, _⟩ := C67_vision_graph c hc
  refine ⟨s, o, h1, h6, ?_⟩
  rw [h7, patches_unique hc.patch hx.patches]
  rfl

/-- profiling the decoder `c` on `n` tokens: the model of C55 and C66 -/
def decoderMacs (c : Cfg) (w : WMap) (x : LlmCost.Attrs) (n : Nat) : Except PyErr Nat :=
  match buildGraph { c with seq := n } w with
  | .error e => .error e
  | .ok s =>
    match LlmCost.profileGraph { c with seq := n } x 0 s with
    | .error e => .error e
    | .ok rs => .ok (rs.map (·.fig.macs)).sum

/-- **C131, ordinary decoders.** For a decoder with ordinary attention in all layers the column of the language model is the closed form of C66 for patches
and text together. -/
theorem C131_decoder (c : Cfg) (w : WMap) (a : LlmCost.Attrs) (h : CfgOk c w) (hn : NamesOk c w) (hs : LlmCost.Standard c) (n : Nat) :
    decoderMacs c w a n = .ok (LlmCost.macs { c with seq := n } a.topK n) := by
  obtain ⟨s, rs, e1, e2, e3⟩ := C66_built_cost { c with seq := n } w a ⟨h.eps, h.qkEps, h.act, h.groups, h.pos⟩ ⟨hn.locals, hn.globals, hn.apart⟩ hs
  unfold decoderMacs
  rw [e1]
  simp only [e2]
  rw [e3.macs]

private theorem macs_more (c : Cfg) (k : Nat) {n m : Nat} (h : n ≤ m) : LlmCost.macs { c with seq := n } k n ≤ LlmCost.macs { c with seq := m } k m := by
  unfold LlmCost.macs LlmCost.attentionOps LlmCost.tokens
  simp only
  refine Nat.add_le_add (Nat.add_le_add (Nat.mul_le_mul_right _ (Nat.mul_le_mul_left _ h)) (Nat.mul_le_mul_left _ ?_)) (Nat.mul_le_mul (Nat.mul_le_mul_left _ h) (le_refl _))
  exact Nat.mul_le_mul_right _ (Nat.mul_le_mul (Nat.mul_le_mul_left _ h) h)

/-- **C131, larger images.** In one table of an ordinary decoder an image that is at least as high and as wide never has fewer patches, fewer tokens or a smaller figure of the language model. -/
theorem C131_larger_image (c : Cfg) (w : WMap) (a : LlmCost.Attrs) (hc : CfgOk c w) (hn : NamesOk c w) (hs : LlmCost.Standard c) (patch : Option Nat) (text : Nat)
    (vis : List Nat → Except PyErr Nat) (l l' : String) (ch ch' h h' w1 w' : Nat) (r r' : List Nat) (x x' : Row) (hh : h ≤ h') (hw : w1 ≤ w')
    (hx : row patch text vis (decoderMacs c w a) (l, ch :: h :: w1 :: r) = .ok x) (hx' : row patch text vis (decoderMacs c w a) (l', ch' :: h' :: w' :: r') = .ok x') :
    x.patches ≤ x'.patches ∧ x.tokens ≤ x'.tokens ∧ x.llm ≤ x'.llm := by
  obtain ⟨hp, v, m, _, em, _, i⟩ := (C131_row _ _ _ _ _ _ _ _ _ _).mp hx
  obtain ⟨_, v', m', _, em', _, i'⟩ := (C131_row _ _ _ _ _ _ _ _ _ _).mp hx'
  have hpp : x.patches ≤ x'.patches := by
    rw [patches_unique hp i.patches, patches_unique hp i'.patches]
    exact Nat.mul_le_mul (Nat.div_le_div_right hh) (Nat.div_le_div_right hw)
  have ht : x.tokens ≤ x'.tokens := by rw [i.tokens, i'.tokens]; omega
  refine ⟨hpp, ht, ?_⟩
  rw [C131_decoder c w a hc hn hs] at em em'
  cases em; cases em'
  rw [giga_unique i.llm, giga_unique i'.llm]
  exact Nat.div_le_div_right (macs_more c _ ht)

example : decoderMacs llama7b WMap.default {} 128 = .ok 855094570624 ∧ giga 855094570624 = 855 :=
  ⟨(C131_decoder llama7b WMap.default {} C55_llama_hypotheses.1 C55_llama_hypotheses.2.1 llama_standard 128).trans (congrArg Except.ok C66_llama7b.2.1), by decide +kernel⟩

private theorem cross_exact (a b : List Row) (i : Nat) (ls : List String) (hi : i + ls.length ≤ a.length) (hi' : i + ls.length ≤ b.length) :
    ∃ cs, cross a b i ls = .ok cs ∧ cs.length = ls.length ∧ ∀ j (hj : j < ls.length) (x y : Row), a[i + j]? = some x → b[i + j]? = some y →
      cs[j]? = some ⟨ls[j], x.patches, x.tokens, (x.vis, x.llm, x.ratio), (y.vis, y.llm, y.ratio)⟩ := by
  induction ls generalizing i with
  | nil => exact ⟨[], rfl, rfl, fun j hj => absurd hj (Nat.not_lt_zero _)⟩
  | cons s ls ih =>
    simp only [List.length_cons] at hi hi'
    obtain ⟨cs, e, hl, hcs⟩ := ih (i + 1) (by omega) (by omega)
    have ea : a[i]? = some a[i] := List.getElem?_eq_getElem (by omega)
    have eb : b[i]? = some b[i] := List.getElem?_eq_getElem (by omega)
    refine ⟨⟨s, a[i].patches, a[i].tokens, (a[i].vis, a[i].llm, a[i].ratio), (b[i].vis, b[i].llm, b[i].ratio)⟩ :: cs, by simp only [cross, ea, eb, e], by simp [hl], ?_⟩
    intro j hj x y hx hy
    cases j with
    | zero =>
      rw [Nat.add_zero] at hx hy
      rw [ea] at hx; rw [eb] at hy
      cases hx; cases hy
      rfl
    | succ j =>
      simp only [List.getElem?_cons_succ, List.getElem_cons_succ]
      exact hcs j (by simpa using hj) x y (by rw [← hx]; congr 1; omega) (by rw [← hy]; congr 1; omega)

/-- **C131, the comparison** of two models on the same resolutions: one line for each, with the figures of the two rows of that resolution, patches and tokens of the first. -/
theorem C131_comparison (p q : Option Nat) (text : Nat) (vis vis' : List Nat → Except PyErr Nat) (llm llm' : Nat → Except PyErr Nat) (rs : List (String × List Nat)) (a b : List Row)
    (ha : table p text vis llm rs = .ok a) (hb : table q text vis' llm' rs = .ok b) :
    ∃ cs, cross a b 0 (rs.map (·.1)) = .ok cs ∧ cs.length = rs.length ∧ ∀ (j : Nat) (r : String × List Nat), rs[j]? = some r → ∃ x y, row p text vis llm r = .ok x ∧ row q text vis' llm' r = .ok y ∧
      cs[j]? = some ⟨r.1, x.patches, x.tokens, (x.vis, x.llm, x.ratio), (y.vis, y.llm, y.ratio)⟩ := by
  have ha := (C131_table _ _ _ _ _ _).mp ha
  have hb := (C131_table _ _ _ _ _ _).mp hb
  have la : rs.length = a.length := List.Forall₂.length_eq ha
  have lb : rs.length = b.length := List.Forall₂.length_eq hb
  obtain ⟨cs, e, hl, h⟩ := cross_exact a b 0 (rs.map (·.1)) (by simp [la]) (by simp [lb])
  refine ⟨cs, e, by simpa using hl, ?_⟩
  intro j r hr
  obtain ⟨hj, rfl⟩ := List.getElem?_eq_some_iff.mp hr
  have ja : j < a.length := by rw [← la]; exact hj
  have jb : j < b.length := by rw [← lb]; exact hj
  refine ⟨a[j], b[j], ha.get hj ja, hb.get hj jb, ?_⟩
  rw [h j (by simpa using hj) a[j] b[j] (by simp [ja]) (by simp [jb])]
  simp

/-- **C131 finding**: with different patch sizes the tokens printed are not those behind the second model's figures. -/
theorem C131_comparison_tokens :
    ((table (some 14) 0 (fun _ => .ok 0) (fun n => .ok (n * 1000000000)) [("a", [3, 28, 28])]).toOption.map fun a =>
      ((table (some 28) 0 (fun _ => .ok 0) (fun n => .ok (n * 1000000000)) [("a", [3, 28, 28])]).toOption.map fun b =>
        ((cross a b 0 ["a"]).toOption.map fun cs => cs.map fun c => (c.tokens, c.second.2.1)))) = some (some (some [(4, 1)])) := by decide +kernel

end OnnxTool.Props
