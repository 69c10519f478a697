import Mathlib.Tactic.Linarith
import Mathlib.Tactic.Ring
import Mathlib.Data.List.Dedup
import Verif.Model.Einsum
import Verif.Model.Macs
import Verif.Props.Macs
/-!
# C45: Einsum shapes; C43 for Einsum

The specification assigns a size to every letter; operands and result are read off the letters.
-/
namespace OnnxTool.Props
open OnnxTool OnnxTool.Shape OnnxTool.Einsum

theorem readLabels_ok (pre suf : List Nat) (ls : List Char) (hd : ∀ c ∈ ls, c ≠ '.') (hl : suf.length = ls.length) :
    readLabels (pre ++ suf) ls pre.length = .ok (ls.zip suf) := by
  induction ls generalizing pre suf with
  | nil => rfl
  | cons c cs ih =>
    match suf, hl with
    | d :: ds, hl =>
      have h := ih (pre ++ [d]) ds (fun c hc => hd c (by simp [hc])) (by simpa using hl)
      have e : (pre ++ d :: ds)[pre.length]? = some d := by simp
      simp only [readLabels, if_neg (hd c (by simp)), e]
      simp only [List.append_assoc, List.singleton_append, List.length_append, List.length_cons, List.length_nil] at h
      rw [h]; rfl

theorem afterEllipsis_none (ls : List Char) (hd : ∀ c ∈ ls, c ≠ '.') : afterEllipsis ls = none := by
  induction ls with
  | nil => rfl
  | cons c cs ih =>
    have h1 := hd c (by simp)
    unfold afterEllipsis
    split
    · rename_i h; cases h; exact absurd rfl h1
    · rename_i h; cases h; exact ih fun c hc => hd c (by simp [hc])
    · rfl

theorem foldl_max_ge (l : List Nat) (a : Nat) : a ≤ l.foldl max a ∧ ∀ x ∈ l, x ≤ l.foldl max a := by
  induction l generalizing a with
  | nil => simp
  | cons b l ih =>
    obtain ⟨h1, h2⟩ := ih (max a b)
    simp only [List.foldl_cons, List.mem_cons, forall_eq_or_imp]
    exact ⟨by omega, by omega, h2⟩

theorem foldl_max_mem (l : List Nat) (a : Nat) : l.foldl max a = a ∨ l.foldl max a ∈ l := by
  induction l generalizing a with
  | nil => simp
  | cons b l ih =>
    simp only [List.foldl_cons, List.mem_cons]
    rcases ih (max a b) with h | h
    · rw [h]; rcases Nat.le_total a b with h' | h' <;> simp [h']
    · exact .inr (.inr h)

theorem labelDim_spec (ps : List (Char × Nat)) (c : Char) (hmem : ∃ d, (c, d) ∈ ps) :
    (c, labelDim ps c) ∈ ps ∧ ∀ d, (c, d) ∈ ps → d ≤ labelDim ps c := by
  have hm : ∀ d, d ∈ ((ps.filter fun p => p.1 = c).map (·.2)) ↔ (c, d) ∈ ps := by
    intro d
    simp only [List.mem_map, List.mem_filter, decide_eq_true_eq]
    constructor
    · rintro ⟨⟨a, b⟩, ⟨h1, h2⟩, h3⟩
      simp only at h2 h3
      subst h2 h3; exact h1
    · intro h; exact ⟨(c, d), ⟨h, rfl⟩, rfl⟩
  have hne : ((ps.filter fun p => p.1 = c).map (·.2)) ≠ [] := by
    obtain ⟨d, hd⟩ := hmem
    exact List.ne_nil_of_mem ((hm d).mpr hd)
  unfold labelDim
  simp only [if_neg hne]
  generalize ((ps.filter fun p => p.1 = c).map (·.2)) = ds at *
  refine ⟨(hm _).mp ?_, fun d hd => (foldl_max_ge ds 0).2 d ((hm d).mpr hd)⟩
  rcases foldl_max_mem ds 0 with h | h
  · match ds, hne with
    | x :: xs, _ =>
      have := (foldl_max_ge (x :: xs) 0).2 x (by simp)
      rw [h] at this ⊢
      have : x = 0 := by omega
      simp [this]
  · exact h

/-- a term of the equation without ellipsis, or with a leading one: `none` or the rank of the ellipsis, then the letters -/
structure Term where
  ell : Bool
  letters : List Char

/-- its text: `...` in front when there is an ellipsis -/
def Term.text (t : Term) : List Char := (if t.ell then ['.', '.', '.'] else []) ++ t.letters

theorem operand_spec (t : Term) (hd : ∀ c ∈ t.letters, c ≠ '.') (e : List Nat) (ds : List Nat) (hl : ds.length = t.letters.length)
    (he : t.ell = false → e = []) :
    operand t.text (e ++ ds) = .ok (if t.ell then some e else none, t.letters.zip ds) := by
  obtain ⟨ell, ls⟩ := t
  cases ell with
  | true =>
    have : afterEllipsis (Term.text ⟨true, ls⟩) = some ls := by simp [Term.text, afterEllipsis]
    unfold operand
    rw [this]
    simp only []
    have hl' : ds.length = ls.length := hl
    have h1 : ¬ (e ++ ds).length < ls.length := by simp; omega
    have h2 : (e ++ ds).length - ls.length = e.length := by simp; omega
    rw [if_neg h1, h2, readLabels_ok e ds ls hd hl]
    simp
  | false =>
    have h0 := he rfl
    subst h0
    have : Term.text ⟨false, ls⟩ = ls := rfl
    unfold operand
    rw [this, afterEllipsis_none ls hd]
    have := readLabels_ok [] ds ls hd hl
    simp only [List.nil_append, List.length_nil] at this
    simp only [List.nil_append, this]
    rfl

/-- an operand agrees with the letter sizes `sz` up to broadcasting: each dimension is the letter's size or 1 -/
def Fits (sz : Char → Nat) (letters : List Char) (ds : List Nat) : Prop :=
  List.Forall₂ (fun c d => d = sz c ∨ d = 1) letters ds

/-- all operands: texts, ellipsis parts, letter parts -/
structure Operand where
  term : Term
  e : List Nat
  ds : List Nat

theorem operands_spec (sz : Char → Nat) (ops : List Operand)
    (hd : ∀ o ∈ ops, ∀ c ∈ o.term.letters, c ≠ '.') (hf : ∀ o ∈ ops, Fits sz o.term.letters o.ds) (he : ∀ o ∈ ops, o.term.ell = false → o.e = []) :
    operands (ops.map fun o => o.term.text) (ops.map fun o => o.e ++ o.ds) =
      .ok ((ops.filter fun o => o.term.ell).map (·.e), ops.flatMap fun o => o.term.letters.zip o.ds) := by
  induction ops with
  | nil => rfl
  | cons o ops ih =>
    have h1 := operand_spec o.term (hd o (by simp)) o.e o.ds ((hf o (by simp)).length_eq.symm) (he o (by simp))
    have h2 := ih (fun o ho => hd o (by simp [ho])) (fun o ho => hf o (by simp [ho])) (fun o ho => he o (by simp [ho]))
    simp only [List.map_cons, operands, h1, h2, List.flatMap_cons, List.filter_cons]
    cases o.term.ell <;> simp

/-- **C45, letters.** For any equation whose ellipses are leading, any assignment of sizes to letters, and operands that agree with it up to
broadcasting of 1: the result is the ellipsis part followed by the sizes of the output letters; a letter is given its size as soon as one
operand carries it. -/
theorem C45_letters (sz : Char → Nat) (hpos : ∀ c, 0 < sz c) (ops : List Operand) (out : Term)
    (hd : ∀ o ∈ ops, ∀ c ∈ o.term.letters, c ≠ '.') (hdo : ∀ c ∈ out.letters, c ≠ '.')
    (hf : ∀ o ∈ ops, Fits sz o.term.letters o.ds) (he : ∀ o ∈ ops, o.term.ell = false → o.e = [])
    (hout : ∀ c ∈ out.letters, ∃ o ∈ ops, (c, sz c) ∈ o.term.letters.zip o.ds) :
    shapeInfer (ops.map fun o => o.term.text) out.text (ops.map fun o => o.e ++ o.ds) =
      .ok (ellipsisShape ((ops.filter fun o => o.term.ell).map (·.e)) ++ out.letters.map sz) := by
  unfold shapeInfer
  rw [operands_spec sz ops hd hf he]
  simp only []
  have hf1 : out.text.filter (· ≠ '.') = out.letters := by
    unfold Term.text
    rw [List.filter_append]
    have h1 : (if out.ell = true then ['.', '.', '.'] else []).filter (· ≠ '.') = [] := by cases out.ell <;> decide
    have h2 : out.letters.filter (· ≠ '.') = out.letters := List.filter_eq_self.mpr fun c hc => by simpa using hdo c hc
    rw [h1, h2]; rfl
  rw [hf1]
  congr 2
  apply List.map_congr_left
  intro c hc
  obtain ⟨o, ho, hz⟩ := hout c hc
  have hmem : (c, sz c) ∈ ops.flatMap fun o => o.term.letters.zip o.ds := List.mem_flatMap.mpr ⟨o, ho, hz⟩
  obtain ⟨h1, h2⟩ := labelDim_spec _ c ⟨_, hmem⟩
  have h3 := h2 _ hmem
  obtain ⟨o', ho', hz'⟩ := List.mem_flatMap.mp h1
  have hfit := hf o' ho'
  have : ∀ (ls : List Char) (ds : List Nat), Fits sz ls ds → ∀ c d, (c, d) ∈ ls.zip ds → d = sz c ∨ d = 1 := by
    intro ls ds h
    induction h with
    | nil => intro c d h; simp at h
    | cons h _ ih =>
      intro c d hm
      simp only [List.zip_cons_cons, List.mem_cons, Prod.mk.injEq] at hm
      rcases hm with ⟨rfl, rfl⟩ | hm
      · exact h
      · exact ih c d hm
  rcases this _ _ hfit _ _ hz' with e | e
  · exact e
  · have := hpos c; omega

/-- **C45, ellipsis.** The ellipsis part is the broadcast of the operands' ellipsis dimensions. -/
theorem C45_ellipsis (els : List (List Nat)) (r : List Nat) (h : IsBroadcast els r) (hp : ∀ d ∈ r, 0 < d) (hne : els ≠ []) :
    ellipsisShape els = r := by
  have hn : (els.map List.length).foldl max 0 = r.length := by
    obtain ⟨h1, h2⟩ := foldl_max_ge (els.map List.length) 0
    have hle : (els.map List.length).foldl max 0 ≤ r.length := by
      rcases foldl_max_mem (els.map List.length) 0 with e | e
      · omega
      · obtain ⟨s, hs, e⟩ := List.mem_map.mp e
        rw [← e]; exact h.rank_ge s hs
    rcases h.rank_le with e | ⟨s, hs, e⟩
    · subst e; simp at hle ⊢; exact hle
    · have := h2 s.length (List.mem_map.mpr ⟨s, hs, rfl⟩)
      omega
  unfold ellipsisShape
  rw [hn]
  apply List.ext_getElem
  · simp
  intro i h1 h2
  simp only [List.getElem_map, List.getElem_range]
  have hr : r[i] = dimR r (r.length - 1 - i) := by
    rw [← getD_reverse h2]; simp [h2]
  have hpos : 0 < r[i] := hp _ (List.getElem_mem h2)
  have hdim : ∀ d ∈ els, (List.replicate (r.length - d.length) 1 ++ d).getD i 0 = dimR d (r.length - 1 - i) := by
    intro d hd
    have hl := h.rank_ge d hd
    have := padTo_getD hl h2
    rw [← this]
    have hpad : padTo r.length d = List.replicate (r.length - d.length) 1 ++ d := by
      unfold padTo
      split
      · rfl
      · rw [show r.length - d.length = 0 by omega]; rfl
    have hlen : i < (List.replicate (r.length - d.length) 1 ++ d).length := by simp; omega
    rw [hpad, List.getD_eq_getElem?_getD, List.getD_eq_getElem?_getD, List.getElem?_eq_getElem hlen]
    rfl
  have hi : r.length - 1 - i < r.length := by omega
  obtain ⟨g1, g2⟩ := foldl_max_ge (els.map fun d => (List.replicate (r.length - d.length) 1 ++ d).getD i 0) 0
  generalize hm : (els.map fun d => (List.replicate (r.length - d.length) 1 ++ d).getD i 0).foldl max 0 = m at *
  have hle : m ≤ r[i] := by
    rcases foldl_max_mem (els.map fun d => (List.replicate (r.length - d.length) 1 ++ d).getD i 0) 0 with e | e
    · omega
    · rw [hm] at e
      obtain ⟨d, hd, e⟩ := List.mem_map.mp e
      rw [hdim d hd] at e
      rcases h.compat _ hi d hd with c | c <;> omega
  have hge : r[i] ≤ m := by
    rcases h.attained _ hi with e | ⟨d, hd, e⟩
    · obtain ⟨d, hd⟩ := List.exists_mem_of_ne_nil _ hne
      have := g2 _ (List.mem_map.mpr ⟨d, hd, rfl⟩)
      rw [hdim d hd] at this
      rcases h.compat _ hi d hd with c | c <;> omega
    · have := g2 _ (List.mem_map.mpr ⟨d, hd, rfl⟩)
      rw [hdim d hd] at this
      omega
  omega

/-- the hypotheses hold for batched attention scores `...qd,...kd->...qk` -/
example : shapeInfer ["...qd".toList, "...kd".toList] "...qk".toList [[2, 1, 3, 4], [8, 5, 4]] = .ok [2, 8, 3, 5] ∧
    IsBroadcast [[2, 1], [8]] [2, 8] := by
  refine ⟨rfl, ?_⟩
  exact (broadcast_iff _ _).mp rfl

example : (parse "bij, bjk -> bik".toList).toOption = some (["bij".toList, "bjk".toList], "bik".toList) := by decide

/-- **C45, implicit mode.** Without `->` the result letters are exactly those that occur once, each once, in alphabetical order. -/
theorem C45_implicit (all : List Char) : (∀ c, c ∈ implicitOut all ↔ c ≠ '.' ∧ all.count c = 1) ∧ (implicitOut all).Nodup ∧
    (implicitOut all).Pairwise (fun a b => a.toNat ≤ b.toNat) := by
  have ins : ∀ (c : Char) (l : List Char), (insertSorted c l).Perm (c :: l) := by
    intro c l
    induction l with
    | nil => exact .refl _
    | cons d ds ih =>
      unfold insertSorted
      split
      · exact .refl _
      · exact (ih.cons d).trans (.swap _ _ _)
  have perm : ∀ l : List Char, (l.foldr insertSorted []).Perm l := by
    intro l
    induction l with
    | nil => exact .refl _
    | cons c cs ih => exact (ins c _).trans (ih.cons c)
  have sorted : ∀ l : List Char, (l.foldr insertSorted []).Pairwise (fun a b => a.toNat ≤ b.toNat) := by
    intro l
    induction l with
    | nil => exact .nil
    | cons c cs ih =>
      simp only [List.foldr_cons]
      generalize cs.foldr insertSorted [] = m at ih
      induction m with
      | nil => simp [insertSorted]
      | cons d ds ihm =>
        unfold insertSorted
        split
        · rename_i hle
          refine List.pairwise_cons.mpr ⟨?_, ih⟩
          intro x hx
          rcases List.mem_cons.mp hx with rfl | hx
          · exact hle
          · exact Nat.le_trans hle ((List.pairwise_cons.mp ih).1 x hx)
        · rename_i hgt
          refine List.pairwise_cons.mpr ⟨?_, ihm (List.pairwise_cons.mp ih).2⟩
          intro x hx
          rcases List.mem_cons.mp ((ins c ds).mem_iff.mp hx) with rfl | hx
          · omega
          · exact (List.pairwise_cons.mp ih).1 x hx
  have hmem : ∀ c, c ∈ (all.filter fun c => c ≠ '.' && all.count c == 1) ↔ c ≠ '.' ∧ all.count c = 1 := by
    intro c
    simp only [List.mem_filter, Bool.and_eq_true, decide_eq_true_eq, beq_iff_eq]
    constructor
    · exact fun h => h.2
    · intro h; exact ⟨List.count_pos_iff.mp (by omega), h⟩
  refine ⟨fun c => (perm _).mem_iff.trans (hmem c), (perm _).nodup_iff.mpr ?_, sorted _⟩
  rw [List.nodup_iff_count_le_one]
  intro a
  by_cases ha : a ∈ (all.filter fun c => c ≠ '.' && all.count c == 1)
  · have h1 := ((hmem a).mp ha).2
    have : (all.filter fun c => c ≠ '.' && all.count c == 1).count a ≤ all.count a := List.Sublist.count_le _ List.filter_sublist
    omega
  · rw [List.count_eq_zero_of_not_mem ha]; omega

/-! ## from the text of the equation -/

theorem splitComma_ne (l : List Char) : splitComma l ≠ [] := by
  cases l with
  | nil => simp [splitComma]
  | cons c cs =>
    unfold splitComma
    split
    · simp
    · split <;> simp

theorem splitComma_plain (l : List Char) (h : ',' ∉ l) : splitComma l = [l] := by
  induction l with
  | nil => rfl
  | cons c cs ih =>
    have h1 : c ≠ ',' := fun e => h (by simp [e])
    have h2 := ih fun e => h (by simp [e])
    simp [splitComma, h1, h2]

theorem splitComma_append (l r : List Char) (h : ',' ∉ l) : splitComma (l ++ ',' :: r) = l :: splitComma r := by
  induction l with
  | nil => simp [splitComma]
  | cons c cs ih =>
    have h1 : c ≠ ',' := fun e => h (by simp [e])
    have h2 := ih fun e => h (by simp [e])
    simp [splitComma, h1, h2]

/-- the terms separated by commas -/
def commas : List (List Char) → List Char
  | [] => []
  | [t] => t
  | t :: ts => t ++ ',' :: commas ts

theorem splitComma_commas : ∀ (ts : List (List Char)), ts ≠ [] → (∀ t ∈ ts, ',' ∉ t) → splitComma (commas ts) = ts
  | [], h, _ => absurd rfl h
  | [t], _, h => splitComma_plain t (h t (by simp))
  | t :: t' :: ts, _, h => by
    have := splitComma_commas (t' :: ts) (by simp) fun t ht => h t (by simp [ht])
    rw [commas, splitComma_append t _ (h t (by simp)), this]
    simp

theorem commas_mem (c : Char) : ∀ ts : List (List Char), c ∈ commas ts → c = ',' ∨ ∃ t ∈ ts, c ∈ t
  | [], h => by simp [commas] at h
  | [t], h => .inr ⟨t, by simp, h⟩
  | t :: t' :: ts, h => by
    rw [commas] at h
    · rcases List.mem_append.1 h with h | h
      · exact .inr ⟨t, by simp, h⟩
      · rcases List.mem_cons.1 h with h | h
        · exact .inl h
        · rcases commas_mem c (t' :: ts) h with h | ⟨u, hu, hc⟩
          · exact .inl h
          · exact .inr ⟨u, by simp [hu], hc⟩
    · simp

theorem splitArrow_none (l : List Char) (h : '-' ∉ l) : splitArrow l = none := by
  induction l with
  | nil => rfl
  | cons c cs ih =>
    have h1 : c ≠ '-' := fun e => h (by simp [e])
    unfold splitArrow
    split
    · rename_i e; cases e; exact absurd rfl h1
    · rename_i e; cases e; rw [ih fun e => h (by simp [e])]; rfl
    · rfl

theorem splitArrow_some (l r : List Char) (h : '-' ∉ l) : splitArrow (l ++ '-' :: '>' :: r) = some (l, r) := by
  induction l with
  | nil => rfl
  | cons c cs ih =>
    have h1 : c ≠ '-' := fun e => h (by simp [e])
    rw [List.cons_append]
    unfold splitArrow
    split
    · rename_i e; injection e with e _; exact absurd e h1
    · rename_i e; injection e with e1 e2; subst e1; subst e2; rw [ih fun e => h (by simp [e])]; rfl
    · rename_i e; cases e

/-- characters a term may consist of: anything but the separators (letters, and dots of an ellipsis) -/
def PlainTerm (t : List Char) : Prop := ',' ∉ t ∧ '-' ∉ t ∧ ' ' ∉ t

/-- **C45, the text.** Whatever the terms are and wherever spaces are put: the operands' terms are those between the commas and the result is the text behind the arrow. -/
theorem C45_parse (eq : List Char) (ts : List (List Char)) (out : List Char) (hne : ts ≠ []) (ht : ∀ t ∈ ts, PlainTerm t) (ho : PlainTerm out)
    (heq : eq.filter (· ≠ ' ') = commas ts ++ '-' :: '>' :: out) : parse eq = .ok (ts, out) := by
  have h1 : '-' ∉ commas ts := by
    intro h
    rcases commas_mem _ _ h with h | ⟨t, h1, h2⟩
    · exact absurd h (by decide)
    · exact (ht t h1).2.1 h2
  unfold parse
  simp only [heq, splitArrow_some _ _ h1, splitArrow_none out ho.2.1, splitComma_commas ts hne fun t h => (ht t h).1]
  rfl

/-- **C45, the text without arrow**: the result consists of the letters occurring once (see `C45_implicit`). -/
theorem C45_parse_implicit (eq : List Char) (ts : List (List Char)) (hne : ts ≠ []) (ht : ∀ t ∈ ts, PlainTerm t) (heq : eq.filter (· ≠ ' ') = commas ts) :
    parse eq = .ok (ts, implicitOut ts.flatten) := by
  have h1 : '-' ∉ commas ts := by
    intro h
    rcases commas_mem _ _ h with h | ⟨t, h1, h2⟩
    · exact absurd h (by decide)
    · exact (ht t h1).2.1 h2
  unfold parse
  simp only [heq, splitArrow_none _ h1, splitComma_commas ts hne fun t h => (ht t h).1]

/-- **C45, two arrows** raise ValueError. -/
theorem C45_two_arrows (eq a b c : List Char) (ha : '-' ∉ a) (hb : '-' ∉ b) (heq : eq.filter (· ≠ ' ') = a ++ '-' :: '>' :: (b ++ '-' :: '>' :: c)) : parse eq = .error .valueError := by
  unfold parse
  simp only [heq, splitArrow_some _ _ ha, splitArrow_some _ _ hb]
  rfl

/-- What Einsum's result has the shape of: the broadcast `e` of the operands' ellipses if the result mentions the ellipsis (or has no text of its own), then the sizes of its letters.
`sz` gives the sizes of the letters. -/
def einsumResult (sz : Char → Nat) (e : List Nat) (mention : Bool) (letters : List Char) : List Nat := (if mention then e else []) ++ letters.map sz

/-- **C45, the whole node.** For every number of operands, all terms with leading ellipses, spaces anywhere, all sizes and operands that agree with them up to broadcasting: the inferred
shape is the one of the definition exactly if the result mentions the ellipsis or the ellipsis stands for no dimension. -/
theorem C45_equation_iff (sz : Char → Nat) (hpos : ∀ c, 0 < sz c) (ops : List Operand) (hne : ops ≠ []) (out : Term) (eq : List Char) (e : List Nat)
    (ht : ∀ o ∈ ops, PlainTerm o.term.text) (ho : PlainTerm out.text) (heq : eq.filter (· ≠ ' ') = commas (ops.map fun o => o.term.text) ++ '-' :: '>' :: out.text)
    (hd : ∀ o ∈ ops, ∀ c ∈ o.term.letters, c ≠ '.') (hdo : ∀ c ∈ out.letters, c ≠ '.')
    (hf : ∀ o ∈ ops, Fits sz o.term.letters o.ds) (he : ∀ o ∈ ops, o.term.ell = false → o.e = [])
    (hout : ∀ c ∈ out.letters, ∃ o ∈ ops, (c, sz c) ∈ o.term.letters.zip o.ds)
    (hb : IsBroadcast ((ops.filter fun o => o.term.ell).map (·.e)) e) (hep : ∀ d ∈ e, 0 < d) :
    inferEq eq (ops.map fun o => o.e ++ o.ds) = .ok (einsumResult sz e out.ell out.letters) ↔ out.ell = true ∨ e = [] := by
  have hp := C45_parse eq (ops.map fun o => o.term.text) out.text (by simpa using hne) (by
    intro t h
    obtain ⟨o, h1, rfl⟩ := List.mem_map.1 h
    exact ht o h1) ho heq
  have hell : ellipsisShape ((ops.filter fun o => o.term.ell).map (·.e)) = e := by
    by_cases hn : (ops.filter fun o => o.term.ell).map (·.e) = []
    · rw [hn] at hb ⊢
      rcases hb.rank_le with h | ⟨s, hs, _⟩
      · rw [h]; rfl
      · simp at hs
    · exact C45_ellipsis _ _ hb hep hn
  unfold inferEq
  rw [hp]
  simp only
  rw [C45_letters sz hpos ops out hd hdo hf he hout, hell]
  unfold einsumResult
  cases out.ell
  · simp
  · simp

/-- **C45, implicit mode.** Without arrow the ellipsis always comes first, as the definition says, followed by the letters occurring once in alphabetical order. -/
theorem C45_equation_implicit (sz : Char → Nat) (hpos : ∀ c, 0 < sz c) (ops : List Operand) (hne : ops ≠ []) (eq : List Char) (e : List Nat)
    (ht : ∀ o ∈ ops, PlainTerm o.term.text) (heq : eq.filter (· ≠ ' ') = commas (ops.map fun o => o.term.text))
    (hd : ∀ o ∈ ops, ∀ c ∈ o.term.letters, c ≠ '.')
    (hf : ∀ o ∈ ops, Fits sz o.term.letters o.ds) (he : ∀ o ∈ ops, o.term.ell = false → o.e = [])
    (hout : ∀ c, ∀ o ∈ ops, c ∈ o.term.letters → ∃ o ∈ ops, (c, sz c) ∈ o.term.letters.zip o.ds)
    (hb : IsBroadcast ((ops.filter fun o => o.term.ell).map (·.e)) e) (hep : ∀ d ∈ e, 0 < d) :
    ∃ letters : List Char, inferEq eq (ops.map fun o => o.e ++ o.ds) = .ok (einsumResult sz e true letters) ∧ letters.Nodup ∧ letters.Pairwise (fun a b => a.toNat ≤ b.toNat) ∧
      ∀ c, c ∈ letters ↔ (ops.flatMap fun o => o.term.letters).count c = 1 := by
  have hp := C45_parse_implicit eq (ops.map fun o => o.term.text) (by simpa using hne) (by
    intro t h
    obtain ⟨o, h1, rfl⟩ := List.mem_map.1 h
    exact ht o h1) heq
  have hell : ellipsisShape ((ops.filter fun o => o.term.ell).map (·.e)) = e := by
    by_cases hn : (ops.filter fun o => o.term.ell).map (·.e) = []
    · rw [hn] at hb ⊢
      rcases hb.rank_le with h | ⟨s, hs, _⟩
      · rw [h]; rfl
      · simp at hs
    · exact C45_ellipsis _ _ hb hep hn
  obtain ⟨i1, i2, i3⟩ := C45_implicit (ops.map fun o => o.term.text).flatten
  have hcount : ∀ c, c ≠ '.' → (ops.map fun o => o.term.text).flatten.count c = (ops.flatMap fun o => o.term.letters).count c := by
    intro c hc
    clear hne ht heq hd hf he hout hb hell hp i1 i2 i3
    induction ops with
    | nil => rfl
    | cons o ops ih =>
      simp only [List.map_cons, List.flatten_cons, List.flatMap_cons, List.count_append, ih]
      congr 1
      unfold Term.text
      rw [List.count_append]
      have : (if o.term.ell = true then ['.', '.', '.'] else []).count c = 0 := by
        cases o.term.ell
        · rfl
        · exact List.count_eq_zero_of_not_mem (by simpa using hc)
      omega
  have hdots : (ops.flatMap fun o => o.term.letters).count '.' = 0 := List.count_eq_zero_of_not_mem fun h => by
    obtain ⟨o, h1, h2⟩ := List.mem_flatMap.1 h
    exact hd o h1 _ h2 rfl
  have hmem : ∀ c, c ∈ implicitOut (ops.map fun o => o.term.text).flatten ↔ (ops.flatMap fun o => o.term.letters).count c = 1 := by
    intro c
    rw [i1]
    by_cases hc : c = '.'
    · subst hc; simp [hdots]
    · rw [hcount c hc]; simp [hc]
  refine ⟨implicitOut (ops.map fun o => o.term.text).flatten, ?_, i2, i3, hmem⟩
  unfold inferEq
  rw [hp]
  simp only
  have := C45_letters sz hpos ops ⟨false, implicitOut (ops.map fun o => o.term.text).flatten⟩ hd (fun c hc => ((i1 c).1 hc).1) hf he (by
    intro c hc
    have h1 := (hmem c).1 hc
    obtain ⟨o, h2, h3⟩ := List.mem_flatMap.1 (List.count_pos_iff.1 (show 0 < (ops.flatMap fun o => o.term.letters).count c by omega))
    exact hout c o h2 h3)
  rw [hell] at this
  exact this

/-- the hypotheses can be met, with spaces: batched attention scores -/
example : inferEq "...q d, ...kd -> ...qk".toList [[2, 1, 3, 4], [8, 5, 4]] = .ok [2, 8, 3, 5] ∧
    "...q d, ...kd -> ...qk".toList.filter (· ≠ ' ') = commas ["...qd".toList, "...kd".toList] ++ '-' :: '>' :: "...qk".toList ∧
    inferEq "...ik,...kj".toList [[7, 2, 3], [7, 3, 5]] = .ok [7, 2, 5] := ⟨rfl, by decide, rfl⟩

/-- **C45 (finding).** Operands beyond the terms raise IndexError; missing operands are not noticed. -/
theorem C45_operand_count (ts : List (List Char)) (out : List Char) (shapes : List (List Nat)) (extra : List Nat) (more : List (List Nat)) (hl : shapes.length = ts.length)
    (h : (operands ts shapes).toOption.isSome) : shapeInfer ts out (shapes ++ extra :: more) = .error .indexError ∧ shapeInfer (ts ++ [['z']]) out shapes = shapeInfer ts out shapes := by
  have h1 : ∀ (ts : List (List Char)) (shapes : List (List Nat)), shapes.length = ts.length → (operands ts shapes).toOption.isSome →
      operands ts (shapes ++ extra :: more) = .error .indexError ∧ operands (ts ++ [['z']]) shapes = operands ts shapes := by
    intro ts
    induction ts with
    | nil =>
      intro shapes hl _
      have : shapes = [] := List.eq_nil_of_length_eq_zero hl
      subst this
      exact ⟨rfl, rfl⟩
    | cons t ts ih =>
      intro shapes hl h
      match shapes, hl with
      | s :: ss, hl =>
        simp only [operands] at h
        simp only [List.cons_append, operands]
        cases ho : operand t s with
        | error e => rw [ho] at h; cases h
        | ok p =>
          rw [ho] at h
          obtain ⟨el, ps⟩ := p
          simp only at h ⊢
          have := ih ss (by simpa using hl) (by
            cases hq : operands ts ss with
            | error e => rw [hq] at h; cases h
            | ok q => rfl)
          rw [this.1, this.2]
          exact ⟨rfl, rfl⟩
  obtain ⟨a, b⟩ := h1 ts shapes hl h
  unfold shapeInfer
  rw [a, b]
  exact ⟨rfl, rfl⟩

/-- **C45 (finding).** Letters before an ellipsis are dropped: `b...c->b...` on `[2, 3, 4]` should give `[2, 3]`; the tool says `[2, 3, 1]`. -/
theorem C45_prefix_letters_lost : shapeInfer ["b...c".toList] "b...".toList [[2, 3, 4]] = .ok [2, 3, 1] := rfl

/-- **C45 (finding).** An ellipsis that the output does not mention should be summed over; the tool keeps its dimensions:
`...i->i` on `[7, 5]` gives `[7, 5]` instead of `[5]`. -/
theorem C45_summed_ellipsis_kept : shapeInfer ["...i".toList] "i".toList [[7, 5]] = .ok [7, 5] := rfl

/-! ## C43 for Einsum -/
open OnnxTool.Macs in
theorem einsumMap_spec (sz : Char → Nat) (m : List (Char × Nat)) (hm : ∀ p ∈ m, p.2 = sz p.1) (hk : (m.map (·.1)).Nodup)
    (pre ls : List Char) :
    ∃ m', einsumMap m (pre ++ ls) (ls.map sz) pre.length = .ok m' ∧ (∀ p ∈ m', p.2 = sz p.1) ∧ (m'.map (·.1)).Nodup ∧
      ∀ c, c ∈ m'.map (·.1) ↔ c ∈ m.map (·.1) ∨ c ∈ ls := by
  induction ls generalizing m pre with
  | nil => exact ⟨m, rfl, hm, hk, by simp⟩
  | cons c cs ih =>
    have e : (pre ++ c :: cs)[pre.length]? = some c := by simp
    simp only [List.map_cons, einsumMap, e]
    have hpre : pre ++ c :: cs = (pre ++ [c]) ++ cs := by simp
    have hlen : pre.length + 1 = (pre ++ [c]).length := by simp
    by_cases hc : m.any (·.1 == c) = true
    · rw [if_pos hc]
      have hid : (m.map fun p => if p.1 = c then (c, sz c) else p) = m := by
        conv_rhs => rw [← List.map_id m]
        apply List.map_congr_left
        intro p hp
        split
        · rename_i h
          rw [← h, ← hm p hp]; rfl
        · rfl
      rw [hid, hpre, hlen]
      obtain ⟨m', h1, h2, h3, h4⟩ := ih m hm hk (pre ++ [c])
      refine ⟨m', h1, h2, h3, fun d => ?_⟩
      rw [h4]
      obtain ⟨p, hp, hpc⟩ := List.any_eq_true.mp hc
      have hcm : c ∈ m.map (·.1) := List.mem_map.mpr ⟨p, hp, by simpa using hpc⟩
      simp only [List.mem_cons]
      constructor
      · rintro (h | h)
        · exact .inl h
        · exact .inr (.inr h)
      · rintro (h | rfl | h)
        · exact .inl h
        · exact .inl hcm
        · exact .inr h
    · rw [if_neg hc, hpre, hlen]
      have hcm : c ∉ m.map (·.1) := by
        intro h
        obtain ⟨p, hp, e⟩ := List.mem_map.mp h
        exact hc (List.any_eq_true.mpr ⟨p, hp, by simpa using e⟩)
      obtain ⟨m', h1, h2, h3, h4⟩ := ih (m ++ [(c, sz c)]) (by
          intro p hp
          rcases List.mem_append.mp hp with h | h
          · exact hm p h
          · rw [List.mem_singleton.mp h]) (by
          rw [List.map_append, List.nodup_append]
          refine ⟨hk, by simp, ?_⟩
          intro a ha b hb hab
          have hb' : b = c := by simpa using hb
          rw [hab, hb'] at ha
          exact hcm ha) (pre ++ [c])
      refine ⟨m', h1, h2, h3, fun d => ?_⟩
      rw [h4]
      simp only [List.map_append, List.map_cons, List.map_nil, List.mem_append, List.mem_cons]
      tauto

open OnnxTool.Macs in
/-- **C43, Einsum.** For a two-operand equation without ellipsis and operands whose dimensions agree on every letter, the MACs are the number of
assignments of values to the distinct letters: one product per assignment. -/
theorem C43_einsum (sz : Char → Nat) (l0 l1 : List Char) (h0 : '.' ∉ l0) (h1 : '.' ∉ l1) :
    einsumMacs l0 l1 (l0.map sz) (l1.map sz) = .ok (indices ((l0 ++ l1).dedup.map sz)).length := by
  have f0 : l0.filter (· ≠ '.') = l0 := List.filter_eq_self.mpr fun c hc => by
    simp only [ne_eq, decide_not, Bool.not_eq_true', decide_eq_false_iff_not]; rintro rfl; exact h0 hc
  have f1 : l1.filter (· ≠ '.') = l1 := List.filter_eq_self.mpr fun c hc => by
    simp only [ne_eq, decide_not, Bool.not_eq_true', decide_eq_false_iff_not]; rintro rfl; exact h1 hc
  obtain ⟨m, a1, a2, a3, a4⟩ := einsumMap_spec sz [] (by simp) (by simp) [] l0
  obtain ⟨m', b1, b2, b3, b4⟩ := einsumMap_spec sz m a2 a3 [] l1
  simp only [List.nil_append, List.length_nil] at a1 b1
  unfold einsumMacs
  rw [f0, f1, a1]
  simp only [b1]
  rw [indices_length]
  have hprod : ∀ (l : List Nat) (a : Nat), l.foldl (· * ·) a = a * l.prod := by
    intro l
    induction l with
    | nil => intro a; simp
    | cons x xs ih => intro a; simp [ih, Nat.mul_assoc]
  rw [hprod, one_mul]
  have hm : m'.map (·.2) = (m'.map (·.1)).map sz := by
    rw [List.map_map]
    exact List.map_congr_left fun p hp => b2 p hp
  rw [hm]
  congr 1
  apply List.Perm.prod_eq
  apply List.Perm.map
  rw [List.perm_ext_iff_of_nodup b3 (List.nodup_dedup _)]
  intro c
  rw [b4, a4, List.mem_dedup, List.mem_append]
  simp

open OnnxTool.Macs in
example : einsumMacs "bij".toList "bjk".toList [2, 3, 4] [2, 4, 5] = .ok 120 := rfl

open OnnxTool.Macs in
/-- **C43 (finding).** With an ellipsis the cost function runs out of letters and raises `IndexError`, although `shape_infer` accepts the node. -/
theorem C43_einsum_ellipsis_raises : einsumMacs "...ij".toList "...jk".toList [2, 3, 4] [2, 4, 5] = .error .indexError := rfl

end OnnxTool.Props
