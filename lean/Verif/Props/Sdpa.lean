import Verif.Spec.Sdpa
import Mathlib.Algebra.BigOperators.Field
import Mathlib.Data.List.GetD
import Mathlib.Analysis.Complex.Trigonometric
import Mathlib.Tactic.Ring
import Mathlib.Tactic.FieldSimp
/-!
# C49: attention with a key/value cache; C50: rotary embedding
-/
namespace OnnxTool.Props
open OnnxTool OnnxTool.Sdpa Finset

variable {F : Type} [Field F]

/-- the kernel call for one step -/
def stepRun (cf : Cfg) (ex : F → F) (scale : F) (s : Step F) (cache : Cache F) : Except PyErr (Cache F × T3 F) :=
  run3 cf ex scale s.layer s.past s.chunk.length (rows Token.q s.chunk) (rows Token.k s.chunk) (rows Token.v s.chunk) cache

/-- The announced past has been seen by the layer, and there is room for the new tokens. -/
def StepOk (cf : Cfg) (streams : Nat → List (Token F)) (s : Step F) : Prop :=
  s.layer < cf.layers ∧ s.past ≤ (streams s.layer).length ∧ s.past + s.chunk.length ≤ cf.ctx

/-- a history of calls, each within its preconditions: streams and cache before and after -/
inductive Hist (cf : Cfg) (ex : F → F) (scale : F) : (Nat → List (Token F)) → Cache F → Prop
  | start (cache : Cache F) : Hist cf ex scale (fun _ => []) cache
  | step {streams cache cache' out} (s : Step F) : Hist cf ex scale streams cache → StepOk cf streams s →
      stepRun cf ex scale s cache = .ok (cache', out) → Hist cf ex scale (s.apply streams) cache'

/-- the cache holds the keys and values of each layer's stream -/
private def Holds (cf : Cfg) (streams : Nat → List (Token F)) (cache : Cache F) : Prop :=
  ∀ l < cf.layers, ∀ b j c, j < (streams l).length → c < cf.kvCols →
    cache b (l * 2) j c = ((streams l).getD j default).k b c ∧ cache b (l * 2 + 1) j c = ((streams l).getD j default).v b c

private theorem getD_take_append (l m : List (Token F)) (n j : Nat) (hn : n ≤ l.length) :
    (l.take n ++ m).getD j default = if j < n then l.getD j default else m.getD (j - n) default := by
  have hlen : (l.take n).length = n := by simp [hn]
  split
  · rename_i h
    rw [List.getD_append _ _ _ _ (by omega)]
    simp [List.getD, h]
  · rename_i h
    rw [List.getD_append_right _ _ _ _ (by omega), hlen]

private theorem holds_step {cf : Cfg} {ex : F → F} {scale : F} {streams : Nat → List (Token F)} {cache cache' : Cache F} {out : T3 F}
    {s : Step F} (hh : Holds cf streams cache) (hok : StepOk cf streams s) (hr : stepRun cf ex scale s cache = .ok (cache', out)) :
    Holds cf (s.apply streams) cache' := by
  unfold stepRun run3 at hr
  split at hr
  · cases hr
  · split at hr
    · simp only [Except.ok.injEq, Prod.mk.injEq] at hr
      obtain ⟨rfl, _⟩ := hr
      intro l hl b j c hj hc
      unfold Step.apply at hj ⊢
      by_cases he : l = s.layer
      · subst he
        simp only [if_true] at hj ⊢
        have hlen : ((streams s.layer).take s.past).length = s.past := by simp [hok.2.1]
        rw [List.length_append, hlen] at hj
        rw [getD_take_append _ _ _ _ hok.2.1]
        have e1 : s.layer * 2 ≠ s.layer * 2 + 1 := by omega
        by_cases hp : j < s.past
        · obtain ⟨h1, h2⟩ := hh s.layer hl b j c (by have := hok.2.1; omega) hc
          simp [writeCache, hp, Nat.not_le.mpr hp, h1, h2]
        · simp [writeCache, hp, Nat.not_lt.mp hp, hj, hc, rows]
      · simp only [he, if_false] at hj ⊢
        obtain ⟨h1, h2⟩ := hh l hl b j c hj hc
        have n1 : ¬ l * 2 = s.layer * 2 := by omega
        have n2 : ¬ l * 2 = s.layer * 2 + 1 := by omega
        have n3 : ¬ l * 2 + 1 = s.layer * 2 := by omega
        have n4 : ¬ l * 2 + 1 = s.layer * 2 + 1 := by omega
        simp only [writeCache, n1, n2, n3, n4, false_and, if_false]
        exact ⟨h1, h2⟩
    · cases hr

private theorem holds_hist {cf : Cfg} {ex : F → F} {scale : F} {streams : Nat → List (Token F)} {cache : Cache F}
    (h : Hist cf ex scale streams cache) : Holds cf streams cache := by
  induction h with
  | start cache => intro l _ b j c hj; simp at hj
  | step s _ hok hr ih => exact holds_step ih hok hr

/-- sums over all positions with masked ones weighing nothing are sums over the visible ones -/
private theorem masked_sum (total m : Nat) (hm : m ≤ total) (f : Nat → F) (hz : ∀ j, m ≤ j → f j = 0) :
    ∑ j ∈ range total, f j = ∑ j ∈ range m, f j := by
  symm
  apply Finset.sum_subset
  · intro j hj; simp only [mem_range] at hj ⊢; omega
  · intro j _ hj; simp only [mem_range, not_lt] at hj; exact hz j hj

private theorem shapesOk_iff (cf : Cfg) : cf.shapesOk = true ↔
    0 < cf.heads ∧ 0 < cf.kvHeads ∧ cf.heads * cf.hd = cf.qCols ∧ cf.kvHeads * cf.hd = cf.kvCols ∧ cf.kvHeads * cf.rep = cf.heads := by
  simp [Cfg.shapesOk, and_assoc]

private theorem rep_eq (cf : Cfg) (h : cf.shapesOk = true) : cf.rep = cf.heads / cf.kvHeads := by
  obtain ⟨_, h2, _, _, h5⟩ := (shapesOk_iff cf).1 h
  rw [← h5]; exact (Nat.mul_div_cancel_left _ h2).symm

/-- the attention of the kernel is the causal attention of the stream its keys and values come from -/
theorem attend_causal (cf : Cfg) (hs : cf.shapesOk = true) (ex : F → F) (scale : F) (stream : List (Token F)) (n S : Nat)
    (q k v : T3 F) (b i h e : Nat) (hi : i < S) (hh : h < cf.heads) (he : e < cf.hd)
    (hq : ∀ c, q b i c = (stream.getD (n + i) default).q b c)
    (hk : ∀ j c, j < n + S → c < cf.kvCols → k b j c = (stream.getD j default).k b c)
    (hv : ∀ j c, j < n + S → c < cf.kvCols → v b j c = (stream.getD j default).v b c) :
    attend cf ex scale n (n + S) q k v b i (h * cf.hd + e) = causal cf.heads cf.kvHeads cf.hd ex scale stream b (n + i) h e := by
  have hd0 : 0 < cf.hd := by omega
  obtain ⟨_, hkv0, _, h4, h5⟩ := (shapesOk_iff cf).1 hs
  have hc1 : (h * cf.hd + e) / cf.hd = h := by
    rw [Nat.mul_comm, Nat.mul_add_div hd0, Nat.div_eq_of_lt he, Nat.add_zero]
  have hc2 : (h * cf.hd + e) % cf.hd = e := by
    rw [Nat.mul_comm, Nat.mul_add_mod, Nat.mod_eq_of_lt he]
  have hg : h / cf.rep < cf.kvHeads := by
    apply Nat.div_lt_of_lt_mul
    rw [Nat.mul_comm, h5]; exact hh
  have hcol : ∀ e', e' < cf.hd → h / cf.rep * cf.hd + e' < cf.kvCols := by
    intro e' he'
    have : (h / cf.rep + 1) * cf.hd ≤ cf.kvHeads * cf.hd := Nat.mul_le_mul_right _ hg
    rw [Nat.add_mul, Nat.one_mul, h4] at this
    omega
  have hw : ∀ j, j < n + i + 1 → weight cf ex scale n q k b h i j =
      ex ((∑ e' ∈ range cf.hd, (stream.getD (n + i) default).q b (h * cf.hd + e') *
        (stream.getD j default).k b (h / (cf.heads / cf.kvHeads) * cf.hd + e')) / scale) := by
    intro j hj
    unfold weight score
    rw [if_pos hj]
    congr 2
    apply Finset.sum_congr rfl
    intro e' he'
    rw [mem_range] at he'
    rw [hq, hk j _ (by omega) (hcol e' he'), rep_eq cf hs]
  have hz : ∀ j, n + i + 1 ≤ j → weight cf ex scale n q k b h i j = 0 := by
    intro j hj; unfold weight; rw [if_neg (by omega)]
  unfold attend causal
  simp only [hc1, hc2]
  rw [masked_sum (n + S) (n + i + 1) (by omega) _ hz]
  rw [masked_sum (n + S) (n + i + 1) (by omega) _ (fun j hj => by rw [hz j hj, zero_div, zero_mul])]
  have hZ : ∑ j ∈ range (n + i + 1), weight cf ex scale n q k b h i j = ∑ j ∈ range (n + i + 1),
      ex ((∑ e' ∈ range cf.hd, (stream.getD (n + i) default).q b (h * cf.hd + e') *
        (stream.getD j default).k b (h / (cf.heads / cf.kvHeads) * cf.hd + e')) / scale) :=
    Finset.sum_congr rfl fun j hj => hw j (mem_range.1 hj)
  rw [hZ, Finset.sum_div]
  apply Finset.sum_congr rfl
  intro j hj
  rw [mem_range] at hj
  rw [hw j hj, hv j _ (by omega) (hcol e he), rep_eq cf hs]
  ring

/-- **C49.** After any history of calls — any layers in any order, prompts cut into chunks in any way, rewinding to any earlier position —
the next call returns, and its output is grouped-query causal attention over the whole stream of its layer: the announced past followed by
the new tokens, exactly as if the stream had been processed in one piece without a cache.  The initial contents of the cache do not
matter. -/
theorem C49_cached_attention (cf : Cfg) (hs : cf.shapesOk = true) (hcols : cf.kvCols ≤ cf.cacheCols) (ex : F → F) (scale : F)
    (streams : Nat → List (Token F)) (cache : Cache F) (hist : Hist cf ex scale streams cache) (s : Step F)
    (hok : StepOk cf streams s) :
    ∃ cache' out, stepRun cf ex scale s cache = .ok (cache', out) ∧
      ∀ b i h e, i < s.chunk.length → h < cf.heads → e < cf.hd →
        out b i (h * cf.hd + e) =
          causal cf.heads cf.kvHeads cf.hd ex scale ((streams s.layer).take s.past ++ s.chunk) b (s.past + i) h e := by
  have hh := holds_hist hist
  obtain ⟨o1, o2, o3⟩ := hok
  unfold stepRun run3
  rw [if_neg (by simpa using o1), if_pos ⟨hs, hcols, o3⟩]
  refine ⟨_, _, rfl, ?_⟩
  intro b i h e hi hh' he
  apply attend_causal cf hs ex scale _ _ _ _ _ _ _ _ _ _ hi hh' he
  · intro c
    rw [getD_take_append _ _ _ _ o2, if_neg (by omega)]
    simp [rows]
  · intro j c hj hc
    rw [getD_take_append _ _ _ _ o2]
    unfold joined
    split
    · exact (hh s.layer o1 b j c (by omega) hc).1
    · rfl
  · intro j c hj hc
    rw [getD_take_append _ _ _ _ o2]
    unfold joined
    split
    · exact (hh s.layer o1 b j c (by omega) hc).2
    · rfl

/-- **C49, without a cache.** The kernel computes causal attention over the tokens given. -/
theorem C49_plain_attention (cf : Cfg) (hs : cf.shapesOk = true) (ex : F → F) (scale : F) (stream : List (Token F)) :
    ∃ out, runPlain cf ex scale stream.length (rows Token.q stream) (rows Token.k stream) (rows Token.v stream) = .ok out ∧
      ∀ b i h e, i < stream.length → h < cf.heads → e < cf.hd →
        out b i (h * cf.hd + e) = causal cf.heads cf.kvHeads cf.hd ex scale stream b i h e := by
  refine ⟨_, by unfold runPlain; rw [if_pos hs], ?_⟩
  intro b i h e hi hh he
  have := attend_causal cf hs ex scale stream 0 stream.length (rows Token.q stream) (rows Token.k stream) (rows Token.v stream) b i h e hi hh he
    (fun c => by simp [rows]) (fun j c _ _ => rfl) (fun j c _ _ => rfl)
  simpa using this

/-- **C49, the future does not matter.** Causal attention at position `p` does not depend on later tokens: cutting the stream after `p`
changes nothing. -/
theorem C49_no_lookahead (heads kvHeads hd : Nat) (ex : F → F) (scale : F) (s1 s2 : List (Token F)) (b p h e : Nat)
    (hp : p < s1.length) : causal heads kvHeads hd ex scale (s1 ++ s2) b p h e = causal heads kvHeads hd ex scale s1 b p h e := by
  have hg : ∀ j, j < p + 1 → (s1 ++ s2).getD j default = s1.getD j default := fun j hj => List.getD_append _ _ _ _ (by omega)
  unfold causal
  simp only [hg p (by omega)]
  congr 1
  · apply Finset.sum_congr rfl
    intro j hj; rw [mem_range] at hj; rw [hg j hj]
  · apply Finset.sum_congr rfl
    intro j hj; rw [mem_range] at hj; rw [hg j hj]

/-- **C49, refusal.** A call that does not fit the context (or a layer number beyond the cache) raises and changes nothing. -/
theorem C49_overflow_raises (cf : Cfg) (ex : F → F) (scale : F) (s : Step F) (cache : Cache F)
    (h : cf.ctx < s.past + s.chunk.length ∨ cf.layers ≤ s.layer) : ∃ x, stepRun cf ex scale s cache = .error x := by
  unfold stepRun run3
  rcases h with h | h
  · split
    · exact ⟨_, rfl⟩
    · rw [if_neg (fun hc => absurd hc.2.2 (by omega))]; exact ⟨_, rfl⟩
  · rw [if_pos (by omega)]; exact ⟨_, rfl⟩

/-- **C49 (finding): four-dimensional inputs with a cache.** With more than one key/value head, a single-token call cannot be stored: the
slice has `hd` columns and the source `kvHeads * hd`. -/
theorem C49_four_dim_decode_raises (kvHeads hd cacheCols : Nat) (hk : 2 ≤ kvHeads) (hd0 : 0 < hd) : cache4Fits kvHeads 1 hd cacheCols = false := by
  have h1 : hd < kvHeads * hd := by
    calc hd < 2 * hd := by omega
      _ ≤ kvHeads * hd := Nat.mul_le_mul_right _ hk
  have h2 : min (hd * 1) cacheCols ≤ hd := by rw [Nat.mul_one]; exact Nat.min_le_left _ _
  simp only [cache4Fits, Bool.or_eq_false_iff, decide_eq_false_iff_not]
  constructor <;> omega

/-- **C49 (finding).** When it can be stored (as many tokens as key/value heads), the rows are those of heads, not of positions: position
0 gets the first components of head 0 at positions 0 and 1. -/
theorem C49_four_dim_scrambled (x : Nat → Nat → Nat → Nat → F) (b : Nat) :
    cache4Fits 2 2 1 2 = true ∧ flat4 2 2 1 x b 0 0 = x b 0 0 0 ∧ flat4 2 2 1 x b 0 1 = x b 0 1 0 ∧ flat4 2 2 1 x b 1 0 = x b 1 0 0 :=
  ⟨by decide, rfl, rfl, rfl⟩

/-! ## C50: rotary embedding -/

/-- sum over the columns of one head -/
private theorem sum_halves (half : Nat) (f : Nat → F) : ∑ e ∈ range (2 * half), f e = ∑ e ∈ range half, (f e + f (half + e)) := by
  rw [two_mul, Finset.sum_range_add, Finset.sum_add_distrib]

private theorem rope_cols (half : Nat) (cosT sinT : Nat → Nat → F) (pos : Nat → Nat → Nat) (x : T3 F) (b s h e : Nat) (he : e < half) :
    rope half cosT sinT pos x b s (h * (2 * half) + e) =
      x b s (h * (2 * half) + e) * cosT (pos b s) e - x b s (h * (2 * half) + half + e) * sinT (pos b s) e ∧
    rope half cosT sinT pos x b s (h * (2 * half) + (half + e)) =
      x b s (h * (2 * half) + e) * sinT (pos b s) e + x b s (h * (2 * half) + half + e) * cosT (pos b s) e := by
  have h0 : 0 < 2 * half := by omega
  have d1 : (h * (2 * half) + e) / (2 * half) = h := by
    rw [Nat.mul_comm h, Nat.mul_add_div h0, Nat.div_eq_of_lt (by omega), Nat.add_zero]
  have m1 : (h * (2 * half) + e) % (2 * half) = e := by
    rw [Nat.mul_comm h, Nat.mul_add_mod, Nat.mod_eq_of_lt (by omega)]
  have d2 : (h * (2 * half) + (half + e)) / (2 * half) = h := by
    rw [Nat.mul_comm h, Nat.mul_add_div h0, Nat.div_eq_of_lt (by omega), Nat.add_zero]
  have m2 : (h * (2 * half) + (half + e)) % (2 * half) = half + e := by
    rw [Nat.mul_comm h, Nat.mul_add_mod, Nat.mod_eq_of_lt (by omega)]
  unfold rope
  simp only [d1, m1, d2, m2]
  rw [if_pos he, if_neg (by omega)]
  rw [Nat.add_sub_cancel_left]
  exact ⟨rfl, by rw [Nat.add_assoc]⟩

/-- **C50.** The score of a rotated query at position `m` and a rotated key at position `n` depends on the positions only through
their difference, when the tables are those of angles proportional to the position: shifting all positions by the same amount changes no
attention score. -/
theorem C50_relative_positions (half : Nat) (cosT sinT : Nat → Nat → F)
    (hadd : ∀ m n d i, i < half → cosT (m + d) i * cosT (n + d) i + sinT (m + d) i * sinT (n + d) i = cosT m i * cosT n i + sinT m i * sinT n i ∧
      sinT (m + d) i * cosT (n + d) i - cosT (m + d) i * sinT (n + d) i = sinT m i * cosT n i - cosT m i * sinT n i)
    (x y : T3 F) (pos pos' : Nat → Nat → Nat) (d b s t h : Nat) (h1 : pos' b s = pos b s + d) (h2 : pos' b t = pos b t + d) :
    ∑ e ∈ range (2 * half), rope half cosT sinT pos' x b s (h * (2 * half) + e) * rope half cosT sinT pos' y b t (h * (2 * half) + e) =
      ∑ e ∈ range (2 * half), rope half cosT sinT pos x b s (h * (2 * half) + e) * rope half cosT sinT pos y b t (h * (2 * half) + e) := by
  rw [sum_halves, sum_halves]
  apply Finset.sum_congr rfl
  intro e he
  rw [mem_range] at he
  obtain ⟨a1, a2⟩ := rope_cols half cosT sinT pos x b s h e he
  obtain ⟨b1, b2⟩ := rope_cols half cosT sinT pos y b t h e he
  obtain ⟨c1, c2⟩ := rope_cols half cosT sinT pos' x b s h e he
  obtain ⟨d1, d2⟩ := rope_cols half cosT sinT pos' y b t h e he
  rw [a1, a2, b1, b2, c1, c2, d1, d2, h1, h2]
  obtain ⟨k1, k2⟩ := hadd (pos b s) (pos b t) d e he
  generalize x b s (h * (2 * half) + e) = x1
  generalize x b s (h * (2 * half) + half + e) = x2
  generalize y b t (h * (2 * half) + e) = y1
  generalize y b t (h * (2 * half) + half + e) = y2
  generalize cosT (pos b s + d) e = cm' at *
  generalize sinT (pos b s + d) e = sm' at *
  generalize cosT (pos b t + d) e = cn' at *
  generalize sinT (pos b t + d) e = sn' at *
  generalize cosT (pos b s) e = cm at *
  generalize sinT (pos b s) e = sm at *
  generalize cosT (pos b t) e = cn at *
  generalize sinT (pos b t) e = sn at *
  have e1 : (x1 * cm' - x2 * sm') * (y1 * cn' - y2 * sn') + (x1 * sm' + x2 * cm') * (y1 * sn' + y2 * cn') =
      (x1 * y1 + x2 * y2) * (cm' * cn' + sm' * sn') + (x1 * y2 - x2 * y1) * (sm' * cn' - cm' * sn') := by ring
  rw [e1, k1, k2]
  ring

/-- **C50, lengths.** Rotation keeps the squared length of every head. -/
theorem C50_preserves_length (half : Nat) (cosT sinT : Nat → Nat → F) (pos : Nat → Nat → Nat)
    (hcs : ∀ p i, i < half → cosT p i * cosT p i + sinT p i * sinT p i = 1) (x : T3 F) (b s h : Nat) :
    ∑ e ∈ range (2 * half), rope half cosT sinT pos x b s (h * (2 * half) + e) * rope half cosT sinT pos x b s (h * (2 * half) + e) =
      ∑ e ∈ range (2 * half), x b s (h * (2 * half) + e) * x b s (h * (2 * half) + e) := by
  rw [sum_halves, sum_halves]
  apply Finset.sum_congr rfl
  intro e he
  rw [mem_range] at he
  obtain ⟨a1, a2⟩ := rope_cols half cosT sinT pos x b s h e he
  rw [a1, a2, ← Nat.add_assoc]
  have := hcs (pos b s) e he
  generalize x b s (h * (2 * half) + e) = x1
  generalize x b s (h * (2 * half) + half + e) = x2
  generalize cosT (pos b s) e = c at *
  generalize sinT (pos b s) e = sn at *
  have e1 : (x1 * c - x2 * sn) * (x1 * c - x2 * sn) + (x1 * sn + x2 * c) * (x1 * sn + x2 * c) = (x1 * x1 + x2 * x2) * (c * c + sn * sn) := by ring
  rw [e1, this, mul_one]

/-- **C50, the tables.** The tables the builder makes (`/repo/onnx_tool/llm.py` 337-342: cosine and sine of position times frequency, here
exactly) satisfy the hypotheses of the two theorems, whatever the frequencies. -/
theorem C50_tables (θ : Nat → ℝ) :
    (∀ m n d i : Nat, Real.cos ((m + d : Nat) * θ i) * Real.cos ((n + d : Nat) * θ i) + Real.sin ((m + d : Nat) * θ i) * Real.sin ((n + d : Nat) * θ i) =
        Real.cos (m * θ i) * Real.cos (n * θ i) + Real.sin (m * θ i) * Real.sin (n * θ i) ∧
      Real.sin ((m + d : Nat) * θ i) * Real.cos ((n + d : Nat) * θ i) - Real.cos ((m + d : Nat) * θ i) * Real.sin ((n + d : Nat) * θ i) =
        Real.sin (m * θ i) * Real.cos (n * θ i) - Real.cos (m * θ i) * Real.sin (n * θ i)) ∧
    (∀ p i : Nat, Real.cos (p * θ i) * Real.cos (p * θ i) + Real.sin (p * θ i) * Real.sin (p * θ i) = 1) := by
  refine ⟨fun m n d i => ⟨?_, ?_⟩, fun p i => ?_⟩
  · rw [← Real.cos_sub, ← Real.cos_sub]; congr 1; push_cast; ring
  · rw [← Real.sin_sub, ← Real.sin_sub]; congr 1; push_cast; ring
  · have := Real.cos_sq_add_sin_sq (p * θ i)
    rw [← sq, ← sq]; exact this

/-- the score of a rotated query and key of one head does not change when all positions move -/
example (half : Nat) (θ : Nat → ℝ) (x y : T3 ℝ) (d b s t h : Nat) :
    ∑ e ∈ range (2 * half), rope half (fun p i => Real.cos (p * θ i)) (fun p i => Real.sin (p * θ i)) (fun _ s => s + d) x b s (h * (2 * half) + e) *
        rope half (fun p i => Real.cos (p * θ i)) (fun p i => Real.sin (p * θ i)) (fun _ s => s + d) y b t (h * (2 * half) + e) =
      ∑ e ∈ range (2 * half), rope half (fun p i => Real.cos (p * θ i)) (fun p i => Real.sin (p * θ i)) (fun _ s => s) x b s (h * (2 * half) + e) *
        rope half (fun p i => Real.cos (p * θ i)) (fun p i => Real.sin (p * θ i)) (fun _ s => s) y b t (h * (2 * half) + e) :=
  C50_relative_positions half _ _ (fun m n d i _ => (C50_tables θ).1 m n d i) x y _ _ d b s t h rfl rfl

/-- **C50 (finding): partial rotation.** With `rotary_dim` smaller than the head size only the first `rotary_dim` columns of a head should
be rotated; the kernel takes the table width for the head size and rotates every group of columns: with heads of 4 columns and
`rotary_dim = 2`, columns 2 and 3 of head 0 are rotated too. -/
theorem C50_partial_rotary_rotates_all (cosT sinT : Nat → Nat → F) (pos : Nat → Nat → Nat) (x : T3 F) (b s : Nat) :
    rope 1 cosT sinT pos x b s 2 = x b s 2 * cosT (pos b s) 0 - x b s 3 * sinT (pos b s) 0 := rfl

/-- four query heads, two key/value heads of one column, one layer, room for three tokens -/
def tinyCfg : Cfg := ⟨4, 2, 4, 2, 1, 3, 2⟩
def tok (q k v : Nat → ℚ) : Token ℚ := ⟨fun _ => q, fun _ => k, fun _ => v⟩
def prompt : List (Token ℚ) := [tok (fun c => c) (fun c => c + 1) (fun c => 2 * c), tok (fun _ => 1) (fun c => c) (fun c => c + 3)]

/-- the hypotheses of C49 hold for a prompt of two tokens followed by one more -/
example (cache : Cache ℚ) : tinyCfg.shapesOk = true ∧ tinyCfg.kvCols ≤ tinyCfg.cacheCols ∧
    ∃ streams cache', Hist tinyCfg (fun x => x * x + 1) 1 streams cache' ∧ StepOk tinyCfg streams ⟨0, 2, [tok (fun _ => 2) (fun _ => 1) (fun _ => 5)]⟩ ∧
      (streams 0).length = 2 := by
  have hr : ∃ c' o, stepRun tinyCfg (fun x => x * x + 1) 1 ⟨0, 0, prompt⟩ cache = .ok (c', o) := by
    unfold stepRun run3
    rw [if_neg (by decide), if_pos ⟨by decide, by decide, by decide⟩]
    exact ⟨_, _, rfl⟩
  obtain ⟨c', o, hr⟩ := hr
  exact ⟨by decide, by decide, _, c', .step ⟨0, 0, prompt⟩ (.start cache) ⟨by decide, by simp, by decide⟩ hr,
    ⟨by decide, by simp [Step.apply, prompt], by decide⟩, by simp [Step.apply, prompt]⟩

end OnnxTool.Props
