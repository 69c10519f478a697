import Mathlib.Tactic.Ring
import Mathlib.Tactic.FieldSimp
import Mathlib.Tactic.Linarith
import Verif.Spec.ConvBN
import Verif.Proofs.Pattern
import Verif.Proofs.Dict
import Verif.Proofs.Remove
import Verif.Proofs.Skip
/-! # Proofs about folding a batch normalisation into a convolution -/
namespace OnnxTool.ConvBN
open OnnxTool ConstFold

section Algebra
variable {K : Type} [Field K]

/-- `G` multiplies by `sm` where `P` holds and changes nothing elsewhere -/
def Scales (sm : K) (P : List Nat → Prop) (w w' : List Nat → K) : Prop := ∀ idx, (P idx → w' idx = sm * w idx) ∧ (¬ P idx → w' idx = w idx)

theorem fold_scale (sm : K) (G : Nat → (List Nat → K) → List Nat → K) (P : Nat → List Nat → Prop)
    (hG : ∀ n w, Scales sm (P n) w (G n w)) (hP : ∀ n m idx, P n idx → P m idx → n = m) (d : Nat) (w : List Nat → K) :
    Scales sm (fun idx => ∃ n < d, P n idx) w ((List.range d).foldl (fun w n => G n w) w) := by
  induction d with
  | zero => intro idx; simp
  | succ d ih =>
    rw [List.range_succ, List.foldl_append, List.foldl_cons, List.foldl_nil]
    intro idx
    have h0 := ih idx
    have h1 := hG d ((List.range d).foldl (fun w n => G n w) w) idx
    constructor
    · rintro ⟨n, hn, hp⟩
      rcases Nat.lt_succ_iff_lt_or_eq.mp hn with h | rfl
      · rw [h1.2 (fun h' => absurd (hP n d idx hp h') (by omega)), h0.1 ⟨n, h, hp⟩]
      · rw [h1.1 hp, h0.2]
        rintro ⟨m, hm, hq⟩
        exact absurd (hP m n idx hq hp) (by omega)
    · intro h
      rw [h1.2 (fun hp => h ⟨d, by omega, hp⟩), h0.2]
      rintro ⟨m, hm, hq⟩
      exact h ⟨m, by omega, hq⟩

theorem scaleRow_apply (sm : K) (i d1 d2 d3 : Nat) (w : List Nat → K) :
    Scales sm (fun idx => ∃ j < d1, ∃ k < d2, ∃ l < d3, idx.take 4 = [i, j, k, l]) w (scaleRow sm i d1 d2 d3 w) := by
  unfold scaleRow
  apply fold_scale sm _ (fun j idx => ∃ k < d2, ∃ l < d3, idx.take 4 = [i, j, k, l])
  · intro j w
    apply fold_scale sm _ (fun k idx => ∃ l < d3, idx.take 4 = [i, j, k, l])
    · intro k w
      apply fold_scale sm _ (fun l idx => idx.take 4 = [i, j, k, l])
      · intro l w idx; unfold scaleAt; constructor <;> intro h <;> simp [h]
      · rintro n m idx h1 h2; rw [h1] at h2; simpa using h2
    · rintro n m idx ⟨_, _, h1⟩ ⟨_, _, h2⟩; rw [h1] at h2; simp at h2; exact h2.1
  · rintro n m idx ⟨_, _, _, _, h1⟩ ⟨_, _, _, _, h2⟩; rw [h1] at h2; simp at h2; exact h2.1

/-- the channel loop multiplies every weight of channel `i` by `gamma_i / sqrt(var_i + eps)` and sets the bias of channel `i` -/
theorem foldChannels_apply (sqrt : K → K) (eps : K) (gamma beta mean var : Tensor K) (d1 d2 d3 : Nat) (is : List Nat) (hnd : is.Nodup)
    (w b : List Nat → K) :
    (∀ i ∈ is, ∀ j < d1, ∀ k < d2, ∀ l < d3, ∀ r : List Nat, (foldChannels sqrt eps gamma beta mean var d1 d2 d3 is (w, b)).1 (i :: j :: k :: l :: r) =
        gamma.val [i] / sqrt (var.val [i] + eps) * w (i :: j :: k :: l :: r)) ∧
    (∀ i ∉ is, ∀ r : List Nat, (foldChannels sqrt eps gamma beta mean var d1 d2 d3 is (w, b)).1 (i :: r) = w (i :: r)) ∧
    (∀ i, (foldChannels sqrt eps gamma beta mean var d1 d2 d3 is (w, b)).2 [i] =
      if i ∈ is then gamma.val [i] / sqrt (var.val [i] + eps) * (b [i] - mean.val [i]) + beta.val [i] else b [i]) := by
  induction is generalizing w b with
  | nil => simp [foldChannels]
  | cons a is ih =>
    rw [List.nodup_cons] at hnd
    simp only [foldChannels]
    obtain ⟨h1, h2, h3⟩ := ih hnd.2 (scaleRow (gamma.val [a] / sqrt (var.val [a] + eps)) a d1 d2 d3 w)
      (setAt b a (gamma.val [a] / sqrt (var.val [a] + eps) * (b [a] - mean.val [a]) + beta.val [a]))
    have other : ∀ i, i ≠ a → ∀ r, scaleRow (gamma.val [a] / sqrt (var.val [a] + eps)) a d1 d2 d3 w (i :: r) = w (i :: r) := by
      intro i hi r
      rw [(scaleRow_apply _ _ _ _ _ _ _).2]
      rintro ⟨j, _, k, _, l, _, h⟩
      simp only [List.take_succ_cons, List.cons.injEq] at h
      exact hi h.1
    refine ⟨?_, ?_, ?_⟩
    · intro i hi j hj k hk l hl r
      rcases List.mem_cons.mp hi with rfl | hi
      · rw [h2 i hnd.1, (scaleRow_apply _ _ _ _ _ _ _).1 ⟨j, hj, k, hk, l, hl, by simp⟩]
      · rw [h1 i hi j hj k hk l hl, other i (fun e => hnd.1 (e ▸ hi))]
    · intro i hi r
      simp only [List.mem_cons, not_or] at hi
      rw [h2 i hi.2, other i hi.1]
    · intro i
      rw [h3 i]
      by_cases hia : i = a
      · subst hia
        simp [hnd.1, setAt]
      · simp [hia, setAt]

theorem sum_map_mul_left {α : Type} (l : List α) (c : K) (f : α → K) : (l.map fun x => c * f x).sum = c * (l.map f).sum := by
  induction l with
  | nil => simp
  | cons a l ih => simp [ih, mul_add]

theorem mem_indices {s idx : List Nat} (h : idx ∈ indices s) : idx.length = s.length ∧ ∀ i, i < s.length → idx.getD i 0 < s.getD i 0 := by
  induction s generalizing idx with
  | nil => simp only [indices, List.mem_singleton] at h; subst h; simp
  | cons d s ih =>
    simp only [indices, List.mem_flatMap, List.mem_range, List.mem_map] at h
    obtain ⟨i, hi, r, hr, rfl⟩ := h
    obtain ⟨h1, h2⟩ := ih hr
    refine ⟨by simp [h1], ?_⟩
    intro j hj
    cases j with
    | zero => simpa using hi
    | succ j => simpa using h2 j (by simpa using hj)

theorem inBounds_channel {s idx : List Nat} {a b : Nat} {r : List Nat} (hs : s = a :: b :: r) (h : inBounds s idx = true) : idx.getD 1 0 < b := by
  subst hs
  unfold inBounds at h
  match idx, h with
  | [], h => simp at h
  | [_], h => simp at h
  | x :: y :: t, h => simp at h; simpa using h.2.2.1

/-- batch normalisation of a convolution is the convolution with the folded weights and bias -/
theorem fold_eq (sqrt : K → K) (eps : K) (c : Conv K) (x w gamma beta mean var : Tensor K) (d0 d1 d2 d3 : Nat) (ds : List Nat)
    (hw : w.shape = d0 :: d1 :: d2 :: d3 :: ds) :
    bnSem sqrt eps (convSem c x w fun _ => 0) gamma beta mean var =
      convSem c x ⟨w.shape, (foldChannels sqrt eps gamma beta mean var d1 d2 d3 (List.range d0) (w.val, fun _ => 0)).1⟩
        fun i => (foldChannels sqrt eps gamma beta mean var d1 d2 d3 (List.range d0) (w.val, fun _ => 0)).2 [i] := by
  obtain ⟨h1, _, h3⟩ := foldChannels_apply sqrt eps gamma beta mean var d1 d2 d3 (List.range d0) List.nodup_range w.val (fun _ => 0)
  unfold bnSem convSem Tensor.ofFn
  simp only [Tensor.mk.injEq, true_and]
  funext idx
  split
  · rename_i hb
    have hch : idx.getD 1 0 < d0 := inBounds_channel (by rw [hw]; rfl) hb
    have hsum : ((indices (w.shape.drop 1)).map fun r =>
        (foldChannels sqrt eps gamma beta mean var d1 d2 d3 (List.range d0) (w.val, fun _ => 0)).1 (idx.getD 1 0 :: r) * c.tap x idx r).sum =
        gamma.val [idx.getD 1 0] / sqrt (var.val [idx.getD 1 0] + eps) *
          ((indices (w.shape.drop 1)).map fun r => w.val (idx.getD 1 0 :: r) * c.tap x idx r).sum := by
      rw [← sum_map_mul_left]
      congr 1
      apply List.map_congr_left
      intro r hr
      obtain ⟨e1, e2⟩ := mem_indices hr
      rw [hw] at e1 e2
      simp only [List.drop_succ_cons, List.drop_zero, List.length_cons] at e1 e2
      match r, e1, e2 with
      | j :: k :: l :: r, _, e2 =>
        have hj : j < d1 := by simpa using e2 0 (by omega)
        have hk : k < d2 := by simpa using e2 1 (by omega)
        have hl : l < d3 := by simpa using e2 2 (by omega)
        rw [h1 _ (List.mem_range.mpr hch) j hj k hk l hl r]
        ring
    rw [hsum, h3, if_pos (List.mem_range.mpr hch)]
    ring
  · rfl

end Algebra
section GraphPart
set_option linter.unusedSectionVars false
variable {K : Type} [Field K]
open Remove Subgraph

theorem get?_pop_ne {α : Type} (d : Dict α) {k q : String} (h : k ≠ q) : (d.pop k).get? q = d.get? q := by
  induction d with
  | nil => rfl
  | cons x d ih =>
    obtain ⟨a, v⟩ := x
    unfold Dict.pop
    split
    · rename_i ha; subst ha; simp [Dict.get?, h]
    · simp only [Dict.get?]; split
      · rfl
      · exact ih

theorem get?_eraseAt_ne (d : Dict (List String)) {k q x : String} (h : k ≠ q) : (eraseAt d k x).get? q = d.get? q := by
  unfold eraseAt
  split
  · rfl
  · split
    · exact get?_pop_ne d h
    · exact Dict.get?_set_ne d _ h

/-- what is needed of a graph throughout -/
structure Base (st : St K) : Prop where
  names : (st.g.nodemap.map (·.name)).Nodup
  uniq : ∀ n ∈ st.g.nodemap, ∀ m ∈ st.g.nodemap, ∀ o, o ∈ n.output → o ∈ m.output → n = m
  given : ∀ n ∈ st.g.nodemap, ∀ o ∈ n.output, st.env o = none
  outs : ∀ n ∈ st.g.nodemap, n.output.Nodup

/-- a convolution and the batch normalisation to be folded into it -/
structure Good (st : St K) (c b : Node) (x w y z : String) (ps : List String) : Prop where
  cmem : c ∈ st.g.nodemap
  bmem : b ∈ st.g.nodemap
  cop : c.op = "Conv"
  bop : b.op = "BatchNormalization"
  cin : c.input = [x, w]
  cout : c.output = [y]
  bin : b.input = y :: ps
  bout : b.output = [z]
  plen : ps.length = 4
  yonly : ∀ n ∈ st.g.nodemap, y ∈ n.input → n = b
  wonly : ∀ n ∈ st.g.nodemap, w ∈ n.input → n = c
  xw : x ≠ w
  wenv : ∃ t d0 d1 d2 d3 ds, st.env w = some t ∧ t.shape = d0 :: d1 :: d2 :: d3 :: ds
  penv : ∀ p ∈ ps, ∃ t, st.env p = some t
  fresh : ∀ n ∈ st.g.nodemap, biasName c ∉ n.input ∧ biasName c ∉ n.output
  freshEnv : st.env (biasName c) = none
  prodz : st.g.producedby.get? z = some [b.name]
  consy : st.g.consumedby.get? y = some [b.name]
  prody : st.g.producedby.get? y = some [c.name]
  prodp : ∀ p ∈ ps, st.g.producedby.get? p = none
  youtput : y ∉ st.g.output
  zoutput : z ∉ st.g.output

/-- the folded convolution -/
def folded (c : Node) (x w z : String) : Node := { c with input := [x, w, biasName c], output := [z] }

theorem rmConsumers_params (name : String) (ps : List String) (g : Graph) (new : List String) (h : ∀ p ∈ ps, g.producedby.get? p = none) :
    ∃ cb, rmConsumers name ps g new = .ok ({ g with consumedby := cb }, new) ∧ ∀ q, q ∉ ps → cb.get? q = g.consumedby.get? q := by
  induction ps generalizing g with
  | nil => exact ⟨g.consumedby, rfl, fun _ _ => rfl⟩
  | cons p ps ih =>
    have hd : danglingProducer g p = .ok none := by
      unfold danglingProducer
      rw [h p (by simp)]
      cases g.consumedby.get? p <;> rfl
    simp only [rmConsumers, hd, Option.toList, List.append_nil]
    obtain ⟨cb, h1, h2⟩ := ih { g with consumedby := eraseAt g.consumedby p name } (fun q hq => h q (by simp [hq]))
    refine ⟨cb, h1, fun q hq => ?_⟩
    simp only [List.mem_cons, not_or] at hq
    rw [h2 q hq.2]
    exact get?_eraseAt_ne _ (fun e => hq.1 e.symm)

theorem erase_not_mem {l : List String} {a : String} (h : a ∉ l) : l.erase a = l := List.erase_of_not_mem h

/-- the graph after one folding -/
theorem rewire_ok {st : St K} {c b : Node} {x w y z : String} {ps : List String} (hb : Base st) (h : Good st c b x w y z ps) :
    ∃ g', rewireGraph st.g c b = .ok g' ∧ g'.nodemap = setNode (popNode st.g.nodemap b.name) (folded c x w z) ∧
      g'.output = st.g.output ∧ g'.input = st.g.input ∧ g'.initials = st.g.initials ++ [biasName c] ∧
      (∀ q, q ≠ z → g'.producedby.get? q = st.g.producedby.get? q) ∧ (∀ q, q ≠ y → q ∉ ps → g'.consumedby.get? q = st.g.consumedby.get? q) := by
  have hfb := Pattern.findNode_self hb.names h.bmem
  have hfc := Pattern.findNode_self hb.names h.cmem
  have hyz : y ≠ z := by
    intro e
    have := hb.uniq c h.cmem b h.bmem y (by rw [h.cout]; simp) (by rw [h.bout, e]; simp)
    have h1 := h.cop; rw [this, h.bop] at h1; exact absurd h1 (by decide)
  have hps : ∀ p ∈ ps, p ≠ z := by
    intro p hp e
    obtain ⟨t, ht⟩ := h.penv p hp
    rw [e, hb.given b h.bmem z (by rw [h.bout]; simp)] at ht
    cases ht
  have hpy : y ∉ ps := by
    intro hp
    obtain ⟨t, ht⟩ := h.penv y hp
    rw [hb.given c h.cmem y (by rw [h.cout]; simp)] at ht
    cases ht
  have he : st.g.output.erase z = st.g.output := List.erase_of_not_mem h.zoutput
  have hprod : rmProducers b.name [z] { st.g with initials := st.g.initials ++ [biasName c] } =
      .ok { st.g with initials := st.g.initials ++ [biasName c], producedby := st.g.producedby.pop z } := by
    simp [rmProducers, h.prodz, eraseAt, he]
  let g1 : Graph := { st.g with initials := st.g.initials ++ [biasName c], producedby := st.g.producedby.pop z }
  have hdy : ∃ o, danglingProducer g1 y = .ok o := by
    have h1 : g1.consumedby.get? y = some [b.name] := h.consy
    have h2 : g1.producedby.get? y = some [c.name] := by
      show (st.g.producedby.pop z).get? y = _
      rw [get?_pop_ne _ (fun e => hyz e.symm), h.prody]
    have h3 : findNode g1.nodemap c.name = some c := hfc
    unfold danglingProducer
    rw [h1, h2]
    simp only [List.length_cons, List.length_nil, if_true, h3]
    split
    · exact ⟨_, rfl⟩
    · exact ⟨_, rfl⟩
  obtain ⟨o, ho⟩ := hdy
  obtain ⟨cb, hc1, hc2⟩ := rmConsumers_params b.name ps { g1 with consumedby := eraseAt g1.consumedby y b.name } ([] ++ o.toList)
    (fun p hp => by
      show (st.g.producedby.pop z).get? p = none
      rw [get?_pop_ne _ (fun e => hps p hp e.symm), h.prodp p hp])
  unfold rewireGraph removeOne
  have hfb' : findNode ({ st.g with initials := st.g.initials ++ [biasName c] } : Graph).nodemap b.name = some b := hfb
  rw [hfb']
  simp only [h.bout, hprod]
  have hcons : rmConsumers b.name b.input g1 [] = .ok ({ g1 with consumedby := cb }, [] ++ o.toList) := by
    rw [h.bin]
    simp only [rmConsumers, ho]
    exact hc1
  have hcons' := hcons
  simp only [g1] at hcons'
  simp only [hcons']
  have hout : c.output = [y] := h.cout
  simp only [List.getElem?_cons_zero, hout]
  refine ⟨_, rfl, ?_, rfl, rfl, rfl, ?_, ?_⟩
  · simp [folded, h.cin]
  · intro q hq
    show ((st.g.producedby.pop z).set z [c.name]).get? q = _
    rw [Dict.get?_set_ne _ _ (fun e => hq e.symm), get?_pop_ne _ (fun e => hq e.symm)]
  · intro q hq1 hq2
    show cb.get? q = _
    rw [hc2 q hq2]
    exact get?_eraseAt_ne _ (fun e => hq1 e.symm)

theorem name_inj {ns : List Node} (hn : (ns.map (·.name)).Nodup) {a b : Node} (ha : a ∈ ns) (hb : b ∈ ns) (h : a.name = b.name) : a = b := by
  have h1 := Pattern.findNode_self hn ha
  rw [h, Pattern.findNode_self hn hb] at h1
  injection h1 with h1
  exact h1.symm

theorem folded_mem {st : St K} {c b : Node} {x w y z : String} {ps : List String} (hb : Base st) (h : Good st c b x w y z ps) (k : Node) :
    k ∈ setNode (popNode st.g.nodemap b.name) (folded c x w z) ↔ k = folded c x w z ∨ (k ∈ st.g.nodemap ∧ k ≠ b ∧ k ≠ c) := by
  have hcb : c.name ≠ b.name := by
    intro e
    have := name_inj hb.names h.cmem h.bmem e
    have h1 := h.cop; rw [this, h.bop] at h1; exact absurd h1 (by decide)
  have hsub : ((popNode st.g.nodemap b.name).map (·.name)).Nodup := nodup_names_sub (popNode_sub _ _) hb.names
  rw [Skip.mem_setNode (n := folded c x w z) hsub (mem_popNode.mpr ⟨h.cmem, hcb⟩) rfl, mem_popNode]
  constructor
  · rintro (r | ⟨⟨r1, r2⟩, r3⟩)
    · exact .inl r
    · exact .inr ⟨r1, fun e => r2 (e ▸ rfl), fun e => r3 (e ▸ rfl)⟩
  · rintro (r | ⟨r1, r2, r3⟩)
    · exact .inl r
    · exact .inr ⟨⟨r1, fun e => r2 (name_inj hb.names r1 h.bmem e)⟩, fun e => r3 (name_inj hb.names r1 h.cmem e)⟩

/-- the environment after one folding -/
structure Step (sqrt : K → K) (eps : String → K) (st st' : St K) (c b : Node) (x w y z : String) (ps : List String) : Prop where
  nodes : st'.g.nodemap = setNode (popNode st.g.nodemap b.name) (folded c x w z)
  output : st'.g.output = st.g.output
  input : st'.g.input = st.g.input
  prod : ∀ q, q ≠ z → st'.g.producedby.get? q = st.g.producedby.get? q
  cons : ∀ q, q ≠ y → q ∉ ps → st'.g.consumedby.get? q = st.g.consumedby.get? q
  env : ∃ W G B M V d0 d1 d2 d3 ds ga be mu va, ps = [ga, be, mu, va] ∧ st.env w = some W ∧ W.shape = d0 :: d1 :: d2 :: d3 :: ds ∧
    st.env ga = some G ∧ st.env be = some B ∧ st.env mu = some M ∧ st.env va = some V ∧
    ∀ t, st'.env t = if t = biasName c then some ⟨[d0], (foldChannels sqrt (eps b.name) G B M V d1 d2 d3 (List.range d0) (W.val, fun _ => 0)).2⟩
      else if t = w then some ⟨W.shape, (foldChannels sqrt (eps b.name) G B M V d1 d2 d3 (List.range d0) (W.val, fun _ => 0)).1⟩ else st.env t

theorem fuseOne_ok (sqrt : K → K) (eps : String → K) {st : St K} {c b : Node} {x w y z : String} {ps : List String} (hb : Base st)
    (h : Good st c b x w y z ps) : ∃ st', fuseOne sqrt eps st c.name b.name = .ok st' ∧ Step sqrt eps st st' c b x w y z ps := by
  obtain ⟨W, d0, d1, d2, d3, ds, hW, hsh⟩ := h.wenv
  obtain ⟨g', hg, e1, e2, e3, _, e5, e6⟩ := rewire_ok hb h
  match hps : ps, h.plen with
  | [ga, be, mu, va], _ =>
    obtain ⟨G, hG⟩ := h.penv ga (by simp)
    obtain ⟨B, hB⟩ := h.penv be (by simp)
    obtain ⟨M, hM⟩ := h.penv mu (by simp)
    obtain ⟨V, hV⟩ := h.penv va (by simp)
    unfold fuseOne
    rw [Pattern.findNode_self hb.names h.cmem, Pattern.findNode_self hb.names h.bmem]
    simp only [lookup, h.cin, h.bin, List.getElem?_cons_succ, List.getElem?_cons_zero, hW, hG, hB, hM, hV, hsh, hg, List.length_cons,
      List.length_nil]
    exact ⟨_, rfl, e1, e2, e3, e5, e6, W, G, B, M, V, d0, d1, d2, d3, ds, ga, be, mu, va, rfl, hW, hsh, hG, hB, hM, hV, fun t => by
      simp only [hsh]⟩

theorem Step.bias_ne_w {st : St K} {c b : Node} {x w y z : String} {ps : List String} (h : Good st c b x w y z ps) : biasName c ≠ w := by
  obtain ⟨W, _, _, _, _, _, hW, _⟩ := h.wenv
  intro e
  rw [← e, h.freshEnv] at hW; cases hW

theorem Step.env_other {sqrt : K → K} {eps : String → K} {st st' : St K} {c b : Node} {x w y z : String} {ps : List String}
    (hs : Step sqrt eps st st' c b x w y z ps) {t : String} (h1 : t ≠ biasName c) (h2 : t ≠ w) : st'.env t = st.env t := by
  obtain ⟨W, G, B, M, V, d0, d1, d2, d3, ds, ga, be, mu, va, _, _, _, _, _, _, _, he⟩ := hs.env
  rw [he t, if_neg h1, if_neg h2]

theorem Step.base {sqrt : K → K} {eps : String → K} {st st' : St K} {c b : Node} {x w y z : String} {ps : List String} (hb : Base st)
    (h : Good st c b x w y z ps) (hs : Step sqrt eps st st' c b x w y z ps) : Base st' := by
  have hm := fun k => (hs.nodes ▸ folded_mem hb h k : k ∈ st'.g.nodemap ↔ _)
  have hcb : c.name ≠ b.name := by
    intro e
    have := name_inj hb.names h.cmem h.bmem e
    have h1 := h.cop; rw [this, h.bop] at h1; exact absurd h1 (by decide)
  have hzb : z ∈ b.output := by rw [h.bout]; simp
  refine ⟨?_, ?_, ?_, ?_⟩
  · rw [hs.nodes, Skip.setNode_names (n := folded c x w z) (mem_popNode.mpr ⟨h.cmem, hcb⟩) rfl]
    exact nodup_names_sub (popNode_sub _ _) hb.names
  · intro n hn m hmm o h1 h2
    rcases (hm n).mp hn with rfl | ⟨n1, n2, n3⟩ <;> rcases (hm m).mp hmm with rfl | ⟨m1, m2, m3⟩
    · rfl
    · have ho : o = z := by simpa [folded] using h1
      subst ho
      exact absurd (hb.uniq m m1 b h.bmem o h2 hzb) m2
    · have ho : o = z := by simpa [folded] using h2
      subst ho
      exact absurd (hb.uniq n n1 b h.bmem o h1 hzb) n2
    · exact hb.uniq n n1 m m1 o h1 h2
  · have key : ∀ n ∈ st.g.nodemap, ∀ o ∈ n.output, st'.env o = none := by
      intro n hn o ho
      have h1 : o ≠ biasName c := fun e => (h.fresh n hn).2 (e ▸ ho)
      have h2 : o ≠ w := by
        intro e
        obtain ⟨W, _, _, _, _, _, hW, _⟩ := h.wenv
        rw [← e, hb.given n hn o ho] at hW; cases hW
      rw [hs.env_other h1 h2]
      exact hb.given n hn o ho
    intro n hn o ho
    rcases (hm n).mp hn with rfl | ⟨n1, n2, n3⟩
    · have : o = z := by simpa [folded] using ho
      subst this
      exact key b h.bmem o hzb
    · exact key n n1 o ho
  · intro n hn
    rcases (hm n).mp hn with rfl | ⟨n1, n2, n3⟩
    · simp [folded]
    · exact hb.outs n n1

/-- another pair stays good -/
theorem Step.good {sqrt : K → K} {eps : String → K} {st st' : St K} {c b : Node} {x w y z : String} {ps : List String} (hb : Base st)
    (h : Good st c b x w y z ps) (hs : Step sqrt eps st st' c b x w y z ps) {c' b' : Node} {x' w' y' z' : String} {ps' : List String}
    (h' : Good st c' b' x' w' y' z' ps') (hc : c' ≠ c) (hbb : b' ≠ b) : Good st' c' b' x' w' y' z' ps' := by
  have hm := fun k => (hs.nodes ▸ folded_mem hb h k : k ∈ st'.g.nodemap ↔ _)
  have hop : ∀ {p q : Node}, p.op = "Conv" → q.op = "BatchNormalization" → p ≠ q := by
    intro p q h1 h2 e; rw [e, h2] at h1; exact absurd h1 (by decide)
  have hy'c : y' ∈ c'.output := by rw [h'.cout]; simp
  have hz'b : z' ∈ b'.output := by rw [h'.bout]; simp
  have hw'w : w' ≠ w := fun e => hc (h.wonly c' h'.cmem (by rw [h'.cin, e]; simp))
  have hbias : biasName c' ≠ biasName c := by
    unfold biasName
    intro e
    have : c'.name = c.name := by simpa using e
    exact hc (name_inj hb.names h'.cmem h.cmem this)
  have henvw' : st'.env w' = st.env w' := by
    refine hs.env_other ?_ hw'w
    intro e
    obtain ⟨W, _, _, _, _, _, hW, _⟩ := h'.wenv
    rw [e, h.freshEnv] at hW; cases hW
  have hne : ∀ q, st.env q = none → q ∉ ps := by
    intro q hq hp
    obtain ⟨t, ht⟩ := h.penv q hp
    rw [hq] at ht; cases ht
  have hyy : y' ≠ y := by
    intro e
    exact hc (hb.uniq c' h'.cmem c h.cmem y' hy'c (by rw [h.cout, e]; simp))
  have hzz : z' ≠ z := by
    intro e
    exact hbb (hb.uniq b' h'.bmem b h.bmem z' hz'b (by rw [h.bout, e]; simp))
  have hyz : y' ≠ z := by
    intro e
    exact hop h'.cop h.bop (hb.uniq c' h'.cmem b h.bmem y' hy'c (by rw [h.bout, e]; simp))
  refine ⟨(hm c').mpr (.inr ⟨h'.cmem, hop h'.cop h.bop, hc⟩), (hm b').mpr (.inr ⟨h'.bmem, hbb, fun e => hop h.cop h'.bop e.symm⟩),
    h'.cop, h'.bop, h'.cin, h'.cout, h'.bin, h'.bout, h'.plen, ?_, ?_, h'.xw, ?_, ?_, ?_, ?_, ?_, ?_, ?_, ?_, ?_, ?_⟩
  · intro n hn hy
    rcases (hm n).mp hn with rfl | ⟨n1, n2, n3⟩
    · simp only [folded, List.mem_cons, List.not_mem_nil, or_false] at hy
      have hcy : y' ∈ c.input → False := fun hyc => hop h.cop h'.bop (h'.yonly c h.cmem hyc)
      rcases hy with e | e | e
      · exact absurd (by rw [h.cin, e]; simp) hcy
      · exact absurd (by rw [h.cin, e]; simp) hcy
      · exact absurd (e ▸ hy'c) (h.fresh c' h'.cmem).2
    · exact h'.yonly n n1 hy
  · intro n hn hw
    rcases (hm n).mp hn with rfl | ⟨n1, n2, n3⟩
    · simp only [folded, List.mem_cons, List.not_mem_nil, or_false] at hw
      have hcw : w' ∈ c.input → False := fun hyc => hc (h'.wonly c h.cmem hyc).symm
      rcases hw with e | e | e
      · exact absurd (by rw [h.cin, e]; simp) hcw
      · exact absurd (by rw [h.cin, e]; simp) hcw
      · obtain ⟨W, _, _, _, _, _, hW, _⟩ := h'.wenv
        rw [e, h.freshEnv] at hW; cases hW
    · exact h'.wonly n n1 hw
  · rw [henvw']; exact h'.wenv
  · intro p hp
    have hpb : p ∈ b'.input := by rw [h'.bin]; simp [hp]
    obtain ⟨t, ht⟩ := h'.penv p hp
    refine ⟨t, ?_⟩
    rw [hs.env_other, ht]
    · intro e; rw [e, h.freshEnv] at ht; cases ht
    · intro e; exact hop h.cop h'.bop (h.wonly b' h'.bmem (e ▸ hpb)).symm
  · intro n hn
    rcases (hm n).mp hn with rfl | ⟨n1, n2, n3⟩
    · have h1 := (h'.fresh c h.cmem).1
      have h2 := (h'.fresh b h.bmem).2
      rw [h.cin] at h1
      rw [h.bout] at h2
      simp only [folded, List.mem_cons, List.not_mem_nil, or_false, not_or] at h1 h2 ⊢
      exact ⟨⟨h1.1, h1.2, hbias⟩, h2⟩
    · exact h'.fresh n n1
  · rw [hs.env_other hbias, h'.freshEnv]
    intro e
    have := h'.freshEnv
    rw [e] at this
    obtain ⟨W, _, _, _, _, _, hW, _⟩ := h.wenv
    rw [this] at hW; cases hW
  · rw [hs.prod z' hzz]; exact h'.prodz
  · rw [hs.cons y' hyy (hne y' (hb.given c' h'.cmem y' hy'c))]; exact h'.consy
  · rw [hs.prod y' hyz]; exact h'.prody
  · intro p hp
    rw [hs.prod p]
    · exact h'.prodp p hp
    · intro e
      obtain ⟨t, ht⟩ := h'.penv p hp
      rw [e, hb.given b h.bmem z (by rw [h.bout]; simp)] at ht; cases ht
  · rw [hs.output]; exact h'.youtput
  · rw [hs.output]; exact h'.zoutput

/-- every tensor other than the convolution's old output and its weight keeps its value -/
theorem Step.values {sqrt : K → K} {eps : String → K} {conv : String → Conv K} {other : Node → List (Tensor K) → Nat → Tensor K}
    {st st' : St K} {c b : Node} {x w y z : String} {ps : List String} (hb : Base st) (h : Good st c b x w y z ps)
    (hs : Step sqrt eps st st' c b x w y z ps) {t : String} {v : Tensor K} {ins : String → Option (Tensor K)}
    (hins : ∀ n ∈ st.g.nodemap, ∀ o ∈ n.output, ins o = none) (hinsb : ins (biasName c) = none)
    (hv : Ev st.g.nodemap (sem conv sqrt eps other) (fun t => (st.env t).or (ins t)) t v) (hty : t ≠ y) (htw : t ≠ w) :
    Ev st'.g.nodemap (sem conv sqrt eps other) (fun t => (st'.env t).or (ins t)) t v := by
  have hm := fun k => (hs.nodes ▸ folded_mem hb h k : k ∈ st'.g.nodemap ↔ _)
  have hxy : x ≠ y := by
    intro e
    have := h.yonly c h.cmem (by rw [h.cin, e]; simp)
    have h1 := h.cop; rw [this, h.bop] at h1; exact absurd h1 (by decide)
  obtain ⟨W, G, B, M, V, d0, d1, d2, d3, ds, ga, be, mu, va, hps, hW, hsh, hG, hB, hM, hV, henv⟩ := hs.env
  have hbw := Step.bias_ne_w h
  have main : ∀ {t v}, Ev st.g.nodemap (sem conv sqrt eps other) (fun t => (st.env t).or (ins t)) t v →
      (t ≠ y → t ≠ w → t ≠ biasName c → Ev st'.g.nodemap (sem conv sqrt eps other) (fun t => (st'.env t).or (ins t)) t v) ∧
      (t = y → ∃ xv, Ev st'.g.nodemap (sem conv sqrt eps other) (fun t => (st'.env t).or (ins t)) x xv ∧ v = convSem (conv c.name) xv W fun _ => 0) ∧
      (t = w → v = W) ∧ (∀ q T, t = q → st.env q = some T → v = T) := by
    intro t v hev
    induction hev with
    | @base t v he =>
      refine ⟨?_, ?_, ?_, ?_⟩
      · intro h1 h2 h3
        exact Ev.base (by simp only [hs.env_other h3 h2]; exact he)
      · intro e
        have hyc : y ∈ c.output := by rw [h.cout]; simp
        rw [e, hb.given c h.cmem y hyc, hins c h.cmem y hyc] at he
        cases he
      · intro e; rw [e, hW] at he; simpa using he.symm
      · intro q T e hT; rw [e, hT] at he; simpa using he.symm
    | @node n k o vs hn ho hl _ ih =>
      have hon : o ∈ n.output := List.mem_of_getElem? ho
      have hnoenv : ∀ T, st.env o ≠ some T := by intro T hT; rw [hb.given n hn o hon] at hT; cases hT
      refine ⟨?_, ?_, ?_, ?_⟩
      · intro h1 h2 h3
        by_cases hnb : n = b
        · subst hnb
          rw [h.bout] at ho hon
          have hoz : o = z := by simpa using hon
          have hk : k = 0 := by
            cases k with
            | zero => rfl
            | succ k => simp at ho
          subst hk
          rw [h.bin, hps] at ih hl
          match vs, hl with
          | [yv, gv, bv, mv, vv], _ =>
            obtain ⟨xv, hx, hyv⟩ := (ih 0 y yv rfl rfl).2.1 rfl
            have e1 := (ih 1 ga gv rfl rfl).2.2.2 ga G rfl hG
            have e2 := (ih 2 be bv rfl rfl).2.2.2 be B rfl hB
            have e3 := (ih 3 mu mv rfl rfl).2.2.2 mu M rfl hM
            have e4 := (ih 4 va vv rfl rfl).2.2.2 va V rfl hV
            have hval : sem conv sqrt eps other n [yv, gv, bv, mv, vv] 0 =
                sem conv sqrt eps other (folded c x w z)
                  [xv, ⟨W.shape, (foldChannels sqrt (eps n.name) G B M V d1 d2 d3 (List.range d0) (W.val, fun _ => 0)).1⟩,
                   ⟨[d0], (foldChannels sqrt (eps n.name) G B M V d1 d2 d3 (List.range d0) (W.val, fun _ => 0)).2⟩] 0 := by
              simp only [sem, h.bop, folded, h.cop, if_true, hyv, e1, e2, e3, e4]
              exact fold_eq sqrt (eps n.name) (conv c.name) xv W G B M V d0 d1 d2 d3 ds hsh
            rw [hval]
            refine Ev.node (n := folded c x w z) (k := 0) _ ((hm _).mpr (.inl rfl)) (by simp [folded, hoz]) (by simp [folded]) ?_
            intro i t v hi hv
            match i with
            | 0 =>
              have h1 : x = t := by simpa [folded] using hi
              have h2 : xv = v := by simpa using hv
              rw [← h1, ← h2]; exact hx
            | 1 =>
              have h1 : w = t := by simpa [folded] using hi
              have h2 := Option.some.inj hv
              rw [← h1, ← h2]
              exact Ev.base (by simp only [henv w, if_neg (Ne.symm hbw)]; simp)
            | 2 =>
              have h1 : biasName c = t := by simpa [folded] using hi
              have h2 := Option.some.inj hv
              rw [← h1, ← h2]
              exact Ev.base (by simp only [henv (biasName c)]; simp)
            | i + 3 => simp [folded] at hi
        · by_cases hnc : n = c
          · subst hnc
            rw [h.cout] at hon
            exact absurd (by simpa using hon) h1
          · refine Ev.node vs ((hm n).mpr (.inr ⟨hn, hnb, hnc⟩)) ho hl ?_
            intro i t v hi hv
            have hti : t ∈ n.input := List.mem_of_getElem? hi
            refine (ih i t v hi hv).1 ?_ ?_ ?_
            · intro e; exact hnb (h.yonly n hn (e ▸ hti))
            · intro e; exact hnc (h.wonly n hn (e ▸ hti))
            · intro e; exact (h.fresh n hn).1 (e ▸ hti)
      · intro e
        have hnc : n = c := hb.uniq n hn c h.cmem o hon (by rw [h.cout, e]; simp)
        subst hnc
        rw [h.cin] at ih hl
        match vs, hl with
        | [xv, wv], _ =>
          have hx := (ih 0 x xv rfl rfl).1 hxy h.xw (by
            intro e'
            have := (h.fresh n hn).1
            rw [h.cin] at this
            simp only [List.mem_cons, List.not_mem_nil, or_false, not_or] at this
            exact this.1 e'.symm)
          have hw := (ih 1 w wv rfl rfl).2.2.1 rfl
          refine ⟨xv, hx, ?_⟩
          simp only [sem, h.cop, if_true, hw]
      · intro e; exact absurd (e ▸ hW) (hnoenv W)
      · intro q T e hT; exact absurd (e ▸ hT) (hnoenv T)
  by_cases htb : t = biasName c
  · exfalso
    have key : ∀ {t v}, Ev st.g.nodemap (sem conv sqrt eps other) (fun t => (st.env t).or (ins t)) t v → t ≠ biasName c := by
      intro t v hev e
      cases hev with
      | base he => rw [e, h.freshEnv, hinsb] at he; cases he
      | node vs hn ho _ _ => exact (h.fresh _ hn).2 (e ▸ List.mem_of_getElem? ho)
    exact key hv htb
  · exact (main hv).1 hty htw htb

theorem ev_det' {st : St K} (hb : Base st) {f : Node → List (Tensor K) → Nat → Tensor K} {ins : String → Option (Tensor K)}
    (hins : ∀ n ∈ st.g.nodemap, ∀ o ∈ n.output, ins o = none) {t : String} {v : Tensor K}
    (h1 : Ev st.g.nodemap f (fun t => (st.env t).or (ins t)) t v) : ∀ {u}, Ev st.g.nodemap f (fun t => (st.env t).or (ins t)) t u → v = u := by
  have hno : ∀ n ∈ st.g.nodemap, ∀ o ∈ n.output, (st.env o).or (ins o) = none := fun n hn o ho => by rw [hb.given n hn o ho, hins n hn o ho]; rfl
  induction h1 with
  | base h =>
    intro u h2
    cases h2 with
    | base h' => rw [h] at h'; cases h'; rfl
    | node vs hn ho _ _ => rw [hno _ hn _ (List.mem_of_getElem? ho)] at h; cases h
  | @node n k o vs hn ho hl _ ih =>
    intro u h2
    cases h2 with
    | base h' => rw [hno _ hn _ (List.mem_of_getElem? ho)] at h'; cases h'
    | @node m j _ us hm ho' hl' hin =>
      have e : n = m := hb.uniq n hn m hm o (List.mem_of_getElem? ho) (List.mem_of_getElem? ho')
      subst e
      have e2 : k = j := by
        obtain ⟨hj, hj'⟩ := List.getElem?_eq_some_iff.mp ho
        obtain ⟨hk, hk'⟩ := List.getElem?_eq_some_iff.mp ho'
        exact (List.getElem_inj (hb.outs n hn)).mp (hj'.trans hk'.symm)
      subst e2
      have : vs = us := by
        apply List.ext_getElem?
        intro i
        by_cases hi : i < n.input.length
        · have e1 : n.input[i]? = some n.input[i] := List.getElem?_eq_getElem hi
          have e2 : vs[i]? = some (vs[i]'(by omega)) := List.getElem?_eq_getElem _
          have e3 : us[i]? = some (us[i]'(by omega)) := List.getElem?_eq_getElem _
          rw [e2, e3, ih i _ _ e1 e2 (hin i _ _ e1 e3)]
        · rw [List.getElem?_eq_none (by omega), List.getElem?_eq_none (by omega)]
      rw [this]

/-- a pair to be folded, with the tensors involved -/
structure Pair where
  c : Node
  b : Node
  x : String
  w : String
  y : String
  z : String
  ps : List String

def Pair.Good (st : St K) (q : Pair) : Prop := ConvBN.Good st q.c q.b q.x q.w q.y q.z q.ps

theorem fuseAll_ok (sqrt : K → K) (eps : String → K) (qs : List Pair) : ∀ (st : St K), Base st → (∀ q ∈ qs, q.Good st) →
    qs.Pairwise (fun p q => q.c ≠ p.c ∧ q.b ≠ p.b) →
    ∃ st', fuseAll sqrt eps (qs.map fun q => [q.c.name, q.b.name]) st = .ok st' ∧ Base st' ∧ st'.g.output = st.g.output ∧ st'.g.input = st.g.input ∧
      (∀ n, n ∈ st'.g.nodemap ↔ (∃ q ∈ qs, n = folded q.c q.x q.w q.z) ∨ (n ∈ st.g.nodemap ∧ ∀ q ∈ qs, n ≠ q.b ∧ n ≠ q.c)) ∧
      ∀ (ins : String → Option (Tensor K)), (∀ n ∈ st.g.nodemap, ∀ o ∈ n.output, ins o = none) → (∀ q ∈ qs, ins (biasName q.c) = none) →
      ∀ conv other t v, (∀ q ∈ qs, t ≠ q.y ∧ t ≠ q.w) → Ev st.g.nodemap (sem conv sqrt eps other) (fun t => (st.env t).or (ins t)) t v →
        Ev st'.g.nodemap (sem conv sqrt eps other) (fun t => (st'.env t).or (ins t)) t v := by
  induction qs with
  | nil =>
    intro st hb _ _
    exact ⟨st, rfl, hb, rfl, rfl, by simp, fun _ _ _ _ _ _ _ _ h => h⟩
  | cons q qs ih =>
    intro st hb hg hp
    rw [List.pairwise_cons] at hp
    have hq := hg q (by simp)
    obtain ⟨st1, h1, hs⟩ := fuseOne_ok sqrt eps hb hq
    have hb1 := hs.base hb hq
    have hg1 : ∀ p ∈ qs, p.Good st1 := fun p hpm => hs.good hb hq (hg p (by simp [hpm])) (hp.1 p hpm).1 (hp.1 p hpm).2
    obtain ⟨st', e1, e2, e3, e4, e5, e6⟩ := ih st1 hb1 hg1 hp.2
    have hm := fun k => (hs.nodes ▸ folded_mem hb hq k : k ∈ st1.g.nodemap ↔ _)
    refine ⟨st', ?_, e2, e3.trans hs.output, e4.trans hs.input, ?_, ?_⟩
    · simp only [List.map_cons, fuseAll, h1]; exact e1
    · intro n
      rw [e5 n, hm n]
      constructor
      · rintro (⟨p, hpm, rfl⟩ | ⟨rfl | ⟨r1, r2, r3⟩, r4⟩)
        · exact .inl ⟨p, by simp [hpm], rfl⟩
        · exact .inl ⟨q, by simp, rfl⟩
        · refine .inr ⟨r1, fun p hpm => ?_⟩
          rcases List.mem_cons.mp hpm with rfl | hpm
          · exact ⟨r2, r3⟩
          · exact r4 p hpm
      · rintro (⟨p, hpm, rfl⟩ | ⟨r1, r2⟩)
        · rcases List.mem_cons.mp hpm with rfl | hpm
          · refine .inr ⟨.inl rfl, fun p' hp' => ⟨?_, ?_⟩⟩
            · intro e
              have h1 := (hg1 p' hp').bop
              rw [← e] at h1
              simp only [folded] at h1
              rw [hq.cop] at h1
              exact absurd h1 (by decide)
            · intro e
              have h1 : p.c.name = p'.c.name := by
                have := congrArg Node.name e
                simpa [folded] using this
              exact (hp.1 p' hp').1 (name_inj hb.names (hg p' (by simp [hp'])).cmem hq.cmem h1.symm)
          · exact .inl ⟨p, hpm, rfl⟩
        · exact .inr ⟨.inr ⟨r1, (r2 q (by simp)).1, (r2 q (by simp)).2⟩, fun p hpm => r2 p (by simp [hpm])⟩
    · intro ins hi1 hi2 conv other t v ht hv
      have hv1 := hs.values hb hq hi1 (hi2 q (by simp)) hv (ht q (by simp)).1 (ht q (by simp)).2
      refine e6 ins ?_ (fun p hpm => hi2 p (by simp [hpm])) conv other t v (fun p hpm => ht p (by simp [hpm])) hv1
      intro n hn o ho
      rcases (hm n).mp hn with rfl | ⟨n1, _, _⟩
      · have : o = q.z := by simpa [folded] using ho
        exact hi1 q.b hq.bmem o (by rw [hq.bout, this]; simp)
      · exact hi1 n n1 o ho

end GraphPart
end OnnxTool.ConvBN
