import Verif.Spec.Infer
import Verif.Props.Memory
import Mathlib.Data.List.Nodup
/-!
# C46: running a graph in the shared memory pool
-/
namespace OnnxTool.Props
open OnnxTool OnnxTool.Mem OnnxTool.Infer OnnxTool.Pool

/-- The tensor lives in the memory pool. -/
def Pooled (e : Engine) (t : String) : Prop := (e.views.get? t).isSome

/-- The contents before the first node, with a storage of its own for every tensor: constants, the caller's tensors, and for tensors
outside the pool what an earlier call supplied. -/
def startEnv (e : Engine) (dyn : Dict Bytes) (inputs : List (String × Bytes)) : Env := fun t =>
  match e.consts.get? t with
  | some c => some c
  | none =>
    match Dict.get? inputs t with
    | some b => some b
    | none => if (e.views.get? t).isSome then none else dyn.get? t

/-- What is required of the graph and of the call.  `tm` is the tensor map at the maximal shapes, `shape` the shapes of this call,
`sem` the meaning of the operators. -/
structure RunOk (g : Graph) (tm : Dict TInfo) (e : Engine) (shape : String → List Nat) (dyn : Dict Bytes)
    (inputs : List (String × Bytes)) (sem : Sem) : Prop where
  /-- every node output is a dynamic tensor of known shape with at least one dimension and one element -/
  outs : ∀ k t, ProducedAt g.nodemap k t → t ≠ "" ∧ t ∈ g.dynamics ∧ ∃ i, tm.get? t = some i ∧ i.shape ≠ [] ∧ 0 < prod i.shape
  /-- the run type is not wider than the type the plan was made for, and the call's shape not larger than the maximal one -/
  fits : ∀ t i, tm.get? t = some i → e.elt ≤ i.esize ∧ prod (shape t) ≤ prod i.shape
  /-- constants are not pooled tensors -/
  consts : ∀ t, Pooled e t → e.consts.get? t = none
  /-- a pooled tensor read by node `k` is supplied by the caller or produced before node `k` -/
  topo : ∀ k t, ReadAt g.nodemap k t → Pooled e t →
    t ≠ "" ∧ ((t ∈ g.input ∧ ∃ b, (t, b) ∈ inputs) ∨ ∃ j, j < k ∧ ProducedAt g.nodemap j t)
  /-- the caller supplies graph inputs, each once, of the size of this call's shape -/
  keys : (inputs.map (·.1)).Nodup
  isInput : ∀ t b, (t, b) ∈ inputs → Pooled e t → t ≠ "" ∧ t ∈ g.input ∧ b.length = prod (shape t) * e.elt
  /-- the shapes of this call are the true sizes of what the operators compute -/
  sizes : ∀ k n, g.nodemap[k]? = some n →
    (sem n (n.input.map (refRun sem (g.nodemap.take k) (startEnv e dyn inputs)))).map List.length =
      n.output.map (fun t => prod (shape t) * e.elt)

/-- Only the shapes of the tensors of the tensor map, the caller's tensors and the node outputs matter. -/
theorem RunOk.congr {g : Graph} {tm : Dict TInfo} {e : Engine} {shape shape' : String → List Nat} {dyn : Dict Bytes}
    {inputs : List (String × Bytes)} {sem : Sem} (h : RunOk g tm e shape dyn inputs sem)
    (h1 : ∀ t i, tm.get? t = some i → shape' t = shape t) (h2 : ∀ t b, (t, b) ∈ inputs → shape' t = shape t)
    (h3 : ∀ n ∈ g.nodemap, ∀ t ∈ n.output, shape' t = shape t) : RunOk g tm e shape' dyn inputs sem := by
  refine ⟨h.outs, ?_, h.consts, h.topo, h.keys, ?_, ?_⟩
  · intro t i hi; rw [h1 t i hi]; exact h.fits t i hi
  · intro t b hb hp; rw [h2 t b hb]; exact h.isInput t b hb hp
  · intro k n hn
    rw [h.sizes k n hn]
    apply List.map_congr_left
    intro t ht
    rw [h3 n (List.mem_of_getElem? hn) t ht]

/-! ### Views -/

theorem views_get (plan : Dict (Nat × Nat)) (sz : Nat) (tm : Dict TInfo) (elt : Nat) (t : String) :
    (views plan sz tm elt).get? t =
      match plan.get? t with
      | some a => if 0 < blockBytes tm elt t then some (a.1, min (a.1 + blockBytes tm elt t) sz - a.1) else none
      | none => none := by
  unfold views
  induction plan with
  | nil => rfl
  | cons a plan ih =>
    obtain ⟨u, b⟩ := a
    by_cases hu : u = t
    · subst hu
      by_cases hb : 0 < blockBytes tm elt u
      · simp [hb, Dict.get?]
      · simp only [List.filter_cons, hb, decide_false, Bool.false_eq_true, if_false, Dict.get?, if_true]
        have : ∀ l : Dict (Nat × Nat), Dict.get? ((l.filter fun e => decide (0 < blockBytes tm elt e.1)).map
            fun e => (e.1, (e.2.1, min (e.2.1 + blockBytes tm elt e.1) sz - e.2.1))) u = none := by
          intro l
          induction l with
          | nil => rfl
          | cons c l ihl =>
            by_cases hc : 0 < blockBytes tm elt c.1
            · simp only [List.filter_cons, hc, decide_true, if_true, List.map_cons, Dict.get?]
              rw [if_neg (by rintro rfl; exact hb hc)]; exact ihl
            · simp only [List.filter_cons, hc, decide_false, Bool.false_eq_true, if_false]; exact ihl
        exact this plan
    · by_cases hb : 0 < blockBytes tm elt u
      · simp only [List.filter_cons, hb, decide_true, if_true, List.map_cons, Dict.get?, if_neg hu]; exact ih
      · simp only [List.filter_cons, hb, decide_false, Bool.false_eq_true, if_false, Dict.get?, if_neg hu]; exact ih

variable {g : Graph} {tm : Dict TInfo} {p sz : Nat} {cm : Dict (Nat × Nat)} {elt : Nat} {consts : Dict Bytes}

/-- A view is exactly the tensor's maximal contents at the planned offset, inside its planned block. -/
private theorem view_facts (hp : 0 < p) (hrun : compressMemory g (memsizes tm) p = .ok (cm, sz))
    (hfit : ∀ t i, tm.get? t = some i → elt ≤ i.esize) {t : String} {v : Nat × Nat}
    (hv : (views cm sz tm elt).get? t = some v) :
    ∃ i size, cm.get? t = some (v.1, size) ∧ tm.get? t = some i ∧ v.2 = prod i.shape * elt ∧ v.2 ≤ size := by
  rw [views_get] at hv
  cases hc : cm.get? t with
  | none => simp [hc] at hv
  | some a =>
    obtain ⟨off, size⟩ := a
    simp only [hc] at hv
    split at hv
    · cases hv
      have h2 := C02_within_pool g (memsizes tm) p cm sz hrun t off size hc
      obtain ⟨_, _, bytes, hb, hpos, hle⟩ := C03_aligned_and_large_enough g (memsizes tm) p hp cm sz hrun t off size hc
      unfold memsizes at hb
      cases hi : tm.get? t with
      | none => simp [hi] at hb
      | some i =>
        simp only [hi, Option.map_some, Option.some.injEq] at hb
        have hel := hfit t i hi
        have hbb : blockBytes tm elt t = prod i.shape * elt := by unfold blockBytes; rw [hi]
        unfold TInfo.memsize at hb
        have hne : i.shape ≠ [] := by intro h0; rw [if_pos h0] at hb; omega
        rw [if_neg hne] at hb
        have : prod i.shape * elt ≤ prod i.shape * i.esize := Nat.mul_le_mul_left _ hel
        refine ⟨i, size, rfl, rfl, ?_, ?_⟩
        · simp only [hbb]; omega
        · simp only [hbb]; omega
    · cases hv

/-! ### Memory lemmas -/

theorem readView_congr {m m' : Mem} {v : Nat × Nat} (h : ∀ a, v.1 ≤ a → a < v.1 + v.2 → m' a = m a) :
    readView m' v = readView m v := by
  unfold readView
  apply List.map_congr_left
  intro i hi
  rw [List.mem_range] at hi
  exact h _ (by omega) (by omega)

theorem readView_write (m : Mem) (o : Nat) (b : Bytes) :
    readView (write m (o, b.length) (fun i => b.getD i 0)) (o, b.length) = b := by
  unfold readView
  apply List.ext_getElem
  · simp
  · intro i h1 h2
    simp only [List.getElem_map, List.getElem_range, write]
    rw [if_pos (by omega)]
    simp [List.getD, h2]

theorem copyInputs_ok (e : Engine) : ∀ (l : List (String × Bytes)) (mem : Mem) (dyn : Dict Bytes),
    (l.map (·.1)).Nodup →
    (∀ t b v, (t, b) ∈ l → e.views.get? t = some v → b.length ≤ v.2) →
    (∀ t b v u c w, (t, b) ∈ l → (u, c) ∈ l → t ≠ u → e.views.get? t = some v → e.views.get? u = some w → DisjointRanges v w) →
    ∃ mem' dyn', copyInputs e l (mem, dyn) = .ok (mem', dyn') ∧
      (∀ a, (∀ t b v, (t, b) ∈ l → e.views.get? t = some v → a < v.1 ∨ v.1 + v.2 ≤ a) → mem' a = mem a) ∧
      (∀ t b v, (t, b) ∈ l → e.views.get? t = some v → readView mem' (v.1, b.length) = b) ∧
      (∀ t, e.views.get? t = none → dyn'.get? t = (Dict.get? l t).or (dyn.get? t)) := by
  intro l
  induction l with
  | nil =>
    intro mem dyn _ _ _
    exact ⟨mem, dyn, rfl, fun _ _ => rfl, fun _ _ _ h => absurd h (by simp), fun t _ => by simp [Dict.get?]⟩
  | cons a l ih =>
    intro mem dyn hnd hle hdis
    obtain ⟨t0, b0⟩ := a
    simp only [List.map_cons, List.nodup_cons] at hnd
    have hnot : ∀ c, (t0, c) ∉ l := fun c hc => hnd.1 (List.mem_map.2 ⟨_, hc, rfl⟩)
    cases hv : e.views.get? t0 with
    | none =>
      obtain ⟨mem', dyn', hok, h1, h2, h3⟩ := ih mem (dyn.set t0 b0) hnd.2
        (fun t b v h => hle t b v (List.mem_cons_of_mem _ h))
        (fun t b v u c w h h' => hdis t b v u c w (List.mem_cons_of_mem _ h) (List.mem_cons_of_mem _ h'))
      refine ⟨mem', dyn', by simp only [copyInputs, hv]; exact hok, ?_, ?_, ?_⟩
      · intro a ha
        exact h1 a (fun t b v h => ha t b v (List.mem_cons_of_mem _ h))
      · intro t b v h hv'
        rcases List.mem_cons.1 h with h | h
        · cases h; rw [hv] at hv'; cases hv'
        · exact h2 t b v h hv'
      · intro t ht
        rw [h3 t ht]
        by_cases e1 : t0 = t
        · subst e1
          have : Dict.get? l t0 = none := by
            have aux : ∀ l' : List (String × Bytes), (∀ c, (t0, c) ∉ l') → Dict.get? l' t0 = none := by
              intro l'
              induction l' with
              | nil => intro _; rfl
              | cons x l' ihx =>
                intro hx
                obtain ⟨u, c⟩ := x
                have hne : u ≠ t0 := by rintro rfl; exact hx c (by simp)
                simp only [Dict.get?, if_neg hne]
                exact ihx (fun c hc => hx c (List.mem_cons_of_mem _ hc))
            exact aux l hnot
          rw [this]
          simp only [Dict.get?, if_true, Option.none_or, Option.some_or]
          have aux2 : ∀ d : Dict Bytes, (d.set t0 b0).get? t0 = some b0 := by
            intro d
            induction d with
            | nil => simp [Dict.set, Dict.get?]
            | cons x d ihd =>
              obtain ⟨u, c⟩ := x
              by_cases hu : u = t0
              · simp [Dict.set, Dict.get?, hu]
              · simp only [Dict.set, if_neg hu, Dict.get?]; exact ihd
          exact aux2 dyn
        · have aux3 : ∀ d : Dict Bytes, (d.set t0 b0).get? t = d.get? t := by
            intro d
            induction d with
            | nil => simp [Dict.set, Dict.get?, e1]
            | cons x d ihd =>
              obtain ⟨u, c⟩ := x
              by_cases hu : u = t0
              · subst hu; simp [Dict.set, Dict.get?, e1]
              · simp only [Dict.set, if_neg hu, Dict.get?]; rw [ihd]
          rw [aux3]
          simp only [Dict.get?, if_neg e1]
    | some v0 =>
      have hl0 : b0.length ≤ v0.2 := hle t0 b0 v0 (by simp) hv
      obtain ⟨mem', dyn', hok, h1, h2, h3⟩ := ih (write mem (v0.1, b0.length) (fun i => b0.getD i 0)) dyn hnd.2
        (fun t b v h => hle t b v (List.mem_cons_of_mem _ h))
        (fun t b v u c w h h' => hdis t b v u c w (List.mem_cons_of_mem _ h) (List.mem_cons_of_mem _ h'))
      refine ⟨mem', dyn', by simp only [copyInputs, hv, if_pos hl0]; exact hok, ?_, ?_, ?_⟩
      · intro a ha
        rw [h1 a (fun t b v h => ha t b v (List.mem_cons_of_mem _ h))]
        have := ha t0 b0 v0 (by simp) hv
        simp only [write]
        rw [if_neg (by omega)]
      · intro t b v h hv'
        rcases List.mem_cons.1 h with h | h
        · cases h
          rw [hv] at hv'; cases hv'
          rw [readView_congr (m := write mem (v0.1, b0.length) (fun i => b0.getD i 0)), readView_write]
          intro a ha1 ha2
          apply h1
          intro u c w hu hw
          have hne : t0 ≠ u := by rintro rfl; exact hnot c hu
          have := hdis t0 b0 v0 u c w (by simp) (List.mem_cons_of_mem _ hu) hne hv hw
          unfold DisjointRanges at this
          simp only at ha1 ha2
          omega
        · exact h2 t b v h hv'
      · intro t ht
        rw [h3 t ht]
        have e1 : t0 ≠ t := by rintro rfl; rw [hv] at ht; cases ht
        simp only [Dict.get?, if_neg e1]

theorem mapE_ok {α β : Type} {f : α → Except PyErr β} : ∀ (l : List α) (h : α → β),
    (∀ a ∈ l, f a = .ok (h a)) → mapE f l = .ok (l.map h)
  | [], _, _ => rfl
  | a :: l, h, hf => by
    simp only [mapE, hf a (by simp), mapE_ok l h (fun b hb => hf b (List.mem_cons_of_mem _ hb)), List.map_cons]

/-! ### Consequences of single assignment -/

theorem ssa_distinct (hssa : SSA g.input g.nodemap) {t : String} (ht : t ≠ "") :
    (∀ k, ProducedAt g.nodemap k t → t ∉ g.input) ∧
    (∀ j k, ProducedAt g.nodemap j t → ProducedAt g.nodemap k t → j = k) := by
  unfold SSA at hssa
  rw [List.filter_append] at hssa
  obtain ⟨_, hnd, hdis⟩ := List.nodup_append.1 hssa
  constructor
  · rintro k ⟨n, hn, hin⟩ hi
    refine hdis t ?_ t ?_ rfl
    · simp [List.mem_filter, hi, ht]
    · simp only [List.mem_filter, List.mem_flatMap]
      exact ⟨⟨n, List.mem_of_getElem? hn, hin⟩, by simp [ht]⟩
  · intro j k hj hk
    rw [List.filter_flatMap] at hnd
    rw [List.nodup_flatMap] at hnd
    obtain ⟨n, hn, hin⟩ := hj
    obtain ⟨m, hm, him⟩ := hk
    obtain ⟨hj', rfl⟩ := List.getElem?_eq_some_iff.1 hn
    obtain ⟨hk', rfl⟩ := List.getElem?_eq_some_iff.1 hm
    have hp := List.pairwise_iff_getElem.1 hnd.2
    rcases Nat.lt_trichotomy j k with h | h | h
    · exact absurd (hp j k hj' hk' h (List.mem_filter.2 ⟨hin, by simp [ht]⟩) (List.mem_filter.2 ⟨him, by simp [ht]⟩)) id
    · exact h
    · exact absurd (hp k j hk' hj' h (List.mem_filter.2 ⟨him, by simp [ht]⟩) (List.mem_filter.2 ⟨hin, by simp [ht]⟩)) id

theorem ssa_node_nodup (hssa : SSA g.input g.nodemap) {k : Nat} {n : Node} (hn : g.nodemap[k]? = some n)
    (hne : ∀ t ∈ n.output, t ≠ "") : n.output.Nodup := by
  unfold SSA at hssa
  rw [List.filter_append] at hssa
  obtain ⟨_, hnd, _⟩ := List.nodup_append.1 hssa
  rw [List.filter_flatMap, List.nodup_flatMap] at hnd
  have := hnd.1 n (List.mem_of_getElem? hn)
  rwa [List.filter_eq_self.2 (fun t ht => by simp [hne t ht])] at this

theorem assigned_none {t : String} : ∀ (os : List String) (vs : List Bytes), t ∉ os → assigned os vs t = none
  | [], _, _ => by simp [assigned]
  | o :: os, [], _ => by simp [assigned]
  | o :: os, v :: vs, h => by
    simp only [List.mem_cons, not_or] at h
    simp only [assigned]
    rw [if_neg (fun e => h.1 e.symm)]
    exact assigned_none os vs h.2

theorem assigned_map {t : String} : ∀ (os : List String) (f : String → Bytes), t ∈ os → assigned os (os.map f) t = some (f t)
  | [], _, h => absurd h (by simp)
  | o :: os, f, h => by
    simp only [List.map_cons, assigned]
    by_cases e : o = t
    · rw [if_pos e, e]
    · rw [if_neg e]
      exact assigned_map os f ((List.mem_cons.1 h).resolve_left (fun h' => e h'.symm))

/-! ### The main theorem -/

variable {shape : String → List Nat} {dyn : Dict Bytes} {inputs : List (String × Bytes)} {sem : Sem} {kern : Node → Option Kernel}

/-- the view of `t` in this call -/
def callView (e : Engine) (shape : String → List Nat) (t : String) : Nat × Nat :=
  (((e.views.get? t).getD (0, 0)).1, prod (shape t) * e.elt)

/-- the contents of the pool agree with the reference contents for everything that still matters -/
private def Agrees (g : Graph) (e : Engine) (shape : String → List Nat) (inputs : List (String × Bytes)) (k : Nat) (mem : Mem)
    (env : Env) : Prop :=
  ∀ t, Pooled e t → t ≠ "" → (t ∈ g.input → ∃ b, (t, b) ∈ inputs) → NeededFrom g.input g.nodemap k t →
    env t = some (readView mem (callView e shape t))

section
variable (hp : 0 < p) (helt : 0 < elt) (hidx : g.IndexExact) (hssa : SSA g.input g.nodemap)
  (hrun : compressMemory g (memsizes tm) p = .ok (cm, sz))
  (hok : RunOk g tm (mkEngine g cm sz tm elt consts) shape dyn inputs sem)
  (hkern : ∀ n ∈ g.nodemap, ∃ k, kern n = some k ∧ Computes k (sem n))
include hp hrun hok

private theorem callView_ok {t : String} (ht : Pooled (mkEngine g cm sz tm elt consts) t) :
    ∃ v size, (mkEngine g cm sz tm elt consts).views.get? t = some v ∧ cm.get? t = some (v.1, size) ∧ v.2 ≤ size ∧
      prod (shape t) * elt ≤ v.2 ∧ callView (mkEngine g cm sz tm elt consts) shape t = (v.1, prod (shape t) * elt) := by
  obtain ⟨v, hv⟩ := Option.isSome_iff_exists.1 ht
  obtain ⟨i, size, h1, h2, h3, h4⟩ := view_facts hp hrun (fun t i h => (hok.fits t i h).1) hv
  refine ⟨v, size, hv, h1, h4, ?_, ?_⟩
  · rw [h3]; exact Nat.mul_le_mul_right _ (hok.fits t i h2).2
  · unfold callView; rw [hv]; rfl

include hidx hssa in
/-- views of two different tensors that are live at the same node are disjoint -/
private theorem callView_disjoint {t u : String} (htu : t ≠ u) (ht0 : t ≠ "") (hu0 : u ≠ "")
    (ht : Pooled (mkEngine g cm sz tm elt consts) t) (hu : Pooled (mkEngine g cm sz tm elt consts) u) {k : Nat}
    (hlt : LiveAt g.input g.nodemap k t) (hlu : LiveAt g.input g.nodemap k u) :
    DisjointRanges (callView (mkEngine g cm sz tm elt consts) shape t) (callView (mkEngine g cm sz tm elt consts) shape u) := by
  obtain ⟨v, s, hv, hc, h1, h2, h3⟩ := callView_ok hp hrun hok ht
  obtain ⟨w, s', hw, hc', h1', h2', h3'⟩ := callView_ok hp hrun hok hu
  have := C01_live_disjoint g (memsizes tm) p cm sz hidx hssa hrun k t u htu ht0 hu0 hlt hlu _ _ hc hc'
  rw [h3, h3']
  unfold DisjointRanges at this ⊢
  simp only at this ⊢
  omega

include helt hidx hssa in
private theorem out_pooled {k : Nat} {t : String} (hk : ProducedAt g.nodemap k t) :
    Pooled (mkEngine g cm sz tm elt consts) t := by
  obtain ⟨ht0, hd, i, hi, hne, hpos⟩ := hok.outs k t hk
  obtain ⟨n, hn, hin⟩ := hk
  have hl : LiveAt g.input g.nodemap k t :=
    ⟨(List.getElem?_eq_some_iff.1 hn).1, .inr ⟨k, Nat.le_refl _, n, hn, hin⟩, .inl ⟨n, hn, hin⟩⟩
  have hes := (hok.fits t i hi).1
  have hes' : elt ≤ i.esize := hes
  have hpos' : 0 < prod i.shape * i.esize := Nat.mul_pos hpos (by omega)
  obtain ⟨a, ha⟩ := C03_every_live_tensor_allocated g (memsizes tm) p hp cm sz hidx hssa hrun k t ht0 hl hd
    (prod i.shape * i.esize : Nat) (by unfold memsizes; rw [hi]; simp [TInfo.memsize, hne]) (by exact_mod_cast hpos')
  unfold Pooled
  show ((views cm sz tm elt).get? t).isSome
  rw [views_get, ha]
  have : blockBytes tm elt t = prod i.shape * elt := by unfold blockBytes; rw [hi]
  have hb : 0 < blockBytes tm elt t := by rw [this]; exact Nat.mul_pos hpos helt
  simp [hb]

include helt hidx hssa hkern in
/-- One node keeps the agreement. -/
private theorem step_agrees {dyn' : Dict Bytes}
    (hdyn : ∀ t, (mkEngine g cm sz tm elt consts).views.get? t = none → dyn'.get? t = (Dict.get? inputs t).or (dyn.get? t))
    {k : Nat} {n : Node} (hn : g.nodemap[k]? = some n) {mem : Mem}
    (hag : Agrees g (mkEngine g cm sz tm elt consts) shape inputs k mem
      (refRun sem (g.nodemap.take k) (startEnv (mkEngine g cm sz tm elt consts) dyn inputs)))
    (hrest : ∀ t, (∀ j, j < k → ¬ ProducedAt g.nodemap j t) →
      refRun sem (g.nodemap.take k) (startEnv (mkEngine g cm sz tm elt consts) dyn inputs) t =
        startEnv (mkEngine g cm sz tm elt consts) dyn inputs t) :
    ∃ mem', runNode (mkEngine g cm sz tm elt consts) kern shape dyn' mem n = .ok mem' ∧
      Agrees g (mkEngine g cm sz tm elt consts) shape inputs (k+1) mem'
        (refRun sem (g.nodemap.take (k+1)) (startEnv (mkEngine g cm sz tm elt consts) dyn inputs)) := by
  generalize hE : mkEngine g cm sz tm elt consts = e at *
  have hElt : e.elt = elt := by rw [← hE]; rfl
  generalize hEnv : refRun sem (g.nodemap.take k) (startEnv e dyn inputs) = env at *
  have hklt := (List.getElem?_eq_some_iff.1 hn).1
  -- argument resolution
  have hcv : ∀ t, Pooled e t → ∃ v, e.views.get? t = some v ∧ prod (shape t) * elt ≤ v.2 ∧
      callView e shape t = (v.1, prod (shape t) * elt) := by
    intro t ht
    subst hE
    obtain ⟨v, s, h1, _, _, h2, h3⟩ := callView_ok hp hrun hok ht
    exact ⟨v, h1, h2, h3⟩
  let argOf : String → Arg := fun t =>
    match e.consts.get? t with
    | some c => .data c
    | none => if (e.views.get? t).isSome then .view (callView e shape t) else
        match dyn'.get? t with
        | some b => .data b
        | none => .absent
  have hargs : mapE (resolveArg e shape dyn') n.input = .ok (n.input.map argOf) := by
    apply mapE_ok
    intro t _
    unfold resolveArg
    simp only [argOf]
    cases hc : e.consts.get? t with
    | some c => rfl
    | none =>
      cases hv : e.views.get? t with
      | none =>
        simp only [Option.isSome_none, Bool.false_eq_true, if_false]
        cases hd : dyn'.get? t with
        | none => rfl
        | some b => rfl
      | some v =>
        obtain ⟨v', hv', hle, hcw⟩ := hcv t (by unfold Pooled; rw [hv]; rfl)
        rw [hv] at hv'; cases hv'
        simp only [Option.isSome_some, if_true, shapeView, hElt]
        rw [if_pos hle, hcw]; rfl
  have houts : mapE (resolveOut e shape) n.output = .ok (n.output.map (callView e shape)) := by
    apply mapE_ok
    intro t ht
    have hpl : Pooled e t := by subst hE; exact out_pooled hp helt hidx hssa hrun hok ⟨n, hn, ht⟩
    obtain ⟨v, hv, hle, hcw⟩ := hcv t hpl
    unfold resolveOut
    rw [hv]
    simp only [shapeView, hElt]
    rw [if_pos hle, hcw]
  obtain ⟨kf, hkf, hcomp⟩ := hkern n (List.mem_of_getElem? hn)
  -- contents of the arguments
  have hcont : (n.input.map argOf).map (content mem) = n.input.map env := by
    rw [List.map_map]
    apply List.map_congr_left
    intro t ht
    show content mem (argOf t) = env t
    have hread : ReadAt g.nodemap k t := ⟨n, hn, ht⟩
    simp only [argOf]
    cases hv : e.views.get? t with
    | some v =>
      have hpl : Pooled e t := by unfold Pooled; rw [hv]; rfl
      rw [hok.consts t hpl]
      simp only [Option.isSome_some, if_true, content]
      obtain ⟨ht0, hsrc⟩ := hok.topo k t hread hpl
      rw [hag t hpl ht0 ?_ ⟨?_, .inl ⟨k, Nat.le_refl _, hread⟩⟩]
      · intro hi
        rcases hsrc with ⟨_, h⟩ | ⟨j, _, hj⟩
        · exact h
        · exact absurd hi ((ssa_distinct hssa ht0).1 j hj)
      · rcases hsrc with ⟨h, _⟩ | h
        · exact .inl h
        · exact .inr h
    | none =>
      have hnp : ∀ j, j < k → ¬ ProducedAt g.nodemap j t := by
        intro j _ hj
        have : Pooled e t := by subst hE; exact out_pooled hp helt hidx hssa hrun hok hj
        unfold Pooled at this; rw [hv] at this; cases this
      rw [hrest t hnp]
      unfold startEnv
      cases hc : e.consts.get? t with
      | some c => rfl
      | none =>
        have hd := hdyn t hv
        cases hl : Dict.get? inputs t with
        | some b =>
          rw [hl] at hd
          have hd' : Dict.get? dyn' t = some b := by rw [hd]; rfl
          simp [hd', content]
        | none =>
          rw [hl] at hd
          have hd' : Dict.get? dyn' t = Dict.get? dyn t := by rw [hd]; rfl
          simp only [hv, hd', Option.isSome_none, Bool.false_eq_true, if_false]
          cases dyn.get? t <;> rfl
  have hone : ∀ t ∈ n.output, t ≠ "" := fun t ht => (hok.outs k t ⟨n, hn, ht⟩).1
  have hlive : ∀ t ∈ n.output, LiveAt g.input g.nodemap k t := fun t ht =>
    ⟨hklt, .inr ⟨k, Nat.le_refl _, n, hn, ht⟩, .inl ⟨n, hn, ht⟩⟩
  have hpoolo : ∀ t ∈ n.output, Pooled e t := by
    intro t ht; subst hE; exact out_pooled hp helt hidx hssa hrun hok ⟨n, hn, ht⟩
  have hdis : ∀ t u, t ≠ u → t ≠ "" → u ≠ "" → Pooled e t → Pooled e u → LiveAt g.input g.nodemap k t →
      LiveAt g.input g.nodemap k u → DisjointRanges (callView e shape t) (callView e shape u) := by
    intro t u h1 h2 h3 h4 h5 h6 h7
    subst hE
    exact callView_disjoint hp hidx hssa hrun hok h1 h2 h3 h4 h5 h6 h7
  have hpw : (n.output.map (callView e shape)).Pairwise DisjointRanges := by
    rw [List.pairwise_map]
    have hnd := ssa_node_nodup hssa hn hone
    refine List.Pairwise.imp_of_mem (R := (· ≠ ·)) ?_ hnd
    intro t u ht hu htu
    exact hdis t u htu (hone t ht) (hone u hu) (hpoolo t ht) (hpoolo u hu) (hlive t ht) (hlive u hu)
  have hargdis : ∀ v, Arg.view v ∈ n.input.map argOf → ∀ o ∈ n.output.map (callView e shape), DisjointRanges v o := by
    intro v hv o ho
    obtain ⟨t, ht, hav⟩ := List.mem_map.1 hv
    obtain ⟨u, hu, rfl⟩ := List.mem_map.1 ho
    have hpl : Pooled e t ∧ v = callView e shape t := by
      simp only [argOf] at hav
      cases hc : e.consts.get? t with
      | some c => rw [hc] at hav; cases hav
      | none =>
        rw [hc] at hav
        simp only at hav
        split at hav
        · rename_i h; cases hav; exact ⟨h, rfl⟩
        · split at hav <;> cases hav
    obtain ⟨hpl, rfl⟩ := hpl
    have hread : ReadAt g.nodemap k t := ⟨n, hn, ht⟩
    obtain ⟨ht0, hsrc⟩ := hok.topo k t hread hpl
    have hpu : ProducedAt g.nodemap k u := ⟨n, hn, hu⟩
    have htu : t ≠ u := by
      rintro rfl
      rcases hsrc with ⟨hi, _⟩ | ⟨j, hj, hjp⟩
      · exact (ssa_distinct hssa ht0).1 k hpu hi
      · exact absurd ((ssa_distinct hssa ht0).2 j k hjp hpu) (by omega)
    refine hdis t u htu ht0 (hone u hu) hpl (hpoolo u hu) ⟨hklt, ?_, .inr (.inl ⟨k, Nat.le_refl _, hread⟩)⟩ (hlive u hu)
    rcases hsrc with ⟨hi, _⟩ | ⟨j, hj, hjp⟩
    · exact .inl hi
    · exact .inr ⟨j, by omega, hjp⟩
  have hsz := hok.sizes k n hn
  rw [hEnv] at hsz
  obtain ⟨mem', hk', hframe, hres⟩ := hcomp (n.input.map argOf) (n.output.map (callView e shape)) mem hpw hargdis (by
    rw [hcont, hsz, List.map_map]
    apply List.map_congr_left
    intro t _
    simp [callView])
  rw [hcont] at hres
  refine ⟨mem', ?_, ?_⟩
  · unfold runNode
    rw [hargs]; simp only
    rw [houts]; simp only
    rw [hkf]; exact hk'
  · have hstep : refRun sem (g.nodemap.take (k+1)) (startEnv e dyn inputs) = refStep sem env n := by
      rw [List.take_add_one, hn]
      unfold refRun at hEnv ⊢
      rw [List.foldl_append, hEnv]; rfl
    rw [hstep]
    intro t hpl ht0 hsup hneed
    unfold refStep
    by_cases hto : t ∈ n.output
    · rw [← hres, List.map_map, assigned_map n.output _ hto]; rfl
    · rw [assigned_none _ _ hto]
      simp only
      have hsrc : t ∈ g.input ∨ ∃ j, j < k ∧ ProducedAt g.nodemap j t := by
        rcases hneed.1 with h | ⟨j, hj, hjp⟩
        · exact .inl h
        · refine .inr ⟨j, ?_, hjp⟩
          have : j ≠ k := by
            rintro rfl
            obtain ⟨m, hm, him⟩ := hjp
            rw [hn] at hm; cases hm; exact hto him
          omega
      have hrd : (∃ j, k ≤ j ∧ ReadAt g.nodemap j t) ∨ ∀ j, ¬ ReadAt g.nodemap j t := by
        rcases hneed.2 with ⟨j, hj, hjr⟩ | h
        · exact .inl ⟨j, by omega, hjr⟩
        · exact .inr h
      rw [hag t hpl ht0 hsup ⟨hsrc, hrd⟩]
      congr 1
      symm
      apply readView_congr
      intro a ha1 ha2
      apply hframe
      intro o ho
      obtain ⟨u, hu, rfl⟩ := List.mem_map.1 ho
      have htu : t ≠ u := by rintro rfl; exact hto hu
      have := hdis t u htu ht0 (hone u hu) hpl (hpoolo u hu) ⟨hklt, ?_, .inr hrd⟩ (hlive u hu)
      · unfold DisjointRanges at this; omega
      · rcases hsrc with h | ⟨j, hj, hjp⟩
        · exact .inl h
        · exact .inr ⟨j, by omega, hjp⟩


omit hp hrun hok in
/-- names no node among the first `k` produces keep their starting contents -/
private theorem ref_rest (env : Env) (t : String) : ∀ k, (∀ j, j < k → ¬ ProducedAt g.nodemap j t) →
    refRun sem (g.nodemap.take k) env t = env t := by
  intro k
  induction k with
  | zero => intro _; rfl
  | succ k ih =>
    intro h
    cases hn : g.nodemap[k]? with
    | none => rw [List.take_add_one, hn]; simpa using ih (fun j hj => h j (by omega))
    | some n =>
      rw [List.take_add_one, hn]
      show refRun sem (g.nodemap.take k ++ [n]) env t = _
      unfold refRun
      rw [List.foldl_append]
      show refStep sem (refRun sem (g.nodemap.take k) env) n t = _
      unfold refStep
      rw [assigned_none _ _ (fun hin => h k (by omega) ⟨n, hn, hin⟩)]
      exact ih (fun j hj => h j (by omega))

include helt hidx hssa hkern in
private theorem prefix_agrees (mem0 : Mem) : ∃ mem1 dyn', copyInputs (mkEngine g cm sz tm elt consts) inputs (mem0, dyn) = .ok (mem1, dyn') ∧
    ∀ k, k ≤ g.nodemap.length → ∃ mem,
      runNodes (mkEngine g cm sz tm elt consts) kern shape dyn' (g.nodemap.take k) mem1 = .ok mem ∧
      Agrees g (mkEngine g cm sz tm elt consts) shape inputs k mem
        (refRun sem (g.nodemap.take k) (startEnv (mkEngine g cm sz tm elt consts) dyn inputs)) := by
  obtain ⟨mem1, dyn', hcopy, _, hread, hdyn⟩ := copyInputs_ok (mkEngine g cm sz tm elt consts) inputs mem0 dyn hok.keys
    (by
      intro t b v hb hv
      have hpl : Pooled (mkEngine g cm sz tm elt consts) t := by unfold Pooled; rw [hv]; rfl
      obtain ⟨v', _, hv', _, _, hle, _⟩ := callView_ok hp hrun hok hpl
      rw [hv] at hv'; cases hv'
      rw [(hok.isInput t b hb hpl).2.2]; exact hle)
    (by
      intro t b v u c w hb hc htu hv hw
      have hpl : Pooled (mkEngine g cm sz tm elt consts) t := by unfold Pooled; rw [hv]; rfl
      have hpu : Pooled (mkEngine g cm sz tm elt consts) u := by unfold Pooled; rw [hw]; rfl
      obtain ⟨v', s, hv', hcm, hle, _, _⟩ := callView_ok hp hrun hok hpl
      obtain ⟨w', s', hw', hcm', hle', _, _⟩ := callView_ok hp hrun hok hpu
      rw [hv] at hv'; cases hv'
      rw [hw] at hw'; cases hw'
      obtain ⟨h1, h2, _⟩ := hok.isInput t b hb hpl
      obtain ⟨h1', h2', _⟩ := hok.isInput u c hc hpu
      have hlen : 0 < g.nodemap.length := by
        rcases Nat.eq_zero_or_pos g.nodemap.length with h0 | h0
        · exfalso
          have hnil : g.nodemap = [] := List.length_eq_zero_iff.1 h0
          have hcm0 : cm = (runAlloc g (memsizes tm) p).cm := by
            unfold compressMemory at hrun
            split at hrun
            · cases hrun
            · dsimp only at hrun
              split at hrun
              · cases hrun
              · cases hrun
              · cases hrun; rfl
          have : cm = [] := by rw [hcm0]; unfold runAlloc liveLists; rw [hnil]; rfl
          rw [this] at hcm; cases hcm
        · exact h0
      have live0 : ∀ x, x ∈ g.input → LiveAt g.input g.nodemap 0 x := fun x hx =>
        ⟨hlen, .inl hx, by
          by_cases hr : ∃ j, ReadAt g.nodemap j x
          · obtain ⟨j, hj⟩ := hr; exact .inr (.inl ⟨j, Nat.zero_le _, hj⟩)
          · exact .inr (.inr (fun j hj => hr ⟨j, hj⟩))⟩
      have := C01_live_disjoint g (memsizes tm) p cm sz hidx hssa hrun 0 t u htu h1 h1' (live0 t h2) (live0 u h2') _ _ hcm hcm'
      unfold DisjointRanges at this ⊢
      simp only at this
      omega)
  refine ⟨mem1, dyn', hcopy, ?_⟩
  intro k
  induction k with
  | zero =>
    intro _
    refine ⟨mem1, rfl, ?_⟩
    intro t hpl ht0 hsup hneed
    have hin : t ∈ g.input := by
      rcases hneed.1 with h | ⟨j, hj, _⟩
      · exact h
      · omega
    obtain ⟨b, hb⟩ := hsup hin
    obtain ⟨v, _, hv, _, _, _, hcw⟩ := callView_ok hp hrun hok hpl
    have hr := hread t b v hb hv
    rw [(hok.isInput t b hb hpl).2.2] at hr
    have he : startEnv (mkEngine g cm sz tm elt consts) dyn inputs t = some b := by
      unfold startEnv
      rw [hok.consts t hpl]
      have hget : Dict.get? inputs t = some b := by
        have hk := hok.keys
        clear * - hk hb
        induction inputs with
        | nil => simp at hb
        | cons x l ih =>
          obtain ⟨u, c⟩ := x
          simp only [List.map_cons, List.nodup_cons] at hk
          rcases List.mem_cons.1 hb with h | h
          · cases h; simp [Dict.get?]
          · have : u ≠ t := by rintro rfl; exact hk.1 (List.mem_map.2 ⟨_, h, rfl⟩)
            simp only [Dict.get?, if_neg this]
            exact ih h hk.2
      simp [hget]
    show startEnv _ dyn inputs t = _
    rw [he, hcw]
    exact congrArg some hr.symm
  | succ k ih =>
    intro hk
    obtain ⟨mem, hm, hag⟩ := ih (by omega)
    obtain ⟨n, hn⟩ : ∃ n, g.nodemap[k]? = some n := ⟨_, List.getElem?_eq_getElem (by omega)⟩
    obtain ⟨mem', hrn, hag'⟩ := step_agrees hp helt hidx hssa hrun hok hkern hdyn hn hag (fun t h => ref_rest _ t k h)
    refine ⟨mem', ?_, hag'⟩
    rw [List.take_add_one, hn]
    have happ : ∀ (l : List Node) (m m2 : Mem), runNodes (mkEngine g cm sz tm elt consts) kern shape dyn' l m = .ok m2 →
        runNodes (mkEngine g cm sz tm elt consts) kern shape dyn' (l ++ [n]) m =
          runNodes (mkEngine g cm sz tm elt consts) kern shape dyn' [n] m2 := by
      intro l
      induction l with
      | nil => intro m m2 h; simp only [runNodes] at h; cases h; rfl
      | cons a l ihl =>
        intro m m2 h
        simp only [runNodes, List.cons_append] at h ⊢
        split at h
        · cases h
        · rename_i m3 h3
          exact ihl m3 m2 h
    show runNodes _ kern shape dyn' (g.nodemap.take k ++ [n]) mem1 = _
    rw [happ _ _ _ hm]
    simp only [runNodes, hrn]

end

/-- **C46** Running the graph in the shared memory pool computes what running it with a separate buffer for every tensor computes.
For every graph whose index is exact and whose tensors are assigned once, every plan `compress_memory` returns for it, every kernel
that is correct on non-overlapping buffers, every earlier pool contents and every input: after the inputs are copied, each prefix of
the node loop succeeds, and every pooled tensor that a later node still reads (or that no node reads: a result) then holds exactly its
reference contents. -/
theorem C46_every_read_sees_reference (g : Graph) (tm : Dict TInfo) (p : Nat) (hp : 0 < p)
    (cm : Dict (Nat × Nat)) (sz elt : Nat) (helt : 0 < elt) (consts dyn : Dict Bytes) (inputs : List (String × Bytes))
    (shape : String → List Nat) (sem : Sem) (kern : Node → Option Kernel)
    (hidx : g.IndexExact) (hssa : SSA g.input g.nodemap)
    (hrun : compressMemory g (memsizes tm) p = .ok (cm, sz))
    (hok : RunOk g tm (mkEngine g cm sz tm elt consts) shape dyn inputs sem)
    (hkern : ∀ n ∈ g.nodemap, ∃ k, kern n = some k ∧ Computes k (sem n))
    (mem0 : Mem) :
    ∃ mem1 dyn', copyInputs (mkEngine g cm sz tm elt consts) inputs (mem0, dyn) = .ok (mem1, dyn') ∧
    ∀ k, k ≤ g.nodemap.length → ∃ mem,
      runNodes (mkEngine g cm sz tm elt consts) kern shape dyn' (g.nodemap.take k) mem1 = .ok mem ∧
      ∀ t v, (mkEngine g cm sz tm elt consts).views.get? t = some v → t ≠ "" → (t ∈ g.input → ∃ b, (t, b) ∈ inputs) →
        NeededFrom g.input g.nodemap k t →
        refRun sem (g.nodemap.take k) (startEnv (mkEngine g cm sz tm elt consts) dyn inputs) t =
          some (readView mem (v.1, prod (shape t) * elt)) := by
  obtain ⟨mem1, dyn', hc, h⟩ := prefix_agrees hp helt hidx hssa hrun hok hkern mem0
  refine ⟨mem1, dyn', hc, fun k hk => ?_⟩
  obtain ⟨mem, hm, hag⟩ := h k hk
  refine ⟨mem, hm, ?_⟩
  intro t v hv ht0 hsup hneed
  have hpl : Pooled (mkEngine g cm sz tm elt consts) t := by unfold Pooled; rw [hv]; rfl
  rw [hag t hpl ht0 hsup hneed]
  obtain ⟨v', _, hv', _, _, _, hcw⟩ := callView_ok hp hrun hok hpl
  rw [hv] at hv'; cases hv'
  rw [hcw]

/-- **C46 (partial: outputs that some node also reads are excluded; for those it is false, see
`C46_read_output_is_overwritten`).** `forward` returns, and every graph output produced by a node and read by none is returned with
exactly the reference contents. -/
theorem C46_forward_partial (g : Graph) (tm : Dict TInfo) (p : Nat) (hp : 0 < p)
    (cm : Dict (Nat × Nat)) (sz elt : Nat) (helt : 0 < elt) (consts dyn : Dict Bytes) (inputs : List (String × Bytes))
    (shape : String → List Nat) (sem : Sem) (kern : Node → Option Kernel)
    (hidx : g.IndexExact) (hssa : SSA g.input g.nodemap)
    (hrun : compressMemory g (memsizes tm) p = .ok (cm, sz))
    (hok : RunOk g tm (mkEngine g cm sz tm elt consts) shape dyn inputs sem)
    (hkern : ∀ n ∈ g.nodemap, ∃ k, kern n = some k ∧ Computes k (sem n))
    (mem0 : Mem) :
    ∃ d mem', forward (mkEngine g cm sz tm elt consts) kern shape mem0 dyn inputs = .ok (d, mem') ∧
      ∀ o, o ∈ g.output → (∃ k, ProducedAt g.nodemap k o) → (∀ j, ¬ ReadAt g.nodemap j o) →
        (d.get? o).isSome ∧ d.get? o = refRun sem g.nodemap (startEnv (mkEngine g cm sz tm elt consts) dyn inputs) o := by
  obtain ⟨mem1, dyn', hc, h⟩ := prefix_agrees hp helt hidx hssa hrun hok hkern mem0
  obtain ⟨mem, hm, hag⟩ := h g.nodemap.length (Nat.le_refl _)
  rw [List.take_length] at hm hag
  have hcol : ∀ os : List String, ∃ d, collect (mkEngine g cm sz tm elt consts) shape mem os = .ok d ∧
      ∀ o ∈ os, Pooled (mkEngine g cm sz tm elt consts) o →
        d.get? o = some (readView mem (callView (mkEngine g cm sz tm elt consts) shape o)) := by
    intro os
    induction os with
    | nil => exact ⟨[], rfl, fun o ho => absurd ho (by simp)⟩
    | cons a os ih =>
      obtain ⟨d, hd, hd'⟩ := ih
      cases hv : (mkEngine g cm sz tm elt consts).views.get? a with
      | none =>
        refine ⟨d, by simp only [collect, hv]; exact hd, ?_⟩
        intro o ho hpl
        rcases List.mem_cons.1 ho with rfl | ho
        · unfold Pooled at hpl; rw [hv] at hpl; cases hpl
        · exact hd' o ho hpl
      | some v =>
        have hpl : Pooled (mkEngine g cm sz tm elt consts) a := by unfold Pooled; rw [hv]; rfl
        obtain ⟨v', _, hv', _, _, hle, hcw⟩ := callView_ok hp hrun hok hpl
        rw [hv] at hv'; cases hv'
        have hsv : shapeView (mkEngine g cm sz tm elt consts).elt v (shape a) = .ok (v.1, prod (shape a) * elt) := by
          unfold shapeView; rw [if_pos (show prod (shape a) * (mkEngine g cm sz tm elt consts).elt ≤ v.2 from hle)]; rfl
        refine ⟨(a, readView mem (v.1, prod (shape a) * elt)) :: d, by simp only [collect, hv, hsv, hd], ?_⟩
        intro o ho hplo
        by_cases e : a = o
        · subst e; simp only [Dict.get?, if_true]; rw [hcw]
        · simp only [Dict.get?, if_neg e]
          exact hd' o ((List.mem_cons.1 ho).resolve_left (fun h => e h.symm)) hplo
  obtain ⟨d, hd, hd'⟩ := hcol g.output
  refine ⟨d, mem, ?_, ?_⟩
  · unfold forward
    rw [hc]; simp only
    rw [show (mkEngine g cm sz tm elt consts).nodes = g.nodemap from rfl, hm]; simp only
    rw [show (mkEngine g cm sz tm elt consts).output = g.output from rfl, hd]
  · rintro o ho ⟨k, hk⟩ hun
    have hpl : Pooled (mkEngine g cm sz tm elt consts) o := out_pooled hp helt hidx hssa hrun hok hk
    have ho0 := (hok.outs k o hk).1
    have hlt : k < g.nodemap.length := by obtain ⟨n, hn, _⟩ := hk; exact (List.getElem?_eq_some_iff.1 hn).1
    have := hag o hpl ho0 (fun hi => absurd hi ((ssa_distinct hssa ho0).1 k hk)) ⟨.inr ⟨k, hlt, hk⟩, .inr hun⟩
    rw [hd' o ho hpl, this]
    exact ⟨rfl, rfl⟩

/-! ### The contract on kernels can be met: for every function there is a kernel computing it -/

/-- evaluate `f` on the inputs, then store the results one after the other -/
def pureKernel (f : List (Option Bytes) → List Bytes) : Kernel := fun args outs mem =>
  .ok ((outs.zip (f (args.map (content mem)))).foldl (fun m ov => write m ov.1 (fun i => ov.2.getD i 0)) mem)

/-- storing into pairwise disjoint ranges of the right sizes -/
theorem store_all (f : List (Option Bytes) → List Bytes) (args : List Arg) (outs : List (Nat × Nat)) (mem : Mem)
    (hpw : outs.Pairwise DisjointRanges) (hsz : (f (args.map (content mem))).map List.length = outs.map (·.2)) :
    ∃ mem', pureKernel f args outs mem = .ok mem' ∧
      (∀ a, (∀ o ∈ outs, a < o.1 ∨ o.1 + o.2 ≤ a) → mem' a = mem a) ∧
      outs.map (readView mem') = f (args.map (content mem)) := by
  refine ⟨_, rfl, ?_⟩
  generalize f (args.map (content mem)) = vs at hsz ⊢
  induction outs generalizing vs mem with
  | nil =>
    cases vs with
    | nil => exact ⟨fun _ _ => rfl, rfl⟩
    | cons v vs => simp at hsz
  | cons o outs ih =>
    cases vs with
    | nil => simp at hsz
    | cons v vs =>
      simp only [List.map_cons, List.cons.injEq] at hsz
      obtain ⟨hpo, hpw⟩ := List.pairwise_cons.1 hpw
      obtain ⟨h1, h2⟩ := ih (write mem o (fun i => v.getD i 0)) hpw vs hsz.2
      simp only [List.zip_cons_cons, List.foldl_cons]
      constructor
      · intro a ha
        rw [h1 a (fun o' ho' => ha o' (List.mem_cons_of_mem _ ho'))]
        have := ha o (by simp)
        simp only [write]; rw [if_neg (by omega)]
      · simp only [List.map_cons]
        rw [h2]
        congr 1
        have e1 : o = (o.1, v.length) := by rw [hsz.1]
        have e2 : readView (write mem o (fun i => v.getD i 0)) o = v := by
          rw [e1]; exact readView_write mem o.1 v
        refine Eq.trans (readView_congr (m := write mem o (fun i => v.getD i 0)) ?_) e2
        · intro a ha1 ha2
          apply h1
          intro o' ho'
          have := hpo o' ho'
          unfold DisjointRanges at this
          omega

theorem C46_contract_satisfiable (f : List (Option Bytes) → List Bytes) : Computes (pureKernel f) f :=
  fun args outs mem hpw _ hsz => store_all f args outs mem hpw hsz

/-! ### A concrete run -/

/-- operator meaning for the examples: add one to every byte of the first input -/
def incSem : Sem := fun _ l => [((l.headD none).getD []).map (· + 1)]

def incKern : Node → Option Kernel := fun n => some (pureKernel (incSem n))

/-- the chain `x → a → b → y` -/
def chain : Graph :=
  Graph.updateTensorRelations
    { nodemap := [⟨"n1", "Relu", ["x"], ["a"]⟩, ⟨"n2", "Exp", ["a"], ["b"]⟩, ⟨"n3", "Exp", ["b"], ["y"]⟩]
      input := ["x"], output := ["y"] }

def chainTM : Dict TInfo := [("x", ⟨[3], 4⟩), ("a", ⟨[3], 4⟩), ("b", ⟨[3], 4⟩), ("y", ⟨[3], 4⟩)]

/-- the hypotheses of C46 are met: two-byte elements run in a plan made for four-byte elements, with two of at most three elements -/
theorem chain_runOk : ∃ cm sz, compressMemory chain (memsizes chainTM) 64 = .ok (cm, sz) ∧
    RunOk chain chainTM (mkEngine chain cm sz chainTM 2 []) (fun _ => [2]) [] [("x", [1, 2, 3, 4])] incSem := by
  refine ⟨_, _, rfl, ?_⟩
  have hprod : ∀ k t, ProducedAt chain.nodemap k t → (k = 0 ∧ t = "a") ∨ (k = 1 ∧ t = "b") ∨ (k = 2 ∧ t = "y") := by
    rintro k t ⟨n, hn, ht⟩
    match k with
    | 0 => cases hn; simp at ht; exact .inl ⟨rfl, ht⟩
    | 1 => cases hn; simp at ht; exact .inr (.inl ⟨rfl, ht⟩)
    | 2 => cases hn; simp at ht; exact .inr (.inr ⟨rfl, ht⟩)
    | k+3 => simp [chain, Graph.updateTensorRelations, Graph.updateConsumerProducer] at hn
  refine ⟨?_, ?_, ?_, ?_, by decide, ?_, ?_⟩
  · intro k t h
    rcases hprod k t h with ⟨_, rfl⟩ | ⟨_, rfl⟩ | ⟨_, rfl⟩ <;> exact ⟨by decide, by decide, _, rfl, by decide, by decide⟩
  · intro t i h
    simp only [chainTM, Dict.get?] at h
    repeat' split at h
    all_goals first | (cases h; exact ⟨by decide, by decide⟩) | cases h
  · intro t _; rfl
  · rintro k t ⟨n, hn, ht⟩ _
    match k with
    | 0 => cases hn; simp at ht; subst ht; exact ⟨by decide, .inl ⟨by decide, _, by simp; rfl⟩⟩
    | 1 => cases hn; simp at ht; subst ht; exact ⟨by decide, .inr ⟨0, by decide, _, rfl, by decide⟩⟩
    | 2 => cases hn; simp at ht; subst ht; exact ⟨by decide, .inr ⟨1, by decide, _, rfl, by decide⟩⟩
    | k+3 => simp [chain, Graph.updateTensorRelations, Graph.updateConsumerProducer] at hn
  · intro t b h _
    simp at h
    obtain ⟨rfl, rfl⟩ := h
    exact ⟨by decide, by decide, by decide⟩
  · intro k n hn
    match k with
    | 0 => cases hn; decide
    | 1 => cases hn; decide
    | 2 => cases hn; decide
    | k+3 => simp [chain, Graph.updateTensorRelations, Graph.updateConsumerProducer] at hn

example : chain.IndexExact := updateConsumerProducer_exact _

/-- **C46 is false for outputs that a node also reads (finding).** In the chain `x → a → b → c` with results `a` and `c` and a run that
adds one per node, the caller's `x = 5` should give `a = 6` and `c = 8`; `forward` returns `a = 8`: the block of `a` has been reused. -/
theorem C46_read_output_is_overwritten :
    ∃ cm sz, compressMemory outGraph (memsizes [("x", ⟨[1], 1⟩), ("a", ⟨[1], 1⟩), ("b", ⟨[1], 1⟩), ("c", ⟨[1], 1⟩)]) 64 = .ok (cm, sz) ∧
      let e := mkEngine outGraph cm sz [("x", ⟨[1], 1⟩), ("a", ⟨[1], 1⟩), ("b", ⟨[1], 1⟩), ("c", ⟨[1], 1⟩)] 1 []
      (forward e incKern (fun _ => [1]) (fun _ => 0) [] [("x", [5])]).toOption.map (·.1) = some [("a", [8]), ("c", [8])] ∧
      refRun incSem outGraph.nodemap (startEnv e [] [("x", [5])]) "a" = some [6] := by
  refine ⟨_, _, rfl, ?_⟩
  decide

/-- **C46 (finding): the run type is wider than the planned type.** The plan reserves one byte per element for a boolean tensor
(`Equal`, `Greater`, ... give bool), but the views are made with the element size of the run type.  Two tensors that are needed at the
same node then share bytes, although the plan kept them apart. -/
theorem C46_wider_run_type_overlaps :
    ∃ cm sz, compressMemory chain (memsizes [("x", ⟨[100], 4⟩), ("a", ⟨[100], 1⟩), ("b", ⟨[100], 4⟩), ("y", ⟨[100], 4⟩)]) 64 = .ok (cm, sz) ∧
      let v := views cm sz [("x", ⟨[100], 4⟩), ("a", ⟨[100], 1⟩), ("b", ⟨[100], 4⟩), ("y", ⟨[100], 4⟩)] 4
      ∃ va vb, v.get? "a" = some va ∧ v.get? "b" = some vb ∧ LiveAt chain.input chain.nodemap 1 "a" ∧
        LiveAt chain.input chain.nodemap 1 "b" ∧ ¬ DisjointRanges va vb := by
  refine ⟨_, _, rfl, _, _, rfl, rfl, ⟨by decide, .inr ⟨0, by decide, _, rfl, by decide⟩, .inr (.inl ⟨1, by decide, _, rfl, by decide⟩)⟩,
    ⟨by decide, .inr ⟨1, by decide, _, rfl, by decide⟩, .inl ⟨_, rfl, by decide⟩⟩, ?_⟩
  unfold DisjointRanges
  decide

/-- **C46 (finding): scalar intermediates.** Whatever the graph and the plan, a 0-dimensional tensor gets no view (its planned size is
0), so a node producing one raises AttributeError. -/
theorem C46_scalar_output_raises (g : Graph) (tm : Dict TInfo) (p : Nat) (hp : 0 < p) (cm : Dict (Nat × Nat)) (sz elt : Nat)
    (consts : Dict Bytes) (shape : String → List Nat) (hrun : compressMemory g (memsizes tm) p = .ok (cm, sz))
    (t : String) (i : TInfo) (hi : tm.get? t = some i) (hsc : i.shape = []) :
    resolveOut (mkEngine g cm sz tm elt consts) shape t = .error .attributeError := by
  have : (views cm sz tm elt).get? t = none := by
    rw [views_get]
    cases hc : cm.get? t with
    | none => rfl
    | some a =>
      obtain ⟨off, size⟩ := a
      obtain ⟨_, _, bytes, hb, hpos, _⟩ := C03_aligned_and_large_enough g (memsizes tm) p hp cm sz hrun t off size hc
      unfold memsizes at hb
      rw [hi] at hb
      simp [TInfo.memsize, hsc] at hb
      omega
  unfold resolveOut
  rw [show (mkEngine g cm sz tm elt consts).views = views cm sz tm elt from rfl, this]

/-- **C46, the views.** Only tensors of the graph have a view, and it is no longer than their largest shape: a planned name that is no tensor gets none. -/
theorem C46_view_of_tensor (plan : Dict (Nat × Nat)) (sz : Nat) (tm : Dict TInfo) (elt : Nat) (t : String) (v : Nat × Nat) (h : (views plan sz tm elt).get? t = some v) :
    ∃ i, tm.get? t = some i ∧ v.2 ≤ prod i.shape * elt ∧ 0 < prod i.shape * elt ∧ v.1 + v.2 ≤ max sz v.1 := by
  rw [views_get] at h
  cases hp : plan.get? t with
  | none => simp [hp] at h
  | some p =>
    cases ht : tm.get? t with
    | none => simp [hp, blockBytes, ht] at h
    | some i =>
      simp only [hp, blockBytes, ht] at h
      split at h
      · rename_i hpos
        cases h
        refine ⟨i, rfl, ?_, hpos, ?_⟩ <;> simp only [] <;> omega
      · cases h

end OnnxTool.Props
