import Verif.Spec.InferKv
import Verif.Model.InferKv
import Verif.Props.Infer
/-!
# One call of `forward` with a cache that nodes update in place
-/
namespace OnnxTool.Props
open OnnxTool OnnxTool.Mem OnnxTool.Infer OnnxTool.Pool

/-- What is required of the graph and of a call in a session: as `RunOk`, for graphs with the input `kv_cache`. -/
structure RunOkKv (g : Graph) (tm : Dict TInfo) (e : Engine) (shape : String → List Nat) (s : Session)
    (inputs : List (String × Bytes)) (sem : Sem) (upd : Node → List Nat) : Prop where
  /-- every node output is a dynamic tensor of known shape with at least one dimension and one element -/
  outs : ∀ k t, ProducedAt g.nodemap k t → t ≠ "" ∧ t ∈ g.dynamics ∧ ∃ i, tm.get? t = some i ∧ i.shape ≠ [] ∧ 0 < prod i.shape
  /-- the run type is not wider than the type the plan was made for, and the call's shape not larger than the maximal one -/
  fits : ∀ t i, tm.get? t = some i → e.elt ≤ i.esize ∧ prod (shape t) ≤ prod i.shape
  /-- constants are not pooled tensors -/
  consts : ∀ t, Pooled e t → e.consts.get? t = none
  /-- a pooled tensor read by node `k` is the cache, supplied by the caller, or produced before node `k` -/
  topo : ∀ k t, ReadAt g.nodemap k t → Pooled e t →
    t ≠ "" ∧ (t = "kv_cache" ∨ (t ∈ g.input ∧ ∃ b, (t, b) ∈ inputs) ∨ ∃ j, j < k ∧ ProducedAt g.nodemap j t)
  /-- the caller supplies graph inputs, each once, of the size of this call's shape -/
  keys : (inputs.map (·.1)).Nodup
  isInput : ∀ t b, (t, b) ∈ inputs → Pooled e t → t ≠ "" ∧ t ∈ g.input ∧ b.length = prod (shape t) * e.elt
  /-- a node updates at most one input, and then it is `kv_cache` and no other argument of the node is -/
  updates : ∀ n ∈ g.nodemap, upd n = [] ∨ ∃ i, upd n = [i] ∧ ∀ j, n.input[j]? = some "kv_cache" ↔ j = i
  /-- the shapes of this call are the true sizes of what the operators compute -/
  sizes : ∀ k n, g.nodemap[k]? = some n →
    (sem n (n.input.map (refRunIn sem upd (g.nodemap.take k) (startEnvKv e s inputs)))).map List.length =
      (n.output ++ updNames upd n).map (fun t => prod (shape t) * e.elt)

/-- What the views must satisfy: large enough, apart for tensors live together, and `kv_cache` apart from everything. -/
structure ViewsOk (g : Graph) (e : Engine) (shape : String → List Nat) : Prop where
  le : ∀ t v, e.views.get? t = some v → prod (shape t) * e.elt ≤ v.2
  live : ∀ k t u v w, t ≠ u → t ≠ "" → u ≠ "" → e.views.get? t = some v → e.views.get? u = some w →
    LiveAt g.input g.nodemap k t → LiveAt g.input g.nodemap k u → DisjointRanges v w
  kv : ∀ t v w, t ≠ "kv_cache" → e.views.get? t = some v → e.views.get? "kv_cache" = some w → DisjointRanges v w
  pooled : ∀ k t, ProducedAt g.nodemap k t → Pooled e t
  cache : Pooled e "kv_cache" ∧ "kv_cache" ∈ g.input
  nodes : g.nodemap ≠ []

/-- the contents of the pool agree with the reference contents for everything that still matters, and for the cache -/
private def AgreesKv (g : Graph) (e : Engine) (shape : String → List Nat) (inputs : List (String × Bytes)) (k : Nat) (mem : Mem)
    (env : Env) : Prop :=
  (∀ t, t ≠ "kv_cache" → Pooled e t → t ≠ "" → (t ∈ g.input → ∃ b, (t, b) ∈ inputs) → NeededFrom g.input g.nodemap k t →
    env t = some (readView mem (callView e shape t))) ∧
  env "kv_cache" = some (readView mem (callView e shape "kv_cache"))

variable {g : Graph} {tm : Dict TInfo} {e : Engine} {shape : String → List Nat} {s : Session} {inputs : List (String × Bytes)}
  {sem : Sem} {upd : Node → List Nat} {kern : Node → Option Kernel}

private theorem callView_eq (hV : ViewsOk g e shape) {t : String} {v : Nat × Nat} (hv : e.views.get? t = some v) :
    callView e shape t = (v.1, prod (shape t) * e.elt) ∧ prod (shape t) * e.elt ≤ v.2 := by
  unfold callView; rw [hv]; exact ⟨rfl, hV.le t v hv⟩

private theorem disj_shrink {v w : Nat × Nat} {a b : Nat} (h : DisjointRanges v w) (ha : a ≤ v.2) (hb : b ≤ w.2) :
    DisjointRanges (v.1, a) (w.1, b) := by
  unfold DisjointRanges at h ⊢; simp only; omega

private theorem live_views (hV : ViewsOk g e shape) {k : Nat} {t u : String} (htu : t ≠ u) (ht0 : t ≠ "") (hu0 : u ≠ "")
    (ht : Pooled e t) (hu : Pooled e u) (hlt : LiveAt g.input g.nodemap k t) (hlu : LiveAt g.input g.nodemap k u) :
    DisjointRanges (callView e shape t) (callView e shape u) := by
  obtain ⟨v, hv⟩ := Option.isSome_iff_exists.1 ht
  obtain ⟨w, hw⟩ := Option.isSome_iff_exists.1 hu
  obtain ⟨e1, l1⟩ := callView_eq hV hv
  obtain ⟨e2, l2⟩ := callView_eq hV hw
  rw [e1, e2]
  exact disj_shrink (hV.live k t u v w htu ht0 hu0 hv hw hlt hlu) l1 l2

private theorem kv_views (hV : ViewsOk g e shape) {t : String} (ht : t ≠ "kv_cache") (hp : Pooled e t) :
    DisjointRanges (callView e shape t) (callView e shape "kv_cache") := by
  obtain ⟨v, hv⟩ := Option.isSome_iff_exists.1 hp
  obtain ⟨w, hw⟩ := Option.isSome_iff_exists.1 hV.cache.1
  obtain ⟨e1, l1⟩ := callView_eq hV hv
  obtain ⟨e2, l2⟩ := callView_eq hV hw
  rw [e1, e2]
  exact disj_shrink (hV.kv t v w ht hv hw) l1 l2

private theorem step_kv (hV : ViewsOk g e shape) (hssa : SSA g.input g.nodemap)
    (hok : RunOkKv g tm e shape s inputs sem upd)
    (hkern : ∀ n ∈ g.nodemap, ∃ k, kern n = some k ∧ Updates k (upd n) (sem n))
    {dyn' : Dict Bytes} (hdyn : ∀ t, e.views.get? t = none → dyn'.get? t = (Dict.get? inputs t).or (s.dyn.get? t))
    {k : Nat} {n : Node} (hn : g.nodemap[k]? = some n) {mem : Mem}
    (hag : AgreesKv g e shape inputs k mem (refRunIn sem upd (g.nodemap.take k) (startEnvKv e s inputs)))
    (hrest : ∀ t, t ≠ "kv_cache" → (∀ j, j < k → ¬ ProducedAt g.nodemap j t) →
      refRunIn sem upd (g.nodemap.take k) (startEnvKv e s inputs) t = startEnvKv e s inputs t) :
    ∃ mem', runNode e kern shape dyn' mem n = .ok mem' ∧
      AgreesKv g e shape inputs (k+1) mem' (refRunIn sem upd (g.nodemap.take (k+1)) (startEnvKv e s inputs)) := by
  generalize hEnv : refRunIn sem upd (g.nodemap.take k) (startEnvKv e s inputs) = env at *
  have hklt := (List.getElem?_eq_some_iff.1 hn).1
  have hmem : n ∈ g.nodemap := List.mem_of_getElem? hn
  let argOf : String → Arg := fun t =>
    match e.consts.get? t with
    | some c => .data c
    | none => if (e.views.get? t).isSome then .view (callView e shape t) else
        match dyn'.get? t with
        | some b => .data b
        | none => .absent
  have hargs : mapE (resolveArg e shape dyn') n.input = .ok (n.input.map argOf) := by
    apply mapE_ok
    intro t _
    unfold resolveArg
    simp only [argOf]
    cases hc : e.consts.get? t with
    | some c => rfl
    | none =>
      cases hv : e.views.get? t with
      | none =>
        simp only [Option.isSome_none, Bool.false_eq_true, if_false]
        cases hd : dyn'.get? t with
        | none => rfl
        | some b => rfl
      | some v =>
        obtain ⟨hcw, hle⟩ := callView_eq hV hv
        simp only [Option.isSome_some, if_true, shapeView]
        rw [if_pos hle, hcw]; rfl
  have hpoolo : ∀ t ∈ n.output, Pooled e t := fun t ht => hV.pooled k t ⟨n, hn, ht⟩
  have houts : mapE (resolveOut e shape) n.output = .ok (n.output.map (callView e shape)) := by
    apply mapE_ok
    intro t ht
    obtain ⟨v, hv⟩ := Option.isSome_iff_exists.1 (hpoolo t ht)
    obtain ⟨hcw, hle⟩ := callView_eq hV hv
    unfold resolveOut
    rw [hv]
    simp only [shapeView]
    rw [if_pos hle, hcw]
  obtain ⟨kf, hkf, hcomp⟩ := hkern n hmem
  have hone : ∀ t ∈ n.output, t ≠ "" := fun t ht => (hok.outs k t ⟨n, hn, ht⟩).1
  have hnokv : ∀ t ∈ n.output, t ≠ "kv_cache" := by
    rintro t ht rfl
    exact (ssa_distinct hssa (by decide)).1 k ⟨n, hn, ht⟩ hV.cache.2
  -- contents of the arguments
  have hcont : (n.input.map argOf).map (content mem) = n.input.map env := by
    rw [List.map_map]
    apply List.map_congr_left
    intro t ht
    show content mem (argOf t) = env t
    have hread : ReadAt g.nodemap k t := ⟨n, hn, ht⟩
    simp only [argOf]
    cases hv : e.views.get? t with
    | some v =>
      have hpl : Pooled e t := by unfold Pooled; rw [hv]; rfl
      rw [hok.consts t hpl]
      simp only [Option.isSome_some, if_true, content]
      obtain ⟨ht0, hsrc⟩ := hok.topo k t hread hpl
      by_cases hkv : t = "kv_cache"
      · subst hkv; rw [hag.2]
      have hsrc := hsrc.resolve_left hkv
      rw [hag.1 t hkv hpl ht0 ?_ ⟨?_, .inl ⟨k, Nat.le_refl _, hread⟩⟩]
      · intro hi
        rcases hsrc with ⟨_, h⟩ | ⟨j, _, hj⟩
        · exact h
        · exact absurd hi ((ssa_distinct hssa ht0).1 j hj)
      · rcases hsrc with ⟨h, _⟩ | h
        · exact .inl h
        · exact .inr h
    | none =>
      have hnp : ∀ j, j < k → ¬ ProducedAt g.nodemap j t := by
        intro j _ hj
        have := hV.pooled j t hj
        unfold Pooled at this; rw [hv] at this; cases this
      have hkv : t ≠ "kv_cache" := by
        rintro rfl
        have := hV.cache.1
        unfold Pooled at this; rw [hv] at this; cases this
      rw [hrest t hkv hnp]
      unfold startEnvKv
      cases hc : e.consts.get? t with
      | some c => rfl
      | none =>
        have hd := hdyn t hv
        cases hl : Dict.get? inputs t with
        | some b =>
          rw [hl] at hd
          have hd' : Dict.get? dyn' t = some b := by rw [hd]; rfl
          simp [hd', content]
        | none =>
          rw [hl] at hd
          have hd' : Dict.get? dyn' t = Dict.get? s.dyn t := by rw [hd]; rfl
          simp only [hv, hd', Option.isSome_none, Bool.false_eq_true, if_false, if_neg hkv]
          cases s.dyn.get? t <;> rfl
  have hlive : ∀ t ∈ n.output, LiveAt g.input g.nodemap k t := fun t ht =>
    ⟨hklt, .inr ⟨k, Nat.le_refl _, n, hn, ht⟩, .inl ⟨n, hn, ht⟩⟩
  have hpw : (n.output.map (callView e shape)).Pairwise DisjointRanges := by
    rw [List.pairwise_map]
    have hnd := ssa_node_nodup hssa hn hone
    refine List.Pairwise.imp_of_mem (R := (· ≠ ·)) ?_ hnd
    intro t u ht hu htu
    exact live_views hV htu (hone t ht) (hone u hu) (hpoolo t ht) (hpoolo u hu) (hlive t ht) (hlive u hu)
  -- the updated inputs
  have hupd := hok.updates n hmem
  have hnames : ∀ t ∈ updNames upd n, t = "kv_cache" := by
    intro t ht
    unfold updNames at ht
    rcases hupd with h | ⟨i, h, hi⟩
    · rw [h] at ht; simp at ht
    · rw [h] at ht
      simp only [List.map_cons, List.map_nil, List.mem_singleton] at ht
      subst ht
      have := (hi i).2 rfl
      simp [List.getD, this]
  have hnd2 : (updNames upd n).length ≤ 1 := by
    unfold updNames
    rcases hupd with h | ⟨i, h, _⟩ <;> simp [h]
  have hupsPw : ((n.output ++ updNames upd n).map (callView e shape)).Pairwise DisjointRanges := by
    rw [List.map_append, List.pairwise_append]
    refine ⟨hpw, ?_, ?_⟩
    · match hu : updNames upd n, hnd2 with
      | [], _ => simp
      | [a], _ => simp
    · intro v hv w hw
      obtain ⟨t, ht, rfl⟩ := List.mem_map.1 hv
      obtain ⟨u, hu, rfl⟩ := List.mem_map.1 hw
      rw [hnames u hu]
      exact kv_views hV (hnokv t ht) (hpoolo t ht)
  have hpos : (upd n).map (fun i => (n.input.map argOf)[i]?) =
      ((updNames upd n).map (callView e shape)).map (fun v => some (Arg.view v)) := by
    unfold updNames
    rcases hupd with h | ⟨i, h, hi⟩
    · simp [h]
    · have hin := (hi i).2 rfl
      rw [h]
      simp only [List.map_cons, List.map_nil, List.getElem?_map, hin, Option.map_some, List.getD, Option.getD_some]
      simp only [argOf, hok.consts _ hV.cache.1]
      rw [if_pos (show (e.views.get? "kv_cache").isSome = true from hV.cache.1)]
  have hargdis : ∀ (i : Nat) (v : Nat × Nat), (n.input.map argOf)[i]? = some (.view v) → i ∉ upd n →
      ∀ o ∈ n.output.map (callView e shape) ++ (updNames upd n).map (callView e shape), DisjointRanges v o := by
    intro i v hv hi o ho
    rw [List.getElem?_map] at hv
    cases hti : n.input[i]? with
    | none => rw [hti] at hv; cases hv
    | some t =>
      rw [hti] at hv
      simp only [Option.map_some, Option.some.injEq] at hv
      have hpl : Pooled e t ∧ v = callView e shape t := by
        simp only [argOf] at hv
        cases hc : e.consts.get? t with
        | some c => rw [hc] at hv; cases hv
        | none =>
          rw [hc] at hv
          simp only at hv
          split at hv
          · rename_i h; cases hv; exact ⟨h, rfl⟩
          · split at hv <;> cases hv
      obtain ⟨hpl, rfl⟩ := hpl
      have hread : ReadAt g.nodemap k t := ⟨n, hn, List.mem_of_getElem? hti⟩
      obtain ⟨ht0, hsrc⟩ := hok.topo k t hread hpl
      rw [← List.map_append] at ho
      obtain ⟨u, hu, rfl⟩ := List.mem_map.1 ho
      rcases List.mem_append.1 hu with hu | hu
      · have hpu : ProducedAt g.nodemap k u := ⟨n, hn, hu⟩
        by_cases hkv : t = "kv_cache"
        · subst hkv
          have := kv_views hV (hnokv u hu) (hpoolo u hu)
          unfold DisjointRanges at this ⊢; omega
        have hsrc := hsrc.resolve_left hkv
        have htu : t ≠ u := by
          rintro rfl
          rcases hsrc with ⟨hi, _⟩ | ⟨j, hj, hjp⟩
          · exact (ssa_distinct hssa ht0).1 k hpu hi
          · exact absurd ((ssa_distinct hssa ht0).2 j k hjp hpu) (by omega)
        refine live_views hV htu ht0 (hone u hu) hpl (hpoolo u hu) ⟨hklt, ?_, .inr (.inl ⟨k, Nat.le_refl _, hread⟩)⟩ (hlive u hu)
        rcases hsrc with ⟨hi, _⟩ | ⟨j, hj, hjp⟩
        · exact .inl hi
        · exact .inr ⟨j, by omega, hjp⟩
      · have hkv : t ≠ "kv_cache" := by
          rintro rfl
          rcases hupd with h | ⟨i', h, hi'⟩
          · unfold updNames at hu; rw [h] at hu; simp at hu
          · exact hi (by rw [h, (hi' i).1 hti]; simp)
        rw [hnames u hu]
        exact kv_views hV hkv hpl
  have hsz := hok.sizes k n hn
  rw [hEnv] at hsz
  obtain ⟨mem', hk', hframe, hres⟩ := hcomp (n.input.map argOf) (n.output.map (callView e shape))
    ((updNames upd n).map (callView e shape)) mem hpos (by rw [← List.map_append]; exact hupsPw) hargdis (by
      rw [hcont, hsz, ← List.map_append, List.map_map]
      apply List.map_congr_left
      intro t _
      simp [callView])
  rw [hcont, ← List.map_append, List.map_map] at hres
  rw [← List.map_append] at hframe
  refine ⟨mem', ?_, ?_⟩
  · unfold runNode
    rw [hargs]; simp only
    rw [houts]; simp only
    rw [hkf]; exact hk'
  · have hstep : refRunIn sem upd (g.nodemap.take (k+1)) (startEnvKv e s inputs) = refStepIn sem upd env n := by
      rw [List.take_add_one, hn]
      unfold refRunIn at hEnv ⊢
      rw [List.foldl_append, hEnv]; rfl
    rw [hstep]
    constructor
    · intro t hkv hpl ht0 hsup hneed
      unfold refStepIn
      by_cases hto : t ∈ n.output ++ updNames upd n
      · rw [← hres, assigned_map _ _ hto]; rfl
      · rw [assigned_none _ _ hto]
        simp only
        have hto' : t ∉ n.output := fun h => hto (List.mem_append_left _ h)
        have hsrc : t ∈ g.input ∨ ∃ j, j < k ∧ ProducedAt g.nodemap j t := by
          rcases hneed.1 with h | ⟨j, hj, hjp⟩
          · exact .inl h
          · refine .inr ⟨j, ?_, hjp⟩
            have : j ≠ k := by
              rintro rfl
              obtain ⟨m, hm, him⟩ := hjp
              rw [hn] at hm; cases hm; exact hto' him
            omega
        have hrd : (∃ j, k ≤ j ∧ ReadAt g.nodemap j t) ∨ ∀ j, ¬ ReadAt g.nodemap j t := by
          rcases hneed.2 with ⟨j, hj, hjr⟩ | h
          · exact .inl ⟨j, by omega, hjr⟩
          · exact .inr h
        rw [hag.1 t hkv hpl ht0 hsup ⟨hsrc, hrd⟩]
        congr 1
        symm
        apply readView_congr
        intro a ha1 ha2
        apply hframe
        intro o ho
        obtain ⟨u, hu, rfl⟩ := List.mem_map.1 ho
        have htu : t ≠ u := by rintro rfl; exact hto hu
        rcases List.mem_append.1 hu with hu | hu
        · have := live_views hV (k := k) htu ht0 (hone u hu) hpl (hpoolo u hu) ⟨hklt, ?_, .inr hrd⟩ (hlive u hu)
          · unfold DisjointRanges at this; omega
          · rcases hsrc with h | ⟨j, hj, hjp⟩
            · exact .inl h
            · exact .inr ⟨j, by omega, hjp⟩
        · rw [hnames u hu]
          have := kv_views hV hkv hpl
          unfold DisjointRanges at this; omega
    · unfold refStepIn
      by_cases hto : "kv_cache" ∈ n.output ++ updNames upd n
      · rw [← hres, assigned_map _ _ hto]; rfl
      · rw [assigned_none _ _ hto]
        simp only
        rw [hag.2]
        congr 1
        symm
        apply readView_congr
        intro a ha1 ha2
        apply hframe
        intro o ho
        obtain ⟨u, hu, rfl⟩ := List.mem_map.1 ho
        rcases List.mem_append.1 hu with hu | hu
        · have := kv_views hV (hnokv u hu) (hpoolo u hu)
          unfold DisjointRanges at this; omega
        · rw [hnames u hu] at hu
          exact absurd (List.mem_append_right _ hu) hto

/-- names no node among the first `k` produces, and that are not the cache, keep their starting contents -/
private theorem ref_restKv (hupd : ∀ n ∈ g.nodemap, upd n = [] ∨ ∃ i, upd n = [i] ∧ ∀ j, n.input[j]? = some "kv_cache" ↔ j = i)
    (env : Env) (t : String) (ht : t ≠ "kv_cache") : ∀ k, (∀ j, j < k → ¬ ProducedAt g.nodemap j t) →
    refRunIn sem upd (g.nodemap.take k) env t = env t := by
  intro k
  induction k with
  | zero => intro _; rfl
  | succ k ih =>
    intro h
    cases hn : g.nodemap[k]? with
    | none => rw [List.take_add_one, hn]; simpa using ih (fun j hj => h j (by omega))
    | some n =>
      rw [List.take_add_one, hn]
      show refRunIn sem upd (g.nodemap.take k ++ [n]) env t = _
      unfold refRunIn
      rw [List.foldl_append]
      show refStepIn sem upd (refRunIn sem upd (g.nodemap.take k) env) n t = _
      unfold refStepIn
      rw [assigned_none]
      · exact ih (fun j hj => h j (by omega))
      · intro hin
        rcases List.mem_append.1 hin with hin | hin
        · exact h k (by omega) ⟨n, hn, hin⟩
        · unfold updNames at hin
          rcases hupd n (List.mem_of_getElem? hn) with h' | ⟨i, h', hi⟩
          · rw [h'] at hin; simp at hin
          · rw [h'] at hin
            have := (hi i).2 rfl
            simp only [List.map_cons, List.map_nil, List.getD, this, Option.getD_some, List.mem_singleton] at hin
            exact ht hin

theorem runNodes_append (e : Engine) (kern : Node → Option Kernel) (shape : String → List Nat) (dyn : Dict Bytes) (n : Node) :
    ∀ (l : List Node) (m m2 : Mem), runNodes e kern shape dyn l m = .ok m2 →
      runNodes e kern shape dyn (l ++ [n]) m = runNodes e kern shape dyn [n] m2 := by
  intro l
  induction l with
  | nil => intro m m2 h; simp only [runNodes] at h; cases h; rfl
  | cons a l ihl =>
    intro m m2 h
    simp only [runNodes, List.cons_append] at h ⊢
    split at h
    · cases h
    · rename_i m3 h3
      exact ihl m3 m2 h

theorem get_of_mem {l : List (String × Bytes)} (hk : (l.map (·.1)).Nodup) {t : String} {b : Bytes} (hb : (t, b) ∈ l) :
    Dict.get? l t = some b := by
  induction l with
  | nil => simp at hb
  | cons x l ih =>
    obtain ⟨u, c⟩ := x
    simp only [List.map_cons, List.nodup_cons] at hk
    rcases List.mem_cons.1 hb with h | h
    · cases h; simp [Dict.get?]
    · have : u ≠ t := by rintro rfl; exact hk.1 (List.mem_map.2 ⟨_, h, rfl⟩)
      simp only [Dict.get?, if_neg this]
      exact ih hk.2 h

theorem mem_of_get {l : List (String × Bytes)} {t : String} {b : Bytes} (h : Dict.get? l t = some b) : (t, b) ∈ l := by
  induction l with
  | nil => cases h
  | cons x l ih =>
    obtain ⟨u, c⟩ := x
    simp only [Dict.get?] at h
    split at h
    · rename_i e; cases h; subst e; simp
    · exact List.mem_cons_of_mem _ (ih h)

/-- One call: it returns, the outputs nobody reads and the cache are those of the reference. -/
theorem forward_kv (hV : ViewsOk g e shape) (hnodes : e.nodes = g.nodemap) (hout : e.output = g.output)
    (hssa : SSA g.input g.nodemap) (hok : RunOkKv g tm e shape s inputs sem upd)
    (hkern : ∀ n ∈ g.nodemap, ∃ k, kern n = some k ∧ Updates k (upd n) (sem n)) (mem0 : Mem)
    (hs : s.kv = readView mem0 (callView e shape "kv_cache")) :
    ∃ d mem', forward e kern shape mem0 s.dyn inputs = .ok (d, mem') ∧
      refCall e sem upd s inputs "kv_cache" = some (readView mem' (callView e shape "kv_cache")) ∧
      (∃ m1 dyn', copyInputs e inputs (mem0, s.dyn) = .ok (m1, dyn')) ∧
      ∀ o, o ∈ g.output → (∃ k, ProducedAt g.nodemap k o) → (∀ j, ¬ ReadAt g.nodemap j o) →
        (d.get? o).isSome ∧ d.get? o = refCall e sem upd s inputs o := by
  have hlen : 0 < g.nodemap.length := List.length_pos_iff.2 hV.nodes
  have live0 : ∀ x, x ∈ g.input → LiveAt g.input g.nodemap 0 x := fun x hx =>
    ⟨hlen, .inl hx, by
      by_cases hr : ∃ j, ReadAt g.nodemap j x
      · obtain ⟨j, hj⟩ := hr; exact .inr (.inl ⟨j, Nat.zero_le _, hj⟩)
      · exact .inr (.inr (fun j hj => hr ⟨j, hj⟩))⟩
  have hpool : ∀ {t v}, e.views.get? t = some v → Pooled e t := fun h => by unfold Pooled; rw [h]; rfl
  obtain ⟨mem1, dyn', hcopy, hfr, hread, hdyn⟩ := copyInputs_ok e inputs mem0 s.dyn hok.keys
    (by
      intro t b v hb hv
      rw [(hok.isInput t b hb (hpool hv)).2.2]; exact hV.le t v hv)
    (by
      intro t b v u c w hb hc htu hv hw
      obtain ⟨h1, h2, _⟩ := hok.isInput t b hb (hpool hv)
      obtain ⟨h1', h2', _⟩ := hok.isInput u c hc (hpool hw)
      exact hV.live 0 t u v w htu h1 h1' hv hw (live0 t h2) (live0 u h2'))
  have hzero : AgreesKv g e shape inputs 0 mem1 (startEnvKv e s inputs) := by
    have hsup : ∀ t b, (t, b) ∈ inputs → Pooled e t → startEnvKv e s inputs t = some (readView mem1 (callView e shape t)) := by
      intro t b hb hpl
      obtain ⟨v, hv⟩ := Option.isSome_iff_exists.1 hpl
      have hr := hread t b v hb hv
      rw [(hok.isInput t b hb hpl).2.2] at hr
      unfold startEnvKv
      rw [hok.consts t hpl, get_of_mem hok.keys hb]
      simp only
      rw [(callView_eq hV hv).1, hr]
    constructor
    · intro t hkv hpl ht0 hs' hneed
      have hin : t ∈ g.input := by
        rcases hneed.1 with h | ⟨j, hj, _⟩
        · exact h
        · omega
      obtain ⟨b, hb⟩ := hs' hin
      exact hsup t b hb hpl
    · cases hg : Dict.get? inputs "kv_cache" with
      | some b => exact hsup _ b (mem_of_get hg) hV.cache.1
      | none =>
        unfold startEnvKv
        rw [hok.consts _ hV.cache.1, hg]
        simp only [if_true]
        rw [hs]
        congr 1
        symm
        apply readView_congr
        intro a ha1 ha2
        apply hfr
        intro t b v hb hv
        have htk : t ≠ "kv_cache" := by
          rintro rfl
          rw [get_of_mem hok.keys hb] at hg; cases hg
        obtain ⟨w, hw⟩ := Option.isSome_iff_exists.1 hV.cache.1
        have h1 := hV.kv t v w htk hv hw
        obtain ⟨h2, h3⟩ := callView_eq hV hw
        rw [h2] at ha1 ha2
        unfold DisjointRanges at h1
        simp only at ha1 ha2
        omega
  have hpre : ∀ k, k ≤ g.nodemap.length → ∃ mem, runNodes e kern shape dyn' (g.nodemap.take k) mem1 = .ok mem ∧
      AgreesKv g e shape inputs k mem (refRunIn sem upd (g.nodemap.take k) (startEnvKv e s inputs)) := by
    intro k
    induction k with
    | zero => intro _; exact ⟨mem1, rfl, hzero⟩
    | succ k ih =>
      intro hk
      obtain ⟨mem, hm, hag⟩ := ih (by omega)
      obtain ⟨n, hn⟩ : ∃ n, g.nodemap[k]? = some n := ⟨_, List.getElem?_eq_getElem (by omega)⟩
      obtain ⟨mem', hrn, hag'⟩ := step_kv hV hssa hok hkern hdyn hn hag (fun t ht h => ref_restKv hok.updates _ t ht k h)
      refine ⟨mem', ?_, hag'⟩
      rw [List.take_add_one, hn]
      show runNodes _ kern shape dyn' (g.nodemap.take k ++ [n]) mem1 = _
      rw [runNodes_append _ _ _ _ _ _ _ _ hm]
      simp only [runNodes, hrn]
  obtain ⟨mem, hm, hag⟩ := hpre g.nodemap.length (Nat.le_refl _)
  rw [List.take_length] at hm hag
  have hcol : ∀ os : List String, ∃ d, collect e shape mem os = .ok d ∧
      ∀ o ∈ os, Pooled e o → d.get? o = some (readView mem (callView e shape o)) := by
    intro os
    induction os with
    | nil => exact ⟨[], rfl, fun o ho => absurd ho (by simp)⟩
    | cons a os ih =>
      obtain ⟨d, hd, hd'⟩ := ih
      cases hv : e.views.get? a with
      | none =>
        refine ⟨d, by simp only [collect, hv]; exact hd, ?_⟩
        intro o ho hpl
        rcases List.mem_cons.1 ho with rfl | ho
        · unfold Pooled at hpl; rw [hv] at hpl; cases hpl
        · exact hd' o ho hpl
      | some v =>
        obtain ⟨hcw, hle⟩ := callView_eq hV hv
        have hsv : shapeView e.elt v (shape a) = .ok (v.1, prod (shape a) * e.elt) := by
          unfold shapeView; rw [if_pos hle]
        refine ⟨(a, readView mem (v.1, prod (shape a) * e.elt)) :: d, by simp only [collect, hv, hsv, hd], ?_⟩
        intro o ho hplo
        by_cases e : a = o
        · subst e; simp only [Dict.get?, if_true]; rw [hcw]
        · simp only [Dict.get?, if_neg e]
          exact hd' o ((List.mem_cons.1 ho).resolve_left (fun h => e h.symm)) hplo
  obtain ⟨d, hd, hd'⟩ := hcol g.output
  have hrc : refCall e sem upd s inputs = refRunIn sem upd g.nodemap (startEnvKv e s inputs) := by unfold refCall; rw [hnodes]
  refine ⟨d, mem, ?_, by rw [hrc]; exact hag.2, ⟨mem1, dyn', hcopy⟩, ?_⟩
  · unfold forward
    rw [hcopy]; simp only
    rw [hnodes, hm]; simp only
    rw [hout, hd]
  · rintro o ho ⟨k, hk⟩ hun
    have hpl : Pooled e o := hV.pooled k o hk
    have ho0 := (hok.outs k o hk).1
    have hlt : k < g.nodemap.length := by obtain ⟨n, hn, _⟩ := hk; exact (List.getElem?_eq_some_iff.1 hn).1
    have hnk : o ≠ "kv_cache" := by rintro rfl; exact (ssa_distinct hssa ho0).1 k hk hV.cache.2
    have := hag.1 o hnk hpl ho0 (fun hi => absurd hi ((ssa_distinct hssa ho0).1 k hk)) ⟨.inr ⟨k, hlt, hk⟩, .inr hun⟩
    rw [hd' o ho hpl, hrc, this]
    exact ⟨rfl, rfl⟩

end OnnxTool.Props
