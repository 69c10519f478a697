import Verif.Proofs.ConstFold
import Verif.Proofs.Fuse
/-!
# C17, C18: constant detection and constant folding
-/
namespace OnnxTool.Props
open OnnxTool Remove Topsort Subgraph ConstFold

private theorem ix_of {g : Graph} (hn : (g.nodemap.map (·.name)).Nodup) : Ix g.updateConsumerProducer :=
  ⟨hn, updateConsumerProducer_exact g⟩

/-- **C17.** For every acyclic graph, in any node order, with any operator semantics `f` and any initial static tensors,
the search terminates without an exception, and a node is marked constant iff it is not `DequantizeLinear` and all its
operands are static; a tensor ends up static iff it was, or some constant node produces it. -/
theorem C17_constant_iff {V : Type} (g : Graph) (hnames : (g.nodemap.map (·.name)).Nodup) (hac : Acyclic g.nodemap)
    (f : Node → List V → Nat → V) (env0 : Env V) :
    ∃ N, ∀ fuel, N ≤ fuel → ∃ env C, constantSearch g.updateConsumerProducer f fuel env0 = .ok (env, C) ∧
      (∀ n ∈ g.nodemap, (n.name ∈ C ↔ ConstNode g.nodemap (fun t => (env0 t).isSome = true) n)) ∧
      (∀ t, (env t).isSome = true ↔ StaticT g.nodemap (fun t => (env0 t).isSome = true) t) := by
  obtain ⟨N, h⟩ := constantSearch_ok (ix_of hnames) hac f env0
  refine ⟨N, fun fuel hf => ?_⟩
  obtain ⟨env, C, h1, h2⟩ := h fuel hf
  have h3 := kinv_final (ix_of hnames) h2
  exact ⟨env, C, h1, h3.2, h3.1⟩

private theorem mem_foldl_addNews {α : Type} (p : α → List String) (t : String) : ∀ (ns : List α) (l : List String),
    t ∈ ns.foldl (fun l n => (p n).foldl Subgraph.addNew l) l ↔ t ∈ l ∨ ∃ n ∈ ns, t ∈ p n
  | [], l => by simp
  | n :: ns, l => by
    rw [List.foldl_cons, mem_foldl_addNews p t ns, mem_fold_addNew]
    simp [or_assoc]

/-- Where the operands and outputs of the kept nodes get their value after folding. -/
def foldedEnv {V : Type} (g' : Graph) (env x : Env V) : Env V := fun t => if t ∈ g'.initials then env t else x t

/-- **C18 (partial).**  Fold any acyclic single-assignment graph, with any operator semantics `f`, initial values `env0` and
any input values `x`.  (`initials` may already hold static tensors, `dynamics` produced ones; both are empty when a file is loaded.)  Every tensor that the folded graph reads or produces has exactly the same value as in the original
graph, and so does every output of the folded graph that a remaining node produces or reads.  With `remove_dangling` (the default) the names of the
outputs stay; without it they become the unread tensors produced by non-constant nodes.  Missing: graph outputs computed from constants, for which the
folded graph has no value and no tensor (`C18_constant_output_lost`), and without `remove_dangling` outputs that some node reads
(`C18_read_output_lost`). -/
theorem C18_folding_preserves_values_partial {V : Type} (rd : Bool) (g : Graph) (hnames : (g.nodemap.map (·.name)).Nodup)
    (hac : Acyclic g.nodemap) (f : Node → List V → Nat → V) (env0 x : Env V)
    (hprod : (g.nodemap.flatMap (·.output)).Nodup)
    (hgiven : ∀ n ∈ g.nodemap, ∀ o ∈ n.output, env0 o = none ∧ x o = none)
    (hini : ∀ t ∈ g.initials, (env0 t).isSome = true) (hdyn0 : ∀ t ∈ g.dynamics, producersOf g.nodemap t ≠ []) (hdisj : ∀ t, (env0 t).isSome = true → x t = none) :
    ∃ N, ∀ fuel, N ≤ fuel → ∃ env C, constantSearch g.updateConsumerProducer f fuel env0 = .ok (env, C) ∧
      let g' := updateNodesTensors rd g.updateConsumerProducer env C
      (∀ n ∈ g'.nodemap, ∀ t ∈ n.input ++ n.output, ∀ v,
        (Ev g'.nodemap f (foldedEnv g' env x) t v ↔ Ev g.nodemap f (fun t => (env0 t).or (x t)) t v)) ∧
      (∀ t ∈ g'.output, (∃ n ∈ g'.nodemap, t ∈ n.input ++ n.output) → ∀ v,
        (Ev g'.nodemap f (foldedEnv g' env x) t v ↔ Ev g.nodemap f (fun t => (env0 t).or (x t)) t v)) ∧
      (rd = true → g'.output = g.output) ∧
      (rd = false → ∀ t, t ∈ g'.output ↔ consumersOf g.nodemap t = [] ∧ ∃ n ∈ g.nodemap, t ∈ n.output ∧
        ¬ ConstNode g.nodemap (fun t => (env0 t).isSome = true) n) ∧
      (∀ t, t ∈ g'.input ↔ producersOf g.nodemap t = [] ∧
        ¬ StaticT g.nodemap (fun t => (env0 t).isSome = true) t ∧ ∃ n ∈ g'.nodemap, t ∈ n.input) ∧
      (∀ n, n ∈ g'.nodemap ↔ n ∈ g.nodemap ∧ ¬ ConstNode g.nodemap (fun t => (env0 t).isSome = true) n) ∧
      g'.IndexExact := by
  have hix := ix_of hnames
  obtain ⟨N, h⟩ := constantSearch_ok hix hac f env0
  refine ⟨N, fun fuel hf => ?_⟩
  obtain ⟨env, C, h1, h2⟩ := h fuel hf
  obtain ⟨h3, h4⟩ := kinv_final hix h2
  refine ⟨env, C, h1, ?_⟩
  intro g'
  have hns : g.updateConsumerProducer.nodemap = g.nodemap := rfl
  have hkept : ∀ n, n ∈ g'.nodemap ↔ n ∈ g.nodemap ∧ n.name ∉ C := by
    intro n
    show n ∈ List.filter _ _ ↔ _
    rw [List.mem_filter, hns, Bool.not_eq_true', ← Bool.not_eq_true, List.contains_iff_mem]
  have hinit : ∀ t, t ∈ g'.initials ↔ t ∈ g.initials ∨ ∃ n ∈ g'.nodemap, t ∈ n.input ∧ (env t).isSome = true := by
    intro t
    show t ∈ foldedInitials _ _ _ ↔ _
    unfold foldedInitials
    rw [mem_foldl_addNews]
    show (t ∈ g.initials ∨ ∃ n ∈ g'.nodemap, t ∈ n.input.filter (fun t => (env t).isSome)) ↔ _
    constructor
    · rintro (h | ⟨n, hn, h⟩)
      · exact Or.inl h
      · exact Or.inr ⟨n, hn, List.mem_filter.mp h⟩
    · rintro (h | ⟨n, hn, h⟩)
      · exact Or.inl h
      · exact Or.inr ⟨n, hn, List.mem_filter.mpr h⟩
  have hisome : ∀ t ∈ g'.initials, (env t).isSome = true := by
    intro t ht
    rcases (hinit t).mp ht with h | ⟨n, -, -, h⟩
    · exact h2.ext t (hini t h)
    · exact h
  have hdet : Det g.nodemap (fun t => (env0 t).or (x t)) := by
    refine ⟨hprod, fun n hn o ho => ?_⟩
    obtain ⟨e1, e2⟩ := hgiven n hn o ho
    simp [e1, e2]
  have hval : ∀ t v, env t = some v → Ev g.nodemap f (fun t => (env0 t).or (x t)) t v := by
    intro t v hv
    refine ev_mono ?_ (h2.val t v hv)
    intro t v hv; simp [hv]
  have fwd : ∀ t v, Ev g'.nodemap f (foldedEnv g' env x) t v → Ev g.nodemap f (fun t => (env0 t).or (x t)) t v := by
    intro t v hv
    induction hv with
    | @base t v hb =>
      unfold foldedEnv at hb
      split at hb
      · exact hval t v hb
      · refine Ev.base ?_
        cases e : env0 t with
        | none => simpa using hb
        | some u => rw [hdisj t (by simp [e])] at hb; cases hb
    | node vs hn ho hl _ ih => exact Ev.node vs ((hkept _).mp hn).1 ho hl ih
  have bwd : ∀ t v, Ev g.nodemap f (fun t => (env0 t).or (x t)) t v →
      (∃ n ∈ g'.nodemap, t ∈ n.input ∨ t ∈ n.output) → Ev g'.nodemap f (foldedEnv g' env x) t v := by
    intro t v hv
    induction hv with
    | @base t v hb =>
      rintro ⟨n, hn, hio | hio⟩
      · cases e : env t with
        | some u =>
          have hu := ev_det hdet (hval t u e) (Ev.base hb)
          subst hu
          refine Ev.base ?_
          unfold foldedEnv
          rw [if_pos ((hinit t).mpr (Or.inr ⟨n, hn, hio, by simp [e]⟩)), e]
        | none =>
          refine Ev.base ?_
          unfold foldedEnv
          rw [if_neg (fun hc => by simpa [e] using hisome t hc)]
          have e0 : env0 t = none := by
            cases e0 : env0 t with
            | none => rfl
            | some u => have := h2.ext t (by simp [e0]); simp [e] at this
          simpa [e0] using hb
      · obtain ⟨e1, e2⟩ := hgiven n ((hkept n).mp hn).1 t hio
        simp [e1, e2] at hb
    | @node m k o vs hm ho hl hin ih =>
      rintro ⟨n, hn, hio⟩
      have key : m ∈ g'.nodemap → Ev g'.nodemap f (foldedEnv g' env x) o (f m vs k) := by
        intro hk
        exact Ev.node vs hk ho hl (fun i t v hi hv => ih i t v hi hv ⟨m, hk, Or.inl (List.mem_of_getElem? hi)⟩)
      rcases hio with hio | hio
      · cases e : env o with
        | some u =>
          have hu := ev_det hdet (hval o u e) (Ev.node vs hm ho hl hin)
          rw [← hu]
          refine Ev.base ?_
          unfold foldedEnv
          rw [if_pos ((hinit o).mpr (Or.inr ⟨n, hn, hio, by simp [e]⟩)), e]
        | none =>
          apply key
          refine (hkept m).mpr ⟨hm, fun hc => ?_⟩
          rcases h2.done m hm hc with h | h
          · cases h
          · have := h o (List.mem_of_getElem? ho); simp [e] at this
      · obtain ⟨j, hj⟩ := List.mem_iff_getElem?.mp hio
        obtain ⟨e, -⟩ := output_unique hprod ((hkept n).mp hn).1 hm hj ho
        exact key (e ▸ hn)
  have hcons : ∀ t, ((g.updateConsumerProducer.consumedby.get? t).getD []) = consumersOf g.nodemap t := by
    intro t
    have h := (updateConsumerProducer_exact g).1 t
    show ((g.updateConsumerProducer.consumedby.get? t).getD []) = _
    rw [h]
    show (if consumersOf g.nodemap t = [] then none else some (consumersOf g.nodemap t)).getD [] = _
    split
    · rename_i e; rw [e]; rfl
    · rfl
  have hout : rd = false → ∀ t, t ∈ g'.output ↔ consumersOf g.nodemap t = [] ∧ ∃ n ∈ g'.nodemap, t ∈ n.output := by
    intro hrd t
    show t ∈ (if rd = true then _ else foldedOutputs _ _) ↔ _
    rw [if_neg (by simp [hrd])]
    unfold foldedOutputs
    rw [mem_foldl_addNews]
    show (t ∈ [] ∨ ∃ n ∈ g'.nodemap,
      t ∈ n.output.filter (fun t => ((g.updateConsumerProducer.consumedby.get? t).getD []).isEmpty)) ↔ _
    constructor
    · rintro (h | ⟨n, hn, h⟩)
      · cases h
      · obtain ⟨a, b⟩ := List.mem_filter.mp h
        rw [hcons, List.isEmpty_iff] at b
        exact ⟨b, n, hn, a⟩
    · rintro ⟨b, n, hn, a⟩
      exact Or.inr ⟨n, hn, List.mem_filter.mpr ⟨a, by rw [hcons, b]; rfl⟩⟩
  have hkept' : ∀ n, n ∈ g'.nodemap ↔ n ∈ g.nodemap ∧ ¬ ConstNode g.nodemap (fun t => (env0 t).isSome = true) n := by
    intro n
    rw [hkept]
    constructor
    · rintro ⟨a, b⟩; exact ⟨a, fun c => b ((h4 n a).mpr c)⟩
    · rintro ⟨a, b⟩; exact ⟨a, fun c => b ((h4 n a).mp c)⟩
  have hpk : ∀ t, g.updateConsumerProducer.producedby.has t = true ↔ producersOf g.nodemap t ≠ [] := by
    intro t
    have h := (updateConsumerProducer_exact g).2 t
    show g.updateConsumerProducer.producedby.has t = true ↔ _
    unfold Dict.has
    rw [h]
    show (if producersOf g.nodemap t = [] then none else some (producersOf g.nodemap t)).isSome = true ↔ _
    split <;> simp_all
  have hdyn : ∀ t, t ∈ g'.dynamics ↔ t ∈ g.dynamics ∨ ∃ n ∈ g'.nodemap,
      t ∈ n.input.filter (fun t => (env t).isNone) ++ n.output := by
    intro t
    show t ∈ foldedDynamics _ _ _ ↔ _
    unfold foldedDynamics
    simp only [← List.foldl_append]
    rw [mem_foldl_addNews]
    exact Iff.rfl
  have hin : ∀ t, t ∈ g'.input ↔ producersOf g.nodemap t = [] ∧
        ¬ StaticT g.nodemap (fun t => (env0 t).isSome = true) t ∧ ∃ n ∈ g'.nodemap, t ∈ n.input := by
    intro t
    show t ∈ foldedInputs _ _ _ ↔ _
    unfold foldedInputs
    rw [mem_foldl_addNews]
    show (t ∈ [] ∨ ∃ n ∈ g'.nodemap,
      t ∈ n.input.filter (fun t => !g.updateConsumerProducer.producedby.has t && g'.dynamics.contains t)) ↔ _
    have hnoprod : ∀ n ∈ g.nodemap, t ∈ n.output → producersOf g.nodemap t ≠ [] := by
      intro n hn ho e
      have : n.name ∈ producersOf g.nodemap t :=
        List.mem_flatMap.mpr ⟨n, hn, List.mem_replicate.mpr ⟨Nat.ne_of_gt (List.count_pos_iff.mpr ho), rfl⟩⟩
      rw [e] at this; cases this
    constructor
    · rintro (h | ⟨n, hn, h⟩)
      · cases h
      · obtain ⟨a, b⟩ := List.mem_filter.mp h
        rw [Bool.and_eq_true, Bool.not_eq_true', ← Bool.not_eq_true, hpk, Decidable.not_not, List.contains_iff_mem, hdyn] at b
        refine ⟨b.1, ?_, n, hn, a⟩
        rcases b.2 with h | ⟨m, hm, h⟩
        · exact absurd b.1 (hdyn0 t h)
        · rcases List.mem_append.mp h with h | h
          · have := (List.mem_filter.mp h).2
            rw [← hns, ← h3 t]
            cases e : env t <;> simp_all
          · exact absurd b.1 (hnoprod m ((hkept m).mp hm).1 h)
    · rintro ⟨a, b, n, hn, c⟩
      refine Or.inr ⟨n, hn, List.mem_filter.mpr ⟨c, ?_⟩⟩
      rw [Bool.and_eq_true, Bool.not_eq_true', ← Bool.not_eq_true, hpk, Decidable.not_not, List.contains_iff_mem, hdyn]
      refine ⟨a, Or.inr ⟨n, hn, List.mem_append_left _ (List.mem_filter.mpr ⟨c, ?_⟩)⟩⟩
      rw [← hns, ← h3 t] at b
      cases e : env t <;> simp_all
  refine ⟨?_, ?_, ?_, ?_, hin, hkept', updateConsumerProducer_exact _⟩
  · intro n hn t ht v
    exact ⟨fwd t v, fun h => bwd t v h ⟨n, hn, List.mem_append.mp ht⟩⟩
  · rintro t - ⟨n, hn, hio⟩ v
    exact ⟨fwd t v, fun h => bwd t v h ⟨n, hn, List.mem_append.mp hio⟩⟩
  · intro hrd
    show (if rd = true then _ else _) = _
    rw [if_pos hrd]
    rfl
  · intro hrd t
    rw [hout hrd]
    constructor
    · rintro ⟨a, n, hn, ho⟩; exact ⟨a, n, ((hkept' n).mp hn).1, ho, ((hkept' n).mp hn).2⟩
    · rintro ⟨a, n, hn, ho, hc⟩; exact ⟨a, n, (hkept' n).mpr ⟨hn, hc⟩, ho⟩

/-- `c → (Neg) → d`, `x, d → (Add) → y`, `y → (Relu) → z`. -/
def foldGraph : Graph :=
  { nodemap := [⟨"add", "Add", ["x", "d"], ["y"]⟩, ⟨"neg", "Neg", ["c"], ["d"]⟩, ⟨"relu", "Relu", ["y"], ["z"]⟩]
    input := ["x"], output := ["z"], initials := ["c"] }

/-- `Neg`, `Add` and `Relu` on integers -/
def foldSem (n : Node) (vs : List Int) (_ : Nat) : Int :=
  if n.op = "Neg" then -(vs.headD 0) else if n.op = "Add" then vs.sum else max 0 (vs.headD 0)

def foldEnv0 : Env Int := fun t => if t = "c" then some 5 else none
def foldX : Env Int := fun t => if t = "x" then some 7 else none

example : (foldGraph.nodemap.map (·.name)).Nodup ∧ (foldGraph.nodemap.flatMap (·.output)).Nodup ∧
    (∀ n ∈ foldGraph.nodemap, ∀ o ∈ n.output, foldEnv0 o = none ∧ foldX o = none) ∧
    (∀ t ∈ foldGraph.initials, (foldEnv0 t).isSome = true) ∧ (∀ t ∈ foldGraph.dynamics, producersOf foldGraph.nodemap t ≠ []) ∧
    (∀ t, (foldEnv0 t).isSome = true → foldX t = none) := by
  refine ⟨by decide, by decide, by decide, by decide, by decide, ?_⟩
  intro t ht
  unfold foldEnv0 at ht
  split at ht
  · rename_i e; subst e; rfl
  · cases ht
example : Acyclic foldGraph.nodemap :=
  ⟨[⟨"neg", "Neg", ["c"], ["d"]⟩, ⟨"add", "Add", ["x", "d"], ["y"]⟩, ⟨"relu", "Relu", ["y"], ["z"]⟩],
    List.Perm.swap _ _ _, by decide⟩
/-- the folded graph: `neg` is gone, `d` is an initializer with value `-5`, the interface is unchanged -/
example : ((constantSearch foldGraph.updateConsumerProducer foldSem 10 foldEnv0).toOption.map fun r =>
    (r.2, r.1 "d", (updateNodesTensors true foldGraph.updateConsumerProducer r.1 r.2).nodemap.map (·.name),
      (updateNodesTensors true foldGraph.updateConsumerProducer r.1 r.2).initials,
      (updateNodesTensors true foldGraph.updateConsumerProducer r.1 r.2).input,
      (updateNodesTensors true foldGraph.updateConsumerProducer r.1 r.2).output)) =
    some (["neg"], some (-5), ["add", "relu"], ["c", "d"], ["x"], ["z"]) := rfl

/-- the same graph, as just read from a file, with a second output computed from the initializer only -/
def foldGraph2 : Graph :=
  { nodemap := foldGraph.nodemap ++ [(⟨"neg2", "Neg", ["c"], ["e"]⟩ : Node)], output := ["z", "e"] }

/-- **C18 finding**: a graph output that is computed from initializers only (`e`) has no tensor any more after folding: it is neither an initializer nor a
dynamic tensor, so `tensormap` drops it and the saved model has one output less; without `remove_dangling` its name is dropped as well. -/
theorem C18_constant_output_lost :
    ((constantSearch foldGraph2.updateConsumerProducer foldSem 10 foldEnv0).toOption.map fun r =>
      let g' := fun rd => updateNodesTensors rd foldGraph2.updateConsumerProducer r.1 r.2
      ((g' true).output, (g' false).output, keptTensors (g' true) ["c", "x", "z", "e", "d", "y"])) =
    some (["z", "e"], ["z"], ["x", "z", "d", "y"]) := by decide

/-- **C18 finding**, the general fact behind it: on loading (`initials` and `dynamics` are empty before), a graph output all of whose producers are constant and
that no remaining node reads is in neither list. -/
theorem C18_constant_output_gone {V : Type} (rd : Bool) (g : Graph) (env : Env V) (C : List String) (t : String) (hi : g.initials = []) (hd : g.dynamics = [])
    (hp : ∀ n ∈ g.nodemap, t ∈ n.output → n.name ∈ C) (hr : ∀ n ∈ g.nodemap, t ∈ n.input → n.name ∈ C) (keys : List String) :
    t ∉ keptTensors (updateNodesTensors rd g env C) keys := by
  intro h
  have h := (List.mem_filter.1 h).2
  rw [List.contains_iff_mem, List.mem_append] at h
  have hk : ∀ n ∈ g.nodemap.filter (fun n => !C.contains n.name), n ∈ g.nodemap ∧ n.name ∉ C := by
    intro n hn
    rw [List.mem_filter, Bool.not_eq_true', ← Bool.not_eq_true, List.contains_iff_mem] at hn
    exact hn
  rcases h with h | h
  · have h : t ∈ foldedInitials env (g.nodemap.filter (fun n => !C.contains n.name)) g.initials := h
    unfold foldedInitials at h
    rw [mem_foldl_addNews, hi] at h
    rcases h with h | ⟨n, hn, h⟩
    · cases h
    · exact (hk n hn).2 (hr n (hk n hn).1 (List.mem_filter.1 h).1)
  · have h : t ∈ foldedDynamics env (g.nodemap.filter (fun n => !C.contains n.name)) g.dynamics := h
    unfold foldedDynamics at h
    simp only [← List.foldl_append] at h
    rw [mem_foldl_addNews, hd] at h
    rcases h with h | ⟨n, hn, h⟩
    · cases h
    · rcases List.mem_append.1 h with h | h
      · exact (hk n hn).2 (hr n (hk n hn).1 (List.mem_filter.1 h).1)
      · exact (hk n hn).2 (hp n (hk n hn).1 h)

/-- **C18 finding**: without `remove_dangling` a graph output that some node also reads (`y`) is dropped too; with it, it stays. -/
theorem C18_read_output_lost :
    ((constantSearch { foldGraph with output := ["z", "y"] }.updateConsumerProducer foldSem 10 foldEnv0).toOption.map fun r =>
      ((updateNodesTensors false { foldGraph with output := ["z", "y"] }.updateConsumerProducer r.1 r.2).output,
        (updateNodesTensors true { foldGraph with output := ["z", "y"] }.updateConsumerProducer r.1 r.2).output)) =
    some (["z"], ["z", "y"]) := by decide

end OnnxTool.Props
