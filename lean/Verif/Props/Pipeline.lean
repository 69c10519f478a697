import Verif.Spec.Pipeline
import Verif.Props.Load
import Verif.Props.Infer
import Verif.Props.ShapeCalc
import Verif.Proofs.Export
import Mathlib.Data.List.Flatten
/-!
# C112: running a model file
-/
namespace OnnxTool.Props
open OnnxTool OnnxTool.Load OnnxTool.Pipeline OnnxTool.Topsort OnnxTool.Remove

variable {V : Type}

private theorem mem_erases {o : String} : ∀ (ts l : List String), o ∉ ts → o ∈ l → o ∈ ts.foldl List.erase l
  | [], _, _, h => h
  | t :: ts, l, ht, h => by
    rw [List.foldl_cons]
    refine mem_erases ts _ (fun c => ht (List.mem_cons_of_mem _ c)) ?_
    exact (List.mem_erase_of_ne (by rintro rfl; exact ht (List.mem_cons_self ..))).2 h

private theorem erases_sub {o : String} : ∀ (ts l : List String), o ∈ ts.foldl List.erase l → o ∈ l
  | [], _, h => h
  | t :: ts, l, h => by
    rw [List.foldl_cons] at h
    exact List.mem_of_mem_erase (erases_sub ts _ h)

/-- removing nodes one after the other -/
private theorem removed : ∀ (names : List String) {g g' : Graph}, WF g → removeEach names g = .ok g' →
    WF g' ∧ g'.nodemap = names.foldl popNode g.nodemap ∧ g'.input = g.input ∧ g'.initials = g.initials ∧ (∀ o ∈ g'.output, o ∈ g.output) ∧
      ∀ o ∈ g.output, (∀ n ∈ g.nodemap, n.name ∈ names → o ∉ n.output) → o ∈ g'.output
  | [], g, g', hw, h => by cases h; exact ⟨hw, rfl, rfl, rfl, fun _ h => h, fun _ h _ => h⟩
  | a :: ns, g, g', hw, h => by
    unfold removeEach at h
    cases hf : findNode g.nodemap a with
    | none =>
      have h1 : removeOne g a = .ok (g, []) := by unfold removeOne; rw [hf]
      rw [h1] at h
      obtain ⟨k1, k2, k3, k4, k5, k6⟩ := removed ns hw h
      have hp : popNode g.nodemap a = g.nodemap := by
        unfold popNode
        rw [List.filter_eq_self]
        intro n hn
        have := List.find?_eq_none.1 hf n hn
        simpa using this
      exact ⟨k1, by rw [k2, List.foldl_cons, hp], k3, k4, k5, fun o ho hq => k6 o ho fun n hn hm => hq n hn (List.mem_cons_of_mem _ hm)⟩
    | some nd =>
      have hm : nd ∈ g.nodemap ∧ nd.name = a := ⟨List.mem_of_find?_eq_some hf, by simpa using List.find?_some hf⟩
      obtain ⟨g1, new, h1, h2, h3, h4, h5, h6, -, -⟩ := removeOne_ok hw hm.1
      rw [hm.2] at h1 h3
      rw [h1] at h
      obtain ⟨k1, k2, k3, k4, k5, k6⟩ := removed ns h2 h
      refine ⟨k1, by rw [k2, h3]; rfl, k3.trans h5, k4.trans h6, fun o ho => erases_sub _ _ (h4 ▸ k5 o ho), fun o ho hq => ?_⟩
      refine k6 o ?_ fun n hn hmn => ?_
      · rw [h4]
        exact mem_erases _ _ (hq nd hm.1 (hm.2 ▸ List.mem_cons_self ..)) ho
      · rw [h3] at hn
        exact hq n (List.mem_filter.1 hn).1 (List.mem_cons_of_mem _ hmn)

/-- what the constructor has done -/
private structure Facts (absent : V) (b : Built V) (fileOut : List String) (pad : Nat) (tm : Dict Infer.TInfo) : Prop where
  load : LoadOk absent b.loaded
  index : b.cg.IndexExact
  plan : Mem.compressMemory b.cg (Infer.memsizes tm) pad = .ok (b.plan, b.size)
  nodes : ∀ n ∈ b.cg.nodemap, n ∈ b.loaded.graph.nodemap
  topo : TopoOrdered b.cg.nodemap
  order : ∃ ns : List Node, ns.Perm b.loaded.graph.nodemap ∧ TopoOrdered ns
  input : b.cg.input = b.loaded.graph.input
  initials : b.cg.initials = b.loaded.graph.initials
  nonempty : "" ∉ b.loaded.graph.input
  outNodup : (b.cg.nodemap.flatMap (·.output)).Nodup
  output : ∀ o ∈ fileOut, Makes b.cg.nodemap o → o ∈ b.cg.output
  outputSub : ∀ o ∈ b.cg.output, o ∈ fileOut
  dyn : b.cg.dynamics = ComputeGraph.rebuildDynamics b.cg

private theorem topo_filter {ns : List Node} (h : TopoOrdered ns) (q : Node → Bool) : TopoOrdered (ns.filter q) :=
  ⟨h.1.sublist List.filter_sublist, fun n hn => h.2 n (List.mem_filter.1 hn).1⟩

private theorem facts {p : GraphProto V} {f : Node → List V → Nat → V} {absent : V} {fuel pad : Nat} {order : List String} {tm : Dict Infer.TInfo} {b : Built V}
    (hv : Valid p) (hn : ((named false p.node).map (·.name)).Nodup) (h : build f absent fuel pad order tm p = .ok b) : Facts absent b p.output pad tm := by
  unfold build at h
  split at h
  · cases h
  rename_i l hl
  split at h
  · cases h
  rename_i M hM
  split at h
  · cases h
  rename_i cg rest hcg
  split at h
  · cases h
  rename_i cm sz hcm
  cases h
  have hL := load_ok (cfg := { constantFolding := true }) hv hn hl
  obtain ⟨-, -, -, -, -, hin, hout⟩ := C73_load_folded (cfg := { constantFolding := true }) hv hn rfl hl
  have hout := hout rfl
  have hu : UniqueProducers l.graph.nodemap := fun _ _ t _ => List.nodup_iff_count.1 hL.outs t
  obtain ⟨ms, hp, ht, e⟩ := Export.topsort_sorted hL.names hu hL.acyclic
  have hms : (graphReorderNodes l.graph).nodemap = ms := by
    show (topsortNodes l.graph.nodemap).filterMap (findNode l.graph.nodemap) = ms
    rw [e, filterMap_findNode hL.names ms fun n hn => hp.mem_iff.1 hn]
  have hw : WF (graphReorderNodes l.graph) := by
    have h1 : ((graphReorderNodes l.graph).nodemap.map (·.name)).Nodup := by rw [hms]; exact ((hp.map _).nodup_iff).2 hL.names
    have h2 : UniqueProducers (graphReorderNodes l.graph).nodemap := by
      rw [hms]
      exact fun _ _ t _ => List.nodup_iff_count.1 (((hp.map _).flatten.nodup_iff).2 (by exact hL.outs)) t
    exact ⟨h1, updateConsumerProducer_exact _, (updateConsumerProducer_keys _).1, (updateConsumerProducer_keys _).2, h2⟩
  unfold ComputeGraph.computeGraph at hcg
  split at hcg
  · cases hcg
  rename_i rm hrm
  split at hcg
  · cases hcg
  rename_i cg0 hcg0
  cases hcg
  obtain ⟨k1, k2, k3, k4, k5, k6⟩ := removed rm hw hcg0
  rw [hms, fold_popNode] at k2
  have hsub : ∀ n ∈ cg0.nodemap, n ∈ l.graph.nodemap := by
    intro n hn
    rw [k2] at hn
    exact hp.mem_iff.1 (List.mem_filter.1 hn).1
  refine ⟨hL, k1.exact_, hcm, hsub, ?_, ⟨ms, hp, ht⟩, k3, k4, ?_, ?_, ?_, ?_, rfl⟩
  · show TopoOrdered cg0.nodemap
    rw [k2]; exact topo_filter ht _
  · exact fun c => ((hin "").1 c).2.2.2 rfl
  · show (cg0.nodemap.flatMap (·.output)).Nodup
    rw [k2]
    have : (ms.flatMap (·.output)).Nodup := ((hp.map _).flatten.nodup_iff).2 (by exact hL.outs)
    exact this.sublist (List.Sublist.flatMap List.filter_sublist _)
  · intro o ho ⟨m, hm, hom⟩
    show o ∈ cg0.output
    refine k6 o (by show o ∈ l.graph.output; rw [hout]; exact ho) ?_
    intro n hn hnr hon
    rw [hms] at hn
    have hm' : m ∈ cg0.nodemap := hm
    rw [k2] at hm'
    have hmm := List.mem_filter.1 hm'
    obtain ⟨i, hi⟩ := List.mem_iff_getElem?.1 hon
    obtain ⟨j, hj⟩ := List.mem_iff_getElem?.1 hom
    have hnm : n = m := (ConstFold.output_unique hL.outs (hp.mem_iff.1 hn) (hp.mem_iff.1 hmm.1) hi hj).1
    subst hnm
    have := hmm.2
    rw [Bool.not_eq_true', ← Bool.not_eq_true, List.contains_iff_mem] at this
    exact this hnr
  · intro o ho
    have : o ∈ l.graph.output := k5 o ho
    rw [hout] at this; exact this

/-! ### Values -/

/-- every tensor of the loaded graph has a value, once the inputs have one -/
private theorem total {absent : V} {l : Loaded V} (h : LoadOk absent l) {ns : List Node} (hp : ns.Perm l.graph.nodemap) (ht : TopoOrdered ns)
    (f : Node → List V → Nat → V) {x : ConstFold.Env V} (hx : ∀ t ∈ l.graph.input, ∃ v, x t = some v) (t : String)
    (hr : Reads l.graph.nodemap t ∨ Makes l.graph.nodemap t) : ∃ v, ConstFold.Ev l.graph.nodemap f (startL l absent x) t v := by
  have given : ∀ t, Reads l.graph.nodemap t → ¬ Makes l.graph.nodemap t → ∃ v, ConstFold.Ev l.graph.nodemap f (startL l absent x) t v := by
    intro t hr hm
    by_cases hi : t ∈ l.graph.initials
    · obtain ⟨v, hv⟩ := Option.isSome_iff_exists.1 (h.inits t hi)
      exact ⟨v, .base (by unfold startL; rw [if_pos hi, hv])⟩
    · by_cases he : t = ""
      · exact ⟨absent, .base (by unfold startL; rw [if_neg hi, if_pos he])⟩
      · obtain ⟨v, hv⟩ := hx t ((h.mem_inp t).2 ⟨hr, hm, hi⟩)
        exact ⟨v, .base (by unfold startL; rw [if_neg hi, if_neg he, hv])⟩
  have made : ∀ (k : Nat) (n : Node), ns[k]? = some n → ∀ t ∈ n.output, ∃ v, ConstFold.Ev l.graph.nodemap f (startL l absent x) t v := by
    intro k
    induction k using Nat.strongRecOn with
    | ind k ih =>
      intro n hn t hto
      have hnm : n ∈ l.graph.nodemap := hp.mem_iff.1 (List.mem_of_getElem? hn)
      have hops : ∀ u ∈ n.input, ∃ v, ConstFold.Ev l.graph.nodemap f (startL l absent x) u v := by
        intro u hu
        by_cases hm : Makes l.graph.nodemap u
        · obtain ⟨m, hm, hum⟩ := hm
          obtain ⟨j, hj⟩ := List.mem_iff_getElem?.1 (hp.mem_iff.2 hm)
          have hjk : j < k := by
            rcases Nat.lt_trichotomy j k with c | c | c
            · exact c
            · subst c
              rw [hn] at hj; cases hj
              exact absurd ⟨u, hu, hum⟩ (ht.2 n (List.mem_of_getElem? hn))
            · obtain ⟨a1, a2⟩ := List.getElem?_eq_some_iff.1 hn
              obtain ⟨b1, b2⟩ := List.getElem?_eq_some_iff.1 hj
              have := List.pairwise_iff_getElem.1 ht.1 k j a1 b1 c
              rw [a2, b2] at this
              exact absurd ⟨u, hu, hum⟩ this
          exact ih j hjk m hj u hum
        · exact given u ⟨n, hnm, hu⟩ hm
      obtain ⟨i, hi⟩ := List.mem_iff_getElem?.1 hto
      classical
      let w : String → V := fun u => if c : ∃ v, ConstFold.Ev l.graph.nodemap f (startL l absent x) u v then Classical.choose c else absent
      refine ⟨f n (n.input.map w) i, .node (n.input.map w) hnm hi (by simp) ?_⟩
      intro j u v hj hv
      rw [List.getElem?_map, hj] at hv
      cases hv
      have c := hops u (List.mem_of_getElem? hj)
      show ConstFold.Ev _ _ _ u (if c : ∃ v, ConstFold.Ev l.graph.nodemap f (startL l absent x) u v then Classical.choose c else absent)
      rw [dif_pos c]
      exact Classical.choose_spec c
  by_cases hm : Makes l.graph.nodemap t
  · obtain ⟨m, hm, hum⟩ := hm
    obtain ⟨j, hj⟩ := List.mem_iff_getElem?.1 (hp.mem_iff.2 hm)
    exact made j m hj t hum
  · exact given t (hr.resolve_right hm) hm

private theorem constants_get (rep : String → V → Infer.Bytes) (env : ConstFold.Env V) (t : String) : ∀ l : List String,
    Dict.get? (l.filterMap fun t => if t = "" then none else (env t).map fun v => (t, rep t v)) t =
      if t ∈ l ∧ t ≠ "" then (env t).map (rep t) else none
  | [] => by simp
  | a :: l => by
    have ih := constants_get rep env t l
    rw [List.filterMap_cons]
    by_cases ha : a = ""
    · subst ha
      simp only [if_true]
      rw [ih]
      by_cases ht : t = "" <;> simp [ht]
    · rw [if_neg ha]
      cases he : env a with
      | none =>
        simp only [Option.map_none]
        rw [ih]
        by_cases hta : t = a
        · subst hta; simp [he]
        · simp [hta]
      | some v =>
        simp only [Option.map_some, Dict.get?]
        by_cases hta : a = t
        · subst hta; simp [he, ha]
        · rw [if_neg hta, ih]
          have : t ≠ a := fun c => hta c.symm
          simp [this]

private theorem get_of_mem {l : List (String × Infer.Bytes)} (hnd : (l.map (·.1)).Nodup) {t : String} {c : Infer.Bytes} (h : (t, c) ∈ l) : Dict.get? l t = some c := by
  induction l with
  | nil => cases h
  | cons a l ih =>
    rw [List.map_cons, List.nodup_cons] at hnd
    obtain ⟨k, v⟩ := a
    rcases List.mem_cons.1 h with e | h'
    · cases e; simp [Dict.get?]
    · have hne : k ≠ t := by
        rintro rfl
        exact hnd.1 (List.mem_map.2 ⟨_, h', rfl⟩)
      simp only [Dict.get?, if_neg hne]
      exact ih hnd.2 h'

private theorem get_none_of {α : Type} {l : List (String × α)} {t : String} (h : ∀ c, (t, c) ∉ l) : Dict.get? l t = none := by
  induction l with
  | nil => rfl
  | cons a l ih =>
    obtain ⟨k, v⟩ := a
    have hne : k ≠ t := by
      rintro rfl
      exact h v (List.mem_cons_self ..)
    simp only [Dict.get?, if_neg hne]
    exact ih fun c hc => h c (List.mem_cons_of_mem _ hc)

/-- a pooled tensor is a graph input or produced -/
private theorem pooled_origin {g : Graph} {tm : Dict Infer.TInfo} {pad : Nat} {cm : Dict (Nat × Nat)} {sz elt : Nat} {consts : Dict Infer.Bytes}
    (hidx : g.IndexExact) (hrun : Mem.compressMemory g (Infer.memsizes tm) pad = .ok (cm, sz)) {t : String}
    (h : Pooled (Infer.mkEngine g cm sz tm elt consts) t) : t ∈ g.input ∨ Makes g.nodemap t := by
  unfold Pooled at h
  have h1 : ((Infer.views cm sz tm elt).get? t).isSome := h
  rw [views_get] at h1
  cases hc : cm.get? t with
  | none => rw [hc] at h1; cases h1
  | some a =>
    obtain ⟨rfl, rfl⟩ := ok_cases hrun
    obtain ⟨_, _, _, z, hz, _⟩ := (Mem.run_inv (max pad 4096) (Mem.liveLists g) (Mem.inv_init (Mem.tensorSizes g (Infer.memsizes tm) pad) pad)
      (Mem.tensorSizes_dvd g (Infer.memsizes tm) pad)).1.bound t a.1 a.2 hc
    rw [Mem.tensorSizes_get] at hz
    split at hz
    · rename_i hq
      obtain ⟨_, hs, _⟩ := hq
      rcases hs with hs | hs
      · have hx := hidx.2 t
        have hs' : (g.producedby.get? t).isSome := hs
        rw [hx] at hs'
        split at hs'
        · cases hs'
        · rename_i hne
          obtain ⟨nm, hnm⟩ := List.exists_mem_of_ne_nil _ hne
          obtain ⟨n, hn, -, hto⟩ := (mem_occ (f := Node.output) (t := t) (x := nm) (ns := g.nodemap)).1 hnm
          exact .inr ⟨n, hn, hto⟩
      · exact .inl hs
    · cases hz

/-! ### Running -/

section
variable {p : GraphProto V} {f : Node → List V → Nat → V} {absent : V} {x : ConstFold.Env V} {tm : Dict Infer.TInfo} {elt pad : Nat} {b : Built V}
  {rep : String → V → Infer.Bytes} {shape : String → List Nat} {inputs : List (String × Infer.Bytes)} {kern : Node → Option Infer.Kernel}
  {val : String → V} {sem : Infer.Sem} {dyn : Dict Infer.Bytes}

open Classical in
/-- the content a tensor should have after the first nodes `ms` -/
private noncomputable def expected (b : Built V) (rep : String → V → Infer.Bytes) (val : String → V) (ms : List Node) (t : String) : Option Infer.Bytes :=
  if t = "" then none else if Makes ms t ∨ ¬ Makes b.loaded.graph.nodemap t then some (rep t (val t)) else none

private theorem start_expected (hF : Facts absent b p.output pad tm)
    (hval : ∀ t, Reads b.loaded.graph.nodemap t ∨ Makes b.loaded.graph.nodemap t → ConstFold.Ev b.loaded.graph.nodemap f (startL b.loaded absent x) t (val t))
    (hdet : ConstFold.Det b.loaded.graph.nodemap (startL b.loaded absent x))
    (hok : CallOk p f absent x tm elt b rep shape inputs kern) (hdyn : ∀ t, dyn.has t = true → ∃ c, (t, c) ∈ inputs) (t : String)
    (ht : Reads b.loaded.graph.nodemap t ∨ Makes b.loaded.graph.nodemap t) :
    startEnv (engine rep tm elt b) dyn inputs t = expected b rep val [] t := by
  have hcons : (constants rep b).get? t = if t ∈ b.loaded.graph.initials ∧ t ≠ "" then (b.loaded.env t).map (rep t) else none := by
    have := constants_get rep b.loaded.env t b.cg.initials
    rw [hF.initials] at this
    unfold constants
    rw [hF.initials]
    exact this
  have hnoinput : (∀ c, (t, c) ∉ inputs) → (match Dict.get? inputs t with
      | some b => some b
      | none => if ((engine rep tm elt b).views.get? t).isSome then none else dyn.get? t) = none := by
    intro hc
    rw [get_none_of hc]
    have hd : dyn.get? t = none := by
      cases hd : dyn.get? t with
      | none => rfl
      | some c =>
        obtain ⟨c', hc'⟩ := hdyn t (by show (dyn.get? t).isSome = true; rw [hd]; rfl)
        exact absurd hc' (hc c')
    simp [hd]
  unfold startEnv
  show (match (constants rep b).get? t with
    | some c => some c
    | none => _) = _
  unfold expected
  have hnil : ¬ Makes [] t := fun ⟨n, hn, _⟩ => by cases hn
  by_cases he : t = ""
  · rw [if_pos he, hcons, if_neg (fun c => c.2 he)]
    refine hnoinput fun c hc => hF.nonempty ?_
    rw [← hF.input, ← he]
    exact (hok.supplied t).2 ⟨c, hc⟩
  · rw [if_neg he]
    by_cases hm : Makes b.loaded.graph.nodemap t
    · have hni : t ∉ b.loaded.graph.initials := (hF.load.made t hm).1
      have hq : ¬ (Makes [] t ∨ ¬ Makes b.loaded.graph.nodemap t) := fun c => c.elim hnil (fun c => c hm)
      rw [if_neg hq, hcons, if_neg (fun c => hni c.1)]
      refine hnoinput fun c hc => ?_
      have := (hok.supplied t).2 ⟨c, hc⟩
      rw [hF.input] at this
      exact ((hF.load.mem_inp t).1 this).2.1 hm
    · rw [if_pos (Or.inr hm)]
      have hr := ht.resolve_right hm
      by_cases hi : t ∈ b.loaded.graph.initials
      · obtain ⟨v, hv⟩ := Option.isSome_iff_exists.1 (hF.load.inits t hi)
        have hE : ConstFold.Ev b.loaded.graph.nodemap f (startL b.loaded absent x) t v := .base (by unfold startL; rw [if_pos hi, hv])
        rw [hcons, if_pos ⟨hi, he⟩, hv, ConstFold.ev_det hdet (hval t ht) hE]
        rfl
      · rw [hcons, if_neg (fun c => hi c.1)]
        have hin : t ∈ b.cg.input := by rw [hF.input]; exact (hF.load.mem_inp t).2 ⟨hr, hm, hi⟩
        obtain ⟨c, hc⟩ := (hok.supplied t).1 hin
        obtain ⟨v, hxv, hcv⟩ := hok.values t c hc
        have hE : ConstFold.Ev b.loaded.graph.nodemap f (startL b.loaded absent x) t v := .base (by unfold startL; rw [if_neg hi, if_neg he, hxv])
        rw [get_of_mem hok.once hc, ConstFold.ev_det hdet (hval t ht) hE, hcv]

/-- a tensor that a node of the compute graph reads and a node of it makes is made before -/
private theorem made_before {ns : List Node} (ht : TopoOrdered ns) {k j : Nat} {n m : Node} (hn : ns[k]? = some n) (hm : ns[j]? = some m) {t : String}
    (h1 : t ∈ n.input) (h2 : t ∈ m.output) : j < k := by
  rcases Nat.lt_trichotomy j k with c | c | c
  · exact c
  · subst c
    rw [hn] at hm; cases hm
    exact absurd ⟨t, h1, h2⟩ (ht.2 n (List.mem_of_getElem? hn))
  · obtain ⟨a1, a2⟩ := List.getElem?_eq_some_iff.1 hn
    obtain ⟨b1, b2⟩ := List.getElem?_eq_some_iff.1 hm
    have := List.pairwise_iff_getElem.1 ht.1 k j a1 b1 c
    rw [a2, b2] at this
    exact absurd ⟨t, h1, h2⟩ this

private theorem operands_ok (hF : Facts absent b p.output pad tm) {k : Nat} {n : Node} (hn : b.cg.nodemap[k]? = some n) {t : String} (ht : t ∈ n.input) :
    expected b rep val (b.cg.nodemap.take k) t = operand b rep t (val t) := by
  unfold expected operand
  by_cases he : t = ""
  · simp [he]
  · rw [if_neg he]
    by_cases hd : Dropped b t
    · rw [if_pos (Or.inr hd), if_neg]
      rintro (⟨m, hm, hto⟩ | c)
      · exact hd.2 ⟨m, List.mem_of_mem_take hm, hto⟩
      · exact c hd.1
    · have hq : ¬ (t = "" ∨ Dropped b t) := fun c => c.elim he hd
      rw [if_neg hq]
      refine if_pos ?_
      by_cases hm : Makes b.loaded.graph.nodemap t
      · have hmc : Makes b.cg.nodemap t := Classical.byContradiction fun c => hd ⟨hm, c⟩
        obtain ⟨m, hmm, hto⟩ := hmc
        obtain ⟨j, hj⟩ := List.mem_iff_getElem?.1 hmm
        have hjk := made_before hF.topo hn hj ht hto
        refine Or.inl ⟨m, ?_, hto⟩
        refine List.mem_iff_getElem?.2 ⟨j, ?_⟩
        rw [List.getElem?_take, if_pos hjk, hj]
      · exact Or.inr hm

private theorem outputs_ok (hF : Facts absent b p.output pad tm)
    (hval : ∀ t, Reads b.loaded.graph.nodemap t ∨ Makes b.loaded.graph.nodemap t → ConstFold.Ev b.loaded.graph.nodemap f (startL b.loaded absent x) t (val t))
    (hdet : ConstFold.Det b.loaded.graph.nodemap (startL b.loaded absent x)) {n : Node} (hn : n ∈ b.cg.nodemap) :
    (n.output.mapIdx fun i o => rep o (f n (n.input.map val) i)) = n.output.map fun o => rep o (val o) := by
  have hnl := hF.nodes n hn
  apply List.ext_getElem?
  intro i
  rw [List.getElem?_mapIdx, List.getElem?_map]
  cases ho : n.output[i]? with
  | none => rfl
  | some o =>
    simp only [Option.map_some]
    have hE : ConstFold.Ev b.loaded.graph.nodemap f (startL b.loaded absent x) o (f n (n.input.map val) i) := by
      refine .node (n.input.map val) hnl ho (by simp) ?_
      intro j u v hj hv
      rw [List.getElem?_map, hj] at hv
      cases hv
      exact hval u (.inl ⟨n, hnl, List.mem_of_getElem? hj⟩)
    rw [ConstFold.ev_det hdet hE (hval o (.inr ⟨n, hnl, List.mem_of_getElem? ho⟩))]

private theorem run_expected (hF : Facts absent b p.output pad tm)
    (hval : ∀ t, Reads b.loaded.graph.nodemap t ∨ Makes b.loaded.graph.nodemap t → ConstFold.Ev b.loaded.graph.nodemap f (startL b.loaded absent x) t (val t))
    (hdet : ConstFold.Det b.loaded.graph.nodemap (startL b.loaded absent x))
    (hok : CallOk p f absent x tm elt b rep shape inputs kern) (hdyn : ∀ t, dyn.has t = true → ∃ c, (t, c) ∈ inputs)
    (hsem : ∀ n ∈ b.cg.nodemap, sem n (n.input.map fun t => operand b rep t (val t)) = n.output.mapIdx fun i o => rep o (f n (n.input.map val) i)) :
    ∀ k, k ≤ b.cg.nodemap.length → ∀ t, Reads b.loaded.graph.nodemap t ∨ Makes b.loaded.graph.nodemap t →
      Infer.refRun sem (b.cg.nodemap.take k) (startEnv (engine rep tm elt b) dyn inputs) t = expected b rep val (b.cg.nodemap.take k) t := by
  intro k
  induction k with
  | zero => intro _ t ht; exact start_expected hF hval hdet hok hdyn t ht
  | succ k ih =>
    intro hk t ht
    have hlt : k < b.cg.nodemap.length := hk
    have hn : b.cg.nodemap[k]? = some b.cg.nodemap[k] := List.getElem?_eq_getElem hlt
    have hnm : b.cg.nodemap[k] ∈ b.cg.nodemap := List.getElem_mem hlt
    have ih := ih (Nat.le_of_lt hlt)
    generalize b.cg.nodemap[k] = n at hn hnm
    have htake : b.cg.nodemap.take (k + 1) = b.cg.nodemap.take k ++ [n] := by
      rw [List.take_add_one, hn]; rfl
    rw [htake]
    unfold Infer.refRun
    rw [List.foldl_append]
    show Infer.refStep sem (Infer.refRun sem (b.cg.nodemap.take k) (startEnv (engine rep tm elt b) dyn inputs)) n t = _
    unfold Infer.refStep
    have hargs : n.input.map (Infer.refRun sem (b.cg.nodemap.take k) (startEnv (engine rep tm elt b) dyn inputs)) =
        n.input.map fun t => operand b rep t (val t) := by
      apply List.map_congr_left
      intro u hu
      rw [ih u (.inl ⟨n, hF.nodes n hnm, hu⟩), operands_ok hF hn hu]
    rw [hargs, hsem n hnm, outputs_ok hF hval hdet hnm]
    by_cases hto : t ∈ n.output
    · rw [assigned_map _ _ hto]
      simp only
      unfold expected
      rw [if_neg (hF.load.made t ⟨n, hF.nodes n hnm, hto⟩).2, if_pos (Or.inl ⟨n, by simp, hto⟩)]
    · rw [assigned_none _ _ hto]
      show Infer.refRun sem (b.cg.nodemap.take k) (startEnv (engine rep tm elt b) dyn inputs) t = _
      rw [ih t ht]
      unfold expected
      have : Makes (b.cg.nodemap.take k ++ [n]) t ↔ Makes (b.cg.nodemap.take k) t := by
        constructor
        · rintro ⟨m, hm, hmo⟩
          rcases List.mem_append.1 hm with hm | hm
          · exact ⟨m, hm, hmo⟩
          · rw [List.mem_singleton] at hm; subst hm; exact absurd hmo hto
        · rintro ⟨m, hm, hmo⟩; exact ⟨m, List.mem_append_left _ hm, hmo⟩
      by_cases he : t = ""
      · rw [if_pos he, if_pos he]
      · rw [if_neg he, if_neg he]
        by_cases hc : Makes (b.cg.nodemap.take k) t ∨ ¬ Makes b.loaded.graph.nodemap t
        · rw [if_pos hc, if_pos (hc.imp_left this.2)]
        · rw [if_neg hc, if_neg (fun c => hc (c.imp_left this.1))]

end

/-- **C112** Running a model file.  For every valid file whose nodes have different names, every engine the constructor builds for it, every earlier content of the pool, and
every call that supplies the inputs of the engine: `forward` returns, and for every output of the file that a node of the compute graph produces and none reads it returns exactly
the bytes of the value the file computes (and there is only one such value).  (`kernels` in `CallOk` is about single operators on buffers that do not overlap; how nodes were
folded, reordered and dropped, where tensors lie in the pool and what was there before does not matter.) -/
theorem C112_run {p : GraphProto V} {f : Node → List V → Nat → V} {absent : V} {fuel pad elt : Nat} {order : List String} {tm : Dict Infer.TInfo} {b : Built V}
    (hv : Valid p) (hn : ((named false p.node).map (·.name)).Nodup) (hf : NameFree f) (hpad : 0 < pad) (helt : 0 < elt)
    (hb : build f absent fuel pad order tm p = .ok b)
    (x : ConstFold.Env V) (hx : ∀ t, Makes p.node t → x t = none) (rep : String → V → Infer.Bytes) (shape : String → List Nat)
    (inputs : List (String × Infer.Bytes)) (kern : Node → Option Infer.Kernel) (hok : CallOk p f absent x tm elt b rep shape inputs kern)
    (mem : Infer.Mem) (dyn : Dict Infer.Bytes) (hdyn : ∀ t, dyn.has t = true → ∃ c, (t, c) ∈ inputs) :
    ∃ d mem', Infer.forward (engine rep tm elt b) kern shape mem dyn inputs = .ok (d, mem') ∧
      ∀ o ∈ p.output, Makes b.cg.nodemap o → ¬ Reads b.cg.nodemap o →
        ∃ v, (∀ w, Load.Computes p f absent x o w ↔ w = v) ∧ d.get? o = some (rep o v) := by
  have hF := facts hv hn hb
  have hl : load { constantFolding := true } f absent fuel p = .ok b.loaded := by
    unfold build at hb
    split at hb
    · cases hb
    rename_i l hl
    split at hb
    · cases hb
    split at hb
    · cases hb
    split at hb
    · cases hb
    cases hb
    exact hl
  have same := C73_same_values (cfg := { constantFolding := true }) hv hn hl hf x hx
  have hxin : ∀ t ∈ b.loaded.graph.input, ∃ v, x t = some v := by
    intro t ht
    obtain ⟨c, hc⟩ := (hok.supplied t).1 (by rw [hF.input]; exact ht)
    obtain ⟨v, h1, -⟩ := hok.values t c hc
    exact ⟨v, h1⟩
  obtain ⟨ns, hp, htopo⟩ := hF.order
  have htot := total hF.load hp htopo f hxin
  have hfold := C73_load_folded (cfg := { constantFolding := true }) hv hn rfl hl
  have hdet : ConstFold.Det b.loaded.graph.nodemap (startL b.loaded absent x) := by
    refine ⟨hF.load.outs, fun n hnm o ho => ?_⟩
    obtain ⟨h1, h2⟩ := hF.load.made o ⟨n, hnm, ho⟩
    unfold startL
    rw [if_neg h1, if_neg h2]
    exact hx o ((makes_named false p.node o).1 ⟨n, hfold.1.subset hnm, ho⟩)
  classical
  let val : String → V := fun t => if c : ∃ v, ConstFold.Ev b.loaded.graph.nodemap f (startL b.loaded absent x) t v then Classical.choose c else absent
  have hval : ∀ t, Reads b.loaded.graph.nodemap t ∨ Makes b.loaded.graph.nodemap t →
      ConstFold.Ev b.loaded.graph.nodemap f (startL b.loaded absent x) t (val t) := by
    intro t ht
    show ConstFold.Ev _ _ _ t (if c : ∃ v, ConstFold.Ev b.loaded.graph.nodemap f (startL b.loaded absent x) t v then Classical.choose c else absent)
    rw [dif_pos (htot t ht)]
    exact Classical.choose_spec (htot t ht)
  have hk : ∀ n, ∃ g, n ∈ b.cg.nodemap → ∃ k, kern n = some k ∧ Infer.Computes k g ∧
      g (n.input.map fun t => operand b rep t (val t)) = n.output.mapIdx fun i o => rep o (f n (n.input.map val) i) := by
    intro n
    by_cases hnm : n ∈ b.cg.nodemap
    · obtain ⟨k, g, h1, h2, h3⟩ := hok.kernels n hnm
      refine ⟨g, fun _ => ⟨k, h1, h2, h3 val fun t ht => ?_⟩⟩
      have hr : Reads b.loaded.graph.nodemap t := ⟨n, hF.nodes n hnm, ht⟩
      exact (same t (.inl hr) _).1 (hval t (.inl hr))
    · exact ⟨fun _ => [], fun c => absurd c hnm⟩
  obtain ⟨sem, hsem⟩ := Classical.axiomOfChoice hk
  have hrunx := run_expected (sem := sem) (dyn := dyn) hF hval hdet hok hdyn fun n hnm => by
    obtain ⟨k, -, -, h3⟩ := hsem n hnm
    exact h3
  have hmk : ∀ t, Makes b.cg.nodemap t → Makes b.loaded.graph.nodemap t := fun t ⟨n, hnm, ho⟩ => ⟨n, hF.nodes n hnm, ho⟩
  have hpool : ∀ t, Pooled (engine rep tm elt b) t → t ∈ b.cg.input ∨ Makes b.cg.nodemap t := fun t ht => pooled_origin hF.index hF.plan ht
  have hinp : ∀ t, t ∈ b.cg.input → t ∈ b.loaded.graph.input := fun t ht => by rw [← hF.input]; exact ht
  have hinne : ∀ t, t ∈ b.cg.input → t ≠ "" := fun t ht e => hF.nonempty (e ▸ hinp t ht)
  have hconst : ∀ t, t ∉ b.loaded.graph.initials → (constants rep b).get? t = none := by
    intro t ht
    have := constants_get rep b.loaded.env t b.cg.initials
    unfold constants
    rw [this, if_neg]
    rw [hF.initials]; exact fun c => ht c.1
  have hssa : SSA b.cg.input b.cg.nodemap := by
    unfold SSA
    refine List.Nodup.filter _ ?_
    rw [List.nodup_append]
    refine ⟨?_, hF.outNodup, ?_⟩
    · rw [hF.input]
      exact hfold.2.2.2.2.1
    · intro a ha c hc e
      subst e
      obtain ⟨n, hnm, ho⟩ := List.mem_flatMap.1 hc
      exact ((hF.load.mem_inp a).1 (hinp a ha)).2.1 ⟨n, hF.nodes n hnm, ho⟩
  have hdynm : ∀ n ∈ b.cg.nodemap, ∀ t ∈ n.output, t ∈ b.cg.dynamics := by
    have hc : ∃ rest, ComputeGraph.computeGraph fuel (graphReorderNodes b.loaded.graph) b.shapeNodes = .ok (b.cg, rest) := by
      unfold build at hb
      split at hb
      · cases hb
      split at hb
      · cases hb
      split at hb
      · cases hb
      rename_i cg rest hcg
      split at hb
      · cases hb
      cases hb
      exact ⟨rest, hcg⟩
    obtain ⟨rest, hc⟩ := hc
    exact (C16_dynamics _ _ _ hc).2.2 hok.names
  have hrok : RunOk b.cg tm (engine rep tm elt b) shape dyn inputs sem := by
    refine ⟨?_, hok.fits, ?_, ?_, hok.once, ?_, ?_⟩
    · rintro k t ⟨n, hnk, ho⟩
      have hnm := List.mem_of_getElem? hnk
      exact ⟨(hF.load.made t (hmk t ⟨n, hnm, ho⟩)).2, hdynm n hnm t ho, hok.known t ⟨n, hnm, ho⟩⟩
    · intro t ht
      refine hconst t ?_
      rcases hpool t ht with h | h
      · exact ((hF.load.mem_inp t).1 (hinp t h)).2.2
      · exact (hF.load.made t (hmk t h)).1
    · rintro k t ⟨n, hnk, hin⟩ ht
      rcases hpool t ht with h | ⟨m, hmm, ho⟩
      · exact ⟨hinne t h, .inl ⟨h, (hok.supplied t).1 h⟩⟩
      · obtain ⟨j, hj⟩ := List.mem_iff_getElem?.1 hmm
        exact ⟨(hF.load.made t (hmk t ⟨m, hmm, ho⟩)).2, .inr ⟨j, made_before hF.topo hnk hj hin ho, m, hj, ho⟩⟩
    · intro t c hc _
      have hi := (hok.supplied t).2 ⟨c, hc⟩
      refine ⟨hinne t hi, hi, ?_⟩
      obtain ⟨v, h1, rfl⟩ := hok.values t c hc
      have hli := (hF.load.mem_inp t).1 (hinp t hi)
      refine hok.sizes t v (.inl hi) ((same t (.inl hli.1) v).1 (.base ?_))
      unfold startL
      rw [if_neg hli.2.2, if_neg (hinne t hi), h1]
    · intro k n hnk
      have hnm := List.mem_of_getElem? hnk
      have hlt : k ≤ b.cg.nodemap.length := Nat.le_of_lt (List.getElem?_eq_some_iff.1 hnk).1
      have hargs : n.input.map (Infer.refRun sem (b.cg.nodemap.take k) (startEnv (engine rep tm elt b) dyn inputs)) =
          n.input.map fun t => operand b rep t (val t) := by
        apply List.map_congr_left
        intro u hu
        rw [hrunx k hlt u (.inl ⟨n, hF.nodes n hnm, hu⟩), operands_ok hF hnk hu]
      obtain ⟨_, -, -, h3⟩ := hsem n hnm
      rw [hargs, h3, outputs_ok hF hval hdet hnm, List.map_map]
      apply List.map_congr_left
      intro o ho
      have hmo : Makes b.loaded.graph.nodemap o := ⟨n, hF.nodes n hnm, ho⟩
      exact hok.sizes o (val o) (.inr ⟨n, hnm, ho⟩) ((same o (.inr hmo) _).1 (hval o (.inr hmo)))
  obtain ⟨d, mem', h1, h2⟩ := C46_forward_partial b.cg tm pad hpad b.plan b.size elt helt (constants rep b) dyn inputs shape sem kern hF.index hssa hF.plan hrok
    (fun n hnm => by
      obtain ⟨k, a, c, -⟩ := hsem n hnm
      exact ⟨k, a, c⟩) mem
  refine ⟨d, mem', h1, fun o ho hm hr => ⟨val o, ?_, ?_⟩⟩
  · intro w
    rw [← same o (.inr (hmk o hm))]
    constructor
    · exact fun h => ConstFold.ev_det hdet h (hval o (.inr (hmk o hm)))
    · rintro rfl; exact hval o (.inr (hmk o hm))
  · obtain ⟨n, hnm, hno⟩ := hm
    obtain ⟨k, hk⟩ := List.mem_iff_getElem?.1 hnm
    have := (h2 o (hF.output o ho ⟨n, hnm, hno⟩) ⟨k, n, hk, hno⟩ (fun j ⟨m, hj, hin⟩ => hr ⟨m, List.mem_of_getElem? hj, hin⟩)).2
    rw [this]
    have h3 := hrunx b.cg.nodemap.length (Nat.le_refl _) o (.inr (hmk o ⟨n, hnm, hno⟩))
    rw [List.take_length] at h3
    have h4 : Infer.refRun sem b.cg.nodemap (startEnv (engine rep tm elt b) dyn inputs) o = some (rep o (val o)) := by
      rw [h3]
      unfold expected
      rw [if_neg (hF.load.made o (hmk o ⟨n, hnm, hno⟩)).2, if_pos (Or.inl ⟨n, hnm, hno⟩)]
    exact h4

/-! ### Which nodes run -/

private theorem needed_perm {ns ms : List Node} (h : ∀ n, n ∈ ns → n ∈ ms) {out M : List String} {n : Node} (hn : ShapeCalc.NeededCompute ns out M n) :
    ShapeCalc.NeededCompute ms out M n := by
  induction hn with
  | output a b c d => exact .output (h _ a) b c d
  | feeds a b _ d ih => exact .feeds (h _ a) b ih d

/-- **C112**, which nodes run.  The nodes of the engine are nodes of the loaded (folded) graph, in a dependency order, and none of them computes shapes (`ShapeDep`: C15).  If no
output of the file is read by a node and no node has two outputs, every node that an output of the file needs through nodes that do not compute shapes is there; so the kernels of
these nodes are handed all their operands but those made by shape-computing nodes (and those left out in the file). -/
theorem C112_nodes {p : GraphProto V} {f : Node → List V → Nat → V} {absent : V} {fuel pad : Nat} {order : List String} {tm : Dict Infer.TInfo} {b : Built V}
    (hv : Valid p) (hn : ((named false p.node).map (·.name)).Nodup) (hb : build f absent fuel pad order tm p = .ok b)
    (horder : ∀ t, t ∈ order ↔ ∃ n ∈ b.loaded.graph.nodemap, t ∈ ShapeCalc.shapeInputs n) :
    (∀ n ∈ b.loaded.graph.nodemap, (n.name ∈ b.shapeNodes ↔
      ShapeCalc.ShapeDep b.loaded.graph.nodemap b.loaded.graph.initials (b.loaded.graph.nodemap.flatMap ShapeCalc.shapeInputs) n)) ∧
    (∀ n ∈ b.cg.nodemap, n ∈ b.loaded.graph.nodemap ∧ n.name ∉ b.shapeNodes) ∧ TopoOrdered b.cg.nodemap ∧
    ((∀ n ∈ p.node, ∀ t ∈ n.input, t ∉ p.output) → (∀ n ∈ p.node, ∀ o ∈ n.output, ∀ o' ∈ n.output, o = o') →
      ∀ n, ShapeCalc.NeededCompute b.loaded.graph.nodemap p.output b.shapeNodes n →
        n ∈ b.cg.nodemap ∧ ∀ t ∈ n.input, Dropped b t → ∃ m ∈ b.loaded.graph.nodemap, t ∈ m.output ∧ m.name ∈ b.shapeNodes) := by
  have hF := facts hv hn hb
  have hl : load { constantFolding := true } f absent fuel p = .ok b.loaded ∧ ShapeCalc.findShape b.loaded.graph order = .ok b.shapeNodes ∧
      ∃ rest, ComputeGraph.computeGraph fuel (graphReorderNodes b.loaded.graph) b.shapeNodes = .ok (b.cg, rest) := by
    unfold build at hb
    split at hb
    · cases hb
    rename_i l hl
    split at hb
    · cases hb
    rename_i M hM
    split at hb
    · cases hb
    rename_i cg rest hcg
    split at hb
    · cases hb
    cases hb
    exact ⟨hl, hM, rest, hcg⟩
  obtain ⟨hl, hM, rest, hcg⟩ := hl
  have hfold := C73_load_folded (cfg := { constantFolding := true }) hv hn rfl hl
  have hout := hfold.2.2.2.2.2.2 rfl
  obtain ⟨M, h1, h2⟩ := ShapeCalc.findShape_ok ⟨hF.load.names, hF.load.index⟩ order (b.loaded.graph.nodemap.flatMap ShapeCalc.shapeInputs)
    (fun t => by rw [horder, List.mem_flatMap])
  rw [hM] at h1
  cases h1
  obtain ⟨ms, hp, -⟩ := hF.order
  have hu : UniqueProducers b.loaded.graph.nodemap := fun _ _ t _ => List.nodup_iff_count.1 hF.load.outs t
  obtain ⟨ns, hps, hts, e⟩ := Export.topsort_sorted hF.load.names hu hF.load.acyclic
  have hns : (topsortNodes b.loaded.graph.nodemap).filterMap (findNode b.loaded.graph.nodemap) = ns := by
    rw [e, filterMap_findNode hF.load.names ns fun n hn => hps.mem_iff.1 hn]
  have hg : graphReorderNodes b.loaded.graph = Graph.updateTensorRelations { b.loaded.graph with nodemap := ns } := by
    unfold graphReorderNodes
    rw [hns]
  rw [hg] at hcg
  have hnn : (({ b.loaded.graph with nodemap := ns } : Graph).nodemap.map (·.name)).Nodup := ((hps.map _).nodup_iff).2 hF.load.names
  have hun : UniqueProducers ({ b.loaded.graph with nodemap := ns } : Graph).nodemap :=
    fun _ _ t _ => List.nodup_iff_count.1 (((hps.map _).flatten.nodup_iff).2 (by exact hF.load.outs)) t
  obtain ⟨cg, rest', N, k1, -, -, k4, k5⟩ := C16_compute_graph_partial { b.loaded.graph with nodemap := ns } hnn hun ⟨ns, List.Perm.refl _, hts⟩ b.shapeNodes
  have hcg' : cg = b.cg := by
    have h3 := k1 (max N fuel) (Nat.le_max_left ..)
    have h4 := ComputeGraph.computeGraph_mono (Nat.le_max_right N fuel) hcg
    rw [h3] at h4
    cases h4
    rfl
  subst hcg'
  refine ⟨h2, fun n hnm => ⟨hF.nodes n hnm, k4 n hnm⟩, hF.topo, fun hno hsg n hN => ?_⟩
  have hsub : ∀ n ∈ b.loaded.graph.nodemap, ∃ m ∈ p.node, m.input = n.input ∧ m.output = n.output := by
    intro n hnm
    have := hfold.1.subset hnm
    unfold named at this
    obtain ⟨i, hi, rfl⟩ := List.mem_mapIdx.1 this
    exact ⟨p.node[i], List.getElem_mem hi, rfl, rfl⟩
  have key : ∀ n, ShapeCalc.NeededCompute b.loaded.graph.nodemap p.output b.shapeNodes n → n ∈ b.cg.nodemap := by
    intro n hN
    refine k5 ?_ ?_ n ?_
    · intro m hm t ht
      obtain ⟨q, hq, e1, -⟩ := hsub m (hps.mem_iff.1 hm)
      show t ∉ b.loaded.graph.output
      rw [hout]
      exact hno q hq t (e1 ▸ ht)
    · intro m hm
      obtain ⟨q, hq, -, e2⟩ := hsub m (hps.mem_iff.1 hm)
      rw [← e2]
      exact hsg q hq
    · show ShapeCalc.NeededCompute ns b.loaded.graph.output b.shapeNodes n
      rw [hout]
      exact needed_perm (fun m hm => hps.mem_iff.2 hm) hN
  refine ⟨key n hN, fun t ht ⟨⟨m, hm, hmo⟩, hd⟩ => ⟨m, hm, hmo, ?_⟩⟩
  refine Classical.byContradiction fun c => ?_
  exact hd ⟨m, key m (.feeds hm c hN ⟨t, ht, hmo⟩), hmo⟩

/-! ### Building -/

private theorem load_mono {cfg : Config} {p : GraphProto V} {f : Node → List V → Nat → V} {absent : V} {fuel fuel' : Nat} (hle : fuel ≤ fuel') {l : Loaded V}
    (h : load cfg f absent fuel p = .ok l) : load cfg f absent fuel' p = .ok l := by
  unfold load at h ⊢
  simp only [] at h ⊢
  split at h
  · cases h
  rename_i env C hs
  have := Load.searchNodes_mono hle _ _ _ _ hs
  unfold ConstFold.constantSearch
  rw [this]
  exact h

private theorem raw_some {g : Graph} {memsize : String → Option Int} : ∀ (l : List String) (a : Int), (∀ t ∈ l, t ∉ g.input → t ∉ g.output → (memsize t).isSome) →
    ∃ s, l.foldl (fun acc t =>
      if g.input.contains t || g.output.contains t then acc
      else match acc, memsize t with
        | some a, some s => some (a + s)
        | _, _ => none) (some a) = some s
  | [], a, _ => ⟨a, rfl⟩
  | t :: l, a, h => by
    rw [List.foldl_cons]
    by_cases hc : (g.input.contains t || g.output.contains t) = true
    · rw [if_pos hc]
      exact raw_some l a fun u hu => h u (List.mem_cons_of_mem _ hu)
    · rw [if_neg hc]
      have hc : t ∉ g.input ∧ t ∉ g.output := by simpa using hc
      obtain ⟨s, hs⟩ := Option.isSome_iff_exists.1 (h t (List.mem_cons_self ..) hc.1 hc.2)
      simp only [hs]
      exact raw_some l (a + s) fun u hu => h u (List.mem_cons_of_mem _ hu)

private theorem compress_cases {g : Graph} {memsize : String → Option Int} (p : Nat) (h : ∀ t ∈ g.dynamics, t ∉ g.input → t ∉ g.output → (memsize t).isSome) :
    (∃ r, Mem.compressMemory g memsize p = .ok r) ∨ Mem.compressMemory g memsize p = .error .zeroDivision := by
  unfold Mem.compressMemory
  split
  · exact .inr rfl
  · obtain ⟨s, hs⟩ := raw_some g.dynamics 0 h
    have hs : Mem.rawSize g memsize = some s := hs
    simp only [hs]
    by_cases h0 : s = 0
    · subst h0; exact .inr rfl
    · refine .inl ?_
      split
      · cases ‹some s = none›
      · exact absurd (Option.some.inj ‹some s = some 0›) h0
      · exact ⟨_, rfl⟩

/-- **C112**, building.  For every valid file whose nodes have different names, and shapes known for every tensor a node produces, the constructor returns, or raises ZeroDivisionError
(`C112_one_node`); no other way of failing. -/
theorem C112_builds {p : GraphProto V} (f : Node → List V → Nat → V) (absent : V) {pad : Nat} (order : List String) {tm : Dict Infer.TInfo}
    (hv : Valid p) (hn : ((named false p.node).map (·.name)).Nodup) (hs : ∀ t, Makes p.node t → tm.has t = true) :
    ∃ N, ∀ fuel, N ≤ fuel → (∃ b, build f absent fuel pad order tm p = .ok b) ∨ build f absent fuel pad order tm p = .error .zeroDivision := by
  obtain ⟨N1, h1⟩ := C73_load_returns (cfg := { constantFolding := true }) f absent hn hv.acyclic
  obtain ⟨l, hl⟩ := h1 N1 (Nat.le_refl _)
  have hL := load_ok (cfg := { constantFolding := true }) hv hn hl
  have hfold := C73_load_folded (cfg := { constantFolding := true }) hv hn rfl hl
  obtain ⟨M, hM, -⟩ := ShapeCalc.findShape_ok ⟨hL.names, hL.index⟩ order order (fun _ => Iff.rfl)
  have hu : UniqueProducers l.graph.nodemap := fun _ _ t _ => List.nodup_iff_count.1 hL.outs t
  obtain ⟨ns, hps, hts, e⟩ := Export.topsort_sorted hL.names hu hL.acyclic
  have hns : (topsortNodes l.graph.nodemap).filterMap (findNode l.graph.nodemap) = ns := by
    rw [e, filterMap_findNode hL.names ns fun n hn => hps.mem_iff.1 hn]
  have hg : graphReorderNodes l.graph = Graph.updateTensorRelations { l.graph with nodemap := ns } := by
    unfold graphReorderNodes
    rw [hns]
  have hnn : (({ l.graph with nodemap := ns } : Graph).nodemap.map (·.name)).Nodup := ((hps.map _).nodup_iff).2 hL.names
  have hun : UniqueProducers ({ l.graph with nodemap := ns } : Graph).nodemap :=
    fun _ _ t _ => List.nodup_iff_count.1 (((hps.map _).flatten.nodup_iff).2 (by exact hL.outs)) t
  obtain ⟨cg, rest, N2, k1, -, k3, -, -⟩ := C16_compute_graph_partial { l.graph with nodemap := ns } hnn hun ⟨ns, List.Perm.refl _, hts⟩ M
  refine ⟨max N1 N2, fun fuel hf => ?_⟩
  have hc := k1 fuel (Nat.le_trans (Nat.le_max_right ..) hf)
  rw [← hg] at hc
  unfold build
  rw [load_mono (Nat.le_trans (Nat.le_max_left ..) hf) hl]
  simp only [hM, hc]
  have hknown : ∀ t ∈ cg.dynamics, t ∉ cg.input → t ∉ cg.output → (Infer.memsizes tm t).isSome := by
    intro t ht h1 h2
    rcases (C16_dynamics _ _ _ hc).2.1 t ht with c | c | ⟨n, hnm, ho⟩
    · exact absurd c h1
    · exact absurd c h2
    · have hnl : n ∈ l.graph.nodemap := hps.mem_iff.1 (k3.subset hnm)
      have := hs t ((makes_named false p.node t).1 ⟨n, hfold.1.subset hnl, ho⟩)
      unfold Infer.memsizes
      rw [Option.isSome_map]
      exact this
  by_cases hr : ∃ r, Mem.compressMemory cg (Infer.memsizes tm) pad = .ok r
  · obtain ⟨⟨cm, sz⟩, hr⟩ := hr
    rw [hr]
    exact .inl ⟨_, rfl⟩
  · refine .inr ?_
    have hz : Mem.compressMemory cg (Infer.memsizes tm) pad = .error .zeroDivision := (compress_cases pad hknown).resolve_left hr
    rw [hz]

/-! ### A file that is run -/

/-- `Neg c → d` (constant), `Reshape(y, s) → w`, `Add(x, d) → y` (unnamed, listed after its reader), `Shape x → s` (shape computation), `Relu w → z` -/
def pipeFile : GraphProto Infer.Bytes :=
  { node := [⟨"n0", "Neg", ["c"], ["d"]⟩, ⟨"re", "Reshape", ["y", "s"], ["w"]⟩, ⟨"", "Add", ["x", "d"], ["y"]⟩, ⟨"sh", "Shape", ["x"], ["s"]⟩, ⟨"r", "Relu", ["w"], ["z"]⟩]
    initializer := [("c", [5, 6])]
    input := ["x"]
    output := ["z"] }

private def pipeSem (n : Node) (vs : List Infer.Bytes) (_ : Nat) : Infer.Bytes :=
  if n.op = "Neg" then (vs.headD []).map (0 - ·)
  else if n.op = "Add" then (vs.headD []).zipWith (· + ·) ((vs.drop 1).headD [])
  else if n.op = "Shape" then [2]
  else vs.headD []

private def pipeTM : Dict Infer.TInfo := [("x", ⟨[3], 4⟩), ("y", ⟨[3], 4⟩), ("s", ⟨[1], 8⟩), ("w", ⟨[3], 4⟩), ("z", ⟨[3], 4⟩)]

private def pipeKern (n : Node) : List (Option Infer.Bytes) → List Infer.Bytes := fun l => [pipeSem n (l.map (·.getD [])) 0]

private def pipeX : ConstFold.Env Infer.Bytes := fun t => if t = "x" then some [7, 8] else none

private theorem pipe_valid : Valid pipeFile := by
  have key : ∀ n ∈ pipeFile.node, ∀ t ∈ n.output, t ≠ "" ∧ t ∉ pipeFile.initializer.map (·.1) := by decide
  refine ⟨by decide, ?_, by decide, fun n hn t ht => ⟨(key n hn t ht).1, fun h => (key n hn t ht).2 ((isInit_iff _ _).2 h)⟩,
    ⟨[⟨"n0", "Neg", ["c"], ["d"]⟩, ⟨"", "Add", ["x", "d"], ["y"]⟩, ⟨"sh", "Shape", ["x"], ["s"]⟩, ⟨"re", "Reshape", ["y", "s"], ["w"]⟩, ⟨"r", "Relu", ["w"], ["z"]⟩], by decide, by decide⟩⟩
  intro t h
  have : ∀ t ∈ pipeFile.initializer.map (·.1), t ≠ "" := by decide
  exact this t ((isInit_iff _ _).2 h)

example : ((named false pipeFile.node).map (·.name)).Nodup ∧ NameFree pipeSem := ⟨by decide, fun _ _ => rfl⟩

/-- what is built: the constant is computed once, the shape computation is gone, the rest is in dependency order -/
private theorem pipe_built : ∃ b, build pipeSem [] 9 64 ["s"] pipeTM pipeFile = .ok b ∧
    b.cg.nodemap = [⟨"Add_2", "Add", ["x", "d"], ["y"]⟩, ⟨"re", "Reshape", ["y", "s"], ["w"]⟩, ⟨"r", "Relu", ["w"], ["z"]⟩] ∧
    b.shapeNodes = ["sh"] ∧ b.cg.initials = ["d"] ∧ b.cg.input = ["x"] ∧ b.cg.output = ["z"] ∧ constants (fun _ v => v) b = [("d", [251, 250])] ∧
    b.loaded.graph.nodemap = [⟨"re", "Reshape", ["y", "s"], ["w"]⟩, ⟨"Add_2", "Add", ["x", "d"], ["y"]⟩, ⟨"sh", "Shape", ["x"], ["s"]⟩, ⟨"r", "Relu", ["w"], ["z"]⟩] := by
  cases hb : build pipeSem [] 9 64 ["s"] pipeTM pipeFile with
  | error e =>
    have : (build pipeSem [] 9 64 ["s"] pipeTM pipeFile).toOption.isSome = true := by decide
    rw [hb] at this; cases this
  | ok b =>
    have h1 : (build pipeSem [] 9 64 ["s"] pipeTM pipeFile).toOption.map (fun b => (b.cg.nodemap, b.shapeNodes, b.cg.initials)) =
      some ([⟨"Add_2", "Add", ["x", "d"], ["y"]⟩, ⟨"re", "Reshape", ["y", "s"], ["w"]⟩, ⟨"r", "Relu", ["w"], ["z"]⟩], ["sh"], ["d"]) := by decide
    have h2 : (build pipeSem [] 9 64 ["s"] pipeTM pipeFile).toOption.map (fun b => (b.cg.input, b.cg.output)) = some (["x"], ["z"]) := by decide
    have h3 : (build pipeSem [] 9 64 ["s"] pipeTM pipeFile).toOption.map (fun b => (constants (fun _ v => v) b)) = some [("d", [251, 250])] := by decide
    have h4 : (build pipeSem [] 9 64 ["s"] pipeTM pipeFile).toOption.map (fun b => b.loaded.graph.nodemap) =
      some [⟨"re", "Reshape", ["y", "s"], ["w"]⟩, ⟨"Add_2", "Add", ["x", "d"], ["y"]⟩, ⟨"sh", "Shape", ["x"], ["s"]⟩, ⟨"r", "Relu", ["w"], ["z"]⟩] := by decide
    rw [hb] at h1 h2 h3 h4
    obtain ⟨h5, h6⟩ := Prod.mk.inj (Option.some.inj h1)
    obtain ⟨h6, h7⟩ := Prod.mk.inj h6
    obtain ⟨h8, h9⟩ := Prod.mk.inj (Option.some.inj h2)
    exact ⟨b, rfl, h5, h6, h7, h8, h9, Option.some.inj h3, Option.some.inj h4⟩

private def pipeVal (t : String) : Infer.Bytes :=
  if t = "x" then [7, 8] else if t = "c" then [5, 6] else if t = "d" then [251, 250] else if t = "s" then [2] else [2, 2]

private theorem pipe_ev : ∀ t ∈ ["x", "c", "d", "s", "y", "w", "z"], Load.Computes pipeFile pipeSem [] pipeX t (pipeVal t) := by
  have hx : Load.Computes pipeFile pipeSem [] pipeX "x" [7, 8] := .base (by decide)
  have hc : Load.Computes pipeFile pipeSem [] pipeX "c" [5, 6] := .base (by decide)
  have step1 : ∀ (n : Node) (a o : String) (v : Infer.Bytes), n ∈ pipeFile.node → n.input = [a] → n.output = [o] → Load.Computes pipeFile pipeSem [] pipeX a v →
      Load.Computes pipeFile pipeSem [] pipeX o (pipeSem n [v] 0) := by
    intro n a o v hn hi ho ha
    refine .node (k := 0) [v] hn (by rw [ho]; rfl) (by rw [hi]; rfl) ?_
    intro i t w h1 h2
    rw [hi] at h1
    match i with
    | 0 => cases h1; cases h2; exact ha
    | i + 1 => cases h1
  have step2 : ∀ (n : Node) (a b o : String) (v w : Infer.Bytes), n ∈ pipeFile.node → n.input = [a, b] → n.output = [o] → Load.Computes pipeFile pipeSem [] pipeX a v →
      Load.Computes pipeFile pipeSem [] pipeX b w → Load.Computes pipeFile pipeSem [] pipeX o (pipeSem n [v, w] 0) := by
    intro n a b o v w hn hi ho ha hb
    refine .node (k := 0) [v, w] hn (by rw [ho]; rfl) (by rw [hi]; rfl) ?_
    intro i t u h1 h2
    rw [hi] at h1
    match i with
    | 0 => cases h1; cases h2; exact ha
    | 1 => cases h1; cases h2; exact hb
    | i + 2 => cases h1
  have hd := step1 ⟨"n0", "Neg", ["c"], ["d"]⟩ "c" "d" _ (by decide) rfl rfl hc
  have hs := step1 ⟨"sh", "Shape", ["x"], ["s"]⟩ "x" "s" _ (by decide) rfl rfl hx
  have hy := step2 ⟨"", "Add", ["x", "d"], ["y"]⟩ "x" "d" "y" _ _ (by decide) rfl rfl hx hd
  have hw := step2 ⟨"re", "Reshape", ["y", "s"], ["w"]⟩ "y" "s" "w" _ _ (by decide) rfl rfl hy hs
  have hz := step1 ⟨"r", "Relu", ["w"], ["z"]⟩ "w" "z" _ (by decide) rfl rfl hw
  intro t ht
  simp only [List.mem_cons, List.not_mem_nil, or_false] at ht
  rcases ht with rfl | rfl | rfl | rfl | rfl | rfl | rfl
  · exact hx
  · exact hc
  · exact hd
  · exact hs
  · exact hy
  · exact hw
  · exact hz

/-- the hypotheses of `C112_run` are met: one-byte elements run in a plan made for four-byte elements, with two of at most three elements -/
private theorem pipe_callOk : ∃ b, build pipeSem [] 9 64 ["s"] pipeTM pipeFile = .ok b ∧
    CallOk pipeFile pipeSem [] pipeX pipeTM 1 b (fun _ v => v) (fun t => if t = "s" then [1] else [2]) [("x", [7, 8])] (fun n => some (pureKernel (pipeKern n))) ∧
    (∃ n ∈ b.cg.nodemap, ∃ t ∈ n.input, Dropped b t) := by
  obtain ⟨b, hb, hnm, -, -, hin, hout, -, hlm⟩ := pipe_built
  have hmk : ∀ t, Makes b.cg.nodemap t → t = "y" ∨ t = "w" ∨ t = "z" := by
    rintro t ⟨n, hn, ht⟩
    rw [hnm] at hn
    simp only [List.mem_cons, List.not_mem_nil, or_false] at hn
    rcases hn with rfl | rfl | rfl <;> simp at ht <;> simp [ht]
  have hlk : ∀ t, Makes b.loaded.graph.nodemap t → t = "y" ∨ t = "w" ∨ t = "z" ∨ t = "s" := by
    rintro t ⟨n, hn, ht⟩
    rw [hlm] at hn
    simp only [List.mem_cons, List.not_mem_nil, or_false] at hn
    rcases hn with rfl | rfl | rfl | rfl <;> simp at ht <;> simp [ht]
  have hdet : ConstFold.Det pipeFile.node (start pipeFile [] pipeX) := by
    refine ⟨by decide, ?_⟩
    intro n hn o ho
    simp only [pipeFile, List.mem_cons, List.not_mem_nil, or_false] at hn
    rcases hn with rfl | rfl | rfl | rfl | rfl <;> simp at ho <;> subst ho <;> decide
  have hval : ∀ t ∈ ["x", "c", "d", "s", "y", "w", "z"], ∀ v, Load.Computes pipeFile pipeSem [] pipeX t v → v = pipeVal t :=
    fun t ht v hv => ConstFold.ev_det hdet hv (pipe_ev t ht)
  have hds : Dropped b "s" := by
    refine ⟨⟨⟨"sh", "Shape", ["x"], ["s"]⟩, by rw [hlm]; decide, by decide⟩, fun c => ?_⟩
    rcases hmk _ c with h | h | h <;> revert h <;> decide
  have hdn : ∀ t, t ≠ "s" → ¬ Dropped b t := by
    rintro t hts ⟨h1, h2⟩
    rcases hlk t h1 with rfl | rfl | rfl | rfl
    · exact h2 ⟨⟨"Add_2", "Add", ["x", "d"], ["y"]⟩, by rw [hnm]; decide, by decide⟩
    · exact h2 ⟨⟨"re", "Reshape", ["y", "s"], ["w"]⟩, by rw [hnm]; decide, by decide⟩
    · exact h2 ⟨⟨"r", "Relu", ["w"], ["z"]⟩, by rw [hnm]; decide, by decide⟩
    · exact hts rfl
  have hop : ∀ t v, t ≠ "" → t ≠ "s" → operand b (fun _ v => v) t v = some v := by
    intro t v h1 h2
    unfold operand
    have hq : ¬ (t = "" ∨ Dropped b t) := fun c => c.elim h1 (hdn t h2)
    rw [if_neg hq]
  have hos : ∀ v, operand b (fun _ v => v) "s" v = none := by
    intro v
    unfold operand
    rw [if_pos (Or.inr hds)]
  refine ⟨b, hb, ⟨?_, ?_, ?_, by decide, ?_, ?_, ?_, ?_⟩, ⟨⟨"re", "Reshape", ["y", "s"], ["w"]⟩, by rw [hnm]; decide, "s", by decide, hds⟩⟩
  · intro t ht
    rcases hmk t ht with rfl | rfl | rfl <;> exact ⟨_, rfl, by decide, by decide⟩
  · intro t i h
    simp only [pipeTM, Dict.get?] at h
    repeat' split at h
    all_goals first | (cases h; subst_vars; exact ⟨by decide, by decide⟩) | cases h
  · intro t v ht hv
    rw [hin] at ht
    rcases ht with ht | ht
    · simp only [List.mem_singleton] at ht; subst ht; rw [hval "x" (by decide) v hv]; rfl
    · rcases hmk t ht with rfl | rfl | rfl
      · rw [hval "y" (by decide) v hv]; rfl
      · rw [hval "w" (by decide) v hv]; rfl
      · rw [hval "z" (by decide) v hv]; rfl
  · intro t; rw [hin]; simp
  · intro t c h
    simp at h
    obtain ⟨rfl, rfl⟩ := h
    exact ⟨_, rfl, rfl⟩
  · rw [hnm, hin, hout]; decide
  · intro n hn
    refine ⟨_, _, rfl, C46_contract_satisfiable _, ?_⟩
    intro vs hvs
    rw [hnm] at hn
    simp only [List.mem_cons, List.not_mem_nil, or_false] at hn
    rcases hn with rfl | rfl | rfl
    · simp only [List.map_cons, List.map_nil]
      rw [hop _ _ (by decide) (by decide), hop _ _ (by decide) (by decide), hval "x" (by decide) _ (hvs "x" (by decide)), hval "d" (by decide) _ (hvs "d" (by decide))]
      rfl
    · simp only [List.map_cons, List.map_nil]
      rw [hop _ _ (by decide) (by decide), hos, hval "y" (by decide) _ (hvs "y" (by decide)), hval "s" (by decide) _ (hvs "s" (by decide))]
      rfl
    · simp only [List.map_cons, List.map_nil]
      rw [hop _ _ (by decide) (by decide), hval "w" (by decide) _ (hvs "w" (by decide))]
      rfl

/-- the run itself, from a pool full of other data -/
example : ((build pipeSem [] 9 64 ["s"] pipeTM pipeFile).toOption.bind fun b =>
    (Infer.forward (engine (fun _ v => v) pipeTM 1 b) (fun n => some (pureKernel (pipeKern n))) (fun t => if t = "s" then [1] else [2]) (fun a => a.toUInt8) [] [("x", [7, 8])]).toOption.map (·.1)) =
    some [("z", [2, 2])] := by decide +kernel

/-- the conditions of `C112_nodes` and `C112_builds` -/
example : (∀ n ∈ pipeFile.node, ∀ t ∈ n.input, t ∉ pipeFile.output) ∧ (∀ n ∈ pipeFile.node, ∀ o ∈ n.output, ∀ o' ∈ n.output, o = o') ∧
    (∀ n ∈ pipeFile.node, ∀ t ∈ n.output, t = "d" ∨ pipeTM.has t = true) := by decide

/-! ### What is left out -/

/-- **C112 finding**: a file whose tensors are all inputs or outputs cannot be run: the constructor divides by the size of the intermediate tensors. -/
theorem C112_one_node :
    build (fun _ (vs : List Infer.Bytes) _ => vs.headD []) [] 9 64 [] [("x", ⟨[2], 4⟩), ("y", ⟨[2], 4⟩)]
      { node := [⟨"n", "Relu", ["x"], ["y"]⟩], input := ["x"], output := ["y"] } = .error .zeroDivision := rfl

/-- **C112 finding**: a tensor that defines a shape and is also used as data (here the result of `Shape`, added to `v`).  The node computing it is dropped, the `Add` stays, and its
kernel is handed nothing for that operand, whatever the inputs are. -/
theorem C112_shape_value_as_data :
    ((build (fun _ (vs : List Infer.Bytes) _ => vs.headD []) [] 9 64 ["s"]
      [("x", ⟨[2], 4⟩), ("v", ⟨[1], 4⟩), ("s", ⟨[1], 8⟩), ("y", ⟨[2], 4⟩), ("a", ⟨[1], 4⟩), ("z", ⟨[2], 4⟩), ("o", ⟨[1], 4⟩)]
      { node := [⟨"sh", "Shape", ["x"], ["s"]⟩, ⟨"re", "Reshape", ["x", "s"], ["y"]⟩, ⟨"r", "Relu", ["y"], ["z"]⟩, ⟨"add", "Add", ["v", "s"], ["a"]⟩, ⟨"q", "Relu", ["a"], ["o"]⟩]
        input := ["x", "v"], output := ["z", "o"] }).toOption.map fun b =>
      (b.cg.nodemap.map (fun n => (n.name, n.input)), b.plan.has "s", (constants (fun _ v => v) b).has "s", b.cg.input)) =
    some ([("re", ["x", "s"]), ("add", ["v", "s"]), ("r", ["y"]), ("q", ["a"])], false, false, ["x", "v"]) := by decide

end OnnxTool.Props
