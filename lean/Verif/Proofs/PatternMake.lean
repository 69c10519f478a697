import Verif.Model.PatternMake
import Verif.Spec.PatternMake
import Verif.Proofs.Pattern
import Verif.Proofs.Dict
import Verif.Proofs.ShapeCalc
/-! # Proofs about patterns made from nodes -/
namespace OnnxTool.Pattern
open OnnxTool

def bare (n : Node) : Desc := { name := n.name, op := .one n.op }

def prodOf (nds : List Node) (prod : Dict String) : Dict String :=
  nds.foldl (fun d n => n.output.foldl (fun d t => d.set t n.name) d) prod

theorem startDescs_ok {g : Graph} (hk : (g.nodemap.map (·.name)).Nodup) (nds : List Node) (hs : ∀ n ∈ nds, n ∈ g.nodemap)
    (ds : List Desc) (prod : Dict String) :
    startDescs g (nds.map (·.name)) (ds, prod) = .ok (ds ++ nds.map bare, prodOf nds prod) := by
  induction nds generalizing ds prod with
  | nil => simp [startDescs, prodOf]
  | cons n nds ih =>
    rw [List.map_cons, startDescs, findNode_self hk (hs n (by simp))]
    simp only []
    rw [ih (fun x hx => hs x (by simp [hx]))]
    simp [prodOf, bare]

theorem outs_get (outs : List String) (x : String) (d : Dict String) (t : String) :
    (outs.foldl (fun d t => d.set t x) d).get? t = if t ∈ outs then some x else d.get? t := by
  induction outs generalizing d with
  | nil => simp
  | cons o outs ih =>
    rw [List.foldl_cons, ih]
    by_cases h : t ∈ outs
    · simp [h]
    · rw [if_neg h, Dict.get?_set]
      by_cases ho : o = t
      · simp [ho]
      · rw [if_neg (by simpa using ho), if_neg (by simp [h]; exact fun e => ho e.symm)]

theorem prodOf_get (nds : List Node) (prod : Dict String) (t : String) :
    (∃ n ∈ nds, t ∈ n.output ∧ (prodOf nds prod).get? t = some n.name) ∨
      ((∀ n ∈ nds, t ∉ n.output) ∧ (prodOf nds prod).get? t = prod.get? t) := by
  induction nds generalizing prod with
  | nil => right; simp [prodOf]
  | cons n nds ih =>
    unfold prodOf
    rw [List.foldl_cons]
    rcases ih (n.output.foldl (fun d t => d.set t n.name) prod) with ⟨m, hm, h1, h2⟩ | ⟨h1, h2⟩
    · exact .inl ⟨m, by simp [hm], h1, h2⟩
    · unfold prodOf at h2
      rw [outs_get] at h2
      by_cases h : t ∈ n.output
      · rw [if_pos h] at h2
        exact .inl ⟨n, by simp, h, h2⟩
      · rw [if_neg h] at h2
        refine .inr ⟨fun m hm => ?_, h2⟩
        rcases List.mem_cons.mp hm with rfl | hm
        · exact h
        · exact h1 m hm

/-- the positions keep their name and conditions, and receive exactly the ports `I` and `O` -/
def Grown (ds ds' : List Desc) (I O : Nat → Port → Prop) : Prop :=
  ds'.length = ds.length ∧ ∀ (q : Nat) (d : Desc), ds[q]? = some d → ∃ d' : Desc, ds'[q]? = some d' ∧ d'.name = d.name ∧ d'.op = d.op ∧
    d'.attrs = d.attrs ∧ (∀ pt, pt ∈ d'.inport ↔ pt ∈ d.inport ∨ I q pt) ∧ (∀ pt, pt ∈ d'.outport ↔ pt ∈ d.outport ∨ O q pt)

theorem Grown.rfl' (ds : List Desc) : Grown ds ds (fun _ _ => False) (fun _ _ => False) :=
  ⟨rfl, fun q d h => ⟨d, h, rfl, rfl, rfl, by simp, by simp⟩⟩

theorem Grown.trans {a b c : List Desc} {I O I' O' : Nat → Port → Prop} (h : Grown a b I O) (h' : Grown b c I' O') :
    Grown a c (fun q pt => I q pt ∨ I' q pt) (fun q pt => O q pt ∨ O' q pt) := by
  refine ⟨h'.1.trans h.1, fun q d hd => ?_⟩
  obtain ⟨d1, e1, e2, e3, e4, e5, e6⟩ := h.2 q d hd
  obtain ⟨d2, f1, f2, f3, f4, f5, f6⟩ := h'.2 q d1 e1
  refine ⟨d2, f1, f2.trans e2, f3.trans e3, f4.trans e4, fun pt => ?_, fun pt => ?_⟩
  · rw [f5, e5, or_assoc]
  · rw [f6, e6, or_assoc]

theorem Grown.congr {a b : List Desc} {I O I' O' : Nat → Port → Prop} (h : Grown a b I O) (hI : ∀ q pt, I q pt ↔ I' q pt)
    (hO : ∀ q pt, O q pt ↔ O' q pt) : Grown a b I' O' := by
  refine ⟨h.1, fun q d hd => ?_⟩
  obtain ⟨d1, e1, e2, e3, e4, e5, e6⟩ := h.2 q d hd
  exact ⟨d1, e1, e2, e3, e4, fun pt => by rw [e5, hI], fun pt => by rw [e6, hO]⟩

theorem grown_out (ds : List Desc) (i : Nat) (x : Port) :
    Grown ds (ds.modify i (Desc.addOut x)) (fun _ _ => False) (fun q pt => q = i ∧ pt = x) := by
  refine ⟨by simp, fun q d hd => ?_⟩
  rw [List.getElem?_modify, hd]
  by_cases h : i = q
  · subst h; exact ⟨Desc.addOut x d, by simp, rfl, rfl, rfl, by simp [Desc.addOut], by simp [Desc.addOut]⟩
  · refine ⟨d, by simp [h], rfl, rfl, rfl, by simp, fun pt => ?_⟩
    simp only [iff_self_or]
    rintro ⟨e, _⟩
    exact absurd e.symm h

theorem grown_in (ds : List Desc) (i : Nat) (x : Port) :
    Grown ds (ds.modify i (Desc.addIn x)) (fun q pt => q = i ∧ pt = x) (fun _ _ => False) := by
  refine ⟨by simp, fun q d hd => ?_⟩
  rw [List.getElem?_modify, hd]
  by_cases h : i = q
  · subst h; exact ⟨Desc.addIn x d, by simp, rfl, rfl, rfl, by simp [Desc.addIn], by simp [Desc.addIn]⟩
  · refine ⟨d, by simp [h], rfl, rfl, rfl, fun pt => ?_, by simp⟩
    simp only [iff_self_or]
    rintro ⟨e, _⟩
    exact absurd e.symm h

/-- the port between input `j` of a node and the producer of the tensor there -/
def Wire (g : Graph) (prod : Dict String) (n : Node) (j : Nat) (pn : String) (k : Nat) : Prop :=
  ∃ t p, n.input[j]? = some t ∧ prod.get? t = some pn ∧ findNode g.nodemap pn = some p ∧ p.output.idxOf t = k

theorem wireInputs_ok {g : Graph} {names : List String} {prod : Dict String} (hp : ∀ t pn, prod.get? t = some pn → ∃ p, findNode g.nodemap pn = some p)
    (i : Nat) (n : Node) (name : String) (j0 : Nat) (ts : List String) (hts : n.input.drop j0 = ts) (ds : List Desc) :
    ∃ ds', wireInputs g names prod i name j0 ts ds = .ok ds' ∧
      Grown ds ds' (fun q pt => q = i ∧ ∃ j pn k, j0 ≤ j ∧ Wire g prod n j pn k ∧ pt = ⟨some j, pn, some k⟩)
        (fun q pt => ∃ j pn k, j0 ≤ j ∧ Wire g prod n j pn k ∧ q = names.idxOf pn ∧ pt = ⟨some k, name, some j⟩) := by
  induction ts generalizing j0 ds with
  | nil =>
    refine ⟨ds, by simp [wireInputs], (Grown.rfl' ds).congr ?_ ?_⟩
    all_goals
      intro q pt
      simp only [false_iff]
    · rintro ⟨_, j, pn, k, h1, ⟨t, p, h2, _⟩, _⟩
      have : n.input.length ≤ j0 := List.drop_eq_nil_iff.mp hts
      have := (List.getElem?_eq_some_iff.mp h2).1
      omega
    · rintro ⟨j, pn, k, h1, ⟨t, p, h2, _⟩, _⟩
      have : n.input.length ≤ j0 := List.drop_eq_nil_iff.mp hts
      have := (List.getElem?_eq_some_iff.mp h2).1
      omega
  | cons t ts ih =>
    have ht : n.input[j0]? = some t := by
      have : (n.input.drop j0)[0]? = some t := by rw [hts]; rfl
      simpa using this
    have hd : n.input.drop (j0 + 1) = ts := by
      rw [← List.drop_drop, hts]; rfl
    unfold wireInputs
    cases hg : prod.get? t with
    | none =>
      obtain ⟨ds', h1, h2⟩ := ih (j0 + 1) hd ds
      refine ⟨ds', h1, h2.congr ?_ ?_⟩
      · intro q pt
        refine and_congr_right fun _ => ⟨fun ⟨j, pn, k, a, b⟩ => ⟨j, pn, k, by omega, b⟩, ?_⟩
        rintro ⟨j, pn, k, a, ⟨t', p, b1, b2, b3⟩, c⟩
        refine ⟨j, pn, k, ?_, ⟨t', p, b1, b2, b3⟩, c⟩
        rcases Nat.lt_or_ge j0 j with h | h
        · exact h
        · have : j = j0 := by omega
          subst this; rw [ht] at b1; cases b1; rw [hg] at b2; cases b2
      · intro q pt
        refine ⟨fun ⟨j, pn, k, a, b⟩ => ⟨j, pn, k, by omega, b⟩, ?_⟩
        rintro ⟨j, pn, k, a, ⟨t', p, b1, b2, b3⟩, c⟩
        refine ⟨j, pn, k, ?_, ⟨t', p, b1, b2, b3⟩, c⟩
        rcases Nat.lt_or_ge j0 j with h | h
        · exact h
        · have : j = j0 := by omega
          subst this; rw [ht] at b1; cases b1; rw [hg] at b2; cases b2
    | some pn =>
      obtain ⟨p, hpn⟩ := hp t pn hg
      simp only [hpn]
      obtain ⟨ds', h1, h2⟩ := ih (j0 + 1) hd _
      refine ⟨ds', h1, (((grown_out ds (names.idxOf pn) _).trans (grown_in _ i _)).trans h2).congr ?_ ?_⟩
      · intro q pt
        constructor
        · rintro ((h | ⟨h, e⟩) | ⟨h, j, pn', k, a, b⟩)
          · exact h.elim
          · exact ⟨h, j0, pn, p.output.idxOf t, Nat.le_refl _, ⟨t, p, ht, hg, hpn, rfl⟩, e⟩
          · exact ⟨h, j, pn', k, by omega, b⟩
        · rintro ⟨h, j, pn', k, a, ⟨t', p', b1, b2, b3, b4⟩, e⟩
          rcases Nat.lt_or_ge j0 j with hj | hj
          · exact .inr ⟨h, j, pn', k, hj, ⟨t', p', b1, b2, b3, b4⟩, e⟩
          · have : j = j0 := by omega
            subst this; rw [ht] at b1; cases b1; rw [hg] at b2; cases b2; rw [hpn] at b3; cases b3
            subst b4
            exact .inl (.inr ⟨h, e⟩)
      · intro q pt
        constructor
        · rintro ((⟨h, e⟩ | h) | ⟨j, pn', k, a, b⟩)
          · exact ⟨j0, pn, p.output.idxOf t, Nat.le_refl _, ⟨t, p, ht, hg, hpn, rfl⟩, h, e⟩
          · exact h.elim
          · exact ⟨j, pn', k, by omega, b⟩
        · rintro ⟨j, pn', k, a, ⟨t', p', b1, b2, b3, b4⟩, h, e⟩
          rcases Nat.lt_or_ge j0 j with hj | hj
          · exact .inr ⟨j, pn', k, hj, ⟨t', p', b1, b2, b3, b4⟩, h, e⟩
          · have : j = j0 := by omega
            subst this; rw [ht] at b1; cases b1; rw [hg] at b2; cases b2; rw [hpn] at b3; cases b3
            subst b4
            exact .inl (.inl ⟨h, e⟩)

theorem wireAll_ok {g : Graph} {names : List String} {prod : Dict String} (hk : (g.nodemap.map (·.name)).Nodup)
    (hp : ∀ t pn, prod.get? t = some pn → ∃ p, findNode g.nodemap pn = some p)
    (nds : List Node) (hs : ∀ n ∈ nds, n ∈ g.nodemap) (i0 : Nat) (ds : List Desc) :
    ∃ ds', wireAll g names prod i0 (nds.map (·.name)) ds = .ok ds' ∧
      Grown ds ds' (fun q pt => ∃ i n, nds[i]? = some n ∧ q = i0 + i ∧ ∃ j pn k, Wire g prod n j pn k ∧ pt = ⟨some j, pn, some k⟩)
        (fun q pt => ∃ n ∈ nds, ∃ j pn k, Wire g prod n j pn k ∧ q = names.idxOf pn ∧ pt = ⟨some k, n.name, some j⟩) := by
  induction nds generalizing i0 ds with
  | nil => exact ⟨ds, by simp [wireAll], (Grown.rfl' ds).congr (by simp) (by simp)⟩
  | cons n nds ih =>
    rw [List.map_cons, wireAll, findNode_self hk (hs n (by simp))]
    simp only []
    obtain ⟨d1, h1, g1⟩ := wireInputs_ok (g := g) (names := names) hp i0 n n.name 0 n.input rfl ds
    rw [h1]
    simp only []
    obtain ⟨d2, h2, g2⟩ := ih (fun x hx => hs x (by simp [hx])) (i0 + 1) d1
    refine ⟨d2, h2, (g1.trans g2).congr ?_ ?_⟩
    · intro q pt
      constructor
      · rintro (⟨h, j, pn, k, _, a⟩ | ⟨i, m, hm, h, a⟩)
        · exact ⟨0, n, rfl, by omega, j, pn, k, a⟩
        · exact ⟨i + 1, m, by simpa using hm, by omega, a⟩
      · rintro ⟨i, m, hm, h, j, pn, k, a⟩
        cases i with
        | zero =>
          rw [List.getElem?_cons_zero] at hm
          cases hm
          exact .inl ⟨by omega, j, pn, k, Nat.zero_le _, a⟩
        | succ i => exact .inr ⟨i, m, by simpa using hm, by omega, j, pn, k, a⟩
    · intro q pt
      constructor
      · rintro (⟨j, pn, k, _, a⟩ | ⟨m, hm, a⟩)
        · exact ⟨n, by simp, j, pn, k, a⟩
        · exact ⟨m, by simp [hm], a⟩
      · rintro ⟨m, hm, j, pn, k, a⟩
        rcases List.mem_cons.mp hm with rfl | hm
        · exact .inl ⟨j, pn, k, Nat.zero_le _, a⟩
        · exact .inr ⟨m, hm, j, pn, k, a⟩

/-- the nodes of a region, in the order of their names -/
theorem Region.nodes {g : Graph} {names : List String} (h : Region g names) :
    ∃ nds : List Node, nds.map (·.name) = names ∧ ∀ n ∈ nds, n ∈ g.nodemap := by
  have he := h.exist
  clear h
  induction names with
  | nil => exact ⟨[], rfl, by simp⟩
  | cons x names ih =>
    obtain ⟨n, hn, rfl⟩ := he x (by simp)
    obtain ⟨nds, h1, h2⟩ := ih (fun y hy => he y (by simp [hy]))
    refine ⟨n :: nds, by simp [h1], fun m hm => ?_⟩
    rcases List.mem_cons.mp hm with rfl | hm
    · exact hn
    · exact h2 m hm

theorem mem_producersOf {ns : List Node} {n : Node} {t : String} (hn : n ∈ ns) (ht : t ∈ n.output) : n.name ∈ producersOf ns t := by
  unfold producersOf
  exact List.mem_flatMap.mpr ⟨n, hn, List.mem_replicate.mpr ⟨by have := List.count_pos_iff.mpr ht; omega, rfl⟩⟩

/-- in a region only one node makes a given tensor -/
theorem Region.producer_unique {g : Graph} {names : List String} (h : Region g names) {n m : Node} (hn : n ∈ g.nodemap) (hnn : n.name ∈ names)
    (hm : m ∈ g.nodemap) {t : String} (h1 : t ∈ n.output) (h2 : t ∈ m.output) : n = m := by
  have ho := h.once n hn hnn t h1
  have a := mem_producersOf hn h1
  have b := mem_producersOf hm h2
  have : n.name = m.name := by
    match hp : producersOf g.nodemap t with
    | [] => rw [hp] at a; cases a
    | [x] => rw [hp] at a b; rw [List.mem_singleton.mp a, List.mem_singleton.mp b]
    | _ :: _ :: _ => rw [hp] at ho; simp at ho
  exact List.inj_on_of_nodup_map h.keys hn hm this

theorem createDescs_ok {g : Graph} {names : List String} (h : Region g names) :
    ∃ ds, createDescs g names = .ok ds ∧ ds.length = names.length ∧
      ∀ (i : Nat) (d : Desc), ds[i]? = some d → ∃ n ∈ g.nodemap, names[i]? = some n.name ∧ Describes g names n d := by
  obtain ⟨nds, hnds, hin⟩ := h.nodes
  have hp : ∀ t pn, (prodOf nds []).get? t = some pn → ∃ p ∈ nds, p.name = pn ∧ t ∈ p.output := by
    intro t pn e
    rcases prodOf_get nds [] t with ⟨n, hn, h1, h2⟩ | ⟨_, h2⟩
    · rw [h2] at e; cases e; exact ⟨n, hn, rfl, h1⟩
    · rw [h2] at e; simp at e
  obtain ⟨ds, h1, h2⟩ := wireAll_ok (g := g) (names := names) h.keys (prod := prodOf nds [])
    (fun t pn e => by obtain ⟨p, hpn, rfl, _⟩ := hp t pn e; exact ⟨p, findNode_self h.keys (hin p hpn)⟩) nds hin 0 (nds.map bare)
  rw [hnds] at h1
  have hs := startDescs_ok h.keys nds hin [] []
  rw [hnds] at hs
  refine ⟨ds, by rw [createDescs, hs]; exact h1, by rw [h2.1, ← hnds]; simp, fun i d hd => ?_⟩
  have hlt : i < nds.length := by
    have := (List.getElem?_eq_some_iff.mp hd).1
    rw [h2.1] at this; simpa using this
  have hn : nds[i]? = some nds[i] := List.getElem?_eq_getElem hlt
  obtain ⟨d', e1, e2, e3, e4, e5, e6⟩ := h2.2 i (bare nds[i]) (by simp [hn])
  rw [hd] at e1; cases e1
  have hmem : nds[i] ∈ nds := List.getElem_mem hlt
  have hnm : ∀ m ∈ nds, m.name ∈ names := fun m hm => by rw [← hnds]; exact List.mem_map.mpr ⟨m, hm, rfl⟩
  -- wires are feeding tensors
  have wire : ∀ (n : Node), n ∈ nds → ∀ j pn k, Wire g (prodOf nds []) n j pn k ↔ ∃ p ∈ g.nodemap, p.name ∈ names ∧ p.name = pn ∧ Feeds p k n j := by
    intro n hn j pn k
    constructor
    · rintro ⟨t, p, a1, a2, a3, a4⟩
      obtain ⟨p', b1, b2, b3⟩ := hp t pn a2
      rw [← b2, findNode_self h.keys (hin p' b1)] at a3
      cases a3
      refine ⟨p, hin p b1, hnm p b1, b2, t, ?_, a4, a1⟩
      rw [← a4, List.getElem?_eq_getElem (List.idxOf_lt_length_iff.mpr b3)]; simp
    · rintro ⟨p, p1, p2, p3, t, a1, a2, a3⟩
      have htp : t ∈ p.output := List.mem_of_getElem? a1
      refine ⟨t, p, a3, ?_, by rw [← p3]; exact findNode_self h.keys p1, a2⟩
      rcases prodOf_get nds [] t with ⟨m, hm, m1, m2⟩ | ⟨m1, _⟩
      · rw [m2, ← p3, h.producer_unique p1 p2 (hin m hm) htp m1]
      · rw [← hnds] at p2
        obtain ⟨q, hq, hqn⟩ := List.mem_map.mp p2
        have : q = p := List.inj_on_of_nodup_map h.keys (hin q hq) p1 hqn
        exact absurd htp (m1 p (this ▸ hq))
  refine ⟨nds[i], hin _ hmem, by rw [← hnds]; simp [hlt], ⟨e2, e3, e4, fun pt => ?_, fun pt => ?_⟩⟩
  · rw [e5]
    simp only [bare, List.not_mem_nil, false_or, Nat.zero_add]
    constructor
    · rintro ⟨i', n, a1, a2, j, pn, k, a3, a4⟩
      subst a2
      rw [hn] at a1; cases a1
      obtain ⟨p, p1, p2, p3, p4⟩ := (wire _ hmem j pn k).mp a3
      exact ⟨p, p1, p2, j, k, p4, by rw [a4, p3]⟩
    · rintro ⟨p, p1, p2, j, k, p4, a4⟩
      exact ⟨i, nds[i], hn, rfl, j, p.name, k, (wire _ hmem _ _ _).mpr ⟨p, p1, p2, rfl, p4⟩, a4⟩
  · rw [e6]
    simp only [bare, List.not_mem_nil, false_or]
    constructor
    · rintro ⟨n, a1, j, pn, k, a3, a2, a4⟩
      obtain ⟨p, p1, p2, p3, p4⟩ := (wire _ a1 j pn k).mp a3
      have : p = nds[i] := by
        refine List.inj_on_of_nodup_map h.keys p1 (hin _ hmem) ?_
        have h3 : names[i]? = some nds[i].name := by rw [← hnds]; simp [hlt]
        have key : ∀ q : Nat, i = q → names[q]? = some nds[i].name := by rintro _ rfl; exact h3
        replace h3 := key _ (a2.trans (by rw [← p3]))
        have hlt2 : names.idxOf p.name < names.length := List.idxOf_lt_length_iff.mpr p2
        rw [List.getElem?_eq_getElem hlt2] at h3
        simpa using h3
      exact ⟨n, hin n a1, hnm n a1, j, k, this ▸ p4, a4⟩
    · rintro ⟨c, c1, c2, j, k, c3, c4⟩
      have hc : c ∈ nds := by
        rw [← hnds] at c2
        obtain ⟨q, hq, hqn⟩ := List.mem_map.mp c2
        rw [← List.inj_on_of_nodup_map h.keys (hin q hq) c1 hqn]; exact hq
      refine ⟨c, hc, j, nds[i].name, k, (wire _ hc _ _ _).mpr ⟨nds[i], hin _ hmem, hnm _ hmem, rfl, c3⟩, ?_, c4⟩
      have h3 : names[i]? = some nds[i].name := by rw [← hnds]; simp [hlt]
      obtain ⟨l1, l2⟩ := List.getElem?_eq_some_iff.mp h3
      rw [← l2, h.distinct.idxOf_getElem i l1]

/-! ## The walk inside a region -/

/-- a graph, a pattern describing one of its regions, and an index telling producers and consumers -/
structure Made (c : Ctx) (p : Pat) (names : List String) : Prop where
  region : Region c.g names
  index : c.g.IndexExact
  noTwin : NoTwin c.g names
  noAny : ∀ n ∈ c.g.nodemap, n.name ∈ names → n.op ≠ "Any"
  notInplace : p.inplace = false
  descs : ∀ n ∈ c.g.nodemap, n.name ∈ names → ∃ d, p.desc? n.name = some d ∧ Describes c.g names n d

/-- what the walk has collected since `s0`: identical pairs, and every node found since is complete with its neighbours in the region -/
structure Walk (c : Ctx) (names s0 : List String) (path : Path) (s : List String) : Prop where
  nodup : s.Nodup
  sub : ∀ x ∈ s, x ∈ names
  same : ∀ x ∈ path, x.1 = x.2
  mem : ∀ y, y ∈ s ↔ y ∈ s0 ∨ (y, y) ∈ path
  closed : ∀ n ∈ c.g.nodemap, n.name ∈ s → n.name ∉ s0 → ∀ m ∈ c.g.nodemap, m.name ∈ names → Touch n m → m.name ∈ s

def RecGood (c : Ctx) (names : List String) (k : Nat) (rec : Rec) : Prop :=
  ∀ n ∈ c.g.nodemap, n.name ∈ names → ∀ s : List String, s.Nodup → (∀ x ∈ s, x ∈ names) → n.name ∉ s → names.length < s.length + k →
    ∃ path s', rec n.name n.name s = .ok (some path, s') ∧ Walk c names s path s' ∧ n.name ∈ s'

theorem Walk.add {c : Ctx} {names s0 s s' : List String} {path path' : Path} (h : Walk c names s0 path s) (h' : Walk c names s path' s') :
    Walk c names s0 (path ++ path') s' := by
  refine ⟨h'.nodup, h'.sub, ?_, ?_, ?_⟩
  · intro x hx
    rcases List.mem_append.mp hx with hx | hx
    · exact h.same x hx
    · exact h'.same x hx
  · intro y
    rw [h'.mem, h.mem, List.mem_append, or_assoc]
  · intro n hn hs hs0 m hm hmn ht
    by_cases hc : n.name ∈ s
    · exact (h'.mem _).mpr (.inl (h.closed n hn hc hs0 m hm hmn ht))
    · exact h'.closed n hn hs hc m hm hmn ht

theorem Walk.start (c : Ctx) {names s : List String} (h1 : s.Nodup) (h2 : ∀ x ∈ s, x ∈ names) : Walk c names s [] s :=
  ⟨h1, h2, by simp, by simp, fun _ _ h h' => absurd h h'⟩

theorem isNode_described {c : Ctx} {names : List String} {n : Node} {d : Desc} (h : Describes c.g names n d) (hany : n.op ≠ "Any") (m : Node) :
    d.isNode c.attrs m = .ok (m.op == n.op) := by
  unfold Desc.isNode
  rw [h.op, h.attrs]
  simp [attrsHold, hany]

theorem mem_consumersOf_iff {ns : List Node} {t x : String} : x ∈ consumersOf ns t ↔ ∃ n ∈ ns, n.name = x ∧ t ∈ n.input := by
  unfold consumersOf
  rw [List.mem_flatMap]
  constructor
  · rintro ⟨n, hn, hx⟩
    obtain ⟨h1, h2⟩ := List.mem_replicate.mp hx
    exact ⟨n, hn, h2.symm, List.count_pos_iff.mp (by omega)⟩
  · rintro ⟨n, hn, rfl, ht⟩
    exact ⟨n, hn, List.mem_replicate.mpr ⟨by have := List.count_pos_iff.mpr ht; omega, rfl⟩⟩

theorem Region.producers {g : Graph} {names : List String} (h : Region g names) {n : Node} (hn : n ∈ g.nodemap) (hnn : n.name ∈ names)
    {t : String} (ht : t ∈ n.output) : producersOf g.nodemap t = [n.name] := by
  have ho := h.once n hn hnn t ht
  have a := mem_producersOf hn ht
  match hp : producersOf g.nodemap t with
  | [] => rw [hp] at a; cases a
  | [x] => rw [hp] at a; rw [List.mem_singleton.mp a]
  | _ :: _ :: _ => rw [hp] at ho; simp at ho

theorem portOk_some {names : List String} {t : String} (h : t ∈ names) (i : Nat) : portOk (some i) names t = .ok (names.idxOf t == i) := by
  unfold portOk
  simp [h]

section
variable {c : Ctx} {p : Pat} {names : List String} {k : Nat} {rec : Rec}

theorem fuel_mono {s0 s : List String} {path : Path} (h0 : s0.Nodup) (hk : names.length < s0.length + k) (h : Walk c names s0 path s) :
    names.length < s.length + k := by
  have := (h0.subperm fun x hx => (h.mem x).mpr (.inl hx)).length_le
  omega

/-- one input port leads to the producer it names -/
theorem inPort_good (hm : Made c p names) (hr : RecGood c names k rec) {s0 : List String} (h0 : s0.Nodup) (hk : names.length < s0.length + k)
    {n q : Node} (hq : q ∈ c.g.nodemap) (hqn : q.name ∈ names) {j o : Nat} (hf : Feeds q o n j) {next : Desc} (hd : Describes c.g names q next)
    (st : St) (hw : Walk c names s0 st.paths.flatten st.searched) :
    ∃ st', inPort c rec next n ⟨some j, q.name, some o⟩ st = .ok st' ∧ Walk c names s0 st'.paths.flatten st'.searched ∧ st'.valid = true ∧
      q.name ∈ st'.searched ∧ ∀ x ∈ st.searched, x ∈ st'.searched := by
  obtain ⟨t, t1, t2, t3⟩ := hf
  have htq : t ∈ q.output := List.mem_of_getElem? t1
  have hp := hm.region.producers hq hqn htq
  have hpb : c.g.producedby.get? t = some [q.name] := by rw [hm.index.2 t, hp]; simp
  unfold inPort
  simp only [t3, hpb, tryProducers, findNode_self hm.region.keys hq, portOk_some htq, t2, beq_self_eq_true,
    isNode_described hd (hm.noAny q hq hqn)]
  by_cases hs : q.name ∈ st.searched
  · simp only [List.contains_iff_mem.mpr hs, if_true]
    exact ⟨_, rfl, hw, rfl, hs, fun _ h => h⟩
  · have hc : st.searched.contains q.name = false := by simpa using hs
    rw [hc, hd.name]
    obtain ⟨path, s', h1, h2, h3⟩ := hr q hq hqn st.searched hw.nodup hw.sub hs (fuel_mono h0 hk hw)
    rw [h1]
    refine ⟨_, rfl, ?_, rfl, h3, fun x hx => (h2.mem x).mpr (.inl hx)⟩
    have := hw.add h2
    simpa using this

theorem inPhase_good (hm : Made c p names) (hr : RecGood c names k rec) {s0 : List String} (h0 : s0.Nodup) (hk : names.length < s0.length + k)
    {n : Node} {d : Desc} (hd : Describes c.g names n d) (pts : List Port) (hsub : ∀ pt ∈ pts, pt ∈ d.inport)
    (st : St) (hw : Walk c names s0 st.paths.flatten st.searched) (hv : pts = [] → st.valid = true) :
    ∃ st', inPhase c p rec n pts st = .ok st' ∧ Walk c names s0 st'.paths.flatten st'.searched ∧ st'.valid = true ∧
      (∀ x ∈ st.searched, x ∈ st'.searched) ∧ ∀ pt ∈ pts, pt.pos ∈ st'.searched := by
  induction pts generalizing st with
  | nil => exact ⟨st, rfl, hw, hv rfl, fun _ h => h, by simp⟩
  | cons pt pts ih =>
    obtain ⟨q, hq, hqn, j, o, hf, rfl⟩ := (hd.inports pt).mp (hsub pt (by simp))
    obtain ⟨next, n1, n2⟩ := hm.descs q hq hqn
    unfold inPhase
    simp only [n1]
    obtain ⟨st1, h1, h2, h3, h4, hmono⟩ := inPort_good hm hr h0 hk hq hqn hf n2 st hw
    rw [h1]
    obtain ⟨st2, e1, e2, e3, e4, e5⟩ := ih (fun x hx => hsub x (by simp [hx])) st1 h2 (fun _ => h3)
    refine ⟨st2, e1, e2, e3, fun x hx => e4 x (hmono x hx), ?_⟩
    intro x hx
    rcases List.mem_cons.mp hx with rfl | hx
    · exact e4 _ h4
    · exact e5 x hx

/-- an output port `(o, cn, j)` of `n`: the loop over the readers finds the node it names, or nothing when that node reads the tensor
earlier -/
theorem tryConsumers_good (hm : Made c p names) (hr : RecGood c names k rec) {s0 : List String} (h0 : s0.Nodup) (hk : names.length < s0.length + k)
    {n q : Node} (hn : n ∈ c.g.nodemap) (hnn : n.name ∈ names) (hq : q ∈ c.g.nodemap) (hqn : q.name ∈ names) {t : String} (ht : t ∈ n.output)
    {j : Nat} (hj : q.input[j]? = some t) {next : Desc} (hd : Describes c.g names q next) (cs : List String)
    (hcs : ∀ x ∈ cs, ∃ m ∈ c.g.nodemap, m.name = x ∧ t ∈ m.input) (st : St) (hw : Walk c names s0 st.paths.flatten st.searched) :
    ∃ st', tryConsumers c rec next (some j) t true cs st = .ok st' ∧ Walk c names s0 st'.paths.flatten st'.searched ∧
      (st.valid = true → st'.valid = true) ∧ (∀ x ∈ st.searched, x ∈ st'.searched) ∧
      (q.input.idxOf t = j → q.name ∈ cs → st'.valid = true ∧ q.name ∈ st'.searched) := by
  induction cs with
  | nil => exact ⟨st, rfl, hw, id, fun _ h => h, by simp⟩
  | cons x cs ih =>
    obtain ⟨st', i1, i2, i3, i4, i5⟩ := ih (fun y hy => hcs y (by simp [hy]))
    obtain ⟨m, m1, rfl, m2⟩ := hcs x (by simp)
    unfold tryConsumers
    simp only [findNode_self hm.region.keys m1, portOk_some m2]
    cases hb : m.input.idxOf t == j with
    | false =>
      refine ⟨st', i1, i2, i3, i4, fun e hx => i5 e ?_⟩
      rcases List.mem_cons.mp hx with hx | hx
      · have : q = m := List.inj_on_of_nodup_map hm.region.keys hq m1 hx
        subst this
        rw [e] at hb; simp at hb
      · exact hx
    | true =>
      have hb' : m.input.idxOf t = j := by simpa using hb
      simp only [isNode_described hd (hm.noAny q hq hqn)]
      cases ho : m.op == q.op with
      | false =>
        refine ⟨st', i1, i2, i3, i4, fun e hx => i5 e ?_⟩
        rcases List.mem_cons.mp hx with hx | hx
        · have : q = m := List.inj_on_of_nodup_map hm.region.keys hq m1 hx
          subst this
          simp at ho
        · exact hx
      | true =>
        have hmj : m.input[j]? = some t := by
          rw [← hb', List.getElem?_eq_getElem (List.idxOf_lt_length_iff.mpr m2)]; simp
        have hmq : m = q := hm.noTwin n hn hnn t ht q hq hqn j hj m m1 hmj (by simpa using ho)
        subst hmq
        simp only []
        by_cases hs : m.name ∈ st.searched
        · simp only [List.contains_iff_mem.mpr hs, if_true]
          exact ⟨_, rfl, hw, fun _ => rfl, fun _ h => h, fun _ _ => ⟨rfl, hs⟩⟩
        · have hc : st.searched.contains m.name = false := by simpa using hs
          rw [hc, hd.name]
          obtain ⟨path, s', h1, h2, h3⟩ := hr m m1 hqn st.searched hw.nodup hw.sub hs (fuel_mono h0 hk hw)
          rw [h1]
          refine ⟨_, rfl, ?_, fun _ => rfl, fun x hx => (h2.mem x).mpr (.inl hx), fun _ _ => ⟨rfl, h3⟩⟩
          have := hw.add h2
          simpa using this

theorem outPhase_good (hm : Made c p names) (hr : RecGood c names k rec) {s0 : List String} (h0 : s0.Nodup) (hk : names.length < s0.length + k)
    {n : Node} (hn : n ∈ c.g.nodemap) (hnn : n.name ∈ names) {d : Desc} (hd : Describes c.g names n d) (pts : List Port)
    (hsub : ∀ pt ∈ pts, pt ∈ d.outport) (st : St) (hw : Walk c names s0 st.paths.flatten st.searched) :
    ∃ st', outPhase c p rec n pts st = .ok st' ∧ Walk c names s0 st'.paths.flatten st'.searched ∧
      (st.valid = true → st'.valid = true) ∧ (∀ x ∈ st.searched, x ∈ st'.searched) ∧
      ∀ q ∈ c.g.nodemap, q.name ∈ names → ∀ t, t ∈ n.output → t ∈ q.input →
        (⟨some (n.output.idxOf t), q.name, some (q.input.idxOf t)⟩ : Port) ∈ pts → st'.valid = true ∧ q.name ∈ st'.searched := by
  induction pts generalizing st with
  | nil => exact ⟨st, rfl, hw, id, fun _ h => h, by simp⟩
  | cons pt pts ih =>
    obtain ⟨q, hq, hqn, j, o, ⟨t, t1, t2, t3⟩, rfl⟩ := (hd.outports pt).mp (hsub pt (by simp))
    obtain ⟨next, n1, n2⟩ := hm.descs q hq hqn
    have htn : t ∈ n.output := List.mem_of_getElem? t1
    have htq : t ∈ q.input := List.mem_of_getElem? t3
    have hqc : q.name ∈ consumersOf c.g.nodemap t := mem_consumersOf_iff.mpr ⟨q, hq, rfl, htq⟩
    have hcb : c.g.consumedby.get? t = some (consumersOf c.g.nodemap t) := by
      rw [hm.index.1 t, if_neg]
      intro e; rw [e] at hqc; cases hqc
    unfold outPhase
    simp only [n1, outPort, t1, tryOutput, hcb, hm.notInplace, Bool.false_and, Bool.false_eq_true, if_false]
    obtain ⟨st1, h1, h2, h3, h4, h5⟩ := tryConsumers_good hm hr h0 hk hn hnn hq hqn htn t3 n2 (consumersOf c.g.nodemap t)
      (fun x hx => mem_consumersOf_iff.mp hx) st hw
    rw [h1]
    obtain ⟨st2, e1, e2, e3, e4, e5⟩ := ih (fun x hx => hsub x (by simp [hx])) st1 h2
    refine ⟨st2, e1, e2, fun h => e3 (h3 h), fun x hx => e4 x (h4 x hx), ?_⟩
    intro q' hq' hqn' t' ht' htq' hx
    rcases List.mem_cons.mp hx with hx | hx
    · injection hx with a1 a2 a3
      have : q' = q := List.inj_on_of_nodup_map hm.region.keys hq' hq a2
      subst this
      simp only [Option.some.injEq] at a1 a3
      have htt : t' = t := by
        rw [← a1, List.getElem?_eq_getElem (List.idxOf_lt_length_iff.mpr ht')] at t1
        simpa using t1
      subst htt
      obtain ⟨b1, b2⟩ := h5 a3 hqc
      exact ⟨e3 b1, e4 _ b2⟩
    · exact e5 q' hq' hqn' t' ht' htq' hx

theorem searchNode_good (hm : Made c p names) (k : Nat) : RecGood c names k (searchNode c p k) := by
  induction k with
  | zero =>
    intro n hn hnn s h1 h2 h3 h4
    have := (h1.subperm h2).length_le
    omega
  | succ k ih =>
    intro n hn hnn s h1 h2 h3 h4
    obtain ⟨d, d1, d2⟩ := hm.descs n hn hnn
    have hs0 : (s ++ [n.name]).Nodup := by
      rw [List.nodup_append]
      refine ⟨h1, by simp, fun a ha b hb e => ?_⟩
      rw [List.mem_singleton.mp hb] at e
      exact h3 (e ▸ ha)
    have hsub0 : ∀ x ∈ s ++ [n.name], x ∈ names := by
      intro x hx
      rcases List.mem_append.mp hx with hx | hx
      · exact h2 x hx
      · rw [List.mem_singleton.mp hx]; exact hnn
    have hk : names.length < (s ++ [n.name]).length + k := by simp; omega
    unfold searchNode
    simp only [d1, findNode_self hm.region.keys hn]
    obtain ⟨st, a1, a2, a3, a4, a5⟩ := inPhase_good (rec := searchNode c p k) hm ih hs0 hk d2 d.inport (fun _ h => h)
      ⟨d.inport.isEmpty, [], s ++ [n.name]⟩ (Walk.start c hs0 hsub0) (fun e => by simp [e])
    rw [a1]
    simp only [a3, Bool.not_true, Bool.false_eq_true, if_false]
    have hks : names.length < st.searched.length + k := fuel_mono hs0 hk a2
    obtain ⟨st2, b1, b2, b3, b4, b5⟩ := outPhase_good (rec := searchNode c p k) hm ih a2.nodup hks hn hnn d2 d.outport (fun _ h => h)
      ⟨d.outport.isEmpty, [], st.searched⟩ (Walk.start c a2.nodup a2.sub)
    rw [b1]
    have hport : ∀ q ∈ c.g.nodemap, q.name ∈ names → ∀ t, t ∈ n.output → t ∈ q.input →
        (⟨some (n.output.idxOf t), q.name, some (q.input.idxOf t)⟩ : Port) ∈ d.outport := by
      intro q hq hqn t ht hti
      refine (d2.outports _).mpr ⟨q, hq, hqn, _, _, ⟨t, ?_, rfl, ?_⟩, rfl⟩
      · rw [List.getElem?_eq_getElem (List.idxOf_lt_length_iff.mpr ht)]; simp
      · rw [List.getElem?_eq_getElem (List.idxOf_lt_length_iff.mpr hti)]; simp
    have hv : st2.valid = true := by
      cases he : d.outport with
      | nil => exact b3 (by simp [he])
      | cons pt pts =>
        obtain ⟨q, hq, hqn, j, o, ⟨t, t1, t2, t3⟩, _⟩ := (d2.outports pt).mp (by simp [he])
        have htn := List.mem_of_getElem? t1
        have htq := List.mem_of_getElem? t3
        exact (b5 q hq hqn t htn htq (hport q hq hqn t htn htq)).1
    simp only [hv, if_true]
    refine ⟨_, _, rfl, ?_, ?_⟩
    · have hall := a2.add b2
      refine ⟨hall.nodup, hall.sub, ?_, ?_, ?_⟩
      · intro x hx
        simp only [List.mem_append, List.mem_singleton] at hx
        rcases hx with (hx | rfl) | hx
        · exact hall.same x (List.mem_append_left _ hx)
        · rfl
        · exact hall.same x (List.mem_append_right _ hx)
      · intro y
        rw [hall.mem]
        simp only [List.mem_append, List.mem_singleton, Prod.mk.injEq, and_self]
        tauto
      · intro m hmm hms hms0 r hr1 hr2 htouch
        by_cases hmn : m.name = n.name
        · have : m = n := List.inj_on_of_nodup_map hm.region.keys hmm hn hmn
          subst this
          rcases htouch with ⟨t, t1, t2⟩ | ⟨t, t1, t2⟩
          · exact (b5 r hr1 hr2 t t1 t2 (hport r hr1 hr2 t t1 t2)).2
          · refine b4 _ (a5 ⟨some (m.input.idxOf t), r.name, some (r.output.idxOf t)⟩ ((d2.inports _).mpr
              ⟨r, hr1, hr2, _, _, ⟨t, ?_, rfl, ?_⟩, rfl⟩))
            · rw [List.getElem?_eq_getElem (List.idxOf_lt_length_iff.mpr t1)]; simp
            · rw [List.getElem?_eq_getElem (List.idxOf_lt_length_iff.mpr t2)]; simp
        · exact hall.closed m hmm hms (by simp [hms0, hmn]) r hr1 hr2 htouch
    · exact b4 _ (a4 _ (by simp))

end

/-- the walk from the first node of a connected region collects the region -/
theorem search_region {c : Ctx} {p : Pat} {names : List String} (hm : Made c p names) {a : Node} (ha : a ∈ c.g.nodemap) (han : a.name ∈ names)
    (hconn : Connected c.g names a.name) (k : Nat) (hk : names.length < k) :
    ∃ path s, searchNode c p k a.name a.name [] = .ok (some path, s) ∧ (∀ x ∈ path, x.1 = x.2) ∧ ∀ y ∈ names, (y, y) ∈ path := by
  obtain ⟨path, s, h1, h2, h3⟩ := searchNode_good hm k a ha han [] (by simp) (by simp) (by simp) (by simpa using hk)
  refine ⟨path, s, h1, h2.same, fun y hy => ?_⟩
  obtain ⟨n, hn, rfl⟩ := hm.region.exist y hy
  have : n.name ∈ s := by
    obtain ⟨r, hr, hra, hpath⟩ := hconn n hn hy
    have : r = a := List.inj_on_of_nodup_map hm.region.keys hr ha hra
    subst this
    clear hy hn
    induction hpath with
    | refl => exact h3
    | tail _ hs ih =>
      rename_i b d hrb
      by_cases hb : b ∈ c.g.nodemap
      · exact h2.closed b hb ih (by simp) d hs.2.1 hs.2.2 hs.1
      · exfalso
        cases hrb with
        | refl => exact hb ha
        | tail _ h => exact hb h.2.1
  have := (h2.mem n.name).mp this
  simpa using this

/-- a path of identical pairs covering the positions is presented as the list of positions -/
theorem fill_same (names : List String) (path : Path) (hs : ∀ x ∈ path, x.1 = x.2) (hsub : ∀ x ∈ path, x.1 ∈ names) (hd : names.Nodup)
    (hc : ∀ y ∈ names, (y, y) ∈ path) : fillPath names path = names := by
  have h := fill_aux names path [] (List.replicate names.length "a") (by simp) hsub (fun i k s hk _ hs => by
    right
    rw [List.getElem?_replicate] at hs
    split at hs
    · cases hs; simp
    · cases hs)
  unfold fillPath
  apply List.ext_getElem? 
  intro i
  by_cases hi : i < names.length
  · rw [List.getElem?_eq_getElem (by rw [h.1]; exact hi), List.getElem?_eq_getElem hi]
    have hki : names.idxOf names[i] = i := hd.idxOf_getElem i hi
    rcases h.2 i names[i] _ (List.getElem?_eq_getElem hi) hki (List.getElem?_eq_getElem (by rw [h.1]; exact hi)) with h1 | ⟨_, h1⟩
    · have := hs _ (by simpa using h1)
      simpa using this.symm
    · exact absurd rfl (h1 _ (by simpa using hc _ (List.getElem_mem hi)))
  · rw [List.getElem?_eq_none (by rw [h.1]; omega), List.getElem?_eq_none (by omega)]

end OnnxTool.Pattern
