import Verif.Model.Skip
import Verif.Proofs.Fuse
import Verif.Proofs.ConstFold
/-! # Lemmas for `skip_node` -/
namespace OnnxTool.Skip
open OnnxTool Remove Topsort Subgraph ConstFold

/-- rename `out` to `ind` -/
def ren (out ind t : String) : String := if t = out then ind else t
/-- the node after rewiring -/
def renN (out ind : String) (n : Node) : Node := { n with input := n.input.map (ren out ind) }

theorem map_substFirst {out ind : String} (h : ind ≠ out) (l : List String) :
    (substFirst out ind l).map (ren out ind) = l.map (ren out ind) := by
  induction l with
  | nil => rfl
  | cons a l ih =>
    unfold substFirst
    split
    · rename_i e; subst e; simp [ren, h]
    · simp [ih]

theorem count_substFirst {out ind : String} (h : ind ≠ out) {l : List String} (hm : out ∈ l) :
    (substFirst out ind l).count out + 1 = l.count out := by
  induction l with
  | nil => cases hm
  | cons a l ih =>
    unfold substFirst
    split
    · rename_i e; subst e; simp [h]
    · rename_i e
      have := ih (by rcases List.mem_cons.mp hm with r | r; exact absurd r.symm e; exact r)
      simp only [List.count_cons]
      omega

theorem setNode_names {ns : List Node} {n m : Node} (hm : m ∈ ns) (e : m.name = n.name) :
    (setNode ns n).map (·.name) = ns.map (·.name) := by
  induction ns with
  | nil => cases hm
  | cons a ns ih =>
    unfold setNode
    split
    · rename_i h; simp [h]
    · rename_i h
      rcases List.mem_cons.mp hm with r | r
      · subst r; exact absurd e h
      · simp [ih r]

theorem mem_setNode {ns : List Node} (hn : (ns.map (·.name)).Nodup) {n m : Node} (hm : m ∈ ns) (e : m.name = n.name)
    {k : Node} : k ∈ setNode ns n ↔ k = n ∨ (k ∈ ns ∧ k.name ≠ n.name) := by
  induction ns with
  | nil => cases hm
  | cons a ns ih =>
    simp only [List.map_cons, List.nodup_cons] at hn
    unfold setNode
    split
    · rename_i h
      have hne : ∀ k ∈ ns, k.name ≠ n.name := by
        intro k hk e'
        exact hn.1 (by rw [h, ← e']; exact List.mem_map_of_mem hk)
      simp only [List.mem_cons]
      constructor
      · rintro (r | r)
        · exact Or.inl r
        · exact Or.inr ⟨Or.inr r, hne k r⟩
      · rintro (r | ⟨r | r, r2⟩)
        · exact Or.inl r
        · subst r; exact absurd h r2
        · exact Or.inr r
    · rename_i h
      have hm' : m ∈ ns := by
        rcases List.mem_cons.mp hm with r | r
        · subst r; exact absurd e h
        · exact r
      rw [List.mem_cons, ih hn.2 hm', List.mem_cons]
      constructor
      · rintro (r | r | ⟨r, r2⟩)
        · subst r; exact Or.inr ⟨Or.inl rfl, h⟩
        · exact Or.inl r
        · exact Or.inr ⟨Or.inr r, r2⟩
      · rintro (r | ⟨r | r, r2⟩)
        · exact Or.inr (Or.inl r)
        · exact Or.inl r
        · exact Or.inr (Or.inr ⟨r, r2⟩)

theorem map_setNode {β : Type} (φ : Node → β) {ns : List Node} (hn : (ns.map (·.name)).Nodup) {n m : Node} (hm : m ∈ ns)
    (e : m.name = n.name) (hφ : φ n = φ m) : (setNode ns n).map φ = ns.map φ := by
  induction ns with
  | nil => cases hm
  | cons a ns ih =>
    simp only [List.map_cons, List.nodup_cons] at hn
    unfold setNode
    split
    · rename_i h
      rcases List.mem_cons.mp hm with r | r
      · subst r; simp [hφ]
      · exact absurd (List.mem_map_of_mem (f := (·.name)) r) (by rw [e, ← h]; exact hn.1)
    · rename_i h
      rcases List.mem_cons.mp hm with r | r
      · subst r; exact absurd e h
      · simp [ih hn.2 r]

theorem renN_id {out ind : String} {ns : List Node} (h : ∀ n ∈ ns, out ∉ n.input) : ns.map (renN out ind) = ns := by
  conv => rhs; rw [← List.map_id ns]
  apply List.map_congr_left
  intro n hn
  have : n.input.map (ren out ind) = n.input := by
    conv => rhs; rw [← List.map_id n.input]
    apply List.map_congr_left
    intro t ht
    have : t ≠ out := by rintro rfl; exact h n hn ht
    simp [ren, this]
  simp [renN, this]

theorem rewire_ok {out ind : String} (h : ind ≠ out) : ∀ (cs : List String) (ns : List Node) (cb : Dict (List String))
    (_ : (ns.map (·.name)).Nodup) (_ : ∀ n ∈ ns, cs.count n.name = n.input.count out)
    (_ : ∀ c ∈ cs, ∃ n ∈ ns, n.name = c),
    ∃ cb', rewire out ind cs (ns, cb) = .ok (ns.map (renN out ind), cb') ∧
      (cb'.get? ind).getD [] = (cb.get? ind).getD [] ++ cs ∧ ∀ t, t ≠ ind → cb'.get? t = cb.get? t
  | [], ns, cb, hn, hc, _ => by
    refine ⟨cb, ?_, by simp, fun _ _ => rfl⟩
    unfold rewire
    rw [renN_id (fun n hn => List.count_eq_zero.mp (by simpa using (hc n hn).symm))]
  | c :: cs, ns, cb, hn, hc, hx => by
    obtain ⟨nd, hnd, rfl⟩ := hx c (by simp)
    have hin : out ∈ nd.input := by
      have := hc nd hnd
      rw [List.count_cons_self] at this
      exact List.count_pos_iff.mp (by omega)
    have hnm := setNode_names (n := { nd with input := substFirst out ind nd.input }) hnd rfl
    obtain ⟨cb', h1, h2, h3⟩ := rewire_ok h cs
      (setNode ns { nd with input := substFirst out ind nd.input }) (cb.appendAt ind nd.name)
      (by rw [hnm]; exact hn)
      (by
        intro k hk
        rcases (mem_setNode hn (n := { nd with input := substFirst out ind nd.input }) hnd rfl).mp hk with r | ⟨r1, r2⟩
        · subst r
          have := hc nd hnd
          rw [List.count_cons_self] at this
          have := count_substFirst h hin
          show cs.count nd.name = (substFirst out ind nd.input).count out
          omega
        · have := hc k r1
          rwa [List.count_cons_of_ne (fun e => r2 e.symm)] at this)
      (by
        intro c' hc'
        obtain ⟨k, hk, e⟩ := hx c' (List.mem_cons_of_mem _ hc')
        by_cases ek : k.name = nd.name
        · exact ⟨_, (mem_setNode hn (n := { nd with input := substFirst out ind nd.input }) hnd rfl).mpr (Or.inl rfl), by rw [← e, ek]⟩
        · exact ⟨k, (mem_setNode hn (n := { nd with input := substFirst out ind nd.input }) hnd rfl).mpr (Or.inr ⟨hk, ek⟩), e⟩)
    refine ⟨cb', ?_, ?_, ?_⟩
    · unfold rewire
      rw [findNode_mem hn hnd]
      simp only [List.contains_iff_mem.mpr hin, if_true]
      rw [h1, map_setNode (renN out ind) hn (n := { nd with input := substFirst out ind nd.input }) hnd rfl
        (by simp [renN, map_substFirst h])]
    · rw [h2, Dict.get?_appendAt]; simp
    · intro t ht
      rw [h3 t ht, Dict.get?_appendAt, if_neg (fun e => ht e.symm)]

/-- A tensor is relevant: some node reads or produces it. -/
def Rel (ns : List Node) (t : String) : Prop := ∃ n ∈ ns, t ∈ n.input ∨ t ∈ n.output

/-- invariant of a run of `skip_node` calls on `P`-nodes -/
structure SInv (P : Node → Bool) (dyn : List String) (ns : List Node) (cb : Dict (List String)) (r : String → Nat) :
    Prop where
  names : (ns.map (·.name)).Nodup
  outs : (ns.flatMap (·.output)).Nodup
  rank : ∀ n ∈ ns, ∀ t ∈ n.input, ∀ o ∈ n.output, r t < r o
  cnt : ∀ t ∈ dyn, Rel ns t → (∀ n ∈ ns, ((cb.get? t).getD []).count n.name = n.input.count t) ∧
    ∀ c ∈ (cb.get? t).getD [], ∃ n ∈ ns, n.name = c
  shape : ∀ n ∈ ns, P n = true → ∃ ind out, n.input.filter (fun t => dyn.contains t) = [ind] ∧ n.output = [out] ∧
    out ∈ dyn ∧ ∃ m ∈ ns, out ∈ m.input

theorem out_inj {ns : List Node} (h : (ns.flatMap (·.output)).Nodup) {n m : Node} (hn : n ∈ ns) (hm : m ∈ ns) {o : String}
    (h1 : o ∈ n.output) (h2 : o ∈ m.output) : n = m := by
  obtain ⟨j, hj⟩ := List.mem_iff_getElem?.mp h1
  obtain ⟨k, hk⟩ := List.mem_iff_getElem?.mp h2
  exact (output_unique h hn hm hj hk).1

/-- `P` only looks at the operator -/
def OpOnly (P : Node → Bool) : Prop := ∀ n m : Node, n.op = m.op → P n = P m

theorem count_map_ren {out ind : String} (h : ind ≠ out) (l : List String) (t : String) :
    (l.map (ren out ind)).count t = if t = ind then l.count ind + l.count out else if t = out then 0 else l.count t := by
  induction l with
  | nil => simp
  | cons a l ih =>
    simp only [List.map_cons, List.count_cons, ih]
    by_cases h1 : t = ind
    · subst h1
      by_cases h2 : a = out
      · subst h2
        have : (a == t) = false := by simpa using fun e : a = t => h e.symm
        simp [ren, this]; omega
      · have : (a == out) = false := by simpa using h2
        simp [ren, h2, this]; omega
    · by_cases h3 : t = out
      · subst h3
        simp only [h1, if_false, if_true]
        by_cases h2 : a = t
        · subst h2; simp [ren, h]
        · have : (a == t) = false := by simpa using h2
          simp [ren, h2, this]
      · simp only [h1, h3, if_false]
        by_cases h2 : a = out
        · subst h2
          have e1 : (ind == t) = false := by simpa using fun e : ind = t => h1 e.symm
          have e2 : (a == t) = false := by simpa using fun e : a = t => h3 e.symm
          simp [ren, e1, e2]
        · simp [ren, h2]

theorem skip_step {P : Node → Bool} (hP : OpOnly P) {g : Graph} {r : String → Nat}
    (hi : SInv P g.dynamics g.nodemap g.consumedby r) {n : Node} (hn : n ∈ g.nodemap) (hs : P n = true) :
    ∃ ind out cb', n.input.filter (fun t => g.dynamics.contains t) = [ind] ∧ n.output = [out] ∧ ind ≠ out ∧
      skipNode g n.name = .ok { g with nodemap := (popNode g.nodemap n.name).map (renN out ind), consumedby := cb' } ∧
      SInv P g.dynamics ((popNode g.nodemap n.name).map (renN out ind)) cb' r ∧ ind ∈ g.dynamics ∧ out ∈ g.dynamics ∧
      (∀ m ∈ (popNode g.nodemap n.name).map (renN out ind), ∀ t ∈ m.input, t ≠ out ∧ ∃ k ∈ g.nodemap, t ∈ k.input) := by
  obtain ⟨ind, out, hind, hout, hod, mr, hmr, hmro⟩ := hi.shape n hn hs
  have hindm : ind ∈ n.input ∧ ind ∈ g.dynamics := by
    have : ind ∈ n.input.filter (fun t => g.dynamics.contains t) := by rw [hind]; simp
    obtain ⟨a, b⟩ := List.mem_filter.mp this
    exact ⟨a, List.contains_iff_mem.mp b⟩
  have hlt : r ind < r out := hi.rank n hn ind hindm.1 out (by rw [hout]; simp)
  have hne : ind ≠ out := by rintro rfl; omega
  obtain ⟨hc1, hc2⟩ := hi.cnt ind hindm.2 ⟨n, hn, Or.inl hindm.1⟩
  obtain ⟨ho1, ho2⟩ := hi.cnt out hod ⟨n, hn, Or.inr (by rw [hout]; simp)⟩
  have hcountind : n.input.count ind = 1 := by
    have : (n.input.filter (fun t => g.dynamics.contains t)).count ind = n.input.count ind := by
      rw [List.count_filter (List.contains_iff_mem.mpr hindm.2)]
    rw [← this, hind]; simp
  have honly : ∀ t ∈ n.input, t ∈ g.dynamics → t = ind := by
    intro t ht hd
    have : t ∈ n.input.filter (fun t => g.dynamics.contains t) :=
      List.mem_filter.mpr ⟨ht, List.contains_iff_mem.mpr hd⟩
    rw [hind] at this; simpa using this
  have hnout : n.input.count out = 0 := List.count_eq_zero.mpr (fun h => hne (honly out h hod).symm)
  obtain ⟨l, hl⟩ : ∃ l, g.consumedby.get? ind = some l := by
    cases e : g.consumedby.get? ind with
    | some l => exact ⟨l, rfl⟩
    | none =>
      have := hc1 n hn
      rw [e, hcountind] at this; simp at this
  rw [hl] at hc1 hc2
  simp only [Option.getD_some] at hc1 hc2
  have hxl : n.name ∈ l := List.count_pos_iff.mp (by rw [hc1 n hn]; omega)
  obtain ⟨cs, hcs⟩ : ∃ cs, g.consumedby.get? out = some cs := by
    cases e : g.consumedby.get? out with
    | some l => exact ⟨l, rfl⟩
    | none =>
      have := ho1 mr hmr
      rw [e] at this
      have h2 := List.count_pos_iff.mpr hmro
      simp at this; omega
  rw [hcs] at ho1 ho2
  simp only [Option.getD_some] at ho1 ho2
  obtain ⟨cb', h1, h2, h3⟩ := rewire_ok hne cs g.nodemap (g.consumedby.set ind (l.erase n.name)) hi.names ho1 ho2
  rw [Dict.get?_set_self] at h2
  simp only [Option.getD_some] at h2
  have hpop : popNode (g.nodemap.map (renN out ind)) n.name = (popNode g.nodemap n.name).map (renN out ind) := by
    unfold popNode
    rw [List.filter_map]
    rfl
  have hmem : ∀ k, k ∈ (popNode g.nodemap n.name).map (renN out ind) ↔
      ∃ m ∈ g.nodemap, m.name ≠ n.name ∧ renN out ind m = k := by
    intro k
    rw [List.mem_map]
    constructor
    · rintro ⟨m, hm, e⟩; exact ⟨m, (mem_popNode.mp hm).1, (mem_popNode.mp hm).2, e⟩
    · rintro ⟨m, hm, h, e⟩; exact ⟨m, mem_popNode.mpr ⟨hm, h⟩, e⟩
  refine ⟨ind, out, cb', hind, hout, hne, ?_, ?_, hindm.2, hod, ?_⟩
  · unfold skipNode
    rw [findNode_mem hi.names hn]
    simp only [hind, hout, hl, List.contains_iff_mem.mpr hxl, if_true]
    rw [Dict.get?_set_ne _ _ hne, hcs]
    simp only
    rw [if_neg (fun h => hne h.1), h1]
    simp only [hpop]
  · have hrel : ∀ t, Rel ((popNode g.nodemap n.name).map (renN out ind)) t → t ≠ out ∧ Rel g.nodemap t := by
      rintro t ⟨k, hk, hio⟩
      obtain ⟨m, hm, hmn, rfl⟩ := (hmem k).mp hk
      rcases hio with h | h
      · obtain ⟨s, hs1, rfl⟩ := List.mem_map.mp h
        unfold ren
        split
        · exact ⟨hne, n, hn, Or.inl hindm.1⟩
        · rename_i e; exact ⟨e, m, hm, Or.inl hs1⟩
      · refine ⟨?_, m, hm, Or.inr h⟩
        rintro rfl
        exact hmn (by rw [out_inj hi.outs hm hn h (by rw [hout]; simp)])
    refine ⟨?_, ?_, ?_, ?_, ?_⟩
    · rw [List.map_map]
      exact hi.names.sublist ((popNode_sub _ _).map _)
    · rw [List.flatMap_map]
      exact hi.outs.sublist (sub_flatMap (popNode_sub _ _) _)
    · intro k hk t ht o ho
      obtain ⟨m, hm, hmn, rfl⟩ := (hmem k).mp hk
      obtain ⟨s, hs1, rfl⟩ := List.mem_map.mp ht
      have := hi.rank m hm s hs1 o ho
      unfold ren
      split
      · rename_i e; subst e; omega
      · exact this
    · intro t htd hr
      obtain ⟨hto, hr'⟩ := hrel t hr
      by_cases hti : t = ind
      · subst hti
        rw [h2]
        constructor
        · intro k hk
          obtain ⟨m, hm, hmn, rfl⟩ := (hmem k).mp hk
          show List.count m.name _ = (m.input.map (ren out t)).count t
          rw [List.count_append, count_map_ren hne, if_pos rfl, List.count_erase_of_ne hmn, hc1 m hm, ho1 m hm]
        · intro c hc
          have hcn : c ≠ n.name ∧ ∃ m ∈ g.nodemap, m.name = c := by
            rcases List.mem_append.mp hc with h | h
            · refine ⟨?_, hc2 c (List.mem_of_mem_erase h)⟩
              rintro rfl
              have := List.count_pos_iff.mpr h
              rw [List.count_erase_self, hc1 n hn, hcountind] at this
              omega
            · refine ⟨?_, ho2 c h⟩
              rintro rfl
              have := List.count_pos_iff.mpr h
              rw [ho1 n hn, hnout] at this
              omega
          obtain ⟨h4, m, hm, rfl⟩ := hcn
          exact ⟨renN out t m, (hmem _).mpr ⟨m, hm, h4, rfl⟩, rfl⟩
      · rw [h3 t hti, Dict.get?_set_ne _ _ (fun e => hti e.symm)]
        obtain ⟨q1, q2⟩ := hi.cnt t htd hr'
        constructor
        · intro k hk
          obtain ⟨m, hm, hmn, rfl⟩ := (hmem k).mp hk
          show List.count m.name _ = (m.input.map (ren out ind)).count t
          rw [count_map_ren hne, if_neg hti, if_neg hto, q1 m hm]
        · intro c hc
          obtain ⟨m, hm, rfl⟩ := q2 c hc
          refine ⟨renN out ind m, (hmem _).mpr ⟨m, hm, ?_, rfl⟩, rfl⟩
          intro e
          have e' := name_inj hi.names hm hn e
          subst e'
          have := List.count_pos_iff.mpr hc
          rw [q1 m hm] at this
          exact hti (honly t (List.count_pos_iff.mp this) htd)
    · intro k hk hPk
      obtain ⟨m, hm, hmn, rfl⟩ := (hmem k).mp hk
      have hPm : P m = true := by rw [hP m (renN out ind m) rfl]; exact hPk
      obtain ⟨i2, o2, a1, a2, a3, m2, b1, b2⟩ := hi.shape m hm hPm
      have ho2ne : o2 ≠ out := by
        rintro rfl
        exact hmn (by rw [out_inj hi.outs hm hn (o := o2) (by rw [a2]; simp) (by rw [hout]; simp)])
      refine ⟨ren out ind i2, o2, ?_, a2, a3, ?_⟩
      · show (m.input.map (ren out ind)).filter _ = _
        rw [List.filter_map]
        have : ((fun t => g.dynamics.contains t) ∘ ren out ind) = fun t => g.dynamics.contains t := by
          funext t
          simp only [Function.comp, ren]
          split
          · rename_i e; subst e
            rw [List.contains_iff_mem.mpr hindm.2, List.contains_iff_mem.mpr hod]
          · rfl
        rw [this, a1]; rfl
      · by_cases e : m2 = n
        · subst e
          have := honly o2 b2 a3
          subst this
          -- ind = o2 is now read by the consumers of out
          have hmrn : mr.name ≠ m2.name := by
            intro e
            have := name_inj hi.names hmr hn e
            subst this
            exact absurd hmro (List.count_eq_zero.mp hnout)
          exact ⟨renN out o2 mr, (hmem _).mpr ⟨mr, hmr, hmrn, rfl⟩,
            List.mem_map.mpr ⟨out, hmro, by simp [ren]⟩⟩
        · have : m2.name ≠ n.name := fun h => e (name_inj hi.names b1 hn h)
          exact ⟨renN out ind m2, (hmem _).mpr ⟨m2, b1, this, rfl⟩, List.mem_map.mpr ⟨o2, b2, by simp [ren, ho2ne]⟩⟩
  · intro k hk t ht
    obtain ⟨m, hm, hmn, rfl⟩ := (hmem k).mp hk
    obtain ⟨s, hs1, rfl⟩ := List.mem_map.mp ht
    unfold ren
    split
    · exact ⟨hne, n, hn, hindm.1⟩
    · rename_i e; exact ⟨e, m, hm, hs1⟩

variable {V : Type}

/-- One skip, semantically: reading the skipped node as the identity on its dynamic operand, every tensor other than its
output keeps its value. -/
theorem skip_sem {ns : List Node} (hnames : (ns.map (·.name)).Nodup) (houts : (ns.flatMap (·.output)).Nodup) {n : Node}
    (hn : n ∈ ns) {ind out : String} (hne : ind ≠ out) (hout : n.output = [out])
    {f : Node → List V → Nat → V} (hf : ∀ a b : Node, a.name = b.name → f a = f b) {E : Env V} (hE : E out = none)
    (hid : ∀ (vs : List V) (i : Nat) (v : V), n.input[i]? = some ind → vs[i]? = some v → f n vs 0 = v)
    (hindm : ind ∈ n.input) (hstat : ∀ t ∈ n.input, t = ind ∨ (E t).isSome = true) :
    (∀ t v, Ev ns f E t v → Ev ((popNode ns n.name).map (renN out ind)) f E (ren out ind t) v) ∧
    (∀ t v, Ev ((popNode ns n.name).map (renN out ind)) f E t v → Ev ns f E t v) := by
  constructor
  · intro t v h
    induction h with
    | @base t v hb =>
      have : t ≠ out := by rintro rfl; rw [hE] at hb; cases hb
      simp only [ren, this, if_false]
      exact Ev.base hb
    | @node m k o vs hm ho hl _ ih =>
      by_cases e : m = n
      · subst e
        rw [hout] at ho
        have : k = 0 ∧ out = o := by
          cases k with
          | zero => exact ⟨rfl, by simpa using ho⟩
          | succ k => simp at ho
        obtain ⟨rfl, rfl⟩ := this
        obtain ⟨i, hi⟩ := List.mem_iff_getElem?.mp hindm
        have hlt : i < vs.length := by rw [hl]; exact (List.getElem?_eq_some_iff.mp hi).1
        have hv := List.getElem?_eq_getElem hlt
        have h1 := ih i ind _ hi hv
        rw [hid vs i _ hi hv]
        simp only [ren, hne, if_false] at h1
        simp only [ren, if_true]
        exact h1
      · have hon : o ≠ out := by
          rintro rfl
          exact e (out_inj houts hm hn (List.mem_of_getElem? ho) (by rw [hout]; simp))
        have hmn : m.name ≠ n.name := fun h => e (name_inj hnames hm hn h)
        simp only [ren, hon, if_false]
        rw [hf m (renN out ind m) rfl]
        refine Ev.node (n := renN out ind m) vs (List.mem_map.mpr ⟨m, mem_popNode.mpr ⟨hm, hmn⟩, rfl⟩) ho
          (by simp [renN, hl]) ?_
        intro i t v hi hv
        simp only [renN, List.getElem?_map, Option.map_eq_some_iff] at hi
        obtain ⟨s, hs, rfl⟩ := hi
        exact ih i s v hs hv
  · intro t v h
    induction h with
    | base hb => exact Ev.base hb
    | @node k j o vs hk ho hl _ ih =>
      obtain ⟨m, hm, rfl⟩ := List.mem_map.mp hk
      rw [hf (renN out ind m) m rfl]
      refine Ev.node vs (mem_popNode.mp hm).1 ho (by simpa [renN] using hl) ?_
      intro i t v hi hv
      have h1 := ih i (ren out ind t) v (by simp [renN, hi]) hv
      by_cases e : t = out
      · subst e
        simp only [ren, if_true] at h1
        -- rebuild the value of `out`
        obtain ⟨i0, hi0⟩ := List.mem_iff_getElem?.mp hindm
        have key := Ev.node (f := f) (env := E) (n := n) (k := 0) (o := t)
          (n.input.map (fun s => if s = ind then v else (E s).getD v)) hn (by rw [hout]; rfl) (by simp) (by
            intro i s u hs hu
            simp only [List.getElem?_map, hs, Option.map_some, Option.some.injEq] at hu
            by_cases es : s = ind
            · subst es; simp only [if_true] at hu; subst hu; exact h1
            · simp only [es, if_false] at hu
              rcases hstat s (List.mem_of_getElem? hs) with h | h
              · exact absurd h es
              · obtain ⟨w, hw⟩ := Option.isSome_iff_exists.mp h
                rw [hw] at hu
                subst hu
                exact Ev.base hw)
        rwa [hid _ i0 v hi0 (by simp [hi0])] at key
      · simpa [ren, e] using h1

/-- What is assumed of the operator semantics: it depends on the node's name only, `P`-nodes return their dynamic operand,
and the other operands of `P`-nodes have a value. -/
structure SemOk (P : Node → Bool) (dyn : List String) (ns : List Node) (f : Node → List V → Nat → V) (E : Env V) :
    Prop where
  byName : ∀ a b : Node, a.name = b.name → f a = f b
  free : ∀ n ∈ ns, ∀ o ∈ n.output, E o = none
  ident : ∀ n ∈ ns, P n = true → ∀ (vs : List V) (i : Nat) (t : String) (v : V), n.input[i]? = some t → t ∈ dyn →
    vs[i]? = some v → f n vs 0 = v
  static : ∀ n ∈ ns, P n = true → ∀ t ∈ n.input, t ∈ dyn ∨ (E t).isSome = true

theorem skipAll_ok {P : Node → Bool} (hP : OpOnly P) {r : String → Nat} : ∀ (xs : List String) (g : Graph)
    (_ : SInv P g.dynamics g.nodemap g.consumedby r) (_ : xs.Nodup)
    (_ : ∀ x ∈ xs, ∃ n ∈ g.nodemap, n.name = x ∧ P n = true),
    ∃ g', skipAll xs g = .ok g' ∧ g'.output = g.output ∧ g'.input = g.input ∧
      g'.nodemap.map (fun n => (n.name, n.op, n.output)) =
        (g.nodemap.filter (fun n => !xs.contains n.name)).map (fun n => (n.name, n.op, n.output)) ∧
      (∀ m ∈ g'.nodemap, ∀ t ∈ m.input, (∃ k ∈ g.nodemap, t ∈ k.input) ∧
        ∀ n ∈ g.nodemap, n.name ∈ xs → t ∉ n.output) ∧
      (∀ (f : Node → List V → Nat → V) (E : Env V), SemOk P g.dynamics g.nodemap f E →
        ∀ t, (∀ n ∈ g.nodemap, n.name ∈ xs → t ∉ n.output) → ∀ v, (Ev g'.nodemap f E t v ↔ Ev g.nodemap f E t v))
  | [], g, hi, _, _ => by
    refine ⟨g, rfl, rfl, rfl, ?_, ?_, ?_⟩
    · rw [List.filter_eq_self.mpr (by simp)]
    · intro m hm t ht; exact ⟨⟨m, hm, ht⟩, by simp⟩
    · intros; exact Iff.rfl
  | x :: xs, g, hi, hd, hx => by
    rw [List.nodup_cons] at hd
    obtain ⟨n, hn, rfl, hPn⟩ := hx x (by simp)
    obtain ⟨ind, out, cb', h1, h2, h3, h4, h5, h6, h7, h8⟩ := skip_step hP hi hn hPn
    have hmem : ∀ k, k ∈ (popNode g.nodemap n.name).map (renN out ind) ↔
        ∃ m ∈ g.nodemap, m.name ≠ n.name ∧ renN out ind m = k := by
      intro k
      rw [List.mem_map]
      constructor
      · rintro ⟨m, hm, e⟩; exact ⟨m, (mem_popNode.mp hm).1, (mem_popNode.mp hm).2, e⟩
      · rintro ⟨m, hm, h, e⟩; exact ⟨m, mem_popNode.mpr ⟨hm, h⟩, e⟩
    obtain ⟨g', k1, k2, k2', k3, k4, k5⟩ := skipAll_ok hP xs
      { g with nodemap := (popNode g.nodemap n.name).map (renN out ind), consumedby := cb' } h5 hd.2 (by
        intro y hy
        obtain ⟨m, hm, rfl, hPm⟩ := hx y (List.mem_cons_of_mem _ hy)
        exact ⟨renN out ind m, (hmem _).mpr ⟨m, hm, fun e => hd.1 (e ▸ hy), rfl⟩, rfl,
          (hP (renN out ind m) m rfl).trans hPm⟩)
    have hindm : ind ∈ n.input := by
      have : ind ∈ n.input.filter (fun t => g.dynamics.contains t) := by rw [h1]; simp
      exact (List.mem_filter.mp this).1
    refine ⟨g', ?_, k2, k2', ?_, ?_, ?_⟩
    · unfold skipAll; rw [h4]; exact k1
    · rw [k3]
      simp only [popNode, List.filter_map, List.map_map, List.filter_filter]
      have : (fun a : Node => ((fun n => !xs.contains n.name) ∘ renN out ind) a && decide (a.name ≠ n.name)) =
          fun a => !(n.name :: xs).contains a.name := by
        funext a
        by_cases e : a.name = n.name
        · simp [e]
        · have : (a.name == n.name) = false := by simpa using e
          simp only [Function.comp, renN, List.contains_cons, this, Bool.false_or, ne_eq, e, not_false_eq_true,
            decide_true, Bool.and_true]
      rw [this]
      rfl
    · intro m hm t ht
      obtain ⟨⟨k, hk, htk⟩, hb⟩ := k4 m hm t ht
      obtain ⟨e1, e2⟩ := h8 k hk t htk
      refine ⟨e2, ?_⟩
      intro q hq hqx
      rcases List.mem_cons.mp hqx with r | r
      · rw [name_inj hi.names hq hn r, h2]
        simpa using e1
      · exact hb (renN out ind q) ((hmem _).mpr ⟨q, hq, fun e => hd.1 (e ▸ r), rfl⟩) r
    · intro f E hs t ht v
      have hsem := skip_sem (f := f) hi.names hi.outs hn h3 h2 hs.byName (E := E)
        (hs.free n hn out (by rw [h2]; simp)) (fun vs i v a b => hs.ident n hn hPn vs i ind v a h6 b) hindm (by
          intro t ht
          rcases hs.static n hn hPn t ht with a | a
          · left
            have : t ∈ n.input.filter (fun t => g.dynamics.contains t) :=
              List.mem_filter.mpr ⟨ht, List.contains_iff_mem.mpr a⟩
            rw [h1] at this; simpa using this
          · exact Or.inr a)
      have hto : t ≠ out := by
        rintro rfl
        exact ht n hn (by simp) (by rw [h2]; simp)
      have hs' : SemOk P g.dynamics ((popNode g.nodemap n.name).map (renN out ind)) f E := by
        refine ⟨hs.byName, ?_, ?_, ?_⟩
        · intro k hk o ho
          obtain ⟨m, hm, -, rfl⟩ := (hmem k).mp hk
          exact hs.free m hm o ho
        · intro k hk hPk vs i s v hi' hs1 hv
          obtain ⟨m, hm, -, rfl⟩ := (hmem k).mp hk
          have hPm : P m = true := (hP m (renN out ind m) rfl).trans hPk
          simp only [renN, List.getElem?_map, Option.map_eq_some_iff] at hi'
          obtain ⟨s0, hs0, rfl⟩ := hi'
          rw [hs.byName (renN out ind m) m rfl]
          refine hs.ident m hm hPm vs i s0 v hs0 ?_ hv
          by_cases e : s0 = out
          · rw [e]; exact h7
          · simpa [ren, e] using hs1
        · intro k hk hPk s hs1
          obtain ⟨m, hm, -, rfl⟩ := (hmem k).mp hk
          have hPm : P m = true := (hP m (renN out ind m) rfl).trans hPk
          obtain ⟨s0, hs0, rfl⟩ := List.mem_map.mp hs1
          unfold ren
          split
          · exact Or.inl h6
          · exact hs.static m hm hPm s0 hs0
      rw [k5 f E hs' t (by
        intro k hk hkx
        obtain ⟨m, hm, hmn, rfl⟩ := (hmem k).mp hk
        exact ht m hm (List.mem_cons_of_mem _ hkx)) v]
      constructor
      · exact hsem.2 t v
      · intro h
        have := hsem.1 t v h
        simpa [ren, hto] using this

/-- the producer after renaming its output -/
def renO (p out : String) (n : Node) : Node := if n.name = p then { n with output := [out] } else n

theorem setNode_eq_map {p : Node} {out : String} : ∀ {ns : List Node} (_ : (ns.map (·.name)).Nodup) (_ : p ∈ ns),
    setNode ns { p with output := [out] } = ns.map (renO p.name out)
  | [], _, h => by cases h
  | a :: ns, hn, hp => by
    simp only [List.map_cons, List.nodup_cons] at hn
    unfold setNode
    split
    · rename_i h
      have e : ns.map (renO p.name out) = ns := by
        conv => rhs; rw [← List.map_id ns]
        apply List.map_congr_left
        intro m hm
        have : m.name ≠ p.name := by
          intro e; exact hn.1 (by rw [show a.name = p.name from h, ← e]; exact List.mem_map_of_mem hm)
        simp [renO, this]
      have e2 : p = a := by
        rcases List.mem_cons.mp hp with r | r
        · exact r
        · exact absurd (List.mem_map_of_mem (f := (·.name)) r) (by rw [← show a.name = p.name from h]; exact hn.1)
      subst e2
      simp [renO] at e ⊢
      exact e.symm
    · rename_i h
      rcases List.mem_cons.mp hp with r | r
      · subst r; exact absurd rfl h
      · rw [setNode_eq_map hn.2 r]
        have : a.name ≠ p.name := h
        simp [renO, this]

/-- Skipping an unread node, semantically. -/
theorem skip_sem_unread {ns : List Node} (hnames : (ns.map (·.name)).Nodup) (houts : (ns.flatMap (·.output)).Nodup)
    {n p : Node} (hn : n ∈ ns) (hp : p ∈ ns) (hpn : p ≠ n) {ind out : String} (hout : n.output = [out])
    (hpout : p.output = [ind]) (honly : ∀ m ∈ ns, ind ∈ m.input → m = n) (hunread : ∀ m ∈ ns, out ∉ m.input)
    {f : Node → List V → Nat → V} (hf : ∀ a b : Node, a.name = b.name → f a = f b) {E : Env V} (hE : E out = none)
    (hE' : E ind = none)
    (hid : ∀ (vs : List V) (i : Nat) (v : V), n.input[i]? = some ind → vs[i]? = some v → f n vs 0 = v)
    (hindm : ind ∈ n.input) (hstat : ∀ t ∈ n.input, t = ind ∨ (E t).isSome = true) :
    (∀ t v, Ev ns f E t v → Ev (popNode (ns.map (renO p.name out)) n.name) f E (ren ind out t) v) ∧
    (∀ t v, Ev (popNode (ns.map (renO p.name out)) n.name) f E t v → Ev ns f E t v) := by
  have hne : ind ≠ out := by
    rintro rfl
    exact hpn (out_inj houts hp hn (o := ind) (by rw [hpout]; simp) (by rw [hout]; simp))
  have hname : ∀ m, (renO p.name out m).name = m.name ∧ (renO p.name out m).input = m.input := by
    intro m; unfold renO; split <;> exact ⟨rfl, rfl⟩
  constructor
  · intro t v h
    induction h with
    | @base t v hb =>
      have : t ≠ ind := by rintro rfl; rw [hE'] at hb; cases hb
      simp only [ren, this, if_false]
      exact Ev.base hb
    | @node m k o vs hm ho hl _ ih =>
      by_cases e : m = n
      · subst e
        rw [hout] at ho
        have : k = 0 ∧ out = o := by
          cases k with
          | zero => exact ⟨rfl, by simpa using ho⟩
          | succ k => simp at ho
        obtain ⟨rfl, rfl⟩ := this
        obtain ⟨i, hi⟩ := List.mem_iff_getElem?.mp hindm
        have hlt : i < vs.length := by rw [hl]; exact (List.getElem?_eq_some_iff.mp hi).1
        have hv := List.getElem?_eq_getElem hlt
        have h1 := ih i ind _ hi hv
        rw [hid vs i _ hi hv]
        simp only [ren, if_true] at h1
        simp only [ren, ite_self]
        exact h1
      · have hmn : m.name ≠ n.name := fun h => e (name_inj hnames hm hn h)
        have hin : ∀ (i : Nat) (t : String) (v : V), (renO p.name out m).input[i]? = some t → vs[i]? = some v →
            Ev (popNode (ns.map (renO p.name out)) n.name) f E t v := by
          intro i t v hi hv
          rw [(hname m).2] at hi
          have := ih i t v hi hv
          have ht : t ≠ ind := by rintro rfl; exact e (honly m hm (List.mem_of_getElem? hi))
          simpa [ren, ht] using this
        have hmem : renO p.name out m ∈ popNode (ns.map (renO p.name out)) n.name :=
          mem_popNode.mpr ⟨List.mem_map_of_mem hm, by rw [(hname m).1]; exact hmn⟩
        rw [hf m (renO p.name out m) (hname m).1.symm]
        by_cases ep : m = p
        · subst ep
          rw [hpout] at ho
          have : k = 0 ∧ ind = o := by
            cases k with
            | zero => exact ⟨rfl, by simpa using ho⟩
            | succ k => simp at ho
          obtain ⟨rfl, rfl⟩ := this
          simp only [ren, if_true]
          exact Ev.node vs hmem (by simp [renO]) (by rw [(hname m).2]; exact hl) hin
        · have hmp : m.name ≠ p.name := fun h => ep (name_inj hnames hm hp h)
          have : o ≠ ind := by
            rintro rfl
            exact ep (out_inj houts hm hp (List.mem_of_getElem? ho) (by rw [hpout]; simp))
          simp only [ren, this, if_false]
          exact Ev.node vs hmem (by simp [renO, hmp, ho]) (by rw [(hname m).2]; exact hl) hin
  · intro t v h
    induction h with
    | base hb => exact Ev.base hb
    | @node k j o vs hk ho hl _ ih =>
      obtain ⟨hk1, hk2⟩ := mem_popNode.mp hk
      obtain ⟨m, hm, rfl⟩ := List.mem_map.mp hk1
      rw [hf (renO p.name out m) m (hname m).1]
      rw [(hname m).2] at hl ih
      by_cases ep : m = p
      · subst ep
        have : j = 0 ∧ out = o := by
          simp only [renO, if_true] at ho
          cases j with
          | zero => exact ⟨rfl, by simpa using ho⟩
          | succ k => simp at ho
        obtain ⟨rfl, rfl⟩ := this
        have h1 : Ev ns f E ind (f m vs 0) := Ev.node vs hm (by rw [hpout]; rfl) hl ih
        obtain ⟨i0, hi0⟩ := List.mem_iff_getElem?.mp hindm
        have key := Ev.node (f := f) (env := E) (n := n) (k := 0) (o := out)
          (n.input.map (fun s => if s = ind then f m vs 0 else (E s).getD (f m vs 0))) hn (by rw [hout]; rfl) (by simp) (by
            intro i s u hs hu
            simp only [List.getElem?_map, hs, Option.map_some, Option.some.injEq] at hu
            by_cases es : s = ind
            · subst es; simp only [if_true] at hu; subst hu; exact h1
            · simp only [es, if_false] at hu
              rcases hstat s (List.mem_of_getElem? hs) with h | h
              · exact absurd h es
              · obtain ⟨w, hw⟩ := Option.isSome_iff_exists.mp h
                rw [hw] at hu
                subst hu
                exact Ev.base hw)
        rwa [hid _ i0 (f m vs 0) hi0 (by simp [hi0])] at key
      · have hmp : m.name ≠ p.name := fun h => ep (name_inj hnames hm hp h)
        simp only [renO, hmp, if_false] at ho
        exact Ev.node vs hm ho hl ih

/-- An acyclic graph with unique outputs has a rank function on tensors. -/
theorem exists_rank {ns : List Node} (hac : Acyclic ns) (ho : (ns.flatMap (·.output)).Nodup) :
    ∃ r : String → Nat, ∀ n ∈ ns, ∀ t ∈ n.input, ∀ o ∈ n.output, r t < r o := by
  obtain ⟨ms, hp, hpw, hself⟩ := hac
  have ho' : (ms.flatMap (·.output)).Nodup := (hp.flatMap_right _).nodup_iff.mpr ho
  refine ⟨fun t => if ∃ m ∈ ms, t ∈ m.output then ms.findIdx (fun m => decide (t ∈ m.output)) + 1 else 0, ?_⟩
  intro n hn t ht o hno
  have hn' := hp.mem_iff.mpr hn
  have hex : ∃ m ∈ ms, o ∈ m.output := ⟨n, hn', hno⟩
  simp only [if_pos hex]
  have hlt : ms.findIdx (fun m => decide (o ∈ m.output)) < ms.length :=
    List.findIdx_lt_length_of_exists ⟨n, hn', by simpa using hno⟩
  have hget : ms[ms.findIdx (fun m => decide (o ∈ m.output))] = n := by
    have h1 : o ∈ (ms[ms.findIdx (fun m => decide (o ∈ m.output))]).output := by
      have := List.findIdx_getElem (w := hlt)
      simpa using this
    exact out_inj ho' (List.getElem_mem hlt) hn' h1 hno
  split
  · rename_i h
    obtain ⟨m, hm, htm⟩ := h
    have hlt2 : ms.findIdx (fun m => decide (t ∈ m.output)) < ms.length :=
      List.findIdx_lt_length_of_exists ⟨m, hm, by simpa using htm⟩
    have h2 : t ∈ (ms[ms.findIdx (fun m => decide (t ∈ m.output))]).output := by
      have := List.findIdx_getElem (w := hlt2)
      simpa using this
    have : ms.findIdx (fun m => decide (t ∈ m.output)) < ms.findIdx (fun m => decide (o ∈ m.output)) := by
      apply Classical.byContradiction
      intro hge
      rcases Nat.lt_or_ge (ms.findIdx (fun m : Node => decide (o ∈ m.output)))
        (ms.findIdx (fun m : Node => decide (t ∈ m.output))) with h | h
      · have := (List.pairwise_iff_getElem.mp hpw) _ _ hlt hlt2 h
        rw [hget] at this
        exact this ⟨t, ht, h2⟩
      · have e : ms.findIdx (fun m => decide (t ∈ m.output)) = ms.findIdx (fun m => decide (o ∈ m.output)) := by omega
        have : ms[ms.findIdx (fun m => decide (t ∈ m.output))] = n := by
          rw [← hget]; congr 1
        rw [this] at h2
        exact hself n hn' ⟨t, ht, h2⟩
    omega
  · omega

/-- The invariant holds right after `update_tensor_relations`-style index building. -/
theorem sinv_init {P : Node → Bool} {g : Graph} (hix : Ix g) (ho : (g.nodemap.flatMap (·.output)).Nodup)
    {r : String → Nat} (hr : ∀ n ∈ g.nodemap, ∀ t ∈ n.input, ∀ o ∈ n.output, r t < r o)
    (hs : ∀ n ∈ g.nodemap, P n = true → ∃ ind out, n.input.filter (fun t => g.dynamics.contains t) = [ind] ∧
      n.output = [out] ∧ out ∈ g.dynamics ∧ ∃ m ∈ g.nodemap, out ∈ m.input) :
    SInv P g.dynamics g.nodemap g.consumedby r := by
  refine ⟨hix.names, ho, hr, ?_, hs⟩
  intro t _ _
  have key : (g.consumedby.get? t).getD [] = occ Node.input g.nodemap t := by
    rw [hix.exact_.1 t]; split <;> simp_all [occ, consumersOf]
  rw [key]
  constructor
  · intro n hn
    have : ∀ (ns : List Node), (ns.map (·.name)).Nodup → ∀ n ∈ ns, (occ Node.input ns t).count n.name = n.input.count t := by
      intro ns
      induction ns with
      | nil => intro _ n hn; cases hn
      | cons a ns ih =>
        intro hnd n hn
        simp only [List.map_cons, List.nodup_cons] at hnd
        simp only [occ, List.flatMap_cons, List.count_append]
        rcases List.mem_cons.mp hn with h | h
        · subst h
          have : (List.flatMap (fun m => List.replicate (m.input.count t) m.name) ns).count n.name = 0 := by
            rw [List.count_eq_zero]
            intro hc
            obtain ⟨m, hm, e, -⟩ := (mem_occ (f := Node.input)).mp hc
            exact hnd.1 (by rw [← e]; exact List.mem_map_of_mem hm)
          rw [this, List.count_replicate_self]; rfl
        · have e : a.name ≠ n.name := by
            intro e; exact hnd.1 (by rw [e]; exact List.mem_map_of_mem h)
          have := ih hnd.2 n h
          simp only [occ] at this
          rw [this, List.count_replicate, if_neg (by simpa using e)]; omega
    exact this _ hix.names n hn
  · intro c hc
    obtain ⟨m, hm, e, -⟩ := mem_occ.mp hc
    exact ⟨m, hm, e⟩

end OnnxTool.Skip
