import Verif.Model.ConstFold
import Verif.Spec.ConstFold
import Verif.Proofs.ShapeCalc
import Verif.Proofs.Weights
/-! Constant search. -/
namespace OnnxTool.ConstFold
open OnnxTool Remove Topsort Subgraph

variable {V : Type}

theorem isConst_iff {env : Env V} {n : Node} :
    isConst env n = true ↔ n.op ≠ "DequantizeLinear" ∧ ∀ t ∈ n.input, (env t).isSome = true := by
  unfold isConst
  rw [Bool.and_eq_true, decide_eq_true_eq, List.all_eq_true]

theorem assign_isSome (h : Nat → V) (t : String) : ∀ (os : List String) (k : Nat) (env : Env V),
    (assign env h os k t).isSome = true ↔ (env t).isSome = true ∨ t ∈ os
  | [], k, env => by simp [assign]
  | o :: os, k, env => by
    unfold assign
    rw [assign_isSome h t os (k + 1), List.mem_cons]
    by_cases e : t = o <;> simp [e]

theorem assign_val (h : Nat → V) (t : String) (v : V) : ∀ (os : List String) (k : Nat) (env : Env V),
    assign env h os k t = some v → env t = some v ∨ ∃ j, os[j]? = some t ∧ v = h (k + j)
  | [], k, env, hv => Or.inl hv
  | o :: os, k, env, hv => by
    unfold assign at hv
    rcases assign_val h t v os (k + 1) _ hv with h1 | ⟨j, h1, h2⟩
    · split at h1
      · rename_i e
        cases h1
        exact Or.inr ⟨0, by simp [e], by simp⟩
      · exact Or.inl h1
    · exact Or.inr ⟨j + 1, by simpa using h1, by rw [h2]; congr 1; omega⟩

theorem pushConsumers_ok {g : Graph} (hn : (g.nodemap.map (·.name)).Nodup) (env : Env V) :
    ∀ (cs C Q : List String) (_ : ∀ c ∈ cs, ∃ n ∈ g.nodemap, n.name = c),
    ∃ C' new, pushConsumers g env cs (C, Q) = .ok (C', Q ++ new) ∧ new.length ≤ cs.length ∧
      (∀ x ∈ new, x ∈ cs) ∧
      (∀ x ∈ C, x ∈ C') ∧
      (∀ x ∈ C', x ∈ C ∨ x ∈ new) ∧ (∀ x ∈ new, x ∈ C' ∧ ∃ n ∈ g.nodemap, n.name = x ∧ isConst env n = true) ∧
      (∀ n ∈ g.nodemap, n.name ∈ cs → isConst env n = true → n.name ∈ new)
  | [], C, Q, _ => ⟨C, [], by simp [pushConsumers], by simp, by simp, fun _ h => h, fun _ h => Or.inl h, by simp, by simp⟩
  | c :: cs, C, Q, hc => by
    obtain ⟨n, hnm, rfl⟩ := hc c (by simp)
    have hc' : ∀ c ∈ cs, ∃ n ∈ g.nodemap, n.name = c := fun d hd => hc d (List.mem_cons_of_mem _ hd)
    unfold pushConsumers
    rw [findNode_mem hn hnm]
    simp only
    by_cases hk : isConst env n = true
    · rw [if_pos hk]
      obtain ⟨C', new, h1, h2, h3, h4, h5, h6, h7⟩ := pushConsumers_ok hn env cs (addNew C n.name) (Q ++ [n.name]) hc'
      refine ⟨C', n.name :: new, by rw [h1, List.append_assoc]; rfl, by simp; omega, ?_, ?_, ?_, ?_, ?_⟩
      · intro x hx
        rcases List.mem_cons.mp hx with rfl | hx
        · simp
        · exact List.mem_cons_of_mem _ (h3 x hx)
      · intro x hx; exact h4 x (mem_addNew.mpr (Or.inl hx))
      · intro x hx
        rcases h5 x hx with h | h
        · rcases mem_addNew.mp h with h | rfl
          · exact Or.inl h
          · exact Or.inr (by simp)
        · exact Or.inr (List.mem_cons_of_mem _ h)
      · intro x hx
        rcases List.mem_cons.mp hx with rfl | hx
        · exact ⟨h4 _ (mem_addNew.mpr (Or.inr rfl)), n, hnm, rfl, hk⟩
        · exact h6 x hx
      · intro m hm hmc hmk
        rcases List.mem_cons.mp hmc with e | hmc
        · rw [e]; simp
        · exact List.mem_cons_of_mem _ (h7 m hm hmc hmk)
    · rw [if_neg hk]
      obtain ⟨C', new, h1, h2, h3, h4, h5, h6, h7⟩ := pushConsumers_ok hn env cs C Q hc'
      refine ⟨C', new, h1, by simp; omega, fun x hx => List.mem_cons_of_mem _ (h3 x hx), h4, h5, h6, ?_⟩
      intro m hm hmc hmk
      rcases List.mem_cons.mp hmc with e | hmc
      · have : m = n := name_inj hn hm hnm e
        subst this; exact absurd hmk hk
      · exact h7 m hm hmc hmk

theorem mem_allConsumers {g : Graph} (hx : g.IndexExact) {n : Node} {x : String} :
    x ∈ allConsumers g n ↔ ∃ m ∈ g.nodemap, m.name = x ∧ Dep m n := by
  simp only [allConsumers, List.mem_flatMap]
  have key : ∀ o, (g.consumedby.get? o).getD [] = consumersOf g.nodemap o := by
    intro o; rw [hx.1 o]; split <;> simp_all
  constructor
  · rintro ⟨o, ho, h⟩
    rw [key] at h
    obtain ⟨m, hm, e, hom⟩ := (mem_occ (f := Node.input)).mp h
    exact ⟨m, hm, e, o, hom, ho⟩
  · rintro ⟨m, hm, e, o, hom, ho⟩
    exact ⟨o, ho, by rw [key]; exact (mem_occ (f := Node.input)).mpr ⟨m, hm, e, hom⟩⟩

/-- search state: static values `env`, constant names `C`, work list `Q`, nodes `rest` not yet visited by the outer loop -/
structure KInv (g : Graph) (f : Node → List V → Nat → V) (env0 env : Env V) (C Q : List String) (rest : List Node) :
    Prop where
  static : ∀ t, (env t).isSome = true → StaticT g.nodemap (fun t => (env0 t).isSome = true) t
  ext : ∀ t, (env0 t).isSome = true → (env t).isSome = true
  consts : ∀ x ∈ C, ∃ n ∈ g.nodemap, n.name = x ∧ isConst env n = true
  queue : ∀ x ∈ Q, x ∈ C
  done : ∀ n ∈ g.nodemap, n.name ∈ C → n.name ∈ Q ∨ ∀ o ∈ n.output, (env o).isSome = true
  comp : ∀ n ∈ g.nodemap, isConst env n = true → n.name ∈ C ∨ n ∈ rest
  val : ∀ t v, env t = some v → Ev g.nodemap f env0 t v

theorem isConst_mono {e1 e2 : Env V} (h : ∀ t, (e1 t).isSome = true → (e2 t).isSome = true) {n : Node}
    (hk : isConst e1 n = true) : isConst e2 n = true := by
  rw [isConst_iff] at hk ⊢
  exact ⟨hk.1, fun t ht => h t (hk.2 t ht)⟩

theorem filterMap_all {env : Env V} : ∀ {ts : List String} (_ : ∀ t ∈ ts, (env t).isSome = true),
    (ts.filterMap env).length = ts.length ∧
      ∀ (i : Nat) t v, ts[i]? = some t → (ts.filterMap env)[i]? = some v → env t = some v
  | [], _ => ⟨rfl, by simp⟩
  | a :: ts, h => by
    obtain ⟨v, hv⟩ := Option.isSome_iff_exists.mp (h a (by simp))
    obtain ⟨h1, h2⟩ := filterMap_all (env := env) (ts := ts) (fun t ht => h t (List.mem_cons_of_mem _ ht))
    rw [List.filterMap_cons_some hv]
    refine ⟨by simp [h1], ?_⟩
    intro i t w hi hw
    cases i with
    | zero => simp at hi hw; subst hi; subst hw; exact hv
    | succ i => simp at hi hw; exact h2 i t w (by simpa using hi) (by simpa using hw)

theorem propagate_ok {g : Graph} (hw : Ix g) (f : Node → List V → Nat → V) {env0 : Env V} {rest : List Node}
    {w : String → Nat}
    (hwt : ∀ n ∈ g.nodemap, ∀ ps : List String, (∀ p ∈ ps, ∃ m ∈ g.nodemap, m.name = p ∧ Dep m n) →
      ps.length ≤ (allConsumers g n).length → (ps.map w).sum + 1 ≤ w n.name) :
    ∀ (fuel : Nat) (Q : List String) (env : Env V) (C : List String) (_ : KInv g f env0 env C Q rest)
      (_ : (Q.map w).sum + 1 ≤ fuel),
    ∃ env' C', propagate g f fuel Q env C = .ok (env', C') ∧ KInv g f env0 env' C' [] rest ∧
      (∀ x ∈ C, x ∈ C') ∧ (∀ t, (env t).isSome = true → (env' t).isSome = true)
  | 0, Q, env, C, h, hf => by omega
  | fuel + 1, [], env, C, h, hf => ⟨env, C, rfl, h, fun _ h => h, fun _ h => h⟩
  | fuel + 1, x :: Q, env, C, h, hf => by
    obtain ⟨n, hn, e, hk⟩ := h.consts x (h.queue x (by simp))
    subst e
    have hk' := isConst_iff.mp hk
    obtain ⟨hlen, hvals⟩ := filterMap_all hk'.2
    let env' := assign env (f n (n.input.filterMap env)) n.output 0
    have hsome : ∀ t, (env' t).isSome = true ↔ (env t).isSome = true ∨ t ∈ n.output :=
      fun t => assign_isSome _ t n.output 0 env
    have hmono : ∀ t, (env t).isSome = true → (env' t).isSome = true := fun t ht => (hsome t).mpr (Or.inl ht)
    obtain ⟨C1, new, p1, p2, p3, p4, p5, p6, p7⟩ := pushConsumers_ok hw.names env' (allConsumers g n) C Q
      (fun c hc => by obtain ⟨m, hm, e, -⟩ := (mem_allConsumers hw.exact_).mp hc; exact ⟨m, hm, e⟩)
    have hinv : KInv g f env0 env' C1 (Q ++ new) rest := by
      refine ⟨?_, ?_, ?_, ?_, ?_, ?_, ?_⟩
      · intro t ht
        rcases (hsome t).mp ht with ht | ht
        · exact h.static t ht
        · exact StaticT.out hn hk'.1 (fun s hs => h.static s (hk'.2 s hs)) ht
      · exact fun t ht => hmono t (h.ext t ht)
      · intro y hy
        rcases p5 y hy with hy | hy
        · obtain ⟨m, hm, e, hmk⟩ := h.consts y hy
          exact ⟨m, hm, e, isConst_mono hmono hmk⟩
        · exact (p6 y hy).2
      · intro y hy
        rcases List.mem_append.mp hy with hy | hy
        · exact p4 y (h.queue y (List.mem_cons_of_mem _ hy))
        · exact (p6 y hy).1
      · intro m hm hmC
        rcases p5 _ hmC with hmC | hmN
        · rcases h.done m hm hmC with h1 | h1
          · rcases List.mem_cons.mp h1 with e | h1
            · have : m = n := name_inj hw.names hm hn e
              subst this
              exact Or.inr (fun o ho => (hsome o).mpr (Or.inr ho))
            · exact Or.inl (List.mem_append_left _ h1)
          · exact Or.inr (fun o ho => hmono o (h1 o ho))
        · exact Or.inl (List.mem_append_right _ hmN)
      · intro m hm hmk
        by_cases hold : isConst env m = true
        · rcases h.comp m hm hold with h1 | h1
          · exact Or.inl (p4 _ h1)
          · exact Or.inr h1
        · left
          have hd : Dep m n := by
            apply Classical.byContradiction
            intro hnd
            apply hold
            rw [isConst_iff] at hmk ⊢
            refine ⟨hmk.1, fun t ht => ?_⟩
            rcases (hsome t).mp (hmk.2 t ht) with h1 | h1
            · exact h1
            · exact absurd ⟨t, ht, h1⟩ hnd
          exact (p6 _ (p7 m hm ((mem_allConsumers hw.exact_).mpr ⟨m, hm, rfl, hd⟩) hmk)).1
      · intro t v hv
        rcases assign_val _ t v n.output 0 env hv with hv | ⟨j, hj, rfl⟩
        · exact h.val t v hv
        · rw [Nat.zero_add]
          exact Ev.node _ hn hj hlen (fun i s u hi hu => h.val s u (hvals i s u hi hu))
    have hdec := hwt n hn new (fun p hp => (mem_allConsumers hw.exact_).mp (p3 p hp)) p2
    obtain ⟨env2, C2, k1, k2, k3, k4⟩ := propagate_ok hw f hwt fuel (Q ++ new) env' C1 hinv (by
      simp only [List.map_cons, List.sum_cons, List.map_append, List.sum_append] at hf ⊢
      omega)
    refine ⟨env2, C2, ?_, k2, fun y hy => k3 y (p4 y hy), fun t ht => k4 t (hmono t ht)⟩
    unfold propagate
    rw [findNode_mem hw.names hn]
    simp only
    rw [p1]; exact k1

theorem searchNodes_ok {g : Graph} (hw : Ix g) (f : Node → List V → Nat → V) {env0 : Env V} {w : String → Nat}
    (hwt : ∀ n ∈ g.nodemap, ∀ ps : List String, (∀ p ∈ ps, ∃ m ∈ g.nodemap, m.name = p ∧ Dep m n) →
      ps.length ≤ (allConsumers g n).length → (ps.map w).sum + 1 ≤ w n.name)
    (fuel : Nat) (hfuel : ∀ n ∈ g.nodemap, w n.name + 1 ≤ fuel) :
    ∀ (rest : List Node) (env : Env V) (C : List String) (_ : KInv g f env0 env C [] rest)
      (_ : ∀ n ∈ rest, n ∈ g.nodemap),
    ∃ env' C', searchNodes g f fuel rest env C = .ok (env', C') ∧ KInv g f env0 env' C' [] []
  | [], env, C, h, _ => ⟨env, C, rfl, h⟩
  | n :: rest, env, C, h, hr => by
    have hn := hr n (by simp)
    have hr' : ∀ m ∈ rest, m ∈ g.nodemap := fun m hm => hr m (List.mem_cons_of_mem _ hm)
    unfold searchNodes
    by_cases hC : C.contains n.name = true
    · rw [if_pos hC]
      rw [List.contains_iff_mem] at hC
      apply searchNodes_ok hw f hwt fuel hfuel rest env C _ hr'
      refine ⟨h.static, h.ext, h.consts, h.queue, h.done, ?_, h.val⟩
      intro m hm hmk
      rcases h.comp m hm hmk with h1 | h1
      · exact Or.inl h1
      · rcases List.mem_cons.mp h1 with rfl | h1
        · exact Or.inl hC
        · exact Or.inr h1
    · rw [if_neg hC]
      by_cases hk : isConst env n = true
      · rw [if_pos hk]
        obtain ⟨env1, C1, p1, p2, -, -⟩ := propagate_ok hw f (rest := rest) hwt fuel [n.name] env (addNew C n.name) (by
          refine ⟨h.static, h.ext, ?_, ?_, ?_, ?_, h.val⟩
          · intro x hx
            rcases mem_addNew.mp hx with hx | rfl
            · exact h.consts x hx
            · exact ⟨n, hn, rfl, hk⟩
          · intro x hx; rw [List.mem_singleton] at hx; exact mem_addNew.mpr (Or.inr hx)
          · intro m hm hmC
            rcases mem_addNew.mp hmC with hmC | e
            · exact Or.inr ((h.done m hm hmC).resolve_left (by simp))
            · exact Or.inl (by simp [e])
          · intro m hm hmk
            rcases h.comp m hm hmk with h1 | h1
            · exact Or.inl (mem_addNew.mpr (Or.inl h1))
            · rcases List.mem_cons.mp h1 with rfl | h1
              · exact Or.inl (mem_addNew.mpr (Or.inr rfl))
              · exact Or.inr h1) (by simpa using hfuel n hn)
        rw [p1]
        simp only
        exact searchNodes_ok hw f hwt fuel hfuel rest env1 C1 p2 hr'
      · rw [if_neg hk]
        apply searchNodes_ok hw f hwt fuel hfuel rest env C _ hr'
        refine ⟨h.static, h.ext, h.consts, h.queue, h.done, ?_, h.val⟩
        intro m hm hmk
        rcases h.comp m hm hmk with h1 | h1
        · exact Or.inl h1
        · rcases List.mem_cons.mp h1 with rfl | h1
          · exact absurd hmk hk
          · exact Or.inr h1

theorem constantSearch_ok {g : Graph} (hw : Ix g) (hac : Acyclic g.nodemap) (f : Node → List V → Nat → V) (env0 : Env V) :
    ∃ N, ∀ fuel, N ≤ fuel → ∃ env C, constantSearch g f fuel env0 = .ok (env, C) ∧ KInv g f env0 env C [] [] := by
  obtain ⟨w, hwt⟩ := acyclic_weight_down hw.names hac (fun n => (allConsumers g n).length)
  refine ⟨(g.nodemap.map (fun n => w n.name)).sum + 1, ?_⟩
  intro fuel hf
  apply searchNodes_ok hw f hwt fuel ?_ g.nodemap env0 []
  · exact ⟨fun t ht => StaticT.init ht, fun _ h => h, by simp, by simp, by simp, fun n hn _ => Or.inr hn,
      fun t v hv => Ev.base hv⟩
  · exact fun _ h => h
  · intro n hn
    have := le_sum_of_mem (w := w) hn
    omega

theorem kinv_final {g : Graph} (hw : Ix g) {f : Node → List V → Nat → V} {env0 env : Env V} {C : List String}
    (h : KInv g f env0 env C [] []) :
    (∀ t, (env t).isSome = true ↔ StaticT g.nodemap (fun t => (env0 t).isSome = true) t) ∧
    (∀ n ∈ g.nodemap, (n.name ∈ C ↔ ConstNode g.nodemap (fun t => (env0 t).isSome = true) n)) := by
  have h1 : ∀ t, (env t).isSome = true ↔ StaticT g.nodemap (fun t => (env0 t).isSome = true) t := by
    intro t
    refine ⟨h.static t, ?_⟩
    intro hs
    induction hs with
    | init ht => exact h.ext _ ht
    | out hn hop _ ho ih =>
      have hC := (h.comp _ hn (isConst_iff.mpr ⟨hop, ih⟩)).resolve_right (by simp)
      exact (h.done _ hn hC).resolve_left (by simp) _ ho
  refine ⟨h1, ?_⟩
  intro n hn
  constructor
  · intro hC
    obtain ⟨m, hm, e, hk⟩ := h.consts _ hC
    have : m = n := name_inj hw.names hm hn e
    subst this
    rw [isConst_iff] at hk
    exact ⟨hn, hk.1, fun t ht => (h1 t).mp (hk.2 t ht)⟩
  · rintro ⟨-, hop, hs⟩
    exact (h.comp n hn (isConst_iff.mpr ⟨hop, fun t ht => (h1 t).mpr (hs t ht)⟩)).resolve_right (by simp)

/-! ### evaluation -/

/-- hypotheses making evaluation deterministic: every tensor is given or produced, at most once -/
structure Det (ns : List Node) (E : Env V) : Prop where
  nodup : (ns.flatMap (·.output)).Nodup
  given : ∀ n ∈ ns, ∀ o ∈ n.output, E o = none

theorem output_unique {ns : List Node} (hd : (ns.flatMap (·.output)).Nodup) {n m : Node} (hn : n ∈ ns) (hm : m ∈ ns)
    {j k : Nat} {o : String} (h1 : n.output[j]? = some o) (h2 : m.output[k]? = some o) : n = m ∧ j = k := by
  have e : n = m := by
    apply Classical.byContradiction
    intro hne
    have := outCount_two hn hm hne (List.mem_of_getElem? h1) (List.mem_of_getElem? h2)
    have h3 := hd.count (a := o)
    split at h3 <;> omega
  subst e
  refine ⟨rfl, ?_⟩
  have hnd : n.output.Nodup := by
    obtain ⟨a, b, rfl⟩ := List.append_of_mem hn
    rw [List.flatMap_append, List.flatMap_cons, List.nodup_append, List.nodup_append] at hd
    exact hd.2.1.1
  obtain ⟨hj, hj'⟩ := List.getElem?_eq_some_iff.mp h1
  obtain ⟨hk, hk'⟩ := List.getElem?_eq_some_iff.mp h2
  exact (List.getElem_inj hnd).mp (hj'.trans hk'.symm)

theorem ev_det {ns : List Node} {f : Node → List V → Nat → V} {E : Env V} (hd : Det ns E) {t : String} {v : V}
    (h1 : Ev ns f E t v) : ∀ {u : V}, Ev ns f E t u → v = u := by
  induction h1 with
  | base h =>
    intro u h2
    cases h2 with
    | base h' => rw [h] at h'; cases h'; rfl
    | node vs hn ho _ _ => rw [hd.given _ hn _ (List.mem_of_getElem? ho)] at h; cases h
  | @node n k o vs hn ho hl _ ih =>
    intro u h2
    cases h2 with
    | base h' => rw [hd.given _ hn _ (List.mem_of_getElem? ho)] at h'; cases h'
    | @node m j _ us hm ho' hl' hin =>
      obtain ⟨rfl, rfl⟩ := output_unique hd.nodup hn hm ho ho'
      have : vs = us := by
        apply List.ext_getElem?
        intro i
        by_cases hi : i < n.input.length
        · have e1 : n.input[i]? = some n.input[i] := List.getElem?_eq_getElem hi
          have e2 : vs[i]? = some (vs[i]'(by omega)) := List.getElem?_eq_getElem _
          have e3 : us[i]? = some (us[i]'(by omega)) := List.getElem?_eq_getElem _
          rw [e2, e3, ih i _ _ e1 e2 (hin i _ _ e1 e3)]
        · rw [List.getElem?_eq_none (by omega), List.getElem?_eq_none (by omega)]
      rw [this]

theorem ev_mono {ns : List Node} {f : Node → List V → Nat → V} {E E' : Env V} (h : ∀ t v, E t = some v → E' t = some v)
    {t : String} {v : V} (hv : Ev ns f E t v) : Ev ns f E' t v := by
  induction hv with
  | base hb => exact Ev.base (h _ _ hb)
  | node vs hn ho hl _ ih => exact Ev.node vs hn ho hl ih

end OnnxTool.ConstFold
