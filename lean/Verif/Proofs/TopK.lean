import Verif.Spec.TopK
import Verif.Proofs.Branch
/-! # Lemmas about `__set_fixed_topk` -/
namespace OnnxTool.TopK
open OnnxTool Remove Topsort Branch

/-- Removing any nodes succeeds when the producer index is exact and tensors that are read are produced at most once. -/
theorem removeEach_prod : ∀ (R : List String) (g : Graph), (g.nodemap.map (·.name)).Nodup → g.producedby.keys.Nodup → IndexIs g.producedby (producersOf g.nodemap) →
    UniqueProducers g.nodemap →
    ∃ g', removeEach R g = .ok g' ∧ g'.nodemap = g.nodemap.filter (fun m => !R.contains m.name) ∧ g'.input = g.input ∧ g'.initials = g.initials ∧
      ((∀ m ∈ g.nodemap, m.name ∈ R → ∀ o ∈ m.output, o ∉ g.output) → g'.output = g.output)
  | [], g, _, _, _, _ => ⟨g, rfl, (List.filter_eq_self.mpr (by simp)).symm, rfl, rfl, fun _ => rfl⟩
  | x :: R, g, hn, hk, hP, hu => by
    cases hf : findNode g.nodemap x with
    | none =>
      obtain ⟨g', h1, h2, h3, h4, h5⟩ := removeEach_prod R g hn hk hP hu
      refine ⟨g', by rw [removeEach, removeOne_missing hf]; exact h1, ?_, h3, h4, fun h => h5 fun m hm hR => h m hm (List.mem_cons_of_mem _ hR)⟩
      rw [h2]
      refine List.filter_congr fun m hm => ?_
      have := findNode_none hf m hm
      simp [this]
    | some nd =>
      obtain ⟨hm, rfl⟩ := findNode_some hf
      have h1 := rmProducers_ok nd.name nd.output g (producersOf g.nodemap) hk hP (fun t => Nat.le_of_eq (occ_count (f := Node.output) hn hm t).symm)
      have hP' := fold_eraseAt_index (f := Node.output) hn hm hk hP
      obtain ⟨g2, new, h2, h3, h4, h5, h6, h7⟩ := rmConsumers_any nd.name nd.input { g with
          producedby := nd.output.foldl (fun d t => eraseAt d t nd.name) g.producedby
          output := nd.output.foldl List.erase g.output } [] (by
        intro t ht p hp
        simp only at hp
        rw [hP' t] at hp
        obtain ⟨rfl, hne⟩ := norm_eq_some.mp hp
        have hlen : (occ Node.output (popNode g.nodemap nd.name) t).length = 1 := by
          have := List.length_pos_iff.mpr hne
          have h8 : (occ Node.output (popNode g.nodemap nd.name) t).length ≤ (g.nodemap.flatMap Node.output).count t := by
            rw [occ_length]; exact (sub_flatMap (popNode_sub _ _) _).count_le t
          have h9 : (g.nodemap.flatMap Node.output).count t ≤ 1 := hu nd hm t ht
          omega
        obtain ⟨y, hy⟩ := List.length_eq_one_iff.mp hlen
        have : y ∈ occ Node.output (popNode g.nodemap nd.name) t := by rw [hy]; simp
        obtain ⟨k, hk, hky, _⟩ := mem_occ.mp this
        exact ⟨k, (mem_popNode.mp hk).1, by rw [hy, ← hky]⟩) hn
      have hstep : removeOne g nd.name = .ok ({ g2 with nodemap := popNode g2.nodemap nd.name }, new) := by
        unfold removeOne
        rw [hf]
        simp only
        rw [h1]
        simp only
        rw [h2]
      have hnodes : ({ g2 with nodemap := popNode g2.nodemap nd.name } : Graph).nodemap = popNode g.nodemap nd.name := by
        show popNode g2.nodemap nd.name = _
        rw [h3]
      obtain ⟨g', k1, k2, k3, k4, k5⟩ := removeEach_prod R { g2 with nodemap := popNode g2.nodemap nd.name }
        (by rw [hnodes]; exact nodup_names_sub (popNode_sub _ _) hn)
        (by show g2.producedby.keys.Nodup; rw [h4]; exact fold_eraseAt_nodup _ _ hk)
        (by rw [hnodes]; show IndexIs g2.producedby _; rw [h4]; exact hP')
        (by rw [hnodes]; exact uniq_sub (popNode_sub _ _) hu)
      refine ⟨g', by rw [removeEach, hstep]; exact k1, ?_, by rw [k3]; exact h6, by rw [k4]; exact h7, fun h => ?_⟩
      · rw [k2, hnodes]
        unfold popNode
        rw [List.filter_filter]
        refine List.filter_congr fun m _ => ?_
        by_cases e : m.name = nd.name <;> by_cases e2 : m.name ∈ R <;> simp [e, e2]
      · have ho : g2.output = g.output := by
          rw [h5]; exact foldl_erase_none (h nd hm List.mem_cons_self)
        refine (k5 ?_).trans ho
        intro m hm' hR o ho'
        rw [hnodes] at hm'
        show o ∉ g2.output
        rw [ho]
        exact h m (mem_popNode.mp hm').1 (List.mem_cons_of_mem _ hR) o ho'

section
variable {N : List Node} {C P : Dict (List String)} (hC : IndexIs C (consumersOf N)) (hP : IndexIs P (producersOf N)) (hu : UniqueProducers N)
include hC hP hu

omit hP hu in
theorem cons_get (t : String) : (C.get? t = none ∧ ¬ Read N t) ∨ ∃ l, C.get? t = some l ∧ Read N t ∧ (l.length = 1 ↔ ReadOnce N t) := by
  have h : C.get? t = norm (occ Node.input N t) := hC t
  rw [h]
  by_cases e : occ Node.input N t = []
  · refine .inl ⟨norm_eq_none.mpr e, ?_⟩
    rintro ⟨n, hn, ht⟩
    exact occ_nil.mp e n hn ht
  · refine .inr ⟨_, norm_eq_some.mpr ⟨rfl, e⟩, ?_, ?_⟩
    · refine Classical.byContradiction fun hr => e (occ_nil.mpr fun m hm ht => hr ⟨m, hm, ht⟩)
    · unfold ReadOnce
      rw [occ_length]

/-- what the loop over the inputs returns, if it does -/
theorem onceRead_ok : ∀ (is new : List String), onceRead C P is = .ok new →
    (∀ i ∈ is, Read N i ∧ (ReadOnce N i → Produced N i ∧ ∀ m ∈ N, i ∈ m.output → m.name ∈ new)) ∧
      (∀ x ∈ new, ∃ m ∈ N, m.name = x ∧ ∃ i ∈ is, ReadOnce N i ∧ i ∈ m.output) ∧ new.length ≤ is.length
  | [], new, h => by rw [onceRead] at h; cases h; simp
  | i :: is, new, h => by
    rw [onceRead] at h
    rcases cons_get hC i with ⟨e, _⟩ | ⟨l, e, hr, hl⟩
    · rw [e] at h; cases h
    · rw [e] at h
      obtain ⟨p1, p2, p3⟩ := producer_of hP hu hr
      simp only at h
      split at h
      · rename_i h1
        cases hp : P.get? i with
        | none => rw [hp] at h; cases h
        | some l' =>
          rw [hp] at h
          cases l' with
          | nil => exact absurd hp p3
          | cons p ps =>
            simp only at h
            cases ho : onceRead C P is with
            | error e => rw [ho] at h; cases h
            | ok new' =>
              rw [ho] at h
              cases h
              obtain ⟨a, b, c⟩ := onceRead_ok is new' ho
              obtain ⟨m, hm, hmi⟩ := p2 (by rw [hp]; simp)
              have hpm := p1 m hm hmi
              rw [hp] at hpm
              cases hpm
              refine ⟨?_, ?_, by simpa using c⟩
              · intro j hj
                rcases List.mem_cons.mp hj with rfl | hj
                · refine ⟨hr, fun _ => ⟨⟨m, hm, hmi⟩, fun k hk hki => ?_⟩⟩
                  have := p1 k hk hki
                  rw [hp] at this
                  simp only [Option.some.injEq, List.cons.injEq, and_true] at this
                  rw [this]; exact List.mem_cons_self
                · obtain ⟨a1, a2⟩ := a j hj
                  exact ⟨a1, fun ho => ⟨(a2 ho).1, fun k hk hki => List.mem_cons_of_mem _ ((a2 ho).2 k hk hki)⟩⟩
              · intro x hx
                rcases List.mem_cons.mp hx with rfl | hx
                · exact ⟨m, hm, rfl, i, List.mem_cons_self, hl.mp h1, hmi⟩
                · obtain ⟨k, hk, e, j, hj, r⟩ := b x hx
                  exact ⟨k, hk, e, j, List.mem_cons_of_mem _ hj, r⟩
      · rename_i h1
        obtain ⟨a, b, c⟩ := onceRead_ok is new h
        refine ⟨?_, ?_, Nat.le_trans c (Nat.le_succ _)⟩
        · intro j hj
          rcases List.mem_cons.mp hj with rfl | hj
          · exact ⟨hr, fun ho => absurd (hl.mpr ho) h1⟩
          · exact a j hj
        · intro x hx
          obtain ⟨k, hk, e, j, hj, r⟩ := b x hx
          exact ⟨k, hk, e, j, List.mem_cons_of_mem _ hj, r⟩

theorem onceRead_total : ∀ (is : List String), (∀ i ∈ is, Read N i) → (∀ i ∈ is, ReadOnce N i → Produced N i) → ∃ new, onceRead C P is = .ok new
  | [], _, _ => ⟨[], rfl⟩
  | i :: is, h1, h2 => by
    obtain ⟨new, hnew⟩ := onceRead_total is (fun j hj => h1 j (List.mem_cons_of_mem _ hj)) (fun j hj => h2 j (List.mem_cons_of_mem _ hj))
    rw [onceRead]
    rcases cons_get hC i with ⟨_, e⟩ | ⟨l, e, hr, hl⟩
    · exact absurd (h1 i List.mem_cons_self) e
    · rw [e]
      simp only
      split
      · rename_i h
        obtain ⟨m, hm, hmi⟩ := h2 i List.mem_cons_self (hl.mp h)
        rw [(producer_of hP hu hr).1 m hm hmi]
        simp only [hnew]
        exact ⟨_, rfl⟩
      · exact ⟨_, hnew⟩

/-- the names in `S` whose once-read inputs' producers are all in `R` -/
def Closed (N : List Node) (S R : List String) : Prop := ∀ m ∈ N, m.name ∈ S → ∀ i ∈ m.input, ReadOnce N i → Produced N i ∧ ∀ p ∈ N, i ∈ p.output → p.name ∈ R

omit hC hP hu in
theorem ServesK.mem {m : Node} (h : ServesK N m) : m ∈ N := by cases h <;> assumption

/-- what the `while` loop returns, if it does: `ns` is the current node map, in which some nodes may read a tensor that is not in the consumer index -/
theorem chain_ok {ns : List Node} (hnames : (N.map (·.name)).Nodup) (hns : ∀ x nd, findNode ns x = some nd → nd.name = x → nd ∈ N ∨ ∃ i ∈ nd.input, ¬ Read N i) :
    ∀ (fuel : Nat) (q rm R : List String), chain ns C P fuel q rm = .ok R → (∀ x ∈ rm ++ q, ∃ m, ServesK N m ∧ m.name = x) → Closed N rm (rm ++ q) →
      (∀ x ∈ rm ++ q, x ∈ R) ∧ (∀ x ∈ R, ∃ m, ServesK N m ∧ m.name = x) ∧ Closed N R R := by
  intro fuel
  induction fuel with
  | zero =>
    intro q rm R h h1 h2
    cases q with
    | nil => rw [chain] at h; cases h; rw [List.append_nil] at h1 h2 ⊢; exact ⟨fun x hx => hx, h1, h2⟩
    | cons s q => rw [chain] at h; cases h
  | succ fuel ih =>
    intro q rm R h h1 h2
    cases q with
    | nil => rw [chain] at h; cases h; rw [List.append_nil] at h1 h2 ⊢; exact ⟨fun x hx => hx, h1, h2⟩
    | cons s q =>
      rw [chain] at h
      cases hf : findNode ns s with
      | none => rw [hf] at h; cases h
      | some nd =>
        rw [hf] at h
        simp only at h
        cases ho : onceRead C P nd.input with
        | error e => rw [ho] at h; cases h
        | ok new =>
          rw [ho] at h
          simp only at h
          obtain ⟨a, b, -⟩ := onceRead_ok hC hP hu _ _ ho
          have hname := (findNode_some hf).2
          have hndN : nd ∈ N := by
            rcases hns s nd hf hname with h' | ⟨i, hi, hr⟩
            · exact h'
            · exact absurd (a i hi).1 hr
          have hserves : ServesK N nd := by
            obtain ⟨m, hm, e⟩ := h1 s (by simp)
            have := name_inj hnames hm.mem hndN (by rw [e, hname])
            rw [← this]; exact hm
          have hsub : ∀ x, x ∈ rm ++ s :: q → x ∈ rm ++ [s] ++ (q ++ new) := by
            intro x hx
            simp only [List.mem_append, List.mem_cons, List.not_mem_nil, or_false] at hx ⊢
            grind
          obtain ⟨r1, r2, r3⟩ := ih (q ++ new) (rm ++ [s]) R h (by
            intro x hx
            have hx' : x ∈ rm ++ s :: q ∨ x ∈ new := by
              simp only [List.mem_append, List.mem_cons, List.not_mem_nil, or_false] at hx ⊢
              grind
            rcases hx' with hx' | hx'
            · exact h1 x hx'
            · obtain ⟨m, hm, e, i, hi, ho, hio⟩ := b x hx'
              exact ⟨m, .feeds hserves hi ho hm hio, e⟩) (by
            intro m hm hmr i hi hone
            rcases List.mem_append.mp hmr with hmr | hmr
            · obtain ⟨c1, c2⟩ := h2 m hm hmr i hi hone
              exact ⟨c1, fun p hp hpi => hsub _ (c2 p hp hpi)⟩
            · have : m = nd := name_inj hnames hm hndN (by rw [List.mem_singleton.mp hmr, hname])
              subst this
              obtain ⟨c1, c2⟩ := (a i hi).2 hone
              refine ⟨c1, fun p hp hpi => ?_⟩
              have := c2 p hp hpi
              simp only [List.mem_append]
              exact .inr (.inr this))
          exact ⟨fun x hx => r1 x (hsub x hx), r2, r3⟩

omit hC hP hu in
theorem sum_append (f : String → Nat) (a b : List String) : ((a ++ b).map f).sum = (a.map f).sum + (b.map f).sum := by
  rw [List.map_append, List.sum_append_nat]

omit hC hP hu in
theorem sum_le (f : String → Nat) (B : Nat) : ∀ (l : List String), (∀ x ∈ l, f x ≤ B) → (l.map f).sum ≤ l.length * B
  | [], _ => by simp
  | a :: l, h => by
    have h1 := h a List.mem_cons_self
    have h2 := sum_le f B l fun x hx => h x (List.mem_cons_of_mem _ hx)
    rw [List.map_cons, List.sum_cons, List.length_cons, Nat.succ_mul]
    omega

/-- the `while` loop ends: `r` ranks the nodes, consumers above producers; `M` bounds the number of inputs -/
theorem chain_total {ns : List Node} {r : String → Nat} {M : Nat} (hM : ∀ m ∈ N, m.input.length ≤ M) (hr : ∀ a ∈ N, ∀ b ∈ N, Dep a b → r b.name < r a.name)
    (hS : ∀ m, ServesK N m → findNode ns m.name = some m) (hfol : ∀ t, Followed N t → Produced N t) :
    ∀ (fuel : Nat) (q rm : List String), (∀ x ∈ q, ∃ m, ServesK N m ∧ m.name = x) → (q.map fun x => (M + 1) ^ (r x + 1)).sum ≤ fuel → ∃ R, chain ns C P fuel q rm = .ok R := by
  intro fuel
  induction fuel with
  | zero =>
    intro q rm _ hf
    cases q with
    | nil => exact ⟨rm, by rw [chain]⟩
    | cons s q =>
      have : 0 < (M + 1) ^ (r s + 1) := Nat.pow_pos (Nat.succ_pos M)
      rw [List.map_cons, List.sum_cons] at hf
      omega
  | succ fuel ih =>
    intro q rm hq hf
    cases q with
    | nil => exact ⟨rm, by rw [chain]⟩
    | cons s q =>
      obtain ⟨m, hm, rfl⟩ := hq s List.mem_cons_self
      rw [chain, hS m hm]
      simp only
      obtain ⟨new, hnew⟩ := onceRead_total hC hP hu m.input (fun i hi => ⟨m, hm.mem, hi⟩) (fun i hi ho => hfol i ⟨ho, .inr ⟨m, hm, hi⟩⟩)
      rw [hnew]
      simp only
      obtain ⟨-, b, c⟩ := onceRead_ok hC hP hu _ _ hnew
      refine ih _ _ ?_ ?_
      · intro x hx
        rcases List.mem_append.mp hx with hx | hx
        · exact hq x (List.mem_cons_of_mem _ hx)
        · obtain ⟨k, hk, e, i, hi, ho, hio⟩ := b x hx
          exact ⟨k, .feeds hm hi ho hk hio, e⟩
      · rw [sum_append]
        rw [List.map_cons, List.sum_cons] at hf
        have h1 : (new.map fun x => (M + 1) ^ (r x + 1)).sum ≤ new.length * (M + 1) ^ (r m.name) := by
          refine sum_le _ _ _ fun x hx => ?_
          obtain ⟨k, hk, e, i, hi, ho, hio⟩ := b x hx
          have := hr m hm.mem k hk ⟨i, hi, hio⟩
          rw [e] at this
          exact Nat.pow_le_pow_right (Nat.succ_pos M) this
        have h2 : new.length * (M + 1) ^ (r m.name) ≤ M * (M + 1) ^ (r m.name) := Nat.mul_le_mul_right _ (Nat.le_trans c (hM m hm.mem))
        have h3 : (M + 1) ^ (r m.name + 1) = M * (M + 1) ^ (r m.name) + (M + 1) ^ (r m.name) := by
          rw [Nat.pow_succ, Nat.mul_comm, Nat.succ_mul]
        have h4 : 0 < (M + 1) ^ (r m.name) := Nat.pow_pos (Nat.succ_pos M)
        omega

end

/-! ### the loop over the nodes -/

/-- the node map when the nodes named in `done` have been processed -/
def upTo (done : List String) (N : List Node) : List Node := N.map fun n => if n.name ∈ done then fixed n else n

theorem fixed_name (n : Node) : (fixed n).name = n.name := by unfold fixed; split <;> rfl
theorem fixed_output (n : Node) : (fixed n).output = n.output := by unfold fixed; split <;> rfl

theorem upTo_names (done : List String) (N : List Node) : (upTo done N).map (·.name) = N.map (·.name) := by
  unfold upTo
  rw [List.map_map]
  refine List.map_congr_left fun n _ => ?_
  simp only [Function.comp]
  split
  · exact fixed_name n
  · rfl

theorem findNode_upTo {done : List String} {N : List Node} (hn : (N.map (·.name)).Nodup) {n : Node} (hm : n ∈ N) :
    findNode (upTo done N) n.name = some (if n.name ∈ done then fixed n else n) := by
  have h1 : (if n.name ∈ done then fixed n else n) ∈ upTo done N := List.mem_map.mpr ⟨n, hm, rfl⟩
  have h2 := findNode_mem (by rw [upTo_names]; exact hn) h1
  have h3 : (if n.name ∈ done then fixed n else n).name = n.name := by
    split
    · exact fixed_name n
    · rfl
  rw [h3] at h2
  exact h2

theorem upTo_set {done : List String} {N : List Node} (hn : (N.map (·.name)).Nodup) {n : Node} (hm : n ∈ N) :
    Subgraph.setNode (upTo done N) (fixed n) = upTo (done ++ [n.name]) N := by
  rw [setNode_map (by rw [upTo_names]; exact hn) (by rw [upTo_names, fixed_name]; exact List.mem_map.mpr ⟨n, hm, rfl⟩)]
  unfold upTo
  rw [List.map_map]
  refine List.map_congr_left fun k hk => ?_
  simp only [Function.comp, fixed_name]
  have h1 : (if k.name ∈ done then fixed k else k).name = k.name := by
    split
    · exact fixed_name k
    · rfl
  rw [h1]
  by_cases e : k.name = n.name
  · have := name_inj hn hk hm e
    subst this
    simp
  · rw [if_neg e]
    have : k.name ∈ done ++ [n.name] ↔ k.name ∈ done := by simp [e]
    simp only [this]

theorem upTo_skip {done : List String} {N : List Node} (hn : (N.map (·.name)).Nodup) {n : Node} (hm : n ∈ N) (hop : n.op ≠ "TopK") : upTo (done ++ [n.name]) N = upTo done N := by
  unfold upTo
  refine List.map_congr_left fun k hk => ?_
  by_cases e : k.name = n.name
  · have := name_inj hn hk hm e
    subst this
    have : fixed k = k := by unfold fixed; rw [if_neg hop]
    simp [this]
  · have : k.name ∈ done ++ [n.name] ↔ k.name ∈ done := by simp [e]
    simp only [this]

theorem upTo_all {N : List Node} : upTo (N.map (·.name)) N = N.map fixed := by
  unfold upTo
  refine List.map_congr_left fun n hn => ?_
  rw [if_pos (List.mem_map.mpr ⟨n, hn, rfl⟩)]

/-- a node that has been processed reads the new initializer, or is unchanged -/
theorem upTo_find {g : Graph} (h : Loaded g) {done : List String} {x : String} {nd : Node} (hf : findNode (upTo done g.nodemap) x = some nd) :
    nd ∈ g.nodemap ∨ ∃ i ∈ nd.input, ¬ Read g.nodemap i := by
  obtain ⟨h1, -⟩ := findNode_some hf
  obtain ⟨n, hn, rfl⟩ := List.mem_map.mp h1
  by_cases e : n.name ∈ done
  · rw [if_pos e]
    unfold fixed
    by_cases hop : n.op = "TopK"
    · rw [if_pos hop]
      by_cases hl : 1 < n.input.length
      · refine .inr ⟨fixedName, ?_, fun ⟨k, hk, hki⟩ => (h.fresh k hk).1 hki⟩
        show fixedName ∈ n.input.set 1 fixedName
        exact List.mem_set hl _
      · left
        rw [List.set_eq_of_length_le (by omega)]
        exact hn
    · rw [if_neg hop]; exact .inl hn
  · rw [if_neg e]; exact .inl hn

theorem pass_ok {g0 : Graph} (h : Loaded g0) (hx : g0.IndexExact) (fuel : Nat) : ∀ (rest : List Node) (done : List String) (g g' : Graph) (rm R : List String) (c c' : Nat),
    (∀ n ∈ rest, n ∈ g0.nodemap) → (rest.map (·.name)).Nodup → (∀ n ∈ rest, n.name ∉ done) → g.nodemap = upTo done g0.nodemap → g.consumedby = g0.consumedby → g.producedby = g0.producedby →
    (∀ x ∈ rm, ∃ m, ServesK g0.nodemap m ∧ m.name = x) → Closed g0.nodemap rm rm →
    pass fuel (rest.map (·.name)) g rm c = .ok (g', R, c') →
    g' = { g with nodemap := upTo (done ++ rest.map (·.name)) g0.nodemap } ∧ (∀ x ∈ rm, x ∈ R) ∧ (∀ x ∈ R, ∃ m, ServesK g0.nodemap m ∧ m.name = x) ∧ Closed g0.nodemap R R ∧
      (∀ n ∈ rest, n.op = "TopK" → ∃ t, n.input[1]? = some t ∧ (ReadOnce g0.nodemap t → Produced g0.nodemap t ∧ ∀ m ∈ g0.nodemap, t ∈ m.output → m.name ∈ R)) ∧
      (c' > 0 ↔ c > 0 ∨ ∃ n ∈ rest, n.op = "TopK")
  | [], done, g, g', rm, R, c, c', _, _, _, hg, _, _, h1, h2, he => by
    rw [List.map_nil, pass] at he
    cases he
    refine ⟨?_, fun x hx => hx, h1, h2, by simp, by simp⟩
    rw [List.map_nil, List.append_nil, ← hg]
  | n :: rest, done, g, g', rm, R, c, c', hrest, hnd, hdone, hg, hc, hp, h1, h2, he => by
    have hnN := hrest n List.mem_cons_self
    rw [List.map_cons, List.nodup_cons] at hnd
    have hfind : findNode g.nodemap n.name = some n := by
      rw [hg, findNode_upTo h.names hnN, if_neg (hdone n List.mem_cons_self)]
    rw [List.map_cons, pass, hfind] at he
    simp only at he
    have hdone' : ∀ m ∈ rest, m.name ∉ done ++ [n.name] := by
      intro m hm hin
      rcases List.mem_append.mp hin with hin | hin
      · exact hdone m (List.mem_cons_of_mem _ hm) hin
      · exact hnd.1 (by rw [← List.mem_singleton.mp hin]; exact List.mem_map.mpr ⟨m, hm, rfl⟩)
    by_cases hop : n.op = "TopK"
    · rw [if_pos hop] at he
      split at he
      · rename_i a k kr hin
        cases hk : forK fuel g k with
        | error e => rw [hk] at he; cases he
        | ok new =>
          rw [hk] at he
          simp only at he
          have hfx : ({ n with input := a :: fixedName :: kr } : Node) = fixed n := by
            unfold fixed; rw [if_pos hop, hin]; rfl
          rw [hfx, hg, upTo_set h.names hnN] at he
          unfold forK at hk
          rw [hc, hp] at hk
          cases ho : onceRead g0.consumedby g0.producedby [k] with
          | error e => rw [ho] at hk; cases hk
          | ok q =>
            rw [ho] at hk
            simp only at hk
            obtain ⟨a1, a2, -⟩ := onceRead_ok hx.1 hx.2 h.uniq _ _ ho
            have hk1 : n.input[1]? = some k := by rw [hin]; rfl
            obtain ⟨b1, b2, b3⟩ := chain_ok hx.1 hx.2 h.uniq h.names (ns := g.nodemap) (by
              intro x nd hf _
              rw [hg] at hf
              exact upTo_find h hf) fuel q [] new hk (by
              intro x hx'
              obtain ⟨m, hm, e, i, hi, ho', hio⟩ := a2 x (by simpa using hx')
              rw [List.mem_singleton.mp hi] at ho' hio
              exact ⟨m, .k hnN hop hk1 ho' hm hio, e⟩) (by intro m _ hm; cases hm)
            obtain ⟨r1, r2, r3, r4, r5, r6⟩ := pass_ok h hx fuel rest (done ++ [n.name]) { g with nodemap := upTo (done ++ [n.name]) g0.nodemap } g' (rm ++ new) R (c + 1) c' (fun m hm => hrest m (List.mem_cons_of_mem _ hm)) hnd.2 hdone'
              rfl hc hp (by
                intro x hx'
                rcases List.mem_append.mp hx' with hx' | hx'
                · exact h1 x hx'
                · exact b2 x hx') (by
                intro m hm hmr i hi ho'
                rcases List.mem_append.mp hmr with hmr | hmr
                · obtain ⟨c1, c2⟩ := h2 m hm hmr i hi ho'
                  exact ⟨c1, fun p hp hpi => List.mem_append_left _ (c2 p hp hpi)⟩
                · obtain ⟨c1, c2⟩ := b3 m hm hmr i hi ho'
                  exact ⟨c1, fun p hp hpi => List.mem_append_right _ (c2 p hp hpi)⟩) he
            refine ⟨?_, fun x hx' => r2 x (List.mem_append_left _ hx'), r3, r4, ?_, ?_⟩
            · rw [r1]
              simp only [List.append_assoc, List.singleton_append, List.map_cons]
            · intro m hm hmop
              rcases List.mem_cons.mp hm with rfl | hm
              · refine ⟨k, hk1, fun ho' => ?_⟩
                obtain ⟨c1, c2⟩ := (a1 k (by simp)).2 ho'
                exact ⟨c1, fun p hp hpk => r2 _ (List.mem_append_right _ (b1 _ (by simpa using c2 p hp hpk)))⟩
              · exact r5 m hm hmop
            · rw [r6]
              simp only [List.mem_cons, exists_eq_or_imp, hop, true_or, or_true, iff_true]
              omega
      · cases he
    · rw [if_neg hop] at he
      obtain ⟨r1, r2, r3, r4, r5, r6⟩ := pass_ok h hx fuel rest (done ++ [n.name]) g g' rm R c c' (fun m hm => hrest m (List.mem_cons_of_mem _ hm)) hnd.2 hdone'
        (by rw [hg, upTo_skip h.names hnN hop]) hc hp h1 h2 he
      refine ⟨?_, r2, r3, r4, ?_, ?_⟩
      · rw [r1]
        simp only [List.append_assoc, List.singleton_append, List.map_cons]
      · intro m hm hmop
        rcases List.mem_cons.mp hm with rfl | hm
        · exact absurd hmop hop
        · exact r5 m hm hmop
      · rw [r6]
        simp only [List.mem_cons, exists_eq_or_imp, hop, false_or]

theorem fixed_uniq {N : List Node} (hu : UniqueProducers N) (hf : ∀ n ∈ N, fixedName ∉ n.output) : UniqueProducers (N.map fixed) := by
  have ho : (N.map fixed).flatMap (·.output) = N.flatMap (·.output) := by
    rw [List.flatMap_map]
    exact congrArg (fun f => List.flatMap f N) (funext fixed_output)
  intro n hn t ht
  rw [ho]
  obtain ⟨m, hm, rfl⟩ := List.mem_map.mp hn
  by_cases e : t = fixedName
  · subst e
    have : fixedName ∉ N.flatMap (·.output) := by
      rw [List.mem_flatMap]
      rintro ⟨k, hk, hkt⟩
      exact hf k hk hkt
    rw [List.count_eq_zero_of_not_mem this]
    omega
  · refine hu m hm t ?_
    unfold fixed at ht
    split at ht
    · rcases List.mem_or_eq_of_mem_set ht with h | h
      · exact h
      · exact absurd h e
    · exact ht

theorem fixed_producers (N : List Node) : producersOf (N.map fixed) = producersOf N := by
  funext t
  unfold producersOf
  rw [List.flatMap_map]
  refine congrArg (fun f => List.flatMap f N) (funext fun n => ?_)
  rw [fixed_output, fixed_name]

/-- the whole call, if the loop over the nodes returns -/
theorem setTopk_of_pass {g : Graph} (h : Loaded g) (hk : g.producedby.keys.Nodup) (hx : g.IndexExact) (fuel : Nat) {g1 : Graph} {R : List String} {c : Nat}
    (hp : pass fuel (g.nodemap.map (·.name)) g [] 0 = .ok (g1, R, c)) :
    ∃ g', setTopk fuel g = .ok g' ∧ g'.nodemap = (g.nodemap.map fixed).filter (fun m => !R.contains m.name) ∧ g'.input = g.input ∧
      g'.initials = g.initials ++ (if ∃ n ∈ g.nodemap, n.op = "TopK" then [fixedName] else []) ∧
      ((∀ m ∈ g.nodemap, m.name ∈ R → ∀ o ∈ m.output, o ∉ g.output) → g'.output = g.output) := by
  obtain ⟨r1, -, -, -, -, r6⟩ := pass_ok h hx fuel g.nodemap [] g g1 [] R 0 c (fun _ hm => hm) h.names (by simp) (by unfold upTo; simp) rfl rfl (by simp) (by intro m _ hm; cases hm) hp
  rw [List.nil_append, upTo_all] at r1
  unfold setTopk
  rw [hp]
  simp only
  have hc : (c > 0) = (∃ n ∈ g.nodemap, n.op = "TopK") := by
    apply propext; rw [r6]; simp
  obtain ⟨g', k1, k2, k3, k4, k5⟩ := removeEach_prod R (if c > 0 then { g1 with initials := g1.initials ++ [fixedName] } else g1)
    (by
      have : (if c > 0 then { g1 with initials := g1.initials ++ [fixedName] } else g1).nodemap = g.nodemap.map fixed := by split <;> rw [r1]
      rw [this, List.map_map]
      have : (Node.name ∘ fixed) = Node.name := funext fixed_name
      show (g.nodemap.map (Node.name ∘ fixed)).Nodup
      rw [this]; exact h.names)
    (by
      have : (if c > 0 then { g1 with initials := g1.initials ++ [fixedName] } else g1).producedby = g.producedby := by split <;> rw [r1]
      rw [this]; exact hk)
    (by
      have e1 : (if c > 0 then { g1 with initials := g1.initials ++ [fixedName] } else g1).producedby = g.producedby := by split <;> rw [r1]
      have e2 : (if c > 0 then { g1 with initials := g1.initials ++ [fixedName] } else g1).nodemap = g.nodemap.map fixed := by split <;> rw [r1]
      rw [e1, e2, fixed_producers]; exact hx.2)
    (by
      have e2 : (if c > 0 then { g1 with initials := g1.initials ++ [fixedName] } else g1).nodemap = g.nodemap.map fixed := by split <;> rw [r1]
      rw [e2]; exact fixed_uniq h.uniq fun n hn => (h.fresh n hn).2)
  refine ⟨g', k1, ?_, ?_, ?_, ?_⟩
  · rw [k2]; split <;> rw [r1]
  · rw [k3]; split <;> rw [r1]
  · rw [k4]
    by_cases e : c > 0
    · rw [if_pos e, r1, if_pos (hc ▸ e)]
    · rw [if_neg e, r1, if_neg (hc ▸ e), List.append_nil]
  · intro ho
    have e2 : (if c > 0 then { g1 with initials := g1.initials ++ [fixedName] } else g1).nodemap = g.nodemap.map fixed := by split <;> rw [r1]
    have e3 : (if c > 0 then { g1 with initials := g1.initials ++ [fixedName] } else g1).output = g.output := by split <;> rw [r1]
    rw [k5 ?_, e3]
    rw [e2, e3]
    intro m hm hR o hmo
    obtain ⟨n, hn, rfl⟩ := List.mem_map.mp hm
    rw [fixed_name] at hR
    rw [fixed_output] at hmo
    exact ho n hn hR o hmo

/-- the nodes that are removed -/
theorem pass_served {g : Graph} (h : Loaded g) (hx : g.IndexExact) (fuel : Nat) {g1 : Graph} {R : List String} {c : Nat}
    (hp : pass fuel (g.nodemap.map (·.name)) g [] 0 = .ok (g1, R, c)) :
    (∀ m ∈ g.nodemap, m.name ∈ R ↔ ServesK g.nodemap m) ∧ (∀ n ∈ g.nodemap, n.op = "TopK" → n.input[1]? ≠ none) ∧ ∀ t, Followed g.nodemap t → Produced g.nodemap t := by
  obtain ⟨r1, -, r3, r4, r5, -⟩ := pass_ok h hx fuel g.nodemap [] g g1 [] R 0 c (fun _ hm => hm) h.names (by simp) (by unfold upTo; simp) rfl rfl (by simp) (by intro m _ hm; cases hm) hp
  have hmem : ∀ m, ServesK g.nodemap m → m.name ∈ R := by
    intro m hm
    induction hm with
    | k hn hop ht ho hm hmt =>
      obtain ⟨t, ht', h'⟩ := r5 _ hn hop
      rw [ht] at ht'
      cases ht'
      exact (h' ho).2 _ hm hmt
    | feeds hs hi ho hm hmt ih => exact (r4 _ hs.mem ih _ hi ho).2 _ hm hmt
  refine ⟨fun m hm => ⟨fun hR => ?_, hmem m⟩, ?_, ?_⟩
  · obtain ⟨k, hk, e⟩ := r3 _ hR
    rw [← name_inj h.names hk.mem hm e]; exact hk
  · intro n hn hop
    obtain ⟨t, ht, _⟩ := r5 n hn hop
    rw [ht]; simp
  · rintro t ⟨ho, ⟨n, hn, hop, ht⟩ | ⟨n, hn, hnt⟩⟩
    · obtain ⟨t', ht', h'⟩ := r5 n hn hop
      rw [ht] at ht'
      cases ht'
      exact (h' ho).1
    · exact (r4 n hn.mem (hmem n hn) t hnt ho).1

/-- the loop over the nodes returns -/
theorem pass_total {g0 : Graph} (h : Loaded g0) (hx : g0.IndexExact) {r : String → Nat} {M fuel : Nat} (hM : ∀ m ∈ g0.nodemap, m.input.length ≤ M)
    (hr : ∀ a ∈ g0.nodemap, ∀ b ∈ g0.nodemap, Dep a b → r b.name < r a.name) (hfuel : ∀ m ∈ g0.nodemap, (M + 1) ^ (r m.name + 1) ≤ fuel)
    (hno : ∀ m, ServesK g0.nodemap m → m.op ≠ "TopK") (hK : ∀ n ∈ g0.nodemap, n.op = "TopK" → n.input[1]? ≠ none) (hfol : ∀ t, Followed g0.nodemap t → Produced g0.nodemap t) :
    ∀ (rest : List Node) (done : List String) (g : Graph) (rm : List String) (c : Nat),
    (∀ n ∈ rest, n ∈ g0.nodemap) → (rest.map (·.name)).Nodup → (∀ n ∈ rest, n.name ∉ done) → g.nodemap = upTo done g0.nodemap → g.consumedby = g0.consumedby → g.producedby = g0.producedby →
    ∃ res, pass fuel (rest.map (·.name)) g rm c = .ok res
  | [], done, g, rm, c, _, _, _, _, _, _ => ⟨_, rfl⟩
  | n :: rest, done, g, rm, c, hrest, hnd, hdone, hg, hc, hp => by
    have hnN := hrest n List.mem_cons_self
    rw [List.map_cons, List.nodup_cons] at hnd
    have hfind : findNode g.nodemap n.name = some n := by
      rw [hg, findNode_upTo h.names hnN, if_neg (hdone n List.mem_cons_self)]
    rw [List.map_cons, pass, hfind]
    simp only
    have hdone' : ∀ m ∈ rest, m.name ∉ done ++ [n.name] := by
      intro m hm hin
      rcases List.mem_append.mp hin with hin | hin
      · exact hdone m (List.mem_cons_of_mem _ hm) hin
      · exact hnd.1 (by rw [← List.mem_singleton.mp hin]; exact List.mem_map.mpr ⟨m, hm, rfl⟩)
    by_cases hop : n.op = "TopK"
    · rw [if_pos hop]
      split
      · rename_i a k kr hin
        have hfx : ({ n with input := a :: fixedName :: kr } : Node) = fixed n := by
          unfold fixed; rw [if_pos hop, hin]; rfl
        have hk1 : n.input[1]? = some k := by rw [hin]; rfl
        have hforK : ∃ new, forK fuel g k = .ok new := by
          unfold forK
          rw [hc, hp]
          obtain ⟨q, hq⟩ := onceRead_total hx.1 hx.2 h.uniq [k] (fun i hi => ⟨n, hnN, by rw [List.mem_singleton.mp hi, hin]; simp⟩)
            (fun i hi ho => hfol i ⟨ho, .inl ⟨n, hnN, hop, by rw [hk1, List.mem_singleton.mp hi]⟩⟩)
          rw [hq]
          simp only
          obtain ⟨-, a2, a3⟩ := onceRead_ok hx.1 hx.2 h.uniq _ _ hq
          have hserve : ∀ x ∈ q, ∃ m, ServesK g0.nodemap m ∧ m.name = x := by
            intro x hx'
            obtain ⟨m, hm, e, i, hi, ho', hio⟩ := a2 x hx'
            rw [List.mem_singleton.mp hi] at ho' hio
            exact ⟨m, .k hnN hop hk1 ho' hm hio, e⟩
          refine chain_total hx.1 hx.2 h.uniq hM hr (by
            intro m hm
            rw [hg, findNode_upTo h.names hm.mem]
            have : fixed m = m := by unfold fixed; rw [if_neg (hno m hm)]
            rw [this, ite_self]) hfol fuel q [] hserve ?_
          match q, a3, hserve with
          | [], _, _ => simp
          | [x], _, hs =>
            obtain ⟨m, hm, e⟩ := hs x (by simp)
            have := hfuel m hm.mem
            rw [e] at this
            simpa using this
          | _ :: _ :: _, ha, _ => simp at ha
        obtain ⟨new, hnew⟩ := hforK
        rw [hnew]
        simp only
        rw [hfx, hg, upTo_set h.names hnN]
        exact pass_total h hx hM hr hfuel hno hK hfol rest (done ++ [n.name]) _ (rm ++ new) (c + 1) (fun m hm => hrest m (List.mem_cons_of_mem _ hm)) hnd.2 hdone' rfl hc hp
      · rename_i hno'
        exfalso
        have := hK n hnN hop
        cases hi : n.input with
        | nil => rw [hi] at this; exact this rfl
        | cons a l =>
          cases l with
          | nil => rw [hi] at this; exact this rfl
          | cons b l => exact hno' a b l hi
    · rw [if_neg hop]
      exact pass_total h hx hM hr hfuel hno hK hfol rest (done ++ [n.name]) g rm c (fun m hm => hrest m (List.mem_cons_of_mem _ hm)) hnd.2 hdone'
        (by rw [hg, upTo_skip h.names hnN hop]) hc hp

/-- an acyclic graph has a rank -/
theorem rank_of {N : List Node} (hn : (N.map (·.name)).Nodup) (h : Acyclic N) : ∃ r : String → Nat, ∀ a ∈ N, ∀ b ∈ N, Dep a b → r b.name < r a.name := by
  obtain ⟨ms, hp, ho⟩ := h
  have hn' : (ms.map (·.name)).Nodup := (hp.map _).nodup_iff.mpr hn
  refine ⟨fun x => (ms.map (·.name)).idxOf x, fun a ha b hb hd => ?_⟩
  obtain ⟨i, hi, rfl⟩ := List.mem_iff_getElem.mp (hp.mem_iff.mpr ha)
  obtain ⟨j, hj, rfl⟩ := List.mem_iff_getElem.mp (hp.mem_iff.mpr hb)
  have key : ∀ (k : Nat) (hk : k < ms.length), (ms.map (·.name)).idxOf ms[k].name = k := by
    intro k hk
    have h1 : (ms.map (·.name))[k]'(by simpa using hk) = ms[k].name := by simp
    rw [← h1]
    exact hn'.idxOf_getElem k _
  show (ms.map (·.name)).idxOf ms[j].name < (ms.map (·.name)).idxOf ms[i].name
  rw [key i hi, key j hj]
  refine Classical.byContradiction fun hlt => ?_
  rcases Nat.lt_or_ge i j with hlt' | hge
  · exact (List.pairwise_iff_getElem.mp ho.1) i j hi hj hlt' hd
  · have : i = j := by omega
    subst this
    exact ho.2 _ (List.getElem_mem hi) hd

end OnnxTool.TopK
