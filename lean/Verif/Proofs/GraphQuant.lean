import Verif.Spec.GraphQuant
import Verif.Proofs.Branch
import Verif.Proofs.Kahn
import Mathlib.Data.List.Nodup
/-! # Lemmas about quantizing the weights of a graph -/
namespace OnnxTool.GraphQuant
open OnnxTool Quant

/-! ### names -/

theorem operands_eq : operands = newNames := rfl

theorem multiplies_iff {transB : String → Option ℤ} {n : Node} : Multiplies transB n ↔ transposes transB n = true := by
  simp [Multiplies, transposes]

theorem suffix_inj {a b s : String} (h : a ++ s = b ++ s) : a = b := by
  have := congrArg String.toList h
  rw [String.toList_append, String.toList_append] at this
  exact String.toList_inj.mp (List.append_cancel_right this)

theorem suffix_ne {a b s s' : String} (hl : s.toList.length = s'.toList.length) (hne : s.toList ≠ s'.toList) : a ++ s ≠ b ++ s' := by
  intro h
  have := congrArg String.toList h
  rw [String.toList_append, String.toList_append] at this
  exact hne (List.append_inj' this hl).2

theorem q_inj {a b : String} : qName a = qName b ↔ a = b := ⟨suffix_inj, fun h => h ▸ rfl⟩
theorem s_inj {a b : String} : sName a = sName b ↔ a = b := ⟨suffix_inj, fun h => h ▸ rfl⟩
theorem z_inj {a b : String} : zName a = zName b ↔ a = b := ⟨suffix_inj, fun h => h ▸ rfl⟩
theorem q_ne_s (a b : String) : qName a ≠ sName b := suffix_ne (by decide) (by decide)
theorem q_ne_z (a b : String) : qName a ≠ zName b := suffix_ne (by decide) (by decide)
theorem s_ne_z (a b : String) : sName a ≠ zName b := suffix_ne (by decide) (by decide)

theorem q_quantized (t : String) : isQuantized (qName t) = true := by
  simp only [isQuantized, Bool.or_eq_true, List.isSuffixOf_iff_suffix]
  exact .inl (.inl ⟨t.toList, by rw [qName, String.toList_append]⟩)
theorem s_quantized (t : String) : isQuantized (sName t) = true := by
  simp only [isQuantized, Bool.or_eq_true, List.isSuffixOf_iff_suffix]
  exact .inl (.inr ⟨t.toList, by rw [sName, String.toList_append]⟩)
theorem z_quantized (t : String) : isQuantized (zName t) = true := by
  simp only [isQuantized, Bool.or_eq_true, List.isSuffixOf_iff_suffix]
  exact .inr ⟨t.toList, by rw [zName, String.toList_append]⟩

theorem new_quantized {asym : Bool} {t x : String} (h : x ∈ newNames asym t) : isQuantized x = true := by
  cases asym <;> simp only [newNames, Bool.false_eq_true, if_false, if_true, List.mem_cons, List.not_mem_nil, or_false] at h
  · rcases h with rfl | rfl
    exacts [q_quantized t, s_quantized t]
  · rcases h with rfl | rfl | rfl
    exacts [q_quantized t, s_quantized t, z_quantized t]

theorem new_disjoint {asym : Bool} {t u x : String} (h : x ∈ newNames asym t) (h' : x ∈ newNames asym u) : t = u := by
  cases asym <;> simp only [newNames, Bool.false_eq_true, if_false, if_true, List.mem_cons, List.not_mem_nil, or_false] at h h'
  · rcases h with rfl | rfl <;> rcases h' with h' | h'
    · exact q_inj.mp h'
    · exact absurd h' (q_ne_s _ _)
    · exact absurd h'.symm (q_ne_s _ _)
    · exact s_inj.mp h'
  · rcases h with rfl | rfl | rfl <;> rcases h' with h' | h' | h'
    · exact q_inj.mp h'
    · exact absurd h' (q_ne_s _ _)
    · exact absurd h' (q_ne_z _ _)
    · exact absurd h'.symm (q_ne_s _ _)
    · exact s_inj.mp h'
    · exact absurd h' (s_ne_z _ _)
    · exact absurd h'.symm (q_ne_z _ _)
    · exact absurd h'.symm (s_ne_z _ _)
    · exact z_inj.mp h'

theorem new_nodup (asym : Bool) (t : String) : (newNames asym t).Nodup := by
  cases asym <;> simp [newNames, q_ne_s, q_ne_z, s_ne_z]

theorem plain_not_new {asym : Bool} {t u : String} (h : isQuantized u = false) : u ∉ newNames asym t := fun hm => by
  rw [new_quantized hm] at h; cases h

/-! ### readers -/

theorem consumersOf_cons (n : Node) (ns : List Node) (t : String) : consumersOf (n :: ns) t = List.replicate (n.input.count t) n.name ++ consumersOf ns t := rfl

theorem consumersOf_eq_nil {ns : List Node} {t : String} : consumersOf ns t = [] ↔ ∀ n ∈ ns, t ∉ n.input := by
  unfold consumersOf
  simp [List.flatMap_eq_nil_iff, List.replicate_eq_nil_iff, List.count_eq_zero]

theorem once_counts : ∀ {ns : List Node} (_ : (ns.map (·.name)).Nodup) {n : Node} (_ : n ∈ ns) {t : String} (_ : consumersOf ns t = [n.name]),
    n.input.count t = 1 ∧ ∀ m ∈ ns, m.name ≠ n.name → t ∉ m.input
  | [], _, _, hm, _, _ => by cases hm
  | a :: ns, hn, n, hm, t, h => by
    rw [List.map_cons, List.nodup_cons] at hn
    rw [consumersOf_cons] at h
    rcases Nat.eq_zero_or_pos (a.input.count t) with h0 | h0
    · rw [h0, List.replicate_zero, List.nil_append] at h
      have hne : n ≠ a := by
        rintro rfl
        have : n.name ∈ consumersOf ns t := by rw [h]; simp
        simp only [consumersOf, List.mem_flatMap] at this
        obtain ⟨m, hm', hx⟩ := this
        exact hn.1 (List.mem_map.mpr ⟨m, hm', (List.mem_replicate.mp hx).2.symm⟩)
      have hm' : n ∈ ns := (List.mem_cons.mp hm).resolve_left hne
      obtain ⟨h1, h2⟩ := once_counts hn.2 hm' h
      refine ⟨h1, fun m hmm he => ?_⟩
      rcases List.mem_cons.mp hmm with rfl | hmm
      · exact List.count_eq_zero.mp h0
      · exact h2 m hmm he
    · have hlen := congrArg List.length h
      rw [List.length_append, List.length_replicate, List.length_singleton] at hlen
      have h1 : a.input.count t = 1 := by omega
      have h2 : consumersOf ns t = [] := List.length_eq_zero_iff.mp (by omega)
      rw [h1, h2] at h
      have e : a.name = n.name := by simpa using h
      have hna : n = a := by
        rcases List.mem_cons.mp hm with h | h
        · exact h
        · exact absurd (List.mem_map.mpr ⟨n, h, e.symm⟩) hn.1
      subst hna
      refine ⟨h1, fun m hmm he => ?_⟩
      rcases List.mem_cons.mp hmm with rfl | hmm
      · exact absurd rfl he
      · exact consumersOf_eq_nil.mp h2 m hmm

theorem replaceFirst_once {t : String} {new : List String} : ∀ {l : List String}, l.count t = 1 → replaceFirst t new l = some (l.flatMap fun i => if i ∈ [t] then new else [i])
  | [], h => by cases h
  | i :: is, h => by
    rw [replaceFirst]
    by_cases e : i = t
    · subst e
      have h0 : i ∉ is := by rw [List.count_cons_self] at h; exact List.count_eq_zero.mp (by omega)
      rw [if_pos rfl, List.flatMap_cons, if_pos (List.mem_singleton.mpr rfl)]
      have : is.flatMap (fun j => if j ∈ [i] then new else [j]) = is.flatMap fun j => [j] := by
        refine List.flatMap_congr fun j hj => if_neg fun hm => ?_
        rw [List.mem_singleton.mp hm] at hj; exact h0 hj
      rw [this, List.flatMap_singleton']
    · rw [if_neg e, replaceFirst_once (by rwa [List.count_cons_of_ne e] at h), List.flatMap_cons, if_neg (by simpa using e)]
      rfl

theorem swapped_self {asym : Bool} {ws : List String} {n : Node} (h : ∀ w ∈ ws, w ∉ n.input) : swapped asym ws n = n := by
  have : n.input.flatMap (fun i => if i ∈ ws then newNames asym i else [i]) = n.input.flatMap fun i => [i] := by
    refine List.flatMap_congr fun i hi => if_neg fun hm => h i hm hi
  unfold swapped
  rw [operands_eq, this, List.flatMap_singleton']

theorem swapped_nil {asym : Bool} (n : Node) : swapped asym [] n = n := swapped_self (by simp)

/-- swapping one weight, then others -/
theorem swapped_cons {asym : Bool} {t : String} {ws : List String} (hws : ∀ w ∈ ws, isQuantized w = false) (n : Node) :
    swapped asym ws (swapped asym [t] n) = swapped asym (t :: ws) n := by
  unfold swapped
  rw [operands_eq]
  congr 1
  simp only [List.flatMap_assoc]
  refine List.flatMap_congr fun i _ => ?_
  by_cases e : i = t
  · subst e
    rw [if_pos (List.mem_singleton.mpr rfl), if_pos List.mem_cons_self]
    have : (newNames asym i).flatMap (fun j => if j ∈ ws then newNames asym j else [j]) = (newNames asym i).flatMap fun j => [j] := by
      refine List.flatMap_congr fun j hj => if_neg fun hm => ?_
      have := hws j hm
      rw [new_quantized hj] at this; cases this
    rw [this, List.flatMap_singleton']
  · rw [if_neg (by simpa using e)]
    simp only [List.flatMap_cons, List.flatMap_nil, List.append_nil, List.mem_cons, e, false_or]

theorem set_swapped {asym : Bool} {ns : List Node} (hn : (ns.map (·.name)).Nodup) {n : Node} (hm : n ∈ ns) {t : String} (h : consumersOf ns t = [n.name]) :
    Subgraph.setNode ns { n with input := n.input.flatMap fun i => if i ∈ [t] then newNames asym t else [i] } = ns.map (swapped asym [t]) := by
  rw [Branch.setNode_map hn (by exact List.mem_map.mpr ⟨n, hm, rfl⟩)]
  obtain ⟨h1, h2⟩ := once_counts hn hm h
  refine List.map_congr_left fun m hmm => ?_
  by_cases e : m.name = n.name
  · have : m = n := List.inj_on_of_nodup_map hn hmm hm e
    subst this
    rw [if_pos rfl]
    unfold swapped
    rw [operands_eq]
    congr 1
    refine List.flatMap_congr fun i _ => ?_
    by_cases e' : i ∈ [t]
    · rw [if_pos e', if_pos e', List.mem_singleton.mp e']
    · rw [if_neg e', if_neg e']
  · rw [if_neg e, swapped_self]
    intro w hw
    rw [List.mem_singleton.mp hw]
    exact h2 m hmm e

theorem swapped_name {asym : Bool} {ws : List String} (n : Node) : (swapped asym ws n).name = n.name := rfl
theorem swapped_op {asym : Bool} {ws : List String} (n : Node) : (swapped asym ws n).op = n.op := rfl

theorem swapped_names {asym : Bool} {ws : List String} (ns : List Node) : (ns.map (swapped asym ws)).map (·.name) = ns.map (·.name) := by
  rw [List.map_map]; rfl

/-- swapping does not change who reads the other tensors -/
theorem swapped_count {asym : Bool} {ws : List String} {u : String} (hu : isQuantized u = false) (n : Node) :
    (swapped asym ws n).input.count u = if u ∈ ws then 0 else n.input.count u := by
  unfold swapped
  rw [operands_eq]
  induction n.input with
  | nil => simp
  | cons i is ih =>
    simp only [List.flatMap_cons, List.count_append] at ih ⊢
    rw [ih]
    by_cases hi : i ∈ ws
    · rw [if_pos hi, List.count_eq_zero.mpr (plain_not_new hu)]
      by_cases hw : u ∈ ws
      · simp [hw]
      · have : i ≠ u := by rintro rfl; exact hw hi
        simp [hw, List.count_cons_of_ne this]
    · rw [if_neg hi]
      by_cases hw : u ∈ ws
      · have : i ≠ u := by rintro rfl; exact hi hw
        simp [hw, List.count_cons_of_ne this]
      · simp only [if_neg hw]
        by_cases e : i = u
        · subst e; simp; omega
        · rw [List.count_cons_of_ne e, List.count_cons_of_ne e]; simp

theorem consumersOf_swapped {asym : Bool} {ws : List String} {u : String} (hu : isQuantized u = false) (ns : List Node) :
    consumersOf (ns.map (swapped asym ws)) u = if u ∈ ws then [] else consumersOf ns u := by
  induction ns with
  | nil => simp [consumersOf]
  | cons n ns ih =>
    rw [List.map_cons, consumersOf_cons, ih, swapped_count hu, swapped_name, consumersOf_cons]
    by_cases hw : u ∈ ws <;> simp [hw]

/-! ### one weight -/

theorem laidOut_pos {transB : String → Option ℤ} {n : Node} {rows cols : ℕ} {f : ℕ → ℕ → ℚ} (h : 0 < rows ∧ 0 < cols) :
    0 < (laidOut transB n rows cols f).1 ∧ 0 < (laidOut transB n rows cols f).2.1 := by
  unfold laidOut; split
  · exact ⟨h.2, h.1⟩
  · exact h

theorem laidOut_nonzero {transB : String → Option ℤ} {n : Node} {b : ℤ} {rows cols : ℕ} {f : ℕ → ℕ → ℚ}
    (h : if Multiplies transB n then NoZeroGroup b cols rows (fun i j => f j i) else NoZeroGroup b rows cols f) :
    NoZeroGroup b (laidOut transB n rows cols f).1 (laidOut transB n rows cols f).2.1 (laidOut transB n rows cols f).2.2 := by
  unfold laidOut
  split
  · rename_i ht; rw [if_pos ht] at h; exact h
  · rename_i ht; rw [if_neg ht] at h; exact h

theorem quantizeMatrix_laidOut {half : ℚ → ℚ} {transB : String → Option ℤ} {o : Opts} {t : String} {rows cols : ℕ} {f : ℕ → ℕ → ℚ} {st : St} {n : Node} {ns : List String}
    (hc : st.consumedby t = some (.names (n.name :: ns))) (hf : findNode st.nodes n.name = some n) :
    quantizeMatrix half transB o t rows cols f st =
      store half o t (n.name :: ns) (laidOut transB n rows cols f).1 (laidOut transB n rows cols f).2.1 (laidOut transB n rows cols f).2.2 { st with otq := upd st.otq n.name (some o) } := by
  unfold quantizeMatrix
  simp only [hc, hf]
  unfold laidOut
  by_cases h : Multiplies transB n
  · rw [if_pos h, if_pos (multiplies_iff.mp h)]
  · rw [if_neg h, if_neg (fun h' => h (multiplies_iff.mpr h'))]

/-- the state after quantizing one weight -/
def done (half : ℚ → ℚ) (o : Opts) (t : String) (n : Node) (rows cols : ℕ) (r : (ℕ → ℕ → ℤ) × (ℕ × ℕ → ℚ × ℤ)) (st : St) : St :=
  let st1 := addNew half o t rows cols r { st with otq := upd st.otq n.name (some o) }
  dropOld t { st1 with
    nodes := st.nodes.map (swapped o.asym [t])
    consumedby := upd (upd (upd st.consumedby (qName t) (some (.text n.name))) (sName t) (some (.text n.name))) (zName t) (some (.text n.name)) }

theorem store_once {half : ℚ → ℚ} {transB : String → Option ℤ} {o : Opts} {t : String} {n : Node} {rows cols : ℕ} {f : ℕ → ℕ → ℚ} {st : St} (hp : Proper st)
    (h : Ready transB o st t n rows cols f) {R C : ℕ} {F : ℕ → ℕ → ℚ} {r : (ℕ → ℕ → ℤ) × (ℕ × ℕ → ℚ × ℤ)} (hq : quantize F R C o.block o.asym o.bits = .ok r) :
    store half o t [n.name] R C F { st with otq := upd st.otq n.name (some o) } = (done half o t n R C r st, none) := by
  have hf : findNode st.nodes n.name = some n := Topsort.findNode_mem hp.names h.node
  have hr := replaceFirst_once (new := newNames o.asym t) (once_counts hp.names h.node h.once).1
  have e : rewire o.asym t [n.name] (addNew half o t R C r { st with otq := upd st.otq n.name (some o) }) =
      ({ addNew half o t R C r { st with otq := upd st.otq n.name (some o) } with
        nodes := st.nodes.map (swapped o.asym [t])
        consumedby := upd (upd (upd st.consumedby (qName t) (some (.text n.name))) (sName t) (some (.text n.name))) (zName t) (some (.text n.name)) }, none) := by
    rw [rewire]
    simp only [addNew, hf, hr, index, h.free, rewire]
    rw [set_swapped hp.names h.node h.once]
  unfold store
  rw [hq]
  simp only [e]
  rfl

theorem graphQuantize_once {half : ℚ → ℚ} {transB : String → Option ℤ} {o : Opts} {t : String} {n : Node} {rows cols : ℕ} {f : ℕ → ℕ → ℚ} {st : St} (hp : Proper st)
    (h : Ready transB o st t n rows cols f) {r : (ℕ → ℕ → ℤ) × (ℕ × ℕ → ℚ × ℤ)}
    (hq : quantize (laidOut transB n rows cols f).2.2 (laidOut transB n rows cols f).1 (laidOut transB n rows cols f).2.1 o.block o.asym o.bits = .ok r) :
    graphQuantize half transB o st t = (done half o t n (laidOut transB n rows cols f).1 (laidOut transB n rows cols f).2.1 r st, none) := by
  have hc : st.consumedby t = some (.names [n.name]) := by rw [hp.index t h.plain, h.once]; rfl
  unfold graphQuantize
  rw [if_neg (not_not.mpr h.init), if_neg (by rw [h.plain]; decide), h.data]
  simp only
  rw [quantizeMatrix_laidOut hc (Topsort.findNode_mem hp.names h.node), store_once hp h hq]

theorem upd_self {α : Type} (d : String → Option α) (k : String) (v : Option α) : upd d k v k = v := if_pos rfl
theorem upd_ne {α : Type} (d : String → Option α) {k x : String} (v : Option α) (h : x ≠ k) : upd d k v x = d x := if_neg h

theorem done_data {half : ℚ → ℚ} {o : Opts} {t : String} {n : Node} {R C : ℕ} {r : (ℕ → ℕ → ℤ) × (ℕ × ℕ → ℚ × ℤ)} {st : St} {x : String} (h1 : x ≠ t) (h2 : x ∉ newNames o.asym t) :
    (done half o t n R C r st).data x = st.data x := by
  show upd _ t none x = _
  rw [upd_ne _ _ h1]
  simp only [addNew]
  cases ha : o.asym
  · rw [ha] at h2
    simp only [newNames, Bool.false_eq_true, if_false, List.mem_cons, List.not_mem_nil, or_false, not_or] at h2
    simp only [Bool.false_eq_true, if_false]
    rw [upd_ne _ _ h2.2, upd_ne _ _ h2.1]
  · rw [ha] at h2
    simp only [newNames, if_true, List.mem_cons, List.not_mem_nil, or_false, not_or] at h2
    simp only [if_true]
    rw [upd_ne _ _ h2.2.2, upd_ne _ _ h2.2.1, upd_ne _ _ h2.1]

theorem done_initials {half : ℚ → ℚ} {o : Opts} {t : String} {n : Node} {R C : ℕ} {r : (ℕ → ℕ → ℤ) × (ℕ × ℕ → ℚ × ℤ)} {st : St} (hn : st.initials.Nodup) (ht : t ∈ st.initials) :
    (done half o t n R C r st).initials = st.initials.filter (fun x => x ∉ [t]) ++ newNames o.asym t := by
  show (st.initials ++ newNames o.asym t).erase t = _
  rw [List.erase_append_left _ ht, hn.erase_eq_filter]
  congr 1
  refine List.filter_congr fun x _ => ?_
  by_cases e : x = t <;> simp [e]

theorem done_quantized {half : ℚ → ℚ} {transB : String → Option ℤ} {o : Opts} {t : String} {n : Node} {rows cols : ℕ} {f : ℕ → ℕ → ℚ} {st : St} (hp : Proper st)
    (h : Ready transB o st t n rows cols f) {R C : ℕ} (r : (ℕ → ℕ → ℤ) × (ℕ × ℕ → ℚ × ℤ)) : Quantized o st [t] (done half o t n R C r st) where
  nodes := rfl
  initials := by rw [done_initials hp.inits h.init, operands_eq]; simp
  gone := by intro w hw; rw [List.mem_singleton.mp hw]; exact upd_self _ _ _
  kept := fun x hx hx' => done_data (by simpa using hx) (hx' t (List.mem_singleton.mpr rfl))

theorem done_proper {half : ℚ → ℚ} {transB : String → Option ℤ} {o : Opts} {t : String} {n : Node} {rows cols : ℕ} {f : ℕ → ℕ → ℚ} {st : St} (hp : Proper st)
    (h : Ready transB o st t n rows cols f) {R C : ℕ} (r : (ℕ → ℕ → ℤ) × (ℕ × ℕ → ℚ × ℤ)) : Proper (done half o t n R C r st) where
  names := by
    show ((st.nodes.map (swapped o.asym [t])).map (·.name)).Nodup
    rw [swapped_names]; exact hp.names
  inits := by
    rw [done_initials hp.inits h.init, List.nodup_append]
    refine ⟨hp.inits.filter _, new_nodup _ _, fun a ha b hb e => ?_⟩
    subst e
    exact h.freeInit a hb (List.mem_filter.mp ha).1
  index := by
    intro u hu
    show upd (upd (upd (upd st.consumedby (qName t) _) (sName t) _) (zName t) _) t none u = if consumersOf (st.nodes.map (swapped o.asym [t])) u = [] then none else some (.names (consumersOf (st.nodes.map (swapped o.asym [t])) u))
    rw [consumersOf_swapped hu]
    by_cases e : u = t
    · subst e
      rw [upd_self, if_pos (by rw [if_pos (List.mem_singleton.mpr rfl)])]
    · have hne : ∀ {x : String}, isQuantized x = true → u ≠ x := by rintro x hx rfl; rw [hu] at hx; cases hx
      rw [upd_ne _ _ e, upd_ne _ _ (hne (z_quantized t)), upd_ne _ _ (hne (s_quantized t)), upd_ne _ _ (hne (q_quantized t)), hp.index u hu]
      rw [if_neg (c := u ∈ [t]) (by simpa using e)]

theorem done_ready {half : ℚ → ℚ} {transB : String → Option ℤ} {o : Opts} {t u : String} {n m : Node} {rows cols rows' cols' : ℕ} {f f' : ℕ → ℕ → ℚ} {st : St} (hp : Proper st)
    (h : Ready transB o st t n rows cols f) {R C : ℕ} (r : (ℕ → ℕ → ℤ) × (ℕ × ℕ → ℚ × ℤ)) (hu : Ready transB o st u m rows' cols' f') (hne : u ≠ t) :
    Ready transB o (done half o t n R C r st) u (swapped o.asym [t] m) rows' cols' f' where
  init := by
    rw [done_initials hp.inits h.init]
    exact List.mem_append.mpr (.inl (List.mem_filter.mpr ⟨hu.init, by simpa using hne⟩))
  plain := hu.plain
  data := by rw [done_data hne (plain_not_new hu.plain)]; exact hu.data
  node := List.mem_map.mpr ⟨m, hu.node, rfl⟩
  once := by
    show consumersOf (st.nodes.map (swapped o.asym [t])) u = _
    rw [consumersOf_swapped hu.plain, if_neg (by simpa using hne), hu.once]; rfl
  free := by
    have e1 : qName u ≠ t := by rintro e; have := h.plain; rw [← e, q_quantized] at this; cases this
    show upd (upd (upd (upd st.consumedby (qName t) _) (sName t) _) (zName t) _) t none (qName u) = none
    rw [upd_ne _ _ e1, upd_ne _ _ (q_ne_z _ _), upd_ne _ _ (q_ne_s _ _), upd_ne _ _ (fun e => hne (q_inj.mp e)), hu.free]
  freeInit := by
    intro x hx hm
    rw [done_initials hp.inits h.init] at hm
    rcases List.mem_append.mp hm with hm | hm
    · exact hu.freeInit x hx (List.mem_filter.mp hm).1
    · exact hne (new_disjoint hx hm)
  pos := hu.pos
  nonzero := hu.nonzero

theorem done_inert {half : ℚ → ℚ} {o : Opts} {t u : String} {n : Node} {R C : ℕ} {r : (ℕ → ℕ → ℤ) × (ℕ × ℕ → ℚ × ℤ)} {st : St} (hne : u ≠ t) (hu : Inert st u) :
    Inert (done half o t n R C r st) u := by
  rcases hu with h | ⟨d, hd, h⟩
  · exact .inl h
  · by_cases hq : isQuantized u = true
    · exact .inl hq
    · exact .inr ⟨d, by rw [done_data hne (plain_not_new (by simpa using hq))]; exact hd, h⟩

theorem graphQuantize_inert {half : ℚ → ℚ} {transB : String → Option ℤ} {o : Opts} {st : St} {t : String} (h : Inert st t) : graphQuantize half transB o st t = (st, none) := by
  unfold graphQuantize
  split
  · rfl
  · split
    · rfl
    · rename_i hq
      rcases h with h | ⟨d, hd, h⟩
      · exact absurd h hq
      · rw [hd]
        cases d with
        | matrix r c f => exact absurd rfl (h r c f)
        | _ => rfl

/-! ### several weights -/

/-- the options for which `quantize` keeps to half a step -/
structure GoodOpts (o : Opts) : Prop where
  block : -1 ≤ o.block
  low : (if o.asym then 1 else 2) ≤ o.bits
  high : o.bits ≤ 8

theorem ready_quantize {transB : String → Option ℤ} {o : Opts} (ho : GoodOpts o) {st : St} {t : String} {n : Node} {rows cols : ℕ} {f : ℕ → ℕ → ℚ}
    (h : Ready transB o st t n rows cols f) :
    ∃ r, quantize (laidOut transB n rows cols f).2.2 (laidOut transB n rows cols f).1 (laidOut transB n rows cols f).2.1 o.block o.asym o.bits = .ok r := by
  obtain ⟨hr, hc⟩ := laidOut_pos (transB := transB) (n := n) (f := f) h.pos
  obtain ⟨codes, params, e, -⟩ := Props.C34_quantize _ _ _ _ _ _ hr hc ho.block ho.low ho.high (laidOut_nonzero h.nonzero)
  exact ⟨_, e⟩

theorem Quantized.trans {o : Opts} {st st1 st2 : St} {t : String} {ws : List String} (h1 : Quantized o st [t] st1) (h2 : Quantized o st1 ws st2)
    (ht : t ∉ ws) (hpt : isQuantized t = false) (hp : ∀ w ∈ ws, isQuantized w = false) : Quantized o st (t :: ws) st2 where
  nodes := by
    rw [h2.nodes, h1.nodes, List.map_map]
    exact List.map_congr_left fun n _ => swapped_cons hp n
  initials := by
    rw [h2.initials, h1.initials, List.filter_append, List.filter_filter, List.flatMap_singleton, List.flatMap_cons, List.append_assoc]
    have e1 : (newNames o.asym t).filter (fun x => x ∉ ws) = newNames o.asym t := by
      refine List.filter_eq_self.mpr fun x hx => ?_
      have : x ∉ ws := fun hm => by have := hp x hm; rw [new_quantized hx] at this; cases this
      simpa using this
    rw [operands_eq, e1]
    congr 1
    refine List.filter_congr fun x _ => ?_
    by_cases ex : x = t <;> by_cases ew : x ∈ ws <;> simp [ex, ew]
  gone := by
    intro w hw
    rcases List.mem_cons.mp hw with rfl | hw
    · rw [h2.kept w ht fun v _ => plain_not_new hpt]
      exact h1.gone w (List.mem_singleton.mpr rfl)
    · exact h2.gone w hw
  kept := by
    intro x hx hx'
    rw [h2.kept x (fun h => hx (List.mem_cons_of_mem _ h)) fun w hw => hx' w (List.mem_cons_of_mem _ hw)]
    exact h1.kept x (fun h => hx (by rw [List.mem_singleton.mp h]; exact List.mem_cons_self)) fun w hw => hx' w (by rw [List.mem_singleton.mp hw]; exact List.mem_cons_self)

/-- quantizing distinct weights one after the other -/
theorem each_ready {half : ℚ → ℚ} {transB : String → Option ℤ} {o : Opts} (ho : GoodOpts o) : ∀ (ws : List String) (st : St), ws.Nodup → Proper st →
    (∀ w ∈ ws, ∃ n rows cols f, Ready transB o st w n rows cols f) →
    ∃ st', quantizeEach half transB o ws st = (st', none) ∧ Quantized o st ws st' ∧
      ∀ w ∈ ws, ∀ n rows cols f, Ready transB o st w n rows cols f → ∃ r,
        quantize (laidOut transB n rows cols f).2.2 (laidOut transB n rows cols f).1 (laidOut transB n rows cols f).2.1 o.block o.asym o.bits = .ok r ∧
        ∀ x ∈ newNames o.asym w, st'.data x = (done half o w n (laidOut transB n rows cols f).1 (laidOut transB n rows cols f).2.1 r st).data x
  | [], st, _, _, _ => by
    refine ⟨st, rfl, ⟨?_, by simp, by simp, by simp⟩, by simp⟩
    exact (List.map_id _).symm.trans (List.map_congr_left fun n _ => (swapped_nil n).symm)
  | t :: ws, st, hn, hp, h => by
    obtain ⟨ht, hn'⟩ := List.nodup_cons.mp hn
    obtain ⟨n, rows, cols, f, hr⟩ := h t List.mem_cons_self
    obtain ⟨r, hq⟩ := ready_quantize ho hr
    have e1 := graphQuantize_once (half := half) hp hr hq
    have hplain : ∀ w ∈ ws, isQuantized w = false := fun w hw => (h w (List.mem_cons_of_mem _ hw)).choose_spec.choose_spec.choose_spec.choose_spec.plain
    obtain ⟨st', e2, hQ, hD⟩ := each_ready (half := half) (transB := transB) ho ws (done half o t n (laidOut transB n rows cols f).1 (laidOut transB n rows cols f).2.1 r st) hn' (done_proper hp hr r) (by
      intro w hw
      obtain ⟨m, rows', cols', f', hm⟩ := h w (List.mem_cons_of_mem _ hw)
      exact ⟨_, _, _, _, done_ready hp hr r hm (by rintro rfl; exact ht hw)⟩)
    refine ⟨st', ?_, (done_quantized hp hr r).trans hQ ht hr.plain hplain, ?_⟩
    · rw [quantizeEach, e1]; exact e2
    · intro w hw m rows' cols' f' hm
      rcases List.mem_cons.mp hw with rfl | hw2
      · have hnm : m = n := by
          refine List.inj_on_of_nodup_map hp.names hm.node hr.node ?_
          have := hm.once.symm.trans hr.once
          simpa using this
        subst hnm
        have hdat := hm.data.symm.trans hr.data
        simp only [Option.some.injEq, Data.matrix.injEq] at hdat
        obtain ⟨rfl, rfl, rfl⟩ := hdat
        refine ⟨r, hq, fun x hx => ?_⟩
        refine hQ.kept x (fun hx' => ?_) (fun v hv hx' => ?_)
        · have := hplain x hx'; rw [new_quantized hx] at this; cases this
        · exact ht (new_disjoint hx hx' ▸ hv)
      · have hne : w ≠ t := by rintro rfl; exact ht hw2
        obtain ⟨r', hq', hx⟩ := hD w hw2 _ _ _ _ (done_ready (half := half) (R := (laidOut transB n rows cols f).1) (C := (laidOut transB n rows cols f).2.1) hp hr r hm hne)
        refine ⟨r', hq', fun x hx' => (hx x hx').trans ?_⟩
        show upd _ w none x = upd _ w none x
        have hxw : x ≠ w := by rintro rfl; have := hm.plain; rw [new_quantized hx'] at this; cases this
        rw [upd_ne _ _ hxw, upd_ne _ _ hxw]
        cases ha : o.asym
        · rw [ha] at hx'
          simp only [newNames, Bool.false_eq_true, if_false, List.mem_cons, List.not_mem_nil, or_false] at hx'
          simp only [addNew, ha, Bool.false_eq_true, if_false]
          rcases hx' with rfl | rfl
          · rw [upd_ne _ _ (q_ne_s _ _), upd_ne _ _ (q_ne_s _ _), upd_self, upd_self]; rfl
          · rw [upd_self, upd_self]
        · rw [ha] at hx'
          simp only [newNames, if_true, List.mem_cons, List.not_mem_nil, or_false] at hx'
          simp only [addNew, ha, if_true]
          rcases hx' with rfl | rfl | rfl
          · rw [upd_ne _ _ (q_ne_z _ _), upd_ne _ _ (q_ne_z _ _), upd_ne _ _ (q_ne_s _ _), upd_ne _ _ (q_ne_s _ _), upd_self, upd_self]; rfl
          · rw [upd_ne _ _ (s_ne_z _ _), upd_ne _ _ (s_ne_z _ _), upd_self, upd_self]
          · rw [upd_self, upd_self]

/-! ### the loop over the list that changes -/

theorem loop_rest {half : ℚ → ℚ} {transB : String → Option ℤ} {o : Opts} {st : St} : ∀ (fuel i : ℕ), (∀ t ∈ st.initials.drop i, isQuantized t = true) → st.initials.length < fuel + i →
    0 < fuel → quantizeLoop half transB o fuel i st = (st, none)
  | 0, _, _, _, h => by omega
  | fuel + 1, i, h, hf, _ => by
    rw [quantizeLoop]
    cases e : st.initials[i]? with
    | none => rfl
    | some t =>
      have hi : i < st.initials.length := (List.getElem?_eq_some_iff.mp e).1
      have ht : t ∈ st.initials.drop i := by
        rw [List.mem_iff_getElem?]
        exact ⟨0, by rw [List.getElem?_drop]; simpa using e⟩
      simp only [graphQuantize_inert (half := half) (transB := transB) (o := o) (st := st) (.inl (h t ht))]
      refine loop_rest fuel (i + 1) (fun u hu => h u ?_) (by omega) (by omega)
      rw [← List.drop_drop] at hu
      exact List.mem_of_mem_drop hu

/-- the loop quantizes the weights that `skipping` lists -/
theorem loop_skipping {half : ℚ → ℚ} {transB : String → Option ℤ} {o : Opts} (ho : GoodOpts o) (p : String → Bool) : ∀ (k : ℕ) (B A T : List String) (st : St) (fuel : ℕ), B.length = k →
    Proper st → st.initials = A ++ B ++ T → (∀ t ∈ T, isQuantized t = true) →
    (∀ w ∈ B, p w = true → ∃ n rows cols f, Ready transB o st w n rows cols f) → (∀ w ∈ B, p w = false → Inert st w) → 3 * B.length + T.length < fuel →
    quantizeLoop half transB o fuel A.length st = quantizeEach half transB o (skipping p B) st := by
  intro k
  induction k using Nat.strongRecOn with
  | ind k ih =>
    intro B A T st fuel hk hp hi hT hready hinert hfuel
    match B, fuel with
    | _, 0 => omega
    | [], fuel + 1 =>
      rw [skipping, quantizeEach]
      refine loop_rest (fuel + 1) A.length ?_ ?_ (by omega)
      · intro t ht
        rw [hi, List.append_nil, List.drop_left] at ht
        exact hT t ht
      · rw [hi]; simp only [List.length_append, List.length_nil] at hfuel ⊢; omega
    | w :: B, fuel + 1 =>
      have hget : st.initials[A.length]? = some w := by rw [hi]; simp
      have hnd : (A ++ (w :: B) ++ T).Nodup := hi ▸ hp.inits
      rw [quantizeLoop, hget]
      simp only
      cases hw : p w with
      | false =>
        rw [graphQuantize_inert (hinert w List.mem_cons_self hw)]
        simp only
        have e : skipping p (w :: B) = skipping p B := by cases B <;> simp [skipping, hw]
        rw [e]
        have := ih B.length (by simp at hk; omega) B (A ++ [w]) T st fuel rfl hp (by rw [hi]; simp) hT (fun v hv => hready v (List.mem_cons_of_mem _ hv))
          (fun v hv => hinert v (List.mem_cons_of_mem _ hv)) (by simp only [List.length_cons] at hfuel; omega)
        rw [← this, List.length_append, List.length_singleton]
      | true =>
        obtain ⟨n, rows, cols, f, hr⟩ := hready w List.mem_cons_self hw
        obtain ⟨r, hq⟩ := ready_quantize ho hr
        rw [graphQuantize_once hp hr hq]
        simp only
        have hwA : w ∉ A := by
          intro hm
          rw [List.append_assoc] at hnd
          exact (List.nodup_append.mp hnd).2.2 w hm w (by simp) rfl
        have hwB : w ∉ B ∧ w ∉ T := by
          rw [List.append_assoc] at hnd
          have := (List.nodup_append.mp hnd).2.1
          rw [List.cons_append, List.nodup_cons] at this
          exact ⟨fun h => this.1 (List.mem_append_left _ h), fun h => this.1 (List.mem_append_right _ h)⟩
        have hfil : ∀ {l : List String}, w ∉ l → l.filter (fun x => decide (x ∉ [w])) = l := by
          intro l hl
          refine List.filter_eq_self.mpr fun x hx => ?_
          have : x ≠ w := by rintro rfl; exact hl hx
          simpa using this
        have hi' : (done half o w n (laidOut transB n rows cols f).1 (laidOut transB n rows cols f).2.1 r st).initials = A ++ B ++ (T ++ newNames o.asym w) := by
          rw [done_initials hp.inits hr.init, hi, List.filter_append, List.filter_append, List.filter_cons, hfil hwA, hfil hwB.1, hfil hwB.2]
          simp
        have hlen : (newNames o.asym w).length ≤ 3 := by cases o.asym <;> simp [newNames]
        have hT' : ∀ t ∈ T ++ newNames o.asym w, isQuantized t = true := by
          intro t ht
          rcases List.mem_append.mp ht with ht | ht
          · exact hT t ht
          · exact new_quantized ht
        match B, hk, hfuel, hready, hinert, hi', hwB with
        | [], hk, hfuel, hready, hinert, hi', hwB =>
          rw [skipping, if_pos hw, quantizeEach, graphQuantize_once hp hr hq]
          simp only [quantizeEach]
          refine loop_rest fuel (A.length + 1) ?_ ?_ ?_
          · intro t ht
            rw [hi', List.append_nil] at ht
            refine hT' t ?_
            have : t ∈ (A ++ (T ++ newNames o.asym w)).drop A.length := by
              rw [← List.drop_drop] at ht; exact List.mem_of_mem_drop ht
            rwa [List.drop_left] at this
          · rw [hi']; simp only [List.length_append, List.length_nil, List.length_singleton] at hfuel ⊢; omega
          · simp only [List.length_singleton] at hfuel; omega
        | v :: B, hk, hfuel, hready, hinert, hi', hwB =>
          rw [skipping, if_pos hw, quantizeEach, graphQuantize_once hp hr hq]
          simp only
          have hne : ∀ x ∈ B, x ≠ w := by rintro x hx rfl; exact hwB.1 (List.mem_cons_of_mem _ hx)
          have := ih B.length (by simp at hk; omega) B (A ++ [v]) (T ++ newNames o.asym w) _ fuel rfl (done_proper hp hr r) (by rw [hi']; simp) hT'
            (fun x hx hpx => by
              obtain ⟨m, rows', cols', f', hm⟩ := hready x (by simp [hx]) hpx
              exact ⟨_, _, _, _, done_ready hp hr r hm (hne x hx)⟩)
            (fun x hx hpx => done_inert (hne x hx) (hinert x (by simp [hx]) hpx))
            (by simp only [List.length_cons, List.length_append] at hfuel ⊢; omega)
          rw [← this, List.length_append, List.length_singleton]

/-- `for key in list(g.initials): graph_quantize(g, key)`: the weights are quantized, the rest is left alone -/
theorem each_filter {half : ℚ → ℚ} {transB : String → Option ℤ} {o : Opts} (ho : GoodOpts o) (p : String → Bool) : ∀ (B : List String) (st : St), B.Nodup → Proper st →
    (∀ w ∈ B, p w = true → ∃ n rows cols f, Ready transB o st w n rows cols f) → (∀ w ∈ B, p w = false → Inert st w) →
    quantizeEach half transB o B st = quantizeEach half transB o (B.filter p) st
  | [], _, _, _, _, _ => rfl
  | w :: B, st, hn, hp, hready, hinert => by
    obtain ⟨hw, hn'⟩ := List.nodup_cons.mp hn
    cases e : p w with
    | false =>
      rw [List.filter_cons_of_neg (by simp [e]), quantizeEach, graphQuantize_inert (hinert w List.mem_cons_self e)]
      exact each_filter ho p B st hn' hp (fun v hv => hready v (List.mem_cons_of_mem _ hv)) fun v hv => hinert v (List.mem_cons_of_mem _ hv)
    | true =>
      obtain ⟨n, rows, cols, f, hr⟩ := hready w List.mem_cons_self e
      obtain ⟨r, hq⟩ := ready_quantize ho hr
      rw [List.filter_cons_of_pos (by simp [e]), quantizeEach, quantizeEach, graphQuantize_once hp hr hq]
      simp only
      have hne : ∀ x ∈ B, x ≠ w := by rintro x hx rfl; exact hw hx
      exact each_filter ho p B _ hn' (done_proper hp hr r)
        (fun x hx hpx => by
          obtain ⟨m, rows', cols', f', hm⟩ := hready x (by simp [hx]) hpx
          exact ⟨_, _, _, _, done_ready hp hr r hm (hne x hx)⟩)
        fun x hx hpx => done_inert (hne x hx) (hinert x (by simp [hx]) hpx)

end OnnxTool.GraphQuant
