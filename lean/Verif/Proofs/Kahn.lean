import Verif.Model.Topsort
import Verif.Spec.Topsort
import Verif.Proofs.Dict
import Verif.Proofs.Relations
/-! Level-wise Kahn algorithm: abstract version and refinement of the dictionary-based code. -/
namespace OnnxTool.Topsort
open OnnxTool

/-- all producers of `n`'s inputs are already in `O` -/
def ready (ns O : List Node) (n : Node) : Bool := ns.all (fun m => !(decide (Dep n m)) || decide (m ∈ O))

theorem ready_iff {ns O : List Node} {n : Node} : ready ns O n = true ↔ ∀ m ∈ ns, Dep n m → m ∈ O := by
  simp only [ready, List.all_eq_true, Bool.or_eq_true, Bool.not_eq_true', decide_eq_false_iff_not, decide_eq_true_eq]
  constructor
  · intro h m hm hd; exact (h m hm).resolve_left (fun h => h hd)
  · intro h m hm; by_cases hd : Dep n m
    · exact Or.inr (h m hm hd)
    · exact Or.inl hd

def next (ns O : List Node) : List Node := ns.filter (fun n => decide (n ∉ O) && ready ns O n)

def kahn (ns : List Node) : Nat → List Node → List Node
  | 0, O => O
  | fuel+1, O => if next ns O = [] then O else kahn ns fuel (O ++ next ns O)

theorem mem_next {ns O : List Node} {n : Node} : n ∈ next ns O ↔ n ∈ ns ∧ n ∉ O ∧ ∀ m ∈ ns, Dep n m → m ∈ O := by
  simp [next, List.mem_filter, ready_iff]

/-- invariant of the accumulated order -/
structure KInv (ns O : List Node) : Prop where
  nodup : O.Nodup
  sub : ∀ n ∈ O, n ∈ ns
  order : ∀ l1 n l2, O = l1 ++ n :: l2 → ∀ m ∈ ns, Dep n m → m ∈ l1

theorem kinv_next {ns O : List Node} (hns : ns.Nodup) (h : KInv ns O) : KInv ns (O ++ next ns O) := by
  refine ⟨?_, ?_, ?_⟩
  · rw [List.nodup_append]
    refine ⟨h.nodup, hns.sublist List.filter_sublist, ?_⟩
    rintro a ha b hb rfl
    exact (mem_next.mp hb).2.1 ha
  · intro n hn
    rcases List.mem_append.mp hn with hn | hn
    · exact h.sub n hn
    · exact (mem_next.mp hn).1
  · intro l1 n l2 e m hm hd
    rw [List.append_eq_append_iff] at e
    rcases e with ⟨a, e1, e2⟩ | ⟨a, e1, e2⟩
    · -- n is in the new level
      have hn : n ∈ next ns O := by rw [e2]; simp
      have := (mem_next.mp hn).2.2 m hm hd
      rw [e1]; exact List.mem_append_left _ this
    · cases a with
      | nil =>
        simp at e1 e2
        have hn : n ∈ next ns O := by rw [← e2]; simp
        have := (mem_next.mp hn).2.2 m hm hd
        rw [← e1]; exact this
      | cons b a =>
        simp only [List.cons_append, List.cons.injEq] at e2
        obtain ⟨rfl, rfl⟩ := e2
        exact h.order l1 n a e1 m hm hd

theorem kinv_kahn {ns : List Node} (hns : ns.Nodup) (fuel : Nat) {O : List Node} (h : KInv ns O) :
    KInv ns (kahn ns fuel O) := by
  induction fuel generalizing O with
  | zero => exact h
  | succ fuel ih =>
    unfold kahn; split
    · exact h
    · exact ih (kinv_next hns h)

theorem kinv_nil (ns : List Node) : KInv ns [] := ⟨by simp, by simp, by simp⟩

theorem nodup_sub_length {α : Type} : ∀ {l m : List α}, l.Nodup → (∀ x ∈ l, x ∈ m) → l.length ≤ m.length := by
  intro l
  induction l with
  | nil => intro m _ _; simp
  | cons a l ih =>
    intro m hn hs
    rw [List.nodup_cons] at hn
    obtain ⟨m1, m2, rfl⟩ := List.append_of_mem (hs a (by simp))
    have := ih (m := m1 ++ m2) hn.2 (by
      intro x hx
      have := hs x (by simp [hx])
      simp only [List.mem_append, List.mem_cons] at this ⊢
      rcases this with h | rfl | h
      · exact Or.inl h
      · exact absurd hx hn.1
      · exact Or.inr h)
    simp at this ⊢; omega

theorem kahn_done {ns : List Node} (hns : ns.Nodup) (fuel : Nat) {O : List Node} (h : KInv ns O)
    (hf : ns.length + 1 ≤ fuel + O.length) : next ns (kahn ns fuel O) = [] := by
  induction fuel generalizing O with
  | zero =>
    have := nodup_sub_length h.nodup h.sub
    omega
  | succ fuel ih =>
    unfold kahn; split
    · assumption
    · rename_i hne
      apply ih (kinv_next hns h)
      have : 0 < (next ns O).length := List.length_pos_iff.mpr hne
      simp only [List.length_append]; omega

theorem kahn_prefix (ns : List Node) (fuel : Nat) (O : List Node) : ∃ r, kahn ns fuel O = O ++ r := by
  induction fuel generalizing O with
  | zero => exact ⟨[], by simp [kahn]⟩
  | succ fuel ih =>
    unfold kahn; split
    · exact ⟨[], by simp⟩
    · obtain ⟨r, hr⟩ := ih (O ++ next ns O)
      exact ⟨next ns O ++ r, by rw [hr]; simp⟩

/-- running on the result reproduces the result -/
theorem kahn_idem {ns : List Node} (hns : ns.Nodup) (fuel : Nat) {O : List Node} (h : KInv ns O) (F : List Node)
    (hF : kahn ns fuel O = F) (fuel' : Nat) (hf : F.length ≤ fuel' + O.length) : kahn F fuel' O = F := by
  have hFinv : KInv ns F := hF ▸ kinv_kahn hns fuel h
  have prodIn : ∀ n ∈ F, ∀ m ∈ ns, Dep n m → m ∈ F := by
    intro n hn m hm hd
    obtain ⟨l1, l2, e⟩ := List.append_of_mem hn
    have := hFinv.order l1 n l2 e m hm hd
    rw [e]; exact List.mem_append_left _ this
  induction fuel generalizing O fuel' with
  | zero =>
    have hFO : O = F := hF
    subst hFO
    cases fuel' with
    | zero => rfl
    | succ f =>
      unfold kahn
      rw [if_pos]
      apply List.eq_nil_iff_forall_not_mem.mpr
      intro x hx
      have := mem_next.mp hx
      exact this.2.1 this.1
  | succ fuel ih =>
    unfold kahn at hF
    split at hF
    · subst hF
      cases fuel' with
      | zero => rfl
      | succ f =>
        unfold kahn
        rw [if_pos]
        apply List.eq_nil_iff_forall_not_mem.mpr
        intro x hx
        have := mem_next.mp hx
        exact this.2.1 this.1
    · rename_i hne
      obtain ⟨r, hr⟩ := kahn_prefix ns fuel (O ++ next ns O)
      rw [hF] at hr
      have hnextF : next F O = next ns O := by
        have key : ∀ x ∈ F, (x ∈ next F O ↔ x ∈ next ns O) := by
          intro x hx
          rw [mem_next, mem_next]
          constructor
          · rintro ⟨_, h2, h3⟩
            exact ⟨hFinv.sub x hx, h2, fun m hm hd => h3 m (prodIn x hx m hm hd) hd⟩
          · rintro ⟨_, h2, h3⟩
            exact ⟨hx, h2, fun m hm hd => h3 m (hFinv.sub m hm) hd⟩
        have e1 : next F O = F.filter (fun x => decide (x ∈ next ns O)) := by
          unfold next
          apply List.filter_congr
          intro x hx
          have := key x hx
          simp only [next, List.mem_filter, hx, true_and] at this
          rw [Bool.eq_iff_iff, decide_eq_true_iff, List.mem_filter]
          exact this
        rw [e1, hr, List.filter_append, List.filter_append]
        have hnd := hFinv.nodup
        rw [hr, List.nodup_append, List.nodup_append] at hnd
        have f1 : O.filter (fun x => decide (x ∈ next ns O)) = [] := by
          rw [List.filter_eq_nil_iff]
          intro x hx
          have := hnd.1.2.2 x hx
          simp only [decide_eq_true_eq]
          exact fun hc => this x hc rfl
        have f2 : (next ns O).filter (fun x => decide (x ∈ next ns O)) = next ns O := by
          rw [List.filter_eq_self]; intro x hx; simpa using hx
        have f3 : r.filter (fun x => decide (x ∈ next ns O)) = [] := by
          rw [List.filter_eq_nil_iff]
          intro x hx
          simp only [decide_eq_true_eq]
          exact fun hc => hnd.2.2 x (List.mem_append_right _ hc) x hx rfl
        rw [f1, f2, f3]; simp
      have hpos : 0 < (next ns O).length := List.length_pos_iff.mpr hne
      cases fuel' with
      | zero =>
        have : F.length = (O ++ next ns O ++ r).length := by rw [← hr]
        simp at this; omega
      | succ f =>
        unfold kahn
        rw [hnextF, if_neg hne]
        apply ih (kinv_next hns h) hF
        simp only [List.length_append]; omega

/-! ### Refinement -/

def val (d : Dict Int) (x : String) : Int := (d.get? x).getD 0

theorem foldl_dec (cons : List String) (d : Dict Int) (x : String) :
    val (cons.foldl dec d) x = val d x - cons.count x := by
  induction cons generalizing d with
  | nil => simp
  | cons c cons ih =>
    simp only [List.foldl_cons, ih, List.count_cons]
    unfold dec val
    rw [Dict.get?_set]
    by_cases h : c = x
    · subst h; simp; omega
    · simp [h]

theorem foldl_dec_has (cons : List String) (d : Dict Int) (x : String) (h : (d.get? x).isSome) :
    ((cons.foldl dec d).get? x).isSome := by
  induction cons generalizing d with
  | nil => exact h
  | cons c cons ih =>
    apply ih
    unfold dec; rw [Dict.get?_set]; split <;> simp [h]

theorem producedBy_has (ns : List Node) (t : String) :
    (producedBy ns).has t = true ↔ t ∈ ns.flatMap (·.output) := by
  have aux : ∀ (os : List String) (x : String) (d : Dict String),
      (os.foldl (fun d t => d.set t x) d).has t = true ↔ t ∈ os ∨ d.has t = true := by
    intro os x
    induction os with
    | nil => intro d; simp
    | cons o os ih =>
      intro d
      simp only [List.foldl_cons]
      rw [ih]
      simp only [List.mem_cons, Dict.has, Dict.get?_set]
      by_cases h : o = t
      · subst h; simp
      · simp [h, Ne.symm h]
  have aux2 : ∀ (l : List Node) (d : Dict String),
      (l.foldl (fun d n => n.output.foldl (fun d t => d.set t n.name) d) d).has t = true ↔
        t ∈ l.flatMap (·.output) ∨ d.has t = true := by
    intro l
    induction l with
    | nil => intro d; simp
    | cons n l ih =>
      intro d
      simp only [List.foldl_cons, ih, aux, List.flatMap_cons, List.mem_append]
      constructor
      · rintro (h | h | h) <;> simp [h]
      · rintro ((h | h) | h) <;> simp [h]
  have := aux2 ns []
  simpa [producedBy, Dict.has] using this

theorem tables_consumed (P : Dict String) (ns : List Node) (st : Dict (List String) × Dict Int) (t : String) :
    ((ns.foldl (addNode P) st).1.get? t).getD [] =
      (st.1.get? t).getD [] ++ ns.flatMap fun n => List.replicate ((n.input.filter P.has).count t) n.name := by
  induction ns generalizing st with
  | nil => simp
  | cons n ns ih =>
    simp only [List.foldl_cons, ih, List.flatMap_cons]
    simp only [addNode, fold_appendAt]
    by_cases h : (n.input.filter P.has).count t = 0
    · simp [h]
    · simp [h]

theorem tables_deps (P : Dict String) (ns : List Node) (st : Dict (List String) × Dict Int)
    (hnd : (ns.map (·.name)).Nodup) (n : Node) (hn : n ∈ ns) :
    (ns.foldl (addNode P) st).2.get? n.name = some ((n.input.filter P.has).length : Int) := by
  have keep : ∀ (l : List Node) (st : Dict (List String) × Dict Int), n.name ∉ l.map (·.name) →
      (l.foldl (addNode P) st).2.get? n.name = st.2.get? n.name := by
    intro l
    induction l with
    | nil => intro st _; rfl
    | cons a l ih =>
      intro st h
      simp only [List.map_cons, List.mem_cons, not_or] at h
      simp only [List.foldl_cons]
      rw [ih _ h.2]
      simp [addNode, Dict.get?_set, Ne.symm h.1]
  induction ns generalizing st with
  | nil => simp at hn
  | cons a ns ih =>
    simp only [List.map_cons, List.nodup_cons] at hnd
    simp only [List.foldl_cons]
    rcases List.mem_cons.mp hn with rfl | hn
    · rw [keep ns _ hnd.1]; simp [addNode, Dict.get?_set]
    · exact ih _ hnd.2 hn

theorem name_inj {ns : List Node} (h : (ns.map (·.name)).Nodup) {a b : Node} (ha : a ∈ ns) (hb : b ∈ ns)
    (e : a.name = b.name) : a = b := by
  induction ns with
  | nil => simp at ha
  | cons c ns ih =>
    simp only [List.map_cons, List.nodup_cons] at h
    rcases List.mem_cons.mp ha with rfl | ha' <;> rcases List.mem_cons.mp hb with rfl | hb'
    · rfl
    · exact absurd (List.mem_map.mpr ⟨b, hb', e.symm⟩) h.1
    · exact absurd (List.mem_map.mpr ⟨a, ha', e⟩) h.1
    · exact ih h.2 ha' hb'

theorem findNode_mem {ns : List Node} (h : (ns.map (·.name)).Nodup) {n : Node} (hn : n ∈ ns) :
    findNode ns n.name = some n := by
  unfold findNode
  cases hf : ns.find? (fun m => m.name = n.name) with
  | none =>
    rw [List.find?_eq_none] at hf
    have := hf n hn; simp at this
  | some m =>
    have h1 := List.find?_some hf
    have h2 := List.mem_of_find?_eq_some hf
    simp at h1
    rw [name_inj h h2 hn h1]

theorem nodup_of_names {ns : List Node} (h : (ns.map (·.name)).Nodup) : ns.Nodup := by
  induction ns with
  | nil => simp
  | cons a ns ih =>
    simp only [List.map_cons, List.nodup_cons] at h ⊢
    exact ⟨fun hc => h.1 (List.mem_map.mpr ⟨a, hc, rfl⟩), ih h.2⟩

/-- occurrences of `t` among the outputs of a list of nodes -/
def outCount (l : List Node) (t : String) : Nat := (l.map fun m => m.output.count t).sum

@[simp] theorem outCount_nil (t : String) : outCount [] t = 0 := rfl
theorem outCount_cons (m : Node) (l : List Node) (t : String) : outCount (m :: l) t = m.output.count t + outCount l t := rfl
theorem outCount_append (a b : List Node) (t : String) : outCount (a ++ b) t = outCount a t + outCount b t := by
  simp [outCount]

theorem outCount_pos {l : List Node} {t : String} : 0 < outCount l t ↔ ∃ m ∈ l, t ∈ m.output := by
  induction l with
  | nil => simp
  | cons a l ih =>
    rw [outCount_cons]
    constructor
    · intro h
      by_cases h0 : 0 < a.output.count t
      · exact ⟨a, by simp, List.count_pos_iff.mp h0⟩
      · obtain ⟨m, hm, ht⟩ := ih.mp (by omega); exact ⟨m, by simp [hm], ht⟩
    · rintro ⟨m, hm, ht⟩
      rcases List.mem_cons.mp hm with rfl | hm
      · have := List.count_pos_iff.mpr ht; omega
      · have := ih.mpr ⟨m, hm, ht⟩; omega

theorem outCount_perm_le {O ns : List Node} (hn : O.Nodup) (hs : ∀ x ∈ O, x ∈ ns) (t : String) :
    outCount O t ≤ outCount ns t := by
  induction O generalizing ns with
  | nil => simp
  | cons a O ih =>
    rw [List.nodup_cons] at hn
    obtain ⟨m1, m2, rfl⟩ := List.append_of_mem (hs a (by simp))
    have := ih (ns := m1 ++ m2) hn.2 (by
      intro x hx
      have := hs x (by simp [hx])
      simp only [List.mem_append, List.mem_cons] at this ⊢
      rcases this with h | rfl | h
      · exact Or.inl h
      · exact absurd hx hn.1
      · exact Or.inr h)
    simp only [outCount_append, outCount_cons] at this ⊢
    omega

/-- pending inputs of `n` when the nodes `O` have run -/
def pending (ns O : List Node) (n : Node) : Int :=
  (n.input.map fun t => (if t ∈ ns.flatMap (·.output) then (1:Int) else 0) - outCount O t).sum

theorem count_flatMap_out (ns : List Node) (t : String) : (ns.flatMap (·.output)).count t = outCount ns t := by
  induction ns with
  | nil => rfl
  | cons a ns ih => simp [outCount_cons, List.count_append, ih]

theorem pend_nonneg {ns O : List Node} (hu : UniqueProducers ns) (hO : O.Nodup) (hs : ∀ x ∈ O, x ∈ ns) {n : Node}
    (hn : n ∈ ns) {t : String} (ht : t ∈ n.input) :
    0 ≤ (if t ∈ ns.flatMap (·.output) then (1:Int) else 0) - outCount O t ∧
    ((if t ∈ ns.flatMap (·.output) then (1:Int) else 0) - outCount O t = 0 ↔
      ∀ m ∈ ns, t ∈ m.output → m ∈ O) := by
  have h1 := hu n hn t ht
  rw [count_flatMap_out] at h1
  have h2 := outCount_perm_le hO hs t
  have h3 : t ∈ ns.flatMap (·.output) ↔ 0 < outCount ns t := by
    rw [outCount_pos, List.mem_flatMap]
  by_cases hp : t ∈ ns.flatMap (·.output)
  · have h4 := h3.mp hp
    rw [if_pos hp]
    refine ⟨by omega, ?_⟩
    constructor
    · intro h m hm htm
      have hpos : 0 < outCount O t := by omega
      obtain ⟨m', hm', ht'⟩ := outCount_pos.mp hpos
      by_cases e : m = m'
      · subst e; exact hm'
      · -- two producers
        exfalso
        have h5 := outCount_perm_le (O := [m, m']) (ns := ns) (by simp [e])
          (by intro x hx; simp at hx; rcases hx with rfl | rfl; exact hm; exact hs _ hm') t
        simp only [outCount_cons, outCount_nil] at h5
        have := List.count_pos_iff.mpr htm
        have := List.count_pos_iff.mpr ht'
        omega
    · intro h
      obtain ⟨m, hm, htm⟩ := outCount_pos.mp h4
      have : 0 < outCount O t := outCount_pos.mpr ⟨m, h m hm htm, htm⟩
      omega
  · rw [if_neg hp]
    have h4 : ¬ 0 < outCount ns t := fun h => hp (h3.mpr h)
    refine ⟨by omega, ?_⟩
    constructor
    · intro _ m hm htm; exact absurd (outCount_pos.mpr ⟨m, hm, htm⟩) h4
    · intro _; omega

theorem sum_zero_iff (l : List String) (f : String → Int) (h : ∀ t ∈ l, 0 ≤ f t) :
    0 ≤ (l.map f).sum ∧ ((l.map f).sum = 0 ↔ ∀ t ∈ l, f t = 0) := by
  induction l with
  | nil => simp
  | cons a l ih =>
    have h1 := h a (by simp)
    have h2 := ih (fun t ht => h t (by simp [ht]))
    simp only [List.map_cons, List.sum_cons, List.mem_cons, forall_eq_or_imp]
    refine ⟨by omega, ?_⟩
    rw [← h2.2]
    constructor
    · intro h; omega
    · rintro ⟨h, h'⟩; omega

theorem pending_zero_iff {ns O : List Node} (hu : UniqueProducers ns) (hO : O.Nodup) (hs : ∀ x ∈ O, x ∈ ns) {n : Node}
    (hn : n ∈ ns) : 0 ≤ pending ns O n ∧ (pending ns O n = 0 ↔ ready ns O n = true) := by
  have h := sum_zero_iff n.input (fun t => (if t ∈ ns.flatMap (·.output) then (1:Int) else 0) - outCount O t)
    (fun t ht => (pend_nonneg hu hO hs hn ht).1)
  refine ⟨h.1, ?_⟩
  unfold pending
  rw [h.2, ready_iff]
  constructor
  · rintro h m hm ⟨t, ht, hto⟩
    exact (pend_nonneg hu hO hs hn ht).2.mp (h t ht) m hm hto
  · intro h t ht
    exact (pend_nonneg hu hO hs hn ht).2.mpr (fun m hm hto => h m hm ⟨t, ht, hto⟩)

/-- the dependency table agrees with the abstract state -/
def DepsOK (ns O : List Node) (deps : Dict Int) : Prop :=
  ∀ n ∈ ns, deps.get? n.name = some (pending ns O n - if n ∈ O then 1 else 0)

theorem filter_length_pending (ns : List Node) (n : Node) :
    ((n.input.filter (producedBy ns).has).length : Int) = pending ns [] n := by
  unfold pending
  simp only [outCount_nil]
  generalize n.input = l
  induction l with
  | nil => rfl
  | cons a l ih =>
    simp only [List.map_cons, List.sum_cons, List.filter_cons]
    by_cases h : a ∈ ns.flatMap (·.output)
    · rw [if_pos ((producedBy_has ns a).mpr h), if_pos h]
      simp only [List.length_cons, Int.natCast_add]; omega
    · rw [if_neg (fun hc => h ((producedBy_has ns a).mp hc)), if_neg h]; omega

theorem depsOK_init (ns : List Node) (hnd : (ns.map (·.name)).Nodup) : DepsOK ns [] (tables ns).2 := by
  intro n hn
  rw [show (tables ns).2.get? n.name = _ from tables_deps (producedBy ns) ns ([], []) hnd n hn,
    filter_length_pending]
  simp

theorem count_replicate_flat (l : List Node) (P : Dict String) (t : String)
    (h : (l.map (·.name)).Nodup) (n : Node) (hn : n ∈ l) :
    (l.flatMap fun m => List.replicate ((m.input.filter P.has).count t) m.name).count n.name
      = (n.input.filter P.has).count t := by
  have zero : ∀ l : List Node, n.name ∉ l.map (·.name) →
      (l.flatMap fun m => List.replicate ((m.input.filter P.has).count t) m.name).count n.name = 0 := by
    intro l
    induction l with
    | nil => simp
    | cons a l ih =>
      intro h
      simp only [List.map_cons, List.mem_cons, not_or] at h
      simp only [List.flatMap_cons, List.count_append, ih h.2, Nat.add_zero]
      rw [List.count_replicate]; simp [Ne.symm h.1]
  induction l with
  | nil => simp at hn
  | cons a l ih =>
    simp only [List.map_cons, List.nodup_cons] at h
    simp only [List.flatMap_cons, List.count_append]
    rcases List.mem_cons.mp hn with rfl | hn'
    · rw [zero l h.1, List.count_replicate_self]; omega
    · have hne : a.name ≠ n.name := by
        intro e; exact h.1 (List.mem_map.mpr ⟨n, hn', e.symm⟩)
      rw [ih h.2 hn', List.count_replicate]; simp [hne]

theorem process_one (ns : List Node) (hnd : (ns.map (·.name)).Nodup) (m : Node) (hm : m ∈ ns) (deps : Dict Int)
    (n : Node) (hn : n ∈ ns) :
    val (process ns (tables ns).1 deps m.name) n.name = val deps n.name - (n.input.map fun t => (m.output.count t : Int)).sum
    ∧ ((deps.get? n.name).isSome → ((process ns (tables ns).1 deps m.name).get? n.name).isSome) := by
  unfold process
  rw [findNode_mem hnd hm]
  dsimp only
  have hprod : ∀ o ∈ m.output, (producedBy ns).has o = true := by
    intro o ho; rw [producedBy_has, List.mem_flatMap]; exact ⟨m, hm, ho⟩
  have hcount : ∀ o ∈ m.output, (((tables ns).1.get? o).getD []).count n.name = n.input.count o := by
    intro o ho
    have := tables_consumed (producedBy ns) ns ([], []) o
    simp only [Dict.get?_nil, Option.getD_none, List.nil_append] at this
    unfold tables
    rw [this, count_replicate_flat ns _ o hnd n hn, List.count_filter (hprod o ho)]
  have aux : ∀ (os : List String) (deps : Dict Int), (∀ o ∈ os, o ∈ m.output) →
      val (os.foldl (fun deps o => (((tables ns).1.get? o).getD []).foldl dec deps) deps) n.name
        = val deps n.name - (os.map fun o => (n.input.count o : Int)).sum ∧
      ((deps.get? n.name).isSome →
        ((os.foldl (fun deps o => (((tables ns).1.get? o).getD []).foldl dec deps) deps).get? n.name).isSome) := by
    intro os
    induction os with
    | nil => intro deps _; simp
    | cons o os ih =>
      intro deps h
      have h1 := ih ((((tables ns).1.get? o).getD []).foldl dec deps) (fun x hx => h x (by simp [hx]))
      simp only [List.foldl_cons, List.map_cons, List.sum_cons]
      refine ⟨?_, fun hs => h1.2 (foldl_dec_has _ _ _ hs)⟩
      rw [h1.1, foldl_dec, hcount o (h o (by simp))]; omega
  have h2 := aux m.output deps (fun _ h => h)
  refine ⟨?_, h2.2⟩
  rw [h2.1]
  congr 1
  -- double counting
  have dbl : ∀ (a b : List String), (a.map fun o => (b.count o : Int)).sum = (b.map fun t => (a.count t : Int)).sum := by
    intro a b
    induction a with
    | nil =>
      simp only [List.map_nil, List.sum_nil, List.count_nil]
      induction b with
      | nil => rfl
      | cons x b ih => simp only [List.map_cons, List.sum_cons]; omega
    | cons x a ih =>
      simp only [List.map_cons, List.sum_cons, ih, List.count_cons]
      clear ih
      induction b with
      | nil => simp
      | cons y b ih =>
        simp only [List.map_cons, List.sum_cons, List.count_cons] at ih ⊢
        by_cases hxy : y = x
        · subst hxy; simp at ih ⊢; omega
        · have : ¬ x = y := Ne.symm hxy
          simp [hxy, this] at ih ⊢; omega
  exact dbl _ _

theorem process_list (ns : List Node) (hnd : (ns.map (·.name)).Nodup) (q : List Node) (hq : ∀ m ∈ q, m ∈ ns)
    (deps : Dict Int) (n : Node) (hn : n ∈ ns) :
    val ((q.map (·.name)).foldl (process ns (tables ns).1) deps) n.name
      = val deps n.name - (n.input.map fun t => (outCount q t : Int)).sum
    ∧ ((deps.get? n.name).isSome → (((q.map (·.name)).foldl (process ns (tables ns).1) deps).get? n.name).isSome) := by
  induction q generalizing deps with
  | nil =>
    simp only [List.map_nil, List.foldl_nil, outCount_nil]
    refine ⟨?_, id⟩
    have : ∀ l : List String, (l.map fun _ => ((0:Nat):Int)).sum = 0 := by
      intro l; induction l with
      | nil => rfl
      | cons a l ih => simp only [List.map_cons, List.sum_cons]; omega
    rw [this]; omega
  | cons m q ih =>
    have h1 := process_one ns hnd m (hq m (by simp)) deps n hn
    have h2 := ih (fun x hx => hq x (by simp [hx])) (process ns (tables ns).1 deps m.name)
    simp only [List.map_cons, List.foldl_cons]
    refine ⟨?_, fun hs => h2.2 (h1.2 hs)⟩
    rw [h2.1, h1.1]
    have : ∀ l : List String, (l.map fun t => (outCount (m :: q) t : Int)).sum
        = (l.map fun t => (m.output.count t : Int)).sum + (l.map fun t => (outCount q t : Int)).sum := by
      intro l; induction l with
      | nil => rfl
      | cons a l ih => simp only [List.map_cons, List.sum_cons, outCount_cons, Int.natCast_add] at ih ⊢; omega
    rw [this]; omega

theorem scan_fold (ns : List Node) (hnd : (ns.map (·.name)).Nodup) (deps : Dict Int) (q : List String) :
    (ns.foldl scan (q, deps)).1 = q ++ (ns.filter fun n => deps.get? n.name = some 0).map (·.name) ∧
    ∀ x, (ns.foldl scan (q, deps)).2.get? x =
      if x ∈ ns.map (·.name) ∧ deps.get? x = some 0 then some (-1) else deps.get? x := by
  induction ns generalizing deps q with
  | nil => simp
  | cons a ns ih =>
    simp only [List.map_cons, List.nodup_cons] at hnd
    simp only [List.foldl_cons, scan]
    by_cases h : deps.get? a.name = some 0
    · rw [if_pos h]
      obtain ⟨i1, i2⟩ := ih hnd.2 (deps.set a.name (-1)) (q ++ [a.name])
      have other : ∀ n ∈ ns, (deps.set a.name (-1)).get? n.name = deps.get? n.name := by
        intro n hn
        apply Dict.get?_set_ne
        intro e; exact hnd.1 (List.mem_map.mpr ⟨n, hn, e.symm⟩)
      refine ⟨?_, ?_⟩
      · rw [i1, List.filter_cons_of_pos (by simp [h])]
        have : (ns.filter fun n => (deps.set a.name (-1)).get? n.name = some 0) =
            ns.filter fun n => deps.get? n.name = some 0 := by
          apply List.filter_congr; intro n hn; rw [other n hn]
        rw [this]; simp
      · intro x
        rw [i2 x, Dict.get?_set]
        by_cases hx : a.name = x
        · subst hx; simp [h]
        · simp [hx, Ne.symm hx]
    · rw [if_neg h]
      obtain ⟨i1, i2⟩ := ih hnd.2 deps q
      refine ⟨?_, ?_⟩
      · rw [i1, List.filter_cons_of_neg (by simp [h])]
      · intro x
        rw [i2 x]
        by_cases hx : x = a.name
        · subst hx; simp [h]
        · simp [hx]

theorem pending_append (ns O q : List Node) (n : Node) :
    pending ns (O ++ q) n = pending ns O n - (n.input.map fun t => (outCount q t : Int)).sum := by
  unfold pending
  generalize n.input = l
  induction l with
  | nil => rfl
  | cons a l ih =>
    simp only [List.map_cons, List.sum_cons, outCount_append, Int.natCast_add] at ih ⊢
    omega

/-- the code's loop computes the abstract one -/
theorem loop_eq (ns : List Node) (hnd : (ns.map (·.name)).Nodup) (hu : UniqueProducers ns) (fuel : Nat) (O : List Node)
    (hO : KInv ns O) (deps : Dict Int) (hd : DepsOK ns O deps) :
    loop ns (tables ns).1 fuel deps (O.map (·.name)) = (kahn ns fuel O).map (·.name) := by
  induction fuel generalizing O deps with
  | zero => rfl
  | succ fuel ih =>
    have hns := nodup_of_names hnd
    obtain ⟨s1, s2⟩ := scan_fold ns hnd deps []
    have doneReady : ∀ n ∈ O, pending ns O n = 0 := by
      intro n hn
      refine (pending_zero_iff hu hO.nodup hO.sub (hO.sub n hn)).2.mpr (ready_iff.mpr ?_)
      intro m hm hdp
      obtain ⟨l1, l2, e⟩ := List.append_of_mem hn
      have := hO.order l1 n l2 e m hm hdp
      rw [e]; exact List.mem_append_left _ this
    have hq : (ns.filter fun n => deps.get? n.name = some 0) = next ns O := by
      unfold next
      apply List.filter_congr
      intro n hn
      rw [hd n hn]
      by_cases hin : n ∈ O
      · have := doneReady n hin
        simp [hin, this]
      · have := (pending_zero_iff hu hO.nodup hO.sub hn).2
        simp only [hin, if_false, not_false_eq_true, decide_true, Bool.true_and, Int.sub_zero, Option.some.injEq]
        rw [Bool.eq_iff_iff, decide_eq_true_iff]; exact this
    simp only [List.nil_append] at s1
    rw [hq] at s1
    unfold loop kahn
    dsimp only
    rw [s1]
    by_cases hne : next ns O = []
    · simp [hne]
    · rw [if_neg (by simpa using hne), if_neg hne, ← List.map_append]
      apply ih _ (kinv_next hns hO)
      intro n hn
      have hmem : ∀ m ∈ next ns O, m ∈ ns := fun m hm => (mem_next.mp hm).1
      obtain ⟨p1, p2⟩ := process_list ns hnd (next ns O) hmem (ns.foldl scan ([], deps)).2 n hn
      have hval : val (ns.foldl scan ([], deps)).2 n.name
          = pending ns O n - (if n ∈ O then 1 else 0) - (if n ∈ next ns O then 1 else 0) := by
        unfold val
        rw [s2, hd n hn]
        have hnm : n.name ∈ ns.map (·.name) := List.mem_map.mpr ⟨n, hn, rfl⟩
        have hiff : (some (pending ns O n - if n ∈ O then 1 else 0) = some 0) ↔ n ∈ next ns O := by
          rw [← hq, List.mem_filter, decide_eq_true_iff, hd n hn]
          simp [hn]
        by_cases hx : n ∈ next ns O
        · rw [if_pos ⟨hnm, hiff.mpr hx⟩, if_pos hx]
          have := hiff.mpr hx
          simp only [Option.some.injEq] at this
          simp [this]
        · rw [if_neg (fun h => hx (hiff.mp h.2)), if_neg hx]; simp
      have hsome : ((ns.foldl scan ([], deps)).2.get? n.name).isSome := by
        rw [s2]; split
        · rfl
        · rw [hd n hn]; rfl
      have h3 := p2 hsome
      obtain ⟨z, hz⟩ := Option.isSome_iff_exists.mp h3
      rw [hz]
      unfold val at p1
      rw [hz] at p1
      simp only [Option.getD_some] at p1
      rw [show ((ns.foldl scan ([], deps)).2.get? n.name).getD 0 = _ from hval] at p1
      congr 1
      rw [p1, pending_append]
      have hex : ¬ (n ∈ O ∧ n ∈ next ns O) := fun h => (mem_next.mp h.2).2.1 h.1
      by_cases h1 : n ∈ O <;> by_cases h2 : n ∈ next ns O
      · exact absurd ⟨h1, h2⟩ hex
      · simp [h1, h2]; omega
      · simp [h1, h2]; omega
      · simp [h1, h2]

theorem filterMap_findNode {ns : List Node} (hnd : (ns.map (·.name)).Nodup) (O : List Node) (h : ∀ n ∈ O, n ∈ ns) :
    (O.map (·.name)).filterMap (findNode ns) = O := by
  induction O with
  | nil => rfl
  | cons a O ih =>
    simp only [List.map_cons, List.filterMap_cons, findNode_mem hnd (h a (by simp))]
    rw [ih (fun n hn => h n (by simp [hn]))]

/-- Result of `graph_reorder_nodes` on a graph with uniquely produced tensors. -/
theorem reorder_eq (g : Graph) (hnd : (g.nodemap.map (·.name)).Nodup) (hu : UniqueProducers g.nodemap) :
    (graphReorderNodes g).nodemap = kahn g.nodemap (g.nodemap.length + 1) [] := by
  have h := loop_eq g.nodemap hnd hu (g.nodemap.length + 1) [] (kinv_nil _) (tables g.nodemap).2
    (depsOK_init g.nodemap hnd)
  have hk := kinv_kahn (nodup_of_names hnd) (g.nodemap.length + 1) (kinv_nil g.nodemap)
  show (topsortNodes g.nodemap).filterMap (findNode g.nodemap) = _
  unfold topsortNodes
  dsimp only
  rw [show ([] : List String) = ([] : List Node).map (·.name) from rfl, h, filterMap_findNode hnd _ hk.sub]

end OnnxTool.Topsort
