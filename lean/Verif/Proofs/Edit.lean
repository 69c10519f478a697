import Verif.Spec.Edit
import Verif.Proofs.Fuse
import Verif.Proofs.Regress
/-! # Post-op fusion, removing a subtree -/
namespace OnnxTool.Edit
open OnnxTool Remove Topsort Subgraph

/-! ### attribute names -/

theorem prefix_inj {s t : String} (h : "postop_" ++ s = "postop_" ++ t) : s = t := by
  have := congrArg String.toList h
  simp only [String.toList_append] at this
  exact String.toList_inj.mp (List.append_cancel_left this)

theorem postop_num_inj {i j : Nat} (h : "postop_" ++ toString i = "postop_" ++ toString j) : i = j := Regress.toString_inj (prefix_inj h)

theorem postop_count_ne (i : Nat) : "postop_" ++ toString i ≠ "postop_count" := by
  intro h
  have h1 : toString i = "count" := prefix_inj (h.trans (by decide))
  exact Regress.not_numeric (s := "count") (by decide) i h1.symm

theorem toString_no_underscore (i : Nat) : '_' ∉ (toString i).toList := by
  intro h
  have h1 := Regress.isNumeric_repr i
  unfold Regress.isNumeric at h1
  rw [Bool.and_eq_true, List.all_eq_true] at h1
  have := h1.2 '_' h
  exact absurd this (by decide)

theorem postop_attr_ne (i j : Nat) (a : String) : "postop_" ++ toString i ++ "_" ++ a ≠ "postop_" ++ toString j := by
  intro h
  rw [String.append_assoc, String.append_assoc] at h
  have h1 : toString i ++ ("_" ++ a) = toString j := prefix_inj h
  apply toString_no_underscore j
  rw [← h1, String.toList_append, String.toList_append]
  simp

theorem postop_attr_count_ne (i : Nat) (a : String) : "postop_" ++ toString i ++ "_" ++ a ≠ "postop_count" := by
  intro h
  rw [String.append_assoc, String.append_assoc] at h
  have h1 : toString i ++ ("_" ++ a) = "count" := prefix_inj (h.trans (by decide))
  have h2 : '_' ∈ ("count" : String).toList := by
    rw [← h1, String.toList_append, String.toList_append]
    simp
  exact absurd h2 (by decide)

/-! ### values -/

theorem valuesOf_append (a b : List (String × AttrVal)) (k : String) : valuesOf (a ++ b) k = valuesOf a k ++ valuesOf b k := by
  simp [valuesOf]

theorem valuesOf_none {a : List (String × AttrVal)} {k : String} (h : ∀ x ∈ a, x.1 ≠ k) : valuesOf a k = [] := by
  unfold valuesOf
  rw [List.filter_eq_nil_iff.mpr (fun x hx => by simpa using h x hx)]
  rfl

theorem valuesOf_filter (a : List (String × AttrVal)) (k : String) :
    valuesOf (a.filter fun x => x.1 ≠ "postop_count") k = if k = "postop_count" then [] else valuesOf a k := by
  unfold valuesOf
  rw [List.filter_filter]
  split
  · rename_i h
    rw [List.filter_eq_nil_iff.mpr]
    · rfl
    · intro x _
      simp only [h, decide_not, Bool.and_eq_true, decide_eq_true_eq, Bool.not_eq_true', decide_eq_false_iff_not, not_and, Decidable.not_not]
      exact fun h => h
  · rename_i h
    congr 1
    apply List.filter_congr
    intro x _
    by_cases hx : x.1 = k
    · simp [hx, h]
    · simp [hx]

theorem oldCount_eq : ∀ (as : List (String × AttrVal)) (c : Nat) (ops : List String),
    (valuesOf as "postop_count" = [.int ops.length] ∨ (valuesOf as "postop_count" = [] ∧ c = ops.length)) → oldCount as c = ops.length := by
  intro as
  induction as with
  | nil =>
    intro c ops h
    rcases h with h | h
    · cases h
    · exact h.2
  | cons a as ih =>
    obtain ⟨k, v⟩ := a
    intro c ops h
    by_cases hk : k = "postop_count"
    · subst hk
      have e : valuesOf (("postop_count", v) :: as) "postop_count" = v :: valuesOf as "postop_count" := by simp [valuesOf]
      rw [e] at h
      rcases h with h | h
      · injection h with h1 h2
        subst h1
        simp only [oldCount, if_true]
        exact ih _ ops (.inr ⟨h2, rfl⟩)
      · cases h.1
    · have e : valuesOf ((k, v) :: as) "postop_count" = valuesOf as "postop_count" := by simp [valuesOf, hk]
      rw [e] at h
      cases v with
      | int n =>
        simp only [oldCount, if_neg hk]
        exact ih c ops h
      | str s => exact ih c ops h
      | data s => exact ih c ops h

/-- the operators of the fused nodes other than the main one, in order -/
def postOps (main : String) (ns : List Node) (names : List String) : List String :=
  (names.filter fun n => n ≠ main).filterMap fun n => (findNode ns n).map (·.op)

theorem postAttrs_ok (main : String) (ns : List Node) (A : Attrs) : ∀ (names : List String) (c : Nat),
    (∀ x ∈ names, ∃ n, findNode ns x = some n) →
    ∃ as, postAttrs main ns A names c = .ok (as, c + (postOps main ns names).length) ∧
      valuesOf as "postop_count" = [] ∧
      (∀ i : Nat, i < c → valuesOf as ("postop_" ++ toString i) = []) ∧
      (∀ (i : Nat) (o : String), (postOps main ns names)[i]? = some o → valuesOf as ("postop_" ++ toString (c + i)) = [.str o]) ∧
      (∀ i, (postOps main ns names).length ≤ i → valuesOf as ("postop_" ++ toString (c + i)) = []) ∧
      (∀ (i : Nat) (x : String), (names.filter fun n => n ≠ main)[i]? = some x → ∀ a ∈ A x, ("postop_" ++ toString (c + i) ++ "_" ++ a.1, a.2) ∈ as) := by
  intro names
  induction names with
  | nil =>
    intro c _
    refine ⟨[], rfl, rfl, fun _ _ => rfl, ?_, fun _ _ => rfl, ?_⟩
    · intro i o h; simp [postOps] at h
    · intro i x h; simp at h
  | cons n names ih =>
    intro c hex
    by_cases hn : n = main
    · obtain ⟨as, h1, h2⟩ := ih c (fun x hx => hex x (List.mem_cons_of_mem _ hx))
      have e : postOps main ns (n :: names) = postOps main ns names := by simp [postOps, hn]
      have e2 : (n :: names).filter (fun n => n ≠ main) = names.filter (fun n => n ≠ main) := by simp [hn]
      rw [e, e2]
      refine ⟨as, ?_, h2⟩
      rw [postAttrs, if_pos hn, h1]
    · obtain ⟨p, hp⟩ := hex n List.mem_cons_self
      obtain ⟨as, h1, h2, h3, h4, h5, h6⟩ := ih (c + 1) (fun x hx => hex x (List.mem_cons_of_mem _ hx))
      have e : postOps main ns (n :: names) = p.op :: postOps main ns names := by simp [postOps, hn, hp]
      have e2 : (n :: names).filter (fun n => n ≠ main) = n :: names.filter (fun n => n ≠ main) := by simp [hn]
      rw [e, e2]
      have hown : ∀ k : String, (∀ a : String, "postop_" ++ toString c ++ "_" ++ a ≠ k) →
          valuesOf ((A n).map fun a => ("postop_" ++ toString c ++ "_" ++ a.1, a.2)) k = [] := by
        intro k hk
        refine valuesOf_none ?_
        intro x hx
        obtain ⟨a, -, rfl⟩ := List.mem_map.mp hx
        exact hk a.1
      have hsplit : ∀ k : String, (∀ a : String, "postop_" ++ toString c ++ "_" ++ a ≠ k) →
          valuesOf (("postop_" ++ toString c, AttrVal.str p.op) :: (A n).map (fun a => ("postop_" ++ toString c ++ "_" ++ a.1, a.2)) ++ as) k =
            (if "postop_" ++ toString c = k then [AttrVal.str p.op] else []) ++ valuesOf as k := by
        intro k hk
        rw [valuesOf_append]
        congr 1
        have : valuesOf (("postop_" ++ toString c, AttrVal.str p.op) :: (A n).map (fun a => ("postop_" ++ toString c ++ "_" ++ a.1, a.2))) k =
            valuesOf [("postop_" ++ toString c, AttrVal.str p.op)] k ++ valuesOf ((A n).map fun a => ("postop_" ++ toString c ++ "_" ++ a.1, a.2)) k := by
          rw [← valuesOf_append]; rfl
        rw [this, hown k hk, List.append_nil]
        generalize "postop_" ++ toString c = q
        unfold valuesOf
        split
        · rename_i h; simp [h]
        · rename_i h; simp [h]
      refine ⟨("postop_" ++ toString c, AttrVal.str p.op) :: (A n).map (fun a => ("postop_" ++ toString c ++ "_" ++ a.1, a.2)) ++ as,
        ?_, ?_, ?_, ?_, ?_, ?_⟩
      · rw [postAttrs, if_neg hn, hp]
        simp only [h1]
        rw [List.length_cons, show c + 1 + (postOps main ns names).length = c + ((postOps main ns names).length + 1) by omega]
      · rw [hsplit _ (fun a => postop_attr_count_ne c a), if_neg (postop_count_ne c), h2]; rfl
      · intro i hi
        rw [hsplit _ (fun a => postop_attr_ne c i a), if_neg (fun h => by have := postop_num_inj h; omega), h3 i (by omega)]; rfl
      · intro i o ho
        rw [hsplit _ (fun a => postop_attr_ne c (c + i) a)]
        cases i with
        | zero =>
          simp only [List.getElem?_cons_zero, Option.some.injEq] at ho
          rw [if_pos (by simp), h3 (c + 0) (by omega), ho]; rfl
        | succ i =>
          simp only [List.getElem?_cons_succ] at ho
          rw [if_neg (fun h => by have := postop_num_inj h; omega), List.nil_append, show c + (i + 1) = c + 1 + i by omega]
          exact h4 i o ho
      · intro i hi
        rw [List.length_cons] at hi
        obtain ⟨j, rfl⟩ : ∃ j, i = j + 1 := ⟨i - 1, by omega⟩
        rw [hsplit _ (fun a => postop_attr_ne c (c + (j + 1)) a), if_neg (fun h => by have := postop_num_inj h; omega), List.nil_append,
          show c + (j + 1) = c + 1 + j by omega]
        exact h5 j (by omega)
      · intro i x hx a ha
        cases i with
        | zero =>
          simp only [List.getElem?_cons_zero, Option.some.injEq] at hx
          subst hx
          refine List.mem_append_left _ (List.mem_cons_of_mem _ (List.mem_map.mpr ⟨a, ha, ?_⟩))
          simp
        | succ i =>
          simp only [List.getElem?_cons_succ] at hx
          refine List.mem_append_right _ ?_
          rw [show c + (i + 1) = c + 1 + i by omega]
          exact h6 i x hx a ha

/-! ### the consumer index -/

theorem appendIfThere_get? (name : String) (d : Dict (List String)) (i t : String) :
    (appendIfThere name d i).get? t = if i = t then (d.get? t).map (· ++ [name]) else d.get? t := by
  unfold appendIfThere Dict.has
  by_cases hi : i = t
  · subst hi
    rw [if_pos rfl]
    cases h : d.get? i with
    | none => simp [h]
    | some l =>
      have := fold_appendAt [i] d name i
      simp only [List.foldl_cons, List.foldl_nil, h] at this
      simp [h, this]
  · rw [if_neg hi]
    split
    · have := fold_appendAt [i] d name t
      simp only [List.foldl_cons, List.foldl_nil] at this
      rw [this]
      simp [List.count_cons, hi]
    · rfl

theorem fold_appendIfThere (name : String) : ∀ (is : List String) (d : Dict (List String)) (t : String), is.Nodup →
    (is.foldl (appendIfThere name) d).get? t = if t ∈ is then (d.get? t).map (· ++ [name]) else d.get? t := by
  intro is
  induction is with
  | nil => intro d t _; simp
  | cons i is ih =>
    intro d t hn
    rw [List.nodup_cons] at hn
    rw [List.foldl_cons, ih _ t hn.2, appendIfThere_get?]
    by_cases hi : i = t
    · subst hi
      simp [hn.1]
    · simp [hi, Ne.symm hi]

/-! ### subtrees -/

theorem go_mem {g0 g : Graph} {depth : Nat} : ∀ (ns l : List String), gather (collect g0 g depth) ns = .ok l →
    ∀ x, x ∈ l ↔ ∃ n ∈ ns, x = n ∨ ∃ l', collect g0 g depth n = .ok l' ∧ x ∈ l' := by
  intro ns
  induction ns with
  | nil => intro l h x; simp only [gather, Except.ok.injEq] at h; subst h; simp
  | cons n ns ih =>
    intro l h x
    rw [gather] at h
    cases h1 : collect g0 g depth n with
    | error e => rw [h1] at h; cases h
    | ok l1 =>
      rw [h1] at h
      cases h2 : gather (collect g0 g depth) ns with
      | error e => rw [h2] at h; cases h
      | ok l2 =>
        rw [h2] at h
        simp only [Except.ok.injEq] at h
        subst h
        rw [List.mem_append, List.mem_cons, ih l2 h2 x]
        constructor
        · rintro ((rfl | h) | ⟨m, hm, h⟩)
          · exact ⟨x, List.mem_cons_self, .inl rfl⟩
          · exact ⟨n, List.mem_cons_self, .inr ⟨l1, h1, h⟩⟩
          · exact ⟨m, List.mem_cons_of_mem _ hm, h⟩
        · rintro ⟨m, hm, h⟩
          rcases List.mem_cons.mp hm with rfl | hm
          · rcases h with rfl | ⟨l', h', hx⟩
            · exact .inl (.inl rfl)
            · rw [h1] at h'; cases h'; exact .inl (.inr hx)
          · exact .inr ⟨m, hm, h⟩

theorem go_ok {g0 g : Graph} {depth : Nat} : ∀ (ns : List String), (∀ n ∈ ns, ∃ l, collect g0 g depth n = .ok l) → ∃ l, gather (collect g0 g depth) ns = .ok l := by
  intro ns
  induction ns with
  | nil => intro _; exact ⟨[], rfl⟩
  | cons n ns ih =>
    intro h
    obtain ⟨l1, h1⟩ := h n List.mem_cons_self
    obtain ⟨l2, h2⟩ := ih fun m hm => h m (List.mem_cons_of_mem _ hm)
    exact ⟨n :: l1 ++ l2, by rw [gather, h1, h2]⟩

theorem go_ok_all {g0 g : Graph} {depth : Nat} : ∀ (ns l : List String), gather (collect g0 g depth) ns = .ok l → ∀ n ∈ ns, ∃ l, collect g0 g depth n = .ok l := by
  intro ns
  induction ns with
  | nil => intro l _ n hn; cases hn
  | cons m ns ih =>
    intro l h n hn
    rw [gather] at h
    cases h1 : collect g0 g depth m with
    | error e => rw [h1] at h; cases h
    | ok l1 =>
      rw [h1] at h
      cases h2 : gather (collect g0 g depth) ns with
      | error e => rw [h2] at h; cases h
      | ok l2 =>
        rcases List.mem_cons.mp hn with rfl | hn
        · exact ⟨l1, h1⟩
        · exact ih l2 h2 n hn

/-- path from the other end -/
theorem depPath_snoc {ns : List Node} {n m k : Node} (h : DepPath ns n m) (hk : k ∈ ns) (hd : Dep m k) : DepPath ns n k := by
  induction h with
  | step h1 h2 => exact .trans h1 h2 (.step hk hd)
  | trans h1 h2 _ ih => exact .trans h1 h2 (ih hd)

/-- what is collected: removed nodes aside, the nodes depending on the given one -/
theorem collect_mem {g0 g : Graph} (h0 : WF g0) (hsub : g.nodemap.Sublist g0.nodemap) : ∀ (depth : Nat) (n : Node) (l : List String), n ∈ g.nodemap →
    collect g0 g depth n.name = .ok l → ∀ m ∈ g.nodemap, (m.name ∈ l ↔ DepPath g.nodemap m n) := by
  have hn := nodup_names_sub hsub h0.names
  intro depth
  induction depth with
  | zero => intro n l _ h; cases h
  | succ depth ih =>
    intro n l hnm h m hm
    rw [collect, findNode_mem hn hnm] at h
    rw [go_mem _ _ h]
    constructor
    · rintro ⟨x, hx, hmx⟩
      obtain ⟨k, hk, rfl, hd⟩ := (mem_nextNames h0).mp hx
      rcases hmx with e | ⟨l', h', hml⟩
      · have : m = k := name_inj h0.names (hsub.subset hm) hk e
        subst this
        exact .step hnm hd
      · cases depth with
        | zero => cases h'
        | succ depth =>
          cases hf : findNode g.nodemap k.name with
          | none =>
            rw [collect, hf] at h'
            simp only [Except.ok.injEq] at h'
            subst h'
            cases hml
          | some k' =>
            obtain ⟨hk', e⟩ := findNode_some hf
            have : k' = k := name_inj h0.names (hsub.subset hk') hk e
            subst this
            exact depPath_snoc ((ih k' l' hk' h' m hm).mp hml) hnm hd
    · intro hp
      -- last step of the path
      have hlast : ∀ {a b : Node}, a ∈ g.nodemap → DepPath g.nodemap a b → ∃ k ∈ g.nodemap, Dep k b ∧ (a = k ∨ DepPath g.nodemap a k) := by
        intro a b ha hp
        induction hp with
        | step h1 h2 => exact ⟨_, ha, h2, .inl rfl⟩
        | trans h1 h2 _ ih =>
          obtain ⟨k, hk, hd, hor⟩ := ih h1
          rcases hor with rfl | hor
          · exact ⟨_, hk, hd, .inr (.step hk h2)⟩
          · exact ⟨k, hk, hd, .inr (.trans h1 h2 hor)⟩
      obtain ⟨k, hk, hd, hor⟩ := hlast hm hp
      refine ⟨k.name, (mem_nextNames h0).mpr ⟨k, hsub.subset hk, rfl, hd⟩, ?_⟩
      rcases hor with rfl | hor
      · exact .inl rfl
      · obtain ⟨l', h'⟩ := go_ok_all _ _ h k.name ((mem_nextNames h0).mpr ⟨k, hsub.subset hk, rfl, hd⟩)
        exact .inr ⟨l', h', (ih k l' hk h' m hm).mpr hor⟩

/-- with enough depth an acyclic graph is collected -/
theorem collect_ok {g0 g : Graph} (h0 : WF g0) (hsub : g.nodemap.Sublist g0.nodemap) {ms : List Node} (hp : ms.Perm g.nodemap) (ht : TopoOrdered ms) :
    ∀ (k : Nat) (pre : List Node) (n : Node) (suf : List Node), ms = pre ++ n :: suf → suf.length ≤ k → ∀ depth, k + 2 ≤ depth →
      ∃ l, collect g0 g depth n.name = .ok l := by
  have hn := nodup_names_sub hsub h0.names
  intro k
  induction k with
  | zero =>
    intro pre n suf e hs depth hd
    obtain ⟨d, rfl⟩ : ∃ d, depth = d + 2 := ⟨depth - 2, by omega⟩
    have hnm : n ∈ g.nodemap := hp.mem_iff.mp (by rw [e]; simp)
    rw [collect, findNode_mem hn hnm]
    refine go_ok _ ?_
    intro x hx
    obtain ⟨m, hm, rfl, hdep⟩ := (mem_nextNames h0).mp hx
    cases hf : findNode g.nodemap m.name with
    | none => exact ⟨[], by rw [collect, hf]⟩
    | some m' =>
      exfalso
      obtain ⟨hm', e'⟩ := findNode_some hf
      have : m' = m := name_inj h0.names (hsub.subset hm') hm e'
      subst this
      have hs0 : suf = [] := List.length_eq_zero_iff.mp (by omega)
      subst hs0
      have hmm : m' ∈ pre ++ [n] := by rw [← e]; exact hp.mem_iff.mpr hm'
      rcases List.mem_append.mp hmm with h | h
      · have := ht.1
        rw [e, List.pairwise_append] at this
        exact this.2.2 m' h n (by simp) hdep
      · rw [List.mem_singleton] at h
        subst h
        exact ht.2 m' (by rw [e]; simp) hdep
  | succ k ih =>
    intro pre n suf e hs depth hd
    obtain ⟨d, rfl⟩ : ∃ d, depth = d + 1 := ⟨depth - 1, by omega⟩
    have hnm : n ∈ g.nodemap := hp.mem_iff.mp (by rw [e]; simp)
    rw [collect, findNode_mem hn hnm]
    refine go_ok _ ?_
    intro x hx
    obtain ⟨m, hm, rfl, hdep⟩ := (mem_nextNames h0).mp hx
    cases hf : findNode g.nodemap m.name with
    | none =>
      obtain ⟨d', rfl⟩ : ∃ d', d = d' + 1 := ⟨d - 1, by omega⟩
      exact ⟨[], by rw [collect, hf]⟩
    | some m' =>
      obtain ⟨hm', e'⟩ := findNode_some hf
      have : m' = m := name_inj h0.names (hsub.subset hm') hm e'
      subst this
      have hmm : m' ∈ pre ++ n :: suf := by rw [← e]; exact hp.mem_iff.mpr hm'
      have hpw := ht.1
      rw [e, List.pairwise_append] at hpw
      rcases List.mem_append.mp hmm with h | h
      · exact absurd hdep (hpw.2.2 m' h n (by simp))
      · rcases List.mem_cons.mp h with rfl | h
        · exact absurd hdep (ht.2 m' (by rw [e]; simp))
        · obtain ⟨a, b, rfl⟩ := List.append_of_mem h
          refine ih (pre ++ n :: a) m' b (by rw [e]; simp) ?_ d (by omega)
          simp only [List.length_append, List.length_cons] at hs
          omega

/-- outputs after removals -/
theorem removeEach_output_mem : ∀ (names : List String) {g g' : Graph} (_ : WF g) (_ : g.output.Nodup) (_ : removeEach names g = .ok g'),
    g'.output.Nodup ∧ g'.input = g.input ∧ g'.initials = g.initials ∧
      ∀ o, o ∈ g'.output ↔ o ∈ g.output ∧ ∀ n ∈ g.nodemap, n.name ∈ names → o ∉ n.output
  | [], g, g', hw, hnd, h => by cases h; exact ⟨hnd, rfl, rfl, by simp⟩
  | x :: xs, g, g', hw, hnd, h => by
    unfold removeEach at h
    cases hf : findNode g.nodemap x with
    | none =>
      rw [removeOne_missing hf] at h
      obtain ⟨h1, h2, h3, h4⟩ := removeEach_output_mem xs hw hnd h
      refine ⟨h1, h2, h3, ?_⟩
      intro o
      rw [h4]
      refine and_congr_right fun _ => ?_
      constructor
      · intro h n hn hx
        rcases List.mem_cons.mp hx with e | hx
        · exact absurd e (findNode_none hf n hn)
        · exact h n hn hx
      · intro h n hn hx
        exact h n hn (List.mem_cons_of_mem _ hx)
    | some nd =>
      obtain ⟨hm, rfl⟩ := findNode_some hf
      obtain ⟨g1, new, h1, h2, h3, h4, h5, h6, -⟩ := removeOne_ok hw hm
      rw [h1] at h
      have herase : ∀ (ts out : List String), out.Nodup → (ts.foldl List.erase out).Nodup ∧ ∀ o, o ∈ ts.foldl List.erase out ↔ o ∈ out ∧ o ∉ ts := by
        intro ts
        induction ts with
        | nil => intro out h; exact ⟨h, by simp⟩
        | cons t ts ih =>
          intro out h
          obtain ⟨e1, e2⟩ := ih (out.erase t) (h.erase t)
          refine ⟨e1, ?_⟩
          intro o
          rw [List.foldl_cons, e2, h.mem_erase_iff, List.mem_cons, not_or]
          constructor
          · rintro ⟨⟨a, b⟩, c⟩; exact ⟨b, a, c⟩
          · rintro ⟨b, a, c⟩; exact ⟨⟨a, b⟩, c⟩
      obtain ⟨e1, e2⟩ := herase nd.output g.output hnd
      obtain ⟨k1, k2, k3, k4⟩ := removeEach_output_mem xs h2 (by rw [h4]; exact e1) h
      refine ⟨k1, by rw [k2, h5], by rw [k3, h6], ?_⟩
      intro o
      rw [k4, h4, e2, h3]
      constructor
      · rintro ⟨⟨a, b⟩, c⟩
        refine ⟨a, ?_⟩
        intro n hn hx
        by_cases he : n.name = nd.name
        · have : n = nd := name_inj hw.names hn hm he
          subst this; exact b
        · rcases List.mem_cons.mp hx with e | hx
          · exact absurd e he
          · exact c n (mem_popNode.mpr ⟨hn, he⟩) hx
      · rintro ⟨a, b⟩
        exact ⟨⟨a, b nd hm (by simp)⟩, fun n hn hx => b n (mem_popNode.mp hn).1 (List.mem_cons_of_mem _ hx)⟩

/-- a node on a cycle exhausts every recursion limit -/
theorem collect_cycle {g0 g : Graph} (h0 : WF g0) (hsub : g.nodemap.Sublist g0.nodemap) : ∀ (depth : Nat) (n : Node), n ∈ g.nodemap →
    (DepPath g.nodemap n n ∨ ∃ m ∈ g.nodemap, DepPath g.nodemap m n ∧ DepPath g.nodemap m m) → collect g0 g depth n.name = .error .recursion := by
  have hnm := nodup_names_sub hsub h0.names
  have herr : ∀ (depth : Nat) (x : String) (e : PyErr), collect g0 g depth x = .error e → e = .recursion := by
    intro depth
    induction depth with
    | zero => intro x e h; cases h; rfl
    | succ depth ih =>
      intro x e h
      rw [collect] at h
      split at h
      · cases h
      · rename_i nd _
        have : ∀ (ns : List String) (e : PyErr), gather (collect g0 g depth) ns = .error e → e = .recursion := by
          intro ns
          induction ns with
          | nil => intro e h; cases h
          | cons n ns ih2 =>
            intro e h
            rw [gather] at h
            cases h1 : collect g0 g depth n with
            | error e1 => rw [h1] at h; cases h; exact ih n _ h1
            | ok l1 =>
              rw [h1] at h
              cases h2 : gather (collect g0 g depth) ns with
              | error e2 => rw [h2] at h; cases h; exact ih2 _ h2
              | ok l2 => rw [h2] at h; cases h
        exact this _ e h
  intro depth
  induction depth with
  | zero => intro n _ _; rfl
  | succ depth ih =>
    intro n hn hc
    cases hr : collect g0 g (depth + 1) n.name with
    | error e => rw [herr _ _ _ hr]
    | ok l =>
      exfalso
      rw [collect, findNode_mem hnm hn] at hr
      have hall := go_ok_all _ _ hr
      have hlast : ∀ {a b : Node}, a ∈ g.nodemap → DepPath g.nodemap a b → ∃ k ∈ g.nodemap, Dep k b ∧ (a = k ∨ DepPath g.nodemap a k) := by
        intro a b ha hp
        induction hp with
        | step h1 h2 => exact ⟨_, ha, h2, .inl rfl⟩
        | trans h1 h2 _ ih =>
          obtain ⟨k, hk, hd, hor⟩ := ih h1
          rcases hor with rfl | hor
          · exact ⟨_, hk, hd, .inr (.step hk h2)⟩
          · exact ⟨k, hk, hd, .inr (.trans h1 h2 hor)⟩
      obtain ⟨c, hcm, hcn, hcc⟩ : ∃ c ∈ g.nodemap, DepPath g.nodemap c n ∧ DepPath g.nodemap c c := by
        rcases hc with h | ⟨m, hm, h1, h2⟩
        · exact ⟨n, hn, h, h⟩
        · exact ⟨m, hm, h1, h2⟩
      obtain ⟨k, hk, hd, hor⟩ := hlast hcm hcn
      obtain ⟨l', h'⟩ := hall k.name ((mem_nextNames h0).mpr ⟨k, hsub.subset hk, rfl, hd⟩)
      have := ih k hk (by
        rcases hor with rfl | hor
        · exact .inl hcc
        · exact .inr ⟨c, hcm, hor, hcc⟩)
      rw [this] at h'
      cases h'

end OnnxTool.Edit
