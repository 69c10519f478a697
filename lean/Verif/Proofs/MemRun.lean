import Verif.Proofs.MemInv
import Verif.Proofs.Relations
import Verif.Spec.Memory
/-! Whole run of the allocator: stability of recorded blocks, liveness of the snapshots. -/
namespace OnnxTool.Mem
open OnnxTool

/-- A name that leaves memory never comes back (empty name excepted). -/
def Contig : List (List String) → Prop
  | [] => True
  | [_] => True
  | l :: l2 :: R => (∀ t, t ≠ "" → t ∈ l → t ∉ l2 → ∀ l' ∈ R, t ∉ l') ∧ Contig (l2 :: R)

theorem liveLoop_not_mem (cb : Dict (List String)) (ns : List Node) (m c : List String) (t : String)
    (hm : t ∉ m) (ho : t ∉ ns.flatMap (·.output)) : ∀ l ∈ liveLoop cb ns m c, t ∉ l := by
  induction ns generalizing m c with
  | nil => simp [liveLoop]
  | cons n ns ih =>
    simp only [List.flatMap_cons, List.mem_append, not_or] at ho
    have hm' : t ∉ m ++ n.output := by simp [hm, ho.1]
    intro l hl
    simp only [liveLoop, List.mem_cons] at hl
    rcases hl with rfl | hl
    · exact hm'
    · refine ih _ _ ?_ ho.2 l hl
      have sub : ∀ (ins : List String) (st : List String × List String),
          (ins.foldl (consumeOne cb) st).1.Sublist st.1 := by
        intro ins
        induction ins with
        | nil => intro st; exact List.Sublist.refl _
        | cons a ins ih =>
          intro st
          refine (ih _).trans ?_
          unfold consumeOne
          split
          · exact List.Sublist.refl _
          · dsimp only; split
            · exact List.erase_sublist
            · exact List.Sublist.refl _
      exact fun hc => hm' ((sub _ _).subset hc)

theorem consume_sub (cb : Dict (List String)) (ins : List String) (st : List String × List String) :
    (ins.foldl (consumeOne cb) st).1.Sublist st.1 := by
  induction ins generalizing st with
  | nil => exact List.Sublist.refl _
  | cons a ins ih =>
    refine (ih _).trans ?_
    unfold consumeOne
    split
    · exact List.Sublist.refl _
    · dsimp only; split
      · exact List.erase_sublist
      · exact List.Sublist.refl _

theorem liveLoop_contig (cb : Dict (List String)) (ns : List Node) (m c : List String)
    (hd : ((m ++ ns.flatMap (·.output)).filter (· ≠ "")).Nodup) : Contig (liveLoop cb ns m c) := by
  induction ns generalizing m c with
  | nil => simp [liveLoop, Contig]
  | cons n ns ih =>
    simp only [liveLoop]
    have hsub := consume_sub cb n.input (m ++ n.output, c)
    generalize (n.input.foldl (consumeOne cb) (m ++ n.output, c)) = st at *
    have hd' : ((st.1 ++ ns.flatMap (·.output)).filter (· ≠ "")).Nodup := by
      refine hd.sublist ?_
      apply List.Sublist.filter
      simp only [List.flatMap_cons, ← List.append_assoc]
      exact List.Sublist.append hsub (List.Sublist.refl _)
    have := ih st.1 st.2 hd'
    cases ns with
    | nil => simp [liveLoop, Contig]
    | cons n2 ns =>
      simp only [liveLoop] at this ⊢
      refine ⟨?_, this⟩
      intro t ht h1 h2 l' hl'
      -- t is not an output of a later node
      have hout : t ∉ ns.flatMap (·.output) := by
        intro hc
        simp only [List.flatMap_cons, ← List.append_assoc, List.filter_append] at hd
        rw [List.nodup_append] at hd
        refine hd.2.2 t ?_ t ?_ rfl
        · rw [← List.filter_append, ← List.filter_append, List.mem_filter]
          refine ⟨?_, by simpa using ht⟩
          exact List.mem_append_left _ h1
        · rw [List.mem_filter]; exact ⟨hc, by simpa using ht⟩
      refine liveLoop_not_mem cb ns _ _ t ?_ hout l' hl'
      intro hc
      exact h2 ((consume_sub cb n2.input _).subset hc)

/-- reads of `t` in a node list, with multiplicity -/
def reads (ns : List Node) (t : String) : Nat := (ns.map fun n => n.input.count t).sum

theorem consume_keep (cb : Dict (List String)) (ins : List String) (m c : List String) (t : String)
    (h : t ∈ m) (hk : ∀ l, cb.get? t = some l → c.count t + ins.count t < l.length) :
    t ∈ (ins.foldl (consumeOne cb) (m, c)).1 := by
  induction ins generalizing m c with
  | nil => exact h
  | cons a ins ih =>
    simp only [List.foldl_cons]
    have hstep : ∃ m' c', consumeOne cb (m, c) a = (m', c') ∧ t ∈ m' ∧
        (∀ l, cb.get? t = some l → c'.count t + ins.count t < l.length) := by
      unfold consumeOne
      split
      · rename_i hn
        refine ⟨m, c, rfl, h, ?_⟩
        intro l hl
        have := hk l hl
        have hat : a ≠ t := by rintro rfl; simp [hn] at hl
        simpa [List.count_cons, hat] using this
      · rename_i cons hcons
        dsimp only
        by_cases hat : a = t
        · subst hat
          have := hk cons hcons
          simp only [List.count_cons_self] at this
          rw [if_neg (by simp; omega)]
          refine ⟨m, c ++ [a], rfl, h, ?_⟩
          intro l hl; have := hk l hl; simp at this ⊢; omega
        · have hk' : ∀ l, cb.get? t = some l → (c ++ [a]).count t + ins.count t < l.length := by
            intro l hl; have := hk l hl
            simpa [List.count_cons, hat, List.count_append] using this
          split
          · exact ⟨m.erase a, _, rfl, (List.mem_erase_of_ne (Ne.symm hat)).mpr h, hk'⟩
          · exact ⟨m, _, rfl, h, hk'⟩
    obtain ⟨m', c', e, h1, h2⟩ := hstep
    rw [e]; exact ih m' c' h1 h2

theorem consume_count (cb : Dict (List String)) (ins : List String) (m c : List String) (t : String)
    (h : (cb.get? t).isSome) : (ins.foldl (consumeOne cb) (m, c)).2.count t = c.count t + ins.count t := by
  induction ins generalizing m c with
  | nil => rfl
  | cons a ins ih =>
    simp only [List.foldl_cons]
    have hstep : ∃ m' c', consumeOne cb (m, c) a = (m', c') ∧
        c'.count t = c.count t + (if a = t then 1 else 0) := by
      unfold consumeOne
      split
      · rename_i hn
        have hat : a ≠ t := by rintro rfl; simp [hn] at h
        exact ⟨m, c, rfl, by simp [hat]⟩
      · dsimp only; split
        · exact ⟨_, _, rfl, by simp [List.count_append, List.count_cons]⟩
        · exact ⟨_, _, rfl, by simp [List.count_append, List.count_cons]⟩
    obtain ⟨m', c', e, h2⟩ := hstep
    rw [e, ih, h2, List.count_cons]
    simp only [beq_iff_eq]; split <;> omega

theorem reads_pos_of_readAt {ns : List Node} {j : Nat} {t : String} (h : ReadAt ns j t) : 0 < reads ns t := by
  obtain ⟨n, hn, ht⟩ := h
  induction ns generalizing j with
  | nil => simp at hn
  | cons a ns ih =>
    simp only [reads, List.map_cons, List.sum_cons] at ih ⊢
    cases j with
    | zero =>
      simp at hn; subst hn
      have := List.count_pos_iff.mpr ht; omega
    | succ j => simp at hn; have := ih hn; omega

theorem readAt_of_reads_pos {ns : List Node} {t : String} (h : 0 < reads ns t) : ∃ j, ReadAt ns j t := by
  induction ns with
  | nil => simp [reads] at h
  | cons a ns ih =>
    simp only [reads, List.map_cons, List.sum_cons] at h ih
    by_cases h0 : 0 < a.input.count t
    · exact ⟨0, a, rfl, List.count_pos_iff.mp h0⟩
    · obtain ⟨j, n, hn, ht⟩ := ih (by omega)
      exact ⟨j+1, n, by simpa using hn, ht⟩

theorem liveLoop_live (cb : Dict (List String)) (ns : List Node) (m c : List String) (t : String)
    (hcb : ∀ l, cb.get? t = some l → c.count t + reads ns t = l.length)
    (k : Nat) (hk : k < ns.length)
    (hav : t ∈ m ∨ ∃ j, j ≤ k ∧ ProducedAt ns j t)
    (hl : ProducedAt ns k t ∨ (∃ j, k ≤ j ∧ ReadAt ns j t) ∨ cb.get? t = none) :
    ∃ l, (liveLoop cb ns m c)[k]? = some l ∧ t ∈ l := by
  induction ns generalizing m c k with
  | nil => simp at hk
  | cons n ns ih =>
    simp only [liveLoop]
    cases k with
    | zero =>
      refine ⟨_, rfl, ?_⟩
      rcases hav with h | ⟨j, hj, n', hn', h⟩
      · exact List.mem_append_left _ h
      · have : j = 0 := by omega
        subst this; simp at hn'; subst hn'; exact List.mem_append_right _ h
    | succ k =>
      simp only [List.getElem?_cons_succ]
      have hk' : k < ns.length := by simpa using hk
      have tailProd : ∀ j, ProducedAt (n :: ns) (j+1) t → ProducedAt ns j t := by
        rintro j ⟨n', h1, h2⟩; exact ⟨n', by simpa using h1, h2⟩
      have tailRead : ∀ j, ReadAt (n :: ns) (j+1) t → ReadAt ns j t := by
        rintro j ⟨n', h1, h2⟩; exact ⟨n', by simpa using h1, h2⟩
      apply ih _ _ _ k hk'
      · -- availability in the tail
        rcases hl with hp | hr
        · exact Or.inr ⟨k, Nat.le_refl _, tailProd _ hp⟩
        · by_cases hnow : t ∈ m ++ n.output
          · left
            apply consume_keep cb n.input _ _ t hnow
            intro l hl
            rcases hr with ⟨j, hj, hrd⟩ | hnone
            · obtain ⟨j', rfl⟩ : ∃ j', j = j' + 1 := ⟨j-1, by omega⟩
              have h1 := hcb l hl
              have h2 := reads_pos_of_readAt (tailRead _ hrd)
              simp only [reads, List.map_cons, List.sum_cons] at h1 h2
              omega
            · simp [hnone] at hl
          · right
            rcases hav with h | ⟨j, hj, hp⟩
            · exact absurd (List.mem_append_left _ h) hnow
            · cases j with
              | zero =>
                obtain ⟨n', h1, h2⟩ := hp
                simp at h1; subst h1
                exact absurd (List.mem_append_right _ h2) hnow
              | succ j => exact ⟨j, by omega, tailProd _ hp⟩
      · rcases hl with hp | ⟨j, hj, hrd⟩ | hnone
        · exact Or.inl (tailProd _ hp)
        · obtain ⟨j', rfl⟩ : ∃ j', j = j' + 1 := ⟨j-1, by omega⟩
          exact Or.inr (Or.inl ⟨j', by omega, tailRead _ hrd⟩)
        · exact Or.inr (Or.inr hnone)
      · intro l hl
        have h1 := hcb l hl
        rw [consume_count cb n.input _ _ t (by simp [hl])]
        simp only [reads, List.map_cons, List.sum_cons] at h1 ⊢
        omega

/-- In an exact graph every live tensor is in the snapshot of that node. -/
theorem live_in_snapshot (g : Graph) (hx : IndexIs g.consumedby (consumersOf g.nodemap)) {k : Nat} {t : String}
    (h : LiveAt g.input g.nodemap k t) : ∃ l, (liveLists g)[k]? = some l ∧ t ∈ l := by
  obtain ⟨hk, hav, hl⟩ := h
  apply liveLoop_live g.consumedby g.nodemap g.input [] t _ k hk hav
  · rcases hl with h | h | h
    · exact Or.inl h
    · exact Or.inr (Or.inl h)
    · right; right
      rw [hx t, if_pos]
      have : ¬ 0 < reads g.nodemap t := fun hp => by
        obtain ⟨j, hj⟩ := readAt_of_reads_pos hp; exact h j hj
      have hlen := count_consumersOf_length g.nodemap t
      unfold reads at this
      exact List.length_eq_zero_iff.mp (by omega)
  · intro l hl
    rw [hx t] at hl
    split at hl
    · simp at hl
    · simp only [Option.some.injEq] at hl
      rw [← hl, count_consumersOf_length]; simp [reads]

/-- State after the first `k` snapshots. -/
def runK (sizes : Dict Nat) (thr : Nat) (L : List (List String)) (st : St) : St := L.foldl (stepNode sizes thr) st

theorem run_inv {sizes : Dict Nat} {p : Nat} (thr : Nat) (L : List (List String)) {st : St} (h : Inv sizes p st)
    (hsz : ∀ t z, sizes.get? t = some z → p ∣ z) :
    Inv sizes p (L.foldl (stepNode sizes thr) st) ∧ total st.blocks ≤ total (L.foldl (stepNode sizes thr) st).blocks := by
  induction L generalizing st with
  | nil => exact ⟨h, Nat.le_refl _⟩
  | cons l L ih =>
    have s := stepNode_ok thr l h hsz
    have := ih s.inv
    exact ⟨this.1, Nat.le_trans s.mono this.2⟩

/-- A recorded block of a tensor that is in memory (or gone for good) is never changed afterwards. -/
theorem run_stable {sizes : Dict Nat} {p : Nat} (thr : Nat) (l : List String) (R : List (List String)) {st : St}
    (h : Inv sizes p st) (hsz : ∀ t z, sizes.get? t = some z → p ∣ z) (hc : Contig (l :: R)) (t : String)
    (ht : t ≠ "") (hs : (t ∈ l ∧ t ∈ tags st.blocks) ∨ ∀ l' ∈ R, t ∉ l') :
    (R.foldl (stepNode sizes thr) st).cm.get? t = st.cm.get? t := by
  induction R generalizing l st with
  | nil => rfl
  | cons l2 R ih =>
    have s := stepNode_ok thr l2 h hsz
    simp only [List.foldl_cons]
    obtain ⟨hc1, hc2⟩ := hc
    by_cases h2 : t ∈ l2
    · rcases hs with hs | hs
      · rw [ih l2 s.inv hc2 (Or.inl ⟨h2, s.keepTag t hs.2 h2⟩)]
        exact s.keepLive t ht hs.2 h2
      · exact absurd h2 (hs l2 (by simp))
    · have gone : ∀ l' ∈ R, t ∉ l' := by
        rcases hs with hs | hs
        · exact hc1 t ht hs.1 h2
        · exact fun l' hl' => hs l' (by simp [hl'])
      rw [ih l2 s.inv hc2 (Or.inr gone)]
      exact s.keepDead t h2

theorem contig_drop {L : List (List String)} (h : Contig L) (k : Nat) : Contig (L.drop k) := by
  induction k generalizing L with
  | zero => simpa
  | succ k ih =>
    cases L with
    | nil => simp [Contig]
    | cons l L =>
      simp only [List.drop_succ_cons]
      apply ih
      cases L with
      | nil => simp [Contig]
      | cons l2 L => exact h.2

/-- The state right after node `k`. -/
theorem at_node {sizes : Dict Nat} {p : Nat} (thr : Nat) (L : List (List String)) (hL : Contig L)
    (hsz : ∀ t z, sizes.get? t = some z → p ∣ z) (k : Nat) (l : List String) (hk : L[k]? = some l) :
    ∃ st : St, Inv sizes p st ∧ total st.blocks ≤ total (L.foldl (stepNode sizes thr) {}).blocks ∧
      ∀ t, t ≠ "" → t ∈ l → sizes.has t →
        t ∈ tags st.blocks ∧ (L.foldl (stepNode sizes thr) {}).cm.get? t = st.cm.get? t := by
  obtain ⟨hlt, rfl⟩ := List.getElem?_eq_some_iff.mp hk
  have e : L = L.take k ++ L[k] :: L.drop (k+1) := by simp
  have i0 := (run_inv thr (L.take k) (inv_init sizes p) hsz).1
  have s := stepNode_ok thr L[k] i0 hsz
  have hf : L.foldl (stepNode sizes thr) {} =
      (L.drop (k+1)).foldl (stepNode sizes thr) (stepNode sizes thr ((L.take k).foldl (stepNode sizes thr) {}) L[k]) := by
    exact (congrArg (fun l => l.foldl (stepNode sizes thr) {}) e).trans (by rw [List.foldl_append, List.foldl_cons])
  refine ⟨stepNode sizes thr ((L.take k).foldl (stepNode sizes thr) {}) L[k], s.inv, ?_, ?_⟩
  · rw [hf]; exact (run_inv thr _ s.inv hsz).2
  · intro t ht hl hh
    have htag := s.alloc t hl ht hh
    refine ⟨htag, ?_⟩
    rw [hf]
    refine run_stable thr L[k] _ s.inv hsz ?_ t ht (Or.inl ⟨hl, htag⟩)
    have := contig_drop hL k
    rw [List.drop_eq_getElem_cons hlt] at this
    exact this

/-! ### Upper bound -/

/-- sum of the sizes of the allocated tensors -/
def sumSizes (sizes : Dict Nat) (ks : List String) : Nat := (ks.map fun t => (sizes.get? t).getD 0).sum

structure UB (sizes : Dict Nat) (st : St) : Prop where
  keysNodup : st.cm.keys.Nodup
  le : total st.blocks ≤ sumSizes sizes st.cm.keys
  tagsIn : ∀ t ∈ tags st.blocks, t ∈ st.cm.keys
  sized : ∀ t ∈ st.cm.keys, sizes.has t

theorem tags_in_keys {sizes p st} (h : Inv sizes p st) : ∀ t ∈ tags st.blocks, t ∈ st.cm.keys := by
  intro t ht
  obtain ⟨b, hb, rfl⟩ := List.mem_map.mp ht
  rw [← Dict.get?_isSome_iff, h.own b hb]; rfl

theorem allocOne_keys (sizes : Dict Nat) (thr : Nat) (st : St) (t : String) :
    (allocOne sizes thr st t).cm.keys = st.cm.keys ∨
    (sizes.has t ∧ (allocOne sizes thr st t).cm.keys = if t ∈ st.cm.keys then st.cm.keys else st.cm.keys ++ [t]) := by
  unfold allocOne
  split
  · exact Or.inl rfl
  · split
    · exact Or.inl rfl
    · rename_i z hz
      dsimp only; split
      · exact Or.inl rfl
      · exact Or.inr ⟨by simp [Dict.has, hz], Dict.keys_set _ _ _⟩

theorem ub_alloc {sizes : Dict Nat} {p : Nat} (thr : Nat) {st : St} (t : String) (h : Inv sizes p st)
    (hsz : ∀ t z, sizes.get? t = some z → p ∣ z) (ht : t ≠ "") (hs : sizes.has t) (u : UB sizes st)
    (hnew : t ∉ st.cm.keys ∨ t ∈ tags st.blocks) : UB sizes (allocOne sizes thr st t) := by
  have s := allocOne_ok thr t h hsz
  by_cases hin : t ∈ tags st.blocks
  · rw [s.same hin]; exact u
  · have hk : t ∉ st.cm.keys := hnew.resolve_right hin
    have hkeys : (allocOne sizes thr st t).cm.keys = st.cm.keys ++ [t] := by
      rcases allocOne_keys sizes thr st t with e | ⟨_, e⟩
      · have h1 := tags_in_keys s.inv t (s.alloc ht hs)
        rw [e] at h1; exact absurd h1 hk
      · rw [if_neg hk] at e; exact e
    refine ⟨?_, ?_, tags_in_keys s.inv, ?_⟩
    · rw [hkeys, List.nodup_append]
      exact ⟨u.keysNodup, by simp, by rintro a ha b hb e; simp at hb; exact hk (hb ▸ e ▸ ha)⟩
    · have h1 := s.upper hin ht
      have h2 := u.le
      rw [hkeys]
      simp only [sumSizes, List.map_append, List.sum_append, List.map_cons, List.map_nil, List.sum_cons, List.sum_nil] at h2 ⊢
      omega
    · intro x hx
      rw [hkeys] at hx
      simp only [List.mem_append, List.mem_singleton] at hx
      rcases hx with hx | rfl
      · exact u.sized x hx
      · exact hs

theorem ub_fold {sizes : Dict Nat} {p : Nat} (thr : Nat) (ts : List String) {st : St} (h : Inv sizes p st)
    (hsz : ∀ t z, sizes.get? t = some z → p ∣ z) (u : UB sizes st)
    (hts : ∀ t ∈ ts, t ≠ "" ∧ sizes.has t ∧ (t ∉ st.cm.keys ∨ t ∈ tags st.blocks)) :
    UB sizes (ts.foldl (allocOne sizes thr) st) := by
  induction ts generalizing st with
  | nil => exact u
  | cons t ts ih =>
    obtain ⟨h1, h2, h3⟩ := hts t (by simp)
    have s := allocOne_ok thr t h hsz
    refine ih s.inv (ub_alloc thr t h hsz h1 h2 u h3) ?_
    intro x hx
    obtain ⟨g1, g2, g3⟩ := hts x (by simp [hx])
    refine ⟨g1, g2, ?_⟩
    by_cases hxt : x = t
    · subst hxt; exact Or.inr (s.alloc g1 g2)
    · rcases g3 with g3 | g3
      · left
        rw [← Dict.get?_isSome_iff, s.keepCm x hxt, Dict.get?_isSome_iff]; exact g3
      · right
        obtain ⟨b, hb, e⟩ := List.mem_map.mp g3
        exact List.mem_map.mpr ⟨b, s.keepUsed b hb, e⟩

theorem ub_run {sizes : Dict Nat} {p : Nat} (thr : Nat) (l : List String) (R : List (List String)) {st : St}
    (h : Inv sizes p st) (hsz : ∀ t z, sizes.get? t = some z → p ∣ z) (hc : Contig (l :: R))
    (he : sizes.get? "" = none) (u : UB sizes st)
    (hs : ∀ t, t ∈ st.cm.keys → (t ∈ l ∧ t ∈ tags st.blocks) ∨ ∀ l' ∈ R, t ∉ l') :
    UB sizes (R.foldl (stepNode sizes thr) st) := by
  induction R generalizing l st with
  | nil => exact u
  | cons l2 R ih =>
    have s := stepNode_ok thr l2 h hsz
    have r := releaseLoop_ok p l2 st.blocks.length 0 st.blocks h.tiled
    have keep : ∀ x, x ∈ tags st.blocks → x ∈ l2 →
        x ∈ tags (releaseLoop l2 st.blocks.length 0 st.blocks) := by
      intro x hx hl
      obtain ⟨b, hb, e⟩ := List.mem_map.mp hx
      exact List.mem_map.mpr ⟨b, r.keep b hb (e ▸ hl), e⟩
    have u2 : UB sizes (stepNode sizes thr st l2) := by
      unfold stepNode
      refine ub_fold thr _ (inv_release (live := l2) st.blocks.length h) hsz ?_ ?_
      · refine ⟨u.keysNodup, ?_, ?_, u.sized⟩
        · show total (releaseLoop l2 st.blocks.length 0 st.blocks) ≤ _
          rw [r.total]; exact u.le
        · intro t ht
          obtain ⟨b, hb, e⟩ := List.mem_map.mp ht
          exact u.tagsIn t (List.mem_map.mpr ⟨b, r.sub.subset hb, e⟩)
      · intro t ht
        rw [mem_sortDesc, List.mem_filter] at ht
        obtain ⟨hl, hh⟩ := ht
        simp only [Bool.and_eq_true, Bool.not_eq_true'] at hh
        have hne : t ≠ "" := by rintro rfl; simp [Dict.has, he] at hh
        refine ⟨hne, hh.2, ?_⟩
        by_cases hk : t ∈ st.cm.keys
        · right
          rcases hs t hk with g | g
          · exact keep t g.2 hl
          · exact absurd hl (g l2 (by simp))
        · exact Or.inl hk
    obtain ⟨hc1, hc2⟩ := hc
    refine ih l2 s.inv hc2 u2 ?_
    intro t ht
    have hne : t ≠ "" := by rintro rfl; have := u2.sized "" ht; simp [Dict.has, he] at this
    by_cases h2 : t ∈ l2
    · exact Or.inl ⟨h2, s.alloc t h2 hne (u2.sized t ht)⟩
    · right
      rw [← Dict.get?_isSome_iff, s.keepDead t h2, Dict.get?_isSome_iff] at ht
      rcases hs t ht with g | g
      · exact hc1 t hne g.1 h2
      · exact fun l' hl' => g l' (by simp [hl'])

theorem ub_all {sizes : Dict Nat} {p : Nat} (thr : Nat) (L : List (List String))
    (hsz : ∀ t z, sizes.get? t = some z → p ∣ z) (hc : Contig L) (he : sizes.get? "" = none) :
    UB sizes (L.foldl (stepNode sizes thr) {}) := by
  have hc' : Contig ([] :: L) := by
    cases L with
    | nil => simp [Contig]
    | cons l L => exact ⟨by simp, hc⟩
  exact ub_run thr [] L (inv_init sizes p) hsz hc' he
    ⟨by simp [Dict.keys], by simp [total], by simp [tags], by simp [Dict.keys]⟩ (by simp [Dict.keys])

/-! ### The size table -/

/-- one step of the size-table loop -/
def sizeStep (g : Graph) (memsize : String → Option Int) (p : Nat) (d : Dict Nat) (t : String) : Dict Nat :=
  if !(g.producedby.has t) && !(g.input.contains t) then d
  else match memsize t with
    | none => d
    | some s => if 0 < padSize p s then d.set t (padSize p s).toNat else d

/-- the tensor takes part in the memory plan -/
def Sized (g : Graph) (memsize : String → Option Int) (p : Nat) (t : String) : Prop :=
  (g.producedby.has t ∨ t ∈ g.input) ∧ ∃ s, memsize t = some s ∧ 0 < padSize p s

open Classical in
theorem sizeStep_get (g : Graph) (memsize : String → Option Int) (p : Nat) (d : Dict Nat) (a t : String) :
    (sizeStep g memsize p d a).get? t =
      if a = t ∧ Sized g memsize p t then (memsize t).map (fun s => (padSize p s).toNat) else d.get? t := by
  by_cases hat : a = t
  · subst hat
    by_cases hs : Sized g memsize p a
    · rw [if_pos ⟨rfl, hs⟩]
      obtain ⟨h1, s, h2, h3⟩ := hs
      have hcond : (!(g.producedby.has a) && !(g.input.contains a)) = false := by
        rcases h1 with h1 | h1 <;> simp [h1]
      unfold sizeStep
      rw [hcond]
      simp [h2, h3, Dict.get?_set_self]
    · rw [if_neg (fun h => hs h.2)]
      unfold sizeStep
      split
      · rfl
      · rename_i hcond
        split
        · rfl
        · rename_i s hs'
          split
          · rename_i hpos
            exfalso; apply hs
            refine ⟨?_, s, hs', hpos⟩
            simp at hcond
            by_cases h1 : g.producedby.has a = true
            · exact Or.inl h1
            · right; exact hcond (by simpa using h1)
          · rfl
  · rw [if_neg (fun h => hat h.1)]
    unfold sizeStep
    split
    · rfl
    · split
      · rfl
      · split
        · exact Dict.get?_set_ne _ _ hat
        · rfl

open Classical in
theorem tensorSizes_get (g : Graph) (memsize : String → Option Int) (p : Nat) (t : String) :
    (tensorSizes g memsize p).get? t =
      if t ∈ g.dynamics ∧ Sized g memsize p t then (memsize t).map (fun s => (padSize p s).toNat) else none := by
  have aux : ∀ (l : List String) (d : Dict Nat), (l.foldl (sizeStep g memsize p) d).get? t =
      if t ∈ l ∧ Sized g memsize p t then (memsize t).map (fun s => (padSize p s).toNat) else d.get? t := by
    intro l
    induction l with
    | nil => intro d; simp
    | cons a l ih =>
      intro d
      simp only [List.foldl_cons, ih, sizeStep_get, List.mem_cons]
      by_cases hs : Sized g memsize p t
      · by_cases hl : t ∈ l
        · simp [hs, hl]
        · by_cases hat : a = t
          · simp [hs, hl, hat]
          · simp [hs, hl, hat, Ne.symm hat]
      · simp [hs]
  exact aux g.dynamics []

theorem padSize_dvd (p : Nat) (s : Int) : (p : Int) ∣ padSize p s := ⟨_, by unfold padSize; rw [Int.mul_comm]⟩

theorem tensorSizes_dvd (g : Graph) (memsize : String → Option Int) (p : Nat) :
    ∀ t z, (tensorSizes g memsize p).get? t = some z → p ∣ z := by
  intro t z h
  rw [tensorSizes_get] at h
  split at h
  · rename_i hc
    obtain ⟨_, _, s, hs, hpos⟩ := hc
    simp only [hs, Option.map_some, Option.some.injEq] at h
    subst h
    have hd := padSize_dvd p s
    exact Int.natCast_dvd_natCast.mp (by rw [Int.toNat_of_nonneg (by omega)]; exact hd)
  · simp at h

theorem le_padSize {p : Nat} (hp : 0 < p) (s : Int) : s ≤ padSize p s := by
  unfold padSize
  have h1 := Int.emod_add_mul_ediv (s + p - 1) p
  have h2 := Int.emod_lt_of_pos (s + p - 1) (show (0:Int) < p by omega)
  rw [Int.mul_comm ((s + p - 1) / (p:Int))]
  omega

/-- a tensor of no size gets no block -/
theorem padSize_nonpos (p : Nat) {s : Int} (h : s ≤ 0) : padSize p s ≤ 0 := by
  unfold padSize
  rcases Nat.eq_zero_or_pos p with rfl | hp
  · simp
  · have hlt : (s + p - 1) / (p : Int) < 1 := Int.ediv_lt_of_lt_mul (by omega) (by omega)
    exact Int.mul_nonpos_of_nonpos_of_nonneg (by omega) (by omega)

theorem tensorSizes_unsized (g : Graph) (memsize : String → Option Int) (p : Nat) (t : String)
    (h : ∀ b, memsize t = some b → b ≤ 0) : (tensorSizes g memsize p).get? t = none := by
  rw [tensorSizes_get]
  split
  · rename_i hs
    obtain ⟨_, hs⟩ := hs
    unfold Sized at hs
    cases hm : memsize t with
    | none => rfl
    | some b =>
      have := padSize_nonpos p (h b hm)
      simp_all
      omega
  · rfl

theorem padSize_lt {p : Nat} (hp : 0 < p) (s : Int) : padSize p s < s + p := by
  unfold padSize
  have h1 := Int.emod_add_mul_ediv (s + p - 1) p
  have h2 := Int.emod_nonneg (s + p - 1) (show (p:Int) ≠ 0 by omega)
  rw [Int.mul_comm ((s + p - 1) / (p:Int))]
  omega

end OnnxTool.Mem
