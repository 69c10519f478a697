import Verif.Proofs.MemAlloc
/-! Invariant of the allocation loop. -/
namespace OnnxTool.Mem
open OnnxTool

structure Inv (sizes : Dict Nat) (p : Nat) (st : St) : Prop where
  tiled : Tiled 0 st.blocks
  div : Div p st.blocks
  own : ∀ b ∈ used st.blocks, st.cm.get? b.tag = some (b.off, b.size)
  nodup : ((used st.blocks).map (·.tag)).Nodup
  bound : ∀ t o s, st.cm.get? t = some (o, s) →
    o + s ≤ total st.blocks ∧ p ∣ o ∧ p ∣ s ∧ ∃ z, sizes.get? t = some z ∧ z ≤ s

/-- tags of the blocks in use -/
def tags (bs : List Block) : List String := (used bs).map (·.tag)

theorem any_tag_iff {bs : List Block} {t : String} (ht : t ≠ "") :
    (bs.any fun b => b.tag = t) = true ↔ t ∈ tags bs := by
  simp only [List.any_eq_true, decide_eq_true_eq, tags, used, List.mem_map, List.mem_filter]
  constructor
  · rintro ⟨b, hb, rfl⟩; exact ⟨b, ⟨hb, by simpa using ht⟩, rfl⟩
  · rintro ⟨b, ⟨hb, _⟩, rfl⟩; exact ⟨b, hb, rfl⟩

theorem inv_release {sizes p st live} (fuel : Nat) (h : Inv sizes p st) :
    Inv sizes p { st with blocks := releaseLoop live fuel 0 st.blocks } := by
  have r := releaseLoop_ok p live fuel 0 st.blocks h.tiled
  refine ⟨r.tiled, r.div h.div, ?_, ?_, ?_⟩
  · intro b hb; exact h.own b (r.sub.subset hb)
  · exact h.nodup.sublist (r.sub.map _)
  · intro t o s hc; rw [r.total]; exact h.bound t o s hc

/-- what one allocation does to the state -/
structure StepOK (sizes : Dict Nat) (p : Nat) (st st' : St) (t : String) : Prop where
  inv : Inv sizes p st'
  mono : total st.blocks ≤ total st'.blocks
  keepUsed : ∀ b ∈ used st.blocks, b ∈ used st'.blocks
  keepCm : ∀ u, u ≠ t → st'.cm.get? u = st.cm.get? u
  same : t ∈ tags st.blocks → st' = st
  alloc : t ≠ "" → sizes.has t → t ∈ tags st'.blocks
  tagsSub : ∀ u, u ≠ "" → u ∈ tags st'.blocks → u ∈ tags st.blocks ∨ (u = t ∧ sizes.has t)
  upper : t ∉ tags st.blocks → t ≠ "" → total st'.blocks ≤ total st.blocks + (sizes.get? t).getD 0

theorem find_tag {bs : List Block} {t : String} {o s : Nat} {pre post : List Block} (ht : t ≠ "")
    (hu : used bs = used pre ++ [⟨t, o, s⟩] ++ used post) (hn : t ∉ (used pre).map (·.tag)) :
    bs.find? (fun b => b.tag = t) = some ⟨t, o, s⟩ := by
  have e : bs.find? (fun b => b.tag = t) = (used bs).find? (fun b => b.tag = t) := by
    unfold used
    rw [List.find?_filter]
    congr 1
    funext b
    by_cases h : b.tag = t
    · simp [h, ht]
    · simp [h]
  rw [e, hu]
  have h1 : (used pre).find? (fun b => b.tag = t) = none := by
    rw [List.find?_eq_none]
    intro x hx hxt
    apply hn
    simp at hxt
    exact List.mem_map.mpr ⟨x, hx, hxt⟩
  simp [List.find?_append, h1]

theorem bestFit_full (size : Nat) (bs : List Block) (i : Nat) (h : ∀ b ∈ bs, b.tag ≠ "") :
    bestFit size i bs none = none := by
  induction bs generalizing i with
  | nil => rfl
  | cons b bs ih =>
    unfold bestFit
    rw [if_neg (fun hc => h b (by simp) hc.1)]
    exact ih _ (fun c hc => h c (by simp [hc]))

theorem allocBlocks_full (thr : Nat) (t : String) (size : Nat) (bs : List Block) (h : ∀ b ∈ bs, b.tag ≠ "") :
    ∃ o, allocBlocks thr t size bs = bs ++ [⟨t, o, size⟩] := by
  unfold allocBlocks
  rw [bestFit_full size bs 0 h]
  dsimp only
  split
  · rename_i hl
    rw [List.getLast?_eq_none_iff] at hl
    exact ⟨0, by simp [hl]⟩
  · rename_i l hl
    rw [if_neg (h l (List.mem_of_getLast? hl))]
    exact ⟨_, rfl⟩

theorem allocOne_ok {sizes : Dict Nat} {p : Nat} (thr : Nat) {st : St} (t : String) (h : Inv sizes p st)
    (hsz : ∀ t z, sizes.get? t = some z → p ∣ z) : StepOK sizes p st (allocOne sizes thr st t) t := by
  unfold allocOne
  split
  · rename_i ha
    refine ⟨h, Nat.le_refl _, fun _ hb => hb, fun _ _ => rfl, fun _ => rfl, ?_, fun _ _ hu => Or.inl hu, ?_⟩
    · intro ht _; exact (any_tag_iff ht).mp ha
    · intro _ _; omega
  · rename_i ha
    split
    · rename_i hz
      refine ⟨h, Nat.le_refl _, fun _ hb => hb, fun _ _ => rfl, fun _ => rfl, ?_, fun _ _ hu => Or.inl hu, ?_⟩
      · intro _ hh; simp [Dict.has, hz] at hh
      · intro _ _; omega
    · rename_i size hz
      have a := allocBlocks_ok p thr t size st.blocks h.tiled
      obtain ⟨o, s, pre, post, hos, hub, huo⟩ := a.used
      by_cases ht : t = ""
      · -- the empty name: nothing becomes used
        subst ht
        simp only [if_true, List.append_nil] at huo
        have hsame : used (allocBlocks thr "" size st.blocks) = used st.blocks := by rw [huo, hub]
        have hfull : ∀ b ∈ st.blocks, b.tag ≠ "" := by simpa using ha
        obtain ⟨o', e'⟩ := allocBlocks_full thr "" size st.blocks hfull
        have hfind : (allocBlocks thr "" size st.blocks).find? (fun b => b.tag = "") = some ⟨"", o', size⟩ := by
          rw [e', List.find?_append]
          have : st.blocks.find? (fun b => b.tag = "") = none := by
            rw [List.find?_eq_none]; intro x hx; simpa using hfull x hx
          simp [this]
        dsimp only
        rw [hfind]
        dsimp only
        have hcm : ∀ u, u ≠ "" → Dict.get? (st.cm.set "" (o', size)) u = st.cm.get? u :=
          fun u hu => Dict.get?_set_ne _ _ (Ne.symm hu)
        have hdiv := a.div h.div (hsz _ _ hz)
        have hnew : (⟨"", o', size⟩ : Block) ∈ allocBlocks thr "" size st.blocks := by rw [e']; simp
        refine ⟨⟨a.tiled, hdiv, ?_, ?_, ?_⟩, a.mono, ?_, fun u hu => hcm u hu, ?_, ?_, ?_, ?_⟩
        · intro b hb
          dsimp only at hb
          rw [hsame] at hb
          have hbne : b.tag ≠ "" := by
            have := (List.mem_filter.mp hb).2; simpa using this
          dsimp only
          rw [hcm _ hbne]; exact h.own b hb
        · dsimp only; rw [hsame]; exact h.nodup
        · intro t o s hc
          dsimp only at hc ⊢
          by_cases e : "" = t
          · subst e
            rw [Dict.get?_set_self] at hc
            simp only [Option.some.injEq, Prod.mk.injEq] at hc
            obtain ⟨rfl, rfl⟩ := hc
            have := hdiv _ hnew
            refine ⟨?_, this.1, this.2, size, hz, Nat.le_refl _⟩
            have ht := a.tiled
            rw [e'] at ht ⊢
            have := tiled_last ht
            simp at this
            simp [total]; omega
          · rw [hcm t (Ne.symm e)] at hc
            have := h.bound t o s hc
            exact ⟨Nat.le_trans this.1 a.mono, this.2⟩
        · intro b hb; dsimp only; rw [hsame]; exact hb
        · intro hin
          simp only [tags, List.mem_map] at hin
          obtain ⟨b, hb, hbt⟩ := hin
          have := (List.mem_filter.mp hb).2; simp [hbt] at this
        · intro hc; exact absurd rfl hc
        · intro u _ hu; left; simpa [tags, hsame] using hu
        · intro _ hc; exact absurd rfl hc
      · have htn : t ∉ tags st.blocks := by
          intro hc; exact ha ((any_tag_iff ht).mpr hc)
        simp only [if_neg ht] at huo
        have htn' : t ∉ (used pre).map (·.tag) ∧ t ∉ (used post).map (·.tag) := by
          simpa [tags, hub] using htn
        dsimp only
        rw [find_tag ht huo htn'.1]
        dsimp only
        have hmem : ∀ b, b ∈ used (allocBlocks thr t size st.blocks) ↔ b = ⟨t, o, s⟩ ∨ b ∈ used st.blocks := by
          intro b; rw [huo, hub]; simp only [List.mem_append, List.mem_singleton]
          constructor
          · rintro ((h | h) | h)
            · exact Or.inr (Or.inl h)
            · exact Or.inl h
            · exact Or.inr (Or.inr h)
          · rintro (h | h | h)
            · exact Or.inl (Or.inr h)
            · exact Or.inl (Or.inl h)
            · exact Or.inr h
        have hdiv := a.div h.div (hsz _ _ hz)
        have hnew : (⟨t, o, s⟩ : Block) ∈ allocBlocks thr t size st.blocks :=
          (List.mem_filter.mp ((hmem _).mpr (Or.inl rfl))).1
        have hend : o + s ≤ total (allocBlocks thr t size st.blocks) := by
          obtain ⟨l, r, e⟩ := List.append_of_mem hnew
          have ht := a.tiled
          rw [e, tiled_append] at ht
          rw [e]
          simp only [Tiled] at ht
          simp [total]; omega
        refine ⟨⟨a.tiled, hdiv, ?_, ?_, ?_⟩, a.mono, ?_, ?_, ?_, ?_, ?_, ?_⟩
        · intro b hb
          rcases (hmem b).mp hb with rfl | hb
          · exact Dict.get?_set_self _ _ _
          · have hbt : b.tag ≠ t := by
              intro e; apply htn; exact List.mem_map.mpr ⟨b, hb, e⟩
            rw [Dict.get?_set_ne _ _ (Ne.symm hbt)]; exact h.own b hb
        · have hn := h.nodup
          rw [hub] at hn
          simp only [huo, List.map_append, List.map_cons, List.map_nil, List.append_assoc] at hn ⊢
          rw [List.nodup_append] at hn ⊢
          refine ⟨hn.1, ?_, ?_⟩
          · simp only [List.cons_append, List.nil_append, List.nodup_cons]
            exact ⟨htn'.2, hn.2.1⟩
          · intro x hx b hb
            simp only [List.cons_append, List.nil_append, List.mem_cons] at hb
            rcases hb with hb | hb
            · intro e; exact htn'.1 (hb ▸ e ▸ hx)
            · exact hn.2.2 x hx b hb
        · intro u o' s' hc
          by_cases e : t = u
          · subst e
            rw [Dict.get?_set_self] at hc
            simp only [Option.some.injEq, Prod.mk.injEq] at hc
            obtain ⟨rfl, rfl⟩ := hc
            have := hdiv _ hnew
            exact ⟨hend, this.1, this.2, size, hz, hos⟩
          · rw [Dict.get?_set_ne _ _ e] at hc
            have := h.bound u o' s' hc
            exact ⟨Nat.le_trans this.1 a.mono, this.2⟩
        · intro b hb; exact (hmem b).mpr (Or.inr hb)
        · intro u hu; exact Dict.get?_set_ne _ _ (Ne.symm hu)
        · intro hc; exact absurd hc htn
        · intro _ _; exact List.mem_map.mpr ⟨_, (hmem _).mpr (Or.inl rfl), rfl⟩
        · intro u hu hin
          obtain ⟨b, hb, hbu⟩ := List.mem_map.mp hin
          rcases (hmem b).mp hb with rfl | hb
          · exact Or.inr ⟨hbu.symm, by simp [Dict.has, hz]⟩
          · exact Or.inl (List.mem_map.mpr ⟨b, hb, hbu⟩)
        · intro _ _; have := a.upper; simpa [hz] using this

/-- folding `allocOne` over a list of new tensors -/
structure FoldOK (sizes : Dict Nat) (p : Nat) (st st' : St) (ts : List String) : Prop where
  inv : Inv sizes p st'
  mono : total st.blocks ≤ total st'.blocks
  keepUsed : ∀ b ∈ used st.blocks, b ∈ used st'.blocks
  keepCm : ∀ u, u ∉ ts → st'.cm.get? u = st.cm.get? u
  keepCm' : ∀ u, u ≠ "" → u ∈ tags st.blocks → st'.cm.get? u = st.cm.get? u
  alloc : ∀ t ∈ ts, t ≠ "" → sizes.has t → t ∈ tags st'.blocks

theorem foldAlloc_ok {sizes : Dict Nat} {p : Nat} (thr : Nat) (ts : List String) {st : St} (h : Inv sizes p st)
    (hsz : ∀ t z, sizes.get? t = some z → p ∣ z) :
    FoldOK sizes p st (ts.foldl (allocOne sizes thr) st) ts := by
  induction ts generalizing st with
  | nil => exact ⟨h, Nat.le_refl _, fun _ hb => hb, fun _ _ => rfl, fun _ _ _ => rfl, by simp⟩
  | cons t ts ih =>
    have s1 := allocOne_ok thr t h hsz
    have s2 := ih s1.inv
    simp only [List.foldl_cons]
    refine ⟨s2.inv, Nat.le_trans s1.mono s2.mono, fun b hb => s2.keepUsed b (s1.keepUsed b hb), ?_, ?_, ?_⟩
    · intro u hu
      simp only [List.mem_cons, not_or] at hu
      rw [s2.keepCm u hu.2, s1.keepCm u hu.1]
    · intro u hu hin
      have : u ∈ tags (allocOne sizes thr st t).blocks := by
        obtain ⟨b, hb, e⟩ := List.mem_map.mp hin
        exact List.mem_map.mpr ⟨b, s1.keepUsed b hb, e⟩
      rw [s2.keepCm' u hu this]
      by_cases e : u = t
      · subst e; rw [s1.same hin]
      · exact s1.keepCm u e
    · intro u hu hne hh
      rcases List.mem_cons.mp hu with rfl | hu
      · have := s1.alloc hne hh
        obtain ⟨b, hb, e⟩ := List.mem_map.mp this
        exact List.mem_map.mpr ⟨b, s2.keepUsed b hb, e⟩
      · exact s2.alloc u hu hne hh

theorem mem_insertDesc (key : String → Nat) (t u : String) (l : List String) :
    u ∈ insertDesc key t l ↔ u = t ∨ u ∈ l := by
  induction l with
  | nil => simp [insertDesc]
  | cons a l ih =>
    simp only [insertDesc]; split
    · simp
    · simp only [List.mem_cons, ih]
      constructor
      · rintro (h | h | h) <;> simp [h]
      · rintro (h | h | h) <;> simp [h]

theorem mem_sortDesc (key : String → Nat) (u : String) (l : List String) : u ∈ sortDesc key l ↔ u ∈ l := by
  induction l with
  | nil => simp [sortDesc]
  | cons a l ih =>
    have : sortDesc key (a :: l) = insertDesc key a (sortDesc key l) := rfl
    rw [this, mem_insertDesc, ih]; simp

/-- one node of the outer loop -/
structure NodeOK (sizes : Dict Nat) (p : Nat) (st st' : St) (live : List String) : Prop where
  inv : Inv sizes p st'
  mono : total st.blocks ≤ total st'.blocks
  keepTag : ∀ u, u ∈ tags st.blocks → u ∈ live → u ∈ tags st'.blocks
  keepLive : ∀ u, u ≠ "" → u ∈ tags st.blocks → u ∈ live → st'.cm.get? u = st.cm.get? u
  keepDead : ∀ u, u ∉ live → st'.cm.get? u = st.cm.get? u
  alloc : ∀ t ∈ live, t ≠ "" → sizes.has t → t ∈ tags st'.blocks

theorem stepNode_ok {sizes : Dict Nat} {p : Nat} (thr : Nat) (live : List String) {st : St} (h : Inv sizes p st)
    (hsz : ∀ t z, sizes.get? t = some z → p ∣ z) : NodeOK sizes p st (stepNode sizes thr st live) live := by
  have r := releaseLoop_ok p live st.blocks.length 0 st.blocks h.tiled
  have hr := inv_release (live := live) st.blocks.length h
  unfold stepNode
  simp only
  have f := foldAlloc_ok thr (sortDesc (fun t => (sizes.get? t).getD 0)
    (live.filter (fun t => !((releaseLoop live st.blocks.length 0 st.blocks).any (fun b => b.tag = t)) && sizes.has t)))
    hr hsz
  have keep : ∀ u, u ∈ tags st.blocks → u ∈ live →
      u ∈ tags (releaseLoop live st.blocks.length 0 st.blocks) := by
    intro u hu hl
    obtain ⟨b, hb, e⟩ := List.mem_map.mp hu
    exact List.mem_map.mpr ⟨b, r.keep b hb (e ▸ hl), e⟩
  have mono : ∀ u, u ∈ tags (releaseLoop live st.blocks.length 0 st.blocks) →
      u ∈ tags ((sortDesc (fun t => (sizes.get? t).getD 0)
    (live.filter (fun t => !((releaseLoop live st.blocks.length 0 st.blocks).any (fun b => b.tag = t)) && sizes.has t))).foldl
     (allocOne sizes thr) { st with blocks := releaseLoop live st.blocks.length 0 st.blocks }).blocks := by
    intro u hu
    obtain ⟨b, hb, e⟩ := List.mem_map.mp hu
    exact List.mem_map.mpr ⟨b, f.keepUsed b hb, e⟩
  refine ⟨f.inv, ?_, ?_, ?_, ?_, ?_⟩
  · have := f.mono; rw [show total (St.mk (releaseLoop live st.blocks.length 0 st.blocks) st.cm).blocks = total st.blocks from r.total] at this
    exact this
  · intro u hu hl; exact mono u (keep u hu hl)
  · intro u hne hu hl; exact f.keepCm' u hne (keep u hu hl)
  · intro u hl; apply f.keepCm; rw [mem_sortDesc]; simp [hl]
  · intro t ht hne hh
    by_cases hin : t ∈ tags (releaseLoop live st.blocks.length 0 st.blocks)
    · exact mono t hin
    · apply f.alloc t _ hne hh
      rw [mem_sortDesc, List.mem_filter]
      refine ⟨ht, ?_⟩
      have : ¬ ((releaseLoop live st.blocks.length 0 st.blocks).any (fun b => b.tag = t)) = true := by
        rw [any_tag_iff hne]; exact hin
      simp [hh] at this ⊢; exact this

theorem inv_init (sizes : Dict Nat) (p : Nat) : Inv sizes p {} :=
  ⟨by simp [Tiled], by simp [Div], by simp, by simp, by simp⟩

theorem poolSize_eq {bs : List Block} (h : Tiled 0 bs) : poolSize bs = total bs := by
  have aux : ∀ (l : List Block) (s m : Nat), Tiled s l → m ≤ s →
      max s (l.foldl (fun m b => max m (b.off + b.size)) m) = s + total l := by
    intro l
    induction l with
    | nil => intro s m _ hm; simp [total]; omega
    | cons b l ih =>
      intro s m ht hm
      simp only [Tiled] at ht
      simp only [List.foldl_cons, total]
      have h2 := ih (s + b.size) (max m (b.off + b.size)) ht.2 (by omega)
      have hge : ∀ (l : List Block) (m : Nat), m ≤ l.foldl (fun m b => max m (b.off + b.size)) m := by
        intro l; induction l with
        | nil => simp
        | cons c l ih => intro m; simp only [List.foldl_cons]; exact Nat.le_trans (by omega) (ih _)
      have h3 := hge l (max m (b.off + b.size))
      omega
  have := aux bs 0 0 h (Nat.le_refl _)
  simp [poolSize] at this ⊢; exact this

end OnnxTool.Mem
