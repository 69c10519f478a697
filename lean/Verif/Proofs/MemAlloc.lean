import Verif.Proofs.MemBlocks
/-! Allocation of one tensor: best fit, split / absorb / grow / append. -/
namespace OnnxTool.Mem
open OnnxTool

/-- `i` indexes a free block of `bs` that fits, leaving `r`. -/
def Fits (size : Nat) (bs : List Block) (i r : Nat) : Prop :=
  ∃ b, bs[i]? = some b ∧ b.tag = "" ∧ size ≤ b.size ∧ r = b.size - size

theorem bestFit_some (size : Nat) (bs rest pre : List Block) (best : Option (Nat × Nat)) (hbs : bs = pre ++ rest)
    (hbest : ∀ i r, best = some (i, r) → Fits size bs i r) (i r : Nat)
    (h : bestFit size pre.length rest best = some (i, r)) : Fits size bs i r := by
  induction rest generalizing pre best with
  | nil => simp [bestFit] at h; exact hbest _ _ h
  | cons b rest ih =>
    unfold bestFit at h
    have hb : bs[pre.length]? = some b := by simp [hbs]
    refine ih (pre ++ [b]) _ (by simp [hbs]) ?_ (by simpa using h)
    intro i' r' h'
    split at h'
    · rename_i hc
      have new : Fits size bs pre.length (b.size - size) := ⟨b, hb, hc.1, hc.2, rfl⟩
      split at h'
      · simp at h'; obtain ⟨rfl, rfl⟩ := h'; exact new
      · rename_i j r''
        split at h'
        · simp at h'; obtain ⟨rfl, rfl⟩ := h'; exact new
        · exact hbest _ _ h'
    · exact hbest _ _ h'

theorem bestFit_isSome (size : Nat) (i : Nat) (bs : List Block) (best : Option (Nat × Nat))
    (h : best.isSome ∨ ∃ b ∈ bs, b.tag = "" ∧ size ≤ b.size) : (bestFit size i bs best).isSome := by
  induction bs generalizing i best with
  | nil => simpa [bestFit] using h
  | cons b bs ih =>
    unfold bestFit
    apply ih
    rcases h with h | ⟨c, hc, h1, h2⟩
    · left
      split
      · split
        · rfl
        · split <;> rfl
      · exact h
    · rcases List.mem_cons.mp hc with rfl | hc
      · left; rw [if_pos ⟨h1, h2⟩]
        split
        · rfl
        · split <;> rfl
      · exact Or.inr ⟨c, hc, h1, h2⟩

theorem bestFit_none (size : Nat) (bs : List Block) (h : bestFit size 0 bs none = none) :
    ∀ b ∈ bs, b.tag = "" → b.size < size := by
  intro b hb ht
  by_cases h2 : size ≤ b.size
  · have := bestFit_isSome size 0 bs none (Or.inr ⟨b, hb, ht, h2⟩)
    simp [h] at this
  · omega

theorem insertIdx_mid {α} (pre post : List α) (a x : α) :
    (pre ++ a :: post).insertIdx (pre.length + 1) x = pre ++ a :: x :: post := by
  induction pre with
  | nil => simp
  | cons b pre ih => simpa using ih

structure AllocOK (p : Nat) (t : String) (size : Nat) (bs out : List Block) : Prop where
  tiled : Tiled 0 out
  mono : total bs ≤ total out
  upper : total out ≤ total bs + size
  div : Div p bs → p ∣ size → Div p out
  used : ∃ o s pre post, size ≤ s ∧ used bs = used pre ++ used post ∧
    Mem.used out = Mem.used pre ++ (if t = "" then [] else [⟨t, o, s⟩]) ++ Mem.used post

theorem tiled_last {l : List Block} {b : Block} (h : Tiled 0 (l ++ [b])) : b.off = total l := by
  rw [tiled_append] at h; have := h.2; simp [Tiled] at this; exact this

theorem div_total {p : Nat} {l : List Block} (h : Div p l) : p ∣ total l := by
  induction l with
  | nil => simp [total]
  | cons a l ih => exact Nat.dvd_add (h a (by simp)).2 (ih (fun b hb => h b (by simp [hb])))

theorem allocBlocks_ok (p thr : Nat) (t : String) (size : Nat) (bs : List Block) (h : Tiled 0 bs) :
    AllocOK p t size bs (allocBlocks thr t size bs) := by
  unfold allocBlocks
  split
  · rename_i i rem hbf
    obtain ⟨b, hb, hbt, hfit, hrem⟩ := bestFit_some size bs bs [] none rfl (by simp) i rem hbf
    rw [hb]
    obtain ⟨pre, post, rfl, rfl⟩ := split_at hb
    rw [tiled_append] at h
    simp only [Tiled] at h
    obtain ⟨h1, h2, h3⟩ := h
    simp only
    split
    · have e : ((pre ++ b :: post).set pre.length ⟨t, b.off, size⟩).insertIdx (pre.length + 1) ⟨"", b.off + size, rem⟩
          = pre ++ ⟨t, b.off, size⟩ :: ⟨"", b.off + size, rem⟩ :: post := by
        rw [List.set_append_right _ _ (by simp)]
        simp [insertIdx_mid]
      rw [e]
      constructor
      · rw [tiled_append]
        refine ⟨h1, ?_⟩
        simp only [Tiled]
        refine ⟨h2, by omega, ?_⟩
        rw [show 0 + total pre + size + rem = 0 + total pre + b.size by omega]; exact h3
      · simp [total]; omega
      · simp [total]; omega
      · intro hd hs x hx
        have hbd := hd b (by simp)
        simp at hx
        rcases hx with hx | rfl | rfl | hx
        · exact hd x (by simp [hx])
        · exact ⟨hbd.1, hs⟩
        · exact ⟨Nat.dvd_add hbd.1 hs, hrem ▸ Nat.dvd_sub hbd.2 hs⟩
        · exact hd x (by simp [hx])
      · refine ⟨b.off, size, pre, post, Nat.le_refl _, by simp [used_cons, hbt], ?_⟩
        by_cases ht : t = "" <;> simp [used_cons, ht]
    · have e : (pre ++ b :: post).set pre.length ⟨t, b.off, b.size⟩ = pre ++ ⟨t, b.off, b.size⟩ :: post := by
        rw [List.set_append_right _ _ (by simp)]; simp
      rw [e]
      constructor
      · rw [tiled_append]; exact ⟨h1, h2, h3⟩
      · simp [total]
      · simp [total]
      · intro hd hs x hx
        simp at hx
        rcases hx with hx | rfl | hx
        · exact hd x (by simp [hx])
        · exact hd b (by simp)
        · exact hd x (by simp [hx])
      · refine ⟨b.off, b.size, pre, post, hfit, by simp [used_cons, hbt], ?_⟩
        by_cases ht : t = "" <;> simp [used_cons, ht]
  · rename_i hbf
    split
    · rename_i hl
      rw [List.getLast?_eq_none_iff] at hl
      subst hl
      constructor
      · simp [Tiled]
      · simp [total]
      · simp [total]
      · intro _ hs x hx; simp at hx; subst hx; exact ⟨by simp, hs⟩
      · refine ⟨0, size, [], [], Nat.le_refl _, rfl, ?_⟩
        by_cases ht : t = "" <;> simp [used_cons, ht]
    · rename_i l hl
      obtain ⟨ys, rfl⟩ := List.getLast?_eq_some_iff.mp hl
      have hlo := tiled_last h
      rw [tiled_append] at h
      split
      · rename_i hlt
        have hsm := bestFit_none size _ hbf l (by simp) hlt
        have e : (ys ++ [l]).set ((ys ++ [l]).length - 1) ⟨t, l.off, size⟩ = ys ++ [⟨t, l.off, size⟩] := by
          rw [List.set_append_right _ _ (by simp)]; simp
        rw [e]
        constructor
        · rw [tiled_append]; exact ⟨h.1, by simp [Tiled, hlo]⟩
        · simp [total]; omega
        · simp [total]
        · intro hd hs x hx
          simp at hx
          rcases hx with hx | rfl
          · exact hd x (by simp [hx])
          · exact ⟨(hd l (by simp)).1, hs⟩
        · refine ⟨l.off, size, ys, [], Nat.le_refl _, by simp [used_cons, hlt], ?_⟩
          by_cases ht : t = "" <;> simp [used_cons, ht]
      · constructor
        · rw [tiled_append]
          refine ⟨by rw [tiled_append]; exact h, ?_⟩
          simp [Tiled, total, hlo]
        · simp [total]
        · simp [total]; omega
        · intro hd hs x hx
          simp at hx
          rcases hx with hx | rfl | rfl
          · exact hd x (by simp [hx])
          · exact hd _ (by simp)
          · have := hd l (by simp); exact ⟨Nat.dvd_add this.1 this.2, hs⟩
        · rename_i hlt
          refine ⟨l.off + l.size, size, ys ++ [l], [], Nat.le_refl _, by simp, ?_⟩
          by_cases ht : t = "" <;> simp [used_cons, ht, hlt]

end OnnxTool.Mem
