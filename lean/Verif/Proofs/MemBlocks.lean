import Verif.Model.Memory
import Verif.Proofs.Dict
/-! Block-list lemmas for the allocator: tiling, totals, used blocks. -/
namespace OnnxTool.Mem
open OnnxTool

/-- The blocks are contiguous, starting at `s`. -/
def Tiled : Nat → List Block → Prop
  | _, [] => True
  | s, b :: bs => b.off = s ∧ Tiled (s + b.size) bs

/-- Sum of block sizes. -/
def total : List Block → Nat
  | [] => 0
  | b :: bs => b.size + total bs

/-- Blocks currently owned by a tensor. -/
def used (bs : List Block) : List Block := bs.filter (fun b => b.tag ≠ "")

@[simp] theorem used_nil : used [] = [] := rfl
@[simp] theorem used_append (a b : List Block) : used (a ++ b) = used a ++ used b := by simp [used]
theorem used_cons (b : Block) (bs : List Block) :
    used (b :: bs) = if b.tag = "" then used bs else b :: used bs := by
  by_cases h : b.tag = "" <;> simp [used, h]

@[simp] theorem total_append (a b : List Block) : total (a ++ b) = total a + total b := by
  induction a with
  | nil => simp [total]
  | cons x a ih => simp [total, ih]; omega

theorem tiled_append (s : Nat) (a b : List Block) :
    Tiled s (a ++ b) ↔ Tiled s a ∧ Tiled (s + total a) b := by
  induction a generalizing s with
  | nil => simp [Tiled, total]
  | cons x a ih => simp [Tiled, total, ih, Nat.add_assoc, and_assoc]

theorem split_at {α} {l : List α} {i : Nat} {b : α} (h : l[i]? = some b) :
    ∃ pre post, l = pre ++ b :: post ∧ pre.length = i := by
  obtain ⟨hi, rfl⟩ := List.getElem?_eq_some_iff.mp h
  exact ⟨l.take i, l.drop (i+1), by simp, by simp; omega⟩

/-- all offsets and sizes are multiples of `p` -/
def Div (p : Nat) (bs : List Block) : Prop := ∀ b ∈ bs, p ∣ b.off ∧ p ∣ b.size

structure ReleaseOK (p : Nat) (b : Block) (pre post out : List Block) : Prop where
  tiled : Tiled 0 out
  total : total out = total (pre ++ b :: post)
  used : used out = used pre ++ used post
  div : Div p (pre ++ b :: post) → Div p out

theorem releaseAt_ok (p : Nat) (pre post : List Block) (b : Block) (h : Tiled 0 (pre ++ b :: post)) :
    ReleaseOK p b pre post (releaseAt (pre ++ b :: post) pre.length) := by
  have hb : (pre ++ b :: post)[pre.length]? = some b := by simp
  have hnext : (pre ++ b :: post)[pre.length+1]? = post[0]? := by
    rw [List.getElem?_append_right (by omega)]; simp
  unfold releaseAt
  rw [hb, hnext]
  simp only
  -- split the prefix
  rcases List.eq_nil_or_concat pre with rfl | ⟨pre', q, rfl⟩
  · -- no previous block
    simp only [List.length_nil, List.nil_append] at *
    cases post with
    | nil =>
      simp [Tiled] at h
      simp; constructor
      · simp [Tiled, h]
      · simp [Mem.total]
      · simp [used_cons]
      · intro hd x hx; simp at hx; subst hx; exact hd b (by simp)
    | cons r post =>
      by_cases hr : r.tag = ""
      · simp only [Tiled] at h
        simp [hr, Option.filter]
        constructor
        · simp only [Tiled]; refine ⟨by omega, ?_⟩
          have : b.off + (r.off + r.size - b.off) = 0 + b.size + r.size := by omega
          have h3 := h.2.2
          simp only [h.1] at *
          rw [show 0 + (r.off + r.size - 0) = 0 + b.size + r.size by omega]; exact h3
        · simp [Mem.total]; omega
        · simp [used_cons, hr]
        · intro hd x hx
          simp at hx
          rcases hx with rfl | hx
          · have h1 := hd b (by simp); have h2 := hd r (by simp)
            refine ⟨h1.1, Nat.dvd_sub (Nat.dvd_add h2.1 h2.2) h1.1⟩
          · exact hd x (by simp [hx])
      · simp only [Tiled] at h
        simp [hr, Option.filter]
        constructor
        · have h2 := h.2
          simp only [Tiled]; exact ⟨h.1, h2⟩
        · simp [Mem.total]
        · simp [used_cons]
        · intro hd x hx
          simp at hx
          rcases hx with rfl | rfl | hx
          · exact hd b (by simp)
          · exact hd _ (by simp)
          · exact hd x (by simp [hx])
  · -- previous block q
    have hprev : (pre' ++ [q] ++ b :: post)[pre'.length]? = some q := by
      rw [List.append_assoc]; simp
    simp only [List.concat_eq_append, List.length_append, List.length_cons, List.length_nil, Nat.zero_add] at *
    simp only [show 1 ≤ pre'.length + 1 by omega, if_true, Nat.add_sub_cancel, hprev]
    have ht := h
    rw [List.append_assoc, tiled_append] at ht
    simp only [List.cons_append, List.nil_append, Tiled] at ht
    obtain ⟨ht1, hq, hbo, ht2⟩ := ht
    by_cases hqt : q.tag = ""
    · cases post with
      | nil =>
        have e : ((pre' ++ [q] ++ [b]).eraseIdx (pre'.length + 1)).set pre'.length ⟨"", q.off, b.off + b.size - q.off⟩
            = pre' ++ [⟨"", q.off, b.off + b.size - q.off⟩] := by
          rw [List.eraseIdx_append_of_length_le (by simp)]; simp
        simp [hqt, Option.filter]
        rw [show pre' ++ [q, b] = pre' ++ [q] ++ [b] by simp, e]
        constructor
        · rw [tiled_append]; refine ⟨ht1, ?_⟩; simp [Tiled, hq]
        · simp [Mem.total]; omega
        · simp [used_cons, hqt]
        · intro hd x hx
          simp at hx
          rcases hx with hx | rfl
          · exact hd x (by simp [hx])
          · have h1 := hd b (by simp); have h2 := hd q (by simp)
            exact ⟨h2.1, Nat.dvd_sub (Nat.dvd_add h1.1 h1.2) h2.1⟩
      | cons r post =>
        simp only [Tiled] at ht2
        by_cases hr : r.tag = ""
        · have e : (((pre' ++ [q] ++ b :: r :: post).eraseIdx (pre'.length + 1)).eraseIdx (pre'.length + 1)).set
              pre'.length ⟨"", q.off, r.off + r.size - q.off⟩
              = pre' ++ ⟨"", q.off, r.off + r.size - q.off⟩ :: post := by
            rw [List.eraseIdx_append_of_length_le (by simp)]; simp
            rw [show pre' ++ q :: r :: post = pre' ++ [q] ++ r :: post by simp,
              List.eraseIdx_append_of_length_le (by simp)]; simp
          simp [hqt, hr, Option.filter]
          rw [show pre' ++ q :: b :: r :: post = pre' ++ [q] ++ b :: r :: post by simp, e]
          constructor
          · rw [tiled_append]; refine ⟨ht1, ?_⟩
            simp only [Tiled]; refine ⟨hq, ?_⟩
            have := ht2.2
            rw [show 0 + Mem.total pre' + (r.off + r.size - q.off) = 0 + Mem.total pre' + q.size + b.size + r.size by omega]
            exact this
          · simp [Mem.total]; omega
          · simp [used_cons, hqt, hr]
          · intro hd x hx
            simp at hx
            rcases hx with hx | rfl | hx
            · exact hd x (by simp [hx])
            · have h1 := hd r (by simp); have h2 := hd q (by simp)
              exact ⟨h2.1, Nat.dvd_sub (Nat.dvd_add h1.1 h1.2) h2.1⟩
            · exact hd x (by simp [hx])
        · have e : ((pre' ++ [q] ++ b :: r :: post).eraseIdx (pre'.length + 1)).set pre'.length
              ⟨"", q.off, b.off + b.size - q.off⟩
              = pre' ++ ⟨"", q.off, b.off + b.size - q.off⟩ :: r :: post := by
            rw [List.eraseIdx_append_of_length_le (by simp)]; simp
          simp [hqt, hr, Option.filter]
          rw [show pre' ++ q :: b :: r :: post = pre' ++ [q] ++ b :: r :: post by simp, e]
          constructor
          · rw [tiled_append]; refine ⟨ht1, ?_⟩
            simp only [Tiled]; refine ⟨hq, ?_, ?_⟩
            · omega
            · rw [show 0 + Mem.total pre' + (b.off + b.size - q.off) + r.size
                = 0 + Mem.total pre' + q.size + b.size + r.size by omega]
              exact ht2.2
          · simp [Mem.total]; omega
          · simp [used_cons, hqt, hr]
          · intro hd x hx
            simp at hx
            rcases hx with hx | rfl | rfl | hx
            · exact hd x (by simp [hx])
            · have h1 := hd b (by simp); have h2 := hd q (by simp)
              exact ⟨h2.1, Nat.dvd_sub (Nat.dvd_add h1.1 h1.2) h2.1⟩
            · exact hd _ (by simp)
            · exact hd x (by simp [hx])
    · cases post with
      | nil =>
        have e : (pre' ++ [q] ++ [b]).set (pre'.length + 1) ⟨"", b.off, b.size⟩ = pre' ++ [q] ++ [⟨"", b.off, b.size⟩] := by
          rw [List.set_append_right _ _ (by simp)]; simp
        simp [hqt, Option.filter]
        rw [show pre' ++ [q, ⟨"", b.off, b.size⟩] = pre' ++ [q] ++ [(⟨"", b.off, b.size⟩ : Block)] by simp]
        constructor
        · rw [tiled_append, tiled_append] at h ⊢
          exact ⟨h.1, by simpa [Tiled] using h.2⟩
        · simp [Mem.total]
        · simp [used_cons, hqt]
        · intro hd x hx
          simp at hx
          rcases hx with hx | rfl | rfl
          · exact hd x (by simp [hx])
          · exact hd _ (by simp)
          · exact hd b (by simp)
      | cons r post =>
        simp only [Tiled] at ht2
        by_cases hr : r.tag = ""
        · have e : ((pre' ++ [q] ++ b :: r :: post).eraseIdx (pre'.length + 1)).set (pre'.length + 1)
              ⟨"", b.off, r.off + r.size - b.off⟩
              = pre' ++ [q] ++ ⟨"", b.off, r.off + r.size - b.off⟩ :: post := by
            rw [List.eraseIdx_append_of_length_le (by simp)]; simp
          simp [hqt, hr, Option.filter]
          rw [show pre' ++ q :: b :: r :: post = pre' ++ [q] ++ b :: r :: post by simp, e]
          constructor
          · rw [tiled_append, tiled_append] at h ⊢
            refine ⟨h.1, ?_⟩
            simp only [Tiled, Mem.total, total_append] at h ⊢
            refine ⟨by omega, ?_⟩
            rw [show 0 + (Mem.total pre' + (q.size + 0)) + (r.off + r.size - b.off)
              = 0 + Mem.total pre' + q.size + b.size + r.size by omega]
            exact ht2.2
          · simp [Mem.total]; omega
          · simp [used_cons, hqt, hr]
          · intro hd x hx
            simp at hx
            rcases hx with hx | rfl | rfl | hx
            · exact hd x (by simp [hx])
            · exact hd _ (by simp)
            · have h1 := hd b (by simp); have h2 := hd r (by simp)
              exact ⟨h1.1, Nat.dvd_sub (Nat.dvd_add h2.1 h2.2) h1.1⟩
            · exact hd x (by simp [hx])
        · have e : (pre' ++ [q] ++ b :: r :: post).set (pre'.length + 1) ⟨"", b.off, b.size⟩
              = pre' ++ [q] ++ ⟨"", b.off, b.size⟩ :: r :: post := by
            rw [List.set_append_right _ _ (by simp)]; simp
          simp [hqt, hr, Option.filter]
          rw [show pre' ++ q :: ⟨"", b.off, b.size⟩ :: r :: post = pre' ++ [q] ++ (⟨"", b.off, b.size⟩ : Block) :: r :: post by simp]
          constructor
          · rw [tiled_append, tiled_append] at h ⊢
            exact ⟨h.1, by simpa [Tiled] using h.2⟩
          · simp [Mem.total]
          · simp [used_cons, hqt, hr]
          · intro hd x hx
            simp at hx
            rcases hx with hx | rfl | rfl | rfl | hx
            · exact hd x (by simp [hx])
            · exact hd _ (by simp)
            · exact hd b (by simp)
            · exact hd _ (by simp)
            · exact hd x (by simp [hx])

structure ReleasesOK (p : Nat) (live : List String) (bs out : List Block) : Prop where
  tiled : Tiled 0 out
  total : total out = total bs
  sub : (used out).Sublist (used bs)
  keep : ∀ x ∈ used bs, x.tag ∈ live → x ∈ used out
  div : Div p bs → Div p out

theorem releaseLoop_ok (p : Nat) (live : List String) (fuel i : Nat) (bs : List Block) (h : Tiled 0 bs) :
    ReleasesOK p live bs (releaseLoop live fuel i bs) := by
  induction fuel generalizing i bs with
  | zero => exact ⟨h, rfl, List.Sublist.refl _, fun _ hx _ => hx, id⟩
  | succ fuel ih =>
    unfold releaseLoop
    split
    · exact ⟨h, rfl, List.Sublist.refl _, fun _ hx _ => hx, id⟩
    · rename_i b hb
      split
      · rename_i hc
        obtain ⟨pre, post, rfl, rfl⟩ := split_at hb
        have r := releaseAt_ok p pre post b h
        have l := ih (pre.length + 1) _ r.tiled
        refine ⟨l.tiled, l.total.trans r.total, ?_, ?_, fun hd => l.div (r.div hd)⟩
        · refine l.sub.trans ?_
          rw [r.used, used_append, used_cons, if_neg hc.1]
          exact List.Sublist.append (List.Sublist.refl _) (List.sublist_cons_self _ _)
        · intro x hx hl
          apply l.keep x _ hl
          rw [r.used]
          rw [used_append, used_cons, if_neg hc.1] at hx
          simp only [List.mem_append, List.mem_cons] at hx ⊢
          rcases hx with hx | rfl | hx
          · exact Or.inl hx
          · exact absurd hl hc.2
          · exact Or.inr hx
      · exact ih _ _ h

end OnnxTool.Mem
