import Verif.Model.KvPlan
import Verif.Proofs.MemRun
import Mathlib.Data.List.Nodup
/-!
# The allocator of `compress_memory_with_kv_cache` is that of `compress_memory`
-/
namespace OnnxTool.Mem
open OnnxTool

/-- memory sizes without the cache -/
def withoutKv (memsize : String → Option Int) : String → Option Int := fun t => if t = "kv_cache" then none else memsize t
/-- memory size of the cache alone -/
def onlyKv (memsize : String → Option Int) : String → Option Int := fun t => if t = "kv_cache" then memsize t else none

theorem kvSizes_eq (g : Graph) (memsize : String → Option Int) (p : Nat) :
    kvSizes g memsize p = (tensorSizes g (withoutKv memsize) p, tensorSizes g (onlyKv memsize) p) := by
  unfold kvSizes tensorSizes
  have aux : ∀ (l : List String) (d e : Dict Nat), l.foldl (fun (d : Dict Nat × Dict Nat) t =>
      if !(g.producedby.has t) && !(g.input.contains t) then d
      else match memsize t with
        | none => d
        | some s =>
          if 0 < padSize p s then
            if t = "kv_cache" then (d.1, d.2.set t (padSize p s).toNat) else (d.1.set t (padSize p s).toNat, d.2)
          else d) (d, e) =
      (l.foldl (fun d t => if !(g.producedby.has t) && !(g.input.contains t) then d
        else match withoutKv memsize t with
          | none => d
          | some s => if 0 < padSize p s then d.set t (padSize p s).toNat else d) d,
       l.foldl (fun d t => if !(g.producedby.has t) && !(g.input.contains t) then d
        else match onlyKv memsize t with
          | none => d
          | some s => if 0 < padSize p s then d.set t (padSize p s).toNat else d) e) := by
    intro l
    induction l with
    | nil => intro d e; rfl
    | cons t l ih =>
      intro d e
      simp only [List.foldl_cons]
      by_cases h1 : (!(g.producedby.has t) && !(g.input.contains t)) = true
      · simp only [if_pos h1]; exact ih d e
      · simp only [if_neg h1]
        by_cases ht : t = "kv_cache"
        · subst ht
          simp only [withoutKv, onlyKv, if_true]
          cases memsize "kv_cache" with
          | none => exact ih d e
          | some s =>
            simp only
            split
            · exact ih d _
            · exact ih d e
        · simp only [withoutKv, onlyKv, if_neg ht]
          cases memsize t with
          | none => exact ih d e
          | some s =>
            simp only
            split
            · exact ih _ e
            · exact ih d e
  exact aux g.dynamics [] []

theorem mem_insertIdx_or {α : Type} {l : List α} {i : Nat} {x b : α} (h : b ∈ l.insertIdx i x) : b = x ∨ b ∈ l := by
  by_cases hi : i ≤ l.length
  · exact (List.mem_insertIdx hi).1 h
  · rw [List.insertIdx_of_length_lt (by omega)] at h; exact .inr h

theorem allocBlocks_tags (thr : Nat) (t : String) (size : Nat) (bs : List Block) :
    ∀ b ∈ allocBlocks thr t size bs, b.tag = t ∨ b.tag = "" ∨ ∃ c ∈ bs, c.tag = b.tag := by
  intro b hb
  have key : ∀ (l : List Block) (i : Nat) (x : Block), b ∈ l.set i x → b = x ∨ b ∈ l := by
    intro l i x h
    rcases List.mem_or_eq_of_mem_set h with h | h
    · exact .inr h
    · exact .inl h
  unfold allocBlocks at hb
  split at hb
  · split at hb
    · exact .inr (.inr ⟨b, hb, rfl⟩)
    · split at hb
      · rcases mem_insertIdx_or hb with rfl | hb
        · exact .inr (.inl rfl)
        · rcases key _ _ _ hb with rfl | hb
          · exact .inl rfl
          · exact .inr (.inr ⟨b, hb, rfl⟩)
      · rcases key _ _ _ hb with rfl | hb
        · exact .inl rfl
        · exact .inr (.inr ⟨b, hb, rfl⟩)
  · split at hb
    · simp only [List.mem_singleton] at hb; subst hb; exact .inl rfl
    · split at hb
      · rcases key _ _ _ hb with rfl | hb
        · exact .inl rfl
        · exact .inr (.inr ⟨b, hb, rfl⟩)
      · rcases List.mem_append.1 hb with hb | hb
        · exact .inr (.inr ⟨b, hb, rfl⟩)
        · simp only [List.mem_singleton] at hb; subst hb; exact .inl rfl

theorem fold_allocKv (sizes : Dict Nat) (thr : Nat) (ts : List String) (st : St) (hnd : ts.Nodup) (hne : ∀ t ∈ ts, t ≠ "")
    (hfree : ∀ t ∈ ts, ∀ b ∈ st.blocks, b.tag ≠ t) :
    ts.foldl (allocOneKv sizes thr) st = ts.foldl (allocOne sizes thr) st := by
  induction ts generalizing st with
  | nil => rfl
  | cons t ts ih =>
    simp only [List.foldl_cons]
    have h0 : ¬ (st.blocks.any (fun b => decide (b.tag = t)) = true) := by
      simp only [List.any_eq_true, decide_eq_true_eq, not_exists, not_and]
      exact hfree t (by simp)
    have h1 : allocOne sizes thr st t = allocOneKv sizes thr st t := by
      unfold allocOne allocOneKv
      rw [if_neg h0]
      rfl
    rw [h1]
    rw [List.nodup_cons] at hnd
    apply ih _ hnd.2 (fun u hu => hne u (List.mem_cons_of_mem _ hu))
    intro u hu b hb
    have hut : u ≠ t := by rintro rfl; exact hnd.1 hu
    have hb' : b ∈ st.blocks ∨ ∃ size, b ∈ allocBlocks thr t size st.blocks := by
      unfold allocOneKv at hb
      split at hb
      · exact .inl hb
      · simp only at hb
        split at hb <;> exact .inr ⟨_, hb⟩
    rcases hb' with hb | ⟨size, hb⟩
    · exact hfree u (List.mem_cons_of_mem _ hu) b hb
    · rcases allocBlocks_tags _ _ _ _ b hb with h | h | ⟨c, hc, h⟩
      · rw [h]; exact hut.symm
      · rw [h]; exact (hne u (List.mem_cons_of_mem _ hu)).symm
      · rw [← h]; exact hfree u (List.mem_cons_of_mem _ hu) c hc

theorem insertDesc_perm (key : String → Nat) (t : String) (l : List String) : (insertDesc key t l).Perm (t :: l) := by
  induction l with
  | nil => exact List.Perm.refl _
  | cons u us ih =>
    unfold insertDesc
    split
    · exact List.Perm.refl _
    · exact (List.Perm.cons u ih).trans (List.Perm.swap t u us)

theorem sortDesc_perm (key : String → Nat) (l : List String) : (sortDesc key l).Perm l := by
  unfold sortDesc
  induction l with
  | nil => exact List.Perm.refl _
  | cons u us ih => exact (insertDesc_perm key u _).trans (List.Perm.cons u ih)

theorem stepNodeKv_eq (sizes : Dict Nat) (thr : Nat) (st : St) (live : List String) (hl : (live.filter (· ≠ "")).Nodup)
    (h0 : sizes.get? "" = none) : stepNodeKv sizes thr st live = stepNode sizes thr st live := by
  unfold stepNodeKv stepNode
  simp only []
  apply fold_allocKv
  · refine (sortDesc_perm _ _).nodup_iff.2 ?_
    have : (live.filter fun t => !((releaseLoop live st.blocks.length 0 st.blocks).any fun b => decide (b.tag = t)) && sizes.has t) =
        (live.filter (· ≠ "")).filter fun t => !((releaseLoop live st.blocks.length 0 st.blocks).any fun b => decide (b.tag = t)) && sizes.has t := by
      rw [List.filter_filter]
      apply List.filter_congr
      intro t _
      by_cases ht : t = ""
      · subst ht; simp [Dict.has, h0]
      · simp [ht]
    rw [this]
    exact hl.filter _
  · intro t ht
    rw [(sortDesc_perm _ _).mem_iff, List.mem_filter] at ht
    rintro rfl
    simp [Dict.has, h0] at ht
  · intro t ht b hb
    rw [(sortDesc_perm _ _).mem_iff, List.mem_filter] at ht
    intro e
    have := ht.2
    simp only [Bool.and_eq_true, Bool.not_eq_true', List.any_eq_false, decide_eq_true_eq] at this
    exact this.1 b hb e

theorem consume_sublist (cb : Dict (List String)) (ins : List String) (st : List String × List String) :
    List.Sublist (ins.foldl (consumeOne cb) st).1 st.1 := by
  induction ins generalizing st with
  | nil => exact List.Sublist.refl _
  | cons a ins ih =>
    simp only [List.foldl_cons]
    refine (ih _).trans ?_
    unfold consumeOne
    split
    · exact List.Sublist.refl _
    · simp only []
      split
      · exact List.erase_sublist
      · exact List.Sublist.refl _

theorem liveLoop_nodup (cb : Dict (List String)) (ns : List Node) (m c : List String)
    (h : ((m ++ ns.flatMap (·.output)).filter (· ≠ "")).Nodup) : ∀ l ∈ liveLoop cb ns m c, (l.filter (· ≠ "")).Nodup := by
  induction ns generalizing m c with
  | nil => intro l hl; simp [liveLoop] at hl
  | cons n ns ih =>
    intro l hl
    simp only [liveLoop, List.mem_cons] at hl
    rw [List.flatMap_cons, ← List.append_assoc] at h
    rcases hl with rfl | hl
    · rw [List.filter_append] at h
      exact (List.nodup_append.1 h).1
    · refine ih _ _ ?_ l hl
      exact h.sublist (((consume_sublist cb n.input (m ++ n.output, c)).append_right _).filter _)

theorem allocatePool_eq (g : Graph) (sizes : Dict Nat) (p : Nat) (hssa : SSA g.input g.nodemap) (h0 : sizes.get? "" = none) :
    allocatePool g sizes p = (liveLists g).foldl (stepNode sizes (max p 4096)) {} := by
  unfold allocatePool
  have hl : ∀ l ∈ liveLists g, (l.filter (· ≠ "")).Nodup := liveLoop_nodup _ _ _ _ hssa
  have : ∀ (L : List (List String)) (st : St), (∀ l ∈ L, (l.filter (· ≠ "")).Nodup) →
      L.foldl (stepNodeKv sizes (max p 4096)) st = L.foldl (stepNode sizes (max p 4096)) st := by
    intro L
    induction L with
    | nil => intro st _; rfl
    | cons a L ih =>
      intro st h
      simp only [List.foldl_cons]
      rw [stepNodeKv_eq _ _ _ _ (h a (by simp)) h0]
      exact ih _ (fun l hl => h l (by simp [hl]))
  exact this _ _ hl

end OnnxTool.Mem
