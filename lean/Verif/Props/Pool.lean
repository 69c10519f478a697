import Verif.Props.Memory
import Verif.Model.Pool
/-!
# Property C06: memory pool views
-/
namespace OnnxTool.Props
open OnnxTool OnnxTool.Mem

private theorem allocOne_nodup (sizes : Dict Nat) (thr : Nat) (st : St) (t : String) (h : st.cm.keys.Nodup) :
    (allocOne sizes thr st t).cm.keys.Nodup := by
  unfold allocOne
  split
  · exact h
  · split
    · exact h
    · dsimp only; split
      · exact h
      · exact Dict.nodup_keys_set _ _ h

private theorem run_nodup (sizes : Dict Nat) (thr : Nat) (L : List (List String)) (st : St) (h : st.cm.keys.Nodup) :
    (L.foldl (stepNode sizes thr) st).cm.keys.Nodup := by
  induction L generalizing st with
  | nil => exact h
  | cons l L ih =>
    apply ih
    unfold stepNode
    dsimp only
    generalize sortDesc _ _ = ts
    have : ∀ (ts : List String) (st : St), st.cm.keys.Nodup → (ts.foldl (allocOne sizes thr) st).cm.keys.Nodup := by
      intro ts
      induction ts with
      | nil => intro st h; exact h
      | cons t ts ih => intro st h; exact ih _ (allocOne_nodup sizes thr st t h)
    exact this ts _ h

private theorem get?_of_mem {α : Type} {d : Dict α} (hd : d.keys.Nodup) {k : String} {v : α} (h : (k, v) ∈ d) :
    d.get? k = some v := by
  induction d with
  | nil => simp at h
  | cons a d ih =>
    obtain ⟨k', w⟩ := a
    simp only [Dict.keys, List.map_cons, List.nodup_cons] at hd
    rcases List.mem_cons.mp h with h | h
    · simp only [Prod.mk.injEq] at h; simp [Dict.get?, h.1, h.2]
    · have : k' ≠ k := by rintro rfl; exact hd.1 (List.mem_map.mpr ⟨_, h, rfl⟩)
      simp [Dict.get?, this]; exact ih hd.2 h

/-- **C06** A plan returned by `compress_memory` with at least one tensor is accepted by the pool's own validation. -/
theorem C06_plan_accepted (g : Graph) (memsize : String → Option Int) (p : Nat) (hp : 0 < p) (elt : Nat)
    (cm : Dict (Nat × Nat)) (sz : Nat) (hrun : compressMemory g memsize p = .ok (cm, sz)) (hne : cm ≠ []) :
    Pool.mk cm sz elt = .ok ⟨cm, sz, elt⟩ := by
  have hnd : cm.keys.Nodup := by
    have h0 := hrun
    unfold compressMemory at h0
    split at h0
    · simp at h0
    · dsimp only at h0
      split at h0
      · simp at h0
      · simp at h0
      · simp only [Except.ok.injEq, Prod.mk.injEq] at h0
        rw [← h0.1]; exact run_nodup _ _ _ _ (by simp [Dict.keys])
  have hent : ∀ e ∈ cm, 0 < e.2.2 ∧ e.2.1 + e.2.2 ≤ sz := by
    rintro ⟨k, o, s⟩ he
    have hg := get?_of_mem hnd he
    have h1 := C02_within_pool g memsize p cm sz hrun k o s hg
    obtain ⟨_, _, b, _, hb, hbs⟩ := C03_aligned_and_large_enough g memsize p hp cm sz hrun k o s hg
    exact ⟨by dsimp only; omega, h1⟩
  have hsz : sz ≠ 0 := by
    cases cm with
    | nil => exact absurd rfl hne
    | cons e cm => have := hent e (by simp); omega
  unfold Pool.mk
  rw [if_neg hsz, if_pos]
  simp only [Pool.validate, List.all_eq_true, Bool.and_eq_true, decide_eq_true_eq]
  exact hent

/-- **C06** With a padding that is a multiple of the element size, `get(name, shape)` succeeds exactly when the shape
fits into the tensor's block, and returns the first `prod shape` elements of that block: a view inside the block and
inside the pool. -/
theorem C06_get_iff_fits (g : Graph) (memsize : String → Option Int) (p elt : Nat) (hp : 0 < p) (helt : 0 < elt)
    (hdiv : elt ∣ p) (cm : Dict (Nat × Nat)) (sz : Nat) (hrun : compressMemory g memsize p = .ok (cm, sz))
    (t : String) (off size : Nat) (ht : cm.get? t = some (off, size)) (sh : List Nat) (v : Nat × Nat) :
    Pool.get ⟨cm, sz, elt⟩ t (some sh) = .ok v ↔
      v = (off, Pool.prod sh * elt) ∧ Pool.prod sh * elt ≤ size ∧ v.1 + v.2 ≤ sz := by
  obtain ⟨h1, h2, _⟩ := C03_aligned_and_large_enough g memsize p hp cm sz hrun t off size ht
  have h3 := C02_within_pool g memsize p cm sz hrun t off size ht
  have h4 : off % elt = 0 := Nat.mod_eq_zero_of_dvd (Nat.dvd_trans hdiv h1)
  unfold Pool.get
  simp only [ht, h4, Nat.mul_mod_left, and_self, if_true]
  have hiff : size / elt < Pool.prod sh ↔ ¬ (Pool.prod sh * elt ≤ size) := by
    rw [← Nat.le_div_iff_mul_le helt]; omega
  by_cases hc : Pool.prod sh * elt ≤ size
  · rw [if_neg (by rw [hiff]; simpa using hc)]
    simp only [Except.ok.injEq]
    constructor
    · rintro rfl; exact ⟨rfl, hc, by dsimp only; omega⟩
    · rintro ⟨rfl, _⟩; rfl
  · rw [if_pos (hiff.mpr hc)]
    simp [hc]

/-- **C06** `get_batch(name, n, shape)` is a view of `n` times the elements of `shape` (of `n` elements without a shape), under the
same condition: it fits exactly when they do. -/
theorem C06_get_batch (g : Graph) (memsize : String → Option Int) (p elt : Nat) (hp : 0 < p) (helt : 0 < elt)
    (hdiv : elt ∣ p) (cm : Dict (Nat × Nat)) (sz : Nat) (hrun : compressMemory g memsize p = .ok (cm, sz))
    (t : String) (off size : Nat) (ht : cm.get? t = some (off, size)) (n : Nat) (es : Option (List Nat)) (v : Nat × Nat) :
    Pool.getBatch ⟨cm, sz, elt⟩ t n es = .ok v ↔
      v = (off, n * Pool.prod (es.getD []) * elt) ∧ n * Pool.prod (es.getD []) * elt ≤ size ∧ v.1 + v.2 ≤ sz := by
  have hfold : ∀ (l : List Nat) (a : Nat), l.foldl (· * ·) a = a * l.foldl (· * ·) 1 := by
    intro l
    induction l with
    | nil => intro a; simp
    | cons x l ih => intro a; simp only [List.foldl_cons]; rw [ih (a * x), ih (1 * x)]; simp [Nat.mul_assoc]
  unfold Pool.getBatch
  rw [C06_get_iff_fits g memsize p elt hp helt hdiv cm sz hrun t off size ht]
  cases es with
  | none => simp [Pool.prod]
  | some s =>
    have : Pool.prod (n :: s) = n * Pool.prod s := by
      unfold Pool.prod; rw [List.foldl_cons, hfold]; simp
    simp only [this, Option.getD_some]

/-- **C06** A name without a block raises KeyError. -/
theorem C06_get_missing (m : Pool.MemoryPool) (t : String) (sh : Option (List Nat)) (h : m.plan.get? t = none) :
    Pool.get m t sh = .error .keyError := by
  unfold Pool.get; simp [h]

private theorem get_range {m : Pool.MemoryPool} {t : String} {sh : Option (List Nat)} {v : Nat × Nat}
    (h : Pool.get m t sh = .ok v) : ∃ b, m.plan.get? t = some b ∧ v.1 = b.1 ∧ v.2 ≤ b.2 := by
  unfold Pool.get at h
  split at h
  · simp at h
  · rename_i off size hb
    dsimp only at h
    split at h
    · split at h
      · simp at h
      · rename_i sh' hc
        split at h
        · simp only [Except.ok.injEq] at h; subst h
          refine ⟨_, hb, rfl, ?_⟩
          have : Pool.prod sh' ≤ size / m.elt := by omega
          exact Nat.le_trans (Nat.mul_le_mul_right _ this) (Nat.div_mul_le_self _ _)
        · simp at h
    · split at h
      · simp only [Except.ok.injEq] at h; subst h; exact ⟨_, hb, rfl, Nat.le_refl _⟩
      · simp at h

/-- **C06** Storing through the view of one live tensor never changes a byte read through the view of another tensor
that is live at the same node, whatever shapes were requested; and what was stored is read back. -/
theorem C06_no_interference (g : Graph) (memsize : String → Option Int) (p elt : Nat)
    (cm : Dict (Nat × Nat)) (sz : Nat) (hidx : g.IndexExact) (hssa : SSA g.input g.nodemap)
    (hrun : compressMemory g memsize p = .ok (cm, sz))
    (k : Nat) (t u : String) (htu : t ≠ u) (ht : t ≠ "") (hu : u ≠ "")
    (hlt : LiveAt g.input g.nodemap k t) (hlu : LiveAt g.input g.nodemap k u)
    (sh sh' : Option (List Nat)) (v w : Nat × Nat)
    (hv : Pool.get ⟨cm, sz, elt⟩ t sh = .ok v) (hw : Pool.get ⟨cm, sz, elt⟩ u sh' = .ok w)
    (mem : Nat → UInt8) (data : Nat → UInt8) :
    (∀ i, i < w.2 → Pool.read (Pool.write mem v data) w i = Pool.read mem w i) ∧
    (∀ i, i < v.2 → Pool.read (Pool.write mem v data) v i = data i) := by
  obtain ⟨a, ha, e1, l1⟩ := get_range hv
  obtain ⟨b, hb, e2, l2⟩ := get_range hw
  have hd := C01_live_disjoint g memsize p cm sz hidx hssa hrun k t u htu ht hu hlt hlu a b ha hb
  constructor
  · intro i hi
    unfold Pool.read Pool.write DisjointRanges at *
    rw [if_neg (by omega)]
  · intro i hi
    unfold Pool.read Pool.write
    rw [if_pos (by omega)]; congr 1; omega

/-! ### Non-vacuity: the plan of `exGraph` -/

example : ∃ cm sz m, compressMemory exGraph exSize 64 = .ok (cm, sz) ∧ cm ≠ [] ∧ Pool.mk cm sz 4 = .ok m ∧
    Pool.get m "a" (some [25, 50]) = .ok (0, 5000) ∧ Pool.get m "b" (some [1250]) = .ok (5056, 5000) ∧
    Pool.get m "a" (some [1265]) = .error .valueError := by
  refine ⟨_, _, _, rfl, ?_, rfl, rfl, rfl, rfl⟩; decide

end OnnxTool.Props
