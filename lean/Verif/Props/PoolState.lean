import Verif.Spec.PoolState
import Verif.Props.Pool
/-! # C93: the memory pool over its whole history -/
namespace OnnxTool.Props
open OnnxTool OnnxTool.Pool

variable {V : Type}

theorem pool_get_range {m : MemoryPool} {k : String} {shape : Option (List Nat)} {v : Nat × Nat} (h : Pool.get m k shape = .ok v) :
    ∃ size, m.plan.get? k = some (v.1, size) ∧ v.2 ≤ size := by
  unfold Pool.get at h
  cases hp : m.plan.get? k with
  | none => rw [hp] at h; cases h
  | some e =>
    obtain ⟨o, n⟩ := e
    rw [hp] at h
    simp only at h
    cases shape with
    | none =>
      simp only at h
      split at h
      · injection h with h; subst h; exact ⟨n, rfl, Nat.le_refl _⟩
      · cases h
    | some sh =>
      simp only at h
      split at h
      · cases h
      · rename_i hlt
        split at h
        · injection h with h; subst h
          refine ⟨n, rfl, ?_⟩
          have : Pool.prod sh ≤ n / m.elt := by omega
          exact Nat.le_trans (Nat.mul_le_mul_right _ this) (Nat.div_mul_le_self n m.elt)
        · cases h

/-- the pool agrees with the specification -/
structure PoolRel (p : PState) (s : Boxes) : Prop where
  cur : p.cur < p.bufs.length
  device : p.device = s.device
  len : p.handles.length = s.views.length
  views : ∀ (h b o n : Nat) (k : String) (n' : Nat) (live : Bool), p.handles[h]? = some (b, o, n) → s.views[h]? = some (k, n', live) →
    n = n' ∧ b < p.bufs.length ∧ (live = true → b = p.cur ∧ ∃ size, p.m.plan.get? k = some (o, size) ∧ n ≤ size) ∧ (live = false → b ≠ p.cur)
  content : ∀ k o size, p.m.plan.get? k = some (o, size) → ∀ i, i < size → byteAt p o i = s.content k i

theorem byteAt_set (p : PState) (f : Buf → Buf) (hc : p.cur < p.bufs.length) (o i : Nat) :
    byteAt { p with bufs := setBuf p.bufs p.cur f } o i = f (p.bufs.getD p.cur fun _ => 0) (o + i) := by
  unfold byteAt setBuf
  simp only [List.getD_eq_getElem?_getD, List.getElem?_modify, if_true]
  rw [List.getElem?_eq_getElem hc]
  rfl

theorem byteAt_set_ne (p : PState) (f : Buf → Buf) {b : Nat} (hb : b ≠ p.cur) (o i : Nat) : byteAt { p with bufs := setBuf p.bufs b f } o i = byteAt p o i := by
  unfold byteAt setBuf
  simp only [List.getD_eq_getElem?_getD, List.getElem?_modify, if_neg hb]
  cases p.bufs[p.cur]? <;> rfl

/-- writing a view of the tensor `k` -/
theorem rel_put {p : PState} {s : Boxes} (hd : Pool.Disjoint p.m) (h : PoolRel p s) {k : String} {o size n : Nat} (hk : p.m.plan.get? k = some (o, size)) (hn : n ≤ size) (data : Nat → UInt8) :
    PoolRel { p with bufs := setBuf p.bufs p.cur fun b => write b (o, n) data } (s.put k n data) := by
  refine ⟨by simpa [setBuf] using h.cur, h.device, h.len, ?_, ?_⟩
  · intro a b o n k n' live h1 h2
    have := h.views a b o n k n' live h1 h2
    refine ⟨this.1, by simpa [setBuf] using this.2.1, this.2.2.1, this.2.2.2⟩
  · intro k' o' size' hk' i hi
    rw [byteAt_set p _ h.cur]
    have hold := h.content k' o' size' hk' i hi
    unfold byteAt at hold
    unfold write Boxes.put
    simp only
    by_cases e : k' = k
    · subst e
      have hk' : p.m.plan.get? k' = some (o', size') := hk'
      rw [hk] at hk'
      injection hk' with hk'
      rw [Prod.mk.injEq] at hk'
      obtain ⟨rfl, rfl⟩ := hk'
      by_cases hin : i < n
      · rw [if_pos (by omega), if_pos ⟨rfl, hin⟩]
        congr 1
        omega
      · rw [if_neg (by omega), if_neg (fun c => hin c.2)]
        exact hold
    · have := hd k' k o' size' o size e hk' hk
      rw [if_neg (by omega), if_neg (fun c => e c.1)]
      exact hold

theorem rel_step {enc : V → List UInt8} {p : PState} {s : Boxes} (hd : Pool.Disjoint p.m) (h : PoolRel p s) (op : Op V) :
    PoolRel (step enc p op).1 (s.step enc p.m op).1 ∧ (step enc p op).2 = (s.step enc p.m op).2 ∧ (step enc p op).1.m = p.m := by
  cases op with
  | get key shape =>
    unfold step Boxes.step
    simp only
    cases hg : Pool.get p.m key shape with
    | error e => exact ⟨h, rfl, rfl⟩
    | ok v =>
      obtain ⟨size, hs, hle⟩ := pool_get_range hg
      refine ⟨⟨h.cur, h.device, by simp [h.len], ?_, h.content⟩, rfl, rfl⟩
      intro a b o n k n' live h1 h2
      simp only [] at h1 h2
      by_cases hlt : a < p.handles.length
      · rw [List.getElem?_append_left hlt] at h1
        rw [List.getElem?_append_left (by rw [← h.len]; exact hlt)] at h2
        exact h.views a b o n k n' live h1 h2
      · rw [List.getElem?_append_right (by omega)] at h1
        rw [List.getElem?_append_right (by rw [← h.len]; omega), ← h.len] at h2
        cases hz : a - p.handles.length with
        | succ z => rw [hz] at h1; simp at h1
        | zero =>
          rw [hz] at h1 h2
          simp only [List.getElem?_cons_zero, Option.some.injEq, Prod.mk.injEq] at h1 h2
          obtain ⟨rfl, rfl, rfl⟩ := h1
          obtain ⟨rfl, rfl, rfl⟩ := h2
          exact ⟨rfl, h.cur, fun _ => ⟨rfl, size, hs, hle⟩, fun c => by cases c⟩
  | write a data =>
    unfold step Boxes.step
    simp only
    cases h1 : p.handles[a]? with
    | none =>
      have h2 : s.views[a]? = none := by
        rw [List.getElem?_eq_none_iff] at h1 ⊢
        rw [← h.len]; exact h1
      rw [h2]
      exact ⟨h, rfl, rfl⟩
    | some e =>
      obtain ⟨b, o, n⟩ := e
      cases h2 : s.views[a]? with
      | none =>
        exfalso
        rw [List.getElem?_eq_none_iff, ← h.len, ← List.getElem?_eq_none_iff] at h2
        rw [h1] at h2; cases h2
      | some e =>
        obtain ⟨k, n', live⟩ := e
        obtain ⟨rfl, hb, hl, hnl⟩ := h.views a b o n k n' live h1 h2
        cases live with
        | true =>
          obtain ⟨rfl, size, hs, hle⟩ := hl rfl
          exact ⟨rel_put hd h hs hle data, rfl, rfl⟩
        | false =>
          have hne := hnl rfl
          refine ⟨⟨by simpa [setBuf] using h.cur, h.device, h.len, ?_, ?_⟩, rfl, rfl⟩
          · intro a b o n k n' live h1 h2
            have := h.views a b o n k n' live h1 h2
            exact ⟨this.1, by simpa [setBuf] using this.2.1, this.2.2.1, this.2.2.2⟩
          · intro k' o' size' hk' i hi
            rw [byteAt_set_ne p _ hne]
            exact h.content k' o' size' hk' i hi
  | fill key vals =>
    unfold step Boxes.step
    simp only
    unfold fillTensor
    cases hg : Pool.get p.m key none with
    | error e => exact ⟨h, rfl, rfl⟩
    | ok v =>
      obtain ⟨size, hs, hle⟩ := pool_get_range hg
      simp only
      unfold filled
      simp only [List.length_take]
      by_cases hn : v.2 / p.m.elt ≤ vals.length
      · rw [if_pos (by omega), if_pos hn]
        exact ⟨rel_put hd h hs hle _, rfl, rfl⟩
      · rw [if_neg (by omega), if_neg hn, List.take_of_length_le (by omega)]
        match vals with
        | [] => exact ⟨h, rfl, rfl⟩
        | [x] => exact ⟨rel_put hd h hs hle _, rfl, rfl⟩
        | _ :: _ :: _ => exact ⟨h, rfl, rfl⟩
  | zero =>
    refine ⟨⟨by simpa [step, setBuf] using h.cur, h.device, h.len, ?_, ?_⟩, rfl, rfl⟩
    · intro a b o n k n' live h1 h2
      have := h.views a b o n k n' live h1 h2
      exact ⟨this.1, by simpa [step, setBuf] using this.2.1, this.2.2.1, this.2.2.2⟩
    · intro k o size _ i _
      exact byteAt_set p _ h.cur o i
  | move d =>
    unfold step Boxes.step
    simp only
    rw [h.device]
    by_cases e : d = s.device
    · rw [if_pos e, if_pos e]; exact ⟨h, rfl, rfl⟩
    · rw [if_neg e, if_neg e]
      refine ⟨⟨by simp, rfl, by simp [h.len], ?_, ?_⟩, rfl, rfl⟩
      · intro a b o n k n' live h1 h2
        simp only [List.getElem?_map] at h2
        cases h3 : s.views[a]? with
        | none => rw [h3] at h2; cases h2
        | some w =>
          obtain ⟨k0, n0, l0⟩ := w
          rw [h3] at h2
          simp only [Option.map_some, Option.some.injEq, Prod.mk.injEq] at h2
          obtain ⟨rfl, rfl, rfl⟩ := h2
          obtain ⟨q1, q2, -, -⟩ := h.views a b o n k0 n0 l0 h1 h3
          refine ⟨q1, by simp; omega, fun c => absurd c (by decide), fun _ => ?_⟩
          show b ≠ p.bufs.length
          omega
      · intro k o size hk i hi
        have := h.content k o size hk i hi
        unfold byteAt at this ⊢
        simp only [List.getD_eq_getElem?_getD] at this ⊢
        rw [List.getElem?_append_right (Nat.le_refl _)]
        simpa using this

/-- **C93.** For every pool whose tensors do not share memory and every history of `get`, writes through views obtained earlier, `fill_tensor`, `zero_` and `to`: every operation raises
exactly when the specification says so, and afterwards every tensor holds exactly the bytes the specification says — a tensor is changed only by writing to it (by `fill_tensor`, or through a
view of it obtained since the last change of device) or by `zero_`. -/
theorem C93_history (enc : V → List UInt8) (m : MemoryPool) (hd : Pool.Disjoint m) (device : String) (b : Buf) (c : String → Nat → UInt8)
    (hc : ∀ k o size, m.plan.get? k = some (o, size) → ∀ i, i < size → c k i = b (o + i)) (ops : List (Op V)) :
    (Pool.run enc (start m device b) ops).2 = (Boxes.run enc m ⟨c, device, []⟩ ops).2 ∧
    ∀ k o size, m.plan.get? k = some (o, size) → ∀ i, i < size →
      byteAt (Pool.run enc (start m device b) ops).1 o i = (Boxes.run enc m ⟨c, device, []⟩ ops).1.content k i := by
  have gen : ∀ (ops : List (Op V)) (p : PState) (s : Boxes), p.m = m → PoolRel p s →
      (Pool.run enc p ops).2 = (Boxes.run enc m s ops).2 ∧ PoolRel (Pool.run enc p ops).1 (Boxes.run enc m s ops).1 ∧ (Pool.run enc p ops).1.m = m := by
    intro ops
    induction ops with
    | nil => intro p s hm h; exact ⟨rfl, h, hm⟩
    | cons op ops ih =>
      intro p s hm h
      subst hm
      obtain ⟨h1, h2, h3⟩ := rel_step (enc := enc) hd h op
      obtain ⟨h4, h5, h6⟩ := ih (step enc p op).1 (s.step enc p.m op).1 h3 h1
      unfold Pool.run Boxes.run
      simp only
      rw [h2, h4]
      exact ⟨rfl, h5, h6⟩
  have h0 : PoolRel (start m device b) ⟨c, device, []⟩ := by
    refine ⟨by simp [start], rfl, rfl, ?_, ?_⟩
    · intro h b o n k n' live h1; simp [start] at h1
    · intro k o size hk i hi
      show b (o + i) = c k i
      rw [hc k o size hk i hi]
  obtain ⟨h1, h2, h3⟩ := gen ops _ _ rfl h0
  refine ⟨h1, fun k o size hk i hi => ?_⟩
  exact h2.content k o size (by rw [h3]; exact hk) i hi

/-- **C93**, filling: with at least as many values as the tensor has elements, exactly the first ones are stored, in order; surplus values are dropped without notice.  Nothing outside the tensor's
block changes, for any plan. -/
theorem C93_fill (enc : V → List UInt8) (p : PState) (hcur : p.cur < p.bufs.length) {k : String} {o size : Nat} (hk : p.m.plan.get? k = some (o, size))
    (ho : p.m.elt ∣ o) (hs : p.m.elt ∣ size) (henc : ∀ v, (enc v).length = p.m.elt) (vals : List V) (hl : size / p.m.elt ≤ vals.length) :
    (fillTensor enc p k vals).2 = none ∧
    (∀ i j v, vals[i]? = some v → i < size / p.m.elt → j < p.m.elt → byteAt (fillTensor enc p k vals).1 o (i * p.m.elt + j) = (enc v).getD j 0) ∧
    ∀ a, (a < o ∨ o + size ≤ a) → byteAt (fillTensor enc p k vals).1 0 a = byteAt p 0 a := by
  have hg : Pool.get p.m k none = .ok (o, size) := by
    unfold Pool.get
    rw [hk]
    simp only
    rw [if_pos ⟨Nat.mod_eq_zero_of_dvd ho, Nat.mod_eq_zero_of_dvd hs⟩]
  have hf : filled (size / p.m.elt) vals = .ok (vals.take (size / p.m.elt)) := by
    unfold filled
    simp only [List.length_take]
    rw [if_pos (by omega)]
  have e : fillTensor enc p k vals = ({ p with bufs := setBuf p.bufs p.cur fun b => write b (o, size) (bytesOf enc (vals.take (size / p.m.elt))) }, none) := by
    unfold fillTensor
    rw [hg]
    simp only
    rw [hf]
  rw [e]
  have hbytes : ∀ (vs : List V) (i j : Nat) (v : V), vs[i]? = some v → j < p.m.elt → bytesOf enc vs (i * p.m.elt + j) = (enc v).getD j 0 := by
    intro vs
    induction vs with
    | nil => intro i j v h; simp at h
    | cons a vs ih =>
      intro i j v h hj
      unfold bytesOf
      rw [List.flatMap_cons]
      cases i with
      | zero =>
        simp only [List.getElem?_cons_zero, Option.some.injEq] at h
        subst h
        rw [List.getD_eq_getElem?_getD, List.getElem?_append_left (by rw [henc]; omega), ← List.getD_eq_getElem?_getD]
        simp
      | succ i =>
        rw [List.getD_eq_getElem?_getD, List.getElem?_append_right (by rw [henc, Nat.succ_mul]; omega), henc, ← List.getD_eq_getElem?_getD]
        have := ih i j v (by simpa using h) hj
        unfold bytesOf at this
        rw [← this]
        congr 1
        rw [Nat.succ_mul]; omega
  refine ⟨rfl, ?_, ?_⟩
  · intro i j v hv hi hj
    rw [byteAt_set p _ hcur]
    have hlt : i * p.m.elt + j < size := by
      have h1 : (i + 1) * p.m.elt ≤ size / p.m.elt * p.m.elt := Nat.mul_le_mul_right _ hi
      rw [Nat.div_mul_cancel hs, Nat.succ_mul] at h1
      omega
    unfold write
    rw [if_pos (by simp only; omega)]
    simp only
    rw [show o + (i * p.m.elt + j) - o = i * p.m.elt + j by omega]
    exact hbytes _ i j v (by rw [List.getElem?_take, if_pos hi]; exact hv) hj
  · intro a ha
    rw [byteAt_set p _ hcur]
    unfold write
    rw [if_neg (by simp only; omega)]
    rfl

/-- **C93**, too few values: a single value is stored in every element; any other number that is too small (also none) raises `RuntimeError` and changes nothing. -/
theorem C93_fill_short (enc : V → List UInt8) (p : PState) {k : String} {o size : Nat} (hk : p.m.plan.get? k = some (o, size))
    (ho : p.m.elt ∣ o) (hs : p.m.elt ∣ size) (vals : List V) (hl : vals.length < size / p.m.elt) :
    (vals.length ≠ 1 → fillTensor enc p k vals = (p, some .runtimeError)) ∧
    (∀ v, vals = [v] → fillTensor enc p k vals = fillTensor enc p k (List.replicate (size / p.m.elt) v)) := by
  have hg : Pool.get p.m k none = .ok (o, size) := by
    unfold Pool.get
    rw [hk]
    simp only
    rw [if_pos ⟨Nat.mod_eq_zero_of_dvd ho, Nat.mod_eq_zero_of_dvd hs⟩]
  constructor
  · intro h1
    unfold fillTensor
    rw [hg]
    simp only
    unfold filled
    simp only [List.length_take]
    rw [if_neg (by omega), List.take_of_length_le (by omega)]
    match vals with
    | [] => rfl
    | [x] => exact absurd rfl h1
    | _ :: _ :: _ => rfl
  · rintro v rfl
    unfold fillTensor
    rw [hg]
    simp only
    unfold filled
    simp only [List.length_take, List.length_replicate, Nat.min_self, if_true, List.length_cons, List.length_nil] at hl ⊢
    rw [if_neg (by omega), List.take_of_length_le (by simp; omega)]
    simp

/-- **C93**, plans of `compress_memory` (composed with C01): `fill_tensor` of a tensor never changes a byte of another tensor that is live at the same node. -/
theorem C93_live_tensors (g : Graph) (memsize : String → Option Int) (pad : Nat) (cm : Dict (Nat × Nat)) (sz elt : Nat) (hidx : g.IndexExact) (hssa : SSA g.input g.nodemap)
    (hrun : Mem.compressMemory g memsize pad = .ok (cm, sz)) (q : Nat) {t u : String} (htu : t ≠ u) (ht0 : t ≠ "") (hu0 : u ≠ "") (hlt : LiveAt g.input g.nodemap q t)
    (hlu : LiveAt g.input g.nodemap q u) {o n o' n' : Nat} (ht : cm.get? t = some (o, n)) (hu : cm.get? u = some (o', n'))
    (enc : V → List UInt8) (p : PState) (hm : p.m = ⟨cm, sz, elt⟩) (hcur : p.cur < p.bufs.length) (vals : List V) (i : Nat) (hi : i < n') :
    byteAt (fillTensor enc p t vals).1 o' i = byteAt p o' i := by
  have hdis : o + n ≤ o' ∨ o' + n' ≤ o := C01_live_disjoint g memsize pad cm sz hidx hssa hrun q t u htu ht0 hu0 hlt hlu (o, n) (o', n') ht hu
  unfold fillTensor
  cases hg : Pool.get p.m t none with
  | error e => rfl
  | ok v =>
    simp only
    cases hf : filled (v.2 / p.m.elt) vals with
    | error e => rfl
    | ok vs =>
      simp only
      have hv : v = (o, n) := by
        unfold Pool.get at hg
        rw [hm] at hg
        simp only [ht] at hg
        split at hg
        · injection hg with hg; exact hg.symm
        · cases hg
      subst hv
      rw [byteAt_set p _ hcur]
      unfold write
      rw [if_neg (by simp only; omega)]
      rfl

/-- two tensors of two elements of two bytes each; the second block is filled, the pool moved, the first filled, a view obtained before the move written -/
def twoBlocks : MemoryPool := ⟨[("a", (0, 4)), ("b", (4, 4))], 8, 2⟩

example : Pool.Disjoint twoBlocks := by
  intro k k' o n o' n' hne h h'
  simp only [twoBlocks, Dict.get?] at h h'
  split at h <;> split at h'
  · rename_i e1 e2; exact absurd (e1.symm.trans e2) hne
  · split at h'
    · injection h with h; injection h' with h'; cases h; cases h'; omega
    · cases h'
  · split at h
    · injection h with h; injection h' with h'; cases h; cases h'; omega
    · cases h
  · split at h <;> split at h'
    · rename_i e1 e2; exact absurd (e1.symm.trans e2) hne
    · cases h'
    · cases h
    · cases h

/-- **C93 finding**: a view obtained before `to('xpu')` silently writes nowhere: the write of `9` is lost; after moving "to" the device the pool is already on, it is not. -/
theorem C93_stale_view :
    let r := (Pool.run (fun v : UInt8 => [v, 0]) (start twoBlocks "cpu" fun _ => 7)
      [.fill "b" [1, 2, 3], .get "a" none, .move "xpu", .fill "a" [5], .write 0 fun _ => 9, .fill "a" [], .move "xpu", .get "b" (some [3])])
    r.2 = [none, none, none, none, none, some .runtimeError, none, some .valueError] ∧
    (List.range 8).map (byteAt r.1 0) = [5, 0, 5, 0, 1, 0, 2, 0] := by decide

end OnnxTool.Props
