import Verif.Proofs.InferKv
import Verif.Props.InferState
import Verif.Props.KvPlan
/-!
# C52: the key/value cache over a session of `forward` calls
-/
namespace OnnxTool.Props
open OnnxTool OnnxTool.Mem OnnxTool.Infer OnnxTool.Pool

private theorem get_append (a b : Dict (Nat × Nat)) (t : String) : Dict.get? (a ++ b) t = (a.get? t).or (b.get? t) := by
  induction a with
  | nil => rfl
  | cons x a ih =>
    obtain ⟨u, c⟩ := x
    simp only [List.cons_append, Dict.get?]
    split
    · rfl
    · exact ih

private theorem get_map (a : Dict (Nat × Nat)) (f : Nat × Nat → Nat × Nat) (t : String) :
    Dict.get? (a.map fun e => (e.1, f e.2)) t = (a.get? t).map f := by
  induction a with
  | nil => rfl
  | cons x a ih =>
    obtain ⟨u, c⟩ := x
    simp only [List.map_cons, Dict.get?]
    split
    · rfl
    · exact ih

variable {g : Graph} {tm : Dict TInfo} {p elt : Nat} {cm kcm : Dict (Nat × Nat)} {sz ksz : Nat} {consts : Dict Bytes}

/-- the empty name has no size -/
private theorem noEmpty (h0 : ∀ i, tm.get? "" = some i → i.shape = []) : ∀ b, memsizes tm "" = some b → b ≤ 0 := by
  intro b hb
  unfold memsizes at hb
  cases hi : tm.get? "" with
  | none => simp [hi] at hb
  | some i =>
    simp only [hi, Option.map_some, Option.some.injEq, TInfo.memsize, h0 i hi, if_true] at hb
    omega

private theorem viewsKv_get (hssa : SSA g.input g.nodemap) (h0 : ∀ i, tm.get? "" = some i → i.shape = [])
    (hrun : compressMemoryKv g (memsizes tm) p = .ok ((cm, sz), (kcm, ksz))) :
    (∀ t, t ≠ "kv_cache" → (viewsKv cm sz kcm ksz tm elt).get? t = (views cm sz tm elt).get? t) ∧
    (viewsKv cm sz kcm ksz tm elt).get? "kv_cache" =
      ((views kcm ksz tm elt).get? "kv_cache").map (fun v => (sz + v.1, v.2)) := by
  obtain ⟨h1, h2⟩ := C51_separate_pools hssa (noEmpty h0) hrun
  unfold viewsKv
  constructor
  · intro t ht
    rw [get_append, get_map (views kcm ksz tm elt) (fun v => (sz + v.1, v.2)), views_get kcm, h2 t ht]
    simp
  · rw [get_append, get_map (views kcm ksz tm elt) (fun v => (sz + v.1, v.2)), views_get cm, h1]
    simp

/-- A view of the activation pool is exactly the tensor's maximal contents at the planned offset, inside its planned block. -/
private theorem act_view (hp : 0 < p) (hssa : SSA g.input g.nodemap) (h0 : ∀ i, tm.get? "" = some i → i.shape = [])
    (hrun : compressMemoryKv g (memsizes tm) p = .ok ((cm, sz), (kcm, ksz)))
    (hfit : ∀ t i, tm.get? t = some i → elt ≤ i.esize) {t : String} {v : Nat × Nat}
    (hv : (views cm sz tm elt).get? t = some v) :
    ∃ i size, cm.get? t = some (v.1, size) ∧ tm.get? t = some i ∧ v.2 = prod i.shape * elt ∧ v.2 ≤ size ∧ v.1 + size ≤ sz := by
  rw [views_get] at hv
  cases hc : cm.get? t with
  | none => simp [hc] at hv
  | some a =>
    obtain ⟨off, size⟩ := a
    simp only [hc] at hv
    split at hv
    · cases hv
      obtain ⟨h2, _, _, bytes, hb, hpos, hle⟩ := C51_blocks hp hssa (noEmpty h0) hrun t off size hc
      unfold memsizes at hb
      cases hi : tm.get? t with
      | none => simp [hi] at hb
      | some i =>
        simp only [hi, Option.map_some, Option.some.injEq] at hb
        have hel := hfit t i hi
        have hbb : blockBytes tm elt t = prod i.shape * elt := by unfold blockBytes; rw [hi]
        unfold TInfo.memsize at hb
        have hne : i.shape ≠ [] := by intro h0; rw [if_pos h0] at hb; omega
        rw [if_neg hne] at hb
        have : prod i.shape * elt ≤ prod i.shape * i.esize := Nat.mul_le_mul_left _ hel
        refine ⟨i, size, rfl, rfl, ?_, ?_, h2⟩
        · simp only [hbb]; omega
        · simp only [hbb]; omega
    · cases hv

/-- The cache's view is its maximal contents, behind the activation pool. -/
private theorem kv_view (hp : 0 < p) (helt : 0 < elt) (hidx : g.IndexExact) (hssa : SSA g.input g.nodemap)
    (h0 : ∀ i, tm.get? "" = some i → i.shape = [])
    (hrun : compressMemoryKv g (memsizes tm) p = .ok ((cm, sz), (kcm, ksz))) (hne : g.nodemap ≠ [])
    (hin : "kv_cache" ∈ g.input) (hdyn : "kv_cache" ∈ g.dynamics) {i : TInfo} (hi : tm.get? "kv_cache" = some i)
    (hsh : i.shape ≠ []) (hpos : 0 < prod i.shape) (hfit : elt ≤ i.esize) :
    (viewsKv cm sz kcm ksz tm elt).get? "kv_cache" = some (sz, prod i.shape * elt) := by
  have hb : memsizes tm "kv_cache" = some ((prod i.shape * i.esize : Nat) : Int) := by
    simp [memsizes, hi, TInfo.memsize, hsh]
  have hbp : 0 < prod i.shape * i.esize := Nat.mul_pos hpos (by omega)
  obtain ⟨h1, h2⟩ := C51_cache_block hp hidx hssa (noEmpty h0) hrun hin hne hdyn _ hb (by exact_mod_cast hbp)
  rw [(viewsKv_get hssa h0 hrun).2, views_get, h1]
  have hbb : blockBytes tm elt "kv_cache" = prod i.shape * elt := by unfold blockBytes; rw [hi]
  have hle := le_padSize hp ((prod i.shape * i.esize : Nat) : Int)
  have hm : prod i.shape * elt ≤ prod i.shape * i.esize := Nat.mul_le_mul_left _ hfit
  have hpe : 0 < prod i.shape * elt := Nat.mul_pos hpos helt
  simp only [hbb, hpe, if_true, Option.map_some, Option.some.injEq, Prod.mk.injEq]
  omega

/-- The views of the two pools are as `forward_kv` needs them. -/
private theorem viewsOk (hp : 0 < p) (helt : 0 < elt) (hidx : g.IndexExact) (hssa : SSA g.input g.nodemap)
    (h0 : ∀ i, tm.get? "" = some i → i.shape = [])
    (hrun : compressMemoryKv g (memsizes tm) p = .ok ((cm, sz), (kcm, ksz))) (hne : g.nodemap ≠ [])
    (hin : "kv_cache" ∈ g.input) (hdyn : "kv_cache" ∈ g.dynamics) {i : TInfo} (hi : tm.get? "kv_cache" = some i)
    (hsh : i.shape ≠ []) (hpos : 0 < prod i.shape) {shape : String → List Nat}
    (houts : ∀ k t, ProducedAt g.nodemap k t → t ≠ "" ∧ t ∈ g.dynamics ∧ ∃ i, tm.get? t = some i ∧ i.shape ≠ [] ∧ 0 < prod i.shape)
    (hfits : ∀ t i, tm.get? t = some i → elt ≤ i.esize ∧ prod (shape t) ≤ prod i.shape) :
    ViewsOk g (mkEngineKv g cm sz kcm ksz tm elt consts) shape := by
  obtain ⟨hact, _⟩ := viewsKv_get (elt := elt) hssa h0 hrun
  have hkv := kv_view hp helt hidx hssa h0 hrun hne hin hdyn hi hsh hpos (hfits _ i hi).1
  have facts := fun (t : String) (v : Nat × Nat) (ht : t ≠ "kv_cache")
      (hv : (viewsKv cm sz kcm ksz tm elt).get? t = some v) =>
    act_view hp hssa h0 hrun (fun t i hi => (hfits t i hi).1) ((hact t ht).symm.trans hv)
  refine ⟨?_, ?_, ?_, ?_, ⟨?_, hin⟩, hne⟩
  · intro t v hv
    show prod (shape t) * elt ≤ v.2
    by_cases ht : t = "kv_cache"
    · subst ht
      have hv' : (viewsKv cm sz kcm ksz tm elt).get? "kv_cache" = some v := hv
      rw [hkv] at hv'; cases hv'
      exact Nat.mul_le_mul_right _ (hfits _ i hi).2
    · obtain ⟨j, size, _, hj, e, _⟩ := facts t v ht hv
      rw [e]
      exact Nat.mul_le_mul_right _ (hfits _ j hj).2
  · intro k t u v w htu ht0 hu0 hv hw hlt hlu
    by_cases ht : t = "kv_cache"
    · subst ht
      have hv' : (viewsKv cm sz kcm ksz tm elt).get? "kv_cache" = some v := hv
      rw [hkv] at hv'; cases hv'
      obtain ⟨j, size, _, _, e, hs, hz⟩ := facts u w (fun h => htu h.symm) hw
      unfold DisjointRanges; simp only; omega
    · by_cases hu : u = "kv_cache"
      · subst hu
        have hw' : (viewsKv cm sz kcm ksz tm elt).get? "kv_cache" = some w := hw
        rw [hkv] at hw'; cases hw'
        obtain ⟨j, size, _, _, e, hs, hz⟩ := facts t v ht hv
        unfold DisjointRanges; simp only; omega
      · obtain ⟨j, size, hc, _, e, hs, hz⟩ := facts t v ht hv
        obtain ⟨j', size', hc', _, e', hs', hz'⟩ := facts u w hu hw
        have := C51_live_disjoint hidx hssa (noEmpty h0) hrun k t u htu ht0 hu0 hlt hlu _ _ hc hc'
        unfold DisjointRanges at this ⊢; simp only at this; omega
  · intro t v w ht hv hw
    have hw' : (viewsKv cm sz kcm ksz tm elt).get? "kv_cache" = some w := hw
    rw [hkv] at hw'; cases hw'
    obtain ⟨j, size, _, _, e, hs, hz⟩ := facts t v ht hv
    unfold DisjointRanges; simp only; omega
  · intro k t hk
    obtain ⟨ht0, hd, j, hj, hjne, hjpos⟩ := houts k t hk
    have htk : t ≠ "kv_cache" := by rintro rfl; exact (ssa_distinct hssa ht0).1 k hk hin
    obtain ⟨n, hn, hin'⟩ := hk
    have hl : LiveAt g.input g.nodemap k t :=
      ⟨(List.getElem?_eq_some_iff.1 hn).1, .inr ⟨k, Nat.le_refl _, n, hn, hin'⟩, .inl ⟨n, hn, hin'⟩⟩
    have hes := (hfits t j hj).1
    have hpos' : 0 < prod j.shape * j.esize := Nat.mul_pos hjpos (by omega)
    obtain ⟨a, ha⟩ := C51_every_live_tensor_allocated hp hidx hssa (noEmpty h0) hrun k t ht0 htk hl hd
      (prod j.shape * j.esize : Nat) (by unfold memsizes; rw [hj]; simp [TInfo.memsize, hjne]) (by exact_mod_cast hpos')
    unfold Pooled
    show ((viewsKv cm sz kcm ksz tm elt).get? t).isSome
    rw [hact t htk, views_get, ha]
    have : blockBytes tm elt t = prod j.shape * elt := by unfold blockBytes; rw [hj]
    have hb : 0 < blockBytes tm elt t := by rw [this]; exact Nat.mul_pos hjpos helt
    simp [hb]
  · unfold Pooled
    show ((viewsKv cm sz kcm ksz tm elt).get? "kv_cache").isSome
    rw [hkv]; rfl

/-- the tensors kept outside the pool -/
private theorem copy_dyn (e : Engine) : ∀ (l : List (String × Bytes)) (mem : Mem) (dyn : Dict Bytes) (m : Mem) (d : Dict Bytes),
    copyInputs e l (mem, dyn) = .ok (m, d) →
    d = (l.filter fun x => (e.views.get? x.1).isNone).foldl (fun d x => d.set x.1 x.2) dyn := by
  intro l
  induction l with
  | nil => intro mem dyn m d h; simp only [copyInputs, Except.ok.injEq, Prod.mk.injEq] at h; exact h.2.symm
  | cons x l ih =>
    obtain ⟨t, b⟩ := x
    intro mem dyn m d h
    simp only [copyInputs] at h
    cases hv : e.views.get? t with
    | none =>
      rw [hv] at h
      simp only [List.filter_cons, hv, Option.isNone_none, if_true, List.foldl_cons]
      exact ih _ _ _ _ h
    | some v =>
      rw [hv] at h
      simp only at h
      simp only [List.filter_cons, hv, Option.isNone_some, Bool.false_eq_true, if_false]
      split at h
      · exact ih _ _ _ _ h
      · cases h

/-- What is required of a session: every call meets `RunOkKv` for the reference contents of the cache at that point, and gives the cache
its full shape. -/
def SessionOk (S : Setup) (g : Graph) (sem : Sem) (upd : Node → List Nat) (i : TInfo) (s0 : Session) (h : List DimCall) : Prop :=
  ∀ h1 y h2, h = h1 ++ y :: h2 → ValidCall S y.σ y.c ∧ prod (refShape S y.σ "kv_cache") = prod i.shape ∧
    RunOkKv g S.tm S.eng (refShape S y.σ) (Session.after S.eng sem upd s0 (h1.map (·.c.bytes))) y.c.bytes sem upd

/-- **C52.** A session of `forward` calls on a graph with a cache, planned by `compress_memory_with_kv_cache`: every call returns, and
after any number of calls, with any dimensions in any order, every graph output that no node reads has the value of the reference session
(`Session.after`, `refCall`): tensors in storage of their own, nothing carried from call to call but the cache, as the calls so far left
it, and the last value supplied for the inputs outside the pool.  In particular no activation of any call disturbs the cache. -/
theorem C52_session (S : Setup) (hS : SetupOk S) (mem0 : Mem) (g : Graph) (p : Nat) (hp : 0 < p) (cm kcm : Dict (Nat × Nat))
    (sz ksz elt : Nat) (helt : 0 < elt) (consts : Dict Bytes) (hidx : g.IndexExact) (hssa : SSA g.input g.nodemap)
    (h0 : ∀ i, S.tm.get? "" = some i → i.shape = [])
    (hrun : compressMemoryKv g (memsizes S.tm) p = .ok ((cm, sz), (kcm, ksz))) (hne : g.nodemap ≠ [])
    (hin : "kv_cache" ∈ g.input) (hdyn : "kv_cache" ∈ g.dynamics) (i : TInfo) (hi : S.tm.get? "kv_cache" = some i)
    (hsh : i.shape ≠ []) (hpos : 0 < prod i.shape)
    (hE : S.eng = mkEngineKv g cm sz kcm ksz S.tm elt consts) (sem : Sem) (upd : Node → List Nat)
    (hkern : ∀ n ∈ g.nodemap, ∃ k, S.kern n = some k ∧ Updates k (upd n) (sem n))
    (h : List DimCall) (x : DimCall)
    (hok : SessionOk S g sem upd i ⟨readView mem0 (sz, prod i.shape * elt), []⟩ (h ++ [x])) :
    AllReturned S mem0 (h ++ [x]) ∧
    ∃ d, (call S (stateBefore S mem0 h) x.c).2 = .ok d ∧
      ∀ o, o ∈ g.output → (∃ k, ProducedAt g.nodemap k o) → (∀ j, ¬ ReadAt g.nodemap j o) →
        (d.get? o).isSome ∧
        d.get? o = refCall S.eng sem upd
          (Session.after S.eng sem upd ⟨readView mem0 (sz, prod i.shape * elt), []⟩ (h.map (·.c.bytes))) x.c.bytes o := by
  let s0 : Session := ⟨readView mem0 (sz, prod i.shape * elt), []⟩
  have helt' : S.eng.elt = elt := by rw [hE]; rfl
  -- one call in a state that matches the reference session
  have one : ∀ (h1 : List DimCall) (y : DimCall), SessionOk S g sem upd i s0 (h1 ++ [y]) → AllReturned S mem0 h1 →
      (stateBefore S mem0 h1).dyn = (Session.after S.eng sem upd s0 (h1.map (·.c.bytes))).dyn →
      readView (stateBefore S mem0 h1).mem (sz, prod i.shape * elt) = (Session.after S.eng sem upd s0 (h1.map (·.c.bytes))).kv →
      (stateBefore S mem0 (h1 ++ [y])).dyn = (Session.after S.eng sem upd s0 ((h1 ++ [y]).map (·.c.bytes))).dyn ∧
      readView (stateBefore S mem0 (h1 ++ [y])).mem (sz, prod i.shape * elt) =
        (Session.after S.eng sem upd s0 ((h1 ++ [y]).map (·.c.bytes))).kv ∧
      ∃ d, (call S (stateBefore S mem0 h1) y.c).2 = .ok d ∧
        ∀ o, o ∈ g.output → (∃ k, ProducedAt g.nodemap k o) → (∀ j, ¬ ReadAt g.nodemap j o) →
          (d.get? o).isSome ∧
          d.get? o = refCall S.eng sem upd (Session.after S.eng sem upd s0 (h1.map (·.c.bytes))) y.c.bytes o := by
    intro h1 y hsok hret hd hk
    obtain ⟨hvy, hfull, hro⟩ := hsok h1 y [] rfl
    have hvs : ∀ z ∈ h1, ValidCall S z.σ z.c := by
      intro z hz
      obtain ⟨a, b, rfl⟩ := List.append_of_mem hz
      exact (hsok a z (b ++ [y]) (by simp)).1
    obtain ⟨hf1, hf2⟩ := C47_no_stale_state S hS mem0 h1 hvs hret y hvy
    have hV : ViewsOk g S.eng (refShape S y.σ) := by
      have hfits := hro.fits
      rw [helt'] at hfits
      rw [hE]
      exact viewsOk hp helt hidx hssa h0 hrun hne hin hdyn hi hsh hpos hro.outs hfits
    have hcv : callView S.eng (refShape S y.σ) "kv_cache" = (sz, prod i.shape * elt) := by
      have hkv := kv_view hp helt hidx hssa h0 hrun hne hin hdyn hi hsh hpos (by have := (hro.fits _ i hi).1; rwa [helt'] at this)
      have hkv' : S.eng.views.get? "kv_cache" = some (sz, prod i.shape * elt) := by rw [hE]; exact hkv
      unfold callView
      rw [hkv', helt', hfull]; rfl
    have hnodes : S.eng.nodes = g.nodemap := by rw [hE]; rfl
    have hout : S.eng.output = g.output := by rw [hE]; rfl
    obtain ⟨d, m, e1, e2, ⟨m1, d1, e3⟩, e4⟩ := forward_kv hV hnodes hout hssa hro hkern (stateBefore S mem0 h1).mem (by rw [hcv]; exact hk.symm)
    rw [hd.symm] at e1 e3
    rw [e1] at hf1
    obtain ⟨hm, m1', hc⟩ := hf2 d m e1
    rw [e3] at hc
    simp only [Except.ok.injEq, Prod.mk.injEq] at hc
    have hsnoc : stateBefore S mem0 (h1 ++ [y]) = (call S (stateBefore S mem0 h1) y.c).1 := by
      simp [stateBefore, calls, List.foldl_append]
    have hafter : Session.after S.eng sem upd s0 ((h1 ++ [y]).map (·.c.bytes)) =
        (Session.after S.eng sem upd s0 (h1.map (·.c.bytes))).next S.eng sem upd y.c.bytes := by
      simp [Session.after, List.foldl_append]
    rw [hsnoc, hafter]
    refine ⟨?_, ?_, d, hf1, e4⟩
    · rw [← hc.2, copy_dyn _ _ _ _ _ _ e3]
      simp only [Session.next, hd]
    · rw [hm]
      simp only [Session.next]
      rw [e2, hcv]; rfl
  -- the state after any prefix matches
  have all : ∀ h1 : List DimCall, (∃ h2, h ++ [x] = h1 ++ h2) → AllReturned S mem0 h1 ∧
      (stateBefore S mem0 h1).dyn = (Session.after S.eng sem upd s0 (h1.map (·.c.bytes))).dyn ∧
      readView (stateBefore S mem0 h1).mem (sz, prod i.shape * elt) = (Session.after S.eng sem upd s0 (h1.map (·.c.bytes))).kv := by
    intro h1
    induction h1 using List.reverseRecOn with
    | nil => intro _; exact ⟨fun a b c h => absurd h (by simp), rfl, rfl⟩
    | append_singleton h1 y ih =>
      rintro ⟨h2, hh⟩
      obtain ⟨i1, i2, i3⟩ := ih ⟨y :: h2, by rw [hh]; simp⟩
      have hsok : SessionOk S g sem upd i s0 (h1 ++ [y]) := by
        intro a z b hab
        exact hok a z (b ++ h2) (by rw [hh, hab]; simp)
      obtain ⟨o1, o2, d, o3, _⟩ := one h1 y hsok i1 i2 i3
      refine ⟨?_, o1, o2⟩
      intro a z b hab
      rcases List.eq_nil_or_concat b with rfl | ⟨b', w, rfl⟩
      · obtain ⟨rfl, e⟩ := List.append_inj' hab rfl
        cases e
        exact ⟨d, o3⟩
      · rw [List.concat_eq_append, ← List.cons_append, ← List.append_assoc] at hab
        obtain ⟨e, _⟩ := List.append_inj' hab rfl
        exact i1 a z b' e
  obtain ⟨i1, i2, i3⟩ := all h ⟨[x], rfl⟩
  obtain ⟨_, _, r⟩ := one h x hok i1 i2 i3
  exact ⟨(all (h ++ [x]) ⟨[], by simp⟩).1, r⟩

/-! ### The hypotheses can be met -/

/-- the buffer of the argument at position `i` -/
def viewAt (args : List Arg) (i : Nat) : Option (Nat × Nat) :=
  match args[i]? with
  | some (.view v) => some v
  | _ => none

/-- evaluate `f` on the inputs, then store the results in the outputs and the updated arguments -/
def inPlaceKernel (pos : List Nat) (f : List (Option Bytes) → List Bytes) : Kernel := fun args outs mem =>
  pureKernel f args (outs ++ pos.filterMap (viewAt args)) mem

/-- for every function and every choice of updated arguments there is a kernel meeting the contract -/
theorem C52_contract_satisfiable (pos : List Nat) (f : List (Option Bytes) → List Bytes) : Updates (inPlaceKernel pos f) pos f := by
  intro args outs ups mem hups hpw hun hsz
  clear hun
  have e : (pos.filterMap (viewAt args)) = ups := by
    clear hpw hsz
    induction pos generalizing ups with
    | nil => cases ups with
      | nil => rfl
      | cons u us => simp at hups
    | cons i pos ih =>
      cases ups with
      | nil => simp at hups
      | cons u us =>
        simp only [List.map_cons, List.cons.injEq] at hups
        have : viewAt args i = some u := by unfold viewAt; rw [hups.1]
        rw [List.filterMap_cons, this, ih us hups.2]
  unfold inPlaceKernel
  rw [e]
  exact store_all f args (outs ++ ups) mem hpw hsz

/-- the operators of `kvGraph` for the example: attention puts the new bytes into the cache at `n_past` and adds the sum of the cache -/
def kvSem : Sem := fun n l =>
  if n.op = "SDPA" then
    let h := (l.getD 0 none).getD []
    let np := (((l.getD 3 none).getD []).headD 0).toNat
    let kv := (l.getD 4 none).getD []
    let kv' := (kv.take np ++ h ++ kv.drop (np + h.length)).take kv.length
    [h.map (· + kv'.foldl (· + ·) 0), kv']
  else incSem n l

def kvUpd : Node → List Nat := fun n => if n.op = "SDPA" then [4] else []

def kvTM : Dict TInfo := [("x", ⟨[2], 1⟩), ("h", ⟨[2], 1⟩), ("a", ⟨[2], 1⟩), ("y", ⟨[2], 1⟩), ("kv_cache", ⟨[4], 1⟩), ("n_past", ⟨[], 1⟩)]

/-- at most two new tokens per call, a cache of four -/
def kvSetup : Setup where
  eng := mkEngineKv kvGraph [("x", (0, 64)), ("h", (64, 64)), ("a", (0, 64)), ("y", (64, 64))] 128 [("kv_cache", (0, 64))] 64 kvTM 1 []
  inputDesc := [("x", [.var "n"]), ("n_past", []), ("kv_cache", [.num 4])]
  ranged := ["n"]
  blocks := ["x", "h", "a", "y", "kv_cache"]
  tm := kvTM
  kern := fun n => some (inPlaceKernel (kvUpd n) (kvSem n))
  se0 := ⟨[("n", 2)], [("x", [.var "n"]), ("h", [.var "n"]), ("a", [.var "n"]), ("y", [.var "n"]), ("kv_cache", [.num 4])], []⟩

/-- the prompt of two tokens (with a cleared cache), then one more -/
def kvCall1 : DimCall := ⟨fun _ => 2, ⟨[("x", [2], [3, 5]), ("n_past", [], [0]), ("kv_cache", [4], [0, 0, 0, 0])], zeroMem⟩⟩
def kvCall2 : DimCall := ⟨fun _ => 1, ⟨[("x", [1], [7]), ("n_past", [], [2])], zeroMem⟩⟩

private theorem kv_prod : ∀ k t, ProducedAt kvGraph.nodemap k t → (k = 0 ∧ t = "h") ∨ (k = 1 ∧ t = "a") ∨ (k = 2 ∧ t = "y") := by
  rintro k t ⟨n, hn, ht⟩
  match k with
  | 0 => cases hn; simp at ht; exact .inl ⟨rfl, ht⟩
  | 1 => cases hn; simp at ht; exact .inr (.inl ⟨rfl, ht⟩)
  | 2 => cases hn; simp at ht; exact .inr (.inr ⟨rfl, ht⟩)
  | k+3 => simp [kvGraph, Graph.updateConsumerProducer] at hn

private theorem kv_runOk (y : DimCall) (s : Session)
    (hfits : ∀ t i, kvTM.get? t = some i → 1 ≤ i.esize ∧ prod (refShape kvSetup y.σ t) ≤ prod i.shape)
    (hx : ∃ b, ("x", b) ∈ y.c.bytes) (hkeys : (y.c.bytes.map (·.1)).Nodup)
    (hin : ∀ t b, (t, b) ∈ y.c.bytes → Pooled kvSetup.eng t →
      t ≠ "" ∧ t ∈ kvGraph.input ∧ b.length = prod (refShape kvSetup y.σ t) * kvSetup.eng.elt)
    (hsz : ∀ k n, kvGraph.nodemap[k]? = some n →
      (kvSem n (n.input.map (refRunIn kvSem kvUpd (kvGraph.nodemap.take k) (startEnvKv kvSetup.eng s y.c.bytes)))).map List.length =
        (n.output ++ updNames kvUpd n).map (fun t => prod (refShape kvSetup y.σ t) * kvSetup.eng.elt)) :
    RunOkKv kvGraph kvTM kvSetup.eng (refShape kvSetup y.σ) s y.c.bytes kvSem kvUpd := by
  refine ⟨?_, hfits, ?_, ?_, hkeys, hin, ?_, hsz⟩
  · intro k t h
    rcases kv_prod k t h with ⟨_, rfl⟩ | ⟨_, rfl⟩ | ⟨_, rfl⟩ <;> exact ⟨by decide, by decide, _, rfl, by decide, by decide⟩
  · intro t _; rfl
  · rintro k t ⟨n, hn, ht⟩ hpl
    match k with
    | 0 => cases hn; simp at ht; subst ht; exact ⟨by decide, .inr (.inl ⟨by decide, hx⟩)⟩
    | 1 =>
      cases hn
      simp at ht
      rcases ht with rfl | rfl | rfl
      · exact ⟨by decide, .inr (.inr ⟨0, by decide, _, rfl, by decide⟩)⟩
      · exact absurd hpl (by unfold Pooled; decide)
      · exact ⟨by decide, .inl rfl⟩
    | 2 => cases hn; simp at ht; subst ht; exact ⟨by decide, .inr (.inr ⟨1, by decide, _, rfl, by decide⟩)⟩
    | k+3 => simp [kvGraph, Graph.updateConsumerProducer] at hn
  · intro n hn
    have : n ∈ [(⟨"n1", "Relu", ["x"], ["h"]⟩ : Node), ⟨"n2", "SDPA", ["h", "h", "h", "n_past", "kv_cache"], ["a"]⟩,
      ⟨"n3", "Exp", ["a"], ["y"]⟩] := hn
    simp at this
    rcases this with rfl | rfl | rfl
    · exact .inl rfl
    · refine .inr ⟨4, rfl, fun j => ?_⟩
      match j with
      | 0 => simp
      | 1 => simp
      | 2 => simp
      | 3 => simp
      | 4 => simp
      | j+5 => simp
    · exact .inl rfl

private theorem kv_fits (σ : String → Nat) (h : ∀ e ∈ kvTM, prod (refShape kvSetup σ e.1) ≤ prod e.2.shape) :
    ∀ t i, kvTM.get? t = some i → 1 ≤ i.esize ∧ prod (refShape kvSetup σ t) ≤ prod i.shape := by
  intro t i hi
  have hm := Dict.get?_mem hi
  refine ⟨?_, h _ hm⟩
  have : ∀ e ∈ kvTM, 1 ≤ e.2.esize := by decide
  exact this _ hm

private theorem kv_valid (y : DimCall) (n : Nat) (b : Bytes) (rest) (hσ : y.σ = fun _ => n) (hc : y.c.inputs = ("x", [n], b) :: rest) :
    ValidCall kvSetup y.σ y.c := by
  refine ⟨⟨_, _, _, _, hc, ?_, ?_⟩, fun t b _ _ => rfl⟩
  · intro d hd hl i v m h1 hr h2
    simp only [kvSetup, List.mem_cons, List.not_mem_nil, or_false] at hd
    rcases hd with rfl | rfl | rfl
    · cases i with
      | zero => simp at h2; rw [hσ]; exact h2.symm
      | succ i => simp at h1
    · simp at hl
    · cases i with
      | zero => simp at h1
      | succ i => simp at h1
  · intro v hv
    have : v = "n" := by simpa [boundVars, kvSetup] using hv
    subst this
    exact ⟨_, List.mem_cons_self, rfl, List.mem_cons_self⟩

/-- the hypotheses of `C52_session` are met by the prompt and one further token -/
example : SetupOk kvSetup ∧ kvGraph.IndexExact ∧ SSA kvGraph.input kvGraph.nodemap ∧
    compressMemoryKv kvGraph (memsizes kvTM) 64 =
      .ok (([("x", (0, 64)), ("h", (64, 64)), ("a", (0, 64)), ("y", (64, 64))], 128), ([("kv_cache", (0, 64))], 64)) ∧
    (∀ n ∈ kvGraph.nodemap, ∃ k, kvSetup.kern n = some k ∧ Updates k (kvUpd n) (kvSem n)) ∧
    SessionOk kvSetup kvGraph kvSem kvUpd ⟨[4], 1⟩ ⟨readView zeroMem (128, 4), []⟩ ([kvCall1] ++ [kvCall2]) := by
  refine ⟨⟨⟨trivial, fun _ _ _ h => absurd h (by simp [kvSetup])⟩, fun v _ h => by simp [kvSetup, Dict.keys] at h, .inl (by decide)⟩,
    updateConsumerProducer_exact _, by decide, rfl, fun n _ => ⟨_, rfl, C52_contract_satisfiable _ _⟩, ?_⟩
  have hsz : ∀ (y : DimCall) (s : Session), (∀ k, k < 3 → ∀ n, kvGraph.nodemap[k]? = some n →
      (kvSem n (n.input.map (refRunIn kvSem kvUpd (kvGraph.nodemap.take k) (startEnvKv kvSetup.eng s y.c.bytes)))).map List.length =
        (n.output ++ updNames kvUpd n).map (fun t => prod (refShape kvSetup y.σ t) * kvSetup.eng.elt)) → ∀ k n,
      kvGraph.nodemap[k]? = some n →
      (kvSem n (n.input.map (refRunIn kvSem kvUpd (kvGraph.nodemap.take k) (startEnvKv kvSetup.eng s y.c.bytes)))).map List.length =
        (n.output ++ updNames kvUpd n).map (fun t => prod (refShape kvSetup y.σ t) * kvSetup.eng.elt) := by
    intro y s h k n hn
    exact h k (List.getElem?_eq_some_iff.1 hn).1 n hn
  intro h1 y h2 e
  have hcases : (h1 = [] ∧ y = kvCall1) ∨ (h1 = [kvCall1] ∧ y = kvCall2) := by
    match h1, e with
    | [], e => simp at e; exact .inl ⟨rfl, e.1.symm⟩
    | [a], e => simp at e; exact .inr ⟨by rw [e.1], e.2.1.symm⟩
    | a :: b :: l, e =>
      have := congrArg List.length e
      simp at this
  rcases hcases with ⟨rfl, rfl⟩ | ⟨rfl, rfl⟩
  · refine ⟨kv_valid _ 2 _ _ rfl rfl, by decide, kv_runOk _ _ (kv_fits _ (by decide)) ⟨_, List.mem_cons_self⟩ (by decide) ?_ ?_⟩
    · intro t b h _
      simp [kvCall1, Call.bytes] at h
      rcases h with ⟨rfl, rfl⟩ | ⟨rfl, rfl⟩ | ⟨rfl, rfl⟩ <;> exact ⟨by decide, by decide, by decide⟩
    · apply hsz
      intro k hk n hn
      match k with
      | 0 => cases hn; decide
      | 1 => cases hn; decide
      | 2 => cases hn; decide
      | k+3 => omega
  · refine ⟨kv_valid _ 1 _ _ rfl rfl, by decide, kv_runOk _ _ (kv_fits _ (by decide)) ⟨_, List.mem_cons_self⟩ (by decide) ?_ ?_⟩
    · intro t b h _
      simp [kvCall2, Call.bytes] at h
      rcases h with ⟨rfl, rfl⟩ | ⟨rfl, rfl⟩ <;> exact ⟨by decide, by decide, by decide⟩
    · apply hsz
      intro k hk n hn
      match k with
      | 0 => cases hn; decide
      | 1 => cases hn; decide
      | 2 => cases hn; decide
      | k+3 => omega

/-- the second call sees the two tokens of the first in the cache: 7+1 = 8 and the cache holds 4, 6, 8, 0 -/
example : (call kvSetup (stateBefore kvSetup zeroMem [kvCall1]) kvCall2.c).2 = .ok [("y", [27])] := rfl


end OnnxTool.Props
