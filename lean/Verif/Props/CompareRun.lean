import Verif.Props.Compare
/-!
# C123: the runs, the predictions and the verdicts
-/
namespace OnnxTool.Props
open OnnxTool OnnxTool.Compare

private theorem flatten_slices {α} (B : Nat) (l : List α) (k : Nat) : ((List.range k).map fun k => (l.drop (k * B)).take B).flatten = l.take (k * B) := by
  induction k with
  | zero => simp
  | succ k ih =>
    rw [List.range_succ, List.map_append, List.flatten_append, ih]
    simp only [List.map_cons, List.map_nil, List.flatten_cons, List.flatten_nil, List.append_nil]
    rw [show (k + 1) * B = k * B + B by ring, List.take_add]

private theorem slices_flatten {α} (B : Nat) (hB : 0 < B) (l : List α) : (slices B l).flatten = l := by
  unfold slices
  rw [flatten_slices]
  refine List.take_of_length_le ?_
  have h := Nat.div_add_mod (l.length + B - 1) B
  have h2 := Nat.mod_lt (l.length + B - 1) hB
  rw [Nat.mul_comm] at h
  omega

private theorem slices_mem {α} (B : Nat) (hB : 0 < B) (l : List α) (b : List α) (hb : b ∈ slices B l) : b ≠ [] ∧ b.length ≤ B := by
  obtain ⟨k, hk, rfl⟩ := List.mem_map.1 hb
  rw [List.mem_range] at hk
  have h1 : k * B < l.length := by
    have h := Nat.div_mul_le_self (l.length + B - 1) B
    have h2 : (k + 1) * B ≤ (l.length + B - 1) / B * B := Nat.mul_le_mul_right B hk
    have h3 : (k + 1) * B = k * B + B := by ring
    omega
  constructor
  · intro e
    have : ((l.drop (k * B)).take B).length = 0 := by rw [e]; rfl
    rw [List.length_take, List.length_drop] at this
    omega
  · rw [List.length_take]; omega

private theorem runBatches_map {α β} (net : List α → Except PyErr (List β)) (g : α → β) (bs : List (List α)) (h : ∀ b ∈ bs, net b = .ok (b.map g)) :
    runBatches net bs = .ok (bs.flatten.map g) := by
  induction bs with
  | nil => rfl
  | cons b bs ih =>
    rw [runBatches, h b (by simp), ih fun b hb => h b (by simp [hb])]
    simp

/-- **C123, running in batches.** For every positive batch size, also one that does not divide the number of images: a network that works image by image puts out what it puts out for the images one by one, in their order. -/
theorem C123_batches {α β} (net : List α → Except PyErr (List β)) (g : α → β) (batchSize : Int) (hB : 0 < batchSize) (images : List α) (hne : images ≠ [])
    (h : ∀ b : List α, b ≠ [] → (b.length : Int) ≤ batchSize → net b = .ok (b.map g)) : runAll net batchSize images = .ok (images.map g) := by
  have hB' : 0 < batchSize.toNat := by omega
  unfold runAll
  rw [if_neg (by rintro (h | h); · omega
                 · exact hne h)]
  rw [runBatches_map net g _ fun b hb => ?_, slices_flatten _ hB']
  obtain ⟨h1, h2⟩ := slices_mem _ hB' _ _ hb
  exact h b h1 (by omega)

/-- **C123 (finding), the last batch.** Unless the batch size divides the number of images the networks are called with a smaller batch than the engine was made for. -/
theorem C123_last_batch {α} (B : Nat) (hB : 0 < B) (images : List α) (h : ¬ B ∣ images.length) :
    ∃ b ∈ slices B images, b.length = images.length % B ∧ 0 < b.length ∧ b.length < B := by
  have h0 : images.length % B ≠ 0 := fun e => h (Nat.dvd_of_mod_eq_zero e)
  have hlt := Nat.mod_lt images.length hB
  have hd := Nat.div_add_mod images.length B
  rw [Nat.mul_comm] at hd
  have hlen : ((images.drop (images.length / B * B)).take B).length = images.length % B := by
    rw [List.length_take, List.length_drop]
    omega
  refine ⟨_, List.mem_map.2 ⟨images.length / B, ?_, rfl⟩, hlen, by omega, by omega⟩
  rw [List.mem_range, Nat.lt_iff_add_one_le, Nat.le_div_iff_mul_le hB]
  have : (images.length / B + 1) * B = images.length / B * B + B := by ring
  omega

private theorem argmaxFrom_eq (l : List Num) (best : ℚ) (bi i : Nat) (h : ∀ x ∈ l, ∃ v, x = some v ∧ v ≤ best) : argmaxFrom best bi i l = bi := by
  induction l generalizing i with
  | nil => rfl
  | cons x l ih =>
    obtain ⟨v, rfl, hv⟩ := h x (by simp)
    rw [argmaxFrom, if_neg (not_lt.2 hv)]
    exact ih (i + 1) fun y hy => h y (by simp [hy])

private theorem argmaxFrom_top (l : List Num) (best : ℚ) (bi i c : Nat) (m : ℚ) (hc : l[c]? = some (some m)) (hb : best < m)
    (h : ∀ (j : Nat) (x : Num), l[j]? = some x → j ≠ c → ∃ v, x = some v ∧ v < m) : argmaxFrom best bi i l = i + c := by
  induction l generalizing best bi i c with
  | nil => simp at hc
  | cons x l ih =>
    cases c with
    | zero =>
      have e : x = some m := by simpa using hc
      subst e
      rw [argmaxFrom, if_pos hb]
      refine argmaxFrom_eq l m i (i + 1) fun y hy => ?_
      obtain ⟨j, hj⟩ := List.mem_iff_getElem?.1 hy
      obtain ⟨v, e, hv⟩ := h (j + 1) y (by simpa using hj) (by omega)
      exact ⟨v, e, hv.le⟩
    | succ c =>
      obtain ⟨v, rfl, hv⟩ := h 0 x rfl (by omega)
      have hc' : l[c]? = some (some m) := by simpa using hc
      have hr : ∀ (j : Nat) (x : Num), l[j]? = some x → j ≠ c → ∃ v, x = some v ∧ v < m := fun j x hj hjc => h (j + 1) x (by simpa using hj) (by omega)
      rw [argmaxFrom]
      split
      · rw [ih v i (i + 1) c hc' hv hr]; omega
      · rw [ih best bi (i + 1) c hc' hb hr]; omega

/-- `np.argmax` finds an element that is larger than all others. -/
private theorem argmax_top (l : List Num) (c : Nat) (m : ℚ) (hc : l[c]? = some (some m)) (h : ∀ (j : Nat) (x : Num), l[j]? = some x → j ≠ c → ∃ v, x = some v ∧ v < m) : argmax l = c := by
  cases l with
  | nil => simp at hc
  | cons x l =>
    cases c with
    | zero =>
      have e : x = some m := by simpa using hc
      subst e
      refine argmaxFrom_eq l m 0 1 fun y hy => ?_
      obtain ⟨j, hj⟩ := List.mem_iff_getElem?.1 hy
      obtain ⟨v, e, hv⟩ := h (j + 1) y (by simpa using hj) (by omega)
      exact ⟨v, e, hv.le⟩
    | succ c =>
      obtain ⟨v, rfl, hv⟩ := h 0 x rfl (by omega)
      show argmaxFrom v 0 1 l = c + 1
      rw [argmaxFrom_top l v 0 1 c m (by simpa using hc) hv fun j x hj hjc => h (j + 1) x (by simpa using hj) (by omega)]
      omega

/-- **C123, the predictions.** If the reference prefers one class of every sample by more than twice `max_diff`, the engine predicts the same class of every sample and the script reports 100 %. -/
theorem C123_predictions (pt gi : List (List Num)) (r : Report) (m : ℚ) (h : compareOutputs pt gi = .ok r) (hm : r.maxDiff = some m)
    (hmargin : ∀ i, i < pt.length → ∃ (c : Nat) (top : ℚ), At pt i c (some top) ∧ ∀ (j : Nat) (v : ℚ), j ≠ c → At pt i j (some v) → v + 2 * m < top) :
    predMatchCount pt gi = pt.length ∧ predMatchRatio pt gi = 1 := by
  have hmax := (C123_max pt gi r m h hm).1
  have hlen : pt.length = gi.length := ((C123_report pt gi).1 ⟨r, h⟩).2.1
  have hrow := ((C123_report pt gi).1 ⟨r, h⟩).2.2
  have hne := ((C123_report pt gi).1 ⟨r, h⟩).1
  have key : ∀ (i : Nat) (a b : List Num), pt[i]? = some a → gi[i]? = some b → argmax a = argmax b := by
    intro i a b ha hb
    obtain ⟨c, top, ⟨a', ha', hc⟩, hothers⟩ := hmargin i (List.getElem?_eq_some_iff.1 ha).1
    rw [ha] at ha'
    cases ha'
    have h1 : argmax a = c := by
      refine argmax_top a c top hc fun j x hj hjc => ?_
      obtain ⟨u, v, rfl, _, hd⟩ := hmax i j x ⟨a, ha, hj⟩
      refine ⟨u, rfl, ?_⟩
      have := hothers j u hjc ⟨a, ha, hj⟩
      have := abs_nonneg (u - v)
      linarith
    have h2 : argmax b = c := by
      obtain ⟨u, v, e, ⟨b', hb', hv⟩, hd⟩ := hmax i c _ ⟨a, ha, hc⟩
      cases e
      rw [hb] at hb'
      cases hb'
      refine argmax_top b c v hv fun j x hj hjc => ?_
      have hj' : j < a.length := by
        rw [(hrow i a b ha hb).2]
        exact (List.getElem?_eq_some_iff.1 hj).1
      obtain ⟨s, t, e, ⟨b'', hb'', ht⟩, hst⟩ := hmax i j _ ⟨a, ha, List.getElem?_eq_getElem hj'⟩
      rw [hb] at hb''
      cases hb''
      rw [hj] at ht
      cases ht
      refine ⟨t, rfl, ?_⟩
      have h3 := hothers j s hjc ⟨a, ha, by rw [← e]; exact List.getElem?_eq_getElem hj'⟩
      have h4 := neg_le_of_abs_le hst
      have h5 := le_of_abs_le hd
      linarith
    rw [h1, h2]
  have hcount : predMatchCount pt gi = pt.length := by
    unfold predMatchCount
    have : ∀ x ∈ List.zipWith (fun a b => decide (argmax a = argmax b)) pt gi, x = true := by
      intro x hx
      obtain ⟨i, hi⟩ := List.mem_iff_getElem?.1 hx
      rw [List.getElem?_zipWith] at hi
      cases ha : pt[i]? with
      | none => simp [ha] at hi
      | some a =>
        cases hb : gi[i]? with
        | none => simp [ha, hb] at hi
        | some b =>
          have e : decide (argmax a = argmax b) = x := by simpa [ha, hb] using hi
          rw [← e]
          exact decide_eq_true (key i a b ha hb)
    rw [List.count_eq_length.2 fun x hx => (this x hx).symm, List.length_zipWith]
    omega
  refine ⟨hcount, ?_⟩
  unfold predMatchRatio
  rw [hcount]
  have : (pt.length : ℚ) ≠ 0 := by
    intro e
    have : pt.length = 0 := by exact_mod_cast e
    exact hne (List.length_eq_zero_iff.1 this)
  exact div_self this

/-- **C123 (finding), a small difference can change a prediction**: without the margin, however small the difference. -/
theorem C123_prediction_flip (d : ℚ) (hd : 0 < d) : predMatchCount [[some 1, some (1 - d)]] [[some (1 - d), some 1]] = 0 := by
  have h1 : ¬ (1 : ℚ) < 1 - d := by linarith
  have h2 : 1 - d < (1 : ℚ) := by linarith
  simp [predMatchCount, argmax, argmaxFrom, h1, h2, hd]

/-- **C123, the worst samples.** As many as asked for (or all), each once, and none that is not printed has a larger difference: whatever order numpy gives to ties. -/
theorem C123_worst (per : List Num) (order : List Nat) (top : Nat) (h : IsArgsort per order) :
    (worst order top).length = min top per.length ∧ (worst order top).Nodup ∧
    ∀ i ∈ worst order top, ∀ (j : Nat) (d : ℚ), j ∉ worst order top → per[j]? = some (some d) → ∃ e, per[i]? = some (some e) ∧ d ≤ e := by
  obtain ⟨hp, hs⟩ := h
  have hlen : order.length = per.length := by rw [hp.length_eq, List.length_range]
  refine ⟨by simp [worst, hlen], (hp.nodup_iff.2 List.nodup_range).sublist (List.take_sublist _ _), fun i hi j d hj hd => ?_⟩
  have hjlt : j < per.length := (List.getElem?_eq_some_iff.1 hd).1
  have hjo : j ∈ order := hp.mem_iff.2 (List.mem_range.2 hjlt)
  have hjd : j ∈ order.drop top := by
    rw [← List.take_append_drop top order, List.mem_append] at hjo
    exact hjo.resolve_left hj
  rw [← List.take_append_drop top order, List.pairwise_append] at hs
  have hb := hs.2.2 i hi j hjd
  have ej : per.getD j none = some d := by rw [List.getD_eq_getElem?_getD, hd]; rfl
  rw [ej, List.getD_eq_getElem?_getD] at hb
  cases hi' : per[i]? with
  | none => rw [hi'] at hb; exact absurd hb (by simp [Before])
  | some x =>
    rw [hi'] at hb
    cases x with
    | none => exact absurd hb (by simp [Before])
    | some e => exact ⟨e, rfl, hb⟩

/-- **C123 (finding), the worst sample of all is not listed.** A sample with a NaN is printed only if every sample without is. -/
theorem C123_worst_hides_nan (per : List Num) (order : List Nat) (top : Nat) (h : IsArgsort per order) (i : Nat) (hi : i ∈ worst order top) (hn : per[i]? = some none) :
    ∀ (j : Nat) (d : ℚ), per[j]? = some (some d) → j ∈ worst order top := by
  intro j d hd
  by_contra hj
  obtain ⟨e, he, _⟩ := (C123_worst per order top h).2.2 i hi j d hj hd
  rw [hn] at he
  cases he

/-- **C123, the verdict of compare.py.** True for outputs of one shape without NaN whose elements differ by at most `atol + rtol * |engine's element|`, and only then. -/
theorem C123_verdict (rtol atol : ℚ) (ref test : Arr) (hr : ref.data ≠ []) (hlen : ref.shape = test.shape → ref.data.length = test.data.length) :
    ∃ b, compareArrays rtol atol ref test = .ok b ∧
      (b = true ↔ ref.shape = test.shape ∧ ∀ (j : Nat) (u v : Num), ref.data[j]? = some u → test.data[j]? = some v → ∃ x y : ℚ, u = some x ∧ v = some y ∧ |x - y| ≤ atol + rtol * |y|) := by
  unfold compareArrays
  by_cases hs : ref.shape = test.shape
  · rw [if_neg (not_not.2 hs)]
    have hz : List.zipWith diff ref.data test.data ≠ [] := by
      intro e
      have := congrArg List.length e
      rw [List.length_zipWith, ← hlen hs] at this
      simp at this
      exact hr this
    obtain ⟨m, hm⟩ : ∃ m, npMax (List.zipWith diff ref.data test.data) = .ok m := by
      cases hc : List.zipWith diff ref.data test.data with
      | nil => exact absurd hc hz
      | cons a l => cases a <;> exact ⟨_, rfl⟩
    rw [hm]
    refine ⟨_, rfl, ?_⟩
    rw [List.all_eq_true]
    constructor
    · intro h
      refine ⟨hs, fun j u v hu hv => ?_⟩
      have := h (closeTo rtol atol u v) (List.mem_iff_getElem?.2 ⟨j, by rw [List.getElem?_zipWith]; simp [hu, hv]⟩)
      cases u with
      | none => cases this
      | some x =>
        cases v with
        | none => cases this
        | some y => exact ⟨x, y, rfl, rfl, of_decide_eq_true this⟩
    · rintro ⟨_, h⟩ x hx
      obtain ⟨j, hj⟩ := List.mem_iff_getElem?.1 hx
      rw [List.getElem?_zipWith] at hj
      cases hu : ref.data[j]? with
      | none => simp [hu] at hj
      | some u =>
        cases hv : test.data[j]? with
        | none => simp [hu, hv] at hj
        | some v =>
          obtain ⟨a, b, rfl, rfl, hab⟩ := h j u v hu hv
          have e : closeTo rtol atol (some a) (some b) = x := by simpa [hu, hv] using hj
          rw [← e]
          exact decide_eq_true hab
  · rw [if_pos hs]
    exact ⟨false, rfl, by simp [hs]⟩

/-- **C123 (finding), the verdict depends on which output is called the reference**: the tolerance is a share of the engine's output, so one that is too large passes where one that is too small does not. -/
theorem C123_verdict_asymmetric : compareArrays (1 / 2) 0 ⟨[1], [some 1]⟩ ⟨[1], [some 2]⟩ = .ok true ∧ compareArrays (1 / 2) 0 ⟨[1], [some 2]⟩ ⟨[1], [some 1]⟩ = .ok false := by
  have h1 : |(1 : ℚ) - 2| = 1 := by rw [abs_sub_comm]; norm_num
  have h2 : |(2 : ℚ) - 1| = 1 := by norm_num
  constructor <;> simp [compareArrays, npMax, maxFrom, diff, closeTo, h1, h2] <;> norm_num

private theorem compare_self (rtol atol : ℚ) (hr : 0 ≤ rtol) (ha : 0 ≤ atol) (s : List Nat) (v : List ℚ) (hv : v ≠ []) : compareArrays rtol atol ⟨s, v.map some⟩ ⟨s, v.map some⟩ = .ok true := by
  obtain ⟨b, hb, hiff⟩ := C123_verdict rtol atol ⟨s, v.map some⟩ ⟨s, v.map some⟩ (by simpa using hv) fun _ => rfl
  have : b = true := hiff.2 ⟨rfl, fun j u w hu hw => by
    have e : u = w := by
      have := hu.symm.trans hw
      injection this
    subst e
    have hu' : (v.map some)[j]? = some u := hu
    rw [List.getElem?_map] at hu'
    cases hx : v[j]? with
    | none => rw [hx] at hu'; cases hu'
    | some x =>
      rw [hx] at hu'
      refine ⟨x, x, by injection hu' with e; exact e.symm, by injection hu' with e; exact e.symm, ?_⟩
      rw [sub_self, abs_zero]
      positivity⟩
  rw [hb, this]

private theorem compare_ok (rtol atol : ℚ) (s : List Nat) (v w : List ℚ) (hv : v ≠ []) (hl : v.length = w.length) : ∃ b, compareArrays rtol atol ⟨s, v.map some⟩ ⟨s, w.map some⟩ = .ok b := by
  obtain ⟨b, hb, _⟩ := C123_verdict rtol atol ⟨s, v.map some⟩ ⟨s, w.map some⟩ (by simpa using hv) fun _ => by simpa using hl
  exact ⟨b, hb⟩

/-- **C123, "All tests passed!"** Exactly the four comparisons of an engine with the reference that ran beside it. -/
theorem C123_all_pass (o : Outputs) (b : Bool) (h : allPass o = .ok b) :
    b = true ↔ compareArrays (1 / 10 ^ 4) (1 / 10 ^ 5) o.ort o.giCpu = .ok true ∧ compareArrays (1 / 10 ^ 4) (1 / 10 ^ 5) o.ptCpu o.giCpu = .ok true ∧
      compareArrays (1 / 10 ^ 4) (1 / 10 ^ 5) o.ptXpu o.giXpu = .ok true ∧ compareArrays (1 / 10 ^ 2) (1 / 10 ^ 3) o.ptXpuHalf o.giXpuHalf = .ok true := by
  unfold allPass at h
  split at h
  · rename_i a _ c d _ f _ _ h1 h2 h3 h4 h5 h6 h7 h8
    injection h with h
    rw [h1, h3, h4, h6, ← h]
    simp [and_assoc]
  all_goals cases h

/-- **C123 (finding), the devices need not agree.** "All tests passed!" is printed whatever the GPU computes, if its two programs agree: the comparisons across devices do not count. -/
theorem C123_all_pass_ignores (s : List Nat) (cpu xpu half : List ℚ) (hc : cpu ≠ []) (h1 : cpu.length = xpu.length) (h2 : cpu.length = half.length) :
    allPass ⟨⟨s, cpu.map some⟩, ⟨s, cpu.map some⟩, ⟨s, cpu.map some⟩, ⟨s, xpu.map some⟩, ⟨s, xpu.map some⟩, ⟨s, half.map some⟩, ⟨s, half.map some⟩⟩ = .ok true := by
  have hx : xpu ≠ [] := by rintro rfl; simp at h1; exact hc h1
  have hh : half ≠ [] := by rintro rfl; simp at h2; exact hc h2
  obtain ⟨b1, e1⟩ := compare_ok (1 / 10 ^ 4) (1 / 10 ^ 5) s cpu xpu hc h1
  obtain ⟨b2, e2⟩ := compare_ok (1 / 10 ^ 2) (1 / 10 ^ 3) s cpu half hc h2
  unfold allPass
  simp only [compare_self (1 / 10 ^ 4) (1 / 10 ^ 5) (by norm_num) (by norm_num) s cpu hc, compare_self (1 / 10 ^ 4) (1 / 10 ^ 5) (by norm_num) (by norm_num) s xpu hx,
    compare_self (1 / 10 ^ 2) (1 / 10 ^ 3) (by norm_num) (by norm_num) s half hh, e1, e2]
  rfl

/-- **C123, the resolutions.** `All outputs match` is printed for images whose outputs have no NaN and differ by less than 0.0001 everywhere, and only for them. -/
theorem C123_resolutions (l : List (List Num × List Num)) (b : Bool) (h : allMatch l = .ok b) :
    b = true ↔ ∀ p ∈ l, ∀ (j : Nat) (u v : Num), p.1[j]? = some u → p.2[j]? = some v → ∃ x y : ℚ, u = some x ∧ v = some y ∧ |x - y| < 1 / 10 ^ 4 := by
  induction l generalizing b with
  | nil => cases h; simp
  | cons p l ih =>
    obtain ⟨pt, gi⟩ := p
    rw [allMatch] at h
    cases hm : sampleDiff pt gi with
    | error e => rw [hm] at h; cases h
    | ok m =>
      rw [hm] at h
      simp only [] at h
      cases hb : allMatch l with
      | error e => rw [hb] at h; cases h
      | ok b' =>
        rw [hb] at h
        simp only [] at h
        injection h with h
        subst h
        rw [List.forall_mem_cons, Bool.and_eq_true, ih b' hb]
        refine and_congr_left fun _ => ?_
        obtain ⟨r, hr⟩ : ∃ r, compareOutputs [pt] [gi] = .ok r := ⟨⟨m, npMean [m], [m]⟩, by
          simp only [compareOutputs, perSample, hm]
          cases m <;> rfl⟩
        have hrm : r.maxDiff = m := by
          have : compareOutputs [pt] [gi] = .ok ⟨m, npMean [m], [m]⟩ := by
            simp only [compareOutputs, perSample, hm]
            cases m <;> rfl
          rw [this] at hr
          injection hr with hr
          rw [← hr]
        have hlen : pt.length = gi.length := (((C123_report [pt] [gi]).1 ⟨r, hr⟩).2.2 0 pt gi rfl rfl).2
        cases m with
        | none =>
          simp only [Bool.false_eq_true, false_iff]
          intro hall
          rcases (C123_nan _ _ r hr).1 hrm with ⟨i, j, row, hrow, hv⟩ | ⟨i, j, row, hrow, hv⟩
          · cases i with
            | succ i => simp at hrow
            | zero =>
              have e : pt = row := by simpa using hrow
              subst e
              have hj : j < gi.length := by rw [← hlen]; exact (List.getElem?_eq_some_iff.1 hv).1
              obtain ⟨x, y, e, _⟩ := hall j none _ hv (List.getElem?_eq_getElem hj)
              cases e
          · cases i with
            | succ i => simp at hrow
            | zero =>
              have e : gi = row := by simpa using hrow
              subst e
              have hj : j < pt.length := by rw [hlen]; exact (List.getElem?_eq_some_iff.1 hv).1
              obtain ⟨x, y, _, e, _⟩ := hall j _ none (List.getElem?_eq_getElem hj) hv
              cases e
        | some m =>
          obtain ⟨hall, i, j, a, c, ⟨row, hrow, ha⟩, ⟨row', hrow', hc⟩, e⟩ := C123_max _ _ r m hr hrm
          simp only [decide_eq_true_eq]
          constructor
          · intro hlt j u v hu hv
            obtain ⟨x, y, rfl, ⟨row, hrow, hy⟩, hle⟩ := hall 0 j u ⟨pt, rfl, hu⟩
            have er : gi = row := by simpa using hrow
            subst er
            rw [hv] at hy
            cases hy
            exact ⟨x, y, rfl, rfl, lt_of_le_of_lt hle hlt⟩
          · intro hall'
            cases i with
            | succ i => simp at hrow
            | zero =>
              have er : pt = row := by simpa using hrow
              have er' : gi = row' := by simpa using hrow'
              subst er er'
              obtain ⟨x, y, e1, e2, hlt⟩ := hall' j _ _ ha hc
              cases e1
              cases e2
              rw [← e]
              exact hlt

/-- the hypotheses are met -/
example : (compareOutputs (numbers [[1, 5, 2], [4, 0, 0]]) (numbers [[1, 4, 2], [4, 1, 0]])).toOption = some ⟨some 1, some 1, [some 1, some 1]⟩ ∧
    predMatchCount (numbers [[1, 5, 2], [4, 0, 0]]) (numbers [[1, 4, 2], [4, 1, 0]]) = 2 := by decide +kernel
example : slices 2 [1, 2, 3, 4, 5] = [[1, 2], [3, 4], [5]] := rfl
example : IsArgsort [some 1, none, some 3] [2, 0, 1] := by
  refine ⟨by decide, ?_⟩
  simp [Before]

end OnnxTool.Props
