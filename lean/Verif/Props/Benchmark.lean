import Verif.Model.Benchmark
import Verif.Props.Diagnostics
import Verif.Props.Macs
import Mathlib.Tactic.Linarith
import Mathlib.Tactic.Ring
import Mathlib.Tactic.Positivity
import Mathlib.Tactic.NormNum
import Mathlib.Tactic.FieldSimp
/-!
# C124: benchmarks
-/
namespace OnnxTool.Props
open OnnxTool OnnxTool.Benchmark OnnxTool.Shape

/-- what a unit of `format_flops` means -/
def flopsUnit (u : String) : ℚ := if u = "FLOPS" then 1 else if u = "TFLOPS" then 10 ^ 12 else if u = "PFLOPS" then 10 ^ 15 else 10 ^ 18

/-- a unit of time in seconds -/
def secondsUnit (u : String) : ℚ := if u = "us" then 1 / 10 ^ 6 else if u = "ms" then 1 / 10 ^ 3 else 1

/-- **C124, the time.** What is shown, in its unit, is the time; of a time that is not negative at most three digits are in front of the point, unless seconds are shown. -/
theorem C124_time (sec : ℚ) : (formatTime sec).number * secondsUnit (formatTime sec).unit = sec ∧
    (0 ≤ sec → sec < 1 → 0 ≤ (formatTime sec).number ∧ (formatTime sec).number < 1000) ∧ (1 ≤ sec → formatTime sec = ⟨sec, "s"⟩) := by
  unfold formatTime
  by_cases h1 : sec < 1 / 10 ^ 3
  · rw [if_pos h1]
    refine ⟨?_, fun h0 _ => ⟨by positivity, ?_⟩, fun h => absurd h1 (by norm_num; linarith)⟩
    · simp [secondsUnit]
    · show sec * 10 ^ 6 < 1000
      norm_num at h1 ⊢
      linarith
  · rw [if_neg h1]
    by_cases h2 : sec < 1
    · rw [if_pos h2]
      refine ⟨?_, fun h0 _ => ⟨by positivity, ?_⟩, fun h => absurd h2 (by linarith)⟩
      · simp [secondsUnit]
      · show sec * 10 ^ 3 < 1000
        norm_num
        linarith
    · rw [if_neg h2]
      refine ⟨?_, fun _ h => absurd h h2, fun _ => rfl⟩
      simp [secondsUnit]

/-- **C124, a small rate.** Below a thousand operations per second the text is right. -/
theorem C124_flops_small (n : ℚ) (h : |n| < 1000) : formatFlops n = ⟨n, "FLOPS"⟩ := by
  simp [formatFlops, unitLoop, h]

/-- **C124 (finding), the rate.** From a thousand operations per second on, the text says a billion times the rate: the loop goes from FLOPS to TFLOPS in a step of a thousand. -/
theorem C124_flops_label (n : ℚ) (h : 1000 ≤ |n|) : (formatFlops n).unit ≠ "FLOPS" ∧ (formatFlops n).number * flopsUnit (formatFlops n).unit = n * 10 ^ 9 := by
  unfold formatFlops
  rw [unitLoop, if_neg (not_lt.2 h), unitLoop]
  by_cases h1 : |n / 1000| < 1000
  · rw [if_pos h1]
    refine ⟨by simp, ?_⟩
    simp [flopsUnit]
    ring
  · rw [if_neg h1, unitLoop]
    by_cases h2 : |n / 1000 / 1000| < 1000
    · rw [if_pos h2]
      refine ⟨by simp, ?_⟩
      simp [flopsUnit]
      ring
    · rw [if_neg h2, unitLoop]
      refine ⟨by simp, ?_⟩
      simp [flopsUnit]
      ring

/-- a tera-operation per second is shown as a thousand EFLOPS -/
example : formatFlops (10 ^ 12) = ⟨1000, "EFLOPS"⟩ := by decide +kernel

private theorem measured_spec (work elapsed : ℚ) (it : Nat) (r : Benchmark.Result) (h : measured work elapsed it = .ok r) :
    r.avgTime * it = elapsed ∧ r.flops * r.avgTime = work ∧ r.tflops * 10 ^ 12 = r.flops ∧ r.timeStr = formatTime r.avgTime ∧ r.flopsStr = formatFlops r.flops := by
  unfold measured at h
  by_cases hi : it = 0
  · rw [if_pos hi] at h; cases h
  · rw [if_neg hi] at h
    have hq : (it : ℚ) ≠ 0 := by exact_mod_cast hi
    simp only [] at h
    by_cases ha : elapsed / it = 0
    · rw [if_pos ha] at h; cases h
    · rw [if_neg ha] at h
      injection h with h
      subst h
      refine ⟨by simp only []; field_simp, ?_, ?_, rfl, rfl⟩
      · simp only []
        exact div_mul_cancel₀ _ ha
      · simp only []
        field_simp

/-- **C124, matrix products.** The rate times the time of an iteration is twice the MACs that the profiler counts for this MatMul; the column shows it in units of 10^12. -/
theorem C124_gemm (M N K : Nat) (elapsed : ℚ) (it : Nat) (r : Benchmark.Result) (h : benchmarkGemm M N K elapsed it = .ok r) :
    ∃ macs : Nat, Shape.gemmShape false false false [M, K] [K, N] = .ok [M, N] ∧ Macs.gemmMacs false false 2 [K, N] [M, N] = .ok macs ∧
      r.avgTime * it = elapsed ∧ r.flops * r.avgTime = 2 * macs ∧ r.tflops * 10 ^ 12 = r.flops := by
  obtain ⟨h1, h2, h3, _, _⟩ := measured_spec _ _ _ _ h
  refine ⟨M * N * K, ?_, ?_, h1, ?_, h3⟩
  · simp [Shape.gemmShape]
  · simp [Macs.gemmMacs, volume_prod]
  · rw [h2]; push_cast; ring

/-- **C124, when there is no result.** -/
theorem C124_no_time (work elapsed : ℚ) (it : Nat) : (∃ r, measured work elapsed it = .ok r) ↔ it ≠ 0 ∧ elapsed ≠ 0 := by
  unfold measured
  by_cases hi : it = 0
  · simp [hi]
  · have hq : (it : ℚ) ≠ 0 := by exact_mod_cast hi
    rw [if_neg hi]
    by_cases ha : elapsed = 0
    · simp [ha]
    · have : elapsed / it ≠ 0 := div_ne_zero ha hq
      simp [hi, ha]

private theorem conv_size (H k p s : Int) (hs : 0 < s) (h : k ≤ H + 2 * p) : Int.tdiv (H + (p + p) - 1 * (k - 1) - 1 + s) s = Int.fdiv (H + 2 * p - k) s + 1 := by
  have e : H + (p + p) - 1 * (k - 1) - 1 + s = (H + 2 * p - k) + 1 * s := by ring
  rw [e, Int.tdiv_eq_ediv_of_nonneg (by omega), Int.add_mul_ediv_right _ _ (by omega), Int.fdiv_eq_ediv_of_nonneg _ (by omega)]

/-- **C124, convolutions.** If the kernel fits, the output size is the one that shape inference finds, and the rate times the time of an iteration is twice the MACs that the profiler counts. -/
theorem C124_conv (N C H W oc k s p : Nat) (hs : 0 < s) (hH : k ≤ H + 2 * p) (hW : k ≤ W + 2 * p) (elapsed : ℚ) (it : Nat) (r : Benchmark.Result)
    (h : benchmarkConv N C H W oc k s p elapsed it = .ok r) :
    ∃ oh ow : Nat, Conv.convShape { pads := [p, p, p, p], strides := [s, s], dilations := [1, 1] } [N, C, H, W] [oc, C, k, k] = .ok [(N : Int), (oc : Int), (oh : Int), (ow : Int)] ∧
      r.flops * r.avgTime = 2 * (Macs.convMacs 2 1 [oc, C, k, k] [N, oc, oh, ow] : Nat) ∧ r.avgTime * it = elapsed ∧ r.tflops * 10 ^ 12 = r.flops := by
  have hs' : (0 : Int) < s := by exact_mod_cast hs
  have hs0 : ¬ (s : Int) = 0 := by omega
  have nn : ∀ D : Nat, k ≤ D + 2 * p → ∃ o : Nat, Int.fdiv ((D : Int) + 2 * p - k) s + 1 = o := by
    intro D hD
    have : 0 ≤ Int.fdiv ((D : Int) + 2 * p - k) s := by
      rw [Int.fdiv_eq_ediv_of_nonneg _ hs'.le]
      exact Int.ediv_nonneg (by omega) hs'.le
    exact ⟨(Int.fdiv ((D : Int) + 2 * p - k) s + 1).toNat, by omega⟩
  obtain ⟨oh, eh⟩ := nn H hH
  obtain ⟨ow, ew⟩ := nn W hW
  have e1 : convSize (H : Int) p k s = .ok (oh : Int) := by rw [convSize, if_neg hs0, eh]
  have e2 : convSize (W : Int) p k s = .ok (ow : Int) := by rw [convSize, if_neg hs0, ew]
  unfold benchmarkConv at h
  rw [e1] at h
  simp only [] at h
  rw [e2] at h
  simp only [] at h
  obtain ⟨h1, h2, h3, _, _⟩ := measured_spec _ _ _ _ h
  refine ⟨oh, ow, ?_, ?_, h1, h3⟩
  · have f1 : Conv.convOut (H : Int) (p + p) k s 1 = .ok (oh : Int) := by
      rw [Conv.convOut, if_neg hs0, conv_size _ _ _ _ hs' (by omega), eh]
    have f2 : Conv.convOut (W : Int) (p + p) k s 1 = .ok (ow : Int) := by
      rw [Conv.convOut, if_neg hs0, conv_size _ _ _ _ hs' (by omega), ew]
    simp [Conv.convShape, Conv.convAxis, Conv.idx, bind, Except.bind, pure, Except.pure, f1, f2]
  · rw [h2]
    simp [Macs.convMacs, volume_prod, Macs.MUL]
    push_cast
    ring

/-- **C124, the overhead.** For every profiled run: the totals are those of the run and of the engine's own table, the time of the overhead and of the kernels is the total, their percentages add up to 100, and
the average per node, in milliseconds, times the nodes is the overhead. -/
theorem C124_overhead (cs : List Diagnostics.Clock) (o : Overhead) (h : overheadOf (Diagnostics.record cs) = .ok o) :
    (∃ t, Diagnostics.report (Diagnostics.record cs) = .ok t ∧ t.overhead = o.overheadTotal ∧ t.kernel = o.kernelTotal ∧ t.total = o.totalTime ∧
      (0 < o.totalTime → t.overheadPct = o.overheadPct ∧ t.kernelPct = o.kernelPct)) ∧
    o.overheadTotal = Diagnostics.allBefore cs ∧ o.kernelTotal = Diagnostics.allKernels cs ∧ o.nodes = cs.length ∧ o.totalTime = o.overheadTotal + o.kernelTotal ∧
    (0 < o.totalTime → o.overheadPct + o.kernelPct = 100) ∧ o.avgPerNode * o.nodes = o.overheadTotal * 1000 ∧ o.resolve + o.prepare + o.lookup = o.overheadTotal := by
  obtain ⟨k1, k2, k3, k4, k5⟩ := C110_totals cs
  unfold overheadOf at h
  cases ht : Diagnostics.report (Diagnostics.record cs) with
  | error e => rw [ht] at h; cases h
  | ok t =>
    rw [ht] at h
    simp only [] at h
    injection h with h
    have hn : (Diagnostics.record cs).laps.length = cs.length := by
      have := congrArg List.length k5
      simpa using this
    have hcs : cs ≠ [] := by
      rintro rfl
      exact ((C110_printable []).1 ⟨t, ht⟩) (by simp [Diagnostics.allKernels, Diagnostics.allBefore])
    have hl : (Diagnostics.record cs).laps ≠ [] := by
      intro e
      rw [e] at hn
      exact hcs (List.length_eq_zero_iff.1 hn.symm)
    have hnq : ((Diagnostics.record cs).laps.length : ℚ) ≠ 0 := by
      intro e
      have : (Diagnostics.record cs).laps.length = 0 := by exact_mod_cast e
      exact hl (List.length_eq_zero_iff.1 this)
    obtain ⟨p1, p2, p3, p4, p5, p6, p7, p8⟩ := C110_percentages cs t ht
    subst h
    have htot : (Diagnostics.record cs).overhead + ((Diagnostics.record cs).opTime.map (·.2)).sum = Diagnostics.allKernels cs + Diagnostics.allBefore cs := by rw [k1, k3]; ring
    have hne : Diagnostics.allKernels cs + Diagnostics.allBefore cs ≠ 0 := (C110_printable cs).1 ⟨t, ht⟩
    refine ⟨⟨t, rfl, by rw [p7, k3], by rw [p6, k1], by rw [p5, htot], fun hpos => ?_⟩, k3, k1, hn, rfl, fun hpos => ?_, ?_, k4⟩
    · simp only [if_pos hpos]
      simp only [Diagnostics.report] at ht
      split at ht
      · cases ht
      · split at ht
        · cases ht
        · injection ht with ht
          subst ht
          simp only []
          rw [add_comm (Diagnostics.record cs).overhead]
          exact ⟨rfl, rfl⟩
    · simp only [if_pos hpos]
      rw [← add_mul, ← add_div, div_self hpos.ne', one_mul]
    · simp only [if_neg hl]
      field_simp

/-- **C124, the breakdown that compare.py prints.** The three shares add up to 100; if there is no overhead at all the script ends in a `ZeroDivisionError`, where the engine's own table shows zeros. -/
theorem C124_shares (cs : List Diagnostics.Clock) (o : Overhead) (h : overheadOf (Diagnostics.record cs) = .ok o) :
    (o.overheadTotal = 0 → printedShares o = .error .zeroDivision) ∧
    (o.overheadTotal ≠ 0 → ∃ a b c, printedShares o = .ok (a, b, c) ∧ a + b + c = 100 ∧ a * o.overheadTotal = o.resolve * 100 ∧ b * o.overheadTotal = o.prepare * 100 ∧ c * o.overheadTotal = o.lookup * 100) := by
  obtain ⟨-, -, -, -, -, -, -, hsum⟩ := C124_overhead cs o h
  refine ⟨fun h0 => by rw [printedShares, if_pos h0], fun h0 => ⟨_, _, _, by rw [printedShares, if_neg h0], ?_, ?_, ?_, ?_⟩⟩
  · rw [← add_mul, ← add_mul, ← add_div, ← add_div, hsum, div_self h0, one_mul]
  all_goals field_simp

private theorem foldl_max_ge (l : List ℚ) (v : ℚ) : v ≤ l.foldl max v ∧ ∀ x ∈ l, x ≤ l.foldl max v := by
  induction l generalizing v with
  | nil => exact ⟨le_refl _, fun x hx => by simp at hx⟩
  | cons a l ih =>
    obtain ⟨h1, h2⟩ := ih (max v a)
    refine ⟨le_trans (le_max_left _ _) h1, fun x hx => ?_⟩
    rcases List.mem_cons.1 hx with rfl | hx
    · exact le_trans (le_max_right _ _) h1
    · exact h2 x hx

/-- **C124, the plot.** If some memory was used, every value is drawn inside the chart, at a height in proportion to it (so more memory is drawn higher), and below the upper edge. -/
theorem C124_plot (v : ℚ) (vals : List ℚ) (top chartH : ℚ) (hc : 0 < chartH) (hn : ∀ x ∈ v :: vals, 0 ≤ x) (hp : ∃ x ∈ v :: vals, 0 < x) :
    ∀ x ∈ v :: vals, ∃ y, yToPx top chartH (yMax v vals) x = .ok y ∧ top < y ∧ y ≤ top + chartH ∧ (top + chartH - y) * yMax v vals = x * chartH := by
  obtain ⟨h1, h2⟩ := foldl_max_ge vals v
  have hall : ∀ x ∈ v :: vals, x ≤ vals.foldl max v := fun x hx => by
    rcases List.mem_cons.1 hx with rfl | hx
    · exact h1
    · exact h2 x hx
  obtain ⟨z, hz, hz0⟩ := hp
  have hM : 0 < vals.foldl max v := lt_of_lt_of_le hz0 (hall z hz)
  have hy : 0 < yMax v vals := by unfold yMax; positivity
  intro x hx
  refine ⟨_, by rw [yToPx, if_neg hy.ne'], ?_, ?_, ?_⟩
  · have : x / yMax v vals < 1 := by
      rw [div_lt_one hy]
      unfold yMax
      have := hall x hx
      linarith
    nlinarith
  · have : 0 ≤ x / yMax v vals := div_nonneg (hn x hx) hy.le
    nlinarith
  · field_simp
    ring

/-- **C124, the axis of the plot.** It ends fifteen percent above the largest value. -/
theorem C124_plot_axis (v : ℚ) (vals : List ℚ) : ∃ x ∈ v :: vals, (∀ y ∈ v :: vals, y ≤ x) ∧ yMax v vals = x + x * 15 / 100 := by
  have mem : ∀ (l : List ℚ) (v : ℚ), l.foldl max v ∈ v :: l := by
    intro l
    induction l with
    | nil => intro v; exact List.mem_cons_self
    | cons a l ih =>
      intro v
      rw [List.foldl_cons]
      rcases List.mem_cons.1 (ih (max v a)) with h | h
      · rw [h]
        rcases max_choice v a with h | h <;> rw [h] <;> simp
      · exact List.mem_cons_of_mem _ (List.mem_cons_of_mem _ h)
  obtain ⟨h1, h2⟩ := foldl_max_ge vals v
  refine ⟨_, mem vals v, fun y hy => ?_, by unfold yMax; ring⟩
  rcases List.mem_cons.1 hy with rfl | hy
  · exact h1
  · exact h2 y hy

/-- **C124 (finding), nothing measured.** If all values are zero (no GPU memory) the script ends in a `ZeroDivisionError`. -/
theorem C124_plot_zero (n : Nat) (top chartH x : ℚ) : yToPx top chartH (yMax 0 (List.replicate n 0)) x = .error .zeroDivision := by
  have : ∀ n : Nat, (List.replicate n (0 : ℚ)).foldl max 0 = 0 := by
    intro n
    induction n with
    | zero => rfl
    | succ n ih => rw [List.replicate_succ, List.foldl_cons, max_self, ih]
  rw [yToPx, if_pos (by rw [yMax, this]; simp)]

/-- the hypotheses are met -/
example : (overheadOf (Diagnostics.record [⟨"a", "Conv", 0, 1, 2, 3, 3, 7⟩])).toOption.map (fun o => [o.overheadTotal, o.kernelTotal, o.avgPerNode]) = some [3, 4, 3000] := by decide +kernel
example : (benchmarkConv 1 3 224 224 64 7 2 3 5 10).toOption.map (·.flops) = some (2 * (64 * 112 * 112 * 3 * 7 * 7) * 2) := by decide +kernel

end OnnxTool.Props
