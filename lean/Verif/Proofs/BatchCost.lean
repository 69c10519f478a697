import Verif.Proofs.Batch
import Verif.Props.MacsOps
import Verif.Props.Profile
/-! # The cost of a node for two batch sizes -/
namespace OnnxTool.Batch
open OnnxTool OnnxTool.Shape OnnxTool.Macs OnnxTool.Props

theorem vol_first (b : Nat) (r : Shp) : Shape.volume (b :: r) = b * Shape.volume (1 :: r) := by
  have h : ∀ (l : List Nat) (v : Nat), l.foldl (fun v d => v * d) v = v * l.prod := by
    intro l
    induction l with
    | nil => intro v; simp
    | cons d l ih => intro v; rw [List.foldl_cons, ih, List.prod_cons, Nat.mul_assoc]
  unfold Shape.volume
  simp only [List.length_cons, Nat.succ_pos, if_true, h, List.prod_cons]
  ring

/-- `m` times a cost -/
def times (m : Nat) (q : Except PyErr Int) : Except PyErr Int := q.map ((m : Int) * ·)

theorem opMacs_times (op : String) (hop : op ≠ "LSTM" ∧ op ≠ "GRU") (nin : Nat) (a : CostAttrs) (x y : Shp) (ws ys : List Shp)
    (hax : op = "LayerNormalization" → ∃ k : Nat, k < x.length ∧ (a.axis = (k : Int) + 1 ∨ a.axis = (k : Int) - x.length)) (n : Nat) :
    opMacs op nin a (((n + 1) :: x) :: ws) (((n + 1) :: y) :: ys) = times (n + 1) (opMacs op nin a ((1 :: x) :: ws) ((1 :: y) :: ys)) := by
  induction n with
  | zero =>
    unfold times
    cases opMacs op nin a ((1 :: x) :: ws) ((1 :: y) :: ys) with
    | error e => rfl
    | ok m => simp [Except.map]
  | succ n ih =>
    rw [C90_batch op hop nin a (n + 1) 1 x y ws ys hax, ih]
    unfold times
    cases opMacs op nin a ((1 :: x) :: ws) ((1 :: y) :: ys) with
    | error e => rfl
    | ok m =>
      simp only [Except.map, addResults]
      congr 1; push_cast; ring

theorem opMacs_dep (op : String) (hop : op ≠ "LSTM" ∧ op ≠ "GRU") (nin : Nat) (a : CostAttrs) (x y : Shp) (ws ws' ys ys' : List Shp) (hl : ws.length = ws'.length) (hy : ys.length = ys'.length)
    (h0 : op = "ConvInteger" → ws[0]? = ws'[0]?) (h2 : op ∈ ["QLinearMatMul", "QLinearConv"] → ws[2]? = ws'[2]?) :
    opMacs op nin a (x :: ws) (y :: ys) = opMacs op nin a (x :: ws') (y :: ys') := by
  unfold opMacs
  split
  · rfl
  · split
    · rfl
    · split
      · rfl
      · simp only [Macs.first]
        unfold ownMacs
        split
        · rfl
        · rfl
        · rfl
        · rfl
        · rfl
        · exact absurd rfl hop.1
        · exact absurd rfl hop.2
        · have h2 := h2 (by simp)
          have e : ∀ l : List Shp, qmatmulMacs (x :: l) = match l[2]? with
              | none => .error .indexError
              | some w => match w.getLast? with
                | none => .error .indexError
                | some n => .ok (Shape.volume x * n) := by
            intro l
            match l with
            | [] => rfl
            | [_] => rfl
            | [_, _] => rfl
            | _ :: _ :: _ :: _ => rfl
          rw [e ws, e ws', h2]
        · have h2 := h2 (by simp)
          cases ys with
          | nil =>
            cases ys' with
            | nil =>
              simp only [qlinearConvMacs, List.getElem?_cons_succ, List.length_cons, h2, hl]
            | cons _ _ => simp at hy
          | cons _ _ =>
            cases ys' with
            | nil => simp at hy
            | cons _ _ => rfl
        · have h0 := h0 rfl
          cases ys with
          | nil =>
            cases ys' with
            | nil => simp only [convIntegerMacs, List.getElem?_cons_succ, h0]
            | cons _ _ => simp at hy
          | cons _ _ =>
            cases ys' with
            | nil => simp at hy
            | cons _ _ => rfl
        · rfl

theorem pool_times (kernel y : Shp) (b : Nat) : ((poolMacs kernel (b :: y)).map fun n : Nat => (n : Int)) = times b ((poolMacs kernel (1 :: y)).map fun n : Nat => (n : Int)) := by
  unfold poolMacs times
  match kernel with
  | [] => rfl
  | [k] => simp only [Except.map]; rw [vol_first b]; congr 1; push_cast; ring
  | [k, l] => simp only [Except.map]; rw [vol_first b]; congr 1; push_cast; ring
  | k :: _ :: _ :: _ => simp only [Except.map]; rw [vol_first b]; congr 1; push_cast; ring

theorem gemm_times (gemm transB : Bool) (nin : Nat) (w y : Shp) (b : Nat) :
    ((gemmMacs gemm transB nin w (b :: y)).map fun n : Nat => (n : Int)) = times b ((gemmMacs gemm transB nin w (1 :: y)).map fun n : Nat => (n : Int)) := by
  unfold gemmMacs times
  have hb : ∀ v : Nat, (if nin = 3 then b * v * ADD else 0) = b * (if nin = 3 then v * ADD else 0) := by intro v; split <;> ring
  split
  · simp only [vol_first b y, hb]
    split
    · split
      · cases w.getLast? with
        | none => rfl
        | some k => simp only [Except.map]; congr 1; push_cast; ring
      · split
        · simp only [Except.map]; congr 1; push_cast; ring
        · rfl
    · split
      · simp only [Except.map]; congr 1; push_cast; ring
      · simp only [Except.map]; congr 1; push_cast; ring
  · rfl

theorem gemm_stack (nin : Nat) (b : Nat) (r y : Shp) (hr : 2 ≤ r.length) : gemmMacs false false nin (b :: r) y = gemmMacs false false nin (1 :: r) y := by
  unfold gemmMacs
  have e : ∀ d : Nat, (d :: r).getD (List.length r + 1 - 2) 0 = r.getD (r.length - 2) 0 := by
    intro d
    obtain ⟨k, hk⟩ : ∃ k, r.length = k + 2 := ⟨r.length - 2, by omega⟩
    rw [hk]
    show (d :: r).getD (k + 1) 0 = r.getD k 0
    rfl
  simp only [e, List.length_cons, Bool.false_eq_true, if_false]

theorem gemm_mm (nin : Nat) (tb : Bool) (w y : Shp) : gemmMacs false tb nin w y = gemmMacs false false nin w y := by
  unfold gemmMacs; rfl

theorem conv_times (nin nout : Nat) (w y : Shp) (b : Nat) : convMacs nin nout w (b :: y) = b * convMacs nin nout w (1 :: y) := by
  unfold convMacs
  split
  · split
    · rw [vol_first b]
      split <;> ring
    · simp
  · simp

/-- the cost of a node is that of one sample, times the batch -/
theorem core_times (a : NodeAttrs) (op : String) (b c : Nat) (hb : 0 < b) (hc : 0 < c) (ins ins' outs outs' : List Shp) (h : CostOk a op b c ins ins' outs outs') :
    ∃ q, coreMacs a op ins outs = times b q ∧ coreMacs a op ins' outs' = times c q := by
  obtain ⟨x, ws, ws', rfl, rfl, hl, h1, h2, h3, h4⟩ := h.first
  obtain ⟨y, ys, ys', rfl, rfl, hy⟩ := h.out
  have hget : ∀ (d : Shp) (l : List Shp), (d :: l).getD 1 [] = (l[0]?).getD [] := by
    intro d l
    rw [List.getD_cons_succ, List.getD_eq_getElem?_getD]
  unfold coreMacs
  by_cases ho1 : op = "Conv" ∨ op = "ConvTranspose"
  · simp only [if_pos ho1]
    refine ⟨.ok (convMacs (ws.length + 1) (ys.length + 1) ((ws[0]?).getD []) (1 :: y) : Nat), ?_, ?_⟩
    · unfold times
      rw [hget]
      simp only [List.length_cons, List.getD_cons_zero, Except.map]
      rw [conv_times]; push_cast; rfl
    · unfold times
      rw [hget]
      simp only [List.length_cons, List.getD_cons_zero, Except.map]
      rw [conv_times, ← hl, ← hy, ← h1 (by rcases ho1 with rfl | rfl <;> simp)]; push_cast; rfl
  · simp only [if_neg ho1]
    by_cases ho2 : op = "AveragePool" ∨ op = "MaxPool"
    · simp only [if_pos ho2]
      exact ⟨_, pool_times a.kernel y b, pool_times a.kernel y c⟩
    · simp only [if_neg ho2]
      by_cases ho3 : op = "Gemm" ∨ op = "MatMul"
      · simp only [if_pos ho3, Macs.first, Except.bind, hget, List.length_cons, ← hl]
        by_cases ho4 : op = "Gemm"
        · refine ⟨_, gemm_times _ _ _ _ y b, ?_⟩
          rw [← h1 (by simp [ho4])]
          exact gemm_times _ _ _ _ y c
        · have hm : op = "MatMul" := by tauto
          rcases h2 hm with h | ⟨r, hr, e1, e2⟩
          · exact ⟨_, gemm_times _ _ _ _ y b, by rw [← h]; exact gemm_times _ _ _ _ y c⟩
          · rw [e1, e2]
            simp only [Option.getD_some, ho4, decide_false]
            refine ⟨(gemmMacs false false (ws.length + 1) (1 :: r) (1 :: y)).map fun n : Nat => (n : Int), ?_, ?_⟩
            · rw [gemm_mm, gemm_times, gemm_stack _ _ _ _ hr]
            · rw [gemm_mm, gemm_times, gemm_stack _ _ _ _ hr]
      · simp only [if_neg ho3]
        obtain ⟨n, rfl⟩ : ∃ n, b = n + 1 := ⟨b - 1, by omega⟩
        obtain ⟨k, rfl⟩ : ∃ k, c = k + 1 := ⟨c - 1, by omega⟩
        refine ⟨_, opMacs_times op h.op _ a.cost x y ws ys h4 n, ?_⟩
        rw [List.length_cons, ← hl, ← opMacs_dep op h.op _ a.cost _ _ ws ws' ys ys' hl hy (fun e => h1 (by simp [e])) h3]
        exact opMacs_times op h.op _ a.cost x y ws ys h4 k

end OnnxTool.Batch

namespace OnnxTool.Batch
open OnnxTool OnnxTool.Shape OnnxTool.Macs OnnxTool.ShapeInfer OnnxTool.Profile

/-- the shape of a tensor after shape inference -/
def shp (r : TMap Int) (t : String) : List Nat := (concrete (r t).shape).getD []

theorem pair_scaled {R : Roles} {b c : Nat} {r r' : TMap Int} {t : String} (h : Pair R b c t (seen (r t)) (seen (r' t))) :
    Scaled (R.batched t) b c (shp r t) (shp r' t) ∧ (shp r t).length = (r t).shape.length := by
  obtain ⟨s, s', h1, h2, h3⟩ := h.shape
  replace h1 : (r t).shape = asDims s := h1
  replace h2 : (r' t).shape = asDims s' := h2
  unfold shp
  rw [h1, h2, concrete_asDims, concrete_asDims]
  exact ⟨h3.1, by simp [asDims]⟩

/-- one tensor of `infos` -/
def info (static : String → Bool) (elesize : String → Nat) (r : TMap Int) (t : String) : TInfo := { name := t, static := static t, shape := shp r t, elesize := elesize t }

theorem get_map {α : Type} (f : String → α) (l : List String) (t : String) (h : t ∈ l) : Dict.get? (l.map fun t => (t, f t)) t = some (f t) := by
  induction l with
  | nil => cases h
  | cons u l ih =>
    by_cases e : u = t
    · subst e; simp [Dict.get?]
    · rcases List.mem_cons.1 h with h | h
      · exact absurd h.symm e
      · exact Eq.trans (if_neg e) (ih h)

theorem lookups_infos (static : String → Bool) (elesize : String → Nat) (r : TMap Int) (g : Graph) (l : List String) (h : ∀ t ∈ l, t ∈ g.nodemap.flatMap fun n => n.input ++ n.output) :
    lookups (infos static elesize r g) l = .ok (l.map (info static elesize r)) := by
  induction l with
  | nil => rfl
  | cons t l ih =>
    have h1 : (infos static elesize r g).get? t = some (info static elesize r t) := get_map (info static elesize r) _ t (h t (by simp))
    rw [lookups, h1, ih fun u hu => h u (by simp [hu])]
    rfl

theorem volume_eq (s : List Nat) : Profile.volume s = Shape.volume s := by
  unfold Profile.volume Shape.volume
  cases s with
  | nil => rfl
  | cons d s => simp

theorem sum_batched (b c : Nat) (f f' : String → Nat) (l : List String) (h : ∀ t ∈ l, ∃ v, f t = b * v ∧ f' t = c * v) : ∃ v, (l.map f).sum = b * v ∧ (l.map f').sum = c * v := by
  induction l with
  | nil => exact ⟨0, rfl, rfl⟩
  | cons t l ih =>
    obtain ⟨v, h1, h2⟩ := h t (by simp)
    obtain ⟨w, h3, h4⟩ := ih fun u hu => h u (by simp [hu])
    exact ⟨v + w, by rw [List.map_cons, List.sum_cons, h1, h3]; ring, by rw [List.map_cons, List.sum_cons, h2, h4]; ring⟩

/-- the row of a node for two batch sizes -/
theorem node_rows (R : Roles) (b c : Nat) (hb : 0 < b) (hc : 0 < c) (g : Graph) (r r' : TMap Int) (static : String → Bool) (elesize : String → Nat) (attrs : String → NodeAttrs)
    (hP : ∀ t, Pair R b c t (seen (r t)) (seen (r' t))) (hs : ∀ t, static t = true → ¬ R.batched t) (n : Node) (hn : n ∈ g.nodemap)
    (hcost : CostNode R (fun t => (r t).shape.length) (attrs n.name) n ∨ ∀ t ∈ n.input ++ n.output, ¬ R.batched t) (row : Row)
    (h : profileNode (profOf attrs) (infos static elesize r g) n = .ok row) :
    ∃ row', profileNode (profOf attrs) (infos static elesize r' g) n = .ok row' ∧ row'.params = row.params ∧
      (CostNode R (fun t => (r t).shape.length) (attrs n.name) n → ∃ k : Int, row.macs = (b : ℚ) * k ∧ row'.macs = (c : ℚ) * k) ∧
      ((∀ t ∈ n.input ++ n.output, ¬ R.batched t) → row' = row) ∧
      ((∀ t ∈ n.output, R.batched t) → ∀ x, n.input.head? = some x → ∃ v : Nat, row.memory = b * v + row.params * elesize x ∧ row'.memory = c * v + row.params * elesize x) := by
  have hin : ∀ t ∈ n.input, t ∈ g.nodemap.flatMap fun n => n.input ++ n.output := fun t ht => List.mem_flatMap.2 ⟨n, hn, by simp [ht]⟩
  have hout : ∀ t ∈ n.output, t ∈ g.nodemap.flatMap fun n => n.input ++ n.output := fun t ht => List.mem_flatMap.2 ⟨n, hn, by simp [ht]⟩
  have hsc : ∀ t, Scaled (R.batched t) b c (shp r t) (shp r' t) := fun t => (pair_scaled (hP t)).1
  have hrank : ∀ t, (shp r t).length = (r t).shape.length := fun t => (pair_scaled (hP t)).2
  have hshape : ∀ (q : TMap Int) (l : List String), (l.map (info static elesize q)).map (·.shape) = l.map (shp q) := fun q l => by rw [List.map_map]; rfl
  have hpar : ((n.input.map (info static elesize r')).filter fun t => t.name != "" && t.static).map (fun t => Profile.volume t.shape) =
      ((n.input.map (info static elesize r)).filter fun t => t.name != "" && t.static).map (fun t => Profile.volume t.shape) := by
    generalize n.input = l
    induction l with
    | nil => rfl
    | cons t l ih =>
      rw [List.map_cons, List.map_cons, List.filter_cons, List.filter_cons]
      by_cases hst : static t = true
      · have e : shp r t = shp r' t := (hsc t).same (hs t hst)
        have e' : info static elesize r' t = info static elesize r t := by unfold info; rw [e]
        rw [e']
        split
        · rw [List.map_cons, List.map_cons, ih]
        · exact ih
      · have h1 : ∀ q, ((info static elesize q t).name != "" && (info static elesize q t).static) = false := by
          intro q; unfold info; simp [hst]
        simp only [h1, Bool.false_eq_true, if_false]
        exact ih
  unfold profileNode at h
  rw [lookups_infos static elesize r g _ hin, lookups_infos static elesize r g _ hout] at h
  simp only [profOf, hshape] at h
  -- the MACs
  have hmacs : ∀ m, coreMacs (attrs n.name) n.op (n.input.map (shp r)) (n.output.map (shp r)) = .ok m →
      ∃ m', coreMacs (attrs n.name) n.op (n.input.map (shp r')) (n.output.map (shp r')) = .ok m' ∧
        (CostNode R (fun t => (r t).shape.length) (attrs n.name) n → ∃ k : Int, m = b * k ∧ m' = c * k) ∧ ((∀ t ∈ n.input ++ n.output, ¬ R.batched t) → m' = m) := by
    intro m hm
    by_cases hf : ∀ t ∈ n.input ++ n.output, ¬ R.batched t
    · have e1 : n.input.map (shp r') = n.input.map (shp r) := List.map_congr_left fun t ht => ((hsc t).same (hf t (by simp [ht]))).symm
      have e2 : n.output.map (shp r') = n.output.map (shp r) := List.map_congr_left fun t ht => ((hsc t).same (hf t (by simp [ht]))).symm
      rw [e1, e2]
      refine ⟨m, hm, fun hcn => ?_, fun _ => rfl⟩
      obtain ⟨x, ws, hi, hx, _⟩ := hcn.first
      exact absurd hx (hf x (by simp [hi]))
    · have hcn : CostNode R (fun t => (r t).shape.length) (attrs n.name) n := hcost.resolve_right hf
      obtain ⟨x, ws, hi, hx, w1, w2, w3, w4⟩ := hcn.first
      obtain ⟨y, ys, ho, hy⟩ := hcn.out
      obtain ⟨xr, x1, x2⟩ := (hsc x).batch hx
      obtain ⟨yr, y1, y2⟩ := (hsc y).batch hy
      have hget : ∀ (i : Nat), (∀ w, ws[i]? = some w → ¬ R.batched w) → (ws.map (shp r))[i]? = (ws.map (shp r'))[i]? := by
        intro i hw
        rw [List.getElem?_map, List.getElem?_map]
        cases e : ws[i]? with
        | none => rfl
        | some w => exact congrArg some ((hsc w).same (hw w e))
      have hok : CostOk (attrs n.name) n.op b c (n.input.map (shp r)) (n.input.map (shp r')) (n.output.map (shp r)) (n.output.map (shp r')) := by
        refine ⟨⟨xr, ws.map (shp r), ws.map (shp r'), by rw [hi, List.map_cons, x1], by rw [hi, List.map_cons, x2], by simp, fun h => hget 0 (w1 h), fun h => ?_, fun h => hget 2 (w3 h), fun h => ?_⟩,
          ⟨yr, ys.map (shp r), ys.map (shp r'), by rw [ho, List.map_cons, y1], by rw [ho, List.map_cons, y2], by simp⟩, hcn.op⟩
        · cases e : ws[0]? with
          | none => left; simp [e]
          | some w =>
            by_cases hw : R.batched w
            · obtain ⟨wr, e1, e2⟩ := (hsc w).batch hw
              have hr := w2 h w e hw
              have := hrank w
              rw [e1] at this
              refine .inr ⟨wr, ?_, by rw [List.getElem?_map, e, Option.map_some, e1], by rw [List.getElem?_map, e, Option.map_some, e2]⟩
              simp only [List.length_cons] at this hr
              omega
            · left
              exact hget 0 fun w' h' => by rw [e] at h'; cases h'; exact hw
        · obtain ⟨k, hk, hax⟩ := w4 h
          have := hrank x
          rw [x1] at this
          simp only [List.length_cons] at this hk hax
          refine ⟨k, by omega, ?_⟩
          rcases hax with h | h
          · exact .inl h
          · right; rw [h, ← this]; push_cast; ring
      obtain ⟨q, q1, q2⟩ := core_times (attrs n.name) n.op b c hb hc _ _ _ _ hok
      rw [q1] at hm
      cases q with
      | error e => cases hm
      | ok k =>
        cases hm
        exact ⟨_, q2, fun _ => ⟨k, rfl, rfl⟩, fun h => absurd h hf⟩
  split at h
  · cases h
  · rename_i macs io st heq
    split at heq
    · cases heq
    · rename_i m hm
      simp only [Except.ok.injEq, Prod.mk.injEq] at heq
      obtain ⟨rfl, rfl, rfl⟩ := heq
      obtain ⟨m', k1, k2, k3⟩ := hmacs m hm
      unfold profileNode
      rw [lookups_infos static elesize r' g _ hin, lookups_infos static elesize r' g _ hout]
      simp only [profOf, hshape, k1]
      simp only [Except.ok.injEq] at h
      subst h
      refine ⟨_, rfl, by rw [hpar], fun hcn => ?_, fun hf => ?_, fun hbo x hx => ?_⟩
      · obtain ⟨k, e1, e2⟩ := k2 hcn
        exact ⟨k, by rw [e1]; push_cast; rfl, by rw [e2]; push_cast; rfl⟩
      · have e1 : n.input.map (info static elesize r') = n.input.map (info static elesize r) :=
          List.map_congr_left fun t ht => by unfold info; rw [(hsc t).same (hf t (by simp [ht]))]
        have e2 : n.output.map (info static elesize r') = n.output.map (info static elesize r) :=
          List.map_congr_left fun t ht => by unfold info; rw [(hsc t).same (hf t (by simp [ht]))]
        rw [k3 hf, e1, e2]
      · obtain ⟨v, v1, v2⟩ := sum_batched b c (fun t => Profile.volume (shp r t)) (fun t => Profile.volume (shp r' t)) n.output (fun t ht => by
          obtain ⟨tr, t1, t2⟩ := (hsc t).batch (hbo t ht)
          exact ⟨Shape.volume (1 :: tr), by rw [t1, volume_eq, vol_first], by rw [t2, volume_eq, vol_first]⟩)
        have hmap : ∀ q : TMap Int, ((n.output.map (info static elesize q)).map fun t => Profile.volume t.shape) = n.output.map fun t => Profile.volume (shp q t) := fun q => by
          rw [List.map_map]; rfl
        obtain ⟨xs, hxs⟩ : ∃ xs, n.input = x :: xs := by
          cases hi : n.input with
          | nil => rw [hi] at hx; cases hx
          | cons y ys => rw [hi] at hx; cases hx; exact ⟨ys, rfl⟩
        refine ⟨v * (match n.output with | [] => 4 | o :: _ => elesize o), ?_, ?_⟩
        · dsimp only
          rw [hmap, v1, hxs]
          cases n.output with
          | nil => simp only [List.map_nil, List.map_cons, info]; ring
          | cons o os => simp only [List.map_cons, info]; ring
        · dsimp only
          rw [hpar, hmap, v2, hxs]
          cases n.output with
          | nil => simp only [List.map_nil, List.map_cons, info]; ring
          | cons o os => simp only [List.map_cons, info]; ring

end OnnxTool.Batch
