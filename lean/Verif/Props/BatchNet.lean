import Verif.Props.BatchOps
/-!
# C120: networks on a batch, from their operators
-/
namespace OnnxTool.Props
open OnnxTool OnnxTool.ShapeInfer OnnxTool.Topsort OnnxTool.Profile OnnxTool.Batch

private theorem shapesOf_map (G : String → Seen Int) (S : String → List Nat) (l : List String) (h : ∀ t ∈ l, (G t).shape = asDims (S t)) : Grow.shapesOf (l.map G) = some (l.map S) := by
  induction l with
  | nil => rfl
  | cons t l ih =>
    simp only [List.map_cons, Grow.shapesOf]
    rw [h t (by simp), concrete_asDims, ih fun q hq => h q (by simp [hq])]

private theorem asDims_ofNat (y : List Nat) : (y.map Int.ofNat).map Engine.Dim.num = asDims y := by
  unfold asDims; rw [List.map_map]; rfl

private theorem asDims_inv (y : List Int) (s : List Nat) (h : y.map Engine.Dim.num = asDims s) : y = s.map Int.ofNat := by
  rw [← asDims_ofNat] at h
  exact List.map_injective_iff.2 (fun a b e => by injection e) h

/-- **C120, from shapes to nodes.** A node that computes the shape of its output from the shapes of its operands, the same but for the batch if they are, works sample by sample. -/
theorem C120_by_shape (run : Run Int) (value : Bool) (R : Roles) (b c : Nat) (n : Node) (o : String) (f : List (List Nat) → Except PyErr (List Int)) (hrun : ∀ ins outs, run value n ins outs = Grow.byShape f ins)
    (ho : n.output = [o]) (hc : ¬ R.constant o)
    (hf : ∀ (S S' : String → List Nat) (y : List Nat), (∀ t ∈ n.input, Shapes R b c t (S t) (S' t)) → f (n.input.map S) = .ok (y.map Int.ofNat) →
      ∃ y' : List Nat, f (n.input.map S') = .ok (y'.map Int.ofNat) ∧ Shapes R b c o y y') :
    SetsAll run value n ∧ BatchNode run value R b c n := by
  have hset : SetsAll run value n := by
    intro ins outs us h
    rw [hrun] at h
    unfold Grow.byShape at h
    split at h
    · cases h
    · split at h
      · cases h
      · cases h; rw [ho]; rfl
  refine ⟨hset, fun G G' outs outs' us hG h hl hpos => ?_⟩
  classical
  let S : String → List Nat := fun t => (concrete (G t).shape).getD []
  let S' : String → List Nat := fun t => (concrete (G' t).shape).getD []
  have hS : ∀ t ∈ n.input, (G t).shape = asDims (S t) ∧ (G' t).shape = asDims (S' t) ∧ Shapes R b c t (S t) (S' t) := by
    intro t ht
    obtain ⟨s, s', h1, h2, h3⟩ := (hG t ht).shape
    have e1 : S t = s := by show (concrete (G t).shape).getD [] = s; rw [h1, concrete_asDims]; rfl
    have e2 : S' t = s' := by show (concrete (G' t).shape).getD [] = s'; rw [h2, concrete_asDims]; rfl
    rw [e1, e2]; exact ⟨h1, h2, h3⟩
  rw [hrun] at h ⊢
  unfold Grow.byShape at h ⊢
  rw [shapesOf_map G S _ fun t ht => (hS t ht).1] at h
  rw [shapesOf_map G' S' _ fun t ht => (hS t ht).2.1]
  simp only at h ⊢
  cases hy : f (n.input.map S) with
  | error e => rw [hy] at h; cases h
  | ok y =>
    rw [hy] at h
    cases h
    obtain ⟨s, hs⟩ := hpos _ (List.mem_singleton.2 rfl)
    have hys := asDims_inv y s hs
    subst hys
    obtain ⟨y', h1, h2⟩ := hf S S' s (fun t ht => (hS t ht).2.2) hy
    rw [h1]
    refine ⟨_, rfl, by rw [ho]; rfl, fun i q u u' hq hu hu' => ?_⟩
    rw [ho] at hq
    cases i with
    | succ i => simp at hq
    | zero =>
      simp only [List.getElem?_cons_zero, Option.some.injEq] at hq hu hu'
      subst hq; subst hu; subst hu'
      exact ⟨⟨s, y', asDims_ofNat s, asDims_ofNat y', h2⟩, fun h => absurd h hc⟩

/-- **C120, operators with one data operand.** A node whose first operand and output are on the batch, and whose other operands (weights) are not, with an operator that works sample by sample. -/
theorem C120_data_operand (run : Run Int) (value : Bool) (R : Roles) (b c : Nat) (hb : 0 < b) (hc : 0 < c) (n : Node) (x o : String) (ws : List String) (ok : List Nat → Prop)
    (f : List (List Nat) → List Nat → Except PyErr (List Int)) (hf : ∀ w : List (List Nat), w.length = ws.length → PerSample ok (f w))
    (hrun : ∀ ins outs, run value n ins outs = Grow.byShape (fun ss => match ss with | x :: ws => f ws x | [] => .error .indexError) ins)
    (hi : n.input = x :: ws) (ho : n.output = [o]) (hx : R.batched x) (hob : R.batched o) (hw : ∀ w ∈ ws, ¬ R.batched w) (hco : ¬ R.constant o)
    (hok : ∀ r : List Nat, (∀ k, R.rank x = some k → r.length + 1 = k) → ok r)
    (hrank : ∀ (w : List (List Nat)) (r : List Nat) (y : List Nat), w.length = ws.length → ok r → f w (b :: r) = .ok (y.map Int.ofNat) → ∀ k, R.rank o = some k → y.length = k) :
    SetsAll run value n ∧ BatchNode run value R b c n := by
  refine C120_by_shape run value R b c n o _ hrun ho hco fun S S' y hS hy => ?_
  rw [hi, List.map_cons] at hy ⊢
  simp only at hy ⊢
  have hws : ws.map S' = ws.map S := by
    refine List.map_congr_left fun w hw' => ?_
    exact ((hS w (by rw [hi]; simp [hw'])).1.same (hw w hw')).symm
  rw [hws]
  obtain ⟨r, e1, e2⟩ := (hS x (by rw [hi]; simp)).1.batch hx
  have hr : ok r := hok r fun k hk => by
    have := (hS x (by rw [hi]; simp)).2 k hk
    rw [e1] at this; simpa using this
  obtain ⟨g, hg⟩ := hf (ws.map S) (by simp)
  rw [e1] at hy
  rw [e2]
  have hy' := hy
  rw [hg r hr b hb] at hy
  rw [hg r hr c hc]
  cases hgr : g r with
  | error e => rw [hgr] at hy; cases hy
  | ok z =>
    rw [hgr] at hy
    replace hy := Except.ok.inj hy
    cases y with
    | nil => cases hy
    | cons d y =>
      rw [List.map_cons] at hy
      injection hy with h1 h2
      have hd : d = b := (Int.ofNat.inj (show Int.ofNat b = Int.ofNat d from h1)).symm
      subst hd
      refine ⟨c :: y, ?_, ⟨⟨fun _ => ⟨y, rfl, rfl⟩, fun h => absurd hob h⟩, hrank _ r _ (by simp) hr hy'⟩⟩
      rw [List.map_cons, ← h2]; rfl

private theorem broadcast_length (ss : List (List Nat)) (y : List Nat) (h : Shape.broadcastShape ss = .ok y) : y.length = Shape.maxLen ss := by
  have : ∀ (ss : List (List Nat)) (js : List Nat) (y : List Nat), Shape.mergeAll ss js = .ok y → y.length = js.length := by
    intro ss js
    induction js with
    | nil => intro y h; cases h; rfl
    | cons j js ih =>
      intro y h
      rw [Shape.mergeAll] at h
      split at h
      · cases h
      · split at h
        · cases h
        · rename_i r hr
          cases h
          rw [List.length_cons, List.length_cons, ih _ hr]
  rw [this _ _ _ h, List.length_range]

/-- **C120, element-wise nodes.** Operands on the batch with the same number of axes, and fixed operands with fewer. -/
theorem C120_elementwise (run : Run Int) (value : Bool) (R : Roles) (b c : Nat) (hb : 0 < b) (hc : 0 < c) (n : Node) (o : String) (L : Nat)
    (hrun : ∀ ins outs, run value n ins outs = Grow.byShape (fun ss => (Shape.broadcastShape ss).map fun s => s.map Int.ofNat) ins)
    (ho : n.output = [o]) (hob : R.batched o) (hco : ¬ R.constant o) (hro : R.rank o = none ∨ R.rank o = some (L + 1))
    (hin : ∀ t ∈ n.input, R.batched t ∧ R.rank t = some (L + 1) ∨ ¬ R.batched t ∧ ∃ k, k ≤ L ∧ R.rank t = some k) (hex : ∃ t ∈ n.input, R.batched t) :
    SetsAll run value n ∧ BatchNode run value R b c n := by
  classical
  refine C120_by_shape run value R b c n o _ hrun ho hco fun S S' y hS hy => ?_
  let ops : List (Bool × List Nat) := n.input.map fun t => if R.batched t then (true, (S t).tail) else (false, S t)
  have e1 : n.input.map S = ops.map fun p => if p.1 then b :: p.2 else p.2 := by
    rw [List.map_map]
    refine List.map_congr_left fun t ht => ?_
    by_cases h : R.batched t
    · obtain ⟨r, h1, _⟩ := (hS t ht).1.batch h
      simp [h, h1]
    · simp [h]
  have e2 : n.input.map S' = ops.map fun p => if p.1 then c :: p.2 else p.2 := by
    rw [List.map_map]
    refine List.map_congr_left fun t ht => ?_
    by_cases h : R.batched t
    · obtain ⟨r, h1, h2⟩ := (hS t ht).1.batch h
      simp [h, h1, h2]
    · simp [h, (hS t ht).1.same h]
  have hlen : ∀ p ∈ ops, if p.1 then p.2.length = L else p.2.length ≤ L := by
    intro p hp
    obtain ⟨t, ht, rfl⟩ := List.mem_map.1 hp
    rcases hin t ht with ⟨h, hr⟩ | ⟨h, k, hk, hr⟩
    · have := (hS t ht).2 _ hr
      simp [h, this]
    · have := (hS t ht).2 _ hr
      simp [h, this, hk]
  have hex' : ∃ p ∈ ops, p.1 = true := by
    obtain ⟨t, ht, h⟩ := hex
    exact ⟨_, List.mem_map_of_mem ht, by simp [h]⟩
  obtain ⟨q, hq⟩ := C120_broadcast L ops hlen hex'
  rw [e1] at hy
  rw [e2]
  have hmax : Shape.maxLen (ops.map fun p => if p.1 then b :: p.2 else p.2) = L + 1 := by
    unfold Shape.maxLen
    refine maxLen_foldl _ _ _ (by omega) ?_ (.inr ?_)
    · intro s hs
      obtain ⟨p, hp, rfl⟩ := List.mem_map.1 hs
      have := hlen p hp
      split <;> simp_all
      omega
    · obtain ⟨p, hp, h1⟩ := hex'
      refine ⟨_, List.mem_map_of_mem hp, ?_⟩
      have := hlen p hp
      simp_all
  have hq1 := hq b hb
  rw [hq b hb] at hy
  rw [hq c hc]
  cases q with
  | error e => cases hy
  | ok z =>
    replace hy := Except.ok.inj hy
    have hyz : b :: z = y := List.map_injective_iff.2 (fun _ _ e => Int.ofNat.inj e) hy
    subst hyz
    refine ⟨c :: z, rfl, ⟨⟨fun _ => ⟨z, rfl, rfl⟩, fun h => absurd hob h⟩, fun k hk => ?_⟩⟩
    rcases hro with h | h
    · rw [h] at hk; cases hk
    · rw [h] at hk; cases hk
      rw [broadcast_length _ _ hq1, hmax]

/-! ## a network -/

private theorem bind_len {α : Type} (x : Except PyErr α) (f : α → Except PyErr (List Int)) (k : Nat) (h : ∀ a y, f a = .ok y → y.length = k) : ∀ y, (x >>= f) = .ok y → y.length = k := by
  intro y hy
  cases x with
  | error e => cases hy
  | ok a => exact h a y hy

private theorem conv_len (a : Conv.Attrs) (ha : a.autoPad = none) (x w : List Int) (hx : x.length = 4) : ∀ y, Conv.convShape a x w = .ok y → y.length = 4 := by
  unfold Conv.convShape
  rw [ha]
  simp only [hx]
  rw [if_neg (by decide), if_pos trivial]
  refine bind_len _ _ _ fun _ => bind_len _ _ _ fun _ => bind_len _ _ _ fun _ => bind_len _ _ _ fun _ y h => ?_
  cases h; rfl

/-- `MaxPool(Relu(Conv(x, w)) + x + bias)` -/
private def batchNet : Graph :=
  { nodemap := [⟨"conv", "Conv", ["x", "w"], ["c"]⟩, ⟨"relu", "Relu", ["c"], ["r"]⟩, ⟨"add", "Add", ["r", "x"], ["s"]⟩, ⟨"bias", "Add", ["s", "bias"], ["a"]⟩, ⟨"pool", "MaxPool", ["a"], ["y"]⟩],
    input := ["x"], output := ["y"], initials := ["w", "bias"], dynamics := ["x", "c", "r", "s", "a", "y"],
    producedby := [("c", ["conv"]), ("r", ["relu"]), ("s", ["add"]), ("a", ["bias"]), ("y", ["pool"])],
    consumedby := [("x", ["conv", "add"]), ("w", ["conv"]), ("s", ["bias"]), ("bias", ["bias"]), ("c", ["relu"]), ("r", ["add"]), ("a", ["pool"])] }

private def batchTensors : TMap Int := fun t =>
  if t = "w" then { shape := [.num 3, .num 3, .num 3, .num 3], dtype := "f" } else if t = "bias" then { shape := [.num 3, .num 1, .num 1], dtype := "f" } else { shape := [], dtype := "f" }

private def batchRoles : Roles :=
  { batched := fun t => t ∈ ["x", "c", "r", "s", "a", "y"], constant := fun _ => False, rank := fun t => if t ∈ ["x", "c", "r", "s", "a"] then some 4 else if t = "bias" then some 3 else none }

private def images (b : Nat) : Dict (Arr Int) := [("x", { shape := [b, 3, 8, 8], dtype := "f", data := [] })]

private def batchAttrs : String → NodeAttrs := fun k => if k = "pool" then { kernel := [2, 2] } else {}

private theorem batch_inputs (b c : Nat) (t : String) (ht : Unproduced batchNet.nodemap t) : Pair batchRoles b c t (seen (updateInputs (images b) batchTensors t)) (seen (updateInputs (images c) batchTensors t)) := by
  have hx : ∀ b t, t ≠ "x" → updateInputs (images b) batchTensors t = batchTensors t := by
    intro b t h
    show (if t = "x" then _ else _) = _
    rw [if_neg h]
  refine ⟨?_, fun h => h.elim⟩
  by_cases h : t = "x"
  · subst h
    exact ⟨[b, 3, 8, 8], [c, 3, 8, 8], rfl, rfl, ⟨fun _ => ⟨[3, 8, 8], rfl, rfl⟩, fun h => absurd (by decide : "x" ∈ ["x", "c", "r", "s", "a", "y"]) h⟩, fun k hk => by cases hk; rfl⟩
  · have hnb : ¬ t ∈ ["x", "c", "r", "s", "a", "y"] := by
      have h1 := ht ⟨"conv", "Conv", ["x", "w"], ["c"]⟩ (by simp [batchNet])
      have h2 := ht ⟨"relu", "Relu", ["c"], ["r"]⟩ (by simp [batchNet])
      have h3 := ht ⟨"add", "Add", ["r", "x"], ["s"]⟩ (by simp [batchNet])
      have h5 := ht ⟨"bias", "Add", ["s", "bias"], ["a"]⟩ (by simp [batchNet])
      have h4 := ht ⟨"pool", "MaxPool", ["a"], ["y"]⟩ (by simp [batchNet])
      simp_all
    show ∃ s s', (updateInputs (images b) batchTensors t).shape = _ ∧ (updateInputs (images c) batchTensors t).shape = _ ∧ _
    rw [hx b t h, hx c t h]
    have hnr : ¬ t ∈ ["x", "c", "r", "s", "a"] := fun h' => hnb (by simp at h' ⊢; tauto)
    have hrk : batchRoles.rank t = if t = "bias" then some 3 else none := if_neg hnr
    by_cases hw : t = "w"
    · subst hw; exact ⟨[3, 3, 3, 3], [3, 3, 3, 3], rfl, rfl, ⟨fun h => absurd h hnb, fun _ => rfl⟩, fun k hk => by rw [hrk] at hk; simp at hk⟩
    · by_cases hbi : t = "bias"
      · subst hbi; exact ⟨[3, 1, 1], [3, 1, 1], rfl, rfl, ⟨fun h => absurd h hnb, fun _ => rfl⟩, fun k hk => by rw [hrk] at hk; cases hk; rfl⟩
      · exact ⟨[], [], by simp [batchTensors, hw, hbi, asDims], by simp [batchTensors, hw, hbi, asDims], ⟨fun h => absurd h hnb, fun _ => rfl⟩, fun k hk => by rw [hrk, if_neg hbi] at hk; cases hk⟩

private theorem batch_nodes (b c : Nat) (hb : 0 < b) (hc : 0 < c) (n : Node) (hn : n ∈ batchNet.nodemap) : SetsAll Grow.blockRun false n ∧ BatchNode Grow.blockRun false batchRoles b c n := by
  simp only [batchNet, List.mem_cons, List.not_mem_nil, or_false] at hn
  rcases hn with rfl | rfl | rfl | rfl | rfl
  · refine C120_data_operand Grow.blockRun false batchRoles b c hb hc _ "x" "c" ["w"] (fun r => r.length = 3)
      (fun ws x => match ws with | [w] => Conv.convShape Grow.padded (x.map Int.ofNat) (w.map Int.ofNat) | _ => .error .indexError) ?_ ?_ rfl rfl
      (by decide : "x" ∈ ["x", "c", "r", "s", "a", "y"]) (by decide : "c" ∈ ["x", "c", "r", "s", "a", "y"]) ?_ (fun h => h) ?_ ?_
    · intro w hw
      obtain ⟨w, rfl⟩ := List.length_eq_one_iff.1 hw
      obtain ⟨g, hg⟩ := C120_conv Grow.padded (w.map Int.ofNat)
      exact ⟨g, fun r hr => hg r (.inr (.inr (.inl hr)))⟩
    · intro ins outs
      show Grow.byShape _ ins = Grow.byShape _ ins
      congr 1
      funext ss
      match ss with
      | [] => rfl
      | [_] => rfl
      | [_, _] => rfl
      | _ :: _ :: _ :: _ => rfl
    · intro w hw
      simp only [List.mem_singleton] at hw
      subst hw
      exact (by decide : ¬ "w" ∈ ["x", "c", "r", "s", "a", "y"])
    · intro r h
      have := h 4 rfl
      omega
    · intro w r y hw hr hy k hk
      cases hk
      obtain ⟨w, rfl⟩ := List.length_eq_one_iff.1 hw
      have := conv_len Grow.padded rfl _ _ (by simp [hr]) _ hy
      simpa using this
  · refine C120_data_operand Grow.blockRun false batchRoles b c hb hc _ "c" "r" [] (fun r => r.length = 3)
      (fun ws x => match ws with | [] => .ok (x.map Int.ofNat) | _ => .error .indexError) ?_ ?_ rfl rfl
      (by decide : "c" ∈ ["x", "c", "r", "s", "a", "y"]) (by decide : "r" ∈ ["x", "c", "r", "s", "a", "y"]) (fun w hw => by cases hw) (fun h => h) ?_ ?_
    · intro w hw
      obtain rfl := List.length_eq_zero_iff.1 hw
      exact ⟨fun r => .ok (r.map Int.ofNat), fun r _ b _ => rfl⟩
    · intro ins outs
      show Grow.byShape _ ins = Grow.byShape _ ins
      congr 1
      funext ss
      match ss with
      | [] => rfl
      | [_] => rfl
      | _ :: _ :: _ => rfl
    · intro r h
      have := h 4 rfl
      omega
    · intro w r y hw hr hy k hk
      cases hk
      obtain rfl := List.length_eq_zero_iff.1 hw
      have := congrArg List.length (Except.ok.inj hy)
      simp [hr] at this
      exact this.symm
  · refine C120_elementwise Grow.blockRun false batchRoles b c hb hc _ "s" 3 (fun _ _ => rfl) rfl (by decide : "s" ∈ ["x", "c", "r", "s", "a", "y"]) (fun h => h) (.inr rfl) ?_
      ⟨"r", by simp, (by decide : "r" ∈ ["x", "c", "r", "s", "a", "y"])⟩
    intro t ht
    simp only [List.mem_cons, List.not_mem_nil, or_false] at ht
    rcases ht with rfl | rfl
    · exact .inl ⟨(by decide : "r" ∈ ["x", "c", "r", "s", "a", "y"]), rfl⟩
    · exact .inl ⟨(by decide : "x" ∈ ["x", "c", "r", "s", "a", "y"]), rfl⟩
  · refine C120_elementwise Grow.blockRun false batchRoles b c hb hc _ "a" 3 (fun _ _ => rfl) rfl (by decide : "a" ∈ ["x", "c", "r", "s", "a", "y"]) (fun h => h) (.inr rfl) ?_
      ⟨"s", by simp, (by decide : "s" ∈ ["x", "c", "r", "s", "a", "y"])⟩
    intro t ht
    simp only [List.mem_cons, List.not_mem_nil, or_false] at ht
    rcases ht with rfl | rfl
    · exact .inl ⟨(by decide : "s" ∈ ["x", "c", "r", "s", "a", "y"]), rfl⟩
    · exact .inr ⟨(by decide : ¬ "bias" ∈ ["x", "c", "r", "s", "a", "y"]), 3, by omega, rfl⟩
  · refine C120_data_operand Grow.blockRun false batchRoles b c hb hc _ "a" "y" [] (fun _ => True)
      (fun ws x => match ws with | [] => Conv.poolShape Grow.halved (x.map Int.ofNat) | _ => .error .indexError) ?_ ?_ rfl rfl
      (by decide : "a" ∈ ["x", "c", "r", "s", "a", "y"]) (by decide : "y" ∈ ["x", "c", "r", "s", "a", "y"]) (fun w hw => by cases hw) (fun h => h) (fun _ _ => trivial) ?_
    · intro w hw
      obtain rfl := List.length_eq_zero_iff.1 hw
      exact C120_pool Grow.halved
    · intro ins outs
      show Grow.byShape _ ins = Grow.byShape _ ins
      congr 1
      funext ss
      match ss with
      | [] => rfl
      | [_] => rfl
      | _ :: _ :: _ => rfl
    · intro w r y hw hr hy k hk
      cases hk

/-- the tensors after shape inference with one image -/
private def oneImage : TMap Int := (shapeInfer Grow.blockRun batchNet [] (images 1) batchTensors).1

private def isWeight (t : String) : Bool := ["w", "bias"].contains t

private theorem batch_inputs_free : ∀ t ∈ batchNet.input, Unproduced batchNet.nodemap t := by
  intro t ht n hn
  have : ∀ n ∈ batchNet.nodemap, ∀ t ∈ batchNet.input, t ∉ n.output := by decide
  exact this n hn t ht

private theorem batch_cost (n : Node) (hn : n ∈ batchNet.nodemap) (rank : String → Nat) : CostNode batchRoles rank (batchAttrs n.name) n := by
  simp only [batchNet, List.mem_cons, List.not_mem_nil, or_false] at hn
  rcases hn with rfl | rfl | rfl | rfl | rfl
  · refine ⟨⟨"x", ["w"], rfl, (by decide : "x" ∈ ["x", "c", "r", "s", "a", "y"]), fun _ w hw => ?_, by simp, by simp, by simp⟩, ⟨"c", [], rfl, (by decide : "c" ∈ ["x", "c", "r", "s", "a", "y"])⟩, by simp⟩
    cases hw
    exact (by decide : ¬ "w" ∈ ["x", "c", "r", "s", "a", "y"])
  · exact ⟨⟨"c", [], rfl, (by decide : "c" ∈ ["x", "c", "r", "s", "a", "y"]), by simp, by simp, by simp, by simp⟩, ⟨"r", [], rfl, (by decide : "r" ∈ ["x", "c", "r", "s", "a", "y"])⟩, by simp⟩
  · exact ⟨⟨"r", ["x"], rfl, (by decide : "r" ∈ ["x", "c", "r", "s", "a", "y"]), by simp, by simp, by simp, by simp⟩, ⟨"s", [], rfl, (by decide : "s" ∈ ["x", "c", "r", "s", "a", "y"])⟩, by simp⟩
  · exact ⟨⟨"s", ["bias"], rfl, (by decide : "s" ∈ ["x", "c", "r", "s", "a", "y"]), by simp, by simp, by simp, by simp⟩, ⟨"a", [], rfl, (by decide : "a" ∈ ["x", "c", "r", "s", "a", "y"])⟩, by simp⟩
  · exact ⟨⟨"a", [], rfl, (by decide : "a" ∈ ["x", "c", "r", "s", "a", "y"]), by simp, by simp, by simp, by simp⟩, ⟨"y", [], rfl, (by decide : "y" ∈ ["x", "c", "r", "s", "a", "y"])⟩, by simp⟩

/-- **C120, non-vacuity.** A residual block with a bias on images of 3×8×8: for every number of images, shape inference and profile succeed, the result has that many images, the block has 84 parameters and takes
5952 MACs per image. -/
theorem C120_residual_block (c : Nat) (hc : 0 < c) : ∃ r rows tot, shapeInfer Grow.blockRun batchNet [] (images c) batchTensors = (r, none, true) ∧
    (∃ s, (r "y").shape = asDims (c :: s) ∧ s = [3, 4, 4]) ∧
    profileLoop (profOf batchAttrs) (infos isWeight (fun _ => 4) r batchNet) batchNet.nodemap ⟨0, 0, 0⟩ = .ok (rows, tot) ∧ tot.macs = c * 5952 ∧ tot.params = 84 := by
  have h1 : shapeInfer Grow.blockRun batchNet [] (images 1) batchTensors = (oneImage, none, true) := by
    have : (shapeInfer Grow.blockRun batchNet [] (images 1) batchTensors).2 = (none, true) := by rfl
    exact Prod.ext rfl this
  have hpos : ∀ n ∈ batchNet.nodemap, ∀ o ∈ n.output, ∃ s, (oneImage o).shape = asDims s := by
    intro n hn o ho
    simp only [batchNet, List.mem_cons, List.not_mem_nil, or_false] at hn
    rcases hn with rfl | rfl | rfl | rfl | rfl <;> (simp only [List.mem_singleton] at ho; subst ho)
    · exact ⟨[1, 3, 8, 8], rfl⟩
    · exact ⟨[1, 3, 8, 8], rfl⟩
    · exact ⟨[1, 3, 8, 8], rfl⟩
    · exact ⟨[1, 3, 8, 8], rfl⟩
    · exact ⟨[1, 3, 4, 4], rfl⟩
  have hp : (profileLoop (profOf batchAttrs) (infos isWeight (fun _ => 4) oneImage batchNet) batchNet.nodemap ⟨0, 0, 0⟩).toOption.map (fun p => (p.2.macs, p.2.params)) = some (5952, 84) := by
    decide +kernel
  cases h : profileLoop (profOf batchAttrs) (infos isWeight (fun _ => 4) oneImage batchNet) batchNet.nodemap ⟨0, 0, 0⟩ with
  | error e => rw [h] at hp; cases hp
  | ok p =>
    obtain ⟨rows, tot⟩ := p
    rw [h] at hp
    have hp' := Prod.mk.inj (Option.some.inj hp)
    have hst : ∀ t, isWeight t = true → ¬ batchRoles.batched t := by
      intro t ht hb
      have hb' : t ∈ ["x", "c", "r", "s", "a", "y"] := hb
      simp only [isWeight, List.contains_iff_mem] at ht
      simp only [List.mem_cons, List.not_mem_nil, or_false] at ht hb'
      rcases ht with rfl | rfl <;> simp at hb'
    obtain ⟨r', rows', tot', g1, g2, g3, g4⟩ := C120_samples Grow.blockRun batchNet [] batchRoles c hc (by decide) (by decide) (fun n hn => (batch_nodes 1 c Nat.one_pos hc n hn).1)
      (fun n hn => (batch_nodes 1 c Nat.one_pos hc n hn).2) batch_inputs_free (images 1) (images c) batchTensors batchTensors oneImage (batch_inputs 1 c) h1 hpos isWeight (fun _ => 4) batchAttrs hst
      (fun n hn => batch_cost n hn _) rows tot h
    obtain ⟨r'', q1, q2⟩ := C120_shape_infer Grow.blockRun batchNet [] batchRoles 1 c (by decide) (by decide) (fun n hn => (batch_nodes 1 c Nat.one_pos hc n hn).1)
      (fun n hn => (batch_nodes 1 c Nat.one_pos hc n hn).2) batch_inputs_free (images 1) (images c) batchTensors batchTensors oneImage (batch_inputs 1 c) h1 hpos
    rw [g1] at q1
    have hr : r' = r'' := (Prod.mk.inj q1).1
    subst hr
    refine ⟨r', rows', tot', g1, ?_, g2, by rw [g3, hp'.1], by rw [g4, hp'.2]⟩
    obtain ⟨s, s', e1, e2, e3, _⟩ := (q2 "y").shape
    obtain ⟨z, e4, e5⟩ := e3.batch (by decide : "y" ∈ ["x", "c", "r", "s", "a", "y"])
    refine ⟨z, by rw [← e5]; exact e2, ?_⟩
    have : asDims [1, 3, 4, 4] = asDims (1 :: z) := by rw [← e4]; exact e1
    have := congrArg concrete this
    rw [concrete_asDims, concrete_asDims] at this
    injection this with this
    injection this with _ this
    exact this.symm

/-! ## where the cost of a batch is another one -/

/-- **C120, counterexample (finding).** A Reshape to `[1, -1]`, which flattens one sample, moves further samples into the features; the MatMul behind it does not compare the sizes it contracts, so shape inference
accepts the network for every batch size, and its cost is that of one sample. -/
theorem C120_flatten_one_sample : (∀ b : Nat, 0 < b → Axes.reshapeShape [b, 3] [1, -1] = .ok [1, (b : Int) * 3]) ∧ (∀ b : Nat, Shape.gemmShape false false false [1, b * 3] [3, 4] = .ok [1, 4]) ∧
    ∀ b : Nat, coreMacs {} "MatMul" [[1, b * 3], [3, 4]] [[1, 4]] = .ok 12 := by
  refine ⟨fun b hb => ?_, fun b => rfl, fun b => rfl⟩
  have h1 : Conv.volumeInt [(b : Int), 3] = (b : Int) * 3 := by simp [Conv.volumeInt]
  have h2 : Conv.volumeInt [(1 : Int), (b : Int) * 3] = (b : Int) * 3 := by simp [Conv.volumeInt]
  have h3 : Int.fdiv ((b : Int) * 3) 1 = (b : Int) * 3 := by simp
  show (if Conv.volumeInt [(b : Int), 3] = Conv.volumeInt [(1 : Int), Int.fdiv (Conv.volumeInt [(b : Int), 3]) 1] then Except.ok [(1 : Int), Int.fdiv (Conv.volumeInt [(b : Int), 3]) 1] else Except.error PyErr.assertion) = _
  rw [h1, h3, h2, if_pos rfl]

/-- **C120, counterexample.** The products of all pairs of samples (a matrix times its transpose) cost the square of the batch size. -/
theorem C120_gram (b : Nat) : Shape.gemmShape false false false [b, 3] [3, b] = .ok [b, b] ∧ coreMacs {} "MatMul" [[b, 3], [3, b]] [[b, b]] = .ok (3 * b * b) := by
  refine ⟨rfl, ?_⟩
  simp [coreMacs, Macs.gemmMacs, Shape.volume, Macs.first, Except.bind, Except.map]
  ring

end OnnxTool.Props
