import Verif.Model.NodeState
import Verif.Props.ShapeInfer
/-!
# C126: node objects that remember
-/
namespace OnnxTool.Props
open OnnxTool OnnxTool.Engine OnnxTool.ShapeInfer

/-- one call on a graph without node states: tensors and exception -/
def callPlain {V : Type} [Zero V] (run : Run V) (g : Graph) (marked : List String) (c : Call V) (m : TMap V) : TMap V × Option PyErr :=
  match c with
  | .shape d => ((shapeInfer run g marked d m).1, (shapeInfer run g marked d m).2.1)
  | .value d => valueLoop run g.nodemap (updateInputs d m)

/-- a series of such calls -/
def callsPlain {V : Type} [Zero V] (run : Run V) (g : Graph) (marked : List String) : List (Call V) → TMap V → List (TMap V × Option PyErr)
  | [], _ => []
  | c :: cs, m => callPlain run g marked c m :: callsPlain run g marked cs (callPlain run g marked c m).1

/-- the objects behave like new ones as long as their state satisfies `I`, and keep it -/
def Forgets {S V : Type} (run : RunMem S V) (run0 : Run V) (I : Node → S → Prop) : Prop :=
  ∀ asValue n s ins outs, ins.length = n.input.length → I n s → (run asValue n s ins outs).1 = run0 asValue n ins outs ∧ I n (run asValue n s ins outs).2

private theorem inferLoop_forgets {S V : Type} [Zero V] {run : RunMem S V} {run0 : Run V} {I : Node → S → Prop} (h : Forgets run run0 I) (marked : List String) :
    ∀ (ns : List Node) (mem : String → S) (m : TMap V), (ns.map (·.name)).Nodup → ∀ (P : List Node), (P.map (·.name)).Nodup → (∀ n ∈ ns, n ∈ P) → (∀ n ∈ P, I n (mem n.name)) →
      ((inferLoopMem run marked ns mem m).1, (inferLoopMem run marked ns mem m).2.1) = inferLoop run0 marked ns m ∧
        ∀ n ∈ P, I n ((inferLoopMem run marked ns mem m).2.2 n.name) := by
  intro ns
  induction ns with
  | nil => intro mem m _ P _ _ hI; exact ⟨rfl, hI⟩
  | cons n ns ih =>
    intro mem m hnd P hP hsub hI
    obtain ⟨h1, h2⟩ := h (marked.contains n.name) n (mem n.name) (n.input.map fun t => seen (m t)) (n.output.map fun t => seen (m t)) (List.length_map _)
      (hI n (hsub n List.mem_cons_self))
    have hI' : ∀ p ∈ P, I p ((fun q => if q = n.name then
        (run (marked.contains n.name) n (mem n.name) (n.input.map fun t => seen (m t)) (n.output.map fun t => seen (m t))).2 else mem q) p.name) := by
      intro p hp
      by_cases hq : p.name = n.name
      · have : p = n := List.inj_on_of_nodup_map hP hp (hsub n List.mem_cons_self) hq
        subst this
        simpa using h2
      · simpa [hq] using hI p hp
    unfold inferLoopMem inferLoop
    rw [← h1]
    rcases hr : run (marked.contains n.name) n (mem n.name) (n.input.map fun t => seen (m t)) (n.output.map fun t => seen (m t)) with ⟨r, s⟩
    rw [hr] at hI'
    cases r with
    | error e => exact ⟨rfl, hI'⟩
    | ok us => exact ih _ _ (List.nodup_cons.mp hnd).2 P hP (fun x hx => hsub x (List.mem_cons_of_mem _ hx)) hI'

private theorem valueLoop_forgets {S V : Type} [Zero V] {run : RunMem S V} {run0 : Run V} {I : Node → S → Prop} (h : Forgets run run0 I) :
    ∀ (ns : List Node) (mem : String → S) (m : TMap V), (ns.map (·.name)).Nodup → ∀ (P : List Node), (P.map (·.name)).Nodup → (∀ n ∈ ns, n ∈ P) → (∀ n ∈ P, I n (mem n.name)) →
      ((valueLoopMem run ns mem m).1, (valueLoopMem run ns mem m).2.1) = valueLoop run0 ns m ∧
        ∀ n ∈ P, I n ((valueLoopMem run ns mem m).2.2 n.name) := by
  intro ns
  induction ns with
  | nil => intro mem m _ P _ _ hI; exact ⟨rfl, hI⟩
  | cons n ns ih =>
    intro mem m hnd P hP hsub hI
    obtain ⟨h1, h2⟩ := h true n (mem n.name) (n.input.map fun t => seen (m t)) (n.output.map fun t => seen (m t)) (List.length_map _)
      (hI n (hsub n List.mem_cons_self))
    have hI' : ∀ p ∈ P, I p ((fun q => if q = n.name then
        (run true n (mem n.name) (n.input.map fun t => seen (m t)) (n.output.map fun t => seen (m t))).2 else mem q) p.name) := by
      intro p hp
      by_cases hq : p.name = n.name
      · have : p = n := List.inj_on_of_nodup_map hP hp (hsub n List.mem_cons_self) hq
        subst this
        simpa using h2
      · simpa [hq] using hI p hp
    unfold valueLoopMem valueLoop
    rw [← h1]
    rcases hr : run true n (mem n.name) (n.input.map fun t => seen (m t)) (n.output.map fun t => seen (m t)) with ⟨r, s⟩
    rw [hr] at hI'
    cases r with
    | error e => exact ⟨rfl, hI'⟩
    | ok us => exact ih _ _ (List.nodup_cons.mp hnd).2 P hP (fun x hx => hsub x (List.mem_cons_of_mem _ hx)) hI'

private theorem call_forgets {S V : Type} [Zero V] {run : RunMem S V} {run0 : Run V} {I : Node → S → Prop} (h : Forgets run run0 I) (g : Graph) (marked : List String)
    (hg : (g.nodemap.map (·.name)).Nodup) (c : Call V) (mem : String → S) (m : TMap V) (hI : ∀ n ∈ g.nodemap, I n (mem n.name)) :
    ((callMem run g marked c mem m).1, (callMem run g marked c mem m).2.1) = callPlain run0 g marked c m ∧ ∀ n ∈ g.nodemap, I n ((callMem run g marked c mem m).2.2 n.name) := by
  cases c with
  | shape d =>
    unfold callMem callPlain shapeInferMem shapeInfer
    simp only []
    by_cases hc : checkInputs g (updateInputs d m) = true
    · simp only [hc, if_true]
      obtain ⟨h1, h2⟩ := inferLoop_forgets h marked g.nodemap mem (updateInputs d m) hg g.nodemap hg (fun _ h => h) hI
      refine ⟨?_, h2⟩
      rw [h1]
      rcases inferLoop run0 marked g.nodemap (updateInputs d m) with ⟨m', e⟩
      cases e <;> rfl
    · simp only [if_neg hc]
      exact ⟨trivial, hI⟩
  | value d => exact valueLoop_forgets h g.nodemap mem (updateInputs d m) hg g.nodemap hg (fun _ h => h) hI

/-- **Node objects whose state does not matter: every series of calls of `shape_infer` and `value_infer`, also of calls that fail, leaves the tensors and raises the exceptions
it would with node objects made anew for every call.** -/
theorem C126_series {S V : Type} [Zero V] (run : RunMem S V) (run0 : Run V) (I : Node → S → Prop) (h : Forgets run run0 I) (g : Graph) (marked : List String)
    (hg : (g.nodemap.map (·.name)).Nodup) (cs : List (Call V)) (mem : String → S) (m : TMap V) (hI : ∀ n ∈ g.nodemap, I n (mem n.name)) :
    callsMem run g marked cs mem m = callsPlain run0 g marked cs m := by
  induction cs generalizing mem m with
  | nil => rfl
  | cons c cs ih =>
    obtain ⟨h1, h2⟩ := call_forgets h g marked hg c mem m hI
    unfold callsMem callsPlain
    simp only []
    rw [h1, ih _ _ h2, ← h1]

/-! ## Squeeze and TopK -/

variable (sv : List Int → Seen Int → Except PyErr (Upd Int)) (other : Run Int) (attrs : Node → Remembered)

/-- Squeeze with its axes as second operand may remember anything, with the attribute it keeps it; TopK keeps the axis it has -/
def Keeps (attrs : Node → Remembered) (n : Node) (r : Remembered) : Prop :=
  (n.op = "Squeeze" → n.input.length ≠ 2 → r.axes = (attrs n).axes) ∧ (n.op = "TopK" → (attrs n).axis ≠ none ∧ r.axis = (attrs n).axis)

private theorem squeeze_keeps (asValue : Bool) (r r' : Remembered) (ins : List (Seen Int)) (h : ins.length ≠ 2 → r.axes = r'.axes) :
    (squeezeStep sv asValue r ins).1 = (squeezeStep sv asValue r' ins).1 ∧ (ins.length ≠ 2 → (squeezeStep sv asValue r ins).2.axes = r'.axes) := by
  match ins, h with
  | [], h => exact ⟨rfl, h⟩
  | [x], h =>
    have ha := h (fun hh => by cases hh)
    refine ⟨?_, fun _ => ha⟩
    show (if asValue then (sv r.axes x).map fun u => [u] else _) = (if asValue then (sv r'.axes x).map fun u => [u] else _)
    rw [ha]
  | [x, a], _ =>
    refine ⟨?_, fun hne => absurd rfl hne⟩
    unfold squeezeStep
    simp only []
    split
    · rfl
    · split
      · rfl
      · split <;> rfl
  | x :: y :: z :: l, h =>
    have ha := h (by simp only [List.length_cons]; omega)
    refine ⟨?_, fun _ => ha⟩
    show (if asValue then (sv r.axes x).map fun u => [u] else _) = (if asValue then (sv r'.axes x).map fun u => [u] else _)
    rw [ha]

/-- what TopK does depends on its axis only, and it keeps an axis that is set -/
private theorem topk_keeps (asValue : Bool) (r r' : Remembered) (ins : List (Seen Int)) (nout : Nat) (hne : r'.axis ≠ none) (h : r.axis = r'.axis) :
    (topkStep asValue r ins nout).1 = (topkStep asValue r' ins nout).1 ∧ (topkStep asValue r ins nout).2.axis = r'.axis := by
  obtain ⟨a, ha⟩ := Option.ne_none_iff_exists'.mp hne
  have hr : r.axis = some a := h.trans ha
  unfold topkStep
  by_cases hc : asValue = true
  · rw [if_pos hc, if_pos hc]; exact ⟨rfl, h⟩
  · rw [if_neg hc, if_neg hc]
    match ins with
    | [] => exact ⟨rfl, h⟩
    | [_] => exact ⟨rfl, h⟩
    | x :: k :: l =>
      simp only []
      cases k.value with
      | none => exact ⟨rfl, h⟩
      | some arr =>
        simp only []
        split
        · have e1 : (if x.shape.length = 1 ∧ r.axis = none then some 0 else r.axis) = some a := by rw [if_neg (fun hh => by rw [hr] at hh; cases hh.2), hr]
          have e2 : (if x.shape.length = 1 ∧ r'.axis = none then some 0 else r'.axis) = some a := by rw [if_neg (fun hh => by rw [ha] at hh; cases hh.2), ha]
          rw [e1, e2]
          exact ⟨rfl, ha.symm⟩
        · exact ⟨rfl, h⟩

/-- **Squeeze nodes, and TopK nodes with the attribute `axis`, do what new objects would, and all others have no state.** -/
theorem C126_forgets : Forgets (nodeMem sv other) (nodeNew sv other attrs) (Keeps attrs) := by
  intro asValue n r ins outs hlen hk
  unfold nodeNew nodeMem
  by_cases h1 : n.op = "Squeeze"
  · simp only [if_pos h1]
    have := squeeze_keeps sv asValue r (attrs n) ins (fun hne => hk.1 h1 (by rw [← hlen]; exact hne))
    exact ⟨this.1, ⟨fun _ hne => this.2 (by rw [hlen]; exact hne), fun h2 => absurd (h1.symm.trans h2) (by decide)⟩⟩
  · simp only [if_neg h1]
    by_cases h2 : n.op = "TopK"
    · simp only [if_pos h2]
      have := topk_keeps asValue r (attrs n) ins outs.length (hk.2 h2).1 (hk.2 h2).2
      exact ⟨this.1, ⟨fun h => absurd h h1, fun _ => ⟨(hk.2 h2).1, this.2⟩⟩⟩
    · simp only [if_neg h2]
      exact ⟨trivial, ⟨fun h => absurd h h1, fun h => absurd h h2⟩⟩

/-- **A graph whose TopK nodes have the attribute `axis`: every series of calls gives what it would with node objects made anew for every call.** -/
theorem C126_series_partial (g : Graph) (marked : List String) (hg : (g.nodemap.map (·.name)).Nodup) (htopk : ∀ n ∈ g.nodemap, n.op = "TopK" → (attrs n).axis ≠ none)
    (cs : List (Call Int)) (mem : String → Remembered) (hmem : ∀ n ∈ g.nodemap, mem n.name = attrs n) (m : TMap Int) :
    callsMem (nodeMem sv other) g marked cs mem m = callsPlain (nodeNew sv other attrs) g marked cs m :=
  C126_series _ _ _ (C126_forgets sv other attrs) g marked hg cs mem m fun n hn => by
    rw [hmem n hn]
    exact ⟨fun _ _ => rfl, fun h => ⟨htopk n hn h, rfl⟩⟩

/-- the tensors after `shape_infer(d)` for the `d` in `hist` on one graph object, and the node states -/
def afterMem {S V : Type} [Zero V] (run : RunMem S V) (g : Graph) (marked : List String) : List (Dict (Arr V)) → (String → S) → TMap V → TMap V × (String → S)
  | [], mem, m => (m, mem)
  | d :: ds, mem, m => afterMem run g marked ds (shapeInferMem run g marked d mem m).2.2 (shapeInferMem run g marked d mem m).1

private theorem after_calls {S V : Type} [Zero V] {run : RunMem S V} {run0 : Run V} {I : Node → S → Prop} (h : Forgets run run0 I) (g : Graph) (marked : List String)
    (hg : (g.nodemap.map (·.name)).Nodup) (hist : List (Dict (Arr V))) (mem : String → S) (m : TMap V) (hI : ∀ n ∈ g.nodemap, I n (mem n.name)) :
    (afterMem run g marked hist mem m).1 = calls run0 g marked hist m ∧ ∀ n ∈ g.nodemap, I n ((afterMem run g marked hist mem m).2 n.name) := by
  induction hist generalizing mem m with
  | nil => exact ⟨rfl, hI⟩
  | cons d ds ih =>
    obtain ⟨h1, h2⟩ := call_forgets h g marked hg (.shape d) mem m hI
    have h3 : (shapeInferMem run g marked d mem m).1 = (shapeInfer run0 g marked d m).1 := (Prod.mk.inj h1).1
    unfold afterMem
    have := ih (shapeInferMem run g marked d mem m).2.2 (shapeInferMem run g marked d mem m).1 h2
    rw [h3] at this
    rw [h3]
    exact this

/-- **`C75_history` for the nodes as they are: after any number of `shape_infer` calls on one graph object, a call has the outcome, the shapes and the values it would have
on the graph as loaded with new node objects.** -/
theorem C126_history (g : Graph) (M : List String) (hg : WellFormed (nodeNew sv other attrs) g M) (htopk : ∀ n ∈ g.nodemap, n.op = "TopK" → (attrs n).axis ≠ none)
    (hist : List (Dict (Arr Int))) (d : Dict (Arr Int)) (mem : String → Remembered) (hmem : ∀ n ∈ g.nodemap, mem n.name = attrs n) (m : TMap Int)
    (hh : ∀ c ∈ hist, ∀ t ∈ c.map (·.1), t ∈ d.map (·.1) ∨ ¬ Unproduced g.nodemap t) :
    let used := afterMem (nodeMem sv other) g M hist mem m
    let after := shapeInferMem (nodeMem sv other) g M d used.2 used.1
    let loaded := shapeInfer (nodeNew sv other attrs) g M d m
    after.2.1 = loaded.2.1 ∧ (loaded.2.1 = none → Same M g.nodemap (fun t => seen (after.1 t)) (fun t => seen (loaded.1 t))) := by
  have hI : ∀ n ∈ g.nodemap, Keeps attrs n (mem n.name) := fun n hn => by
    rw [hmem n hn]
    exact ⟨fun _ _ => rfl, fun h => ⟨htopk n hn h, rfl⟩⟩
  obtain ⟨h1, h2⟩ := after_calls (C126_forgets sv other attrs) g M hg.names hist mem m hI
  obtain ⟨h3, _⟩ := call_forgets (C126_forgets sv other attrs) g M hg.names (.shape d) (afterMem (nodeMem sv other) g M hist mem m).2 (afterMem (nodeMem sv other) g M hist mem m).1 h2
  obtain ⟨h4, h5⟩ := C75_history (nodeNew sv other attrs) g M hg hist d m hh
  obtain ⟨h6, h7⟩ := Prod.mk.inj h3
  simp only [] at h6 h7 ⊢
  rw [h1] at h6 h7
  refine ⟨?_, fun hn => ?_⟩
  · rw [h1]
    exact h7.trans (congrArg Prod.fst h4)
  · rw [h1]
    have : (shapeInferMem (nodeMem sv other) g M d (afterMem (nodeMem sv other) g M hist mem m).2 (calls (nodeNew sv other attrs) g M hist m)).1 =
        (shapeInfer (nodeNew sv other attrs) g M d (calls (nodeNew sv other attrs) g M hist m)).1 := h6
    rw [this]
    exact h5 hn

/-- the shape of TopK's results: an axis, also a negative one, gets size `k`, all others stay; an axis that does not exist changes nothing -/
theorem C126_topk_shape (axis k : Int) (s : List Dim) : (topkDims axis k s).length = s.length ∧
    ∀ (i : Nat) (d : Dim), s[i]? = some d → (topkDims axis k s)[i]? = some (if (i : Int) = axis ∨ (i : Int) - s.length = axis then .num k else d) := by
  unfold topkDims
  refine ⟨List.length_mapIdx, fun i d hd => ?_⟩
  have hlt : i < s.length := (List.getElem?_eq_some_iff.mp hd).1
  rw [List.getElem?_mapIdx, hd, Option.map_some]
  congr 1
  by_cases ha : axis < 0
  · simp only [if_pos ha]
    by_cases h : (i : Int) = s.length + axis
    · rw [if_pos h, if_pos (by omega)]
    · rw [if_neg h, if_neg (by omega)]
  · simp only [if_neg ha]
    by_cases h : (i : Int) = axis
    · rw [if_pos h, if_pos (.inl h)]
    · rw [if_neg h, if_neg (by omega)]

/-- TopK with `axis` and both outputs: values of the operand's type, positions as int64, both of that shape -/
theorem C126_topk_outputs (r : Remembered) (a k : Int) (x : Seen Int) (more : List Int) (dt : String) (m : Nat) (s : List Nat) (h : r.axis = some a) :
    (topkStep false r [x, ⟨asDims (m :: s), dt, some ⟨m :: s, dt, k :: more⟩⟩] 2).1.toOption =
      some [.shape (topkDims a k x.shape) (some x.dtype), .shape (topkDims a k x.shape) (some "int64")] := by
  unfold topkStep
  simp only [Bool.false_eq_true, if_false, h, reduceCtorEq, and_false]
  rfl

/-! ## TopK without `axis` -/

/-- a call of a TopK node's `shape_infer`: the operand's shape and the number `k` -/
def topkOperands (x : List Dim) (k : Int) : List (Seen Int) := [⟨x, "float32", none⟩, ⟨[.num 1], "int64", some ⟨[1], "int64", [k]⟩⟩]

/-- the calls on one object: the shapes, or the exceptions -/
def topkSeries : Option Int → List (List Dim × Int) → List (Except PyErr (List (Upd Int)))
  | _, [] => []
  | axis, c :: cs =>
    let r := topkStep false ⟨[], axis⟩ (topkOperands c.1 c.2) 1
    r.1 :: topkSeries r.2.axis cs

private theorem topk_none (x : List Dim) (k : Int) : topkStep false ⟨[], none⟩ (topkOperands x k) 1 =
    if x.length = 1 then (.ok [.shape [.num k] (some "float32")], ⟨[], some 0⟩) else (.error .typeError, ⟨[], none⟩) := by
  by_cases h : x.length = 1
  · rw [if_pos h]
    match x, h with
    | [d], _ => rfl
  · rw [if_neg h]
    unfold topkStep topkOperands
    simp only [Bool.false_eq_true, if_false]
    rw [if_neg (fun hh => h hh.1)]

private theorem topk_zero (x : List Dim) (k : Int) : topkStep false ⟨[], some 0⟩ (topkOperands x k) 1 = (.ok [.shape (topkDims 0 k x) (some "float32")], ⟨[], some 0⟩) := by
  unfold topkStep topkOperands
  simp only [Bool.false_eq_true, if_false]
  rw [if_neg (fun hh => by cases hh.2)]

private theorem series_zero (cs : List (List Dim × Int)) : topkSeries (some 0) cs = cs.map fun c => .ok [.shape (topkDims 0 c.2 c.1) (some "float32")] := by
  induction cs with
  | nil => rfl
  | cons c cs ih =>
    unfold topkSeries
    simp only [topk_zero, List.map_cons]
    rw [ih]

/-- **TopK without the attribute `axis`: the calls on one object give what new objects would exactly if no operand that is not a vector comes after a vector.** -/
theorem C126_topk_exact (cs : List (List Dim × Int)) :
    topkSeries none cs = cs.map (fun c => (topkStep false ⟨[], none⟩ (topkOperands c.1 c.2) 1).1) ↔ cs.Pairwise fun c c' => c.1.length = 1 → c'.1.length = 1 := by
  induction cs with
  | nil => exact ⟨fun _ => List.Pairwise.nil, fun _ => rfl⟩
  | cons c cs ih =>
    unfold topkSeries
    rw [List.map_cons, List.pairwise_cons]
    simp only [List.cons.injEq, true_and]
    by_cases h : c.1.length = 1
    · simp only [topk_none c.1 c.2, if_pos h, series_zero]
      constructor
      · intro hh
        have hall : ∀ c' ∈ cs, c'.1.length = 1 := by
          intro c' hc'
          have := List.map_inj_left.mp hh c' hc'
          by_contra hne
          rw [topk_none, if_neg hne] at this
          cases this
        exact ⟨fun c' hc' _ => hall c' hc', List.Pairwise.imp_of_mem (R := fun _ _ => True) (fun _ hb _ _ => hall _ hb) (List.pairwise_of_forall fun _ _ => trivial)⟩
      · intro hh
        refine List.map_inj_left.mpr fun c' hc' => ?_
        have h1 := hh.1 c' hc' h
        rw [topk_none, if_pos h1]
        obtain ⟨x, k⟩ := c'
        match x, h1 with
        | [d], _ => rfl
    · simp only [topk_none c.1 c.2, if_neg h]
      rw [ih]
      exact ⟨fun hh => ⟨fun _ _ h1 => absurd h1 h, hh⟩, fun hh => hh.2⟩

/-- a TopK node without `axis` on the graph's input -/
def topkAlone : Graph := { nodemap := [⟨"top", "TopK", ["x", "k"], ["y"]⟩], input := ["x"], output := ["y"], initials := ["k"] }

/-- its tensors: `k` is 2 -/
def topkTensors : TMap Int := fun t => if t = "k" then ⟨[.num 1], "int64", some ⟨[1], "int64", [2]⟩⟩ else ⟨[.num 7], "float32", none⟩

/-- an input of zeros -/
def zerosOf (s : List Nat) : Dict (Arr Int) := [("x", ⟨s, "float32", List.replicate s.prod 0⟩)]

/-- a Squeeze step for the examples (its `value_infer` is not used) -/
def noSqueeze : List Int → Seen Int → Except PyErr (Upd Int) := fun _ _ => .error .notImplemented

/-- shapes of `y` and exceptions of two calls -/
def yShapes (l : List (TMap Int × Option PyErr)) : List (List Dim × Option PyErr) := l.map fun r => ((r.1 "y").shape, r.2)

/-- **What an earlier call did is not forgotten: a matrix after a vector is answered along axis 0 (ONNX: the last axis); on the graph as loaded a matrix raises.** -/
theorem C126_topk_counterexample :
    yShapes (callsMem (nodeMem noSqueeze fun _ _ _ _ => .error .keyError) topkAlone [] [.shape (zerosOf [5]), .shape (zerosOf [4, 6])] (fun _ => ⟨[0], none⟩) topkTensors) =
      [([.num 2], none), ([.num 2, .num 6], none)] ∧
    yShapes (callsMem (nodeMem noSqueeze fun _ _ _ _ => .error .keyError) topkAlone [] [.shape (zerosOf [4, 6])] (fun _ => ⟨[0], none⟩) topkTensors) =
      [([.num 7], some .valueError)] := by
  decide +kernel

/-- a graph that meets the hypotheses of `C126_series_partial`: TopK with `axis`, then Squeeze with its axes as an operand -/
def topkSqueeze : Graph :=
  { nodemap := [⟨"top", "TopK", ["x", "k"], ["v", "i"]⟩, ⟨"sq", "Squeeze", ["v", "a"], ["y"]⟩], input := ["x"], output := ["y"], initials := ["k", "a"] }

/-- its tensors: `k` is 1, the axis squeezed is 1 -/
def topkSqueezeTensors : TMap Int := fun t => if t = "k" ∨ t = "a" then ⟨[.num 1], "int64", some ⟨[1], "int64", [1]⟩⟩ else ⟨[.num 7], "float32", none⟩

/-- the attributes: TopK has `axis = 1` -/
def topkAttrs : Node → Remembered := fun n => if n.op = "TopK" then ⟨[0], some 1⟩ else ⟨[0], none⟩

theorem C126_case :
    (topkSqueeze.nodemap.map (·.name)).Nodup ∧ (∀ n ∈ topkSqueeze.nodemap, n.op = "TopK" → (topkAttrs n).axis ≠ none) ∧
    yShapes (callsMem (nodeMem noSqueeze fun _ _ _ _ => .error .keyError) topkSqueeze [] [.shape (zerosOf [4, 6]), .value (zerosOf [3, 3]), .shape (zerosOf [5, 2, 3])]
      (fun q => if q = "top" then ⟨[0], some 1⟩ else ⟨[0], none⟩) topkSqueezeTensors) =
      [([.num 4], none), ([.num 4], some .notImplemented), ([.num 5, .num 3], none)] := by
  decide +kernel

end OnnxTool.Props
