import Verif.Model.Dump
import Verif.Model.Infer
import Verif.Props.Infer
import Verif.Props.Load
/-! # C94: dumped tensors are additional outputs -/
namespace OnnxTool.Props
open OnnxTool OnnxTool.Dump OnnxTool.Load

variable {V : Type}

theorem addDumps_append (T a b out : List String) : addDumps T (a ++ b) out = addDumps T b (addDumps T a out) := by
  induction a generalizing out with
  | nil => rfl
  | cons t a ih => exact ih _

/-- **C94**: the old outputs stay where they are; after them come, each once and in the order of their first mention, exactly the named tensors that exist and are no outputs yet.  Unknown names
are ignored. -/
theorem C94_outputs (T names out : List String) : ∃ new, addDumps T names out = out ++ new ∧ new.Nodup ∧ new.Sublist names ∧
    ∀ t, t ∈ new ↔ t ∈ names ∧ t ∈ T ∧ t ∉ out := by
  induction names generalizing out with
  | nil => exact ⟨[], by simp [addDumps], List.nodup_nil, List.Sublist.refl _, by simp⟩
  | cons t ts ih =>
    unfold addDumps
    by_cases hT : t ∈ T
    · by_cases ho : t ∈ out
      · rw [if_pos (by simpa using hT), if_pos (by simpa using ho)]
        obtain ⟨new, h1, h2, h3, h4⟩ := ih out
        refine ⟨new, h1, h2, h3.cons _, fun s => ?_⟩
        rw [h4]
        constructor
        · rintro ⟨a, b, c⟩; exact ⟨List.mem_cons_of_mem _ a, b, c⟩
        · rintro ⟨a, b, c⟩
          rcases List.mem_cons.1 a with rfl | a
          · exact absurd ho c
          · exact ⟨a, b, c⟩
      · rw [if_pos (by simpa using hT), if_neg (by simpa using ho)]
        obtain ⟨new, h1, h2, h3, h4⟩ := ih (out ++ [t])
        refine ⟨t :: new, by rw [h1]; simp, List.nodup_cons.2 ⟨fun c => ?_, h2⟩, h3.cons_cons _, fun s => ?_⟩
        · exact ((h4 t).1 c).2.2 (by simp)
        · rw [List.mem_cons, h4]
          constructor
          · rintro (rfl | ⟨a, b, c⟩)
            · exact ⟨List.mem_cons_self, hT, ho⟩
            · exact ⟨List.mem_cons_of_mem _ a, b, fun d => c (List.mem_append_left _ d)⟩
          · rintro ⟨a, b, c⟩
            by_cases e : s = t
            · exact .inl e
            · refine .inr ⟨(List.mem_cons.1 a).resolve_left e, b, fun d => ?_⟩
              rcases List.mem_append.1 d with d | d
              · exact c d
              · exact e (by simpa using d)
    · rw [if_neg (by simpa using hT)]
      obtain ⟨new, h1, h2, h3, h4⟩ := ih out
      refine ⟨new, h1, h2, h3.cons _, fun s => ?_⟩
      rw [h4]
      constructor
      · rintro ⟨a, b, c⟩; exact ⟨List.mem_cons_of_mem _ a, b, c⟩
      · rintro ⟨a, b, c⟩
        rcases List.mem_cons.1 a with rfl | a
        · exact absurd b hT
        · exact ⟨a, b, c⟩

/-- **C94**, histories: several calls do what one call with all the names does, and naming a tensor again changes nothing. -/
theorem C94_calls (l : Loaded V) (a b : List String) : dump (dump l a) b = dump l (a ++ b) ∧ (b ⊆ a → dump (dump l a) b = dump l a) := by
  have h1 : dump (dump l a) b = dump l (a ++ b) := by
    unfold dump
    simp only [addDumps_append]
  refine ⟨h1, fun hs => ?_⟩
  obtain ⟨na, e1, -, -, m1⟩ := C94_outputs l.tensors a l.graph.output
  obtain ⟨nb, e2, -, -, m2⟩ := C94_outputs l.tensors b (addDumps l.tensors a l.graph.output)
  have : nb = [] := by
    refine List.eq_nil_iff_forall_not_mem.2 fun t ht => ?_
    obtain ⟨p, q, r⟩ := (m2 t).1 ht
    rw [e1] at r
    refine r (List.mem_append.2 ?_)
    by_cases ho : t ∈ l.graph.output
    · exact .inl ho
    · exact .inr ((m1 t).2 ⟨hs p, q, ho⟩)
  unfold dump
  simp only
  rw [e2, this, List.append_nil]

/-- **C94**, `value_infer`: with the dumps it computes the same tensors and raises the same exceptions; the arrays it returned before are returned at the same places, followed by those of the
dumped tensors. -/
theorem C94_value_infer [Zero V] (run : ShapeInfer.Run V) (l : Loaded V) (names : List String) (d : Dict (ShapeInfer.Arr V)) (m : ShapeInfer.TMap V) :
    ∃ new, (dump l names).graph.output = l.graph.output ++ new ∧
    (ShapeInfer.valueInfer run (dump l names).graph d m).1 = (ShapeInfer.valueInfer run l.graph d m).1 ∧
    (∀ e, (ShapeInfer.valueInfer run (dump l names).graph d m).2 = .error e ↔ (ShapeInfer.valueInfer run l.graph d m).2 = .error e) ∧
    ∀ as, (ShapeInfer.valueInfer run l.graph d m).2 = .ok as →
      (ShapeInfer.valueInfer run (dump l names).graph d m).2 = .ok (as ++ new.map fun t => ((ShapeInfer.valueInfer run l.graph d m).1 t).numpy) := by
  obtain ⟨new, h1, -⟩ := C94_outputs l.tensors names l.graph.output
  refine ⟨new, h1, ?_⟩
  unfold ShapeInfer.valueInfer dump
  simp only
  cases hv : ShapeInfer.valueLoop run l.graph.nodemap (ShapeInfer.updateInputs d m) with
  | mk m' o =>
    cases o with
    | some e => exact ⟨rfl, fun _ => Iff.rfl, fun as h => by cases h⟩
    | none =>
      refine ⟨rfl, fun e => ⟨fun h => (by cases h), fun h => (by cases h)⟩, fun as h => ?_⟩
      simp only at h
      injection h with h
      subst h
      simp only [h1, List.map_append]

theorem apply_other [Zero V] (us : List (String × ShapeInfer.Upd V)) (m : ShapeInfer.TMap V) (t : String) (h : t ∉ us.map (·.1)) : ShapeInfer.applyAll m us t = m t := by
  induction us generalizing m with
  | nil => rfl
  | cons u us ih =>
    obtain ⟨o, u⟩ := u
    simp only [List.map_cons, List.mem_cons, not_or] at h
    unfold ShapeInfer.applyAll
    rw [ih _ h.2]
    unfold ShapeInfer.put
    rw [if_neg h.1]

theorem value_keeps [Zero V] (run : ShapeInfer.Run V) (ns : List Node) (m m' : ShapeInfer.TMap V) (o : Option PyErr) (h : ShapeInfer.valueLoop run ns m = (m', o)) (t : String)
    (ht : ∀ n ∈ ns, t ∉ n.output) : m' t = m t := by
  induction ns generalizing m with
  | nil => cases h; rfl
  | cons n ns ih =>
    unfold ShapeInfer.valueLoop at h
    split at h
    · cases h; rfl
    · rw [ih _ h fun k hk => ht k (List.mem_cons_of_mem _ hk)]
      refine apply_other _ _ _ fun c => ht n List.mem_cons_self ?_
      obtain ⟨x, hx, rfl⟩ := List.mem_map.1 c
      exact (List.of_mem_zip (show (x.1, x.2) ∈ _ from hx)).1

/-- **C94**, the array that is dumped: if node `n`, run in this call on the operands as the nodes before it left them, gave `t` the array `a`, and no other node writes `t`, then `a` is what
`value_infer` returns for the dumped tensor `t`. -/
theorem C94_dumped_array [Zero V] (run : ShapeInfer.Run V) (l : Loaded V) (names : List String) (d : Dict (ShapeInfer.Arr V)) (m : ShapeInfer.TMap V) {pre post : List Node} {n : Node}
    (hn : l.graph.nodemap = pre ++ n :: post) {m1 : ShapeInfer.TMap V} (hpre : ShapeInfer.valueLoop run pre (ShapeInfer.updateInputs d m) = (m1, none))
    {us : List (ShapeInfer.Upd V)} (hrun : run true n (n.input.map fun t => ShapeInfer.seen (m1 t)) (n.output.map fun t => ShapeInfer.seen (m1 t)) = .ok us)
    (hnd : n.output.Nodup) {k : Nat} {t : String} {a : ShapeInfer.Arr V} (hk : n.output[k]? = some t) (ha : us[k]? = some (.arr a)) (hpost : ∀ q ∈ post, t ∉ q.output)
    (hT : t ∈ l.tensors) (hname : t ∈ names) {as : List (Option (ShapeInfer.Arr V))} (hret : (ShapeInfer.valueInfer run (dump l names).graph d m).2 = .ok as) :
    ∃ i : Nat, (dump l names).graph.output[i]? = some t ∧ as[i]? = some (some a) := by
  have hmem : t ∈ (dump l names).graph.output := by
    obtain ⟨new, h1, -, -, h4⟩ := C94_outputs l.tensors names l.graph.output
    show t ∈ addDumps _ _ _
    rw [h1, List.mem_append]
    by_cases ho : t ∈ l.graph.output
    · exact .inl ho
    · exact .inr ((h4 t).2 ⟨hname, hT, ho⟩)
  have hset : ∀ (os : List String) (us : List (ShapeInfer.Upd V)) (m : ShapeInfer.TMap V) (k : Nat), os.Nodup → os[k]? = some t → us[k]? = some (.arr a) →
      (ShapeInfer.applyAll m (os.zip us) t).numpy = some a := by
    intro os
    induction os with
    | nil => intro us m k _ h; simp at h
    | cons o os ih =>
      intro us m k hnd h1 h2
      cases us with
      | nil => simp at h2
      | cons u us =>
        rw [List.zip_cons_cons]
        unfold ShapeInfer.applyAll
        cases k with
        | zero =>
          simp only [List.getElem?_cons_zero, Option.some.injEq] at h1 h2
          subst h1 h2
          rw [apply_other]
          · unfold ShapeInfer.put
            rw [if_pos rfl]
            rfl
          · intro c
            obtain ⟨x, hx, e⟩ := List.mem_map.1 c
            exact (List.nodup_cons.1 hnd).1 (e ▸ (List.of_mem_zip (show (x.1, x.2) ∈ _ from hx)).1)
        | succ k => exact ih us _ k (List.nodup_cons.1 hnd).2 (by simpa using h1) (by simpa using h2)
  have hsplit : ∀ (pre : List Node) (m0 : ShapeInfer.TMap V), ShapeInfer.valueLoop run pre m0 = (m1, none) →
      ShapeInfer.valueLoop run (pre ++ n :: post) m0 = ShapeInfer.valueLoop run (n :: post) m1 := by
    intro pre
    induction pre with
    | nil => intro m0 h; cases h; rfl
    | cons q pre ih =>
      intro m0 h
      unfold ShapeInfer.valueLoop at h
      rw [List.cons_append]
      conv => lhs; unfold ShapeInfer.valueLoop
      split at h
      · cases h
      · rename_i us hq
        exact ih _ h
  have hloop : ShapeInfer.valueLoop run l.graph.nodemap (ShapeInfer.updateInputs d m) = ShapeInfer.valueLoop run post (ShapeInfer.applyAll m1 (n.output.zip us)) := by
    rw [hn, hsplit pre _ hpre]
    conv => lhs; unfold ShapeInfer.valueLoop
    rw [hrun]
  obtain ⟨i, hi⟩ := List.mem_iff_getElem?.1 hmem
  refine ⟨i, hi, ?_⟩
  unfold ShapeInfer.valueInfer at hret
  have hnm : (dump l names).graph.nodemap = l.graph.nodemap := rfl
  rw [hnm, hloop] at hret
  cases hv : ShapeInfer.valueLoop run post (ShapeInfer.applyAll m1 (n.output.zip us)) with
  | mk m' o =>
    rw [hv] at hret
    cases o with
    | some e => cases hret
    | none =>
      simp only at hret
      injection hret with hret
      subst hret
      rw [List.getElem?_map, hi, Option.map_some, value_keeps run post _ m' none hv t hpost, hset n.output us m1 k hnd hk ha]

/-- **C94**, saving: the file written with dumps differs from the one written without only in that the dumped tensors are further outputs (and no longer listed as intermediate values); every
tensor has the value it has in the file without dumps. -/
theorem C94_saved (l : Loaded V) (names : List String) (wi ws : Bool) : ∃ new, new.Nodup ∧ (∀ t, t ∈ new ↔ t ∈ names ∧ t ∈ l.tensors ∧ t ≠ "" ∧ t ∉ l.graph.output) ∧
    (save wi ws (dump l names)).node = (save wi ws l).node ∧ (save wi ws (dump l names)).initializer = (save wi ws l).initializer ∧
    (save wi ws (dump l names)).input = (save wi ws l).input ∧ (save wi ws (dump l names)).output = (save wi ws l).output ++ new ∧
    (∀ t, t ∈ (save wi ws (dump l names)).valueInfo ∨ t ∈ new ↔ t ∈ (save wi ws l).valueInfo ∨ t ∈ new) ∧
    ∀ (f : Node → List V → Nat → V) (absent : V) (x : ConstFold.Env V) (t : String) (v : V), Load.Computes (save wi ws (dump l names)) f absent x t v ↔ Load.Computes (save wi ws l) f absent x t v := by
  obtain ⟨new, h1, h2, -, h4⟩ := C94_outputs l.tensors names l.graph.output
  have hinf : ∀ ns, infos (dump l names) ns = infos l ns := fun _ => rfl
  have hui : usedInitials (dump l names) = usedInitials l := rfl
  have hout : (dump l names).graph.output = l.graph.output ++ new := h1
  refine ⟨infos l new, ?_, ?_, rfl, ?_, ?_, ?_, ?_, ?_⟩
  · exact h2.filter _
  · intro t
    unfold infos
    rw [List.mem_filter, h4]
    simp only [List.contains_eq_mem, Bool.and_eq_true, decide_eq_true_eq, bne_iff_ne]
    constructor
    · rintro ⟨⟨a, b, c⟩, -, e⟩; exact ⟨a, b, e, c⟩
    · rintro ⟨a, b, e, c⟩; exact ⟨⟨a, b, c⟩, b, e⟩
  · unfold save
    simp only [hui]
  · rfl
  · show infos (dump l names) (dump l names).graph.output = infos l l.graph.output ++ _
    rw [hout, hinf]
    unfold infos
    rw [List.filter_append]
  · intro t
    unfold save
    simp only [hinf]
    cases ws with
    | false => simp
    | true =>
      simp only [if_true, List.mem_append, hout]
      have e : (dump l names).graph.dynamics = l.graph.dynamics := rfl
      have e2 : (dump l names).graph.input = l.graph.input := rfl
      have e3 : (dump l names).graph.initials = l.graph.initials := rfl
      rw [e, e2, e3]
      have hm : ∀ (p : String → Bool), t ∈ infos l (l.graph.dynamics.filter p) ↔ (t ∈ l.graph.dynamics ∧ p t = true) ∧ (l.tensors.contains t && t != "") = true := by
        intro p; unfold infos; rw [List.mem_filter, List.mem_filter]
      have hn : t ∈ infos l new ↔ t ∈ new ∧ (l.tensors.contains t && t != "") = true := by unfold infos; rw [List.mem_filter]
      rw [hm, hm, hn]
      simp only [List.contains_eq_mem, List.mem_append, Bool.not_eq_true', Bool.or_eq_false_iff, decide_eq_false_iff_not, not_or]
      constructor
      · rintro ((⟨⟨a, b, c, _⟩, e⟩ | a) | a)
        · exact .inl (.inl ⟨⟨a, b, c⟩, e⟩)
        · exact .inl (.inr a)
        · exact .inr a
      · rintro ((⟨⟨a, b, c⟩, e⟩ | a) | a)
        · by_cases hnew : t ∈ new
          · exact .inr ⟨hnew, e⟩
          · exact .inl (.inl ⟨⟨a, b, c, hnew⟩, e⟩)
        · exact .inl (.inr a)
        · exact .inr a
  · intro f absent x t v
    have : (save wi ws (dump l names)).initializer = (save wi ws l).initializer := by unfold save; simp only [hui]
    have e : Load.start (save wi ws (dump l names)) absent x = Load.start (save wi ws l) absent x := by
      unfold Load.start
      rw [this]
    unfold Load.Computes
    rw [e]
    exact Iff.rfl

/-- **C94**, memory: whenever a plan is made with and without dumps, the two are the same, for any graph: the plan does not know the outputs, so a dumped tensor is not kept beyond its last
reader (`C94_dump_overwritten`). -/
theorem C94_plan_unchanged (l : Loaded V) (names : List String) (memsize : String → Option Int) (p : Nat) {r r' : Dict (Nat × Nat) × Nat}
    (h : Mem.compressMemory l.graph memsize p = .ok r) (h' : Mem.compressMemory (dump l names).graph memsize p = .ok r') : r' = r := by
  have e : Mem.runAlloc (dump l names).graph memsize p = Mem.runAlloc l.graph memsize p := rfl
  unfold Mem.compressMemory at h h'
  rw [e] at h'
  simp only at h h'
  split at h
  · cases h
  split at h'
  · cases h'
  split at h <;> try cases h
  split at h' <;> try cases h'
  rfl

/-- **C94 finding**: dumping all intermediate tensors makes `compress_memory` raise `ZeroDivisionError`, for every graph: nothing is left to compare the size of the plan with. -/
theorem C94_dump_all_raises (l : Loaded V) (names : List String) (memsize : String → Option Int) (p : Nat)
    (hall : ∀ t ∈ l.graph.dynamics, t ∈ l.graph.input ∨ t ∈ l.graph.output ∨ (t ∈ names ∧ t ∈ l.tensors)) :
    Mem.compressMemory (dump l names).graph memsize p = .error .zeroDivision := by
  obtain ⟨new, h1, -, -, h4⟩ := C94_outputs l.tensors names l.graph.output
  have hraw : Mem.rawSize (dump l names).graph memsize = some 0 := by
    unfold Mem.rawSize
    have gen : ∀ ds : List String, (∀ t ∈ ds, t ∈ l.graph.input ∨ t ∈ l.graph.output ∨ (t ∈ names ∧ t ∈ l.tensors)) →
        ds.foldl (fun acc t => if (dump l names).graph.input.contains t || (dump l names).graph.output.contains t then acc
          else match acc, memsize t with
            | some a, some s => some (a + s)
            | _, _ => none) (some 0) = some (0 : Int) := by
      intro ds
      induction ds with
      | nil => intro _; rfl
      | cons t ds ih =>
        intro h
        rw [List.foldl_cons, if_pos]
        · exact ih fun q hq => h q (List.mem_cons_of_mem _ hq)
        · have ho : (dump l names).graph.output = l.graph.output ++ new := h1
          have hi : (dump l names).graph.input = l.graph.input := rfl
          rw [ho, hi]
          simp only [List.contains_eq_mem, List.mem_append, Bool.or_eq_true, decide_eq_true_eq]
          rcases h t List.mem_cons_self with h | h | h
          · exact .inl h
          · exact .inr (.inl h)
          · by_cases hq : t ∈ l.graph.output
            · exact .inr (.inl hq)
            · exact .inr (.inr ((h4 t).2 ⟨h.1, h.2, hq⟩))
    exact gen _ hall
  unfold Mem.compressMemory
  split
  · rfl
  · simp only
    rw [hraw]
    rfl

/-- a loaded chain `x → a → b → y` -/
def dumpChain : Loaded Int := ⟨chain, ["x", "a", "b", "y"], fun _ => none⟩

example : (dump dumpChain ["a", "nowhere", "y", "a"]).graph.output = ["y", "a"] := by decide

/-- a case of `C94_dumped_array`: every node of the chain gives the sum of its operand plus one -/
example : let run : ShapeInfer.Run Int := fun _ _ xs _ => .ok (xs.map fun x => .arr ⟨[1], "f", [((x.value.map (·.data)).getD []).sum + 1]⟩)
    (ShapeInfer.valueInfer run (dump dumpChain ["b", "a"]).graph [("x", ⟨[2], "f", [3, 4]⟩)] fun _ => ⟨[], "f", none⟩).2.toOption.map (·.map fun a => (a.map (·.data)).getD [])
      = some [[10], [9], [8]] := by decide

example : Mem.compressMemory (dump dumpChain ["a", "b"]).graph (Infer.memsizes chainTM) 64 = .error .zeroDivision :=
  C94_dump_all_raises _ _ _ _ (by decide)

/-- **C94 finding**: `forward` of the inference engine does not return the dumped tensor: the chain that adds one per node, run on 5, should dump `a = 6`; it gives 8, because the block of `a`
is reused by then. -/
theorem C94_dump_overwritten :
    ∃ cm sz, Mem.compressMemory (dump dumpChain ["a"]).graph (Infer.memsizes [("x", ⟨[1], 1⟩), ("a", ⟨[1], 1⟩), ("b", ⟨[1], 1⟩), ("y", ⟨[1], 1⟩)]) 64 = .ok (cm, sz) ∧
      let e := Infer.mkEngine (dump dumpChain ["a"]).graph cm sz [("x", ⟨[1], 1⟩), ("a", ⟨[1], 1⟩), ("b", ⟨[1], 1⟩), ("y", ⟨[1], 1⟩)] 1 []
      (Infer.forward e incKern (fun _ => [1]) (fun _ => 0) [] [("x", [5])]).toOption.map (·.1) = some [("y", [8]), ("a", [8])] ∧
      Infer.refRun incSem (dump dumpChain ["a"]).graph.nodemap (startEnv e [] [("x", [5])]) "a" = some [6] := by
  refine ⟨_, _, rfl, ?_⟩
  decide

end OnnxTool.Props
