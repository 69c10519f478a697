import Verif.Model.ShapeCalc
import Verif.Spec.ShapeCalc
import Verif.Proofs.Fuse
/-! `__find_shape_tensors__` marks exactly the backward closure. -/
namespace OnnxTool.ShapeCalc
open OnnxTool Remove Topsort Subgraph

theorem shapeDep_mem {ns : List Node} {ini seeds : List String} {n : Node} (h : ShapeDep ns ini seeds n) : n ∈ ns := by
  cases h <;> assumption

theorem mem_producers {g : Graph} (hx : g.IndexExact) {t x : String} :
    x ∈ (g.producedby.get? t).getD [] ↔ ∃ n ∈ g.nodemap, n.name = x ∧ t ∈ n.output := by
  rw [hx.2 t]
  rw [show ((if producersOf g.nodemap t = [] then none else some (producersOf g.nodemap t)).getD []) =
    producersOf g.nodemap t from by split <;> simp_all]
  exact mem_occ (f := Node.output)

/-- `M` marked, `P` pending -/
structure SInv (g : Graph) (seeds M P : List String) : Prop where
  sound : ∀ x, x ∈ M ∨ x ∈ P → ∃ n ∈ g.nodemap, n.name = x ∧ ShapeDep g.nodemap g.initials seeds n
  closed : ∀ m ∈ g.nodemap, m.name ∈ M → m.op ≠ "Shape" → ∀ t ∈ m.input, t ∉ g.initials →
    ∀ n ∈ g.nodemap, t ∈ n.output → n.name ∈ M ∨ n.name ∈ P

theorem mem_extend {g : Graph} (hx : g.IndexExact) {M ins : List String} {x : String} :
    x ∈ extend g M ins ↔ ∃ t ∈ ins, t ∉ g.initials ∧ x ∉ M ∧ ∃ n ∈ g.nodemap, n.name = x ∧ t ∈ n.output := by
  simp only [extend, List.mem_flatMap]
  constructor
  · rintro ⟨t, ht, h⟩
    split at h
    · cases h
    · rename_i hi
      rw [List.contains_iff_mem] at hi
      rw [List.mem_filter, mem_producers hx] at h
      refine ⟨t, ht, hi, ?_, h.1⟩
      have := h.2
      rw [Bool.not_eq_true', ← Bool.not_eq_true, List.contains_iff_mem] at this
      exact this
  · rintro ⟨t, ht, hi, hM, h⟩
    refine ⟨t, ht, ?_⟩
    rw [if_neg (by rw [List.contains_iff_mem]; exact hi), List.mem_filter, mem_producers hx]
    refine ⟨h, ?_⟩
    rw [Bool.not_eq_true', ← Bool.not_eq_true, List.contains_iff_mem]; exact hM

theorem round_ok {g : Graph} (hw : Ix g) {seeds : List String} : ∀ (F M next : List String)
    (_ : SInv g seeds M (F ++ next)),
    ∃ M' next', round g F (M, next) = .ok (M', next') ∧ SInv g seeds M' next' ∧
      (∀ x, x ∈ M' ↔ x ∈ M ∨ x ∈ F) ∧
      (∀ x ∈ next', x ∈ next ∨ ∃ m ∈ g.nodemap, m.name ∈ F ∧ m.op ≠ "Shape" ∧ x ∉ M ∧
          ∃ t ∈ m.input, t ∉ g.initials ∧ ∃ n ∈ g.nodemap, n.name = x ∧ t ∈ n.output)
  | [], M, next, h => ⟨M, next, rfl, h, by simp, by intro x hx; exact Or.inl hx⟩
  | x :: F, M, next, h => by
    obtain ⟨n, hn, rfl, hd⟩ := h.sound x (Or.inr (by simp))
    have hf := findNode_mem hw.names hn
    by_cases hop : n.op = "Shape"
    · obtain ⟨M', next', h1, h2, h3, h4⟩ := round_ok (seeds := seeds) hw F (addNew M n.name) next (by
        refine ⟨?_, ?_⟩
        · intro y hy
          rcases hy with hy | hy
          · rcases mem_addNew.mp hy with hy | rfl
            · exact h.sound y (Or.inl hy)
            · exact ⟨n, hn, rfl, hd⟩
          · exact h.sound y (Or.inr (List.mem_cons_of_mem _ hy))
        · intro m hm hmM hmo t ht hti k hk hkt
          rcases mem_addNew.mp hmM with hmM | e
          · rcases h.closed m hm hmM hmo t ht hti k hk hkt with h1 | h1
            · exact Or.inl (mem_addNew.mpr (Or.inl h1))
            · rcases List.mem_cons.mp h1 with e | h1
              · exact Or.inl (mem_addNew.mpr (Or.inr e))
              · exact Or.inr h1
          · have : m = n := name_inj hw.names hm hn e
            subst this; exact absurd hop hmo)
      refine ⟨M', next', ?_, h2, ?_, ?_⟩
      · unfold round; rw [hf]; simp only [hop, if_true]; exact h1
      · intro y; rw [h3, mem_addNew, List.mem_cons, or_assoc]
      · intro y hy
        rcases h4 y hy with h5 | ⟨m, hm, hmF, hmo, hyM, hrest⟩
        · exact Or.inl h5
        · exact Or.inr ⟨m, hm, List.mem_cons_of_mem _ hmF, hmo, fun h => hyM (mem_addNew.mpr (Or.inl h)), hrest⟩
    · obtain ⟨M', next', h1, h2, h3, h4⟩ := round_ok (seeds := seeds) hw F (addNew M n.name)
        (next ++ extend g (addNew M n.name) n.input) (by
        refine ⟨?_, ?_⟩
        · intro y hy
          rcases hy with hy | hy
          · rcases mem_addNew.mp hy with hy | rfl
            · exact h.sound y (Or.inl hy)
            · exact ⟨n, hn, rfl, hd⟩
          · rw [← List.append_assoc] at hy
            rcases List.mem_append.mp hy with hy | hy
            · exact h.sound y (Or.inr (List.mem_cons_of_mem _ hy))
            · obtain ⟨t, ht, hti, -, k, hk, rfl, hkt⟩ := (mem_extend hw.exact_).mp hy
              exact ⟨k, hk, rfl, ShapeDep.step hk hd hop ht hti hkt⟩
        · intro m hm hmM hmo t ht hti k hk hkt
          rw [← List.append_assoc]
          rcases mem_addNew.mp hmM with hmM | e
          · rcases h.closed m hm hmM hmo t ht hti k hk hkt with h1 | h1
            · exact Or.inl (mem_addNew.mpr (Or.inl h1))
            · rcases List.mem_cons.mp h1 with e | h1
              · exact Or.inl (mem_addNew.mpr (Or.inr e))
              · exact Or.inr (List.mem_append_left _ h1)
          · have : m = n := name_inj hw.names hm hn e
            subst this
            by_cases hkM : k.name ∈ addNew M m.name
            · exact Or.inl hkM
            · exact Or.inr (List.mem_append_right _ ((mem_extend hw.exact_).mpr ⟨t, ht, hti, hkM, k, hk, rfl, hkt⟩)))
      refine ⟨M', next', ?_, h2, ?_, ?_⟩
      · unfold round; rw [hf]; simp only [hop, if_false]; exact h1
      · intro y; rw [h3, mem_addNew, List.mem_cons, or_assoc]
      · intro y hy
        rcases h4 y hy with h5 | ⟨m, hm, hmF, hmo, hyM, hrest⟩
        · rcases List.mem_append.mp h5 with h5 | h5
          · exact Or.inl h5
          · obtain ⟨t, ht, hti, hyM, hk⟩ := (mem_extend hw.exact_).mp h5
            exact Or.inr ⟨n, hn, by simp, hop, fun h => hyM (mem_addNew.mpr (Or.inl h)), t, ht, hti, hk⟩
        · exact Or.inr ⟨m, hm, List.mem_cons_of_mem _ hmF, hmo, fun h => hyM (mem_addNew.mpr (Or.inl h)), hrest⟩

/-- number of unmarked nodes -/
def unmarked (g : Graph) (M : List String) : Nat := (g.nodemap.filter (fun n => !M.contains n.name)).length

theorem filter_len_le {α : Type} {p q : α → Bool} (h : ∀ a, p a = true → q a = true) (l : List α) :
    (l.filter p).length ≤ (l.filter q).length := by
  induction l with
  | nil => simp
  | cons a l ih =>
    rw [List.filter_cons, List.filter_cons]
    by_cases hp : p a = true
    · rw [if_pos hp, if_pos (h a hp)]; simpa using ih
    · rw [if_neg hp]; split
      · simp only [List.length_cons]; omega
      · exact ih

theorem unmarked_le {g : Graph} {M M' : List String} (h : ∀ x ∈ M, x ∈ M') : unmarked g M' ≤ unmarked g M := by
  apply filter_len_le
  intro n hn
  rw [Bool.not_eq_true', ← Bool.not_eq_true, List.contains_iff_mem] at hn ⊢
  exact fun hm => hn (h _ hm)

theorem unmarked_lt {g : Graph} {M M' : List String} (h : ∀ x ∈ M, x ∈ M') {n : Node} (hn : n ∈ g.nodemap)
    (h1 : n.name ∉ M) (h2 : n.name ∈ M') : unmarked g M' < unmarked g M := by
  obtain ⟨a, b, e⟩ := List.append_of_mem hn
  have key : ∀ l : List Node, (l.filter (fun n => !M'.contains n.name)).length ≤
      (l.filter (fun n => !M.contains n.name)).length := by
    intro l
    refine filter_len_le ?_ l
    intro n hn
    rw [Bool.not_eq_true', ← Bool.not_eq_true, List.contains_iff_mem] at hn ⊢
    exact fun hm => hn (h _ hm)
  have ka := key a
  have kb := key b
  unfold unmarked
  rw [e, List.filter_append, List.filter_append, List.filter_cons, List.filter_cons]
  have e1 : (!M.contains n.name) = true := by
    rw [Bool.not_eq_true', ← Bool.not_eq_true, List.contains_iff_mem]; exact h1
  have e2 : (!M'.contains n.name) = false := by
    rw [Bool.not_eq_false', List.contains_iff_mem]; exact h2
  rw [e1, e2]
  simp only [if_true, List.length_append, List.length_cons, Bool.false_eq_true, if_false]
  omega

theorem unmarked_total {g : Graph} (M : List String) : unmarked g M ≤ g.nodemap.length := List.length_filter_le _ _

theorem search_ok {g : Graph} (hw : Ix g) {seeds : List String} : ∀ (fuel : Nat) (F M : List String)
    (_ : SInv g seeds M F) (_ : (F = [] ∧ 1 ≤ fuel) ∨ unmarked g M + 2 ≤ fuel),
    ∃ M', search g fuel F M = .ok M' ∧ SInv g seeds M' [] ∧ ∀ x, x ∈ M ∨ x ∈ F → x ∈ M'
  | 0, F, M, h, hf => by omega
  | fuel + 1, [], M, h, hf => ⟨M, rfl, h, by simp⟩
  | fuel + 1, y :: F, M, h, hf => by
    obtain ⟨M1, next, h1, h2, h3, h4⟩ := round_ok (seeds := seeds) hw (y :: F) M [] (by simpa using h)
    have hf' := hf.resolve_left (by simp)
    obtain ⟨M', k1, k2, k3⟩ := search_ok (seeds := seeds) hw fuel next M1 h2 (by
      by_cases hall : ∀ x ∈ y :: F, x ∈ M
      · left
        refine ⟨?_, by omega⟩
        rw [List.eq_nil_iff_forall_not_mem]
        intro x hx
        rcases h4 x hx with hx | ⟨m, hm, hmF, hmo, hxM, t, ht, hti, n, hn, rfl, htn⟩
        · cases hx
        · rcases h.closed m hm (hall _ hmF) hmo t ht hti n hn htn with h5 | h5
          · exact hxM h5
          · exact hxM (hall _ h5)
      · right
        have hex : ∃ x ∈ y :: F, x ∉ M := by
          apply Classical.byContradiction
          intro hcon
          exact hall (fun x hx => Classical.byContradiction fun hxM => hcon ⟨x, hx, hxM⟩)
        obtain ⟨x, hxF, hxM⟩ := hex
        obtain ⟨n, hn, rfl, -⟩ := h.sound x (Or.inr hxF)
        have := unmarked_lt (g := g) (fun z hz => (h3 z).mpr (Or.inl hz)) hn hxM ((h3 _).mpr (Or.inr hxF))
        omega)
    refine ⟨M', ?_, k2, ?_⟩
    · unfold search; rw [h1]; exact k1
    · intro x hx; exact k3 x (Or.inl ((h3 x).mpr hx))

theorem sinv_mono {g : Graph} {s1 s2 M P : List String} (hs : ∀ t ∈ s1, t ∈ s2) (h : SInv g s1 M P) : SInv g s2 M P := by
  refine ⟨?_, h.closed⟩
  intro x hx
  obtain ⟨n, hn, e, hd⟩ := h.sound x hx
  refine ⟨n, hn, e, ?_⟩
  clear e hn
  induction hd with
  | seed a b c d => exact ShapeDep.seed a (hs _ b) c d
  | step a _ b c d e ih => exact ShapeDep.step a ih b c d e

theorem markAll_ok {g : Graph} (hw : Ix g) {seeds : List String} : ∀ (ts M : List String) (_ : ∀ t ∈ ts, t ∈ seeds)
    (_ : SInv g seeds M []),
    ∃ M', markAll g ts M = .ok M' ∧ SInv g seeds M' [] ∧ (∀ x ∈ M, x ∈ M') ∧
      ∀ t ∈ ts, t ∉ g.initials → ∀ n ∈ g.nodemap, t ∈ n.output → n.name ∈ M'
  | [], M, hs, h => ⟨M, rfl, h, fun _ h => h, by simp⟩
  | t :: ts, M, hs, h => by
    have hs' : ∀ t ∈ ts, t ∈ seeds := fun s h => hs s (List.mem_cons_of_mem _ h)
    unfold markAll
    by_cases hi : g.initials.contains t = true
    · rw [if_pos hi]
      obtain ⟨M', h1, h2, h3, h4⟩ := markAll_ok (seeds := seeds) hw ts M hs' h
      refine ⟨M', h1, h2, h3, ?_⟩
      intro s hsm hsi
      rcases List.mem_cons.mp hsm with rfl | hsm
      · rw [List.contains_iff_mem] at hi; exact absurd hi hsi
      · exact h4 s hsm hsi
    · rw [if_neg hi]
      rw [List.contains_iff_mem] at hi
      cases hp : g.producedby.get? t with
      | none =>
        obtain ⟨M', h1, h2, h3, h4⟩ := markAll_ok (seeds := seeds) hw ts M hs' h
        refine ⟨M', h1, h2, h3, ?_⟩
        intro s hsm hsi n hn hsn
        rcases List.mem_cons.mp hsm with rfl | hsm
        · have : n.name ∈ (g.producedby.get? s).getD [] := (mem_producers hw.exact_).mpr ⟨n, hn, rfl, hsn⟩
          rw [hp] at this; cases this
        · exact h4 s hsm hsi n hn hsn
      | some ps =>
        have hps : ∀ x, x ∈ ps ↔ ∃ n ∈ g.nodemap, n.name = x ∧ t ∈ n.output := by
          intro x
          have := mem_producers hw.exact_ (t := t) (x := x)
          rw [hp] at this; exact this
        obtain ⟨M1, k1, k2, k3⟩ := search_ok (seeds := seeds) hw (g.nodemap.length + 2) ps M (by
          refine ⟨?_, ?_⟩
          · rintro x (hx | hx)
            · exact h.sound x (Or.inl hx)
            · obtain ⟨n, hn, e, htn⟩ := (hps x).mp hx
              exact ⟨n, hn, e, ShapeDep.seed hn (hs t (by simp)) hi htn⟩
          · intro m hm hmM hmo s hsm hsi n hn hsn
            exact Or.inl ((h.closed m hm hmM hmo s hsm hsi n hn hsn).resolve_right (by simp)))
          (Or.inr (by have := unmarked_total (g := g) M; omega))
        obtain ⟨M', h1, h2, h3, h4⟩ := markAll_ok (seeds := seeds) hw ts M1 hs' k2
        refine ⟨M', ?_, h2, fun x hx => h3 x (k3 x (Or.inl hx)), ?_⟩
        · simp only; rw [k1]; exact h1
        · intro s hsm hsi n hn hsn
          rcases List.mem_cons.mp hsm with rfl | hsm
          · exact h3 _ (k3 _ (Or.inr ((hps _).mpr ⟨n, hn, rfl, hsn⟩)))
          · exact h4 s hsm hsi n hn hsn

theorem findShape_ok {g : Graph} (hw : Ix g) (order seeds : List String) (ho : ∀ t, t ∈ order ↔ t ∈ seeds) :
    ∃ M, findShape g order = .ok M ∧
      ∀ n ∈ g.nodemap, (n.name ∈ M ↔ ShapeDep g.nodemap g.initials seeds n) := by
  obtain ⟨M, h1, h2, -, h4⟩ := markAll_ok hw (seeds := seeds) order [] (fun t ht => (ho t).mp ht)
    ⟨by simp, by simp⟩
  refine ⟨M, h1, ?_⟩
  intro n hn
  constructor
  · intro hx
    obtain ⟨m, hm, e, hd⟩ := h2.sound _ (Or.inl hx)
    have : m = n := name_inj hw.names hm hn e
    subst this; exact hd
  · intro hd
    clear hn
    induction hd with
    | seed a b c d => exact h4 _ ((ho _).mpr b) c _ a d
    | step a hm b c d e ih =>
      exact (h2.closed _ (shapeDep_mem hm) ih b _ c d _ a e).resolve_right (by simp)

theorem findShape_sub {g : Graph} (hw : Ix g) (order : List String) {M : List String} (h : findShape g order = .ok M) :
    ∀ x ∈ M, ∃ n ∈ g.nodemap, n.name = x := by
  obtain ⟨M', h1, h2, -, -⟩ := markAll_ok hw (seeds := order) order [] (fun t ht => ht) ⟨by simp, by simp⟩
  unfold findShape at h
  rw [h1] at h; cases h
  intro x hx
  obtain ⟨n, hn, e, -⟩ := h2.sound x (Or.inl hx)
  exact ⟨n, hn, e⟩

end OnnxTool.ShapeCalc
