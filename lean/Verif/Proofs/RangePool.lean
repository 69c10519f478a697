import Verif.Spec.RangePool
import Verif.Proofs.Regress
/-!
# Proofs: a pool for a range of sizes
-/
namespace OnnxTool.RangePool
open OnnxTool OnnxTool.Engine OnnxTool.Regress

/-- `e'` has the descriptions of the inputs and the user's variables of `e` -/
structure Keeps (inputDesc : Dict (List Dim)) (e e' : Engine) : Prop where
  desc : ∀ t ∈ inputDesc.keys, e'.tensorDesc.get? t = e.tensorDesc.get? t
  vars : ∀ k, isNumeric k = false → e'.variables.get? k = e.variables.get? k

variable {g : Graph} {inputDesc : Dict (List Dim)}

theorem Keeps.refl (e : Engine) : Keeps inputDesc e e := ⟨fun _ _ => rfl, fun _ _ => rfl⟩

theorem Keeps.trans {a b c : Engine} (h : Keeps inputDesc a b) (h' : Keeps inputDesc b c) : Keeps inputDesc a c :=
  ⟨fun t ht => (h'.desc t ht).trans (h.desc t ht), fun k hk => (h'.vars k hk).trans (h.vars k hk)⟩

theorem updateDesc_keeps {e e' : Engine} {t : String} {i : Nat} {v : String} (ht : t ∉ inputDesc.keys) (h : updateDesc e t i v = .ok e') : Keeps inputDesc e e' := by
  unfold updateDesc at h
  split at h
  · cases h
  · split at h
    · cases h
    · cases h
    · cases h
      refine ⟨fun u hu => ?_, fun _ _ => rfl⟩
      show (Dict.set _ _ _).get? u = _
      have hne : ¬ t = u := by rintro rfl; exact ht hu
      rw [Dict.get?_set, if_neg hne]

theorem addExpr_keeps (e : Engine) (n : Nat) (src : String) (x : ValueExpr) : Keeps inputDesc e (e.addExpr (toString n) src x) := by
  refine ⟨fun _ _ => rfl, fun k hk => ?_⟩
  show (Dict.set _ _ _).get? k = _
  rw [Dict.get?_set, if_neg (fun e => not_numeric hk n e.symm)]

theorem dimStep_keeps {key : String} {vcount : Nat} {t : String} {i : Nat} {r : List Int} {s s' : St} (ht : t ∉ inputDesc.keys)
    (h : dimStep g key vcount t i r s = .ok s') : Keeps inputDesc s.engine s'.engine := by
  unfold dimStep at h
  split at h
  · unfold newDim at h
    split at h
    · cases h
    · cases h
    · split at h
      · cases h
      · split at h
        · cases h
        · simp only [] at h
          split at h
          · cases h
          · rename_i e he
            cases h
            exact (addExpr_keeps ..).trans (updateDesc_keeps ht he)
  · split at h
    · cases h
    · rename_i e he
      cases h
      exact updateDesc_keeps ht he

theorem dimLoop_keeps {key : String} {vcount : Nat} {t : String} {a b c : List Int} (ht : t ∉ inputDesc.keys) :
    ∀ (l : List Int) (i : Nat) (s s' : St), dimLoop g key vcount t a b c i l s = .ok s' → Keeps inputDesc s.engine s'.engine := by
  intro l
  induction l with
  | nil => intro i s s' h; cases h; exact Keeps.refl _
  | cons x l ih =>
    intro i s s' h
    unfold dimLoop at h
    split at h
    · split at h
      · split at h
        · cases h
        · rename_i s1 h1
          exact (dimStep_keeps ht h1).trans (ih _ _ _ h)
      · exact ih _ _ _ h
    · cases h

theorem has_iff (d : Dict (List Dim)) (t : String) : d.has t = true ↔ t ∈ d.keys := by
  rw [Dict.has]
  induction d with
  | nil => simp [Dict.get?, Dict.keys]
  | cons p d ih =>
    obtain ⟨k, v⟩ := p
    by_cases h : k = t
    · simp [Dict.get?, Dict.keys, h]
    · have h' : ¬ t = k := fun e => h e.symm
      simp only [Dict.get?, h, if_false, Dict.keys, List.map_cons, List.mem_cons, h', false_or]
      exact ih

theorem tensorLoop_keeps {key : String} {vcount : Nat} {a b c : Shapes} :
    ∀ (ts : List String) (s s' : St), tensorLoop g inputDesc key vcount a b c ts s = .ok s' → Keeps inputDesc s.engine s'.engine := by
  intro ts
  induction ts with
  | nil => intro s s' h; cases h; exact Keeps.refl _
  | cons t ts ih =>
    intro s s' h
    unfold tensorLoop at h
    split at h
    · exact ih _ _ h
    · rename_i ht
      split at h
      · cases h
      · rename_i s1 h1
        exact (dimLoop_keeps (fun hm => ht ((has_iff _ _).mpr hm)) _ _ _ _ h1).trans (ih _ _ h)

theorem varStep_keeps {infer : List (String × List Int) → Except PyErr Shapes} {mn : Shapes} {key : String} {lo hi : Int} {st st' : Engine × Nat}
    (h : varStep g infer inputDesc mn key lo hi st = .ok st') :
    (∀ t ∈ inputDesc.keys, st'.1.tensorDesc.get? t = st.1.tensorDesc.get? t) ∧
    (∀ k, isNumeric k = false → st'.1.variables.get? k = if k = key then some lo else st.1.variables.get? k) := by
  unfold varStep at h
  simp only [] at h
  split at h
  · cases h
  · split at h
    · cases h
    · split at h
      · cases h
      · rename_i s hs
        cases h
        have hk := tensorLoop_keeps _ _ _ hs
        refine ⟨fun t ht => hk.desc t ht, fun k hn => ?_⟩
        rw [hk.vars k hn]
        show (Dict.set (Dict.set (Dict.set _ _ _) _ _) _ _).get? k = _
        simp only [Dict.get?_set]
        by_cases e : key = k
        · subst e; simp
        · have e' : ¬ k = key := fun x => e x.symm
          simp [e, e']

/-- the engine holds the descriptions of the inputs and the values `σ` of the user's variables -/
structure Holds (inputDesc : Dict (List Dim)) (ranges : Range) (σ : String → Int) (e : Engine) : Prop where
  desc : ∀ p ∈ inputDesc, e.tensorDesc.get? p.1 = some p.2
  vars : ∀ r ∈ ranges, e.variables.get? r.1 = some (σ r.1)

theorem probe_holds {infer : List (String × List Int) → Except PyErr Shapes} {ranges : Range} {σ : String → Int} {e : Engine} (ho : Ordinary inputDesc ranges)
    (h : Holds inputDesc ranges σ e) : probe infer inputDesc e = infer (inputsAt inputDesc σ) := by
  unfold probe
  rw [generateInput_at inputDesc h.desc]
  intro p hp v hv
  obtain ⟨r, hr, rfl⟩ := List.mem_map.mp (ho.desc_vars p hp v hv)
  exact h.vars r hr

theorem mem_keys {d : Dict (List Dim)} {p : String × List Dim} (h : p ∈ d) : p.1 ∈ d.keys := List.mem_map.mpr ⟨p, h, rfl⟩

theorem Holds.set {ranges : Range} {σ : String → Int} {e : Engine} (h : Holds inputDesc ranges σ e) (k : String) (v : Int) :
    Holds inputDesc ranges (upd σ k v) (e.updateVariable k v) := by
  refine ⟨h.desc, fun r hr => ?_⟩
  show (Dict.set _ _ _).get? _ = _
  rw [Dict.get?_set]
  unfold upd
  by_cases e : k = r.1
  · rw [if_pos e, if_pos e.symm]
  · rw [if_neg e, if_neg (fun x => e x.symm)]; exact h.vars r hr

theorem upd_upd (σ : String → Int) (k : String) (a b : Int) : upd (upd σ k a) k b = upd σ k b := by
  funext q; unfold upd; split <;> simp_all

/-- what the loop over the variables `rs` leaves -/
theorem leaves_at {infer : List (String × List Int) → Except PyErr Shapes} {ranges : Range} (ho : Ordinary inputDesc ranges) {mn : Shapes} (σ : String → Int)
    (hσ : ∀ r ∈ ranges, σ r.1 = r.2.1) :
    ∀ (rs : Range) (st : Engine × Nat) (s0 s : Shapes), (∀ r ∈ rs, r ∈ ranges) → Holds inputDesc ranges σ st.1 →
      leaves g infer inputDesc mn rs st s0 = .ok s →
      match rs.getLast? with
      | none => s = s0
      | some r => infer (inputsAt inputDesc (upd σ r.1 r.2.2)) = .ok s := by
  intro rs
  induction rs with
  | nil => intro st s0 s _ _ h; cases h; rfl
  | cons r rs ih =>
    obtain ⟨k, lo, hi⟩ := r
    intro st s0 s hm hh h
    unfold leaves at h
    have hp : probe infer inputDesc ((st.1.updateVariable k (Int.fdiv (lo + hi) 2)).updateVariable k hi) = infer (inputsAt inputDesc (upd σ k hi)) := by
      rw [← upd_upd σ k (Int.fdiv (lo + hi) 2) hi]
      exact probe_holds ho ((hh.set k _).set k hi)
    rw [hp] at h
    split at h
    · cases h
    · rename_i s1 hs1
      split at h
      · cases h
      · rename_i st' hst
        obtain ⟨h1, h2⟩ := varStep_keeps hst
        have hh' : Holds inputDesc ranges σ st'.1 := by
          refine ⟨fun p hp => by rw [h1 p.1 (mem_keys hp)]; exact hh.desc p hp, fun r hr => ?_⟩
          rw [h2 r.1 (ho.keys_names r hr)]
          split
          · rename_i e
            have := hσ (k, lo, hi) (hm _ (by simp))
            simp only [] at this
            rw [e, this]
          · exact hh.vars r hr
        have := ih st' s1 s (fun r hr => hm r (by simp [hr])) hh' h
        cases rs with
        | nil => cases h; simpa using hs1
        | cons r' rs' =>
          cases hl : (r' :: rs').getLast? with
          | none => simp at hl
          | some q =>
            rw [hl] at this
            rw [List.getLast?_cons_cons, hl]
            exact this

theorem newEngine_holds {ranges : Range} (ho : Ordinary inputDesc ranges) (sel : String × Int × Int → Int) (e : Engine) (hd : ∀ p ∈ inputDesc, e.tensorDesc.get? p.1 = some p.2)
    (σ : String → Int) (hσ : ∀ r ∈ ranges, σ r.1 = sel r) : Holds inputDesc ranges σ (ranges.foldl (fun e r => e.updateVariable r.1 (sel r)) e) := by
  obtain ⟨_, h2, h3, _⟩ := setAll_vars sel ranges e ho.keys_nodup
  exact ⟨fun p hp => by rw [h2]; exact hd p hp, fun r hr => by rw [hσ r hr]; exact h3 r hr⟩

theorem addDescs_holds {ranges : Range} {σ : String → Int} {e : Engine} (mn mx : Shapes) (ts : List String) (h : Holds inputDesc ranges σ e) :
    Holds inputDesc ranges σ (addDescs inputDesc mn mx ts e) := by
  obtain ⟨_, h2, h3⟩ := addDescs_desc (inputDesc := inputDesc) mn mx ts e
  refine ⟨fun p hp => ?_, fun r hr => by rw [h2]; exact h.vars r hr⟩
  rw [h3, if_neg (fun c => c.2 (mem_keys hp))]
  exact h.desc p hp

theorem pick_all {ranges : Range} (hn : (ranges.map (·.1)).Nodup) (sel : String × Int × Int → Int) : ∀ r ∈ ranges, pick sel ranges r.1 = sel r := pick_eq sel ranges hn

/-- after a successful regression the tensor map has the shapes for the last variable at its largest and all others at their smallest value, and the engine still holds the input descriptions -/
theorem regress_leaves {infer : List (String × List Int) → Except PyErr Shapes} {ranges : Range} (ho : Ordinary inputDesc ranges) {e : Engine} {s : Shapes}
    (h : regress g infer inputDesc ranges = .ok (e, s)) {σ : String → Int} (hσ : AtLast ranges σ) : infer (inputsAt inputDesc σ) = .ok s := by
  unfold regress at h
  split at h
  · cases h
  · simp only [] at h
    split at h
    · cases h
    · rename_i mx hmx
      split at h
      · cases h
      · rename_i mn hmn
        split at h
        · cases h
        · rename_i s' hs
          cases h
          have hlow : ∀ r ∈ ranges, pick (·.2.1) ranges r.1 = r.2.1 := pick_all ho.keys_nodup _
          have hnew := (newEngine_desc inputDesc ({} : Engine) ho.desc_nodup).2.2.1
          have hd1 : ∀ p ∈ inputDesc, (ranges.foldl (fun e r => e.updateVariable r.1 r.2.2) (newEngine inputDesc)).tensorDesc.get? p.1 = some p.2 :=
            (newEngine_holds ho (·.2.2) _ hnew (pick (·.2.2) ranges) (pick_all ho.keys_nodup _)).desc
          have h2 := newEngine_holds ho (·.2.1) _ hd1 (pick (·.2.1) ranges) hlow
          have hl := leaves_at ho (pick (·.2.1) ranges) hlow ranges _ _ _ (fun _ h => h) (addDescs_holds mn mx g.dynamics h2) hs
          have hcongr : ∀ τ : String → Int, (∀ r ∈ ranges, τ r.1 = σ r.1) → inputsAt inputDesc τ = inputsAt inputDesc σ := by
            intro τ hτ
            unfold inputsAt
            refine List.map_congr_left fun p hp => ?_
            congr 1
            refine List.map_congr_left fun d hd => ?_
            cases d with
            | num n => rfl
            | var v =>
              obtain ⟨r, hr, rfl⟩ := List.mem_map.mp (ho.desc_vars p hp v hd)
              exact hτ r hr
          rcases List.eq_nil_or_concat ranges with hnil | ⟨rs, r, hrs⟩
          · subst hnil
            simp only [List.getLast?_nil] at hl
            subst hl
            rw [← hcongr (pick (·.2.1) []) (by simp), ← probe_holds (infer := infer) ho h2]
            exact hmn
          · rw [List.concat_eq_append] at hrs
            have hlast : ranges.getLast? = some r := by rw [hrs]; simp
            rw [hlast] at hl
            simp only [] at hl
            rw [← hcongr _ ?_]
            · exact hl
            · intro q hq
              obtain ⟨i, hi⟩ := List.mem_iff_getElem?.mp hq
              rw [hσ i q hi]
              unfold upd
              have hlen : ranges.length = rs.length + 1 := by rw [hrs]; simp
              by_cases hi1 : i + 1 = ranges.length
              · have hqr : q = r := by
                  have : ranges[rs.length]? = some r := by rw [hrs]; simp
                  have hii : i = rs.length := by omega
                  rw [hii, this] at hi
                  exact (Option.some.inj hi).symm
                rw [hqr, if_pos rfl]
                rw [if_pos hi1]
              · have hne : q.1 ≠ r.1 := by
                  intro he
                  have hnd := ho.keys_nodup
                  rw [hrs, List.map_append, List.nodup_append] at hnd
                  have hlt : i < rs.length := by
                    have := (List.getElem?_eq_some_iff.mp hi).1
                    omega
                  have hi' : rs[i]? = some q := by
                    rw [← hi, hrs, List.getElem?_append_left hlt]
                  exact hnd.2.2 q.1 (List.mem_map.mpr ⟨q, List.mem_of_getElem? hi', rfl⟩) r.1 (by simp) he
                rw [if_neg hne, if_neg hi1]
                exact hlow q hq

theorem varLoop_desc {infer : List (String × List Int) → Except PyErr Shapes} {mn : Shapes} :
    ∀ (rs : Range) (st st' : Engine × Nat), varLoop g infer inputDesc mn rs st = .ok st' → ∀ t ∈ inputDesc.keys, st'.1.tensorDesc.get? t = st.1.tensorDesc.get? t := by
  intro rs
  induction rs with
  | nil => intro st st' h; cases h; intro _ _; rfl
  | cons r rs ih =>
    obtain ⟨k, lo, hi⟩ := r
    intro st st' h t ht
    unfold varLoop at h
    split at h
    · cases h
    · rename_i st1 h1
      rw [ih st1 st' h t ht, (varStep_keeps h1).1 t ht]

theorem regress_desc {infer : List (String × List Int) → Except PyErr Shapes} {ranges : Range} (ho : Ordinary inputDesc ranges) {e : Engine} {s : Shapes}
    (h : regress g infer inputDesc ranges = .ok (e, s)) : ∀ p ∈ inputDesc, e.tensorDesc.get? p.1 = some p.2 := by
  unfold regress at h
  split at h
  · cases h
  · rename_i e' he
    have hee : e' = e := by
      simp only [] at h
      split at h
      · cases h
      · split at h
        · cases h
        · split at h
          · cases h
          · cases h; rfl
    subst hee
    unfold shapeRegress at he
    simp only [] at he
    split at he
    · cases he
    · split at he
      · cases he
      · rename_i mn hmn
        split at he
        · cases he
        · rename_i st hst
          cases he
          intro p hp
          have hnew := (newEngine_desc inputDesc ({} : Engine) ho.desc_nodup).2.2.1
          have h1 := newEngine_holds ho (·.2.2) _ hnew (pick (·.2.2) ranges) (pick_all ho.keys_nodup _)
          have h2 := newEngine_holds ho (·.2.1) _ h1.desc (pick (·.2.1) ranges) (pick_all ho.keys_nodup _)
          rw [varLoop_desc ranges _ st hst p.1 (mem_keys hp)]
          exact (addDescs_holds _ _ _ h2).desc p hp

end OnnxTool.RangePool
