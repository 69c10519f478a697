import Verif.Spec.Topsort
import Verif.Proofs.Kahn
/-! A weight function for work-list loops over acyclic graphs. -/
namespace OnnxTool
open Topsort

theorem sum_map_le (ps : List String) (w : String → Nat) (B : Nat) (h : ∀ p ∈ ps, w p ≤ B) :
    (ps.map w).sum ≤ ps.length * B := by
  induction ps with
  | nil => simp
  | cons a ps ih =>
    simp only [List.map_cons, List.sum_cons, List.length_cons, Nat.add_mul, Nat.one_mul]
    have := ih (fun p hp => h p (List.mem_cons_of_mem _ hp))
    have := h a (by simp)
    omega

theorem le_sum_of_mem {ms : List Node} {w : String → Nat} {m : Node} (h : m ∈ ms) :
    w m.name ≤ (ms.map (fun m => w m.name)).sum := by
  induction ms with
  | nil => cases h
  | cons a ms ih =>
    simp only [List.map_cons, List.sum_cons]
    rcases List.mem_cons.mp h with rfl | h
    · omega
    · have := ih h; omega

/-- If nodes push only nodes listed before them, at most `L n` of them, there are weights that make every step decrease the
total weight of the work list. -/
theorem exists_weight (R : Node → Node → Prop) (L : Node → Nat) : ∀ (rs : List Node)
    (_ : (rs.reverse.map (·.name)).Nodup) (_ : rs.reverse.Pairwise (fun a b => ¬ R a b)) (_ : ∀ n ∈ rs, ¬ R n n),
    ∃ w : String → Nat, ∀ n ∈ rs, ∀ ps : List String, (∀ p ∈ ps, ∃ m ∈ rs, m.name = p ∧ R n m) →
      ps.length ≤ L n → (ps.map w).sum + 1 ≤ w n.name
  | [], _, _, _ => ⟨fun _ => 0, by simp⟩
  | n :: rs, hn, hp, hi => by
    simp only [List.reverse_cons] at hn hp
    rw [List.map_append, List.nodup_append] at hn
    rw [List.pairwise_append] at hp
    obtain ⟨w, hw⟩ := exists_weight R L rs hn.1 hp.1 (fun m hm => hi m (List.mem_cons_of_mem _ hm))
    have hne : ∀ m ∈ rs, m.name ≠ n.name := fun m hm =>
      hn.2.2 _ (List.mem_map.mpr ⟨m, List.mem_reverse.mpr hm, rfl⟩) _ (by simp)
    let w' : String → Nat := fun x => if x = n.name then L n * (rs.map (fun m => w m.name)).sum + 1 else w x
    have hw' : ∀ m ∈ rs, w' m.name = w m.name := fun m hm => if_neg (hne m hm)
    refine ⟨w', ?_⟩
    intro m hm ps hps hlen
    rcases List.mem_cons.mp hm with rfl | hmr
    · have hall : ∀ p ∈ ps, w' p ≤ (rs.map (fun m => w m.name)).sum := by
        intro p hp2
        obtain ⟨k, hk, rfl, hr⟩ := hps p hp2
        rcases List.mem_cons.mp hk with rfl | hk
        · exact absurd hr (hi _ (by simp))
        · rw [hw' k hk]; exact le_sum_of_mem hk
      have h1 := sum_map_le ps w' _ hall
      have h2 : w' m.name = L m * (rs.map (fun m => w m.name)).sum + 1 := if_pos rfl
      have h3 := Nat.mul_le_mul_right ((rs.map (fun m => w m.name)).sum) hlen
      omega
    · have hps' : ∀ p ∈ ps, ∃ k ∈ rs, k.name = p ∧ R m k := by
        intro p hp2
        obtain ⟨k, hk, e, hr⟩ := hps p hp2
        rcases List.mem_cons.mp hk with rfl | hk
        · exact absurd hr (hp.2.2 m (List.mem_reverse.mpr hmr) _ (by simp))
        · exact ⟨k, hk, e, hr⟩
      have h1 := hw m hmr ps hps' hlen
      rw [hw' m hmr]
      have : ps.map w' = ps.map w := by
        apply List.map_congr_left
        intro p hp2
        obtain ⟨k, hk, rfl, -⟩ := hps' p hp2
        exact hw' k hk
      rw [this]; exact h1

theorem acyclic_weight_up {ns : List Node} (hn : (ns.map (·.name)).Nodup) (ha : Acyclic ns) (L : Node → Nat) :
    ∃ w : String → Nat, ∀ n ∈ ns, ∀ ps : List String, (∀ p ∈ ps, ∃ m ∈ ns, m.name = p ∧ Dep n m) →
      ps.length ≤ L n → (ps.map w).sum + 1 ≤ w n.name := by
  obtain ⟨ms, hperm, ht⟩ := ha
  obtain ⟨w, hw⟩ := exists_weight Dep L ms.reverse
    (by rw [List.reverse_reverse]; exact ((hperm.map _).nodup_iff).mpr hn) (by rw [List.reverse_reverse]; exact ht.1)
    (fun n hnm => ht.2 n (List.mem_reverse.mp hnm))
  refine ⟨w, ?_⟩
  intro n hnm ps hps hl
  refine hw n (List.mem_reverse.mpr (hperm.mem_iff.mpr hnm)) ps ?_ hl
  intro p hp
  obtain ⟨m, hm, r⟩ := hps p hp
  exact ⟨m, List.mem_reverse.mpr (hperm.mem_iff.mpr hm), r⟩

theorem acyclic_weight_down {ns : List Node} (hn : (ns.map (·.name)).Nodup) (ha : Acyclic ns) (L : Node → Nat) :
    ∃ w : String → Nat, ∀ n ∈ ns, ∀ ps : List String, (∀ p ∈ ps, ∃ m ∈ ns, m.name = p ∧ Dep m n) →
      ps.length ≤ L n → (ps.map w).sum + 1 ≤ w n.name := by
  obtain ⟨ms, hperm, ht⟩ := ha
  obtain ⟨w, hw⟩ := exists_weight (fun a b => Dep b a) L ms
    (by rw [List.map_reverse, (List.reverse_perm _).nodup_iff]; exact ((hperm.map _).nodup_iff).mpr hn)
    (by rw [List.pairwise_reverse]; exact ht.1)
    (fun n hnm => ht.2 n hnm)
  refine ⟨w, ?_⟩
  intro n hnm ps hps hl
  refine hw n (hperm.mem_iff.mpr hnm) ps ?_ hl
  intro p hp
  obtain ⟨m, hm, r⟩ := hps p hp
  exact ⟨m, hperm.mem_iff.mpr hm, r⟩

end OnnxTool
