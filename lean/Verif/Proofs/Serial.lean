import Verif.Spec.Serial
/-! # The reader inverts the writer -/
namespace OnnxTool.Serial
open OnnxTool OnnxTool.Engine

/-- `dec` reads back what `enc` wrote, for values satisfying `P`, whatever follows. -/
def RT {α β : Type} (enc : α → Except PyErr Bytes) (dec : Parser β) (norm : α → β) (P : α → Prop) : Prop :=
  ∀ x b rest, P x → enc x = .ok b → dec (b ++ rest) = some (norm x, rest)

theorem leBytes_length : ∀ k v, (leBytes k v).length = k := by
  intro k
  induction k with
  | zero => intro v; rfl
  | succ k ih => intro v; simp [leBytes, ih]

theorem leNat_leBytes : ∀ k v, leNat (leBytes k v) = v % 256 ^ k := by
  intro k
  induction k with
  | zero => intro v; simp [leBytes, leNat, Nat.mod_one]
  | succ k ih =>
    intro v
    simp only [leBytes, leNat, ih]
    have : (UInt8.ofNat (v % 256)).toNat = v % 256 := by simp
    rw [this, Nat.pow_succ, Nat.mul_comm (256 ^ k) 256, Nat.mod_mul]

theorem rdBytes_append (b rest : Bytes) : rdBytes b.length (b ++ rest) = some (b, rest) := by
  unfold rdBytes
  rw [if_pos (by simp)]
  simp

theorem rdBytes_append' {n : Nat} {b rest : Bytes} (h : b.length = n) : rdBytes n (b ++ rest) = some (b, rest) := by
  subst h; exact rdBytes_append b rest

theorem pow_half (n : Nat) (h : 0 < n) : 2 * 2 ^ (8 * n - 1) = 256 ^ n := by
  obtain ⟨m, rfl⟩ : ∃ m, n = m + 1 := ⟨n - 1, by omega⟩
  rw [show (256 : Nat) = 2 ^ 8 from rfl, ← Nat.pow_mul, ← Nat.pow_succ']
  congr 1

theorem rt_int {n : Nat} (hn : 0 < n) : RT (encInt n) (rdInt n) id (fun _ => True) := by
  intro i b rest _ h
  unfold encInt at h
  split at h
  · rename_i hr
    injection h with h
    have hp := pow_half n hn
    have hM : (2 : Int) ^ (8 * n) = ((256 ^ n : Nat) : Int) := by
      rw [show (256 : Nat) = 2 ^ 8 from rfl, ← Nat.pow_mul]; push_cast; rfl
    unfold rdInt
    rw [← h, rdBytes_append' (leBytes_length _ _)]
    simp only [leNat_leBytes, hM]
    congr 2
    generalize hN : 256 ^ n = N at *
    generalize hH : 2 ^ (8 * n - 1) = H at *
    have hN0 : (0 : Int) < N := by omega
    have h1 := Int.emod_nonneg i (b := (N : Int)) (by omega)
    have h2 := Int.emod_lt_of_pos i hN0
    have h3 : (i % (N : Int)).toNat % N = (i % (N : Int)).toNat := Nat.mod_eq_of_lt (by omega)
    rw [h3]
    by_cases hi : 0 ≤ i
    · have : i % (N : Int) = i := Int.emod_eq_of_lt hi (by omega)
      rw [this, if_pos (by omega)]
      show _ = i
      omega
    · have : i % (N : Int) = i + N := by
        rw [← Int.add_emod_right]
        exact Int.emod_eq_of_lt (by omega) (by omega)
      rw [this, if_neg (by omega)]
      show _ = i
      omega
  · cases h

/-! ## Strings -/

theorem zero_mem_utf8EncodeChar {c : Char} (h : (0 : UInt8) ∈ String.utf8EncodeChar c) : c = '\x00' := by
  have key : ∀ v : Nat, v < 256 → UInt8.ofNat v = 0 → v = 0 := by
    intro v hv h0
    have : (UInt8.ofNat v).toNat = 0 := by rw [h0]; rfl
    simpa [Nat.mod_eq_of_lt hv] using this
  unfold String.utf8EncodeChar at h
  simp only [] at h
  have hc : c.val.toNat = 0 → c = '\x00' := by
    intro h0
    apply Char.ext
    apply UInt32.toNat_inj.mp
    exact h0
  generalize c.val.toNat = v at *
  split at h
  · simp only [List.mem_singleton] at h
    exact hc (key v (by omega) h.symm)
  · split at h
    · simp only [List.mem_cons, List.not_mem_nil, or_false] at h
      rcases h with h | h
      · have := key _ (by omega) h.symm; omega
      · have := key _ (by omega) h.symm; omega
    · split at h
      · simp only [List.mem_cons, List.not_mem_nil, or_false] at h
        rcases h with h | h | h
        · have := key _ (by omega) h.symm; omega
        · have := key _ (by omega) h.symm; omega
        · have := key _ (by omega) h.symm; omega
      · simp only [List.mem_cons, List.not_mem_nil, or_false] at h
        rcases h with h | h | h | h
        · have := key _ (by omega) h.symm; omega
        · have := key _ (by omega) h.symm; omega
        · have := key _ (by omega) h.symm; omega
        · have := key _ (by omega) h.symm; omega

theorem utf8_eq (s : String) : utf8 s = s.toList.flatMap String.utf8EncodeChar := by
  unfold utf8
  rw [← String.utf8Encode_toList]
  simp [List.utf8Encode]

theorem utf8_nulFree {s : String} (h : NulFree s) : (0 : UInt8) ∉ utf8 s := by
  rw [utf8_eq]
  intro h0
  obtain ⟨c, hc, hz⟩ := List.mem_flatMap.mp h0
  exact h (zero_mem_utf8EncodeChar hz ▸ hc)

theorem encStr_nulFree {s : String} (h : NulFree s) : encStr s = utf8 s ++ [0] := by
  unfold encStr
  rw [if_neg]
  rw [List.contains_iff_mem]; exact h

theorem rdCStr_append : ∀ (b rest : Bytes), (0 : UInt8) ∉ b → rdCStr (b ++ [0] ++ rest) = some (b, rest) := by
  intro b rest
  induction b with
  | nil => intro _; simp [rdCStr]
  | cons a b ih =>
    intro h
    simp only [List.mem_cons, not_or] at h
    simp only [List.cons_append, rdCStr]
    rw [if_neg (fun e => h.1 e.symm), ih h.2]

theorem fromUTF8_utf8 (s : String) : String.fromUTF8? ⟨(utf8 s).toArray⟩ = some s := by
  have : (⟨(utf8 s).toArray⟩ : ByteArray) = s.toByteArray := by
    unfold utf8; simp
  rw [this]
  unfold String.fromUTF8?
  rw [dif_pos s.isValidUTF8]
  rfl

theorem rdStr_append {s : String} (h : NulFree s) (rest : Bytes) : rdStr (encStr s ++ rest) = some (s, rest) := by
  unfold rdStr
  rw [encStr_nulFree h, rdCStr_append _ _ (utf8_nulFree h)]
  simp only [fromUTF8_utf8]

theorem rt_str : RT encName rdStr id NulFree := by
  intro s b rest hs h
  simp only [encName, Except.ok.injEq] at h
  rw [← h]; exact rdStr_append hs rest

/-! ## Lists and pairs -/

theorem rt_all {α β : Type} {enc : α → Except PyErr Bytes} {dec : Parser β} {norm : α → β} {P : α → Prop} (h : RT enc dec norm P) :
    ∀ (xs : List α) (b rest : Bytes), (∀ x ∈ xs, P x) → encAll enc xs = .ok b →
      rdN dec xs.length (b ++ rest) = some (xs.map norm, rest) := by
  intro xs
  induction xs with
  | nil => intro b rest _ he; simp only [encAll, Except.ok.injEq] at he; subst he; rfl
  | cons x xs ih =>
    intro b rest hP he
    simp only [encAll, bind, Except.bind, pure, Except.pure] at he
    split at he
    · cases he
    · rename_i a ha
      split at he
      · cases he
      · rename_i c hc
        injection he with he
        subst he
        simp only [List.length_cons, rdN, List.append_assoc]
        rw [h x a _ (hP x List.mem_cons_self) ha]
        simp only []
        rw [ih c rest (fun y hy => hP y (List.mem_cons_of_mem _ hy)) hc]
        rfl

theorem rt_list {α β : Type} {enc : α → Except PyErr Bytes} {dec : Parser β} {norm : α → β} {P : α → Prop} (h : RT enc dec norm P)
    {n : Nat} (hn : 0 < n) : RT (encList n enc) (rdList n dec) (List.map norm) (fun xs => ∀ x ∈ xs, P x) := by
  intro xs b rest hP he
  simp only [encList, bind, Except.bind, pure, Except.pure] at he
  split at he
  · cases he
  · rename_i a ha
    split at he
    · cases he
    · rename_i c hc
      injection he with he
      subst he
      unfold rdList
      rw [List.append_assoc, rt_int hn _ a _ trivial ha]
      simp only [id]
      rw [if_neg (by omega)]
      exact rt_all h xs c rest hP hc

theorem rdMap_of {α β : Type} {f : α → β} {p : Parser α} {bs rest : Bytes} {x : α} (h : p bs = some (x, rest)) :
    rdMap f p bs = some (f x, rest) := by
  unfold rdMap; rw [h]; rfl

theorem rdPair_of {α β : Type} {p : Parser α} {q : Parser β} {bs bs' rest : Bytes} {x : α} {y : β} (h1 : p bs = some (x, bs'))
    (h2 : q bs' = some (y, rest)) : rdPair p q bs = some ((x, y), rest) := by
  unfold rdPair; rw [h1]; simp only []; rw [h2]

/-! ## Floats of integers -/

theorem f32_roundtrip {x : Int} (h : x.natAbs < 2 ^ 24) : ∃ bits, f32OfInt x = .ok bits ∧ intOfF32 bits = x ∧ bits < 2 ^ 32 := by
  unfold f32OfInt
  generalize hn : x.natAbs = n at *
  by_cases h0 : n = 0
  · simp only [h0, if_true]
    exact ⟨0, rfl, by simp [intOfF32]; omega, by omega⟩
  · have hk : Nat.log2 n ≤ 23 := by
      have := (Nat.log2_lt h0 (k := 24)).mpr h
      omega
    have hlo : 2 ^ Nat.log2 n ≤ n := Nat.log2_self_le h0
    have hhi : n < 2 ^ (Nat.log2 n + 1) := Nat.lt_log2_self
    simp only [f32Parts, hk, if_true]
    generalize Nat.log2 n = k at *
    simp only [h0, if_false, show ¬ k > 127 by omega]
    have e1 : 2 ^ k * 2 ^ (23 - k) = 2 ^ 23 := by rw [← Nat.pow_add]; congr 1; omega
    have e2 : 2 ^ (k + 1) * 2 ^ (23 - k) = 2 ^ 24 := by rw [← Nat.pow_add]; congr 1; omega
    have hp : 0 < 2 ^ (23 - k) := Nat.two_pow_pos _
    have m1 : 2 ^ 23 ≤ n * 2 ^ (23 - k) := by rw [← e1]; exact Nat.mul_le_mul_right _ hlo
    have m2 : n * 2 ^ (23 - k) < 2 ^ 24 := by rw [← e2]; exact (Nat.mul_lt_mul_right hp).mpr hhi
    generalize hm : n * 2 ^ (23 - k) = m at *
    refine ⟨_, rfl, ?_, ?_⟩
    · generalize hs : (if x < 0 then 1 else 0 : Nat) = s
      have hs2 : s < 2 := by subst hs; split <;> omega
      unfold intOfF32
      have hb0 : s * 2 ^ 31 + (k + 127) * 2 ^ 23 + (m - 2 ^ 23) ≠ 0 := by omega
      have hb1 : (s * 2 ^ 31 + (k + 127) * 2 ^ 23 + (m - 2 ^ 23)) / 2 ^ 23 % 256 = k + 127 := by omega
      have hb2 : (s * 2 ^ 31 + (k + 127) * 2 ^ 23 + (m - 2 ^ 23)) % 2 ^ 23 + 2 ^ 23 = m := by omega
      have hb3 : (s * 2 ^ 31 + (k + 127) * 2 ^ 23 + (m - 2 ^ 23)) / 2 ^ 31 % 2 = s := by omega
      rw [if_neg hb0]
      simp only [hb1, hb2, hb3]
      rw [if_pos (show k + 127 ≤ 150 by omega), show 150 - (k + 127) = 23 - k by omega, ← hm, Nat.mul_div_cancel _ hp]
      subst hs
      by_cases hx : x < 0
      · rw [if_pos (by rw [if_pos hx])]; omega
      · rw [if_neg (by rw [if_neg hx]; decide)]; omega
    · have hs2 : (if x < 0 then 1 else 0 : Nat) ≤ 1 := by split <;> omega
      generalize (if x < 0 then 1 else 0 : Nat) = s at *
      omega

theorem f32_decode {s k m : Nat} (hs : s ≤ 1) (hk : 24 ≤ k) (hk2 : k ≤ 127) (m1 : 2 ^ 23 ≤ m) (m2 : m < 2 ^ 24) :
    intOfF32 (s * 2 ^ 31 + (k + 127) * 2 ^ 23 + (m - 2 ^ 23)) =
      if s = 1 then -((m * 2 ^ (k - 23) : Nat) : Int) else ((m * 2 ^ (k - 23) : Nat) : Int) := by
  unfold intOfF32
  have hb0 : s * 2 ^ 31 + (k + 127) * 2 ^ 23 + (m - 2 ^ 23) ≠ 0 := by omega
  have hb1 : (s * 2 ^ 31 + (k + 127) * 2 ^ 23 + (m - 2 ^ 23)) / 2 ^ 23 % 256 = k + 127 := by omega
  have hb2 : (s * 2 ^ 31 + (k + 127) * 2 ^ 23 + (m - 2 ^ 23)) % 2 ^ 23 + 2 ^ 23 = m := by omega
  have hb3 : (s * 2 ^ 31 + (k + 127) * 2 ^ 23 + (m - 2 ^ 23)) / 2 ^ 31 % 2 = s := by omega
  rw [if_neg hb0]
  simp only [hb1, hb2, hb3]
  rw [if_neg (show ¬ k + 127 ≤ 150 by omega), show k + 127 - 150 = k - 23 by omega]

/-- Rounding to single precision: the result is within half a unit in the last place. -/
theorem f32_error {x : Int} (h : x.natAbs < 2 ^ 127) :
    ∃ bits, f32OfInt x = .ok bits ∧ 2 ^ 24 * (intOfF32 bits - x).natAbs ≤ x.natAbs ∧ bits < 2 ^ 32 := by
  by_cases hsm : x.natAbs < 2 ^ 24
  · obtain ⟨b, h1, h2, h3⟩ := f32_roundtrip hsm
    exact ⟨b, h1, by rw [h2]; simp, h3⟩
  · have h0 : x.natAbs ≠ 0 := by omega
    have hk24 : 24 ≤ Nat.log2 x.natAbs := by
      rcases Nat.lt_or_ge (Nat.log2 x.natAbs) 24 with h' | h'
      · have := (Nat.log2_lt h0 (k := 24)).mp h'; omega
      · exact h'
    have hk127 : Nat.log2 x.natAbs < 127 := (Nat.log2_lt h0).mpr h
    have hlo : 2 ^ Nat.log2 x.natAbs ≤ x.natAbs := Nat.log2_self_le h0
    have hhi : x.natAbs < 2 ^ (Nat.log2 x.natAbs + 1) := Nat.lt_log2_self
    have hs : (if x < 0 then 1 else 0 : Nat) ≤ 1 := by split <;> omega
    have hsgn : ∀ v : Nat, (if (if x < 0 then 1 else 0 : Nat) = 1 then -(v : Int) else (v : Int)) - x =
        if x < 0 then -((v : Int) - x.natAbs) else (v : Int) - x.natAbs := by
      intro v
      by_cases hx : x < 0
      · simp only [hx, if_true]; omega
      · simp only [hx, if_false]; rw [if_neg (by decide)]; omega
    have habs : ∀ v : Nat, ((if (if x < 0 then 1 else 0 : Nat) = 1 then -(v : Int) else (v : Int)) - x).natAbs =
        ((v : Int) - x.natAbs).natAbs := by
      intro v; rw [hsgn]; split <;> omega
    unfold f32OfInt
    rw [if_neg h0]
    generalize hn : x.natAbs = n at *
    unfold f32Parts
    rw [if_neg (show ¬ Nat.log2 n ≤ 23 by omega)]
    generalize Nat.log2 n = k at *
    simp only []
    generalize hd : k - 23 = d at *
    have hpow : 2 ^ k = 2 ^ 23 * 2 ^ d := by rw [← Nat.pow_add]; congr 1; omega
    have hpow1 : 2 ^ (k + 1) = 2 ^ 24 * 2 ^ d := by rw [← Nat.pow_add]; congr 1; omega
    have hD : 0 < 2 ^ d := Nat.two_pow_pos _
    have hdm := Nat.div_add_mod n (2 ^ d)
    have hr := Nat.mod_lt n hD
    have q1 : 2 ^ 23 ≤ n / 2 ^ d := (Nat.le_div_iff_mul_le hD).mpr (by rw [← hpow]; exact hlo)
    have q2 : n / 2 ^ d < 2 ^ 24 := (Nat.div_lt_iff_lt_mul hD).mpr (by rw [← hpow1]; exact hhi)
    generalize n / 2 ^ d = q0 at *
    generalize n % 2 ^ d = r at *
    generalize hD2 : 2 ^ d = D at *
    have hcases : ∃ q, (if 2 * r < D then q0 else if D < 2 * r then q0 + 1 else q0 + q0 % 2) = q ∧
        ((q = q0 ∧ 2 * r ≤ D) ∨ (q = q0 + 1 ∧ D ≤ 2 * r)) := by
      refine ⟨_, rfl, ?_⟩
      split
      · exact .inl ⟨rfl, by omega⟩
      · split
        · exact .inr ⟨rfl, by omega⟩
        · rcases Nat.mod_two_eq_zero_or_one q0 with e | e
          · exact .inl ⟨by rw [e]; rfl, by omega⟩
          · exact .inr ⟨by rw [e], by omega⟩
    obtain ⟨q, hq, hqc⟩ := hcases
    rw [hq]
    have herr : 2 ^ 24 * ((q * D : Nat) - (n : Int)).natAbs ≤ n := by
      have e1 : q0 * D = D * q0 := Nat.mul_comm _ _
      rcases hqc with ⟨rfl, hh⟩ | ⟨rfl, hh⟩
      · have : ((q * D : Nat) - (n : Int)).natAbs = r := by rw [e1]; omega
        rw [this]; omega
      · have e2 : (q0 + 1) * D = D * q0 + D := by rw [Nat.add_mul, e1]; omega
        have : (((q0 + 1) * D : Nat) - (n : Int)).natAbs = D - r := by rw [e2]; omega
        rw [this]; omega
    by_cases hq24 : q = 2 ^ 24
    · rw [if_pos hq24]
      simp only []
      rw [if_neg (by omega)]
      refine ⟨_, rfl, ?_, ?_⟩
      rotate_left
      · generalize (if x < 0 then 1 else 0 : Nat) = s at *
        omega
      rw [f32_decode hs (by omega) (by omega) (by omega) (by omega), habs]
      have : 2 ^ 23 * 2 ^ (k + 1 - 23) = q * D := by
        rw [hq24, ← hD2, ← Nat.pow_add, ← Nat.pow_add]; congr 1; omega
      rw [this]; exact herr
    · rw [if_neg hq24]
      simp only []
      rw [if_neg (by omega)]
      refine ⟨_, rfl, ?_, ?_⟩
      rotate_left
      · generalize (if x < 0 then 1 else 0 : Nat) = s at *
        omega
      rw [f32_decode hs (by omega) (by omega) (by omega) (by omega), habs, hd, hD2]
      exact herr

theorem f32_exact {x : Int} (h : Single x) : ∃ bits, f32OfInt x = .ok bits ∧ intOfF32 bits = x ∧ bits < 2 ^ 32 := by
  by_cases hsm : x.natAbs < 2 ^ 24
  · exact f32_roundtrip hsm
  · obtain ⟨m, e, hm, he, hx⟩ := h
    have h0 : x.natAbs ≠ 0 := by omega
    have hk24 : 24 ≤ Nat.log2 x.natAbs := by
      rcases Nat.lt_or_ge (Nat.log2 x.natAbs) 24 with h' | h'
      · have := (Nat.log2_lt h0 (k := 24)).mp h'; omega
      · exact h'
    have hlo : 2 ^ Nat.log2 x.natAbs ≤ x.natAbs := Nat.log2_self_le h0
    have hhi : x.natAbs < 2 ^ (Nat.log2 x.natAbs + 1) := Nat.lt_log2_self
    have hlt : x.natAbs < 2 ^ (24 + e) := by rw [hx, Nat.pow_add]; exact Nat.mul_lt_mul_of_pos_right hm (Nat.two_pow_pos _)
    have hke : Nat.log2 x.natAbs < 24 + e := (Nat.log2_lt h0).mpr hlt
    have hs : (if x < 0 then 1 else 0 : Nat) ≤ 1 := by split <;> omega
    unfold f32OfInt
    rw [if_neg h0]
    generalize hn : x.natAbs = n at *
    unfold f32Parts
    rw [if_neg (show ¬ Nat.log2 n ≤ 23 by omega)]
    generalize Nat.log2 n = k at *
    simp only []
    generalize hd : k - 23 = d at *
    have hpow : 2 ^ k = 2 ^ 23 * 2 ^ d := by rw [← Nat.pow_add]; congr 1; omega
    have hpow1 : 2 ^ (k + 1) = 2 ^ 24 * 2 ^ d := by rw [← Nat.pow_add]; congr 1; omega
    have hD : 0 < 2 ^ d := Nat.two_pow_pos _
    have hdvd : n % 2 ^ d = 0 := by
      have : 2 ^ e = 2 ^ d * 2 ^ (e - d) := by rw [← Nat.pow_add]; congr 1; omega
      rw [hx, this, ← Nat.mul_assoc, Nat.mul_comm m, Nat.mul_assoc, Nat.mul_mod_right]
    have hdm := Nat.div_add_mod n (2 ^ d)
    rw [hdvd, Nat.add_zero] at hdm
    have q1 : 2 ^ 23 ≤ n / 2 ^ d := (Nat.le_div_iff_mul_le hD).mpr (by rw [← hpow]; exact hlo)
    have q2 : n / 2 ^ d < 2 ^ 24 := (Nat.div_lt_iff_lt_mul hD).mpr (by rw [← hpow1]; exact hhi)
    rw [hdvd]
    generalize n / 2 ^ d = q at *
    rw [if_pos (show 2 * 0 < 2 ^ d by omega), if_neg (show ¬ q = 2 ^ 24 by omega)]
    simp only []
    rw [if_neg (by omega)]
    refine ⟨_, rfl, ?_, ?_⟩
    · rw [f32_decode hs (by omega) (by omega) (by omega) (by omega), hd, Nat.mul_comm q, hdm]
      by_cases hx0 : x < 0
      · rw [if_pos hx0, if_pos rfl]; omega
      · rw [if_neg hx0, if_neg (by decide)]; omega
    · generalize (if x < 0 then 1 else 0 : Nat) = s at *
      omega

theorem f32Parts_range {n : Nat} (h0 : n ≠ 0) : 2 ^ 23 ≤ (f32Parts n).2 ∧ (f32Parts n).2 < 2 ^ 24 := by
  have hlo : 2 ^ Nat.log2 n ≤ n := Nat.log2_self_le h0
  have hhi : n < 2 ^ (Nat.log2 n + 1) := Nat.lt_log2_self
  unfold f32Parts
  generalize Nat.log2 n = k at *
  split
  · have e1 : 2 ^ k * 2 ^ (23 - k) = 2 ^ 23 := by rw [← Nat.pow_add]; congr 1; omega
    have e2 : 2 ^ (k + 1) * 2 ^ (23 - k) = 2 ^ 24 := by rw [← Nat.pow_add]; congr 1; omega
    have hp : 0 < 2 ^ (23 - k) := Nat.two_pow_pos _
    exact ⟨by rw [← e1]; exact Nat.mul_le_mul_right _ hlo, by rw [← e2]; exact (Nat.mul_lt_mul_right hp).mpr hhi⟩
  · simp only []
    generalize hd : k - 23 = d at *
    have hpow : 2 ^ k = 2 ^ 23 * 2 ^ d := by rw [← Nat.pow_add]; congr 1; omega
    have hpow1 : 2 ^ (k + 1) = 2 ^ 24 * 2 ^ d := by rw [← Nat.pow_add]; congr 1; omega
    have hD : 0 < 2 ^ d := Nat.two_pow_pos _
    have q1 : 2 ^ 23 ≤ n / 2 ^ d := (Nat.le_div_iff_mul_le hD).mpr (by rw [← hpow]; exact hlo)
    have q2 : n / 2 ^ d < 2 ^ 24 := (Nat.div_lt_iff_lt_mul hD).mpr (by rw [← hpow1]; exact hhi)
    have hq : ∃ q, (if 2 * (n % 2 ^ d) < 2 ^ d then n / 2 ^ d else if 2 ^ d < 2 * (n % 2 ^ d) then n / 2 ^ d + 1 else n / 2 ^ d + n / 2 ^ d % 2) = q ∧ 2 ^ 23 ≤ q ∧ q ≤ 2 ^ 24 := by
      refine ⟨_, rfl, ?_⟩
      generalize n / 2 ^ d = q at *
      split
      · omega
      · split <;> omega
    obtain ⟨q, e, h1, h2⟩ := hq
    rw [e]
    split
    · exact ⟨Nat.le_refl _, by simp only []; omega⟩
    · exact ⟨h1, by simp only []; omega⟩

/-- whatever is stored is read as an integer single precision holds -/
theorem f32_image {x : Int} {bits : Nat} (h : f32OfInt x = .ok bits) : Single (intOfF32 bits) := by
  unfold f32OfInt at h
  split at h
  · injection h with h
    subst h
    exact ⟨0, 0, by decide, by decide, rfl⟩
  · rename_i h0
    obtain ⟨m1, m2⟩ := f32Parts_range h0
    split at h
    · cases h
    · rename_i hk
      injection h with h
      subst h
      have hs : (if x < 0 then 1 else 0 : Nat) ≤ 1 := by split <;> omega
      generalize (if x < 0 then 1 else 0 : Nat) = s at *
      generalize (f32Parts x.natAbs).1 = k at *
      generalize (f32Parts x.natAbs).2 = m at *
      unfold intOfF32
      have hb0 : s * 2 ^ 31 + (k + 127) * 2 ^ 23 + (m - 2 ^ 23) ≠ 0 := by omega
      have hb1 : (s * 2 ^ 31 + (k + 127) * 2 ^ 23 + (m - 2 ^ 23)) / 2 ^ 23 % 256 = k + 127 := by omega
      have hb2 : (s * 2 ^ 31 + (k + 127) * 2 ^ 23 + (m - 2 ^ 23)) % 2 ^ 23 + 2 ^ 23 = m := by omega
      rw [if_neg hb0]
      simp only [hb1, hb2]
      have key : ∀ v : Nat, (∃ a e : Nat, a < 2 ^ 24 ∧ e ≤ 104 ∧ v = a * 2 ^ e) →
          Single (if (s * 2 ^ 31 + (k + 127) * 2 ^ 23 + (m - 2 ^ 23)) / 2 ^ 31 % 2 = 1 then -(v : Int) else v) := by
        rintro v ⟨a, e, h1, h2, h3⟩
        refine ⟨a, e, h1, h2, ?_⟩
        rw [← h3]
        split <;> simp
      apply key
      by_cases hk' : k + 127 ≤ 150
      · rw [if_pos hk']
        exact ⟨m / 2 ^ (150 - (k + 127)), 0, Nat.lt_of_le_of_lt (Nat.div_le_self _ _) m2, by decide, by simp⟩
      · rw [if_neg hk']
        exact ⟨m, k + 127 - 150, m2, by omega, rfl⟩

theorem rt_f32 : RT encF32Int rdF32Int id Single := by
  intro x b rest hx h
  obtain ⟨bits, h1, h2, h3⟩ := f32_exact hx
  simp only [encF32Int, h1, bind, Except.bind, pure, Except.pure, Except.ok.injEq] at h
  subst h
  have := rdMap_of (f := fun b => intOfF32 (leNat b)) (rdBytes_append' (rest := rest) (leBytes_length 4 bits))
  unfold rdF32Int
  rw [this, leNat_leBytes, Nat.mod_eq_of_lt (by simpa using h3), h2]
  rfl

theorem bind_ok {α β : Type} {x : Except PyErr α} {f : α → Except PyErr β} {b : β} (h : (x >>= f) = .ok b) :
    ∃ a, x = .ok a ∧ f a = .ok b := by
  cases x with
  | error e => cases h
  | ok a => exact ⟨a, rfl, h⟩

theorem bind_eq {α β : Type} {x : Except PyErr α} {f : α → Except PyErr β} {a : α} (h : x = .ok a) : (x >>= f) = f a := by
  rw [h]; rfl

/-! ## Composite records -/

theorem rt_dim : RT encDim rdDim id (fun d => ∀ v, d = .var v → NulFree v) := by
  intro d b rest hd h
  cases d with
  | num i =>
    unfold encDim at h
    obtain ⟨t, ht, h⟩ := bind_ok h
    obtain ⟨c, hc, h⟩ := bind_ok h
    cases h
    unfold rdDim
    rw [List.append_assoc, rt_int (by omega) _ t _ trivial ht]
    simp only [id]
    exact rdMap_of (rt_int (by omega) _ c rest trivial hc)
  | var v =>
    unfold encDim at h
    obtain ⟨t, ht, h⟩ := bind_ok h
    cases h
    unfold rdDim
    rw [List.append_assoc, rt_int (by omega) _ t _ trivial ht]
    simp only [id]
    exact rdMap_of (rdStr_append (hd v rfl) rest)

theorem rt_desc : RT encDesc (rdPair rdStr (rdList 4 rdDim)) id
    (fun p => NulFree p.1 ∧ ∀ d ∈ p.2, ∀ v, d = .var v → NulFree v) := by
  rintro ⟨k, ds⟩ b rest ⟨hk, hds⟩ h
  unfold encDesc at h
  obtain ⟨c, hc, h⟩ := bind_ok h
  cases h
  rw [List.append_assoc]
  have := rt_list rt_dim (n := 4) (by omega) ds c rest hds hc
  simp only [List.map_id] at this
  exact rdPair_of (rdStr_append hk _) this

theorem rdBool_of {v : Bool} {b rest : Bytes} (h : encInt 4 (if v then 1 else 0) = .ok b) : rdBool (b ++ rest) = some (v, rest) := by
  unfold rdBool
  rw [rdMap_of (rt_int (by omega) _ b rest trivial h)]
  cases v <;> rfl

theorem rt_expr : RT encExpr rdExpr id (fun e => Single e.alpha ∧ Single e.beta) := by
  intro e b rest he h
  unfold encExpr at h
  obtain ⟨b1, h1, h⟩ := bind_ok h
  obtain ⟨b2, h2, h⟩ := bind_ok h
  obtain ⟨b3, h3, h⟩ := bind_ok h
  obtain ⟨b4, h4, h⟩ := bind_ok h
  cases h
  unfold rdExpr
  simp only [List.append_assoc]
  exact rdMap_of (rdPair_of (rdPair_of (rdPair_of (rt_f32 _ b1 _ he.1 h1) (rt_f32 _ b2 _ he.2 h2)) (rdBool_of h3)) (rdBool_of h4))

theorem rt_exprEntry : RT encExprEntry (rdPair rdStr (rdPair rdStr rdExpr)) id
    (fun p => NulFree p.1 ∧ NulFree p.2.1 ∧ Single p.2.2.alpha ∧ Single p.2.2.beta) := by
  rintro ⟨k, s, e⟩ b rest ⟨hk, hs, he⟩ h
  unfold encExprEntry at h
  obtain ⟨c, hc, h⟩ := bind_ok h
  cases h
  simp only [List.append_assoc]
  exact rdPair_of (rdStr_append hk _) (rdPair_of (rdStr_append hs _) (rt_expr e c rest he hc))

theorem rt_block : RT encBlock (rdPair rdStr (rdPair (rdInt 8) (rdInt 8))) id (fun p => NulFree p.1) := by
  rintro ⟨k, x, y⟩ b rest hk h
  unfold encBlock at h
  obtain ⟨b1, h1, h⟩ := bind_ok h
  obtain ⟨b2, h2, h⟩ := bind_ok h
  cases h
  simp only [List.append_assoc]
  exact rdPair_of (rdStr_append hk _)
    (rdPair_of (rt_int (by omega) _ b1 _ trivial h1) (rt_int (by omega) _ b2 _ trivial h2))

theorem rt_namedInt : RT encNamedInt (rdPair rdStr (rdInt 8)) id (fun p => NulFree p.1) := by
  rintro ⟨k, x⟩ b rest hk h
  unfold encNamedInt at h
  obtain ⟨b1, h1, h⟩ := bind_ok h
  cases h
  simp only [List.append_assoc]
  exact rdPair_of (rdStr_append hk _) (rt_int (by omega) _ b1 _ trivial h1)

/-! ## Attributes, nodes, arrays -/

theorem rt_ints : RT encVal (rdInt 4) (fun v => v.int?.getD 0) (fun v => ∃ i, v = .int i) := by
  rintro v b rest ⟨i, rfl⟩ h
  exact rt_int (by omega) i b rest trivial h

theorem rt_floats : RT encVal (rdMap leNat (rdBytes 4)) (fun v => v.float?.getD 0) (fun v => ∃ i, v = .float i ∧ i < 2 ^ 32) := by
  rintro v b rest ⟨i, rfl, hi⟩ h
  simp only [encVal, Except.ok.injEq] at h
  subst h
  rw [rdMap_of (rdBytes_append' (leBytes_length 4 i)), leNat_leBytes, Nat.mod_eq_of_lt (by simpa using hi)]
  rfl

theorem rt_texts : RT encVal rdCStr (fun v => v.text?.getD [])
    (fun v => (∃ s, v = .str s ∧ NulFree s) ∨ (∃ b, v = .bytes b ∧ (0 : UInt8) ∉ b)) := by
  rintro v b rest (⟨s, rfl, hs⟩ | ⟨c, rfl, hc⟩) h
  · simp only [encVal, Except.ok.injEq] at h
    subst h
    rw [encStr_nulFree hs, rdCStr_append _ _ (utf8_nulFree hs)]
    rfl
  · simp only [encVal, Except.ok.injEq] at h
    subst h
    rw [rdCStr_append _ _ hc]
    rfl

theorem filterMap_getD {α β : Type} {f : α → Option β} {d : β} : ∀ {xs : List α}, (∀ x ∈ xs, ∃ y, f x = some y) →
    xs.filterMap f = xs.map (fun x => (f x).getD d) := by
  intro xs
  induction xs with
  | nil => intro _; rfl
  | cons x xs ih =>
    intro h
    obtain ⟨y, hy⟩ := h x List.mem_cons_self
    rw [List.filterMap_cons_some hy, List.map_cons, ih (fun z hz => h z (List.mem_cons_of_mem _ hz)), hy]
    rfl

theorem encAttr_vals (a : Attr) : encAttr a = match a.vals with
    | [] => .error .indexError
    | v :: vs => (do
      let n ← encInt 4 (v :: vs).length
      let t ← encTag v
      let b ← encAll encVal (v :: vs)
      pure (n ++ t ++ b)) := by
  cases a with
  | one v => rfl
  | many vs => cases vs <;> rfl

theorem rt_attr : RT encAttr rdAttr Attr.view Attr.Supported := by
  intro a b rest hs h
  rw [encAttr_vals] at h
  obtain ⟨hne, hk⟩ := hs
  unfold Attr.view
  generalize a.vals = vs at *
  cases vs with
  | nil => exact absurd rfl hne
  | cons v vs =>
    obtain ⟨b1, h1, h⟩ := bind_ok h
    obtain ⟨b2, h2, h⟩ := bind_ok h
    obtain ⟨b3, h3, h⟩ := bind_ok h
    cases h
    unfold rdAttr
    simp only [List.append_assoc]
    rw [rt_int (by omega) _ b1 _ trivial h1]
    simp only [id, Int.toNat_natCast]
    rcases hk with hk | hk | hk
    · obtain ⟨i, rfl⟩ := hk v List.mem_cons_self
      rw [rt_int (n := 4) (by omega) 0 b2 _ trivial h2]
      simp only [id]
      rw [rdMap_of (rt_all rt_ints _ b3 rest hk h3)]
      rw [filterMap_getD (d := 0)]
      intro x hx
      obtain ⟨i, rfl⟩ := hk x hx
      exact ⟨i, rfl⟩
    · obtain ⟨i, rfl, _⟩ := hk v List.mem_cons_self
      rw [rt_int (n := 4) (by omega) 1 b2 _ trivial h2]
      simp only [id]
      rw [rdMap_of (rt_all rt_floats _ b3 rest hk h3)]
      rw [filterMap_getD (d := 0)]
      intro x hx
      obtain ⟨i, rfl, _⟩ := hk x hx
      exact ⟨i, rfl⟩
    · have htag : encInt 4 2 = .ok b2 := by
        rcases hk v List.mem_cons_self with ⟨s, rfl, _⟩ | ⟨s, rfl, _⟩ <;> exact h2
      rw [rt_int (n := 4) (by omega) 2 b2 _ trivial htag]
      simp only [id]
      rw [rdMap_of (rt_all rt_texts _ b3 rest hk h3)]
      have hf : (v :: vs).filterMap AVal.text? = (v :: vs).map (fun x => (AVal.text? x).getD []) := by
        apply filterMap_getD
        intro x hx
        rcases hk x hx with ⟨s, rfl, _⟩ | ⟨s, rfl, _⟩ <;> exact ⟨_, rfl⟩
      rcases hk v List.mem_cons_self with ⟨s, rfl, _⟩ | ⟨s, rfl, _⟩ <;> simp only [hf]

theorem rt_attrEntry : RT encAttrEntry (rdPair rdStr rdAttr) (fun p => (p.1, p.2.view)) (fun p => NulFree p.1 ∧ p.2.Supported) := by
  rintro ⟨k, a⟩ b rest ⟨hk, ha⟩ h
  unfold encAttrEntry at h
  obtain ⟨b1, h1, h⟩ := bind_ok h
  cases h
  simp only [List.append_assoc]
  exact rdPair_of (rdStr_append hk _) (rt_attr a b1 rest ha h1)

theorem rt_strs {n : Nat} (hn : 0 < n) {xs : List String} {b rest : Bytes} (hx : ∀ x ∈ xs, NulFree x)
    (h : encList n encName xs = .ok b) : rdList n rdStr (b ++ rest) = some (xs, rest) := by
  have := rt_list rt_str hn xs b rest hx h
  simpa only [List.map_id] using this

theorem rt_node : RT encNode rdNode SNode.view SNode.Supported := by
  rintro n b rest ⟨h1, h2, h3, h4, h5⟩ h
  unfold encNode at h
  obtain ⟨b1, e1, h⟩ := bind_ok h
  obtain ⟨b2, e2, h⟩ := bind_ok h
  obtain ⟨b3, e3, h⟩ := bind_ok h
  cases h
  simp only [List.append_assoc]
  unfold rdNode
  exact rdMap_of (rdPair_of (rdPair_of (rdPair_of (rdPair_of (rdStr_append h1 _) (rdStr_append h2 _))
    (rt_strs (by omega) h3 e1)) (rt_strs (by omega) h4 e2)) (rt_list rt_attrEntry (by omega) _ b3 rest h5 e3))

theorem rt_nat : RT (fun d : Nat => encInt 4 (d : Int)) (rdMap Int.toNat (rdInt 4)) id (fun _ => True) := by
  intro d b rest _ h
  rw [rdMap_of (rt_int (by omega) _ b rest trivial h)]
  simp

theorem rt_array : RT encArray rdArray id NDArray.WF := by
  rintro ⟨t, sh, da⟩ b rest hw h
  unfold encArray at h
  obtain ⟨c, hc, h⟩ := bind_ok h
  obtain ⟨b1, h1, h⟩ := bind_ok h
  obtain ⟨b2, h2, h⟩ := bind_ok h
  cases h
  unfold rdArray
  simp only [List.append_assoc]
  rw [rt_int (by omega) _ b1 _ trivial h1]
  have hd : dtypeOfCode c = some t := by
    cases t <;> simp only [DType.code, Except.ok.injEq, reduceCtorEq] at hc <;> subst hc <;> rfl
  simp only [id, hd]
  rw [rt_list rt_nat (n := 4) (by omega) sh b2 _ (fun _ _ => trivial) h2]
  simp only [List.map_id]
  exact rdMap_of (rdBytes_append' hw)

theorem rt_initial : RT encInitial (rdPair rdStr rdArray) id (fun p => NulFree p.1 ∧ p.2.WF) := by
  rintro ⟨k, a⟩ b rest ⟨hk, ha⟩ h
  unfold encInitial at h
  obtain ⟨b1, h1, h⟩ := bind_ok h
  cases h
  simp only [List.append_assoc]
  exact rdPair_of (rdStr_append hk _) (rt_array a b1 rest ha h1)

/-! ## When the writer returns -/

/-- fits in a signed `n`-byte integer -/
def Fits (n : Nat) (i : Int) : Prop := -(2 ^ (8 * n - 1) : Nat) ≤ i ∧ i < (2 ^ (8 * n - 1) : Nat)

theorem encInt_ok {n : Nat} {i : Int} : (∃ b, encInt n i = .ok b) ↔ Fits n i := by
  unfold encInt Fits
  constructor
  · rintro ⟨b, h⟩
    split at h
    · assumption
    · cases h
  · intro h; exact ⟨_, if_pos h⟩

theorem encInt_err {n : Nat} {i : Int} (h : ¬ Fits n i) : encInt n i = .error .overflow := if_neg h

theorem encAll_ok {α : Type} {f : α → Except PyErr Bytes} : ∀ {xs : List α},
    (∃ b, encAll f xs = .ok b) ↔ ∀ x ∈ xs, ∃ b, f x = .ok b := by
  intro xs
  induction xs with
  | nil => simp [encAll]
  | cons x xs ih =>
    simp only [encAll, bind, Except.bind, pure, Except.pure, List.mem_cons, forall_eq_or_imp]
    constructor
    · rintro ⟨b, h⟩
      split at h
      · cases h
      · rename_i a ha
        split at h
        · cases h
        · rename_i c hc
          exact ⟨⟨a, ha⟩, ih.mp ⟨c, hc⟩⟩
    · rintro ⟨⟨a, ha⟩, h⟩
      obtain ⟨c, hc⟩ := ih.mpr h
      rw [ha]; simp only [hc]
      exact ⟨_, rfl⟩

theorem encList_ok {α : Type} {n : Nat} {f : α → Except PyErr Bytes} {xs : List α} :
    (∃ b, encList n f xs = .ok b) ↔ Fits n xs.length ∧ ∀ x ∈ xs, ∃ b, f x = .ok b := by
  rw [← encAll_ok, ← encInt_ok]
  simp only [encList, bind, Except.bind, pure, Except.pure]
  constructor
  · rintro ⟨b, h⟩
    split at h
    · cases h
    · rename_i a ha
      split at h
      · cases h
      · rename_i c hc
        exact ⟨⟨a, ha⟩, ⟨c, hc⟩⟩
  · rintro ⟨⟨a, ha⟩, ⟨c, hc⟩⟩
    rw [ha]; simp only [hc]
    exact ⟨_, rfl⟩

theorem encBlock_ok {p : String × (Int × Int)} : (∃ b, encBlock p = .ok b) ↔ Fits 8 p.2.1 ∧ Fits 8 p.2.2 := by
  rw [← encInt_ok, ← encInt_ok]
  simp only [encBlock, bind, Except.bind, pure, Except.pure]
  constructor
  · rintro ⟨b, h⟩
    split at h
    · cases h
    · rename_i a ha
      split at h
      · cases h
      · rename_i c hc
        exact ⟨⟨a, ha⟩, ⟨c, hc⟩⟩
  · rintro ⟨⟨a, ha⟩, ⟨c, hc⟩⟩
    rw [ha]; simp only [hc]
    exact ⟨_, rfl⟩

theorem encNamedInt_ok {p : String × Int} : (∃ b, encNamedInt p = .ok b) ↔ Fits 8 p.2 := by
  rw [← encInt_ok]
  simp only [encNamedInt, bind, Except.bind, pure, Except.pure]
  constructor
  · rintro ⟨b, h⟩
    split at h
    · cases h
    · rename_i a ha; exact ⟨a, ha⟩
  · rintro ⟨a, ha⟩
    rw [ha]; exact ⟨_, rfl⟩

end OnnxTool.Serial
