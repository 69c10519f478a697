import Verif.Model.Quant
/-! # C33: packing 4-bit codes -/
namespace OnnxTool.Props
open OnnxTool OnnxTool.Quant

/-- reading a nibble as a signed 4-bit number -/
def signed4 (n : ℕ) : ℤ := if n < 8 then (n : ℤ) else (n : ℤ) - 16

/-- the two signed codes of each byte, low half first -/
def unpackRow : List ℕ → List ℤ
  | [] => []
  | b :: bs => signed4 (b % 16) :: signed4 (b / 16) :: unpackRow bs

private theorem halves : ∀ x < 16, ∀ y < 16, (x ||| (y <<< 4)) % 16 = x ∧ (x ||| (y <<< 4)) / 16 = y ∧ (x ||| (y <<< 4)) < 256 := by
  decide

private theorem nibble_signed (v : ℤ) (h1 : -8 ≤ v) (h2 : v ≤ 7) : nibble v < 16 ∧ signed4 (nibble v) = v := by
  have : ∀ k : Fin 16, nibble ((k : ℤ) - 8) < 16 ∧ signed4 (nibble ((k : ℤ) - 8)) = (k : ℤ) - 8 := by decide
  have := this ⟨(v + 8).toNat, by omega⟩
  have e : (((⟨(v + 8).toNat, by omega⟩ : Fin 16) : ℕ) : ℤ) - 8 = v := by simp; omega
  rw [e] at this
  exact this

/-- **C33, symmetric codes.** Packing a row of codes in `-8..7` and reading the nibbles back as signed 4-bit numbers gives the row; an odd
row loses exactly its last code. -/
theorem C33_sym_roundtrip : ∀ (row : List ℤ), (∀ v ∈ row, -8 ≤ v ∧ v ≤ 7) →
    unpackRow (packRow row) = row.take (row.length / 2 * 2) := by
  intro row
  induction row using packRow.induct with
  | case1 a b rest ih =>
    intro h
    have ha := h a (by simp)
    have hb := h b (by simp)
    obtain ⟨a1, a2⟩ := nibble_signed a ha.1 ha.2
    obtain ⟨b1, b2⟩ := nibble_signed b hb.1 hb.2
    obtain ⟨e1, e2, _⟩ := halves _ a1 _ b1
    simp only [packRow, unpackRow, e1, e2, a2, b2]
    rw [ih (fun v hv => h v (by simp [hv]))]
    have : (a :: b :: rest).length / 2 * 2 = rest.length / 2 * 2 + 2 := by simp only [List.length_cons]; omega
    rw [this]; rfl
  | case2 row h =>
    intro _
    have : row.length / 2 = 0 := by
      exact match row, h with
      | [], _ => rfl
      | [_], _ => by simp
      | a :: b :: r, h => absurd rfl (h a b r)
    rw [this]
    match row, h with
    | [], _ => rfl
    | [_], _ => rfl
    | a :: b :: r, h => exact absurd rfl (h a b r)

/-- **C33, symmetric codes, even rows** (the shape a packed weight normally has): nothing is lost. -/
theorem C33_sym_even (row : List ℤ) (h : ∀ v ∈ row, -8 ≤ v ∧ v ≤ 7) (he : row.length % 2 = 0) : unpackRow (packRow row) = row := by
  rw [C33_sym_roundtrip row h, show row.length / 2 * 2 = row.length by omega, List.take_length]

/-- **C33, bytes.** The packed row has half as many entries, each a byte. -/
theorem C33_packed_bytes (row : List ℤ) (h : ∀ v ∈ row, -8 ≤ v ∧ v ≤ 7) :
    (packRow row).length = row.length / 2 ∧ ∀ b ∈ packRow row, b < 256 := by
  induction row using packRow.induct with
  | case1 a b rest ih =>
    obtain ⟨l, hb⟩ := ih (fun v hv => h v (by simp [hv]))
    have h1 := nibble_signed a (h a (by simp)).1 (h a (by simp)).2
    have h2 := nibble_signed b (h b (by simp)).1 (h b (by simp)).2
    refine ⟨by simp only [packRow, List.length_cons, l]; omega, ?_⟩
    intro x hx
    simp only [packRow, List.mem_cons] at hx
    rcases hx with rfl | hx
    · exact (halves _ h1.1 _ h2.1).2.2
    · exact hb x hx
  | case2 row h' =>
    match row, h' with
    | [], _ => exact ⟨rfl, by simp [packRow]⟩
    | [_], _ => exact ⟨by simp [packRow], by simp [packRow]⟩
    | a :: b :: r, h' => exact absurd rfl (h' a b r)

example : (∀ v ∈ ([-7, 7, 0, -1] : List ℤ), -8 ≤ v ∧ v ≤ 7) ∧ packRow [-7, 7, 0, -1] = [0x79, 0xF0] := by decide

/-- **C33 is false for asymmetric codes (finding).** The unsigned codes `8..15` are stored as `0..7`: bit 3 is taken from bit 7. -/
theorem C33_asym_codes_collide (v : ℤ) (h1 : 8 ≤ v) (h2 : v ≤ 15) : nibble v = nibble (v - 8) := by
  have : ∀ k : Fin 8, nibble ((k : ℤ) + 8) = nibble (k : ℤ) := by decide
  have := this ⟨(v - 8).toNat, by omega⟩
  have e : (((⟨(v - 8).toNat, by omega⟩ : Fin 8) : ℕ) : ℤ) = v - 8 := by simp; omega
  rw [e] at this
  rw [← this]; congr 1; omega

/-- **C33 (finding): odd rows.** The last column is lost. -/
theorem C33_odd_row_loses_last (row : List ℤ) (x y : ℤ) (h : row.length % 2 = 0) : packRow (row ++ [x]) = packRow (row ++ [y]) := by
  induction row using packRow.induct with
  | case1 a b rest ih =>
    simp only [List.cons_append, packRow]
    rw [ih (by simp only [List.length_cons] at h; omega)]
  | case2 row h' =>
    match row, h' with
    | [], _ => rfl
    | [_], _ => simp at h
    | a :: b :: r, h' => exact absurd rfl (h' a b r)

end OnnxTool.Props
