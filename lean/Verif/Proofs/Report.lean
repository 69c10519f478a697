import Verif.Spec.Report
import Std.Data.String.ToNat
import Mathlib.Tactic.Ring
import Mathlib.Tactic.Linarith
/-! # Lemmas about the report -/
namespace OnnxTool.Report
open OnnxTool

/-! ### joining and splitting -/

theorem join_fold {α : Type} (f : α → String) (sep : String) (n : ℕ) : ∀ (l : List α) (k : ℕ) (s0 : String), k + l.length = n →
    ((l.zipIdx k).foldl (fun s e => (s ++ f e.1) ++ if e.2 ≠ n - 1 then sep else "") s0).toList = s0.toList ++ sep.toList.intercalate (l.map fun x => (f x).toList)
  | [], _, s0, _ => by simp
  | [x], k, s0, h => by
    simp only [List.length_singleton] at h
    simp [show k = n - 1 by omega]
  | x :: y :: l, k, s0, h => by
    have hk : k ≠ n - 1 := by simp only [List.length_cons] at h; omega
    rw [List.zipIdx_cons, List.foldl_cons, join_fold f sep n (y :: l) (k + 1) _ (by simp only [List.length_cons] at h ⊢; omega)]
    simp [hk, List.intercalate_cons_cons]

theorem lineOf_toList (row : List String) : (lineOf row).toList = [','].intercalate (row.map String.toList) := by
  have := join_fold (fun s : String => s) "," row.length row 0 "" (by omega)
  simpa [lineOf] using this

theorem tuple2str_toList (t : List ℕ) : (tuple2str t "x").toList = ['x'].intercalate (t.map fun n => (toString n).toList) := by
  have := join_fold (fun n : ℕ => toString n) "x" t.length t 0 "" (by omega)
  simpa [tuple2str] using this

theorem csvFile_toList (header : List String) (table : List (List String)) :
    (csvFile header table).toList = (header :: table).flatMap fun row => (lineOf row).toList ++ ['\n'] := by
  have key : ∀ (rows : List (List String)) (s : String), (rows.foldl (fun s row => s ++ (lineOf row ++ "\n")) s).toList = s.toList ++ rows.flatMap fun row => (lineOf row).toList ++ ['\n'] := by
    intro rows
    induction rows with
    | nil => intro s; simp
    | cons r rows ih => intro s; rw [List.foldl_cons, ih]; simp
  simpa [csvFile] using key (header :: table) ""

theorem flatMap_lines (ls : List (List Char)) (c : Char) : (ls.flatMap fun l => l ++ [c]) = [c].intercalate (ls ++ [[]]) := by
  induction ls with
  | nil => simp
  | cons l ls ih =>
    rw [List.flatMap_cons, ih]
    cases ls with
    | nil => simp
    | cons m ls => simp [List.intercalate_cons_cons]

theorem not_mem_splitOn {a : Char} : ∀ {l p : List Char}, p ∈ l.splitOn a → a ∉ p
  | [], p, h => by simp at h; simp [h]
  | x :: l, p, h => by
    rw [List.splitOn_cons_eq_if_modifyHead] at h
    split at h
    · rcases List.mem_cons.mp h with rfl | h
      · simp
      · exact not_mem_splitOn h
    · rename_i hx
      cases hs : l.splitOn a with
      | nil => rw [hs] at h; simp at h
      | cons q qs =>
        rw [hs, List.modifyHead_cons] at h
        rcases List.mem_cons.mp h with rfl | h
        · have : a ∉ q := not_mem_splitOn (l := l) (by rw [hs]; exact List.mem_cons_self)
          intro hm
          rcases List.mem_cons.mp hm with rfl | hm
          · simp at hx
          · exact this hm
        · exact not_mem_splitOn (l := l) (by rw [hs]; exact List.mem_cons_of_mem _ h)

theorem mem_intercalate_of {c a : Char} {ls : List (List Char)} {p : List Char} (hp : p ∈ ls) (hc : c ∈ p) : c ∈ [a].intercalate ls := by
  induction ls with
  | nil => cases hp
  | cons l ls ih =>
    cases ls with
    | nil => simp only [List.mem_singleton] at hp; subst hp; simpa using hc
    | cons m ls =>
      rw [List.intercalate_cons_cons]
      rcases List.mem_cons.mp hp with rfl | hp
      · simp [hc]
      · have := ih hp
        simp [this]

theorem mem_of_mem_splitOn {c a : Char} {l p : List Char} (hp : p ∈ l.splitOn a) (hc : c ∈ p) : c ∈ l := by
  have := mem_intercalate_of (a := a) hp hc
  rwa [List.intercalate_splitOn] at this

theorem mem_intercalate_imp {c a : Char} {ls : List (List Char)} (h : c ∈ [a].intercalate ls) : c = a ∨ ∃ l ∈ ls, c ∈ l := by
  induction ls with
  | nil => simp at h
  | cons l ls ih =>
    cases ls with
    | nil => right; exact ⟨l, List.mem_cons_self, by simpa using h⟩
    | cons m ls =>
      rw [List.intercalate_cons_cons] at h
      simp only [List.mem_append, List.mem_singleton] at h
      rcases h with (h | h) | h
      · exact .inr ⟨l, List.mem_cons_self, h⟩
      · exact .inl h
      · rcases ih h with h | ⟨q, hq, h⟩
        · exact .inl h
        · exact .inr ⟨q, List.mem_cons_of_mem _ hq, h⟩

theorem line_no_break {row : List String} (h : ∀ c ∈ row, Plain c) : '\n' ∉ (lineOf row).toList := by
  rw [lineOf_toList]
  intro hm
  rcases mem_intercalate_imp hm with h1 | ⟨l, hl, h1⟩
  · cases h1
  · obtain ⟨c, hc, rfl⟩ := List.mem_map.mp hl
    exact (h c hc).2 h1

theorem split_line {row : List String} (hne : row ≠ []) (h : ∀ c ∈ row, Plain c) : ((lineOf row).toList.splitOn ',').map String.ofList = row := by
  rw [lineOf_toList, List.splitOn_intercalate]
  · rw [List.map_map]
    conv_rhs => rw [← List.map_id row]
    exact List.map_congr_left fun s _ => by simp
  · intro l hl
    obtain ⟨c, hc, rfl⟩ := List.mem_map.mp hl
    exact (h c hc).1
  · simpa using hne

theorem read_write {header : List String} {table : List (List String)} (hne : ∀ row ∈ header :: table, row ≠ []) (h : ∀ row ∈ header :: table, ∀ c ∈ row, Plain c) :
    readCsv (csvFile header table) = header :: table := by
  unfold readCsv
  have e : (csvFile header table).toList = ['\n'].intercalate (((header :: table).map fun row => (lineOf row).toList) ++ [[]]) := by
    rw [csvFile_toList, ← flatMap_lines, List.flatMap_map]
  rw [e, List.splitOn_intercalate]
  · rw [List.dropLast_concat, List.map_map]
    conv_rhs => rw [← List.map_id (header :: table)]
    exact List.map_congr_left fun row hr => split_line (hne row hr) (h row hr)
  · intro l hl
    rcases List.mem_append.mp hl with hl | hl
    · obtain ⟨row, hr, rfl⟩ := List.mem_map.mp hl
      exact line_no_break (h row hr)
    · simp only [List.mem_singleton] at hl
      simp [hl]
  · simp

theorem read_plain (s : String) : ∀ row ∈ readCsv s, ∀ c ∈ row, Plain c := by
  intro row hr c hc
  obtain ⟨l, hl, rfl⟩ := List.mem_map.mp hr
  obtain ⟨p, hp, rfl⟩ := List.mem_map.mp hc
  have hl' := (List.dropLast_sublist _).subset hl
  refine ⟨by rw [String.toList_ofList]; exact not_mem_splitOn hp, ?_⟩
  rw [String.toList_ofList]
  intro hm
  exact not_mem_splitOn hl' (mem_of_mem_splitOn hp hm)

/-! ### numbers -/

theorem digit_of_mem {n : ℕ} {c : Char} (h : c ∈ (toString n).toList) : c.isDigit = true := by
  have h' : c ∈ (Nat.repr n).toList := h
  rw [Nat.toList_repr] at h'
  exact Nat.isDigit_of_mem_toDigits (by omega) (by omega) h'

theorem num_plain (n : ℕ) : Plain (num2str n) := ⟨fun h => absurd (digit_of_mem h) (by decide), fun h => absurd (digit_of_mem h) (by decide)⟩

theorem num_read (n : ℕ) : (num2str n).toNat? = some n := Nat.toNat?_repr n

theorem tuple_plain (t : List ℕ) : Plain (tuple2str t "x") := by
  have key : ∀ c : Char, c ≠ 'x' → c.isDigit = false → c ∉ (tuple2str t "x").toList := by
    intro c h1 h2 hm
    rw [tuple2str_toList] at hm
    rcases mem_intercalate_imp hm with h | ⟨l, hl, h⟩
    · exact h1 h
    · obtain ⟨n, -, rfl⟩ := List.mem_map.mp hl
      rw [digit_of_mem h] at h2; cases h2
  exact ⟨key _ (by decide) (by decide), key _ (by decide) (by decide)⟩

theorem mapM_some {α β : Type} {f : α → Option β} {g : β → α} (h : ∀ b, f (g b) = some b) : ∀ l : List β, (l.map g).mapM f = some l
  | [] => rfl
  | b :: l => by rw [List.map_cons, List.mapM_cons, h, mapM_some h l]; rfl

theorem tuple_read {t : List ℕ} (h : t ≠ []) : readDims (tuple2str t "x") = some t := by
  unfold readDims
  rw [tuple2str_toList, List.splitOn_intercalate, List.map_map]
  · refine mapM_some (g := fun n : ℕ => String.ofList (toString n).toList) (fun n => ?_) t
    rw [String.ofList_toList]
    exact num_read n
  · intro l hl hm
    obtain ⟨n, -, rfl⟩ := List.mem_map.mp hl
    exact absurd (digit_of_mem hm) (by decide)
  · simpa using h

/-! ### floats -/

theorem f64_small {n : ℕ} (h : n ≤ 2 ^ 53) : f64 n = n := by
  unfold f64
  by_cases h2 : Nat.log2 n ≤ 52
  · rw [if_pos h2]
  · have hn : n ≠ 0 := by rintro rfl; exact h2 (by decide)
    have : 2 ^ 53 ≤ n := (Nat.le_log2 hn).mp (by omega)
    have : n = 2 ^ 53 := by omega
    subst this
    decide +kernel

theorem f64_error (n : ℕ) : 2 ^ 53 * (f64 n - n) ≤ n ∧ 2 ^ 53 * (n - f64 n) ≤ n := by
  unfold f64
  by_cases h2 : Nat.log2 n ≤ 52
  · rw [if_pos h2]; simp
  · rw [if_neg h2]
    have hn : n ≠ 0 := by rintro rfl; exact h2 (by decide)
    have hle : 2 ^ Nat.log2 n ≤ n := Nat.log2_self_le hn
    generalize Nat.log2 n = e at *
    obtain ⟨d, rfl⟩ : ∃ d, e = d + 1 + 52 := ⟨e - 53, by omega⟩
    simp only [show d + 1 + 52 - 52 = d + 1 by omega]
    have hp : 2 ^ (d + 1) = 2 * 2 ^ d := pow_succ' 2 d
    have hb : 2 ^ 53 * 2 ^ d ≤ n := by rw [← pow_add]; rw [show 53 + d = d + 1 + 52 by omega]; exact hle
    have hdiv : n / 2 ^ (d + 1) * 2 ^ (d + 1) + n % 2 ^ (d + 1) = n := Nat.div_add_mod' _ _
    have hmod : n % 2 ^ (d + 1) < 2 ^ (d + 1) := Nat.mod_lt _ (by positivity)
    generalize n / 2 ^ (d + 1) = q at *
    generalize n % 2 ^ (d + 1) = r at *
    rw [hp] at hdiv hmod ⊢
    generalize 2 ^ d = u at *
    have small : ∀ x : ℕ, x ≤ u → 2 ^ 53 * x ≤ n := fun x hx => (Nat.mul_le_mul_left _ hx).trans hb
    split
    · exact ⟨small _ (by omega), small _ (by omega)⟩
    · split
      · rw [Nat.add_mul, Nat.one_mul]
        exact ⟨small _ (by omega), small _ (by omega)⟩
      · have hru : r = u := by omega
        rcases Nat.mod_two_eq_zero_or_one q with h | h
        · rw [h, Nat.add_zero]
          exact ⟨small _ (by omega), small _ (by omega)⟩
        · rw [h, Nat.add_mul, Nat.one_mul]
          exact ⟨small _ (by omega), small _ (by omega)⟩

theorem accumulate_from {ms : List ℕ} : ∀ {acc : ℕ}, acc + ms.sum ≤ 2 ^ 53 → ms.foldl (fun acc m => f64 (acc + f64 m)) acc = acc + ms.sum := by
  induction ms with
  | nil => intro acc _; rfl
  | cons m ms ih =>
    intro acc h
    rw [List.sum_cons] at h ⊢
    rw [List.foldl_cons, f64_small (n := m) (by omega), f64_small (n := acc + m) (by omega), ih (by omega)]
    omega

theorem f64_nearest {n d : ℕ} (h1 : 2 ^ (53 + d) ≤ n) (h2 : n < 2 ^ (54 + d)) :
    ∃ q, f64 n = q * 2 ^ (d + 1) ∧ 2 * n ≤ (2 * q + 1) * 2 ^ (d + 1) ∧ 2 * q * 2 ^ (d + 1) ≤ 2 * n + 2 ^ (d + 1) ∧
      (2 * n = (2 * q + 1) * 2 ^ (d + 1) ∨ 2 * q * 2 ^ (d + 1) = 2 * n + 2 ^ (d + 1) → Even q) := by
  have hn : n ≠ 0 := by have : 0 < 2 ^ (53 + d) := by positivity
                        omega
  have hl : Nat.log2 n = 53 + d := (Nat.log2_eq_iff hn).mpr ⟨h1, by rw [show 53 + d + 1 = 54 + d by omega]; exact h2⟩
  unfold f64
  rw [hl, if_neg (by omega)]
  simp only [show 53 + d - 52 = d + 1 by omega]
  have hdiv : n / 2 ^ (d + 1) * 2 ^ (d + 1) + n % 2 ^ (d + 1) = n := Nat.div_add_mod' _ _
  have hmod : n % 2 ^ (d + 1) < 2 ^ (d + 1) := Nat.mod_lt _ (by positivity)
  generalize n / 2 ^ (d + 1) = q at *
  generalize n % 2 ^ (d + 1) = r at *
  generalize 2 ^ (d + 1) = u at *
  clear h1 h2 hl
  split
  · rename_i hr
    refine ⟨q, rfl, by nlinarith, by nlinarith, ?_⟩
    rintro (h | h)
    · nlinarith
    · nlinarith
  · split
    · refine ⟨q + 1, rfl, by nlinarith, by nlinarith, ?_⟩
      rintro (h | h)
      · nlinarith
      · nlinarith
    · have hr : 2 * r = u := by omega
      refine ⟨q + q % 2, rfl, ?_, ?_, fun _ => ?_⟩
      · nlinarith [Nat.zero_le (q % 2)]
      · have : q % 2 ≤ 1 := by omega
        nlinarith
      · rw [Nat.even_iff]; omega

end OnnxTool.Report
