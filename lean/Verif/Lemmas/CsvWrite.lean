import Verif.Model.Csv

/-! # Reading back what was written -/

namespace Hyperreal.Csv
open Cli

theorem read_inQuoted (limit : Nat) (cells : List String) (rest : List Char) : ∀ (t a : List Char), a.length + t.length ≤ limit →
    read limit false ⟨.inQuoted, cells, a⟩ (t.flatMap (fun c => if c = '"' then ['"', '"'] else [c]) ++ '"' :: rest) =
      read limit false ⟨.quoteInQuoted, cells, a ++ t⟩ rest
  | [], a, _ => by simp [read, CsvState.char]
  | c :: t, a, h => by
    simp only [List.length_cons] at h
    have ih := read_inQuoted limit cells rest t (a ++ [c]) (by simp; omega)
    have hl : ¬ limit ≤ a.length := by omega
    rw [List.flatMap_cons]
    by_cases hc : c = '"'
    · subst hc
      simp only [if_true, List.cons_append, List.nil_append]
      rw [read, if_neg (by simp), if_neg (by simp),
        show CsvState.char limit ⟨.inQuoted, cells, a⟩ '"' = .ok ⟨.quoteInQuoted, cells, a⟩ by simp [CsvState.char]]
      dsimp only
      rw [read, if_neg (by simp), if_neg (by simp),
        show CsvState.char limit ⟨.quoteInQuoted, cells, a⟩ '"' = .ok ⟨.inQuoted, cells, a ++ ['"']⟩ by
          simp [CsvState.char, CsvState.add, hl]]
      simpa using ih
    · simp only [if_neg hc, List.cons_append, List.nil_append]
      rw [read, if_neg (by simp), if_neg (by simp),
        show CsvState.char limit ⟨.inQuoted, cells, a⟩ c = .ok ⟨.inQuoted, cells, a ++ [c]⟩ by
          simp [CsvState.char, CsvState.add, hl, hc]]
      simpa using ih

theorem read_field (limit : Nat) (eat : Bool) (m : CsvMode) (hm : m = .startRecord ∨ m = .startField) (cells : List String)
    (s : String) (hs : s.length ≤ limit) (rest : List Char) :
    read limit eat ⟨m, cells, []⟩ (field s ++ rest) = read limit false ⟨.quoteInQuoted, cells, s.toList⟩ rest := by
  have := read_inQuoted limit cells rest s.toList [] (by simpa [String.length_toList] using hs)
  rw [field]
  simp only [List.cons_append, List.append_assoc, List.nil_append]
  rw [read, if_neg (by simp), if_neg (by simp)]
  rw [show CsvState.char limit ⟨m, cells, []⟩ '"' = .ok ⟨.inQuoted, cells, []⟩ by
    rcases hm with rfl | rfl <;> simp [CsvState.char]]
  simpa using this

theorem read_crlf (limit : Nat) (s : CsvState) (hs : s.mode ≠ .inQuoted) (rest : List Char) :
    read limit false s ('\r' :: '\n' :: rest) =
      .ok (if s.mode = .startRecord then [] else (s.save .startRecord).cells) :: read limit false {} rest := by
  rw [read, if_neg (by simp), if_pos ⟨.inr rfl, hs⟩]
  congr 1

theorem read_fields (limit : Nat) (rest : List Char) : ∀ (ss : List String) (s : String) (eat : Bool) (m : CsvMode)
    (cells : List String), m = .startRecord ∨ m = .startField → (∀ x ∈ s :: ss, x.length ≤ limit) →
    read limit eat ⟨m, cells, []⟩ ([','].intercalate ((s :: ss).map field) ++ '\r' :: '\n' :: rest) =
      .ok (cells ++ s :: ss) :: read limit false {} rest
  | [], s, eat, m, cells, hm, h => by
    simp only [List.map_cons, List.map_nil, List.intercalate_singleton]
    rw [read_field limit eat m hm cells s (h s (by simp))]
    rw [read_crlf limit _ (by simp)]
    simp [CsvState.save]
  | s2 :: ss, s, eat, m, cells, hm, h => by
    have ih := read_fields limit rest ss s2 false .startField (cells ++ [s]) (.inr rfl)
      (fun x hx => h x (List.mem_cons_of_mem _ hx))
    have e : [','].intercalate ((s :: s2 :: ss).map field) = field s ++ ',' :: [','].intercalate ((s2 :: ss).map field) := by
      simp [List.intercalate, List.intersperse]
    rw [e, List.append_assoc, read_field limit eat m hm cells s (h s (by simp))]
    simp only [List.cons_append]
    rw [read, if_neg (by simp), if_neg (by simp)]
    rw [show CsvState.char limit ⟨.quoteInQuoted, cells, s.toList⟩ ',' = .ok ⟨.startField, cells ++ [s], []⟩ by
      simp [CsvState.char, CsvState.save]]
    dsimp only
    rw [ih]
    simp

/-- Reading what the writer wrote. -/
theorem read_file (limit : Nat) : ∀ (rows : List (List String)), (∀ r ∈ rows, ∀ s ∈ r, s.length ≤ limit) →
    read limit false {} (file rows) = rows.map .ok
  | [], _ => by simp [file, read]
  | r :: rows, h => by
    have ih := read_file limit rows (fun r hr => h r (List.mem_cons_of_mem _ hr))
    rw [file, List.flatMap_cons, row, List.append_assoc]
    cases r with
    | nil =>
      simp only [List.map_nil, List.intercalate_nil, List.nil_append, List.cons_append]
      rw [read_crlf limit _ (by simp)]
      simp only [if_true, List.map_cons, List.cons.injEq, true_and]
      exact ih
    | cons s ss =>
      have := read_fields limit (rows.flatMap row) ss s false .startRecord [] (.inl rfl) (h (s :: ss) (by simp))
      simp only [List.cons_append, List.nil_append]
      rw [this, List.map_cons]
      simp only [List.nil_append, List.cons.injEq, true_and]
      exact ih

end Hyperreal.Csv
