import Verif.Model.Cli
import Verif.Spec.Cli

/-! # The reader of text files -/

namespace Hyperreal.Cli
open Spec

theorem csvRead_inField (limit : Nat) (cells : List String) (cs : List Char) : ∀ (t a : List Char), '\n' ∉ t → ',' ∉ t →
    a.length + t.length ≤ limit →
    csvRead limit ⟨.inField, cells, a⟩ (t ++ '\n' :: cs) = .ok (cells ++ [String.ofList (a ++ t)]) :: csvRead limit {} cs
  | [], a, _, _, _ => by simp [csvRead, CsvState.save]
  | c :: t, a, h1, h2, h3 => by
    simp only [List.mem_cons, not_or, List.length_cons] at h1 h2 h3
    have ih := csvRead_inField limit cells cs t (a ++ [c]) h1.2 h2.2 (by simp; omega)
    simp only [List.cons_append, csvRead, ne_eq, reduceCtorEq, not_false_eq_true, and_true, Ne.symm h1.1, if_false,
      CsvState.char, Ne.symm h2.1, CsvState.add, ge_iff_le]
    rw [if_neg (by omega)]
    simpa using ih

theorem csvRead_comma (limit : Nat) (cells : List String) (cs : List Char) : ∀ (t a : List Char), '\n' ∉ t → ',' ∉ t →
    a.length + t.length ≤ limit →
    csvRead limit ⟨.inField, cells, a⟩ (t ++ ',' :: cs) =
      csvRead limit ⟨.startField, cells ++ [String.ofList (a ++ t)], []⟩ cs
  | [], a, _, _, _ => by simp [csvRead, CsvState.char, CsvState.save]
  | c :: t, a, h1, h2, h3 => by
    simp only [List.mem_cons, not_or, List.length_cons] at h1 h2 h3
    have ih := csvRead_comma limit cells cs t (a ++ [c]) h1.2 h2.2 (by simp; omega)
    simp only [List.cons_append, csvRead, ne_eq, reduceCtorEq, not_false_eq_true, and_true, Ne.symm h1.1, if_false,
      CsvState.char, Ne.symm h2.1, CsvState.add, ge_iff_le]
    rw [if_neg (by omega)]
    simpa using ih

/-- The rest of a line without quotes only adds cells. -/
theorem csvRead_rest (limit : Nat) (cs : List Char) : ∀ (t : List Char) (m : CsvMode) (cells : List String) (a : List Char),
    m = .startField ∨ m = .inField → '\n' ∉ t → '"' ∉ t → a.length + t.length ≤ limit →
    ∃ more, csvRead limit ⟨m, cells, a⟩ (t ++ '\n' :: cs) = .ok (cells ++ more) :: csvRead limit {} cs
  | [], m, cells, a, hm, _, _, _ => by
    refine ⟨[String.ofList a], ?_⟩
    rcases hm with rfl | rfl <;> simp [csvRead, CsvState.save]
  | c :: t, m, cells, a, hm, h1, h2, h3 => by
    simp only [List.mem_cons, not_or, List.length_cons] at h1 h2 h3
    by_cases hc : c = ','
    · subst hc
      obtain ⟨more, ih⟩ := csvRead_rest limit cs t .startField (cells ++ [String.ofList a]) [] (.inl rfl) h1.2 h2.2
        (by simp; omega)
      refine ⟨String.ofList a :: more, ?_⟩
      have : csvRead limit ⟨m, cells, a⟩ (',' :: t ++ '\n' :: cs) =
          csvRead limit ⟨.startField, cells ++ [String.ofList a], []⟩ (t ++ '\n' :: cs) := by
        rcases hm with rfl | rfl <;> simp [csvRead, CsvState.char, CsvState.save]
      rw [this, ih]; simp
    · obtain ⟨more, ih⟩ := csvRead_rest limit cs t .inField cells (a ++ [c]) (.inr rfl) h1.2 h2.2 (by simp; omega)
      refine ⟨more, ?_⟩
      rw [← ih]
      have hl : ¬ limit ≤ a.length := by omega
      rcases hm with rfl | rfl <;> simp [csvRead, CsvState.char, CsvState.add, Ne.symm h1.1, Ne.symm h2.1, hc, hl]

theorem csvRead_quoted (limit : Nat) (cells : List String) (cs : List Char) : ∀ (t a : List Char),
    a.length + t.length ≤ limit →
    csvRead limit ⟨.inQuoted, cells, a⟩ (doubled t ++ '"' :: '\n' :: cs) =
      .ok (cells ++ [String.ofList (a ++ t)]) :: csvRead limit {} cs
  | [], a, _ => by simp [doubled, csvRead, CsvState.char, CsvState.save]
  | c :: t, a, h => by
    simp only [List.length_cons] at h
    have ih := csvRead_quoted limit cells cs t (a ++ [c]) (by simp; omega)
    have hl : ¬ limit ≤ a.length := by omega
    by_cases hc : c = '"'
    · subst hc
      have : doubled ('"' :: t) = '"' :: '"' :: doubled t := by simp [doubled]
      rw [this]
      simp only [List.cons_append]
      rw [csvRead, if_neg (by simp), show CsvState.char limit ⟨.inQuoted, cells, a⟩ '"' = .ok ⟨.quoteInQuoted, cells, a⟩ by
        simp [CsvState.char]]
      dsimp only
      rw [csvRead, if_neg (by simp), show CsvState.char limit ⟨.quoteInQuoted, cells, a⟩ '"' = .ok ⟨.inQuoted, cells, a ++ ['"']⟩ by
        simp [CsvState.char, CsvState.add, hl]]
      simpa using ih
    · have : doubled (c :: t) = c :: doubled t := by simp [doubled, hc]
      rw [this]
      simp only [List.cons_append]
      rw [csvRead, if_neg (by simp), show CsvState.char limit ⟨.inQuoted, cells, a⟩ c = .ok ⟨.inQuoted, cells, a ++ [c]⟩ by
        simp [CsvState.char, CsvState.add, hl, hc]]
      simpa using ih

/-- What the reader yields for a line: its text as first cell, or nothing for an empty line. -/
theorem csvRead_line {limit : Nat} {l : Line} (h : l.Ok limit) (cs : List Char) :
    ∃ row, csvRead limit {} (l.render ++ cs) = .ok row :: csvRead limit {} cs ∧
      ((row = [] ∧ l.doc = []) ∨ ∃ more, row = String.ofList l.doc :: more) := by
  cases l with
  | plain t =>
    obtain ⟨h1, h2, h3, h4⟩ := h
    cases t with
    | nil => exact ⟨[], by simp [Line.render, csvRead], .inl ⟨rfl, rfl⟩⟩
    | cons c t =>
      simp only [List.mem_cons, not_or, List.length_cons, List.head?_cons, ne_eq, Option.some.injEq] at h1 h2 h3 h4
      refine ⟨[String.ofList (c :: t)], ?_, .inr ⟨[], rfl⟩⟩
      have := csvRead_inField limit [] cs t [c] h1.2 h2.2 (by simp; omega)
      simp only [Line.render, List.cons_append, List.append_assoc, List.nil_append]
      rw [csvRead, if_neg (by simp [Ne.symm h1.1]), show CsvState.char limit {} c = .ok ⟨.inField, [], [c]⟩ by
        simp [CsvState.char, CsvState.add, h3, Ne.symm h2.1, show limit ≠ 0 by omega]]
      simpa using this
  | cut t rest =>
    obtain ⟨h1, h2, h3, h4, h5, h6, h7⟩ := h
    obtain ⟨more, hm⟩ := csvRead_rest limit cs rest .startField [String.ofList t] [] (.inl rfl) h5 h6 (by simpa using h7)
    refine ⟨String.ofList t :: more, ?_, .inr ⟨more, rfl⟩⟩
    rw [show String.ofList t :: more = [String.ofList t] ++ more from rfl, ← hm]
    cases t with
    | nil =>
      simp only [Line.render, List.cons_append, List.append_assoc, List.nil_append]
      rw [csvRead, if_neg (by simp)]
      simp [CsvState.char, CsvState.save]
    | cons c t =>
      simp only [List.mem_cons, not_or, List.length_cons, List.head?_cons, ne_eq, Option.some.injEq] at h1 h2 h3 h4
      have := csvRead_comma limit [] (rest ++ '\n' :: cs) t [c] h1.2 h2.2 (by simp; omega)
      simp only [Line.render, List.cons_append, List.append_assoc, List.nil_append]
      rw [csvRead, if_neg (by simp [Ne.symm h1.1]), show CsvState.char limit {} c = .ok ⟨.inField, [], [c]⟩ by
        simp [CsvState.char, CsvState.add, h3, Ne.symm h2.1, show limit ≠ 0 by omega]]
      simpa using this
  | quoted t =>
    refine ⟨[String.ofList t], ?_, .inr ⟨[], rfl⟩⟩
    have := csvRead_quoted limit [] cs t [] (by simpa [Line.Ok] using h)
    simp only [Line.render, List.cons_append, List.append_assoc, List.nil_append]
    rw [csvRead, if_neg (by simp), show CsvState.char limit {} '"' = .ok ⟨.inQuoted, [], []⟩ by simp [CsvState.char]]
    simpa using this

/-- The source the command hands to `replace_docs`. -/
theorem csv_items (space : Char → Bool) {limit : Nat} : ∀ (ls : List Line), (∀ l ∈ ls, l.Ok limit) →
    (csvRead limit {} (ls.flatMap Line.render)).filterMap (rowItem space) =
      ((ls.map Line.doc).filter (fun t => !t.all space)).map (fun t => .text (some (String.ofList t)))
  | [], _ => by simp [csvRead]
  | l :: ls, h => by
    obtain ⟨row, h1, h2⟩ := csvRead_line (h l (by simp)) (ls.flatMap Line.render)
    have ih := csv_items space ls (fun l hl => h l (by simp [hl]))
    rw [List.flatMap_cons, h1, List.filterMap_cons]
    rcases h2 with ⟨rfl, hd⟩ | ⟨more, rfl⟩
    · simp [rowItem, hd, ih]
    · by_cases hb : l.doc.all space = true
      · simp only [rowItem, String.toList_ofList, hb, if_true, ih, List.map_cons, List.filter_cons, Bool.not_true,
          Bool.false_eq_true, if_false]
      · simp only [rowItem, String.toList_ofList, hb, if_false, ih, List.map_cons, List.filter_cons, Bool.not_false,
          if_true, Bool.false_eq_true]

/-! ### A last line without line end -/

theorem csvRead_inField_end (limit : Nat) (cells : List String) : ∀ (t a : List Char), '\n' ∉ t → ',' ∉ t →
    a.length + t.length ≤ limit →
    csvRead limit ⟨.inField, cells, a⟩ t = [.ok (cells ++ [String.ofList (a ++ t)])]
  | [], a, _, _, _ => by simp [csvRead, CsvState.save]
  | c :: t, a, h1, h2, h3 => by
    simp only [List.mem_cons, not_or, List.length_cons] at h1 h2 h3
    have ih := csvRead_inField_end limit cells t (a ++ [c]) h1.2 h2.2 (by simp; omega)
    simp only [csvRead, ne_eq, reduceCtorEq, not_false_eq_true, and_true, Ne.symm h1.1, if_false,
      CsvState.char, Ne.symm h2.1, CsvState.add, ge_iff_le]
    rw [if_neg (by omega)]
    simpa using ih

theorem csvRead_rest_end (limit : Nat) : ∀ (t : List Char) (m : CsvMode) (cells : List String) (a : List Char),
    m = .startField ∨ m = .inField → '\n' ∉ t → '"' ∉ t → a.length + t.length ≤ limit →
    ∃ more, csvRead limit ⟨m, cells, a⟩ t = [.ok (cells ++ more)]
  | [], m, cells, a, hm, _, _, _ => by
    refine ⟨[String.ofList a], ?_⟩
    rcases hm with rfl | rfl <;> simp [csvRead, CsvState.save]
  | c :: t, m, cells, a, hm, h1, h2, h3 => by
    simp only [List.mem_cons, not_or, List.length_cons] at h1 h2 h3
    by_cases hc : c = ','
    · subst hc
      obtain ⟨more, ih⟩ := csvRead_rest_end limit t .startField (cells ++ [String.ofList a]) [] (.inl rfl) h1.2 h2.2
        (by simp; omega)
      refine ⟨String.ofList a :: more, ?_⟩
      have : csvRead limit ⟨m, cells, a⟩ (',' :: t) =
          csvRead limit ⟨.startField, cells ++ [String.ofList a], []⟩ t := by
        rcases hm with rfl | rfl <;> simp [csvRead, CsvState.char, CsvState.save]
      rw [this, ih]; simp
    · obtain ⟨more, ih⟩ := csvRead_rest_end limit t .inField cells (a ++ [c]) (.inr rfl) h1.2 h2.2 (by simp; omega)
      refine ⟨more, ?_⟩
      rw [← ih]
      have hl : ¬ limit ≤ a.length := by omega
      rcases hm with rfl | rfl <;> simp [csvRead, CsvState.char, CsvState.add, Ne.symm h1.1, Ne.symm h2.1, hc, hl]

theorem csvRead_quoted_end (limit : Nat) (cells : List String) : ∀ (t a : List Char),
    a.length + t.length ≤ limit →
    csvRead limit ⟨.inQuoted, cells, a⟩ (doubled t ++ ['"']) = [.ok (cells ++ [String.ofList (a ++ t)])]
  | [], a, _ => by simp [doubled, csvRead, CsvState.char, CsvState.save]
  | c :: t, a, h => by
    simp only [List.length_cons] at h
    have ih := csvRead_quoted_end limit cells t (a ++ [c]) (by simp; omega)
    have hl : ¬ limit ≤ a.length := by omega
    by_cases hc : c = '"'
    · subst hc
      have : doubled ('"' :: t) = '"' :: '"' :: doubled t := by simp [doubled]
      rw [this]
      simp only [List.cons_append]
      rw [csvRead, if_neg (by simp), show CsvState.char limit ⟨.inQuoted, cells, a⟩ '"' = .ok ⟨.quoteInQuoted, cells, a⟩ by
        simp [CsvState.char]]
      dsimp only
      rw [csvRead, if_neg (by simp), show CsvState.char limit ⟨.quoteInQuoted, cells, a⟩ '"' = .ok ⟨.inQuoted, cells, a ++ ['"']⟩ by
        simp [CsvState.char, CsvState.add, hl]]
      simpa using ih
    · have : doubled (c :: t) = c :: doubled t := by simp [doubled, hc]
      rw [this]
      simp only [List.cons_append]
      rw [csvRead, if_neg (by simp), show CsvState.char limit ⟨.inQuoted, cells, a⟩ c = .ok ⟨.inQuoted, cells, a ++ [c]⟩ by
        simp [CsvState.char, CsvState.add, hl, hc]]
      simpa using ih

/-- What the reader yields for a last line without line end. -/
theorem csvRead_last {limit : Nat} {l : Line} (h : l.Ok limit) :
    (csvRead limit {} l.render.dropLast = [] ∧ l.doc = []) ∨
      ∃ more, csvRead limit {} l.render.dropLast = [.ok (String.ofList l.doc :: more)] := by
  cases l with
  | plain t =>
    obtain ⟨h1, h2, h3, h4⟩ := h
    have e : (Line.plain t).render.dropLast = t := by simp [Line.render]
    rw [e]
    cases t with
    | nil => exact .inl ⟨by simp [csvRead], rfl⟩
    | cons c t =>
      simp only [List.mem_cons, not_or, List.length_cons, List.head?_cons, ne_eq, Option.some.injEq] at h1 h2 h3 h4
      refine .inr ⟨[], ?_⟩
      have := csvRead_inField_end limit [] t [c] h1.2 h2.2 (by simp; omega)
      rw [csvRead, if_neg (by simp [Ne.symm h1.1]), show CsvState.char limit {} c = .ok ⟨.inField, [], [c]⟩ by
        simp [CsvState.char, CsvState.add, h3, Ne.symm h2.1, show limit ≠ 0 by omega]]
      simpa [Line.doc] using this
  | cut t rest =>
    obtain ⟨h1, h2, h3, h4, h5, h6, h7⟩ := h
    have e : (Line.cut t rest).render.dropLast = t ++ ',' :: rest := by
      simp only [Line.render]; rw [List.dropLast_concat]
    rw [e]
    obtain ⟨more, hm⟩ := csvRead_rest_end limit rest .startField [String.ofList t] [] (.inl rfl) h5 h6 (by simpa using h7)
    refine .inr ⟨more, ?_⟩
    rw [show String.ofList (Line.cut t rest).doc :: more = [String.ofList t] ++ more from rfl, ← hm]
    cases t with
    | nil =>
      simp only [List.nil_append]
      rw [csvRead, if_neg (by simp)]
      simp [CsvState.char, CsvState.save]
    | cons c t =>
      simp only [List.mem_cons, not_or, List.length_cons, List.head?_cons, ne_eq, Option.some.injEq] at h1 h2 h3 h4
      have := csvRead_comma limit [] rest t [c] h1.2 h2.2 (by simp; omega)
      simp only [List.cons_append]
      rw [csvRead, if_neg (by simp [Ne.symm h1.1]), show CsvState.char limit {} c = .ok ⟨.inField, [], [c]⟩ by
        simp [CsvState.char, CsvState.add, h3, Ne.symm h2.1, show limit ≠ 0 by omega]]
      simpa using this
  | quoted t =>
    have e : (Line.quoted t).render.dropLast = '"' :: (doubled t ++ ['"']) := by
      simp only [Line.render]
      rw [show '"' :: doubled t ++ ['"', '\n'] = ('"' :: (doubled t ++ ['"'])) ++ ['\n'] by simp, List.dropLast_concat]
    rw [e]
    refine .inr ⟨[], ?_⟩
    have := csvRead_quoted_end limit [] t [] (by simpa [Line.Ok] using h)
    rw [csvRead, if_neg (by simp), show CsvState.char limit {} '"' = .ok ⟨.inQuoted, [], []⟩ by simp [CsvState.char]]
    simpa [Line.doc] using this

/-- Every line ends with a line end. -/
theorem render_eq (l : Line) : l.render = l.render.dropLast ++ ['\n'] := by
  cases l with
  | plain t => simp [Line.render]
  | cut t rest => simp only [Line.render]; rw [List.dropLast_concat]
  | quoted t =>
    simp only [Line.render]
    rw [show '"' :: doubled t ++ ['"', '\n'] = ('"' :: (doubled t ++ ['"'])) ++ ['\n'] by simp, List.dropLast_concat]

/-- The source, whether or not the last line has a line end. -/
theorem csv_items_unended (space : Char → Bool) {limit : Nat} : ∀ (ls : List Line) (file : List Char), (∀ l ∈ ls, l.Ok limit) →
    file ++ ['\n'] = ls.flatMap Line.render →
    (csvRead limit {} file).filterMap (rowItem space) =
      ((ls.map Line.doc).filter (fun t => !t.all space)).map (fun t => .text (some (String.ofList t)))
  | [], file, _, he => by simp at he
  | [l], file, h, he => by
    simp only [List.flatMap_cons, List.flatMap_nil, List.append_nil] at he
    rw [render_eq l] at he
    have he := List.append_cancel_right he
    subst he
    rcases csvRead_last (h l (by simp)) with ⟨h1, hd⟩ | ⟨more, h1⟩
    · rw [h1]; simp [hd]
    · rw [h1]
      by_cases hb : l.doc.all space = true
      · simp [rowItem, hb]
      · simp [rowItem, hb]
  | l :: l' :: ls, file, h, he => by
    have hne : (l' :: ls).flatMap Line.render ≠ [] := by
      rw [List.flatMap_cons, render_eq l']; simp
    obtain ⟨file', hf⟩ : ∃ file', file = l.render ++ file' := by
      rw [List.flatMap_cons] at he
      have hl : l.render.length ≤ file.length := by
        have := congrArg List.length he
        simp only [List.length_append, List.length_singleton] at this
        have := List.length_pos_iff.2 hne
        omega
      have : l.render <+: file := List.prefix_of_prefix_length_le
        (⟨_, rfl⟩ : l.render <+: l.render ++ (l' :: ls).flatMap Line.render) (he ▸ ⟨['\n'], rfl⟩) hl
      obtain ⟨f, hf⟩ := this
      exact ⟨f, hf.symm⟩
    subst hf
    have he' : file' ++ ['\n'] = (l' :: ls).flatMap Line.render := by
      rw [List.flatMap_cons, List.append_assoc] at he
      exact List.append_cancel_left he
    obtain ⟨row, h1, h2⟩ := csvRead_line (h l (by simp)) file'
    have ih := csv_items_unended space (l' :: ls) file' (fun l hl => h l (.tail _ hl)) he'
    rw [h1, List.filterMap_cons]
    rw [List.map_cons]
    generalize (l' :: ls).map Line.doc = docs at ih ⊢
    rcases h2 with ⟨rfl, hd⟩ | ⟨more, rfl⟩
    · simp [rowItem, hd, ih]
    · by_cases hb : l.doc.all space = true
      · simp only [rowItem, String.toList_ofList, hb, if_true, ih, List.filter_cons, Bool.not_true,
          Bool.false_eq_true, if_false]
      · simp only [rowItem, String.toList_ofList, hb, if_false, ih, List.map_cons, List.filter_cons, Bool.not_false,
          if_true, Bool.false_eq_true]

/-- A cell that is too long is an error. -/
theorem csvRead_long (limit : Nat) (cells : List String) (cs : List Char) : ∀ (t a : List Char), '\n' ∉ t → ',' ∉ t →
    a.length ≤ limit → limit < a.length + t.length →
    csvRead limit ⟨.inField, cells, a⟩ (t ++ cs) = [.error .valueError]
  | [], a, _, _, h1, h2 => by simp at h2; omega
  | c :: t, a, h1, h2, h3, h4 => by
    simp only [List.mem_cons, not_or, List.length_cons] at h1 h2 h4
    simp only [List.cons_append, csvRead, ne_eq, reduceCtorEq, not_false_eq_true, and_true, Ne.symm h1.1, if_false,
      CsvState.char, Ne.symm h2.1, CsvState.add, ge_iff_le]
    by_cases hl : limit ≤ a.length
    · rw [if_pos hl]
    · rw [if_neg hl]
      exact csvRead_long limit cells cs t (a ++ [c]) h1.2 h2.2 (by simp; omega) (by simp; omega)

/-- So the source raises. -/
theorem csv_long_raises (space : Char → Bool) {limit : Nat} (cs : List Char) {t : List Char} (h1 : '\n' ∉ t) (h2 : ',' ∉ t)
    (h3 : t.head? ≠ some '"') (h4 : limit < t.length) : ∀ (ls : List Line), (∀ l ∈ ls, l.Ok limit) →
    (csvRead limit {} (ls.flatMap Line.render ++ (t ++ cs))).filterMap (rowItem space) =
      ((ls.map Line.doc).filter (fun t => !t.all space)).map (fun t => .text (some (String.ofList t))) ++ [.raise .valueError]
  | [], _ => by
    cases t with
    | nil => simp at h4
    | cons c t =>
      simp only [List.mem_cons, not_or, List.length_cons, List.head?_cons, ne_eq, Option.some.injEq] at h1 h2 h3 h4
      simp only [List.flatMap_nil, List.nil_append, List.cons_append]
      rw [csvRead, if_neg (by simp [Ne.symm h1.1])]
      by_cases hl : limit = 0
      · simp [CsvState.char, CsvState.add, h3, Ne.symm h2.1, hl, rowItem]
      · rw [show CsvState.char limit {} c = .ok ⟨.inField, [], [c]⟩ by
          simp [CsvState.char, CsvState.add, h3, Ne.symm h2.1, hl]]
        dsimp only
        rw [csvRead_long limit [] cs t [c] h1.2 h2.2 (by simp; omega) (by simp; omega)]
        simp [rowItem]
  | l :: ls, h => by
    obtain ⟨row, e1, e2⟩ := csvRead_line (h l (by simp)) (ls.flatMap Line.render ++ (t ++ cs))
    have ih := csv_long_raises space cs h1 h2 h3 h4 ls (fun l hl => h l (by simp [hl]))
    rw [List.flatMap_cons, List.append_assoc, e1, List.filterMap_cons]
    rcases e2 with ⟨rfl, hd⟩ | ⟨more, rfl⟩
    · simp [rowItem, hd, ih]
    · by_cases hb : l.doc.all space = true
      · simp only [rowItem, String.toList_ofList, hb, if_true, ih, List.map_cons, List.filter_cons, Bool.not_true,
          Bool.false_eq_true, if_false]
      · simp only [rowItem, String.toList_ofList, hb, if_false, ih, List.map_cons, List.filter_cons, Bool.not_false,
          if_true, Bool.false_eq_true, List.cons_append]

end Hyperreal.Cli
