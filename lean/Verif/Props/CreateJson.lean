import Verif.Props.Cli
import Verif.Lemmas.Json

/-!
# C57: quoted documents are not read as JSON strings
-/

namespace Hyperreal.Props
open Hyperreal.Spec Atomic Cli

/-- The escaped form of a character has one character at least, and more than one unless it is the character itself. -/
theorem jsonChar_length (c : Char) : 1 ≤ (SX.jsonChar c).length ∧
    (c = '\\' ∨ c.toNat < 32 ∨ 126 < c.toNat → 2 ≤ (SX.jsonChar c).length) := by
  unfold SX.jsonChar
  split_ifs with h1 h2 h3 h4 h5 h6 h7 h8 h9 <;> simp [SX.jsonUnit]
  exact ⟨h2, h8.1, h8.2⟩

theorem jsonChars_length (l : List Char) : l.length ≤ (l.flatMap SX.jsonChar).length ∧
    ((∃ c ∈ l, c = '\\' ∨ c.toNat < 32 ∨ 126 < c.toNat) → l.length < (l.flatMap SX.jsonChar).length) := by
  induction l with
  | nil => simp
  | cons a l ih =>
    obtain ⟨h1, h2⟩ := jsonChar_length a
    rw [List.flatMap_cons, List.length_append, List.length_cons]
    refine ⟨by omega, ?_⟩
    rintro ⟨c, hc, h⟩
    rcases List.mem_cons.1 hc with rfl | hc
    · have := h2 h; omega
    · have := ih.2 ⟨c, hc, h⟩; omega

/-- Escaping makes no quotes but from quotes. -/
theorem no_quote_jsonChar (c : Char) (h : c ≠ '"') : '"' ∉ SX.jsonChar c := by
  have hd : ∀ n, SX.hexDigit n ≠ '"' := by
    intro n
    unfold SX.hexDigit
    by_cases hn : n < 16
    · interval_cases n <;> decide
    · rw [List.getElem?_eq_none (by simp; omega)]; decide
  have hu : ∀ n, '"' ∉ SX.jsonUnit n := by
    intro n
    simp only [SX.jsonUnit, List.mem_cons, List.not_mem_nil, or_false, not_or]
    exact ⟨by decide, by decide, (hd _).symm, (hd _).symm, (hd _).symm, (hd _).symm⟩
  unfold SX.jsonChar
  split_ifs <;> first | contradiction | decide | exact hu _ | skip
  · simpa using Ne.symm h
  · simp only [List.mem_append, not_or]; exact ⟨hu _, hu _⟩

/-- **C57, refutation (JSON strings).** The help of the command says that a document in quotes is "treated as a JSON string and
escapes decoded".  A document written as a JSON string, on a line of its own, that has a character JSON has to escape (and no
quotes) is stored with its escapes, so that the text of the corpus is not the document. -/
theorem create_keeps_json_escapes (space : Char → Bool) (limit : Nat) (s : String) (hq : '"' ∉ s.toList)
    (he : ∃ c ∈ s.toList, c = '\\' ∨ c.toNat < 32 ∨ 126 < c.toNat) (hb : (s.toList.flatMap SX.jsonChar).all space = false)
    (hl : (s.toList.flatMap SX.jsonChar).length ≤ limit) (c : Conn PlainText.Db) (db : PlainText.Db) (hc : Idle c db) :
    ∃ line stored, jsonText line = some (some s, []) ∧ stored ≠ s ∧
      let r := plaintextCreate space limit (fun _ => none) (line ++ ['\n']) c
      r.2 = .ok () ∧ Idle r.1 (some [(1, stored)]) := by
  refine ⟨SX.jsonValue (some s), String.ofList (s.toList.flatMap SX.jsonChar), ?_, ?_, ?_⟩
  · simpa using SX.jsonText_value (some s) []
  · intro h
    have h1 := congrArg String.toList h
    rw [String.toList_ofList] at h1
    have h2 := (jsonChars_length s.toList).2 he
    rw [h1] at h2
    exact lt_irrefl _ h2
  · have hno : '"' ∉ s.toList.flatMap SX.jsonChar := by
      intro h
      obtain ⟨x, hx, h⟩ := List.mem_flatMap.1 h
      exact no_quote_jsonChar x (fun e => hq (e ▸ hx)) h
    have hdd : ∀ l : List Char, '"' ∉ l → doubled l = l := by
      intro l
      induction l with
      | nil => intro; rfl
      | cons a l ih =>
        intro h
        simp only [List.mem_cons, not_or] at h
        have := ih h.2
        unfold doubled at this ⊢
        rw [List.flatMap_cons, this, if_neg (fun e => h.1 e.symm)]
        rfl
    have := create_reads_partial space limit [.quoted (s.toList.flatMap SX.jsonChar)] (by simpa [Line.Ok] using hl)
      (SX.jsonValue (some s) ++ ['\n']) (.inl (by simp [Line.render, hdd _ hno, SX.jsonValue])) c db hc
    simpa [Line.doc, hb, numbered] using this

/-- A document of two lines, as JSON. -/
example : SX.jsonValue (some "a\nb") = "\"a\\nb\"".toList ∧ jsonText "\"a\\nb\"".toList = some (some "a\nb", []) ∧
    (plaintextCreate (· == ' ') 131072 (fun _ => none) "\"a\\nb\"\n".toList (Conn.fresh none)).1.committed =
      some [(1, "a\\nb")] ∧
    '"' ∉ "a\nb".toList ∧ (∃ c ∈ "a\nb".toList, c = '\\' ∨ c.toNat < 32 ∨ 126 < c.toNat) ∧
    ("a\nb".toList.flatMap SX.jsonChar).all (· == ' ') = false ∧ ("a\nb".toList.flatMap SX.jsonChar).length ≤ 131072 := by
  refine ⟨by decide +kernel, by decide +kernel, by decide +kernel, by decide, ⟨'\n', by decide, by decide⟩, by decide +kernel,
    by decide +kernel⟩

/-- With quotes in it the document is not even stored with its escapes. -/
example : jsonText "\"a\\\"b\\\"\"".toList = some (some "a\"b\"", []) ∧
    (plaintextCreate (· == ' ') 131072 (fun _ => none) "\"a\\\"b\\\"\"\n".toList (Conn.fresh none)).1.committed =
      some [(1, "a\\b\\\"\"")] := by
  refine ⟨by decide +kernel, by decide +kernel⟩

end Hyperreal.Props
