import Verif.Spec.SxRender

/-!
# Reading back the JSON of comments
-/

namespace Hyperreal.SX
open Spec

theorem unhex_hexDigit : ∀ n < 16, unhex (hexDigit n) = some n := by decide

theorem jsonUnits_unit (n : Nat) (hn : n < 65536) (rest : List Char) :
    jsonUnits (jsonUnit n ++ rest) = (jsonUnits rest).map (fun r => (n :: r.1, r.2)) := by
  have h1 := unhex_hexDigit (n / 4096 % 16) (Nat.mod_lt _ (by decide))
  have h2 := unhex_hexDigit (n / 256 % 16) (Nat.mod_lt _ (by decide))
  have h3 := unhex_hexDigit (n / 16 % 16) (Nat.mod_lt _ (by decide))
  have h4 := unhex_hexDigit (n % 16) (Nat.mod_lt _ (by decide))
  show jsonUnits ('\\' :: 'u' :: hexDigit (n / 4096 % 16) :: hexDigit (n / 256 % 16) :: hexDigit (n / 16 % 16) ::
    hexDigit (n % 16) :: rest) = _
  rw [jsonUnits, if_neg (by decide), if_pos rfl]
  rw [h1, h2, h3, h4]
  simp only [if_true]
  have : n / 4096 % 16 * 4096 + n / 256 % 16 * 256 + n / 16 % 16 * 16 + n % 16 = n := by omega
  rw [this]

theorem jsonUnits_escape (e : Char) (n : Nat) (hu : e ≠ 'u') (h : unescapeUnit e = some n) (rest : List Char) :
    jsonUnits ('\\' :: e :: rest) = (jsonUnits rest).map (fun r => (n :: r.1, r.2)) := by
  rw [jsonUnits.eq_def]
  dsimp only
  rw [if_neg (by decide), if_pos rfl, if_neg hu, h]

theorem toNat_eq {c : Char} {n : Nat} (h : c.toNat = n) : c = Char.ofNat n := by rw [← h, Char.ofNat_toNat]

theorem char_range (c : Char) : c.toNat < 55296 ∨ (57344 ≤ c.toNat ∧ c.toNat < 1114112) := by
  have := c.valid
  simp only [UInt32.isValidChar, Nat.isValidChar] at this
  show c.val.toNat < 55296 ∨ (57344 ≤ c.val.toNat ∧ c.val.toNat < 1114112)
  omega

theorem jsonUnits_char (c : Char) (rest : List Char) :
    jsonUnits (jsonChar c ++ rest) = (jsonUnits rest).map (fun r => (utf16 c ++ r.1, r.2)) := by
  have hr := char_range c
  unfold jsonChar
  split
  · next h => subst h; exact jsonUnits_escape '"' 34 (by decide) rfl rest
  split
  · next h => subst h; exact jsonUnits_escape '\\' 92 (by decide) rfl rest
  split
  · next h => subst h; exact jsonUnits_escape 'n' 10 (by decide) rfl rest
  split
  · next h => subst h; exact jsonUnits_escape 'r' 13 (by decide) rfl rest
  split
  · next h => subst h; exact jsonUnits_escape 't' 9 (by decide) rfl rest
  split
  · next h =>
    have : utf16 c = [12] := by simp [utf16, h]
    rw [this]; exact jsonUnits_escape 'f' 12 (by decide) rfl rest
  split
  · next h =>
    have : utf16 c = [8] := by simp [utf16, h]
    rw [this]; exact jsonUnits_escape 'b' 8 (by decide) rfl rest
  split
  · next h1 h2 _ _ _ _ _ h =>
    show jsonUnits (c :: rest) = _
    rw [jsonUnits.eq_def]
    dsimp only
    rw [if_neg h1, if_neg h2, if_neg (by omega)]
  split
  · next h => rw [utf16, if_pos h]; exact jsonUnits_unit _ h rest
  · next h =>
    rw [utf16, if_neg h, List.append_assoc, jsonUnits_unit _ (by omega), jsonUnits_unit _ (by omega), Option.map_map]
    rfl

theorem jsonUnits_chars (s rest : List Char) :
    jsonUnits (s.flatMap jsonChar ++ '"' :: rest) = some (s.flatMap utf16, rest) := by
  induction s with
  | nil => show jsonUnits ('"' :: rest) = _; rw [jsonUnits.eq_def]; simp
  | cons c s ih =>
    rw [List.flatMap_cons, List.flatMap_cons, List.append_assoc, jsonUnits_char, ih]
    rfl

theorem fromUtf16_char (c : Char) (rest : List Nat) : fromUtf16 (utf16 c ++ rest) = (fromUtf16 rest).map (c :: ·) := by
  have hr := char_range c
  unfold utf16
  split
  · show fromUtf16 (c.toNat :: rest) = _
    rw [fromUtf16.eq_def]
    dsimp only
    rw [if_neg (by omega), Char.ofNat_toNat]
  · next h =>
    show fromUtf16 ((55296 + (c.toNat - 65536) / 1024) :: (56320 + (c.toNat - 65536) % 1024) :: rest) = _
    rw [fromUtf16, if_pos (by omega), if_pos (by omega)]
    have : 65536 + (55296 + (c.toNat - 65536) / 1024 - 55296) * 1024 + (56320 + (c.toNat - 65536) % 1024 - 56320) = c.toNat := by
      omega
    rw [this, Char.ofNat_toNat]

theorem fromUtf16_chars (s : List Char) : fromUtf16 (s.flatMap utf16) = some s := by
  induction s with
  | nil => rfl
  | cons c s ih => rw [List.flatMap_cons, fromUtf16_char, ih]; rfl

theorem expect_append (lit l : List Char) : expect lit (lit ++ l) = some l := by
  rw [expect, if_pos (by simp), List.drop_left]

theorem jsonText_value (v : Option String) (rest : List Char) : jsonText (jsonValue v ++ rest) = some (v, rest) := by
  cases v with
  | none =>
    have : jsonValue none ++ rest = "null".toList ++ rest := rfl
    rw [this, jsonText, expect_append]
  | some s =>
    have e : jsonValue (some s) ++ rest = ['"'] ++ (s.toList.flatMap jsonChar ++ '"' :: rest) := by simp [jsonValue]
    have hn : expect "null".toList (jsonValue (some s) ++ rest) = none := by
      rw [e, expect, if_neg]
      simp
    rw [jsonText, hn]
    dsimp only
    rw [e, expect_append]
    dsimp only
    rw [jsonUnits_chars]
    dsimp only
    rw [fromUtf16_chars]
    simp

theorem jsonObject_comment (c : CommentView) (rest : List Char) :
    jsonObject (jsonComment c ++ rest) = some ((c.name, c.text, c.license), rest) := by
  unfold jsonComment
  simp only [List.append_assoc]
  unfold jsonObject
  rw [expect_append]
  dsimp only [bind, Option.bind]
  rw [jsonText_value]
  dsimp only
  rw [expect_append]
  dsimp only
  rw [jsonText_value]
  dsimp only
  rw [expect_append]
  dsimp only
  rw [jsonText_value]
  dsimp only
  rw [expect_append]
  rfl

theorem jsonObjects_comments (c : CommentView) (cs : List CommentView) : ∀ n, cs.length < n →
    jsonObjects n ([',', ' '].intercalate ((c :: cs).map jsonComment) ++ [']']) =
      some ((c :: cs).map (fun c => (c.name, c.text, c.license))) := by
  induction cs generalizing c with
  | nil =>
    intro n hn
    obtain ⟨n, rfl⟩ : ∃ m, n = m + 1 := ⟨n - 1, by simp at hn; omega⟩
    have e : [',', ' '].intercalate ([c].map jsonComment) ++ [']'] = jsonComment c ++ [']'] := by simp
    rw [e, jsonObjects, jsonObject_comment]
    rfl
  | cons c' cs ih =>
    intro n hn
    obtain ⟨n, rfl⟩ : ∃ m, n = m + 1 := ⟨n - 1, by simp at hn; omega⟩
    have e : [',', ' '].intercalate ((c :: c' :: cs).map jsonComment) ++ [']'] =
        jsonComment c ++ ([',', ' '] ++ ([',', ' '].intercalate ((c' :: cs).map jsonComment) ++ [']'])) := by
      simp [List.intercalate, List.append_assoc]
    rw [e, jsonObjects, jsonObject_comment]
    dsimp only [bind, Option.bind]
    rw [if_neg (by simp), expect_append]
    dsimp only
    rw [ih c' n (by simpa using hn)]
    rfl

/-- The cell of comments reads back. -/
theorem readComments_json (cs : List CommentView) :
    readComments (jsonComments cs) = some (cs.map (fun c => (c.name, c.text, c.license))) := by
  have e : jsonComments cs = ['['] ++ ([',', ' '].intercalate (cs.map jsonComment) ++ [']']) := by simp [jsonComments]
  rw [e, readComments, expect_append]
  dsimp only
  cases cs with
  | nil => rfl
  | cons c cs =>
    rw [if_neg, jsonObjects_comments c cs]
    · have : ∀ (c : CommentView) (cs : List CommentView), cs.length ≤ ([',', ' '].intercalate ((c :: cs).map jsonComment)).length := by
        intro c cs
        induction cs generalizing c with
        | nil => simp
        | cons c' cs ih =>
          have := ih c'
          have e : [',', ' '].intercalate ((c :: c' :: cs).map jsonComment) =
            jsonComment c ++ ([',', ' '] ++ [',', ' '].intercalate ((c' :: cs).map jsonComment)) := by
            simp [List.intercalate]
          rw [e]
          simp only [List.length_append, List.length_cons, List.length_nil] at this ⊢
          omega
      have := this c cs
      simp only [List.length_append, List.length_cons, List.length_nil]
      omega
    · intro h
      have h2 := congrArg List.length h
      have hc : 1 ≤ (jsonComment c).length := by
        unfold jsonComment
        generalize "{\"DisplayName\": ".toList ++ jsonValue c.name ++ ", \"Text\": ".toList ++ jsonValue c.text ++
          ", \"ContentLicense\": ".toList ++ jsonValue c.license = x
        rw [List.length_append]; exact Nat.le_add_left _ _
      have e : ∀ (x : List Char) (l : List (List Char)), x.length ≤ ([',', ' '].intercalate (x :: l)).length := by
        intro x l
        cases l with
        | nil => simp
        | cons y l => simp [List.intercalate]
      have e := e (jsonComment c) (cs.map jsonComment)
      rw [List.map_cons] at h2
      simp only [List.length_append, List.length_cons, List.length_nil] at h2
      omega

end Hyperreal.SX
