import Verif.Props.Tokens
import Verif.Props.Fields

/-!
# C69: tokens in the index
-/

namespace Hyperreal.Props
open Spec Atomic Tokens

/-- Whatever the boundaries are, the text can be cut. -/
theorem finds_exists (boundary : Nat → Bool) (text : List Char) : ∀ pos, pos ≤ text.length → ∃ ms, Finds boundary text pos ms := by
  intro pos hpos
  induction hn : text.length - pos using Nat.strong_induction_on generalizing pos with
  | _ n ih =>
    by_cases h : ∃ p, pos < p ∧ p < text.length ∧ boundary p = true
    · classical
      have hs := Nat.find_spec h
      have hmin : ∀ p, pos < p → p < Nat.find h → boundary p = false := by
        intro p h1 h2
        have := Nat.find_min h h2
        simp only [not_and, Bool.not_eq_true] at this
        exact this h1 (by omega)
      generalize Nat.find h = p at hs hmin
      obtain ⟨h1, h2, h3⟩ := hs
      have hlen : ((text.drop p).takeWhile wordSpace).length ≤ (text.drop p).length := (List.takeWhile_prefix _).length_le
      rw [List.length_drop] at hlen
      obtain ⟨ms, hms⟩ := ih (text.length - (p + ((text.drop p).takeWhile wordSpace).length)) (by omega) _ (by omega) rfl
      refine ⟨_, .next pos p _ ms h1.le ⟨h3, ⟨Nat.le_add_right _ _, by omega⟩, (text.drop p).takeWhile wordSpace, [], ?_, ?_, .inr ⟨rfl, ?_⟩⟩ hmin hms⟩
      · rw [slice, List.drop_take, Nat.add_sub_cancel_left, List.append_nil]
        exact (List.prefix_iff_eq_take.1 (List.takeWhile_prefix _)).symm
      · intro c hc
        have := List.all_takeWhile (p := wordSpace) (l := text.drop p)
        exact List.all_eq_true.1 this c hc
      · intro c hc
        rw [← List.getElem?_drop] at hc
        generalize text.drop p = l at hc
        clear * - hc
        induction l with
        | nil => simp at hc
        | cons a l ih =>
          by_cases ha : wordSpace a = true
          · rw [List.takeWhile_cons_of_pos ha, List.length_cons, List.getElem?_cons_succ] at hc; exact ih hc
          · rw [List.takeWhile_cons_of_neg ha] at hc
            simp only [List.length_nil, List.getElem?_cons_zero, Option.some.injEq] at hc
            subst hc; simpa using ha
    · refine ⟨[], .none pos fun p h1 h2 => ?_⟩
      by_contra hb
      exact h ⟨p, h1, h2, by simpa using hb⟩

/-- The tokeniser `tokens` as a function on strings; `ms` gives the matches in each text. -/
def tokensOf (lower : List Char → List Char) (ms : String → List (Nat × Nat)) (s : String) : List String :=
  (tokens lower (ms s) s.toList).map String.ofList

/-- The tokeniser `social_media_tokens` as a function on strings. -/
def socialTokensOf (lower : List Char → List Char) (ms : String → List (Nat × Nat)) (s : String) : List String :=
  (socialMediaTokens lower (ms s) s.toList).map String.ofList

/-- **C69, tweets.** With `social_media_tokens` as the tokeniser, nothing is ever found under a word with a hashtag, mention or
link in it (hashtags, mentions and links have fields of their own). -/
theorem tweet_words_unmarked (t : TW.TextOps) (lower : List Char → List Char) (boundary : String → Nat → Bool)
    (ms : String → List (Nat × Nat))
    (hm : ∀ s : String, ∃ cleaned, Cleaned (lower (s.toList.map straight)) cleaned ∧ Finds (boundary s) cleaned 0 (ms s))
    (ht : t.tokens = socialTokensOf lower ms) (tw : TW.Db) (hr : TwReadable t tw) (cfg : IndexCfg) (s : Schedule) (hf : Fair s)
    (c : Conn DB) (db : DB) (hc : Idle c db) (hp : Pending db) (h : (indexCall (TW.corpus t tw) cfg s c).2 = .ok ()) :
    ∃ new, Idle (indexCall (TW.corpus t tw) cfg s c).1 new ∧
      ∀ w : String, ¬ Unmarked w.toList → ∀ i, i ∉ new.docsOfKey "text" (.text w) := by
  obtain ⟨new, h1, -, h3, h4⟩ := twittersphere_finds t tw hr cfg s hf c db hc hp h
  refine ⟨new, h1, fun w hw i hi => hw ?_⟩
  obtain ⟨x, hx, -, hk⟩ := h3 _ _ i hi
  have hsh := (h4 x hx i hk _ _).1 hi
  have hmem : w ∈ t.tokens (t.unescape x.text) := by
    generalize hf' : "text" = f at hsh
    generalize hv' : Val.text w = v at hsh
    cases hsh with
    | text w' _ hmem => cases hv'; exact hmem
    | _ =>
      first
      | exact absurd hf' (by decide)
      | exact absurd (congrArg (fun s : String => s.toList.head?) hf') (by simp [String.toList_append])
  rw [ht, socialTokensOf, List.mem_map] at hmem
  obtain ⟨tk, htk, rfl⟩ := hmem
  obtain ⟨cleaned, hc1, hc2⟩ := hm (t.unescape x.text)
  rw [String.toList_ofList]
  exact (social_tokens_tokenise lower _ _ _ cleaned hc1 hc2).2 tk htk

/-- **C69, plain text.** With `tokens` as the tokeniser (the default), a text is found under a word for each of its characters that is
neither white space nor an apostrophe, and only under words made of characters of the text. -/
theorem plain_text_every_character (lower : List Char → List Char) (boundary : String → Nat → Bool) (ms : String → List (Nat × Nat))
    (hm : ∀ s : String, Finds (boundary s) (lower (s.toList.map straight)) 0 (ms s))
    (rows : List (Nat × String)) (hn : (rows.map (·.1)).Nodup)
    (cfg : IndexCfg) (s : Schedule) (hf : Fair s) (c : Conn DB) (db : DB) (hc : Idle c db) (hp : Pending db)
    (h : (indexCall (PlainText.corpus (tokensOf lower ms) rows) cfg s c).2 = .ok ()) :
    ∃ new, Idle (indexCall (PlainText.corpus (tokensOf lower ms) rows) cfg s c).1 new ∧
      ∀ r ∈ rows, ∃ i, (i, .int r.1) ∈ new.docKeys ∧
        (∀ ch ∈ lower (r.2.toList.map straight), stripSpace ch = false → ch ≠ '\'' →
          ∃ w : String, ch ∈ w.toList ∧ i ∈ new.docsOfKey "text" (.text w)) ∧
        ∀ f v, i ∈ new.docsOfKey f v → f = "text" ∧ ∃ w : String, v = .text w ∧ w.toList <:+: lower (r.2.toList.map straight) := by
  obtain ⟨new, h1, h2, -, h4⟩ := plain_text_finds (tokensOf lower ms) rows hn cfg s hf c db hc hp h
  refine ⟨new, h1, fun r hr => ?_⟩
  obtain ⟨i, hi⟩ := h2 r hr
  obtain ⟨ts, htk, he⟩ := tokens_tokenise lower (boundary r.2) (ms r.2) r.2.toList (hm r.2)
  refine ⟨i, hi, ?_, ?_⟩
  · intro ch hch hsp hq
    obtain ⟨k, hk⟩ := List.mem_iff_getElem?.1 hch
    rcases htk.covers k ch hk with h | h | ⟨t, ht, hw⟩
    · rw [hsp] at h; cases h
    · exact absurd h hq
    · refine ⟨String.ofList t.2, ?_, (h4 r hr i hi _ _).2 ⟨rfl, _, ?_, rfl⟩⟩
      · rw [String.toList_ofList]
        obtain ⟨before, after, e, hl⟩ := htk.parts t ht
        rw [e, List.append_assoc, List.getElem?_append_right (by rw [hl]; exact hw.1), hl,
          List.getElem?_append_left (by have := hw.1; have := hw.2; omega)] at hk
        exact List.mem_of_getElem? hk
      · rw [tokensOf, he, List.map_map]
        exact List.mem_map.2 ⟨t, ht, rfl⟩
  · intro f v hv
    obtain ⟨rfl, w, hw, rfl⟩ := (h4 r hr i hi f v).1 hv
    refine ⟨rfl, w, rfl, ?_⟩
    rw [tokensOf, he, List.map_map, List.mem_map] at hw
    obtain ⟨t, ht, rfl⟩ := hw
    obtain ⟨before, after, e, -⟩ := htk.parts t ht
    simp only [Function.comp_apply, String.toList_ofList]
    exact ⟨before, after, e.symm⟩

/-- The hypotheses can be met for all boundaries. -/
example (lower : List Char → List Char) (boundary : String → Nat → Bool) :
    ∃ ms : String → List (Nat × Nat), ∀ s : String, Finds (boundary s) (lower (s.toList.map straight)) 0 (ms s) :=
  Classical.axiomOfChoice fun s => finds_exists (boundary s) _ 0 (Nat.zero_le _)

example (lower : List Char → List Char) (boundary : String → Nat → Bool) : ∃ ms : String → List (Nat × Nat),
    ∀ s : String, ∃ cleaned, Cleaned (lower (s.toList.map straight)) cleaned ∧ Finds (boundary s) cleaned 0 (ms s) := by
  have : ∀ s : String, ∃ m, Finds (boundary s) (clean false (lower (s.toList.map straight))) 0 m :=
    fun s => finds_exists _ _ 0 (Nat.zero_le _)
  obtain ⟨ms, h⟩ := Classical.axiomOfChoice this
  exact ⟨ms, fun s => ⟨_, clean_cleaned _, h s⟩⟩

end Hyperreal.Props
