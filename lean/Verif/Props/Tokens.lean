import Verif.Spec.Tokens
import Mathlib.Order.Basic
import Mathlib.Algebra.Order.Group.Nat

/-!
# C69: tokens
-/

namespace Hyperreal.Props
open Spec Tokens

theorem wordSpace_strip (c : Char) (h : wordSpace c = true) : stripSpace c = true := by
  simp only [wordSpace, stripSpace, regexSpace, Bool.or_eq_true, Bool.and_eq_true, decide_eq_true_eq] at h ⊢
  omega

theorem slice_parts (text : List Char) {s e : Nat} (h : s ≤ e) (he : e ≤ text.length) :
    text = text.take s ++ slice text s e ++ text.drop e ∧ (slice text s e).length = e - s := by
  constructor
  · conv_lhs => rw [← List.take_append_drop e text, ← List.take_append_drop s (text.take e)]
    rw [List.take_take, Nat.min_eq_left h]; rfl
  · simp only [slice, List.length_drop, List.length_take]; omega

theorem slice_get (text : List Char) {s e i : Nat} (hs : s ≤ i) (he : i < e) (hl : e ≤ text.length) :
    text[i]? = (slice text s e)[i - s]? := by
  rw [slice, List.getElem?_drop, Nat.add_sub_cancel' hs, List.getElem?_take, if_pos he]

/-- The pieces, before the blank ones are dropped. -/
theorem pieces_spec {boundary : Nat → Bool} {text : List Char} {pos : Nat} {ms : List (Nat × Nat)}
    (h : Finds boundary text pos ms) (hpos : pos ≤ text.length) :
    (pieces text pos ms).Pairwise (fun a b => a.1 + a.2.length ≤ b.1) ∧
    (∀ t ∈ pieces text pos ms, pos ≤ t.1 ∧ (∃ before after, text = before ++ t.2 ++ after ∧ before.length = t.1) ∧
      (∀ p, t.1 < p → p < t.1 + t.2.length → boundary p = false) ∧
      (t.1 + t.2.length = text.length ∨ boundary (t.1 + t.2.length) = true)) ∧
    ∀ i c, pos ≤ i → text[i]? = some c → wordSpace c = true ∨ c = '\'' ∨ ∃ t ∈ pieces text pos ms, Within t i := by
  induction h with
  | none pos h =>
    refine ⟨by simp [pieces], ?_, ?_⟩
    · intro t ht
      simp only [pieces, List.mem_singleton] at ht
      subst ht
      have hl : pos + (text.drop pos).length = text.length := by rw [List.length_drop]; omega
      refine ⟨le_refl _, ⟨text.take pos, [], by simp, by simp; omega⟩, ?_, .inl hl⟩
      intro p h1 h2
      exact h p h1 (by simpa only [hl] using h2)
    · intro i c hi hc
      right; right
      refine ⟨(pos, text.drop pos), by simp [pieces], hi, ?_⟩
      have := (List.getElem?_eq_some_iff.1 hc).1
      simp only [List.length_drop]; omega
  | next pos s e ms hs hm h hn ih =>
    obtain ⟨hb, ⟨hse, hel⟩, spaces, quote, hsl, hsp, hq⟩ := hm
    obtain ⟨i1, i2, i3⟩ := ih hel
    have hlen := (slice_parts text hs (hse.trans hel)).2
    refine ⟨?_, ?_, ?_⟩
    · rw [pieces, List.pairwise_cons]
      refine ⟨fun b hb' => ?_, i1⟩
      have := (i2 b hb').1
      dsimp only
      omega
    · intro t ht
      rw [pieces, List.mem_cons] at ht
      rcases ht with rfl | ht
      · dsimp only
        have hend : pos + (slice text pos s).length = s := by omega
        refine ⟨le_refl _, ⟨_, _, (slice_parts text hs (hse.trans hel)).1, by simp; omega⟩, ?_, .inr (by rw [hend]; exact hb)⟩
        intro p h1 h2
        exact h p h1 (by omega)
      · obtain ⟨a, b⟩ := i2 t ht
        exact ⟨by omega, b⟩
    · intro i c hi hc
      by_cases h1 : i < s
      · right; right
        exact ⟨_, by rw [pieces]; exact List.mem_cons_self .., hi, by dsimp only; omega⟩
      · by_cases h2 : i < e
        · rw [slice_get text (s := s) (by omega) h2 hel, hsl] at hc
          have hmem := List.mem_of_getElem? hc
          rcases List.mem_append.1 hmem with hmem | hmem
          · exact .inl (hsp c hmem)
          · rcases hq with rfl | ⟨rfl, -⟩
            · exact .inr (.inl (by simpa using hmem))
            · simp at hmem
        · rcases i3 i c (by omega) hc with h | h | ⟨t, ht, hw⟩
          · exact .inl h
          · exact .inr (.inl h)
          · exact .inr (.inr ⟨t, by rw [pieces]; exact List.mem_cons_of_mem _ ht, hw⟩)

/-- The tokens of a prepared text. -/
theorem pick_tokenised {boundary : Nat → Bool} {text : List Char} {ms : List (Nat × Nat)} (h : Finds boundary text 0 ms) :
    Tokenised boundary text (pick text ms) := by
  obtain ⟨h1, h2, h3⟩ := pieces_spec h (Nat.zero_le _)
  have hmem : ∀ t, t ∈ pick text ms ↔ t ∈ pieces text 0 ms ∧ nonBlank t.2 = true := fun t => by rw [pick, List.mem_filter]
  have hget : ∀ t ∈ pieces text 0 ms, ∀ i, Within t i → text[i]? = t.2[i - t.1]? := by
    intro t ht i hi
    obtain ⟨-, ⟨before, after, e, hl⟩, -⟩ := h2 t ht
    rw [e, List.append_assoc, List.getElem?_append_right (by rw [hl]; exact hi.1), hl,
      List.getElem?_append_left (by have := hi.1; have := hi.2; omega)]
  have hcov : ∀ i c, text[i]? = some c → stripSpace c = true ∨ c = '\'' ∨ ∃ t ∈ pick text ms, Within t i := by
    intro i c hc
    rcases h3 i c (Nat.zero_le _) hc with h | h | ⟨t, ht, hw⟩
    · exact .inl (wordSpace_strip c h)
    · exact .inr (.inl h)
    · by_cases hb : nonBlank t.2 = true
      · exact .inr (.inr ⟨t, (hmem t).2 ⟨ht, hb⟩, hw⟩)
      · left
        rw [hget t ht i hw] at hc
        simp only [nonBlank, List.any_eq_true, not_exists, not_and, Bool.not_eq_true, Bool.not_eq_eq_eq_not, Bool.not_true] at hb
        have := hb c (List.mem_of_getElem? hc)
        simpa using this
  refine ⟨h1.filter _, ?_, ?_, hcov, ?_, ?_⟩
  · intro t ht; exact (h2 t ((hmem t).1 ht).1).2.1
  · intro t ht
    have := ((hmem t).1 ht).2
    simpa [nonBlank] using this
  · intro t ht i hi hi'
    have := hi.1; have := hi'.2
    exact (h2 t ((hmem t).1 ht).1).2.2.1 (i + 1) (by omega) this
  · intro i c d hc hd hb hsc hqc hsd hqd
    rcases hcov i c hc with h | h | ⟨t, ht, hw⟩
    · rw [hsc] at h; cases h
    · exact absurd h hqc
    · refine ⟨t, ht, hw, hw.1.trans (Nat.le_succ _), ?_⟩
      by_contra hn
      have he : t.1 + t.2.length = i + 1 := by have := hw.2; omega
      rcases (h2 t ((hmem t).1 ht).1).2.2.2 with h | h
      · have := (List.getElem?_eq_some_iff.1 hd).1
        omega
      · rw [he, hb] at h; cases h

/-! ## Cleaning -/

theorem marker_iff (text : List Char) : marker text = true ↔ ∃ m, Marks m ∧ m <+: text := by
  constructor
  · intro h
    unfold marker at h
    split at h
    · exact ⟨_, .inl rfl, ⟨_, rfl⟩⟩
    · exact ⟨_, .inr (.inl rfl), ⟨_, rfl⟩⟩
    · exact ⟨_, .inr (.inr (.inl rfl)), ⟨_, rfl⟩⟩
    · exact ⟨_, .inr (.inr (.inr rfl)), ⟨_, rfl⟩⟩
    · cases h
  · rintro ⟨m, rfl | rfl | rfl | rfl, r, rfl⟩ <;> rfl

/-- A marker has no white space, and is not empty. -/
theorem marks_spec {m : List Char} (h : Marks m) : m ≠ [] ∧ ∀ c ∈ m, regexSpace c = false := by
  rcases h with rfl | rfl | rfl | rfl <;> exact ⟨by decide, by decide +kernel⟩

theorem clean_true_append (r : List Char) (hr : ∀ c ∈ r, regexSpace c = false) (b : List Char) : clean true (r ++ b) = clean true b := by
  induction r with
  | nil => rfl
  | cons c r ih =>
    rw [List.cons_append, clean, hr c (by simp)]
    exact ih (fun x hx => hr x (by simp [hx]))

/-- Up to white space a marker is the same with and without what follows. -/
theorem marker_append (a : List Char) (w : Char) (hw : regexSpace w = true) (b : List Char) :
    marker (a ++ w :: b) = marker a := by
  rw [Bool.eq_iff_iff, marker_iff, marker_iff]
  constructor
  · rintro ⟨m, hm, r, hr⟩
    refine ⟨m, hm, ?_⟩
    rcases List.append_eq_append_iff.1 hr with ⟨x, hx, -⟩ | ⟨x, hx, hx'⟩
    · exact ⟨x, hx.symm⟩
    · cases x with
      | nil => exact ⟨[], by simpa using hx⟩
      | cons y x =>
        simp only [List.cons_append, List.cons.injEq] at hx'
        have := (marks_spec hm).2 y (by rw [hx]; simp)
        rw [← hx'.1, hw] at this
        cases this
  · rintro ⟨m, hm, r, rfl⟩
    exact ⟨m, hm, r ++ w :: b, by simp⟩

theorem clean_space (i : Bool) (a : List Char) (w : Char) (hw : regexSpace w = true) (b : List Char) :
    clean i (a ++ w :: b) = clean i a ++ w :: clean false b := by
  induction a generalizing i with
  | nil =>
    cases i with
    | true => simp only [List.nil_append, clean, hw, if_true]
    | false =>
      have hm : marker (w :: b) = false := by
        rw [Bool.eq_false_iff, Ne, marker_iff]
        rintro ⟨m, hm, r, hr⟩
        obtain ⟨hne, hsp⟩ := marks_spec hm
        cases m with
        | nil => exact hne rfl
        | cons y m =>
          simp only [List.cons_append, List.cons.injEq] at hr
          have := hsp y (by simp)
          rw [hr.1, hw] at this
          cases this
      simp only [List.nil_append, clean, hm, Bool.false_eq_true, if_false]
  | cons c a ih =>
    cases i with
    | true =>
      simp only [List.cons_append, clean]
      split
      · rw [ih]; rfl
      · exact ih true
    | false =>
      have := marker_append (c :: a) w hw b
      simp only [List.cons_append, clean] at this ⊢
      rw [this]
      split
      · exact ih true
      · rw [ih]; rfl

theorem marks_infix_cons {c : Char} {s : List Char} (h : Unmarked s) (hm : marker (c :: s) = false) : Unmarked (c :: s) := by
  intro m hk hi
  rcases List.infix_cons_iff.1 hi with h' | h'
  · have := (marker_iff _).2 ⟨m, hk, h'⟩
    rw [hm] at this; cases this
  · exact h m hk h'

/-- What is left begins like the text, up to a blank. -/
theorem clean_prefix (a : List Char) : clean false a = a ∨ ∃ p, p <+: a ∧
    (clean false a = p ∨ ∃ w r, regexSpace w = true ∧ clean false a = p ++ w :: r) := by
  right
  have hT : ∀ a : List Char, clean true a = [] ∨ ∃ w r, regexSpace w = true ∧ clean true a = w :: r := by
    intro a
    induction a with
    | nil => exact .inl rfl
    | cons c a ih =>
      rw [clean]
      split
      · next h => exact .inr ⟨c, _, h, rfl⟩
      · exact ih
  induction a with
  | nil => exact ⟨[], List.nil_prefix, .inl rfl⟩
  | cons c a ih =>
    rw [clean]
    split
    · refine ⟨[], List.nil_prefix, ?_⟩
      rcases hT a with h | ⟨w, r, hw, h⟩
      · exact .inl h
      · exact .inr ⟨w, r, hw, h⟩
    · obtain ⟨p, ⟨q, hq⟩, h⟩ := ih
      refine ⟨c :: p, ⟨q, by simp [hq]⟩, ?_⟩
      rcases h with h | ⟨w, r, hw, h⟩
      · exact .inl (by rw [h])
      · exact .inr ⟨w, r, hw, by rw [h]; rfl⟩

/-- Nothing that marks a link, hashtag or mention is left. -/
theorem clean_unmarked (i : Bool) (a : List Char) : Unmarked (clean i a) := by
  induction a generalizing i with
  | nil =>
    intro m hm hi
    rw [show clean i [] = [] by cases i <;> rfl] at hi
    exact (marks_spec hm).1 (List.infix_nil.1 hi)
  | cons c a ih =>
    have hcons : ∀ rest, marker (c :: a) = false ∨ regexSpace c = true → rest = clean false a → Unmarked (c :: rest) := by
      rintro rest hc rfl
      refine marks_infix_cons (ih false) ?_
      rcases hc with hc | hc
      · rw [Bool.eq_false_iff, Ne, marker_iff]
        rintro ⟨m, hm, hp⟩
        rw [Bool.eq_false_iff, Ne, marker_iff] at hc
        obtain ⟨hne, hsp⟩ := marks_spec hm
        obtain h | ⟨p, hpa, h⟩ := clean_prefix a
        · rw [h] at hp; exact hc ⟨m, hm, hp⟩
        · rcases h with h | ⟨w, r, hw, h⟩
          · rw [h] at hp
            exact hc ⟨m, hm, hp.trans (by obtain ⟨q, rfl⟩ := hpa; exact ⟨q, rfl⟩)⟩
          · rw [h] at hp
            have h1 : marker (c :: p ++ w :: r) = true := (marker_iff _).2 ⟨m, hm, hp⟩
            rw [marker_append _ w hw, marker_iff] at h1
            obtain ⟨m', hm', hp'⟩ := h1
            exact hc ⟨m', hm', hp'.trans (by obtain ⟨q, rfl⟩ := hpa; exact ⟨q, rfl⟩)⟩
      · rw [Bool.eq_false_iff, Ne, marker_iff]
        rintro ⟨m, hm, r, hr⟩
        obtain ⟨hne, hsp⟩ := marks_spec hm
        cases m with
        | nil => exact hne rfl
        | cons y m =>
          simp only [List.cons_append, List.cons.injEq] at hr
          have := hsp y (by simp)
          rw [hr.1, hc] at this
          cases this
    cases i with
    | true =>
      rw [clean]
      split
      · next h => exact hcons _ (.inr h) rfl
      · exact ih true
    | false =>
      rw [clean]
      split
      · exact ih true
      · next h => exact hcons _ (.inl (by simpa using h)) rfl

theorem clean_of_unmarked (a : List Char) (h : Unmarked a) : clean false a = a := by
  induction a with
  | nil => rfl
  | cons c a ih =>
    have hm : marker (c :: a) = false := by
      rw [Bool.eq_false_iff, Ne, marker_iff]
      rintro ⟨m, hm, hp⟩
      exact h m hm hp.isInfix
    rw [clean, hm]
    simp only [Bool.false_eq_true, if_false]
    rw [ih (fun m hk hi => h m hk (hi.trans (List.suffix_cons c a).isInfix))]

theorem clean_cleaned (a : List Char) : Cleaned a (clean false a) := by
  -- words first
  have hword : ∀ a : List Char, (∀ c ∈ a, regexSpace c = false) → Cleaned a (clean false a) := by
    intro a ha
    have hT : ∀ r : List Char, (∀ c ∈ r, regexSpace c = false) → clean true r = [] := by
      intro r hr
      have := clean_true_append r hr []
      rwa [List.append_nil] at this
    have key : ∀ a : List Char, (∀ c ∈ a, regexSpace c = false) → (Unmarked a ∧ clean false a = a) ∨
        ∃ p m r, a = p ++ m ++ r ∧ Marks m ∧ (∀ b b', p = b ++ b' → b' ≠ [] → ∀ m', Marks m' → ¬ m' <+: b' ++ m ++ r) ∧
          clean false a = p := by
      intro a
      induction a with
      | nil =>
        intro _
        exact .inl ⟨fun m hm hi => (marks_spec hm).1 (List.infix_nil.1 hi), rfl⟩
      | cons c a ih =>
        intro ha
        cases hk : marker (c :: a) with
        | true =>
          obtain ⟨m, hm, r, hr⟩ := (marker_iff _).1 hk
          right
          refine ⟨[], m, r, hr.symm, hm, ?_, ?_⟩
          · intro b b' e hb
            exact absurd (List.append_eq_nil_iff.1 e.symm).2 hb
          · rw [clean, hk]
            exact hT a (fun x hx => ha x (by simp [hx]))
        | false =>
          have hcl : clean false (c :: a) = c :: clean false a := by rw [clean, hk]; rfl
          rcases ih (fun x hx => ha x (by simp [hx])) with ⟨h1, h2⟩ | ⟨p, m, r, e, hm, hp, h2⟩
          · exact .inl ⟨marks_infix_cons h1 hk, by rw [hcl, h2]⟩
          · right
            refine ⟨c :: p, m, r, by rw [e]; rfl, hm, ?_, by rw [hcl, h2]⟩
            intro b b' hb hne m' hm' hpre
            cases b with
            | nil =>
              simp only [List.nil_append] at hb
              rw [← hb] at hpre
              have := (marker_iff (c :: a)).2 ⟨m', hm', by rw [e]; simpa using hpre⟩
              rw [hk] at this
              cases this
            | cons y b =>
              simp only [List.cons_append, List.cons.injEq] at hb
              exact hp b b' hb.2 hne m' hm' hpre
    rcases key a ha with ⟨h1, h2⟩ | ⟨p, m, r, e, hm, hp, h2⟩
    · rw [h2]; exact .word a ha h1
    · rw [h2, e]; exact .cut p m r (by rw [← e]; exact ha) hm hp
  induction hn : a.length using Nat.strong_induction_on generalizing a with
  | _ n ih =>
    by_cases h : ∀ c ∈ a, regexSpace c = false
    · exact hword a h
    · simp only [not_forall, Bool.not_eq_false] at h
      obtain ⟨w, hw, hsp⟩ := h
      obtain ⟨x, y, rfl⟩ := List.append_of_mem hw
      rw [clean_space false x w hsp]
      subst hn
      exact .space _ _ _ _ _ hsp (ih x.length (by simp) x rfl) (ih y.length (by simp; omega) y rfl)

/-- The specification of cleaning determines the result, and the code computes it. -/
theorem cleaned_iff (a a' : List Char) : Cleaned a a' ↔ clean false a = a' := by
  refine ⟨fun h => ?_, fun h => h ▸ clean_cleaned a⟩
  induction h with
  | word a ha hm => exact clean_of_unmarked a hm
  | cut p m r ha hm hp =>
    have hmr : clean false (m ++ r) = [] := by
      have hk : marker (m ++ r) = true := (marker_iff _).2 ⟨m, hm, r, rfl⟩
      have hall : ∀ c ∈ m ++ r, regexSpace c = false := fun c hc => ha c (by simp only [List.mem_append] at hc ⊢; tauto)
      generalize m ++ r = x at hk hall
      cases x with
      | nil => rfl
      | cons c x =>
        rw [clean, hk]
        have := clean_true_append x (fun y hy => hall y (by simp [hy])) []
        rwa [List.append_nil] at this
    rw [List.append_assoc]
    clear ha
    induction p with
    | nil => exact hmr
    | cons c p ih =>
      have hk : marker (c :: p ++ (m ++ r)) = false := by
        rw [Bool.eq_false_iff, Ne, marker_iff]
        rintro ⟨m', hm', hpre⟩
        exact hp [] (c :: p) rfl (by simp) m' hm' (by simpa using hpre)
      rw [List.cons_append] at hk ⊢
      rw [clean, hk, ih (fun b b' e hne => hp (c :: b) b' (by rw [e]; rfl) hne)]
      rfl
  | space a a' b b' w hw _ _ ih ih' => rw [clean_space false a w hw, ih, ih']

/-! ## The tokenisers -/

/-- **C69.** `tokens`: the tokens are the words of the text, quotes straightened and in lower case, as given by the word boundaries:
parts of the text, in order, that together have everything but white space and apostrophes. -/
theorem tokens_tokenise (lower : List Char → List Char) (boundary : Nat → Bool) (ms : List (Nat × Nat)) (text : List Char)
    (h : Finds boundary (lower (text.map straight)) 0 ms) :
    ∃ ts, Tokenised boundary (lower (text.map straight)) ts ∧ tokens lower ms text = ts.map (·.2) :=
  ⟨_, pick_tokenised h, rfl⟩

/-- **C69.** `social_media_tokens`: the same for the text in which every word has been cut before the first link, hashtag or mention,
and no token has a part of one. -/
theorem social_tokens_tokenise (lower : List Char → List Char) (boundary : Nat → Bool) (ms : List (Nat × Nat)) (text cleaned : List Char)
    (hc : Cleaned (lower (text.map straight)) cleaned) (h : Finds boundary cleaned 0 ms) :
    (∃ ts, Tokenised boundary cleaned ts ∧ socialMediaTokens lower ms text = ts.map (·.2)) ∧
    ∀ t ∈ socialMediaTokens lower ms text, ∀ m, m = "http://".toList ∨ m = "https://".toList ∨ m = "#".toList ∨ m = "@".toList →
      ¬ m <:+: t := by
  have hcl := (cleaned_iff _ _).1 hc
  have htok := pick_tokenised h
  subst hcl
  refine ⟨⟨_, htok, rfl⟩, fun t ht m hm hi => ?_⟩
  obtain ⟨x, hx, rfl⟩ := List.mem_map.1 ht
  obtain ⟨before, after, e, -⟩ := htok.parts x hx
  exact clean_unmarked false _ m hm (hi.trans ⟨before, after, e.symm⟩)

/-- A text without links, hashtags and mentions has the same tokens for both. -/
theorem social_tokens_plain (lower : List Char → List Char) (ms : List (Nat × Nat)) (text : List Char)
    (h : ∀ m, m = "http://".toList ∨ m = "https://".toList ∨ m = "#".toList ∨ m = "@".toList → ¬ m <:+: lower (text.map straight)) :
    socialMediaTokens lower ms text = tokens lower ms text := by
  rw [socialMediaTokens, tokens, clean_of_unmarked _ h]

/-- **C69.** Words with a space between them are never in one token: a token has spaces at its start only.  The boundaries have to
be as Unicode has them: there is one before every space that does not follow another space. -/
theorem spaces_separate_tokens (boundary : Nat → Bool) (text : List Char) (ts : List (Nat × List Char)) (h : Tokenised boundary text ts)
    (hb : ∀ i c d, text[i]? = some c → text[i + 1]? = some d → wordSpace c = false → wordSpace d = true → boundary (i + 1) = true)
    (t : Nat × List Char) (ht : t ∈ ts) : ∃ spaces word, t.2 = spaces ++ word ∧ (∀ c ∈ spaces, wordSpace c = true) ∧
      ∀ c ∈ word, wordSpace c = false := by
  obtain ⟨before, after, e, hl⟩ := h.parts t ht
  have hget : ∀ i c, t.2[i]? = some c → text[t.1 + i]? = some c := by
    intro i c hc
    have hi := (List.getElem?_eq_some_iff.1 hc).1
    rw [e, List.append_assoc, List.getElem?_append_right (by omega), hl, Nat.add_sub_cancel_left, List.getElem?_append_left hi, hc]
  have hno : ∀ i c d, t.2[i]? = some c → t.2[i + 1]? = some d → wordSpace c = false → wordSpace d = true → False := by
    intro i c d hc hd h1 h2
    have hi := (List.getElem?_eq_some_iff.1 hd).1
    have hbd := hb (t.1 + i) c d (hget i c hc) (hget (i + 1) d hd) h1 h2
    have hw := h.whole t ht (t.1 + i) ⟨by omega, by omega⟩ ⟨by omega, by omega⟩
    rw [hbd] at hw
    cases hw
  clear * - hno
  have key : ∀ l : List Char, (∀ i c d, l[i]? = some c → l[i + 1]? = some d → wordSpace c = false → wordSpace d = true → False) →
      (∀ c, l.head? = some c → wordSpace c = false → ∀ c ∈ l, wordSpace c = false) := by
    intro l
    induction l with
    | nil => intro _ c hc; simp at hc
    | cons a l ih =>
      intro hl c hc hcs x hx
      simp only [List.head?_cons, Option.some.injEq] at hc
      subst hc
      rcases List.mem_cons.1 hx with rfl | hx
      · exact hcs
      · cases l with
        | nil => simp at hx
        | cons b l =>
          refine ih (fun i c d h1 h2 => hl (i + 1) c d h1 h2) b rfl ?_ x hx
          by_contra hbs
          exact hl 0 a b rfl rfl hcs (by simpa using hbs)
  generalize t.2 = l at hno ⊢
  induction l with
  | nil => exact ⟨[], [], rfl, by simp, by simp⟩
  | cons a l ih =>
    by_cases ha : wordSpace a = true
    · obtain ⟨x, y, e, h1, h2⟩ := ih (fun i c d h1 h2 => hno (i + 1) c d h1 h2)
      exact ⟨a :: x, y, by rw [e]; rfl, by simpa [ha] using h1, h2⟩
    · exact ⟨[], a :: l, rfl, by simp, key _ hno a rfl (by simpa using ha)⟩

/-! ## Example -/

/-- A small text. -/
def demoText : List Char := "See #This ‘cat’ http://x @You! it".toList

def demoLower (l : List Char) : List Char := l.map Char.toLower

/-- Word boundaries of the cleaned text `see  'cat'   it`. -/
def demoBoundary (i : Nat) : Bool := [0, 3, 5, 6, 9, 10, 13, 15].contains i

/-- Matches in it. -/
def demoMatches : List (Nat × Nat) := [(0, 0), (3, 6), (6, 6), (9, 10), (10, 13), (13, 13), (15, 15)]

example : clean false (demoLower (demoText.map straight)) = "see  'cat'   it".toList := by decide +kernel

example : socialMediaTokens demoLower demoMatches demoText = ["see".toList, "cat".toList, "it".toList] := by decide +kernel

theorem demo_cleaned : Cleaned (demoLower (demoText.map straight)) "see  'cat'   it".toList :=
  (cleaned_iff _ _).2 (by decide +kernel)

theorem demo_finds : Finds demoBoundary "see  'cat'   it".toList 0 demoMatches := by
  have hm : ∀ s e, demoBoundary s = true → s ≤ e → e ≤ 15 → ∀ spaces quote, slice "see  'cat'   it".toList s e = spaces ++ quote →
      (∀ c ∈ spaces, wordSpace c = true) → (quote = ['\''] ∨ quote = [] ∧ ∀ c, "see  'cat'   it".toList[e]? = some c → wordSpace c = false) →
      IsMatch demoBoundary "see  'cat'   it".toList s e :=
    fun s e h1 h2 h3 a b h4 h5 h6 => ⟨h1, ⟨h2, h3⟩, a, b, h4, h5, h6⟩
  have hq : ∀ e : Nat, ("see  'cat'   it".toList[e]?.all fun c => !wordSpace c) = true →
      ∀ c, "see  'cat'   it".toList[e]? = some c → wordSpace c = false := by
    intro e h c hc
    rw [hc] at h
    simpa using h
  have hgap : ∀ a b : Nat, (List.range b).all (fun p => !(decide (a < p)) || !demoBoundary p) = true →
      ∀ p, a < p → p < b → demoBoundary p = false := by
    intro a b h p h1 h2
    have := List.all_eq_true.1 h p (List.mem_range.2 h2)
    simpa [h1] using this
  refine .next _ _ _ _ (by decide) (hm 0 0 (by decide +kernel) (by decide) (by decide) [] [] (by decide +kernel) (by simp) (.inr ⟨rfl, hq 0 (by decide +kernel)⟩)) (hgap _ _ (by decide +kernel)) ?_
  refine .next _ _ _ _ (by decide) (hm 3 6 (by decide +kernel) (by decide) (by decide) [' ', ' '] ['\''] (by decide +kernel) (by decide +kernel) (.inl rfl)) (hgap _ _ (by decide +kernel)) ?_
  refine .next _ _ _ _ (by decide) (hm 6 6 (by decide +kernel) (by decide) (by decide) [] [] (by decide +kernel) (by simp) (.inr ⟨rfl, hq 6 (by decide +kernel)⟩)) (hgap _ _ (by decide +kernel)) ?_
  refine .next _ _ _ _ (by decide) (hm 9 10 (by decide +kernel) (by decide) (by decide) [] ['\''] (by decide +kernel) (by simp) (.inl rfl)) (hgap _ _ (by decide +kernel)) ?_
  refine .next _ _ _ _ (by decide) (hm 10 13 (by decide +kernel) (by decide) (by decide) [' ', ' ', ' '] [] (by decide +kernel) (by decide +kernel) (.inr ⟨rfl, hq 13 (by decide +kernel)⟩)) (hgap _ _ (by decide +kernel)) ?_
  refine .next _ _ _ _ (by decide) (hm 13 13 (by decide +kernel) (by decide) (by decide) [] [] (by decide +kernel) (by simp) (.inr ⟨rfl, hq 13 (by decide +kernel)⟩)) (hgap _ _ (by decide +kernel)) ?_
  refine .next _ _ _ _ (by decide) (hm 15 15 (by decide +kernel) (by decide) (by decide) [] [] (by decide +kernel) (by simp) (.inr ⟨rfl, hq 15 (by decide +kernel)⟩)) (hgap _ _ (by decide +kernel)) ?_
  exact .none _ (hgap _ _ (by decide +kernel))

/-- **C69.** White space is what Unicode calls white space; `str.strip` also removes four separators of ASCII. -/
theorem white_space_exact (c : Char) :
    (regexSpace c = true ↔ c.toNat ∈ whiteSpace) ∧ (wordSpace c = true ↔ c.toNat ∈ breakingSpace) ∧
    (stripSpace c = true ↔ c.toNat ∈ whiteSpace ∨ c.toNat ∈ [0x1C, 0x1D, 0x1E, 0x1F]) := by
  have hb : breakingSpace = [0x20, 0x1680, 0x2000, 0x2001, 0x2002, 0x2003, 0x2004, 0x2005, 0x2006, 0x2008, 0x2009, 0x200A, 0x205F,
      0x3000] := by decide
  rw [hb]
  simp only [regexSpace, wordSpace, stripSpace, whiteSpace, Bool.or_eq_true, Bool.and_eq_true, decide_eq_true_eq, List.mem_cons,
    List.not_mem_nil, or_false]
  generalize c.toNat = n
  refine ⟨?_, ?_, ?_⟩ <;> constructor <;> intro h <;> omega

end Hyperreal.Props
