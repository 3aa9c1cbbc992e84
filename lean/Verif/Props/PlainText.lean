import Verif.Lemmas.PlainText
import Verif.Props.Indexing

/-!
# Properties of the plain text corpus (C41, and its part of C48)
-/

namespace Hyperreal.Props
open Atomic Spec
open PlainText (Item replaceDocs)

private theorem find_savepoint (c : Conn PlainText.Db) :
    findSp "add_texts" (c.savepoint "add_texts").stack = some (("add_texts", c.work), c.stack) := by
  simp [Conn.savepoint, Conn.log, findSp]

/-- **C41, all or nothing (part proved).** Whatever the source yields, wherever it raises and whichever statement fails,
`replace_docs` ends with the connection idle and the corpus either exactly as before or holding exactly the texts of the
source that are not `None`, in order, under the keys 1, 2, …; at no time did another connection (or a process opening the
file after a crash) see anything else.  With a source that ends normally and no failing statement it is the new texts.

Excluded is an interrupt (`KeyboardInterrupt`), after which a part of the texts is committed (`replace_docs_interrupted`);
also note that the exception of a failing source is not passed on (`replace_docs_silent`). -/
theorem replace_docs_partial (fault : Nat → Option Err) (src : List Item) (c : Conn PlainText.Db) (db : PlainText.Db)
    (hc : Idle c db) (hno : NoInterrupt fault src) :
    ∃ new, Idle (replaceDocs fault src c).1 new ∧ (new = db ∨ new = some (numbered (texts src))) ∧
      (∃ log, (replaceDocs fault src c).1.seen = log ++ c.seen ∧ ∀ s ∈ log, s = db ∨ s = new) ∧
      ((∃ e, Item.raise e ∈ src) → new = db) ∧
      (Clean src → (∀ n, fault n = none) →
        new = some (numbered (texts src)) ∧ (replaceDocs fault src c).2 = .ok ()) := by
  obtain ⟨cm, wk, st, bg, lv, ch, sn⟩ := c
  obtain ⟨h1, h2, h3, h4, h5, h6⟩ := hc
  dsimp only at h1 h2 h3 h4 h5 h6
  subst h1 h2 h3 h4 h5 h6
  unfold replaceDocs
  cases h0 : fault 0 with
  | some e => exact ⟨_, ⟨rfl, rfl, rfl, rfl, rfl, rfl⟩, .inl rfl, ⟨[], rfl, by simp⟩, fun _ => rfl,
      fun _ h => by rw [h 0] at h0; cases h0⟩
  | none =>
  cases h1 : fault 1 with
  | some e => exact ⟨_, ⟨rfl, rfl, rfl, rfl, rfl, rfl⟩, .inl rfl, ⟨[], rfl, by simp⟩, fun _ => rfl,
      fun _ h => by rw [h 1] at h1; cases h1⟩
  | none =>
  dsimp only
  obtain ⟨w, m, e1, e2⟩ := PlainText.loadBody_inside fault src
    (Conn.savepoint { committed := wk, work := wk, stack := [], begun := false, level := 0, changed := false, seen := sn } "add_texts")
    (by simp [Conn.savepoint, Conn.log])
  generalize hl : PlainText.loadBody fault src _ = res at e1 e2
  obtain ⟨c', r⟩ := res
  dsimp only at e1 e2
  subst e1
  rcases e2 with ⟨rfl, h7, rfl⟩ | ⟨e, rfl, h7⟩
  · refine ⟨some (numbered (texts src)), ?_, .inr rfl, ?_, ?_, ?_⟩
    · constructor <;> simp [PlainText.releaseTexts, Conn.release, Conn.savepoint, Conn.log, findSp, Conn.after]
    · refine ⟨some (numbered (texts src)) :: List.replicate m wk ++ [wk], ?_, ?_⟩
      · simp [PlainText.releaseTexts, Conn.release, Conn.savepoint, Conn.log, findSp, Conn.after]
      · intro s hs
        simp only [List.cons_append, List.mem_cons, List.mem_append, List.mem_replicate, List.not_mem_nil, or_false] at hs
        tauto
    · rintro ⟨e, he⟩; exact absurd he (h7 e)
    · intro _ _
      exact ⟨rfl, by simp [PlainText.releaseTexts, Conn.release, Conn.savepoint, Conn.log, findSp, Conn.after]⟩
  · have hexc : e.isException = true := by
      rcases h7 with h7 | ⟨k, h7⟩
      · exact hno.1 e h7
      · exact hno.2 k e h7
    refine ⟨wk, ?_, .inl rfl, ?_, fun _ => rfl, ?_⟩
    · constructor <;>
        simp [hexc, PlainText.releaseTexts, Conn.release, Conn.rollbackTo, Conn.savepoint, Conn.log, findSp, Conn.after]
    · refine ⟨wk :: wk :: List.replicate m wk ++ [wk], ?_, ?_⟩
      · simp [hexc, PlainText.releaseTexts, Conn.release, Conn.rollbackTo, Conn.savepoint, Conn.log, findSp, Conn.after]
      · intro s hs
        simp only [List.cons_append, List.mem_cons, List.mem_append, List.mem_replicate, List.not_mem_nil, or_false] at hs
        tauto
    · intro hcl hf
      rcases h7 with h7 | ⟨k, h7⟩
      · exact absurd h7 (hcl e)
      · rw [hf k] at h7; cases h7

/-- **C41, round trip.** Once the texts are stored, `keys()` gives 1, …, n and `docs()` the texts in order, each under its
key; asking for particular keys gives those documents in the order asked; an unknown key raises `IndexError`. -/
theorem docs_roundtrip (ts : List String) :
    PlainText.keys (some (numbered ts)) = .ok ((List.range ts.length).map (· + 1)) ∧
    PlainText.docs (some (numbered ts)) none = (numbered ts, none) ∧
    (∀ ks : List Nat, (∀ k ∈ ks, 1 ≤ k ∧ k ≤ ts.length) →
      PlainText.docs (some (numbered ts)) (some ks) = (ks.map (fun k => (k, ts.getD (k - 1) "")), none)) ∧
    (∀ k : Nat, (k = 0 ∨ ts.length < k) → PlainText.docs (some (numbered ts)) (some [k]) = ([], some .indexError)) := by
  have hn := PlainText.numbered_nodup ts
  have hmem : ∀ k, 1 ≤ k → k ≤ ts.length → (k, ts.getD (k - 1) "") ∈ numbered ts := by
    intro k h1 h2
    refine List.mem_map.2 ⟨(ts.getD (k - 1) "", k - 1), ?_, by simp; omega⟩
    rw [List.mk_mem_zipIdx_iff_getElem?]
    simp [List.getD_eq_getElem?_getD, show k - 1 < ts.length by omega]
  have hget : ∀ k, 1 ≤ k → k ≤ ts.length → PlainText.docOf (some (numbered ts)) k = .ok (ts.getD (k - 1) "") :=
    fun k h1 h2 => PlainText.docOf_unique _ hn _ (hmem k h1 h2)
  have hsome : ∀ ks : List Nat, (∀ k ∈ ks, 1 ≤ k ∧ k ≤ ts.length) →
      PlainText.docs (some (numbered ts)) (some ks) = (ks.map (fun k => (k, ts.getD (k - 1) "")), none) :=
    fun ks h => PlainText.yields_ok _ _ ks (fun k hk => hget k (h k hk).1 (h k hk).2)
  have hk : PlainText.keys (some (numbered ts)) = .ok ((List.range ts.length).map (· + 1)) := by
    simp only [PlainText.keys, PlainText.numbered_fst]
  refine ⟨hk, ?_, hsome, ?_⟩
  · have : PlainText.docs (some (numbered ts)) none =
        PlainText.docs (some (numbered ts)) (some ((List.range ts.length).map (· + 1))) := by
      simp only [PlainText.docs, hk]
    rw [this, hsome]
    · simp only [Prod.mk.injEq, and_true]
      apply List.ext_getElem?
      intro i
      simp only [numbered, List.getElem?_map, List.getElem?_zipIdx, List.getElem?_range]
      by_cases h : i < ts.length <;> simp [h]
    · intro k hk
      simp only [List.mem_map, List.mem_range] at hk
      omega
  · intro k hk
    have : (numbered ts).filter (fun r => r.1 = k) = [] := by
      rw [List.filter_eq_nil_iff]
      intro r hr
      obtain ⟨⟨t, i⟩, h1, rfl⟩ := List.mem_map.1 hr
      rw [List.mk_mem_zipIdx_iff_getElem?] at h1
      obtain ⟨hlt, -⟩ := List.getElem?_eq_some_iff.1 h1
      simp only [decide_eq_true_eq]
      omega
    simp [PlainText.docs, PlainText.yields, PlainText.docOf, this]

example : PlainText.docs (some (numbered ["b", "a"])) none = ([(1, "b"), (2, "a")], none) ∧
    PlainText.docs (some (numbered ["b", "a"])) (some [2, 1, 2]) = ([(2, "a"), (1, "b"), (2, "a")], none) ∧
    PlainText.docs (some (numbered ["b", "a"])) (some [2, 3]) = ([(2, "a")], some .indexError) := by decide +kernel

/-- Sources that meet the hypotheses: one that ends normally, one that raises half way. -/
example : NoInterrupt (fun _ => none) [.text (some "a"), .text none, .text (some "b")] ∧
    Idle (Conn.fresh (some [(1, "old")] : PlainText.Db)) (some [(1, "old")]) ∧
    (replaceDocs (fun _ => none) [.text (some "a"), .text none, .text (some "b")]
      (Conn.fresh (some [(1, "old")]))).1.committed = some [(1, "a"), (2, "b")] ∧
    (replaceDocs (fun _ => none) [.text (some "a"), .raise .valueError] (Conn.fresh (some [(1, "old")]))).1.committed =
      some [(1, "old")] :=
  ⟨⟨by simp, by simp⟩, ⟨rfl, rfl, rfl, rfl, rfl, rfl⟩, by decide +kernel, by decide +kernel⟩

/-- **C41, remark.** The caller is not told that the source failed: for every source that raises an `Exception`, with no
failing statement, `replace_docs` returns normally although nothing was stored. -/
theorem replace_docs_silent (src : List Item) (c : Conn PlainText.Db) (db : PlainText.Db) (hc : Idle c db)
    (hno : NoInterrupt (fun _ => none) src) (hr : ∃ e, Item.raise e ∈ src) :
    (replaceDocs (fun _ => none) src c).2 = .ok () ∧ Idle (replaceDocs (fun _ => none) src c).1 db := by
  obtain ⟨new, h1, -, -, h4, -⟩ := replace_docs_partial (fun _ => none) src c db hc hno
  refine ⟨?_, h4 hr ▸ h1⟩
  obtain ⟨w, m, e1, e2⟩ := PlainText.loadBody_inside (fun _ => none) src (c.savepoint "add_texts")
    (by simp [Conn.savepoint, Conn.log])
  unfold replaceDocs
  dsimp only
  generalize hl : PlainText.loadBody (fun _ => none) src (c.savepoint "add_texts") = res at e1 e2
  obtain ⟨c', r⟩ := res
  dsimp only at e1 e2
  subst e1
  rcases e2 with ⟨rfl, h7, rfl⟩ | ⟨e, rfl, h7⟩
  · obtain ⟨e, he⟩ := hr; exact absurd he (h7 e)
  · have hexc : e.isException = true := by
      rcases h7 with h7 | ⟨k, h7⟩
      · exact hno.1 e h7
      · cases h7
    simp only [hexc, if_true, PlainText.releaseTexts, Conn.release, Conn.rollbackTo, Conn.savepoint, Conn.log, findSp, Conn.after]

example : ∃ e, Item.raise e ∈ [Item.text (some "a"), .raise .valueError] := ⟨.valueError, by simp⟩

/-- **C41, refutation.** After a `KeyboardInterrupt` the old documents are gone and the texts read so far are committed:
neither the old corpus nor the new one. -/
theorem replace_docs_interrupted : ∃ (src : List Item) (db : PlainText.Db) (c : Conn PlainText.Db), Idle c db ∧
    (replaceDocs (fun _ => none) src c).2 = .error .interrupt ∧
    Idle (replaceDocs (fun _ => none) src c).1 (some [(1, "a")]) ∧ db = some [(1, "x"), (2, "y")] :=
  ⟨[.text (some "a"), .raise .interrupt, .text (some "b")], some [(1, "x"), (2, "y")], Conn.fresh _,
    ⟨rfl, rfl, rfl, rfl, rfl, rfl⟩, rfl, ⟨rfl, rfl, rfl, rfl, rfl, rfl⟩, rfl⟩

/-! ## Indexing it -/

/-- The features of a plain text document. -/
def plainContent (tokens : String → List String) (rows : List (Nat × String)) (k : Val) : Features :=
  match PlainText.indexed tokens (some rows) k with
  | .ok f => f
  | .error _ => []

/-- The plain text corpus keeps the contract of a corpus, for every tokeniser, and never yields `None`. -/
theorem plain_text_serves (tokens : String → List String) (rows : List (Nat × String)) (hn : (rows.map (·.1)).Nodup) :
    Serves (PlainText.corpus tokens rows) (plainContent tokens rows) ∧
    ∀ p, Indexable (PlainText.corpus tokens rows) (plainContent tokens rows) p := by
  have hdoc : ∀ k ∈ (PlainText.corpus tokens rows).keys, ∃ t, PlainText.indexed tokens (some rows) k =
      .ok (PlainText.features tokens t) := by
    intro k hk
    obtain ⟨r, hr, rfl⟩ := List.mem_map.1 hk
    refine ⟨r.2, ?_⟩
    have := PlainText.docOf_unique rows hn r hr
    show (match PlainText.docOf (some rows) r.1 with | .error e => _ | .ok t => _) = _
    rw [this]
  refine ⟨⟨?_, ?_, ?_⟩, ?_⟩
  · show (rows.map (fun r => Val.int r.1)).Nodup
    have : rows.map (fun r => Val.int r.1) = (rows.map (·.1)).map (fun n : Nat => Val.int n) := by simp
    rw [this]
    exact hn.map (fun a b h => by simpa using h)
  · intro ks hks
    refine mapM_eq_map _ _ ks ?_
    intro k hk
    obtain ⟨t, ht⟩ := hdoc k (hks k hk)
    rw [plainContent, ht]
  · intro k hk
    obtain ⟨t, ht⟩ := hdoc k hk
    simp [plainContent, ht, PlainText.features]
  · intro _ _ k hk f vs h
    obtain ⟨t, ht⟩ := hdoc k hk
    simp only [plainContent, ht, PlainText.features, List.mem_singleton, Prod.mk.injEq, Values.seq.injEq] at h
    rw [h.2]
    simp

/-- **C48, plain text.** Indexing a non-empty plain text corpus succeeds, with and without positions, for every tokeniser,
every text, every existing index and every schedule of the workers (without failing statements). -/
theorem plain_text_indexes (tokens : String → List String) (rows : List (Nat × String)) (hn : (rows.map (·.1)).Nodup)
    (hne : rows ≠ []) (cfg : IndexCfg) (s : Schedule) (hf : Fair s) (hno : ∀ i, s.fault i = none) (c : Conn DB) (db : DB)
    (hc : Idle c db) (hp : Settled db) : (indexCall (PlainText.corpus tokens rows) cfg s c).2 = .ok () := by
  obtain ⟨h1, h2⟩ := plain_text_serves tokens rows hn
  exact index_succeeds hc hp h1 (h2 _) hf (by simpa [PlainText.corpus] using hne) hno

example : (([(1, "b a"), (2, "")] : List (Nat × String)).map (·.1)).Nodup ∧ Fair demoSchedule ∧
    (∀ i, demoSchedule.fault i = none) ∧ Idle (Conn.fresh demoModel) demoModel ∧ Settled demoModel :=
  ⟨by decide, demo_fair, fun _ => rfl, ⟨rfl, rfl, rfl, rfl, rfl, rfl⟩, demoModel_settled⟩

end Hyperreal.Props
