import Verif.Spec.CorpusCheck
import Verif.Props.Atomic

/-!
# Methods that need a corpus (C49)
-/

namespace Hyperreal.Props
open Atomic Spec CorpusCheck

variable {σ V : Type}

theorem mem_members (m : Method) (a : String) : a ∈ m.required.members ↔ needs m a := by
  cases m <;> simp [Method.required, Protocol.members, baseMembers, needs, everyCorpus, or_assoc]

theorem refused_idle (m : Method) (corpus : Option CorpusObject) (e : Err) (he : refusal m.required corpus = some e)
    (hk : Housekeeping σ) (body : Prog σ V) (c : Conn σ) (s : σ) (hc : Idle c s) (hs : hk s s = (s, none)) :
    (m.call corpus hk body c).2 = .error e ∧ Idle (m.call corpus hk body c).1 s ∧
      ∃ n, (m.call corpus hk body c).1.seen = List.replicate n s ++ c.seen := by
  have hex : e.isException = true := by
    unfold refusal at he
    split at he
    · cases he; rfl
    · split at he
      · cases he
      · cases he; rfl
  by_cases hm : m = .exportDocumentSample
  · subst hm
    have hcall : Method.call .exportDocumentSample corpus hk body c =
        callMethod hk "export_document_sample" false (.ret (.error e)) c := by rw [Method.call, he]
    rw [hcall]
    have hout : outcome hk false (.ret (.error e) : Prog σ V) s = s := by
      simp [outcome, eval]
    obtain ⟨h1, h2, n, h3⟩ := atomic_call_partial hk "export_document_sample" false (.ret (.error e) : Prog σ V) c s hc hs
      (by simp only [eval]; rw [hs]) (by intro e' h'; simp only [eval] at h'; cases h'; exact hex)
    rw [hout] at h2 h3
    exact ⟨h1, h2, n + 1, by rw [h3, List.replicate_succ]; rfl⟩
  · have hcall : m.call corpus hk body c = (c, .error e) := by
      rw [Method.call, he]
      cases m <;> first | rfl | exact absurd rfl hm
    rw [hcall]
    exact ⟨rfl, hc, 0, by simp⟩

/-- **C49.** Calling a method that requires a corpus, on an idle connection (nothing is pending on the content `s`):
* without a corpus it raises `CorpusMissingError`;
* with a corpus whose class does not derive from the protocol and which lacks something the method needs it raises
  `UnsupportedCorpusOperation`; in both cases nothing is executed: the content is as before, nothing else was ever visible,
  and the connection is idle;
* with a corpus that has everything the method needs, it is the plain method. -/
theorem requires_corpus_clean (m : Method) (corpus : Option CorpusObject) (hk : Housekeeping σ) (body : Prog σ V) (c : Conn σ)
    (s : σ) (hc : Idle c s) (hs : hk s s = (s, none)) :
    (corpus = none → (m.call corpus hk body c).2 = .error .corpusMissing ∧ Idle (m.call corpus hk body c).1 s ∧
      ∃ n, (m.call corpus hk body c).1.seen = List.replicate n s ++ c.seen) ∧
    (∀ k, corpus = some k → k.inherits m.required = false → (∃ a, needs m a ∧ a ∉ k.attrs) →
      (m.call corpus hk body c).2 = .error .unsupportedCorpus ∧ Idle (m.call corpus hk body c).1 s ∧
      ∃ n, (m.call corpus hk body c).1.seen = List.replicate n s ++ c.seen) ∧
    (∀ k, corpus = some k → (∀ a, needs m a → a ∈ k.attrs) → m.call corpus hk body c = m.plain hk body c) := by
  refine ⟨?_, ?_, ?_⟩
  · rintro rfl
    exact refused_idle m none .corpusMissing rfl hk body c s hc hs
  · rintro k rfl hi ⟨a, ha, hna⟩
    refine refused_idle m (some k) .unsupportedCorpus ?_ hk body c s hc hs
    have : k.isInstance m.required = false := by
      rw [CorpusObject.isInstance, hi, Bool.false_or, List.all_eq_false]
      exact ⟨a, (mem_members m a).2 ha, by simpa using hna⟩
    simp [refusal, this]
  · rintro k rfl h
    have : k.isInstance m.required = true := by
      rw [CorpusObject.isInstance, Bool.or_eq_true, List.all_eq_true]
      exact Or.inr (fun a ha => by simpa using h a ((mem_members m a).1 ha))
    rw [Method.call]
    simp [refusal, this]

/-- A corpus written by a user, without inheriting, that forgets `__iter__`. -/
example : (Method.index.call (some ⟨["CORPUS_TYPE", "docs", "keys", "index", "close", "__getitem__"], []⟩) (fun _ s => (s, none))
      (.stmt (fun n => .ok (n + 1, n)) .ret) (Conn.fresh (3 : Nat))).2 = .error .unsupportedCorpus ∧
    (Method.index.call (some plainText) (fun _ s => (s, none)) (.stmt (fun n => .ok (n + 1, n)) .ret) (Conn.fresh (3 : Nat))).2 = .ok 3 ∧
    (∃ a, needs .index a ∧ a ∉ ["CORPUS_TYPE", "docs", "keys", "index", "close", "__getitem__"]) :=
  ⟨rfl, rfl, "__iter__", by simp [needs, everyCorpus], by decide⟩

/-- **C49**, for the corpora that come with the package: plain text and StackExchange corpora can be used with every method;
a corpus of tweets with every method but the table view and the spreadsheet export, which raise
`UnsupportedCorpusOperation` and change nothing. -/
theorem bundled_corpora_support (m : Method) (hk : Housekeeping σ) (body : Prog σ V) (c : Conn σ) (s : σ) (hc : Idle c s)
    (hs : hk s s = (s, none)) :
    m.call (some plainText) hk body c = m.plain hk body c ∧ m.call (some stackExchange) hk body c = m.plain hk body c ∧
    (m ≠ .renderDocsTable ∧ m ≠ .exportDocumentSample → m.call (some twittersphere) hk body c = m.plain hk body c) ∧
    (m = .renderDocsTable ∨ m = .exportDocumentSample → (m.call (some twittersphere) hk body c).2 = .error .unsupportedCorpus ∧
      Idle (m.call (some twittersphere) hk body c).1 s) := by
  refine ⟨?_, ?_, ?_, ?_⟩
  · refine (requires_corpus_clean m _ hk body c s hc hs).2.2 _ rfl (fun a ha => ?_)
    rw [← mem_members] at ha
    revert a; cases m <;> decide
  · refine (requires_corpus_clean m _ hk body c s hc hs).2.2 _ rfl (fun a ha => ?_)
    rw [← mem_members] at ha
    revert a; cases m <;> decide
  · intro hm
    refine (requires_corpus_clean m _ hk body c s hc hs).2.2 _ rfl (fun a ha => ?_)
    rw [← mem_members] at ha
    revert a; cases m <;> first | exact absurd rfl hm.1 | exact absurd rfl hm.2 | decide
  · intro hm
    have h := (requires_corpus_clean m (some twittersphere) hk body c s hc hs).2.1 _ rfl
      (by rcases hm with rfl | rfl <;> decide) ⟨"table_fields", Or.inr (Or.inr ⟨hm, Or.inl rfl⟩), by decide⟩
    exact ⟨h.1, h.2.1⟩

/-- Exporting a sample of tweets, on a connection that has committed 3. -/
example : (Method.exportDocumentSample.call (some twittersphere) (fun _ s => (s, none)) (.stmt (fun n => .ok (n + 1, n)) .ret)
      (Conn.fresh (3 : Nat))).2 = .error .unsupportedCorpus ∧ Idle (Conn.fresh (3 : Nat)) 3 ∧
    (Method.exportDocumentSample.call (some twittersphere) (fun _ s => (s, none)) (.stmt (fun n => .ok (n + 1, n)) .ret)
      (Conn.fresh (3 : Nat))).1.committed = 3 := ⟨rfl, ⟨rfl, rfl, rfl, rfl, rfl, rfl⟩, rfl⟩

end Hyperreal.Props
