import Verif.Model.Session
import Verif.Spec.Store
import Verif.Lemmas.Pivot

namespace Hyperreal.Session
variable {α β : Type}

theorem ok_bind (a : α) (f : α → Except Err β) : (Except.ok a >>= f) = f a := rfl

@[simp] theorem alone_pure (d : DB) (a : α) : alone d (pure a : Session α) = .ok a := rfl

@[simp] theorem alone_lift (d : DB) (r : Except Err α) : alone d (lift r) = r := rfl

@[simp] theorem alone_look (d : DB) (f : DB → α) : alone d (look f) = .ok (f d) := rfl

@[simp] theorem alone_try (d : DB) (f : DB → Except Err α) : alone d (try_ f) = f d := rfl

theorem alone_bind' (d : DB) (s : Session α) (f : α → Session β) :
    alone d (bind s f) = (alone d s >>= fun a => alone d (f a)) := by
  induction s with
  | done r => cases r <;> rfl
  | ask k ih => exact ih d

@[simp] theorem alone_bind (d : DB) (s : Session α) (f : α → Session β) :
    alone d (s >>= f) = (alone d s >>= fun a => alone d (f a)) := alone_bind' d s f

@[simp] theorem alone_each (d : DB) (f : α → Session β) (l : List α) :
    alone d (each f l) = l.mapM (fun a => alone d (f a)) := by
  induction l with
  | nil => rfl
  | cons a l ih =>
    rw [each, alone_bind', List.mapM_cons]
    congr 1
    funext b
    rw [alone_bind', ih]
    rfl

@[simp] theorem alone_ite (d : DB) (p : Prop) [Decidable p] (s t : Session α) :
    alone d (if p then s else t) = if p then alone d s else alone d t := by split <;> rfl

/-! ## Answers -/

theorem on_all (S : Session α) (d : DB) (ds : List (Except Err DB)) (h : ∀ x ∈ ds, x = .ok d) (r : Except Err α)
    (hr : S.on ds = some r) : r = S.alone d := by
  induction S generalizing ds with
  | done r' =>
    cases ds with
    | nil => simp only [on, Option.some.injEq] at hr; exact hr.symm
    | cons => simp [on] at hr
  | ask k ih =>
    cases ds with
    | nil => simp [on] at hr
    | cons x ds =>
      have := h x (by simp); subst this
      simp only [on] at hr
      exact ih d ds (fun x hx => h x (by simp [hx])) hr

/-- A session always ends: with enough answers it has a result. -/
theorem on_const (S : Session α) (d : DB) : ∃ n, S.on (List.replicate n (.ok d)) = some (S.alone d) := by
  induction S with
  | done r => exact ⟨0, rfl⟩
  | ask k ih =>
    obtain ⟨n, h⟩ := ih d
    exact ⟨n + 1, by simpa [List.replicate_succ, on, alone] using h⟩

end Hyperreal.Session

namespace Hyperreal
open Session Spec
variable {σ : Type} [LinearOrder σ]

theorem pivotSession_alone (w : Web σ) (d : DB) (query : Bitmap) (ids : List Int) (topK : Nat) :
    alone d (pivotSession w query ids topK) =
      pivotClusters w.rd w.visitC w.visit w.arrange w.workers w.completed d query ids topK := by
  unfold pivotSession pivotClusters
  cases ids <;> simp <;> rfl

theorem windowFeatureSession_alone (d : DB) (r : FeatureRef) : alone d (windowFeatureSession r) = windowFeature d r := by
  cases r <;> rfl

theorem concordancesSession_alone (pick : Nat → Nat → List Nat) (corpus : Corpus) (d : DB) (query : Bitmap)
    (features : List FeatureRef) (w : Nat) (sample : Option Int) (sep : String) :
    alone d (concordancesSession pick corpus query features w sample sep) =
      concordances pick corpus d query features w sample sep := by
  unfold concordancesSession concordances extractWindows
  simp only [alone_bind, alone_lift, alone_each, windowFeatureSession_alone, alone_try]
  cases maybeSample pick query sample with
  | error e => rfl
  | ok q =>
    simp only [Session.ok_bind, bind_assoc]
    congr 1

theorem passagesSession_alone (arrange : List (Nat × List Nat) → List (Nat × List Nat))
    (order : List (String × Nat × List (List Nat)) → List (String × Nat × List (List Nat))) (d : DB)
    (clauses : List (List FeatureRef)) (w : Nat) :
    alone d (passagesSession arrange order clauses w) = scorePassages arrange order d clauses w := by
  unfold passagesSession scorePassages
  simp only [alone_bind, alone_each, alone_try]
  cases fieldClauses d clauses <;> rfl

theorem renderPassagesSession_alone (keep : Nat → List Nat → List Nat)
    (order : List (Dict Nat (List Passage)) → List (Dict Nat (List Passage))) (corpus : Corpus) (d : DB)
    (scored : Dict Nat (List Passage)) (overhang batchSize : Nat) (sample : Option Nat) :
    alone d (renderPassagesSession keep order corpus scored overhang batchSize sample) =
      renderPassages keep order corpus d scored overhang batchSize sample := by
  unfold renderPassagesSession renderPassages
  simp only [alone_bind, alone_each, alone_try]
  rfl

theorem collocationsSession_alone (order : List Nat → List Nat) (d : DB) (field : String) (features : List Nat) (w : Nat) :
    alone d (collocationsSession order field features w) = countCollocations order d field features w := by
  unfold collocationsSession countCollocations
  simp only [alone_bind, alone_each, alone_try, alone_look]
  rfl

theorem resultsSession_alone (w : Web σ) (d : DB) (type : String) (query : Bitmap) (features : List FeatureRef)
    (clauses : List (List FeatureRef)) (n : Nat) :
    alone d (resultsSession w type query features clauses n) = searchResults { w with db := d } type query features clauses n := by
  unfold resultsSession searchResults
  cases w.corpus with
  | none => rfl
  | some x =>
    obtain ⟨corpus, render⟩ := x
    simp only [viewConcordance, viewPassages, viewDocuments]
    by_cases h1 : type = "concordance"
    · have h2 : type ≠ "passage" := by rw [h1]; decide
      simp only [h1, if_true, alone_bind, concordancesSession_alone]
      cases render <;> simp [alone_bind] <;> rfl
    · simp only [h1, if_false, alone_bind, alone_ite, passagesSession_alone, renderPassagesSession_alone]
      by_cases h2 : type = "passage"
      · simp [h2]; rfl
      · cases render <;> simp [h2] <;> rfl

theorem clusterPageSession_alone (w : Web σ) (d : DB) (c : Int) (f : Option Nat) (g : Option Int) (n : Nat) (t : Option String) :
    alone d (clusterPageSession w c f g n t) = clusterPage { w with db := d } c f g n t := by
  unfold clusterPageSession clusterPage
  simp only [alone_bind, alone_look, Session.ok_bind, alone_ite, alone_lift, alone_try, pivotSession_alone, resultsSession_alone]
  by_cases h : c ∉ clusterIds d
  · simp only [h, if_true, not_false_eq_true]; rfl
  · simp only [h, if_false]
    cases f <;> cases g <;> rfl

theorem indexPageSession_alone (w : Web σ) (d : DB) (f : Option Nat) (c : Option Int) (n k : Nat) (t : Option String) :
    alone d (indexPageSession w f c n k t) = indexPage { w with db := d } f c n k t := by
  unfold indexPageSession indexPage
  simp only [alone_bind, alone_look, Session.ok_bind, alone_ite]
  by_cases h : clusterIds d = []
  · simp only [h, if_true]; rfl
  · simp only [h, if_false]
    have hq : alone d (indexQuerySession w f c) = indexQuery { w with db := d } f c := by
      cases f with
      | some f => rfl
      | none =>
        cases c with
        | none => rfl
        | some c =>
          simp only [indexQuerySession, indexQuery, alone_bind, alone_try, alone_look]
          cases clusterDocs d c <;> rfl
    rw [hq]
    cases indexQuery { w with db := d } f c with
    | error e => rfl
    | ok q =>
      cases q with
      | none => rfl
      | some q =>
        obtain ⟨docs, fs, cs⟩ := q
        simp only [Session.ok_bind, shownSession, alone_ite, alone_bind, pivotSession_alone, resultsSession_alone]
        by_cases he : docs = ∅
        · simp only [he, if_true]; rfl
        · simp only [he, if_false, bind_assoc]
          rfl


/-- The documents of several clusters, when all of them are stored. -/
theorem docs_mapM (d : DB) (l : List (Int × Nat × List Listed)) (h : ∀ x ∈ l, ∃ D, clusterDocs d x.1 = .ok D) :
    ∃ qs : List (Int × Bitmap), l.mapM (fun x => (clusterDocs d x.1).map (fun q => (x.1, q))) = .ok qs ∧
      qs.map (·.1) = l.map (·.1) ∧ ∀ x ∈ qs, clusterDocs d x.1 = .ok x.2 := by
  induction l with
  | nil => exact ⟨[], rfl, rfl, by simp⟩
  | cons a l ih =>
    obtain ⟨D, hD⟩ := h a (by simp)
    obtain ⟨qs, h1, h2, h3⟩ := ih (fun x hx => h x (by simp [hx]))
    refine ⟨(a.1, D) :: qs, ?_, by simp [h2], ?_⟩
    · rw [List.mapM_cons, hD, h1]; rfl
    · intro x hx
      rcases List.mem_cons.1 hx with rfl | hx
      · exact hD
      · exact h3 x hx

theorem graphJobsSession_alone (rd : Rat → σ) (d : DB) (qs : List (Int × Bitmap)) (h : ∀ x ∈ qs, clusterDocs d x.1 = .ok x.2) :
    alone d (graphJobsSession rd qs) = graphJobs rd d (qs.map (·.1)) := by
  induction qs with
  | nil => rfl
  | cons a l ih =>
    have ih := ih (fun x hx => h x (by simp [hx]))
    simp only [graphJobsSession, graphJobs, List.map_cons, alone_bind, alone_try, ih, h a (by simp), Session.ok_bind]
    rfl

theorem graphSession_alone (rd : Rat → σ) (visitC : List ClusterRow → List ClusterRow) (visit : List Listed → List Listed)
    (completed : List (Int × List (Int × σ × Nat)) → List (Int × List (Int × σ × Nat))) (topK : Nat) (includeField : Bool) (d : DB)
    (hd : ∀ c ∈ (topClusterFeatures visitC visit d topK).map (·.1), ∃ D, clusterDocs d c = .ok D) :
    alone d (graphSession rd visitC visit completed topK includeField) =
      cooccurrenceGraph rd visitC visit completed d topK includeField := by
  obtain ⟨qs, h1, h2, h3⟩ := docs_mapM d (topClusterFeatures visitC visit d topK)
    (fun x hx => hd x.1 (List.mem_map.2 ⟨x, hx, rfl⟩))
  unfold graphSession cooccurrenceGraph
  simp only [alone_bind, alone_try, h1, Session.ok_bind]
  cases (topClusterFeatures visitC visit d topK).mapM (graphNode includeField) with
  | error e => rfl
  | ok nodes =>
    simp only [Session.ok_bind]
    have : alone d (graphJobsSession rd qs) = graphJobs rd d ((topClusterFeatures visitC visit d topK).map (·.1)) := by
      rw [graphJobsSession_alone rd d qs h3, h2]
    show (alone d (graphJobsSession rd qs) >>= _) = _
    rw [this]
    rfl

end Hyperreal
