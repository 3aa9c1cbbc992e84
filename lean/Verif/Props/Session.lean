import Verif.Lemmas.SessionPivot
import Verif.Props.Concurrent
import Verif.Props.Server

/-!
# C70: queries and web views that read more than once, while others edit
-/

namespace Hyperreal.Props
open Spec DB Atomic Concurrent Session

/-! ## Questions in the concurrent world -/

theorem readContent_readOnly : ReadOnly readContent :=
  .stmt _ _ (fun s s' v h => by cases h; rfl) (fun r => .ret r)

theorem readContent_noCatch : NoCatch readContent := .stmt _ _ (fun _ => rfl) (fun _ => .ret _)

/-- A question is answered with a content that was current at some moment between its start and its end, or refused. -/
theorem question_answer {db : DB} (hdb : Settled db) {w : World DB Ret Job} (h : Reachable Job.Runs db w)
    {es : List (Entry DB Ret Job)} (hes : Questions w es) (E : Entry DB Ret Job) (hE : E ∈ es) :
    (E.answer = .error .operational ∨ E.answer = .ok (w.version E.base)) ∧ E.began ≤ E.base ∧ E.base ≤ E.ended ∧
      E.ended ≤ w.count := by
  obtain ⟨name, hl⟩ := hes.reads E hE
  have hlog := hes.happened E hE
  obtain ⟨r, h1, -, h2⟩ := concurrent_query hdb h E hlog name readContent hl
  obtain ⟨-, -, h3⟩ := concurrent_serial h
  obtain ⟨g1, g2, g3, -⟩ := h3 E hlog
  refine ⟨?_, g1, g2, g3⟩
  rcases h2 with rfl | rfl
  · left; rw [Entry.answer, h1]
  · right; rw [Entry.answer, h1]; rfl

theorem on_replace {α : Type} (S : Session α) (es : List (Entry DB Ret Job)) (f : Entry DB Ret Job → DB)
    (h : ∀ E ∈ es, E.answer = .error .operational ∨ E.answer = .ok (f E)) (r : Except Err α)
    (hr : S.on (es.map (·.answer)) = some r) : r = .error .operational ∨ S.on ((es.map f).map .ok) = some r := by
  induction es generalizing S with
  | nil => exact Or.inr hr
  | cons E es ih =>
    rcases h E (by simp) with h1 | h1
    · cases S with
      | done r' => simp [Session.on] at hr
      | ask k =>
        left
        rw [List.map_cons, h1] at hr
        simp only [Session.on] at hr
        split at hr
        · exact (Option.some.inj hr).symm
        · cases hr
    · cases S with
      | done r' => simp [Session.on] at hr
      | ask k =>
        rw [List.map_cons, h1] at hr
        exact ih (k (f E)) (fun x hx => h x (by simp [hx])) hr

/-- **C70.** Code that reads several times while others edit: every answer is a whole committed content that was current at
some moment of its own question, a question asked after the end of another one is not answered with an older content, and the
outcome is the one these contents give (or the exception of a refused read). -/
theorem session_reads {db : DB} (hdb : Settled db) {w : World DB Ret Job} (h : Reachable Job.Runs db w) {α : Type}
    (S : Session α) (es : List (Entry DB Ret Job)) (r : Except Err α) (hr : Answered w S es r) :
    (r = .error .operational ∨ S.on (es.map (fun E => .ok (w.version E.base))) = some r) ∧
    (∀ E ∈ es, E.began ≤ E.base ∧ E.base ≤ E.ended ∧ E.ended ≤ w.count ∧ Pending (w.version E.base)) ∧
    ∀ E ∈ es, ∀ E' ∈ es, E.ended ≤ E'.began → E.base ≤ E'.base := by
  obtain ⟨hes, hr⟩ := hr
  have hq := fun E hE => question_answer hdb h hes E hE
  refine ⟨?_, fun E hE => ?_, fun E hE E' hE' hle => ?_⟩
  · have := on_replace S es (fun E => w.version E.base) (fun E hE => (hq E hE).1) r hr
    rw [List.map_map] at this
    exact this
  · obtain ⟨-, g1, g2, g3⟩ := hq E hE
    exact ⟨g1, g2, g3, versions_pending (DB.Settled.toPending hdb) h _ (g2.trans g3)⟩
  · obtain ⟨-, -, g2, -⟩ := hq E hE
    obtain ⟨-, g1, -, -⟩ := hq E' hE'
    omega

/-- **C70.** When nobody changes the file from the first question to the last answer, the outcome is the one of a single
content, the current one (or the exception of a refused read). -/
theorem session_undisturbed {db : DB} (hdb : Settled db) {w : World DB Ret Job} (h : Reachable Job.Runs db w) {α : Type}
    (S : Session α) (es : List (Entry DB Ret Job)) (r : Except Err α) (hr : Answered w S es r) (a : Nat)
    (ha : ∀ E ∈ es, a ≤ E.began ∧ E.ended ≤ a) :
    r = .error .operational ∨ r = S.alone (w.version a) := by
  obtain ⟨h1, h2, -⟩ := session_reads hdb h S es r hr
  refine h1.imp id (fun h1 => ?_)
  refine on_all S (w.version a) _ ?_ r h1
  intro x hx
  obtain ⟨E, hE, rfl⟩ := List.mem_map.1 hx
  obtain ⟨g1, g2, -⟩ := h2 E hE
  obtain ⟨g3, g4⟩ := ha E hE
  have : E.base = a := by omega
  rw [this]

/-- **C70.** Whatever the others do meanwhile, the outcome is one of the code with whole committed contents, one for each
question, all current at some moment between the start of the first question and the end of the last (or the exception of a
refused read). -/
theorem session_mixes {db : DB} (hdb : Settled db) {w : World DB Ret Job} (h : Reachable Job.Runs db w) {α : Type}
    (S : Session α) (es : List (Entry DB Ret Job)) (r : Except Err α) (hr : Answered w S es r) (a b : Nat)
    (hab : ∀ E ∈ es, a ≤ E.began ∧ E.ended ≤ b) :
    r = .error .operational ∨ Mixes (fun d => ∃ k, a ≤ k ∧ k ≤ b ∧ k ≤ w.count ∧ d = w.version k) S r := by
  obtain ⟨h1, h2, -⟩ := session_reads hdb h S es r hr
  refine h1.imp id (fun h1 => ?_)
  refine mixes_of_on S (es.map (fun E => w.version E.base)) _ ?_ r (by rw [List.map_map]; exact h1)
  intro d hd
  obtain ⟨E, hE, rfl⟩ := List.mem_map.1 hd
  obtain ⟨g1, g2, g3, -⟩ := h2 E hE
  obtain ⟨g4, g5⟩ := hab E hE
  exact ⟨E.base, by omega, by omega, by omega, rfl⟩

section
variable {σ : Type} [LinearOrder σ]

/-- **C70.** Views and queries while nobody edits are those of the current content: everything proved about them for a single
content holds. -/
theorem views_undisturbed {db : DB} (hdb : Settled db) {w : World DB Ret Job} (h : Reachable Job.Runs db w) (a : Nat)
    (es : List (Entry DB Ret Job)) (ha : ∀ E ∈ es, a ≤ E.began ∧ E.ended ≤ a) (web : Web σ) :
    (∀ c f g n t r, Answered w (clusterPageSession web c f g n t) es r →
      r = .error .operational ∨ r = clusterPage { web with db := w.version a } c f g n t) ∧
    (∀ f c n k t r, Answered w (indexPageSession web f c n k t) es r →
      r = .error .operational ∨ r = indexPage { web with db := w.version a } f c n k t) ∧
    (∀ query ids topK r, Answered w (pivotSession web query ids topK) es r → r = .error .operational ∨
      r = pivotClusters web.rd web.visitC web.visit web.arrange web.workers web.completed (w.version a) query ids topK) ∧
    (∀ corpus query fs n sample sep r, Answered w (concordancesSession web.pick corpus query fs n sample sep) es r →
      r = .error .operational ∨ r = concordances web.pick corpus (w.version a) query fs n sample sep) ∧
    (∀ clauses n r, Answered w (passagesSession web.arrangeP web.orderP clauses n) es r →
      r = .error .operational ∨ r = scorePassages web.arrangeP web.orderP (w.version a) clauses n) ∧
    (∀ corpus scored o b s r, Answered w (renderPassagesSession web.keep web.orderB corpus scored o b s) es r →
      r = .error .operational ∨ r = renderPassages web.keep web.orderB corpus (w.version a) scored o b s) ∧
    (∀ order field fs n r, Answered w (collocationsSession order field fs n) es r →
      r = .error .operational ∨ r = countCollocations order (w.version a) field fs n) := by
  refine ⟨?_, ?_, ?_, ?_, ?_, ?_, ?_⟩ <;> intros <;> rename_i hr
  · rw [← clusterPageSession_alone]; exact session_undisturbed hdb h _ es _ hr a ha
  · rw [← indexPageSession_alone]; exact session_undisturbed hdb h _ es _ hr a ha
  · rw [← pivotSession_alone]; exact session_undisturbed hdb h _ es _ hr a ha
  · rw [← concordancesSession_alone]; exact session_undisturbed hdb h _ es _ hr a ha
  · rw [← passagesSession_alone]; exact session_undisturbed hdb h _ es _ hr a ha
  · rw [← renderPassagesSession_alone]; exact session_undisturbed hdb h _ es _ hr a ha
  · rw [← collocationsSession_alone]; exact session_undisturbed hdb h _ es _ hr a ha

/-- **C70.** The same for the graph of clusters, on a content at rest. -/
theorem graph_undisturbed {db : DB} (hdb : Settled db) {w : World DB Ret Job} (h : Reachable Job.Runs db w) (a : Nat)
    (hset : Settled (w.version a)) (es : List (Entry DB Ret Job)) (ha : ∀ E ∈ es, a ≤ E.began ∧ E.ended ≤ a) (rd : Rat → σ)
    (visitC : List ClusterRow → List ClusterRow) (hvC : AnyOrder visitC) (visit : List Listed → List Listed) (hv : AnyOrder visit)
    (completed : List (Int × List (Int × σ × Nat)) → List (Int × List (Int × σ × Nat))) (topK : Nat) (includeField : Bool)
    (r : Except Err (Graph σ)) (hr : Answered w (graphSession rd visitC visit completed topK includeField) es r) :
    r = .error .operational ∨ r = cooccurrenceGraph rd visitC visit completed (w.version a) topK includeField := by
  rw [← graphSession_alone]
  · exact session_undisturbed hdb h _ es _ hr a ha
  · intro c hc
    have := (top_cluster_features_listing visitC hvC visit hv (w.version a) hset topK).2.1 c
    obtain ⟨D, hD, -⟩ := clusterDocs_spec hset c (this.1 hc)
    exact ⟨D, hD⟩

/-! ## Different contents -/

theorem clusterDocs_cases {d : DB} (hs : Settled d) (c : Int) :
    (hasCluster d c ∧ ∃ D, clusterDocs d c = .ok D ∧ ∀ k, k ∈ D ↔ CoveredBy d c k) ∨
    (¬ hasCluster d c ∧ clusterDocs d c = .error .indexError) := by
  by_cases h : hasCluster d c
  · exact Or.inl ⟨h, clusterDocs_spec hs c h⟩
  · exact Or.inr ⟨h, clusterDocs_unknown c h⟩

theorem clusterFeatures_ne_nil {d : DB} (hs : Settled d) {visit : List Listed → List Listed} (hv : AnyOrder visit) {c : Int}
    (hc : hasCluster d c) : (clusterFeatures visit d c).length ≠ 0 := by
  obtain ⟨k, hk, rfl⟩ := hc
  obtain ⟨r, hr, hrc⟩ := (hs.summaries k hk).nonempty
  have h1 : 1 ≤ (clusterRows d k.cid).length := by
    rw [← List.length_map (f := (·.fid)), clusterRows_fids hs.toWellformed]
    exact List.length_pos_of_mem (List.mem_map.2 ⟨r, List.mem_filter.2 ⟨hr, by simpa using hrc⟩, rfl⟩)
  have h2 := (listing_perm hv d k.cid).length_eq
  unfold clusterFeatures
  rw [List.length_take]
  have : (1 : Nat) ≤ 2 ^ 62 := Nat.one_le_two_pow
  omega

/-- What a page shows when its parts come from different contents. -/
structure MixedPage (P : DB → Prop) (rd : Rat → σ) (c : Int) (f : Option Nat) (g : Option Int) (p : ClusterPage σ) : Prop where
  cluster : p.cluster = c
  links : ∃ d, P d ∧ hasCluster d c ∧ p.prev = ringPrev (clusterIds d) c ∧ p.next = ringNext (clusterIds d) c
  shown : ∃ d1 d2 d3, P d1 ∧ P d2 ∧ P d3 ∧ ∃ Q : Bitmap, p.total = Q.card ∧
    (∀ k, k ∈ Q ↔ CoveredBy d1 c k ∧ (∀ x, f = some x → k ∈ d2.docsOf x) ∧ ∀ x, g = some x → CoveredBy d3 x k) ∧
    ((∃ d d' s rs, P d ∧ P d' ∧ p.features = .ranked rs ∧ RightFor rd d Q (min (2 ^ 62) (featuresIn d' c).length) (c, s, rs)) ∨
      ∃ d d' rs, P d ∧ P d' ∧ p.features = .plain rs ∧ IsListing (·.fid) (·.docsCount) d c (2 ^ 62) rs ∧ ¬ Touches d' Q c)
  pinned : ∃ d, P d ∧ (p.pinned = true ↔ ∃ k ∈ d.clusters, k.cid = c ∧ k.pinned = true)
  fields : ∃ d, P d ∧ p.fields = d.fieldSummary.map (·.field)

theorem restrictFeature_mixes {P : DB → Prop} (hP : ∃ d, P d) (D : Bitmap) (f : Option Nat) (r : Except Err Bitmap)
    (h : Mixes P (restrictFeatureSession D f) r) :
    ∃ d, P d ∧ ∃ Q, r = .ok Q ∧ ∀ k, k ∈ Q ↔ k ∈ D ∧ ∀ x, f = some x → k ∈ d.docsOf x := by
  cases f with
  | none =>
    obtain ⟨d, hd⟩ := hP
    exact ⟨d, hd, D, h, by simp⟩
  | some x =>
    obtain ⟨d, hd, h⟩ := h
    exact ⟨d, hd, _, h, by simp⟩

theorem restrictCluster_mixes {P : DB → Prop} (hP : ∃ d, P d) (hS : ∀ d, P d → Settled d) (D : Bitmap) (g : Option Int)
    (r : Except Err Bitmap) (h : Mixes P (restrictClusterSession D g) r) :
    (r = .error .indexError ∧ ∃ d, P d ∧ ∃ x, g = some x ∧ ¬ hasCluster d x) ∨
    ∃ d, P d ∧ ∃ Q, r = .ok Q ∧ ∀ k, k ∈ Q ↔ k ∈ D ∧ ∀ x, g = some x → CoveredBy d x k := by
  cases g with
  | none =>
    obtain ⟨d, hd⟩ := hP
    exact Or.inr ⟨d, hd, D, h, by simp⟩
  | some x =>
    obtain ⟨d, hd, h⟩ := h
    change r = restrictCluster d D (some x) at h
    rcases clusterDocs_cases (hS d hd) x with ⟨-, E, h1, h2⟩ | ⟨h1, h2⟩
    · right
      refine ⟨d, hd, D ∩ E, ?_, by simp [h2]⟩
      rw [h, restrictCluster, h1]; rfl
    · left
      refine ⟨?_, d, hd, x, rfl, h1⟩
      rw [h, restrictCluster, h2]; rfl

theorem filterFeatures_mixes {P : DB → Prop} (w : Web σ) (g : Option Int) (r : Except Err (List Listed))
    (h : Mixes P (filterFeaturesSession w g) r) : ∃ l, r = .ok l := by
  cases g with
  | none => exact ⟨_, h⟩
  | some x =>
    obtain ⟨d, -, h⟩ := h
    exact ⟨_, h⟩

/-- **C70.** A cluster page whose parts are read from different contents at rest: if it is shown, each of its parts is right
for one of them; without a corpus it is only refused when the cluster (404, or `IndexError` if it disappeared after the
first read) or the filter cluster is missing in one of the contents. -/
theorem cluster_page_mixed {P : DB → Prop} (hP : ∃ d, P d) (hS : ∀ d, P d → Settled d) (w : Web σ) (hw : FairWeb w) (c : Int)
    (f : Option Nat) (g : Option Int) (n : Nat) (t : Option String) (r : Except Err (ClusterPage σ))
    (h : Mixes P (clusterPageSession w c f g n t) r) :
    (∀ p, r = .ok p → MixedPage P w.rd c f g p) ∧
    (w.corpus = none → (∃ p, r = .ok p) ∨ (r = .error (.http 404) ∧ ∃ d, P d ∧ ¬ hasCluster d c) ∨
      (r = .error .indexError ∧ ∃ d, P d ∧ (¬ hasCluster d c ∨ ∃ x, g = some x ∧ ¬ hasCluster d x))) := by
  unfold clusterPageSession at h
  rw [mixes_look_bind] at h
  obtain ⟨d0, hd0, h⟩ := h
  by_cases hc0 : c ∈ clusterIds d0
  swap
  · rw [if_pos hc0] at h
    refine ⟨fun p hp => ?_, fun _ => Or.inr (Or.inl ⟨h, d0, hd0, fun hh => hc0 ((mem_clusterIds _ _).2 hh)⟩)⟩
    rw [hp] at h; cases h
  rw [if_neg (not_not.2 hc0), prevCluster_eq hc0, nextCluster_eq hc0] at h
  change Mixes P (look (fun d => clusterFeatures (w.visit c) d c) >>= _) r at h
  rw [mixes_look_bind] at h
  obtain ⟨d1, hd1, h⟩ := h
  rw [mixes_try_bind] at h
  rcases h with ⟨d2, e, hd2, h1, h2⟩ | ⟨d2, D, hd2, h1, h⟩
  · rcases clusterDocs_cases (hS d2 hd2) c with ⟨-, D, k1, -⟩ | ⟨k1, k2⟩
    · rw [k1] at h1; cases h1
    · rw [k2] at h1; cases h1
      refine ⟨fun p hp => ?_, fun _ => Or.inr (Or.inr ⟨h2, d2, hd2, Or.inl k1⟩)⟩
      rw [hp] at h2; cases h2
  have hDm : ∀ k, k ∈ D ↔ CoveredBy d2 c k := by
    rcases clusterDocs_cases (hS d2 hd2) c with ⟨-, D', k1, k2⟩ | ⟨-, k2⟩
    · rw [k1] at h1; cases h1; exact k2
    · rw [k2] at h1; cases h1
  rw [mixes_bind] at h
  rcases h with ⟨e, k1, k2⟩ | ⟨Q1, k1, h⟩
  · obtain ⟨_, _, _, k3, -⟩ := restrictFeature_mixes hP _ _ _ k1; cases k3
  obtain ⟨d3, hd3, Q1', k2, hQ1⟩ := restrictFeature_mixes hP _ _ _ k1
  cases k2
  rw [mixes_bind] at h
  rcases h with ⟨e, k1, k2⟩ | ⟨Q, k1, h⟩
  · rcases restrictCluster_mixes hP hS _ _ _ k1 with ⟨k3, d, hd, x, hx, hn⟩ | ⟨_, _, _, k3, -⟩
    · cases k3
      refine ⟨fun p hp => ?_, fun _ => Or.inr (Or.inr ⟨k2, d, hd, Or.inr ⟨x, hx, hn⟩⟩)⟩
      rw [hp] at k2; cases k2
    · cases k3
  obtain ⟨d4, hd4, Q', k2, hQ⟩ : ∃ d, P d ∧ ∃ Q', Except.ok (ε := Err) Q = .ok Q' ∧ ∀ k, k ∈ Q' ↔ k ∈ Q1 ∧ ∀ x, g = some x → CoveredBy d x k := by
    rcases restrictCluster_mixes hP hS _ _ _ k1 with ⟨k3, -⟩ | k3
    · cases k3
    · exact k3
  cases k2
  rw [mixes_bind] at h
  rcases h with ⟨e, k1, k2⟩ | ⟨fl, k1, h⟩
  · obtain ⟨_, k3⟩ := filterFeatures_mixes _ _ _ k1; cases k3
  rw [mixes_bind] at h
  rcases h with ⟨e, k1, k2⟩ | ⟨sorted, hsorted, h⟩
  · rcases pivot_mixes w hw hS _ _ (by simp) _ _ k1 with ⟨k3, k4⟩ | ⟨_, k3, -⟩
    · cases k3
      refine ⟨fun p hp => ?_, fun _ => Or.inr (Or.inr ⟨k2, ?_⟩)⟩
      · rw [hp] at k2; cases k2
      · rcases k4 with k4 | ⟨x, hx, d, hd, hn⟩
        · exact ⟨d1, hd1, Or.inl (fun hc => clusterFeatures_ne_nil (hS d1 hd1) (hw.visit c) hc k4)⟩
        · have : x = c := by simpa [RequestedIn] using hx
          exact ⟨d, hd, Or.inl (this ▸ hn)⟩
    · cases k3
  rcases pivot_mixes w hw hS _ _ (by simp) _ _ hsorted with ⟨k3, -⟩ | ⟨sorted', k3, -, hright, hall⟩
  · cases k3
  cases k3
  rw [mixes_bind] at h
  constructor
  · rintro p rfl
    rcases h with ⟨e, -, k2⟩ | ⟨res, -, h⟩
    · cases k2
    rw [mixes_look_bind] at h
    obtain ⟨d5, hd5, h⟩ := h
    rw [mixes_look_bind] at h
    obtain ⟨d6, hd6, h⟩ := h
    cases h
    refine ⟨rfl, ⟨d0, hd0, (mem_clusterIds _ _).1 hc0, rfl, rfl⟩, ⟨d2, d3, d4, hd2, hd3, hd4, Q, rfl, ?_, ?_⟩, ⟨d6, hd6, by simp⟩,
      ⟨d5, hd5, rfl⟩⟩
    · intro k
      rw [hQ, hQ1, hDm, and_assoc]
    · cases hso : sorted with
      | nil =>
        right
        have : ∃ d', P d' ∧ ¬ Touches d' Q c := by
          by_contra hno
          simp only [not_exists, not_and, not_not] at hno
          have := hall c (by simp) (by simp) (fun d hd _ => hno d hd)
          rw [hso] at this
          simp at this
        obtain ⟨d', hd', hnt⟩ := this
        exact ⟨d1, d', _, hd1, hd', rfl, (cluster_features_listing (w.visit c) (hw.visit c) d1 (hS d1 hd1) c _).1, hnt⟩
      | cons x l =>
        left
        obtain ⟨hx, -, d, hd, hr⟩ := hright x (by rw [hso]; simp)
        have hx : x.1 = c := by simpa [RequestedIn] using hx
        refine ⟨d, d1, x.2.1, x.2.2, hd, hd1, rfl, ?_⟩
        rw [← (cluster_features_listing (w.visit c) (hw.visit c) d1 (hS d1 hd1) c (2 ^ 62)).1.size, ← hx]
        rw [← hx] at hr
        exact hr
  · intro hno
    have hres : resultsSession w (resultType t) Q (concordanceFeatures (clusterFeatures (w.visit c) d1 c) f fl)
        (passageClauses (clusterFeatures (w.visit c) d1 c) f g fl) n = lift (.ok .nothing) := by
      unfold resultsSession; rw [hno]
    rcases h with ⟨e, k1, -⟩ | ⟨res, -, h⟩
    · rw [hres] at k1; cases k1
    rw [mixes_look_bind] at h
    obtain ⟨d5, hd5, h⟩ := h
    rw [mixes_look_bind] at h
    obtain ⟨d6, hd6, h⟩ := h
    exact Or.inl ⟨_, h⟩

/-- **C70.** The pivot when its jobs read different contents at rest: it only fails when a cluster it is about is missing in
one of them (or no features are asked for); otherwise every entry is right for one of the contents, every cluster appears at
most once, and every cluster it is about that shares documents with the query in all contents appears. -/
theorem pivot_mixed {P : DB → Prop} (hS : ∀ d, P d → Settled d) (w : Web σ) (hw : FairWeb w) (query : Bitmap) (ids : List Int)
    (hids : ids.Nodup) (topK : Nat) (hk : 1 ≤ topK) (r : Except Err (List (Int × σ × List (Nat × String × Val × σ))))
    (h : Mixes P (pivotSession w query ids topK) r) :
    (r = .error .indexError ∧ ∃ c d d', P d ∧ P d' ∧ ¬ hasCluster d c ∧ (ids = [] ∧ hasCluster d' c ∨ c ∈ ids)) ∨
    ∃ out, r = .ok out ∧ (out.map (·.1)).Nodup ∧
      (∀ x ∈ out, (ids = [] ∨ x.1 ∈ ids) ∧ ∃ d, P d ∧ RightFor w.rd d query topK x) ∧
      (∀ c, (ids = [] → ∀ d, P d → hasCluster d c) → (ids ≠ [] → c ∈ ids) → (∀ d, P d → hasCluster d c → Touches d query c) →
        c ∈ out.map (·.1)) ∧
      ∀ c ∈ out.map (·.1), ∃ d, P d ∧ hasCluster d c ∧ Touches d query c := by
  rcases pivot_mixes w hw hS query ids hids topK r h with ⟨h1, h2⟩ | ⟨out, h1, h2, h3, h4⟩
  · refine Or.inl ⟨h1, ?_⟩
    rcases h2 with h2 | ⟨c, hc, d, hd, hn⟩
    · omega
    · unfold RequestedIn at hc
      split at hc
      · obtain ⟨d', hd', hc'⟩ := hc
        exact ⟨c, d, d', hd, hd', hn, Or.inl ⟨by assumption, hc'⟩⟩
      · exact ⟨c, d, d, hd, hd, hn, Or.inr hc⟩
  · refine Or.inr ⟨out, h1, h2, fun x hx => ?_, h4, ?_⟩
    · obtain ⟨g1, -, g3⟩ := h3 x hx
      refine ⟨?_, g3⟩
      unfold RequestedIn at g1
      split at g1
      · exact Or.inl (by assumption)
      · exact Or.inr g1
    · intro c hc
      obtain ⟨x, hx, rfl⟩ := List.mem_map.1 hc
      exact (h3 x hx).2.1

/-- A listing of all clusters of one content. -/
def ListingOf (d : DB) (topK : Nat) (l : Listing σ) : Prop :=
  ∃ L, l = .plain L ∧ (L.map (·.1)).Nodup ∧ (∀ c, c ∈ L.map (·.1) ↔ hasCluster d c) ∧
    ∀ x ∈ L, IsListing (·.fid) (·.docsCount) d x.1 topK x.2.2

/-- What the index page shows when its parts come from different contents. -/
structure MixedIndex (P : DB → Prop) (rd : Rat → σ) (f : Option Nat) (c : Option Int) (topK : Nat) (p : IndexPage σ) : Prop where
  shown : ∃ d, P d ∧ ∃ Q : Bitmap,
    (∀ k, k ∈ Q ↔ (∃ x, f = some x ∧ k ∈ d.docsOf x) ∨ (f = none ∧ ∃ x, c = some x ∧ CoveredBy d x k)) ∧ p.total = Q.card ∧
    (Q = ∅ → ∃ d', P d' ∧ ListingOf d' topK p.clusters) ∧
    (Q ≠ ∅ → ∃ L, p.clusters = .ranked L ∧ (L.map (·.1)).Nodup ∧ ∀ x ∈ L, ∃ d', P d' ∧ RightFor rd d' Q topK x)
  fields : ∃ d, P d ∧ p.fields = d.fieldSummary.map (·.field)

theorem listing_mixes {P : DB → Prop} (hS : ∀ d, P d → Settled d) (w : Web σ) (hw : FairWeb w) (topK : Nat)
    (r : Except Err (Listing σ)) (h : Mixes P (listingSession w topK) r) : ∃ l d, r = .ok l ∧ P d ∧ ListingOf d topK l := by
  obtain ⟨d, hd, h⟩ := h
  obtain ⟨h1, h2, -, h4⟩ := top_cluster_features_listing w.visitC hw.visitC w.visitT hw.visitT d (hS d hd) topK
  exact ⟨_, d, h, hd, _, rfl, h1, h2, fun x hx => (h4 x hx).2⟩

/-- **C70.** The index page whose parts are read from different contents at rest: redirected only if one of them has no
clusters; if it is shown, each part is right for one of them; without a corpus it only fails with an `IndexError`, when a
cluster is missing in one of them that was asked for or is in another one. -/
theorem index_page_mixed {P : DB → Prop} (hP : ∃ d, P d) (hS : ∀ d, P d → Settled d) (w : Web σ) (hw : FairWeb w) (f : Option Nat)
    (c : Option Int) (n topK : Nat) (hk : 1 ≤ topK) (t : Option String) (r : Except Err (Option (IndexPage σ)))
    (h : Mixes P (indexPageSession w f c n topK t) r) :
    (r = .ok none → ∃ d, P d ∧ d.clusters = []) ∧
    (∀ p, r = .ok (some p) → MixedIndex P w.rd f c topK p) ∧
    (w.corpus = none → (∃ p, r = .ok p) ∨ (r = .error .indexError ∧ ∃ x d d', P d ∧ P d' ∧ ¬ hasCluster d x ∧
      (c = some x ∨ hasCluster d' x))) := by
  unfold indexPageSession at h
  rw [mixes_look_bind] at h
  obtain ⟨d0, hd0, h⟩ := h
  by_cases h0 : clusterIds d0 = []
  · rw [if_pos h0] at h
    change r = .ok none at h
    subst h
    refine ⟨fun _ => ⟨d0, hd0, ?_⟩, by simp, fun _ => Or.inl ⟨none, rfl⟩⟩
    have := (clusterIds_perm d0).symm
    rw [h0] at this
    simpa using this.eq_nil
  rw [if_neg h0, mixes_bind] at h
  have tail : ∀ (read : Listing σ × Results × Nat), (∃ d, P d ∧ ∃ Q : Bitmap,
        (∀ k, k ∈ Q ↔ (∃ x, f = some x ∧ k ∈ d.docsOf x) ∨ (f = none ∧ ∃ x, c = some x ∧ CoveredBy d x k)) ∧ read.2.2 = Q.card ∧
        (Q = ∅ → ∃ d', P d' ∧ ListingOf d' topK read.1) ∧
        (Q ≠ ∅ → ∃ L, read.1 = .ranked L ∧ (L.map (·.1)).Nodup ∧ ∀ x ∈ L, ∃ d', P d' ∧ RightFor w.rd d' Q topK x)) →
      Mixes P (look (fun d : DB => d.fieldSummary.map (·.field)) >>= fun fields => (pure (some (⟨read.1, read.2.1, resultType t, read.2.2, f,
        if f.isSome then none else c, fields⟩ : IndexPage σ)) : Session (Option (IndexPage σ)))) r →
      (r = .ok none → ∃ d, P d ∧ d.clusters = []) ∧ (∀ p, r = .ok (some p) → MixedIndex P w.rd f c topK p) ∧
      (w.corpus = none → (∃ p, r = .ok p) ∨ (r = .error .indexError ∧ ∃ x d d', P d ∧ P d' ∧ ¬ hasCluster d x ∧
      (c = some x ∨ hasCluster d' x))) := by
    intro read hread hm
    rw [mixes_look_bind] at hm
    obtain ⟨d, hd, hm⟩ := hm
    change r = _ at hm
    subst hm
    refine ⟨fun e => (by cases e), fun p hp => ?_, fun _ => Or.inl ⟨_, rfl⟩⟩
    cases hp
    exact ⟨hread, d, hd, rfl⟩
  have rest : ∀ (q : Option (Bitmap × List FeatureRef × List (List FeatureRef))), (∃ d, P d ∧ ∃ Q : Bitmap,
        (∀ k, k ∈ Q ↔ (∃ x, f = some x ∧ k ∈ d.docsOf x) ∨ (f = none ∧ ∃ x, c = some x ∧ CoveredBy d x k)) ∧
        (q = none ∧ Q = ∅ ∨ ∃ fs cs, q = some (Q, fs, cs))) →
      Mixes P (shownSession w n topK (resultType t) q >>= fun read => look (fun d : DB => d.fieldSummary.map (·.field)) >>= fun fields =>
        (pure (some (⟨read.1, read.2.1, resultType t, read.2.2, f, if f.isSome then none else c, fields⟩ : IndexPage σ)) :
          Session (Option (IndexPage σ)))) r →
      (r = .ok none → ∃ d, P d ∧ d.clusters = []) ∧ (∀ p, r = .ok (some p) → MixedIndex P w.rd f c topK p) ∧
      (w.corpus = none → (∃ p, r = .ok p) ∨ (r = .error .indexError ∧ ∃ x d d', P d ∧ P d' ∧ ¬ hasCluster d x ∧
      (c = some x ∨ hasCluster d' x))) := by
    rintro q ⟨d, hd, Q, hQ, hq⟩ hm
    have plain : ∀ r', Mixes P (listingSession w topK >>= fun l => (pure (l, .nothing, 0) : Session (Listing σ × Results × Nat))) r' →
        Q = ∅ → ∃ l d', r' = .ok (l, .nothing, 0) ∧ P d' ∧ ListingOf d' topK l := by
      intro r' hr' _
      rw [mixes_bind] at hr'
      rcases hr' with ⟨e, k1, -⟩ | ⟨l, k1, k2⟩
      · obtain ⟨_, _, k3, -⟩ := listing_mixes hS w hw topK _ k1; cases k3
      · obtain ⟨l', d', k3, k4, k5⟩ := listing_mixes hS w hw topK _ k1
        cases k3
        exact ⟨l, d', k2, k4, k5⟩
    have hplain : Q = ∅ → shownSession w n topK (resultType t) q =
        (listingSession w topK >>= fun l => (pure (l, .nothing, 0) : Session (Listing σ × Results × Nat))) := by
      intro hQe
      rcases hq with ⟨rfl, -⟩ | ⟨fs, cs, rfl⟩
      · rfl
      · simp only [shownSession, hQe, if_true]
    rw [mixes_bind] at hm
    by_cases hQe : Q = ∅
    · rw [hplain hQe] at hm
      rcases hm with ⟨e, k1, -⟩ | ⟨read, k1, k2⟩
      · obtain ⟨_, _, k3, -⟩ := plain _ k1 hQe; cases k3
      · obtain ⟨l, d', k3, k4, k5⟩ := plain _ k1 hQe
        cases k3
        exact tail _ ⟨d, hd, Q, hQ, by simp [hQe], fun _ => ⟨d', k4, k5⟩, fun hh => absurd hQe hh⟩ k2
    · obtain ⟨fs, cs, rfl⟩ : ∃ fs cs, q = some (Q, fs, cs) := by
        rcases hq with ⟨-, hh⟩ | hh
        · exact absurd hh hQe
        · exact hh
      have hsh : shownSession w n topK (resultType t) (some (Q, fs, cs)) = (pivotSession w Q [] topK >>= fun sorted =>
          resultsSession w (resultType t) Q fs cs n >>= fun results =>
            (pure (.ranked sorted, results, Q.card) : Session (Listing σ × Results × Nat))) := by
        simp only [shownSession, hQe, if_false]
      rw [hsh] at hm
      have hno : w.corpus = none → resultsSession w (resultType t) Q fs cs n = lift (.ok .nothing) := by
        intro hno; unfold resultsSession; rw [hno]
      rcases hm with ⟨e, k1, k2⟩ | ⟨read, k1, k2⟩
      · rw [mixes_bind] at k1
        refine ⟨fun hh => (by rw [hh] at k2; cases k2), fun p hh => (by rw [hh] at k2; cases k2), fun hcorp => ?_⟩
        rcases k1 with ⟨e', k3, k4⟩ | ⟨sorted, -, k3⟩
        · cases k4
          rcases pivot_mixed hS w hw Q [] (by simp) topK hk _ k3 with ⟨k5, x, d1, d2, g1, g2, g3, g4⟩ | ⟨_, k5, -⟩
          · cases k5
            refine Or.inr ⟨k2, x, d1, d2, g1, g2, g3, Or.inr ?_⟩
            rcases g4 with g4 | g4
            · exact g4.2
            · simp at g4
          · cases k5
        · rw [hno hcorp] at k3
          change Except.error e = Except.ok _ at k3
          cases k3
      · rw [mixes_bind] at k1
        rcases k1 with ⟨e', -, k4⟩ | ⟨sorted, k3, k4⟩
        · cases k4
        · rw [mixes_bind] at k4
          rcases k4 with ⟨e', -, k5⟩ | ⟨res, -, k5⟩
          · cases k5
          · cases k5
            rcases pivot_mixed hS w hw Q [] (by simp) topK hk _ k3 with ⟨k5, -⟩ | ⟨out, k5, g1, g2, -⟩
            · cases k5
            · cases k5
              exact tail _ ⟨d, hd, Q, hQ, rfl, fun hh => absurd hh hQe, fun _ => ⟨sorted, rfl, g1, fun x hx => (g2 x hx).2⟩⟩ k2
  rcases h with ⟨e, k1, k2⟩ | ⟨q, k1, h⟩
  · cases f with
    | some x =>
      obtain ⟨d, hd, k1⟩ := k1
      cases k1
    | none =>
      cases c with
      | none => cases k1
      | some x =>
        simp only [indexQuerySession] at k1
        rw [mixes_try_bind] at k1
        refine ⟨fun hh => (by rw [hh] at k2; cases k2), fun p hh => (by rw [hh] at k2; cases k2), fun _ => ?_⟩
        rcases k1 with ⟨d, e', hd, g1, g2⟩ | ⟨d, D, hd, g1, g2⟩
        · rcases clusterDocs_cases (hS d hd) x with ⟨-, D, g3, -⟩ | ⟨g3, g4⟩
          · rw [g3] at g1; cases g1
          · rw [g4] at g1; cases g1; cases g2
            exact Or.inr ⟨k2, x, d, d, hd, hd, g3, Or.inl rfl⟩
        · rw [mixes_look_bind] at g2
          obtain ⟨d', -, g2⟩ := g2
          cases g2
  · refine rest q ?_ h
    cases f with
    | some x =>
      obtain ⟨d, hd, k1⟩ := k1
      cases k1
      exact ⟨d, hd, d.docsOf x, by simp, Or.inr ⟨_, _, rfl⟩⟩
    | none =>
      cases c with
      | none =>
        cases k1
        obtain ⟨d, hd⟩ := hP
        exact ⟨d, hd, ∅, by simp, Or.inl ⟨rfl, rfl⟩⟩
      | some x =>
        simp only [indexQuerySession] at k1
        rw [mixes_try_bind] at k1
        rcases k1 with ⟨d, e', hd, g1, g2⟩ | ⟨d, D, hd, g1, g2⟩
        · cases g2
        · rw [mixes_look_bind] at g2
          obtain ⟨d', -, g2⟩ := g2
          cases g2
          refine ⟨d, hd, D, ?_, Or.inr ⟨_, _, rfl⟩⟩
          rcases clusterDocs_cases (hS d hd) x with ⟨-, D', g3, g4⟩ | ⟨-, g4⟩
          · rw [g3] at g1; cases g1
            intro k; simp [g4]
          · rw [g4] at g1; cases g1

end

/-! ## Every alternation of edits and questions happens -/

theorem after_in {σ V ι : Type} (w : World σ V ι) (i : Nat) (t : Thread σ V ι) (h : t.conn.inTxn = true) :
    w.after i t false false = w.set i t := by
  unfold World.after; rw [if_pos h]; rfl

theorem after_out {σ V ι : Type} (w : World σ V ι) (i : Nat) (t : Thread σ V ι) (h : t.conn.inTxn = false) :
    w.after i t false false = { w.set i t with log := ⟨i, t.label, t.began, t.base, t.home, t.code, t.conn, w.count, false⟩ :: w.log } := by
  unfold World.after; rw [if_neg (by rw [h]; simp)]; rfl

theorem read_step {σ V ι : Type} {Allowed : ι → Code σ V → Prop} {s : σ} {w : World σ V ι} (h : Reachable Allowed s w) (i : Nat)
    (hl : w.lock ≠ some i) (t : Thread σ V ι) (ht : (w.threads i).look w = t) (p : Code σ V) (c : Conn σ)
    (hq : t.code.Quiet t.conn) (hn : t.code.next t.conn = some (p, c)) :
    Reachable Allowed s (w.after i ⟨c, p, t.label, t.began, t.base, t.home⟩ false false) := by
  subst ht
  exact .step h (.read w i p c hl hq hn)


theorem set_set {σ V ι : Type} (w : World σ V ι) (i : Nat) (t t' : Thread σ V ι) : (w.set i t).set i t' = w.set i t' := by
  simp [World.set]

theorem set_self {σ V ι : Type} (w : World σ V ι) (i : Nat) (t : Thread σ V ι) : (w.set i t).threads i = t := by
  simp [World.set]

/-- A question that finds its thread idle is answered with the current content, also while somebody writes. -/
theorem question_runs {db : DB} {w : World DB Ret Job} (h : Reachable Job.Runs db w) (i : Nat)
    (hl : w.lock ≠ some i) (hidle : (w.threads i).conn.inTxn = false) (hdone : ∃ r, (w.threads i).code = .done r) (name : String) :
    ∃ w' E, Reachable Job.Runs db w' ∧ w'.log = E :: w.log ∧ E.label = .query name readContent ∧ E.thread = i ∧
      E.began = w.count ∧ E.base = w.count ∧ E.ended = w.count ∧ E.published = false ∧ E.answer = .ok w.disk ∧
      w'.version = w.version ∧ w'.count = w.count ∧ w'.lock = w.lock ∧ (w'.threads i).conn.inTxn = false ∧
      (∃ r, (w'.threads i).code = .done r) ∧ ∀ j, j ≠ i → w'.threads j = w.threads j := by
  obtain ⟨r, hr⟩ := hdone
  have hc := free_calm h hidle
  generalize hc0 : ({ (w.threads i).conn with committed := w.disk, work := w.disk } : Conn DB) = c0 at hc
  obtain ⟨cm, wk, stk, bg, lv, ch, sn⟩ := c0
  obtain ⟨h1, h2, h3, h4, h5, h6⟩ := hc
  simp only at h1 h2 h3 h4 h5 h6
  subst h1 h2 h3 h4 h5 h6
  let p1 : Code DB Ret := callCode (some (DB.updateChanged none)) name false readContent
  let c0 : Conn DB := ⟨w.disk, w.disk, [], false, 0, false, sn⟩
  let c1 : Conn DB := ⟨w.disk, w.disk, [(name, w.disk)], false, 1, false, w.disk :: sn⟩
  let c2 : Conn DB := ⟨w.disk, w.disk, [(name, w.disk)], false, 1, false, w.disk :: w.disk :: sn⟩
  let c3 : Conn DB := ⟨w.disk, w.disk, [(name, w.disk)], false, 0, false, w.disk :: w.disk :: sn⟩
  let c4 : Conn DB := ⟨w.disk, w.disk, [], false, 0, false, w.disk :: w.disk :: w.disk :: sn⟩
  let p2 : Code DB Ret := compile (some (DB.updateChanged none)) readContent fun r =>
    exitCode (some (DB.updateChanged none)) name false r .done
  let p3 : Code DB Ret := exitCode (some (DB.updateChanged none)) name false (.ok (.db w.disk)) .done
  let p4 : Code DB Ret := .cmd (.release name) fun e => match e with
    | some e => .done (.error e)
    | none => .done (.ok (.db w.disk))
  let t (p : Code DB Ret) (c : Conn DB) : Thread DB Ret Job := ⟨c, p, .query name readContent, w.count, w.count, (p1, c0)⟩
  have r1 := Reachable.step h (Step.start w i (.query name readContent) p1
    ⟨readContent_readOnly, readContent_noCatch, _, _, faulted_refl _, rfl⟩ r hr hidle)
  have hlook : ∀ w' : World DB Ret Job, w'.disk = w.disk → w'.count = w.count →
      Thread.look w' (⟨(w.threads i).conn, p1, .query name readContent, w.count, (w.threads i).base, (w.threads i).home⟩) = t p1 c0 := by
    intro w' e1 e2
    unfold Thread.look
    rw [if_neg (by rw [hidle]; simp), e1, e2]
    show Thread.mk _ _ _ _ _ _ = _
    simp only [t, c0]
    rw [← hc0]
  have r2 := read_step r1 i hl (t p1 c0) (by rw [set_self]; exact hlook _ rfl rfl) p2 c1 trivial rfl
  rw [after_in _ _ _ rfl, set_set] at r2
  have r3 := read_step r2 i hl (t p2 c1) (by rw [set_self]; rfl) p3 c2 (fun s v e => by cases e; rfl) rfl
  rw [after_in _ _ _ rfl, set_set] at r3
  have r4 := read_step r3 i hl (t p3 c2) (by rw [set_self]; rfl) p4 c3 rfl rfl
  rw [after_in _ _ _ rfl, set_set] at r4
  have r5 := read_step r4 i hl (t p4 c3) (by rw [set_self]; rfl) (.done (.ok (.db w.disk))) c4 trivial (by
    show Code.next p4 c3 = some (.done (.ok (.db w.disk)), c4)
    simp [Code.next, p4, c3, c4, Cmd.exec, Conn.release, findSp, Conn.log])
  rw [after_out _ _ _ rfl, set_set] at r5
  refine ⟨_, _, r5, rfl, rfl, rfl, rfl, rfl, rfl, rfl, rfl, rfl, rfl, rfl, ?_, ?_, ?_⟩
  · show ((w.set i _).threads i).conn.inTxn = false
    rw [set_self]; rfl
  · show ∃ r, ((w.set i _).threads i).code = .done r
    rw [set_self]; exact ⟨_, rfl⟩
  · intro j hj
    simp [World.set, Function.update_of_ne hj]

theorem edit_then_questions {db : DB} (hdb : Settled db) (script : List (Option ModelOp))
    (hv : ∀ op, some op ∈ script → op.Valid) : ∀ w : World DB Ret Job, Reachable Job.Runs db w → Free w 1 → Free w 2 →
    ∃ w' es, Reachable Job.Runs db w' ∧ Questions w' es ∧ es.map (·.answer) = (found w.disk script).map .ok ∧
      es.Pairwise (fun E E' => E.ended ≤ E'.began) ∧ (∀ E ∈ es, w.count ≤ E.began ∧ E.thread = 1) ∧ ∀ E ∈ w.log, E ∈ w'.log := by
  induction script with
  | nil => exact fun w h _ _ => ⟨w, [], h, ⟨by simp, by simp⟩, rfl, by simp, by simp, fun E hE => hE⟩
  | cons e script ih =>
    intro w h h1 h2
    obtain ⟨w1, r1, d1, hc1, f1, f2, l1⟩ : ∃ w1, Reachable Job.Runs db w1 ∧ w1.disk = afterEdit w.disk e ∧ w.count ≤ w1.count ∧
        Free w1 1 ∧ Free w1 2 ∧ ∀ E ∈ w.log, E ∈ w1.log := by
      cases e with
      | none => exact ⟨w, h, rfl, le_refl _, h1, h2, fun E hE => hE⟩
      | some op =>
        obtain ⟨w1, E, a1, a2, a3, a4, a5, a6, a7, a8⟩ := concurrent_edit_runs hdb h 2 h2 op (hv op (by simp))
        have hcount : w.count ≤ w1.count := by
          have hE := (concurrent_serial a1).2.2 E (by rw [a2]; simp)
          have hlog : (w1.log.filter (·.published)).length = w1.count := by
            have := congrArg List.length (concurrent_serial a1).2.1
            simpa using this
          have hlog' : (w.log.filter (·.published)).length = w.count := by
            have := congrArg List.length (concurrent_serial h).2.1
            simpa using this
          rw [a2, List.filter_cons] at hlog
          split at hlog
          · rw [List.length_cons] at hlog; omega
          · omega
        refine ⟨w1, a1, a6, hcount, ⟨a7.nobody, ?_, ?_⟩, a7, fun E' hE' => by rw [a2]; simp [hE']⟩
        · rw [a8 1 (by decide)]; exact h1.idle
        · rw [a8 1 (by decide)]; exact h1.done
    obtain ⟨w2, E, b1, b2, b3, b4, b5, b6, b7, -, b9, b10, b11, b12, b13, b14, b15⟩ := question_runs r1 1
      (by rw [f1.nobody]; simp) f1.idle f1.done "q"
    have hd2 : w2.disk = w1.disk := by unfold World.disk; rw [b10, b11]
    obtain ⟨w3, es, c1, c2, c3, c4, c5, c6⟩ := ih (fun op hop => hv op (by simp [hop])) w2 b1
      ⟨by rw [b12]; exact f1.nobody, b13, b14⟩
      ⟨by rw [b12]; exact f1.nobody, by rw [b15 2 (by decide)]; exact f2.idle, by rw [b15 2 (by decide)]; exact f2.done⟩
    refine ⟨w3, E :: es, c1, ⟨?_, ?_⟩, ?_, ?_, ?_, ?_⟩
    · intro x hx
      rcases List.mem_cons.1 hx with rfl | hx
      · exact c6 _ (by rw [b2]; simp)
      · exact c2.happened x hx
    · intro x hx
      rcases List.mem_cons.1 hx with rfl | hx
      · exact ⟨"q", b3⟩
      · exact c2.reads x hx
    · rw [List.map_cons, b9, c3, hd2, d1]; rfl
    · refine List.pairwise_cons.2 ⟨fun x hx => ?_, c4⟩
      have := (c5 x hx).1
      omega
    · intro x hx
      rcases List.mem_cons.1 hx with rfl | hx
      · exact ⟨by omega, b4⟩
      · have := c5 x hx
        exact ⟨by omega, this.2⟩
    · intro x hx
      exact c6 x (by rw [b2]; simp [l1 x hx])

/-- **C70.** Every alternation of edits by one thread and questions by another one is a possible history: each question is
answered with the content the edits before it made. -/
theorem questions_happen {db : DB} (hdb : Settled db) (script : List (Option ModelOp)) (hv : ∀ op, some op ∈ script → op.Valid) :
    ∃ w es, Reachable Job.Runs db w ∧ Questions w es ∧ es.map (·.answer) = (found db script).map .ok ∧
      es.Pairwise (fun E E' => E.ended ≤ E'.began) ∧ ∀ E ∈ es, E.thread = 1 := by
  have r0 : Reachable Job.Runs db (World.initial db (.edit (.deleteClusters [])) (.ok .none)) := .init _ _
  obtain ⟨w, es, h1, h2, h3, h4, h5, -⟩ := edit_then_questions hdb script hv _ r0 (free_initial ..) (free_initial ..)
  exact ⟨w, es, h1, h2, h3, h4, fun E hE => (h5 E hE).2⟩

/-- **C70.** Not always an answer of one content: when somebody deletes the cluster after the view has listed the clusters, the
view fails with an `IndexError`; on the content before it shows a page, on the one after it answers 404. -/
theorem cluster_page_disturbed : ∃ (w : World DB Ret Job) (es : List (Entry DB Ret Job)) (before after : DB),
    Reachable Job.Runs queryDb w ∧ Answered w (clusterPageSession { demoWeb with corpus := none } 1 none none 5 none) es (.error .indexError) ∧
    (∀ E ∈ es, E.answer = .ok before ∨ E.answer = .ok after) ∧
    (∃ p, clusterPage { demoWeb with corpus := none, db := before } 1 none none 5 none = .ok p) ∧
    clusterPage { demoWeb with corpus := none, db := after } 1 none none 5 none = .error (.http 404) := by
  obtain ⟨w, es, h1, h2, h3, h4, -⟩ := questions_happen queryDb_settled
    [none, none, some (.deleteClusters [1])] (by simp [ModelOp.Valid])
  refine ⟨w, es, queryDb, afterEdit queryDb (some (.deleteClusters [1])), h1, ⟨h2, ?_⟩, ?_, ?_, ?_⟩
  · rw [h3]
    have h : (match (clusterPageSession { demoWeb with corpus := none } 1 none none 5 none).on
          ((found queryDb [none, none, some (.deleteClusters [1])]).map .ok) with
        | some (.error .indexError) => true
        | _ => false) = true := by decide +kernel
    split at h
    · assumption
    · cases h
  · intro E hE
    have : E.answer ∈ (found queryDb [none, none, some (.deleteClusters [1])]).map .ok := by
      rw [← h3]; exact List.mem_map.2 ⟨E, hE, rfl⟩
    simpa [found, afterEdit] using this
  · have h : (match clusterPage { demoWeb with corpus := none, db := queryDb } 1 none none 5 none with
        | .ok _ => true
        | _ => false) = true := by decide +kernel
    split at h
    · exact ⟨_, by assumption⟩
    · cases h
  · apply cluster_page_unknown
    show ¬ hasCluster (afterEdit queryDb (some (.deleteClusters [1]))) 1
    have h : ((afterEdit queryDb (some (.deleteClusters [1]))).clusters.all (fun k => decide (k.cid ≠ 1))) = true := by decide +kernel
    rintro ⟨k, hk, h1⟩
    have := List.all_eq_true.1 h k hk
    simp [h1] at this

/-- **C70.** The same for the pivot of all clusters: it fails when clusters are merged between its two stages, though it
succeeds on the content before and on the one after. -/
theorem pivot_disturbed : ∃ (w : World DB Ret Job) (es : List (Entry DB Ret Job)) (before after : DB),
    Reachable Job.Runs queryDb w ∧ Answered w (pivotSession demoWeb {0, 1, 2} [] 5) es (.error .indexError) ∧
    (∀ E ∈ es, E.answer = .ok before ∨ E.answer = .ok after) ∧
    (∃ out, Session.alone before (pivotSession demoWeb {0, 1, 2} [] 5) = .ok out) ∧
    ∃ out, Session.alone after (pivotSession demoWeb {0, 1, 2} [] 5) = .ok out := by
  obtain ⟨w, es, h1, h2, h3, h4, -⟩ := questions_happen queryDb_settled
    [none, none, none, none, none, none, some (.merge [1, 2, 3])] (by simp [ModelOp.Valid])
  refine ⟨w, es, queryDb, afterEdit queryDb (some (.merge [1, 2, 3])), h1, ⟨h2, ?_⟩, ?_, ?_, ?_⟩
  · rw [h3]
    have h : (match (pivotSession demoWeb {0, 1, 2} [] 5).on
          ((found queryDb [none, none, none, none, none, none, some (.merge [1, 2, 3])]).map .ok) with
        | some (.error .indexError) => true
        | _ => false) = true := by decide +kernel
    split at h
    · assumption
    · cases h
  · intro E hE
    have : E.answer ∈ (found queryDb [none, none, none, none, none, none, some (.merge [1, 2, 3])]).map .ok := by
      rw [← h3]; exact List.mem_map.2 ⟨E, hE, rfl⟩
    simpa [found, afterEdit] using this
  · have h : (match Session.alone queryDb (pivotSession demoWeb {0, 1, 2} [] 5) with
        | .ok _ => true
        | _ => false) = true := by decide +kernel
    split at h
    · exact ⟨_, by assumption⟩
    · cases h
  · have h : (match Session.alone (afterEdit queryDb (some (.merge [1, 2, 3]))) (pivotSession demoWeb {0, 1, 2} [] 5) with
        | .ok _ => true
        | _ => false) = true := by decide +kernel
    split at h
    · exact ⟨_, by assumption⟩
    · cases h

/-- The hypotheses are met: a page with parts from two contents at rest. -/
example : ∃ (P : DB → Prop) (p : ClusterPage Rat), (∀ d, P d → Settled d) ∧ P queryDb ∧ P (afterEdit queryDb (some (.pinClusters [1] true))) ∧
    queryDb ≠ afterEdit queryDb (some (.pinClusters [1] true)) ∧
    Mixes P (clusterPageSession { demoWeb with corpus := none } 1 none none 5 none) (.ok p) ∧ p.pinned = true := by
  have hset : Settled (afterEdit queryDb (some (.pinClusters [1] true))) := by
    rcases pending_repaired (.pinClusters [1] true) trivial (Conn.fresh queryDb) queryDb ⟨rfl, rfl, rfl, rfl, rfl, rfl⟩
      (DB.Settled.toPending queryDb_settled) with ⟨_, -, h, -⟩ | ⟨e, -, h⟩
    · exact h
    · show Settled (ModelOp.exec _ _ _).1.committed
      rw [h]; exact queryDb_settled
  let ds := List.replicate 9 queryDb ++ [afterEdit queryDb (some (.pinClusters [1] true))]
  have h : (match (clusterPageSession { demoWeb with corpus := none } 1 none none 5 none).on (ds.map .ok) with
      | some (.ok p) => p.pinned
      | _ => false) = true := by decide +kernel
  split at h
  · rename_i p hp
    refine ⟨fun d => d = queryDb ∨ d = afterEdit queryDb (some (.pinClusters [1] true)), p, ?_, Or.inl rfl, Or.inr rfl, ?_, ?_, h⟩
    · rintro d (rfl | rfl)
      · exact queryDb_settled
      · exact hset
    · intro e
      have h1 : (queryDb.clusters.any (·.pinned)) = false := by decide +kernel
      have h2 : ((afterEdit queryDb (some (.pinClusters [1] true))).clusters.any (·.pinned)) = true := by decide +kernel
      rw [← e, h1] at h2; cases h2
    · exact mixes_of_on _ ds _ (by simp [ds]) _ hp
  · cases h

end Hyperreal.Props
