import Verif.Lemmas.ConcurrentJobs
import Verif.Lemmas.ConcurrentRun
import Verif.Lemmas.Reindexed
import Verif.Props.Store
import Verif.Props.Indexing

/-!
# C61: several connections on one file

For every number of threads, every interleaving of their commands, every refusal of a command by SQLite and every death
of a thread.
-/

namespace Hyperreal.Props
open Spec Atomic Concurrent

section Generic
variable {σ V ι : Type} {Allowed : ι → Code σ V → Prop}

/-- Nothing is assumed of the code. -/
theorem any_regime (Allowed : ι → Code σ V → Prop) : Regime Allowed (fun _ _ _ => True) :=
  ⟨fun _ _ _ _ _ _ _ _ => trivial, fun _ _ _ _ _ _ => trivial, fun _ _ _ _ _ _ _ => trivial, fun _ _ _ => trivial⟩

/-- **C61.** Whatever the threads do, their transactions are as if run one after another: each transaction ran alone on
one committed content (`version base`), current at some moment between its start and its end; the transactions that
changed the content did so one after another, each on the content its predecessor left, and nothing else was committed
while they ran; the others left everything as it was.  The first content is the initial one. -/
theorem concurrent_serial {s : σ} {w : World σ V ι} (h : Reachable Allowed s w) :
    w.version 0 = s ∧ (w.log.filter (·.published)).map (·.base) = (List.range w.count).reverse ∧
    ∀ E ∈ w.log, E.began ≤ E.base ∧ E.base ≤ E.ended ∧ E.ended ≤ w.count ∧
      E.home.2.inTxn = false ∧ E.home.2.committed = w.version E.base ∧ E.home.2.work = w.version E.base ∧
      aloneTxn E.home.1 E.home.2 = (E.code, E.conn) ∧ E.conn.inTxn = false ∧ E.conn.committed = E.result w ∧
      (E.published = true → E.base = E.ended) := by
  have hok := reachable_ok (any_regime Allowed) h
  refine ⟨version_zero h, hok.writers, fun E hE => ?_⟩
  have hE := hok.log E hE
  refine ⟨hE.began, hE.base, hE.ended, hE.homeIdle, hE.homeCommitted, hE.homeWork, hE.txn, hE.over, ?_,
    fun e => (hE.published e).1⟩
  cases hp : E.published with
  | true => simp only [Entry.result, hp, if_true]; exact ((hE.published hp).2.2).symm
  | false => simp only [Entry.result, hp, Bool.false_eq_true, if_false]; exact hE.unpublished hp

/-- **C61.** Committed contents are never rewritten: a step adds at most one, and only after the others. -/
theorem concurrent_durable {w w' : World σ V ι} (hs : Concurrent.Step Allowed w w') :
    w.count ≤ w'.count ∧ ∀ k, k ≤ w.count → w'.version k = w.version k := step_version hs

/-- **C61.** At any moment at most one connection has uncommitted changes, and nothing has been committed since its
transaction started. -/
theorem concurrent_one_writer {s : σ} {w : World σ V ι} (h : Reachable Allowed s w) (i j : Nat)
    (hi : (w.threads i).conn.inTxn = true ∧ (w.threads i).conn.work ≠ (w.threads i).conn.committed)
    (hj : (w.threads j).conn.inTxn = true ∧ (w.threads j).conn.work ≠ (w.threads j).conn.committed) :
    i = j ∧ (w.threads i).conn.committed = w.disk := by
  have hok := reachable_ok (any_regime Allowed) h
  have key : ∀ i, (w.threads i).conn.inTxn = true → (w.threads i).conn.work ≠ (w.threads i).conn.committed →
      w.lock = some i := by
    intro i h1 h2
    have hC := (hok.threads i).inside h1
    by_contra hl
    have hp := hC.free hl
    exact h2 (hp.work.trans hp.committed.symm)
  have h1 := key i hi.1 hi.2
  have h2 := key j hj.1 hj.2
  refine ⟨Option.some.inj (h1.symm.trans h2), ?_⟩
  have hC := (hok.threads i).inside hi.1
  rw [hC.committed, hC.held h1, World.disk]

/-- **C61.** Each transaction is the first one of its call, or continues where an earlier transaction of the same call
of the same thread ended. -/
theorem concurrent_calls {s : σ} {w : World σ V ι} (h : Reachable Allowed s w) (E : Entry σ V ι) (hE : E ∈ w.log) :
    Allowed E.label E.home.1 ∨ ∃ E' ∈ w.log, E'.thread = E.thread ∧ E'.label = E.label ∧ E'.began = E.began ∧
      E'.code = E.home.1 ∧ E'.ended ≤ E.base ∧ (E'.published = true → E'.ended < E.base) := by
  rcases (reachable_chain h).log E hE with h1 | ⟨r, h1⟩ | h1
  · exact Or.inl h1
  · exact absurd h1 (((reachable_ok (any_regime Allowed) h).log E hE).busy r)
  · exact Or.inr h1

end Generic

/-! ## The library's calls -/

theorem entry_idle {w : World DB Ret Job} {E : Entry DB Ret Job} (hE : EntryOk Ready w E) :
    Idle E.home.2 (w.version E.base) := hE.homeReady.1.idle hE.homeCommitted hE.homeWork

theorem entry_result {w : World DB Ret Job} {E : Entry DB Ret Job} (hE : EntryOk Ready w E) :
    E.result w = E.conn.committed := by
  cases hp : E.published with
  | true => simp only [Entry.result, hp, if_true]; exact (hE.published hp).2.2
  | false => simp only [Entry.result, hp, Bool.false_eq_true, if_false]; exact (hE.unpublished hp).symm

/-- What a finished transaction of `index` did. -/
inductive IndexTxn (corpus : Corpus) (content : Val → Features) (old new : DB) (code : Code DB Ret) : Prop where
  | failed (e : Err) (h : code = .done (.error e)) (same : new = old)
  | first (notDone : ∀ v, code ≠ .done (.ok v)) (index : IsIndexOf corpus content new) (keeps : Reindexed old new)
  | second (h : code = .done (.ok .none)) (settled : Settled new) (features : new.features = old.features)
      (model : new.fc = old.fc) (docKeys : new.docKeys = old.docKeys) (posDocMap : new.posDocMap = old.posDocMap)
      (posIndex : new.posIndex = old.posIndex) (fieldSummary : new.fieldSummary = old.fieldSummary)

theorem entry_cases {w : World DB Ret Job} {E : Entry DB Ret Job} (hE : EntryOk Ready w E)
    (hp : Pending (w.version E.base)) :
    Pending (E.result w) ∧ (Settled (w.version E.base) → Settled (E.result w) ∨
      (∃ corpus content cfg, E.label = .reindex corpus content cfg) ∧ ∀ r, E.code ≠ .done (.ok r)) ∧
    match E.label with
    | .edit op => ∃ r, E.code = .done r ∧
        ((∃ e, r = .error e ∧ E.result w = w.version E.base) ∨
          ∃ v, r = .ok v ∧ (op.exec none (Conn.fresh (w.version E.base))).2 = .ok v ∧
            (op.exec none (Conn.fresh (w.version E.base))).1.committed = E.result w ∧ Settled (E.result w) ∧
            (E.result w).features = (w.version E.base).features)
    | .query _ body => ∃ r, E.code = .done r ∧ E.result w = w.version E.base ∧
        (r = .error .operational ∨ r = (eval body (w.version E.base)).2)
    | .reindex corpus content _ => IndexTxn corpus content (w.version E.base) (E.result w) E.code := by
  have hidle := entry_idle hE
  have htx := hE.txn
  have hover := hE.over
  have h1 : (aloneTxn E.home.1 E.home.2).1 = E.code := by rw [htx]
  have h2 : (aloneTxn E.home.1 E.home.2).2 = E.conn := by rw [htx]
  have hres := entry_result hE
  rcases hE.homeReady.2 with ⟨r, hr⟩ | hr | ⟨corpus, content, cfg, s, hl, hs, hf, hr⟩
  · exact absurd hr (hE.busy r)
  · cases hlab : E.label with
    | edit op =>
      rw [hlab] at hr
      obtain ⟨r, e1, e2⟩ := edit_txn hr hidle hp
      rw [h1] at e1
      rw [h2] at e2
      have e3 := e2 hover
      rw [← hres] at e3
      refine ⟨?_, ?_, r, e1, e3⟩
      · rcases e3 with ⟨e, -, g⟩ | ⟨v, -, -, -, g, -⟩
        · rw [g]; exact hp
        · exact DB.Settled.toPending g
      · intro hs
        rcases e3 with ⟨e, -, g⟩ | ⟨v, -, -, -, g, -⟩
        · rw [g]; exact Or.inl hs
        · exact Or.inl g
    | query name body =>
      rw [hlab] at hr
      obtain ⟨r, e1, e2, e3⟩ := query_txn hr hidle
      rw [h1] at e1
      rw [h2] at e2
      have e4 : E.result w = w.version E.base := hres.trans e2.committed
      exact ⟨by rw [e4]; exact hp, fun hs => Or.inl (by rw [e4]; exact hs), r, e1, e4, e3⟩
    | reindex corpus content cfg =>
      rw [hlab] at hr
      rcases first_txn hr hidle hp with hF | ⟨s, hf, e1, e2, hi⟩
      · obtain ⟨⟨e, he⟩, hc⟩ := hF
        rw [h1] at he
        rw [h2] at hc
        have e4 : E.result w = w.version E.base := hres.trans (hc hover).2.2.2.2
        exact ⟨by rw [e4]; exact hp, fun hs => Or.inl (by rw [e4]; exact hs), .failed e he e4⟩
      · rw [h1] at e1
        rw [h2, ← hres] at e2
        have hne : ∀ v, E.code ≠ .done (.ok v) := by intro v; rw [e1]; exact secondCode_ne _ _ _ v
        refine ⟨?_, fun _ => Or.inr ⟨⟨_, _, _, rfl⟩, hne⟩, .first hne ?_ ?_⟩
        · rw [e2]; exact reindexed_pending hr.1 hi hf hp.toWellformed
        · rw [e2]; exact reindexed_isIndex hr.1 hi hf hp.toWellformed
        · rw [e2]; exact reindexed_preserves hp.toWellformed
  · rw [hl]
    rcases aloneTxn_second corpus cfg s E.home.2 _ hidle with hF | ⟨f, c', g1, g2, g3⟩
    · rw [← hr] at hF
      obtain ⟨⟨e, he⟩, hc⟩ := hF
      rw [h1] at he
      rw [h2] at hc
      have e4 : E.result w = w.version E.base := hres.trans (hc hover).2.2.2.2
      exact ⟨by rw [e4]; exact hp, fun hs => Or.inl (by rw [e4]; exact hs), .failed e he e4⟩
    · rw [← hr, htx] at g3
      simp only [Prod.mk.injEq] at g3
      obtain ⟨g3, rfl⟩ := g3
      have e4 : E.result w = f := hres.trans g2.committed
      obtain ⟨db', k1, k2, k3, k4, ⟨k5, k6, k7, k8⟩, -⟩ := DB.updateChanged_spec hp (committed := w.version E.base) rfl
      rw [g1] at k1
      simp only [Prod.mk.injEq, and_true] at k1
      subst k1
      rw [e4]
      exact ⟨DB.Settled.toPending k2, fun _ => Or.inl k2, .second g3 k2 k3 k4 k5 k6 k7 k8⟩

/-- The transaction that published a content. -/
theorem publisher {w : World DB Ret Job} (hw : WorldOk Ready w) (k : Nat) (hk : k < w.count) :
    ∃ E ∈ w.log, E.published = true ∧ E.base = k ∧ E.result w = w.version (k + 1) := by
  have hm : k ∈ (w.log.filter (·.published)).map (·.base) := by
    rw [hw.writers]; simpa using hk
  obtain ⟨E, hE, rfl⟩ := List.mem_map.1 hm
  obtain ⟨h1, h2⟩ := List.mem_filter.1 hE
  exact ⟨E, h1, h2, rfl, by simp [Entry.result, h2]⟩

theorem versions_pending {db : DB} (hdb : Pending db) {w : World DB Ret Job} (h : Reachable Job.Runs db w) :
    ∀ k, k ≤ w.count → Pending (w.version k) := by
  have hok := reachable_ok ready_regime h
  intro k
  induction k with
  | zero => intro _; rw [version_zero h]; exact hdb
  | succ k ih =>
    intro hk
    obtain ⟨E, hE, hp, hb, hr⟩ := publisher hok k (by omega)
    rw [← hr]
    exact (entry_cases (hok.log E hE) (by rw [hb]; exact ih (by omega))).1

/-- **C61.** An edit of the model that returned did exactly what it does when nobody else uses the file, on the content
that was current when it ran; an edit that raised (because SQLite refused a command, say) changed nothing. -/
theorem concurrent_edit {db : DB} (hdb : Settled db) {w : World DB Ret Job} (h : Reachable Job.Runs db w)
    (E : Entry DB Ret Job) (hE : E ∈ w.log) (op : ModelOp) (hl : E.label = .edit op) :
    ∃ r, E.code = .done r ∧
      ((∃ e, r = .error e ∧ E.result w = w.version E.base) ∨
        ∃ v, r = .ok v ∧ (op.exec none (Conn.fresh (w.version E.base))).2 = .ok v ∧
          (op.exec none (Conn.fresh (w.version E.base))).1.committed = E.result w ∧ Settled (E.result w) ∧
          (E.result w).features = (w.version E.base).features) := by
  have hok := (reachable_ok ready_regime h).log E hE
  have := (entry_cases hok (versions_pending (DB.Settled.toPending hdb) h _ (hok.base.trans hok.ended))).2.2
  rw [hl] at this
  exact this

/-- **C61.** A query answers from one committed content, the one it answers from when nobody else uses the file; it
changes nothing. -/
theorem concurrent_query {db : DB} (hdb : Settled db) {w : World DB Ret Job} (h : Reachable Job.Runs db w)
    (E : Entry DB Ret Job) (hE : E ∈ w.log) (name : String) (body : Method) (hl : E.label = .query name body) :
    ∃ r, E.code = .done r ∧ E.result w = w.version E.base ∧
      (r = .error .operational ∨ r = (eval body (w.version E.base)).2) := by
  have hok := (reachable_ok ready_regime h).log E hE
  have := (entry_cases hok (versions_pending (DB.Settled.toPending hdb) h _ (hok.base.trans hok.ended))).2.2
  rw [hl] at this
  exact this

/-- **C61.** A transaction of `index` that fails changes nothing; the first one that does not fail leaves the complete
index of the corpus with the model kept; the second one leaves everything settled. -/
theorem concurrent_reindex {db : DB} (hdb : Settled db) {w : World DB Ret Job} (h : Reachable Job.Runs db w)
    (E : Entry DB Ret Job) (hE : E ∈ w.log) (corpus : Corpus) (content : Val → Features) (cfg : IndexCfg)
    (hl : E.label = .reindex corpus content cfg) :
    IndexTxn corpus content (w.version E.base) (E.result w) E.code := by
  have hok := (reachable_ok ready_regime h).log E hE
  have := (entry_cases hok (versions_pending (DB.Settled.toPending hdb) h _ (hok.base.trans hok.ended))).2.2
  rw [hl] at this
  exact this

/-- **C61.** When `index` returned, some content committed during the call was the complete index of the corpus, and the
content it left at the end is settled. -/
theorem concurrent_reindex_returns {db : DB} (hdb : Settled db) {w : World DB Ret Job} (h : Reachable Job.Runs db w)
    (E : Entry DB Ret Job) (hE : E ∈ w.log) (corpus : Corpus) (content : Val → Features) (cfg : IndexCfg)
    (hl : E.label = .reindex corpus content cfg) (v : Ret) (hr : E.code = .done (.ok v)) :
    Settled (E.result w) ∧ ∃ k, E.began ≤ k ∧ k ≤ E.base ∧ IsIndexOf corpus content (w.version k) ∧
      ∃ j, E.began ≤ j ∧ j ≤ k ∧ Reindexed (w.version j) (w.version k) := by
  have hok := reachable_ok ready_regime h
  have hEok := hok.log E hE
  have hpend := versions_pending (DB.Settled.toPending hdb) h _ (hEok.base.trans hEok.ended)
  have hset : Settled (E.result w) := by
    cases concurrent_reindex hdb h E hE corpus content cfg hl with
    | failed e h1 => rw [hr] at h1; cases h1
    | first h1 => exact absurd hr (h1 v)
    | second h1 h2 => exact h2
  refine ⟨hset, ?_⟩
  rcases concurrent_calls h E hE with h1 | ⟨E', hE', h1, h2, h3, h4, h5, h6⟩
  · rw [hl] at h1
    exfalso
    have hc : (aloneTxn E.home.1 E.home.2).1 = E.code := by rw [hEok.txn]
    rcases first_txn h1 (entry_idle hEok) hpend with hF | ⟨s, -, e1, -, -⟩
    · obtain ⟨⟨e, he⟩, -⟩ := hF
      rw [hc, hr] at he; cases he
    · rw [hc, hr] at e1
      exact secondCode_ne _ _ _ _ e1.symm
  · have hE'ok := hok.log E' hE'
    have hb' := hE'ok.base
    have hg' := hE'ok.began
    have hk : E'.base + (if E'.published then 1 else 0) ≤ E.base := by
      cases hp : E'.published with
      | true => have := h6 hp; simp; omega
      | false => simp; omega
    have hres : E'.result w = w.version (E'.base + (if E'.published then 1 else 0)) := by
      cases hp : E'.published <;> simp [Entry.result, hp]
    have hb2 : E.base ≤ w.count := hEok.base.trans hEok.ended
    cases concurrent_reindex hdb h E' hE' corpus content cfg (h2.trans hl) with
    | failed e g1 => exact absurd (h4.symm.trans g1) (hEok.busy _)
    | first g1 g2 g3 =>
      rw [hres] at g2 g3
      exact ⟨_, by rw [← h3]; omega, hk, g2, E'.base, by rw [← h3]; exact hg', by omega, g3⟩
    | second g1 => exact absurd (h4.symm.trans g1) (hEok.busy _)

/-- **C61.** Every committed content has its references in order, and is settled unless the last change was the first
transaction of an `index` call whose second one has not (or not yet) taken place.  So without `index` calls every
committed content is settled. -/
theorem concurrent_settled {db : DB} (hdb : Settled db) {w : World DB Ret Job} (h : Reachable Job.Runs db w) (k : Nat)
    (hk : k ≤ w.count) :
    Pending (w.version k) ∧ (Settled (w.version k) ∨ ∃ E ∈ w.log, E.published = true ∧ E.base < k ∧
      w.version (E.base + 1) = w.version k ∧ (∃ corpus content cfg, E.label = .reindex corpus content cfg) ∧
      ∀ r, E.code ≠ .done (.ok r)) := by
  refine ⟨versions_pending (DB.Settled.toPending hdb) h k hk, ?_⟩
  have hok := reachable_ok ready_regime h
  induction k with
  | zero => left; rw [version_zero h]; exact hdb
  | succ k ih =>
    obtain ⟨E, hE, hp, hb, hr⟩ := publisher hok k (by omega)
    have hpend : Pending (w.version E.base) := by
      rw [hb]; exact versions_pending (DB.Settled.toPending hdb) h k (by omega)
    obtain ⟨-, c2, c3⟩ := entry_cases (hok.log E hE) hpend
    rw [hb] at c2 c3
    rcases ih (by omega) with hs | ⟨E', hE', g1, g2, g3, g4, g5⟩
    · rcases c2 hs with h1 | ⟨h1, h2⟩
      · left; rw [← hr]; exact h1
      · right; exact ⟨E, hE, hp, by omega, by rw [hb], h1, h2⟩
    · have same : E.result w = w.version k → Settled (w.version (k + 1)) ∨ ∃ E ∈ w.log, E.published = true ∧
          E.base < k + 1 ∧ w.version (E.base + 1) = w.version (k + 1) ∧
          (∃ corpus content cfg, E.label = .reindex corpus content cfg) ∧ ∀ r, E.code ≠ .done (.ok r) := by
        intro e
        right
        exact ⟨E', hE', g1, by omega, by rw [g3, ← hr, e], g4, g5⟩
      cases hlab : E.label with
      | edit op =>
        rw [hlab] at c3
        obtain ⟨r, -, ⟨e, -, c⟩ | ⟨v, -, -, -, c, -⟩⟩ := c3
        · exact same c
        · left; rw [← hr]; exact c
      | query name body =>
        rw [hlab] at c3
        obtain ⟨r, -, c, -⟩ := c3
        exact same c
      | reindex corpus content cfg =>
        rw [hlab] at c3
        cases c3 with
        | failed e _ c => exact same c
        | first c _ _ => right; exact ⟨E, hE, hp, by omega, by rw [hb], ⟨_, _, _, hlab⟩, c⟩
        | second _ c => left; rw [← hr]; exact c

/-! ## Nobody in the way -/

/-- A thread with nothing to do, when nobody is writing. -/
structure Free (w : World DB Ret Job) (i : Nat) : Prop where
  nobody : w.lock = none
  idle : (w.threads i).conn.inTxn = false
  done : ∃ r, (w.threads i).code = .done r

theorem idle_runs (op : ModelOp) (hv : op.Valid) (c : Conn DB) (db : DB) (hc : Idle c db) (hp : Pending db) :
    (op.exec none c).1.inTxn = false := by
  rcases method_cases op hv hp with ⟨d, v, he, hP, hf, ht⟩ | ⟨d, e, he, ht, hx⟩
  · obtain ⟨n, seen', rfl, h⟩ := callMethod_top (DB.updateChanged none) op.method.1 op.method.2.1 op.method.2.2 c db hc _ _ he
    simp only [endHk, endChanged, ht, if_true, endContent] at h
    obtain ⟨db', h1, h2, h3, -⟩ := DB.updateChanged_spec hP (show db.features = d.features from hf.symm)
    rw [h1] at h
    simp only [ModelOp.exec]
    rw [h]; rfl
  · obtain ⟨n, seen', rfl, h⟩ := callMethod_top (DB.updateChanged none) op.method.1 op.method.2.1 op.method.2.2 c db hc _ _ he
    simp only [endHk, endChanged, ht, Bool.false_eq_true, if_false] at h
    simp only [ModelOp.exec]
    rw [h]; rfl

theorem faulted_refl {σ V : Type} (p : Prog σ V) : Faulted p p := by
  induction p with
  | ret r => exact .ret r
  | stmt f k ih => exact .stmt f k k ih
  | call n w b k ihb ihk => exact .call n w b b k k ihb ihk

theorem done_of_pair {p : Code DB Ret} {c : Conn DB} {E : Entry DB Ret Job} (h : (E.code, E.conn) = aloneTxn p c) :
    E.code = (aloneTxn p c).1 ∧ E.conn = (aloneTxn p c).2 := by
  rw [← h]; exact ⟨rfl, rfl⟩

theorem free_calm {db : DB} {w : World DB Ret Job} (h : Reachable Job.Runs db w) {i : Nat}
    (hi : (w.threads i).conn.inTxn = false) :
    Idle { (w.threads i).conn with committed := w.disk, work := w.disk } w.disk := by
  have hc := ((reachable_ok ready_regime h).threads i).outside hi
  have := hc.2.2.1
  exact ⟨rfl, rfl, this.stack, this.begun, this.level, this.changed⟩

/-- **C61.** An edit of the model by a thread that finds nobody writing can run, with the result it has alone. -/
theorem concurrent_edit_runs {db : DB} (hdb : Settled db) {w : World DB Ret Job} (h : Reachable Job.Runs db w) (i : Nat)
    (hi : Free w i) (op : ModelOp) (hv : op.Valid) :
    ∃ w' E, Reachable Job.Runs db w' ∧ w'.log = E :: w.log ∧ E.label = .edit op ∧ E.thread = i ∧
      E.code = .done (op.exec none (Conn.fresh w.disk)).2 ∧
      w'.disk = (op.exec none (Conn.fresh w.disk)).1.committed ∧ Free w' i ∧ ∀ j, j ≠ i → w'.threads j = w.threads j := by
  obtain ⟨r, hr⟩ := hi.done
  have hidle := free_calm h hi.idle
  have hpend : Pending w.disk := versions_pending (DB.Settled.toPending hdb) h _ (le_refl _)
  have hal := aloneTxn_call (some (DB.updateChanged none)) op.method.1 op.method.2.1 op.method.2.2 _ hidle.level
  have hin := idle_runs op hv _ _ hidle hpend
  simp only [ModelOp.exec] at hin
  obtain ⟨w', E, g1, g2, g3, g4, g5, g6, g7, g8, g9, g10, g11, g12, g13, g14, g15, g16⟩ := run_call h i (.edit op)
    (callCode (some (DB.updateChanged none)) op.method.1 op.method.2.1 op.method.2.2)
    ⟨hv, _, _, faulted_refl _, Or.inr ⟨none, rfl⟩, rfl⟩ (fun r => by simp [callCode, compile]) hi.idle r hr hi.nobody
    (by rw [hal]; exact hin)
  have hcode := (done_of_pair g6).1
  have hconn := (done_of_pair g6).2
  rw [hal] at hcode hconn
  simp only [Option.getD_some] at hcode hconn
  have hfr : Idle (Conn.fresh w.disk) w.disk := ⟨rfl, rfl, rfl, rfl, rfl, rfl⟩
  obtain ⟨n, seen', -, k1⟩ := callMethod_top (DB.updateChanged none) op.method.1 op.method.2.1 op.method.2.2 _ w.disk
    hidle (eval op.method.2.2 w.disk).1 (eval op.method.2.2 w.disk).2 rfl
  obtain ⟨n', seen'', -, k2⟩ := callMethod_top (DB.updateChanged none) op.method.1 op.method.2.1 op.method.2.2
    (Conn.fresh w.disk) w.disk hfr (eval op.method.2.2 w.disk).1 (eval op.method.2.2 w.disk).2 rfl
  have hsame : (op.exec none (Conn.fresh w.disk)).2 = (callMethod (DB.updateChanged none) op.method.1 op.method.2.1
      op.method.2.2 { (w.threads i).conn with committed := w.disk, work := w.disk }).2 ∧
      (op.exec none (Conn.fresh w.disk)).1.committed = (callMethod (DB.updateChanged none) op.method.1 op.method.2.1
      op.method.2.2 { (w.threads i).conn with committed := w.disk, work := w.disk }).1.committed := by
    simp only [ModelOp.exec]
    rw [k1, k2]
    cases endHk (DB.updateChanged none) (endChanged (touched op.method.2.2 w.disk) op.method.2.1
      (eval op.method.2.2 w.disk).2) w.disk (endContent w.disk (eval op.method.2.2 w.disk).1 (eval op.method.2.2 w.disk).2) with
    | mk x o => cases o <;> exact ⟨rfl, rfl⟩
  refine ⟨w', E, g1, g2, g3, g4, by rw [hcode, ← hsame.1], by rw [g16, hconn, ← hsame.2], ⟨g9, ?_, ?_⟩, g15⟩
  · rw [g11, hconn]; exact hin
  · exact ⟨_, by rw [g10, hcode]⟩

theorem second_runs (corpus : Corpus) (cfg : IndexCfg) (s : Schedule) (hno : ∀ i, s.fault i = none) (c : Conn DB)
    (db : DB) (hc : Idle c db) (hp : Pending db) :
    (aloneTxn (secondCode corpus cfg s) c).1 = .done (.ok .none) ∧ (aloneTxn (secondCode corpus cfg s) c).2.inTxn = false := by
  obtain ⟨cm, wk, stk, bg, lv, ch, sn⟩ := c
  obtain ⟨h1, h2, h3, h4, h5, h6⟩ := hc
  simp only at h1 h2 h3 h4 h5 h6
  subst h1 h2 h3 h4 h5 h6
  obtain ⟨db', k1, -⟩ := DB.updateChanged_spec hp (committed := wk) rfl
  simp only [secondCode, stepsCode, hno, aloneTxn, Cmd.exec, Conn.begin, Conn.inTxn, List.isEmpty_nil, Bool.not_true,
    Bool.or_self, Bool.false_eq_true, if_false, Conn.log, Bool.true_or, if_true, k1, Conn.commit, and_self]

/-- **C61.** `index` on a settled content, without failures, by a thread that finds nobody writing: its first
transaction leaves the complete index, and its second one, on whatever the others have made of it by then, settles it. -/
theorem concurrent_index_runs {db : DB} (hdb : Settled db) {w : World DB Ret Job} (h : Reachable Job.Runs db w) (i : Nat)
    (hi : Free w i) (hset : Settled w.disk) (corpus : Corpus) (content : Val → Features) (cfg : IndexCfg) (s : Schedule)
    (hs : Serves corpus content) (hx : Indexable corpus content cfg.positions) (hf : Fair s) (hne : corpus.keys ≠ [])
    (hno : ∀ i, s.fault i = none) :
    ∃ w' E, Reachable Job.Runs db w' ∧ w'.log = E :: w.log ∧ E.label = .reindex corpus content cfg ∧ E.thread = i ∧
      IsIndexOf corpus content w'.disk ∧ (∀ j, j ≠ i → w'.threads j = w.threads j) ∧ w'.lock = none ∧
      ∀ w'', Reachable Job.Runs db w'' → w''.threads i = w'.threads i → w''.lock = none →
        ∃ w3 E', Reachable Job.Runs db w3 ∧ w3.log = E' :: w''.log ∧ E'.label = .reindex corpus content cfg ∧
          E'.thread = i ∧ E'.began = E.began ∧ E'.code = .done (.ok .none) ∧ Free w3 i := by
  obtain ⟨r, hr⟩ := hi.done
  have hidle := free_calm h hi.idle
  have hok := index_succeeds (cfg := cfg) hidle hset hs hx hf hne hno
  have hal := alone_index corpus cfg s { (w.threads i).conn with committed := w.disk, work := w.disk }
  rw [hok] at hal
  have hfirst : ∃ c', Idle c' (reindexed corpus cfg s w.disk) ∧
      aloneTxn (indexCode corpus cfg s) { (w.threads i).conn with committed := w.disk, work := w.disk } =
        (secondCode corpus cfg s, c') := by
    rcases aloneTxn_index corpus cfg s _ _ hidle with ⟨⟨e, he⟩, -⟩ | ⟨x, c', h1, h2, h3⟩
    · have := alone_aloneTxn (indexCode corpus cfg s) { (w.threads i).conn with committed := w.disk, work := w.disk }
      rw [he, hal] at this
      simp only [alone, Except.map, Prod.mk.injEq] at this
      cases this.2
    · obtain ⟨-, -, -, rfl⟩ := phase1_ok hs hf (DB.Settled.toPending hset) h1
      exact ⟨c', h2, h3⟩
  obtain ⟨c', hc', hfirst⟩ := hfirst
  obtain ⟨w', E, g1, g2, g3, g4, g5, g6, g7, g8, g9, g10, g11, g12, g13, g14, g15, g16⟩ := run_call h i
    (.reindex corpus content cfg) (indexCode corpus cfg s) ⟨hs, s, hf, rfl⟩ (fun r => by simp [indexCode]) hi.idle r hr
    hi.nobody (by rw [hfirst]; simp [Conn.inTxn, hc'.begun, hc'.stack])
  rw [hfirst] at g6
  simp only [Prod.mk.injEq] at g6
  refine ⟨w', E, g1, g2, g3, g4, ?_, g15, g9, ?_⟩
  · rw [g16, g6.2, hc'.committed]; exact reindexed_isIndex hs hx hf hset.toWellformed
  · intro w'' hw'' ht hl
    have hcode : (w''.threads i).code = secondCode corpus cfg s := by rw [ht, g10, g6.1]
    have hin : (w''.threads i).conn.inTxn = false := by
      rw [ht, g11, g6.2]; simp [Conn.inTxn, hc'.begun, hc'.stack]
    have hid := free_calm hw'' hin
    have hlook : ((w''.threads i).look w'').conn =
        { (w''.threads i).conn with committed := w''.disk, work := w''.disk } := by
      unfold Thread.look; rw [if_neg (by rw [hin]; simp)]
    obtain ⟨s1, s2⟩ := second_runs corpus cfg s hno _ _ hid
      (versions_pending (DB.Settled.toPending hdb) hw'' _ (le_refl _))
    have hnd : ∀ r, secondCode corpus cfg s ≠ .done r := by
      intro r; simp [secondCode, stepsCode, hno]
    obtain ⟨w3, E', k1, k2, k3, k4, k5, k6, k7, k8, k9, k10, k11, k12, k13, k14, k15, k16⟩ := run_txn i _ w'' hw'' hcode
      (fun e => by rw [hin] at e; cases e) (fun _ => hl) hnd (by rw [hlook]; exact s2)
    rw [hlook] at k6
    have e1 := (done_of_pair k6).1
    have e2 := (done_of_pair k6).2
    refine ⟨w3, E', k1, k2, by rw [k3, ht, g12], k4, by rw [k5, ht, g13, g5], e1.trans s1, k9, ?_, ?_⟩
    · rw [k11, e2]; exact s2
    · exact ⟨_, by rw [k10, e1, s1]⟩

theorem free_initial (db : DB) (l : Job) (r : Except Err Ret) (i : Nat) : Free (World.initial db l r) i :=
  ⟨rfl, rfl, ⟨r, rfl⟩⟩

/-- The hypotheses are met: thread 1 deletes a cluster, thread 2 starts to index, thread 1 deletes another cluster
between the two transactions of thread 2, thread 2 ends. -/
example : ∃ w E1 E2 E3 E4, Reachable Job.Runs demoModel w ∧ w.log = [E4, E3, E2, E1] ∧
    E1.label = .edit (.deleteClusters [5]) ∧ E2.label = .reindex demoCorpus demoContent demoCfg ∧
    E3.label = .edit (.deleteClusters [0]) ∧ E4.label = .reindex demoCorpus demoContent demoCfg ∧
    E4.code = .done (.ok .none) ∧ E1.thread = 1 ∧ E2.thread = 2 ∧ E3.thread = 1 ∧ E4.thread = 2 := by
  have hl : Job := .edit (.deleteClusters [])
  have r0 : Reachable Job.Runs demoModel (World.initial demoModel hl (.ok .none)) := .init _ _
  obtain ⟨w1, E1, a1, a2, a3, a4, a5, a6, a7, a8⟩ := concurrent_edit_runs demoModel_settled r0 1 (free_initial ..)
    (.deleteClusters [5]) trivial
  have hset : Settled w1.disk := by
    rcases concurrent_settled demoModel_settled a1 w1.count (le_refl _) with ⟨-, h | ⟨E, hE, -, -, -, ⟨_, _, _, h⟩, -⟩⟩
    · exact h
    · rw [a2] at hE
      rcases List.mem_cons.1 hE with rfl | hE
      · rw [a3] at h; cases h
      · simp [World.initial] at hE
  have hf2 : Free w1 2 := ⟨a7.nobody, by rw [a8 2 (by decide)]; rfl, ⟨.ok .none, by rw [a8 2 (by decide)]; rfl⟩⟩
  obtain ⟨w2, E2, b1, b2, b3, b4, b5, b6, b7, b8⟩ := concurrent_index_runs demoModel_settled a1 2 hf2 hset demoCorpus
    demoContent demoCfg demoSchedule demo_serves demo_indexable demo_fair (by decide) (fun _ => rfl)
  have hf1 : Free w2 1 := ⟨b7, by rw [b6 1 (by decide)]; exact a7.idle, by rw [b6 1 (by decide)]; exact a7.done⟩
  obtain ⟨w3, E3, c1, c2, c3, c4, c5, c6, c7, c8⟩ := concurrent_edit_runs demoModel_settled b1 1 hf1 (.deleteClusters [0])
    trivial
  obtain ⟨w4, E4, d1, d2, d3, d4, d5, d6, d7⟩ := b8 w3 c1 (c8 2 (by decide)) c7.nobody
  exact ⟨w4, E1, E2, E3, E4, d1, by rw [d2, c2, b2, a2]; rfl, a3, b3, c3, d3, d6, a4, b4, c4, d4⟩

/-! Two overlapping transactions: a reader that started before a write and ends after it sees the old content. -/

/-- Read the content. -/
def demoGet : Code Nat Nat := callCode none "get" false (.stmt (fun s => .ok (s, s)) .ret)

/-- Increment the content. -/
def demoInc : Code Nat Nat := callCode (some fun _ w => (w, none)) "inc" true (.stmt (fun s => .ok (s + 1, s)) .ret)

/-- Run a command of a thread. -/
def demoStep (w : World Nat Nat Unit) (i : Nat) (held : Bool) : World Nat Nat Unit :=
  match ((w.threads i).look w).code.next ((w.threads i).look w).conn with
  | some (p, c) => w.after i { (w.threads i).look w with code := p, conn := c } held held
  | none => w

/-- Start a call. -/
def demoStart (w : World Nat Nat Unit) (i : Nat) (p : Code Nat Nat) : World Nat Nat Unit :=
  w.set i { w.threads i with code := p, label := (), began := w.count }

theorem demo_read {w : World Nat Nat Unit} (h : Reachable (fun _ p => p = demoGet ∨ p = demoInc) 7 w) (i : Nat)
    (hl : w.lock ≠ some i) (hq : ((w.threads i).look w).code.Quiet ((w.threads i).look w).conn) :
    Reachable (fun _ p => p = demoGet ∨ p = demoInc) 7 (demoStep w i false) := by
  unfold demoStep
  split
  · rename_i p c hn
    exact .step h (.read w i p c hl hq hn)
  · exact h

theorem demo_write {w : World Nat Nat Unit} (h : Reachable (fun _ p => p = demoGet ∨ p = demoInc) 7 w) (i : Nat)
    (hl : w.lock = some i ∨ (w.lock = none ∧ ((w.threads i).look w).base = w.count)) :
    Reachable (fun _ p => p = demoGet ∨ p = demoInc) 7 (demoStep w i true) := by
  unfold demoStep
  split
  · rename_i p c hn
    exact .step h (.write w i p c true hl hn (fun e => by cases e))
  · exact h

/-- The interleaving: thread 0 begins to read, thread 1 increments, thread 0 reads. -/
def demoRun : World Nat Nat Unit :=
  let w := demoStart (demoStart (World.initial 7 () (.ok 0)) 0 demoGet) 1 demoInc
  let w := demoStep w 0 false
  let w := demoStep (demoStep (demoStep (demoStep w 1 true) 1 true) 1 true) 1 true
  demoStep (demoStep (demoStep w 0 false) 0 false) 0 false

theorem demo_reachable : Reachable (fun _ p => p = demoGet ∨ p = demoInc) 7 demoRun := by
  have r0 : Reachable (fun (_ : Unit) p => p = demoGet ∨ p = demoInc) 7 (World.initial 7 () (.ok 0)) := .init _ _
  have r1 := Reachable.step r0 (.start _ 0 () demoGet (Or.inl rfl) (.ok 0) rfl rfl)
  have r2 := Reachable.step r1 (.start _ 1 () demoInc (Or.inr rfl) (.ok 0) rfl rfl)
  have r3 := demo_read r2 0 (by decide) trivial
  have r4 := demo_write r3 1 (Or.inr ⟨rfl, rfl⟩)
  have r5 := demo_write r4 1 (Or.inl rfl)
  have r6 := demo_write r5 1 (Or.inl rfl)
  have r7 := demo_write r6 1 (Or.inl rfl)
  have r8 := demo_read r7 0 (by decide) (fun s v e => by cases e; rfl)
  have r9 := demo_read r8 0 (by decide) trivial
  exact demo_read r9 0 (by decide) trivial

example : demoRun.count = 1 ∧ demoRun.disk = 8 ∧
    demoRun.log.map (fun E => (E.thread, E.base, E.ended, E.published)) = [(0, 0, 1, false), (1, 0, 0, true)] := by decide

example : demoRun.log.map (fun E => match E.code with | .done r => r.toOption | _ => none) = [some 7, some 7] := by decide

end Hyperreal.Props
