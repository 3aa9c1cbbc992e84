import Verif.Lemmas.ConcurrentIndex

namespace Hyperreal.Concurrent
open Spec Atomic DB

/-! ## The bodies of the public calls let exceptions through -/

theorem propagates_stmts (fs : List (DB → Except Err DB)) (k : Method) (hk : Propagates k) : Propagates (stmts fs k) := by
  induction fs with
  | nil => exact hk
  | cons f fs ih => exact .stmt _ _ (fun _ => rfl) (fun _ => ih)

theorem propagates_reading (k : DB → Method) (hk : ∀ d, Propagates (k d)) : Propagates (reading k) := by
  refine .stmt _ _ (fun _ => rfl) (fun v => ?_)
  cases v with
  | db d => exact hk d
  | none => exact .ret _
  | id => exact .ret _

theorem propagates_method (op : ModelOp) : Propagates op.method.2.2 := by
  cases op with
  | initialise n m fs sh =>
    exact propagates_stmts _ _ (propagates_reading _ fun d => propagates_stmts _ _ (.ret _))
  | deleteClusters cs => exact propagates_stmts _ _ (.ret _)
  | merge cs =>
    cases cs with
    | nil => exact .ret _
    | cons c cs => exact propagates_stmts _ _ (.ret _)
  | deleteFeatures fs => exact propagates_stmts _ _ (.ret _)
  | create fs => exact propagates_reading _ fun d => propagates_stmts _ _ (propagates_stmts _ _ (.ret _))
  | pinFeatures fs b => exact propagates_stmts _ _ (.ret _)
  | pinClusters cs b => exact propagates_stmts _ _ (.ret _)
  | refine plan =>
    refine propagates_reading _ fun d => ?_
    cases plan d with
    | error e => exact .ret _
    | ok m => exact .call _ _ _ (propagates_stmts _ _ (.ret _))

/-! ## Read-only code -/

theorem faulted_readOnly {σ V : Type} {p p' : Prog σ V} (h : Faulted p p') : ReadOnly p → ReadOnly p' := by
  induction h with
  | ret r => exact id
  | stmt f k k' h ih =>
    intro hp; cases hp with
    | stmt _ _ hf hk => exact .stmt f k' hf (fun r => ih r (hk r))
  | busy f k k' h ih =>
    intro hp; cases hp with
    | stmt _ _ hf hk => exact .stmt _ k' (fun _ _ _ e => by cases e) (fun r => ih r (hk r))
  | call n w b b' k k' hb h ihb ih =>
    intro hp; cases hp with
    | call _ _ _ h1 h2 => exact .call n b' k' (ihb h1) (fun r => ih r (h2 r))

theorem readOnly_eval {σ V : Type} {p : Prog σ V} (h : ReadOnly p) : ∀ s, (eval p s).1 = s ∧ touched p s = false := by
  induction h with
  | ret r => intro s; exact ⟨rfl, rfl⟩
  | stmt f k hf hk ih =>
    intro s
    simp only [eval, touched]
    cases h : f s with
    | error e => exact ih _ s
    | ok sv =>
      have := hf s sv.1 sv.2 h
      obtain ⟨h1, h2⟩ := ih (.ok sv.2) sv.1
      exact ⟨h1.trans this, h2⟩
  | call n b k hb hk ihb ih =>
    intro s
    obtain ⟨h1, h2⟩ := ihb s
    simp only [eval, touched]
    cases h : eval b s with
    | mk s' r =>
      rw [h] at h1
      simp only at h1
      subst h1
      cases r with
      | ok v =>
        obtain ⟨h3, h4⟩ := ih (.ok v) s'
        exact ⟨h3, by simp [h2, h4]⟩
      | error e =>
        obtain ⟨h3, h4⟩ := ih (.error e) s'
        simp only [ite_self]
        exact ⟨h3, by simp [h2, h4]⟩

theorem faulted_noCatch {σ V : Type} {p p' : Prog σ V} (h : Faulted p p') : NoCatch p → ∀ s,
    eval p' s = eval p s ∨ ∃ d, eval p' s = (d, .error .operational) := by
  have hret : ∀ (r : Except Err V) (q : Prog σ V), Faulted (.ret r) q → q = .ret r := by
    intro r q hq; cases hq; rfl
  induction h with
  | ret r => intro _ s; exact Or.inl rfl
  | stmt f k k' h ih =>
    intro hp s
    cases hp with
    | stmt _ _ he hk =>
      simp only [eval]
      cases hf : f s with
      | error e =>
        simp only
        have : k' (.error e) = .ret (.error e) := hret _ _ (he e ▸ h (.error e))
        rw [this, he e]
        exact Or.inl rfl
      | ok sv => exact ih (.ok sv.2) (hk sv.2) sv.1
  | busy f k k' h ih =>
    intro hp s
    cases hp with
    | stmt _ _ he hk =>
      have : k' (.error .operational) = .ret (.error .operational) := hret _ _ (he _ ▸ h (.error .operational))
      exact Or.inr ⟨s, by simp only [eval, this]⟩
  | call n w b b' k k' hb h ihb ih =>
    intro hp s
    cases hp with
    | call _ _ _ _ hpb he hk =>
      rcases ihb hpb s with e1 | ⟨d, e1⟩
      · simp only [eval, e1]
        cases hbv : eval b s with
        | mk s' r =>
          cases r with
          | ok v => exact ih (.ok v) (hk v) s'
          | error e =>
            have : k' (.error e) = .ret (.error e) := hret _ _ (he e ▸ h (.error e))
            simp only [this, he e]
            exact Or.inl trivial
      · have : k' (.error .operational) = .ret (.error .operational) := hret _ _ (he _ ▸ h (.error .operational))
        exact Or.inr ⟨s, by simp [eval, e1, this, Err.isException]⟩

/-! ## What may be assumed between transactions -/

/-- Nothing is in progress on the connection. -/
structure Calm {σ : Type} (c : Conn σ) : Prop where
  stack : c.stack = []
  begun : c.begun = false
  level : c.level = 0
  changed : c.changed = false

theorem Calm.idle {σ : Type} {c : Conn σ} (h : Calm c) {s : σ} (h1 : c.committed = s) (h2 : c.work = s) : Idle c s :=
  ⟨h1, h2, h.stack, h.begun, h.level, h.changed⟩

theorem _root_.Hyperreal.Spec.Idle.calm {σ : Type} {c : Conn σ} {s : σ} (h : Idle c s) : Calm c :=
  ⟨h.stack, h.begun, h.level, h.changed⟩

/-- The code of a job at the start of a transaction. -/
def Ready (l : Job) (p : Code DB Ret) (c : Conn DB) : Prop :=
  Calm c ∧ ((∃ r, p = .done r) ∨ l.Runs p ∨ ∃ corpus content cfg s, l = .reindex corpus content cfg ∧
    Serves corpus content ∧ Fair s ∧ p = secondCode corpus cfg s)

theorem call_calm {σ V : Type} (hk : Housekeeping σ) (n : String) (w : Bool) (body : Prog σ V) (c : Conn σ) (s : σ)
    (hc : Idle c s) (h : (callMethod hk n w body c).1.inTxn = false) : Calm (callMethod hk n w body c).1 := by
  obtain ⟨m, seen', -, he⟩ := callMethod_top hk n w body c s hc (eval body s).1 (eval body s).2 rfl
  rw [he] at h ⊢
  revert h
  cases endHk hk (endChanged (touched body s) w (eval body s).2) s (endContent s (eval body s).1 (eval body s).2) with
  | mk x o =>
    cases o with
    | none => intro _; exact ⟨rfl, rfl, rfl, rfl⟩
    | some e => intro h; simp [Conn.inTxn] at h

theorem failedAt_ready {l : Job} {db : DB} {x : Code DB Ret × Conn DB} (h : FailedAt db x) (hx : x.2.inTxn = false) :
    Ready l x.1 x.2 := by
  obtain ⟨⟨e, he⟩, h2⟩ := h
  obtain ⟨a, b, c, d, -⟩ := h2 hx
  exact ⟨⟨a, b, c, d⟩, Or.inl ⟨_, he⟩⟩

theorem ready_regime : Regime Job.Runs Ready where
  start l l0 p c r hp h _ := ⟨h.1, Or.inr (Or.inl hp)⟩
  look l p c s h _ := ⟨⟨h.1.stack, h.1.begun, h.1.level, h.1.changed⟩, h.2⟩
  fresh l s r := ⟨⟨rfl, rfl, rfl, rfl⟩, Or.inl ⟨r, rfl⟩⟩
  next l p c h ht hcw hn := by
    obtain ⟨hcalm, h⟩ := h
    have hidle : Idle c c.work := hcalm.idle hcw rfl
    rcases h with ⟨r, rfl⟩ | h | ⟨corpus, content, cfg, s, rfl, hs, hf, rfl⟩
    · exact ⟨hcalm, Or.inl ⟨r, rfl⟩⟩
    · cases l with
      | edit op =>
        obtain ⟨-, body, hk, -, -, rfl⟩ := h
        rw [aloneTxn_call hk _ _ _ c hcalm.level] at hn ⊢
        exact ⟨call_calm _ _ _ _ _ _ hidle hn, Or.inl ⟨_, rfl⟩⟩
      | query name body =>
        obtain ⟨-, -, body', hk, -, rfl⟩ := h
        rw [aloneTxn_call hk _ _ _ c hcalm.level] at hn ⊢
        exact ⟨call_calm _ _ _ _ _ _ hidle hn, Or.inl ⟨_, rfl⟩⟩
      | reindex corpus content cfg =>
        obtain ⟨hs, s, hf, rfl⟩ := h
        rcases aloneTxn_index corpus cfg s c c.work hidle with h | ⟨w, c', -, h2, h3⟩
        · exact failedAt_ready h hn
        · rw [h3]; exact ⟨h2.calm, Or.inr (Or.inr ⟨corpus, content, cfg, s, rfl, hs, hf, rfl⟩)⟩
    · rcases aloneTxn_second corpus cfg s c c.work hidle with h | ⟨f, c', -, h2, h3⟩
      · exact failedAt_ready h hn
      · rw [h3]; exact ⟨h2.calm, Or.inl ⟨_, rfl⟩⟩

/-! ## The outcome of one transaction -/

/-- A public edit. -/
theorem edit_txn {op : ModelOp} {p : Code DB Ret} (hr : (Job.edit op).Runs p) {c : Conn DB} {db : DB} (hc : Idle c db)
    (hp : Pending db) : ∃ r, (aloneTxn p c).1 = .done r ∧ ((aloneTxn p c).2.inTxn = false →
      (∃ e, r = .error e ∧ (aloneTxn p c).2.committed = db) ∨
      (∃ v, r = .ok v ∧ (op.exec none (Conn.fresh db)).2 = .ok v ∧
        (op.exec none (Conn.fresh db)).1.committed = (aloneTxn p c).2.committed ∧ Settled (aloneTxn p c).2.committed ∧
        (aloneTxn p c).2.committed.features = db.features)) := by
  obtain ⟨hv, body, hk, hfa, hhk, rfl⟩ := hr
  rw [aloneTxn_call hk _ _ _ c hc.level]
  refine ⟨_, rfl, ?_⟩
  obtain ⟨m, seen', -, he⟩ := callMethod_top (hk.getD busyHk) op.method.1 op.method.2.1 body c db hc (eval body db).1
    (eval body db).2 rfl
  have hfr : Idle (Conn.fresh db) db := ⟨rfl, rfl, rfl, rfl, rfl, rfl⟩
  obtain ⟨m', seen'', -, he'⟩ := callMethod_top (updateChanged none) op.method.1 op.method.2.1 op.method.2.2
    (Conn.fresh db) db hfr (eval op.method.2.2 db).1 (eval op.method.2.2 db).2 rfl
  simp only
  rw [he]
  rcases faulted_eval hfa (propagates_method op) db with ⟨e1, e2⟩ | ⟨d, e1, e2⟩
  · rcases method_cases op hv hp with ⟨d, v, h1, h2, h3, h4⟩ | ⟨d, e, h1, h2, h3⟩
    · simp only [h1, ModelOp.exec] at he' ⊢
      simp only [e1, e2, h1, endHk, endChanged, endContent, h4, if_true] at he' ⊢
      obtain ⟨db', g1, g2, g3, -⟩ := updateChanged_spec h2 (show db.features = d.features from h3.symm)
      rw [g1] at he'
      simp only at he'
      rw [he']
      rcases hhk with rfl | ⟨fault, rfl⟩
      · simp only [Option.getD_none, busyHk]
        intro h; simp [Conn.inTxn] at h
      · simp only [Option.getD_some]
        cases fault with
        | none =>
          rw [g1]
          intro _
          exact Or.inr ⟨v, rfl, rfl, rfl, g2, g3.trans h3⟩
        | some e =>
          simp only [updateChanged]
          intro h; simp [Conn.inTxn] at h
    · simp only [e1, e2, h1, endHk, endChanged, endContent, h2, Bool.false_eq_true, if_false]
      intro _
      refine Or.inl ⟨e, rfl, ?_⟩
      rcases h3 with h3 | h3
      · simp [h3]
      · simp [h3]
  · simp only [e1, e2, endHk, endChanged, endContent, Bool.false_eq_true, if_false, Err.isException, if_true]
    intro _
    exact Or.inl ⟨.operational, by simp⟩

/-- A query. -/
theorem query_txn {name : String} {body : Method} {p : Code DB Ret} (hr : (Job.query name body).Runs p) {c : Conn DB}
    {db : DB} (hc : Idle c db) : ∃ r, (aloneTxn p c).1 = .done r ∧ Idle (aloneTxn p c).2 db ∧
      (r = .error .operational ∨ r = (eval body db).2) := by
  obtain ⟨hro, hnc, body', hk, hfa, rfl⟩ := hr
  rw [aloneTxn_call hk _ _ _ c hc.level]
  refine ⟨_, rfl, ?_⟩
  obtain ⟨m, seen', -, he⟩ := callMethod_top (hk.getD busyHk) name false body' c db hc (eval body' db).1
    (eval body' db).2 rfl
  obtain ⟨h1, h2⟩ := readOnly_eval (faulted_readOnly hfa hro) db
  have hcon : endContent db (eval body' db).1 (eval body' db).2 = db := by
    rw [h1]
    cases (eval body' db).2 <;> simp [endContent]
  have hch : endChanged (touched body' db) false (eval body' db).2 = false := by
    rw [h2]
    cases (eval body' db).2 <;> rfl
  rw [hcon, hch] at he
  simp only [endHk, Bool.false_eq_true, if_false] at he
  simp only [he]
  refine ⟨⟨rfl, rfl, rfl, rfl, rfl, rfl⟩, ?_⟩
  rcases faulted_noCatch hfa hnc db with e | ⟨d, e⟩
  · right; rw [e]
  · left; rw [e]

/-- The first transaction of `index`. -/
theorem first_txn {corpus : Corpus} {content : Val → Features} {cfg : IndexCfg} {p : Code DB Ret}
    (hr : (Job.reindex corpus content cfg).Runs p) {c : Conn DB} {db : DB} (hc : Idle c db) (hp : Pending db) :
    FailedAt db (aloneTxn p c) ∨ ∃ s, Fair s ∧ (aloneTxn p c).1 = secondCode corpus cfg s ∧
      (aloneTxn p c).2.committed = reindexed corpus cfg s db ∧ Indexable corpus content cfg.positions := by
  obtain ⟨hs, s, hf, rfl⟩ := hr
  rcases aloneTxn_index corpus cfg s c db hc with h | ⟨w, c', h1, h2, h3⟩
  · exact Or.inl h
  · obtain ⟨hi, -, -, rfl⟩ := phase1_ok hs hf hp h1
    rw [h3]
    exact Or.inr ⟨s, hf, rfl, h2.committed, hi⟩

theorem secondCode_ne (corpus : Corpus) (cfg : IndexCfg) (s : Schedule) (v : Ret) :
    secondCode corpus cfg s ≠ .done (.ok v) := by
  simp only [secondCode, stepsCode]
  split
  · simp only [failCode]
    split
    · intro h; cases h
    · intro h; cases h
  · intro h; cases h

end Hyperreal.Concurrent
