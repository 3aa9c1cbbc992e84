import Verif.Lemmas.ConcurrentCode
import Verif.Lemmas.IndexCall

namespace Hyperreal.Concurrent
open Spec Atomic

/-! ## `index` as commands is `index` -/

theorem alone_steps (corpus : Corpus) (positions : Bool) (fault : Nat → Option Err) (sts : List Hyperreal.Step) :
    ∀ (i : Nat) (c : Conn DB), alone (stepsCode corpus positions fault i sts) c =
      match runSteps corpus positions fault i sts c with
      | (c, none) => (c, .ok .none)
      | (c, some e) => alone (failCode e) c := by
  induction sts with
  | nil => intro i c; rfl
  | cons st sts ih =>
    intro i c
    cases st with
    | housekeeping =>
      simp only [stepsCode, runSteps, Hyperreal.Step.exec, alone, Cmd.exec]
      cases DB.updateChanged (fault i) c.committed c.work with
      | mk d e =>
        cases e with
        | some e => rfl
        | none => simp only [ih]
    | sql f =>
      simp only [stepsCode, runSteps, Hyperreal.Step.exec]
      cases fault i with
      | some e => rfl
      | none =>
        simp only [alone, Conn.exec]
        cases hf : f c.work with
        | error e => simp only [Except.map]
        | ok d =>
          simp only [Except.map]
          by_cases h : c.inTxn = true
          · simp only [h, if_true, ih]
          · simp only [h, Bool.false_eq_true, if_false, ih]
    | await bs =>
      simp only [stepsCode, runSteps, Hyperreal.Step.exec]
      cases fault i with
      | some e => rfl
      | none =>
        simp only
        cases awaitErr corpus positions bs with
        | some e => rfl
        | none => simp only [ih]
    | nop =>
      simp only [stepsCode, runSteps, Hyperreal.Step.exec]
      cases fault i with
      | some e => rfl
      | none => simp only [ih]
    | begin =>
      simp only [stepsCode, runSteps, Hyperreal.Step.exec]
      cases fault i with
      | some e => rfl
      | none =>
        simp only [alone, Cmd.exec]
        cases c.begin with
        | none => rfl
        | some c => simp only [ih]
    | commit =>
      simp only [stepsCode, runSteps, Hyperreal.Step.exec]
      cases fault i with
      | some e => rfl
      | none =>
        simp only [alone, Cmd.exec]
        cases c.commit with
        | none => rfl
        | some c => simp only [ih]

/-- `index` as commands is `index`. -/
theorem alone_index (corpus : Corpus) (cfg : IndexCfg) (s : Schedule) (c : Conn DB) :
    alone (indexCode corpus cfg s) c =
      ((indexCall corpus cfg s c).1, (indexCall corpus cfg s c).2.map (fun _ => Ret.none)) := by
  simp only [indexCode, alone, Cmd.exec, indexCall]
  cases c.begin with
  | none => rfl
  | some c =>
    simp only [alone_steps]
    cases runSteps corpus cfg.positions s.fault 0 (indexPhase1 corpus cfg s ++ indexPhase2) c with
    | mk c e =>
      cases e with
      | none => rfl
      | some e =>
        simp only [failCode]
        by_cases hx : e.isException = true
        · simp only [hx, if_true, alone, Cmd.exec]
          cases c.rollback <;> rfl
        · simp only [hx, Bool.false_eq_true, if_false, alone, Except.map]

/-! ## The transactions of `index` -/

/-- Code and connection after a failed transaction: the code is at its end with an exception, and if the transaction is
over the connection is as before. -/
def FailedAt (db : DB) (x : Code DB Ret × Conn DB) : Prop :=
  (∃ e, x.1 = .done (.error e)) ∧ (x.2.inTxn = false → x.2.stack = [] ∧ x.2.begun = false ∧ x.2.level = 0 ∧
    x.2.changed = false ∧ x.2.committed = db)

theorem aloneTxn_fail (e : Err) (c : Conn DB) (db : DB) (hb : c.begun = true) (hl : c.level = 0)
    (hch : c.changed = false) (hc : c.committed = db) : FailedAt db (aloneTxn (failCode e) c) := by
  have hin : c.inTxn = true := by simp [Conn.inTxn, hb]
  simp only [failCode]
  by_cases hx : e.isException = true
  · simp only [hx, if_true, aloneTxn, Cmd.exec, Conn.rollback, hin, Conn.log]
    simp only [Conn.inTxn, List.isEmpty_nil, Bool.not_true, Bool.or_self, Bool.false_eq_true, if_false]
    exact ⟨⟨e, rfl⟩, fun _ => ⟨rfl, rfl, hl, hch, hc⟩⟩
  · simp only [hx, Bool.false_eq_true, if_false, aloneTxn]
    exact ⟨⟨e, rfl⟩, fun h => by rw [hin] at h; cases h⟩

/-- Plain steps inside the transaction. -/
theorem aloneTxn_plain (corpus : Corpus) (positions : Bool) (fault : Nat → Option Err) (rest steps : List Hyperreal.Step)
    (hp : ∀ st ∈ steps, st.plain = true) : ∀ (i : Nat) (c : Conn DB), c.begun = true → c.level = 0 → c.changed = false →
    FailedAt c.committed (aloneTxn (stepsCode corpus positions fault i (steps ++ rest)) c) ∨
    ∃ w sn, pureSteps corpus positions steps c.work = .ok w ∧
      aloneTxn (stepsCode corpus positions fault i (steps ++ rest)) c =
        aloneTxn (stepsCode corpus positions fault (i + steps.length) rest) { c with work := w, seen := sn } := by
  induction steps with
  | nil => intro i c _ _ _; exact Or.inr ⟨c.work, c.seen, rfl, rfl⟩
  | cons st steps ih =>
    intro i c hb hl hch
    have hin : c.inTxn = true := by simp [Conn.inTxn, hb]
    have hps : ∀ st ∈ steps, st.plain = true := fun s hs => hp s (by simp [hs])
    have hst := hp st (by simp)
    have hlen : i + (st :: steps).length = i + 1 + steps.length := by simp; omega
    cases st with
    | sql f =>
      simp only [List.cons_append, stepsCode]
      cases fault i with
      | some e => exact Or.inl (aloneTxn_fail e c _ hb hl hch rfl)
      | none =>
        simp only [aloneTxn, exec_inTxn, hin, if_true]
        simp only [Conn.exec, hin, if_true]
        cases hf : f c.work with
        | error e =>
          simp only [Except.map]
          exact Or.inl (aloneTxn_fail e c.log _ hb hl hch rfl)
        | ok d =>
          simp only [Except.map]
          rcases ih hps (i + 1) ({ c with work := d } : Conn DB).log hb hl hch with h | ⟨w, sn, h1, h2⟩
          · exact Or.inl h
          · refine Or.inr ⟨w, sn, ?_, ?_⟩
            · simp only [pureSteps, hf]; exact h1
            · rw [hlen]; exact h2
    | await bs =>
      simp only [List.cons_append, stepsCode]
      cases fault i with
      | some e => exact Or.inl (aloneTxn_fail e c _ hb hl hch rfl)
      | none =>
        simp only
        cases ha : awaitErr corpus positions bs with
        | some e => exact Or.inl (aloneTxn_fail e c _ hb hl hch rfl)
        | none =>
          rcases ih hps (i + 1) c hb hl hch with h | ⟨w, sn, h1, h2⟩
          · exact Or.inl h
          · refine Or.inr ⟨w, sn, ?_, ?_⟩
            · simp only [pureSteps, ha]; exact h1
            · rw [hlen]; exact h2
    | nop =>
      simp only [List.cons_append, stepsCode]
      cases fault i with
      | some e => exact Or.inl (aloneTxn_fail e c _ hb hl hch rfl)
      | none =>
        rcases ih hps (i + 1) c hb hl hch with h | ⟨w, sn, h1, h2⟩
        · exact Or.inl h
        · refine Or.inr ⟨w, sn, ?_, ?_⟩
          · simp only [pureSteps]; exact h1
          · rw [hlen]; exact h2
    | begin => simp [Step.plain] at hst
    | commit => simp [Step.plain] at hst
    | housekeeping => simp [Step.plain] at hst

/-- The code of `index` between its two transactions. -/
def secondCode (corpus : Corpus) (cfg : IndexCfg) (s : Schedule) : Code DB Ret :=
  stepsCode corpus cfg.positions s.fault ((indexPhase1 corpus cfg s).length + 1) [.begin, .housekeeping, .commit]

/-- The first transaction of `index`. -/
theorem aloneTxn_index (corpus : Corpus) (cfg : IndexCfg) (s : Schedule) (c : Conn DB) (db : DB) (hc : Idle c db) :
    FailedAt db (aloneTxn (indexCode corpus cfg s) c) ∨
    ∃ w c', pureSteps corpus cfg.positions (indexPhase1 corpus cfg s) db = .ok w ∧ Idle c' w ∧
      aloneTxn (indexCode corpus cfg s) c = (secondCode corpus cfg s, c') := by
  obtain ⟨cm, wk, stk, bg, lv, ch, sn⟩ := c
  obtain ⟨h1, h2, h3, h4, h5, h6⟩ := hc
  simp only at h1 h2 h3 h4 h5 h6
  subst h1 h2 h3 h4 h5 h6
  simp only [indexCode, aloneTxn, Cmd.exec, Conn.begin, Conn.inTxn, List.isEmpty_nil, Bool.not_true, Bool.or_self,
    Bool.false_eq_true, if_false, Conn.log, Bool.true_or, if_true]
  rcases aloneTxn_plain corpus cfg.positions s.fault indexPhase2 (indexPhase1 corpus cfg s) (phase1_plain corpus cfg s) 0
    ⟨wk, wk, [], true, 0, false, wk :: sn⟩ rfl rfl rfl with h | ⟨w, sn', e1, e2⟩
  · exact Or.inl h
  · rw [e2]
    simp only [indexPhase2, Nat.zero_add, stepsCode]
    cases hf : s.fault (indexPhase1 corpus cfg s).length with
    | some e => exact Or.inl (aloneTxn_fail e _ _ rfl rfl rfl rfl)
    | none =>
      refine Or.inr ⟨w, ⟨w, w, [], false, 0, false, w :: sn'⟩, e1, ⟨rfl, rfl, rfl, rfl, rfl, rfl⟩, ?_⟩
      · simp only [aloneTxn, Cmd.exec, Conn.commit, Conn.inTxn, Bool.true_or, if_true, Conn.log, List.isEmpty_nil,
          Bool.not_true, Bool.or_self, Bool.false_eq_true, if_false]
        rfl

/-- The second transaction of `index`, on whatever is committed then. -/
theorem aloneTxn_second (corpus : Corpus) (cfg : IndexCfg) (s : Schedule) (c : Conn DB) (db : DB) (hc : Idle c db) :
    FailedAt db (aloneTxn (secondCode corpus cfg s) c) ∨
    ∃ f c', DB.updateChanged none db db = (f, none) ∧ Idle c' f ∧
      aloneTxn (secondCode corpus cfg s) c = (.done (.ok .none), c') := by
  obtain ⟨cm, wk, stk, bg, lv, ch, sn⟩ := c
  obtain ⟨h1, h2, h3, h4, h5, h6⟩ := hc
  simp only at h1 h2 h3 h4 h5 h6
  subst h1 h2 h3 h4 h5 h6
  generalize hk : (indexPhase1 corpus cfg s).length + 1 = k
  simp only [secondCode, hk, stepsCode]
  cases hf : s.fault k with
  | some e =>
    left
    simp only [failCode]
    by_cases hx : e.isException = true
    · simp only [hx, if_true, aloneTxn, Cmd.exec, Conn.rollback, Conn.inTxn, List.isEmpty_nil, Bool.not_true,
        Bool.or_self, Bool.false_eq_true, if_false]
      exact ⟨⟨_, rfl⟩, fun _ => ⟨rfl, rfl, rfl, rfl, rfl⟩⟩
    · simp only [hx, Bool.false_eq_true, if_false, aloneTxn]
      exact ⟨⟨_, rfl⟩, fun _ => ⟨rfl, rfl, rfl, rfl, rfl⟩⟩
  | none =>
    simp only [aloneTxn, Cmd.exec, Conn.begin, Conn.inTxn, List.isEmpty_nil, Bool.not_true, Bool.or_self,
      Bool.false_eq_true, if_false, Conn.log, Bool.true_or, if_true]
    cases hu : DB.updateChanged (s.fault (k + 1)) wk wk with
    | mk d eo =>
      cases eo with
      | some e => exact Or.inl (aloneTxn_fail e _ _ rfl rfl rfl rfl)
      | none =>
        have hu' : DB.updateChanged none wk wk = (d, none) := by
          cases h : s.fault (k + 1) with
          | none => rw [h] at hu; exact hu
          | some e => rw [h] at hu; simp [DB.updateChanged] at hu
        simp only
        cases hf3 : s.fault (k + 1 + 1) with
        | some e => exact Or.inl (aloneTxn_fail e _ _ rfl rfl rfl rfl)
        | none =>
          refine Or.inr ⟨d, ⟨d, d, [], false, 0, false, d :: wk :: wk :: sn⟩, hu', ⟨rfl, rfl, rfl, rfl, rfl, rfl⟩, ?_⟩
          · simp only [aloneTxn, Cmd.exec, Conn.commit, Conn.inTxn, Bool.true_or, if_true, Conn.log, List.isEmpty_nil,
              Bool.not_true, Bool.or_self, Bool.false_eq_true, if_false]

end Hyperreal.Concurrent
