import Verif.Lemmas.PosIndex
import Verif.Lemmas.Housekeeping

namespace Hyperreal
open Spec DB

theorem runSteps_append (corpus : Corpus) (positions : Bool) (fault : Nat → Option Err) (l₁ l₂ : List Step) :
    ∀ (i : Nat) (c : Atomic.Conn DB), runSteps corpus positions fault i (l₁ ++ l₂) c =
      match runSteps corpus positions fault i l₁ c with
      | (c, some e) => (c, some e)
      | (c, none) => runSteps corpus positions fault (i + l₁.length) l₂ c := by
  induction l₁ with
  | nil => intro i c; simp [runSteps]
  | cons st l ih =>
    intro i c
    simp only [List.cons_append, runSteps]
    cases h : st.exec corpus positions (fault i) c with
    | mk c' e =>
      cases e with
      | some e => rfl
      | none =>
        simp only [ih]
        rw [show i + 1 + l.length = i + (st :: l).length by simp; omega]

/-- The ways a call of `index` on an idle connection can end. -/
inductive CallEnd (corpus : Corpus) (cfg : IndexCfg) (s : Schedule) (c : Atomic.Conn DB) (db : DB) :
    Atomic.Conn DB × Except Err Unit → Prop where
  /-- Failed before the first commit. -/
  | old (c' : Atomic.Conn DB) (e : Err) (hc : c'.committed = db) (hs : ∀ x ∈ c'.seen, x ∈ c.seen ∨ x = db)
      (hi : e.isException = true → Idle c' db)
      (hp : (∀ i, s.fault i = none) → pureSteps corpus cfg.positions (indexPhase1 corpus cfg s) db = .error e)
      (hb : e.isException = false → c'.begun = true ∧ c'.level = 0) :
      CallEnd corpus cfg s c db (c', .error e)
  /-- Failed after the first commit. -/
  | mid (c' : Atomic.Conn DB) (e : Err) (w : DB)
      (hw : pureSteps corpus cfg.positions (indexPhase1 corpus cfg s) db = .ok w) (hc : c'.committed = w)
      (hs : ∀ x ∈ c'.seen, x ∈ c.seen ∨ x = db ∨ x = w) (hi : e.isException = true → Idle c' w)
      (hp : (∀ i, (indexPhase1 corpus cfg s).length < i → s.fault i = none) → (updateChanged none w w).2 = some e) :
      CallEnd corpus cfg s c db (c', .error e)
  /-- Succeeded. -/
  | new (c' : Atomic.Conn DB) (w f : DB)
      (hw : pureSteps corpus cfg.positions (indexPhase1 corpus cfg s) db = .ok w)
      (hf : updateChanged none w w = (f, none)) (hi : Idle c' f)
      (hs : ∀ x ∈ c'.seen, x ∈ c.seen ∨ x = db ∨ x = w ∨ x = f) :
      CallEnd corpus cfg s c db (c', .ok ())

theorem indexCall_end (corpus : Corpus) (cfg : IndexCfg) (s : Schedule) (c : Atomic.Conn DB) (db : DB)
    (hc : Idle c db) : CallEnd corpus cfg s c db (indexCall corpus cfg s c) := by
  obtain ⟨h1, h2, h3, h4, h5, h6⟩ := hc
  obtain ⟨cm, wk, stk, bg, lv, ch, sn⟩ := c
  simp only at h1 h2 h3 h4 h5 h6
  subst h1 h2 h3 h4 h5 h6
  simp only [indexCall, Atomic.Conn.begin, Atomic.Conn.inTxn, List.isEmpty_nil, Bool.not_true, Bool.or_self,
    Bool.false_eq_true, if_false, Atomic.Conn.log, runSteps_append]
  obtain ⟨n, e, w, r1, r2, r3⟩ := runSteps_plain corpus cfg.positions s.fault _ (phase1_plain corpus cfg s) 0
    ⟨wk, wk, [], true, 0, false, wk :: sn⟩ rfl
  simp only at r1 r2 r3
  rw [r1]
  have hseen : ∀ x ∈ List.replicate n wk ++ wk :: sn, x ∈ sn ∨ x = wk := by
    intro x hx
    rcases List.mem_append.1 hx with h | h
    · exact Or.inr (List.eq_of_mem_replicate h)
    · rcases List.mem_cons.1 h with h | h
      · exact Or.inr h
      · exact Or.inl h
  cases e with
  | some e =>
    simp only
    by_cases hx : e.isException = true
    · simp only [hx, if_true, Atomic.Conn.rollback, Atomic.Conn.inTxn, Bool.true_or, Atomic.Conn.log]
      refine .old _ e rfl ?_ (fun _ => ⟨rfl, rfl, rfl, rfl, rfl, rfl⟩) (fun h => by rw [r3 (fun j _ _ => h j)]) (fun h => by rw [hx] at h; cases h)
      intro x hx
      rcases List.mem_cons.1 hx with h | h
      · exact Or.inr h
      · exact hseen x h
    · simp only [hx]
      exact .old _ e rfl hseen (fun h => absurd h hx) (fun h => by rw [r3 (fun j _ _ => h j)]) (fun _ => ⟨rfl, rfl⟩)
  | none =>
    have hw := r2 rfl
    simp only [indexPhase2, runSteps, Nat.zero_add]
    obtain ⟨k, hk⟩ : ∃ k, k = (indexPhase1 corpus cfg s).length := ⟨_, rfl⟩
    rw [← hk]
    -- commit
    cases f0 : s.fault k with
    | some e =>
      simp only [Step.exec]
      by_cases hx : e.isException = true
      · simp only [hx, if_true, Atomic.Conn.rollback, Atomic.Conn.inTxn, Bool.true_or, Atomic.Conn.log]
        refine .old _ e rfl ?_ (fun _ => ⟨rfl, rfl, rfl, rfl, rfl, rfl⟩) (fun h => by simp [h] at f0) (fun h => by rw [hx] at h; cases h)
        intro x hx
        rcases List.mem_cons.1 hx with h | h
        · exact Or.inr h
        · exact hseen x h
      · simp only [hx]
        exact .old _ e rfl hseen (fun h => absurd h hx) (fun h => by simp [h] at f0) (fun _ => ⟨rfl, rfl⟩)
    | none =>
      simp only [Step.exec, Atomic.Conn.commit, Atomic.Conn.inTxn, Bool.true_or, if_true, Atomic.Conn.log]
      have hseen1 : ∀ x ∈ w :: (List.replicate n wk ++ wk :: sn), x ∈ sn ∨ x = wk ∨ x = w := by
        intro x hx
        rcases List.mem_cons.1 hx with h | h
        · exact Or.inr (Or.inr h)
        · exact (hseen x h).imp_right Or.inl
      -- begin
      cases f1 : s.fault (k + 1) with
      | some e =>
        by_cases hx : e.isException = true
        · simp only [hx, if_true, Atomic.Conn.rollback, Atomic.Conn.inTxn, List.isEmpty_nil, Bool.not_true, Bool.or_self,
            Bool.false_eq_true, if_false]
          exact .mid _ _ w hw rfl hseen1 (fun _ => ⟨rfl, rfl, rfl, rfl, rfl, rfl⟩) (fun h => by rw [h _ (by omega)] at f1; cases f1)
        · simp only [hx]
          exact .mid _ _ w hw rfl hseen1 (fun h => absurd h hx) (fun h => by rw [h _ (by omega)] at f1; cases f1)
      | none =>
        simp only [Atomic.Conn.begin, Atomic.Conn.inTxn, List.isEmpty_nil, Bool.not_true, Bool.or_self,
            Bool.false_eq_true, if_false, Atomic.Conn.log]
        have hseen2 : ∀ x ∈ w :: w :: (List.replicate n wk ++ wk :: sn), x ∈ sn ∨ x = wk ∨ x = w := by
          intro x hx
          rcases List.mem_cons.1 hx with h | h
          · exact Or.inr (Or.inr h)
          · exact hseen1 x h
        have hseen3 : ∀ x ∈ w :: w :: w :: (List.replicate n wk ++ wk :: sn), x ∈ sn ∨ x = wk ∨ x = w := by
          intro x hx
          rcases List.mem_cons.1 hx with h | h
          · exact Or.inr (Or.inr h)
          · exact hseen2 x h
        have hseen4 : ∀ x ∈ w :: w :: w :: w :: (List.replicate n wk ++ wk :: sn), x ∈ sn ∨ x = wk ∨ x = w := by
          intro x hx
          rcases List.mem_cons.1 hx with h | h
          · exact Or.inr (Or.inr h)
          · exact hseen3 x h
        -- housekeeping
        cases hu : updateChanged (s.fault (k + 1 + 1)) w w with
        | mk d eo =>
          cases eo with
          | some e =>
            simp only
            have hp : (∀ i, (indexPhase1 corpus cfg s).length < i → s.fault i = none) →
                (updateChanged none w w).2 = some e := by
              intro h; rw [h _ (by omega)] at hu; rw [hu]
            by_cases hx : e.isException = true
            · simp only [hx, if_true, Atomic.Conn.rollback, Atomic.Conn.inTxn, Bool.true_or, Atomic.Conn.log]
              exact .mid _ _ w hw rfl hseen4 (fun _ => ⟨rfl, rfl, rfl, rfl, rfl, rfl⟩) hp
            · simp only [hx]
              exact .mid _ _ w hw rfl hseen3 (fun h => absurd h hx) hp
          | none =>
            have hu' : updateChanged none w w = (d, none) := by
              cases h : s.fault (k + 1 + 1) with
              | none => rw [h] at hu; exact hu
              | some e => rw [h] at hu; simp [updateChanged] at hu
            simp only
            cases f3 : s.fault (k + 1 + 1 + 1) with
            | some e =>
              simp only
              by_cases hx : e.isException = true
              · simp only [hx, if_true, Atomic.Conn.rollback, Atomic.Conn.inTxn, Bool.true_or, Atomic.Conn.log]
                exact .mid _ _ w hw rfl hseen4 (fun _ => ⟨rfl, rfl, rfl, rfl, rfl, rfl⟩) (fun h => by rw [h _ (by omega)] at f3; cases f3)
              · simp only [hx]
                exact .mid _ _ w hw rfl hseen3 (fun h => absurd h hx) (fun h => by rw [h _ (by omega)] at f3; cases f3)
            | none =>
              simp only [Atomic.Conn.commit, Atomic.Conn.inTxn, Bool.true_or, if_true, Atomic.Conn.log]
              refine .new _ w d hw hu' ⟨rfl, rfl, rfl, rfl, rfl, rfl⟩ ?_
              intro x hx
              rcases List.mem_cons.1 hx with h | h
              · exact Or.inr (Or.inr (Or.inr h))
              · rcases hseen3 x h with h | h | h
                · exact Or.inl h
                · exact Or.inr (Or.inl h)
                · exact Or.inr (Or.inr (Or.inl h))

/-- A failure of the housekeeping, and only there. -/
theorem indexCall_housekeeping_fails (corpus : Corpus) (cfg : IndexCfg) (s : Schedule) (c : Atomic.Conn DB) (db w : DB)
    (e : Err) (hc : Idle c db) (hw : pureSteps corpus cfg.positions (indexPhase1 corpus cfg s) db = .ok w)
    (hx : e.isException = true)
    (hfault : ∀ i, s.fault i = if i = (indexPhase1 corpus cfg s).length + 2 then some e else none) :
    (indexCall corpus cfg s c).2 = .error e ∧ Idle (indexCall corpus cfg s c).1 w := by
  obtain ⟨h1, h2, h3, h4, h5, h6⟩ := hc
  obtain ⟨cm, wk, stk, bg, lv, ch, sn⟩ := c
  simp only at h1 h2 h3 h4 h5 h6
  subst h1 h2 h3 h4 h5 h6
  simp only [indexCall, Atomic.Conn.begin, Atomic.Conn.inTxn, List.isEmpty_nil, Bool.not_true, Bool.or_self,
    Bool.false_eq_true, if_false, Atomic.Conn.log, runSteps_append]
  obtain ⟨n, eo, w', r1, -, r3⟩ := runSteps_plain corpus cfg.positions s.fault _ (phase1_plain corpus cfg s) 0
    ⟨wk, wk, [], true, 0, false, wk :: sn⟩ rfl
  simp only at r1 r3
  have := r3 (fun j _ hj => by rw [hfault, if_neg (by omega)])
  rw [hw] at this
  cases eo with
  | some e' => cases this
  | none =>
    simp only [Except.ok.injEq] at this
    subst this
    rw [r1]
    simp only [indexPhase2, runSteps, Nat.zero_add, hfault]
    have a0 : ¬ (indexPhase1 corpus cfg s).length = (indexPhase1 corpus cfg s).length + 2 := by omega
    have a1 : ¬ (indexPhase1 corpus cfg s).length + 1 = (indexPhase1 corpus cfg s).length + 2 := by omega
    have a2 : (indexPhase1 corpus cfg s).length + 1 + 1 = (indexPhase1 corpus cfg s).length + 2 := by omega
    simp only [a0, a1, a2, if_false, if_true, Step.exec, Atomic.Conn.commit, Atomic.Conn.begin, Atomic.Conn.inTxn,
      Bool.true_or, List.isEmpty_nil, Bool.not_true, Bool.or_self, Bool.false_eq_true, Atomic.Conn.log, updateChanged,
      hx, Atomic.Conn.rollback, true_and]
    exact ⟨rfl, rfl, rfl, rfl, rfl, rfl⟩

end Hyperreal
