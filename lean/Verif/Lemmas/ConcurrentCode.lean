import Verif.Lemmas.Concurrent
import Verif.Lemmas.Phase1

namespace Hyperreal.Concurrent
open Spec Atomic
variable {σ V : Type}

/-- Leaving a decorated method, as commands and as a function. -/
theorem alone_exit (hk : Option (Housekeeping σ)) (n : String) (w : Bool) (r : Except Err V)
    (K : Except Err V → Code σ V) (c : Conn σ) :
    alone (exitCode hk n w r K) c =
      alone (K (afterBody (hk.getD busyHk) n w c r).2) (afterBody (hk.getD busyHk) n w c r).1 := by
  have fin : ∀ (w : Bool) (r : Except Err V) (c : Conn σ),
      alone (.cmd (.leave w hk) fun e =>
        match e with
        | some e => K (.error e)
        | none => .cmd (.release n) fun e =>
          match e with
          | some e => K (.error e)
          | none => K r) c =
      alone (K (finish (hk.getD busyHk) n { c with changed := c.changed || w } r).2)
        (finish (hk.getD busyHk) n { c with changed := c.changed || w } r).1 := by
    intro w r c
    simp only [alone, Cmd.exec, finish, due]
    by_cases hd : c.level - 1 = 0 ∧ (c.changed || w) = true
    · have hd' : (decide (c.level - 1 = 0) && (c.changed || w)) = true := by simp [hd.1, hd.2]
      simp only [hd', if_true, if_pos hd]
      cases hh : hk.getD busyHk c.committed c.work with
      | mk s eo =>
        cases eo with
        | some e => simp only [hd.2]
        | none =>
          simp only
          split
          · rename_i hr
            simp only [alone, Cmd.exec, hr]
          · rename_i c' hr
            simp only [alone, Cmd.exec, hr]
    · have hd' : (decide (c.level - 1 = 0) && (c.changed || w)) = false := by
        simp only [Bool.and_eq_false_iff, decide_eq_false_iff_not]
        by_cases h1 : c.level - 1 = 0
        · exact Or.inr (by simpa using fun h2 => hd ⟨h1, h2⟩)
        · exact Or.inl h1
      simp only [hd', if_neg hd, Bool.false_eq_true, if_false]
      split
      · rename_i hr
        simp only [alone, Cmd.exec, hr]
      · rename_i c' hr
        simp only [alone, Cmd.exec, hr]
  have hch : ∀ c : Conn σ, ({ c with changed := c.changed || false } : Conn σ) = c := by intro c; simp
  cases r with
  | ok v => simp only [exitCode, afterBody]; exact fin w (.ok v) c
  | error e =>
    simp only [exitCode, afterBody]
    by_cases hx : e.isException = true
    · simp only [hx, if_true]
      simp only [alone, Cmd.exec]
      cases hrb : c.rollbackTo n with
      | none =>
        have := fin false (.error .operational) c
        rw [hch] at this
        simp only [alone] at this ⊢
        exact this
      | some c1 =>
        have := fin false (.error e) c1
        rw [hch] at this
        simp only [alone] at this ⊢
        exact this
    · simp only [hx, Bool.false_eq_true, if_false]
      have := fin false (.error e) c
      rw [hch] at this
      exact this

/-- Code made from a program does what the program does. -/
theorem alone_compile (hk : Option (Housekeeping σ)) (p : Prog σ V) : ∀ (K : Except Err V → Code σ V) (c : Conn σ),
    alone (compile hk p K) c = alone (K (run (hk.getD busyHk) p c).2) (run (hk.getD busyHk) p c).1 := by
  induction p with
  | ret r => intro K c; rfl
  | stmt f k ih => intro K c; simp only [compile, alone, run]; exact ih _ K _
  | call n w body k ihb ihk =>
    intro K c
    simp only [compile, alone, run, Cmd.exec]
    rw [ihb, alone_exit, ihk]

/-- A public call as commands is the public call. -/
theorem alone_call (hk : Option (Housekeeping σ)) (n : String) (w : Bool) (body : Prog σ V) (c : Conn σ) :
    alone (callCode hk n w body) c = callMethod (hk.getD busyHk) n w body c := by
  simp only [callCode, alone_compile, alone, callMethod]

theorem inTxn_of_stack {c : Conn σ} (h : c.stack ≠ []) : c.inTxn = true := by
  simp only [Conn.inTxn, Bool.or_eq_true, Bool.not_eq_true']
  right; cases hc : c.stack with
  | nil => exact absurd hc h
  | cons => rfl

/-- Leaving a decorated method, until the end of the transaction. -/
theorem aloneTxn_exit (hk : Option (Housekeeping σ)) (n : String) (w : Bool) (r : Except Err V)
    (K : Except Err V → Code σ V) (c : Conn σ) (s0 : σ) (rest : List (String × σ)) (hs : c.stack = (n, s0) :: rest) :
    aloneTxn (exitCode hk n w r K) c =
      if (afterBody (hk.getD busyHk) n w c r).1.inTxn then
        aloneTxn (K (afterBody (hk.getD busyHk) n w c r).2) (afterBody (hk.getD busyHk) n w c r).1
      else (K (afterBody (hk.getD busyHk) n w c r).2, (afterBody (hk.getD busyHk) n w c r).1) := by
  have fin : ∀ (w : Bool) (r : Except Err V) (c : Conn σ), c.stack = (n, s0) :: rest →
      aloneTxn (.cmd (.leave w hk) fun e =>
        match e with
        | some e => K (.error e)
        | none => .cmd (.release n) fun e =>
          match e with
          | some e => K (.error e)
          | none => K r) c =
      if (finish (hk.getD busyHk) n { c with changed := c.changed || w } r).1.inTxn then
        aloneTxn (K (finish (hk.getD busyHk) n { c with changed := c.changed || w } r).2)
          (finish (hk.getD busyHk) n { c with changed := c.changed || w } r).1
      else (K (finish (hk.getD busyHk) n { c with changed := c.changed || w } r).2,
        (finish (hk.getD busyHk) n { c with changed := c.changed || w } r).1) := by
    intro w r c hs
    have hlog : ∀ c : Conn σ, c.log.inTxn = c.inTxn := fun _ => rfl
    have hin : ∀ (c : Conn σ), c.stack = (n, s0) :: rest → c.inTxn = true := by
      intro c h; exact inTxn_of_stack (by rw [h]; simp)
    have hrel : ∀ (c : Conn σ), c.stack = (n, s0) :: rest → ∃ c', c.release n = some c' := by
      intro c h; simp [Conn.release, h, findSp]
    simp only [aloneTxn, Cmd.exec, finish, due]
    by_cases hd : c.level - 1 = 0 ∧ (c.changed || w) = true
    · have hd' : (decide (c.level - 1 = 0) && (c.changed || w)) = true := by simp [hd.1, hd.2]
      simp only [hd', if_true, if_pos hd]
      cases hh : hk.getD busyHk c.committed c.work with
      | mk s eo =>
        cases eo with
        | some e => simp only [hd.2, hlog]
        | none =>
          simp only
          obtain ⟨c', hc'⟩ := hrel ({ c with level := c.level - 1, work := s, changed := false } : Conn σ).log hs
          simp only [aloneTxn, Cmd.exec, hc', hlog, hin ({ c with level := c.level - 1, work := s, changed := false } : Conn σ) hs, if_true]
    · have hd' : (decide (c.level - 1 = 0) && (c.changed || w)) = false := by
        simp only [Bool.and_eq_false_iff, decide_eq_false_iff_not]
        by_cases h1 : c.level - 1 = 0
        · exact Or.inr (by simpa using fun h2 => hd ⟨h1, h2⟩)
        · exact Or.inl h1
      simp only [hd', if_neg hd, Bool.false_eq_true, if_false]
      obtain ⟨c', hc'⟩ := hrel ({ c with level := c.level - 1, changed := c.changed || w } : Conn σ) hs
      simp only [aloneTxn, Cmd.exec, hc', hin ({ c with level := c.level - 1, changed := c.changed || w } : Conn σ) hs, if_true]
  have hch : ∀ c : Conn σ, ({ c with changed := c.changed || false } : Conn σ) = c := by intro c; simp
  cases r with
  | ok v => simp only [exitCode, afterBody]; exact fin w (.ok v) c hs
  | error e =>
    simp only [exitCode, afterBody]
    by_cases hx : e.isException = true
    · simp only [hx, if_true]
      simp only [aloneTxn, Cmd.exec]
      have hrb : c.rollbackTo n = some ({ c with work := s0, stack := (n, s0) :: rest } : Conn σ).log := by
        simp [Conn.rollbackTo, hs, findSp]
      simp only [hrb]
      have := fin false (.error e) ({ c with work := s0, stack := (n, s0) :: rest } : Conn σ).log rfl
      rw [hch] at this
      rw [if_pos (inTxn_of_stack (by simp [Conn.log]))]
      exact this
    · simp only [hx, Bool.false_eq_true, if_false]
      have := fin false (.error e) c hs
      rw [hch] at this
      exact this

/-- Inside a transaction, code made from a program stays inside. -/
theorem aloneTxn_compile (hk : Option (Housekeeping σ)) (p : Prog σ V) :
    ∀ (K : Except Err V → Code σ V) (c : Conn σ), c.stack ≠ [] → 1 ≤ c.level →
    aloneTxn (compile hk p K) c = aloneTxn (K (run (hk.getD busyHk) p c).2) (run (hk.getD busyHk) p c).1 := by
  induction p with
  | ret r => intro K c _ _; rfl
  | stmt f k ih =>
    intro K c hs hl
    simp only [compile, aloneTxn, run]
    rw [exec_inTxn, if_pos (inTxn_of_stack hs)]
    have h1 : (c.exec f).1.stack = c.stack ∧ (c.exec f).1.level = c.level := by
      simp only [Conn.exec]
      split
      · exact ⟨rfl, rfl⟩
      · split <;> exact ⟨rfl, rfl⟩
    exact ih _ K _ (by rw [h1.1]; exact hs) (by rw [h1.2]; exact hl)
  | call n w body k ihb ihk =>
    intro K c hs hl
    simp only [compile, aloneTxn, run, Cmd.exec]
    simp only [show (({ c with level := c.level + 1 } : Conn σ).savepoint n).inTxn = true from
      inTxn_of_stack (by simp [Conn.savepoint, Conn.log]), if_true]
    rw [ihb _ _ (by simp [Conn.savepoint, Conn.log]) (by simp only [Conn.savepoint, Conn.log]; omega)]
    obtain ⟨n1, h1⟩ := run_inside (hk.getD busyHk) body (({ c with level := c.level + 1 } : Conn σ).savepoint n)
      (by simp [Conn.savepoint, Conn.log]) (by simp only [Conn.savepoint, Conn.log]; omega)
    rw [h1]
    simp only
    rw [aloneTxn_exit hk n w _ _ _ c.work c.stack rfl]
    obtain ⟨m, hm⟩ := afterBody_inside (hk.getD busyHk) n w c
      (eval body (({ c with level := c.level + 1 } : Conn σ).savepoint n).work).1
      (touched body (({ c with level := c.level + 1 } : Conn σ).savepoint n).work) n1
      (eval body (({ c with level := c.level + 1 } : Conn σ).savepoint n).work).2 hs hl
    have hst : (afterBody (hk.getD busyHk) n w ((({ c with level := c.level + 1 } : Conn σ).savepoint n).after
      (eval body (({ c with level := c.level + 1 } : Conn σ).savepoint n).work).1
      (touched body (({ c with level := c.level + 1 } : Conn σ).savepoint n).work) n1)
      (eval body (({ c with level := c.level + 1 } : Conn σ).savepoint n).work).2).1.stack = c.stack ∧
      (afterBody (hk.getD busyHk) n w ((({ c with level := c.level + 1 } : Conn σ).savepoint n).after
      (eval body (({ c with level := c.level + 1 } : Conn σ).savepoint n).work).1
      (touched body (({ c with level := c.level + 1 } : Conn σ).savepoint n).work) n1)
      (eval body (({ c with level := c.level + 1 } : Conn σ).savepoint n).work).2).1.level = c.level := by
      rw [hm]
      split <;> exact ⟨rfl, rfl⟩
    rw [if_pos (inTxn_of_stack (by rw [hst.1]; exact hs))]
    exact ihk _ K _ (by rw [hst.1]; exact hs) (by rw [hst.2]; exact hl)

/-- A public call is one transaction. -/
theorem aloneTxn_call (hk : Option (Housekeeping σ)) (n : String) (w : Bool) (body : Prog σ V) (c : Conn σ)
    (hl : c.level = 0) :
    aloneTxn (callCode hk n w body) c =
      (.done (callMethod (hk.getD busyHk) n w body c).2, (callMethod (hk.getD busyHk) n w body c).1) := by
  simp only [callCode, compile, aloneTxn, callMethod, run, Cmd.exec]
  simp only [show (({ c with level := c.level + 1 } : Conn σ).savepoint n).inTxn = true from
      inTxn_of_stack (by simp [Conn.savepoint, Conn.log]), if_true]
  rw [aloneTxn_compile hk body _ _ (by simp [Conn.savepoint, Conn.log]) (by simp only [Conn.savepoint, Conn.log]; omega)]
  obtain ⟨n1, h1⟩ := run_inside (hk.getD busyHk) body (({ c with level := c.level + 1 } : Conn σ).savepoint n)
    (by simp [Conn.savepoint, Conn.log]) (by simp only [Conn.savepoint, Conn.log]; omega)
  rw [h1]
  simp only
  rw [aloneTxn_exit hk n w _ _ _ c.work c.stack rfl]
  split <;> rfl

/-! ## Refused statements -/

/-- Programs that do not catch exceptions. -/
inductive Propagates : Prog σ V → Prop where
  | ret (r : Except Err V) : Propagates (.ret r)
  | stmt (f : σ → Except Err (σ × V)) (k : Except Err V → Prog σ V) (he : ∀ e, k (.error e) = .ret (.error e))
      (hk : ∀ v, Propagates (k (.ok v))) : Propagates (.stmt f k)
  | call (name : String) (w : Bool) (b : Prog σ V) (hb : Propagates b) : Propagates (.call name w b .ret)

/-- A refused statement makes the whole call fail, or none was met. -/
theorem faulted_eval {p p' : Prog σ V} (h : Faulted p p') : Propagates p → ∀ s,
    (eval p' s = eval p s ∧ touched p' s = touched p s) ∨
    (∃ d, eval p' s = (d, .error .operational) ∧ touched p' s = false) := by
  have hret : ∀ (r : Except Err V) (q : Prog σ V), Faulted (.ret r) q → q = .ret r := by
    intro r q hq; cases hq; rfl
  induction h with
  | ret r => intro _ s; exact Or.inl ⟨rfl, rfl⟩
  | stmt f k k' h ih =>
    intro hp s
    cases hp with
    | stmt _ _ he hk =>
      simp only [eval, touched]
      cases hf : f s with
      | error e =>
        simp only
        have : k' (.error e) = .ret (.error e) := hret _ _ (he e ▸ h (.error e))
        rw [this, he e]
        exact Or.inl ⟨rfl, rfl⟩
      | ok sv => exact ih (.ok sv.2) (hk sv.2) sv.1
  | busy f k k' h ih =>
    intro hp s
    cases hp with
    | stmt _ _ he hk =>
      have : k' (.error .operational) = .ret (.error .operational) := hret _ _ (he _ ▸ h (.error .operational))
      refine Or.inr ⟨s, ?_, ?_⟩
      · simp only [eval, this]
      · simp only [touched, this]
  | call n w b b' k k' hb h ihb ih =>
    intro hp s
    cases hp with
    | call _ _ _ hpb =>
      have hk : k' = .ret := by
        funext r; exact hret _ _ (h r)
      subst hk
      rcases ihb hpb s with ⟨e1, e2⟩ | ⟨d, e1, e2⟩
      · left
        constructor
        · simp only [eval, e1]
        · simp only [touched, e1, e2]
      · right
        exact ⟨s, by simp [eval, e1, Err.isException], by simp [touched, e1, e2]⟩

end Hyperreal.Concurrent
