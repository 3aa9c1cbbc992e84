import Verif.Spec.Atomic

namespace Hyperreal.Atomic
open Spec
variable {σ V : Type}

/-- The connection after a program inside a transaction: new working content, perhaps marked changed, and `n` more
log entries all showing the unchanged committed content. -/
def Conn.after (c : Conn σ) (w : σ) (t : Bool) (n : Nat) : Conn σ :=
  { c with work := w, changed := c.changed || t, seen := List.replicate n c.committed ++ c.seen }

theorem after_after (c : Conn σ) (w w' : σ) (t t' : Bool) (n m : Nat) :
    (c.after w t n).after w' t' m = c.after w' (t || t') (m + n) := by
  simp only [Conn.after, Bool.or_assoc]
  rw [List.replicate_add, List.append_assoc]

theorem log_after (c : Conn σ) (w : σ) (t : Bool) (n : Nat) : (c.after w t n).log = c.after w t (n + 1) := by
  simp [Conn.after, Conn.log, List.replicate_succ]

theorem log_eq_after (c : Conn σ) : c.log = c.after c.work false 1 := by
  simp [Conn.after, Conn.log]

theorem setWork_log (c : Conn σ) (s : σ) : ({ c with work := s } : Conn σ).log = c.after s false 1 := by
  simp [Conn.after, Conn.log]

/-- What the wrapper does around a nested body. -/
theorem afterBody_inside (hk : Housekeeping σ) (name : String) (writes : Bool) (c : Conn σ) (w : σ) (t : Bool) (n : Nat)
    (r : Except Err V) (hs : c.stack ≠ []) (hl : 1 ≤ c.level) :
    ∃ m, afterBody hk name writes
        ((({ c with level := c.level + 1 } : Conn σ).savepoint name).after w t n) r =
      (match r with
        | .ok _ => c.after w (t || writes) m
        | .error e => c.after (if e.isException then c.work else w) t m, r) := by
  have hrest : c.stack.isEmpty = false := by
    cases hc : c.stack with
    | nil => exact absurd hc hs
    | cons => rfl
  have hlev : ¬ (c.level = 0) := by omega
  have hlev' : c.level + 1 - 1 = c.level := by omega
  cases r with
  | ok v =>
    refine ⟨n + 2, ?_⟩
    simp only [afterBody, finish, Conn.savepoint, Conn.after, Conn.log, hlev, false_and, if_false,
      Conn.release, findSp, if_true, hrest, Bool.false_and, Bool.false_eq_true, hlev', Bool.or_assoc]
    rw [show n + 2 = (n + 1) + 1 from rfl, List.replicate_succ (n := n + 1), List.replicate_succ']
    simp
  | error e =>
    by_cases hex : e.isException
    · refine ⟨n + 3, ?_⟩
      simp only [afterBody, finish, Conn.savepoint, Conn.after, Conn.log, hlev, false_and, if_false, hex, if_true,
        Conn.rollbackTo, Conn.release, findSp, hrest, Bool.false_and, Bool.false_eq_true, hlev']
      rw [show n + 3 = ((n + 1) + 1) + 1 from rfl, List.replicate_succ, List.replicate_succ, List.replicate_succ']
      simp
    · refine ⟨n + 2, ?_⟩
      simp only [afterBody, finish, Conn.savepoint, Conn.after, Conn.log, hlev, false_and, if_false, hex,
        Conn.release, findSp, if_true, hrest, Bool.false_and, Bool.false_eq_true, hlev']
      rw [show n + 2 = (n + 1) + 1 from rfl, List.replicate_succ (n := n + 1), List.replicate_succ']
      simp

/-- Inside a transaction entered through a decorated method, running a program has exactly its transactional effect,
and other connections see nothing of it. -/
theorem run_inside (hk : Housekeeping σ) (p : Prog σ V) :
    ∀ c : Conn σ, c.stack ≠ [] → 1 ≤ c.level →
      ∃ n, run hk p c = (c.after (eval p c.work).1 (touched p c.work) n, (eval p c.work).2) := by
  induction p with
  | ret r => intro c _ _; exact ⟨0, by simp [run, eval, touched, Conn.after]⟩
  | stmt f k ih =>
    intro c hs hl
    have hin : c.inTxn = true := by
      simp only [Conn.inTxn, Bool.or_eq_true, Bool.not_eq_true']
      right; cases hc : c.stack with
      | nil => exact absurd hc hs
      | cons => rfl
    simp only [run, Conn.exec]
    cases hf : f c.work with
    | error e =>
      obtain ⟨n, hn⟩ := ih (.error e) c.log hs hl
      refine ⟨n + 1, ?_⟩
      simp only [hn]
      rw [log_eq_after, after_after]
      simp [eval, touched, hf, Conn.after]
    | ok sv =>
      obtain ⟨s, v⟩ := sv
      simp only [hin, if_true]
      obtain ⟨n, hn⟩ := ih (.ok v) ({ c with work := s } : Conn σ).log hs hl
      refine ⟨n + 1, ?_⟩
      simp only [hn]
      rw [setWork_log, after_after]
      simp [eval, touched, hf, Conn.after]
  | call name writes body k ihb ihk =>
    intro c hs hl
    simp only [run]
    obtain ⟨n1, h1⟩ := ihb (({ c with level := c.level + 1 } : Conn σ).savepoint name)
      (by simp [Conn.savepoint, Conn.log])
      (by simp only [Conn.savepoint, Conn.log]; omega)
    rw [h1]
    obtain ⟨m, hm⟩ := afterBody_inside hk name writes c (eval body c.work).1 (touched body c.work) n1
      (eval body c.work).2 hs hl
    have hw1 : (({ c with level := c.level + 1 } : Conn σ).savepoint name).work = c.work := rfl
    rw [hw1]
    simp only [hm]
    cases he : eval body c.work with
    | mk s' r =>
      cases r with
      | ok v =>
        obtain ⟨n2, h2⟩ := ihk (.ok v) (c.after s' (touched body c.work || writes) m) hs hl
        refine ⟨n2 + m, ?_⟩
        simp only [h2, after_after, eval, touched, he]
        simp [Conn.after]
      | error e =>
        obtain ⟨n2, h2⟩ := ihk (.error e)
          (c.after (if e.isException then c.work else s') (touched body c.work) m) hs hl
        refine ⟨n2 + m, ?_⟩
        simp only [h2, after_after, eval, touched, he]
        simp [Conn.after]

end Hyperreal.Atomic

namespace Hyperreal.Atomic
open Spec
variable {σ V : Type}

/-- The working content when the `finally` clause of the outermost call starts. -/
def endContent (s s' : σ) : Except Err V → σ
  | .ok _ => s'
  | .error e => if e.isException then s else s'

/-- Whether the `finally` clause of the outermost call finds changes. -/
def endChanged (t writes : Bool) : Except Err V → Bool
  | .ok _ => t || writes
  | .error _ => t

/-- What the housekeeping of the outermost call yields. -/
def endHk (hk : Housekeeping σ) (t : Bool) (s w : σ) : σ × Option Err := if t then hk s w else (w, none)

/-- What an outermost call does to an idle connection. -/
theorem callMethod_top (hk : Housekeeping σ) (name : String) (writes : Bool) (body : Prog σ V) (c : Conn σ) (s : σ)
    (hidle : Idle c s) (s' : σ) (r : Except Err V) (he : eval body s = (s', r)) :
    ∃ n seen', seen' = List.replicate n s ++ c.seen ∧
      callMethod hk name writes body c =
        match endHk hk (endChanged (touched body s) writes r) s (endContent s s' r) with
        | (w, none) => (⟨w, w, [], false, 0, false, w :: seen'⟩, r)
        | (w, some e) => (⟨s, w, [(name, s)], false, 0, true, seen'⟩, .error e) := by
  obtain ⟨h1, h2, h3, h4, h5, h6⟩ := hidle
  obtain ⟨committed, work, stack, begun, level, changed, seen⟩ := c
  simp only at h1 h2 h3 h4 h5 h6
  subst h1 h2 h3 h4 h5 h6
  obtain ⟨n, hn⟩ := run_inside hk body ((⟨work, work, [], false, 0 + 1, false, seen⟩ : Conn σ).savepoint name)
    (by simp [Conn.savepoint, Conn.log]) (by simp [Conn.savepoint, Conn.log])
  have hw : ((⟨work, work, [], false, 0 + 1, false, seen⟩ : Conn σ).savepoint name).work = work := rfl
  rw [hw, he] at hn
  have hcons : ∀ (k : Nat) (l : List σ), List.replicate k work ++ work :: l = List.replicate (k + 1) work ++ l := by
    intro k l; rw [List.replicate_succ']; simp
  have hcons' : ∀ (k : Nat) (l : List σ), work :: (List.replicate k work ++ l) = List.replicate (k + 1) work ++ l := by
    intro k l; rw [List.replicate_succ]; simp
  simp only [callMethod, run, hn]
  cases r with
  | ok v =>
    cases ht : (touched body work || writes) with
    | false =>
      refine ⟨n + 1, _, rfl, ?_⟩
      simp [afterBody, finish, Conn.savepoint, Conn.log, Conn.after, Conn.release, findSp, endHk, endChanged, ht,
        endContent, hcons]
    | true =>
      cases hh : hk work s' with
      | mk w eo =>
        cases eo with
        | none =>
          refine ⟨n + 2, _, rfl, ?_⟩
          simp [afterBody, finish, Conn.savepoint, Conn.log, Conn.after, Conn.release, findSp, endHk, endChanged, ht,
            endContent, hcons, hcons', hh]
        | some e =>
          refine ⟨n + 2, _, rfl, ?_⟩
          simp [afterBody, finish, Conn.savepoint, Conn.log, Conn.after, endHk, endChanged, ht,
            endContent, hcons, hcons', hh]
  | error e =>
    by_cases hex : e.isException = true
    · cases ht : touched body work with
      | false =>
        refine ⟨n + 2, _, rfl, ?_⟩
        simp [afterBody, finish, Conn.savepoint, Conn.log, Conn.after, Conn.release, findSp, endHk, endChanged, ht,
          endContent, hcons, hcons', hex, Conn.rollbackTo]
      | true =>
        cases hh : hk work work with
        | mk w eo =>
          cases eo with
          | none =>
            refine ⟨n + 3, _, rfl, ?_⟩
            simp [afterBody, finish, Conn.savepoint, Conn.log, Conn.after, Conn.release, findSp, endHk, endChanged,
              ht, endContent, hcons, hcons', hh, hex, Conn.rollbackTo]
          | some e =>
            refine ⟨n + 3, _, rfl, ?_⟩
            simp [afterBody, finish, Conn.savepoint, Conn.log, Conn.after, findSp, endHk, endChanged, ht,
              endContent, hcons, hcons', hh, hex, Conn.rollbackTo]
    · cases ht : touched body work with
      | false =>
        refine ⟨n + 1, _, rfl, ?_⟩
        simp [afterBody, finish, Conn.savepoint, Conn.log, Conn.after, Conn.release, findSp, endHk, endChanged, ht,
          endContent, hcons, hex]
      | true =>
        cases hh : hk work s' with
        | mk w eo =>
          cases eo with
          | none =>
            refine ⟨n + 2, _, rfl, ?_⟩
            simp [afterBody, finish, Conn.savepoint, Conn.log, Conn.after, Conn.release, findSp, endHk, endChanged,
              ht, endContent, hcons, hcons', hh, hex]
          | some e =>
            refine ⟨n + 2, _, rfl, ?_⟩
            simp [afterBody, finish, Conn.savepoint, Conn.log, Conn.after, endHk, endChanged, ht,
              endContent, hcons, hcons', hh, hex]

end Hyperreal.Atomic
