import Verif.Lemmas.Atomic

/-!
# Properties of the `atomic` decorator (C17, C53)
-/

namespace Hyperreal.Props
open Spec Atomic
variable {σ V : Type}

/-- What an outermost method call is meant to leave in the database: after a normal return the effects of the body, with
the housekeeping applied if something was written; after an exception what was there before. -/
def outcome (hk : Housekeeping σ) (writes : Bool) (body : Prog σ V) (s : σ) : σ :=
  match (eval body s).2 with
  | .ok _ => if touched body s || writes then (hk s (eval body s).1).1 else (eval body s).1
  | .error _ => s

/-- **C17 (part proved).** An outermost call of a decorated method on an idle connection, whatever decorated methods its
body calls to whatever depth and whatever exceptions it catches: the outcome is the one of the all-or-nothing
semantics; afterwards no transaction is open, and committed and working content are both the intended ones (the
effects of the body plus housekeeping, or the previous content if an exception was raised); and at every moment
before the end other connections saw the old content.

The full property has no hypotheses `hok` and `hint`.  Both are needed: the code violates the property when the
housekeeping raises (`atomic_housekeeping_failure`) and for `KeyboardInterrupt` (`atomic_interrupt_commits`).
`hsettled` says the housekeeping has nothing to do on the content before the call; it holds in every reachable
state of the index model (`Hyperreal.Store`). -/
theorem atomic_call_partial (hk : Housekeeping σ) (name : String) (writes : Bool) (body : Prog σ V) (c : Conn σ)
    (s : σ) (hidle : Idle c s) (hsettled : hk s s = (s, none))
    (hok : (hk s (eval body s).1).2 = none)
    (hint : ∀ e, (eval body s).2 = .error e → e.isException = true) :
    (callMethod hk name writes body c).2 = (eval body s).2 ∧
    Idle (callMethod hk name writes body c).1 (outcome hk writes body s) ∧
    ∃ n, (callMethod hk name writes body c).1.seen =
      outcome hk writes body s :: (List.replicate n s ++ c.seen) := by
  obtain ⟨n, seen', hseen, h⟩ := callMethod_top hk name writes body c s hidle _ _ (Prod.mk.eta (p := eval body s)).symm
  have key : endHk hk (endChanged (touched body s) writes (eval body s).2) s
      (endContent s (eval body s).1 (eval body s).2) = (outcome hk writes body s, none) := by
    unfold outcome endHk
    cases hr : (eval body s).2 with
    | ok v =>
      simp only [endChanged, endContent]
      by_cases ht : (touched body s || writes) = true
      · simp only [ht, if_true]; rw [← hok]
      · simp only [ht, if_false, Bool.false_eq_true]
    | error e =>
      simp only [endChanged, endContent, hint e hr, if_true]
      split
      · exact hsettled
      · rfl
  rw [key] at h
  rw [h]
  exact ⟨rfl, ⟨rfl, rfl, rfl, rfl, rfl, rfl⟩, n, by rw [hseen]⟩

/-- A bookkeeping example that meets the hypotheses: the database is a number, the housekeeping rounds up to even
numbers (so it is idle on even ones).  The body adds 1, calls a nested method which adds 10 and fails, catches that, and
returns: the nested effect is gone, the own effect is kept and housekept. -/
example :
    let hk : Housekeeping Nat := fun _ w => (w + w % 2, none)
    let nested : Prog Nat Unit := .call "inner" true (.stmt (fun n => .ok (n + 10, ())) fun _ => .ret (.error .keyError))
      (fun _ => .ret (.ok ()))
    let body : Prog Nat Unit := .stmt (fun n => .ok (n + 1, ())) fun _ => nested
    hk 4 4 = (4, none) ∧ (eval body 4) = (5, .ok ()) ∧ outcome hk true body 4 = 6 ∧
      (callMethod hk "outer" true body (Conn.fresh 4)).1.committed = 6 := by
  refine ⟨rfl, rfl, rfl, rfl⟩

/-- **C17, nested calls.** A decorated method called inside another one, at any depth: if it raises an exception the
content, the savepoints, the level and what others see are exactly as before the call (so the caller may catch it and
go on); if it returns, its effects are in the working content but others still see the old content. -/
theorem atomic_nested (hk : Housekeeping σ) (name : String) (writes : Bool) (body : Prog σ V) (c : Conn σ)
    (hs : c.stack ≠ []) (hl : 1 ≤ c.level) :
    let c' := (callMethod hk name writes body c).1
    (callMethod hk name writes body c).2 = (eval body c.work).2 ∧
    c'.committed = c.committed ∧ c'.stack = c.stack ∧ c'.level = c.level ∧
    (∀ v, (eval body c.work).2 = .ok v → c'.work = (eval body c.work).1) ∧
    (∀ e, (eval body c.work).2 = .error e → e.isException = true → c'.work = c.work) ∧
    (∃ n, c'.seen = List.replicate n c.committed ++ c.seen) := by
  obtain ⟨n, hn⟩ := run_inside hk (.call name writes body .ret) c hs hl
  simp only [callMethod, hn]
  cases he : eval body c.work with
  | mk s' r =>
    cases r with
    | ok v => exact ⟨by simp [eval, he], rfl, rfl, rfl, by simp [Conn.after, eval, he], by simp, n, rfl⟩
    | error e =>
      refine ⟨by simp [eval, he], rfl, rfl, rfl, by simp, ?_, n, rfl⟩
      intro e' h hx
      simp only [Except.error.injEq] at h
      subst h
      simp [Conn.after, eval, he, hx]

example : (⟨0, 3, [("f", 0)], false, 1, false, []⟩ : Conn Nat).stack ≠ [] := by simp

/-- One public call: its name, whether it is marked as writing, and its code. -/
structure Call (σ V : Type) where
  name : String
  writes : Bool
  body : Prog σ V

/-- Several public calls one after another on the same connection (exceptions are the caller's business). -/
def runCalls (hk : Housekeeping σ) (calls : List (Call σ V)) (c : Conn σ) : Conn σ :=
  calls.foldl (fun c m => (callMethod hk m.name m.writes m.body c).1) c

/-- **C17, histories.** For every sequence of public calls on a freshly opened database: if `P` describes the contents on
which the housekeeping has nothing to do, the housekeeping never raises and every method leads from `P` to `P`,
then after the sequence no transaction is open and the committed content is that of running the calls in the
all-or-nothing semantics, one after the other. -/
theorem atomic_history_partial (hk : Housekeeping σ) (P : σ → Prop) (calls : List (Call σ V))
    (hP : ∀ s, P s → hk s s = (s, none))
    (hok : ∀ m ∈ calls, ∀ s, P s → (hk s (eval m.body s).1).2 = none)
    (hint : ∀ m ∈ calls, ∀ s, ∀ e, (eval m.body s).2 = .error e → e.isException = true)
    (hpres : ∀ m ∈ calls, ∀ s, P s → P (outcome hk m.writes m.body s))
    (s : σ) (hs : P s) (c : Conn σ) (hc : Idle c s) :
    Idle (runCalls hk calls c) (calls.foldl (fun s m => outcome hk m.writes m.body s) s) ∧
    P (calls.foldl (fun s m => outcome hk m.writes m.body s) s) := by
  induction calls generalizing s c with
  | nil => exact ⟨hc, hs⟩
  | cons m ms ih =>
    simp only [runCalls, List.foldl_cons]
    have h := atomic_call_partial hk m.name m.writes m.body c s hc (hP s hs) (hok m (by simp) s hs)
      (hint m (by simp) s)
    exact ih (fun x hx => hok x (by simp [hx])) (fun x hx => hint x (by simp [hx]))
      (fun x hx => hpres x (by simp [hx])) _ (hpres m (by simp) s hs) _ h.2.1

/-- **C17, refutation 1.** If the housekeeping raises, the savepoint is never released: the method raises, nothing is
committed, but a transaction stays open. -/
theorem atomic_housekeeping_failure (hk : Housekeeping σ) (name : String) (body : Prog σ V) (c : Conn σ) (s : σ)
    (hidle : Idle c s) (v : V) (hr : (eval body s).2 = .ok v) (e : Err) (hfail : (hk s (eval body s).1).2 = some e) :
    (callMethod hk name true body c).2 = .error e ∧
    (callMethod hk name true body c).1.committed = s ∧
    (callMethod hk name true body c).1.inTxn = true ∧
    (callMethod hk name true body c).1.level = 0 := by
  obtain ⟨n, seen', hseen, h⟩ := callMethod_top hk name true body c s hidle _ _ (Prod.mk.eta (p := eval body s)).symm
  rw [hr] at h
  simp only [endHk, endChanged, Bool.or_true, if_true, endContent] at h
  cases hh : hk s (eval body s).1 with
  | mk w eo =>
    rw [hh] at hfail h
    simp only at hfail
    subst hfail
    simp only at h
    rw [h]
    exact ⟨rfl, rfl, rfl, rfl⟩

/-- **C17, refutation 1, continued.** From then on nothing is durable: with a savepoint left open at level 0, every later
public call — even one that returns normally and whose housekeeping succeeds — commits nothing, and the savepoint stays
open. -/
theorem atomic_never_durable_again (hk : Housekeeping σ) (name : String) (writes : Bool) (body : Prog σ V) (c : Conn σ)
    (hs : c.stack ≠ []) (hl : c.level = 0) :
    (callMethod hk name writes body c).1.committed = c.committed ∧
    (callMethod hk name writes body c).1.stack ≠ [] ∧
    (callMethod hk name writes body c).1.level = 0 ∧
    ∃ n, (callMethod hk name writes body c).1.seen = List.replicate n c.committed ++ c.seen := by
  obtain ⟨n, hn⟩ := run_inside hk body (({ c with level := c.level + 1 } : Conn σ).savepoint name)
    (by simp [Conn.savepoint, Conn.log]) (by simp [Conn.savepoint, Conn.log, hl])
  have hrest : c.stack.isEmpty = false := by
    cases hc : c.stack with
    | nil => exact absurd hc hs
    | cons => rfl
  have hcons : ∀ (k : Nat) (l : List σ), c.committed :: (List.replicate k c.committed ++ l) =
      List.replicate (k + 1) c.committed ++ l := by
    intro k l; rw [List.replicate_succ]; simp
  have hfin : ∀ (c2 : Conn σ) (w : σ) (r : Except Err V), c2.stack = (name, w) :: c.stack → c2.level = 1 →
      c2.committed = c.committed → (∃ k, c2.seen = List.replicate k c.committed ++ c.seen) →
      (finish hk name c2 r).1.committed = c.committed ∧ (finish hk name c2 r).1.stack ≠ [] ∧
        (finish hk name c2 r).1.level = 0 ∧
        ∃ k, (finish hk name c2 r).1.seen = List.replicate k c.committed ++ c.seen := by
    rintro c2 w r h1 h2 h3 ⟨k, h4⟩
    simp only [finish]
    split
    · split
      · exact ⟨by simp [Conn.log, h3], by simp [Conn.log, h1], by simp [Conn.log, h2],
          k + 1, by simp [Conn.log, h3, h4, hcons]⟩
      · simp only [Conn.log, Conn.release, findSp, h1, h2, h3, hrest, if_true, Bool.false_and,
          Bool.false_eq_true, if_false]
        exact ⟨trivial, hs, rfl, k + 2, by simp [h4, hcons]⟩
    · simp only [Conn.log, Conn.release, findSp, h1, h2, h3, hrest, if_true, Bool.false_and,
          Bool.false_eq_true, if_false]
      exact ⟨trivial, hs, rfl, k + 1, by simp [h4, hcons]⟩
  simp only [callMethod, run, hn]
  have hlev : c.level + 1 = 1 := by omega
  have hseen : ∀ k, List.replicate k c.committed ++ c.committed :: c.seen =
      List.replicate (k + 1) c.committed ++ c.seen := by
    intro k; rw [List.replicate_succ']; simp
  generalize (eval body (({ c with level := c.level + 1 } : Conn σ).savepoint name).work).2 = r
  cases r with
  | ok v => exact hfin _ c.work _ rfl hlev rfl ⟨_, hseen n⟩
  | error e =>
    simp only [afterBody]
    split
    · simp only [Conn.rollbackTo, Conn.savepoint, Conn.log, Conn.after, findSp, if_true]
      exact hfin _ c.work _ rfl hlev rfl ⟨n + 2, by simp only; rw [hseen n, hcons]⟩
    · exact hfin _ c.work _ rfl hlev rfl ⟨_, hseen n⟩

/-- **C17, refutation 2.** `KeyboardInterrupt` is not an `Exception`: a method interrupted half-way commits what it did
so far (here for a body without nested writing calls). -/
theorem atomic_interrupt_commits (hk : Housekeeping σ) (name : String) (writes : Bool) (body : Prog σ V) (c : Conn σ)
    (s : σ) (hidle : Idle c s) (hr : (eval body s).2 = .error .interrupt) (ht : touched body s = false) :
    (callMethod hk name writes body c).2 = .error .interrupt ∧
    (callMethod hk name writes body c).1.committed = (eval body s).1 := by
  obtain ⟨n, seen', hseen, h⟩ := callMethod_top hk name writes body c s hidle _ _ (Prod.mk.eta (p := eval body s)).symm
  rw [hr] at h
  simp [endHk, endChanged, ht, endContent, Err.isException] at h
  rw [h]; exact ⟨rfl, rfl⟩

/-- A concrete interrupted method: it had already written one of its two changes. -/
example : (callMethod (V := Unit) (fun _ w => (w, none)) "merge_clusters" true
    (.stmt (fun n => .ok (n + 1, ())) fun _ => .ret (.error .interrupt)) (Conn.fresh 7)).1.committed = 8 := rfl

/-- While a `begin` is open no sequence of calls, failing or not, commits anything. -/
theorem begun_commits_nothing (hk : Housekeeping σ) (calls : List (Call σ V)) (s : σ) (seen : List σ) (c1 : Conn σ)
    (h1 : c1.begun = true ∧ c1.level = 0 ∧ c1.committed = s ∧ ∃ n, c1.seen = List.replicate n s ++ seen) :
    (runCalls hk calls c1).begun = true ∧ (runCalls hk calls c1).level = 0 ∧ (runCalls hk calls c1).committed = s ∧
      ∃ n, (runCalls hk calls c1).seen = List.replicate n s ++ seen := by
  induction calls generalizing c1 with
  | nil => exact h1
  | cons m ms ih =>
    simp only [runCalls, List.foldl_cons]
    refine ih _ ?_
    obtain ⟨hbg, hl, hcm, n0, hsn⟩ := h1
    obtain ⟨n, hn⟩ := run_inside hk m.body (({ c1 with level := c1.level + 1 } : Conn σ).savepoint m.name)
      (by simp [Conn.savepoint, Conn.log]) (by simp [Conn.savepoint, Conn.log, hl])
    have hcons : ∀ (k : Nat) (l : List σ), s :: (List.replicate k s ++ l) = List.replicate (k + 1) s ++ l := by
      intro k l; rw [List.replicate_succ]; simp
    have hfin : ∀ (c2 : Conn σ) (w : σ) (r : Except Err V), c2.stack = (m.name, w) :: c1.stack → c2.level = 1 →
        c2.committed = s → c2.begun = true → (∃ k, c2.seen = List.replicate k s ++ seen) →
        (finish hk m.name c2 r).1.begun = true ∧ (finish hk m.name c2 r).1.level = 0 ∧
        (finish hk m.name c2 r).1.committed = s ∧
        ∃ k, (finish hk m.name c2 r).1.seen = List.replicate k s ++ seen := by
      rintro c2 w r h1 h2 h3 h4 ⟨k, h5⟩
      simp only [finish]
      split
      · split
        · exact ⟨h4, by simp [Conn.log, h2], h3, k + 1, by simp [Conn.log, h3, h5, hcons]⟩
        · simp only [Conn.log, Conn.release, findSp, h1, h2, h3, h4, if_true, Bool.not_true, Bool.and_false,
            Bool.false_eq_true, if_false]
          exact ⟨trivial, rfl, trivial, k + 2, by simp [h5, hcons]⟩
      · simp only [Conn.log, Conn.release, findSp, h1, h2, h3, h4, if_true, Bool.not_true, Bool.and_false,
            Bool.false_eq_true, if_false]
        exact ⟨trivial, rfl, trivial, k + 1, by simp [h5, hcons]⟩
    simp only [callMethod, run, hn]
    have hlev : c1.level + 1 = 1 := by omega
    have hseen : ∀ k, List.replicate k c1.committed ++ c1.committed :: c1.seen =
        List.replicate (k + (1 + n0)) s ++ seen := by
      intro k
      rw [hcm, hsn, hcons, List.replicate_add k, List.append_assoc, Nat.add_comm 1]
    generalize (eval m.body (({ c1 with level := c1.level + 1 } : Conn σ).savepoint m.name).work).2 = r
    cases r with
    | ok v => exact hfin _ c1.work _ rfl hlev hcm hbg ⟨_, hseen n⟩
    | error e =>
      simp only [afterBody]
      split
      · simp only [Conn.rollbackTo, Conn.savepoint, Conn.log, Conn.after, findSp, if_true]
        refine hfin _ c1.work _ rfl hlev hcm hbg ⟨n + (1 + n0) + 1, ?_⟩
        simp only
        rw [hseen n, hcm, hcons]
      · exact hfin _ c1.work _ rfl hlev hcm hbg ⟨_, hseen n⟩

/-- **C53.** Work done inside `with idx:` (as the pool workers do) is invisible to everybody else and discarded at the
end: after `__enter__` no sequence of calls, failing or not, commits anything, and closing the connection in `__exit__`
leaves exactly the content that was committed before. -/
theorem with_block_discards (hk : Housekeeping σ) (calls : List (Call σ V)) (s : σ) (c c1 : Conn σ)
    (hc : Idle c s) (hb : c.begin = some c1) :
    (runCalls hk calls c1).close = s ∧ ∃ n, (runCalls hk calls c1).seen = List.replicate n s ++ c.seen := by
  have h1 : c1.begun = true ∧ c1.level = 0 ∧ c1.committed = s ∧ ∃ n, c1.seen = List.replicate n s ++ c.seen := by
    simp only [Conn.begin] at hb
    split at hb
    · exact absurd hb (by simp)
    · simp only [Option.some.injEq] at hb
      subst hb
      exact ⟨rfl, hc.level, hc.committed, 1, by simp [Conn.log, hc.committed]⟩
  exact (begun_commits_nothing hk calls s c.seen c1 h1).2.2

example : (runCalls (V := Unit) (fun _ w => (w, none))
    [⟨"delete_clusters", true, .stmt (fun n => .ok (n + 1, ())) .ret⟩]
    (((Conn.fresh 7 : Conn Nat).begin).getD (Conn.fresh 0))).close = 7 := rfl

end Hyperreal.Props
