import Verif.Lemmas.Migrate

/-!
# The possible courses of opening an index file
-/

namespace Hyperreal
namespace Migrate
open Spec Atomic

/-- The file with the journal mode switched to WAL, nothing else. -/
def inWal (f : File) : File := { f with wal := true }

/-- The pragma that switches to WAL. -/
theorem open_pragma (fault : Nat → Option Err) (f : File) :
    (∃ e, runSteps fault [.sql .walMode] (Conn.fresh f) = (Conn.fresh f, some e) ∧ fault 0 = some e) ∨
    (∃ c, runSteps fault [.sql .walMode] (Conn.fresh f) = (c, none) ∧ Idle c (inWal f) ∧ c.seen = [inWal f] ∧
      fault 0 = none) := by
  cases h : fault 0 with
  | some e => exact .inl ⟨e, by simp [runSteps, h], rfl⟩
  | none =>
    refine .inr ⟨⟨inWal f, inWal f, [], false, 0, false, [inWal f]⟩, ?_, ⟨rfl, rfl, rfl, rfl, rfl, rfl⟩, rfl, rfl⟩
    simp [runSteps, h, Step.run, Conn.exec, Stmt.run, Stmt.refused, Stmt.effect, Conn.fresh, Conn.inTxn, Conn.log, inWal]

/-- The versions that can be upgraded. -/
theorem mem_versions (v : Int) : v ∈ migrations.map (·.1) ↔ 4 ≤ v ∧ v ≤ 9 := by
  simp only [migrations, List.map, List.mem_cons, List.not_mem_nil, or_false]
  omega

/-- The process died (or the housekeeping failed) between the two transactions of a migration. -/
def halfway : Faults := ⟨fun _ => none, fun _ => none, fun _ => some .interrupt⟩

/-- How an opening may go, for every file and all failures. -/
inductive Course (fault : Faults) (f : File) : Prop
  /-- it fails before anything is done -/
  | pragma (e : Err) (h : openIndex fault f = (Conn.fresh f, .error e)) (he : fault.pragma 0 = some e)
  /-- the file is refused -/
  | refused (c : Conn File) (e : Err) (h : openIndex fault f = (c, .error e)) (hc : Idle c (inWal f)) (hs : c.seen = [inWal f])
      (hv : ¬ (4 ≤ f.version ∧ f.version ≤ 10)) (hnew : ¬ (f.version = 0 ∧ f.objects = []))
      (he : e = if f.version = 0 then .nameError else .migration)
  /-- nothing to do -/
  | current (c : Conn File) (h : openIndex fault f = (c, .ok false)) (hc : Idle c (inWal f)) (hs : c.seen = [inWal f])
      (hv : f.version = 10)
  /-- the schema is created -/
  | created (c : Conn File) (f' : File) (h : openIndex fault f = (c, .ok false)) (hr : runStmts schema (inWal f) = .ok f')
      (hc : Idle c f') (hs : ∃ n, c.seen = f' :: List.replicate n (inWal f)) (hv : f.version = 0) (ho : f.objects = [])
  /-- a statement fails -/
  | failed (c : Conn File) (e : Err) (h : openIndex fault f = (c, .error e)) (hc : c.committed = inWal f)
      (hs : ∃ n, c.seen = List.replicate n (inWal f))
      (he : (∃ i, fault.migrate i = some e) ∨ runStmts (if f.version = 0 then schema else upgrade f.version) (inWal f) = .error e)
      (hv : (f.version = 0 ∧ f.objects = []) ∨ (4 ≤ f.version ∧ f.version ≤ 9))
  /-- the migration is committed, the housekeeping is not -/
  | half (c : Conn File) (f' : File) (e : Err) (h : openIndex fault f = (c, .error e))
      (hr : runStmts (upgrade f.version) (inWal f) = .ok f') (hc : c.committed = f')
      (hs : ∃ n m, c.seen = List.replicate n f' ++ List.replicate m (inWal f)) (hv : 4 ≤ f.version ∧ f.version ≤ 9)
      (he : (∃ i, fault.settle i = some e) ∨ (DB.updateChanged none f'.data f'.data).2 = some e)
  /-- migrated and brought up to date -/
  | migrated (c : Conn File) (f' : File) (d : DB) (h : openIndex fault f = (c, .ok true))
      (hr : runStmts (upgrade f.version) (inWal f) = .ok f') (hd : DB.updateChanged none f'.data f'.data = (d, none))
      (hc : Idle c { f' with data := d }) (hv : 4 ≤ f.version ∧ f.version ≤ 9)
      (hs : ∃ n m, c.seen = { f' with data := d } :: (List.replicate n f' ++ List.replicate m (inWal f)))

theorem course (fault : Faults) (f : File) : Course fault f := by
  rcases open_pragma fault.pragma f with ⟨e, h, he⟩ | ⟨c, h, hc, hs, -⟩
  · exact .pragma e (by simp [openIndex, h]) he
  have hvw : c.work.version = f.version := by rw [hc.work]; rfl
  have how : c.work.objects = f.objects := by rw [hc.work]; rfl
  by_cases h0 : f.version = 0
  · by_cases ho : f.objects = []
    · rcases runSteps_transaction (inWal f) schema fault.migrate c hc with
        ⟨f', c', n, a1, a2, a3, -, a5⟩ | ⟨c', e, n, a1, a2, a3, a4⟩
      · refine .created c' f' ?_ a1 a2 ⟨n + 1, ?_⟩ h0 ho
        · simp [openIndex, h, migrate, hvw, how, h0, ho, a5]
        · rw [a3, hs, List.replicate_succ']
      · refine .failed c' e ?_ a2 ⟨n + 1, ?_⟩ ?_ (.inl ⟨h0, ho⟩)
        · simp [openIndex, h, migrate, hvw, how, h0, ho, a1]
        · rw [a3, hs, List.replicate_succ']
        · rcases a4 with ⟨i, -, hi⟩ | h
          · exact .inl ⟨i, hi⟩
          · right; simpa [h0] using h
    · refine .refused c .nameError ?_ hc hs (by omega) (by simp [ho]) (by simp [h0])
      have : f.objects.length > 0 := List.length_pos_iff.2 ho
      simp [openIndex, h, migrate, hvw, how, h0, this]
  · by_cases h10 : f.version = 10
    · refine .current c ?_ hc hs h10
      simp [openIndex, h, migrate, hvw, h10, currentVersion]
    · by_cases hv : 4 ≤ f.version ∧ f.version ≤ 9
      · have hm := (mem_versions f.version).2 hv
        have hmig : migrate fault.migrate c = match runSteps fault.migrate (transaction (upgrade f.version)) c with
            | (c, some e) => (c, .error e)
            | (c, none) => (c, .ok true) := by
          simp only [migrate, hvw, if_neg h0, if_neg h10, currentVersion, if_pos hm]
          rfl
        rcases runSteps_transaction (inWal f) (upgrade f.version) fault.migrate c hc with
          ⟨f', c', n, a1, a2, a3, -, a5⟩ | ⟨c', e, n, a1, a2, a3, a4⟩
        · rw [a5] at hmig
          have hopen : openIndex fault f = match runSteps fault.settle [.begin, .housekeeping, .commit] c' with
              | (c, some e) => (c, .error e)
              | (c, none) => (c, .ok true) := by
            simp [openIndex, h, hmig]
            rfl
          rcases runSteps_settle f' fault.settle c' a2 with
            ⟨d, c2, b1, b2, b3, -, b5⟩ | ⟨c2, e, m, b1, b2, b3, b4⟩
          · rw [b5] at hopen
            refine .migrated c2 f' d hopen a1 b1 b2 hv ⟨3, n + 1, ?_⟩
            rw [b3, a3, hs, List.replicate_succ' (n := n)]
            rfl
          · rw [b1] at hopen
            refine .half c2 f' e hopen a1 b2 ⟨m + 1, n + 1, ?_⟩ hv ?_
            · rw [b3, a3, hs, List.replicate_succ' (n := n), List.replicate_succ' (n := m)]
              simp
            · rcases b4 with ⟨i, -, hi⟩ | h
              · exact .inl ⟨i, hi⟩
              · exact .inr h
        · rw [a1] at hmig
          refine .failed c' e ?_ a2 ⟨n + 1, ?_⟩ ?_ (.inr hv)
          · simp [openIndex, h, hmig]
          · rw [a3, hs, List.replicate_succ']
          · rcases a4 with ⟨i, -, hi⟩ | h
            · exact .inl ⟨i, hi⟩
            · right; simpa [h0] using h
      · refine .refused c .migration ?_ hc hs (by omega) (by simp [h0]) (by simp [h0])
        have hm : f.version ∉ migrations.map (·.1) := fun h => hv ((mem_versions _).1 h)
        simp only [openIndex, h, migrate, hvw, if_neg h0, if_neg h10, currentVersion, if_neg hm]

end Migrate
end Hyperreal
