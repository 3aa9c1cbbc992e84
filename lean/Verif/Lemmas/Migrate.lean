import Verif.Spec.Migrate
import Verif.Lemmas.Housekeeping
import Verif.Lemmas.FieldSummary

/-! # Lemmas about opening an index file -/

namespace Hyperreal
open Spec Atomic
namespace Migrate

/-- Statements one after the other on a file. -/
def runStmts : List Stmt → File → Except Err File
  | [], f => .ok f
  | s :: l, f =>
    match s.refused f with
    | some e => .error e
    | none => runStmts l (s.effect f)

theorem runStmts_append (l m : List Stmt) (f : File) :
    runStmts (l ++ m) f = (runStmts l f).bind (runStmts m) := by
  induction l generalizing f with
  | nil => rfl
  | cons s l ih =>
    simp only [List.cons_append, runStmts]
    cases s.refused f with
    | some e => rfl
    | none => exact ih _

/-- A `begun` connection that has done `work` so far. -/
structure Working (c : Conn File) (f w : File) : Prop where
  committed : c.committed = f
  work : c.work = w
  stack : c.stack = []
  begun : c.begun = true
  level : c.level = 0
  changed : c.changed = false

/-- The statements of a transaction followed by further steps: either all go through, or the connection is left with `f`
committed. -/
theorem runSteps_sql (f : File) (rest : List Step) (l : List Stmt) : ∀ (fault : Nat → Option Err) (c : Conn File) (w : File),
    Working c f w →
    (∃ w' c' n, runStmts l w = .ok w' ∧ Working c' f w' ∧ c'.seen = List.replicate n f ++ c.seen ∧
      (∀ i < l.length, fault i = none) ∧
      runSteps fault (l.map Step.sql ++ rest) c = runSteps (fun i => fault (i + l.length)) rest c') ∨
    (∃ c' e n, runSteps fault (l.map Step.sql ++ rest) c = (c', some e) ∧ c'.committed = f ∧
      c'.seen = List.replicate n f ++ c.seen ∧ ((∃ i < l.length, fault i = some e) ∨ runStmts l w = .error e)) := by
  induction l with
  | nil =>
    intro fault c w h
    exact .inl ⟨w, c, 0, rfl, h, rfl, by simp, rfl⟩
  | cons s l ih =>
    intro fault c w h
    cases hf : fault 0 with
    | some e =>
      exact .inr ⟨c, e, 0, by simp [runSteps, hf], h.committed, rfl, .inl ⟨0, by simp, hf⟩⟩
    | none =>
      cases hr : s.refused w with
      | some e =>
        refine .inr ⟨c.log, e, 1, ?_, by simp [Conn.log, h.committed], by simp [Conn.log, h.committed, List.replicate],
          .inr (by simp [runStmts, hr])⟩
        simp [runSteps, hf, Step.run, Conn.exec, Stmt.run, h.work, hr]
      | none =>
        have hc : Working (({ c with work := s.effect w } : Conn File).log) f (s.effect w) :=
          ⟨h.committed, rfl, h.stack, h.begun, h.level, h.changed⟩
        have hrun : runSteps fault ((s :: l).map Step.sql ++ rest) c =
            runSteps (fun i => fault (i + 1)) (l.map Step.sql ++ rest) (({ c with work := s.effect w } : Conn File).log) := by
          simp [runSteps, hf, Step.run, Conn.exec, Stmt.run, h.work, hr, Conn.inTxn, h.begun]
        have hseen : (({ c with work := s.effect w } : Conn File).log).seen = List.replicate 1 f ++ c.seen := by
          simp [Conn.log, h.committed]
        rcases ih (fun i => fault (i + 1)) _ _ hc with ⟨w', c', n, h1, h2, h3, h4, h5⟩ | ⟨c', e, n, h1, h2, h3, h4⟩
        · refine .inl ⟨w', c', n + 1, by simp [runStmts, hr, h1], h2, ?_, ?_, ?_⟩
          · rw [h3, hseen, ← List.append_assoc, List.replicate_append_replicate]
          · intro i hi
            cases i with
            | zero => exact hf
            | succ i => exact h4 i (by simpa using hi)
          · rw [hrun, h5]; simp [Nat.add_assoc, Nat.add_comm]
        · refine .inr ⟨c', e, n + 1, by rw [hrun, h1], h2, ?_, ?_⟩
          · rw [h3, hseen, ← List.append_assoc, List.replicate_append_replicate]
          · rcases h4 with ⟨i, hi, he⟩ | h4
            · exact .inl ⟨i + 1, by simpa using hi, he⟩
            · exact .inr (by simp [runStmts, hr, h4])

/-- A whole transaction on an idle connection. -/
theorem runSteps_transaction (f : File) (l : List Stmt) (fault : Nat → Option Err) (c : Conn File) (h : Idle c f) :
    (∃ f' c' n, runStmts l f = .ok f' ∧ Idle c' f' ∧ c'.seen = f' :: (List.replicate n f ++ c.seen) ∧
      (∀ i < l.length + 2, fault i = none) ∧ runSteps fault (transaction l) c = (c', none)) ∨
    (∃ c' e n, runSteps fault (transaction l) c = (c', some e) ∧ c'.committed = f ∧
      c'.seen = List.replicate n f ++ c.seen ∧ ((∃ i < l.length + 2, fault i = some e) ∨ runStmts l f = .error e)) := by
  obtain ⟨h1, h2, h3, h4, h5, h6⟩ := h
  cases hf : fault 0 with
  | some e =>
    exact .inr ⟨c, e, 0, by simp [transaction, runSteps, hf], h1, rfl, .inl ⟨0, by simp, hf⟩⟩
  | none =>
    have hc : Working (({ c with begun := true } : Conn File).log) f f := ⟨h1, h2, h3, rfl, h5, h6⟩
    have hrun : runSteps fault (transaction l) c =
        runSteps (fun i => fault (i + 1)) (l.map Step.sql ++ [.commit]) (({ c with begun := true } : Conn File).log) := by
      simp [transaction, runSteps, hf, Step.run, Conn.begin, Conn.inTxn, h3, h4]
    have hseen : (({ c with begun := true } : Conn File).log).seen = List.replicate 1 f ++ c.seen := by
      simp [Conn.log, h1]
    rcases runSteps_sql f [.commit] l (fun i => fault (i + 1)) _ _ hc with
      ⟨w', c', n, a1, a2, a3, a4, a5⟩ | ⟨c', e, n, a1, a2, a3, a4⟩
    · cases hl : fault (l.length + 1) with
      | some e =>
        refine .inr ⟨c', e, n + 1, ?_, a2.committed, ?_, .inl ⟨_, by omega, hl⟩⟩
        · rw [hrun, a5]; simp [runSteps, hl]
        · rw [a3, hseen, ← List.append_assoc, List.replicate_append_replicate]
      | none =>
        refine .inl ⟨w', ({ c' with committed := c'.work, stack := [], begun := false } : Conn File).log, n + 1, a1,
          ⟨by simp [Conn.log, a2.work], a2.work, rfl, rfl, a2.level, a2.changed⟩, ?_, ?_, ?_⟩
        · rw [hseen, ← List.append_assoc, List.replicate_append_replicate] at a3
          simp only [Conn.log, a2.work, a3]
        · intro i hi
          cases i with
          | zero => exact hf
          | succ i =>
            by_cases hi' : i < l.length
            · exact a4 i hi'
            · have : i = l.length := by omega
              subst this; exact hl
        · rw [hrun, a5]
          simp [runSteps, hl, Step.run, Conn.commit, Conn.inTxn, a2.begun]
    · refine .inr ⟨c', e, n + 1, by rw [hrun, a1], a2, ?_, ?_⟩
      · rw [a3, hseen, ← List.append_assoc, List.replicate_append_replicate]
      · rcases a4 with ⟨i, hi, he⟩ | h
        · exact .inl ⟨i + 1, by omega, he⟩
        · exact .inr h

/-! ## The schema script -/

/-- `f` is `f0` with the objects `gone` removed and `extra` added; the tables of the current schema that are there have
the current columns, those that are not there have no rows. -/
structure Sum (f0 f : File) (extra gone : List (Kind × String)) : Prop where
  mem : ∀ o, o ∈ f.objects ↔ (o ∈ f0.objects ∧ o ∉ gone) ∨ o ∈ extra
  cols : ∀ t ∈ currentTables, (Kind.table, t.1) ∈ f.objects → f.columns t.1 = t.2
  clear : ∀ t ∈ currentTables, (Kind.table, t.1) ∉ f.objects → clearTable t.1 f.data = f.data
  data : f.data = f0.data
  version : f.version = f0.version
  app : f.applicationId = f0.applicationId
  wal : f.wal = f0.wal
  settings : f.settings = f0.settings

theorem names_nodup : (currentTables.map (·.1)).Nodup := by decide +kernel

theorem name_inj {t u : String × List String} (ht : t ∈ currentTables) (hu : u ∈ currentTables) (h : t.1 = u.1) : t = u :=
  List.inj_on_of_nodup_map names_nodup ht hu h

theorem Sum.createTable {f0 f : File} {extra gone : List (Kind × String)} (h : Sum f0 f extra gone) (n : String)
    (cs : List String) (hn : (n, cs) ∈ currentTables) (hs : n ≠ "settings") (l : List Stmt) :
    ∃ f', runStmts (.createTable n cs :: l) f = runStmts l f' ∧ Sum f0 f' ((.table, n) :: extra) gone := by
  refine ⟨_, rfl, ?_⟩
  by_cases ht : (Kind.table, n) ∈ f.objects
  · have e : Stmt.effect (.createTable n cs) f = f := by simp [Stmt.effect, File.hasTable, ht]
    rw [e]
    refine ⟨?_, h.cols, h.clear, h.data, h.version, h.app, h.wal, h.settings⟩
    intro o
    rw [h.mem, List.mem_cons]
    constructor
    · tauto
    · rintro (h1 | rfl | h1)
      · exact .inl h1
      · exact (h.mem _).1 ht
      · exact .inr h1
  · have e : Stmt.effect (.createTable n cs) f = { f with
        objects := f.objects ++ [(.table, n)], columns := Function.update f.columns n cs, data := f.data } := by
      simp [Stmt.effect, File.hasTable, ht, hs, h.clear (n, cs) hn ht]
    rw [e]
    refine ⟨?_, ?_, ?_, h.data, h.version, h.app, h.wal, h.settings⟩
    · intro o
      simp only [List.mem_append, List.mem_singleton, h.mem, List.mem_cons]
      tauto
    · intro t ht' hm
      simp only [Function.update_apply]
      split
      · rename_i he
        rw [(name_inj ht' hn he : t = (n, cs))]
      · rename_i hne
        refine h.cols t ht' ?_
        simpa [hne] using hm
    · intro t ht' hm
      refine h.clear t ht' (fun hc => hm ?_)
      simp [hc]

theorem Sum.createIndex {f0 f : File} {extra gone : List (Kind × String)} (h : Sum f0 f extra gone) (n t : String)
    (cs cols : List String) (ht : (t, cs) ∈ currentTables) (hm : (Kind.table, t) ∈ extra) (hc : ∀ c ∈ cols, c ∈ cs)
    (l : List Stmt) :
    ∃ f', runStmts (.createIndex n t cols :: l) f = runStmts l f' ∧ Sum f0 f' ((.index, n) :: extra) gone := by
  have hin : (Kind.table, t) ∈ f.objects := (h.mem _).2 (.inr hm)
  have hr : Stmt.refused (.createIndex n t cols) f = none := by
    have h1 : f.hasTable t = true ∧ ∀ c ∈ cols, c ∈ f.columns t :=
      ⟨by simp [File.hasTable, hin], by rw [h.cols (t, cs) ht hin]; exact hc⟩
    simp only [Stmt.refused]
    rw [if_pos h1]
    split <;> rfl
  refine ⟨Stmt.effect (.createIndex n t cols) f, by simp [runStmts, hr], ?_⟩
  simp only [Stmt.effect]
  split
  · rename_i hx
    refine ⟨?_, h.cols, h.clear, h.data, h.version, h.app, h.wal, h.settings⟩
    intro o
    rw [h.mem, List.mem_cons]
    constructor
    · tauto
    · rintro (h1 | rfl | h1)
      · exact .inl h1
      · exact (h.mem _).1 hx
      · exact .inr h1
  · refine ⟨?_, ?_, ?_, h.data, h.version, h.app, h.wal, h.settings⟩
    · intro o
      simp only [List.mem_append, List.mem_singleton, h.mem, List.mem_cons]
      tauto
    · intro t ht' hm
      exact h.cols t ht' (by simpa using hm)
    · intro t ht' hm
      exact h.clear t ht' (by simpa using hm)

theorem Sum.createTrigger {f0 f : File} {extra gone : List (Kind × String)} (h : Sum f0 f extra gone) (n t : String)
    (hm : (Kind.table, t) ∈ extra) (l : List Stmt) :
    ∃ f', runStmts (.createTrigger n t :: l) f = runStmts l f' ∧ Sum f0 f' ((.trigger, n) :: extra) gone := by
  have hin : (Kind.table, t) ∈ f.objects := (h.mem _).2 (.inr hm)
  have hr : Stmt.refused (.createTrigger n t) f = none := by
    have h1 : f.hasTable t = true := by simp [File.hasTable, hin]
    simp only [Stmt.refused]
    rw [if_pos h1]
    split <;> rfl
  refine ⟨Stmt.effect (.createTrigger n t) f, by simp [runStmts, hr], ?_⟩
  simp only [Stmt.effect]
  split
  · rename_i hx
    refine ⟨?_, h.cols, h.clear, h.data, h.version, h.app, h.wal, h.settings⟩
    intro o
    rw [h.mem, List.mem_cons]
    constructor
    · tauto
    · rintro (h1 | rfl | h1)
      · exact .inl h1
      · exact (h.mem _).1 hx
      · exact .inr h1
  · refine ⟨?_, ?_, ?_, h.data, h.version, h.app, h.wal, h.settings⟩
    · intro o
      simp only [List.mem_append, List.mem_singleton, h.mem, List.mem_cons]
      tauto
    · intro t ht' hm
      exact h.cols t ht' (by simpa using hm)
    · intro t ht' hm
      exact h.clear t ht' (by simpa using hm)

theorem Sum.drop {f0 f : File} {extra gone : List (Kind × String)} (h : Sum f0 f extra gone) (k : Kind) (n : String)
    (hx : (k, n) ∉ extra) (hc : ∀ t ∈ currentTables, (Kind.table, t.1) ≠ (k, n)) (l : List Stmt) :
    ∃ f', runStmts (.drop k n :: l) f = runStmts l f' ∧ Sum f0 f' extra ((k, n) :: gone) := by
  refine ⟨_, rfl, ?_⟩
  simp only [Stmt.effect]
  refine ⟨?_, ?_, ?_, h.data, h.version, h.app, h.wal, h.settings⟩
  · intro o
    simp only [List.mem_filter, h.mem, decide_eq_true_eq, List.mem_cons, ne_eq, not_or]
    constructor
    · rintro ⟨h1 | h1, h2⟩
      · exact .inl ⟨h1.1, h2, h1.2⟩
      · exact .inr h1
    · rintro (⟨h1, h2, h3⟩ | h1)
      · exact ⟨.inl ⟨h1, h3⟩, h2⟩
      · exact ⟨.inr h1, fun e => hx (e ▸ h1)⟩
  · intro t ht hm
    exact h.cols t ht (List.mem_filter.1 hm).1
  · intro t ht hm
    refine h.clear t ht (fun hin => hm (List.mem_filter.2 ⟨hin, ?_⟩))
    exact decide_eq_true (hc t ht)

/-- A file on which the schema script can be run: the current tables that are there have the current columns, those that
are not there have no rows. -/
structure Fits (f : File) : Prop where
  cols : ∀ t ∈ currentTables, (Kind.table, t.1) ∈ f.objects → f.columns t.1 = t.2
  clear : ∀ t ∈ currentTables, (Kind.table, t.1) ∉ f.objects → clearTable t.1 f.data = f.data

theorem runStmts_schema (f : File) (h : Fits f) :
    ∃ f', runStmts schema f = .ok f' ∧ Current f' ∧ f'.data = f.data ∧ f'.wal = f.wal ∧
      ∀ o, o ∈ f'.objects ↔ (o ∈ f.objects ∧ o ∉ obsoleteObjects) ∨ o ∈ currentTables.map (fun t => (Kind.table, t.1)) ∨
        o ∈ currentObjects := by
  -- the first two statements
  obtain ⟨f2, e2, hs2, hset⟩ : ∃ f2, runStmts schema f = runStmts (schema.drop 2) f2 ∧
      Sum { f with settings := f2.settings } f2 [(.table, "settings")] [] ∧ ("position_window_size", 0) ∈ f2.settings := by
    by_cases ht : (Kind.table, "settings") ∈ f.objects
    · refine ⟨{ f with settings := f.settings.filter (fun s => s.1 ≠ "position_window_size") ++ [("position_window_size", 0)] },
        ?_, ⟨?_, h.cols, h.clear, rfl, rfl, rfl, rfl, rfl⟩, by simp⟩
      · simp [schema, runStmts, Stmt.refused, Stmt.effect, File.hasTable, ht]
      · intro o
        simp only [List.mem_singleton, List.not_mem_nil, not_false_eq_true, and_true]
        exact ⟨.inl, fun h => h.elim id (fun e => e ▸ ht)⟩
    · refine ⟨{ f with objects := f.objects ++ [(.table, "settings")],
                       columns := Function.update f.columns "settings" ["key", "value"],
                       settings := [("position_window_size", 0)] }, ?_, ⟨?_, ?_, ?_, rfl, rfl, rfl, rfl, rfl⟩, by simp⟩
      · simp [schema, runStmts, Stmt.refused, Stmt.effect, File.hasTable, ht, clearTable]
      · intro o
        simp only [List.mem_append, List.mem_singleton, List.not_mem_nil, not_false_eq_true, and_true]
      · intro t ht' hm
        simp only [Function.update_apply]
        split
        · rename_i he
          rw [name_inj ht' (by decide +kernel : ("settings", ["key", "value"]) ∈ currentTables) he]
        · rename_i hne
          exact h.cols t ht' (by simpa [hne] using hm)
      · intro t ht' hm
        exact h.clear t ht' (fun hc => hm (by simp [hc]))
  rw [e2]
  simp only [schema, List.drop_succ_cons, List.drop_zero]
  obtain ⟨g, e, h⟩ := hs2.createTable "doc_key" ["doc_id", "doc_key"] (by decide +kernel) (by decide +kernel) _; rw [e]; clear e
  obtain ⟨g, e, h⟩ := h.createTable "inverted_index" ["feature_id", "field", "value", "docs_count", "doc_ids"] (by decide +kernel) (by decide +kernel) _; rw [e]; clear e
  obtain ⟨g, e, h⟩ := h.createTable "position_doc_map" ["field", "first_doc_id", "last_doc_id", "docs_count", "doc_ids", "doc_boundaries"] (by decide +kernel) (by decide +kernel) _; rw [e]; clear e
  obtain ⟨g, e, h⟩ := h.createTable "position_index" ["feature_id", "first_doc_id", "position_count", "positions"] (by decide +kernel) (by decide +kernel) _; rw [e]; clear e
  obtain ⟨g, e, h⟩ := h.createTable "field_summary" ["field", "distinct_values", "min_value", "max_value", "position_count"] (by decide +kernel) (by decide +kernel) _; rw [e]; clear e
  obtain ⟨g, e, h⟩ := h.drop .table "skipgram_count" (by decide +kernel) (by decide +kernel) _; rw [e]; clear e
  obtain ⟨g, e, h⟩ := h.createIndex "docs_counts" "inverted_index" ["feature_id", "field", "value", "docs_count", "doc_ids"] ["docs_count"]
    (by decide +kernel) (by decide +kernel) (by decide +kernel) _; rw [e]; clear e
  obtain ⟨g, e, h⟩ := h.createIndex "field_docs_counts" "inverted_index" ["feature_id", "field", "value", "docs_count", "doc_ids"] ["field", "docs_count"]
    (by decide +kernel) (by decide +kernel) (by decide +kernel) _; rw [e]; clear e
  obtain ⟨g, e, h⟩ := h.createTable "cluster" ["cluster_id", "feature_count", "docs_count", "weight", "doc_ids", "pinned"] (by decide +kernel) (by decide +kernel) _; rw [e]; clear e
  obtain ⟨g, e, h⟩ := h.createTable "feature_cluster" ["feature_id", "cluster_id", "docs_count", "pinned"] (by decide +kernel) (by decide +kernel) _; rw [e]; clear e
  obtain ⟨g, e, h⟩ := h.createIndex "cluster_features" "feature_cluster" ["feature_id", "cluster_id", "docs_count", "pinned"] ["cluster_id", "docs_count"]
    (by decide +kernel) (by decide +kernel) (by decide +kernel) _; rw [e]; clear e
  obtain ⟨g, e, h⟩ := h.createTable "changed_cluster" ["cluster_id"] (by decide +kernel) (by decide +kernel) _; rw [e]; clear e
  obtain ⟨g, e, h⟩ := h.drop .trigger "mark_cluster_changed" (by decide +kernel) (by decide +kernel) _; rw [e]; clear e
  obtain ⟨g, e, h⟩ := h.drop .trigger "ensure_cluster" (by decide +kernel) (by decide +kernel) _; rw [e]; clear e
  obtain ⟨g, e, h⟩ := h.drop .trigger "delete_feature_cluster" (by decide +kernel) (by decide +kernel) _; rw [e]; clear e
  obtain ⟨g, e, h⟩ := h.drop .trigger "ensure_cluster_update" (by decide +kernel) (by decide +kernel) _; rw [e]; clear e
  obtain ⟨g, e, h⟩ := h.drop .trigger "update_cluster_feature_counts" (by decide +kernel) (by decide +kernel) _; rw [e]; clear e
  obtain ⟨g, e, h⟩ := h.createTrigger "insert_feature_checks" "feature_cluster" (by decide +kernel) _; rw [e]; clear e
  obtain ⟨g, e, h⟩ := h.createTrigger "update_feature_checks" "feature_cluster" (by decide +kernel) _; rw [e]; clear e
  obtain ⟨g, e, h⟩ := h.createTrigger "delete_feature_checks" "feature_cluster" (by decide +kernel) _; rw [e]; clear e
  refine ⟨_, rfl, ?_, h.data, h.wal, ?_⟩
  · refine ⟨rfl, rfl, ?_, ?_, ?_, ?_⟩
    · intro t ht
      have hm : (Kind.table, t.1) ∈ g.objects := by
        refine (h.mem _).2 (.inr ?_)
        revert t; decide +kernel
      exact ⟨hm, h.cols t ht hm⟩
    · intro o ho
      refine (h.mem _).2 (.inr ?_)
      revert o; decide +kernel
    · intro o ho
      intro hm
      rcases (h.mem _).1 hm with ⟨-, h2⟩ | h2
      · clear hm; refine h2 ?_; clear h2; revert o; decide +kernel
      · clear hm; revert o; decide +kernel
    · show _ ∈ g.settings
      rw [h.settings]; exact hset
  · intro o
    show o ∈ g.objects ↔ _
    rw [h.mem, ← List.mem_append]
    refine or_congr (and_congr_right' (not_congr ?_)) ?_
    · exact List.Perm.mem_iff (by decide +kernel)
    · exact List.Perm.mem_iff (by decide +kernel)

/-! ## The housekeeping after a migration -/

theorem runSteps_settle (f : File) (fault : Nat → Option Err) (c : Conn File) (h : Idle c f) :
    (∃ d c', DB.updateChanged none f.data f.data = (d, none) ∧ Idle c' { f with data := d } ∧
      c'.seen = { f with data := d } :: (List.replicate 2 f ++ c.seen) ∧ (∀ i < 3, fault i = none) ∧
      runSteps fault [.begin, .housekeeping, .commit] c = (c', none)) ∨
    (∃ c' e n, runSteps fault [.begin, .housekeeping, .commit] c = (c', some e) ∧ c'.committed = f ∧
      c'.seen = List.replicate n f ++ c.seen ∧
      ((∃ i < 3, fault i = some e) ∨ (DB.updateChanged none f.data f.data).2 = some e)) := by
  obtain ⟨cm, wk, st, bg, lv, ch, sn⟩ := c
  obtain ⟨h1, h2, h3, h4, h5, h6⟩ := h
  simp only at h1 h2 h3 h4 h5 h6
  subst h1 h2 h3 h4 h5 h6
  cases hf : fault 0 with
  | some e => exact .inr ⟨⟨wk, wk, [], false, 0, false, sn⟩, e, 0, by simp [runSteps, hf], rfl, rfl, .inl ⟨0, by simp, hf⟩⟩
  | none =>
    cases hf1 : fault 1 with
    | some e =>
      refine .inr ⟨⟨wk, wk, [], true, 0, false, wk :: sn⟩, e, 1, ?_, rfl, rfl, .inl ⟨1, by simp, hf1⟩⟩
      simp [runSteps, hf, hf1, Step.run, Conn.begin, Conn.inTxn, Conn.log]
    | none =>
      cases hu : DB.updateChanged none wk.data wk.data with
      | mk d r =>
        cases r with
        | some e =>
          refine .inr ⟨⟨wk, { wk with data := d }, [], true, 0, false, wk :: wk :: sn⟩, e, 2, ?_, rfl, rfl, .inr rfl⟩
          simp [runSteps, hf, hf1, Step.run, Conn.begin, Conn.inTxn, Conn.log, hu]
        | none =>
          cases hf2 : fault 2 with
          | some e =>
            refine .inr ⟨⟨wk, { wk with data := d }, [], true, 0, false, wk :: wk :: sn⟩, e, 2, ?_, rfl, rfl,
              .inl ⟨2, by simp, hf2⟩⟩
            simp [runSteps, hf, hf1, hf2, Step.run, Conn.begin, Conn.inTxn, Conn.log, hu]
          | none =>
            refine .inl ⟨d, ⟨{ wk with data := d }, { wk with data := d }, [], false, 0, false,
              { wk with data := d } :: wk :: wk :: sn⟩, rfl, ⟨rfl, rfl, rfl, rfl, rfl, rfl⟩, rfl, ?_, ?_⟩
            · intro i hi
              match i, hi with
              | 0, _ => exact hf
              | 1, _ => exact hf1
              | 2, _ => exact hf2
            · simp [runSteps, hf, hf1, hf2, Step.run, Conn.begin, Conn.commit, Conn.inTxn, Conn.log, hu]

/-! ## The field summary -/

theorem writeFieldSummary_spec (d : DB) (hk : (d.features.map (fun r => (r.field, r.value))).Nodup)
    (hi : (d.features.map (·.fid)).Nodup) : FieldsSummarised d.writeFieldSummary := by
  have key : ∀ row ∈ d.writeFieldSummary.fieldSummary, ∃ v vs,
      (d.features.filter (fun r => r.field = row.field)).map (·.value) = v :: vs ∧
      row = ⟨row.field, (v :: vs).length, DB.minVal v vs, DB.maxVal v vs,
          ((d.posIndex.filter (fun p => (d.feature? p.fid).any (fun r => r.field = row.field))).map (·.count)).sum⟩ := by
    intro row hrow
    obtain ⟨f, hfm, e⟩ := List.mem_filterMap.1 hrow
    split at e
    · cases e
    · rename_i v vs heq
      simp only [Option.some.injEq] at e
      subst e
      exact ⟨v, vs, heq, rfl⟩
  have hmem : ∀ f v, v ∈ (d.features.filter (fun r => r.field = f)).map (·.value) ↔
      ∃ r ∈ d.features, r.field = f ∧ r.value = v := by
    intro f v
    simp only [List.mem_map, List.mem_filter, decide_eq_true_eq, and_assoc]
  have hfeat : d.writeFieldSummary.features = d.features := rfl
  have hpos : d.writeFieldSummary.posIndex = d.posIndex := rfl
  refine ⟨?_, ?_, ?_, ?_, ?_, ?_⟩
  · have gen : ∀ l : List String, l.Nodup → ∀ g : String → Option FieldRow, (∀ f row, g f = some row → row.field = f) →
        ((l.filterMap g).map (·.field)).Nodup := by
      intro l hl g hg
      apply List.pairwise_map.2
      rw [List.pairwise_filterMap]
      refine hl.imp ?_
      intro a b hne x hx y hy
      rw [hg a x hx, hg b y hy]; exact hne
    apply gen _ (List.nodup_dedup _)
    intro f row h
    split at h
    · cases h
    · simp only [Option.some.injEq] at h; rw [← h]
  · intro x
    rw [hfeat]
    constructor
    · rintro ⟨row, hrow, rfl⟩
      obtain ⟨v, vs, e, -⟩ := key row hrow
      obtain ⟨r, hr, h1, -⟩ := (hmem row.field v).1 (by rw [e]; simp)
      exact ⟨r, hr, h1⟩
    · rintro ⟨r, hr, rfl⟩
      have hne : (d.features.filter (fun x => x.field = r.field)).map (·.value) ≠ [] :=
        List.ne_nil_of_mem ((hmem r.field r.value).2 ⟨r, hr, rfl, rfl⟩)
      obtain ⟨v, vs, e⟩ := List.exists_cons_of_ne_nil hne
      refine ⟨⟨r.field, (v :: vs).length, DB.minVal v vs, DB.maxVal v vs,
          ((d.posIndex.filter (fun p => (d.feature? p.fid).any (fun x => x.field = r.field))).map (·.count)).sum⟩,
        List.mem_filterMap.2 ⟨r.field, List.mem_dedup.2 (List.mem_map.2 ⟨r, hr, rfl⟩), ?_⟩, rfl⟩
      rw [e]
  · intro row hrow
    obtain ⟨v, vs, e, h⟩ := key row hrow
    rw [h, hfeat, ← e, List.length_map, List.countP_eq_length_filter]
  · intro row hrow
    obtain ⟨v, vs, e, h⟩ := key row hrow
    have hm : row.minValue = DB.minVal v vs := by rw [h]
    obtain ⟨a0, a1, a2⟩ := minVal_spec vs v
    rw [hfeat, hm]
    refine ⟨(hmem _ _).1 (by rw [e]; rcases a0 with h | h <;> simp [h]), ?_⟩
    intro r hr hx
    have := (hmem row.field r.value).2 ⟨r, hr, hx, rfl⟩
    rw [e] at this
    rcases List.mem_cons.1 this with h | h
    · rw [h]; exact a1
    · exact a2 _ h
  · intro row hrow
    obtain ⟨v, vs, e, h⟩ := key row hrow
    have hm : row.maxValue = DB.maxVal v vs := by rw [h]
    obtain ⟨a0, a1, a2⟩ := maxVal_spec vs v
    rw [hfeat, hm]
    refine ⟨(hmem _ _).1 (by rw [e]; rcases a0 with h | h <;> simp [h]), ?_⟩
    intro r hr hx
    have := (hmem row.field r.value).2 ⟨r, hr, hx, rfl⟩
    rw [e] at this
    rcases List.mem_cons.1 this with h | h
    · rw [h]; exact a1
    · exact a2 _ h
  · intro row hrow
    obtain ⟨v, vs, e, h⟩ := key row hrow
    have hp : row.positionCount =
      ((d.posIndex.filter (fun p => (d.feature? p.fid).any (fun x => x.field = row.field))).map (·.count)).sum := by
      rw [h]
    rw [hfeat, hpos, hp]
    congr 2
    apply List.filter_congr
    intro p _
    rw [Bool.eq_iff_iff, decide_eq_true_eq, Option.any_eq_true_iff_get]
    simp only [DB.feature?]
    constructor
    · rintro ⟨h1, h2⟩
      obtain ⟨r, hr⟩ := Option.isSome_iff_exists.1 h1
      refine ⟨r, List.mem_of_find?_eq_some hr, by simpa using List.find?_some hr, ?_⟩
      simpa [hr] using h2
    · rintro ⟨r, hr, h1, h2⟩
      have : d.features.find? (fun x => x.fid = p.fid) = some r := by
        cases hx : d.features.find? (fun x => x.fid = p.fid) with
        | none => have := List.find?_eq_none.1 hx r hr; simp [h1] at this
        | some y =>
          have e1 : y.fid = p.fid := by simpa using List.find?_some hx
          rw [List.inj_on_of_nodup_map hi (List.mem_of_find?_eq_some hx) hr (by rw [e1, h1])]
      simp [this, h2]

/-! ## Upgrading a genuine older index -/

/-- The rows once the missing columns are there. -/
def withColumns (v : Int) (d : DB) : DB :=
  { d with
    clusters := d.clusters.map (fun k => { k with
      docsCount := if 5 ≤ v then k.docsCount else 0
      weight := if 5 ≤ v then k.weight else 0
      docs := if 5 ≤ v then k.docs else none
      pinned := if 8 ≤ v then k.pinned else false })
    fc := d.fc.map (fun r => { r with pinned := if 8 ≤ v then r.pinned else false })
    fieldSummary := d.fieldSummary.map (fun r => { r with positionCount := 0 }) }

/-- The rows when the first transaction commits. -/
def upgraded (v : Int) (d : DB) : DB :=
  DB.writeFieldSummary { withColumns v d with
    changed := if 5 ≤ v then d.changed else d.changed ++ d.clusters.map (·.cid)
    fieldSummary := [] }

theorem pre_ok (v : Int) (f : File) (h : SchemaOf v f) :
    ∃ f1, runStmts ((migrations.filter (fun x => v ≤ x.1)).flatMap (fun x => x.2.1)) f = .ok f1 ∧
      f1.objects = f.objects ∧ f1.wal = f.wal ∧ f1.data = withColumns v f.data ∧
      (∀ t ∈ currentTables, (Kind.table, t.1) ∈ f.objects → f1.columns t.1 = t.2) := by
  obtain ⟨h1, h2⟩ := h.range
  have ho := h.older
  have hx := h.others
  simp only [olderTables, List.mem_cons, List.not_mem_nil, or_false, forall_eq_or_imp, forall_eq, List.map] at ho hx
  obtain ⟨⟨o1, c1⟩, ⟨o2, c2⟩, o3, c3⟩ := ho
  have hv : v = 4 ∨ v = 5 ∨ v = 6 ∨ v = 7 ∨ v = 8 ∨ v = 9 := by omega
  have fin : ∀ f1 : File, f1.columns "cluster" = ["cluster_id", "feature_count", "docs_count", "weight", "doc_ids", "pinned"] →
      f1.columns "feature_cluster" = ["feature_id", "cluster_id", "docs_count", "pinned"] →
      f1.columns "field_summary" = ["field", "distinct_values", "min_value", "max_value", "position_count"] →
      (∀ n, n ≠ "cluster" → n ≠ "feature_cluster" → n ≠ "field_summary" → f1.columns n = f.columns n) →
      (∀ t ∈ currentTables, (Kind.table, t.1) ∈ f.objects → f1.columns t.1 = t.2) := by
    intro f1 a1 a2 a3 a4 t ht hm
    by_cases e1 : t.1 = "cluster"
    · rw [name_inj ht (by decide +kernel : ("cluster", ["cluster_id", "feature_count", "docs_count", "weight", "doc_ids", "pinned"]) ∈ currentTables) e1]; exact a1
    by_cases e2 : t.1 = "feature_cluster"
    · rw [name_inj ht (by decide +kernel : ("feature_cluster", ["feature_id", "cluster_id", "docs_count", "pinned"]) ∈ currentTables) e2]; exact a2
    by_cases e3 : t.1 = "field_summary"
    · rw [name_inj ht (by decide +kernel : ("field_summary", ["field", "distinct_values", "min_value", "max_value", "position_count"]) ∈ currentTables) e3]; exact a3
    rw [a4 _ e1 e2 e3]
    exact hx t ht (by simp [e1, e2, e3]) hm
  suffices hh : ∃ f1, runStmts ((migrations.filter (fun x => v ≤ x.1)).flatMap (fun x => x.2.1)) f = .ok f1 ∧
      f1.objects = f.objects ∧ f1.wal = f.wal ∧ f1.data = withColumns v f.data ∧
      f1.columns "cluster" = ["cluster_id", "feature_count", "docs_count", "weight", "doc_ids", "pinned"] ∧
      f1.columns "feature_cluster" = ["feature_id", "cluster_id", "docs_count", "pinned"] ∧
      f1.columns "field_summary" = ["field", "distinct_values", "min_value", "max_value", "position_count"] ∧
      (∀ n, n ≠ "cluster" → n ≠ "feature_cluster" → n ≠ "field_summary" → f1.columns n = f.columns n) by
    obtain ⟨f1, b1, b2, b3, b4, b5, b6, b7, b8⟩ := hh
    exact ⟨f1, b1, b2, b3, b4, fin f1 b5 b6 b7 b8⟩
  rcases hv with rfl | rfl | rfl | rfl | rfl | rfl <;> norm_num at c1 c2 <;>
    simp [migrations, runStmts, Stmt.refused, Stmt.effect, File.hasTable, o1, o2, o3, c1, c2, c3, fillColumn,
      Function.update_apply, withColumns] <;> intro n h1 h2 h3 <;> simp [h1, h2, h3]

theorem fits_of_schema (v : Int) (f f1 : File) (h : SchemaOf v f) (ho : f1.objects = f.objects)
    (hd : f1.data = withColumns v f.data) (hc : ∀ t ∈ currentTables, (Kind.table, t.1) ∈ f.objects → f1.columns t.1 = t.2) :
    Fits f1 := by
  refine ⟨by rw [ho]; exact hc, ?_⟩
  rw [ho]
  have ho := h.older
  simp only [olderTables, List.mem_cons, List.not_mem_nil, or_false, forall_eq_or_imp, forall_eq] at ho
  obtain ⟨⟨o1, -⟩, ⟨o2, -⟩, o3, -⟩ := ho
  rw [hd]
  simp only [currentTables, List.mem_cons, List.not_mem_nil, or_false, forall_eq_or_imp, forall_eq, o1, o2, o3,
    not_true, false_implies, true_and, clearTable]
  refine ⟨?_, ?_, ?_, ?_, ?_, ?_⟩ <;> intro hn
  · simp
  · simp [withColumns, h.noKeys hn]
  · simp [withColumns, h.noFeatures hn]
  · simp [withColumns, h.noPosDocMap hn]
  · simp [withColumns, h.noPosIndex hn]
  · simp [withColumns, h.noChanged hn]

/-- The first transaction on a file with the tables of version `v`. -/
theorem upgrade_ok (v : Int) (f : File) (h : SchemaOf v f)
    (hch : v = 4 → ∀ k ∈ f.data.clusters, k.cid ∉ f.data.changed) :
    ∃ f', runStmts (upgrade v) f = .ok f' ∧ Current f' ∧ f'.data = upgraded v f.data ∧ f'.wal = f.wal ∧
      ∀ o, o ∈ f'.objects ↔ (o ∈ f.objects ∧ o ∉ obsoleteObjects) ∨ o ∈ currentTables.map (fun t => (Kind.table, t.1)) ∨
        o ∈ currentObjects := by
  obtain ⟨f1, a1, a2, a3, a4, a5⟩ := pre_ok v f h
  obtain ⟨f2, b1, b2, b3, b4, b5⟩ := runStmts_schema f1 (fits_of_schema v f f1 h a2 a4 a5)
  obtain ⟨h1, h2⟩ := h.range
  have hv : v = 4 ∨ v = 5 ∨ v = 6 ∨ v = 7 ∨ v = 8 ∨ v = 9 := by omega
  have t1 : (Kind.table, "cluster") ∈ f2.objects := (b2.tables ("cluster", ["cluster_id", "feature_count", "docs_count", "weight", "doc_ids", "pinned"]) (by decide +kernel)).1
  have t2 : (Kind.table, "changed_cluster") ∈ f2.objects := (b2.tables ("changed_cluster", ["cluster_id"]) (by decide +kernel)).1
  have t3 : (Kind.table, "field_summary") ∈ f2.objects := (b2.tables ("field_summary", ["field", "distinct_values", "min_value", "max_value", "position_count"]) (by decide +kernel)).1
  have t4 : (Kind.table, "inverted_index") ∈ f2.objects := (b2.tables ("inverted_index", ["feature_id", "field", "value", "docs_count", "doc_ids"]) (by decide +kernel)).1
  have t5 : (Kind.table, "position_index") ∈ f2.objects := (b2.tables ("position_index", ["feature_id", "first_doc_id", "position_count", "positions"]) (by decide +kernel)).1
  have t6 : f2.columns "field_summary" = ["field", "distinct_values", "min_value", "max_value", "position_count"] :=
    (b2.tables ("field_summary", ["field", "distinct_values", "min_value", "max_value", "position_count"]) (by decide +kernel)).2
  refine ⟨{ f2 with data := upgraded v f.data }, ?_, ⟨b2.version, b2.applicationId, b2.tables, b2.objects, b2.obsolete, b2.window⟩,
    rfl, by rw [← a3, ← b4], ?_⟩
  · rw [upgrade, runStmts_append, runStmts_append, a1]
    simp only [Except.bind, b1]
    rw [a4] at b3
    rcases hv with rfl | rfl | rfl | rfl | rfl | rfl
    · have hno : ((withColumns 4 f.data).clusters.any fun k => decide (k.cid ∈ (withColumns 4 f.data).changed)) = false := by
        rw [List.any_eq_false]
        intro k hk
        simp only [withColumns, List.mem_map] at hk
        obtain ⟨k0, hk0, rfl⟩ := hk
        simpa [withColumns] using hch rfl k0 hk0
      simp [migrations, runStmts, Stmt.refused, Stmt.effect, File.hasTable, b3, t1, t2, t3, t4, t5, t6, upgraded, hno]
      simp [withColumns, Function.comp_def]
    all_goals
      simp [migrations, runStmts, Stmt.refused, Stmt.effect, File.hasTable, b3, t3, t4, t5, t6, upgraded]
      simp [withColumns]
  · intro o
    rw [← a2]; exact b5 o

/-- The upgrade from version 4 marks all clusters, which fails if one is marked already. -/
theorem upgrade_four_refused (f : File) (h : SchemaOf 4 f) (hch : ∃ k ∈ f.data.clusters, k.cid ∈ f.data.changed) :
    runStmts (upgrade 4) f = .error .integrity := by
  obtain ⟨f1, a1, a2, a3, a4, a5⟩ := pre_ok 4 f h
  obtain ⟨f2, b1, b2, b3, b4, b5⟩ := runStmts_schema f1 (fits_of_schema 4 f f1 h a2 a4 a5)
  have t1 : (Kind.table, "cluster") ∈ f2.objects := (b2.tables ("cluster", ["cluster_id", "feature_count", "docs_count", "weight", "doc_ids", "pinned"]) (by decide +kernel)).1
  have t2 : (Kind.table, "changed_cluster") ∈ f2.objects := (b2.tables ("changed_cluster", ["cluster_id"]) (by decide +kernel)).1
  rw [upgrade, runStmts_append, runStmts_append, a1]
  simp only [Except.bind, b1]
  rw [a4] at b3
  have hyes : ((withColumns 4 f.data).clusters.any fun k => decide (k.cid ∈ (withColumns 4 f.data).changed)) = true := by
    obtain ⟨k, hk, hc⟩ := hch
    rw [List.any_eq_true]
    exact ⟨_, List.mem_map.2 ⟨k, hk, rfl⟩, by simpa [withColumns] using hc⟩
  simp [migrations, runStmts, Stmt.refused, File.hasTable, b3, t1, t2, hyes]

theorem upgraded_pending (v : Int) (d : DB) (hv : 4 ≤ v) (hw : Wellformed d) (hn : v = 4 → d.changed = [])
    (hs : 5 ≤ v → ∀ k ∈ d.clusters, k.cid ∉ d.changed → Exact d k)
    (hk : 5 ≤ v → ∀ c ∈ d.changed, ∃ k ∈ d.clusters, k.cid = c) : Pending (upgraded v d) := by
  have ef : (upgraded v d).features = d.features := rfl
  have efc : (upgraded v d).fc = d.fc.map (fun r => { r with pinned := if 8 ≤ v then r.pinned else false }) := rfl
  have ecl : (upgraded v d).clusters = d.clusters.map (fun k => { k with
      docsCount := if 5 ≤ v then k.docsCount else 0
      weight := if 5 ≤ v then k.weight else 0
      docs := if 5 ≤ v then k.docs else none
      pinned := if 8 ≤ v then k.pinned else false }) := rfl
  have ech : (upgraded v d).changed = if 5 ≤ v then d.changed else d.clusters.map (·.cid) := by
    show (if 5 ≤ v then d.changed else d.changed ++ d.clusters.map (·.cid)) = _
    by_cases h5 : 5 ≤ v
    · rw [if_pos h5, if_pos h5]
    · rw [if_neg h5, if_neg h5, hn (by omega), List.nil_append]
  refine ⟨⟨?_, ?_, ?_, ?_, ?_, ?_, ?_⟩, ?_, ?_⟩
  · exact hw.featureIds
  · exact hw.featureKeys
  · exact hw.counts
  · rw [efc, List.map_map]; exact hw.oneCluster
  · rw [ecl, List.map_map]; exact hw.clusterIds
  · rw [efc]
    intro r hr
    obtain ⟨r0, hr0, rfl⟩ := List.mem_map.1 hr
    exact hw.knownFeature r0 hr0
  · rw [efc, ecl]
    intro r hr
    obtain ⟨r0, hr0, rfl⟩ := List.mem_map.1 hr
    obtain ⟨k, hk, e⟩ := hw.knownCluster r0 hr0
    exact ⟨_, List.mem_map.2 ⟨k, hk, rfl⟩, e⟩
  · intro k hk hnc
    rw [ecl] at hk
    obtain ⟨k0, hk0, rfl⟩ := List.mem_map.1 hk
    by_cases h5 : 5 ≤ v
    · obtain ⟨a1, a2, ⟨D, a3, a4, a5⟩, a6⟩ := hs h5 k0 hk0 (by rwa [ech, if_pos h5] at hnc)
      refine ⟨?_, ?_, ⟨D, ?_, ?_, ?_⟩, ?_⟩
      · obtain ⟨r, hr, e⟩ := a1
        rw [efc]
        exact ⟨_, List.mem_map.2 ⟨r, hr, rfl⟩, e⟩
      · rw [efc, List.countP_map]; exact a2
      · simp [h5, a3]
      · simp [h5, a4]
      · intro x
        rw [a5, efc]
        constructor
        · rintro ⟨r, hr, h1, h2⟩
          exact ⟨_, List.mem_map.2 ⟨r, hr, rfl⟩, h1, h2⟩
        · rintro ⟨r, hr, h1, h2⟩
          obtain ⟨r0, hr0, rfl⟩ := List.mem_map.1 hr
          exact ⟨r0, hr0, h1, h2⟩
      · simp only [h5, if_true]
        rw [a6, efc, List.filter_map, List.map_map]
        rfl
    · rw [ech, if_neg h5] at hnc
      exact absurd (List.mem_map.2 ⟨k0, hk0, rfl⟩) hnc
  · intro c hc
    rw [ech] at hc
    split at hc
    · rename_i h5
      obtain ⟨k, hk', rfl⟩ := hk h5 c hc
      rw [ecl]
      exact ⟨_, List.mem_map.2 ⟨k, hk', rfl⟩, rfl⟩
    · obtain ⟨k, hk, rfl⟩ := List.mem_map.1 hc
      rw [ecl]
      exact ⟨_, List.mem_map.2 ⟨k, hk, rfl⟩, rfl⟩

/-- The housekeeping after the migration of a genuine index. -/
theorem upgraded_settles (v : Int) (d : DB) (hv : 4 ≤ v) (hw : Wellformed d) (hn : v = 4 → d.changed = [])
    (hs : 5 ≤ v → ∀ k ∈ d.clusters, k.cid ∉ d.changed → Exact d k)
    (hk : 5 ≤ v → ∀ c ∈ d.changed, ∃ k ∈ d.clusters, k.cid = c) :
    ∃ d', DB.updateChanged none (upgraded v d) (upgraded v d) = (d', none) ∧ Settled d' ∧ FieldsSummarised d' ∧
      Keeps v d d' := by
  obtain ⟨d', e1, e2, e3, e4, ⟨e5, e6, e7, e8⟩, e9, e10⟩ := DB.updateChanged_spec (upgraded_pending v d hv hw hn hs hk) rfl
  have hfs : FieldsSummarised (upgraded v d) := writeFieldSummary_spec _ hw.featureKeys hw.featureIds
  have efc : d'.fc = d.fc.map (fun r => { r with pinned := if 8 ≤ v then r.pinned else false }) := e4
  refine ⟨d', e1, e2, ?_, ?_⟩
  · obtain ⟨f1, f2, f3, f4, f5, f6⟩ := hfs
    exact ⟨by rw [e8]; exact f1, by rw [e8, e3]; exact f2, by rw [e8, e3]; exact f3, by rw [e8, e3]; exact f4,
      by rw [e8, e3]; exact f5, by rw [e8, e3, e7]; exact f6⟩
  · refine ⟨e5, e3, e6, e7, ?_, ?_, ?_, ?_⟩
    · rw [efc, List.map_map]; rfl
    · intro f
      have : d'.fc.find? (fun r => r.fid = f) =
          (d.fc.find? (fun r => r.fid = f)).map (fun r => { r with pinned := if 8 ≤ v then r.pinned else false }) := by
        rw [efc, List.find?_map]; rfl
      simp only [featurePin, this]
      cases d.fc.find? (fun r => r.fid = f) with
      | none => simp
      | some r => by_cases h : 8 ≤ v <;> simp [h]
    · intro c
      constructor
      · rintro ⟨k, hk, rfl⟩
        obtain ⟨r, hr, e⟩ := (e2.summaries k hk).nonempty
        rw [efc] at hr
        obtain ⟨r0, hr0, rfl⟩ := List.mem_map.1 hr
        exact ⟨r0, hr0, e⟩
      · rintro ⟨r, hr, rfl⟩
        exact e2.knownCluster { r with pinned := if 8 ≤ v then r.pinned else false }
          (by rw [efc]; exact List.mem_map.2 ⟨r, hr, rfl⟩)
    · intro k' hk'
      obtain ⟨k, hk, h1, h2⟩ := e9 k' hk'
      obtain ⟨k0, hk0, rfl⟩ := List.mem_map.1 (show k ∈ d.clusters.map (fun k => { k with
          docsCount := if 5 ≤ v then k.docsCount else 0
          weight := if 5 ≤ v then k.weight else 0
          docs := if 5 ≤ v then k.docs else none
          pinned := if 8 ≤ v then k.pinned else false }) from hk)
      simp only at h1 h2
      split
      · rename_i h8
        have : d.clusters.find? (fun r => r.cid = k'.cid) = some k0 := by
          cases hx : d.clusters.find? (fun x => x.cid = k'.cid) with
          | none => have := List.find?_eq_none.1 hx k0 hk0; simp [h1] at this
          | some y =>
            have e1 : y.cid = k'.cid := by simpa using List.find?_some hx
            rw [List.inj_on_of_nodup_map hw.clusterIds (List.mem_of_find?_eq_some hx) hk0 (by rw [e1, h1])]
        rw [clusterPin, this]
        simp [← h2, h8]
      · rename_i h8
        rw [← h2, if_neg h8]

end Migrate
end Hyperreal
