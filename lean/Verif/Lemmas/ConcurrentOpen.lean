import Verif.Model.ConcurrentOpen
import Verif.Lemmas.Concurrent
import Verif.Lemmas.MigrateCourse

/-! # Lemmas about several openings of one file -/

namespace Hyperreal.Migrate
open Spec Atomic Concurrent

/-- The code of an opening between two of its transactions. -/
inductive Phase : Code File Seen → Prop where
  | start (fault : Faults) (reads : Nat → Option Err) : Phase (openCode fault reads)
  | look (fault : Faults) (reads : Nat → Option Err) : Phase (lookCode fault reads)
  | know (fault : Faults) (reads : Nat → Option Err) (v : Int) : Phase (knowCode fault reads v)
  | create (fault : Faults) : Phase (createCode fault)
  | settle (fault : Faults) : Phase (settleCode fault)
  | done (r : Except Err Seen) : Phase (.done r)

/-- One transaction of an opening: it starts from content `f` with code `p`, and ends with content `f'` and code `p'`. -/
inductive OpenTxn (f : File) : File → Code File Seen → Code File Seen → Prop where
  | wal (fault : Faults) (reads : Nat → Option Err) : OpenTxn f (inWal f) (openCode fault reads) (lookCode fault reads)
  | version (fault : Faults) (reads : Nat → Option Err) :
      OpenTxn f f (lookCode fault reads) (knowCode fault reads f.version)
  | count (fault : Faults) (reads : Nat → Option Err) :
      OpenTxn f f (knowCode fault reads 0) (if f.objects.length > 0 then .done (.error .nameError) else createCode fault)
  | create (fault : Faults) (f' : File) (h : runStmts schema f = .ok f') :
      OpenTxn f f' (createCode fault) (.done (.ok (.opened false)))
  | upgrade (fault : Faults) (reads : Nat → Option Err) (v : Int) (hv : 4 ≤ v ∧ v ≤ 9) (f' : File)
      (h : runStmts (upgrade v) f = .ok f') : OpenTxn f f' (knowCode fault reads v) (settleCode fault)
  | settle (fault : Faults) (d : DB) (h : DB.updateChanged none f.data f.data = (d, none)) :
      OpenTxn f { f with data := d } (settleCode fault) (.done (.ok (.opened true)))

theorem idle_inTxn {c : Conn File} {f : File} (h : Idle c f) : c.inTxn = false := by
  simp [Conn.inTxn, h.stack, h.begun]

theorem working_inTxn {c : Conn File} {f w : File} (h : Working c f w) : c.inTxn = true := by
  simp [Conn.inTxn, h.begun]

theorem exec_idle {c : Conn File} {f f' : File} (h : Idle c f) (g : File → Except Err (File × Seen)) (v : Seen)
    (hg : g f = .ok (f', v)) : Idle (c.exec g).1 f' ∧ (c.exec g).2 = .ok v := by
  simp only [Conn.exec, h.work, hg, idle_inTxn h, Bool.false_eq_true, if_false]
  exact ⟨⟨rfl, rfl, h.stack, h.begun, h.level, h.changed⟩, trivial⟩

/-- The statements of a transaction and its end. -/
theorem txn_sql (k : Code File Seen) (f : File) (l : List Stmt) : ∀ (fault : Nat → Option Err) (c : Conn File) (w : File),
    Working c f w →
    (∃ w', runStmts l w = .ok w' ∧ (aloneTxn (stepsCode fault (l.map .sql ++ [.commit]) k) c).1 = k ∧
      Idle (aloneTxn (stepsCode fault (l.map .sql ++ [.commit]) k) c).2 w') ∨
    ((aloneTxn (stepsCode fault (l.map .sql ++ [.commit]) k) c).2.inTxn = true ∧
      ∃ e, (aloneTxn (stepsCode fault (l.map .sql ++ [.commit]) k) c).1 = .done (.error e) ∧
        ((∃ i, fault i = some e) ∨ runStmts l w = .error e)) := by
  induction l with
  | nil =>
    intro fault c w h
    simp only [List.map_nil, List.nil_append, stepsCode]
    cases hf : fault 0 with
    | some e => right; exact ⟨by simpa only [aloneTxn] using working_inTxn h, e, rfl, .inl ⟨0, hf⟩⟩
    | none =>
      left
      refine ⟨w, rfl, ?_⟩
      simp only [aloneTxn, Cmd.exec, Conn.commit, working_inTxn h, if_true]
      simp only [Conn.log, Conn.inTxn, h.work, List.isEmpty_nil, Bool.not_true, Bool.or_self, Bool.false_eq_true,
        if_false]
      exact ⟨trivial, rfl, rfl, rfl, rfl, h.level, h.changed⟩
  | cons s l ih =>
    intro fault c w h
    simp only [List.map_cons, List.cons_append, stepsCode]
    cases hf : fault 0 with
    | some e => right; exact ⟨by simpa only [aloneTxn] using working_inTxn h, e, rfl, .inl ⟨0, hf⟩⟩
    | none =>
      simp only [aloneTxn, exec_inTxn, working_inTxn h, if_true]
      cases hr : s.refused w with
      | some e =>
        have he : c.exec (fun f => (s.run f).map (fun r => (r.1, Seen.nothing))) = (c.log, .error e) := by
          simp [Conn.exec, Stmt.run, h.work, hr, Except.map]
        rw [he]
        right
        refine ⟨?_, e, rfl, .inr (by simp only [runStmts, hr])⟩
        show c.log.inTxn = true
        simp [Conn.inTxn, Conn.log, h.begun]
      | none =>
        have he : c.exec (fun f => (s.run f).map (fun r => (r.1, Seen.nothing))) =
            (({ c with work := s.effect w } : Conn File).log, .ok Seen.nothing) := by
          simp [Conn.exec, Stmt.run, h.work, hr, Except.map, working_inTxn h]
        rw [he]
        have hc : Working (({ c with work := s.effect w } : Conn File).log) f (s.effect w) :=
          ⟨h.committed, rfl, h.stack, h.begun, h.level, h.changed⟩
        rcases ih (fun i => fault (i + 1)) _ _ hc with h | ⟨h1, e, h2, ⟨i, h3⟩ | h3⟩
        · left; simpa only [runStmts, hr] using h
        · right; exact ⟨h1, e, h2, .inl ⟨i + 1, h3⟩⟩
        · right; exact ⟨h1, e, h2, .inr (by simpa only [runStmts, hr] using h3)⟩

/-- A whole transaction: it goes through, or never ends, or is not even begun. -/
theorem txn_transaction (k : Code File Seen) (f : File) (l : List Stmt) (fault : Nat → Option Err) (c : Conn File)
    (h : Idle c f) :
    (∃ f', runStmts l f = .ok f' ∧ (aloneTxn (stepsCode fault (transaction l) k) c).1 = k ∧
      Idle (aloneTxn (stepsCode fault (transaction l) k) c).2 f') ∨
    ((aloneTxn (stepsCode fault (transaction l) k) c).2.inTxn = true ∧
      ∃ e, (aloneTxn (stepsCode fault (transaction l) k) c).1 = .done (.error e) ∧
        ((∃ i, fault i = some e) ∨ runStmts l f = .error e)) ∨
    ∃ e, fault 0 = some e ∧ stepsCode fault (transaction l) k = .done (.error e) := by
  have hu : transaction l = .begin :: (l.map .sql ++ [.commit]) := rfl
  rw [hu, stepsCode]
  cases hf : fault 0 with
  | some e => right; right; exact ⟨e, rfl, rfl⟩
  | none =>
    simp only [aloneTxn]
    have hb : (Cmd.begin : Cmd File).exec c = (({ c with begun := true } : Conn File).log, none) := by
      simp [Cmd.exec, Conn.begin, idle_inTxn h]
    rw [hb]
    have hw : Working (({ c with begun := true } : Conn File).log) f f :=
      ⟨h.committed, h.work, h.stack, rfl, h.level, h.changed⟩
    simp only [working_inTxn hw, if_true]
    rcases txn_sql k f l (fun i => fault (i + 1)) _ _ hw with h | h
    · left; exact h
    · obtain ⟨h1, e, h2, h3⟩ := h
      right; left; exact ⟨h1, e, h2, h3.imp (fun ⟨i, hi⟩ => ⟨i + 1, hi⟩) id⟩

theorem txn_settle (fault : Faults) (f : File) (c : Conn File) (h : Idle c f) :
    (∃ d, DB.updateChanged none f.data f.data = (d, none) ∧
      (aloneTxn (settleCode fault) c).1 = .done (.ok (.opened true)) ∧
      Idle (aloneTxn (settleCode fault) c).2 { f with data := d }) ∨
    (aloneTxn (settleCode fault) c).2.inTxn = true ∨ ∃ e, settleCode fault = .done (.error e) := by
  obtain ⟨cm, wk, st, bg, lv, ch, sn⟩ := c
  obtain ⟨h1, h2, h3, h4, h5, h6⟩ := h
  simp only at h1 h2 h3 h4 h5 h6
  subst h1 h2 h3 h4 h5 h6
  unfold settleCode
  simp only [stepsCode]
  cases hf : fault.settle 0 with
  | some e => right; right; exact ⟨e, rfl⟩
  | none =>
    cases hf1 : fault.settle 1 with
    | some e =>
      right; left
      simp [aloneTxn, Cmd.exec, Conn.begin, Conn.inTxn, Conn.log]
    | none =>
      cases hu : DB.updateChanged none wk.data wk.data with
      | mk d r =>
        cases r with
        | some e =>
          right; left
          simp [aloneTxn, Cmd.exec, Conn.begin, Conn.inTxn, Conn.log, settleFile, hu]
        | none =>
          cases hf2 : fault.settle 2 with
          | some e =>
            right; left
            simp [aloneTxn, Cmd.exec, Conn.begin, Conn.inTxn, Conn.log, settleFile, hu]
          | none =>
            left
            refine ⟨d, rfl, ?_, ?_⟩
            · simp [aloneTxn, Cmd.exec, Conn.begin, Conn.commit, Conn.inTxn, Conn.log, settleFile, hu]
            · constructor <;> simp [aloneTxn, Cmd.exec, Conn.begin, Conn.commit, Conn.inTxn, Conn.log, settleFile, hu]

theorem txn_open (fault : Faults) (reads : Nat → Option Err) {c : Conn File} {f : File} (h : Idle c f) :
    (∃ r, openCode fault reads = .done r) ∨ ((aloneTxn (openCode fault reads) c).1 = lookCode fault reads ∧
      Idle (aloneTxn (openCode fault reads) c).2 (inWal f)) := by
  cases hf : fault.pragma 0 with
  | some e => left; exact ⟨.error e, by simp [openCode, stepsCode, hf]⟩
  | none =>
    right
    have := exec_idle h (fun f => (Stmt.walMode.run f).map (fun r => (r.1, Seen.nothing))) .nothing
      (f' := inWal f) rfl
    have h2 : aloneTxn (openCode fault reads) c =
        (lookCode fault reads, (c.exec (fun f => (Stmt.walMode.run f).map (fun r => (r.1, Seen.nothing)))).1) := by
      simp only [openCode, stepsCode, hf, aloneTxn, idle_inTxn this.1, Bool.false_eq_true, if_false, this.2]
    rw [h2]
    exact ⟨rfl, this.1⟩

theorem txn_look (fault : Faults) (reads : Nat → Option Err) {c : Conn File} {f : File} (h : Idle c f) :
    (∃ r, lookCode fault reads = .done r) ∨ ((aloneTxn (lookCode fault reads) c).1 = knowCode fault reads f.version ∧
      Idle (aloneTxn (lookCode fault reads) c).2 f) := by
  cases hf : reads 0 with
  | some e => left; exact ⟨.error e, by simp [lookCode, hf]⟩
  | none =>
    right
    have := exec_idle h (fun f => .ok (f, .version f.version)) (.version f.version) (f' := f) rfl
    have h2 : aloneTxn (lookCode fault reads) c =
        (knowCode fault reads f.version, (c.exec (fun f => .ok (f, Seen.version f.version))).1) := by
      simp only [lookCode, hf, aloneTxn, idle_inTxn this.1, Bool.false_eq_true, if_false, this.2]
    rw [h2]
    exact ⟨rfl, this.1⟩

theorem txn_know (fault : Faults) (reads : Nat → Option Err) (v : Int) {c : Conn File} {f : File} (h : Idle c f)
    (hend : (aloneTxn (knowCode fault reads v) c).2.inTxn = false) :
    (∃ r, knowCode fault reads v = .done r) ∨
    (v = 0 ∧ (aloneTxn (knowCode fault reads v) c).1 =
        (if f.objects.length > 0 then .done (.error .nameError) else createCode fault) ∧
      Idle (aloneTxn (knowCode fault reads v) c).2 f) ∨
    ((4 ≤ v ∧ v ≤ 9) ∧ ∃ f', runStmts (upgrade v) f = .ok f' ∧
      (aloneTxn (knowCode fault reads v) c).1 = settleCode fault ∧ Idle (aloneTxn (knowCode fault reads v) c).2 f') := by
  by_cases h0 : v = 0
  · subst h0
    cases hf : reads 1 with
    | some e => left; exact ⟨.error e, by simp [knowCode, hf]⟩
    | none =>
      right; left
      have := exec_idle h (fun f => .ok (f, .count f.objects.length)) (.count f.objects.length) (f' := f) rfl
      have h2 : aloneTxn (knowCode fault reads 0) c =
          (if f.objects.length > 0 then .done (.error .nameError) else createCode fault,
            (c.exec (fun f => .ok (f, Seen.count f.objects.length))).1) := by
        simp only [knowCode, hf, aloneTxn, if_true, idle_inTxn this.1, Bool.false_eq_true, if_false, this.2]
      rw [h2]
      exact ⟨rfl, rfl, this.1⟩
  · by_cases h10 : v = currentVersion
    · left; exact ⟨_, by simp only [knowCode, if_neg h0, if_pos h10]; rfl⟩
    · by_cases hm : v ∈ migrations.map (·.1)
      · have hk : knowCode fault reads v = stepsCode fault.migrate (transaction (upgrade v)) (settleCode fault) := by
          simp only [knowCode, if_neg h0, if_neg h10, if_pos hm]
        rw [hk] at hend ⊢
        rcases txn_transaction (settleCode fault) f (upgrade v) fault.migrate c h with ⟨f', a1, a2, a3⟩ | ⟨a, -⟩ | ⟨e, -, a⟩
        · right; right
          exact ⟨(mem_versions v).1 hm, f', a1, a2, a3⟩
        · rw [a] at hend; cases hend
        · left; exact ⟨_, a⟩
      · left; exact ⟨_, by simp only [knowCode, if_neg h0, if_neg h10, if_neg hm]; rfl⟩

theorem txn_create (fault : Faults) {c : Conn File} {f : File} (h : Idle c f)
    (hend : (aloneTxn (createCode fault) c).2.inTxn = false) :
    (∃ r, createCode fault = .done r) ∨ ∃ f', runStmts schema f = .ok f' ∧
      (aloneTxn (createCode fault) c).1 = .done (.ok (.opened false)) ∧ Idle (aloneTxn (createCode fault) c).2 f' := by
  unfold createCode at hend ⊢
  rcases txn_transaction (.done (.ok (.opened false))) f schema fault.migrate c h with ⟨f', a1, a2, a3⟩ | ⟨a, -⟩ | ⟨e, -, a⟩
  · right; exact ⟨f', a1, a2, a3⟩
  · rw [a] at hend; cases hend
  · left; exact ⟨_, a⟩

theorem txn_settled (fault : Faults) {c : Conn File} {f : File} (h : Idle c f)
    (hend : (aloneTxn (settleCode fault) c).2.inTxn = false) :
    (∃ r, settleCode fault = .done r) ∨ ∃ d, DB.updateChanged none f.data f.data = (d, none) ∧
      (aloneTxn (settleCode fault) c).1 = .done (.ok (.opened true)) ∧
      Idle (aloneTxn (settleCode fault) c).2 { f with data := d } := by
  rcases txn_settle fault f c h with ⟨d, a1, a2, a3⟩ | a | ⟨e, a⟩
  · right; exact ⟨d, a1, a2, a3⟩
  · rw [a] at hend; cases hend
  · left; exact ⟨_, a⟩

/-- What a transaction of an opening does. -/
theorem open_txn {p : Code File Seen} (hp : Phase p) {c : Conn File} {f : File} (h : Idle c f)
    (hend : (aloneTxn p c).2.inTxn = false) :
    (∃ r, p = .done r) ∨ ∃ f', OpenTxn f f' p (aloneTxn p c).1 ∧ Idle (aloneTxn p c).2 f' := by
  cases hp with
  | done r => exact .inl ⟨r, rfl⟩
  | start fault reads =>
    rcases txn_open fault reads h with a | ⟨a, b⟩
    · exact .inl a
    · right; refine ⟨_, ?_, b⟩; rw [a]; exact .wal fault reads
  | look fault reads =>
    rcases txn_look fault reads h with a | ⟨a, b⟩
    · exact .inl a
    · right; refine ⟨_, ?_, b⟩; rw [a]; exact .version fault reads
  | know fault reads v =>
    rcases txn_know fault reads v h hend with a | ⟨rfl, a, b⟩ | ⟨hv, f', a0, a, b⟩
    · exact .inl a
    · right; refine ⟨_, ?_, b⟩; rw [a]; exact .count fault reads
    · right; refine ⟨_, ?_, b⟩; rw [a]; exact .upgrade fault reads v hv f' a0
  | create fault =>
    rcases txn_create fault h hend with a | ⟨f', a0, a, b⟩
    · exact .inl a
    · right; refine ⟨_, ?_, b⟩; rw [a]; exact .create fault f' a0
  | settle fault =>
    rcases txn_settled fault h hend with a | ⟨d, a0, a, b⟩
    · exact .inl a
    · right; refine ⟨_, ?_, b⟩; rw [a]; exact .settle fault d a0

theorem OpenTxn.phase {f f' : File} {p p' : Code File Seen} (h : OpenTxn f f' p p') : Phase p' := by
  cases h with
  | wal fault reads => exact .look fault reads
  | version fault reads => exact .know fault reads _
  | count fault reads => split; exacts [.done _, .create fault]
  | create fault h => exact .done _
  | upgrade fault reads v hv h => exact .settle fault
  | settle fault d h => exact .done _

/-! ## Alone -/

/-- The connection without the record of what was committed. -/
def forget (c : Conn File) : Conn File := { c with seen := [] }

theorem run_forget (s : Step) (c c' : Conn File) (h : forget c = forget c') :
    forget (s.run c).1 = forget (s.run c').1 ∧ (s.run c).2 = (s.run c').2 := by
  obtain ⟨cm, wk, st, bg, lv, ch, sn⟩ := c
  obtain ⟨cm', wk', st', bg', lv', ch', sn'⟩ := c'
  simp only [forget, Conn.mk.injEq, and_true] at h
  obtain ⟨rfl, rfl, rfl, rfl, rfl, rfl⟩ := h
  cases s with
  | begin =>
    simp only [Step.run, Conn.begin, Conn.inTxn]
    by_cases hh : (bg || !st.isEmpty) = true <;> simp [hh, forget, Conn.log]
  | commit =>
    simp only [Step.run, Conn.commit, Conn.inTxn]
    by_cases hh : (bg || !st.isEmpty) = true <;> simp [hh, forget, Conn.log]
  | sql s =>
    simp only [Step.run, Conn.exec, Conn.inTxn]
    cases s.run wk with
    | error e => simp [forget, Conn.log]
    | ok r => by_cases hh : (bg || !st.isEmpty) = true <;> simp [hh, forget, Conn.log]
  | housekeeping =>
    simp only [Step.run]
    cases hu : DB.updateChanged none cm.data wk.data with
    | mk d r => cases r <;> simp [forget, Conn.log]

theorem runSteps_forget (l : List Step) : ∀ (fault : Nat → Option Err) (c c' : Conn File), forget c = forget c' →
    forget (runSteps fault l c).1 = forget (runSteps fault l c').1 ∧ (runSteps fault l c).2 = (runSteps fault l c').2 := by
  induction l with
  | nil => intro fault c c' h; exact ⟨h, rfl⟩
  | cons s l ih =>
    intro fault c c' h
    simp only [runSteps]
    cases fault 0 with
    | some e => exact ⟨h, rfl⟩
    | none =>
      obtain ⟨h1, h2⟩ := run_forget s c c' h
      cases hs : s.run c with
      | mk d r =>
        cases hs' : s.run c' with
        | mk d' r' =>
          rw [hs, hs'] at h1 h2
          simp only at h1 h2
          subst h2
          cases r with
          | some e => exact ⟨h1, rfl⟩
          | none => exact ih _ _ _ h1

theorem alone_steps (k : Code File Seen) (l : List Step) : ∀ (fault : Nat → Option Err) (c : Conn File),
    alone (stepsCode fault l k) c = match runSteps fault l c with
      | (c', none) => alone k c'
      | (c', some e) => (c', .error e) := by
  induction l with
  | nil => intro fault c; rfl
  | cons s l ih =>
    intro fault c
    simp only [stepsCode, runSteps]
    cases fault 0 with
    | some e => rfl
    | none =>
      cases s with
      | begin =>
        simp only [alone, Cmd.exec, Step.run]
        cases c.begin with
        | none => rfl
        | some c' => exact ih _ _
      | commit =>
        simp only [alone, Cmd.exec, Step.run]
        cases c.commit with
        | none => rfl
        | some c' => exact ih _ _
      | sql s =>
        simp only [alone, Step.run, Conn.exec]
        cases hs : s.run c.work with
        | error e => rfl
        | ok r =>
          simp only [Except.map]
          by_cases hi : c.inTxn = true
          · simp only [hi, if_true]; exact ih _ _
          · simp only [hi, if_false, Bool.false_eq_true]; exact ih _ _
      | housekeeping =>
        simp only [alone, Cmd.exec, Step.run, settleFile]
        cases hu : DB.updateChanged none c.committed.data c.work.data with
        | mk d r =>
          cases r with
          | some e => rfl
          | none => exact ih _ _

theorem alone_settle (fault : Faults) (c : Conn File) :
    alone (settleCode fault) c = match runSteps fault.settle [.begin, .housekeeping, .commit] c with
      | (c', none) => (c', .ok (.opened true))
      | (c', some e) => (c', .error e) := alone_steps _ _ _ _

/-- Alone on the file, the commands of an opening are `Index.__init__` as modelled before. -/
theorem alone_open (fault : Faults) (f : File) :
    (alone (openCode fault (fun _ => none)) (Conn.fresh f)).2 = (openIndex fault f).2.map .opened ∧
    (alone (openCode fault (fun _ => none)) (Conn.fresh f)).1.close = opened fault f := by
  have hclose : ∀ c c' : Conn File, forget c = forget c' → c.close = c'.close := by
    intro c c' h
    have : (forget c).committed = (forget c').committed := by rw [h]
    exact this
  unfold openCode opened openIndex
  rw [alone_steps]
  rcases open_pragma fault.pragma f with ⟨e, h, -⟩ | ⟨c, h, hc, -, -⟩
  · rw [h]; exact ⟨rfl, rfl⟩
  · rw [h]
    simp only [lookCode, alone]
    have h1 := exec_idle hc (fun f => .ok (f, .version f.version)) (.version (inWal f).version) (f' := inWal f) rfl
    have f1 : forget (c.exec (fun f => .ok (f, Seen.version f.version))).1 = forget c := by
      simp [Conn.exec, idle_inTxn hc, forget, Conn.log, hc.committed, hc.work]
    rw [h1.2]
    simp only
    generalize hc1 : (c.exec (fun f => .ok (f, Seen.version f.version))).1 = c1 at h1 f1
    obtain ⟨h1, -⟩ := h1
    have hv : c.work.version = (inWal f).version := by rw [hc.work]
    have ho : c.work.objects = (inWal f).objects := by rw [hc.work]
    generalize (inWal f).version = v at hv ⊢
    unfold migrate knowCode
    rw [hv]
    by_cases h0 : v = 0
    · simp only [if_pos h0, alone]
      have h2 := exec_idle h1 (fun f => .ok (f, .count f.objects.length)) (.count (inWal f).objects.length) (f' := inWal f) rfl
      have f2 : forget (c1.exec (fun f => .ok (f, Seen.count f.objects.length))).1 = forget c := by
        rw [← f1]
        simp [Conn.exec, idle_inTxn h1, forget, Conn.log, h1.committed, h1.work]
      rw [h2.2, ho]
      simp only
      generalize hc2 : (c1.exec (fun f => .ok (f, Seen.count f.objects.length))).1 = c2 at h2 f2
      by_cases hn : (inWal f).objects.length > 0
      · simp only [if_pos hn, alone]
        exact ⟨rfl, hclose _ _ f2⟩
      · simp only [if_neg hn, createCode]
        rw [alone_steps]
        obtain ⟨g1, g2⟩ := runSteps_forget (transaction schema) fault.migrate _ _ f2
        cases hx : runSteps fault.migrate (transaction schema) c2 with
        | mk d r =>
          cases hx' : runSteps fault.migrate (transaction schema) c with
          | mk d' r' =>
            rw [hx, hx'] at g1 g2
            simp only at g1 g2
            subst g2
            cases r with
            | some e => exact ⟨rfl, hclose _ _ g1⟩
            | none => exact ⟨rfl, hclose _ _ g1⟩
    · simp only [if_neg h0]
      by_cases h10 : v = currentVersion
      · simp only [if_pos h10, alone]
        exact ⟨rfl, hclose _ _ f1⟩
      · simp only [if_neg h10]
        by_cases hm : v ∈ migrations.map (·.1)
        · simp only [if_pos hm]
          rw [alone_steps]
          obtain ⟨g1, g2⟩ := runSteps_forget (transaction (upgrade v)) fault.migrate _ _ f1
          cases hx : runSteps fault.migrate (transaction (upgrade v)) c1 with
          | mk d r =>
            cases hx' : runSteps fault.migrate (transaction (upgrade v)) c with
            | mk d' r' =>
              rw [hx, hx'] at g1 g2
              simp only at g1 g2
              subst g2
              cases r with
              | some e => exact ⟨rfl, hclose _ _ g1⟩
              | none =>
                simp only
                rw [alone_settle]
                obtain ⟨k1, k2⟩ := runSteps_forget [.begin, .housekeeping, .commit] fault.settle _ _ g1
                cases hy : runSteps fault.settle [.begin, .housekeeping, .commit] d with
                | mk e s =>
                  cases hy' : runSteps fault.settle [.begin, .housekeeping, .commit] d' with
                  | mk e' s' =>
                    rw [hy, hy'] at k1 k2
                    simp only at k1 k2
                    subst k2
                    cases s with
                    | some e => exact ⟨rfl, hclose _ _ k1⟩
                    | none => exact ⟨rfl, hclose _ _ k1⟩
        · simp only [if_neg hm, alone]
          exact ⟨rfl, hclose _ _ f1⟩

end Hyperreal.Migrate
