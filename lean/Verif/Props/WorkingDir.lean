import Verif.Spec.WorkingDir
import Verif.Lemmas.WorkingRetry
import Verif.Props.Indexing

/-!
# The working directory of `index` (C83)
-/

namespace Hyperreal.Props
open Spec DB Atomic

/-! ## Directories -/

theorem lookup_write_same (dirs : Dirs) (name : String) (file : Option TempFile) (h : (dirs.lookup name).isSome) :
    (dirs.write name file).lookup name = some file := by
  unfold Dirs.write
  induction dirs with
  | nil => simp at h
  | cons d dirs ih =>
    obtain ⟨m, x⟩ := d
    by_cases hm : m = name
    · subst hm; simp
    · simp only [List.map_cons, if_neg hm]
      rw [List.lookup_cons, beq_false_of_ne (Ne.symm hm)]
      rw [List.lookup_cons, beq_false_of_ne (Ne.symm hm)] at h
      exact ih h

theorem lookup_write_none (dirs : Dirs) (name : String) (file : Option TempFile) (h : dirs.lookup name = none) :
    dirs.write name file = dirs := by
  unfold Dirs.write
  induction dirs with
  | nil => rfl
  | cons d dirs ih =>
    obtain ⟨m, x⟩ := d
    by_cases hm : m = name
    · subst hm; simp at h
    · rw [List.lookup_cons, beq_false_of_ne (Ne.symm hm)] at h
      simp only [List.map_cons, if_neg hm, ih h]

theorem lookup_write_other (dirs : Dirs) (name : String) (file : Option TempFile) : OthersKept name dirs (dirs.write name file) := by
  intro k hk
  unfold Dirs.write
  induction dirs with
  | nil => rfl
  | cons d dirs ih =>
    obtain ⟨m, x⟩ := d
    by_cases hm : m = name
    · subst hm
      simp only [List.map_cons, if_true]
      rw [List.lookup_cons, List.lookup_cons, beq_false_of_ne hk]
      exact ih
    · simp only [List.map_cons, if_neg hm]
      rw [List.lookup_cons, List.lookup_cons, ih]

theorem lookup_remove (dirs : Dirs) (name : String) : (dirs.remove name).lookup name = none := by
  rw [List.lookup_eq_none_iff]
  intro p hp
  have := (List.mem_filter.1 hp).2
  simp only [decide_not, Bool.not_eq_eq_eq_not, Bool.not_true, decide_eq_false_iff_not] at this
  simpa using fun h => this h.symm

theorem lookup_remove_other (dirs : Dirs) (name : String) : OthersKept name dirs (dirs.remove name) := by
  intro k hk
  unfold Dirs.remove
  induction dirs with
  | nil => rfl
  | cons d dirs ih =>
    obtain ⟨m, x⟩ := d
    by_cases hm : m = name
    · subst hm
      rw [List.filter_cons_of_neg (by simp), ih, List.lookup_cons, beq_false_of_ne hk]
    · rw [List.filter_cons_of_pos (by simpa using hm), List.lookup_cons, List.lookup_cons, ih]

/-! ## A text -/

/-- **C83** is refuted for a directory given as a text: the call always fails, and nothing happens. -/
theorem working_dir_text (corpus : Corpus) (cfg : IndexCfg) (s : Schedule)
    (kept : List (List (Nat × Val)) → List (List (Nat × Val))) (t : String) (dirs : Dirs) {c : Conn DB} {db : DB} (hc : Idle c db) :
    let r := indexIn corpus cfg s kept (.text t) dirs c
    r.2.2 = .error .attributeError ∧ Idle r.1 db ∧ r.2.1 = dirs := by
  obtain ⟨h1, h2, h3, h4, h5, h6⟩ := hc
  obtain ⟨cm, wk, stk, bg, lv, ch, sn⟩ := c
  simp only at h1 h2 h3 h4 h5 h6
  subst h1 h2 h3 h4 h5 h6
  exact ⟨rfl, ⟨rfl, rfl, rfl, rfl, rfl, rfl⟩, rfl⟩

/-! ## A directory without an earlier `temp_index.db` -/

theorem rest_same (corpus : Corpus) (positions : Bool) (fault : Nat → Option Err) (k : Nat) (w : DB) (sn sn' : List DB) :
    ∃ cm wk b x x' e,
      runSteps corpus positions fault k (indexPhase2.drop 1) ⟨w, w, [], false, 0, false, sn⟩ = (⟨cm, wk, [], b, 0, false, x⟩, e) ∧
      runSteps corpus positions fault k (indexPhase2.drop 1) ⟨w, w, [], false, 0, false, sn'⟩ = (⟨cm, wk, [], b, 0, false, x'⟩, e) := by
  simp only [indexPhase2, List.drop_succ_cons, List.drop_zero, runSteps]
  cases f1 : fault k with
  | some e => exact ⟨_, _, _, _, _, _, rfl, rfl⟩
  | none =>
    simp only [Step.exec, Conn.begin, Conn.inTxn, List.isEmpty_nil, Bool.not_true, Bool.or_self, Bool.false_eq_true, if_false, Conn.log]
    cases hu : updateChanged (fault (k + 1)) w w with
    | mk d eo =>
      cases eo with
      | some e => exact ⟨_, _, _, _, _, _, rfl, rfl⟩
      | none =>
        cases f3 : fault (k + 1 + 1) with
        | some e => exact ⟨_, _, _, _, _, _, rfl, rfl⟩
        | none =>
          simp only [Conn.commit, Conn.inTxn, Bool.true_or, if_true, Conn.log]
          exact ⟨_, _, _, _, _, _, rfl, rfl⟩

theorem callIn_new (corpus : Corpus) (cfg : IndexCfg) (s : Schedule)
    (kept : List (List (Nat × Val)) → List (List (Nat × Val))) {c : Conn DB} {db : DB} (hc : Idle c db) :
    ∃ sn, c.begin = some ⟨db, db, [], true, 0, false, sn⟩ ∧
      SameState (indexCallIn corpus cfg s kept (some none) ⟨db, db, [], true, 0, false, sn⟩).1 (indexCall corpus cfg s c).1 ∧
      (match (indexCallIn corpus cfg s kept (some none) ⟨db, db, [], true, 0, false, sn⟩).2.1 with
        | some e => Except.error e
        | none => .ok ()) = (indexCall corpus cfg s c).2 ∧
      ((indexCall corpus cfg s c).2 = .ok () →
        (indexCallIn corpus cfg s kept (some none) ⟨db, db, [], true, 0, false, sn⟩).2.2 =
          some { filled (some none) corpus cfg.positions (submitted (indexEvents corpus cfg s).1) with indexed := true }) := by
  obtain ⟨h1, h2, h3, h4, h5, h6⟩ := hc
  obtain ⟨cm, wk, stk, bg, lv, ch, sn⟩ := c
  simp only at h1 h2 h3 h4 h5 h6
  subst h1 h2 h3 h4 h5 h6
  refine ⟨wk :: sn, rfl, ?_⟩
  have hsame := phase1In_new corpus cfg s
  have hlen := hsame.length_eq
  obtain ⟨w2, x, x', e, r1, r2⟩ := runSteps_same corpus cfg.positions s.fault hsame (phase1In_plain _ corpus cfg s) 0
    wk wk [] 0 false (wk :: sn) (wk :: sn)
  simp only [indexCallIn, indexCall, Conn.begin, Conn.inTxn, List.isEmpty_nil, Bool.not_true, Bool.or_self,
    Bool.false_eq_true, if_false, Conn.log]
  obtain ⟨rest, hrest⟩ : ∃ rest, rest = indexPhase2.drop 1 := ⟨_, rfl⟩
  have hp2 : indexPhase2 = [Step.commit] ++ rest := by rw [hrest]; rfl
  rw [← hrest, hp2, ← List.append_assoc]
  rw [runSteps_append _ _ _ (indexPhase1 corpus cfg s ++ [Step.commit]), runSteps_append _ _ _ (indexPhase1 corpus cfg s),
    runSteps_append _ _ _ (indexPhase1In (some none) corpus cfg s), r1, r2, hlen, List.length_append]
  cases e with
  | some e =>
    simp only
    by_cases hx : e.isException = true
    · simp only [hx, if_true, Conn.rollback, Conn.inTxn, Bool.true_or, Conn.log, Option.getD_some]
      exact ⟨⟨rfl, rfl, rfl, rfl, rfl, rfl⟩, trivial, by intro h; cases h⟩
    · simp only [hx]
      exact ⟨⟨rfl, rfl, rfl, rfl, rfl, rfl⟩, rfl, by intro h; cases h⟩
  | none =>
    simp only [Nat.zero_add, runSteps, List.length_singleton]
    cases f0 : s.fault (indexPhase1 corpus cfg s).length with
    | some e =>
      simp only [Step.exec]
      by_cases hx : e.isException = true
      · simp only [hx, if_true, Conn.rollback, Conn.inTxn, Bool.true_or, Conn.log, Option.getD_some]
        exact ⟨⟨rfl, rfl, rfl, rfl, rfl, rfl⟩, trivial, by intro h; cases h⟩
      · simp only [hx]
        exact ⟨⟨rfl, rfl, rfl, rfl, rfl, rfl⟩, rfl, by intro h; cases h⟩
    | none =>
      simp only [Step.exec, Conn.commit, Conn.inTxn, Bool.true_or, if_true, Conn.log]
      obtain ⟨cm, wk2, b, y, y', e, q1, q2⟩ := rest_same corpus cfg.positions s.fault ((indexPhase1 corpus cfg s).length + 1) w2
        (w2 :: x) (w2 :: x')
      rw [← hrest] at q1 q2
      rw [q1, q2]
      cases e with
      | none => exact ⟨⟨rfl, rfl, rfl, rfl, rfl, rfl⟩, rfl, fun _ => rfl⟩
      | some e =>
        simp only
        by_cases hx : e.isException = true
        · simp only [hx, if_true, Conn.rollback, Conn.inTxn]
          cases b
          · exact ⟨⟨rfl, rfl, rfl, rfl, rfl, rfl⟩, rfl, by intro h; cases h⟩
          · exact ⟨⟨rfl, rfl, rfl, rfl, rfl, rfl⟩, rfl, by intro h; cases h⟩
        · simp only [hx]
          exact ⟨⟨rfl, rfl, rfl, rfl, rfl, rfl⟩, rfl, by intro h; cases h⟩

/-- **C83**, the part that holds: with a `tempfile.TemporaryDirectory` in which nothing has been indexed the call does exactly
what `index()` does, whatever strikes; but the directory is removed in the end, and so it is not kept for the user. -/
theorem working_dir_temporary_partial (corpus : Corpus) (cfg : IndexCfg) (s : Schedule)
    (kept : List (List (Nat × Val)) → List (List (Nat × Val))) (name : String) (dirs : Dirs) {c : Conn DB} {db : DB} (hc : Idle c db)
    (hd : dirs.lookup name = some none) :
    let r := indexIn corpus cfg s kept (.temporary name) dirs c
    SameState r.1 (indexCall corpus cfg s c).1 ∧ r.2.2 = (indexCall corpus cfg s c).2 ∧
      r.2.1.lookup name = none ∧ OthersKept name dirs r.2.1 := by
  intro r
  obtain ⟨sn, h1, h2, h3, -⟩ := callIn_new corpus cfg s kept hc
  have hr : r = ((indexCallIn corpus cfg s kept (some none) ⟨db, db, [], true, 0, false, sn⟩).1, dirs.remove name,
      match (indexCallIn corpus cfg s kept (some none) ⟨db, db, [], true, 0, false, sn⟩).2.1 with
        | some e => Except.error e
        | none => .ok ()) := by
    show indexIn corpus cfg s kept (.temporary name) dirs c = _
    simp only [indexIn, h1, hd]
    rfl
  rw [hr]
  exact ⟨h2, h3, lookup_remove _ _, lookup_remove_other _ _⟩

/-- A call in a directory in which the first transaction cannot go through. -/
theorem call_in_fails {dir : Option (Option TempFile)} {corpus : Corpus} {cfg : IndexCfg} {s : Schedule}
    {kept : List (List (Nat × Val)) → List (List (Nat × Val))} {w : WorkDir} {name : String} {dirs : Dirs} {c : Conn DB} {db : DB}
    (hw : w = .path name ∨ w = .temporary name) (hd : dirs.lookup name = dir) (hc : Idle c db)
    (hno : ∀ w, pureSteps corpus cfg.positions (indexPhase1In dir corpus cfg s) db ≠ .ok w) :
    let r := indexIn corpus cfg s kept w dirs c
    (∃ e, r.2.2 = .error e) ∧ r.1.committed = db ∧
      ((∀ i, s.fault i = none) → (∀ e, pureSteps corpus cfg.positions (indexPhase1In dir corpus cfg s) db = .error e → e.isException = true) →
        Idle r.1 db) := by
  intro r
  obtain ⟨h1, h2, h3, h4, h5, h6⟩ := hc
  obtain ⟨cm, wk, stk, bg, lv, ch, sn⟩ := c
  simp only at h1 h2 h3 h4 h5 h6
  subst h1 h2 h3 h4 h5 h6
  have hend := indexCallIn_end corpus cfg s kept dir wk (wk :: sn)
  have hb : Conn.begin (⟨wk, wk, [], false, 0, false, sn⟩ : Conn DB) = some ⟨wk, wk, [], true, 0, false, wk :: sn⟩ := rfl
  have key : r.1 = (indexCallIn corpus cfg s kept dir ⟨wk, wk, [], true, 0, false, wk :: sn⟩).1 ∧
      (r.2.2 = .error .attributeError ∨ r.2.2 = match (indexCallIn corpus cfg s kept dir ⟨wk, wk, [], true, 0, false, wk :: sn⟩).2.1 with
        | some e => .error e
        | none => .ok ()) := by
    show (indexIn corpus cfg s kept w dirs _).1 = _ ∧ ((indexIn corpus cfg s kept w dirs _).2.2 = _ ∨ (indexIn corpus cfg s kept w dirs _).2.2 = _)
    rcases hw with rfl | rfl
    · simp only [indexIn, hb, hd]; exact ⟨trivial, .inl trivial⟩
    · simp only [indexIn, hb, hd]; exact ⟨trivial, .inr rfl⟩
  obtain ⟨k1, k2⟩ := key
  rw [k1]
  generalize indexCallIn corpus cfg s kept dir ⟨wk, wk, [], true, 0, false, wk :: sn⟩ = res at hend k2
  cases hend with
  | old c' e q1 q2 q3 =>
    refine ⟨?_, q1, fun hf he => q2 (he e (q3 hf))⟩
    rcases k2 with h | h
    · exact ⟨_, h⟩
    · exact ⟨_, h⟩
  | mid c' e w q1 => exact absurd q1 (hno w)
  | new c' w f q1 => exact absurd q1 (hno w)

/-- **C83** is refuted for a `pathlib.Path`: the call always raises, although it has done what `index()` does; and after a
success the directory is used up: whatever is indexed in it later on, the call fails and the index stays as it is. -/
theorem working_dir_path (corpus : Corpus) (cfg : IndexCfg) (s : Schedule)
    (kept : List (List (Nat × Val)) → List (List (Nat × Val))) (name : String) (dirs : Dirs) {c : Conn DB} {db : DB} (hc : Idle c db)
    (hd : dirs.lookup name = some none) :
    let r := indexIn corpus cfg s kept (.path name) dirs c
    SameState r.1 (indexCall corpus cfg s c).1 ∧ r.2.2 = .error .attributeError ∧
      (r.2.1.lookup name).isSome ∧ OthersKept name dirs r.2.1 ∧
      ((indexCall corpus cfg s c).2 = .ok () →
        ∀ corpus' cfg' s' kept' w (c' : Conn DB) db', w = WorkDir.path name ∨ w = WorkDir.temporary name → Idle c' db' →
          let r' := indexIn corpus' cfg' s' kept' w r.2.1 c'
          (∃ e, r'.2.2 = .error e) ∧ r'.1.committed = db') := by
  intro r
  obtain ⟨sn, h1, h2, h3, h4⟩ := callIn_new corpus cfg s kept hc
  have hr : r = ((indexCallIn corpus cfg s kept (some none) ⟨db, db, [], true, 0, false, sn⟩).1,
      dirs.write name (indexCallIn corpus cfg s kept (some none) ⟨db, db, [], true, 0, false, sn⟩).2.2, .error .attributeError) := by
    show indexIn corpus cfg s kept (.path name) dirs c = _
    simp only [indexIn, h1, hd]
  rw [hr]
  refine ⟨h2, rfl, ?_, lookup_write_other _ _ _, ?_⟩
  · rw [lookup_write_same _ _ _ (by rw [hd]; rfl)]; rfl
  · intro hok corpus' cfg' s' kept' w c' db' hw hc' r'
    have hl : (dirs.write name (indexCallIn corpus cfg s kept (some none) ⟨db, db, [], true, 0, false, sn⟩).2.2).lookup name = _ :=
      lookup_write_same _ _ _ (by rw [hd]; rfl)
    rw [h4 hok] at hl
    obtain ⟨q1, q2, -⟩ := call_in_fails (s := s') (kept := kept') (cfg := cfg') (corpus := corpus') hw hl hc' (by
      intro w' hw'
      have := (phase1In_file hw').2
      simp [filled] at this)
    have he : r' = indexIn corpus' cfg' s' kept' w
        (dirs.write name (some { filled (some none) corpus cfg.positions (submitted (indexEvents corpus cfg s).1) with indexed := true })) c' := by
      rw [← h4 hok]
    rw [he]
    exact ⟨q1, q2⟩

/-! ## No directory -/

/-- **C83** is refuted for a directory that does not exist: the call fails, and the index stays as it is.  So a
`TemporaryDirectory` serves only once. -/
theorem working_dir_missing (corpus : Corpus) (cfg : IndexCfg) (s : Schedule) (hf : Fair s)
    (kept : List (List (Nat × Val)) → List (List (Nat × Val))) (w : WorkDir) (name : String) (hw : w = .path name ∨ w = .temporary name)
    (dirs : Dirs) {c : Conn DB} {db : DB} (hc : Idle c db) (hd : dirs.lookup name = none) :
    let r := indexIn corpus cfg s kept w dirs c
    (∃ e, r.2.2 = .error e) ∧ r.1.committed = db := by
  obtain ⟨q1, q2, -⟩ := call_in_fails (s := s) (kept := kept) (cfg := cfg) (corpus := corpus) hw hd hc (by
    intro w' hw'
    have h1 := phase1In_workers hf hw'
    have h2 := (phase1In_file hw').1
    cases hsub : submitted (indexEvents corpus cfg s).1 with
    | nil => exact h2 ⟨hsub, rfl⟩
    | cons b bs =>
      obtain ⟨o, ho⟩ := h1 b (by rw [hsub]; simp)
      cases ho)
  exact ⟨q1, q2⟩

/-- A `TemporaryDirectory` passed a second time. -/
theorem working_dir_temporary_once (corpus corpus' : Corpus) (cfg cfg' : IndexCfg) (s s' : Schedule) (hf : Fair s')
    (kept kept' : List (List (Nat × Val)) → List (List (Nat × Val))) (name : String) (dirs : Dirs) {c c' : Conn DB} {db db' : DB}
    (hc : Idle c db) (hc' : Idle c' db') :
    let r := indexIn corpus cfg s kept (.temporary name) dirs c
    let r' := indexIn corpus' cfg' s' kept' (.temporary name) r.2.1 c'
    (∃ e, r'.2.2 = .error e) ∧ r'.1.committed = db' := by
  intro r
  have hr : r.2.1.lookup name = none := by
    obtain ⟨sn, h1, -⟩ := callIn_new corpus cfg s kept hc
    have : r.2.1 = dirs.remove name := by
      show (indexIn corpus cfg s kept (.temporary name) dirs c).2.1 = _
      simp only [indexIn, h1]
    rw [this]; exact lookup_remove _ _
  exact working_dir_missing corpus' cfg' s' hf kept' _ name (.inr rfl) _ hc' hr

/-! ## Retrying -/

/-- What is left in the directory of a call that failed before its first commit. -/
theorem failed_leaves (corpus : Corpus) (cfg : IndexCfg) (s : Schedule)
    (kept : List (List (Nat × Val)) → List (List (Nat × Val))) (name : String) (dirs : Dirs) {c : Conn DB} {db : DB} (hc : Idle c db)
    (hd : dirs.lookup name = some none) (i : Nat) (e : Err) (hi : i ≤ (indexPhase1 corpus cfg s).length) (hfault : s.fault i = some e) :
    let r := indexIn corpus cfg s kept (.path name) dirs c
    r.2.2 = .error .attributeError ∧ r.1.committed = db ∧
      r.2.1.lookup name = some (leftover (some none) corpus cfg.positions (kept (submitted (indexEvents corpus cfg s).1))) := by
  intro r
  obtain ⟨sn, h1, -⟩ := callIn_new corpus cfg s kept hc
  have hr : r = ((indexCallIn corpus cfg s kept (some none) ⟨db, db, [], true, 0, false, sn⟩).1,
      dirs.write name (indexCallIn corpus cfg s kept (some none) ⟨db, db, [], true, 0, false, sn⟩).2.2, .error .attributeError) := by
    show indexIn corpus cfg s kept (.path name) dirs c = _
    simp only [indexIn, h1, hd]
  rw [hr]
  have hlen := (phase1In_new corpus cfg s).length_eq
  have hfail : ∃ c' e', runSteps corpus cfg.positions s.fault 0 (indexPhase1In (some none) corpus cfg s ++ [.commit])
      ⟨db, db, [], true, 0, false, sn⟩ = (c', some e') := by
    cases hx : runSteps corpus cfg.positions s.fault 0 (indexPhase1In (some none) corpus cfg s ++ [.commit])
      ⟨db, db, [], true, 0, false, sn⟩ with
    | mk c' e' =>
      cases e' with
      | some e' => exact ⟨c', e', rfl⟩
      | none =>
        have := runSteps_no_fault _ _ _ _ _ _ _ hx i (by omega) (by simp [hlen]; omega)
        rw [this] at hfault; cases hfault
  obtain ⟨c', e', hrun⟩ := hfail
  have hcall : indexCallIn corpus cfg s kept (some none) ⟨db, db, [], true, 0, false, sn⟩ =
      ((if e'.isException then (c'.rollback.getD c') else c'), some e',
        leftover (some none) corpus cfg.positions (kept (submitted (indexEvents corpus cfg s).1))) := by
    simp only [indexCallIn, hrun]
  refine ⟨rfl, ?_, ?_⟩
  · obtain ⟨n, e2, w, r1, -, -⟩ := runSteps_plain corpus cfg.positions s.fault _ (phase1In_plain (some none) corpus cfg s) 0
      ⟨db, db, [], true, 0, false, sn⟩ rfl
    rw [runSteps_append, r1] at hrun
    rw [hcall]
    have hcm : c'.committed = db := by
      cases e2 with
      | some e2 => simp only [Prod.mk.injEq] at hrun; rw [← hrun.1]
      | none =>
        simp only [runSteps] at hrun
        cases hf0 : s.fault (0 + (indexPhase1In (some none) corpus cfg s).length) with
        | some e3 => rw [hf0] at hrun; simp only [Step.exec, Prod.mk.injEq] at hrun; rw [← hrun.1]
        | none => rw [hf0] at hrun; simp [Step.exec, Conn.commit, Conn.inTxn] at hrun
    show (if e'.isException then (c'.rollback.getD c') else c').committed = db
    split
    · unfold Conn.rollback
      split
      · exact hcm
      · exact hcm
    · exact hcm
  · rw [hcall]
    exact lookup_write_same _ _ _ (by rw [hd]; rfl)

/-- **C83** is refuted for retrying: a call in the directory `name` fails before its first commit (at the attempt to attach,
merge or commit, say, for want of space), when its batches have been written; after that another corpus `B` is indexed in the
same directory, without a fault.  Then every document of `B` is also found under what the document with the same number in the
corpus of the first call contains, and the counts are the sums of both. -/
theorem working_dir_retry_mixes {A B : Corpus} {contentA contentB : Val → Features} (hA : Serves A contentA) (hB : Serves B contentB)
    (hne : A.keys ≠ []) (cfg cfg' : IndexCfg) (hpos : cfg.positions = false) (hpos' : cfg'.positions = false)
    (s s' : Schedule) (hf : Fair s) (hf' : Fair s') (kept kept' : List (List (Nat × Val)) → List (List (Nat × Val)))
    (hkept : ∀ l, kept l = l) (i : Nat) (e : Err) (hi : i ≤ (indexPhase1 A cfg s).length) (hfault : s.fault i = some e)
    (_hlate : (indexEvents A cfg s).1.length + 5 ≤ i) (hno : ∀ j, s'.fault j = none) (name : String) (dirs : Dirs) {c : Conn DB} {db : DB} (hc : Idle c db)
    (hdb : Settled db) (hcl : db.clusters = []) (hd : dirs.lookup name = some none) :
    let r := indexIn A cfg s kept (.path name) dirs c
    r.1.committed = db ∧ ∀ c', Idle c' db →
      let r' := indexIn B cfg' s' kept' (.path name) r.2.1 c'
      ∃ new, Idle r'.1 new ∧ (∀ d k, (d, k) ∈ new.docKeys ↔ B.keys[d]? = some k) ∧
        (∀ field value d, d ∈ new.docsOfKey field value ↔ Occurs A contentA field value d ∨ Occurs B contentB field value d) ∧
        ∀ row ∈ new.features, ∀ D D' : Finset Nat, (∀ d, d ∈ D ↔ Occurs A contentA row.field row.value d) →
          (∀ d, d ∈ D' ↔ Occurs B contentB row.field row.value d) → row.docsCount = D.card + D'.card := by
  intro r
  obtain ⟨-, hcm, hl⟩ := failed_leaves A cfg s kept name dirs hc hd i e hi hfault
  refine ⟨hcm, ?_⟩
  rw [hkept] at hl
  have hiA : Indexable A contentA cfg.positions := by intro h; rw [hpos] at h; cases h
  have hiB : Indexable B contentB cfg'.positions := by intro h; rw [hpos'] at h; cases h
  have hTA := tempOk A contentA cfg s hA hiA hf
  have hTB := tempOk B contentB cfg' s' hB hiB hf'
  -- what the first call left
  obtain ⟨bs, hbs⟩ : ∃ bs, bs = submitted (indexEvents A cfg s).1 := ⟨_, rfl⟩
  rw [← hbs] at hl hTA
  have hallA : ∀ b ∈ bs, ∃ o, indexDocs A cfg.positions b = .ok o := by
    intro b hb
    obtain ⟨-, -, -, -, e, -⟩ := hTA.out b hb
    exact ⟨_, e⟩
  have hbne : bs ≠ [] := by
    intro h
    have := hTA.flat
    rw [h] at this
    have := congrArg List.length this
    simp [enumKeys] at this
    exact hne (List.length_eq_zero_iff.1 this.symm)
  have hleft : leftover (some none) A cfg.positions bs = some (filled (some none) A cfg.positions bs) := by
    unfold leftover
    rw [if_neg]
    rintro ⟨-, h⟩
    obtain ⟨b, hb⟩ := List.exists_mem_of_ne_nil _ hbne
    obtain ⟨o, ho⟩ := hallA b hb
    rw [List.filterMap_eq_nil_iff] at h
    have := h b hb
    rw [indexDocsIn_new, ho] at this
    cases this
  rw [hleft, filled_new] at hl
  obtain ⟨segsA, hsegsA⟩ : ∃ l, l = bs.flatMap (fun b => (workerOut A cfg.positions b).segs) := ⟨_, rfl⟩
  have hposA : bs.flatMap (fun b => (workerOut A cfg.positions b).pos) = [] := by
    rw [List.flatMap_eq_nil_iff]
    intro b hb
    obtain ⟨o, ho⟩ := hallA b hb
    have : workerOut A cfg.positions b = o := by simp [workerOut, ho]
    rw [this]
    rw [hpos] at ho
    exact no_positions_no_pos ho
  rw [hposA, ← hsegsA] at hl
  have hTA' : TempOk A contentA cfg.positions bs segsA [] := ⟨hTA.flat, hTA.good, hTA.apart, hTA.out, by rw [hsegsA], by rw [hposA]⟩
  obtain ⟨bs', hbs'⟩ : ∃ bs, bs = submitted (indexEvents B cfg' s').1 := ⟨_, rfl⟩
  rw [← hbs'] at hTB
  obtain ⟨segsB, hsegsB⟩ : ∃ l, l = bs'.flatMap (fun b => (workerOut B cfg'.positions b).segs) := ⟨_, rfl⟩
  have hTB' : TempOk B contentB cfg'.positions bs' segsB (bs'.flatMap (fun b => (workerOut B cfg'.positions b).pos)) :=
    ⟨hTB.flat, hTB.good, hTB.apart, hTB.out, by rw [hsegsB], List.Perm.refl _⟩
  obtain ⟨t, ht⟩ : ∃ t : TempFile, t = ⟨segsA, [], false⟩ := ⟨_, rfl⟩
  rw [← ht] at hl
  have htp : ∀ x ∈ t.segs, x.posCount = 0 := by
    intro x hx
    rw [ht] at hx
    obtain ⟨b, hb, hxb⟩ := (hTA'.mem_segs x).1 hx
    obtain ⟨first, last, -, -, -, g⟩ := hTA'.out b hb
    obtain ⟨-, -, q3, -, q5⟩ := g.seg x hxb
    rw [q3, Finset.card_eq_zero, Finset.eq_empty_iff_forall_notMem]
    intro p hp
    rw [q5 p, hpos, show seqsOf false x.field (triplesOf contentA b) = [] by simp [seqsOf]] at hp
    obtain ⟨pre, y, post, o, e, -⟩ := hp
    simp at e
  -- the second call
  have hw := hdb.toWellformed
  have hM : Merged (retrySegs t B cfg' s') (retryKeys t B cfg' s')
      { db.zeroFeatures with docKeys := enumKeys B.keys, posDocMap := [], posIndex := [] } (retryMerge t B cfg' s' db) :=
    mergeSegments_spec _ _ (by simpa [zero_ids] using hw.featureIds) (by rw [zero_keys]; exact hw.featureKeys) _
  have hp1 := retry_phase1 (t := t) (by rw [ht]) (by rw [ht]) htp hB hpos' hf' (db := db) hdb.nothingPending hcl hM.rest
  have hperm : (retrySegs t B cfg' s').Perm (segsA ++ segsB) := by
    unfold retrySegs
    rw [ht, hsegsB, hbs']
    exact hf'.segs _
  have hcount : ∀ k, groupCount (retrySegs t B cfg' s') k = groupCount segsA k + groupCount segsB k := by
    intro k
    unfold groupCount group
    rw [((hperm.filter _).map _).sum_eq, List.filter_append, List.map_append, List.sum_append]
  have hdocs : ∀ f v d, d ∈ groupDocs (retrySegs t B cfg' s') (f, v) ↔ Occurs A contentA f v d ∨ Occurs B contentB f v d := by
    intro f v d
    rw [← hTA'.group_docs f v d, ← hTB'.group_docs f v d, mem_groupDocs, mem_groupDocs, mem_groupDocs]
    constructor
    · rintro ⟨x, hx, h⟩
      rcases List.mem_append.1 (hperm.mem_iff.1 hx) with hx | hx
      · exact .inl ⟨x, hx, h⟩
      · exact .inr ⟨x, hx, h⟩
    · rintro (⟨x, hx, h⟩ | ⟨x, hx, h⟩)
      · exact ⟨x, hperm.mem_iff.2 (List.mem_append_left _ hx), h⟩
      · exact ⟨x, hperm.mem_iff.2 (List.mem_append_right _ hx), h⟩
  have hkeys : ∀ f v, (f, v) ∈ retryKeys t B cfg' s' ↔ ∃ d, Occurs A contentA f v d ∨ Occurs B contentB f v d := by
    intro f v
    rw [retryKeys, (hf'.groups _).mem_iff, List.mem_dedup, (hperm.map _).mem_iff, List.map_append, List.mem_append,
      hTA'.occurs_iff_key, hTB'.occurs_iff_key, exists_or]
  have hfc : db.fc = [] := by
    cases h : db.fc with
    | nil => rfl
    | cons r l =>
      obtain ⟨k, hk, -⟩ := hw.knownCluster r (by rw [h]; simp)
      rw [hcl] at hk; simp at hk
  have hzero : ∀ r ∈ db.zeroFeatures.features, r.docs = ∅ ∧ r.docsCount = 0 := by
    intro r hr
    obtain ⟨x, -, rfl⟩ := List.mem_map.1 hr
    exact ⟨rfl, rfl⟩
  obtain ⟨w, hwd⟩ : ∃ w, w = (retryMerge t B cfg' s' db).refreshFcCounts.writeFieldSummary := ⟨_, rfl⟩
  have wf : w.features = (retryMerge t B cfg' s' db).features := by rw [hwd]; rfl
  have wk : w.docKeys = enumKeys B.keys := by
    rw [hwd]
    show (retryMerge t B cfg' s' db).docKeys = _
    rw [hM.rest]
  have wcl : w.clusters = [] := by
    rw [hwd]
    show (retryMerge t B cfg' s' db).clusters = _
    rw [hM.rest]; exact hcl
  have wch : w.changed = [] := by
    rw [hwd]
    show (retryMerge t B cfg' s' db).changed = _
    rw [hM.rest]; exact hdb.nothingPending
  have wfc : w.fc = [] := by
    rw [hwd]
    show ((retryMerge t B cfg' s' db).fc).map _ = _
    rw [hM.rest]
    show (db.fc).map _ = _
    rw [hfc]; rfl
  rw [← hwd] at hp1
  have hu : updateChanged none w w = (w, none) := by
    obtain ⟨a1, a2, a3, a4, a5, a6, a7, a8⟩ := w
    simp only at wcl wch wfc
    subst wcl wch wfc
    rfl
  intro c' hc' r'
  obtain ⟨sn', hb', -⟩ := callIn_new B cfg' s' kept' hc'
  have hend := indexCallIn_end B cfg' s' kept' (some (some t)) db sn'
  have hr' : r'.1 = (indexCallIn B cfg' s' kept' (some (some t)) ⟨db, db, [], true, 0, false, sn'⟩).1 := by
    show (indexIn B cfg' s' kept' (.path name) (indexIn A cfg s kept (.path name) dirs c).2.1 c').1 = _
    generalize (indexIn A cfg s kept (.path name) dirs c).2.1 = dirs1 at hl
    simp only [indexIn, hb', hl]
  rw [hr']
  refine ⟨w, ?_, ?_, ?_, ?_⟩
  · generalize indexCallIn B cfg' s' kept' (some (some t)) ⟨db, db, [], true, 0, false, sn'⟩ = res at hend
    cases hend with
    | old c2 e2 q1 q2 q3 => rw [hp1] at q3; exact absurd (q3 hno) (by simp)
    | mid c2 e2 w2 q1 q2 q3 =>
      rw [hp1] at q1
      cases q1
      have := q3 hno
      rw [hu] at this
      cases this
    | new c2 w2 f2 q1 q2 q3 =>
      rw [hp1] at q1
      cases q1
      rw [hu] at q2
      cases q2
      exact q3
  · intro d k
    rw [wk, mem_enumKeys]
  · intro f v d
    rw [← hdocs f v d]
    unfold DB.docsOfKey
    rw [wf]
    cases hfind : (retryMerge t B cfg' s' db).features.find? (fun r => r.field = f ∧ r.value = v) with
    | none =>
      have hnk : (f, v) ∉ retryKeys t B cfg' s' := by
        intro hk
        obtain ⟨row, hrow, he⟩ := hM.present _ hk
        rw [find?_key_none (f, v)] at hfind
        exact hfind row hrow he
      rw [hdocs]
      simp only [Finset.notMem_empty, false_iff]
      exact fun h => hnk ((hkeys f v).2 ⟨d, h⟩)
    | some row =>
      obtain ⟨hrow, hk⟩ := (find?_key_iff hM.keys (f, v) row).1 hfind
      rcases hM.row row hrow with ⟨-, -, h⟩ | ⟨h1, h2⟩
      · dsimp only; rw [h, hk]
      · dsimp only
        rw [(hzero row h2).1, hdocs]
        simp only [Finset.notMem_empty, false_iff]
        exact fun h => h1 (by rw [hk]; exact (hkeys f v).2 ⟨d, h⟩)
  · intro row hrow D D' hD hD'
    rw [wf] at hrow
    have hkA : D = groupDocs segsA (row.field, row.value) := by
      ext d; rw [hD, hTA'.group_docs]
    have hkB : D' = groupDocs segsB (row.field, row.value) := by
      ext d; rw [hD', hTB'.group_docs]
    rcases hM.row row hrow with ⟨-, h, -⟩ | ⟨h1, h2⟩
    · rw [h, hcount, hkA, hkB, group_card segsA _ hTA'.segs_disjoint hTA'.segs_count,
        group_card segsB _ hTB'.segs_disjoint hTB'.segs_count]
      rfl
    · rw [(hzero row h2).2]
      have hnone : ∀ d, ¬ (Occurs A contentA row.field row.value d ∨ Occurs B contentB row.field row.value d) :=
        fun d h => h1 ((hkeys row.field row.value).2 ⟨d, h⟩)
      have e1 : D = ∅ := by
        rw [Finset.eq_empty_iff_forall_notMem]; intro d hd'; exact hnone d (.inl ((hD d).1 hd'))
      have e2 : D' = ∅ := by
        rw [Finset.eq_empty_iff_forall_notMem]; intro d hd'; exact hnone d (.inr ((hD' d).1 hd'))
      rw [e1, e2]; rfl

/-- The row a worker writes for a field of the first document. -/
theorem first_partition {corpus : Corpus} {content : Val → Features} {cfg : IndexCfg} {s : Schedule} (hs : Serves corpus content)
    (hi : Indexable corpus content cfg.positions) (hpos : cfg.positions = true) (hf : Fair s) (k : Val) (hk : corpus.keys[0]? = some k)
    (field : String) (vs : List (Option Val)) (hv : (field, Values.seq vs) ∈ content k) (hvs : vs ≠ []) :
    ∃ b ∈ submitted (indexEvents corpus cfg s).1, ∃ o, indexDocs corpus cfg.positions b = .ok o ∧
      ∃ m ∈ o.pos, m.field = field ∧ m.firstDoc = 0 := by
  have hT := tempOk corpus content cfg s hs hi hf
  obtain ⟨b, hb, h0⟩ := (hT.mem_batch 0 k).1 hk
  obtain ⟨first, last, h1, -, h3, g⟩ := hT.out b hb
  have hgood := hT.good b hb
  have hfirst : first = 0 := by
    cases b with
    | nil => simp at h0
    | cons x b =>
      simp only [List.map_cons, List.head?_cons, Option.some.injEq] at h1
      rcases List.mem_cons.1 h0 with h | h
      · rw [← h1, ← h]
      · have := (List.pairwise_cons.1 hgood.sorted).1 _ h
        omega
  obtain ⟨m, hm, hmf⟩ := g.posPresent field (by
    rw [hpos]
    have : (0, vs) ∈ seqsOf true field (triplesOf content b) := by
      unfold seqsOf
      rw [List.mem_filterMap]
      refine ⟨(0, field, .seq vs), (mem_triplesOf content b 0 field (.seq vs)).2 ⟨k, h0, hv⟩, ?_⟩
      simp [hvs]
    exact List.ne_nil_of_mem this)
  refine ⟨b, hb, _, h3, m, hm, hmf, ?_⟩
  rw [(g.pos m hm).1, hfirst]

/-- **C83** is refuted for retrying with positions: after the failure the same directory can not be used again for a corpus whose
first document has a sequence under a field under which that of the first call had one; as it is when the same corpus is
indexed again. -/
theorem working_dir_retry_positions {A B : Corpus} {contentA contentB : Val → Features} (hA : Serves A contentA) (hB : Serves B contentB)
    (cfg cfg' : IndexCfg) (hpos : cfg.positions = true) (hpos' : cfg'.positions = true)
    (hiA : Indexable A contentA true) (hiB : Indexable B contentB true)
    (field : String) (k k' : Val) (vs vs' : List (Option Val)) (hk : A.keys[0]? = some k) (hk' : B.keys[0]? = some k')
    (hv : (field, Values.seq vs) ∈ contentA k) (hv' : (field, Values.seq vs') ∈ contentB k') (hvs : vs ≠ []) (hvs' : vs' ≠ [])
    (s s' : Schedule) (hf : Fair s) (hf' : Fair s') (kept kept' : List (List (Nat × Val)) → List (List (Nat × Val)))
    (hkept : ∀ l, kept l = l) (i : Nat) (e : Err) (hi : i ≤ (indexPhase1 A cfg s).length) (hfault : s.fault i = some e)
    (_hlate : (indexEvents A cfg s).1.length + 5 ≤ i) (name : String) (dirs : Dirs) {c : Conn DB} {db : DB} (hc : Idle c db)
    (hd : dirs.lookup name = some none) :
    let r := indexIn A cfg s kept (.path name) dirs c
    ∀ c' db', Idle c' db' →
      let r' := indexIn B cfg' s' kept' (.path name) r.2.1 c'
      (∃ e', r'.2.2 = .error e') ∧ r'.1.committed = db' := by
  intro r c' db' hc' r'
  obtain ⟨-, -, hl⟩ := failed_leaves A cfg s kept name dirs hc hd i e hi hfault
  rw [hkept] at hl
  obtain ⟨b, hb, o, ho, m, hm, hmf, hm0⟩ := first_partition hA (by rw [hpos]; exact hiA) hpos hf k hk field vs hv hvs
  obtain ⟨b', hb', o', ho', m', hm', hmf', hm0'⟩ := first_partition hB (by rw [hpos']; exact hiB) hpos' hf' k' hk' field vs' hv' hvs'
  obtain ⟨bs, hbs⟩ : ∃ bs, bs = submitted (indexEvents A cfg s).1 := ⟨_, rfl⟩
  rw [← hbs] at hl hb
  have hleft : leftover (some none) A cfg.positions bs = some (filled (some none) A cfg.positions bs) := by
    unfold leftover
    rw [if_neg]
    rintro ⟨-, h⟩
    rw [List.filterMap_eq_nil_iff] at h
    have := h b hb
    rw [indexDocsIn_new, ho] at this
    cases this
  rw [hleft] at hl
  have hmem : m ∈ (filled (some none) A cfg.positions bs).pos := by
    rw [filled_new]
    refine List.mem_flatMap.2 ⟨b, hb, ?_⟩
    have : workerOut A cfg.positions b = o := by simp [workerOut, ho]
    rw [this]; exact hm
  have hbad : indexDocsIn (some (some (filled (some none) A cfg.positions bs))) B cfg'.positions b' = .error .integrity := by
    unfold indexDocsIn
    dsimp only
    rw [ho']
    dsimp only
    rw [if_pos]
    rw [List.any_eq_true]
    refine ⟨m', hm', ?_⟩
    rw [List.any_eq_true]
    exact ⟨m, hmem, by simp [hmf, hmf', hm0, hm0']⟩
  obtain ⟨q1, q2, -⟩ := call_in_fails (s := s') (kept := kept') (cfg := cfg') (corpus := B) (.inl rfl) hl hc' (by
    intro w hw
    obtain ⟨o2, ho2⟩ := phase1In_workers hf' hw b' hb'
    rw [hbad] at ho2
    cases ho2)
  exact ⟨q1, q2⟩

/-! ## Examples -/

/-- The example corpus after a change: the first document lost a token and a tag. -/
def laterContent : Val → Features
  | .int 0 => [("text", .seq [some (.int 9)])]
  | k => demoContent k

def laterCorpus : Corpus := { keys := [.int 0, .int 1], docs := fun ks => .ok (ks.map laterContent) }

theorem later_serves : Serves laterCorpus laterContent where
  keys := by decide
  docs := by intro ks _; rfl
  fields := by decide

/-- A schedule in which the disk is full when the new index is to be merged. -/
def fullSchedule : Schedule := { demoSchedule with fault := fun i => if i = 12 then some .operational else none }

example : Fair fullSchedule ∧ fullSchedule.fault 12 = some .operational ∧
    (indexEvents demoCorpus { demoCfg with positions := false } fullSchedule).1.length + 5 ≤ 12 ∧
    12 ≤ (indexPhase1 demoCorpus { demoCfg with positions := false } fullSchedule).length ∧
    Settled ({} : DB) ∧ List.lookup "work" ([("work", none)] : Dirs) = some none :=
  ⟨⟨demo_fair.pick, demo_fair.segs, demo_fair.pos, demo_fair.groups⟩, by decide +kernel, by decide +kernel, by decide +kernel,
    ⟨⟨by simp, by simp, by simp, by simp, by simp, by simp, by simp⟩, by simp, rfl⟩, rfl⟩

/-- Retrying in the same directory: the token 7 and the tag 1, which no document of the later corpus has, are found in its first
document; the token 9 is there too. -/
example :
    let cfg : IndexCfg := { demoCfg with positions := false }
    let r := indexIn demoCorpus cfg fullSchedule id (.path "work") [("work", none)] (Conn.fresh {})
    let r' := indexIn laterCorpus cfg demoSchedule id (.path "work") r.2.1 (Conn.fresh r.1.committed)
    r.1.committed.features = [] ∧ r.1.committed.docKeys = [] ∧ r'.1.committed.docKeys = [(0, .int 0), (1, .int 1)] ∧
    r'.1.committed.docsOfKey "text" (.int 7) = {0} ∧ r'.1.committed.docsOfKey "tag" (.int 1) = {0} ∧
    r'.1.committed.docsOfKey "text" (.int 9) = {0} ∧ r'.1.committed.docsOfKey "text" (.int 8) = {0, 2} := by
  decide +kernel

/-- With positions, when only the second batch of the failed call was written: the retry finds no row with the same first document,
and the new index has the positions of a document that is not in its corpus. -/
example :
    let r := indexIn demoCorpus demoCfg fullSchedule (List.drop 1) (.path "work") [("work", none)] (Conn.fresh {})
    let r' := indexIn laterCorpus demoCfg demoSchedule id (.path "work") r.2.1 (Conn.fresh r.1.committed)
    r'.1.committed.docKeys = [(0, .int 0), (1, .int 1)] ∧
    r'.1.committed.posDocMap.map (fun p => (p.field, p.firstDoc)) = [("text", 2), ("text", 0)] ∧
    r'.1.committed.docsOfKey "text" (.int 8) = {2} := by
  decide +kernel

/-- A new `TemporaryDirectory`, and the same one again. -/
example :
    let r := indexIn demoCorpus demoCfg demoSchedule id (.temporary "tmp") [("tmp", none)] (Conn.fresh {})
    let r' := indexIn laterCorpus demoCfg demoSchedule id (.temporary "tmp") r.2.1 r.1
    r.2.2.toOption = some () ∧ r.1.committed.docsOfKey "text" (.int 7) = {0} ∧ r.2.1.length = 0 ∧
    r'.2.2.toOption = none ∧ r'.1.committed.docsOfKey "text" (.int 9) = ∅ := by
  decide +kernel

end Hyperreal.Props
