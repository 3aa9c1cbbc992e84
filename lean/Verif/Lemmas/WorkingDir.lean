import Verif.Model.WorkingDir
import Verif.Lemmas.IndexCall

namespace Hyperreal
open Spec DB

theorem stepIn_plain (dir : Option (Option TempFile)) (corpus : Corpus) (positions : Bool) (e : Event) :
    (e.stepIn dir corpus positions).plain = true := by cases e <;> rfl

theorem phase1In_plain (dir : Option (Option TempFile)) (corpus : Corpus) (cfg : IndexCfg) (s : Schedule) :
    ∀ st ∈ indexPhase1In dir corpus cfg s, st.plain = true := by
  intro st hst
  simp only [indexPhase1In, List.mem_append, List.mem_singleton, List.mem_map, List.mem_cons, List.not_mem_nil,
    or_false] at hst
  rcases hst with (rfl | ⟨e, -, rfl⟩) | rfl | rfl | rfl | rfl | rfl | rfl | rfl | rfl | rfl | rfl | rfl | rfl
  all_goals first
    | rfl
    | exact stepIn_plain _ _ _ _

/-- The ways the transactions of a call in a directory can end. -/
inductive CallEndIn (corpus : Corpus) (cfg : IndexCfg) (s : Schedule) (kept : List (List (Nat × Val)) → List (List (Nat × Val)))
    (dir : Option (Option TempFile)) (db : DB) : Atomic.Conn DB × Option Err × Option TempFile → Prop where
  /-- Failed before the first commit. -/
  | old (c' : Atomic.Conn DB) (e : Err) (hc : c'.committed = db) (hi : e.isException = true → Idle c' db)
      (hp : (∀ i, s.fault i = none) → pureSteps corpus cfg.positions (indexPhase1In dir corpus cfg s) db = .error e) :
      CallEndIn corpus cfg s kept dir db
        (c', some e, leftover dir corpus cfg.positions (kept (submitted (indexEvents corpus cfg s).1)))
  /-- Failed after the first commit. -/
  | mid (c' : Atomic.Conn DB) (e : Err) (w : DB)
      (hw : pureSteps corpus cfg.positions (indexPhase1In dir corpus cfg s) db = .ok w) (hc : c'.committed = w)
      (hp : (∀ i, s.fault i = none) → (updateChanged none w w).2 = some e) :
      CallEndIn corpus cfg s kept dir db
        (c', some e, some { filled dir corpus cfg.positions (submitted (indexEvents corpus cfg s).1) with indexed := true })
  /-- Succeeded. -/
  | new (c' : Atomic.Conn DB) (w f : DB)
      (hw : pureSteps corpus cfg.positions (indexPhase1In dir corpus cfg s) db = .ok w)
      (hf : updateChanged none w w = (f, none)) (hi : Idle c' f) :
      CallEndIn corpus cfg s kept dir db
        (c', none, some { filled dir corpus cfg.positions (submitted (indexEvents corpus cfg s).1) with indexed := true })

theorem indexCallIn_end (corpus : Corpus) (cfg : IndexCfg) (s : Schedule)
    (kept : List (List (Nat × Val)) → List (List (Nat × Val))) (dir : Option (Option TempFile)) (db : DB)
    (sn : List DB) : CallEndIn corpus cfg s kept dir db (indexCallIn corpus cfg s kept dir ⟨db, db, [], true, 0, false, sn⟩) := by
  simp only [indexCallIn, runSteps_append]
  obtain ⟨n, e, w, r1, r2, r3⟩ := runSteps_plain corpus cfg.positions s.fault _ (phase1In_plain dir corpus cfg s) 0
    ⟨db, db, [], true, 0, false, sn⟩ rfl
  simp only at r1 r2 r3
  rw [r1]
  cases e with
  | some e =>
    simp only
    by_cases hx : e.isException = true
    · simp only [hx, if_true, Atomic.Conn.rollback, Atomic.Conn.inTxn, Bool.true_or, Atomic.Conn.log, Option.getD_some]
      exact .old _ e rfl (fun _ => ⟨rfl, rfl, rfl, rfl, rfl, rfl⟩) (fun h => by rw [r3 (fun j _ _ => h j)])
    · simp only [hx]
      exact .old _ e rfl (fun h => absurd h hx) (fun h => by rw [r3 (fun j _ _ => h j)])
  | none =>
    have hw := r2 rfl
    simp only [indexPhase2, List.drop_succ_cons, List.drop_zero, runSteps, Nat.zero_add]
    obtain ⟨k, hk⟩ : ∃ k, k = (indexPhase1In dir corpus cfg s).length := ⟨_, rfl⟩
    rw [← hk]
    cases f0 : s.fault k with
    | some e =>
      simp only [Step.exec]
      by_cases hx : e.isException = true
      · simp only [hx, if_true, Atomic.Conn.rollback, Atomic.Conn.inTxn, Bool.true_or, Atomic.Conn.log, Option.getD_some]
        exact .old _ e rfl (fun _ => ⟨rfl, rfl, rfl, rfl, rfl, rfl⟩) (fun h => by simp [h] at f0)
      · simp only [hx]
        exact .old _ e rfl (fun h => absurd h hx) (fun h => by simp [h] at f0)
    | none =>
      simp only [Step.exec, Atomic.Conn.commit, Atomic.Conn.inTxn, Bool.true_or, if_true, Atomic.Conn.log]
      cases f1 : s.fault (k + 1) with
      | some e =>
        by_cases hx : e.isException = true
        · simp only [hx, if_true, Atomic.Conn.rollback, Atomic.Conn.inTxn, List.isEmpty_nil, Bool.not_true, Bool.or_self,
            Bool.false_eq_true, if_false]
          exact .mid _ _ w hw rfl (fun h => by rw [h _] at f1; cases f1)
        · simp only [hx]
          exact .mid _ _ w hw rfl (fun h => by rw [h _] at f1; cases f1)
      | none =>
        simp only [Atomic.Conn.begin, Atomic.Conn.inTxn, List.isEmpty_nil, Bool.not_true, Bool.or_self,
            Bool.false_eq_true, if_false, Atomic.Conn.log]
        cases hu : updateChanged (s.fault (k + 1 + 1)) w w with
        | mk d eo =>
          cases eo with
          | some e =>
            simp only
            have hp : (∀ i, s.fault i = none) → (updateChanged none w w).2 = some e := by
              intro h; rw [h _] at hu; rw [hu]
            by_cases hx : e.isException = true
            · simp only [hx, if_true, Atomic.Conn.rollback, Atomic.Conn.inTxn, Bool.true_or, Atomic.Conn.log]
              exact .mid _ _ w hw rfl hp
            · simp only [hx]
              exact .mid _ _ w hw rfl hp
          | none =>
            have hu' : updateChanged none w w = (d, none) := by
              cases h : s.fault (k + 1 + 1) with
              | none => rw [h] at hu; exact hu
              | some e => rw [h] at hu; simp [updateChanged] at hu
            simp only
            cases f3 : s.fault (k + 1 + 1 + 1) with
            | some e =>
              simp only
              by_cases hx : e.isException = true
              · simp only [hx, if_true, Atomic.Conn.rollback, Atomic.Conn.inTxn, Bool.true_or, Atomic.Conn.log]
                exact .mid _ _ w hw rfl (fun h => by rw [h _] at f3; cases f3)
              · simp only [hx]
                exact .mid _ _ w hw rfl (fun h => by rw [h _] at f3; cases f3)
            | none =>
              simp only [Atomic.Conn.commit, Atomic.Conn.inTxn, Bool.true_or, if_true, Atomic.Conn.log]
              exact .new _ w d hw hu' ⟨rfl, rfl, rfl, rfl, rfl, rfl⟩

theorem awaitErrIn_none_iff {dir : Option (Option TempFile)} {corpus : Corpus} {positions : Bool} {bs : List (List (Nat × Val))} :
    awaitErrIn dir corpus positions bs = none ↔ ∀ b ∈ bs, ∃ o, indexDocsIn dir corpus positions b = .ok o := by
  induction bs with
  | nil => simp [awaitErrIn]
  | cons b bs ih =>
    cases h : indexDocsIn dir corpus positions b with
    | error e => simp [awaitErrIn, h]
    | ok o => simp [awaitErrIn, h, ih]

/-- Every batch was indexed when the first transaction goes through. -/
theorem phase1In_workers {dir : Option (Option TempFile)} {corpus : Corpus} {cfg : IndexCfg} {s : Schedule} (hf : Fair s) {db w : DB}
    (h : pureSteps corpus cfg.positions (indexPhase1In dir corpus cfg s) db = .ok w) :
    ∀ b ∈ submitted (indexEvents corpus cfg s).1, ∃ o, indexDocsIn dir corpus cfg.positions b = .ok o := by
  obtain ⟨-, -, -, h4⟩ := indexEvents_spec corpus cfg s hf
  have key : ∀ bs, Step.sql (fun db => match awaitErrIn dir corpus cfg.positions bs with | some e => .error e | none => .ok db)
      ∈ indexPhase1In dir corpus cfg s → ∀ b ∈ bs, ∃ o, indexDocsIn dir corpus cfg.positions b = .ok o := by
    intro bs hm
    obtain ⟨d, d', hd⟩ := pureSteps_sql _ _ h hm
    refine awaitErrIn_none_iff.1 ?_
    cases ha : awaitErrIn dir corpus cfg.positions bs with
    | none => rfl
    | some e => rw [ha] at hd; cases hd
  intro b hb
  rcases List.mem_append.1 (h4.mem_iff.2 hb) with hb | hb
  · obtain ⟨bs, h1, h2⟩ := (mem_awaited _ _).1 hb
    refine key bs ?_ b h2
    simp only [indexPhase1In, List.mem_append, List.mem_map]
    exact Or.inl (Or.inr ⟨_, h1, rfl⟩)
  · refine key (indexEvents corpus cfg s).2 ?_ b hb
    exact List.mem_append.2 (Or.inr (List.mem_cons_of_mem _ (List.mem_cons_of_mem _ (List.mem_cons_of_mem _ List.mem_cons_self))))

/-- The temporary database must have rows and not be used up. -/
theorem phase1In_file {dir : Option (Option TempFile)} {corpus : Corpus} {cfg : IndexCfg} {s : Schedule} {db w : DB}
    (h : pureSteps corpus cfg.positions (indexPhase1In dir corpus cfg s) db = .ok w) :
    ¬ (submitted (indexEvents corpus cfg s).1 = [] ∧ (dir.getD none).isNone) ∧
      (filled dir corpus cfg.positions (submitted (indexEvents corpus cfg s).1)).indexed = false := by
  obtain ⟨d, d', hd⟩ := pureSteps_sql (fun db => if submitted (indexEvents corpus cfg s).1 = [] ∧ (dir.getD none).isNone then .error .operational
      else if (filled dir corpus cfg.positions (submitted (indexEvents corpus cfg s).1)).indexed then .error .operational else .ok db)
      _ h (List.mem_append.2 (Or.inr (List.mem_cons_of_mem _ (List.mem_cons_of_mem _ (List.mem_cons_of_mem _
        (List.mem_cons_of_mem _ List.mem_cons_self))))))
  split at hd
  · cases hd
  · rename_i h1
    split at hd
    · cases hd
    · rename_i h2
      exact ⟨h1, by simpa using h2⟩

theorem batch_nonempty (corpus : Corpus) (positions : Bool) : indexDocs corpus positions [] = .error .indexError := rfl

/-! ## A directory without an earlier file -/

theorem indexDocsIn_new (corpus : Corpus) (positions : Bool) (b : List (Nat × Val)) :
    indexDocsIn (some none) corpus positions b = indexDocs corpus positions b := by
  unfold indexDocsIn
  cases indexDocs corpus positions b <;> simp

theorem awaitErrIn_new (corpus : Corpus) (positions : Bool) (bs : List (List (Nat × Val))) :
    awaitErrIn (some none) corpus positions bs = awaitErr corpus positions bs := by
  induction bs with
  | nil => rfl
  | cons b bs ih =>
    simp only [awaitErrIn, awaitErr, indexDocsIn_new, ih]
    cases indexDocs corpus positions b <;> rfl

theorem filled_new (corpus : Corpus) (positions : Bool) (bs : List (List (Nat × Val))) :
    filled (some none) corpus positions bs =
      ⟨bs.flatMap (fun b => (workerOut corpus positions b).segs), bs.flatMap (fun b => (workerOut corpus positions b).pos), false⟩ := by
  have key : ∀ {α : Type} (g : BatchOut → List α), g ⟨[], []⟩ = [] →
      (bs.filterMap (fun b => (indexDocsIn (some none) corpus positions b).toOption)).flatMap g =
        bs.flatMap (fun b => g (workerOut corpus positions b)) := by
    intro α g hg
    induction bs with
    | nil => rfl
    | cons b bs ih =>
      rw [List.flatMap_cons, ← ih]
      cases h : indexDocs corpus positions b with
      | error e => simp [indexDocsIn_new, h, workerOut, Except.toOption, hg]
      | ok o => simp [indexDocsIn_new, h, workerOut, Except.toOption]
  simp only [filled, Option.getD_some, Option.getD_none, List.nil_append]
  rw [key (·.segs) rfl, key (·.pos) rfl]

/-- Two steps with the same effect inside a transaction. -/
inductive StepSame (corpus : Corpus) (positions : Bool) : Step → Step → Prop where
  | refl (st : Step) : StepSame corpus positions st st
  | await (bs : List (List (Nat × Val))) : StepSame corpus positions
      (.sql (fun db => match awaitErr corpus positions bs with | some e => .error e | none => .ok db)) (.await bs)

theorem phase1In_new (corpus : Corpus) (cfg : IndexCfg) (s : Schedule) :
    List.Forall₂ (StepSame corpus cfg.positions) (indexPhase1In (some none) corpus cfg s) (indexPhase1 corpus cfg s) := by
  have hrefl : ∀ l : List Step, List.Forall₂ (StepSame corpus cfg.positions) l l := by
    intro l; induction l with
    | nil => exact .nil
    | cons a l ih => exact .cons (.refl a) ih
  unfold indexPhase1In indexPhase1
  simp only [filled_new, Option.getD_some, Option.isNone_none, and_true, Bool.false_eq_true, if_false, awaitErrIn_new]
  refine List.rel_append (List.rel_append (hrefl _) ?_) ?_
  · rw [List.forall₂_map_left_iff, List.forall₂_map_right_iff, List.forall₂_same]
    intro e _
    cases e with
    | insert k => exact .refl _
    | submit b => exact .refl _
    | await bs =>
      have := StepSame.await (corpus := corpus) (positions := cfg.positions) bs
      simp only [Event.stepIn, awaitErrIn_new]
      exact this
  · exact .cons (.refl _) (.cons (.refl _) (.cons (.refl _) (.cons (.await _) (hrefl _))))

/-- The same connection, except for the log. -/
def SameConn (c c' : Atomic.Conn DB) : Prop := c' = { c with seen := c'.seen }

theorem runSteps_same (corpus : Corpus) (positions : Bool) (fault : Nat → Option Err) {l l' : List Step}
    (h : List.Forall₂ (StepSame corpus positions) l l') (hp : ∀ st ∈ l, st.plain = true) :
    ∀ (i : Nat) (cm w : DB) (st : List (String × DB)) (lv : Int) (ch : Bool) (sn sn' : List DB),
      ∃ w2 x x' e, runSteps corpus positions fault i l ⟨cm, w, st, true, lv, ch, sn⟩ = (⟨cm, w2, st, true, lv, ch, x⟩, e) ∧
        runSteps corpus positions fault i l' ⟨cm, w, st, true, lv, ch, sn'⟩ = (⟨cm, w2, st, true, lv, ch, x'⟩, e) := by
  induction h with
  | nil => intro i cm w st lv ch sn sn'; exact ⟨w, sn, sn', none, rfl, rfl⟩
  | cons hab hl ih =>
    rename_i a b l1 l2
    have hpa := hp a (by simp)
    have hps : ∀ st ∈ l1, st.plain = true := fun x hx => hp x (by simp [hx])
    intro i cm w st lv ch sn sn'
    cases hab with
    | refl =>
      cases hf : fault i with
      | some e =>
        refine ⟨w, sn, sn', some e, ?_, ?_⟩ <;> (cases a <;> simp_all [Step.plain, runSteps, Step.exec])
      | none =>
        cases a with
        | sql f =>
          cases hfd : f w with
          | error e =>
            refine ⟨w, cm :: sn, cm :: sn', some e, ?_, ?_⟩ <;>
              simp [runSteps, Step.exec, hf, Atomic.Conn.exec, hfd, Except.map, Atomic.Conn.log]
          | ok d =>
            obtain ⟨w2, x, x', e, h1, h2⟩ := ih hps (i + 1) cm d st lv ch (cm :: sn) (cm :: sn')
            refine ⟨w2, x, x', e, ?_, ?_⟩
            · simpa [runSteps, Step.exec, hf, Atomic.Conn.exec, hfd, Except.map, Atomic.Conn.log, Atomic.Conn.inTxn] using h1
            · simpa [runSteps, Step.exec, hf, Atomic.Conn.exec, hfd, Except.map, Atomic.Conn.log, Atomic.Conn.inTxn] using h2
        | await bs =>
          cases ha : awaitErr corpus positions bs with
          | some e => exact ⟨w, sn, sn', some e, by simp [runSteps, Step.exec, hf, ha], by simp [runSteps, Step.exec, hf, ha]⟩
          | none =>
            obtain ⟨w2, x, x', e, h1, h2⟩ := ih hps (i + 1) cm w st lv ch sn sn'
            exact ⟨w2, x, x', e, by simpa [runSteps, Step.exec, hf, ha] using h1, by simpa [runSteps, Step.exec, hf, ha] using h2⟩
        | nop =>
          obtain ⟨w2, x, x', e, h1, h2⟩ := ih hps (i + 1) cm w st lv ch sn sn'
          exact ⟨w2, x, x', e, by simpa [runSteps, Step.exec, hf] using h1, by simpa [runSteps, Step.exec, hf] using h2⟩
        | begin => simp [Step.plain] at hpa
        | commit => simp [Step.plain] at hpa
        | housekeeping => simp [Step.plain] at hpa
    | await bs =>
      cases hf : fault i with
      | some e => exact ⟨w, sn, sn', some e, by simp [runSteps, Step.exec, hf], by simp [runSteps, Step.exec, hf]⟩
      | none =>
        cases ha : awaitErr corpus positions bs with
        | some e =>
          refine ⟨w, cm :: sn, sn', some e, ?_, ?_⟩ <;>
            simp [runSteps, Step.exec, hf, ha, Atomic.Conn.exec, Except.map, Atomic.Conn.log]
        | none =>
          obtain ⟨w2, x, x', e, h1, h2⟩ := ih hps (i + 1) cm w st lv ch (cm :: sn) sn'
          refine ⟨w2, x, x', e, ?_, ?_⟩
          · simpa [runSteps, Step.exec, hf, ha, Atomic.Conn.exec, Except.map, Atomic.Conn.log, Atomic.Conn.inTxn] using h1
          · simpa [runSteps, Step.exec, hf, ha] using h2

end Hyperreal
