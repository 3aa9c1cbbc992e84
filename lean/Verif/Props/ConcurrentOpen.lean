import Verif.Lemmas.ConcurrentOpen
import Verif.Lemmas.ConcurrentRun
import Verif.Props.Migrate

/-!
# C68: several openings of one file at the same time

For every number of threads or processes that open the same file, every interleaving of their commands, every refusal of
a command by SQLite and every death.
-/

namespace Hyperreal.Props
open Spec Atomic Concurrent
open Migrate (File Faults openIndex opened Kind inWal openCode lookCode knowCode createCode settleCode Seen Phase OpenTxn
  runStmts)

/-- The code threads may start: openings only, with any failures from outside. -/
def Opens (_ : Unit) (p : Code File Seen) : Prop := ∃ fault reads, p = openCode fault reads

/-! ## Statements and the journal mode -/

theorem inWal_of_wal {f : File} (h : f.wal = true) : inWal f = f := by
  cases f; simp only at h; subst h; rfl

theorem current_wal {f : File} (h : Current f) : Current (inWal f) :=
  ⟨h.version, h.applicationId, h.tables, h.objects, h.obsolete, h.window⟩

/-- The statements of an upgrade are refused by a file that is current already: a column would be there twice. -/
theorem current_refuses_upgrade {f : File} (h : Current f) (v : Int) (hv : 4 ≤ v ∧ v ≤ 9) :
    runStmts (Migrate.upgrade v) f = .error .operational := by
  have hc := h.tables ("cluster", ["cluster_id", "feature_count", "docs_count", "weight", "doc_ids", "pinned"]) (by decide +kernel)
  have hf := h.tables ("feature_cluster", ["feature_id", "cluster_id", "docs_count", "pinned"]) (by decide +kernel)
  have hs := h.tables ("field_summary", ["field", "distinct_values", "min_value", "max_value", "position_count"]) (by decide +kernel)
  have : v = 4 ∨ v = 5 ∨ v = 6 ∨ v = 7 ∨ v = 8 ∨ v = 9 := by omega
  rw [Migrate.upgrade]
  rcases this with rfl | rfl | rfl | rfl | rfl | rfl <;>
    simp [Migrate.migrations, runStmts, Migrate.Stmt.refused, hc, hf, hs]

/-- The schema script on a current file changes no row of the index. -/
theorem current_schema {f f' : File} (h : Current f) (hr : runStmts Migrate.schema f = .ok f') :
    Current f' ∧ f'.data = f.data ∧ f'.wal = f.wal ∧ ∀ o, o ∈ f'.objects ↔ o ∈ f.objects := by
  have hfit : Migrate.Fits f := ⟨fun t ht _ => (h.tables t ht).2, fun t ht hn => absurd (h.tables t ht).1 hn⟩
  obtain ⟨g, h1, h2, h3, h4, h5⟩ := Migrate.runStmts_schema f hfit
  rw [hr, Except.ok.injEq] at h1
  subst h1
  refine ⟨h2, h3, h4, fun o => ?_⟩
  rw [h5]
  constructor
  · rintro (⟨h, -⟩ | h' | h')
    · exact h
    · obtain ⟨t, ht, rfl⟩ := List.mem_map.1 h'
      exact (h.tables t ht).1
    · exact h.objects o h'
  · intro ho
    exact .inl ⟨ho, fun hx => h.obsolete o hx ho⟩

/-! ## Openings next to anything else -/

/-- A connection between transactions. -/
structure Rest (c : Conn File) : Prop where
  level : c.level = 0
  changed : c.changed = false

theorem Rest.idle {c : Conn File} (h : Rest c) (ht : c.inTxn = false) (he : c.committed = c.work) : Idle c c.committed := by
  have := (inTxn_false_iff c).1 ht
  exact ⟨rfl, he.symm, this.2, this.1, h.level, h.changed⟩

/-- What the code of a thread says. -/
theorem openings_regime : RegimeOn Opens (fun _ => True) (fun _ _ => True) (fun _ p c => Phase p ∧ Rest c) := by
  refine ⟨fun _ => trivial, fun _ _ _ _ _ => trivial, ?_, ?_, ?_, ?_⟩
  · rintro l l0 p c r ⟨fault, reads, rfl⟩ ⟨-, h⟩ -
    exact ⟨.start fault reads, h⟩
  · rintro l p c s ⟨h1, h2⟩ - -
    exact ⟨h1, h2.level, h2.changed⟩
  · rintro l p c ⟨h1, h2⟩ ht he - hend
    refine ⟨?_, trivial, trivial⟩
    rcases Migrate.open_txn h1 (h2.idle ht he) hend with ⟨r, rfl⟩ | ⟨f', h, hi⟩
    · exact ⟨.done r, h2⟩
    · exact ⟨h.phase, hi.level, hi.changed⟩
  · intro l s r _
    exact ⟨.done r, rfl, rfl⟩

/-- Each finished transaction is one of an opening. -/
theorem opening_txn {f : File} {w : World File Seen Unit} (h : Reachable Opens f w) (E : Entry File Seen Unit)
    (hE : E ∈ w.log) : OpenTxn (w.version E.base) (E.result w) E.home.1 E.code := by
  have hE := ((reachable_on openings_regime trivial h).1).log E hE
  have hi := hE.homeReady.2.idle hE.homeIdle (hE.homeCommitted.trans hE.homeWork.symm)
  have hend : (aloneTxn E.home.1 E.home.2).2.inTxn = false := by rw [hE.txn]; exact hE.over
  rcases Migrate.open_txn hE.homeReady.1 hi hend with ⟨r, hr⟩ | ⟨f', h1, h2⟩
  · exact absurd hr (hE.busy r)
  · rw [hE.homeCommitted, hE.txn] at h1
    have hres : E.result w = f' := by
      have : E.conn.committed = f' := by rw [hE.txn] at h2; exact h2.committed
      rw [← this]
      cases hp : E.published with
      | true => simp only [Entry.result, hp, if_true]; exact (hE.published hp).2.2
      | false => simp only [Entry.result, hp, Bool.false_eq_true, if_false]; exact (hE.unpublished hp).symm
    rw [hres]
    exact h1

/-! ## An older index -/

/-- The course of an undisturbed opening of a genuine older index. -/
theorem genuine_course (v : Int) (f : File) (hg : Genuine v f) :
    runStmts (Migrate.upgrade v) (inWal f) = .ok (opened diesHalfway f) ∧ Current (opened diesHalfway f) ∧
    (opened diesHalfway f).wal = true ∧ Pending (opened diesHalfway f).data ∧
    ∃ d, DB.updateChanged none (opened diesHalfway f).data (opened diesHalfway f).data = (d, none) ∧ Settled d ∧
      opened Faults.none f = { opened diesHalfway f with data := d } := by
  have hsch : SchemaOf v (inWal f) := by
    obtain ⟨h1, h2, h3, h4, h5, h6, h7, h8, h9⟩ := hg.toSchemaOf
    exact ⟨h1, h2, h3, h4, h5, h6, h7, h8, h9⟩
  have hv := hg.version
  have hrange := hg.range
  obtain ⟨f', a1, a2, a3, a4, a5⟩ := Migrate.upgrade_ok v (inWal f) hsch (by
    intro h4 k _
    show k.cid ∉ f.data.changed
    simp [hg.nothingPending h4])
  obtain ⟨d', b1, b2, b3, b4⟩ := Migrate.upgraded_settles v f.data hrange.1 hg.wellformed hg.nothingPending hg.summaries hg.pendingKnown
  have hdata : f'.data = Migrate.upgraded v f.data := a3
  have key : ∀ fault : Faults, (∀ i, fault.pragma i = none) → (∀ i, fault.migrate i = none) →
      ((∃ e, (openIndex fault f).2 = .error e ∧ ∃ i, fault.settle i = some e) ∧ opened fault f = f') ∨
      ((openIndex fault f).2 = .ok true ∧ opened fault f = { f' with data := d' }) := by
    intro fault h1 h2
    rcases Migrate.course fault f with ⟨e, h, he⟩ | ⟨c, e, h, hc, hs, hv', hnew, he⟩ | ⟨c, h, hc, hs, hv'⟩ |
      ⟨c, f2, h, hr, hc, hs, hv', -⟩ | ⟨c, e, h, hc, hs, he, hv'⟩ | ⟨c, f2, e, h, hr, hc, hs, hv', he⟩ |
      ⟨c, f2, d, h, hr, hd', hc, hv', hs⟩
    · rw [h1] at he; cases he
    · omega
    · omega
    · omega
    · rcases he with ⟨i, hi⟩ | he
      · rw [h2] at hi; cases hi
      · rw [if_neg (by omega), hv, a1] at he; cases he
    · rw [hv, a1, Except.ok.injEq] at hr
      subst hr
      rcases he with ⟨i, hi⟩ | he
      · exact .inl ⟨⟨e, by rw [h], i, hi⟩, by rw [opened, h]; exact hc⟩
      · rw [hdata, b1] at he; cases he
    · rw [hv, a1, Except.ok.injEq] at hr
      subst hr
      rw [hdata, b1, Prod.mk.injEq] at hd'
      obtain ⟨rfl, -⟩ := hd'
      exact .inr ⟨by rw [h], by simp only [opened, h, Conn.close, hc.committed]⟩
  have hhalf : opened diesHalfway f = f' := by
    rcases key diesHalfway (fun _ => rfl) (fun _ => rfl) with ⟨-, h⟩ | ⟨h, -⟩
    · exact h
    · exfalso
      have hst : ∀ c', (Migrate.runSteps diesHalfway.settle [.begin, .housekeeping, .commit] c').2 = some .interrupt := by
        intro c'; simp [Migrate.runSteps, diesHalfway]
      rw [openIndex] at h
      split at h
      · cases h
      · split at h
        · cases h
        · cases h
        · split at h
          · cases h
          · rename_i c1 _ _ _ heq
            have := hst c1
            rw [heq] at this
            cases this
  have hfull : opened Faults.none f = { f' with data := d' } := by
    rcases key Faults.none (fun _ => rfl) (fun _ => rfl) with ⟨⟨e, -, i, hi⟩, -⟩ | ⟨-, h⟩
    · cases hi
    · exact h
  rw [hhalf, hfull]
  exact ⟨a1, a2, a4, by rw [hdata]; exact Migrate.upgraded_pending v f.data hrange.1 hg.wellformed hg.nothingPending hg.summaries hg.pendingKnown,
    d', by rw [hdata]; exact b1, b2, rfl⟩

/-- The contents a file goes through: as it was, in WAL mode, migrated, brought up to date. -/
def Through (f0 f : File) : Prop :=
  f = f0 ∨ f = inWal f0 ∨ f = opened diesHalfway f0 ∨ f = opened Faults.none f0

/-- Later contents are not older. -/
structure NotOlder (f0 f f' : File) : Prop where
  wal : f.wal = true → f'.wal = true
  migrated : f.version = 10 → f'.version = 10
  settled : f = opened Faults.none f0 → f' = opened Faults.none f0

/-- What a thread knows. -/
def Knows (v : Int) (_ : Unit) (p : Code File Seen) (c : Conn File) : Prop :=
  Rest c ∧ ((∃ fault reads, p = openCode fault reads) ∨
    (c.committed.wal = true ∧
      ((∃ fault reads, p = lookCode fault reads) ∨
      (∃ fault reads u, p = knowCode fault reads u ∧ (u = v ∨ (u = 10 ∧ c.committed.version = 10))) ∨
      (∃ fault, p = settleCode fault ∧ c.committed.version = 10))) ∨ ∃ r, p = .done r)

/-- The housekeeping on a migrated file completes the opening. -/
theorem through_settle (v : Int) (f0 : File) (hg : Genuine v f0) {f : File} (hinv : Through f0 f) (h10 : f.version = 10)
    {d' : DB} (a0 : DB.updateChanged none f.data f.data = (d', none)) :
    ({ f with data := d' } : File) = opened Faults.none f0 := by
  obtain ⟨g1, g2, g3, g4, d, g5, g6, g7⟩ := genuine_course v f0 hg
  have hrange := hg.range
  have hv0 := hg.version
  rcases hinv with e | e | e | e
  · rw [e, hv0] at h10; omega
  · rw [e, show (inWal f0).version = v from hv0] at h10; omega
  · rw [e, g5, Prod.mk.injEq] at a0
    obtain ⟨rfl, -⟩ := a0
    rw [g7, e]
  · have hd : f.data = d := by rw [e, g7]
    rw [hd, DB.updateChanged_settled g6, Prod.mk.injEq] at a0
    obtain ⟨rfl, -⟩ := a0
    rw [e, g7]

/-- One transaction of an opening on a file that goes through a migration. -/
theorem through_txn (v : Int) (f0 : File) (hg : Genuine v f0) {c : Conn File} {p : Code File Seen} (hk : Knows v () p c)
    {f : File} (hi : Idle c f) (hinv : Through f0 f) (hend : (aloneTxn p c).2.inTxn = false) :
    Knows v () (aloneTxn p c).1 (aloneTxn p c).2 ∧ Through f0 (aloneTxn p c).2.committed ∧
      NotOlder f0 f (aloneTxn p c).2.committed := by
  obtain ⟨g1, g2, g3, g4, d, g5, g6, g7⟩ := genuine_course v f0 hg
  have hrange := hg.range
  have hv0 := hg.version
  have hfull10 : (opened Faults.none f0).version = 10 := by rw [g7]; exact g2.version
  have hfullW : (opened Faults.none f0).wal = true := by rw [g7]; exact g3
  have hcur : f.version = 10 → Current f := by
    intro h10
    rcases hinv with e | e | e | e
    · rw [e, hv0] at h10; omega
    · rw [e, show (inWal f0).version = v from hv0] at h10; omega
    · rw [e]; exact g2
    · rw [e, g7]; exact ⟨g2.version, g2.applicationId, g2.tables, g2.objects, g2.obsolete, g2.window⟩
  have hver : f.version = v ∨ f.version = 10 := by
    rcases hinv with e | e | e | e
    · exact .inl (by rw [e, hv0])
    · exact .inl (by rw [e]; exact hv0)
    · exact .inr (by rw [e]; exact g2.version)
    · exact .inr (by rw [e]; exact hfull10)
  obtain ⟨hrest, hp⟩ := hk
  have same : ∀ r, p = .done r → Knows v () (aloneTxn p c).1 (aloneTxn p c).2 ∧ Through f0 (aloneTxn p c).2.committed ∧
      NotOlder f0 f (aloneTxn p c).2.committed := by
    rintro r rfl
    simp only [aloneTxn, hi.committed]
    exact ⟨⟨hrest, .inr (.inr ⟨r, rfl⟩)⟩, hinv, id, id, id⟩
  rw [hi.committed] at hp
  rcases hp with ⟨fault, reads, rfl⟩ | ⟨hwal, ⟨fault, reads, rfl⟩ | ⟨fault, reads, u, rfl, hu⟩ | ⟨fault, rfl, h10⟩⟩ | ⟨r, rfl⟩
  · rcases Migrate.txn_open fault reads hi with ⟨r, a⟩ | ⟨a, b⟩
    · exact same r a
    · rw [a, b.committed]
      refine ⟨⟨⟨b.level, b.changed⟩, .inr (.inl ⟨by rw [b.committed]; rfl, .inl ⟨fault, reads, rfl⟩⟩)⟩, ?_, fun _ => rfl, id, ?_⟩
      · rcases hinv with e | e | e | e
        · rw [e]; exact .inr (.inl rfl)
        · rw [e]; exact .inr (.inl rfl)
        · rw [e, inWal_of_wal g3]; exact .inr (.inr (.inl rfl))
        · rw [e, inWal_of_wal hfullW]; exact .inr (.inr (.inr rfl))
      · intro e
        rw [e]; exact inWal_of_wal hfullW
  · rcases Migrate.txn_look fault reads hi with ⟨r, a⟩ | ⟨a, b⟩
    · exact same r a
    · rw [a, b.committed]
      refine ⟨⟨⟨b.level, b.changed⟩, .inr (.inl ⟨by rw [b.committed]; exact hwal, .inr (.inl ⟨fault, reads, _, rfl, ?_⟩)⟩)⟩, hinv, id, id, id⟩
      rw [b.committed]
      exact hver.imp id (fun h => ⟨h, h⟩)
  · rcases Migrate.txn_know fault reads u hi hend with ⟨r, a⟩ | ⟨hu0, -⟩ | ⟨hu', f', a0, a, b⟩
    · exact same r a
    · omega
    · have huv : u = v := by omega
      subst huv
      -- the file cannot be migrated already
      have hold : f = inWal f0 := by
        have hno : f.version ≠ 10 := by
          intro h10
          rw [current_refuses_upgrade (hcur h10) u hu'] at a0
          cases a0
        rcases hinv with e | e | e | e
        · rw [← e]; exact (inWal_of_wal hwal).symm
        · exact e
        · exact absurd (by rw [e]; exact g2.version) hno
        · exact absurd (by rw [e]; exact hfull10) hno
      rw [hold, g1, Except.ok.injEq] at a0
      subst a0
      rw [a, b.committed]
      refine ⟨⟨⟨b.level, b.changed⟩, .inr (.inl ⟨by rw [b.committed]; exact g3, .inr (.inr ⟨fault, rfl, by rw [b.committed]; exact g2.version⟩)⟩)⟩,
        .inr (.inr (.inl rfl)), fun _ => g3, fun _ => g2.version, ?_⟩
      intro e
      rw [hold] at e
      rw [← e, show (inWal f0).version = u from hv0] at hfull10
      omega
  · rcases Migrate.txn_settled fault hi hend with ⟨r, a⟩ | ⟨d', a0, a, b⟩
    · exact same r a
    · have hf' := through_settle v f0 hg hinv h10 a0
      rw [hf'] at b
      rw [a, b.committed]
      exact ⟨⟨⟨b.level, b.changed⟩, .inr (.inr ⟨_, rfl⟩)⟩, .inr (.inr (.inr rfl)), fun _ => hfullW, fun _ => hfull10, fun _ => rfl⟩
  · exact same r rfl

theorem through_regime (v : Int) (f0 : File) (hg : Genuine v f0) :
    RegimeOn Opens (Through f0) (NotOlder f0) (Knows v) := by
  refine ⟨fun _ => ⟨id, id, id⟩, ?_, ?_, ?_, ?_, ?_⟩
  · intro s s' s'' h h'
    exact ⟨fun e => h'.wal (h.wal e), fun e => h'.migrated (h.migrated e), fun e => h'.settled (h.settled e)⟩
  · rintro l l0 p c r ⟨fault, reads, rfl⟩ h -
    exact ⟨h.1, .inl ⟨fault, reads, rfl⟩⟩
  · rintro l p c s ⟨h1, h2⟩ - hle
    refine ⟨⟨h1.level, h1.changed⟩, ?_⟩
    rcases h2 with h2 | ⟨hw, h2⟩ | h2
    · exact .inl h2
    · refine .inr (.inl ⟨hle.wal hw, ?_⟩)
      rcases h2 with h2 | ⟨fault, reads, u, hp, hu⟩ | ⟨fault, hp, h10⟩
      · exact .inl h2
      · exact .inr (.inl ⟨fault, reads, u, hp, hu.imp id (fun h => ⟨h.1, hle.migrated h.2⟩)⟩)
      · exact .inr (.inr ⟨fault, hp, hle.migrated h10⟩)
    · exact .inr (.inr h2)
  · intro l p c h ht he hinv hend
    exact through_txn v f0 hg h (h.1.idle ht he) hinv hend
  · intro l s r _
    exact ⟨⟨rfl, rfl⟩, .inr (.inr ⟨r, rfl⟩)⟩

/-- **C68, an older index opened by several at once (part proved).** Whatever the interleaving, the file only ever has
one of four contents: the one it had, the same in WAL mode, the one a migration leaves, the one a complete opening
leaves; it never goes back.  So it is migrated at most once, never half, and never over somebody else's migration. -/
theorem concurrent_open_partial (v : Int) (f : File) (hg : Genuine v f) {w : World File Seen Unit}
    (h : Reachable Opens f w) :
    (∀ k, k ≤ w.count → w.version k = f ∨ w.version k = inWal f ∨ w.version k = opened diesHalfway f ∨
      w.version k = opened Faults.none f) ∧
    (∀ j k, j ≤ k → k ≤ w.count → ((w.version j).version = 10 → (w.version k).version = 10) ∧
      (w.version j = opened Faults.none f → w.version k = opened Faults.none f)) := by
  obtain ⟨-, h2⟩ := reachable_on (through_regime v f hg) (.inl rfl) h
  exact ⟨h2.inv, fun j k hjk hk => ⟨(h2.le j k hjk hk).migrated, (h2.le j k hjk hk).settled⟩⟩

/-- **C68.** An opening that returned found a file of the current version, or made it one: if it reports a migration the
file is then as after an undisturbed opening, if not it was migrated before.  (A transaction ends an opening if its code
is then done.) -/
theorem concurrent_open_returned (v : Int) (f : File) (hg : Genuine v f) {w : World File Seen Unit}
    (h : Reachable Opens f w) (E : Entry File Seen Unit) (hE : E ∈ w.log) (b : Bool)
    (hb : E.code = .done (.ok (.opened b))) :
    Current (E.result w) ∧ (b = true → E.result w = opened Faults.none f) ∧
      (b = false → E.result w = w.version E.base) := by
  obtain ⟨g1, g2, g3, g4, d, g5, g6, g7⟩ := genuine_course v f hg
  have hfull : Current (opened Faults.none f) := by
    rw [g7]; exact ⟨g2.version, g2.applicationId, g2.tables, g2.objects, g2.obsolete, g2.window⟩
  obtain ⟨h1, h2⟩ := reachable_on (through_regime v f hg) (.inl rfl) h
  have hE' := h1.log E hE
  have hbase := h2.inv E.base (hE'.base.trans hE'.ended)
  have hi : Idle E.home.2 (w.version E.base) := by
    have := hE'.homeReady.1.idle hE'.homeIdle (hE'.homeCommitted.trans hE'.homeWork.symm)
    rwa [hE'.homeCommitted] at this
  have hend : (aloneTxn E.home.1 E.home.2).2.inTxn = false := by rw [hE'.txn]; exact hE'.over
  have hres : E.result w = E.conn.committed := by
    cases hp : E.published with
    | true => simp only [Entry.result, hp, if_true]; exact (hE'.published hp).2.2
    | false => simp only [Entry.result, hp, Bool.false_eq_true, if_false]; exact (hE'.unpublished hp).symm
  have hthr := through_txn v f hg hE'.homeReady hi hbase hend
  have htx := hE'.txn
  have hc10 : ∀ g, Through f g → g.version = 10 → Current g := by
    intro g hinv h10
    rcases hinv with e | e | e | e
    · rw [e, hg.version] at h10; have := hg.range; omega
    · rw [e, show (inWal f).version = v from hg.version] at h10; have := hg.range; omega
    · rw [e]; exact g2
    · rw [e]; exact hfull
  rcases hE'.homeReady.2 with ⟨fault, reads, e⟩ | ⟨-, ⟨fault, reads, e⟩ | ⟨fault, reads, u, e, -⟩ | ⟨fault, e, h10⟩⟩ | ⟨r, e⟩
  · rcases Migrate.txn_open fault reads hi with ⟨r, a⟩ | ⟨a, -⟩
    · exact absurd (e.trans a) (hE'.busy r)
    · rw [← e, htx] at a
      exact absurd (a.symm.trans hb) (by rw [lookCode]; split <;> simp)
  · rcases Migrate.txn_look fault reads hi with ⟨r, a⟩ | ⟨a, b'⟩
    · exact absurd (e.trans a) (hE'.busy r)
    · rw [← e, htx] at a b'
      have hk := a.symm.trans hb
      have hsame : E.result w = w.version E.base := hres.trans b'.committed
      have h10 : (w.version E.base).version = 10 ∧ b = false := by
        rw [knowCode] at hk
        split at hk
        · split at hk <;> simp at hk
        · split at hk
          · rename_i h10
            simp only [Code.done.injEq, Except.ok.injEq, Seen.opened.injEq] at hk
            exact ⟨h10, hk.symm⟩
          · split at hk
            · exfalso
              rw [Migrate.transaction, List.append_assoc, List.singleton_append, Migrate.stepsCode] at hk
              split at hk <;> simp at hk
            · simp at hk
      refine ⟨by rw [hsame]; exact hc10 _ hbase h10.1, ?_, fun _ => hsame⟩
      rw [h10.2]; intro h; cases h
  · rcases Migrate.txn_know fault reads u hi (by rw [← e]; exact hend) with ⟨r, a⟩ | ⟨-, a, -⟩ | ⟨-, f', -, a, -⟩
    · exact absurd (e.trans a) (hE'.busy r)
    · rw [← e, htx] at a
      refine absurd (a.symm.trans hb) ?_
      split
      · simp
      · rw [createCode, Migrate.transaction, List.append_assoc, List.singleton_append, Migrate.stepsCode]
        split <;> simp
    · rw [← e, htx] at a
      refine absurd (a.symm.trans hb) ?_
      rw [settleCode, Migrate.stepsCode]
      split <;> simp
  · rcases Migrate.txn_settled fault hi (by rw [← e]; exact hend) with ⟨r, a⟩ | ⟨d', a0, a, b'⟩
    · exact absurd (e.trans a) (hE'.busy r)
    · rw [← e, htx] at a b'
      rw [hE'.homeCommitted] at h10
      have hf' := through_settle v f hg hbase h10 a0
      rw [hf'] at b'
      have hbt : b = true := by
        have := a.symm.trans hb
        simp only [Code.done.injEq, Except.ok.injEq, Seen.opened.injEq] at this
        exact this.symm
      rw [hres, show E.conn.committed = _ from b'.committed]
      exact ⟨hfull, fun _ => rfl, fun h => by rw [hbt] at h; cases h⟩
  · exact absurd e (hE'.busy r)

/-! ## A new file -/

/-- Nothing in it yet. -/
structure Blank (f : File) : Prop where
  version : f.version = 0
  objects : f.objects = []
  data : f.data = {}

/-- Either nothing in it, or the current schema without rows. -/
def BlankOrNew (f : File) : Prop := Blank f ∨ (Current f ∧ f.data = {})

theorem blank_schema {f f' : File} (h : Blank f) (hr : runStmts Migrate.schema f = .ok f') : Current f' ∧ f'.data = {} := by
  have hfit : Migrate.Fits f := by
    constructor
    · intro t _ h'
      simp [h.objects] at h'
    · intro t ht _
      rw [h.data]
      clear * - ht
      revert t
      decide +kernel
  obtain ⟨g, h1, h2, h3, -⟩ := Migrate.runStmts_schema f hfit
  rw [hr, Except.ok.injEq] at h1
  subst h1
  exact ⟨h2, h3.trans h.data⟩

/-- What a thread knows. -/
def KnowsNew (_ : Unit) (p : Code File Seen) (c : Conn File) : Prop :=
  Rest c ∧ ((∃ fault reads, p = openCode fault reads) ∨ (∃ fault reads, p = lookCode fault reads) ∨
      (∃ fault reads u, p = knowCode fault reads u ∧ (u = 0 ∨ (u = 10 ∧ c.committed.version = 10))) ∨
      (∃ fault, p = createCode fault) ∨ ∃ r, p = .done r)

/-- One transaction of an opening of a new file. -/
theorem new_txn {c : Conn File} {p : Code File Seen} (hk : KnowsNew () p c)
    {f : File} (hi : Idle c f) (hinv : BlankOrNew f) (hend : (aloneTxn p c).2.inTxn = false) :
    KnowsNew () (aloneTxn p c).1 (aloneTxn p c).2 ∧ BlankOrNew (aloneTxn p c).2.committed ∧
      (f.version = 10 → (aloneTxn p c).2.committed.version = 10) ∧
      ((∀ r, p ≠ .done r) → ∀ b, (aloneTxn p c).1 = .done (.ok (.opened b)) →
        b = false ∧ (aloneTxn p c).2.committed.version = 10) := by
  obtain ⟨hrest, hp⟩ := hk
  have hver : f.version = 0 ∨ f.version = 10 := hinv.imp (·.version) (·.1.version)
  have same : ∀ r, p = .done r → KnowsNew () (aloneTxn p c).1 (aloneTxn p c).2 ∧ BlankOrNew (aloneTxn p c).2.committed ∧
      (f.version = 10 → (aloneTxn p c).2.committed.version = 10) ∧
      ((∀ r, p ≠ .done r) → ∀ b, (aloneTxn p c).1 = .done (.ok (.opened b)) →
        b = false ∧ (aloneTxn p c).2.committed.version = 10) := by
    rintro r rfl
    simp only [aloneTxn, hi.committed]
    exact ⟨⟨hrest, .inr (.inr (.inr (.inr ⟨r, rfl⟩)))⟩, hinv, id, fun h => absurd rfl (h r)⟩
  rw [hi.committed] at hp
  rcases hp with ⟨fault, reads, rfl⟩ | ⟨fault, reads, rfl⟩ | ⟨fault, reads, u, rfl, hu⟩ | ⟨fault, rfl⟩ | ⟨r, rfl⟩
  · rcases Migrate.txn_open fault reads hi with ⟨r, a⟩ | ⟨a, b⟩
    · exact same r a
    · rw [a, b.committed]
      refine ⟨⟨⟨b.level, b.changed⟩, .inr (.inl ⟨fault, reads, rfl⟩)⟩, ?_, id, fun _ b h => ?_⟩
      · exact hinv.imp (fun h => ⟨h.version, h.objects, h.data⟩) (fun h => ⟨current_wal h.1, h.2⟩)
      · exact absurd h (by rw [lookCode]; split <;> simp)
  · rcases Migrate.txn_look fault reads hi with ⟨r, a⟩ | ⟨a, b⟩
    · exact same r a
    · rw [a, b.committed]
      refine ⟨⟨⟨b.level, b.changed⟩, .inr (.inr (.inl ⟨fault, reads, _, rfl, ?_⟩))⟩, hinv, id, fun _ b h => ?_⟩
      · rw [b.committed]; exact hver.imp id (fun h => ⟨h, h⟩)
      · rcases hver with h0 | h10
        · exfalso
          rw [h0, knowCode] at h
          split at h
          · split at h <;> simp at h
          · rename_i hn; exact hn rfl
        · rw [h10] at h ⊢
          simp only [knowCode, Migrate.currentVersion] at h
          simp at h
          exact ⟨h, rfl⟩
  · rcases Migrate.txn_know fault reads u hi hend with ⟨r, a⟩ | ⟨hu0, a, b⟩ | ⟨hu', -⟩
    · exact same r a
    · rw [a, b.committed]
      refine ⟨⟨⟨b.level, b.changed⟩, ?_⟩, hinv, id, fun _ b h => ?_⟩
      · split
        · exact .inr (.inr (.inr (.inr ⟨_, rfl⟩)))
        · exact .inr (.inr (.inr (.inl ⟨fault, rfl⟩)))
      · exfalso
        split at h
        · simp at h
        · rw [createCode, Migrate.transaction, List.append_assoc, List.singleton_append, Migrate.stepsCode] at h
          split at h <;> simp at h
    · omega
  · rcases Migrate.txn_create fault hi hend with ⟨r, a⟩ | ⟨f', a0, a, b⟩
    · exact same r a
    · have hnew : Current f' ∧ f'.data = {} := by
        rcases hinv with h | h
        · exact blank_schema h a0
        · obtain ⟨h1, h2, -⟩ := current_schema h.1 a0
          exact ⟨h1, h2.trans h.2⟩
      rw [a, b.committed]
      refine ⟨⟨⟨b.level, b.changed⟩, .inr (.inr (.inr (.inr ⟨_, rfl⟩)))⟩, .inr hnew, fun _ => hnew.1.version, fun _ b h => ?_⟩
      simp only [Code.done.injEq, Except.ok.injEq, Seen.opened.injEq] at h
      exact ⟨h.symm, hnew.1.version⟩
  · exact same r rfl

theorem new_regime : RegimeOn Opens BlankOrNew (fun f f' => f.version = 10 → f'.version = 10) KnowsNew := by
  refine ⟨fun _ => id, fun _ _ _ h h' e => h' (h e), ?_, ?_, ?_, ?_⟩
  · rintro l l0 p c r ⟨fault, reads, rfl⟩ h -
    exact ⟨h.1, .inl ⟨fault, reads, rfl⟩⟩
  · rintro l p c s ⟨h1, h2⟩ - hle
    refine ⟨⟨h1.level, h1.changed⟩, ?_⟩
    rcases h2 with h2 | h2 | ⟨fault, reads, u, hp, hu⟩ | h2 | h2
    · exact .inl h2
    · exact .inr (.inl h2)
    · exact .inr (.inr (.inl ⟨fault, reads, u, hp, hu.imp id (fun h => ⟨h.1, hle h.2⟩)⟩))
    · exact .inr (.inr (.inr (.inl h2)))
    · exact .inr (.inr (.inr (.inr h2)))
  · intro l p c h ht he hinv hend
    obtain ⟨h1, h2, h3, -⟩ := new_txn h (h.1.idle ht he) hinv hend
    exact ⟨h1, h2, h3⟩
  · intro l s r _
    exact ⟨⟨rfl, rfl⟩, .inr (.inr (.inr (.inr ⟨r, rfl⟩)))⟩

/-- **C68, a new file opened by several at once (part proved).** Whatever the interleaving, the file is either still
without any table, or has the complete current schema and no rows; once it has the schema it keeps it.  An opening that
returned reports no migration and left (or found) the current schema. -/
theorem concurrent_create_partial (f : File) (hf : Blank f) {w : World File Seen Unit} (h : Reachable Opens f w) :
    (∀ k, k ≤ w.count → Blank (w.version k) ∨ (Current (w.version k) ∧ (w.version k).data = {})) ∧
    (∀ j k, j ≤ k → k ≤ w.count → (w.version j).version = 10 → (w.version k).version = 10) ∧
    ∀ E ∈ w.log, ∀ b, E.code = .done (.ok (.opened b)) → b = false ∧ Current (E.result w) := by
  obtain ⟨h1, h2⟩ := reachable_on new_regime (.inl hf) h
  refine ⟨h2.inv, h2.le, fun E hE b hb => ?_⟩
  have hE' := h1.log E hE
  have hi : Idle E.home.2 (w.version E.base) := by
    have := hE'.homeReady.1.idle hE'.homeIdle (hE'.homeCommitted.trans hE'.homeWork.symm)
    rwa [hE'.homeCommitted] at this
  obtain ⟨-, k2, -, k4⟩ := new_txn hE'.homeReady hi (h2.inv E.base (hE'.base.trans hE'.ended))
    (by rw [hE'.txn]; exact hE'.over)
  rw [hE'.txn] at k2 k4
  have hres : E.result w = E.conn.committed := by
    cases hp : E.published with
    | true => simp only [Entry.result, hp, if_true]; exact (hE'.published hp).2.2
    | false => simp only [Entry.result, hp, Bool.false_eq_true, if_false]; exact (hE'.unpublished hp).symm
  obtain ⟨hb', h10⟩ := k4 hE'.busy b hb
  refine ⟨hb', ?_⟩
  rw [hres]
  rcases k2 with h | h
  · have := h.version
    change E.conn.committed.version = 0 at this
    change E.conn.committed.version = 10 at h10
    omega
  · exact h.1

example : Blank Migrate.File.empty := ⟨rfl, rfl, rfl⟩


/-! ## What does go wrong

No failure from outside, nobody dies: the interleaving alone. -/

/-- The code threads start below: undisturbed openings. -/
def Undisturbed (_ : Unit) (p : Code File Seen) : Prop := p = openCode Faults.none (fun _ => none)

/-- A thread between transactions, about to run `p`. -/
structure Waits (w : World File Seen Unit) (i : Nat) (p : Code File Seen) : Prop where
  code : (w.threads i).code = p
  rest : Rest (w.threads i).conn
  idle : (w.threads i).conn.inTxn = false

theorem Waits.look {w : World File Seen Unit} {i : Nat} {p : Code File Seen} (h : Waits w i p) :
    Idle ((w.threads i).look w).conn w.disk := by
  have hi := (inTxn_false_iff _).1 h.idle
  unfold Thread.look
  rw [if_neg (by rw [h.idle]; simp)]
  exact ⟨rfl, rfl, hi.2, hi.1, h.rest.level, h.rest.changed⟩

/-- A thread runs its next transaction. -/
theorem Waits.advance {f0 : File} {w : World File Seen Unit} (h : Reachable Undisturbed f0 w) (hl : w.lock = none) {i : Nat}
    {p p' : Code File Seen} {f f' : File} (hp : Waits w i p) (hd : w.disk = f) (hnd : ∀ r, p ≠ .done r)
    (ht : ∀ c, Idle c f → (aloneTxn p c).1 = p' ∧ Idle (aloneTxn p c).2 f') :
    ∃ w' E, Reachable Undisturbed f0 w' ∧ w'.lock = none ∧ Waits w' i p' ∧ w'.disk = f' ∧
      (∀ j q, j ≠ i → Waits w j q → Waits w' j q) ∧ w'.log = E :: w.log ∧ E.thread = i ∧ E.code = p' ∧ E.result w' = f' := by
  have hi := hp.look
  rw [hd] at hi
  obtain ⟨t1, t2⟩ := ht _ hi
  obtain ⟨w', E, g1, g2, g3, g4, g5, g6, g7, g8, g9, g10, g11, g12, g13, g14, g15, g16⟩ := run_txn i p w h hp.code
    (fun e => by rw [hp.idle] at e; cases e) (fun _ => hl) hnd (Migrate.idle_inTxn t2)
  have hcode : E.code = p' := by rw [← t1, ← g6]
  have hconn : Idle E.conn f' := by rw [← g6] at t2; exact t2
  have hbase : E.base = w.count := by
    rw [g14]
    unfold Thread.look
    rw [if_neg (by rw [hp.idle]; simp)]
  refine ⟨w', E, g1, g9, ⟨g10.trans hcode, ?_, ?_⟩, g16.trans hconn.committed, ?_, g2, g4, hcode, ?_⟩
  · rw [g11]; exact ⟨hconn.level, hconn.changed⟩
  · rw [g11]; exact Migrate.idle_inTxn hconn
  · intro j q hj hq
    exact ⟨by rw [g15 j hj]; exact hq.code, by rw [g15 j hj]; exact hq.rest, by rw [g15 j hj]; exact hq.idle⟩
  · simp only [Entry.result, g7, if_true]
    rw [hbase, ← g8]
    exact g16.trans hconn.committed

/-- A thread that is not doing anything starts an opening. -/
theorem Waits.opens {f0 : File} {w : World File Seen Unit} (h : Reachable Undisturbed f0 w) {i : Nat} {r : Except Err Seen}
    (hp : Waits w i (.done r)) :
    ∃ w', Reachable Undisturbed f0 w' ∧ w'.lock = w.lock ∧ Waits w' i (openCode Faults.none (fun _ => none)) ∧
      w'.disk = w.disk ∧ (∀ j q, j ≠ i → Waits w j q → Waits w' j q) ∧ w'.log = w.log := by
  have hth : ∀ j, (w.set i { w.threads i with code := openCode Faults.none (fun _ => none), label := (), began := w.count }).threads j =
      if j = i then { w.threads i with code := openCode Faults.none (fun _ => none), label := (), began := w.count }
      else w.threads j := fun j => set_threads w i j _
  refine ⟨_, .step h (.start w i () _ rfl r hp.code hp.idle), rfl, ⟨?_, ?_, ?_⟩, rfl, ?_, rfl⟩
  · rw [hth, if_pos rfl]
  · rw [hth, if_pos rfl]; exact hp.rest
  · rw [hth, if_pos rfl]; exact hp.idle
  · intro j q hj hq
    exact ⟨by rw [hth, if_neg hj]; exact hq.code, by rw [hth, if_neg hj]; exact hq.rest, by rw [hth, if_neg hj]; exact hq.idle⟩

theorem settles {f : File} {d : DB} (hu : DB.updateChanged none f.data f.data = (d, none)) (c : Conn File) (h : Idle c f) :
    (aloneTxn (settleCode Faults.none) c).1 = .done (.ok (.opened true)) ∧
      Idle (aloneTxn (settleCode Faults.none) c).2 { f with data := d } := by
  obtain ⟨cm, wk, st, bg, lv, ch, sn⟩ := c
  obtain ⟨h1, h2, h3, h4, h5, h6⟩ := h
  simp only at h1 h2 h3 h4 h5 h6
  subst h1 h2 h3 h4 h5 h6
  refine ⟨?_, ?_⟩
  · simp [settleCode, Migrate.stepsCode, Faults.none, aloneTxn, Cmd.exec, Conn.begin, Conn.commit, Conn.inTxn, Conn.log,
      Migrate.settleFile, hu]
  · constructor <;> simp [settleCode, Migrate.stepsCode, Faults.none, aloneTxn, Cmd.exec, Conn.begin, Conn.commit, Conn.inTxn,
      Conn.log, Migrate.settleFile, hu]

theorem looks (f : File) (c : Conn File) (h : Idle c f) :
    (aloneTxn (lookCode Faults.none (fun _ => none)) c).1 = knowCode Faults.none (fun _ => none) f.version ∧
      Idle (aloneTxn (lookCode Faults.none (fun _ => none)) c).2 f := by
  rcases Migrate.txn_look Faults.none (fun _ => none) h with ⟨r, a⟩ | a
  · simp [lookCode] at a
  · exact a

theorem goes_wal (f : File) (c : Conn File) (h : Idle c f) :
    (aloneTxn (openCode Faults.none (fun _ => none)) c).1 = lookCode Faults.none (fun _ => none) ∧
      Idle (aloneTxn (openCode Faults.none (fun _ => none)) c).2 (inWal f) := by
  rcases Migrate.txn_open Faults.none (fun _ => none) h with ⟨r, a⟩ | a
  · simp [openCode, Migrate.stepsCode, Faults.none] at a
  · exact a

theorem transacts (k : Code File Seen) {l : List Migrate.Stmt} {f f' : File} (hr : runStmts l f = .ok f') (c : Conn File)
    (h : Idle c f) : (aloneTxn (Migrate.stepsCode Faults.none.migrate (Migrate.transaction l) k) c).1 = k ∧
      Idle (aloneTxn (Migrate.stepsCode Faults.none.migrate (Migrate.transaction l) k) c).2 f' := by
  rcases Migrate.txn_transaction k f l Faults.none.migrate c h with ⟨f2, a1, a2⟩ | ⟨-, e, -, ⟨i, hi⟩ | he⟩ | ⟨e, he, -⟩
  · rw [hr, Except.ok.injEq] at a1; subst a1; exact a2
  · cases hi
  · rw [hr] at he; cases he
  · cases he

theorem know_upgrade (v : Int) (hv : 4 ≤ v ∧ v ≤ 9) : knowCode Faults.none (fun _ => none) v =
    Migrate.stepsCode Faults.none.migrate (Migrate.transaction (Migrate.upgrade v)) (settleCode Faults.none) := by
  have h10 : v ≠ Migrate.currentVersion := by unfold Migrate.currentVersion; omega
  rw [knowCode, if_neg (by omega), if_neg h10, if_pos ((Migrate.mem_versions v).2 hv)]

theorem steps_busy (k : Code File Seen) (l : List Migrate.Stmt) (r : Except Err Seen) :
    Migrate.stepsCode Faults.none.migrate (Migrate.transaction l) k ≠ .done r := by
  rw [show Migrate.transaction l = .begin :: (l.map .sql ++ [.commit]) from rfl, Migrate.stepsCode]
  simp [Faults.none]

theorem waits_initial (f : File) (i : Nat) : Waits (World.initial f () (.ok .nothing)) i (.done (.ok .nothing)) :=
  ⟨rfl, ⟨rfl, rfl⟩, rfl⟩

/-- **C68, refutation 1.** Two openings of an older index, of any version and with any content, at the same time: the
first one migrates the file as it should, the second one raises `OperationalError` (it has read the old version before and
tries to migrate again). -/
theorem second_opener_fails (v : Int) (f : File) (hg : Genuine v f) : ∃ w, Reachable Undisturbed f w ∧
    (w.threads 0).code = .done (.ok (.opened true)) ∧ (w.threads 1).code = .done (.error .operational) ∧
    w.disk = opened Faults.none f := by
  obtain ⟨g1, g2, g3, g4, d, g5, g6, g7⟩ := genuine_course v f hg
  have hrange := hg.range
  have hold : (inWal f).version = v := hg.version
  have hw2 : inWal (inWal f) = inWal f := rfl
  obtain ⟨w1, r1, l1, a1, d1, o1, -⟩ := (waits_initial f 0).opens (.init () (.ok .nothing))
  obtain ⟨w2, r2, l2, a2, d2, o2, -⟩ := (o1 1 _ (by decide) (waits_initial f 1)).opens r1
  have a1 := o2 0 _ (by decide) a1
  have l2 : w2.lock = none := l2.trans l1
  have d2 : w2.disk = f := d2.trans d1
  obtain ⟨w3, -, r3, l3, a3, d3, o3, -⟩ := a1.advance r2 l2 d2 (by simp [openCode, Migrate.stepsCode, Faults.none]) (goes_wal f)
  obtain ⟨w4, -, r4, l4, a4, d4, o4, -⟩ := a3.advance r3 l3 d3 (by simp [lookCode]) (looks _)
  obtain ⟨w5, -, r5, l5, a5, d5, o5, -⟩ := (o4 1 _ (by decide) (o3 1 _ (by decide) a2)).advance r4 l4 d4
    (by simp [openCode, Migrate.stepsCode, Faults.none]) (goes_wal _)
  rw [hw2] at d5
  obtain ⟨w6, -, r6, l6, a6, d6, o6, -⟩ := a5.advance r5 l5 d5 (by simp [lookCode]) (looks _)
  have b6 := o6 0 _ (by decide) (o5 0 _ (by decide) a4)
  rw [hold, know_upgrade v ⟨hrange.1, by omega⟩] at a6 b6
  obtain ⟨w7, -, r7, l7, a7, d7, o7, -⟩ := b6.advance r6 l6 d6 (steps_busy _ _) (transacts _ g1)
  obtain ⟨w8, -, r8, l8, a8, d8, o8, -⟩ := a7.advance r7 l7 d7 (by simp [settleCode, Migrate.stepsCode, Faults.none]) (settles g5)
  rw [← g7] at d8
  have b8 := o8 1 _ (by decide) (o7 1 _ (by decide) a6)
  have hi := b8.look
  rw [d8] at hi
  have hcur : Current (opened Faults.none f) := by
    rw [g7]; exact ⟨g2.version, g2.applicationId, g2.tables, g2.objects, g2.obsolete, g2.window⟩
  have href := current_refuses_upgrade hcur v ⟨hrange.1, by omega⟩
  rcases Migrate.txn_transaction (settleCode Faults.none) _ (Migrate.upgrade v) Faults.none.migrate _ hi with
    ⟨f2, h, -⟩ | ⟨h1, e, h2, ⟨i, hi⟩ | he⟩ | ⟨e, he, -⟩
  · rw [href] at h; cases h
  · cases hi
  · rw [href, Except.error.injEq] at he
    subst he
    obtain ⟨w9, q1, q2, q3, q4, q5, q6, q7⟩ := run_stuck 1 _ w8 r8 b8.code (fun e => by rw [b8.idle] at e; cases e)
      (fun _ => l8) (steps_busy _ _) h1
    refine ⟨w9, q1, ?_, q2.trans h2, ?_⟩
    · rw [q7 0 (by decide)]; exact a8.code
    · rw [World.disk, q5, q6]; exact d8
  · cases he

example : Genuine 4 oldFile := oldFile_genuine

/-- **C68, refutation 2.** Two openings of a new file: the first one creates the schema between the two questions of the
second one, which then takes the index for somebody else's database and raises `NameError` (where the code would raise
its own error). -/
theorem second_creator_fails : ∃ w, Reachable Undisturbed Migrate.File.empty w ∧
    (w.threads 0).code = .done (.ok (.opened false)) ∧ (w.threads 1).code = .done (.error .nameError) ∧
    Current w.disk ∧ w.disk.data = {} := by
  have hblank : Blank (inWal Migrate.File.empty) := ⟨rfl, rfl, rfl⟩
  have hfit : Migrate.Fits (inWal Migrate.File.empty) := by
    constructor
    · intro t _ h'
      simp [hblank.objects] at h'
    · intro t ht _
      rw [hblank.data]
      clear * - ht
      revert t
      decide +kernel
  obtain ⟨f', hr, hcur, hdat, -, -⟩ := Migrate.runStmts_schema _ hfit
  have hw2 : inWal (inWal Migrate.File.empty) = inWal Migrate.File.empty := rfl
  have hv0 : (inWal Migrate.File.empty).version = 0 := rfl
  obtain ⟨w1, r1, l1, a1, d1, o1, -⟩ := (waits_initial Migrate.File.empty 0).opens (.init () (.ok .nothing))
  obtain ⟨w2, r2, l2, a2, d2, o2, -⟩ := (o1 1 _ (by decide) (waits_initial _ 1)).opens r1
  have a1 := o2 0 _ (by decide) a1
  have l2 : w2.lock = none := l2.trans l1
  have d2 : w2.disk = Migrate.File.empty := d2.trans d1
  obtain ⟨w3, -, r3, l3, a3, d3, o3, -⟩ := a1.advance r2 l2 d2 (by simp [openCode, Migrate.stepsCode, Faults.none]) (goes_wal _)
  obtain ⟨w4, -, r4, l4, a4, d4, o4, -⟩ := a3.advance r3 l3 d3 (by simp [lookCode]) (looks _)
  obtain ⟨w5, -, r5, l5, a5, d5, o5, -⟩ := (o4 1 _ (by decide) (o3 1 _ (by decide) a2)).advance r4 l4 d4
    (by simp [openCode, Migrate.stepsCode, Faults.none]) (goes_wal _)
  rw [hw2] at d5
  obtain ⟨w6, -, r6, l6, a6, d6, o6, -⟩ := a5.advance r5 l5 d5 (by simp [lookCode]) (looks _)
  have b6 := o6 0 _ (by decide) (o5 0 _ (by decide) a4)
  rw [hv0] at a6 b6
  have hbusy : ∀ r, knowCode Faults.none (fun _ => none) 0 ≠ .done r := by simp [knowCode]
  have hcount : ∀ (g : File) (c : Conn File), Idle c g → (aloneTxn (knowCode Faults.none (fun _ => none) 0) c).1 =
        (if g.objects.length > 0 then .done (.error .nameError) else createCode Faults.none) ∧
      Idle (aloneTxn (knowCode Faults.none (fun _ => none) 0) c).2 g := by
    intro g c hc
    have := Migrate.exec_idle hc (fun f => .ok (f, .count f.objects.length)) (.count g.objects.length) (f' := g) rfl
    have h2 : aloneTxn (knowCode Faults.none (fun _ => none) 0) c =
        (if g.objects.length > 0 then .done (.error .nameError) else createCode Faults.none,
          (c.exec (fun f => .ok (f, Seen.count f.objects.length))).1) := by
      simp only [knowCode, aloneTxn, if_true, Migrate.idle_inTxn this.1, Bool.false_eq_true, if_false, this.2]
    rw [h2]
    exact ⟨rfl, this.1⟩
  obtain ⟨w7, -, r7, l7, a7, d7, o7, -⟩ := b6.advance r6 l6 d6 hbusy (hcount _)
  have hnone : ¬ (inWal Migrate.File.empty).objects.length > 0 := by decide
  rw [if_neg hnone, createCode] at a7
  obtain ⟨w8, -, r8, l8, a8, d8, o8, -⟩ := a7.advance r7 l7 d7 (steps_busy _ _) (transacts _ hr)
  have b8 := o8 1 _ (by decide) (o7 1 _ (by decide) a6)
  obtain ⟨w9, -, r9, l9, a9, d9, o9, -⟩ := b8.advance r8 l8 d8 hbusy (hcount _)
  have hsome : f'.objects.length > 0 := by
    have := (hcur.tables ("cluster", ["cluster_id", "feature_count", "docs_count", "weight", "doc_ids", "pinned"]) (by decide +kernel)).1
    exact List.length_pos_of_mem this
  rw [if_pos hsome] at a9
  exact ⟨w9, r9, (o9 0 _ (by decide) a8).code, a9.code, by rw [d9]; exact hcur, by rw [d9, hdat]; rfl⟩

/-- **C68, refutation 3.** An opening between the two transactions of another one returns normally, on a file whose
summaries of the clusters are not up to date yet. -/
theorem opened_unsettled : ∃ f w, Genuine 4 f ∧ Reachable Undisturbed f w ∧
    (w.threads 1).code = .done (.ok (.opened false)) ∧ w.disk = opened diesHalfway f ∧ ¬ Settled w.disk.data := by
  have hg := oldFile_genuine
  obtain ⟨g1, g2, g3, g4, d, g5, g6, g7⟩ := genuine_course 4 oldFile hg
  have hn : ¬ Settled (opened diesHalfway oldFile).data := by
    intro h
    have := h.nothingPending
    revert this
    decide +kernel
  have hold : (inWal oldFile).version = 4 := hg.version
  obtain ⟨w1, r1, l1, a1, d1, o1, -⟩ := (waits_initial oldFile 0).opens (.init () (.ok .nothing))
  obtain ⟨w2, r2, l2, a2, d2, o2, -⟩ := (o1 1 _ (by decide) (waits_initial oldFile 1)).opens r1
  have a1 := o2 0 _ (by decide) a1
  have l2 : w2.lock = none := l2.trans l1
  have d2 : w2.disk = oldFile := d2.trans d1
  obtain ⟨w3, -, r3, l3, a3, d3, o3, -⟩ := a1.advance r2 l2 d2 (by simp [openCode, Migrate.stepsCode, Faults.none]) (goes_wal oldFile)
  obtain ⟨w4, -, r4, l4, a4, d4, o4, -⟩ := a3.advance r3 l3 d3 (by simp [lookCode]) (looks _)
  rw [hold, know_upgrade 4 (by omega)] at a4
  obtain ⟨w5, -, r5, l5, a5, d5, o5, -⟩ := a4.advance r4 l4 d4 (steps_busy _ _) (transacts _ g1)
  obtain ⟨w6, -, r6, l6, a6, d6, o6, -⟩ := (o5 1 _ (by decide) (o4 1 _ (by decide) (o3 1 _ (by decide) a2))).advance r5 l5 d5
    (by simp [openCode, Migrate.stepsCode, Faults.none]) (goes_wal _)
  rw [inWal_of_wal g3] at d6
  obtain ⟨w7, -, r7, l7, a7, d7, o7, -⟩ := a6.advance r6 l6 d6 (by simp [lookCode]) (looks _)
  have hdone : knowCode Faults.none (fun _ => none) (opened diesHalfway oldFile).version = .done (.ok (.opened false)) := by
    rw [g2.version]; simp [knowCode, Migrate.currentVersion]
  rw [hdone] at a7
  exact ⟨oldFile, w7, hg, r7, a7.code, d7, by rw [d7]; exact hn⟩

/-- Alone on the file, the commands of an opening do what `Index.__init__` does (C43). -/
theorem opening_alone (fault : Faults) (f : File) :
    (alone (openCode fault (fun _ => none)) (Conn.fresh f)).2 = (openIndex fault f).2.map .opened ∧
    (alone (openCode fault (fun _ => none)) (Conn.fresh f)).1.close = opened fault f := Migrate.alone_open fault f

end Hyperreal.Props
