import Verif.Lemmas.MigrateCourse

/-!
# Properties of opening an index file (C43)

`openIndex fault f` is `Index(db_path)` on a file `f`, where `fault` says which statements fail for outside reasons;
`opened fault f` is the file it leaves.  Besides everything else, opening switches the journal mode to WAL (`inWal`).
-/

namespace Hyperreal.Props
open Spec Atomic
open Migrate (File Faults openIndex opened Kind isIndexDb inWal Course course)

/-- The failure of an opening exactly between the two transactions of a migration. -/
def diesHalfway : Faults := ⟨fun _ => none, fun _ => none, fun _ => some .interrupt⟩

/-- **C43, a new index.** Opening an empty database creates the current schema, whose tables are empty; no migration is
reported and no transaction stays open. -/
theorem open_creates (f : File) (hv : f.version = 0) (ho : f.objects = []) (hd : f.data = {}) :
    (openIndex Faults.none f).2 = .ok false ∧ Idle (openIndex Faults.none f).1 (opened Faults.none f) ∧
    Current (opened Faults.none f) ∧ (opened Faults.none f).data = {} ∧ isIndexDb (opened Faults.none f) = true := by
  have hfit : Migrate.Fits (inWal f) := by
    constructor
    · intro t _ h
      have : (Kind.table, t.1) ∈ f.objects := h
      simp [ho] at this
    · intro t ht _
      show Migrate.clearTable t.1 f.data = f.data
      rw [hd]
      clear * - ht
      revert t
      decide +kernel
  obtain ⟨f', h1, h2, h3, h4, -⟩ := Migrate.runStmts_schema (inWal f) hfit
  rcases course Faults.none f with ⟨e, h, he⟩ | ⟨c, e, h, hc, hs, hv', hnew, he⟩ | ⟨c, h, hc, hs, hv'⟩ |
    ⟨c, f2, h, hr, hc, hs, -, -⟩ | ⟨c, e, h, hc, hs, he, hv'⟩ | ⟨c, f2, e, h, hr, hc, hs, hv', he⟩ |
    ⟨c, f2, d, h, hr, hd', hc, hv', hs⟩
  · simp [Faults.none] at he
  · exact absurd ⟨hv, ho⟩ hnew
  · omega
  · rw [hr, Except.ok.injEq] at h1
    subst h1
    have e : opened Faults.none f = f2 := by simp only [opened, h, Conn.close, hc.committed]
    rw [e, h]
    exact ⟨rfl, hc, h2, h3.trans hd, by simp [isIndexDb, h2.applicationId, Migrate.magicId]⟩
  · rcases he with ⟨i, hi⟩ | he
    · simp [Faults.none] at hi
    · rw [if_pos hv, h1] at he; cases he
  · omega
  · omega

example : Migrate.File.empty.version = 0 ∧ Migrate.File.empty.objects = [] ∧ Migrate.File.empty.data = {} := ⟨rfl, rfl, rfl⟩

/-- **C43, a current index.** Opening a file of the current version changes nothing but the journal mode, whatever is
stored in it. -/
theorem open_current (f : File) (hv : f.version = 10) :
    (openIndex Faults.none f).2 = .ok false ∧ Idle (openIndex Faults.none f).1 (inWal f) ∧
    opened Faults.none f = inWal f := by
  rcases course Faults.none f with ⟨e, h, he⟩ | ⟨c, e, h, hc, hs, hv', hnew, he⟩ | ⟨c, h, hc, hs, hv'⟩ |
    ⟨c, f2, h, hr, hc, hs, hv', -⟩ | ⟨c, e, h, hc, hs, he, hv'⟩ | ⟨c, f2, e, h, hr, hc, hs, hv', he⟩ |
    ⟨c, f2, d, h, hr, hd', hc, hv', hs⟩
  · simp [Faults.none] at he
  · omega
  · rw [opened, h]; exact ⟨rfl, hc, hc.committed⟩
  · omega
  · omega
  · omega
  · omega

/-- **C43, an older index.** Opening a genuine index of any of the versions 4 to 9 reports a migration and leaves, with no
transaction open, a database of the current version with exactly the current tables and columns; documents,
features, positions and the model are those of before, nothing was pinned before pins existed, all cluster
summaries are exact and the field summary is that of the features.  Objects that do not belong to the index are
still there. -/
theorem open_upgrades (v : Int) (f : File) (hg : Genuine v f) :
    (openIndex Faults.none f).2 = .ok true ∧ Idle (openIndex Faults.none f).1 (opened Faults.none f) ∧
    Current (opened Faults.none f) ∧ Settled (opened Faults.none f).data ∧
    FieldsSummarised (opened Faults.none f).data ∧ Keeps v f.data (opened Faults.none f).data ∧
    isIndexDb (opened Faults.none f) = true ∧
    ∀ o ∈ f.objects, o ∉ obsoleteObjects → o ∈ (opened Faults.none f).objects := by
  have hsch : SchemaOf v (inWal f) := by
    obtain ⟨h1, h2, h3, h4, h5, h6, h7, h8, h9⟩ := hg.toSchemaOf
    exact ⟨h1, h2, h3, h4, h5, h6, h7, h8, h9⟩
  have hv := hg.version
  have hrange := hg.range
  obtain ⟨f', a1, a2, a3, a4, a5⟩ := Migrate.upgrade_ok v (inWal f) hsch (by
    intro h4 k _
    show k.cid ∉ f.data.changed
    simp [hg.nothingPending h4])
  obtain ⟨d', b1, b2, b3, b4⟩ := Migrate.upgraded_settles v f.data hrange.1 hg.wellformed hg.nothingPending hg.summaries hg.pendingKnown
  have hdata : f'.data = Migrate.upgraded v f.data := a3
  rcases course Faults.none f with ⟨e, h, he⟩ | ⟨c, e, h, hc, hs, hv', hnew, he⟩ | ⟨c, h, hc, hs, hv'⟩ |
    ⟨c, f2, h, hr, hc, hs, hv', -⟩ | ⟨c, e, h, hc, hs, he, hv'⟩ | ⟨c, f2, e, h, hr, hc, hs, hv', he⟩ |
    ⟨c, f2, d, h, hr, hd', hc, hv', hs⟩
  · simp [Faults.none] at he
  · omega
  · omega
  · omega
  · rcases he with ⟨i, hi⟩ | he
    · simp [Faults.none] at hi
    · rw [if_neg (by omega), hv, a1] at he; cases he
  · rw [hv, a1, Except.ok.injEq] at hr
    subst hr
    rcases he with ⟨i, hi⟩ | he
    · simp [Faults.none] at hi
    · rw [hdata, b1] at he; cases he
  · rw [hv, a1, Except.ok.injEq] at hr
    subst hr
    rw [hdata, b1, Prod.mk.injEq] at hd'
    obtain ⟨rfl, -⟩ := hd'
    have e : opened Faults.none f = { f' with data := d' } := by simp only [opened, h, Conn.close, hc.committed]
    rw [e, h]
    refine ⟨rfl, hc, ⟨a2.version, a2.applicationId, a2.tables, a2.objects, a2.obsolete, a2.window⟩, b2, b3, b4, ?_, ?_⟩
    · simp [isIndexDb, a2.applicationId, Migrate.magicId]
    · intro o ho hno
      exact (a5 o).2 (.inl ⟨ho, hno⟩)

/-- **C43, everything else (part proved).** A file of an unknown version, or one without a version that is not empty, is
refused with an exception; its version, its tables and what is in them stay as they are.

What is missing: the file is not left untouched, its journal mode is switched (`refused_file_touched`), and the
exception for a file without a version is not the one announced (`refused_wrong_exception`). -/
theorem open_refuses_partial (f : File) (h1 : ¬ (4 ≤ f.version ∧ f.version ≤ 10)) (h2 : ¬ (f.version = 0 ∧ f.objects = [])) :
    (openIndex Faults.none f).2 = .error (if f.version = 0 then .nameError else .migration) ∧
    opened Faults.none f = inWal f := by
  rcases course Faults.none f with ⟨e, h, he⟩ | ⟨c, e, h, hc, hs, hv', hnew, he⟩ | ⟨c, h, hc, hs, hv'⟩ |
    ⟨c, f2, h, hr, hc, hs, hv', ho⟩ | ⟨c, e, h, hc, hs, he, hv'⟩ | ⟨c, f2, e, h, hr, hc, hs, hv', he⟩ |
    ⟨c, f2, d, h, hr, hd', hc, hv', hs⟩
  · simp [Faults.none] at he
  · rw [opened, h, he]; exact ⟨rfl, hc.committed⟩
  · omega
  · exact absurd ⟨hv', ho⟩ h2
  · rcases hv' with h | h
    · exact absurd h h2
    · omega
  · omega
  · omega

/-- A database of another application, as an example: no version number, one table. -/
def foreignFile : File := ⟨0, 0, false, [(.table, "songs")], fun _ => ["title"], [], {}⟩

example : ¬ (4 ≤ foreignFile.version ∧ foreignFile.version ≤ 10) ∧ ¬ (foreignFile.version = 0 ∧ foreignFile.objects = []) := by
  decide +kernel

/-- **C43, refutation 1.** A database of another application is refused, but it is changed: it is in WAL mode now. -/
theorem refused_file_touched : opened Faults.none foreignFile ≠ foreignFile := by
  rw [(open_refuses_partial foreignFile (by decide +kernel) (by decide +kernel)).2]
  intro h
  have := congrArg File.wal h
  revert this
  decide +kernel

/-- **C43, refutation 2.** The announced `MigrationError` is never raised for a database without version number: the code
that builds its message fails with `NameError`. -/
theorem refused_wrong_exception (f : File) (h1 : f.version = 0) (h2 : f.objects ≠ []) :
    (openIndex Faults.none f).2 = .error .nameError := by
  have := (open_refuses_partial f (by omega) (by simp [h2])).1
  rwa [if_pos h1] at this

/-- **C43, all or nothing.** For every file and whatever fails when: what any other process sees at any moment while the
index is opened, and what is left in the end (also if the process dies), is the file as it was (possibly already in WAL
mode), or what an undisturbed opening leaves, or, if there is something to migrate, the file between the two
transactions of an undisturbed migration.  An opening that succeeds leaves what an undisturbed one leaves, one that
fails leaves the file as it was or between the two transactions. -/
theorem open_atomic (fault : Faults) (f : File) :
    (∀ s ∈ opened fault f :: (openIndex fault f).1.seen,
      s = f ∨ s = inWal f ∨ s = opened Faults.none f ∨ (4 ≤ f.version ∧ f.version ≤ 9 ∧ s = opened diesHalfway f)) ∧
    (∀ b, (openIndex fault f).2 = .ok b →
      (openIndex Faults.none f).2 = .ok b ∧ Idle (openIndex fault f).1 (opened Faults.none f)) ∧
    ∀ e, (openIndex fault f).2 = .error e → opened fault f = f ∨ opened fault f = inWal f ∨
      (4 ≤ f.version ∧ f.version ≤ 9 ∧ opened fault f = opened diesHalfway f) := by
  -- what the undisturbed openings leave
  have hcre : ∀ f', f.version = 0 → f.objects = [] → Migrate.runStmts Migrate.schema (inWal f) = .ok f' →
      opened Faults.none f = f' ∧ (openIndex Faults.none f).2 = .ok false := by
    intro f' hv ho hr0
    rcases course Faults.none f with ⟨e, h, he⟩ | ⟨c, e, h, hc, hs, hv', hnew, he⟩ | ⟨c, h, hc, hs, hv'⟩ |
      ⟨c, f2, h, hr, hc, hs, hv', -⟩ | ⟨c, e, h, hc, hs, he, hv'⟩ | ⟨c, f2, e, h, hr, hc, hs, hv', he⟩ |
      ⟨c, f2, d, h, hr, hd', hc, hv', hs⟩
    · simp [Faults.none] at he
    · exact absurd ⟨hv, ho⟩ hnew
    · omega
    · rw [hr, Except.ok.injEq] at hr0; subst hr0
      rw [opened, h]; exact ⟨hc.committed, rfl⟩
    · rcases he with ⟨i, hi⟩ | he
      · simp [Faults.none] at hi
      · rw [if_pos hv, hr0] at he; cases he
    · omega
    · omega
  have hhalf : ∀ f', 4 ≤ f.version ∧ f.version ≤ 9 → Migrate.runStmts (Migrate.upgrade f.version) (inWal f) = .ok f' →
      opened diesHalfway f = f' := by
    intro f' hv hr0
    rcases course diesHalfway f with ⟨e, h, he⟩ | ⟨c, e, h, hc, hs, hv', hnew, he⟩ | ⟨c, h, hc, hs, hv'⟩ |
      ⟨c, f2, h, hr, hc, hs, hv', -⟩ | ⟨c, e, h, hc, hs, he, hv'⟩ | ⟨c, f2, e, h, hr, hc, hs, hv', he⟩ |
      ⟨c, f2, d, h, hr, hd', hc, hv', hs⟩
    · simp [diesHalfway] at he
    · omega
    · omega
    · omega
    · rcases he with ⟨i, hi⟩ | he
      · simp [diesHalfway] at hi
      · rw [if_neg (by omega), hr0] at he; cases he
    · rw [hr, Except.ok.injEq] at hr0; subst hr0
      rw [opened, h]; exact hc
    · exfalso
      -- the second transaction cannot succeed
      have hst : ∀ c', (Migrate.runSteps diesHalfway.settle [.begin, .housekeeping, .commit] c').2 = some .interrupt := by
        intro c'; simp [Migrate.runSteps, diesHalfway]
      rw [openIndex] at h
      split at h
      · cases h
      · split at h
        · cases h
        · cases h
        · split at h
          · cases h
          · rename_i c1 _ _ _ heq
            have := hst c1
            rw [heq] at this
            cases this
  have hfull : ∀ f' d, 4 ≤ f.version ∧ f.version ≤ 9 → Migrate.runStmts (Migrate.upgrade f.version) (inWal f) = .ok f' →
      DB.updateChanged none f'.data f'.data = (d, none) →
      opened Faults.none f = { f' with data := d } ∧ (openIndex Faults.none f).2 = .ok true := by
    intro f' d0 hv hr0 hd0
    rcases course Faults.none f with ⟨e, h, he⟩ | ⟨c, e, h, hc, hs, hv', hnew, he⟩ | ⟨c, h, hc, hs, hv'⟩ |
      ⟨c, f2, h, hr, hc, hs, hv', -⟩ | ⟨c, e, h, hc, hs, he, hv'⟩ | ⟨c, f2, e, h, hr, hc, hs, hv', he⟩ |
      ⟨c, f2, d, h, hr, hd', hc, hv', hs⟩
    · simp [Faults.none] at he
    · omega
    · omega
    · omega
    · rcases he with ⟨i, hi⟩ | he
      · simp [Faults.none] at hi
      · rw [if_neg (by omega), hr0] at he; cases he
    · rw [hr, Except.ok.injEq] at hr0; subst hr0
      rcases he with ⟨i, hi⟩ | he
      · simp [Faults.none] at hi
      · rw [hd0] at he; cases he
    · rw [hr, Except.ok.injEq] at hr0; subst hr0
      rw [hd0, Prod.mk.injEq] at hd'
      obtain ⟨rfl, -⟩ := hd'
      rw [opened, h]; exact ⟨hc.committed, rfl⟩
  rcases course fault f with ⟨e, h, he⟩ | ⟨c, e, h, hc, hs, hv', hnew, he⟩ | ⟨c, h, hc, hs, hv'⟩ |
    ⟨c, f2, h, hr, hc, ⟨n, hs⟩, hv', ho⟩ | ⟨c, e, h, hc, ⟨n, hs⟩, he, hv'⟩ | ⟨c, f2, e, h, hr, hc, ⟨n, m, hs⟩, hv', he⟩ |
    ⟨c, f2, d, h, hr, hd', hc, hv', ⟨n, m, hs⟩⟩
  · have ho : opened fault f = f := by rw [opened, h]; rfl
    rw [ho, h]
    refine ⟨?_, by rintro b ⟨⟩, by simp⟩
    intro s hs
    simp [Conn.fresh] at hs
    exact .inl hs
  · have ho : opened fault f = inWal f := by rw [opened, h]; exact hc.committed
    rw [ho, h]
    refine ⟨?_, by rintro b ⟨⟩, by simp⟩
    intro s hm
    simp [hs] at hm
    exact .inr (.inl hm)
  · have h2 := open_current f hv'
    have ho : opened fault f = inWal f := by rw [opened, h]; exact hc.committed
    rw [ho, h]
    refine ⟨?_, ?_, by rintro e ⟨⟩⟩
    · intro s hm
      simp [hs] at hm
      exact .inr (.inl hm)
    · rintro b ⟨⟩
      rw [h2.2.2]
      exact ⟨h2.1, hc⟩
  · obtain ⟨h1, h2⟩ := hcre f2 hv' ho hr
    have ho : opened fault f = f2 := by rw [opened, h]; exact hc.committed
    rw [ho, h, h1]
    refine ⟨?_, by rintro b ⟨⟩; exact ⟨h2, hc⟩, by rintro e ⟨⟩⟩
    intro s hm
    simp only [hs, List.mem_cons, List.mem_replicate] at hm
    tauto
  · have ho : opened fault f = inWal f := by rw [opened, h]; exact hc
    rw [ho, h]
    refine ⟨?_, by rintro b ⟨⟩, by simp⟩
    intro s hm
    simp only [hs, List.mem_cons, List.mem_replicate] at hm
    tauto
  · have h1 := hhalf f2 hv' hr
    have ho : opened fault f = f2 := by rw [opened, h]; exact hc
    rw [ho, h, h1]
    refine ⟨?_, by rintro b ⟨⟩, fun _ _ => .inr (.inr ⟨hv'.1, hv'.2, rfl⟩)⟩
    intro s hm
    simp only [hs, List.mem_cons, List.mem_append, List.mem_replicate] at hm
    tauto
  · have h1 := hhalf f2 hv' hr
    obtain ⟨h2, h3⟩ := hfull f2 d hv' hr hd'
    have ho : opened fault f = { f2 with data := d } := by rw [opened, h]; exact hc.committed
    rw [ho, h, h1, h2]
    refine ⟨?_, by rintro b ⟨⟩; exact ⟨h3, hc⟩, by rintro e ⟨⟩⟩
    intro s hm
    simp only [hs, List.mem_cons, List.mem_append, List.mem_replicate] at hm
    tauto

/-- What the statements do to the version number. -/
theorem runStmts_version (l : List Migrate.Stmt) (f f' : File) (h : Migrate.runStmts l f = .ok f') :
    f'.version = l.foldl (fun v s => match s with | .setVersion w => w | _ => v) f.version ∧ (f.wal = true → f'.wal = true) := by
  induction l generalizing f with
  | nil => cases h; exact ⟨rfl, id⟩
  | cons s l ih =>
    rw [Migrate.runStmts] at h
    split at h
    · cases h
    · obtain ⟨h1, h2⟩ := ih _ h
      have hw : f.wal = true → (s.effect f).wal = true := by
        intro hw
        cases s <;> simp only [Migrate.Stmt.effect] <;> (try split) <;> simp [hw]
      refine ⟨?_, fun h => h2 (hw h)⟩
      rw [h1, List.foldl_cons]
      congr 1
      cases s <;> simp only [Migrate.Stmt.effect] <;> (try split) <;> rfl

/-- An index that was opened is of the current version and in WAL mode. -/
theorem open_ok_current (fault : Faults) (f : File) (b : Bool) (h : (openIndex fault f).2 = .ok b) :
    (opened fault f).version = 10 ∧ (opened fault f).wal = true := by
  have hup : ∀ v : Int, 4 ≤ v → v ≤ 9 → ∀ w : Int,
      (Migrate.upgrade v).foldl (fun v s => match s with | .setVersion w => w | _ => v) w = 10 := by
    intro v h1 h2 w
    have hv : v = 4 ∨ v = 5 ∨ v = 6 ∨ v = 7 ∨ v = 8 ∨ v = 9 := by omega
    rcases hv with rfl | rfl | rfl | rfl | rfl | rfl <;> rfl
  rcases course fault f with ⟨e, h', he⟩ | ⟨c, e, h', hc, hs, hv', hnew, he⟩ | ⟨c, h', hc, hs, hv'⟩ |
    ⟨c, f2, h', hr, hc, ⟨n, hs⟩, hv', ho⟩ | ⟨c, e, h', hc, ⟨n, hs⟩, he, hv'⟩ | ⟨c, f2, e, h', hr, hc, ⟨n, m, hs⟩, hv', he⟩ |
    ⟨c, f2, d, h', hr, hd', hc, hv', ⟨n, m, hs⟩⟩
  · rw [h'] at h; cases h
  · rw [h'] at h; cases h
  · have ho : opened fault f = inWal f := by rw [opened, h']; exact hc.committed
    rw [ho]; exact ⟨hv', rfl⟩
  · have ho : opened fault f = f2 := by rw [opened, h']; exact hc.committed
    obtain ⟨h1, h2⟩ := runStmts_version _ _ _ hr
    rw [ho]
    exact ⟨h1, h2 rfl⟩
  · rw [h'] at h; cases h
  · rw [h'] at h; cases h
  · have ho : opened fault f = { f2 with data := d } := by rw [opened, h']; exact hc.committed
    obtain ⟨h1, h2⟩ := runStmts_version _ _ _ hr
    rw [ho]
    exact ⟨h1.trans (hup _ hv'.1 hv'.2 _), h2 rfl⟩

/-- **C43, opening again.** Once an opening succeeded, any later opening (undisturbed or not) leaves the file as it is,
and none that succeeds reports a migration; an undisturbed one does succeed. -/
theorem reopen_idempotent (fault fault' : Faults) (f : File) (b : Bool) (h : (openIndex fault f).2 = .ok b) :
    opened fault' (opened fault f) = opened fault f ∧
    (∀ b', (openIndex fault' (opened fault f)).2 = .ok b' → b' = false) ∧
    (openIndex Faults.none (opened fault f)).2 = .ok false := by
  obtain ⟨h1, h2⟩ := open_ok_current fault f b h
  have hw : inWal (opened fault f) = opened fault f := by
    cases hx : opened fault f with
    | mk a1 a2 a3 a4 a5 a6 a7 => rw [hx] at h2; simp only at h2; subst h2; rfl
  obtain ⟨a1, a2, a3⟩ := open_current (opened fault f) h1
  obtain ⟨b1, b2, -⟩ := open_atomic fault' (opened fault f)
  refine ⟨?_, ?_, a1⟩
  · have := b1 (opened fault' (opened fault f)) (by simp)
    rw [a3, hw] at this
    rcases this with h | h | h | ⟨-, h, -⟩
    · exact h
    · exact h
    · exact h
    · omega
  · intro b' hb'
    have := (b2 b' hb').1
    rw [a1, Except.ok.injEq] at this
    exact this.symm

/-- **C43, a death between the two transactions (part proved).** A migration is not one transaction: the cluster
summaries are written in a second one.  If the process dies in between, the file has the current version and schema and
all the rows; from version 5 on the cluster summaries are exact as well (if no update was pending before), but after an upgrade from version 4 they are
only marked for an update, and opening the file again does not do it (`halfway_stale`); the next modification of the
model does, because what is left is a state with pending updates. -/
theorem open_halfway_partial (v : Int) (f : File) (hg : Genuine v f) :
    Current (opened diesHalfway f) ∧ Pending (opened diesHalfway f).data ∧
    (5 ≤ v → f.data.changed = [] → Settled (opened diesHalfway f).data) ∧
    opened Faults.none (opened diesHalfway f) = opened diesHalfway f ∧
    (openIndex Faults.none (opened diesHalfway f)).2 = .ok false := by
  have hsch : SchemaOf v (inWal f) := by
    obtain ⟨h1, h2, h3, h4, h5, h6, h7, h8, h9⟩ := hg.toSchemaOf
    exact ⟨h1, h2, h3, h4, h5, h6, h7, h8, h9⟩
  have hv := hg.version
  have hrange := hg.range
  obtain ⟨f', a1, a2, a3, a4, a5⟩ := Migrate.upgrade_ok v (inWal f) hsch (by
    intro h4 k _
    show k.cid ∉ f.data.changed
    simp [hg.nothingPending h4])
  have hdata : f'.data = Migrate.upgraded v f.data := a3
  have hp := Migrate.upgraded_pending v f.data hrange.1 hg.wellformed hg.nothingPending hg.summaries hg.pendingKnown
  have hh : opened diesHalfway f = f' := by
    rcases course diesHalfway f with ⟨e, h, he⟩ | ⟨c, e, h, hc, hs, hv', hnew, he⟩ | ⟨c, h, hc, hs, hv'⟩ |
      ⟨c, f2, h, hr, hc, hs, hv', -⟩ | ⟨c, e, h, hc, hs, he, hv'⟩ | ⟨c, f2, e, h, hr, hc, hs, hv', he⟩ |
      ⟨c, f2, d, h, hr, hd', hc, hv', hs⟩
    · simp [diesHalfway] at he
    · omega
    · omega
    · omega
    · rcases he with ⟨i, hi⟩ | he
      · simp [diesHalfway] at hi
      · rw [if_neg (by omega), hv, a1] at he; cases he
    · rw [hv, a1, Except.ok.injEq] at hr; subst hr
      rw [opened, h]; exact hc
    · exfalso
      have hst : ∀ c', (Migrate.runSteps diesHalfway.settle [.begin, .housekeeping, .commit] c').2 = some .interrupt := by
        intro c'; simp [Migrate.runSteps, diesHalfway]
      rw [openIndex] at h
      split at h
      · cases h
      · split at h
        · cases h
        · cases h
        · split at h
          · cases h
          · rename_i c1 _ _ _ heq
            have := hst c1
            rw [heq] at this
            cases this
  rw [hh]
  obtain ⟨b1, b2, b3⟩ := open_current f' a2.version
  have hw : inWal f' = f' := by
    cases f' with
    | mk x1 x2 x3 x4 x5 x6 x7 => simp only at a4; subst a4; rfl
  refine ⟨a2, by rw [hdata]; exact hp, ?_, by rw [b3, hw], b1⟩
  intro h5 hnp
  rw [hdata]
  have hch : (Migrate.upgraded v f.data).changed = [] := by
    show (if 5 ≤ v then f.data.changed else _) = []
    rw [if_pos h5]; exact hnp
  exact ⟨hp.toWellformed, fun k hk => hp.summaries k hk (by rw [hch]; simp), hch⟩

/-- An index of version 4, as an example: two features in one cluster, no position tables, an old trigger, an old table
and a table of somebody else. -/
def oldFile : File :=
  { version := 4
    applicationId := 715973853
    wal := false
    objects := [(.table, "settings"), (.table, "doc_key"), (.table, "inverted_index"), (.table, "field_summary"),
      (.table, "cluster"), (.table, "feature_cluster"), (.table, "changed_cluster"), (.table, "skipgram_count"),
      (.trigger, "ensure_cluster"), (.table, "notes")]
    columns := fun n =>
      if n = "cluster" then ["cluster_id", "feature_count"]
      else if n = "feature_cluster" then ["feature_id", "cluster_id", "docs_count"]
      else if n = "field_summary" then ["field", "distinct_values", "min_value", "max_value"]
      else ((currentTables.find? (fun t => t.1 = n)).map (·.2)).getD []
    settings := []
    data := {
      docKeys := [(0, .int 10), (1, .int 20), (2, .int 30)]
      features := [⟨1, "text", .text "a", 2, {0, 1}⟩, ⟨2, "text", .text "b", 2, {1, 2}⟩]
      fc := [⟨1, 7, 2, false⟩, ⟨2, 7, 2, false⟩]
      clusters := [{ cid := 7, featureCount := 2 }]
      fieldSummary := [⟨"text", 2, .text "a", .text "b", 0⟩] } }

theorem oldFile_genuine : Genuine 4 oldFile := by
  refine ⟨⟨rfl, by decide, ?_, ?_, ?_, ?_, ?_, ?_, ?_⟩, ⟨?_, ?_, ?_, ?_, ?_, ?_, ?_⟩, fun _ => rfl, fun h => absurd h (by decide),
    fun h => absurd h (by decide)⟩ <;> decide +kernel

/-- The example after opening: version 10, exact summary, old objects gone, the foreign table kept. -/
example : (opened Faults.none oldFile).version = 10 ∧
    (opened Faults.none oldFile).data.clusters = [⟨7, 2, 3, 4, some {0, 1, 2}, false⟩] ∧
    (.table, "notes") ∈ (opened Faults.none oldFile).objects ∧
    (.trigger, "ensure_cluster") ∉ (opened Faults.none oldFile).objects := by
  refine ⟨by decide +kernel, by decide +kernel, by decide +kernel, by decide +kernel⟩

/-- A file of version 8 that was left in the middle of an update. -/
def unfinishedFile : File :=
  { oldFile with
    version := 8
    columns := fun n =>
      if n = "cluster" then ["cluster_id", "feature_count", "docs_count", "weight", "doc_ids", "pinned"]
      else if n = "feature_cluster" then ["feature_id", "cluster_id", "docs_count", "pinned"]
      else oldFile.columns n
    data := { oldFile.data with changed := [7] } }

theorem unfinishedFile_genuine : Genuine 8 unfinishedFile := by
  refine ⟨⟨rfl, by decide, ?_, ?_, ?_, ?_, ?_, ?_, ?_⟩, ⟨?_, ?_, ?_, ?_, ?_, ?_, ?_⟩, fun h => absurd h (by decide), ?_, ?_⟩ <;>
    try decide +kernel
  intro _ k hk hn
  simp only [unfinishedFile, oldFile, List.mem_singleton] at hk hn
  subst hk
  exact absurd rfl hn

/-- Its upgrade completes the update. -/
example : unfinishedFile.data.clusters = [{ cid := 7, featureCount := 2 }] ∧
    (opened Faults.none unfinishedFile).data.clusters = [⟨7, 2, 3, 4, some {0, 1, 2}, false⟩] ∧
    (opened Faults.none unfinishedFile).data.changed = [] := by
  refine ⟨rfl, by decide +kernel, by decide +kernel⟩

/-- **C43, refutation 4.** An index of version 4 that was left in the middle of an update can not be opened at all: the
upgrade marks all clusters as changed, and those that are marked already make it fail, every time. -/
theorem upgrade_four_pending_refused (f : File) (hs : SchemaOf 4 f) (hch : ∃ k ∈ f.data.clusters, k.cid ∈ f.data.changed) :
    (openIndex Faults.none f).2 = .error .integrity ∧ opened Faults.none f = inWal f ∧
    (openIndex Faults.none (opened Faults.none f)).2 = .error .integrity := by
  have key : ∀ f : File, SchemaOf 4 f → (∃ k ∈ f.data.clusters, k.cid ∈ f.data.changed) →
      (openIndex Faults.none f).2 = .error .integrity ∧ opened Faults.none f = inWal f := by
    intro f hs hch
    have hw : SchemaOf 4 (inWal f) := by
      obtain ⟨h1, h2, h3, h4, h5, h6, h7, h8, h9⟩ := hs
      exact ⟨h1, h2, h3, h4, h5, h6, h7, h8, h9⟩
    have hr := Migrate.upgrade_four_refused (inWal f) hw hch
    have hv := hs.version
    rcases course Faults.none f with ⟨e, h, he⟩ | ⟨c, e, h, hc, hs, hv', hnew, he⟩ | ⟨c, h, hc, hs, hv'⟩ |
      ⟨c, f2, h, hr', hc, hs, hv', -⟩ | ⟨c, e, h, hc, hs, he, hv'⟩ | ⟨c, f2, e, h, hr', hc, hs, hv', he⟩ |
      ⟨c, f2, d, h, hr', hd', hc, hv', hs⟩
    · simp [Faults.none] at he
    · omega
    · omega
    · omega
    · rcases he with ⟨i, hi⟩ | he
      · simp [Faults.none] at hi
      · rw [if_neg (by omega), hv, hr] at he
        cases he
        rw [opened, h]
        exact ⟨rfl, hc⟩
    · rw [hv, hr] at hr'; cases hr'
    · rw [hv, hr] at hr'; cases hr'
  obtain ⟨h1, h2⟩ := key f hs hch
  refine ⟨h1, h2, ?_⟩
  rw [h2]
  refine (key (inWal f) ?_ hch).1
  obtain ⟨h1, h2, h3, h4, h5, h6, h7, h8, h9⟩ := hs
  exact ⟨h1, h2, h3, h4, h5, h6, h7, h8, h9⟩

/-- The example, left while its cluster was marked. -/
example : SchemaOf 4 { oldFile with data := { oldFile.data with changed := [7] } } ∧
    (openIndex Faults.none { oldFile with data := { oldFile.data with changed := [7] } }).2.toOption = none := by
  refine ⟨⟨rfl, by decide, ?_, ?_, ?_, ?_, ?_, ?_, ?_⟩, ?_⟩ <;> decide +kernel

/-- **C43, refutation 3.** After a death between the two transactions of the migration, the summaries of the clusters are
wrong, and opening the file again leaves them wrong. -/
theorem halfway_stale : ∃ f, Genuine 4 f ∧ ¬ Settled (opened diesHalfway f).data ∧
    ¬ Settled (opened Faults.none (opened diesHalfway f)).data := by
  have hn : ¬ Settled (opened diesHalfway oldFile).data := by
    intro h
    have := h.nothingPending
    revert this
    decide +kernel
  refine ⟨oldFile, oldFile_genuine, hn, ?_⟩
  rw [(open_halfway_partial 4 oldFile oldFile_genuine).2.2.2.1]
  exact hn

/-- A failing statement in the example: the disk is full when the twentieth statement is executed; the file is as before,
in WAL mode. -/
example : (openIndex ⟨fun _ => none, fun i => if i = 20 then some .operational else none, fun _ => none⟩ oldFile).2.toOption = none ∧
    (opened ⟨fun _ => none, fun i => if i = 20 then some .operational else none, fun _ => none⟩ oldFile).version = 4 := by
  refine ⟨by decide +kernel, by decide +kernel⟩

/-- The example is reopened without a migration. -/
example : (openIndex Faults.none oldFile).2.toOption = some true ∧
    (openIndex Faults.none (opened Faults.none oldFile)).2.toOption = some false := by
  refine ⟨by decide +kernel, by decide +kernel⟩

end Hyperreal.Props
