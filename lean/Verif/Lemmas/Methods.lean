import Verif.Lemmas.Housekeeping
import Verif.Lemmas.Atomic

namespace Hyperreal
open Spec
namespace DB

/-- Run statements until the first failure. -/
def runAll : List (DB → Except Err DB) → DB → DB × Option Err
  | [], db => (db, none)
  | f :: fs, db =>
    match f db with
    | .ok d => runAll fs d
    | .error e => (db, some e)

theorem eval_stmts (fs : List (DB → Except Err DB)) (k : Method) : ∀ db : DB,
    eval (stmts fs k) db = match runAll fs db with
      | (d, none) => eval k d
      | (d, some e) => (d, .error e) := by
  induction fs with
  | nil => intro db; rfl
  | cons f fs ih =>
    intro db
    simp only [stmts, eval, runAll]
    cases hf : f db with
    | error e => simp [Except.map, eval]
    | ok d => simp only [Except.map, ih]

theorem touched_stmts_ret (fs : List (DB → Except Err DB)) (r : Except Err Ret) : ∀ db : DB,
    touched (stmts fs (.ret r)) db = false := by
  induction fs with
  | nil => intro db; rfl
  | cons f fs ih =>
    intro db
    simp only [stmts, touched]
    cases hf : f db with
    | error e => simp [Except.map, touched]
    | ok d => simp only [Except.map, ih]

theorem eval_reading (k : DB → Method) (db : DB) : eval (reading k) db = eval (k db) db := by
  simp [reading, eval]

theorem touched_reading (k : DB → Method) (db : DB) : touched (reading k) db = touched (k db) db := by
  simp [reading, touched]

/-- What edits of the model leave alone: the index and the other tables; clusters only appear (unpinned), none
disappears, and pins stay. -/
structure Keeps (db db' : DB) : Prop where
  features : db'.features = db.features
  rest : db'.docKeys = db.docKeys ∧ db'.posDocMap = db.posDocMap ∧ db'.posIndex = db.posIndex ∧
    db'.fieldSummary = db.fieldSummary
  pins : ∀ k' ∈ db'.clusters, (∃ k ∈ db.clusters, k.cid = k'.cid ∧ k.pinned = k'.pinned) ∨
    ((∀ k ∈ db.clusters, k.cid ≠ k'.cid) ∧ k'.pinned = false)
  stays : ∀ k ∈ db.clusters, ∃ k' ∈ db'.clusters, k'.cid = k.cid

theorem Keeps.refl (db : DB) : Keeps db db :=
  ⟨rfl, ⟨rfl, rfl, rfl, rfl⟩, fun k hk => Or.inl ⟨k, hk, rfl, rfl⟩, fun k hk => ⟨k, hk, rfl⟩⟩

theorem Keeps.trans {a b c : DB} (h1 : Keeps a b) (h2 : Keeps b c) : Keeps a c where
  features := h2.features.trans h1.features
  rest := ⟨h2.rest.1.trans h1.rest.1, h2.rest.2.1.trans h1.rest.2.1, h2.rest.2.2.1.trans h1.rest.2.2.1,
    h2.rest.2.2.2.trans h1.rest.2.2.2⟩
  pins := by
    intro k hk
    rcases h2.pins k hk with ⟨k1, hk1, e1, e2⟩ | ⟨hno, hp⟩
    · rcases h1.pins k1 hk1 with ⟨k0, hk0, e3, e4⟩ | ⟨hno, hp⟩
      · exact Or.inl ⟨k0, hk0, e3.trans e1, e4.trans e2⟩
      · exact Or.inr ⟨by rw [← e1]; exact hno, e2 ▸ hp⟩
    · refine Or.inr ⟨?_, hp⟩
      intro k0 hk0 he
      obtain ⟨k1, hk1, he1⟩ := h1.stays k0 hk0
      exact hno k1 hk1 (he1.trans he)
  stays := by
    intro k hk
    obtain ⟨k1, hk1, e1⟩ := h1.stays k hk
    obtain ⟨k2, hk2, e2⟩ := h2.stays k1 hk1
    exact ⟨k2, hk2, e2.trans e1⟩

theorem Grow.keeps {db db1 : DB} (g : Grow db db1) (fc' : List FCRow) : Keeps db { db1 with fc := fc' } where
  features := g.features
  rest := g.rest
  pins := by
    intro k hk
    rcases g.new k hk with h | ⟨h, -, h'⟩
    · exact Or.inl ⟨k, h, rfl, rfl⟩
    · exact Or.inr ⟨h', by rw [h]⟩
  stays := fun k hk => ⟨k, g.old k hk, rfl⟩

/-- The effect of a sequence of assignments on one row. -/
def reassign (ps : List ((FCRow → Bool) × Int)) (r : FCRow) : FCRow :=
  ps.foldl (fun r x => if x.1 r then { r with cid := x.2 } else r) r

theorem reassign_fid (ps : List ((FCRow → Bool) × Int)) : ∀ r, (reassign ps r).fid = r.fid ∧
    (reassign ps r).pinned = r.pinned ∧ (reassign ps r).docsCount = r.docsCount := by
  induction ps with
  | nil => intro r; exact ⟨rfl, rfl, rfl⟩
  | cons p ps ih =>
    intro r
    simp only [reassign, List.foldl_cons]
    have := ih (if p.1 r then { r with cid := p.2 } else r)
    simp only [reassign] at this
    refine ⟨this.1.trans ?_, this.2.1.trans ?_, this.2.2.trans ?_⟩ <;> split <;> rfl

theorem runAll_update (ps : List ((FCRow → Bool) × Int)) : ∀ db : DB, Pending db →
    ∃ db', runAll (ps.map (fun x => updateFC x.1 x.2)) db = (db', none) ∧ Pending db' ∧ Keeps db db' ∧
      db'.fc = db.fc.map (reassign ps) := by
  induction ps with
  | nil => intro db h; exact ⟨db, rfl, h, Keeps.refl db, (List.map_id db.fc).symm⟩
  | cons p ps ih =>
    intro db h
    obtain ⟨d1, h1, hP, hfc, db1, hg, rfl⟩ := updateFC_spec h p.1 p.2
    obtain ⟨d2, h2, hP2, hK2, hfc2⟩ := ih _ hP
    refine ⟨d2, ?_, hP2, (hg.keeps _).trans hK2, ?_⟩
    · simp only [List.map_cons, runAll, h1]; exact h2
    · rw [hfc2, List.map_map]
      apply List.map_congr_left
      intro r _
      simp [reassign]

theorem runAll_delete (ps : List (FCRow → Bool)) : ∀ db : DB, Pending db →
    ∃ db', runAll (ps.map (fun p => deleteFC p)) db = (db', none) ∧ Pending db' ∧ Keeps db db' ∧
      db'.fc = db.fc.filter (fun r => ps.all (fun p => !p r)) := by
  induction ps with
  | nil => intro db h; exact ⟨db, rfl, h, Keeps.refl db, by simp⟩
  | cons p ps ih =>
    intro db h
    obtain ⟨d1, h1, hP, hfc, db1, hg, rfl, -⟩ := deleteFC_spec h p
    obtain ⟨d2, h2, hP2, hK2, hfc2⟩ := ih _ hP
    refine ⟨d2, ?_, hP2, (hg.keeps _).trans hK2, ?_⟩
    · simp only [List.map_cons, runAll, h1]; exact h2
    · rw [hfc2, List.filter_filter]
      apply List.filter_congr
      intro r _
      simp [Bool.and_comm]

theorem runAll_insertOrIgnore (c : Int) (fs : List Nat) : ∀ db : DB, Pending db →
    ((∀ f ∈ fs, ∃ fr ∈ db.features, fr.fid = f) →
      ∃ db' new, runAll (fs.map (fun f => insertOrIgnoreFC f c)) db = (db', none) ∧ Pending db' ∧ Keeps db db' ∧
        db'.fc = db.fc ++ new ∧ (∀ r ∈ new, r.fid ∈ fs ∧ r.cid = c ∧ r.pinned = false) ∧
        (∀ f ∈ fs, ∃ r ∈ db'.fc, r.fid = f)) ∧
    (∀ f ∈ fs, (∀ fr ∈ db.features, fr.fid ≠ f) →
      ∃ d, runAll (fs.map (fun f => insertOrIgnoreFC f c)) db = (d, some .integrity)) := by
  induction fs with
  | nil => intro db h; exact ⟨fun _ => ⟨db, [], rfl, h, Keeps.refl db, by simp, by simp, by simp⟩, by simp⟩
  | cons f fs ih =>
    intro db h
    obtain ⟨s1, s2, s3⟩ := insertOrIgnoreFC_spec h f c
    have hcase : (∃ fr ∈ db.features, fr.fid = f) →
        ∃ d1 new1, insertOrIgnoreFC f c db = .ok d1 ∧ Pending d1 ∧ Keeps db d1 ∧ d1.fc = db.fc ++ new1 ∧
          (∀ r ∈ new1, r.fid = f ∧ r.cid = c ∧ r.pinned = false) ∧ (∃ r ∈ d1.fc, r.fid = f) := by
      rintro ⟨fr, hfr, hff⟩
      obtain ⟨g, -, -⟩ := grow_onInsertFC c db
      by_cases hex : ∃ r ∈ db.fc, r.fid = f
      · obtain ⟨h1, hP⟩ := s1 hex
        have hk := g.keeps (db.onInsertFC c).fc
        refine ⟨_, [], h1, hP, hk, by simp [g.fc], by simp, ?_⟩
        rw [g.fc]; exact hex
      · push Not at hex
        obtain ⟨d1, h1, hP, rfl⟩ := s2 hex fr hfr hff
        refine ⟨_, _, h1, hP, g.keeps _, rfl, ?_, ?_⟩
        · intro r hr; simp only [List.mem_singleton] at hr; subst hr; exact ⟨rfl, rfl, rfl⟩
        · exact ⟨_, List.mem_append_right _ (List.mem_singleton.2 rfl), rfl⟩
    constructor
    · intro hall
      obtain ⟨d1, new1, h1, hP1, hK1, hfc1, hnew1, hin1⟩ := hcase (hall f (by simp))
      obtain ⟨d2, new2, h2, hP2, hK2, hfc2, hnew2, hin2⟩ := (ih d1 hP1).1 (by
        intro f' hf'; rw [hK1.features]; exact hall f' (by simp [hf']))
      refine ⟨d2, new1 ++ new2, ?_, hP2, hK1.trans hK2, ?_, ?_, ?_⟩
      · simp only [List.map_cons, runAll, h1]; exact h2
      · rw [hfc2, hfc1, List.append_assoc]
      · intro r hr
        rcases List.mem_append.1 hr with hr | hr
        · obtain ⟨e1, e2⟩ := hnew1 r hr; exact ⟨by simp [e1], e2⟩
        · obtain ⟨e1, e2⟩ := hnew2 r hr; exact ⟨by simp [e1], e2⟩
      · intro f' hf'
        rcases List.mem_cons.1 hf' with rfl | hf'
        · obtain ⟨r, hr, e⟩ := hin1
          exact ⟨r, by rw [hfc2]; exact List.mem_append_left _ hr, e⟩
        · exact hin2 f' hf'
    · intro f' hf' hno
      by_cases hk : ∃ fr ∈ db.features, fr.fid = f
      · obtain ⟨d1, new1, h1, hP1, hK1, -⟩ := hcase hk
        have hf'' : f' ∈ fs := by
          rcases List.mem_cons.1 hf' with rfl | h
          · obtain ⟨fr, hfr, e⟩ := hk; exact absurd e (hno fr hfr)
          · exact h
        obtain ⟨d, hd⟩ := (ih d1 hP1).2 f' hf'' (by rw [hK1.features]; exact hno)
        exact ⟨d, by simp only [List.map_cons, runAll, h1]; exact hd⟩
      · push Not at hk
        refine ⟨db, ?_⟩
        simp only [List.map_cons, runAll, s3 hk]

theorem runAll_append (fs gs : List (DB → Except Err DB)) : ∀ db : DB,
    runAll (fs ++ gs) db = match runAll fs db with
      | (d, none) => runAll gs d
      | (d, some e) => (d, some e) := by
  induction fs with
  | nil => intro db; rfl
  | cons f fs ih =>
    intro db
    simp only [List.cons_append, runAll]
    cases f db with
    | error e => rfl
    | ok d => exact ih d

theorem runAll_insert (rows : List (Nat × (Nat × Nat))) : ∀ db : DB, Pending db →
    (∀ x ∈ rows, ∃ fr ∈ db.features, fr.fid = x.2.1 ∧ fr.docsCount = x.2.2) →
    (rows.map (fun x => x.2.1)).Nodup → (∀ x ∈ rows, ∀ r ∈ db.fc, r.fid ≠ x.2.1) →
    ∃ db', runAll (rows.map (fun r => insertFC r.2.1 (r.1 : Int) r.2.2)) db = (db', none) ∧ Pending db' ∧
      Keeps db db' ∧
      db'.fc = db.fc ++ rows.map (fun x => { fid := x.2.1, cid := (x.1 : Int), docsCount := x.2.2, pinned := false }) := by
  induction rows with
  | nil => intro db h _ _ _; exact ⟨db, rfl, h, Keeps.refl db, by simp⟩
  | cons x rows ih =>
    intro db h hk hn hd
    obtain ⟨fr, hfr, e1, e2⟩ := hk x (by simp)
    have h1 := (insertFC_spec h hfr (x.1 : Int)).2 (by rw [e1]; exact hd x (by simp))
    rw [e1, e2] at h1
    obtain ⟨d1, h1, hP1, rfl⟩ := h1
    obtain ⟨g, -, -⟩ := grow_onInsertFC (x.1 : Int) db
    have hK1 := g.keeps (db.fc ++ [{ fid := x.2.1, cid := (x.1 : Int), docsCount := x.2.2, pinned := false }])
    simp only [List.map_cons, List.nodup_cons] at hn
    obtain ⟨d2, h2, hP2, hK2, hfc2⟩ := ih _ hP1
      (by intro y hy; rw [hK1.features]; exact hk y (by simp [hy])) hn.2
      (by
        intro y hy r hr
        rcases List.mem_append.1 hr with hr | hr
        · exact hd y (by simp [hy]) r hr
        · simp only [List.mem_singleton] at hr; subst hr
          intro he; exact hn.1 (List.mem_map.2 ⟨y, hy, he.symm⟩))
    refine ⟨d2, ?_, hP2, hK1.trans hK2, ?_⟩
    · simp only [List.map_cons, runAll, h1]; exact h2
    · rw [hfc2]; simp [List.append_assoc]

/-- `insert` of a feature already dealt out fails. -/
theorem runAll_insert_dup (rows : List (Nat × (Nat × Nat))) : ∀ db : DB, Pending db →
    (∀ x ∈ rows, ∃ fr ∈ db.features, fr.fid = x.2.1 ∧ fr.docsCount = x.2.2) →
    (¬ (rows.map (fun x => x.2.1)).Nodup ∨ ∃ x ∈ rows, ∃ r ∈ db.fc, r.fid = x.2.1) →
    ∃ d, runAll (rows.map (fun r => insertFC r.2.1 (r.1 : Int) r.2.2)) db = (d, some .integrity) := by
  induction rows with
  | nil => intro db h _ hd; simp at hd
  | cons x rows ih =>
    intro db h hk hd
    obtain ⟨fr, hfr, e1, e2⟩ := hk x (by simp)
    by_cases hx : ∃ r ∈ db.fc, r.fid = x.2.1
    · have h1 := (insertFC_spec h hfr (x.1 : Int)).1 (by rw [e1]; exact hx)
      rw [e1, e2] at h1
      exact ⟨db, by simp only [List.map_cons, runAll, h1]⟩
    · push Not at hx
      have h1 := (insertFC_spec h hfr (x.1 : Int)).2 (by rw [e1]; exact hx)
      rw [e1, e2] at h1
      obtain ⟨d1, h1, hP1, rfl⟩ := h1
      obtain ⟨g, -, -⟩ := grow_onInsertFC (x.1 : Int) db
      have hfe : (db.onInsertFC (x.1 : Int)).features = db.features := g.features
      obtain ⟨d, hd'⟩ := ih _ hP1 (by intro y hy; simp only [hfe]; exact hk y (by simp [hy])) (by
        rcases hd with hd | ⟨y, hy, r, hr, e⟩
        · simp only [List.map_cons, List.nodup_cons, not_and_or, not_not] at hd
          rcases hd with hd | hd
          · obtain ⟨y, hy, e⟩ := List.mem_map.1 hd
            exact Or.inr ⟨y, hy, _, List.mem_append_right _ (List.mem_singleton.2 rfl), e.symm⟩
          · exact Or.inl hd
        · rcases List.mem_cons.1 hy with rfl | hy
          · exact absurd e (hx r hr)
          · exact Or.inr ⟨y, hy, r, List.mem_append_left _ hr, e⟩)
      exact ⟨d, by simp only [List.map_cons, runAll, h1]; exact hd'⟩

theorem runAll_pinFC (fs : List Nat) (b : Bool) : ∀ db : DB, Pending db →
    ∃ db', runAll (fs.map (fun f => pinFC f b)) db = (db', none) ∧ Pending db' ∧
      db' = { db with fc := db.fc.map (fun r => if r.fid ∈ fs then { r with pinned := b } else r) } := by
  induction fs with
  | nil => intro db h; exact ⟨db, rfl, h, by simp⟩
  | cons f fs ih =>
    intro db h
    obtain ⟨h1, hP⟩ := pinFC_spec h f b
    obtain ⟨d2, h2, hP2, he⟩ := ih _ hP
    refine ⟨d2, by simp only [List.map_cons, runAll, h1]; exact h2, hP2, ?_⟩
    rw [he]
    simp only [List.map_map]
    congr 1
    apply List.map_congr_left
    intro r _
    simp only [Function.comp, List.mem_cons]
    by_cases hf : r.fid = f
    · simp only [hf, if_true, true_or]; split <;> rfl
    · simp [hf]

theorem runAll_pinCluster (cs : List Int) (b : Bool) : ∀ db : DB, Pending db →
    ∃ db', runAll (cs.map (fun c => pinCluster c b)) db = (db', none) ∧ Pending db' ∧
      db' = { db with clusters := db.clusters.map (fun r => if r.cid ∈ cs then { r with pinned := b } else r) } := by
  induction cs with
  | nil => intro db h; exact ⟨db, rfl, h, by simp⟩
  | cons f fs ih =>
    intro db h
    obtain ⟨h1, hP⟩ := pinCluster_spec h f b
    obtain ⟨d2, h2, hP2, he⟩ := ih _ hP
    refine ⟨d2, by simp only [List.map_cons, runAll, h1]; exact h2, hP2, ?_⟩
    rw [he]
    simp only [List.map_map]
    congr 1
    apply List.map_congr_left
    intro r _
    simp only [Function.comp, List.mem_cons]
    by_cases hf : r.cid = f
    · simp only [hf, if_true, true_or]; split <;> rfl
    · simp [hf]

/-- `delete from feature_cluster; delete from cluster` empties the model. -/
theorem runAll_clear {db : DB} (h : Pending db) :
    runAll [deleteFC (fun _ => true), deleteClusterRows (fun _ => true)] db =
      ({ db with fc := [], clusters := [], changed := [] }, none) ∧
    Pending { db with fc := [], clusters := [], changed := [] } := by
  obtain ⟨d1, h1, hP, hfc, db1, hg, rfl, -⟩ := deleteFC_spec h (fun _ => true)
  have hP2 : Pending { db with fc := [], clusters := [], changed := [] } := {
    featureIds := h.featureIds
    featureKeys := h.featureKeys
    counts := h.counts
    oneCluster := by simp
    clusterIds := by simp
    knownFeature := by simp
    knownCluster := by simp
    summaries := by simp
    pendingKnown := by simp }
  refine ⟨?_, hP2⟩
  have hchanged : db1.changed.filter (fun c => !(db1.clusters.filter (fun _ => true)).any (fun r => r.cid = c)) = [] := by
    rw [List.filter_eq_nil_iff]
    intro c hc
    obtain ⟨k, hk, e⟩ := hg.known h.pendingKnown c hc
    simp only [Bool.not_eq_true', List.any_eq_false, List.mem_filter, decide_eq_true_eq]
    intro hno
    exact hno k ⟨hk, trivial⟩ e
  have hfilt : ∀ {α : Type} (l : List α), l.filter (fun _ => !true) = [] := by intro α l; simp
  simp only [runAll, h1, deleteClusterRows, hfilt, hchanged]
  have hd : ({ db1 with fc := [], clusters := [], changed := [] } : DB) =
      { db with fc := [], clusters := [], changed := [] } := by
    obtain ⟨r1, r2, r3, r4⟩ := hg.rest
    simp [hg.features, r1, r2, r3, r4]
  rw [hd, checked_ok hP2]

end DB
end Hyperreal
