import Verif.Model.Store
import Verif.Spec.Store
import Mathlib.Data.List.Basic

namespace Hyperreal
open Spec
namespace DB

theorem fkOk_iff (db : DB) : db.fkOk = true ↔
    (∀ r ∈ db.fc, (∃ f ∈ db.features, f.fid = r.fid) ∧ ∃ k ∈ db.clusters, k.cid = r.cid) ∧
    ∀ c ∈ db.changed, ∃ k ∈ db.clusters, k.cid = c := by
  simp [fkOk]

theorem checked_ok {db : DB} (h : Pending db) : checked db = .ok db := by
  have : db.fkOk = true := by
    rw [fkOk_iff]
    refine ⟨fun r hr => ⟨?_, h.knownCluster r hr⟩, h.pendingKnown⟩
    obtain ⟨f, hf, h1, -⟩ := h.knownFeature r hr
    exact ⟨f, hf, h1⟩
  simp [checked, this]

theorem checked_eq_ok {db db' : DB} (h : checked db = .ok db') : db' = db ∧ db.fkOk = true := by
  simp only [checked] at h
  split at h
  · rename_i hk; exact ⟨(Except.ok.inj h).symm, hk⟩
  · exact absurd h (by simp)

/-- What the triggers do: only cluster rows and change marks are added. -/
structure Grow (db db' : DB) : Prop where
  features : db'.features = db.features
  fc : db'.fc = db.fc
  rest : db'.docKeys = db.docKeys ∧ db'.posDocMap = db.posDocMap ∧ db'.posIndex = db.posIndex ∧
    db'.fieldSummary = db.fieldSummary
  changed : ∀ c ∈ db.changed, c ∈ db'.changed
  old : ∀ k ∈ db.clusters, k ∈ db'.clusters
  new : ∀ k ∈ db'.clusters, k ∈ db.clusters ∨ (k = { cid := k.cid } ∧ k.cid ∈ db'.changed ∧
    ∀ k0 ∈ db.clusters, k0.cid ≠ k.cid)
  nodup : (db.clusters.map (·.cid)).Nodup → (db'.clusters.map (·.cid)).Nodup
  known : (∀ c ∈ db.changed, ∃ k ∈ db.clusters, k.cid = c) → ∀ c ∈ db'.changed, ∃ k ∈ db'.clusters, k.cid = c

theorem Grow.refl (db : DB) : Grow db db :=
  ⟨rfl, rfl, ⟨rfl, rfl, rfl, rfl⟩, fun _ h => h, fun _ h => h, fun _ h => Or.inl h, fun h => h, fun h => h⟩

theorem Grow.trans {a b c : DB} (h1 : Grow a b) (h2 : Grow b c) : Grow a c where
  features := h2.features.trans h1.features
  fc := h2.fc.trans h1.fc
  rest := ⟨h2.rest.1.trans h1.rest.1, h2.rest.2.1.trans h1.rest.2.1, h2.rest.2.2.1.trans h1.rest.2.2.1,
    h2.rest.2.2.2.trans h1.rest.2.2.2⟩
  changed := fun x hx => h2.changed x (h1.changed x hx)
  old := fun k hk => h2.old k (h1.old k hk)
  new := by
    intro k hk
    rcases h2.new k hk with h | ⟨h, h', h''⟩
    · rcases h1.new k h with h | ⟨h, h', h''⟩
      · exact Or.inl h
      · exact Or.inr ⟨h, h2.changed _ h', h''⟩
    · exact Or.inr ⟨h, h', fun k0 hk0 => h'' k0 (h1.old k0 hk0)⟩
  nodup := fun h => h2.nodup (h1.nodup h)
  known := fun h => h2.known (h1.known h)

theorem mem_markChanged (c x : Int) (db : DB) : x ∈ (db.markChanged c).changed ↔ x = c ∨ x ∈ db.changed := by
  simp only [markChanged]
  split
  · constructor
    · exact Or.inr
    · rintro (rfl | h)
      · assumption
      · exact h
  · simp [or_comm]

theorem grow_markChanged (c : Int) (db : DB) (hc : ∃ k ∈ db.clusters, k.cid = c) : Grow db (db.markChanged c) := by
  have hcl : (db.markChanged c).clusters = db.clusters := by simp only [markChanged]; split <;> rfl
  refine ⟨?_, ?_, ?_, ?_, ?_, ?_, ?_, ?_⟩
  · simp only [markChanged]; split <;> rfl
  · simp only [markChanged]; split <;> rfl
  · simp only [markChanged]; split <;> exact ⟨rfl, rfl, rfl, rfl⟩
  · intro x hx; rw [mem_markChanged]; exact Or.inr hx
  · rw [hcl]; exact fun _ h => h
  · rw [hcl]; exact fun _ h => Or.inl h
  · rw [hcl]; exact fun h => h
  · rw [hcl]; intro h x hx
    rw [mem_markChanged] at hx
    rcases hx with rfl | hx
    · exact hc
    · exact h x hx

theorem mem_ensureCluster (c : Int) (db : DB) : ∃ k ∈ (db.ensureCluster c).clusters, k.cid = c := by
  simp only [ensureCluster]
  split
  · rename_i h; simpa using h
  · exact ⟨{ cid := c }, by simp, rfl⟩

/-- Making sure a cluster exists and marking it. -/
theorem grow_onInsertFC (c : Int) (db : DB) : Grow db (db.onInsertFC c) ∧ c ∈ (db.onInsertFC c).changed ∧
    ∃ k ∈ (db.onInsertFC c).clusters, k.cid = c := by
  have hcl : ∀ d : DB, (d.markChanged c).clusters = d.clusters := by
    intro d; simp only [markChanged]; split <;> rfl
  refine ⟨?_, ?_, ?_⟩
  · simp only [onInsertFC]
    by_cases h : db.clusters.any (fun r => r.cid = c) = true
    · have : db.ensureCluster c = db := by simp only [ensureCluster, h, if_true]
      rw [this]
      exact grow_markChanged c db (by simpa using h)
    · have he : db.ensureCluster c = { db with clusters := db.clusters ++ [{ cid := c }] } := by
        simp only [ensureCluster, h, if_false, Bool.false_eq_true]
      have hno : ∀ k ∈ db.clusters, k.cid ≠ c := by simpa using h
      refine ⟨?_, ?_, ?_, ?_, ?_, ?_, ?_, ?_⟩
      · rw [he]; simp only [markChanged]; split <;> rfl
      · rw [he]; simp only [markChanged]; split <;> rfl
      · rw [he]; simp only [markChanged]; split <;> exact ⟨rfl, rfl, rfl, rfl⟩
      · intro x hx; rw [mem_markChanged, he]; exact Or.inr hx
      · rw [hcl, he]; intro k hk; simp [hk]
      · rw [hcl, he]; intro k hk
        simp only [List.mem_append, List.mem_singleton] at hk
        rcases hk with hk | rfl
        · exact Or.inl hk
        · exact Or.inr ⟨rfl, by rw [mem_markChanged]; exact Or.inl rfl, hno⟩
      · rw [hcl, he]; intro hn
        simp only [List.map_append, List.map_cons, List.map_nil]
        rw [List.nodup_append]
        refine ⟨hn, by simp, ?_⟩
        intro a ha b hb
        simp only [List.mem_singleton] at hb
        subst hb
        obtain ⟨k, hk, rfl⟩ := List.mem_map.1 ha
        exact hno k hk
      · rw [hcl]; intro hk x hx
        rw [mem_markChanged] at hx
        rcases hx with rfl | hx
        · exact mem_ensureCluster x db
        · rw [he] at hx ⊢
          obtain ⟨k, hk', rfl⟩ := hk x hx
          exact ⟨k, by simp [hk'], rfl⟩
  · simp only [onInsertFC]; rw [mem_markChanged]; exact Or.inl rfl
  · simp only [onInsertFC]; rw [hcl]; exact mem_ensureCluster c db

theorem grow_onUpdateFC (old new : Int) (db : DB) (hold : ∃ k ∈ db.clusters, k.cid = old) :
    Grow db (db.onUpdateFC old new) ∧
    (old ≠ new → old ∈ (db.onUpdateFC old new).changed ∧ new ∈ (db.onUpdateFC old new).changed) ∧
    (∃ k ∈ (db.onUpdateFC old new).clusters, k.cid = new) := by
  by_cases h : old = new
  · subst h
    simp only [onUpdateFC, ne_eq, not_true_eq_false, if_false]
    exact ⟨Grow.refl db, fun h => absurd h (by simp), hold⟩
  · simp only [onUpdateFC, ne_eq, h, not_false_eq_true, if_true]
    obtain ⟨g, hm, hk⟩ := grow_onInsertFC new db
    have hold' : ∃ k ∈ (db.onInsertFC new).clusters, k.cid = old := by
      obtain ⟨k, hk, rfl⟩ := hold; exact ⟨k, g.old k hk, rfl⟩
    have g2 := grow_markChanged old _ hold'
    refine ⟨g.trans g2, fun _ => ⟨?_, ?_⟩, ?_⟩
    · rw [mem_markChanged]; exact Or.inl rfl
    · exact g2.changed _ hm
    · obtain ⟨k, hk, h⟩ := hk; exact ⟨k, g2.old k hk, h⟩

theorem grow_foldUpdate (c : Int) (rs : List FCRow) : ∀ db : DB,
    (∀ r ∈ rs, ∃ k ∈ db.clusters, k.cid = r.cid) →
    Grow db (rs.foldl (fun d r => d.onUpdateFC r.cid c) db) ∧
    (∀ r ∈ rs, r.cid ≠ c → r.cid ∈ (rs.foldl (fun d r => d.onUpdateFC r.cid c) db).changed ∧
      c ∈ (rs.foldl (fun d r => d.onUpdateFC r.cid c) db).changed) ∧
    (∀ r ∈ rs, ∃ k ∈ (rs.foldl (fun d r => d.onUpdateFC r.cid c) db).clusters, k.cid = c) := by
  induction rs with
  | nil => intro db _; exact ⟨Grow.refl db, by simp, by simp⟩
  | cons r rs ih =>
    intro db h
    simp only [List.foldl_cons]
    obtain ⟨g, hm, hk⟩ := grow_onUpdateFC r.cid c db (h r (by simp))
    obtain ⟨g2, hm2, hk2⟩ := ih (db.onUpdateFC r.cid c) (by
      intro x hx
      obtain ⟨k, hk, hkx⟩ := h x (by simp [hx])
      exact ⟨k, g.old k hk, hkx⟩)
    refine ⟨g.trans g2, ?_, ?_⟩
    · intro x hx hne
      rcases List.mem_cons.1 hx with rfl | hx
      · exact ⟨g2.changed _ (hm hne).1, g2.changed _ (hm hne).2⟩
      · exact hm2 x hx hne
    · intro x _
      obtain ⟨k, hk, h⟩ := hk; exact ⟨k, g2.old k hk, h⟩

theorem grow_foldDelete (rs : List FCRow) : ∀ db : DB,
    (∀ r ∈ rs, ∃ k ∈ db.clusters, k.cid = r.cid) →
    Grow db (rs.foldl (fun d r => d.onDeleteFC r.cid) db) ∧
    (∀ r ∈ rs, r.cid ∈ (rs.foldl (fun d r => d.onDeleteFC r.cid) db).changed) := by
  induction rs with
  | nil => intro db _; exact ⟨Grow.refl db, by simp⟩
  | cons r rs ih =>
    intro db h
    simp only [List.foldl_cons]
    have g : Grow db (db.onDeleteFC r.cid) := grow_markChanged r.cid db (h r (by simp))
    obtain ⟨g2, hm2⟩ := ih (db.onDeleteFC r.cid) (by
      intro x hx
      obtain ⟨k, hk, hkx⟩ := h x (by simp [hx])
      exact ⟨k, g.old k hk, hkx⟩)
    refine ⟨g.trans g2, ?_⟩
    intro x hx
    rcases List.mem_cons.1 hx with rfl | hx
    · refine g2.changed _ ?_
      simp only [onDeleteFC]; rw [mem_markChanged]; exact Or.inl rfl
    · exact hm2 x hx

theorem docsOf_congr {a b : DB} (h : a.features = b.features) (f : Nat) : a.docsOf f = b.docsOf f := by
  simp [docsOf, feature?, h]

/-- Exactness of a summary only depends on the features and on the rows of that cluster. -/
theorem Exact_congr {a b : DB} (k : ClusterRow) (hf : b.features = a.features)
    (hfc : b.fc.filter (fun r => r.cid = k.cid) = a.fc.filter (fun r => r.cid = k.cid)) (h : Exact a k) :
    Exact b k := by
  have hmem : ∀ r, (r ∈ b.fc ∧ r.cid = k.cid) ↔ (r ∈ a.fc ∧ r.cid = k.cid) := by
    intro r
    have := congrArg (fun l => r ∈ l) hfc
    simpa [List.mem_filter] using this
  constructor
  · obtain ⟨r, hr⟩ := h.nonempty; exact ⟨r, (hmem r).2 hr⟩
  · rw [h.featureCount, List.countP_eq_length_filter, List.countP_eq_length_filter, hfc]
  · obtain ⟨D, h1, h2, h3⟩ := h.docs
    refine ⟨D, h1, h2, fun d => ?_⟩
    rw [h3]
    constructor
    · rintro ⟨r, hr, hrc, hd⟩
      exact ⟨r, ((hmem r).2 ⟨hr, hrc⟩).1, hrc, by rwa [docsOf_congr hf]⟩
    · rintro ⟨r, hr, hrc, hd⟩
      exact ⟨r, ((hmem r).1 ⟨hr, hrc⟩).1, hrc, by rwa [docsOf_congr hf] at hd⟩
  · rw [h.weight, hfc]
    congr 1
    exact List.map_congr_left (fun r _ => by rw [docsOf_congr hf])

/-- General preservation: grow, then replace the rows of `feature_cluster`. -/
theorem pending_of_grow {db db1 : DB} (h : Pending db) (g : Grow db db1) (fc' : List FCRow)
    (hone : (fc'.map (·.fid)).Nodup)
    (hfeat : ∀ r ∈ fc', ∃ f ∈ db.features, f.fid = r.fid ∧ f.docsCount = r.docsCount)
    (hclus : ∀ r ∈ fc', ∃ k ∈ db1.clusters, k.cid = r.cid)
    (hsame : ∀ c, c ∉ db1.changed → fc'.filter (fun r => r.cid = c) = db.fc.filter (fun r => r.cid = c)) :
    Pending { db1 with fc := fc' } where
  featureIds := by simpa [g.features] using h.featureIds
  featureKeys := by simpa [g.features] using h.featureKeys
  counts := by simpa [g.features] using h.counts
  oneCluster := hone
  clusterIds := g.nodup h.clusterIds
  knownFeature := by simpa [g.features] using hfeat
  knownCluster := hclus
  pendingKnown := g.known h.pendingKnown
  summaries := by
    intro k hk hn
    rcases g.new k hk with hk | ⟨-, hk, -⟩
    · have h0 : k.cid ∉ db.changed := fun hx => hn (g.changed _ hx)
      exact Exact_congr k (by simp [g.features]) (hsame k.cid hn) (h.summaries k hk h0)
    · exact absurd hk hn

theorem updateFC_spec {db : DB} (h : Pending db) (p : FCRow → Bool) (c : Int) :
    ∃ db', updateFC p c db = .ok db' ∧ Pending db' ∧
      db'.fc = db.fc.map (fun r => if p r then { r with cid := c } else r) ∧
      ∃ db1, Grow db db1 ∧ db' = { db1 with fc := db.fc.map (fun r => if p r then { r with cid := c } else r) } := by
  obtain ⟨g, hm, hk⟩ := grow_foldUpdate c (db.fc.filter p) db (by
    intro r hr; exact h.knownCluster r (List.mem_filter.1 hr).1)
  set db1 := (db.fc.filter p).foldl (fun d r => d.onUpdateFC r.cid c) db with hdb1
  have hP : Pending { db1 with fc := db.fc.map (fun r => if p r then { r with cid := c } else r) } := by
    refine pending_of_grow h g _ ?_ ?_ ?_ ?_
    · rw [List.map_map]
      have : ((fun r : FCRow => r.fid) ∘ fun r => if p r = true then { r with cid := c } else r) = (·.fid) := by
        funext r; simp only [Function.comp]; split <;> rfl
      rw [this]; exact h.oneCluster
    · intro r hr
      obtain ⟨r0, hr0, rfl⟩ := List.mem_map.1 hr
      obtain ⟨f, hf, h1, h2⟩ := h.knownFeature r0 hr0
      refine ⟨f, hf, ?_⟩
      split <;> exact ⟨h1, h2⟩
    · intro r hr
      obtain ⟨r0, hr0, rfl⟩ := List.mem_map.1 hr
      split
      · rename_i hp
        exact hk r0 (List.mem_filter.2 ⟨hr0, hp⟩)
      · obtain ⟨k, hk, h⟩ := h.knownCluster r0 hr0
        exact ⟨k, g.old k hk, h⟩
    · intro x hx
      have hcase : ∀ r ∈ db.fc, p r = true → (r.cid = x ↔ c = x) := by
        intro r hr hp
        by_cases hrc : r.cid = c
        · rw [hrc]
        · obtain ⟨h1, h2⟩ := hm r (List.mem_filter.2 ⟨hr, hp⟩) hrc
          constructor
          · rintro rfl; exact absurd h1 hx
          · rintro rfl; exact absurd h2 hx
      have hrow : ∀ r ∈ db.fc, p r = true → r.cid = x → ({ r with cid := c } : FCRow) = r := by
        intro r hr hp hrx
        have : c = r.cid := by rw [(hcase r hr hp).1 hrx, hrx]
        subst this; rfl
      clear hm hk g hdb1
      have aux : ∀ l : List FCRow, (∀ r ∈ l, r ∈ db.fc) →
          (l.map (fun r => if p r = true then { r with cid := c } else r)).filter (fun r => r.cid = x) =
            l.filter (fun r => r.cid = x) := by
        intro l
        induction l with
        | nil => intro _; rfl
        | cons r l ih =>
          intro hl
          have hr := hl r (by simp)
          have ih' := ih (fun a ha => hl a (by simp [ha]))
          rw [List.map_cons]
          by_cases hp : p r = true
          · rw [if_pos hp]
            by_cases hrx : r.cid = x
            · rw [hrow r hr hp hrx]
              simp only [List.filter_cons, ih']
            · have hcx : ¬ c = x := fun hc => hrx ((hcase r hr hp).2 hc)
              simp only [List.filter_cons, ih', hrx, hcx, decide_false, Bool.false_eq_true, if_false]
          · rw [if_neg hp]; simp only [List.filter_cons, ih']
      exact aux db.fc (fun _ h => h)
  refine ⟨_, ?_, hP, rfl, db1, g, rfl⟩
  simp only [updateFC]
  rw [← hdb1, g.fc]
  exact checked_ok hP

theorem deleteFC_spec {db : DB} (h : Pending db) (p : FCRow → Bool) :
    ∃ db', deleteFC p db = .ok db' ∧ Pending db' ∧ db'.fc = db.fc.filter (fun r => !p r) ∧
      ∃ db1, Grow db db1 ∧ db' = { db1 with fc := db.fc.filter (fun r => !p r) } ∧
        ∀ r ∈ db.fc, p r = true → r.cid ∈ db1.changed := by
  obtain ⟨g, hm⟩ := grow_foldDelete (db.fc.filter p) db (by
    intro r hr; exact h.knownCluster r (List.mem_filter.1 hr).1)
  set db1 := (db.fc.filter p).foldl (fun d r => d.onDeleteFC r.cid) db with hdb1
  have hP : Pending { db1 with fc := db.fc.filter (fun r => !p r) } := by
    refine pending_of_grow h g _ ?_ ?_ ?_ ?_
    · exact h.oneCluster.sublist (List.Sublist.map _ List.filter_sublist)
    · intro r hr; exact h.knownFeature r (List.mem_filter.1 hr).1
    · intro r hr
      obtain ⟨k, hk, h⟩ := h.knownCluster r (List.mem_filter.1 hr).1
      exact ⟨k, g.old k hk, h⟩
    · intro x hx
      rw [List.filter_filter]
      apply List.filter_congr
      intro r hr
      by_cases hp : p r = true
      · have h1 := hm r (List.mem_filter.2 ⟨hr, hp⟩)
        have : r.cid ≠ x := by rintro rfl; exact hx h1
        simp [this]
      · simp [hp]
  refine ⟨_, ?_, hP, rfl, db1, g, rfl, fun r hr hp => hm r (List.mem_filter.2 ⟨hr, hp⟩)⟩
  simp only [deleteFC]
  rw [← hdb1, g.fc]
  exact checked_ok hP

theorem feature?_of_mem {db : DB} (h : Wellformed db) {f : FeatRow} (hf : f ∈ db.features) :
    db.feature? f.fid = some f := by
  have hnd := h.featureIds
  revert hf hnd
  simp only [feature?]
  induction db.features with
  | nil => simp
  | cons g gs ih =>
    intro hf hnd
    simp only [List.map_cons, List.nodup_cons] at hnd
    rcases List.mem_cons.1 hf with rfl | hf
    · simp
    · have : g.fid ≠ f.fid := by
        intro he; exact hnd.1 (List.mem_map.2 ⟨f, hf, he.symm⟩)
      rw [List.find?_cons_of_neg (by simpa using this)]
      exact ih hf hnd.2

/-- Adding a row for a feature of the index that is not in the model yet. -/
theorem pending_addFC {db : DB} (h : Pending db) {f : FeatRow} (hf : f ∈ db.features) (c : Int)
    (hnew : ∀ r ∈ db.fc, r.fid ≠ f.fid) :
    Pending { db.onInsertFC c with
      fc := db.fc ++ [{ fid := f.fid, cid := c, docsCount := f.docsCount, pinned := false }] } := by
  obtain ⟨g, hm, hk⟩ := grow_onInsertFC c db
  refine pending_of_grow h g _ ?_ ?_ ?_ ?_
  · rw [List.map_append, List.nodup_append]
    refine ⟨h.oneCluster, by simp, ?_⟩
    intro a ha b hb
    obtain ⟨r, hr, rfl⟩ := List.mem_map.1 ha
    simp only [List.map_cons, List.map_nil, List.mem_singleton] at hb
    subst hb; exact hnew r hr
  · intro r hr
    rcases List.mem_append.1 hr with hr | hr
    · exact h.knownFeature r hr
    · simp only [List.mem_singleton] at hr; subst hr; exact ⟨f, hf, rfl, rfl⟩
  · intro r hr
    rcases List.mem_append.1 hr with hr | hr
    · obtain ⟨k, hk, h⟩ := h.knownCluster r hr
      exact ⟨k, g.old k hk, h⟩
    · simp only [List.mem_singleton] at hr; subst hr; exact hk
  · intro x hx
    have : c ≠ x := by rintro rfl; exact hx hm
    simp [List.filter_append, this]

theorem any_fid_iff (l : List FCRow) (f : Nat) : (l.any (fun r => r.fid = f)) = true ↔ ∃ r ∈ l, r.fid = f := by simp

theorem insertFC_spec {db : DB} (h : Pending db) {f : FeatRow} (hf : f ∈ db.features) (c : Int) :
    ((∃ r ∈ db.fc, r.fid = f.fid) → insertFC f.fid c f.docsCount db = .error .integrity) ∧
    ((∀ r ∈ db.fc, r.fid ≠ f.fid) → ∃ db', insertFC f.fid c f.docsCount db = .ok db' ∧ Pending db' ∧
      db' = { db.onInsertFC c with
        fc := db.fc ++ [{ fid := f.fid, cid := c, docsCount := f.docsCount, pinned := false }] }) := by
  obtain ⟨g, -, -⟩ := grow_onInsertFC c db
  constructor
  · intro hex
    simp only [insertFC, g.fc]
    rw [if_pos ((any_fid_iff _ _).2 hex)]
  · intro hnew
    have hP := pending_addFC h hf c hnew
    refine ⟨_, ?_, hP, rfl⟩
    simp only [insertFC, g.fc]
    rw [if_neg (by rw [any_fid_iff]; push Not; exact hnew)]
    exact checked_ok hP

theorem insertOrIgnoreFC_spec {db : DB} (h : Pending db) (f : Nat) (c : Int) :
    ((∃ r ∈ db.fc, r.fid = f) → insertOrIgnoreFC f c db = .ok (db.onInsertFC c) ∧ Pending (db.onInsertFC c)) ∧
    ((∀ r ∈ db.fc, r.fid ≠ f) → ∀ fr ∈ db.features, fr.fid = f →
      ∃ db', insertOrIgnoreFC f c db = .ok db' ∧ Pending db' ∧
      db' = { db.onInsertFC c with
        fc := db.fc ++ [{ fid := f, cid := c, docsCount := fr.docsCount, pinned := false }] }) ∧
    ((∀ fr ∈ db.features, fr.fid ≠ f) → insertOrIgnoreFC f c db = .error .integrity) := by
  obtain ⟨g, hm, hk⟩ := grow_onInsertFC c db
  refine ⟨?_, ?_, ?_⟩
  · intro hex
    have hP : Pending (db.onInsertFC c) := by
      have := pending_of_grow h g db.fc h.oneCluster h.knownFeature (by
        intro r hr
        obtain ⟨k, hk, h⟩ := h.knownCluster r hr
        exact ⟨k, g.old k hk, h⟩) (fun _ _ => rfl)
      rw [← g.fc] at this
      exact this
    refine ⟨?_, hP⟩
    simp only [insertOrIgnoreFC, g.fc]
    rw [if_pos ((any_fid_iff _ _).2 hex)]
    exact checked_ok hP
  · rintro hnew fr hfr rfl
    have hP := pending_addFC h hfr c hnew
    refine ⟨_, ?_, hP, rfl⟩
    simp only [insertOrIgnoreFC, g.fc, feature?_of_mem h.toWellformed hfr]
    rw [if_neg (by rw [any_fid_iff]; push Not; exact hnew)]
    exact checked_ok hP
  · intro hno
    have hnew : ∀ r ∈ db.fc, r.fid ≠ f := by
      rintro r hr rfl
      obtain ⟨fr, hfr, h1, -⟩ := h.knownFeature r hr
      exact hno fr hfr h1
    simp only [insertOrIgnoreFC, g.fc]
    rw [if_neg (by rw [any_fid_iff]; push Not; exact hnew)]
    simp only [checked]
    rw [if_neg]
    rw [fkOk_iff]
    intro hc
    obtain ⟨x, hx, hxf⟩ := (hc.1 _ (List.mem_append_right _ (List.mem_singleton.2 rfl))).1
    rw [g.features] at hx
    exact hno x hx hxf

theorem pinFC_spec {db : DB} (h : Pending db) (f : Nat) (b : Bool) :
    pinFC f b db = .ok { db with fc := db.fc.map (fun r => if r.fid = f then { r with pinned := b } else r) } ∧
    Pending { db with fc := db.fc.map (fun r => if r.fid = f then { r with pinned := b } else r) } := by
  have hP : Pending { db with fc := db.fc.map (fun r => if r.fid = f then { r with pinned := b } else r) } := by
    have hfun : ∀ r : FCRow, ∃ b', (if r.fid = f then { r with pinned := b } else r) = { r with pinned := b' } := by
      intro r; split
      · exact ⟨b, rfl⟩
      · exact ⟨r.pinned, rfl⟩
    have hfid : ((fun r : FCRow => r.fid) ∘ fun r => if r.fid = f then { r with pinned := b } else r) = (·.fid) := by
      funext r; simp only [Function.comp]; split <;> rfl
    have hcid : ∀ r : FCRow, (if r.fid = f then { r with pinned := b } else r).cid = r.cid := by
      intro r; split <;> rfl
    have hfid' : ∀ r : FCRow, (if r.fid = f then { r with pinned := b } else r).fid = r.fid := by
      intro r; split <;> rfl
    have hdc : ∀ r : FCRow, (if r.fid = f then { r with pinned := b } else r).docsCount = r.docsCount := by
      intro r; split <;> rfl
    exact {
      featureIds := h.featureIds
      featureKeys := h.featureKeys
      counts := h.counts
      oneCluster := by simp only [List.map_map, hfid]; exact h.oneCluster
      clusterIds := h.clusterIds
      knownFeature := by
        intro r hr
        obtain ⟨r0, hr0, rfl⟩ := List.mem_map.1 hr
        rw [hfid', hdc]; exact h.knownFeature r0 hr0
      knownCluster := by
        intro r hr
        obtain ⟨r0, hr0, rfl⟩ := List.mem_map.1 hr
        rw [hcid]; exact h.knownCluster r0 hr0
      pendingKnown := h.pendingKnown
      summaries := by
        intro k hk hn
        have he := h.summaries k hk hn
        constructor
        · obtain ⟨r, hr, hrc⟩ := he.nonempty
          exact ⟨_, List.mem_map.2 ⟨r, hr, rfl⟩, by rw [hcid]; exact hrc⟩
        · rw [he.featureCount, List.countP_map]
          apply List.countP_congr
          intro r _; simp only [Function.comp, hcid]
        · obtain ⟨D, h1, h2, h3⟩ := he.docs
          refine ⟨D, h1, h2, fun d => ?_⟩
          rw [h3]
          constructor
          · rintro ⟨r, hr, hrc, hd⟩
            exact ⟨_, List.mem_map.2 ⟨r, hr, rfl⟩, by rw [hcid]; exact hrc, by rw [hfid']; exact hd⟩
          · rintro ⟨r, hr, hrc, hd⟩
            obtain ⟨r0, hr0, rfl⟩ := List.mem_map.1 hr
            rw [hcid] at hrc; rw [hfid'] at hd
            exact ⟨r0, hr0, hrc, hd⟩
        · rw [he.weight, List.filter_map, List.map_map]
          have : (fun r : FCRow => decide (r.cid = k.cid)) ∘
              (fun r => if r.fid = f then { r with pinned := b } else r) = fun r => decide (r.cid = k.cid) := by
            funext r; simp only [Function.comp, hcid]
          rw [this]
          congr 1
          apply List.map_congr_left
          intro r _
          simp only [Function.comp, hfid']
          rfl }
  exact ⟨by simp only [pinFC]; exact checked_ok hP, hP⟩

theorem pinCluster_spec {db : DB} (h : Pending db) (c : Int) (b : Bool) :
    pinCluster c b db =
      .ok { db with clusters := db.clusters.map (fun r => if r.cid = c then { r with pinned := b } else r) } ∧
    Pending { db with clusters := db.clusters.map (fun r => if r.cid = c then { r with pinned := b } else r) } := by
  have hcid : ∀ r : ClusterRow, (if r.cid = c then { r with pinned := b } else r).cid = r.cid := by
    intro r; split <;> rfl
  have hP : Pending { db with clusters := db.clusters.map (fun r => if r.cid = c then { r with pinned := b } else r) } := {
    featureIds := h.featureIds
    featureKeys := h.featureKeys
    counts := h.counts
    oneCluster := h.oneCluster
    clusterIds := by
      simp only [List.map_map]
      have : ((fun r : ClusterRow => r.cid) ∘ fun r => if r.cid = c then { r with pinned := b } else r) = (·.cid) := by
        funext r; simp only [Function.comp, hcid]
      rw [this]; exact h.clusterIds
    knownFeature := h.knownFeature
    knownCluster := by
      intro r hr
      obtain ⟨k, hk, he⟩ := h.knownCluster r hr
      exact ⟨_, List.mem_map.2 ⟨k, hk, rfl⟩, by rw [hcid]; exact he⟩
    pendingKnown := by
      intro x hx
      obtain ⟨k, hk, he⟩ := h.pendingKnown x hx
      exact ⟨_, List.mem_map.2 ⟨k, hk, rfl⟩, by rw [hcid]; exact he⟩
    summaries := by
      intro k hk hn
      obtain ⟨k0, hk0, rfl⟩ := List.mem_map.1 hk
      rw [hcid] at hn
      have he := h.summaries k0 hk0 hn
      split
      · exact ⟨he.nonempty, he.featureCount, he.docs, he.weight⟩
      · exact ⟨he.nonempty, he.featureCount, he.docs, he.weight⟩ }
  exact ⟨by simp only [pinCluster]; exact checked_ok hP, hP⟩

end DB
end Hyperreal
