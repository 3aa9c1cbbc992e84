import Verif.Lemmas.ModelOps

namespace Hyperreal
open Spec DB

theorem find?_map_fid {T : FCRow → FCRow} (hT : ∀ r, (T r).fid = r.fid) (l : List FCRow) (f : Nat) :
    (l.map T).find? (fun r => r.fid = f) = (l.find? (fun r => r.fid = f)).map T := by
  induction l with
  | nil => rfl
  | cons r l ih =>
    simp only [List.map_cons, List.find?_cons, hT]
    by_cases h : r.fid = f
    · simp [h]
    · simp [h, ih]

theorem find?_filter_fid (l : List FCRow) (hn : (l.map (·.fid)).Nodup) (q : FCRow → Bool) (f : Nat) :
    (l.filter q).find? (fun r => r.fid = f) = (l.find? (fun r => r.fid = f)).filter q := by
  induction l with
  | nil => rfl
  | cons r l ih =>
    simp only [List.map_cons, List.nodup_cons] at hn
    by_cases h : r.fid = f
    · by_cases hq : q r = true
      · simp [List.filter_cons, hq, h, Option.filter]
      · simp only [List.filter_cons, hq, List.find?_cons, h, Option.filter]
        simp only [Bool.false_eq_true, if_false, decide_true]
        rw [if_neg hq, List.find?_eq_none]
        intro x hx
        simp only [decide_eq_true_eq]
        intro hxf
        exact hn.1 (List.mem_map.2 ⟨x, (List.mem_filter.1 hx).1, hxf.trans h.symm⟩)
    · by_cases hq : q r = true
      · simp [List.filter_cons, hq, h, ih hn.2]
      · simp [List.filter_cons, hq, h, ih hn.2]

theorem find?_some_iff {l : List FCRow} (hn : (l.map (·.fid)).Nodup) (f : Nat) (r : FCRow) :
    l.find? (fun r => r.fid = f) = some r ↔ r ∈ l ∧ r.fid = f := by
  constructor
  · intro h
    exact ⟨List.mem_of_find?_eq_some h, by simpa using List.find?_some h⟩
  · rintro ⟨hr, rfl⟩
    induction l with
    | nil => simp at hr
    | cons a l ih =>
      simp only [List.map_cons, List.nodup_cons] at hn
      rcases List.mem_cons.1 hr with rfl | hr
      · simp
      · have : a.fid ≠ r.fid := fun e => hn.1 (List.mem_map.2 ⟨r, hr, e.symm⟩)
        rw [List.find?_cons_of_neg (by simpa using this)]
        exact ih hn.2 hr

theorem assign_some_iff {db : DB} (h : Wellformed db) (f : Nat) (c : Int) :
    assign db f = some c ↔ ∃ r ∈ db.fc, r.fid = f ∧ r.cid = c := by
  simp only [assign, Option.map_eq_some_iff, find?_some_iff h.oneCluster]
  constructor
  · rintro ⟨r, ⟨h1, h2⟩, h3⟩; exact ⟨r, h1, h2, h3⟩
  · rintro ⟨r, h1, h2, h3⟩; exact ⟨r, ⟨h1, h2⟩, h3⟩

theorem featurePin_some_iff {db : DB} (h : Wellformed db) (f : Nat) (b : Bool) :
    featurePin db f = some b ↔ ∃ r ∈ db.fc, r.fid = f ∧ r.pinned = b := by
  simp only [featurePin, Option.map_eq_some_iff, find?_some_iff h.oneCluster]
  constructor
  · rintro ⟨r, ⟨h1, h2⟩, h3⟩; exact ⟨r, h1, h2, h3⟩
  · rintro ⟨r, h1, h2, h3⟩; exact ⟨r, ⟨h1, h2⟩, h3⟩

theorem find?_cid_iff {l : List ClusterRow} (hn : (l.map (·.cid)).Nodup) (c : Int) (r : ClusterRow) :
    l.find? (fun r => r.cid = c) = some r ↔ r ∈ l ∧ r.cid = c := by
  constructor
  · intro h
    exact ⟨List.mem_of_find?_eq_some h, by simpa using List.find?_some h⟩
  · rintro ⟨hr, rfl⟩
    induction l with
    | nil => simp at hr
    | cons a l ih =>
      simp only [List.map_cons, List.nodup_cons] at hn
      rcases List.mem_cons.1 hr with rfl | hr
      · simp
      · have : a.cid ≠ r.cid := fun e => hn.1 (List.mem_map.2 ⟨r, hr, e.symm⟩)
        rw [List.find?_cons_of_neg (by simpa using this)]
        exact ih hn.2 hr

theorem clusterPin_some_iff {db : DB} (hn : (db.clusters.map (·.cid)).Nodup) (c : Int) (b : Bool) :
    clusterPin db c = some b ↔ ∃ k ∈ db.clusters, k.cid = c ∧ k.pinned = b := by
  simp only [clusterPin, Option.map_eq_some_iff, find?_cid_iff hn]
  constructor
  · rintro ⟨r, ⟨h1, h2⟩, h3⟩; exact ⟨r, h1, h2, h3⟩
  · rintro ⟨r, h1, h2, h3⟩; exact ⟨r, ⟨h1, h2⟩, h3⟩

theorem hasCluster_iff_assign {db : DB} (h : Settled db) (c : Int) :
    hasCluster db c ↔ ∃ f, assign db f = some c := by
  constructor
  · rintro ⟨k, hk, rfl⟩
    obtain ⟨r, hr, e⟩ := (h.summaries k hk).nonempty
    exact ⟨r.fid, (assign_some_iff h.toWellformed _ _).2 ⟨r, hr, rfl, e⟩⟩
  · rintro ⟨f, hf⟩
    obtain ⟨r, hr, -, rfl⟩ := (assign_some_iff h.toWellformed _ _).1 hf
    exact h.knownCluster r hr

/-- Pins of clusters after an edit: clusters that existed keep their pin, new ones are unpinned. -/
theorem clusterPin_after {db d db' : DB} (hdb : Pending db) (hK : Keeps db d) (hs : Settled db')
    (hpin : ∀ k' ∈ db'.clusters, ∃ k ∈ d.clusters, k.cid = k'.cid ∧ k.pinned = k'.pinned) (c : Int)
    (hc : hasCluster db' c) :
    clusterPin db' c = some ((clusterPin db c).getD false) := by
  obtain ⟨k', hk', rfl⟩ := hc
  obtain ⟨k, hk, e1, e2⟩ := hpin k' hk'
  rw [clusterPin_some_iff hs.clusterIds]
  refine ⟨k', hk', rfl, ?_⟩
  rcases hK.pins k hk with ⟨k0, hk0, e3, e4⟩ | ⟨hno, hp⟩
  · rw [(clusterPin_some_iff hdb.clusterIds k'.cid k0.pinned).2 ⟨k0, hk0, e3.trans e1, rfl⟩]
    simp only [Option.getD_some]
    rw [← e2, ← e4]
  · have : clusterPin db k'.cid = none := by
      simp only [clusterPin, Option.map_eq_none_iff, List.find?_eq_none, decide_eq_true_eq]
      intro x hx e
      exact hno x hx (e.trans e1.symm)
    rw [this, ← e2, hp]; rfl

theorem touched_stmts (fs : List (DB → Except Err DB)) (k : Method) : ∀ db : DB,
    touched (stmts fs k) db = match runAll fs db with
      | (d, none) => touched k d
      | (_, some _) => false := by
  induction fs with
  | nil => intro db; rfl
  | cons f fs ih =>
    intro db
    simp only [stmts, touched, runAll]
    cases hf : f db with
    | error e => simp [Except.map, touched]
    | ok d => simp only [Except.map, ih]

/-- Validity of a public call: the shuffle really is a shuffle. -/
def ModelOp.Valid : ModelOp → Prop
  | .initialise _ _ _ sh => ∀ l, (sh l).Perm l
  | _ => True

/-- The body of a public call on a database whose references are in order: it returns leaving such a database, or
raises. -/
theorem method_cases (op : ModelOp) (hv : op.Valid) {db : DB} (h : Pending db) :
    (∃ d v, eval op.method.2.2 db = (d, .ok v) ∧ Pending d ∧ d.features = db.features ∧
      (touched op.method.2.2 db || op.method.2.1) = true) ∨
    (∃ d e, eval op.method.2.2 db = (d, .error e) ∧ touched op.method.2.2 db = false ∧
      (e.isException = true ∨ d = db)) := by
  cases op with
  | initialise n m fs sh =>
    obtain ⟨h1, h2⟩ := eval_initialise n m fs sh hv h
    by_cases hn : ((dealt (sh (selectFeatures db m (if fs.isEmpty then db.fieldSummary.map (·.field) else fs))) n).map
        (fun x => x.2.1)).Nodup
    · obtain ⟨d, e1, e2, e3, -⟩ := h1 hn
      exact Or.inl ⟨d, _, e1, e2, e3, by simp [ModelOp.method]⟩
    · obtain ⟨d, e1⟩ := h2 hn
      refine Or.inr ⟨d, _, e1, ?_, Or.inl rfl⟩
      simp only [ModelOp.method, initialiseClusters, touched_stmts]
      cases runAll [deleteFC fun _ => true, deleteClusterRows fun _ => true] db with
      | mk d' o =>
        cases o with
        | some e => rfl
        | none => simp only [touched_reading, touched_stmts_ret]
  | deleteClusters cs =>
    obtain ⟨d, e1, e2, e3, -⟩ := eval_deleteClusters cs h
    exact Or.inl ⟨d, _, e1, e2, e3.features, by simp [ModelOp.method]⟩
  | merge cs =>
    cases cs with
    | nil => exact Or.inr ⟨db, .indexError, rfl, rfl, Or.inl rfl⟩
    | cons c rest =>
      obtain ⟨d, T, e1, e2, e3, -⟩ := eval_merge c rest h
      exact Or.inl ⟨d, _, e1, e2, e3.features, by simp [ModelOp.method]⟩
  | deleteFeatures fs =>
    obtain ⟨d, e1, e2, e3, -⟩ := eval_deleteFeatures fs h
    exact Or.inl ⟨d, _, e1, e2, e3.features, by simp [ModelOp.method]⟩
  | create fs =>
    obtain ⟨h1, h2⟩ := eval_create fs h
    by_cases hall : ∀ f ∈ fs, ∃ fr ∈ db.features, fr.fid = f
    · obtain ⟨d, new, T, e1, e2, e3, -⟩ := h1 hall
      exact Or.inl ⟨d, _, e1, e2, e3.features, by simp [ModelOp.method]⟩
    · push Not at hall
      obtain ⟨f, hf, hno⟩ := hall
      obtain ⟨d, e1⟩ := h2 f hf hno
      refine Or.inr ⟨d, _, e1, ?_, Or.inl rfl⟩
      simp only [ModelOp.method, createCluster, touched_reading, touched_stmts]
      cases runAll (fs.map fun f => insertOrIgnoreFC f (nextClusterId db)) db with
      | mk d' o =>
        cases o with
        | some e => rfl
        | none =>
          simp only []
          cases runAll (fs.map fun f => updateFC (fun r => decide (r.fid = f)) (nextClusterId db)) d' with
          | mk d'' o => cases o <;> rfl
  | pinFeatures fs b =>
    obtain ⟨d, e1, e2, e3⟩ := eval_pinFeatures fs b h
    exact Or.inl ⟨d, _, e1, e2, by rw [e3], by simp [ModelOp.method]⟩
  | pinClusters cs b =>
    obtain ⟨d, e1, e2, e3⟩ := eval_pinClusters cs b h
    exact Or.inl ⟨d, _, e1, e2, by rw [e3], by simp [ModelOp.method]⟩
  | refine plan =>
    obtain ⟨h1, h2⟩ := eval_refineWith plan h
    cases hp : plan db with
    | error e =>
      refine Or.inr ⟨db, e, h1 e hp, ?_, Or.inr rfl⟩
      simp only [ModelOp.method, refineWith, touched_reading, hp, touched]
    | ok m =>
      obtain ⟨ht, d, T, e1, e2, e3, -⟩ := h2 m hp
      exact Or.inl ⟨d, _, e1, e2, e3.features, by simp only [ModelOp.method, ht, Bool.true_or]⟩

end Hyperreal
