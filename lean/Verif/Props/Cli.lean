import Verif.Model.Cli
import Verif.Props.Refine
import Verif.Props.Server
import Verif.Props.PlainText
import Verif.Lemmas.Csv

/-! # The command line (C52) -/

namespace Hyperreal.Props
open Atomic Spec Cli

variable {σ : Type} [LinearOrder σ]

theorem fresh_idle (db : DB) : Idle (Conn.fresh db) db := ⟨rfl, rfl, rfl, rfl, rfl, rfl⟩

theorem clusterIds_eq_nil (db : DB) : clusterIds db = [] ↔ db.clusters = [] := by
  have := (clusterIds_perm db).length_eq
  rw [List.length_map] at this
  rw [← List.length_eq_zero_iff, this, List.length_eq_zero_iff]

/-- The two ways the refinement at the end of the command can go. -/
theorem refineAndClose_cases (luck : Luck σ) (args : ModelArgs) (k : Option Int) {c : Conn DB} {db : DB} (hc : Idle c db)
    (hs : Settled db) :
    (∃ e, refineAndClose luck args k c = (db, .raised e) ∧
      ((refineClusters (luck.score (args.refineArgs k)) luck.chance (args.refineArgs k)).exec none c).2 = .error e) ∨
    (∃ db', refineAndClose luck args k c = (db', .done) ∧
      ((refineClusters (luck.score (args.refineArgs k)) luck.chance (args.refineArgs k)).exec none c).2 = .ok .none ∧
      EditOk (refineClusters (luck.score (args.refineArgs k)) luck.chance (args.refineArgs k)) c db db' .none) := by
  cases hp : refinePlan (luck.score (args.refineArgs k)) luck.chance (args.refineArgs k) db with
  | error e =>
    left
    obtain ⟨h1, h2, -⟩ := refine_err hc hs hp
    change ((refineClusters (luck.score (args.refineArgs k)) luck.chance (args.refineArgs k)).exec none c).2 = _ at h1
    change ((refineClusters (luck.score (args.refineArgs k)) luck.chance (args.refineArgs k)).exec none c).1.committed = _ at h2
    refine ⟨e, ?_, h1⟩
    unfold refineAndClose
    cases hx : (refineClusters (luck.score (args.refineArgs k)) luck.chance (args.refineArgs k)).exec none c with
    | mk c' r =>
      rw [hx] at h1 h2
      dsimp only at h1 h2
      simp only [h1, hx, Conn.close, h2]
  | ok m =>
    right
    obtain ⟨db2, e1, -⟩ := refine_keeps_pins (refinePlan (luck.score (args.refineArgs k)) luck.chance (args.refineArgs k)) m c
      db hc hs hp
    refine ⟨db2, ?_, e1.returns, e1⟩
    have h1 := e1.returns
    have h2 := e1.idle.committed
    change ((refineClusters (luck.score (args.refineArgs k)) luck.chance (args.refineArgs k)).exec none c).2 = _ at h1
    change ((refineClusters (luck.score (args.refineArgs k)) luck.chance (args.refineArgs k)).exec none c).1.committed = _ at h2
    unfold refineAndClose
    cases hx : (refineClusters (luck.score (args.refineArgs k)) luck.chance (args.refineArgs k)).exec none c with
    | mk c' r =>
      rw [hx] at h1 h2
      dsimp only at h1 h2
      simp only [h1, hx, Conn.close, h2]

theorem assign_isSome_iff (db : DB) (f : Nat) : (assign db f).isSome ↔ ∃ r ∈ db.fc, r.fid = f := by
  simp [assign, List.find?_isSome]

/-- **C52, an existing model without `--restart`.** Whatever the options, scores and draws: the model has the same features
afterwards, pinned features and pinned clusters are as before, no pin is lost, and if the command fails the file is
unchanged. -/
theorem model_command_refines (luck : Luck σ) (args : ModelArgs) (confirm : Bool) (db : DB) (hs : Settled db)
    (hm : db.clusters ≠ []) (hr : args.restart = false) :
    let r := modelCommand luck args confirm db
    Settled r.1 ∧ r.2 ≠ .aborted ∧
    (∀ f, (assign r.1 f).isSome ↔ (assign db f).isSome) ∧
    (∀ f, featurePin r.1 f = featurePin db f) ∧
    (∀ f, featurePin db f = some true → assign r.1 f = assign db f) ∧
    (∀ x, clusterPin db x = some true → clusterPin r.1 x = some true ∧ ∀ f, assign r.1 f = some x ↔ assign db f = some x) ∧
    (r.2 ≠ .done → r.1 = db) := by
  intro r
  have hrr : r = refineAndClose luck args args.clusters (Conn.fresh db) := by
    simp only [r, modelCommand, hr, ne_eq, clusterIds_eq_nil, hm, not_false_eq_true, if_true, Bool.false_eq_true, if_false]
  rcases refineAndClose_cases luck args args.clusters (fresh_idle db) hs with ⟨e, h, -⟩ | ⟨db', h, hret, e0⟩
  · rw [h] at hrr
    rw [hrr]
    exact ⟨hs, by simp, fun _ => Iff.rfl, fun _ => rfl, fun _ _ => rfl, fun x hx => ⟨hx, fun _ => Iff.rfl⟩, fun _ => rfl⟩
  · obtain ⟨db2, e1, e2, e3, e4, e5⟩ := refine_keeps_pinned _ _ _ _ db (fresh_idle db) hs hret
    have hfile : r.1 = db2 := by rw [hrr, h]; exact e0.idle.committed.symm.trans e1.idle.committed
    have hperm := refine_permutes (luck.score (args.refineArgs args.clusters)) luck.chance (args.refineArgs args.clusters)
      (Conn.fresh db) db (fresh_idle db) hs
    dsimp only at hperm
    rw [e1.idle.committed] at hperm
    rw [hfile]
    have hdone : r.2 = .done := by rw [hrr, h]
    refine ⟨e1.settled, by rw [hdone]; simp, fun f => ?_, e4, e2, fun x hx => ?_, fun hne => absurd hdone hne⟩
    · rw [assign_isSome_iff, assign_isSome_iff]; exact hperm.2.2 f
    · obtain ⟨k1, k2⟩ := e3 x hx
      exact ⟨by rw [e5 x k1, hx]; rfl, k2⟩

/-- **C52, `--restart` declined.** Nothing happens. -/
theorem model_command_declined (luck : Luck σ) (args : ModelArgs) (db : DB) (hm : db.clusters ≠ []) (hr : args.restart = true) :
    modelCommand luck args false db = (db, .aborted) := by
  simp [modelCommand, hr, clusterIds_eq_nil, hm]

/-- A new model, refined at once: with no cluster target, or the number of clusters as the target. -/
theorem initialise_then_refine (luck : Luck Rat) (n : Int) (hnpos : 0 < n) (minDocs : Nat) (fields : List String) (ra : RefineArgs)
    (hscore : luck.score = exactScorer luck.chance) (hshuffle : ∀ l, (luck.shuffle l).Perm l) (hargs : ra.clusterIds = [])
    (ht : ra.target = none ∨ ra.target = some n) (hi : 1 ≤ ra.iterations) (hk : 1 ≤ ra.groupTopK)
    (db : DB) (hs : Settled db) (hf : (dealtFields db fields).Nodup) :
    let op1 := ModelOp.initialise n.toNat minDocs fields luck.shuffle
    let op2 := refineClusters (luck.score ra) luck.chance ra
    let cnt := db.features.countP (fun x => minDocs ≤ x.docsCount ∧ x.field ∈ dealtFields db fields)
    ∃ db1 db2, EditOk op1 (Conn.fresh db) db db1 .none ∧ EditOk op2 (op1.exec none (Conn.fresh db)).1 db1 db2 .none ∧
      (∀ f, (assign db2 f).isSome ↔ ∃ x ∈ db.features, x.fid = f ∧ minDocs ≤ x.docsCount ∧ x.field ∈ dealtFields db fields) ∧
      (∀ f, featurePin db2 f ≠ some true) ∧ (∀ x, clusterPin db2 x ≠ some true) ∧
      (ra.minFeatures = 1 → ra.target = none ∨ n ≤ cnt → ∀ x, hasCluster db2 x ↔ 0 ≤ x ∧ x < min n cnt) := by
  intro op1 op2 cnt
  obtain ⟨db1, e1, a1, a2, a3, a4, a5, a6⟩ := initialise_deals_evenly n.toNat minDocs fields luck.shuffle hshuffle
    (Conn.fresh db) db (fresh_idle db) hs (by omega) hf
  have hpin0 : pinnedSelected db1 [] = [] := by
    rw [List.eq_nil_iff_forall_not_mem]
    intro x hx
    exact a6 x ((mem_pinnedSelected e1.settled.toWellformed _ _).1 hx).2.2
  have hmem : ∀ x, x ∈ refinable db1 [] ↔ hasCluster db1 x := by
    intro x
    rw [mem_refinable e1.settled.toWellformed]
    exact ⟨fun h => h.1, fun h => ⟨h, Or.inl rfl, a6 x⟩⟩
  have hlen : ((refinable db1 []).length : Int) = min n cnt := by
    have hnd : (refinable db1 []).Nodup :=
      e1.settled.clusterIds.sublist ((List.filter_sublist).map _)
    have hset : (refinable db1 []).toFinset = Finset.Ico 0 (min n (cnt : Int)) := by
      ext x
      rw [List.mem_toFinset, hmem, a4, Finset.mem_Ico, lt_min_iff]
      constructor
      · rintro ⟨h1, h2, h3⟩; exact ⟨h1, by omega, h3⟩
      · rintro ⟨h1, h2, h3⟩; exact ⟨h1, by omega, h3⟩
    have := List.toFinset_card_of_nodup hnd
    rw [hset, Int.card_Ico] at this
    omega
  have hret : (op2.exec none (op1.exec none (Conn.fresh db)).1).2 = .ok .none := by
    simp only [op2]
    rw [hscore]
    refine refine_returns_partial luck.chance ra _ db1 e1.idle e1.settled hi hk ?_ ?_ ?_
    · rw [hargs]
      by_cases h0 : refinable db1 [] = []
      · exact Or.inr h0
      · left
        obtain ⟨x, hx⟩ := List.exists_mem_of_ne_nil _ h0
        obtain ⟨f, hf'⟩ := (hasCluster_iff_assign e1.settled x).1 ((hmem x).1 hx)
        refine ⟨f, ?_, x, hx, hf'⟩
        have hsome : (featurePin db1 f).isSome := by
          have : (assign db1 f).isSome := by rw [hf']; rfl
          simpa [featurePin, assign] using this
        obtain ⟨b, hb⟩ := Option.isSome_iff_exists.1 hsome
        cases b with
        | true => exact absurd hb (a5 f)
        | false => exact hb
    · intro t htt
      rcases ht with h | h <;> rw [h] at htt <;> cases htt
      right
      rw [hargs, hpin0]
      simpa using hnpos
    · intro t htt hlt
      rcases ht with h | h <;> rw [h] at htt <;> cases htt
      rw [hargs, hpin0, hlen] at hlt
      simp only [List.length_nil, Nat.cast_zero, add_zero] at hlt
      exact absurd hlt (by have := min_le_left n (cnt : Int); omega)
  obtain ⟨db3, b1, b2, b3, b4, b5⟩ := refine_keeps_pinned _ _ _ _ db1 e1.idle e1.settled hret
  have hperm := refine_permutes (luck.score ra) luck.chance ra _ db1 e1.idle e1.settled
  dsimp only at hperm
  rw [b1.idle.committed] at hperm
  refine ⟨db1, db3, e1, b1, fun f => ?_, fun f => ?_, fun x hx => ?_, fun hmin hle x => ?_⟩
  · rw [← a1 f, assign_isSome_iff, assign_isSome_iff]; exact hperm.2.2 f
  · rw [b4]; exact a5 f
  · have hc3 : hasCluster db3 x := by
      obtain ⟨kr, h1, h2, -⟩ := (clusterPin_some_iff b1.settled.clusterIds x true).1 hx
      exact ⟨kr, h1, h2⟩
    have := b5 x hc3
    rw [hx] at this
    cases hd : clusterPin db1 x with
    | none => rw [hd] at this; cases this
    | some b =>
      cases b with
      | true => exact a6 x hd
      | false => rw [hd] at this; cases this
  · obtain ⟨db4, c1, -, c2, c3⟩ := refine_keeps_minimum (luck.score ra) luck.chance ra _ db1 e1.idle e1.settled (by
        rcases ht with h | h
        · exact Or.inl h
        · refine Or.inr (Or.inr ?_)
          rcases hle with h' | h'
          · rw [h] at h'; cases h'
          · rw [hargs, hpin0, hlen, min_eq_left h', h]; simp) hret
    have h43 : db4 = db3 := c1.idle.committed.symm.trans b1.idle.committed
    subst h43
    have : hasCluster db4 x ↔ hasCluster db1 x := ⟨c2 x, c3 hmin x⟩
    rw [this, a4, lt_min_iff]
    constructor
    · rintro ⟨h1, h2, h3⟩; exact ⟨h1, by omega, h3⟩
    · rintro ⟨h1, h2, h3⟩; exact ⟨h1, by omega, h3⟩

/-- **C52, no model yet, or `--restart` confirmed.** Whatever the shuffle and the draws, the command succeeds, and the model
then holds exactly the features of the chosen fields (all fields, if none is chosen) with at least `--min-docs`
documents, none of them pinned.  If there are at least as many of them as clusters asked for (64 if not said), the
clusters are numbered from 0 to that number. -/
theorem model_command_creates (luck : Luck Rat) (args : ModelArgs) (confirm : Bool) (db : DB) (hs : Settled db)
    (hscore : luck.score = exactScorer luck.chance) (hshuffle : ∀ l, (luck.shuffle l).Perm l)
    (hm : db.clusters = [] ∨ (args.restart = true ∧ confirm = true))
    (hn : ∀ k, args.clusters = some k → 0 ≤ k) (hi : 1 ≤ args.iterations) (hk : 1 ≤ args.groupTopK)
    (hf : (dealtFields db args.fields).Nodup) :
    let r := modelCommand luck args confirm db
    let n : Int := if args.clusters = none ∨ args.clusters = some 0 then 64 else args.clusters.getD 0
    let chosen := fun x : FeatRow => args.minDocs ≤ x.docsCount ∧ x.field ∈ dealtFields db args.fields
    r.2 = .done ∧ Settled r.1 ∧
    (r.1.features = db.features ∧ r.1.docKeys = db.docKeys ∧ r.1.posDocMap = db.posDocMap ∧ r.1.posIndex = db.posIndex ∧
      r.1.fieldSummary = db.fieldSummary) ∧
    (∀ f, (assign r.1 f).isSome ↔ ∃ x ∈ db.features, x.fid = f ∧ chosen x) ∧
    (∀ f, featurePin r.1 f ≠ some true) ∧ (∀ x, clusterPin r.1 x ≠ some true) ∧
    (args.minFeatures = 1 → n ≤ db.features.countP (fun x => chosen x) → ∀ x, hasCluster r.1 x ↔ 0 ≤ x ∧ x < n) := by
  intro r n chosen
  have hrr : r = createAndRefine luck args (Conn.fresh db) := by
    simp only [r, modelCommand]
    rcases hm with h | ⟨h1, h2⟩
    · rw [if_neg (by simp [clusterIds_eq_nil, h])]
    · split
      · simp [h1, h2]
      · rfl
  have hnn : orDefault args.clusters 64 = n := by
    simp only [n, orDefault]
    cases hcl : args.clusters with
    | none => simp
    | some k => by_cases h0 : k = 0 <;> simp [h0]
  have hnpos : 0 < n := by
    simp only [n]
    cases hcl : args.clusters with
    | none => simp
    | some k =>
      have := hn k hcl
      by_cases h0 : k = 0
      · simp [h0]
      · simp [h0]; omega
  obtain ⟨db1, db2, e1, b1, c1, c2, c3, c4⟩ := initialise_then_refine luck n hnpos args.minDocs args.fields
    (args.refineArgs (some n)) hscore hshuffle rfl (.inr rfl) hi hk db hs hf
  have hr2 : r = refineAndClose luck args (some n) ((ModelOp.initialise n.toNat args.minDocs args.fields luck.shuffle).exec
      none (Conn.fresh db)).1 := by
    rw [hrr]
    have := e1.returns
    unfold createAndRefine
    rw [hnn]
    cases hx : (ModelOp.initialise n.toNat args.minDocs args.fields luck.shuffle).exec none (Conn.fresh db) with
    | mk c' v =>
      rw [hx] at this
      dsimp only at this
      subst this
      simp only [hx]
  rcases refineAndClose_cases luck args (some n) e1.idle e1.settled with ⟨e, -, hbad⟩ | ⟨db3, h, -, e2⟩
  · rw [b1.returns] at hbad; cases hbad
  rw [← hr2] at h
  have hfile : r.1 = db2 := by rw [h]; exact e2.idle.committed.symm.trans b1.idle.committed
  have hdone : r.2 = .done := by rw [h]
  rw [hfile]
  refine ⟨hdone, b1.settled, ⟨b1.features.trans e1.features, rest_trans e1.rest b1.rest⟩, c1, c2, c3, fun hmin hle x => ?_⟩
  rw [c4 hmin (.inr hle) x, min_eq_left hle]

/-- The refinement that the options of the command stand for: of all clusters, with all documents. -/
def refinementFor (args : ModelArgs) (target : Option Int) : RefineArgs :=
  { iterations := args.iterations, clusterIds := [], minFeatures := args.minFeatures, probe := none, target := target,
    tolerance := args.tolerance, groupBatches := args.groupBatches, groupTopK := args.groupTopK }

/-- **C52, the options without `--restart`.** On an existing model the command does what `refine_clusters` does with the options as its
parameters (which is described by C22 to C28 and C67): it fails with the same exception, or leaves the file with the same content. -/
theorem model_command_options (luck : Luck σ) (args : ModelArgs) (confirm : Bool) (db : DB) (hs : Settled db)
    (hm : db.clusters ≠ []) (hr : args.restart = false) :
    let ra := refinementFor args args.clusters
    let op := refineClusters (luck.score ra) luck.chance ra
    (∃ e, modelCommand luck args confirm db = (db, .raised e) ∧ (op.exec none (Conn.fresh db)).2 = .error e) ∨
    (∃ db', modelCommand luck args confirm db = (db', .done) ∧ EditOk op (Conn.fresh db) db db' .none) := by
  intro ra op
  have hrr : modelCommand luck args confirm db = refineAndClose luck args args.clusters (Conn.fresh db) := by
    simp only [modelCommand, hr, ne_eq, clusterIds_eq_nil, hm, not_false_eq_true, if_true, Bool.false_eq_true, if_false]
  rw [hrr]
  rcases refineAndClose_cases luck args args.clusters (fresh_idle db) hs with ⟨e, h, he⟩ | ⟨db', h, -, e0⟩
  · exact Or.inl ⟨e, h, he⟩
  · exact Or.inr ⟨db', h, e0⟩

/-- **C52, the options when a model is created.** The command does what `initialise_clusters` with `--clusters` (64 if missing or 0),
`--min-docs` and the fields does, and after it `refine_clusters` with that number as target and the options as parameters. -/
theorem model_command_options_create (luck : Luck Rat) (args : ModelArgs) (confirm : Bool) (db : DB) (hs : Settled db)
    (hscore : luck.score = exactScorer luck.chance) (hshuffle : ∀ l, (luck.shuffle l).Perm l)
    (hm : db.clusters = [] ∨ (args.restart = true ∧ confirm = true))
    (hn : ∀ k, args.clusters = some k → 0 ≤ k) (hi : 1 ≤ args.iterations) (hk : 1 ≤ args.groupTopK)
    (hf : (dealtFields db args.fields).Nodup) :
    let n : Int := if args.clusters = none ∨ args.clusters = some 0 then 64 else args.clusters.getD 0
    let ra := refinementFor args (some n)
    let op1 := ModelOp.initialise n.toNat args.minDocs args.fields luck.shuffle
    let op2 := refineClusters (luck.score ra) luck.chance ra
    ∃ db1 db2, EditOk op1 (Conn.fresh db) db db1 .none ∧ EditOk op2 (op1.exec none (Conn.fresh db)).1 db1 db2 .none ∧
      modelCommand luck args confirm db = (db2, .done) := by
  intro n ra op1 op2
  have hrr : modelCommand luck args confirm db = createAndRefine luck args (Conn.fresh db) := by
    simp only [modelCommand]
    rcases hm with h | ⟨h1, h2⟩
    · rw [if_neg (by simp [clusterIds_eq_nil, h])]
    · split
      · simp [h1, h2]
      · rfl
  have hnn : orDefault args.clusters 64 = n := by
    simp only [n, orDefault]
    cases hcl : args.clusters with
    | none => simp
    | some k => by_cases h0 : k = 0 <;> simp [h0]
  have hnpos : 0 < n := by
    simp only [n]
    cases hcl : args.clusters with
    | none => simp
    | some k =>
      have := hn k hcl
      by_cases h0 : k = 0
      · simp [h0]
      · simp [h0]; omega
  obtain ⟨db1, db2, e1, b1, -⟩ := initialise_then_refine luck n hnpos args.minDocs args.fields
    ra hscore hshuffle rfl (.inr rfl) hi hk db hs hf
  have hr2 : modelCommand luck args confirm db = refineAndClose luck args (some n)
      ((ModelOp.initialise n.toNat args.minDocs args.fields luck.shuffle).exec none (Conn.fresh db)).1 := by
    rw [hrr]
    have := e1.returns
    unfold createAndRefine
    rw [hnn]
    cases hx : (ModelOp.initialise n.toNat args.minDocs args.fields luck.shuffle).exec none (Conn.fresh db) with
    | mk c' v =>
      rw [hx] at this
      dsimp only at this
      subst this
      simp only [hx]
  refine ⟨db1, db2, e1, b1, ?_⟩
  rw [hr2]
  rcases refineAndClose_cases luck args (some n) e1.idle e1.settled with ⟨e, -, hbad⟩ | ⟨db3, h, -, e2⟩
  · have hb := b1.returns
    change ((refineClusters (luck.score (args.refineArgs (some n))) luck.chance (args.refineArgs (some n))).exec none _).2 = _ at hb
    rw [hb] at hbad; cases hbad
  · rw [h]
    have : db3 = db2 := e2.idle.committed.symm.trans b1.idle.committed
    rw [this]

/-! ## `plaintext-corpus create` -/


/-- **C57, first part.** A file of such lines, the last with or without its line end, becomes exactly the corpus of the texts
that are not only white space, in order; of a line with a comma only the part before the (first) comma remains, documents in
quotes remain whole, whatever they contain. -/
theorem create_reads_partial (space : Char → Bool) (limit : Nat) (ls : List Line) (hls : ∀ l ∈ ls, l.Ok limit)
    (file : List Char) (hfile : file = ls.flatMap Line.render ∨ file ++ ['\n'] = ls.flatMap Line.render)
    (c : Conn PlainText.Db) (db : PlainText.Db) (hc : Idle c db) :
    let r := plaintextCreate space limit (fun _ => none) file c
    r.2 = .ok () ∧
    Idle r.1 (some (numbered (((ls.map Line.doc).filter (fun t => !t.all space)).map String.ofList))) := by
  intro r
  have hsrc : (csvRead limit {} file).filterMap (rowItem space) =
      ((ls.map Line.doc).filter (fun t => !t.all space)).map (fun t => .text (some (String.ofList t))) := by
    rcases hfile with rfl | hfile
    · exact csv_items space ls hls
    · exact csv_items_unended space ls file hls hfile
  have hclean : Clean ((csvRead limit {} file).filterMap (rowItem space)) := by
    intro e he
    rw [hsrc] at he
    obtain ⟨t, -, h⟩ := List.mem_map.1 he
    cases h
  obtain ⟨new, h1, -, -, -, h5⟩ := replace_docs_partial (fun _ => none)
    ((csvRead limit {} file).filterMap (rowItem space)) c db hc
    ⟨fun e he => absurd he (hclean e), fun n e h => by cases h⟩
  obtain ⟨h6, h7⟩ := h5 hclean (fun _ => rfl)
  refine ⟨h7, ?_⟩
  rw [h6] at h1
  have : texts ((csvRead limit {} file).filterMap (rowItem space)) =
      ((ls.map Line.doc).filter (fun t => !t.all space)).map String.ofList := by
    rw [hsrc]
    simp [texts, List.filterMap_map, Function.comp_def]
  rw [← this]
  exact h1

/-- A last line without line end is kept. -/
example : (plaintextCreate (· == ' ') 131072 (fun _ => none) "one\n\"t, w\"".toList (Conn.fresh none)).1.committed =
    some [(1, "one"), (2, "t, w")] := by decide +kernel

example : "one\n\"t, w\"".toList ++ ['\n'] = [Line.plain "one".toList, .quoted "t, w".toList].flatMap Line.render := by decide +kernel

/-- **C57, refutation (commas).** "One document per line" fails for every line with a comma: only what is before it is kept. -/
theorem create_cuts_at_comma (space : Char → Bool) (limit : Nat) (t rest : List Char) (h : (Line.cut t rest).Ok limit)
    (ht : t.all space = false) (c : Conn PlainText.Db) (db : PlainText.Db) (hc : Idle c db) :
    Idle (plaintextCreate space limit (fun _ => none) (t ++ ',' :: rest ++ ['\n']) c).1 (some [(1, String.ofList t)]) := by
  have := (create_reads_partial space limit [.cut t rest] (by simpa using h) _ (.inl rfl) c db hc).2
  simpa [Line.render, Line.doc, ht, numbered] using this

/-- **C57, refutation (long lines).** With a line longer than the field limit of the `csv` module (131072 characters) nothing is
replaced, and the command reports success. -/
theorem create_long_line_ignored (space : Char → Bool) (limit : Nat) (ls : List Line) (hls : ∀ l ∈ ls, l.Ok limit)
    (t cs : List Char) (h1 : '\n' ∉ t) (h2 : ',' ∉ t) (h3 : t.head? ≠ some '"') (h4 : limit < t.length)
    (c : Conn PlainText.Db) (db : PlainText.Db) (hc : Idle c db) :
    let r := plaintextCreate space limit (fun _ => none) (ls.flatMap Line.render ++ (t ++ cs)) c
    r.2 = .ok () ∧ Idle r.1 db := by
  have hsrc := csv_long_raises space cs h1 h2 h3 h4 ls hls
  exact replace_docs_silent ((csvRead limit {} (ls.flatMap Line.render ++ (t ++ cs))).filterMap (rowItem space)) c db hc
    ⟨fun e he => by
      rw [hsrc] at he
      rcases List.mem_append.1 he with he | he
      · obtain ⟨t, -, h⟩ := List.mem_map.1 he; cases h
      · simp at he; subst he; rfl, fun n e h => by cases h⟩
    ⟨.valueError, by rw [hsrc]; simp⟩

/-- A file with a plain line, one with a comma, a quoted one with quotes, comma and line end, an empty one and a blank one. -/
example : (plaintextCreate (· == ' ') 131072 (fun _ => none) "one\ntwo, three\n\"a \"\"b\"\", c\nd\"\n\n  \n".toList
      (Conn.fresh (some [(1, "old")]))).1.committed =
    some [(1, "one"), (2, "two"), (3, "a \"b\", c\nd")] := by decide +kernel

example : (∀ l ∈ [Line.plain "one".toList, .cut "two".toList " three".toList, .quoted "a \"b\", c\nd".toList, .plain []],
      l.Ok 131072) ∧
    Idle (Conn.fresh (some [(1, "old")] : PlainText.Db)) (some [(1, "old")]) := by
  refine ⟨?_, ⟨rfl, rfl, rfl, rfl, rfl, rfl⟩⟩
  simp [Line.Ok]

/-- An over-long line, for a small limit. -/
example : (plaintextCreate (· == ' ') 3 (fun _ => none) "one\nlong\n".toList (Conn.fresh (some [(1, "old")]))).1.committed =
    some [(1, "old")] := by decide +kernel

/-! ## Examples for the model command -/

/-- The draws of the examples. -/
def demoLuck : Luck Rat := ⟨id, exactScorer demoChance, demoChance⟩

/-- The hypotheses of `model_command_creates` are met by the example index and ordinary options. -/
example : Settled refineIndex ∧ demoLuck.score = exactScorer demoLuck.chance ∧ (∀ l, (demoLuck.shuffle l).Perm l) ∧
    refineIndex.clusters = [] ∧ (dealtFields refineIndex []).Nodup :=
  ⟨refineIndex_settled, rfl, fun _ => .refl _, rfl, by decide⟩

/-- A new model with two clusters; features with fewer than two documents are left out. -/
example : (modelCommand demoLuck { clusters := some 2, minDocs := 2 } false refineIndex).2 = .done ∧
    assignments (modelCommand demoLuck { clusters := some 2, minDocs := 2 } false refineIndex).1 = [(1, 1), (5, 1), (2, 0)] := by
  decide +kernel

/-- The help says that `--clusters` is ignored for an existing model without `--restart`; it is not: here two clusters become
one. -/
theorem model_clusters_not_ignored :
    let db := (execAll (groups [[1, 3, 5], [2, 4, 6]]) (Conn.fresh refineIndex)).committed
    (modelCommand demoLuck { clusters := some 1 } false db).2 = .done ∧
    clusterIds db = [1, 2] ∧ (clusterIds (modelCommand demoLuck { clusters := some 1 } false db).1).length = 1 ∧
    (clusterIds (modelCommand demoLuck {} false db).1) = [1, 2] := by decide +kernel

/-- **C52, the same field twice.** The command fails and the file keeps its model. -/
theorem model_command_duplicate_field (luck : Luck σ) (args : ModelArgs) (confirm : Bool) (db : DB) (hs : Settled db)
    (hshuffle : ∀ l, (luck.shuffle l).Perm l) (hm : db.clusters = [] ∨ (args.restart = true ∧ confirm = true))
    (hn : ∀ k, args.clusters = some k → 0 ≤ k)
    (r : FeatRow) (hr : r ∈ db.features) (hmin : args.minDocs ≤ r.docsCount) (hdup : 2 ≤ args.fields.count r.field) :
    modelCommand luck args confirm db = (db, .raised .integrity) := by
  have hrr : modelCommand luck args confirm db = createAndRefine luck args (Conn.fresh db) := by
    simp only [modelCommand]
    rcases hm with h | ⟨h1, h2⟩
    · rw [if_neg (by simp [clusterIds_eq_nil, h])]
    · split
      · simp [h1, h2]
      · rfl
  have hpos : 0 < orDefault args.clusters 64 := by
    unfold orDefault
    cases hcl : args.clusters with
    | none => simp
    | some k =>
      have := hn k hcl
      by_cases h0 : k = 0
      · simp [h0]
      · simp only [h0, if_false]; omega
  obtain ⟨h1, h2⟩ := initialise_duplicate_field (orDefault args.clusters 64).toNat args.minDocs args.fields luck.shuffle hshuffle
    (Conn.fresh db) db (fresh_idle db) hs (by omega) r hr hmin hdup
  rw [hrr]
  unfold createAndRefine
  cases hx : (ModelOp.initialise (orDefault args.clusters 64).toNat args.minDocs args.fields luck.shuffle).exec none
      (Conn.fresh db) with
  | mk c' v =>
    rw [hx] at h1 h2
    dsimp only at h1 h2
    subst h1
    simp only [hx, Conn.close, h2.committed]

end Hyperreal.Props
