import Verif.Props.Sites
import Verif.Props.Fields

/-!
# From the dumps of several sites to exported clusters, samples and web pages (C81)
-/

namespace Hyperreal.Props
open Atomic Spec Cli Migrate Web Serve
open Spec.Page (Unmarking Finished nodes postNodes)

variable {int : String → Option Int} {σ : Type} [LinearOrder σ]

/-- **C81.** `stackexchange-corpus add-site` on a new corpus file for the tidy dumps of any number of different sites, one after the
other, succeeds each time.  The corpus then has exactly the questions and answers of all dumps, in order, under the keys
1, 2, …, and each document is made from the dump of its own site alone: other sites may use the same ids for posts, users and
comments.  In particular the documents of a site are those that its dump gives alone, but for the number of the site. -/
theorem sites_import (ds : List (SX.Dump × String)) (hu : (ds.map (·.2)).Nodup) (hd : ∀ x ∈ ds, Tidy x.1) :
    let sx := Pipeline.addSites ds {}
    sx.2 = .ok () ∧ SX.keys id sx.1 = (List.range (allPosts ds).length).map (· + 1) ∧
    SX.docs id sx.1 none = ((allPosts ds).zipIdx.map (fun x => (x.2 + 1, x.1.doc)), none) ∧
    ∀ k d url, ds[k]? = some (d, url) → ∃ off, ∀ n r, (considered d)[n]? = some r →
      (allPosts ds)[off + n]? = some ⟨d, url, k + 1, r⟩ ∧
      ∃ doc, SX.docOf (Pipeline.addSite d url {}).1 (n + 1) = .ok doc ∧ SX.docOf sx.1 (off + n + 1) = .ok { doc with site := k + 1 } := by
  intro sx
  obtain ⟨db, hadd, hst⟩ := addSites_stored ds [] {} stored_nil (by simpa using hu) hd
  rw [List.nil_append] at hst
  have hsx : sx = (db, .ok ()) := hadd
  rw [hsx]
  have hkeys : SX.keys id db = (allPosts ds).zipIdx.map (fun x => x.2 + 1) := by
    simp only [SX.keys, id, hst.posts, List.map_map]
    apply List.map_congr_left
    intro x _
    simp [storedAll, storedPost, SX.mkPost]
  refine ⟨rfl, ?_, ?_, ?_⟩
  · rw [hkeys, zipIdx_numbers]
  · simp only [SX.docs, Option.getD_none, hkeys]
    have : ∀ l : List (SitePost × Nat), (∀ x ∈ l, x ∈ (allPosts ds).zipIdx) →
        SX.yields db (l.map (fun x => x.2 + 1)) = (l.map (fun x => (x.2 + 1, x.1.doc)), none) := by
      intro l
      induction l with
      | nil => intro _; rfl
      | cons a l ih =>
        intro hl
        have ha := List.mem_zipIdx_iff_getElem?.1 (hl a (by simp))
        rw [List.map_cons, SX.yields, (hst.docs hd ha).1, ih (fun x hx => hl x (by simp [hx]))]
        rfl
    exact this _ (fun x hx => hx)
  · intro k d url hk
    refine ⟨(allPosts (ds.take k)).length, fun n r hn => ?_⟩
    have hdd := hd _ (List.mem_of_getElem? hk)
    have hget : (allPosts ds)[(allPosts (ds.take k)).length + n]? = some ⟨d, url, k + 1, r⟩ := by
      have hk' : k < ds.length := (List.getElem?_eq_some_iff.1 hk).1
      have e : ds = (ds.take k ++ [(d, url)]) ++ ds.drop (k + 1) := by
        rw [List.append_assoc, List.singleton_append]
        have := List.drop_eq_getElem_cons hk'
        rw [(List.getElem?_eq_some_iff.1 hk).2] at this
        rw [← this, List.take_append_drop]
      have mono : ∀ (a b : List (SX.Dump × String)), ∃ rest, allPosts (a ++ b) = allPosts a ++ rest := by
        intro a b
        exact ⟨_, by rw [allPosts, List.zipIdx_append, List.flatMap_append]; rfl⟩
      obtain ⟨rest, hrest⟩ := mono (ds.take k ++ [(d, url)]) (ds.drop (k + 1))
      rw [← e, allPosts_snoc, List.append_assoc] at hrest
      rw [hrest, List.getElem?_append_right (by omega), show (allPosts (ds.take k)).length + n - (allPosts (ds.take k)).length = n by omega,
        List.getElem?_append_left (by rw [List.length_map]; exact (List.getElem?_eq_some_iff.1 hn).1), List.getElem?_map, hn]
      simp [Nat.min_eq_left hk'.le]
    refine ⟨hget, docFrom d url 1 r, ?_, ?_⟩
    · obtain ⟨one, hone, hst1⟩ := addSites_stored [(d, url)] [] {} stored_nil (by simp) (fun x hx => by rw [List.mem_singleton.1 hx]; exact hdd)
      have h1 : (Pipeline.addSite d url {}).1 = one := by
        simp only [Pipeline.addSites, addSite_ok d url {} hdd, Prod.mk.injEq] at hone
        rw [addSite_ok d url {} hdd]
        exact hone.1
      rw [h1]
      have hg : (allPosts [(d, url)])[n]? = some ⟨d, url, 1, r⟩ := by
        show (allPosts ([] ++ [(d, url)]))[n]? = _
        rw [allPosts_snoc, show allPosts [] = [] from rfl, List.nil_append, List.getElem?_map, hn]
        rfl
      exact (hst1.docs (fun x hx => by rw [List.nil_append, List.mem_singleton] at hx; rw [hx]; exact hdd) hg).1
    · exact (hst.docs hd hget).1

/-- **C81, a failing dump.** If `add-site` fails for one of the dumps, the corpus is what the dumps before it made. -/
theorem sites_failure (before : List (SX.Dump × String)) (hok : (Pipeline.addSites before {}).2 = .ok ()) (d : SX.Dump) (url : String)
    (e : Err) (hfail : (Pipeline.addSite d url (Pipeline.addSites before {}).1).2 = .error e) (rest : List (SX.Dump × String)) :
    Pipeline.addSites (before ++ (d, url) :: rest) {} = ((Pipeline.addSites before {}).1, .error e) := by
  have app : ∀ (a b : List (SX.Dump × String)) (db : SX.Db), (Pipeline.addSites a db).2 = .ok () →
      Pipeline.addSites (a ++ b) db = Pipeline.addSites b (Pipeline.addSites a db).1 := by
    intro a b
    induction a with
    | nil => intro db _; rfl
    | cons x a ih =>
      obtain ⟨d, url⟩ := x
      intro db h
      rw [List.cons_append, Pipeline.addSites, Pipeline.addSites] at *
      cases hx : Pipeline.addSite d url db with
      | mk db' r =>
        rw [hx] at h
        cases r with
        | error e => cases h
        | ok u => exact ih db' h
  rw [app before _ {} hok]
  generalize (Pipeline.addSites before {}).1 = db at hfail ⊢
  rw [Pipeline.addSites]
  have hi : Idle (Conn.fresh db) db := ⟨rfl, rfl, rfl, rfl, rfl, rfl⟩
  have hend := SX.addSiteData_end (fun _ => none) d url (Conn.fresh db) db hi
  unfold Pipeline.addSite at hfail ⊢
  generalize SX.addSiteData (fun _ => none) d url (Conn.fresh db) = res at hfail hend ⊢
  cases hend with
  | done c' log h1 h2 h3 h4 => cases hfail
  | failed c' e' log h1 h2 h3 h4 h5 =>
    cases hfail
    dsimp only
    congr 1

/-- **C81, clusters.** `stackexchange-corpus add-site` on a new corpus file for the tidy, readable dumps of any number of different
sites, one after the other, then `stackexchange-corpus index`, `model` and `export clusters --top-k-features 0`: all succeed, and
the file, read back, has exactly one row for every value of every chosen field that at least `--min-docs` of the questions and
answers of all dumps show, where each shows exactly what its own dump says. -/
theorem sites_to_clusters (t : SX.TextOps) (h0 : t.tokens "" = []) (scan : List SX.Post → List SX.Post)
    (hscan : ∀ l, (scan l).Perm l) (ds : List (SX.Dump × String)) (hds : SitesReadable t ds) (hne : allPosts ds ≠ [])
    (vocabulary : List (String × String))
    (hvoc : ∀ r ∈ allPosts ds, ∀ fl w, SxShows t r.doc fl w → (fl, w) ∈ vocabulary) (hsize : vocabulary.length ≤ 2 ^ 62)
    (cfg : IndexCfg) (s : Schedule) (hf : Fair s) (hno : ∀ i, s.fault i = none) (f : File) (hu : Usable f)
    (luck : Luck Rat) (hscore : luck.score = exactScorer luck.chance) (hshuffle : ∀ l, (luck.shuffle l).Perm l)
    (args : ModelArgs) (confirm : Bool) (hm : f.data.clusters = [] ∨ (args.restart = true ∧ confirm = true))
    (hn : ∀ k, args.clusters = some k → 0 ≤ k) (hit : 1 ≤ args.iterations) (hk : 1 ≤ args.groupTopK) (hmin : 1 ≤ args.minDocs)
    (hfields : args.fields.Nodup)
    (visitC : List ClusterRow → List ClusterRow) (hvC : AnyOrder visitC) (visit : List Listed → List Listed) (hv : AnyOrder visit) :
    let corpus := Pipeline.addSites ds {}
    let indexed := Pipeline.indexSx t scan cfg s corpus.1 f
    let modelled := Pipeline.model luck args confirm indexed.1
    let exported := Pipeline.exportClusters visitC visit 0 modelled.1
    let n : Int := if args.clusters = none ∨ args.clusters = some 0 then 64 else args.clusters.getD 0
    corpus.2 = .ok () ∧ indexed.2 = .ok () ∧ modelled.2 = .done ∧
    ∃ text, exported.2 = .ok text ∧ ∃ L, ∀ limit, L ≤ limit →
      ∃ rows : List (Int × Nat × String × String × Nat),
        Csv.read limit false {} text = .ok ["cluster_id", "feature_id", "field", "value", "docs_count"] ::
          rows.map (fun r => .ok [toString r.1, toString r.2.1, r.2.2.1, r.2.2.2.1, toString r.2.2.2.2]) ∧
        (rows.map (fun r => (r.2.2.1, r.2.2.2.1))).Nodup ∧
        (∀ fl w m, (∃ c i, (c, i, fl, w, m) ∈ rows) ↔
          m = sitePostsWith t ds fl w ∧ args.minDocs ≤ m ∧ (args.fields = [] ∨ fl ∈ args.fields)) ∧
        (∀ fl w c, (∃ i m, (c, i, fl, w, m) ∈ rows) ↔ ValueIn modelled.1.data fl (.text w) c) ∧
        (args.minFeatures = 1 → n ≤ rows.length → ∀ c, (∃ r ∈ rows, r.1 = c) ↔ 0 ≤ c ∧ c < n) := by
  intro corpus indexed modelled exported n
  obtain ⟨hadd, hs, hi, hkne, hkeys, hcont, -⟩ := sites_corpus t h0 scan hscan ds hds hne id (fun l => .refl _)
  set content := fun k => okOr (SX.indexed t (Pipeline.addSites ds {}).1 k) with hcontent
  have hval : ∀ k ∈ (SX.corpus t scan corpus.1).keys, ∀ fl v, HasValue content k fl v →
      ∃ r ∈ allPosts ds, ∃ w, v = .text w ∧ SxShows t r.doc fl w := by
    intro k hk' fl v hv'
    obtain ⟨i, r, h1, rfl⟩ := (hkeys k).1 hk'
    obtain ⟨w, h2, h3⟩ := (hcont i r h1 fl v).1 hv'
    exact ⟨r, List.mem_of_getElem? h1, w, h2, h3⟩
  have hperm : (SX.corpus t scan corpus.1).keys.Perm ((List.range (allPosts ds).length).map (fun n : Nat => Val.int ((n + 1 : Nat) : Int))) := by
    rw [List.perm_ext_iff_of_nodup hs.keys (List.nodup_range.map (fun a b h => by simpa using h))]
    intro k
    rw [hkeys]
    simp only [List.mem_map, List.mem_range]
    constructor
    · rintro ⟨i, r, h1, rfl⟩; exact ⟨i, (List.getElem?_eq_some_iff.1 h1).1, rfl⟩
    · rintro ⟨i, h1, rfl⟩; exact ⟨i, _, List.getElem?_eq_getElem h1, rfl⟩
  have hmany : ∀ fl w, howMany (fun k => HasValue content k fl (.text w)) (SX.corpus t scan corpus.1).keys = sitePostsWith t ds fl w := by
    intro fl w
    rw [howMany_perm _ hperm]
    refine howMany_congr _ _ _ _ (by simp) ?_
    intro i a b ha hb
    rw [List.getElem?_map, List.getElem?_range (List.getElem?_eq_some_iff.1 hb).1] at ha
    simp only [Option.map_some, Option.some.injEq] at ha
    rw [← ha]
    refine (hcont i b hb fl (.text w)).trans ?_
    constructor
    · rintro ⟨w', h1, h2⟩; cases h1; exact h2
    · intro h; exact ⟨w, rfl, h⟩
  obtain ⟨a1, a2, text, a3, L, a4⟩ := any_to_clusters hs cfg (hi _) hkne s hf hno f hu
    (vocabulary.map (fun x => (x.1, Val.text x.2))) (by
      intro k hk' fl v hv'
      obtain ⟨r, h1, w, rfl, h3⟩ := hval k hk' fl v hv'
      exact List.mem_map.2 ⟨(fl, w), hvoc r h1 fl w h3, rfl⟩) (by rw [List.length_map]; exact hsize)
    luck hscore hshuffle args confirm hm hn hit hk hmin hfields visitC hvC visit hv
  refine ⟨hadd, a1, a2, text, a3, L, fun limit hl => ?_⟩
  obtain ⟨rows, b1, b2, b3, b4, b5⟩ := a4 limit hl
  have htext : ∀ e ∈ rows, e.2.2.2.1 = .text (written e.2.2.2.1) := by
    rintro ⟨c, i, fl, v, m⟩ he
    obtain ⟨h1, h2, -⟩ := (b3 fl v m).1 ⟨c, i, he⟩
    have hpos : 0 < howMany (fun k => HasValue content k fl v) (SX.corpus t scan corpus.1).keys := by
      have : m = howMany (fun k => HasValue content k fl v) (SX.corpus t scan corpus.1).keys := h1
      omega
    rw [howMany, List.countP_pos_iff] at hpos
    obtain ⟨k, hk1, hk2⟩ := hpos
    obtain ⟨-, -, w, h3, -⟩ := hval k hk1 fl v (by simpa using hk2)
    subst h3
    rfl
  have hmem : ∀ c i fl w m, (c, i, fl, w, m) ∈ rows.map (fun e => (e.1, e.2.1, e.2.2.1, written e.2.2.2.1, e.2.2.2.2)) ↔
      (c, i, fl, Val.text w, m) ∈ rows := by
    intro c i fl w m
    simp only [List.mem_map, Prod.mk.injEq]
    constructor
    · rintro ⟨⟨c', i', fl', v, m'⟩, he, rfl, rfl, rfl, rfl, rfl⟩
      have := htext _ he
      dsimp only at this ⊢
      rw [← this]; exact he
    · intro h; exact ⟨_, h, rfl, rfl, rfl, rfl, rfl⟩
  refine ⟨rows.map (fun e => (e.1, e.2.1, e.2.2.1, written e.2.2.2.1, e.2.2.2.2)), ?_, ?_, ?_, ?_, ?_⟩
  · rw [b1, List.map_map]; rfl
  · rw [List.map_map]
    refine List.Nodup.map_on ?_ (List.Nodup.of_map _ b2)
    intro x hx y hy hxy
    simp only [Function.comp, Prod.mk.injEq] at hxy
    refine List.inj_on_of_nodup_map b2 hx hy ?_
    rw [Prod.mk.injEq, htext x hx, htext y hy, hxy.2]
    exact ⟨hxy.1, rfl⟩
  · intro fl w m
    simp only [hmem]
    rw [b3, ← hmany]
  · intro fl w c
    simp only [hmem]
    exact b4 fl (.text w) c
  · intro h1 h2 c
    rw [List.length_map] at h2
    rw [← b5 h1 h2 c]
    simp only [List.mem_map, exists_exists_and_eq_and]

/-- **C81, sample.** After the commands of `sites_to_clusters`, `stackexchange-corpus sample --docs-per-cluster k` succeeds, and each
row of its file has what the dump of its own site says about the post (`RowShows`), whatever the ids that other sites use. -/
theorem sites_to_sample (t : SX.TextOps) (h0 : t.tokens "" = []) (scan : List SX.Post → List SX.Post)
    (hscan : ∀ l, (scan l).Perm l) (ds : List (SX.Dump × String)) (hds : SitesReadable t ds) (hne : allPosts ds ≠ [])
    (cfg : IndexCfg) (s : Schedule) (hf : Fair s) (hno : ∀ i, s.fault i = none) (f : File) (hu : Usable f)
    (luck : Luck Rat) (hscore : luck.score = exactScorer luck.chance) (hshuffle : ∀ l, (luck.shuffle l).Perm l)
    (args : ModelArgs) (confirm : Bool) (hm : f.data.clusters = [] ∨ (args.restart = true ∧ confirm = true))
    (hn : ∀ k, args.clusters = some k → 0 ≤ k) (hit : 1 ≤ args.iterations) (hk : 1 ≤ args.groupTopK)
    (hfields : args.fields.Nodup) (order : List String → List String) (ho : ∀ l, (order l).Perm l)
    (visitC : List ClusterRow → List ClusterRow) (hv : AnyOrder visitC)
    (pick : Int → Nat → Nat → List Nat) (hp : ∀ c, Draws (pick c)) (k : Int) :
    let corpus := Pipeline.addSites ds {}
    let indexed := Pipeline.indexSx t scan cfg s corpus.1 f
    let modelled := Pipeline.model luck args confirm indexed.1
    let sampled := Pipeline.sampleSx order visitC pick k corpus.1 modelled.1
    let has := SitePostIn t ds modelled.1.data
    let names := ["site_url", "Id", "OwnerUserId", "DisplayName", "ContentLicense", "PostType", "Body", "ParentId", "QuestionTitle", "LiveLink", "tags", "comments"]
    sampled.1.data = modelled.1.data ∧
    ∃ text, sampled.2 = .ok text ∧ ∃ L, ∀ limit, L ≤ limit →
      ∃ (rows : List (Int × Nat)) (cols : List Int) (cells : Int × Nat → List String),
        Csv.read limit false {} text = .ok (["doc_key", "sampled_cluster"] ++ names ++ cols.map clusterColumn) ::
          rows.map (fun e => .ok (cells e)) ∧
        (∀ e ∈ rows, ∃ r row marks, (allPosts ds)[e.2]? = some r ∧ RowShows r.dump r.url r.row row ∧
          cells e = [toString (e.2 + 1), toString e.1] ++ names.map (fun n => cellWritten (Dict.get? row n)) ++ marks ∧
          List.Forall₂ (fun c m => (m = "1" ∧ has c e.2) ∨ (m = "" ∧ ¬ has c e.2)) cols marks) ∧
        (rows.map (·.2)).Nodup ∧ (∀ e ∈ rows, has e.1 e.2) ∧
        cols.Pairwise (· < ·) ∧ (∀ c, c ∈ cols ↔ ∃ e ∈ rows, has c e.2) ∧
        (0 < k → ∀ c, (rows.countP (fun e => e.1 = c) : Int) ≤ k) ∧
        (∀ c n, has c n → (∃ e ∈ rows, e.2 = n) ∨ (0 < k ∧ (rows.countP (fun e => e.1 = c) : Int) = k)) := by
  intro corpus indexed modelled sampled has names
  obtain ⟨hadd, hs, hi, hkne, hkeys, hcont, shown, hsh1, hsh2, hsh3⟩ := sites_corpus t h0 scan hscan ds hds hne order ho
  set content := fun k => okOr (SX.indexed t (Pipeline.addSites ds {}).1 k) with hcontent
  obtain ⟨a1, text, a2, L, a3⟩ := any_to_sample hs cfg (hi _) hkne s hf hno f hu luck hscore hshuffle args confirm hm hn hit hk hfields
    (SX.renderValues order corpus.1) shown SX.tableFields hsh2 (by
      intro n hn'
      have : ∀ f ∈ SX.tableFields, f ≠ "doc_key" ∧ f ≠ "sampled_cluster" := by decide +kernel
      exact ⟨(this n hn').1, (this n hn').2, fun c => tableField_ne_column (by simp [hn']) c⟩) hsh1 visitC hv pick hp k
  refine ⟨a1, text, a2, L, fun limit hl => ?_⟩
  obtain ⟨rows, cols, cells, r1, r0, r2, r3, r4, r5, r6, r7⟩ := a3 limit hl
  set key := fun n : Nat => Val.int ((n + 1 : Nat) : Int) with hkey
  set num : Val → Nat := fun v => (SX.asKey v).getD 0 - 1 with hnum
  have hnk : ∀ n, num (key n) = n := fun n => by
    show (some (n + 1)).getD 0 - 1 = n
    simp
  have hhas : ∀ c n r, (allPosts ds)[n]? = some r →
      ((∃ fl v, HasValue content (key n) fl v ∧ ValueIn modelled.1.data fl v c) ↔ has c n) := by
    intro c n r hn'
    constructor
    · rintro ⟨fl, v, h1, h2⟩
      obtain ⟨w, rfl, h3⟩ := (hcont n r hn' fl v).1 h1
      exact ⟨r, fl, w, hn', h3, h2⟩
    · rintro ⟨r', fl, w, h1, h2, h3⟩
      rw [hn'] at h1
      cases h1
      exact ⟨fl, .text w, (hcont n r hn' fl _).2 ⟨w, rfl, h2⟩, h3⟩
  have hrow : ∀ e ∈ rows, ∃ r, (allPosts ds)[num e.2]? = some r ∧ e.2 = key (num e.2) := by
    intro e he
    obtain ⟨n, r, h1, h2⟩ := (hkeys e.2).1 (r3 e he).1
    have : num e.2 = n := by rw [h2]; exact hnk n
    rw [this]
    exact ⟨r, h1, h2⟩
  have hhas' : ∀ c, ∀ e ∈ rows, ((∃ fl v, HasValue content e.2 fl v ∧ ValueIn modelled.1.data fl v c) ↔ has c (num e.2)) := by
    intro c e he
    obtain ⟨r, h1, h2⟩ := hrow e he
    rw [← hhas c (num e.2) r h1, ← h2]
  have hcount : ∀ c, (rows.map (fun e => (e.1, num e.2))).countP (fun e => e.1 = c) = rows.countP (fun e => e.1 = c) := by
    intro c
    rw [List.countP_map]
    rfl
  refine ⟨rows.map (fun e => (e.1, num e.2)), cols, fun e => cells (e.1, key e.2), ?_, ?_, ?_, ?_, r4, ?_, ?_, ?_⟩
  · rw [r1, List.map_map]
    congr 1
    apply List.map_congr_left
    intro e he
    obtain ⟨r, h1, h2⟩ := hrow e he
    simp only [Function.comp]
    rw [← h2]
  · intro e he
    obtain ⟨e', he', rfl⟩ := List.mem_map.1 he
    obtain ⟨r, h1, h2⟩ := hrow e' he'
    obtain ⟨marks, m1, m2⟩ := r0 e' he'
    refine ⟨r, shown e'.2, marks, h1, by rw [h2]; exact hsh3 _ r h1, ?_, m2.imp ?_⟩
    · dsimp only
      rw [← h2, m1]
      refine congrArg₂ _ (congrArg₂ _ ?_ rfl) rfl
      rw [h2, hnk]
      rfl
    · rintro c m (⟨h1, h2⟩ | ⟨h1, h2⟩)
      · exact .inl ⟨h1, (hhas' c e' he').1 h2⟩
      · exact .inr ⟨h1, fun h => h2 ((hhas' c e' he').2 h)⟩
  · rw [List.map_map]
    have : rows.map ((·.2) ∘ fun e => (e.1, num e.2)) = (rows.map (·.2)).map num := by rw [List.map_map]; rfl
    rw [this]
    refine r2.map_on ?_
    intro a ha b hb hab
    obtain ⟨e, he, rfl⟩ := List.mem_map.1 ha
    obtain ⟨e', he', rfl⟩ := List.mem_map.1 hb
    obtain ⟨-, -, h1⟩ := hrow e he
    obtain ⟨-, -, h2⟩ := hrow e' he'
    rw [h1, h2, hab]
  · intro e he
    obtain ⟨e', he', rfl⟩ := List.mem_map.1 he
    exact (hhas' _ e' he').1 (r3 e' he').2
  · intro c
    rw [r5]
    constructor
    · rintro ⟨e, he, h⟩; exact ⟨_, List.mem_map.2 ⟨e, he, rfl⟩, (hhas' c e he).1 h⟩
    · rintro ⟨e, he, h⟩
      obtain ⟨e', he', rfl⟩ := List.mem_map.1 he
      exact ⟨e', he', (hhas' c e' he').2 h⟩
  · intro hk c
    rw [hcount]; exact r6 hk c
  · intro c n h
    rw [hcount]
    obtain ⟨r, fl, w, h1, -⟩ := id h
    rcases r7 c (key n) ((hkeys _).2 ⟨n, r, h1, rfl⟩) ((hhas c n r h1).2 h) with ⟨e, he, h2⟩ | h'
    · exact .inl ⟨_, List.mem_map.2 ⟨e, he, rfl⟩, by rw [h2]; exact hnk n⟩
    · exact .inr h'

/-- What is rendered for the `n`-th question or answer. -/
theorem sites_rendered (t : SX.TextOps) (ds : List (SX.Dump × String)) (hds : SitesReadable t ds) (n : Nat) (e : SitePost)
    (hn : (allPosts ds)[n]? = some e) :
    ∃ fs, SX.renderedFields (Pipeline.addSites ds {}).1 (n + 1) = .ok fs ∧ FieldsShow e.dump e.url e.row fs := by
  obtain ⟨sx, hadd, hst⟩ := addSites_stored ds [] {} stored_nil (by simpa using hds.urls) hds.tidy
  rw [List.nil_append] at hst
  rw [hadd]
  exact (hst.docs hds.tidy hn).2

/-- **C81, pages.** After `add-site` for each dump, `index` and `model`, `stackexchange-corpus serve` shows the clusters of the values
of all sites' posts, and each post on the page of a cluster is the template filled in with what the dump of its own site says. -/
theorem sites_served (t : SX.TextOps) (h0 : t.tokens "" = []) (scan : List SX.Post → List SX.Post)
    (hscan : ∀ l, (scan l).Perm l) (ds : List (SX.Dump × String)) (hds : SitesReadable t ds) (hne : allPosts ds ≠ [])
    (vocabulary : List (String × String))
    (hvoc : ∀ r ∈ allPosts ds, ∀ fl w, SxShows t r.doc fl w → (fl, w) ∈ vocabulary) (hsize : vocabulary.length ≤ 2 ^ 62)
    (cfg : IndexCfg) (s : Schedule) (hf : Fair s) (hno : ∀ i, s.fault i = none) (f : File) (hu : Usable f)
    (luck : Luck Rat) (hscore : luck.score = exactScorer luck.chance) (hshuffle : ∀ l, (luck.shuffle l).Perm l)
    (args : ModelArgs) (confirm : Bool) (hm : f.data.clusters = [] ∨ (args.restart = true ∧ confirm = true))
    (hn : ∀ k, args.clusters = some k → 0 ≤ k) (hit : 1 ≤ args.iterations) (hk : 1 ≤ args.groupTopK) (hmin : 1 ≤ args.minDocs)
    (hfields : args.fields.Nodup)
    (order : List String → List String) (ho : ∀ l, (order l).Perm l)
    (hint : ReadsNumbers int) (v : Visit σ) (hw : FairWeb v.web) (hp : Draws v.web.pick) :
    let docs := (allPosts ds).zipIdx
    let corpus := Pipeline.addSites ds {}
    let indexed := Pipeline.indexSx t scan cfg s corpus.1 f
    let modelled := Pipeline.model luck args confirm indexed.1
    let get := fun url' => follow int (stackExchange t scan order corpus.1) modelled.1 { v with request := .get url' }
    let shows := fun (x : SitePost × Nat) (field : String) (y : Val) => ∃ w, y = .text w ∧ SxShows t x.1.doc field w
    corpus.2 = .ok () ∧ indexed.2 = .ok () ∧ modelled.2 = .done ∧ Servable modelled.1 ∧ Current modelled.1 ∧
    (∀ fl x, (∃ c, ValueIn modelled.1.data fl x c) ↔
      args.minDocs ≤ howMany (fun d => shows d fl x) docs ∧ (args.fields = [] ∨ fl ∈ args.fields)) ∧
    (∀ url n, (get url n).1.data = modelled.1.data) ∧
    ((∃ c fl x, ValueIn modelled.1.data fl x c) → ∃ p L, (get "/index/0" 2).2 = .index p ∧ p.clusters = .plain L ∧
      (L.map (·.1)).Nodup ∧ ∀ c, c ∈ L.map (·.1) ↔ ∃ fl x, ValueIn modelled.1.data fl x c) ∧
    ∃ html : SitePost × Nat → String, (∀ x ∈ docs, (∃ fs, html x = String.ofList (SX.postHtml order fs) ∧ RowShows x.1.dump x.1.url x.1.row (SX.tableRow order fs)) ∧
        (Unmarking x.1.dump x.1.url x.1.row → Finished (html x).toList ∧
          nodes (html x).toList = postNodes x.1.dump x.1.url x.1.row (order (tagsIn x.1.dump (x.1.row.parent.or x.1.row.id))))) ∧
      ∀ c, (∃ fl x, ValueIn modelled.1.data fl x c) → ∃ p, (get ("/index/0/cluster/" ++ toString c) 1).2 = .cluster p ∧
        IsClusterPage shows docs (fun x => .int ((x.2 + 1 : Nat) : Int)) html modelled.1.data c 30 p := by
  intro docs corpus indexed modelled get shows
  obtain ⟨hadd, hs, hi, hkne, hkeys, hcont, -⟩ := sites_corpus t h0 scan hscan ds hds hne id (fun l => .refl _)
  set content := fun k => okOr (SX.indexed t (Pipeline.addSites ds {}).1 k) with hcontent
  have hdoc : ∀ x, x ∈ docs ↔ (allPosts ds)[x.2]? = some x.1 := fun x => List.mem_zipIdx_iff_getElem?
  have hperm : (SX.corpus t scan corpus.1).keys.Perm (docs.map (fun x => Val.int ((x.2 + 1 : Nat) : Int))) := by
    have hnd : (docs.map (fun x => Val.int ((x.2 + 1 : Nat) : Int))).Nodup := by
      have : docs.map (fun x => Val.int ((x.2 + 1 : Nat) : Int)) = (docs.map (·.2)).map (fun n : Nat => Val.int ((n + 1 : Nat) : Int)) := by
        rw [List.map_map]; rfl
      rw [this, show docs.map (·.2) = List.range' 0 (allPosts ds).length from List.zipIdx_map_snd 0 _]
      exact List.Nodup.map (fun a b h => by simpa using h) List.nodup_range'
    rw [List.perm_ext_iff_of_nodup hs.keys hnd]
    intro k
    rw [hkeys]
    simp only [List.mem_map]
    constructor
    · rintro ⟨i, r, h1, rfl⟩; exact ⟨(r, i), (hdoc _).2 h1, rfl⟩
    · rintro ⟨⟨r, i⟩, h1, rfl⟩; exact ⟨i, r, (hdoc _).1 h1, rfl⟩
  have hshows : ∀ x ∈ docs, ∀ fl y, HasValue content (.int ((x.2 + 1 : Nat) : Int)) fl y ↔ shows x fl y := fun x hx fl y =>
    hcont x.2 x.1 ((hdoc x).1 hx) fl y
  have hall : ∀ n : Nat, ∃ fs, ∀ r, (allPosts ds)[n]? = some r → SX.renderedFields corpus.1 (n + 1) = .ok fs ∧
      FieldsShow r.dump r.url r.row fs := by
    intro n
    cases hn' : (allPosts ds)[n]? with
    | none => exact ⟨(⟨0, "", none, none, none, none, none, "", none, none, none, none⟩, [], []), fun r h => by cases h⟩
    | some r =>
      obtain ⟨fs, e1, e2⟩ := sites_rendered t ds hds n r hn'
      refine ⟨fs, fun r' h' => ?_⟩
      cases h'
      exact ⟨e1, e2⟩
  choose g hg using hall
  obtain ⟨a1, a2, a3, a4, a5, a6, a7, a8⟩ := any_served (int := int) hs cfg (hi _) hkne s hf hno f hu
    (vocabulary.map (fun x => (x.1, Val.text x.2))) (by
      intro k hk' fl y hv'
      obtain ⟨i, r, h1, rfl⟩ := (hkeys k).1 hk'
      obtain ⟨w, rfl, h3⟩ := (hcont i r h1 fl y).1 hv'
      exact List.mem_map.2 ⟨(fl, w), hvoc r (List.mem_of_getElem? h1) fl w h3, rfl⟩) (by rw [List.length_map]; exact hsize)
    luck hscore hshuffle args confirm hm hn hit hk hmin hfields hint (SX.corpus t scan corpus.1) (sxHtml order corpus.1)
    (fun k => String.ofList (SX.postHtml order (g ((SX.asKey k).getD 0 - 1)))) (by
      intro ks hks
      unfold sxHtml
      apply mapM_all_ok
      intro k hk'
      obtain ⟨n, r, h1, rfl⟩ := (hkeys k).1 (hks k hk')
      have : SX.asKey (Val.int ((n + 1 : Nat) : Int)) = some (n + 1) := rfl
      rw [this]
      dsimp only
      rw [(hg n r h1).1]
      rfl) v hw hp
  refine ⟨hadd, a1, a2, a3, a4, ?_, a6, a7, fun x => String.ofList (SX.postHtml order (g x.2)), ?_, ?_⟩
  · intro fl x
    rw [← howMany_keys (shows := fun k => HasValue content k fl x) hperm (fun d hd => hshows d hd fl x)]
    exact a5 fl x
  · intro x hx
    have hshow := (hg x.2 x.1 ((hdoc x).1 hx)).2
    refine ⟨⟨g x.2, rfl, rowShows_of_fields hshow order ho⟩, fun hu => ?_⟩
    rw [String.toList_ofList]
    exact post_read hshow hu order ho
  · intro c hc
    obtain ⟨p, p1, p2⟩ := a8 c hc
    exact ⟨p, p1, page_of_keys hperm hshows (fun x _ => rfl) p2⟩

/-! ## Examples -/

/-- A dump of another site that uses the same ids for its post, user and comment. -/
def otherDump : SX.Dump where
  posts := ⟨[{ typeId := some "1", id := some 5, owner := some 1, title := some "U", created := some "2021-01-01", tags := some "<c>" }], none⟩
  comments := ⟨[{ id := some 1, post := some 5, user := some 1, text := some "d" }], none⟩
  users := ⟨[{ id := some 1, name := some "bob" }], none⟩

def twoSites : List (SX.Dump × String) := [(sampleDump, "one"), (otherDump, "two")]

theorem otherDump_tidy : Tidy otherDump where
  posts := rfl
  comments := rfl
  users := rfl
  postIds := by decide +kernel
  commentIds := by decide +kernel
  userIds := by decide +kernel
  postsDistinct := by decide +kernel
  commentsDistinct := by decide +kernel
  usersDistinct := by decide +kernel
  tagsDistinct := by decide +kernel

theorem otherDump_readable : DumpReadable fieldOps otherDump := by
  refine ⟨?_, fun _ _ b _ _ => ⟨([], b), rfl⟩, by decide +kernel⟩
  intro r hr
  have : ∀ r ∈ considered otherDump, r.created ≠ none := by decide +kernel
  obtain ⟨s, hs⟩ := Option.ne_none_iff_exists'.1 (this r hr)
  exact ⟨s, _, hs, rfl, by decide⟩

theorem twoSites_readable : SitesReadable fieldOps twoSites where
  urls := by decide +kernel
  tidy := by
    intro x hx
    rcases List.mem_cons.1 hx with rfl | hx
    · exact sampleDump_tidy
    · rw [List.mem_singleton.1 hx]; exact otherDump_tidy
  readable := by
    intro x hx
    rcases List.mem_cons.1 hx with rfl | hx
    · exact sampleDump_readable
    · rw [List.mem_singleton.1 hx]; exact otherDump_readable

set_option synthInstance.maxSize 4000 in
set_option synthInstance.maxHeartbeats 200000 in
/-- The two sites in one corpus: the post 5 of each has its own tags, author and comments. -/
example : (SX.docs id (Pipeline.addSites twoSites {}).1 none).1.map
      (fun x => (x.1, x.2.url, x.2.id, x.2.tags, x.2.name, x.2.comments)) =
    [(1, "one", some 5, ["a", "b"], "ann", []),
     (2, "one", some 7, ["a", "b"], "<Deleted User>", [("ann", some "c")]),
     (3, "two", some 5, ["c"], "bob", [("bob", some "d")])] := by decide +kernel

/-- A cut-off dump after a good one. -/
example : (Pipeline.addSites [(sampleDump, "one")] {}).2 = .ok () ∧
    (Pipeline.addSite { otherDump with comments := ⟨[], some .valueError⟩ } "two" (Pipeline.addSites [(sampleDump, "one")] {}).1).2 =
      .error .valueError := ⟨rfl, rfl⟩

/-- What the posts of the two sites show, from the features that are indexed for them. -/
def twoVocabulary : List (String × String) :=
  (allPosts twoSites).flatMap (fun r => (okOr (SX.features fieldOps r.doc)).flatMap (fun x =>
    x.2.items.filterMap (fun v => match v with | some (.text w) => some (x.1, w) | _ => none)))

theorem twoVocabulary_covers : ∀ r ∈ allPosts twoSites, ∀ fl w, SxShows fieldOps r.doc fl w → (fl, w) ∈ twoVocabulary := by
  intro r hr fl w h
  obtain ⟨h1, h2, -⟩ := allPosts_mem hr
  obtain ⟨s, dt, e1, e2, e3⟩ := (twoSites_readable.readable _ h1).dates r.row h2
  obtain ⟨g, hg, hg'⟩ := sx_features fieldOps rfl r.doc s dt e1 e2 e3
    (fun b _ _ => ⟨([], b), rfl⟩) (by
      have : ∀ r ∈ allPosts twoSites, ∀ c ∈ r.doc.comments, c.2 ≠ none := by decide +kernel
      exact this r hr)
  obtain ⟨vs, h1, h2⟩ := (hg' fl (.text w)).2 ⟨w, rfl, h⟩
  refine List.mem_flatMap.2 ⟨r, hr, List.mem_flatMap.2 ⟨(fl, vs), by rw [okOr_eq hg]; exact h1, List.mem_filterMap.2 ⟨_, h2, rfl⟩⟩⟩

/-- The whole run on the two sites. -/
example :
    let corpus := Pipeline.addSites twoSites {}
    let indexed := Pipeline.indexSx fieldOps List.reverse ⟨2, 2, true⟩ demoSchedule corpus.1 File.empty
    let modelled := Pipeline.model demoLuck { clusters := some 2, minDocs := 1 } false indexed.1
    (∃ text, (Pipeline.exportClusters id id 0 modelled.1).2 = .ok text) ∧
    (∃ text, (Pipeline.sampleSx List.reverse id (fun _ _ k => List.range k) 1 corpus.1 modelled.1).2 = .ok text) := by
  intro corpus indexed modelled
  constructor
  · obtain ⟨-, -, -, text, h, -⟩ := sites_to_clusters fieldOps rfl List.reverse List.reverse_perm twoSites
      twoSites_readable (by decide +kernel) twoVocabulary twoVocabulary_covers (by decide +kernel) ⟨2, 2, true⟩ demoSchedule
      demo_fair (fun _ => rfl) File.empty (.inl ⟨rfl, rfl, rfl⟩) demoLuck rfl (fun _ => .refl _) { clusters := some 2, minDocs := 1 } false
      (.inl rfl) (by intro k hk; cases hk; decide) (by decide) (by decide) (by decide) (by decide) id (fun _ => .refl _) id (fun _ => .refl _)
    exact ⟨text, h⟩
  · obtain ⟨-, text, h, -⟩ := sites_to_sample fieldOps rfl List.reverse List.reverse_perm twoSites
      twoSites_readable (by decide +kernel) ⟨2, 2, true⟩ demoSchedule
      demo_fair (fun _ => rfl) File.empty (.inl ⟨rfl, rfl, rfl⟩) demoLuck rfl (fun _ => .refl _) { clusters := some 2, minDocs := 1 } false
      (.inl rfl) (by intro k hk; cases hk; decide) (by decide) (by decide) (by decide) List.reverse List.reverse_perm id (fun _ => .refl _)
      (fun _ _ k => List.range k) (fun _ => draws_first) 1
    exact ⟨text, h⟩

/-- The two sites are served: each site is a value of the model; the cluster page of "two" shows at least the post of that site. -/
example (corpus : SX.Db × Except Err Unit) (hcorpus : Pipeline.addSites twoSites {} = corpus)
    (indexed : File × Except Err Unit) (hindexed : Pipeline.indexSx fieldOps List.reverse ⟨2, 2, true⟩ demoSchedule corpus.1 File.empty = indexed)
    (modelled : File × Outcome) (hmodelled : Pipeline.model demoLuck { clusters := some 2, minDocs := 1 } false indexed.1 = modelled) :
    ∃ c p, ValueIn modelled.1.data "Site" (.text "two") c ∧
      (follow readInt (stackExchange fieldOps List.reverse List.reverse corpus.1) modelled.1
        (demoVisit (.get ("/index/0/cluster/" ++ toString c))) 1).2 = .cluster p ∧ 1 ≤ p.total := by
  have main := sites_served (int := readInt) fieldOps rfl List.reverse List.reverse_perm twoSites
    twoSites_readable (by decide +kernel) twoVocabulary twoVocabulary_covers (by decide +kernel) ⟨2, 2, true⟩
    demoSchedule demo_fair (fun _ => rfl) File.empty (.inl ⟨rfl, rfl, rfl⟩) demoLuck rfl (fun _ => .refl _)
    { clusters := some 2, minDocs := 1 } false (.inl rfl) (by intro k hk; cases hk; decide) (by decide) (by decide) (by decide) (by decide)
    List.reverse List.reverse_perm readInt_reads (demoVisit (.get "/")) demoWeb_fair draws_first
  dsimp only at main
  rw [hcorpus, hindexed, hmodelled] at main
  obtain ⟨-, -, -, -, -, hv, -, -, html, -, hc⟩ := main
  have hmem : ((⟨otherDump, "two", 2, (considered otherDump)[0]'(by decide +kernel)⟩, 2) : SitePost × Nat) ∈ (allPosts twoSites).zipIdx := by
    rw [List.mk_mem_zipIdx_iff_getElem?]
    rfl
  have one : ∀ P : SitePost × Nat → Prop, P (⟨otherDump, "two", 2, (considered otherDump)[0]'(by decide +kernel)⟩, 2) →
      1 ≤ howMany P (allPosts twoSites).zipIdx := by
    intro P hP
    rw [howMany, Nat.one_le_iff_ne_zero, ← Nat.pos_iff_ne_zero, List.countP_pos_iff]
    exact ⟨_, hmem, by simpa using hP⟩
  obtain ⟨c, hcs⟩ := (hv "Site" (.text "two")).2 ⟨one _ ⟨"two", rfl, .site⟩, .inl rfl⟩
  obtain ⟨p, p1, -, -, -, p2, -⟩ := hc c ⟨_, _, hcs⟩
  refine ⟨c, p, hcs, p1, ?_⟩
  rw [p2]
  exact one _ ⟨"Site", .text "two", ⟨"two", rfl, .site⟩, hcs⟩

end Hyperreal.Props
