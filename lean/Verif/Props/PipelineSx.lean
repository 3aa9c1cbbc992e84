import Verif.Props.PipelineAny
import Verif.Props.Fields
import Verif.Props.SxRender
import Verif.Spec.PipelineSx

/-!
# From a StackExchange data dump to exported clusters and samples, on the command line (C78)
-/

namespace Hyperreal.Props
open Atomic Spec Cli Migrate

/-- Counting along two lists. -/
theorem howMany_congr {α β : Type} (P : α → Prop) (Q : β → Prop) (l : List α) (m : List β) (hl : l.length = m.length)
    (h : ∀ (i : Nat) a b, l[i]? = some a → m[i]? = some b → (P a ↔ Q b)) : howMany P l = howMany Q m := by
  induction l generalizing m with
  | nil => cases m with
    | nil => rfl
    | cons b m => simp at hl
  | cons a l ih => cases m with
    | nil => simp at hl
    | cons b m =>
      have h1 := ih m (by simpa using hl) (fun i x y hx hy => h (i + 1) x y hx hy)
      have h2 := h 0 a b rfl rfl
      unfold howMany at h1 ⊢
      rw [List.countP_cons, List.countP_cons, h1]
      by_cases hp : P a
      · simp [hp, h2.1 hp]
      · have hq : ¬ Q b := fun hq => hp (h2.2 hq)
        simp [hp, hq]

theorem howMany_perm {α : Type} (P : α → Prop) {l m : List α} (h : l.Perm m) : howMany P l = howMany P m := h.countP_eq _

/-- The corpus of a dump: its keys, what is indexed, and what is rendered. -/
theorem dump_corpus (t : SX.TextOps) (h0 : t.tokens "" = []) (scan : List SX.Post → List SX.Post)
    (hscan : ∀ l, (scan l).Perm l) (d : SX.Dump) (url : String) (hd : Tidy d) (hr : DumpReadable t d) (hne : considered d ≠ [])
    (order : List String → List String) (ho : ∀ l, (order l).Perm l) :
    let sx := (Pipeline.addSite d url {}).1
    let corpus := SX.corpus t scan sx
    let content := fun k => okOr (SX.indexed t sx k)
    let key := fun n : Nat => Val.int ((n + 1 : Nat) : Int)
    (Pipeline.addSite d url {}).2 = .ok () ∧ Serves corpus content ∧ (∀ p, Indexable corpus content p) ∧ corpus.keys ≠ [] ∧
    (∀ k, k ∈ corpus.keys ↔ ∃ n r, (considered d)[n]? = some r ∧ k = key n) ∧
    (∀ n r, (considered d)[n]? = some r → ∀ f v, HasValue content (key n) f v ↔ ∃ w, v = .text w ∧ SxShows t (docFrom d url 1 r) f w) ∧
    ∃ shown : Val → Rendered, (∀ k c, Dict.get? (shown k) (clusterColumn c) = none) ∧
      (∀ ks, (∀ k ∈ ks, k ∈ corpus.keys) → SX.renderValues order sx ks = .ok (ks.map (fun k => (k, shown k)))) ∧
      ∀ n r, (considered d)[n]? = some r → RowShows d url r (shown (key n)) := by
  obtain ⟨sx, k1, hok, hsx, hw, hu, hread, hpne, hpost, hin⟩ := imported_corpus t d url hd hr hne
  have hadd : Pipeline.addSite d url {} = (sx, .ok ()) := by
    unfold Pipeline.addSite
    cases hx : SX.addSiteData (fun _ => none) d url (Conn.fresh {}) with
    | mk c r =>
      rw [hx] at k1 hok
      dsimp only at k1 hok ⊢
      rw [hok]
      congr 1
      exact k1.committed
  rw [hadd]
  intro sx' corpus content key
  obtain ⟨hs, hi, hk⟩ := sx_serves t scan hscan sx hw hread
  have hkeys : ∀ k, k ∈ corpus.keys ↔ ∃ n r, (considered d)[n]? = some r ∧ k = key n := by
    intro k
    rw [show corpus.keys = (SX.corpus t scan sx).keys from rfl, hk]
    constructor
    · rintro ⟨p, hp, rfl⟩
      obtain ⟨n, r, h1, h2⟩ := hpost p hp
      exact ⟨n, r, h1, by rw [h2]⟩
    · rintro ⟨n, r, h1, rfl⟩
      obtain ⟨⟨p, hp, h2⟩, -⟩ := hin n r h1
      exact ⟨p, hp, by rw [h2]⟩
  refine ⟨rfl, hs, hi, ?_, hkeys, ?_, ?_⟩
  · obtain ⟨p, l, hl⟩ := List.exists_cons_of_ne_nil hpne
    exact List.ne_nil_of_mem ((hk _).2 ⟨p, by rw [hl]; simp, rfl⟩)
  · intro n r hn f v
    obtain ⟨⟨p, hp, h2⟩, hdoc⟩ := hin n r hn
    obtain ⟨doc, e1, -, e3⟩ := sx_content t h0 sx hw hu hread p hp
    rw [h2] at e1 e3
    rw [hdoc] at e1
    cases e1
    exact e3 f v
  · have hall : ∀ n : Nat, ∃ fs, ∀ r, (considered d)[n]? = some r → SX.renderedFields sx (n + 1) = .ok fs ∧
        RowShows d url r (SX.tableRow order fs) := by
      intro n
      cases hn : (considered d)[n]? with
      | none => exact ⟨(⟨0, "", none, none, none, none, none, "", none, none, none, none⟩, [], []), fun r h => by cases h⟩
      | some r =>
        obtain ⟨fs, e1, e2⟩ := fresh_rendered d url hd n r hn
        refine ⟨fs, fun r' h' => ?_⟩
        cases h'
        rw [hsx]
        exact ⟨e1, e2 order ho⟩
    choose g hg using hall
    refine ⟨fun k => SX.tableRow order (g ((SX.asKey k).getD 0 - 1)), ?_, ?_, ?_⟩
    · intro k c
      rw [Dict.get?_eq_none]
      intro hm
      exact tableField_ne_column (tableRow_keys order _ hm) c rfl
    · intro ks hks
      unfold SX.renderValues
      apply mapM_all_ok
      intro k hk'
      obtain ⟨n, r, h1, rfl⟩ := (hkeys k).1 (hks k hk')
      have : SX.asKey (key n) = some (n + 1) := rfl
      rw [this]
      dsimp only
      rw [show sx' = sx from rfl, (hg n r h1).1]
      rfl
    · intro n r hn
      exact (hg n r hn).2

/-- **C78, clusters.** `stackexchange-corpus add-site` on a tidy, readable dump and a new corpus file, `stackexchange-corpus
index`, `model` (making a new model with `--min-docs` at least 1, of all fields or of the fields given) and `export clusters
--top-k-features 0` all succeed, whatever the tokeniser, the batch size, the workers, the shuffle and the draws.  The file
they leave, read back, has exactly one row for every value of every chosen field that at least `--min-docs` of the questions
and answers of the dump show, with the field, the value, the number of those posts and the cluster the value is in. -/
theorem dump_to_clusters (t : SX.TextOps) (h0 : t.tokens "" = []) (scan : List SX.Post → List SX.Post)
    (hscan : ∀ l, (scan l).Perm l) (d : SX.Dump) (url : String) (hd : Tidy d) (hr : DumpReadable t d) (hne : considered d ≠ [])
    (vocabulary : List (String × String))
    (hvoc : ∀ r ∈ considered d, ∀ fl w, SxShows t (docFrom d url 1 r) fl w → (fl, w) ∈ vocabulary) (hsize : vocabulary.length ≤ 2 ^ 62)
    (cfg : IndexCfg) (s : Schedule) (hf : Fair s) (hno : ∀ i, s.fault i = none) (f : File) (hu : Usable f)
    (luck : Luck Rat) (hscore : luck.score = exactScorer luck.chance) (hshuffle : ∀ l, (luck.shuffle l).Perm l)
    (args : ModelArgs) (confirm : Bool) (hm : f.data.clusters = [] ∨ (args.restart = true ∧ confirm = true))
    (hn : ∀ k, args.clusters = some k → 0 ≤ k) (hit : 1 ≤ args.iterations) (hk : 1 ≤ args.groupTopK) (hmin : 1 ≤ args.minDocs)
    (hfields : args.fields.Nodup)
    (visitC : List ClusterRow → List ClusterRow) (hvC : AnyOrder visitC) (visit : List Listed → List Listed) (hv : AnyOrder visit) :
    let corpus := Pipeline.addSite d url {}
    let indexed := Pipeline.indexSx t scan cfg s corpus.1 f
    let modelled := Pipeline.model luck args confirm indexed.1
    let exported := Pipeline.exportClusters visitC visit 0 modelled.1
    let n : Int := if args.clusters = none ∨ args.clusters = some 0 then 64 else args.clusters.getD 0
    corpus.2 = .ok () ∧ indexed.2 = .ok () ∧ modelled.2 = .done ∧
    ∃ text, exported.2 = .ok text ∧ ∃ L, ∀ limit, L ≤ limit →
      ∃ rows : List (Int × Nat × String × String × Nat),
        Csv.read limit false {} text = .ok ["cluster_id", "feature_id", "field", "value", "docs_count"] ::
          rows.map (fun r => .ok [toString r.1, toString r.2.1, r.2.2.1, r.2.2.2.1, toString r.2.2.2.2]) ∧
        (rows.map (fun r => (r.2.2.1, r.2.2.2.1))).Nodup ∧
        (∀ fl w m, (∃ c i, (c, i, fl, w, m) ∈ rows) ↔
          m = postsWith t d url fl w ∧ args.minDocs ≤ m ∧ (args.fields = [] ∨ fl ∈ args.fields)) ∧
        (∀ fl w c, (∃ i m, (c, i, fl, w, m) ∈ rows) ↔ ValueIn modelled.1.data fl (.text w) c) ∧
        (args.minFeatures = 1 → n ≤ rows.length → ∀ c, (∃ r ∈ rows, r.1 = c) ↔ 0 ≤ c ∧ c < n) := by
  intro corpus indexed modelled exported n
  obtain ⟨hadd, hs, hi, hkne, hkeys, hcont, -⟩ := dump_corpus t h0 scan hscan d url hd hr hne id (fun l => .refl _)
  set content := fun k => okOr (SX.indexed t (Pipeline.addSite d url {}).1 k) with hcontent
  have hval : ∀ k ∈ (SX.corpus t scan corpus.1).keys, ∀ fl v, HasValue content k fl v →
      ∃ r ∈ considered d, ∃ w, v = .text w ∧ SxShows t (docFrom d url 1 r) fl w := by
    intro k hk' fl v hv'
    obtain ⟨i, r, h1, rfl⟩ := (hkeys k).1 hk'
    obtain ⟨w, h2, h3⟩ := (hcont i r h1 fl v).1 hv'
    exact ⟨r, List.mem_of_getElem? h1, w, h2, h3⟩
  have hperm : (SX.corpus t scan corpus.1).keys.Perm ((List.range (considered d).length).map (fun n : Nat => Val.int ((n + 1 : Nat) : Int))) := by
    rw [List.perm_ext_iff_of_nodup hs.keys (List.nodup_range.map (fun a b h => by simpa using h))]
    intro k
    rw [hkeys]
    simp only [List.mem_map, List.mem_range]
    constructor
    · rintro ⟨i, r, h1, rfl⟩; exact ⟨i, (List.getElem?_eq_some_iff.1 h1).1, rfl⟩
    · rintro ⟨i, h1, rfl⟩; exact ⟨i, _, List.getElem?_eq_getElem h1, rfl⟩
  have hmany : ∀ fl w, howMany (fun k => HasValue content k fl (.text w)) (SX.corpus t scan corpus.1).keys = postsWith t d url fl w := by
    intro fl w
    rw [howMany_perm _ hperm]
    refine howMany_congr _ _ _ _ (by simp) ?_
    intro i a b ha hb
    rw [List.getElem?_map, List.getElem?_range (List.getElem?_eq_some_iff.1 hb).1] at ha
    simp only [Option.map_some, Option.some.injEq] at ha
    rw [← ha]
    refine (hcont i b hb fl (.text w)).trans ?_
    constructor
    · rintro ⟨w', h1, h2⟩; cases h1; exact h2
    · intro h; exact ⟨w, rfl, h⟩
  obtain ⟨a1, a2, text, a3, L, a4⟩ := any_to_clusters hs cfg (hi _) hkne s hf hno f hu
    (vocabulary.map (fun x => (x.1, Val.text x.2))) (by
      intro k hk' fl v hv'
      obtain ⟨r, h1, w, rfl, h3⟩ := hval k hk' fl v hv'
      exact List.mem_map.2 ⟨(fl, w), hvoc r h1 fl w h3, rfl⟩) (by rw [List.length_map]; exact hsize)
    luck hscore hshuffle args confirm hm hn hit hk hmin hfields visitC hvC visit hv
  refine ⟨hadd, a1, a2, text, a3, L, fun limit hl => ?_⟩
  obtain ⟨rows, b1, b2, b3, b4, b5⟩ := a4 limit hl
  have htext : ∀ e ∈ rows, e.2.2.2.1 = .text (written e.2.2.2.1) := by
    rintro ⟨c, i, fl, v, m⟩ he
    obtain ⟨h1, h2, -⟩ := (b3 fl v m).1 ⟨c, i, he⟩
    have hpos : 0 < howMany (fun k => HasValue content k fl v) (SX.corpus t scan corpus.1).keys := by
      have : m = howMany (fun k => HasValue content k fl v) (SX.corpus t scan corpus.1).keys := h1
      omega
    rw [howMany, List.countP_pos_iff] at hpos
    obtain ⟨k, hk1, hk2⟩ := hpos
    obtain ⟨-, -, w, h3, -⟩ := hval k hk1 fl v (by simpa using hk2)
    subst h3
    rfl
  have hmem : ∀ c i fl w m, (c, i, fl, w, m) ∈ rows.map (fun e => (e.1, e.2.1, e.2.2.1, written e.2.2.2.1, e.2.2.2.2)) ↔
      (c, i, fl, Val.text w, m) ∈ rows := by
    intro c i fl w m
    simp only [List.mem_map, Prod.mk.injEq]
    constructor
    · rintro ⟨⟨c', i', fl', v, m'⟩, he, rfl, rfl, rfl, rfl, rfl⟩
      have := htext _ he
      dsimp only at this ⊢
      rw [← this]; exact he
    · intro h; exact ⟨_, h, rfl, rfl, rfl, rfl, rfl⟩
  refine ⟨rows.map (fun e => (e.1, e.2.1, e.2.2.1, written e.2.2.2.1, e.2.2.2.2)), ?_, ?_, ?_, ?_, ?_⟩
  · rw [b1, List.map_map]; rfl
  · rw [List.map_map]
    refine List.Nodup.map_on ?_ (List.Nodup.of_map _ b2)
    intro x hx y hy hxy
    simp only [Function.comp, Prod.mk.injEq] at hxy
    refine List.inj_on_of_nodup_map b2 hx hy ?_
    rw [Prod.mk.injEq, htext x hx, htext y hy, hxy.2]
    exact ⟨hxy.1, rfl⟩
  · intro fl w m
    simp only [hmem]
    rw [b3, ← hmany]
  · intro fl w c
    simp only [hmem]
    exact b4 fl (.text w) c
  · intro h1 h2 c
    rw [List.length_map] at h2
    rw [← b5 h1 h2 c]
    simp only [List.mem_map, exists_exists_and_eq_and]

/-- **C78, sample.** After the commands of `dump_to_clusters`, `stackexchange-corpus sample --docs-per-cluster k` succeeds, and the
file it leaves, read back, has one row for every sampled question or answer of the dump: its number, the cluster it was
sampled for, what the dump says about it (`RowShows`: site, id, author, license, kind, body, question, link, tags, comments),
and a mark under each cluster that has one of its values.  No post is sampled twice, only for a cluster that has one of its
values; there are at most `k` rows for a cluster, and every post with a value in a cluster is there unless that cluster has
its `k` rows (`k ≤ 0`: all of them are there).  The model does not change. -/
theorem dump_to_sample (t : SX.TextOps) (h0 : t.tokens "" = []) (scan : List SX.Post → List SX.Post)
    (hscan : ∀ l, (scan l).Perm l) (d : SX.Dump) (url : String) (hd : Tidy d) (hr : DumpReadable t d) (hne : considered d ≠ [])
    (cfg : IndexCfg) (s : Schedule) (hf : Fair s) (hno : ∀ i, s.fault i = none) (f : File) (hu : Usable f)
    (luck : Luck Rat) (hscore : luck.score = exactScorer luck.chance) (hshuffle : ∀ l, (luck.shuffle l).Perm l)
    (args : ModelArgs) (confirm : Bool) (hm : f.data.clusters = [] ∨ (args.restart = true ∧ confirm = true))
    (hn : ∀ k, args.clusters = some k → 0 ≤ k) (hit : 1 ≤ args.iterations) (hk : 1 ≤ args.groupTopK)
    (hfields : args.fields.Nodup) (order : List String → List String) (ho : ∀ l, (order l).Perm l)
    (visitC : List ClusterRow → List ClusterRow) (hv : AnyOrder visitC)
    (pick : Int → Nat → Nat → List Nat) (hp : ∀ c, Draws (pick c)) (k : Int) :
    let corpus := Pipeline.addSite d url {}
    let indexed := Pipeline.indexSx t scan cfg s corpus.1 f
    let modelled := Pipeline.model luck args confirm indexed.1
    let sampled := Pipeline.sampleSx order visitC pick k corpus.1 modelled.1
    let has := PostIn t d url modelled.1.data
    let names := ["site_url", "Id", "OwnerUserId", "DisplayName", "ContentLicense", "PostType", "Body", "ParentId", "QuestionTitle", "LiveLink", "tags", "comments"]
    sampled.1.data = modelled.1.data ∧
    ∃ text, sampled.2 = .ok text ∧ ∃ L, ∀ limit, L ≤ limit →
      ∃ (rows : List (Int × Nat)) (cols : List Int) (cells : Int × Nat → List String),
        Csv.read limit false {} text = .ok (["doc_key", "sampled_cluster"] ++ names ++ cols.map clusterColumn) ::
          rows.map (fun e => .ok (cells e)) ∧
        (∀ e ∈ rows, ∃ r row marks, (considered d)[e.2]? = some r ∧ RowShows d url r row ∧
          cells e = [toString (e.2 + 1), toString e.1] ++ names.map (fun n => cellWritten (Dict.get? row n)) ++ marks ∧
          List.Forall₂ (fun c m => (m = "1" ∧ has c e.2) ∨ (m = "" ∧ ¬ has c e.2)) cols marks) ∧
        (rows.map (·.2)).Nodup ∧ (∀ e ∈ rows, has e.1 e.2) ∧
        cols.Pairwise (· < ·) ∧ (∀ c, c ∈ cols ↔ ∃ e ∈ rows, has c e.2) ∧
        (0 < k → ∀ c, (rows.countP (fun e => e.1 = c) : Int) ≤ k) ∧
        (∀ c n, has c n → (∃ e ∈ rows, e.2 = n) ∨ (0 < k ∧ (rows.countP (fun e => e.1 = c) : Int) = k)) := by
  intro corpus indexed modelled sampled has names
  obtain ⟨hadd, hs, hi, hkne, hkeys, hcont, shown, hsh1, hsh2, hsh3⟩ := dump_corpus t h0 scan hscan d url hd hr hne order ho
  set content := fun k => okOr (SX.indexed t (Pipeline.addSite d url {}).1 k) with hcontent
  obtain ⟨a1, text, a2, L, a3⟩ := any_to_sample hs cfg (hi _) hkne s hf hno f hu luck hscore hshuffle args confirm hm hn hit hk hfields
    (SX.renderValues order corpus.1) shown SX.tableFields hsh2 (by
      intro n hn'
      have : ∀ f ∈ SX.tableFields, f ≠ "doc_key" ∧ f ≠ "sampled_cluster" := by decide +kernel
      exact ⟨(this n hn').1, (this n hn').2, fun c => tableField_ne_column (by simp [hn']) c⟩) hsh1 visitC hv pick hp k
  refine ⟨a1, text, a2, L, fun limit hl => ?_⟩
  obtain ⟨rows, cols, cells, r1, r0, r2, r3, r4, r5, r6, r7⟩ := a3 limit hl
  set key := fun n : Nat => Val.int ((n + 1 : Nat) : Int) with hkey
  set num : Val → Nat := fun v => (SX.asKey v).getD 0 - 1 with hnum
  have hnk : ∀ n, num (key n) = n := fun n => by
    show (some (n + 1)).getD 0 - 1 = n
    simp
  have hhas : ∀ c n r, (considered d)[n]? = some r →
      ((∃ fl v, HasValue content (key n) fl v ∧ ValueIn modelled.1.data fl v c) ↔ has c n) := by
    intro c n r hn'
    constructor
    · rintro ⟨fl, v, h1, h2⟩
      obtain ⟨w, rfl, h3⟩ := (hcont n r hn' fl v).1 h1
      exact ⟨r, fl, w, hn', h3, h2⟩
    · rintro ⟨r', fl, w, h1, h2, h3⟩
      rw [hn'] at h1
      cases h1
      exact ⟨fl, .text w, (hcont n r hn' fl _).2 ⟨w, rfl, h2⟩, h3⟩
  have hrow : ∀ e ∈ rows, ∃ r, (considered d)[num e.2]? = some r ∧ e.2 = key (num e.2) := by
    intro e he
    obtain ⟨n, r, h1, h2⟩ := (hkeys e.2).1 (r3 e he).1
    have : num e.2 = n := by rw [h2]; exact hnk n
    rw [this]
    exact ⟨r, h1, h2⟩
  have hhas' : ∀ c, ∀ e ∈ rows, ((∃ fl v, HasValue content e.2 fl v ∧ ValueIn modelled.1.data fl v c) ↔ has c (num e.2)) := by
    intro c e he
    obtain ⟨r, h1, h2⟩ := hrow e he
    rw [← hhas c (num e.2) r h1, ← h2]
  have hcount : ∀ c, (rows.map (fun e => (e.1, num e.2))).countP (fun e => e.1 = c) = rows.countP (fun e => e.1 = c) := by
    intro c
    rw [List.countP_map]
    rfl
  refine ⟨rows.map (fun e => (e.1, num e.2)), cols, fun e => cells (e.1, key e.2), ?_, ?_, ?_, ?_, r4, ?_, ?_, ?_⟩
  · rw [r1, List.map_map]
    congr 1
    apply List.map_congr_left
    intro e he
    obtain ⟨r, h1, h2⟩ := hrow e he
    simp only [Function.comp]
    rw [← h2]
  · intro e he
    obtain ⟨e', he', rfl⟩ := List.mem_map.1 he
    obtain ⟨r, h1, h2⟩ := hrow e' he'
    obtain ⟨marks, m1, m2⟩ := r0 e' he'
    refine ⟨r, shown e'.2, marks, h1, by rw [h2]; exact hsh3 _ r h1, ?_, m2.imp ?_⟩
    · dsimp only
      rw [← h2, m1]
      refine congrArg₂ _ (congrArg₂ _ ?_ rfl) rfl
      rw [h2, hnk]
      rfl
    · rintro c m (⟨h1, h2⟩ | ⟨h1, h2⟩)
      · exact .inl ⟨h1, (hhas' c e' he').1 h2⟩
      · exact .inr ⟨h1, fun h => h2 ((hhas' c e' he').2 h)⟩
  · rw [List.map_map]
    have : rows.map ((·.2) ∘ fun e => (e.1, num e.2)) = (rows.map (·.2)).map num := by rw [List.map_map]; rfl
    rw [this]
    refine r2.map_on ?_
    intro a ha b hb hab
    obtain ⟨e, he, rfl⟩ := List.mem_map.1 ha
    obtain ⟨e', he', rfl⟩ := List.mem_map.1 hb
    obtain ⟨-, -, h1⟩ := hrow e he
    obtain ⟨-, -, h2⟩ := hrow e' he'
    rw [h1, h2, hab]
  · intro e he
    obtain ⟨e', he', rfl⟩ := List.mem_map.1 he
    exact (hhas' _ e' he').1 (r3 e' he').2
  · intro c
    rw [r5]
    constructor
    · rintro ⟨e, he, h⟩; exact ⟨_, List.mem_map.2 ⟨e, he, rfl⟩, (hhas' c e he).1 h⟩
    · rintro ⟨e, he, h⟩
      obtain ⟨e', he', rfl⟩ := List.mem_map.1 he
      exact ⟨e', he', (hhas' c e' he').2 h⟩
  · intro hk c
    rw [hcount]; exact r6 hk c
  · intro c n h
    rw [hcount]
    obtain ⟨r, fl, w, h1, -⟩ := id h
    rcases r7 c (key n) ((hkeys _).2 ⟨n, r, h1, rfl⟩) ((hhas c n r h1).2 h) with ⟨e, he, h2⟩ | h'
    · exact .inl ⟨_, List.mem_map.2 ⟨e, he, rfl⟩, by rw [h2]; exact hnk n⟩
    · exact .inr h'

/-- **C78, tweets.** `twittersphere-corpus index` on a readable collection of the version the program knows, `model` and `export
clusters --top-k-features 0` succeed (with positions: if no tweet misses anything), and the file they leave, read back, has
exactly one row for every value of every chosen field that at least `--min-docs` of the directly collected tweets show. -/
theorem tweets_to_clusters (t : TW.TextOps) (tw : TW.Db) (hr : TwReadable t tw) (hver : ∃ v, tw.version = some v ∧ 15 ≤ v)
    (hne : tw.direct ≠ []) (vocabulary : List (String × Val))
    (hvoc : ∀ x ∈ collected tw, ∀ fl v, TwShows t tw x fl v → (fl, v) ∈ vocabulary) (hsize : vocabulary.length ≤ 2 ^ 62)
    (cfg : IndexCfg) (hpos : cfg.positions = true → ∀ x ∈ collected tw, NothingMissing tw x)
    (s : Schedule) (hf : Fair s) (hno : ∀ i, s.fault i = none) (f : File) (hu : Usable f)
    (luck : Luck Rat) (hscore : luck.score = exactScorer luck.chance) (hshuffle : ∀ l, (luck.shuffle l).Perm l)
    (args : ModelArgs) (confirm : Bool) (hm : f.data.clusters = [] ∨ (args.restart = true ∧ confirm = true))
    (hn : ∀ k, args.clusters = some k → 0 ≤ k) (hit : 1 ≤ args.iterations) (hk : 1 ≤ args.groupTopK) (hmin : 1 ≤ args.minDocs)
    (hfields : args.fields.Nodup)
    (visitC : List ClusterRow → List ClusterRow) (hvC : AnyOrder visitC) (visit : List Listed → List Listed) (hv : AnyOrder visit) :
    let indexed := Pipeline.indexTw t cfg s tw f
    let modelled := Pipeline.model luck args confirm indexed.1
    let exported := Pipeline.exportClusters visitC visit 0 modelled.1
    let n : Int := if args.clusters = none ∨ args.clusters = some 0 then 64 else args.clusters.getD 0
    indexed.2 = .ok () ∧ modelled.2 = .done ∧
    ∃ text, exported.2 = .ok text ∧ ∃ L, ∀ limit, L ≤ limit →
      ∃ rows : List (Int × Nat × String × Val × Nat),
        Csv.read limit false {} text = .ok ["cluster_id", "feature_id", "field", "value", "docs_count"] ::
          rows.map (fun r => .ok [toString r.1, toString r.2.1, r.2.2.1, written r.2.2.2.1, toString r.2.2.2.2]) ∧
        (rows.map (fun r => (r.2.2.1, r.2.2.2.1))).Nodup ∧
        (∀ fl v m, (∃ c i, (c, i, fl, v, m) ∈ rows) ↔
          m = tweetsWith t tw fl v ∧ args.minDocs ≤ m ∧ (args.fields = [] ∨ fl ∈ args.fields)) ∧
        (∀ fl v c, (∃ i m, (c, i, fl, v, m) ∈ rows) ↔ ValueIn modelled.1.data fl v c) ∧
        (args.minFeatures = 1 → n ≤ rows.length → ∀ c, (∃ r ∈ rows, r.1 = c) ↔ 0 ≤ c ∧ c < n) := by
  intro indexed modelled exported n
  obtain ⟨hs, hkeys⟩ := tw_serves t tw hr
  set content := fun k => okOr (TW.indexed t tw k) with hcontent
  have hshow : ∀ x ∈ collected tw, ∀ fl v, HasValue content (.int x.id) fl v ↔ TwShows t tw x fl v := by
    intro x hx fl v
    obtain ⟨g, hg, hg'⟩ := tw_shows t tw hr x (List.mem_filter.1 hx).1
    rw [← hg' fl v, HasValue]
    show (∃ vs, (fl, vs) ∈ okOr (TW.indexed t tw (.int x.id)) ∧ _) ↔ _
    rw [okOr_eq hg]
  have hkey : ∀ k, k ∈ (TW.corpus t tw).keys ↔ ∃ x ∈ collected tw, k = .int x.id := by
    intro k
    rw [hkeys]
    constructor
    · rintro ⟨x, h1, h2, rfl⟩; exact ⟨x, List.mem_filter.2 ⟨h1, by simpa using h2⟩, rfl⟩
    · rintro ⟨x, h1, rfl⟩
      obtain ⟨h2, h3⟩ := List.mem_filter.1 h1
      exact ⟨x, h2, by simpa using h3, rfl⟩
  have hkne : (TW.corpus t tw).keys ≠ [] := by
    obtain ⟨i, l, e⟩ := List.exists_cons_of_ne_nil hne
    have hi : i ∈ tw.direct := by rw [e]; simp
    obtain ⟨x, hx, rfl⟩ := hr.stored i hi
    exact List.ne_nil_of_mem ((hkeys _).2 ⟨x, hx, hi, rfl⟩)
  have hi : Indexable (TW.corpus t tw) content cfg.positions := by
    refine (tw_indexable t tw hr cfg.positions).2 ?_
    rintro h i hi' x hx rfl
    exact hpos h x (List.mem_filter.2 ⟨hx, by simpa using hi'⟩)
  have hperm : (TW.corpus t tw).keys.Perm ((collected tw).map (fun x => Val.int x.id)) := by
    rw [List.perm_ext_iff_of_nodup hs.keys (by
      have : ((collected tw).map (fun x => Val.int x.id)) = ((collected tw).map (·.id)).map (fun i : Nat => Val.int i) := by
        rw [List.map_map]; rfl
      rw [this]
      exact (hr.tweetIds.sublist (List.Sublist.map _ List.filter_sublist)).map (fun a b h => by simpa using h))]
    intro k
    rw [hkey]
    simp only [List.mem_map, eq_comm]
  have hmany : ∀ fl v, howMany (fun k => HasValue content k fl v) (TW.corpus t tw).keys = tweetsWith t tw fl v := by
    intro fl v
    rw [howMany_perm _ hperm, howMany, List.countP_map, tweetsWith, howMany]
    apply List.countP_congr
    intro x hx
    simp [hshow x hx fl v]
  have hindexed : indexed = Pipeline.onIndex f (indexCall (TW.corpus t tw) cfg s) := by
    show Pipeline.indexTw t cfg s tw f = _
    rw [Pipeline.indexTw, (twittersphere_opens_iff tw).2 hver]
  have main := any_to_clusters hs cfg hi hkne s hf hno f hu vocabulary (by
      intro k hk' fl v hv'
      obtain ⟨x, hx, rfl⟩ := (hkey k).1 hk'
      exact hvoc x hx fl v ((hshow x hx fl v).1 hv')) hsize
    luck hscore hshuffle args confirm hm hn hit hk hmin hfields visitC hvC visit hv
  simp only [hmany] at main
  rw [← hindexed] at main
  exact main

/-! ## Examples -/

theorem sampleDump_readable : DumpReadable fieldOps sampleDump := by
  refine ⟨?_, fun _ _ b _ _ => ⟨([], b), rfl⟩, by decide +kernel⟩
  intro r hr
  have : ∀ r ∈ considered sampleDump, r.created ≠ none := by decide +kernel
  obtain ⟨s, hs⟩ := Option.ne_none_iff_exists'.1 (this r hr)
  exact ⟨s, _, hs, rfl, by decide⟩

/-- What the posts of the sample dump show, from the features that are indexed for them. -/
def sampleVocabulary : List (String × String) :=
  (considered sampleDump).flatMap (fun r => (okOr (SX.features fieldOps (docFrom sampleDump "site" 1 r))).flatMap (fun x =>
    x.2.items.filterMap (fun v => match v with | some (.text w) => some (x.1, w) | _ => none)))

theorem sampleVocabulary_covers : ∀ r ∈ considered sampleDump, ∀ fl w, SxShows fieldOps (docFrom sampleDump "site" 1 r) fl w →
    (fl, w) ∈ sampleVocabulary := by
  intro r hr fl w h
  obtain ⟨s, dt, e1, e2, e3⟩ := sampleDump_readable.dates r hr
  obtain ⟨g, hg, hg'⟩ := sx_features fieldOps rfl (docFrom sampleDump "site" 1 r) s dt e1 e2 e3
    (fun b _ _ => ⟨([], b), rfl⟩) (by
      have : ∀ r ∈ considered sampleDump, ∀ c ∈ (docFrom sampleDump "site" 1 r).comments, c.2 ≠ none := by decide +kernel
      exact this r hr)
  obtain ⟨vs, h1, h2⟩ := (hg' fl (.text w)).2 ⟨w, rfl, h⟩
  refine List.mem_flatMap.2 ⟨r, hr, List.mem_flatMap.2 ⟨(fl, vs), by rw [okOr_eq hg]; exact h1, List.mem_filterMap.2 ⟨_, h2, rfl⟩⟩⟩

/-- The whole run on the sample dump (a question, and an answer with a comment): the posts share a site, so that value gets a row
with the count 2; two clusters are asked for. -/
example :
    let corpus := Pipeline.addSite sampleDump "site" {}
    let indexed := Pipeline.indexSx fieldOps List.reverse ⟨2, 2, true⟩ demoSchedule corpus.1 File.empty
    let modelled := Pipeline.model demoLuck { clusters := some 2, minDocs := 1 } false indexed.1
    (∃ text, (Pipeline.exportClusters id id 0 modelled.1).2 = .ok text) ∧
    (∃ text, (Pipeline.sampleSx List.reverse id (fun _ _ k => List.range k) 1 corpus.1 modelled.1).2 = .ok text) := by
  intro corpus indexed modelled
  constructor
  · obtain ⟨-, -, -, text, h, -⟩ := dump_to_clusters fieldOps rfl List.reverse List.reverse_perm sampleDump "site" sampleDump_tidy
      sampleDump_readable (by decide +kernel) sampleVocabulary sampleVocabulary_covers (by decide +kernel) ⟨2, 2, true⟩ demoSchedule
      demo_fair (fun _ => rfl) File.empty (.inl ⟨rfl, rfl, rfl⟩) demoLuck rfl (fun _ => .refl _) { clusters := some 2, minDocs := 1 } false
      (.inl rfl) (by intro k hk; cases hk; decide) (by decide) (by decide) (by decide) (by decide) id (fun _ => .refl _) id (fun _ => .refl _)
    exact ⟨text, h⟩
  · obtain ⟨-, text, h, -⟩ := dump_to_sample fieldOps rfl List.reverse List.reverse_perm sampleDump "site" sampleDump_tidy
      sampleDump_readable (by decide +kernel) ⟨2, 2, true⟩ demoSchedule
      demo_fair (fun _ => rfl) File.empty (.inl ⟨rfl, rfl, rfl⟩) demoLuck rfl (fun _ => .refl _) { clusters := some 2, minDocs := 1 } false
      (.inl rfl) (by intro k hk; cases hk; decide) (by decide) (by decide) (by decide) List.reverse List.reverse_perm id (fun _ => .refl _)
      (fun _ _ k => List.range k) (fun _ => draws_first) 1
    exact ⟨text, h⟩

/-- Both posts of the sample dump show the site; the question shows its title. -/
example : postsWith fieldOps sampleDump "site" "Site" "site" = 2 ∧ 1 ≤ postsWith fieldOps sampleDump "site" "Post" "T" := by
  constructor
  · rw [postsWith, howMany, List.countP_eq_length.2 (fun r _ => by simpa using .site)]
    decide +kernel
  · rw [postsWith, howMany, Nat.one_le_iff_ne_zero, ← Nat.pos_iff_ne_zero, List.countP_pos_iff]
    refine ⟨(considered sampleDump)[0]'(by decide +kernel), List.getElem_mem _, ?_⟩
    simp only [decide_eq_true_eq]
    exact .title "T" "T" (by decide +kernel) (by decide +kernel)

/-- The collection of two linked tweets meets the hypotheses of `tweets_to_clusters`; both show their author. -/
theorem linkedTweets_indexable : TwReadable twOps linkedTweets ∧ (∃ v, linkedTweets.version = some v ∧ 15 ≤ v) ∧ linkedTweets.direct ≠ [] ∧
    (∀ x ∈ collected linkedTweets, NothingMissing linkedTweets x) ∧ (collected linkedTweets).map (·.id) = [1, 2] ∧
    (∃ vocabulary : List (String × Val), vocabulary.length ≤ 2 ^ 62 ∧
      ∀ x ∈ collected linkedTweets, ∀ fl v, TwShows twOps linkedTweets x fl v → (fl, v) ∈ vocabulary) ∧
    ∀ x ∈ collected linkedTweets, ∃ n, TwShows twOps linkedTweets x "by" (.text n) := by
  have hr : TwReadable twOps linkedTweets := linkedTweets_readable [2, 1] (by decide) (by decide)
  have hall : ∀ x ∈ collected linkedTweets, ∃ u ∈ linkedTweets.usersLatest, u.user = x.user ∧ u.name ≠ none := by decide +kernel
  refine ⟨hr, ⟨15, rfl, le_refl _⟩, by decide, ?_, by decide +kernel, ?_, ?_⟩
  · unfold NothingMissing AuthorKnown
    decide +kernel
  · refine ⟨(collected linkedTweets).flatMap (fun x => (okOr (TW.indexed twOps linkedTweets (.int x.id))).flatMap (fun y =>
      y.2.items.filterMap (fun v => v.map (fun w => (y.1, w))))), by decide +kernel, ?_⟩
    intro x hx fl v h
    obtain ⟨g, hg, hg'⟩ := tw_shows twOps linkedTweets hr x (List.mem_filter.1 hx).1
    obtain ⟨vs, h1, h2⟩ := (hg' fl v).2 h
    exact List.mem_flatMap.2 ⟨x, hx, List.mem_flatMap.2 ⟨(fl, vs), by rw [okOr_eq hg]; exact h1, List.mem_filterMap.2 ⟨_, h2, rfl⟩⟩⟩
  · intro x hx
    obtain ⟨u, h1, h2, h3⟩ := hall x hx
    obtain ⟨n, hn⟩ := Option.ne_none_iff_exists'.1 h3
    exact ⟨n, .author u n h1 h2 hn⟩

end Hyperreal.Props
