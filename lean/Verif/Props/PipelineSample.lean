import Verif.Props.Pipeline

/-!
# Exporting a sample of documents on the command line (C65)
-/

namespace Hyperreal.Props
open Atomic Spec Cli Migrate

theorem clusterColumn_ne_text (a : Int) : clusterColumn a ≠ "text" := by
  intro h
  have h2 := congrArg String.toList h
  have : clusterColumn a = "cluster_" ++ toString a := by simp [clusterColumn]; rfl
  rw [this, String.toList_append] at h2
  simp at h2

theorem numbered_lookup (docs : List String) (d : Nat) (x : String) (h : docs[d]? = some x) :
    PlainText.docOf (some (numbered docs)) (d + 1) = .ok x := by
  have hmem : (d + 1, x) ∈ (numbered docs).filter (fun r => r.1 = d + 1) := by
    rw [List.mem_filter]
    refine ⟨List.mem_of_getElem? (i := d) (by rw [numbered_get, h]; rfl), by simp⟩
  unfold PlainText.docOf
  dsimp only
  cases hx : ((numbered docs).filter (fun r => r.1 = d + 1)).head? with
  | none => rw [List.head?_eq_none_iff] at hx; rw [hx] at hmem; cases hmem
  | some r =>
    have hr : r ∈ (numbered docs).filter (fun r => r.1 = d + 1) := List.mem_of_mem_head? hx
    rw [List.mem_filter] at hr hmem
    have := List.inj_on_of_nodup_map (numbered_keys docs) hr.1 hmem.1 (by simpa using hr.2)
    rw [this]

/-- Cells of rows have a longest one. -/
theorem longest_cell (rows : List (List String)) : ∃ L, ∀ r ∈ rows, ∀ s ∈ r, s.length ≤ L := by
  refine ⟨(rows.map (fun r => (r.map String.length).sum)).sum, fun r hr s hs => ?_⟩
  have h1 := List.le_sum_of_mem (List.mem_map.2 ⟨s, hs, rfl⟩ : s.length ∈ r.map String.length)
  have h2 := List.le_sum_of_mem (List.mem_map.2 ⟨r, hr, rfl⟩ : (r.map String.length).sum ∈ rows.map (fun r => (r.map String.length).sum))
  omega

open Classical in
/-- The line of a document: its key, the cluster it was sampled for, its text, and a mark under each of its clusters. -/
noncomputable def sampleLine (docs : List String) (db : DB) (cols : List Int) (e : Int × Nat) : List String :=
  [toString (e.2 + 1), toString e.1, docs.getD e.2 ""] ++ cols.map (fun c => if CoveredBy db c e.2 then "1" else "")

theorem map_of_forall₂ {α β γ : Type} {R : α → β → Prop} (g : β → γ) (h : α → γ) {l : List α} {r : List β}
    (hr : List.Forall₂ R l r) (hh : ∀ a ∈ l, ∀ b, R a b → g b = h a) : r.map g = l.map h := by
  induction hr with
  | nil => rfl
  | cons h1 _ ih =>
    rw [List.map_cons, List.map_cons, hh _ (by simp) _ h1, ih (fun a ha => hh a (by simp [ha]))]

theorem mapM_all_ok {α β : Type} (g : α → Except Err β) (h : α → β) : ∀ l : List α, (∀ x ∈ l, g x = .ok (h x)) → l.mapM g = .ok (l.map h)
  | [], _ => rfl
  | a :: l, hl => by
    rw [List.mapM_cons, hl a (by simp), mapM_all_ok g h l (fun x hx => hl x (by simp [hx]))]
    rfl

/-- The pairs of clusters and documents of a sample. -/
theorem sample_pairs (samples : Dict Int Bitmap) (hn : (Dict.keys samples).Nodup) (c : Int) (d : Nat) :
    (c, d) ∈ samples.flatMap (fun e => e.2.elems.map (fun d => (e.1, d))) ↔ ∃ S, Dict.get? samples c = some S ∧ d ∈ S := by
  simp only [List.mem_flatMap, List.mem_map, Prod.mk.injEq, Bitmap.mem_elems]
  constructor
  · rintro ⟨e, he, d', hd, rfl, rfl⟩
    exact ⟨e.2, Dict.get?_of_mem hn he, hd⟩
  · rintro ⟨S, hS, hd⟩
    exact ⟨(c, S), Dict.mem_of_get? hS, d, hd, rfl, rfl⟩

/-- How many documents of the sample are for cluster `c`. -/
theorem sample_count (c : Int) : ∀ (samples : Dict Int Bitmap), (Dict.keys samples).Nodup →
    (samples.flatMap (fun e => e.2.elems.map (fun d => (e.1, d)))).countP (fun e => e.1 = c) =
      ((Dict.get? samples c).getD ∅).card
  | [], _ => by simp [Dict.get?]
  | e :: l, hn => by
    have hn' : (e.1 :: Dict.keys l).Nodup := hn
    rw [List.nodup_cons] at hn'
    rw [List.flatMap_cons, List.countP_append, sample_count c l hn'.2, List.countP_map]
    by_cases h : e.1 = c
    · have h1 : Dict.get? (e :: l) c = some e.2 := by simp [Dict.get?, h]
      have h2 : Dict.get? l c = none := (Dict.get?_eq_none l c).2 (by rw [← h]; exact hn'.1)
      rw [h1, h2]
      simp only [Option.getD_some, Option.getD_none, Finset.card_empty, Nat.add_zero, Function.comp_def, h, decide_true, List.countP_true]
      exact Bitmap.elems_length _
    · have h1 : Dict.get? (e :: l) c = Dict.get? l c := by simp [Dict.get?, h]
      rw [h1]
      simp [Function.comp_def, h]

/-- `plaintext-corpus sample` on an index of the documents `docs`. -/
theorem sample_command (docs : List String) (f : File) (hu : Usable f) (hid : isIndexDb f = true)
    (hkeys : ∀ d k, (d, k) ∈ f.data.docKeys ↔ ∃ x, docs[d]? = some x ∧ k = .int ((d + 1 : Nat) : Int))
    (hdocs : ∀ r ∈ f.data.features, ∀ d ∈ r.docs, ∃ x, docs[d]? = some x)
    (visitC : List ClusterRow → List ClusterRow) (hv : AnyOrder visitC)
    (pick : Int → Nat → Nat → List Nat) (hp : ∀ c, Draws (pick c)) (k : Int) :
    let r := Pipeline.samplePlain visitC pick k (some (numbered docs)) f
    r.1.data = f.data ∧
    ∃ text, r.2 = .ok text ∧ ∃ L, ∀ limit, L ≤ limit →
      ∃ (rows : List (Int × Nat)) (cols : List Int),
        Csv.read limit false {} text = .ok (["doc_key", "sampled_cluster", "text"] ++ cols.map clusterColumn) ::
          rows.map (fun e => .ok (sampleLine docs f.data cols e)) ∧
        (rows.map (·.2)).Nodup ∧ (∀ e ∈ rows, CoveredBy f.data e.1 e.2) ∧
        cols.Pairwise (· < ·) ∧ (∀ c, c ∈ cols ↔ ∃ e ∈ rows, CoveredBy f.data c e.2) ∧
        (0 < k → ∀ c, (rows.countP (fun e => e.1 = c) : Int) ≤ k) ∧
        (∀ c d, CoveredBy f.data c d → (∃ e ∈ rows, e.2 = d) ∨ (0 < k ∧ (rows.countP (fun e => e.1 = c) : Int) = k)) := by
  intro r
  obtain ⟨b, u1, u2, u3, hset, -⟩ := usable_opens f hu
  obtain ⟨samples, clusters, order, s1, s2, s3, s4, s5, s6, s7, s8, s9, s10, s11, s12⟩ :=
    structured_sample visitC hv pick hp f.data hset k []
  have hns : (Dict.keys samples).Nodup := by rw [s2]; exact s3
  set content : Val → Rendered := fun v => [("text", .text (docs.getD ((PlainText.asKey v).getD 0 - 1) ""))] with hcontent
  have hkey : ∀ c d, CoveredBy f.data c d → ∃ x, docs[d]? = some x := by
    rintro c d ⟨fid, -, h⟩
    rw [DB.docsOf] at h
    split at h
    · rename_i row hrow
      exact hdocs row (List.mem_of_find?_eq_some hrow) d h
    · simp at h
  have hd : ∀ e ∈ samples, ∀ d ∈ e.2, ∃ k, (d, k) ∈ f.data.docKeys := by
    intro e he d hde
    obtain ⟨x, hx⟩ := hkey e.1 d (s6 e.1 e.2 (Dict.get?_of_mem hns he) d hde)
    exact ⟨_, (hkeys d _).2 ⟨x, hx, rfl⟩⟩
  obtain ⟨table, columns, x1, x2, x3⟩ := export_rows_aligned (Pipeline.plainRender (some (numbered docs))) content ["text"] f.data
    samples clusters (by
      intro ks hks
      unfold Pipeline.plainRender
      apply mapM_all_ok
      intro v hv
      obtain ⟨d, hdv⟩ := hks v hv
      obtain ⟨x, hx, rfl⟩ := (hkeys d v).1 hdv
      simp only [PlainText.asKey, numbered_lookup docs d x hx, hcontent]
      simp [hx]
      rfl) hd s10 (by
      intro g hg
      rw [List.mem_singleton] at hg
      subst hg
      exact ⟨by decide, by decide, fun x _ h => clusterColumn_ne_text x.1 h.symm⟩) (by
      intro v x _
      simp only [hcontent, Dict.get?]
      simp [(clusterColumn_ne_text x.1).symm])
  set cols := (Dict.keys clusters).insertionSort (· ≤ ·) with hcols
  set rows := samples.flatMap (fun e => e.2.elems.map (fun d => (e.1, d))) with hrows
  have hpairs : ∀ c d, (c, d) ∈ rows ↔ ∃ S, Dict.get? samples c = some S ∧ d ∈ S := sample_pairs samples hns
  have hcol : ∀ c, c ∈ cols ↔ c ∈ Dict.keys clusters := fun c => List.mem_insertionSort _
  have hlines : table.map (fun row => row.map cellWritten) = rows.map (sampleLine docs f.data cols) := by
    refine map_of_forall₂ _ _ x3 ?_
    rintro ⟨c, d⟩ hcd row ⟨cell, v, e1, e2, e3, e4, e5, e6⟩
    obtain ⟨x, hx, rfl⟩ := (hkeys d v).1 e2
    rw [e1, x2, sampleLine]
    simp only [List.map_append, List.map_cons, List.map_nil, List.map_map, e3, e4, e5 "text" (by simp)]
    have h1 : cellWritten (Dict.get? (content (.int ((d + 1 : Nat) : Int))) "text") = docs.getD d "" := by
      simp only [hcontent, Dict.get?, PlainText.asKey]
      simp [cellWritten]
    rw [h1]
    refine congrArg₂ _ rfl ?_
    apply List.map_congr_left
    intro c' hc'
    obtain ⟨S, hS⟩ := (Dict.get?_isSome clusters c').2 ((hcol c').1 hc')
    have h2 := e6 (c', S) (Dict.mem_of_get? hS)
    simp only [Function.comp]
    rw [h2]
    have h3 : d ∈ S ↔ CoveredBy f.data c' d := by
      constructor
      · intro h; exact ((s12 c' d).1 ⟨S, hS, h⟩).1
      · intro h
        obtain ⟨S', hS', h'⟩ := (hpairs c d).1 hcd
        obtain ⟨T, hT, h''⟩ := (s12 c' d).2 ⟨h, c, S', hS', h'⟩
        rw [hS] at hT
        cases hT
        exact h''
    by_cases h : d ∈ S
    · rw [if_pos h, if_pos (h3.1 h)]; rfl
    · rw [if_neg h, if_neg (fun h' => h (h3.2 h'))]; rfl
  obtain ⟨L, hL⟩ := longest_cell (sampleColumns ["text"] clusters :: table.map (fun row => row.map cellWritten))
  have hr0 : r = ({ opened Faults.none f with data := f.data }, Csv.sampleFile (Pipeline.plainRender (some (numbered docs))) ["text"]
      f.data samples clusters) := by
    show Pipeline.samplePlain visitC pick k (some (numbered docs)) f = _
    rw [Pipeline.samplePlain, Pipeline.sampleWith, if_pos hid, onIndex_usable f hu]
    dsimp only
    rw [show (Conn.fresh f.data).work = f.data from rfl, s1]
    rfl
  obtain ⟨text, t1, -⟩ := exported_sample_reads_back _ ["text"] f.data samples clusters table x1 L
    (fun s hs => hL _ (by simp) s hs) (fun row hrow x hx =>
      hL (row.map cellWritten) (by simp only [List.mem_cons, List.mem_map]; exact .inr ⟨row, hrow, rfl⟩) _ (List.mem_map.2 ⟨x, hx, rfl⟩))
  refine ⟨by rw [hr0], text, by rw [hr0]; exact t1, L, fun limit hl => ⟨rows, cols, ?_, ?_, ?_, ?_, ?_, ?_, ?_⟩⟩
  · obtain ⟨text', t1', t2⟩ := exported_sample_reads_back _ ["text"] f.data samples clusters table x1 limit
      (fun s hs => (hL _ (by simp) s hs).trans hl) (fun row hrow x hx =>
        (hL (row.map cellWritten) (by simp only [List.mem_cons, List.mem_map]; exact .inr ⟨row, hrow, rfl⟩) _
          (List.mem_map.2 ⟨x, hx, rfl⟩)).trans hl)
    rw [t1] at t1'
    cases t1'
    rw [t2]
    have := congrArg (List.map (Except.ok (ε := Err))) hlines
    rw [List.map_map, List.map_map] at this
    rw [show (fun e => Except.ok (sampleLine docs f.data cols e)) = (Except.ok (ε := Err)) ∘ sampleLine docs f.data cols from rfl, ← this]
    rfl
  · rw [hrows, List.map_flatMap]
    simp only [List.map_map, Function.comp_def, List.map_id']
    rw [List.nodup_flatMap]
    refine ⟨fun e _ => Bitmap.elems_nodup _, ?_⟩
    have hp' : samples.Pairwise (fun a b => a.1 ≠ b.1) := by
      have := hns
      unfold Dict.keys at this
      exact List.pairwise_map.1 this
    refine hp'.imp_of_mem ?_
    intro a b ha hb hab x hxa hxb
    rw [Bitmap.mem_elems] at hxa hxb
    exact Finset.disjoint_left.1 (s7 a.1 a.2 b.1 b.2 (Dict.get?_of_mem hns ha) (Dict.get?_of_mem hns hb) hab) hxa hxb
  · rintro ⟨c, d⟩ he
    obtain ⟨S, hS, hdS⟩ := (hpairs c d).1 he
    exact s6 c S hS d hdS
  · have h1 : cols.Pairwise (· ≤ ·) := List.pairwise_insertionSort _ _
    have h2 : cols.Nodup := (List.perm_insertionSort _ _).nodup_iff.2 s10
    exact (h1.and h2).imp (fun h => lt_of_le_of_ne h.1 h.2)
  · intro c
    rw [hcol, ← Dict.get?_isSome]
    constructor
    · rintro ⟨S, hS⟩
      obtain ⟨d, hd'⟩ := s11 c S hS
      obtain ⟨h1, c', S', h2, h3⟩ := (s12 c d).1 ⟨S, hS, hd'⟩
      exact ⟨(c', d), (hpairs c' d).2 ⟨S', h2, h3⟩, h1⟩
    · rintro ⟨⟨c', d⟩, he, h1⟩
      obtain ⟨S', h2, h3⟩ := (hpairs c' d).1 he
      obtain ⟨S, hS, -⟩ := (s12 c d).2 ⟨h1, c', S', h2, h3⟩
      exact ⟨S, hS⟩
  · intro hk c
    rw [sample_count c samples hns]
    cases hg : Dict.get? samples c with
    | none => simp; omega
    | some S => exact s8 c S hg hk
  · intro c d hcov
    have hc : c ∈ order := by
      rw [s4]
      refine ⟨?_, .inl rfl⟩
      obtain ⟨g, hg, -⟩ := hcov
      exact (hasCluster_iff_assign hset c).2 ⟨g, hg⟩
    obtain ⟨S, hS⟩ := (Dict.get?_isSome samples c).2 (by rw [s2]; exact hc)
    obtain ⟨pre, post, ho⟩ := List.append_of_mem hc
    by_cases hlt : k ≤ 0 ∨ (S.card : Int) < k
    · left
      rcases s9 pre c post S ho hS hlt d hcov with h | ⟨c', -, S', hS', h⟩
      · exact ⟨(c, d), (hpairs c d).2 ⟨S, hS, h⟩, rfl⟩
      · exact ⟨(c', d), (hpairs c' d).2 ⟨S', hS', h⟩, rfl⟩
    · right
      rw [not_or] at hlt
      have := s8 c S hS (by omega)
      rw [sample_count c samples hns, hS]
      exact ⟨by omega, by simp only [Option.getD_some]; omega⟩

/-- **C65, sample.** After the commands of `text_file_to_clusters`, `plaintext-corpus sample --docs-per-cluster k` succeeds, and
the file it leaves, read back, has one row for every sampled line of the text file, with the number of the line among
those that are not blank, the cluster it was sampled for, its text, and a mark under each cluster one of its tokens is in
(the clusters that `export clusters` shows).  No line is sampled twice, only for a cluster that has one of its tokens; there
are at most `k` rows for a cluster, and every line with a token in a cluster is there unless that cluster has its `k` rows
(`k ≤ 0`: all of them are there).  The model does not change. -/
theorem text_file_to_sample (space : Char → Bool) (limit : Nat) (ls : List Line) (hls : ∀ l ∈ ls, l.Ok limit)
    (file : List Char) (hfile : file = ls.flatMap Line.render ∨ file ++ ['\n'] = ls.flatMap Line.render)
    (hne : documents space ls ≠ []) (old : PlainText.Db) (f : File) (hu : Usable f)
    (tokens : String → List String) (cfg : IndexCfg) (s : Schedule) (hf : Fair s) (hno : ∀ i, s.fault i = none)
    (luck : Luck Rat) (hscore : luck.score = exactScorer luck.chance) (hshuffle : ∀ l, (luck.shuffle l).Perm l)
    (args : ModelArgs) (confirm : Bool) (hm : f.data.clusters = [] ∨ (args.restart = true ∧ confirm = true))
    (hn : ∀ k, args.clusters = some k → 0 ≤ k) (hi : 1 ≤ args.iterations) (hk : 1 ≤ args.groupTopK)
    (hfields : args.fields = [] ∨ args.fields = ["text"])
    (visitC : List ClusterRow → List ClusterRow) (hv : AnyOrder visitC)
    (pick : Int → Nat → Nat → List Nat) (hp : ∀ c, Draws (pick c)) (k : Int) :
    let corpus := Pipeline.create space limit file old
    let indexed := Pipeline.indexPlain tokens cfg s corpus.1 f
    let modelled := Pipeline.model luck args confirm indexed.1
    let sampled := Pipeline.samplePlain visitC pick k corpus.1 modelled.1
    let has := fun (c : Int) (d : Nat) =>
      ∃ x t, (documents space ls)[d]? = some x ∧ t ∈ tokens x ∧ TokenIn modelled.1.data t c
    sampled.1.data = modelled.1.data ∧
    ∃ text, sampled.2 = .ok text ∧ ∃ L, ∀ limit, L ≤ limit →
      ∃ (rows : List (Int × Nat)) (cols : List Int) (cells : Int × Nat → List String),
        Csv.read limit false {} text = .ok (["doc_key", "sampled_cluster", "text"] ++ cols.map clusterColumn) ::
          rows.map (fun e => .ok (cells e)) ∧
        (∀ e ∈ rows, ∃ x marks, (documents space ls)[e.2]? = some x ∧ cells e = [toString (e.2 + 1), toString e.1, x] ++ marks ∧
          List.Forall₂ (fun c m => (m = "1" ∧ has c e.2) ∨ (m = "" ∧ ¬ has c e.2)) cols marks) ∧
        (rows.map (·.2)).Nodup ∧ (∀ e ∈ rows, has e.1 e.2) ∧
        cols.Pairwise (· < ·) ∧ (∀ c, c ∈ cols ↔ ∃ e ∈ rows, has c e.2) ∧
        (0 < k → ∀ c, (rows.countP (fun e => e.1 = c) : Int) ≤ k) ∧
        (∀ c d, has c d → (∃ e ∈ rows, e.2 = d) ∨ (0 < k ∧ (rows.countP (fun e => e.1 = c) : Int) = k)) := by
  intro corpus indexed modelled sampled has
  obtain ⟨hcorpus, -, -, hu2, hid, o2, i3, -, i5, -⟩ := text_file_modelled space limit ls hls file hfile hne old f hu
    tokens cfg s hf hno luck hscore hshuffle args confirm hm hn hi hk hfields
  have hw := o2.toWellformed
  have hcov : ∀ c d, CoveredBy modelled.1.data c d ↔ has c d := by
    intro c d
    constructor
    · rintro ⟨fid, h1, h2⟩
      rw [DB.docsOf] at h2
      split at h2
      · rename_i row hrow
        obtain ⟨h3, h4⟩ := (feature?_eq_some hw fid row).1 hrow
        obtain ⟨e1, x, t, hx, e2, ht⟩ := (i3 row h3 d).1 h2
        exact ⟨x, t, hx, ht, row, h3, e1, e2, by rw [h4]; exact h1⟩
      · simp at h2
    · rintro ⟨x, t, hx, ht, row, h3, e1, e2, e3⟩
      refine ⟨row.fid, e3, ?_⟩
      rw [DB.docsOf, (feature?_eq_some hw row.fid row).2 ⟨h3, rfl⟩]
      exact (i3 row h3 d).2 ⟨e1, x, t, hx, e2, ht⟩
  obtain ⟨h1, text, h2, L, h3⟩ := sample_command (documents space ls) modelled.1 hu2 hid i5
    (fun r hr d hd => by obtain ⟨-, x, -, hx, -⟩ := (i3 r hr d).1 hd; exact ⟨x, hx⟩) visitC hv pick hp k
  have hsampled : sampled = Pipeline.samplePlain visitC pick k (some (numbered (documents space ls))) modelled.1 := by
    show Pipeline.samplePlain visitC pick k corpus.1 modelled.1 = _
    rw [show corpus.1 = some (numbered (documents space ls)) from congrArg Prod.fst hcorpus]
  rw [hsampled]
  refine ⟨h1, text, h2, L, fun limit' hl => ?_⟩
  obtain ⟨rows, cols, r1, r2, r3, r4, r5, r6, r7⟩ := h3 limit' hl
  simp only [hcov] at r3 r5 r7
  refine ⟨rows, cols, sampleLine (documents space ls) modelled.1.data cols, r1, fun e he => ?_, r2, r3, r4, r5, r6, r7⟩
  obtain ⟨x, t, hx, -⟩ := r3 e he
  refine ⟨x, _, hx, by rw [sampleLine, List.getD_eq_getElem?_getD, hx]; rfl, ?_⟩
  rw [List.forall₂_map_right_iff, List.forall₂_same]
  intro c _
  by_cases h : has c e.2
  · exact .inl ⟨if_pos ((hcov c e.2).2 h), h⟩
  · exact .inr ⟨if_neg (fun h' => h ((hcov c e.2).1 h')), h⟩

/-- The whole run on the four lines, with two clusters and two documents per cluster. -/
example :
    let corpus := Pipeline.create (· = ' ') 100 (demoLines.flatMap Line.render) none
    let indexed := Pipeline.indexPlain letters ⟨2, 2, true⟩ demoSchedule corpus.1 File.empty
    let modelled := Pipeline.model demoLuck { clusters := some 2, minDocs := 2 } false indexed.1
    ∃ text, (Pipeline.samplePlain id (fun _ _ k => List.range k) 2 corpus.1 modelled.1).2 = .ok text := by
  intro corpus indexed modelled
  obtain ⟨-, text, h, -⟩ := text_file_to_sample (· = ' ') 100 demoLines demoLines_ok _ (.inl rfl) (by decide +kernel) none File.empty (.inl ⟨rfl, rfl, rfl⟩)
    letters ⟨2, 2, true⟩ demoSchedule demo_fair (fun _ => rfl) demoLuck rfl (fun _ => .refl _) { clusters := some 2, minDocs := 2 } false (.inl rfl)
    (by intro k hk; cases hk; decide) (by decide) (by decide) (.inl rfl) id (fun _ => .refl _) (fun _ _ k => List.range k)
    (fun _ => draws_first) 2
  exact ⟨text, h⟩

end Hyperreal.Props
