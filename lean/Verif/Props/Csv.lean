import Verif.Lemmas.CsvWrite
import Verif.Props.Export
import Verif.Spec.Written

/-!
# Exported files can be read back (C62)
-/

namespace Hyperreal.Props
open Spec Atomic DB

/-- **C62** for the files as such: whatever the cells contain (quotes, commas, line ends, nothing), `csv.reader` gives back the
rows that were written.  `limit` is the reader's limit on the length of a cell. -/
theorem written_rows_read_back (limit : Nat) (rows : List (List String)) (h : ∀ r ∈ rows, ∀ s ∈ r, s.length ≤ limit) :
    Csv.read limit false {} (Csv.file rows) = rows.map .ok :=
  Csv.read_file limit rows h

/-- A cell with a comma, one with quotes, one with line ends, an empty one, and a row without cells. -/
example : Csv.read 100 false {} (Csv.file [["a,b", "\"q\"", "x\r\ny\n\r", ""], [], ["1"]]) =
    [.ok ["a,b", "\"q\"", "x\r\ny\n\r", ""], .ok [], .ok ["1"]] :=
  written_rows_read_back 100 _ (by decide)

theorem valText_written : Csv.valText = written := by funext v; cases v <;> rfl

theorem cellText_written : Csv.cellText = cellWritten := by
  funext x
  rcases x with _ | x
  · rfl
  · cases x with
    | key k => exact congrFun valText_written k
    | _ => rfl

/-- The row of the spreadsheet for a feature of the model. -/
def spreadsheetRow (c : Int) (r : FeatRow) : List String :=
  [toString c, toString r.fid, r.field, written r.value, toString r.docs.card]

/-- Everything that can appear in a cell is short enough for the reader. -/
structure CellsFit (limit : Nat) (db : DB) : Prop where
  header : 10 ≤ limit
  features : ∀ r ∈ db.features, ∀ c, assign db r.fid = some c → ∀ s ∈ spreadsheetRow c r, s.length ≤ limit

/-- **C62** for `hyperreal export clusters --top-k-features 0` and the export of the web server: the file, read back, has the
header and then exactly one row for every feature of the model, with its cluster, id, field, value and number of documents. -/
theorem exported_clusters_read_back (visitC : List ClusterRow → List ClusterRow) (hvC : AnyOrder visitC)
    (visit : List Listed → List Listed) (hv : AnyOrder visit) (db : DB) (hs : Settled db)
    (hsize : ∀ c, (featuresIn db c).length ≤ 2 ^ 62) (limit : Nat) (hfit : CellsFit limit db) :
    ∃ rows : List (Int × FeatRow),
      Csv.read limit false {} (Csv.clustersFile visitC visit db 0) =
        .ok ["cluster_id", "feature_id", "field", "value", "docs_count"] :: rows.map (fun x => .ok (spreadsheetRow x.1 x.2)) ∧
      (rows.map (fun x => x.2.fid)).Nodup ∧
      ∀ c r, (c, r) ∈ rows ↔ r ∈ db.features ∧ assign db r.fid = some c := by
  have hw := hs.toWellformed
  obtain ⟨h1, h2, h3⟩ := export_clusters_complete visitC hvC visit hv db hs hsize
  have hr : ∀ x ∈ exportClusters visitC visit db 0, ∃ r, db.feature? x.2.fid = some r ∧ r ∈ db.features ∧
      r.fid = x.2.fid ∧ Csv.clusterCells x = spreadsheetRow x.1 r := by
    intro x hx
    obtain ⟨a, r, hr, e1, e2, e3⟩ := h3 x hx
    have hq := (feature?_eq_some hw x.2.fid r).2 ⟨hr, e1⟩
    refine ⟨r, hq, hr, e1, ?_⟩
    have : db.docsOf x.2.fid = r.docs := by rw [docsOf, hq]
    rw [this] at a
    simp [Csv.clusterCells, spreadsheetRow, a, e1, e2, e3, valText_written]
  refine ⟨(exportClusters visitC visit db 0).filterMap (fun x => (db.feature? x.2.fid).map (fun r => (x.1, r))), ?_, ?_, ?_⟩
  · have hmap : ∀ l : List (Int × Listed), (∀ x ∈ l, x ∈ exportClusters visitC visit db 0) →
        (l.filterMap (fun x => (db.feature? x.2.fid).map (fun r => (x.1, r)))).map (fun x => spreadsheetRow x.1 x.2) =
          l.map Csv.clusterCells := by
      intro l
      induction l with
      | nil => intro _; rfl
      | cons x l ih =>
        intro hl
        obtain ⟨r, e1, -, -, e2⟩ := hr x (hl x (by simp))
        rw [List.filterMap_cons, e1]
        simp only [Option.map_some, List.map_cons]
        rw [e2, ih (fun y hy => hl y (by simp [hy]))]
    rw [Csv.clustersFile, written_rows_read_back, List.map_cons, ← hmap _ (fun _ h => h), List.map_map]
    · rfl
    · intro row hrow s hs'
      rcases List.mem_cons.1 hrow with rfl | hrow
      · have : ∀ s ∈ ["cluster_id", "feature_id", "field", "value", "docs_count"], s.length ≤ 10 := by decide
        exact (this s hs').trans hfit.header
      · obtain ⟨x, hx, rfl⟩ := List.mem_map.1 hrow
        obtain ⟨r, -, e2, e3, e4⟩ := hr x hx
        rw [e4] at hs'
        exact hfit.features r e2 x.1 ((h2 _ _).1 ⟨x, hx, rfl, e3.symm⟩) s hs'
  · have : ∀ l : List (Int × Listed), (∀ x ∈ l, x ∈ exportClusters visitC visit db 0) →
        (l.filterMap (fun x => (db.feature? x.2.fid).map (fun r => (x.1, r)))).map (fun x => x.2.fid) =
          l.map (fun x => x.2.fid) := by
      intro l
      induction l with
      | nil => intro _; rfl
      | cons x l ih =>
        intro hl
        obtain ⟨r, e1, -, e3, -⟩ := hr x (hl x (by simp))
        rw [List.filterMap_cons, e1]
        simp only [Option.map_some, List.map_cons]
        rw [e3, ih (fun y hy => hl y (by simp [hy]))]
    rw [this _ (fun _ h => h)]
    exact h1
  · intro c r
    rw [List.mem_filterMap]
    constructor
    · rintro ⟨x, hx, e⟩
      obtain ⟨r', e1, e2, e3, -⟩ := hr x hx
      rw [e1] at e
      simp only [Option.map_some, Option.some.injEq, Prod.mk.injEq] at e
      obtain ⟨rfl, rfl⟩ := e
      exact ⟨e2, (h2 _ _).1 ⟨x, hx, rfl, e3.symm⟩⟩
    · rintro ⟨ha, hb⟩
      obtain ⟨x, hx, rfl, e⟩ := (h2 _ _).2 hb
      refine ⟨x, hx, ?_⟩
      rw [(feature?_eq_some hw x.2.fid r).2 ⟨ha, e.symm⟩]
      rfl

/-- The hypotheses hold for the example model. -/
example : Settled queryDb ∧ (∀ c, (featuresIn queryDb c).length ≤ 2 ^ 62) ∧ CellsFit 100 queryDb := by
  refine ⟨queryDb_settled, fun c => ?_, by decide, fun r hr c hc s hs => ?_⟩
  · have h : (featuresIn queryDb c).length ≤ queryDb.fc.length := by
      simp only [featuresIn, List.length_map]; exact List.length_filter_le _ _
    exact h.trans (by decide +kernel)
  · have key : ∀ r ∈ queryDb.features, ∀ c ∈ (assign queryDb r.fid).toList, ∀ s ∈ spreadsheetRow c r, s.length ≤ 100 := by
      decide +kernel
    exact key r hr c (by rw [hc]; simp) s hs

/-- The ids, the field, the text of the value and the count can be told from the row. -/
theorem spreadsheet_row_determines {c c' : Int} {r r' : FeatRow} (h : spreadsheetRow c r = spreadsheetRow c' r') :
    c = c' ∧ r.fid = r'.fid ∧ r.field = r'.field ∧ written r.value = written r'.value ∧ r.docs.card = r'.docs.card := by
  simp only [spreadsheetRow, List.cons.injEq, and_true] at h
  obtain ⟨h1, h2, h3, h4, h5⟩ := h
  exact ⟨Int.repr_injective h1, Nat.repr_injective h2, h3, h4, Nat.repr_injective h5⟩

/-- The whole file for the example model. -/
example : String.ofList (Csv.clustersFile id id queryDb 1) =
    "\"cluster_id\",\"feature_id\",\"field\",\"value\",\"docs_count\"\r\n\"1\",\"1\",\"t\",\"b\",\"2\"\r\n\"2\",\"4\",\"n\",\"5\",\"2\"\r\n\"3\",\"5\",\"n\",\"3\",\"1\"\r\n" := by
  decide +kernel

/-- **C62** for `hyperreal export clusters --top-k-features k`: the file, read back, is the header and the listed features. -/
theorem exported_listing_read_back (visitC : List ClusterRow → List ClusterRow) (visit : List Listed → List Listed) (db : DB)
    (k : Nat) (hk : 0 < k) (limit : Nat) (hlimit : 10 ≤ limit)
    (hfit : ∀ c ∈ topClusterFeatures visitC visit db k, ∀ f ∈ c.2.2,
      ∀ s ∈ [toString c.1, toString f.fid, f.field, written f.value, toString f.docsCount], s.length ≤ limit) :
    Csv.read limit false {} (Csv.clustersFile visitC visit db k) =
      .ok ["cluster_id", "feature_id", "field", "value", "docs_count"] ::
        (topClusterFeatures visitC visit db k).flatMap (fun c => c.2.2.map (fun f =>
          .ok [toString c.1, toString f.fid, f.field, written f.value, toString f.docsCount])) := by
  rw [Csv.clustersFile, written_rows_read_back, List.map_cons, exportClusters, if_neg (by omega), List.map_flatMap,
    List.map_flatMap]
  · simp only [List.map_map, ← valText_written]; rfl
  · intro row hrow s hs'
    rcases List.mem_cons.1 hrow with rfl | hrow
    · have : ∀ s ∈ ["cluster_id", "feature_id", "field", "value", "docs_count"], s.length ≤ 10 := by decide
      exact (this s hs').trans hlimit
    · obtain ⟨x, hx, rfl⟩ := List.mem_map.1 hrow
      rw [exportClusters, if_neg (by omega), List.mem_flatMap] at hx
      obtain ⟨c, hc, hx⟩ := hx
      obtain ⟨f, hf, rfl⟩ := List.mem_map.1 hx
      rw [Csv.clusterCells, valText_written] at hs'
      exact hfit c hc f hf s hs'

/-- **C62** for `export_document_sample`: the file, read back, is the table (C50) with its columns. -/
theorem exported_sample_reads_back (render : List Val → Except Err (List (Val × Rendered))) (fields : List String) (db : DB)
    (samples clusters : Dict Int Bitmap) (rows : List (List (Option Cell)))
    (hr : exportSample render fields db samples clusters = .ok rows) (limit : Nat)
    (hcols : ∀ s ∈ sampleColumns fields clusters, s.length ≤ limit)
    (hfit : ∀ r ∈ rows, ∀ x ∈ r, (cellWritten x).length ≤ limit) :
    ∃ text, Csv.sampleFile render fields db samples clusters = .ok text ∧
      Csv.read limit false {} text =
        .ok (["doc_key", "sampled_cluster"] ++ fields ++ ((Dict.keys clusters).insertionSort (· ≤ ·)).map clusterColumn) ::
          rows.map (fun r => .ok (r.map cellWritten)) := by
  refine ⟨Csv.file (sampleColumns fields clusters :: rows.map (fun r => r.map cellWritten)), ?_, ?_⟩
  · rw [Csv.sampleFile, hr, cellText_written]; rfl
  · rw [written_rows_read_back, List.map_cons, List.map_map]
    · rfl
    · intro row hrow s hs'
      rcases List.mem_cons.1 hrow with rfl | hrow
      · exact hcols s hs'
      · obtain ⟨r, hr', rfl⟩ := List.mem_map.1 hrow
        obtain ⟨x, hx, rfl⟩ := List.mem_map.1 hs'
        exact hfit r hr' x hx

/-- A cell with more characters than the reader's limit ends the reading with an error: such a value can be exported, but
`csv.reader` refuses the file (with its default limit of 131072). -/
theorem long_cell_refused (limit : Nat) (s : String) (h : limit < s.length) (rest : List String) :
    Csv.read limit false {} (Csv.file [s :: rest]) = [.error .valueError] := by
  have key : ∀ (t : List Char) (a : List Char) (more : List Char), a.length ≤ limit → limit < a.length + t.length →
      Csv.read limit false ⟨.inQuoted, [], a⟩ (t.flatMap (fun c => if c = '"' then ['"', '"'] else [c]) ++ more) =
        [.error .valueError] := by
    intro t
    induction t with
    | nil => intro a more h1 h2; simp at h2; omega
    | cons c t ih =>
      intro a more h1 h2
      simp only [List.length_cons] at h2
      rw [List.flatMap_cons]
      by_cases hc : c = '"'
      · subst hc
        simp only [if_true, List.cons_append, List.nil_append]
        rw [Csv.read, if_neg (by simp), if_neg (by simp),
          show Cli.CsvState.char limit ⟨.inQuoted, [], a⟩ '"' = .ok ⟨.quoteInQuoted, [], a⟩ by simp [Cli.CsvState.char]]
        dsimp only
        rw [Csv.read, if_neg (by simp), if_neg (by simp)]
        by_cases hl : limit ≤ a.length
        · simp [Cli.CsvState.char, Cli.CsvState.add, hl]
        · rw [show Cli.CsvState.char limit ⟨.quoteInQuoted, [], a⟩ '"' = .ok ⟨.inQuoted, [], a ++ ['"']⟩ by
            simp [Cli.CsvState.char, Cli.CsvState.add, hl]]
          exact ih (a ++ ['"']) more (by simp; omega) (by simp; omega)
      · simp only [if_neg hc, List.cons_append, List.nil_append]
        rw [Csv.read, if_neg (by simp), if_neg (by simp)]
        by_cases hl : limit ≤ a.length
        · simp [Cli.CsvState.char, Cli.CsvState.add, hl, hc]
        · rw [show Cli.CsvState.char limit ⟨.inQuoted, [], a⟩ c = .ok ⟨.inQuoted, [], a ++ [c]⟩ by
            simp [Cli.CsvState.char, Cli.CsvState.add, hl, hc]]
          exact ih (a ++ [c]) more (by simp; omega) (by simp; omega)
  have e : ∃ more, Csv.file [s :: rest] =
      '"' :: (s.toList.flatMap (fun c => if c = '"' then ['"', '"'] else [c]) ++ more) := by
    cases rest with
    | nil => exact ⟨'"' :: ['\r', '\n'], by simp [Csv.file, Csv.row, Csv.field]⟩
    | cons s2 ss =>
      refine ⟨'"' :: ',' :: ([','].intercalate ((s2 :: ss).map Csv.field) ++ ['\r', '\n']), ?_⟩
      simp [Csv.file, Csv.row, Csv.field, List.intercalate, List.intersperse]
  obtain ⟨more, e⟩ := e
  rw [e, Csv.read, if_neg (by simp), if_neg (by simp),
    show Cli.CsvState.char limit {} '"' = .ok ⟨.inQuoted, [], []⟩ by simp [Cli.CsvState.char]]
  exact key s.toList [] more (by simp) (by simpa [String.length_toList] using h)

example : Csv.read 3 false {} (Csv.file [["abcd", "e"]]) = [.error .valueError] := long_cell_refused 3 "abcd" (by decide) _

/-- The example sample read back. -/
example : ∃ text, Csv.sampleFile (fun ks => .ok (ks.map (fun k => (k, [("title", Cell.text "a,\"b\"")])))) ["title"]
      queryDb [(2, {0, 2})] [(1, {1, 2}), (2, {0, 2})] = .ok text ∧
    Csv.read 100 false {} text = [.ok ["doc_key", "sampled_cluster", "title", "cluster_1", "cluster_2"],
      .ok ["k0", "2", "a,\"b\"", "", "1"], .ok ["k2", "2", "a,\"b\"", "1", "1"]] :=
  exported_sample_reads_back _ ["title"] queryDb _ _
    [[some (.key (.text "k0")), some (.cluster 2), some (.text "a,\"b\""), none, some .mark],
     [some (.key (.text "k2")), some (.cluster 2), some (.text "a,\"b\""), some .mark, some .mark]]
    (by rfl) 100 (by decide +kernel) (by decide +kernel)

end Hyperreal.Props
