import Verif.Spec.Details
import Verif.Props.SearchAll
import Verif.Props.Pages

/-! # C89: the details page describes the corpus -/

namespace Hyperreal.Props
open Atomic Spec Cli Migrate Web Serve PlainText

variable {int : String → Option Int} {σ : Type} [LinearOrder σ]

theorem numbered_snd (ts : List String) : (numbered ts).map (·.2) = ts := by
  unfold numbered
  rw [List.map_map]
  exact List.zipIdx_map_fst 0 ts

/-- The details of a file that can be served. -/
theorem details_shown {α : Type} {shows : α → String → Val → Prop} {docs : List α} {known : String → Val → Prop} {positions : String → Nat}
    (f : File) (hf : Servable f) (hcur : Current f) (hrows : Summarized shows docs known positions f.data.fieldSummary)
    (hint : ReadsNumbers int) (backing : Option Backing) (v : Visit σ) :
    ShowsDetails (fun r => follow int (.ok backing) f { v with request := r }) shows docs known positions f.data.clusters.length := by
  obtain ⟨b, o1, o2, o3, o4, o5, -⟩ := servable_opens f hf
  have hdata := o5 hcur
  have hzero : int "0" = some 0 := hint 0
  have hpath : PathPart "0" := by decide +kernel
  have hreads := fun r (hr : r.post = false) n => follow_reads (int := int) backing f hf { v with request := r } hr n
  have hlen : (clusterIds f.data).length = f.data.clusters.length := by
    rw [(clusterIds_perm f.data).length_eq, List.length_map]
  refine ⟨f.data.fieldSummary, hrows, ?_, ?_, details_page_read "0" _ _⟩
  · refine ((hreads (.get "/index/0/details") rfl 0).2).trans ?_
    rw [hdata]
    refine (goal_details (w := v.on backing f.data) hzero (shape_details hpath) 0).trans ?_
    show Answer.details f.data.fieldSummary (clusterIds f.data).length = _
    rw [hlen]
  · intro h0
    refine ((hreads (.get "/index/0") rfl 2).2).trans ?_
    rw [hdata]
    refine (goal_overview (w := v.on backing f.data) hint hzero hpath none none (.inl rfl) (shape_index hpath) 0).trans ?_
    have hnil : clusterIds (v.on backing f.data).db = [] := by
      rw [← List.length_eq_zero_iff]
      exact hlen.trans h0
    have hpage : indexPage (v.on backing f.data) none none 5 40 none = .ok none := by
      unfold indexPage
      rw [if_pos hnil]
      rfl
    simp only [Goal.page, hpage]
    show Answer.details f.data.fieldSummary (clusterIds f.data).length = _
    rw [hlen, h0]

/-- Index on any corpus: the file can be served, and its summary describes the corpus. -/
theorem any_summary {corpus : Corpus} {content : Val → Features} (hs : Serves corpus content) (cfg : IndexCfg)
    (hi : Indexable corpus content cfg.positions)
    (hne : corpus.keys ≠ []) (s : Schedule) (hf : Fair s) (hno : ∀ i, s.fault i = none) (f : File) (hu : Usable f) :
    let indexed := Pipeline.onIndex f (indexCall corpus cfg s)
    indexed.2 = .ok () ∧ Servable indexed.1 ∧ Current indexed.1 ∧ Usable indexed.1 ∧
    Summarized (HasValue content) corpus.keys (fun fl x => ∃ r ∈ f.data.features, r.field = fl ∧ r.value = x)
      (fun fl => if cfg.positions then (corpus.keys.map (fun k => tokens fl (content k))).sum else 0) indexed.1.data.fieldSummary := by
  intro indexed
  obtain ⟨b, -, -, -, hset, -, happ, -⟩ := usable_opens f hu
  have hidle : Idle (Conn.fresh f.data) f.data := fresh_idle _
  have hok := index_succeeds hidle hset hs hi hf hne hno
  obtain ⟨new, i1, i2, -, -, i5, -⟩ := index_any_command hs cfg hi hne s hf hno f hu
  obtain ⟨new', n1, n2, n3, n4⟩ := field_summary_exact hidle (DB.Settled.toPending hset) hs hf hok
  have hnew : new' = new := by
    have := onIndex_usable f hu (indexCall corpus cfg s)
    rw [i1] at this
    have h2 := congrArg (fun x => x.1.data) this
    dsimp only at h2
    rw [h2]
    exact n1.committed.symm
  subst hnew
  have hindexed : indexed = ({ opened Faults.none f with data := new' }, .ok ()) := i1
  have hd : indexed.1.data = new' := by rw [hindexed]
  have hu2 : Usable indexed.1 := by rw [hindexed]; exact usable_with f hu new' i2
  have hcur : Current indexed.1 := by
    rcases usable_with f hu new' i2 with ⟨-, -, h3⟩ | ⟨h1, -⟩
    · exfalso
      obtain ⟨k, hk0⟩ := List.exists_mem_of_ne_nil _ hne
      obtain ⟨d, hd⟩ := List.getElem?_of_mem hk0
      have := (i5 d k).2 hd
      rw [show new' = {} from h3] at this
      cases this
    · rw [hindexed]; exact h1
  refine ⟨by rw [hindexed], ⟨by rw [hindexed]; simp [isIndexDb, magicId, happ], .inl ⟨hcur, by rw [hd]; exact i2⟩⟩, hcur, hu2, ?_⟩
  have hocc : ∀ fl x, (∃ d, Occurs corpus content fl x d) ↔ ∃ k ∈ corpus.keys, HasValue content k fl x := by
    intro fl x
    constructor
    · rintro ⟨d, h⟩
      obtain ⟨k, hk, hv⟩ := (occurs_iff ..).1 h
      exact ⟨k, List.mem_of_getElem? hk, hv⟩
    · rintro ⟨k, hk, hv⟩
      obtain ⟨d, hd⟩ := List.getElem?_of_mem hk
      exact ⟨d, (occurs_iff ..).2 ⟨k, hd, hv⟩⟩
  rw [hd]
  refine ⟨n2, fun fl => ?_, fun row hrow => ?_, fun row hrow => (n4 row hrow).positions⟩
  · rw [List.mem_map]
    exact (n3 fl).trans (exists_congr fun x => or_congr (hocc fl x) .rfl)
  · obtain ⟨vs, b1, b2, b3⟩ := (n4 row hrow).values
    exact ⟨vs, b1, fun x => (b2 x).trans (or_congr (hocc row.field x) .rfl), b3⟩

/-- The model command does not touch the summary. -/
theorem model_keeps_summary (luck : Luck Rat) (hscore : luck.score = exactScorer luck.chance) (hshuffle : ∀ l, (luck.shuffle l).Perm l)
    (args : ModelArgs) (confirm : Bool) (f : File) (hu : Usable f) (hcur : Current f) (hserv : Servable f)
    (hm : f.data.clusters = [] ∨ (args.restart = true ∧ confirm = true))
    (hn : ∀ k, args.clusters = some k → 0 ≤ k) (hit : 1 ≤ args.iterations) (hk : 1 ≤ args.groupTopK)
    (hfields : args.fields.Nodup) (hsum : (f.data.fieldSummary.map (·.field)).Nodup) :
    let modelled := Pipeline.model luck args confirm f
    modelled.2 = .done ∧ Servable modelled.1 ∧ Current modelled.1 ∧ modelled.1.data.fieldSummary = f.data.fieldSummary := by
  intro modelled
  obtain ⟨b, m1, m2, m3, hset, -, happ, -⟩ := usable_opens f hu
  have hmodelled : modelled = ({ opened Faults.none f with data := (modelCommand luck args confirm f.data).1 },
      (modelCommand luck args confirm f.data).2) := by
    show Pipeline.model luck args confirm f = _
    unfold Pipeline.model
    cases hx : openIndex Faults.none f with
    | mk c r =>
      rw [hx] at m1 m2
      dsimp only at m1 m2
      subst m1
      dsimp only
      rw [m2, m3]
  have hnodup : (dealtFields f.data args.fields).Nodup := by
    by_cases h : args.fields = []
    · simp only [dealtFields, h, if_true]; exact hsum
    · simp only [dealtFields, h, if_false]; exact hfields
  obtain ⟨o1, o2, ⟨-, -, -, -, o3⟩, -⟩ := model_command_creates luck args confirm f.data hset hscore hshuffle hm hn hit hk hnodup
  have hcur2 : Current modelled.1 := by
    rw [hmodelled]
    obtain ⟨-, -, c⟩ := open_current f hcur.version
    rw [c]
    obtain ⟨a1, a2, a3, a4, a5, a6⟩ := hcur
    exact ⟨a1, a2, a3, a4, a5, a6⟩
  refine ⟨by rw [hmodelled]; exact o1, ⟨by rw [hmodelled]; simp [isIndexDb, magicId, happ], .inl ⟨hcur2, by rw [hmodelled]; exact o2⟩⟩, hcur2, ?_⟩
  rw [hmodelled]
  exact o3

theorem summarized_keys {α : Type} {shows : Val → String → Val → Prop} {shows' : α → String → Val → Prop} {keys : List Val} {docs : List α}
    {key : α → Val} {known : String → Val → Prop} {positions positions' : String → Nat} {rows : List FieldRow}
    (hperm : keys.Perm (docs.map key)) (hshows : ∀ d ∈ docs, ∀ fl x, shows (key d) fl x ↔ shows' d fl x)
    (hpos : ∀ fl, positions fl = positions' fl) (h : Summarized shows keys known positions rows) :
    Summarized shows' docs known positions' rows := by
  have hex : ∀ fl x, (∃ k ∈ keys, shows k fl x) ↔ ∃ d ∈ docs, shows' d fl x := fun fl x =>
    exists_keys (P := fun k => shows k fl x) hperm (fun d hd => hshows d hd fl x)
  refine ⟨h.once, fun fl => (h.fields fl).trans (exists_congr fun x => by rw [hex]), fun row hrow => ?_, fun row hrow => by
    rw [h.positions row hrow, hpos]⟩
  obtain ⟨vs, b1, b2, b3⟩ := h.values row hrow
  exact ⟨vs, b1, fun x => (b2 x).trans (by rw [hex]), b3⟩

/-- The details of a source of documents, after `index` and after `model`. -/
theorem source_details {α : Type} {cfg : IndexCfg} {s : Schedule} {connect : Except Err (Option Backing)}
    {index : File → File × Except Err Unit} {shows : α → String → Val → Prop} {docs : List α} {key : α → Val} {html : α → String}
    {corpus : Corpus} {content : Val → Features} {render : List Val → Except Err (List (Val × String))} {shown : Val → String}
    (S : Source cfg s connect index shows docs key html corpus content render shown)
    (hf : Fair s) (hno : ∀ i, s.fault i = none) (f : File) (hu : Usable f)
    (luck : Luck Rat) (hscore : luck.score = exactScorer luck.chance) (hshuffle : ∀ l, (luck.shuffle l).Perm l)
    (args : ModelArgs) (confirm : Bool)
    (hn : ∀ k, args.clusters = some k → 0 ≤ k) (hit : 1 ≤ args.iterations) (hk : 1 ≤ args.groupTopK)
    (hfields : args.fields.Nodup) (hint : ReadsNumbers int) (v : Visit σ)
    (positions : String → Nat) (hpos : ∀ fl, (if cfg.positions then (corpus.keys.map (fun k => tokens fl (content k))).sum else 0) = positions fl) :
    let indexed := index f
    let modelled := Pipeline.model luck args confirm indexed.1
    let known := fun fl x => ∃ r ∈ f.data.features, r.field = fl ∧ r.value = x
    indexed.2 = .ok () ∧
    ShowsDetails (fun r => follow int connect indexed.1 { v with request := r }) shows docs known positions indexed.1.data.clusters.length ∧
    (indexed.1.data.clusters = [] ∨ (args.restart = true ∧ confirm = true) → modelled.2 = .done ∧
      ShowsDetails (fun r => follow int connect modelled.1 { v with request := r }) shows docs known positions modelled.1.data.clusters.length) := by
  intro indexed modelled known
  obtain ⟨a1, a2, a3, a4, a5⟩ := any_summary S.serves cfg S.indexable S.nonempty s hf hno f hu
  rw [← S.indexes f] at a1 a2 a3 a4 a5
  have hsum := summarized_keys S.perm S.has hpos a5
  rw [S.connects]
  refine ⟨a1, details_shown indexed.1 a2 a3 hsum hint _ v, fun hm => ?_⟩
  obtain ⟨b1, b2, b3, b4⟩ := model_keeps_summary luck hscore hshuffle args confirm indexed.1 a4 a3 a2 hm hn hit hk hfields hsum.once
  exact ⟨b1, details_shown modelled.1 b2 b3 (by rw [b4]; exact hsum) hint _ v⟩

/-- **C89, text.** After `create` and `index`, the details page lists the field "text", with the number of distinct tokens of all lines, the
least and the greatest of them, and, if positions are indexed, the number of tokens; values known before are counted
too.  `model` changes only the number of clusters. -/
theorem text_file_details (space : Char → Bool) (limit : Nat) (ls : List Line) (hls : ∀ l ∈ ls, l.Ok limit)
    (file : List Char) (hfile : file = ls.flatMap Line.render ∨ file ++ ['\n'] = ls.flatMap Line.render)
    (hne : documents space ls ≠ []) (old : PlainText.Db) (split : String → List String)
    (cfg : IndexCfg) (s : Schedule) (hf : Fair s) (hno : ∀ i, s.fault i = none) (f : File) (hu : Usable f)
    (luck : Luck Rat) (hscore : luck.score = exactScorer luck.chance) (hshuffle : ∀ l, (luck.shuffle l).Perm l)
    (args : ModelArgs) (confirm : Bool)
    (hn : ∀ k, args.clusters = some k → 0 ≤ k) (hit : 1 ≤ args.iterations) (hk : 1 ≤ args.groupTopK)
    (hfields : args.fields.Nodup) (hint : ReadsNumbers int) (v : Visit σ) :
    let docs := numbered (documents space ls)
    let corpus := Pipeline.create space limit file old
    let indexed := Pipeline.indexPlain split cfg s corpus.1 f
    let modelled := Pipeline.model luck args confirm indexed.1
    let shows := fun (d : Nat × String) (field : String) (x : Val) => field = "text" ∧ ∃ t ∈ split d.2, x = .text t
    let known := fun fl x => ∃ r ∈ f.data.features, r.field = fl ∧ r.value = x
    let positions := fun fl => if cfg.positions = true ∧ fl = "text" then ((documents space ls).map (fun d => (split d).length)).sum else 0
    indexed.2 = .ok () ∧
    ShowsDetails (fun r => follow int (plain split corpus.1) indexed.1 { v with request := r }) shows docs known positions
      indexed.1.data.clusters.length ∧
    (indexed.1.data.clusters = [] ∨ (args.restart = true ∧ confirm = true) → modelled.2 = .done ∧
      ShowsDetails (fun r => follow int (plain split corpus.1) modelled.1 { v with request := r }) shows docs known positions
        modelled.1.data.clusters.length) := by
  intro docs corpus indexed modelled shows known positions
  obtain ⟨-, shown, S⟩ := text_file_source space limit ls hls file hfile hne old split cfg s
  refine source_details S hf hno f hu luck hscore hshuffle args confirm hn hit hk hfields hint v positions ?_
  intro fl
  have hnk : ((numbered (documents space ls)).map (·.1)).Nodup := numbered_keys _
  have hdoc : ∀ d ∈ docs, tokens fl (plainContent split docs (.int d.1)) = if fl = "text" then (split d.2).length else 0 := by
    intro d hd
    have : plainContent split docs (.int d.1) = PlainText.features split d.2 := by
      unfold plainContent PlainText.indexed
      have : PlainText.asKey (Val.int (d.1 : Int)) = some d.1 := rfl
      rw [this]
      dsimp only
      rw [PlainText.docOf_unique _ hnk _ hd]
    rw [this]
    by_cases h : fl = "text"
    · subst h; simp [tokens, PlainText.features]
    · simp [tokens, PlainText.features, h, Ne.symm h]
  have hkeys : (PlainText.corpus split docs).keys = docs.map (fun d => Val.int d.1) := rfl
  have hsum : ((PlainText.corpus split docs).keys.map (fun k => tokens fl (plainContent split docs k))).sum =
      if fl = "text" then ((documents space ls).map (fun d => (split d).length)).sum else 0 := by
    rw [hkeys, List.map_map]
    have e : docs.map ((fun k => tokens fl (plainContent split docs k)) ∘ fun d => Val.int d.1) =
        docs.map (fun d => if fl = "text" then (split d.2).length else 0) := List.map_congr_left hdoc
    rw [e]
    have hd2 : docs.map (fun d => (split d.2).length) = (documents space ls).map (fun d => (split d).length) := by
      rw [show docs.map (fun d => (split d.2).length) = (docs.map (·.2)).map (fun d => (split d).length) from by rw [List.map_map]; rfl]
      congr 1
      exact numbered_snd _
    by_cases h : fl = "text"
    · simp only [h, if_true]; rw [hd2]
    · simp only [h, if_false]; simp
  by_cases hp : cfg.positions = true
  · simp only [hp, if_true, true_and, positions]; exact hsum
  · simp [hp, positions]

/-- **C89, data dumps.** -/
theorem sites_details (t : SX.TextOps) (h0 : t.tokens "" = []) (scan : List SX.Post → List SX.Post)
    (hscan : ∀ l, (scan l).Perm l) (ds : List (SX.Dump × String)) (hds : SitesReadable t ds) (hne : allPosts ds ≠ [])
    (order : List String → List String) (ho : ∀ l, (order l).Perm l)
    (cfg : IndexCfg) (s : Schedule) (hf : Fair s) (hno : ∀ i, s.fault i = none) (f : File) (hu : Usable f)
    (luck : Luck Rat) (hscore : luck.score = exactScorer luck.chance) (hshuffle : ∀ l, (luck.shuffle l).Perm l)
    (args : ModelArgs) (confirm : Bool)
    (hn : ∀ k, args.clusters = some k → 0 ≤ k) (hit : 1 ≤ args.iterations) (hk : 1 ≤ args.groupTopK)
    (hfields : args.fields.Nodup) (hint : ReadsNumbers int) (v : Visit σ) :
    let docs := (allPosts ds).zipIdx
    let corpus := Pipeline.addSites ds {}
    let indexed := Pipeline.indexSx t scan cfg s corpus.1 f
    let modelled := Pipeline.model luck args confirm indexed.1
    let shows := fun (x : SitePost × Nat) (field : String) (y : Val) => ∃ w, y = .text w ∧ SxShows t x.1.doc field w
    let known := fun fl x => ∃ r ∈ f.data.features, r.field = fl ∧ r.value = x
    corpus.2 = .ok () ∧ indexed.2 = .ok () ∧ ∃ positions : String → Nat, (cfg.positions = false → ∀ fl, positions fl = 0) ∧
    ShowsDetails (fun r => follow int (stackExchange t scan order corpus.1) indexed.1 { v with request := r }) shows docs known positions
      indexed.1.data.clusters.length ∧
    (indexed.1.data.clusters = [] ∨ (args.restart = true ∧ confirm = true) → modelled.2 = .done ∧
      ShowsDetails (fun r => follow int (stackExchange t scan order corpus.1) modelled.1 { v with request := r }) shows docs known positions
        modelled.1.data.clusters.length) := by
  intro docs corpus indexed modelled shows known
  obtain ⟨h1, html, h2, content, shown, S⟩ := sites_source t h0 scan hscan ds hds hne cfg s order ho
  obtain ⟨a1, a2⟩ := source_details S hf hno f hu luck hscore hshuffle args confirm hn hit hk hfields hint v _ (fun _ => rfl)
  exact ⟨h1, a1, _, fun h fl => by simp [h], a2⟩

/-- **C89, tweets.** -/
theorem tweets_details (t : TW.TextOps) (template : TW.Doc → String) (tw : TW.Db) (hr : TwReadable t tw)
    (hver : ∃ v, tw.version = some v ∧ 15 ≤ v) (hne : tw.direct ≠ [])
    (cfg : IndexCfg) (hpos : cfg.positions = true → ∀ x ∈ collected tw, NothingMissing tw x)
    (s : Schedule) (hf : Fair s) (hno : ∀ i, s.fault i = none) (f : File) (hu : Usable f)
    (luck : Luck Rat) (hscore : luck.score = exactScorer luck.chance) (hshuffle : ∀ l, (luck.shuffle l).Perm l)
    (args : ModelArgs) (confirm : Bool)
    (hn : ∀ k, args.clusters = some k → 0 ≤ k) (hit : 1 ≤ args.iterations) (hk : 1 ≤ args.groupTopK)
    (hfields : args.fields.Nodup) (hint : ReadsNumbers int) (v : Visit σ) :
    let docs := collected tw
    let indexed := Pipeline.indexTw t cfg s tw f
    let modelled := Pipeline.model luck args confirm indexed.1
    let known := fun fl x => ∃ r ∈ f.data.features, r.field = fl ∧ r.value = x
    indexed.2 = .ok () ∧ ∃ positions : String → Nat, (cfg.positions = false → ∀ fl, positions fl = 0) ∧
    ShowsDetails (fun r => follow int (twittersphere t template tw) indexed.1 { v with request := r }) (TwShows t tw) docs known positions
      indexed.1.data.clusters.length ∧
    (indexed.1.data.clusters = [] ∨ (args.restart = true ∧ confirm = true) → modelled.2 = .done ∧
      ShowsDetails (fun r => follow int (twittersphere t template tw) modelled.1 { v with request := r }) (TwShows t tw) docs known positions
        modelled.1.data.clusters.length) := by
  intro docs indexed modelled known
  obtain ⟨html, h2, content, shown, S⟩ := tweets_source t template tw hr hver hne cfg hpos s
  obtain ⟨a1, a2⟩ := source_details S hf hno f hu luck hscore hshuffle args confirm hn hit hk hfields hint v _ (fun _ => rfl)
  exact ⟨a1, _, fun h fl => by simp [h], a2⟩

/-- Three lines in a new file: one row, of the field "text", with as many positions as there are letters. -/
example (corpus : PlainText.Db × Except Err Unit) (hcorpus : Pipeline.create (· = ' ') 100 (demoLines.flatMap Line.render) none = corpus)
    (indexed : File × Except Err Unit) (hindexed : Pipeline.indexPlain letters ⟨2, 2, true⟩ demoSchedule corpus.1 File.empty = indexed) :
    ∃ row, (follow readInt (plain letters corpus.1) indexed.1 (demoVisit (.get "/index/0/details")) 0).2 = .details [row] indexed.1.data.clusters.length ∧
      row.field = "text" ∧ row.positionCount = ((documents (· = ' ') demoLines).map (fun d => (letters d).length)).sum := by
  have main := text_file_details (int := readInt) (· = ' ') 100 demoLines demoLines_ok _ (.inl rfl) (by decide +kernel)
    none letters ⟨2, 2, true⟩ demoSchedule demo_fair (fun _ => rfl) File.empty (.inl ⟨rfl, rfl, rfl⟩) demoLuck rfl
    (fun _ => .refl _) { clusters := some 2, minDocs := 1 } false (by intro k hk; cases hk; decide) (by decide) (by decide)
    (by decide) readInt_reads (demoVisit (.get "/"))
  dsimp only at main
  rw [hcorpus, hindexed] at main
  obtain ⟨-, ⟨rows, r1, r2, -, -⟩, -⟩ := main
  have hmem : ∀ fl, fl ∈ rows.map (·.field) ↔ fl = "text" := by
    intro fl
    rw [r1.fields]
    constructor
    · rintro ⟨v, ⟨d, -, h, -⟩ | ⟨r, hr, -⟩⟩
      · exact h
      · cases hr
    · rintro rfl
      exact ⟨.text "c", .inl ⟨(2, "a c"), by decide +kernel, rfl, "c", by decide +kernel, rfl⟩⟩
  have hone : rows.map (·.field) = ["text"] := by
    have := (List.perm_ext_iff_of_nodup r1.once (List.nodup_singleton "text")).2 (fun fl => by rw [hmem]; simp)
    exact List.perm_singleton.1 this
  obtain ⟨row, rfl, hrow⟩ : ∃ row, rows = [row] ∧ row.field = "text" := by
    cases rows with
    | nil => cases hone
    | cons a l =>
      cases l with
      | nil => exact ⟨a, rfl, by simpa using hone⟩
      | cons b l => simp at hone
  refine ⟨row, r2, hrow, ?_⟩
  rw [r1.positions row (by simp), if_pos ⟨rfl, hrow⟩]

/-- Two sites under an older model: the details list the field "Site" and what was known before. -/
example (corpus : SX.Db × Except Err Unit) (hcorpus : Pipeline.addSites twoSites {} = corpus)
    (indexed : File × Except Err Unit) (hindexed : Pipeline.indexSx fieldOps List.reverse ⟨2, 2, false⟩ demoSchedule corpus.1 earlierFile = indexed) :
    ∃ rows, (follow readInt (stackExchange fieldOps List.reverse List.reverse corpus.1) indexed.1
        (demoVisit (.get "/index/0/details")) 0).2 = .details rows indexed.1.data.clusters.length ∧
      (∃ row ∈ rows, row.field = "Site" ∧ 1 ≤ row.distinct ∧ row.positionCount = 0) ∧
      ∀ r ∈ earlierFile.data.features, ∃ row ∈ rows, row.field = r.field := by
  have main := sites_details (int := readInt) fieldOps rfl List.reverse List.reverse_perm twoSites
    twoSites_readable (by decide +kernel) List.reverse List.reverse_perm ⟨2, 2, false⟩ demoSchedule demo_fair (fun _ => rfl) earlierFile
    earlierFile_usable demoLuck rfl (fun _ => .refl _) {} false (by intro k hk; cases hk) (by decide) (by decide)
    (by decide) readInt_reads (demoVisit (.get "/"))
  dsimp only at main
  rw [hcorpus, hindexed] at main
  obtain ⟨-, -, positions, hz, ⟨rows, r1, r2, -, -⟩, -⟩ := main
  have hmem : ((⟨otherDump, "two", 2, (considered otherDump)[0]'(by decide +kernel)⟩, 2) : SitePost × Nat) ∈ (allPosts twoSites).zipIdx := by
    rw [List.mk_mem_zipIdx_iff_getElem?]
    rfl
  refine ⟨rows, r2, ?_, fun r hr => ?_⟩
  · obtain ⟨row, hrow, hfield⟩ := List.mem_map.1 ((r1.fields "Site").2 ⟨.text "two", .inl ⟨_, hmem, "two", rfl, .site⟩⟩)
    obtain ⟨vs, -, b2, b3, -⟩ := r1.values row hrow
    have : (.text "two" : Val) ∈ vs := (b2 _).2 (.inl ⟨_, hmem, "two", rfl, by rw [hfield]; exact .site⟩)
    refine ⟨row, hrow, hfield, ?_, ?_⟩
    · rw [b3]; exact List.length_pos_of_mem this
    · rw [r1.positions row hrow, hz rfl]
  · exact List.mem_map.1 ((r1.fields r.field).2 ⟨r.value, .inr ⟨r, hr, rfl, rfl⟩⟩)

/-- Two tweets in a new file: the details list the field "by" with the author "ann". -/
example (indexed : File × Except Err Unit) (hindexed : Pipeline.indexTw twOps ⟨2, 2, true⟩ demoSchedule linkedTweets File.empty = indexed) :
    ∃ rows, (follow readInt (twittersphere twOps (fun d => String.ofList (Html.tweetHtml (TW.tweetView demoDisplay d))) linkedTweets) indexed.1
        (demoVisit (.get "/index/0/details")) 0).2 = .details rows indexed.1.data.clusters.length ∧
      ∃ row ∈ rows, row.field = "by" ∧ Val.le row.minValue (.text "ann") = true := by
  have main := tweets_details (int := readInt) twOps (fun d => String.ofList (Html.tweetHtml (TW.tweetView demoDisplay d))) linkedTweets
    linkedTweets_indexable.1 linkedTweets_indexable.2.1 linkedTweets_indexable.2.2.1 ⟨2, 2, true⟩ (fun _ => linkedTweets_indexable.2.2.2.1)
    demoSchedule demo_fair (fun _ => rfl) File.empty (.inl ⟨rfl, rfl, rfl⟩) demoLuck rfl (fun _ => .refl _) {} false
    (by intro k hk; cases hk) (by decide) (by decide) (by decide) readInt_reads (demoVisit (.get "/"))
  dsimp only at main
  rw [hindexed] at main
  obtain ⟨-, positions, -, ⟨rows, r1, r2, -, -⟩, -⟩ := main
  have hmem : (⟨1, 10, "r", "2020", "hello", some 1, none, some 2, some 3⟩ : TW.Tweet) ∈ collected linkedTweets := by decide +kernel
  have hby : TwShows twOps linkedTweets ⟨1, 10, "r", "2020", "hello", some 1, none, some 2, some 3⟩ "by" (.text "ann") :=
    .author ⟨10, "r", some "ann"⟩ "ann" (by decide) rfl rfl
  obtain ⟨row, hrow, hfield⟩ := List.mem_map.1 ((r1.fields "by").2 ⟨.text "ann", .inl ⟨_, hmem, hby⟩⟩)
  obtain ⟨vs, -, b2, -, -, -, b3⟩ := r1.values row hrow
  exact ⟨rows, r2, row, hrow, hfield, (b3 _ ((b2 _).2 (.inl ⟨_, hmem, by rw [hfield]; exact hby⟩))).1⟩

end Hyperreal.Props
