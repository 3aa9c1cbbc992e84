import Verif.Spec.PageForms
import Verif.Lemmas.PageTags

/-! # The links and forms of the pages -/

namespace Hyperreal.Pages
open Web Spec Spec.Page

variable {σ : Type}

/-! ## Text of templates -/

def plainText (s : String) : Bool := decide (cellsOf none s.toList = s.toList.map .inl)

theorem textOf_plain (env : String → String) (s : String) (h : plainText s = true) : textOf env s = s := by
  rw [textOf_pieces env s [.inl s] (by simpa [plainText] using h)]
  simp [piece]

section
variable (env : String → String)

theorem textOf_index : textOf env "/index/{{ index_id }}" = "/index/" ++ env "index_id" :=
  (textOf_pieces env _ [.inl "/index/", .inr "index_id"] (by decide +kernel)).trans (by simp only [List.foldr_cons, List.foldr_nil, piece, String.append_assoc, String.append_empty, String.empty_append])

theorem textOf_details : textOf env "/index/{{ index_id }}/details" = "/index/" ++ env "index_id" ++ "/details" :=
  (textOf_pieces env _ [.inl "/index/", .inr "index_id", .inl "/details"] (by decide +kernel)).trans (by simp only [List.foldr_cons, List.foldr_nil, piece, String.append_assoc, String.append_empty, String.empty_append])

theorem textOf_export : textOf env "/index/{{ index_id }}/export_clusters" = "/index/" ++ env "index_id" ++ "/export_clusters" :=
  (textOf_pieces env _ [.inl "/index/", .inr "index_id", .inl "/export_clusters"] (by decide +kernel)).trans
    (by simp only [List.foldr_cons, List.foldr_nil, piece, String.append_assoc, String.append_empty, String.empty_append])

theorem textOf_cluster : textOf env "/index/{{ index_id }}/cluster/{{ cluster_id }}" =
    "/index/" ++ env "index_id" ++ "/cluster/" ++ env "cluster_id" :=
  (textOf_pieces env _ [.inl "/index/", .inr "index_id", .inl "/cluster/", .inr "cluster_id"] (by decide +kernel)).trans
    (by simp only [List.foldr_cons, List.foldr_nil, piece, String.append_assoc, String.append_empty, String.empty_append])

theorem textOf_prev : textOf env "/index/{{ index_id }}/cluster/{{ prev_cluster_id }}" =
    "/index/" ++ env "index_id" ++ "/cluster/" ++ env "prev_cluster_id" :=
  (textOf_pieces env _ [.inl "/index/", .inr "index_id", .inl "/cluster/", .inr "prev_cluster_id"] (by decide +kernel)).trans
    (by simp only [List.foldr_cons, List.foldr_nil, piece, String.append_assoc, String.append_empty, String.empty_append])

theorem textOf_next : textOf env "/index/{{ index_id }}/cluster/{{ next_cluster_id }}" =
    "/index/" ++ env "index_id" ++ "/cluster/" ++ env "next_cluster_id" :=
  (textOf_pieces env _ [.inl "/index/", .inr "index_id", .inl "/cluster/", .inr "next_cluster_id"] (by decide +kernel)).trans
    (by simp only [List.foldr_cons, List.foldr_nil, piece, String.append_assoc, String.append_empty, String.empty_append])

theorem textOf_pivot : textOf env "/index/{{ index_id }}/?cluster_id={{ cluster_id }}" =
    "/index/" ++ env "index_id" ++ "/?cluster_id=" ++ env "cluster_id" :=
  (textOf_pieces env _ [.inl "/index/", .inr "index_id", .inl "/?cluster_id=", .inr "cluster_id"] (by decide +kernel)).trans
    (by simp only [List.foldr_cons, List.foldr_nil, piece, String.append_assoc, String.append_empty, String.empty_append])

theorem textOf_feature : textOf env "/index/{{ index_id }}/?feature_id={{ feature_id }}" =
    "/index/" ++ env "index_id" ++ "/" ++ "" ++ "?feature_id=" ++ env "feature_id" :=
  (textOf_pieces env _ [.inl "/index/", .inr "index_id", .inl "/", .inl "?feature_id=", .inr "feature_id"] (by decide +kernel)).trans
    (by simp only [List.foldr_cons, List.foldr_nil, piece, String.append_assoc, String.append_empty, String.empty_append])

theorem textOf_clusterFeature : textOf env "/index/{{ index_id }}/cluster/{{ cluster_id }}/?feature_id={{ feature_id }}" =
    "/index/" ++ env "index_id" ++ "/" ++ ("cluster/" ++ env "cluster_id" ++ "/") ++ "?feature_id=" ++ env "feature_id" :=
  (textOf_pieces env _ [.inl "/index/", .inr "index_id", .inl "/", .inl "cluster/", .inr "cluster_id", .inl "/", .inl "?feature_id=",
    .inr "feature_id"] (by decide +kernel)).trans (by simp only [List.foldr_cons, List.foldr_nil, piece, String.append_assoc, String.append_empty, String.empty_append])

theorem textOf_byFeature : textOf env "/index/{{ index_id }}/cluster/{{ cluster_id }}/?feature_id={{ highlight_feature_id }}" =
    "/index/" ++ env "index_id" ++ "/cluster/" ++ env "cluster_id" ++ "/?feature_id=" ++ env "highlight_feature_id" :=
  (textOf_pieces env _ [.inl "/index/", .inr "index_id", .inl "/cluster/", .inr "cluster_id", .inl "/?feature_id=",
    .inr "highlight_feature_id"] (by decide +kernel)).trans (by simp only [List.foldr_cons, List.foldr_nil, piece, String.append_assoc, String.append_empty, String.empty_append])

theorem textOf_byCluster : textOf env "/index/{{ index_id }}/cluster/{{ cluster_id }}/?filter_cluster_id={{ highlight_cluster_id }}" =
    "/index/" ++ env "index_id" ++ "/cluster/" ++ env "cluster_id" ++ "/?filter_cluster_id=" ++ env "highlight_cluster_id" :=
  (textOf_pieces env _ [.inl "/index/", .inr "index_id", .inl "/cluster/", .inr "cluster_id", .inl "/?filter_cluster_id=",
    .inr "highlight_cluster_id"] (by decide +kernel)).trans (by simp only [List.foldr_cons, List.foldr_nil, piece, String.append_assoc, String.append_empty, String.empty_append])

theorem textOf_listed : textOf env "{{ index_path }}, {{ corpus_class.CORPUS_TYPE }}" =
    env "index_path" ++ ", " ++ env "corpus_class.CORPUS_TYPE" :=
  (textOf_pieces env _ [.inr "index_path", .inl ", ", .inr "corpus_class.CORPUS_TYPE"] (by decide +kernel)).trans
    (by simp only [List.foldr_cons, List.foldr_nil, piece, String.append_assoc, String.append_empty, String.empty_append])

end

/-! ## Links -/

theorem links_append (a b : List Node) : links (a ++ b) = links a ++ links b := List.filterMap_append

theorem links_cons (n : Node) (b : List Node) : links (n :: b) =
    (if n.tag = "a" then (n.attr "href").map (fun u => (u, n.text)) else none).toList ++ links b := by
  unfold links
  rw [List.filterMap_cons]
  split <;> rename_i h <;> rw [h] <;> rfl

theorem links_flatMap {α : Type} (l : List α) (f : α → List Node) : links (l.flatMap f) = l.flatMap (fun a => links (f a)) := by
  induction l with
  | nil => rfl
  | cons a l ih => rw [List.flatMap_cons, List.flatMap_cons, links_append, ih]

theorem links_node (n : Node) (h : n.tag ≠ "a") (b : List Node) : links (n :: b) = links b := by
  rw [links_cons, if_neg h]; rfl

theorem links_plain (ps : List Pattern) (env : String → String) (h : ps.all (fun p => decide (p.tag ≠ "a")) = true) :
    links (tags env ps) = [] := by
  unfold links tags
  rw [List.filterMap_map]
  refine List.filterMap_eq_nil_iff.2 fun p hp => ?_
  have := List.all_eq_true.1 h p hp
  simp only [decide_eq_true_eq] at this
  simp [Pattern.node, this]

theorem links_patterns (ps : List Pattern) (env : String → String) (l : List (String × String))
    (h : ps.filterMap (fun p => if p.tag = "a" then (p.attrs.lookup "href").map (fun u => (u, p.text)) else none) = l) :
    links (tags env ps) = l.map (fun x => (textOf env x.1, textOf env x.2)) := by
  subst h
  unfold links tags
  rw [List.filterMap_map, List.map_filterMap]
  congr 1
  funext p
  have hl : ∀ as : List (String × String), (as.map (fun a => (a.1, textOf env a.2))).lookup "href" = (as.lookup "href").map (textOf env) := by
    intro as
    induction as with
    | nil => rfl
    | cons a as ih =>
      rw [List.map_cons, List.lookup_cons, List.lookup_cons, ih]
      by_cases hh : ("href" == a.1) = true <;> simp [hh]
  by_cases hp : p.tag = "a"
  · simp only [Function.comp, Pattern.node, Node.attr, hp, if_true, hl, Option.map_map]
    rfl
  · simp [Function.comp, Pattern.node, hp]

theorem nodes_head (s : List Char) : ∃ t es, nodes s = ⟨"", [], t⟩ :: es := by
  have hg := grafted_fold (D := []) (tag := []) (attrs := []) s (Grafted.first [])
  obtain ⟨e, es, h2, h3, -⟩ := grafted_nodes hg
  exact ⟨e.text, es, h3⟩

theorem links_docTags (d : Html.Doc) : links (docTags d) = match d with | .text _ => [] | .markup s => links (nodes s) := by
  cases d with
  | text s => simp [docTags, links]
  | markup s =>
    obtain ⟨t, es, h⟩ := nodes_head s
    simp only [docTags, h, List.cons_append, List.tail_cons]
    rw [links_node _ (by simp), links_node _ (by simp), links_append]
    simp [links]

theorem links_results (asDoc : String → Html.Doc) (total : Nat) (r : Results) :
    links (resultBoxTags asDoc total r) = docLinks asDoc r := by
  unfold resultBoxTags
  by_cases h0 : found r = 0
  · rw [if_pos h0]
    cases r with
    | documents rs =>
      have : rs = [] := by simpa [found] using h0
      subst this; rfl
    | _ => rfl
  · rw [if_neg h0, links_append, links_append]
    have h1 : links (tags (fun _ => toString total) (resultTags (decide (found r < total)))) = [] :=
      links_plain _ _ (by generalize decide (found r < total) = b; cases b <;> decide +kernel)
    rw [h1, links_node _ (by simp)]
    have : links (resultListTags asDoc r) = docLinks asDoc r := by
      cases r with
      | nothing => rfl
      | concordance rs => rfl
      | documents rs =>
        simp only [resultListTags, docLinks]
        rw [List.cons_append, links_node _ (by simp), links_append, links_flatMap]
        rw [links_node _ (by simp)]
        simp only [links_docTags]
        have : links [] = [] := rfl
        rw [this, List.append_nil]
        refine List.flatMap_congr fun r _ => ?_
        cases asDoc r.2.2 <;> rfl
      | passages rs =>
        simp only [resultListTags, docLinks]
        rw [List.cons_append, links_node _ (by simp), links_append, links_flatMap]
        have hp : ∀ row : Dict String RowCell, links (passageTags row) = [] := by
          intro row
          unfold passageTags
          rw [links_append, links_append, links_flatMap]
          simp only [links_flatMap]
          simp [links]
        simp only [hp]
        simp [links]
    rw [this]
    simp [links]

theorem links_search (i : String) (fields : List String) (cluster : Option Int) : links (searchFormTags i fields cluster) = [] := by
  unfold searchFormTags
  rw [links_append, links_append, links_flatMap, links_plain _ _ (by decide +kernel)]
  rw [links_plain (searchEndTags _) _ (by generalize decide (cluster.getD 0 ≠ 0) = b; cases b <;> decide +kernel)]
  simp [links_plain optionTags _ (by decide +kernel)]

theorem links_forms (i : String) (c next : Int) (pinned : Bool) (es : List Entry) : links (clusterFormTags i c next pinned es) = [] := by
  unfold clusterFormTags
  dsimp only
  split_ifs
  · exact links_plain _ _ (by decide +kernel)
  · simp only [links_append, links_flatMap]
    simp [links_plain removeTags _ (by decide +kernel), links_plain chooseTags _ (by decide +kernel),
      links_plain deleteTags _ (by decide +kernel), links_plain (pinTags false) _ (by decide +kernel),
      links_plain splitTags _ (by decide +kernel)]
    rfl
  · simp only [links_append, links_flatMap]
    simp [links_plain removeTags _ (by decide +kernel), links_plain chooseTags _ (by decide +kernel),
      links_plain deleteTags _ (by decide +kernel), links_plain (pinTags false) _ (by decide +kernel),
      links_plain visibleTags _ (by decide +kernel), links_plain visibleFeatureTags _ (by decide +kernel),
      links_plain visibleEndTags _ (by decide +kernel), links_plain splitTags _ (by decide +kernel)]

theorem links_entry (i : String) (c : Int) (cluster : Bool) (highlight : Option Nat) (e : Entry) :
    links (entryTags i c cluster highlight e) =
      [("/index/" ++ i ++ "/" ++ (if cluster then "cluster/" ++ toString c ++ "/" else "") ++ "?feature_id=" ++ toString e.fid, "")] := by
  unfold entryTags
  generalize decide (some e.fid = highlight) = b
  cases cluster
  · rw [links_patterns _ _ [("/index/{{ index_id }}/?feature_id={{ feature_id }}", "")] (by cases b <;> decide +kernel)]
    rw [List.map_cons, List.map_nil, textOf_feature, textOf_plain _ "" (by decide +kernel)]
    simp
  · rw [links_patterns _ _ [("/index/{{ index_id }}/cluster/{{ cluster_id }}/?feature_id={{ feature_id }}", "")] (by cases b <;> decide +kernel)]
    rw [List.map_cons, List.map_nil, textOf_clusterFeature, textOf_plain _ "" (by decide +kernel)]
    simp

theorem links_head (t : String) : links (tags (fun _ => t) headTags) = [] := links_plain _ _ (by decide +kernel)

theorem links_page (title : String) (nav content : List Node) :
    links (pageTags title nav content) = captioned baseLinks ++ links nav ++ links content := by
  unfold pageTags
  rw [links_node _ (by simp)]
  simp only [links_append, links_head]
  rw [links_plain mainTags _ (by decide +kernel), links_plain footTags _ (by decide +kernel),
    links_patterns bodyTags _ [("/", "Feature Clustering")] (by decide +kernel), List.map_cons, List.map_nil,
    textOf_plain _ "/" (by decide +kernel), textOf_plain _ "Feature Clustering" (by decide +kernel)]
  simp [captioned, baseLinks, caption]

/-! ## Forms -/

theorem lookup_map (env : String → String) (as : List (String × String)) (k : String) :
    (as.map (fun a => (a.1, textOf env a.2))).lookup k = (as.lookup k).map (textOf env) := by
  induction as with
  | nil => rfl
  | cons a as ih =>
    rw [List.map_cons, List.lookup_cons, List.lookup_cons, ih]
    by_cases hh : (k == a.1) = true <;> simp [hh]

theorem attr_node (env : String → String) (p : Pattern) (k : String) : (p.node env).attr k = (p.attrs.lookup k).map (textOf env) :=
  lookup_map env p.attrs k

/-- What a tag of a template does to the forms. -/
inductive Op where
  | start (id : Option String) (post : Bool) (action : String)
  | finish
  | hidden (form : Option String) (name value : String)
  | tick (form : Option String) (name value : String)
  | typed (form : Option String) (name : String)
  | select (name : String) (many : Bool)
  | option (value : String)
  | endSelect
  | button (action : Option String)
  | other
  deriving DecidableEq

def putControl (r : FormReader) (form : Option String) (c : Control) : FormReader :=
  match form with
  | some id => { r with forms := r.forms.map (fun f => if f.id = some id then f.add c else f) }
  | none => { r with cur := r.cur.map (fun f => f.add c) }

def Op.apply (env : String → String) (r : FormReader) : Op → FormReader
  | .start id post action => { r with cur := some ⟨id, post, textOf env action, [], []⟩ }
  | .finish => { r with forms := r.forms ++ r.cur.toList, cur := none }
  | .hidden form name value => putControl r form (.hidden name (textOf env value))
  | .tick form name value => putControl r form (.tick name (textOf env value))
  | .typed form name => putControl r form (.typed name)
  | .select name many => { r with sel := some (name, many, []) }
  | .option value => { r with sel := r.sel.map (fun s => (s.1, s.2.1, s.2.2 ++ [textOf env value])) }
  | .endSelect =>
    match r.sel with
    | some (name, many, options) => { r with cur := r.cur.map (fun f => f.add (.choose name many options)), sel := none }
    | none => r
  | .button action => { r with cur := r.cur.map (fun f => { f with buttons := f.buttons ++ [action.map (textOf env)] }) }
  | .other => r

def Pattern.raw (p : Pattern) (k : String) : Option String := p.attrs.lookup k

/-- The attribute is the same whatever is shown. -/
def Pattern.fixed (p : Pattern) (k : String) : Bool := (p.attrs.lookup k).all plainText

def opOf (p : Pattern) : Option Op :=
  if p.tag = "form" then
    if Pattern.fixed p "id" && Pattern.fixed p "method" then
      some (.start (Pattern.raw p "id") (decide (Pattern.raw p "method" = some "post")) ((Pattern.raw p "action").getD "")) else none
  else if p.tag = "/form" then some .finish
  else if p.tag = "input" then
    if Pattern.fixed p "form" && Pattern.fixed p "type" && Pattern.fixed p "name" then
      some (if Pattern.raw p "type" = some "hidden" then .hidden (Pattern.raw p "form") ((Pattern.raw p "name").getD "") ((Pattern.raw p "value").getD "")
        else if Pattern.raw p "type" = some "checkbox" then .tick (Pattern.raw p "form") ((Pattern.raw p "name").getD "") ((Pattern.raw p "value").getD "")
        else .typed (Pattern.raw p "form") ((Pattern.raw p "name").getD ""))
    else none
  else if p.tag = "select" then
    if Pattern.fixed p "name" then some (.select ((Pattern.raw p "name").getD "") (Pattern.raw p "multiple").isSome) else none
  else if p.tag = "option" then some (.option ((Pattern.raw p "value").getD ""))
  else if p.tag = "/select" then some .endSelect
  else if p.tag = "button" then some (.button (Pattern.raw p "formaction"))
  else some .other

theorem fixed_attr (env : String → String) (p : Pattern) (k : String) (h : Pattern.fixed p k = true) :
    (p.node env).attr k = Pattern.raw p k := by
  rw [attr_node]
  unfold Pattern.fixed at h
  unfold Pattern.raw
  cases hl : p.attrs.lookup k with
  | none => rfl
  | some v =>
    rw [hl] at h
    show some (textOf env v) = some v
    rw [textOf_plain env v (by simpa using h)]

theorem getD_attr (env : String → String) (p : Pattern) (k : String) :
    ((p.node env).attr k).getD "" = textOf env ((Pattern.raw p k).getD "") := by
  rw [attr_node]
  unfold Pattern.raw
  cases p.attrs.lookup k with
  | none => exact (textOf_plain env "" (by decide +kernel)).symm
  | some v => rfl

theorem op_step (env : String → String) (r : FormReader) (p : Pattern) (o : Op) (h : opOf p = some o) :
    r.step (p.node env) = o.apply env r := by
  unfold opOf at h
  unfold FormReader.step
  have ht : (p.node env).tag = p.tag := rfl
  rw [ht]
  split_ifs at h with h1 h2 h3 h4 h5 h6 h7 h8 h9 h10 h11 h12
  · simp only [Bool.and_eq_true] at h2
    cases h
    rw [if_pos h1]
    simp only [fixed_attr env p _ h2.1, fixed_attr env p _ h2.2, getD_attr, Op.apply]
  · cases h; rw [if_neg h1, if_pos h3]; rfl
  · simp only [Bool.and_eq_true] at h5
    cases h
    rw [if_neg h1, if_neg h3, if_pos h4, fixed_attr env p _ h5.1.1]
    have : (p.node env).control = .hidden ((Pattern.raw p "name").getD "") (textOf env ((Pattern.raw p "value").getD "")) := by
      unfold Node.control
      rw [fixed_attr env p _ h5.1.2, if_pos h6, fixed_attr env p _ h5.2, getD_attr]
    rw [this]; rfl
  · simp only [Bool.and_eq_true] at h5
    cases h
    rw [if_neg h1, if_neg h3, if_pos h4, fixed_attr env p _ h5.1.1]
    have : (p.node env).control = .tick ((Pattern.raw p "name").getD "") (textOf env ((Pattern.raw p "value").getD "")) := by
      unfold Node.control
      rw [fixed_attr env p _ h5.1.2, if_neg h6, if_pos h7, fixed_attr env p _ h5.2, getD_attr]
    rw [this]; rfl
  · simp only [Bool.and_eq_true] at h5
    cases h
    rw [if_neg h1, if_neg h3, if_pos h4, fixed_attr env p _ h5.1.1]
    have : (p.node env).control = .typed ((Pattern.raw p "name").getD "") := by
      unfold Node.control
      rw [fixed_attr env p _ h5.1.2, if_neg h6, if_neg h7, fixed_attr env p _ h5.2]
    rw [this]; rfl
  · cases h
    rw [if_neg h1, if_neg h3, if_neg h4, if_pos h8, fixed_attr env p _ h9, attr_node, Option.isSome_map]; rfl
  · cases h
    rw [if_neg h1, if_neg h3, if_neg h4, if_neg h8, if_pos h10, getD_attr]; rfl
  · cases h
    rw [if_neg h1, if_neg h3, if_neg h4, if_neg h8, if_neg h10, if_pos h11]; rfl
  · cases h
    rw [if_neg h1, if_neg h3, if_neg h4, if_neg h8, if_neg h10, if_neg h11, if_pos h12, attr_node]; rfl
  · cases h
    rw [if_neg h1, if_neg h3, if_neg h4, if_neg h8, if_neg h10, if_neg h11, if_neg h12]; rfl

theorem ops_fold (env : String → String) (ps : List Pattern) : ∀ (os : List Op) (r : FormReader), ps.mapM opOf = some os →
    (tags env ps).foldl FormReader.step r = os.foldl (fun r o => o.apply env r) r := by
  induction ps with
  | nil => intro os r h; cases h; rfl
  | cons p ps ih =>
    intro os r h
    rw [List.mapM_cons] at h
    cases hp : opOf p with
    | none => rw [hp] at h; cases h
    | some o =>
      rw [hp] at h
      cases hq : ps.mapM opOf with
      | none => rw [hq] at h; cases h
      | some os' =>
        rw [hq] at h
        cases h
        show ((tags env ps)).foldl FormReader.step (r.step (p.node env)) = _
        rw [op_step env r p o hp, ih os' _ hq]
        rfl

theorem apply_filter (env : String → String) (os : List Op) : ∀ r : FormReader,
    os.foldl (fun r o => o.apply env r) r = (os.filter (fun o => decide (o ≠ .other))).foldl (fun r o => o.apply env r) r := by
  induction os with
  | nil => intro r; rfl
  | cons o os ih =>
    intro r
    by_cases h : o = .other
    · subst h
      rw [List.foldl_cons, ih, List.filter_cons_of_neg (by simp)]; rfl
    · rw [List.foldl_cons, ih, List.filter_cons_of_pos (by simpa using h), List.foldl_cons]

theorem tags_fold (env : String → String) (ps : List Pattern) (os : List Op) (r : FormReader)
    (h : (ps.mapM opOf).map (fun os => os.filter (fun o => decide (o ≠ .other))) = some os) :
    (tags env ps).foldl FormReader.step r = os.foldl (fun r o => o.apply env r) r := by
  cases hm : ps.mapM opOf with
  | none => rw [hm] at h; cases h
  | some os' =>
    rw [hm] at h
    cases h
    rw [ops_fold env ps os' r hm, apply_filter]

theorem textOf_action (env : String → String) (t x : String)
    (h : cellsOf none t.toList = "/index/".toList.map .inl ++ [.inr "index_id"] ++ x.toList.map .inl) :
    textOf env t = "/index/" ++ env "index_id" ++ x := by
  rw [textOf_pieces env t [.inl "/index/", .inr "index_id", .inl x] (by rw [h]; simp)]
  simp only [List.foldr_cons, List.foldr_nil, piece, String.append_assoc, String.append_empty]

theorem textOf_value (env : String → String) (t n : String) (h : cellsOf none t.toList = [.inr n]) : textOf env t = env n := by
  rw [textOf_pieces env t [.inr n] (by rw [h]; rfl)]
  simp only [List.foldr_cons, List.foldr_nil, piece, String.append_empty]

/-- Reading changes nothing about forms. -/
def Neutral (ns : List Node) : Prop := ∀ r : FormReader, ns.foldl FormReader.step r = r

theorem neutral_append {a b : List Node} (ha : Neutral a) (hb : Neutral b) : Neutral (a ++ b) := by
  intro r; rw [List.foldl_append, ha, hb]

theorem neutral_flatMap {α : Type} (l : List α) (f : α → List Node) (h : ∀ a ∈ l, Neutral (f a)) : Neutral (l.flatMap f) := by
  induction l with
  | nil => intro r; rfl
  | cons a l ih =>
    rw [List.flatMap_cons]
    exact neutral_append (h a (by simp)) (ih fun b hb => h b (by simp [hb]))

theorem neutral_tags (env : String → String) (ps : List Pattern) (h : ps.all (fun p => decide (opOf p = some .other)) = true) :
    Neutral (tags env ps) := by
  intro r
  induction ps generalizing r with
  | nil => rfl
  | cons p ps ih =>
    simp only [List.all_cons, Bool.and_eq_true, decide_eq_true_eq] at h
    show (tags env ps).foldl FormReader.step (r.step (p.node env)) = r
    rw [op_step env r p .other h.1]
    exact ih h.2 r

theorem neutral_nodes (ns : List Node) (h : ∀ n ∈ ns, n.tag ∉ formTags) : Neutral ns := by
  intro r
  induction ns generalizing r with
  | nil => rfl
  | cons n ns ih =>
    have h1 := h n (by simp)
    simp only [formTags, List.mem_cons, List.not_mem_nil, or_false, not_or] at h1
    have : r.step n = r := by
      unfold FormReader.step
      simp [h1]
    rw [List.foldl_cons, this, ih (fun m hm => h m (by simp [hm]))]

theorem neutral_entry (i : String) (c : Int) (cluster : Bool) (highlight : Option Nat) (e : Entry) :
    Neutral (entryTags i c cluster highlight e) :=
  neutral_tags _ _ (by generalize decide (some e.fid = highlight) = b; cases b <;> cases cluster <;> decide +kernel)

theorem neutral_results (asDoc : String → Html.Doc) (total : Nat) (r : Results) (h : FormFree asDoc r) :
    Neutral (resultBoxTags asDoc total r) := by
  unfold resultBoxTags
  split_ifs
  · intro r; rfl
  · refine neutral_append (neutral_append (neutral_tags _ _ ?_) ?_) (neutral_nodes _ (by decide +kernel))
    · generalize decide (found r < total) = b; cases b <;> decide +kernel
    · cases r with
      | nothing => intro r; rfl
      | concordance rs => intro r; rfl
      | documents rs =>
        refine neutral_append (a := _ :: _) (neutral_append (a := [_]) (neutral_nodes _ (by decide +kernel)) (neutral_flatMap _ _ fun d hd => ?_))
          (neutral_nodes _ (by decide +kernel))
        refine neutral_nodes _ fun n hn => ?_
        cases ha : asDoc d.2.2 with
        | text s =>
          rw [ha] at hn
          simp only [docTags, List.mem_cons, List.not_mem_nil, or_false] at hn
          rcases hn with rfl | rfl
          · show "li" ∉ formTags; decide
          · show "/li" ∉ formTags; decide
        | markup s =>
          rw [ha] at hn
          simp only [docTags, List.cons_append, List.mem_cons, List.mem_append, List.not_mem_nil, or_false] at hn
          rcases hn with rfl | hn | rfl
          · show "li" ∉ formTags; decide
          · exact h d hd s ha n (List.mem_of_mem_tail hn)
          · show "/li" ∉ formTags; decide
      | passages rs =>
        refine neutral_append (a := _ :: _) (neutral_append (a := [_]) (neutral_nodes _ (by decide +kernel)) (neutral_flatMap _ _ fun d hd => ?_))
          (neutral_nodes _ (by decide +kernel))
        unfold passageTags
        refine neutral_append (neutral_append (neutral_nodes _ (by decide +kernel)) (neutral_flatMap _ _ fun e _ =>
          neutral_flatMap _ _ fun v _ => neutral_nodes _ fun n hn => ?_)) (neutral_nodes _ (by decide +kernel))
        simp only [List.mem_cons, List.not_mem_nil, or_false] at hn
        rcases hn with rfl | rfl | rfl | rfl
        · show "dt" ∉ formTags; decide
        · show "/dt" ∉ formTags; decide
        · show "dd" ∉ formTags; decide
        · show "/dd" ∉ formTags; decide

/-! ### The search form -/

def searchFormOf (i : String) (fields : List String) (cluster : Option Int) : Form :=
  ⟨none, false, "/index/" ++ i ++ "/search", [.choose "field" false fields, .typed "value"] ++
    (if cluster.getD 0 ≠ 0 then [.hidden "cluster_id" (toString (cluster.getD 0))] else []), [none]⟩

theorem options_fold (fields : List String) (F : List Form) (cur : Option Form) (name : String) (many : Bool) : ∀ l : List String,
    (fields.flatMap (fun f => tags (fun _ => f) optionTags)).foldl FormReader.step ⟨F, cur, some (name, many, l)⟩ =
      ⟨F, cur, some (name, many, l ++ fields)⟩ := by
  induction fields with
  | nil => intro l; simp
  | cons f fields ih =>
    intro l
    rw [List.flatMap_cons, List.foldl_append, tags_fold _ optionTags [.option "{{ field }}"] _ (by decide +kernel)]
    simp only [List.foldl_cons, List.foldl_nil, Op.apply, Option.map_some]
    rw [ih, textOf_value _ "{{ field }}" "field" (by decide +kernel)]
    simp

theorem search_fold (i : String) (fields : List String) (cluster : Option Int) (F : List Form) :
    (searchFormTags i fields cluster).foldl FormReader.step ⟨F, none, none⟩ = ⟨F ++ [searchFormOf i fields cluster], none, none⟩ := by
  unfold searchFormTags searchFormOf
  rw [List.foldl_append, List.foldl_append,
    tags_fold _ searchTags [.start none false "/index/{{ index_id }}/search", .select "field" false] _ (by decide +kernel)]
  simp only [List.foldl_cons, List.foldl_nil, Op.apply]
  rw [options_fold, textOf_action _ "/index/{{ index_id }}/search" "/search" (by decide +kernel)]
  by_cases hc : cluster.getD 0 ≠ 0
  · rw [decide_eq_true hc, if_pos hc, tags_fold _ (searchEndTags true) [.endSelect, .typed none "value", .button none,
      .hidden none "cluster_id" "{{ cluster_id }}", .finish] _ (by decide +kernel)]
    simp [Op.apply, putControl, Form.add, textOf_value _ "{{ cluster_id }}" "cluster_id" (by decide +kernel)]
  · rw [decide_eq_false hc, if_neg hc, tags_fold _ (searchEndTags false) [.endSelect, .typed none "value", .button none, .finish] _
      (by decide +kernel)]
    simp [Op.apply, putControl, Form.add]

/-! ### The forms of a cluster page -/

def pinForm (i : String) (c : Int) (pinned : Bool) : Form :=
  ⟨none, true, "/index/" ++ i ++ "/cluster/pin", [.hidden "return_to" "cluster", .hidden "cluster_id" (toString c),
    .hidden "pinned" (if pinned then "0" else "1")], [none]⟩

def removeForm (i : String) (c : Int) (ids : List Nat) : Form :=
  ⟨none, true, "/index/" ++ i ++ "/feature/remove_from_model", [.hidden "cluster_id" (toString c),
    .choose "feature_id" true (ids.map toString)], [none, some ("/index/" ++ i ++ "/cluster/create")]⟩

def deleteForm (i : String) (c next : Int) : Form :=
  ⟨none, true, "/index/" ++ i ++ "/cluster/delete", [.hidden "return_cluster_id" (toString next), .hidden "cluster_id" (toString c)], [none]⟩

def visibleForm (i : String) (ids : List Nat) : Form :=
  ⟨none, true, "/index/" ++ i ++ "/cluster/create", ids.map (fun f => .hidden "feature_id" (toString f)), [none]⟩

def splitForm (i : String) (c : Int) : Form :=
  ⟨none, true, "/index/" ++ i ++ "/cluster/refine", [.hidden "cluster_id" (toString c), .hidden "return_to" "cluster",
    .typed "target_clusters", .typed "iterations", .typed "minimum_cluster_features"], [none]⟩

def clusterFormsOf (i : String) (c next : Int) (pinned : Bool) (ids : List Nat) : List Form :=
  if pinned then [pinForm i c true]
  else [removeForm i c ids, deleteForm i c next] ++ (if ids = [] then [] else [visibleForm i ids]) ++ [pinForm i c false, splitForm i c]

theorem pin_fold (env : String → String) (b : Bool) (F : List Form) (i : String) (c : Int) (hi : env "index_id" = i)
    (hc : env "cluster_id" = toString c) :
    (tags env (pinTags b)).foldl FormReader.step ⟨F, none, none⟩ = ⟨F ++ [pinForm i c b], none, none⟩ := by
  rw [tags_fold env _ [.start none true "/index/{{ index_id }}/cluster/pin", .hidden none "return_to" "cluster",
    .hidden none "cluster_id" "{{ cluster_id }}", .hidden none "pinned" (if b then "0" else "1"), .button none, .finish] _
    (by cases b <;> decide +kernel)]
  have : textOf env (if b then "0" else "1") = if b then "0" else "1" := by cases b <;> exact textOf_plain _ _ (by decide +kernel)
  simp [Op.apply, putControl, Form.add, textOf_value _ "{{ cluster_id }}" "cluster_id" (by decide +kernel), pinForm, hc,
    textOf_action _ "/index/{{ index_id }}/cluster/pin" "/cluster/pin" (by decide +kernel), hi, this,
    textOf_plain _ "cluster" (by decide +kernel)]

theorem choices_fold (es : List Entry) (F : List Form) (cur : Option Form) (name : String) (many : Bool) : ∀ l : List String,
    (es.flatMap (fun e => tags (fun n =>
      if n = "feature_id" then toString e.fid else if n = "field" then e.field else e.value) chooseTags)).foldl FormReader.step
        ⟨F, cur, some (name, many, l)⟩ = ⟨F, cur, some (name, many, l ++ es.map (fun e => toString e.fid))⟩ := by
  induction es with
  | nil => intro l; simp
  | cons f fields ih =>
    intro l
    rw [List.flatMap_cons, List.foldl_append, tags_fold _ chooseTags [.option "{{ feature_id }}"] _ (by decide +kernel)]
    simp only [List.foldl_cons, List.foldl_nil, Op.apply, Option.map_some]
    rw [ih, textOf_value _ "{{ feature_id }}" "feature_id" (by decide +kernel)]
    simp

theorem visible_fold (es : List Entry) (F : List Form) (f : Form) (s : Option (String × Bool × List String)) : ∀ l : List Control,
    (es.flatMap (fun e => tags (fun _ => toString e.fid) visibleFeatureTags)).foldl FormReader.step ⟨F, some { f with controls := l }, s⟩ =
      ⟨F, some { f with controls := l ++ es.map (fun e => .hidden "feature_id" (toString e.fid)) }, s⟩ := by
  induction es with
  | nil => intro l; simp
  | cons e es ih =>
    intro l
    rw [List.flatMap_cons, List.foldl_append,
      tags_fold _ visibleFeatureTags [.hidden none "feature_id" "{{ feature_id }}"] _ (by decide +kernel)]
    simp only [List.foldl_cons, List.foldl_nil, Op.apply, putControl, Option.map_some, Form.add]
    rw [ih, textOf_value _ "{{ feature_id }}" "feature_id" (by decide +kernel)]
    simp

theorem clusterForms_fold (i : String) (c next : Int) (pinned : Bool) (es : List Entry) (F : List Form) :
    (clusterFormTags i c next pinned es).foldl FormReader.step ⟨F, none, none⟩ =
      ⟨F ++ clusterFormsOf i c next pinned (es.map (·.fid)), none, none⟩ := by
  unfold clusterFormTags clusterFormsOf
  dsimp only
  by_cases hp : pinned = true
  · rw [if_pos hp, if_pos hp]
    exact pin_fold _ _ _ _ _ rfl rfl
  · rw [if_neg hp, if_neg hp]
    simp only [List.foldl_append]
    rw [tags_fold _ removeTags [.start none true "/index/{{ index_id }}/feature/remove_from_model",
      .hidden none "cluster_id" "{{ cluster_id }}", .select "feature_id" true] _ (by decide +kernel)]
    simp only [List.foldl_cons, List.foldl_nil, Op.apply, putControl, Option.map_some, Form.add]
    rw [choices_fold]
    rw [tags_fold _ deleteTags [.endSelect, .button none, .button (some "/index/{{ index_id }}/cluster/create"), .finish,
      .start none true "/index/{{ index_id }}/cluster/delete", .hidden none "return_cluster_id" "{{ next_cluster_id }}",
      .hidden none "cluster_id" "{{ cluster_id }}", .button none, .finish] _ (by decide +kernel)]
    simp only [List.foldl_cons, List.foldl_nil, Op.apply, putControl, Option.map_some, Form.add, Option.toList, List.nil_append,
      List.append_assoc, List.cons_append, Option.map_none,
      textOf_value _ "{{ cluster_id }}" "cluster_id" (by decide +kernel),
      textOf_value _ "{{ next_cluster_id }}" "next_cluster_id" (by decide +kernel),
      textOf_action _ "/index/{{ index_id }}/feature/remove_from_model" "/feature/remove_from_model" (by decide +kernel),
      textOf_action _ "/index/{{ index_id }}/cluster/create" "/cluster/create" (by decide +kernel),
      textOf_action _ "/index/{{ index_id }}/cluster/delete" "/cluster/delete" (by decide +kernel)]
    have hsplit : ∀ G : List Form, (tags (fun n => if n = "index_id" then i else if n = "cluster_id" then toString c else toString next)
        splitTags).foldl FormReader.step ⟨G, none, none⟩ = ⟨G ++ [splitForm i c], none, none⟩ := by
      intro G
      rw [tags_fold _ splitTags [.start none true "/index/{{ index_id }}/cluster/refine", .hidden none "cluster_id" "{{ cluster_id }}",
        .hidden none "return_to" "cluster", .typed none "target_clusters", .typed none "iterations",
        .typed none "minimum_cluster_features", .button none, .finish] _ (by decide +kernel)]
      simp [Op.apply, putControl, Form.add, textOf_value _ "{{ cluster_id }}" "cluster_id" (by decide +kernel), splitForm,
        textOf_action _ "/index/{{ index_id }}/cluster/refine" "/cluster/refine" (by decide +kernel),
        textOf_plain _ "cluster" (by decide +kernel)]
    by_cases he : es = []
    · subst he
      rw [if_pos rfl, List.foldl_nil, pin_fold _ _ _ i c rfl rfl, hsplit]
      simp [removeForm, deleteForm]
    · rw [if_neg he, List.foldl_append, List.foldl_append,
        tags_fold _ visibleTags [.start none true "/index/{{ index_id }}/cluster/create"] _ (by decide +kernel)]
      simp only [List.foldl_cons, List.foldl_nil, Op.apply]
      have hv := visible_fold es (F ++ [removeForm i c (es.map (·.fid)), deleteForm i c next])
        ⟨none, true, "/index/" ++ i ++ "/cluster/create", [], []⟩ none []
      simp only [removeForm, deleteForm, List.map_map, Function.comp_def] at hv
      rw [textOf_action _ "/index/{{ index_id }}/cluster/create" "/cluster/create" (by decide +kernel)]
      simp only [if_true, if_false, String.reduceEq]
      rw [hv, tags_fold _ visibleEndTags [.button none, .finish] _ (by decide +kernel)]
      simp only [List.foldl_cons, List.foldl_nil, Op.apply, Option.map_some, Option.toList, Option.map_none, List.nil_append]
      rw [pin_fold _ _ _ i c rfl rfl, hsplit]
      simp [removeForm, deleteForm, visibleForm, he, Function.comp_def]

theorem page_fold (title : String) (nav content : List Node) (F : List Form) (hn : Neutral nav)
    (hc : content.foldl FormReader.step ⟨[], none, none⟩ = ⟨F, none, none⟩) : forms (pageTags title nav content) = F := by
  unfold forms pageTags
  have h0 : Neutral [(⟨"", [], ""⟩ : Node)] := neutral_nodes _ (by decide +kernel)
  rw [← List.singleton_append]
  simp only [List.foldl_append]
  rw [h0, neutral_tags (fun _ => title) headTags (by decide +kernel), neutral_tags (fun _ => "") bodyTags (by decide +kernel), hn,
    neutral_tags (fun _ => "") mainTags (by decide +kernel), hc, neutral_tags (fun _ => "") footTags (by decide +kernel)]

end Hyperreal.Pages
