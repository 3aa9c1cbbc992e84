import Verif.Spec.PageTags
import Verif.Lemmas.Pages

/-! # Reading the pages: each part -/

namespace Hyperreal.Pages
open Web Spec Spec.Page

variable {σ : Type}

theorem headLines_whole (env : String → String) : Whole (fill env headLines) (tags env headTags) :=
  lines_whole' env _ _ (by decide +kernel)

theorem bodyLines_whole (env : String → String) : Whole (fill env bodyLines) (tags env bodyTags) :=
  lines_whole' env _ _ (by decide +kernel)

theorem mainLines_whole (env : String → String) : Whole (fill env mainLines) (tags env mainTags) :=
  lines_whole' env _ _ (by decide +kernel)

theorem footLines_whole (env : String → String) : Whole (fill env footLines) (tags env footTags) :=
  lines_whole' env _ _ (by decide +kernel)

theorem searchLines_whole (env : String → String) : Whole (fill env searchLines) (tags env searchTags) :=
  lines_whole' env _ _ (by decide +kernel)

theorem optionLines_whole (env : String → String) : Whole (fill env optionLines) (tags env optionTags) :=
  lines_whole' env _ _ (by decide +kernel)

theorem searchEndLines_whole (env : String → String) (a : Bool) : Whole (fill env (searchEndLines a)) (tags env (searchEndTags a)) :=
  lines_whole' env _ _ (by cases a <;> decide +kernel)

theorem clusterHeadLines_whole (env : String → String) (a b : Bool) : Whole (fill env (clusterHeadLines a b)) (tags env (clusterHeadTags a b)) :=
  lines_whole' env _ _ (by cases a <;> cases b <;> decide +kernel)

theorem clusterFootLines_whole (env : String → String) (a b : Bool) : Whole (fill env (clusterFootLines a b)) (tags env (clusterFootTags a b)) :=
  lines_whole' env _ _ (by cases a <;> cases b <;> decide +kernel)

theorem clusterNavLines_whole (env : String → String) : Whole (fill env clusterNavLines) (tags env clusterNavTags) :=
  lines_whole' env _ _ (by decide +kernel)

theorem clusterMenuLines_whole (env : String → String) (a : Bool) : Whole (fill env (clusterMenuLines a)) (tags env (clusterMenuTags a)) :=
  lines_whole' env _ _ (by cases a <;> decide +kernel)

theorem editLines_whole (env : String → String) : Whole (fill env editLines) (tags env editTags) :=
  lines_whole' env _ _ (by decide +kernel)

theorem pinLines_whole (env : String → String) (a : Bool) : Whole (fill env (pinLines a)) (tags env (pinTags a)) :=
  lines_whole' env _ _ (by cases a <;> decide +kernel)

theorem removeLines_whole (env : String → String) : Whole (fill env removeLines) (tags env removeTags) :=
  lines_whole' env _ _ (by decide +kernel)

theorem chooseLines_whole (env : String → String) : Whole (fill env chooseLines) (tags env chooseTags) :=
  lines_whole' env _ _ (by decide +kernel)

theorem deleteLines_whole (env : String → String) : Whole (fill env deleteLines) (tags env deleteTags) :=
  lines_whole' env _ _ (by decide +kernel)

theorem visibleLines_whole (env : String → String) : Whole (fill env visibleLines) (tags env visibleTags) :=
  lines_whole' env _ _ (by decide +kernel)

theorem visibleEndLines_whole (env : String → String) : Whole (fill env visibleEndLines) (tags env visibleEndTags) :=
  lines_whole' env _ _ (by decide +kernel)

theorem splitLines_whole (env : String → String) : Whole (fill env splitLines) (tags env splitTags) :=
  lines_whole' env _ _ (by decide +kernel)

theorem indexNavLines_whole (env : String → String) : Whole (fill env indexNavLines) (tags env indexNavTags) :=
  lines_whole' env _ _ (by decide +kernel)

theorem indexEditLines_whole (env : String → String) : Whole (fill env indexEditLines) (tags env indexEditTags) :=
  lines_whole' env _ _ (by decide +kernel)

theorem summaryLines_whole (env : String → String) : Whole (fill env summaryLines) (tags env summaryTags) :=
  lines_whole' env _ _ (by decide +kernel)

theorem fieldLines_whole (env : String → String) : Whole (fill env fieldLines) (tags env fieldTags) :=
  lines_whole' env _ _ (by decide +kernel)

theorem recreateLines_whole (env : String → String) : Whole (fill env recreateLines) (tags env recreateTags) :=
  lines_whole' env _ _ (by decide +kernel)

theorem detailsEndLines_whole (env : String → String) : Whole (fill env detailsEndLines) (tags env detailsEndTags) :=
  lines_whole' env _ _ (by decide +kernel)

theorem plain_whole (env : String → String) (lines : List String) (ns : List Node)
    (h : checkLines [] lines (ns.map (fun n => ⟨n.tag, n.attrs, n.text⟩)) = true)
    (hn : ∀ n ∈ ns, (∀ a ∈ n.attrs, textOf (fun _ => "") a.2 = a.2 ∧ ∀ x ∈ cellsOf none a.2.toList, x.isLeft = true) ∧
      textOf (fun _ => "") n.text = n.text ∧ ∀ x ∈ cellsOf none n.text.toList, x.isLeft = true) : Whole (fill env lines) ns := by
  have := lines_whole' env lines _ h
  rw [List.map_map] at this
  have key : ∀ s : String, textOf (fun _ => "") s = s ∧ (∀ x ∈ cellsOf none s.toList, x.isLeft = true) → textOf env s = s := by
    rintro s ⟨h1, h2⟩
    rw [← h1]
    conv_rhs => rw [h1]
    conv_lhs => rw [h1]
    refine Eq.trans ?_ h1
    unfold textOf
    congr 1
    refine List.flatMap_congr fun x hx => ?_
    cases x with
    | inl c => rfl
    | inr n => exact absurd (h2 _ hx) (by simp)
  have e : ns.map (Pattern.node env ∘ fun n => (⟨n.tag, n.attrs, n.text⟩ : Pattern)) = ns := by
    conv_rhs => rw [← List.map_id ns]
    refine List.map_congr_left fun n hm => ?_
    obtain ⟨h1, h2⟩ := hn n hm
    show (⟨n.tag, n.attrs.map (fun a => (a.1, textOf env a.2)), textOf env n.text⟩ : Node) = n
    rw [key _ h2]
    have : n.attrs.map (fun a => (a.1, textOf env a.2)) = n.attrs := by
      conv_rhs => rw [← List.map_id n.attrs]
      exact List.map_congr_left fun a ha => by rw [key _ (h1 a ha)]; rfl
    rw [this]
  rwa [e] at this

/-- What stands for the value of an expression, and text. -/
def piece (env : String → String) : String ⊕ String → String
  | .inl s => s
  | .inr n => env n

theorem textOf_pieces (env : String → String) (t : String) (ps : List (String ⊕ String))
    (h : cellsOf none t.toList = ps.flatMap (fun p => match p with | .inl s => s.toList.map .inl | .inr n => [.inr n])) :
    textOf env t = ps.foldr (fun p r => piece env p ++ r) "" := by
  unfold textOf
  rw [h]
  clear h
  induction ps with
  | nil => rfl
  | cons p ps ih =>
    rw [List.flatMap_cons, List.flatMap_append, List.foldr_cons, ← ih, String.ofList_append]
    congr 1
    cases p with
    | inl s => simp [piece, List.flatMap_map]
    | inr n => simp [piece]

theorem featureItem_whole (i : String) (c : Int) (cluster : Bool) (highlight : Option Nat) (e : Entry) :
    Whole (featureItem i c cluster highlight e) (entryTags i c cluster highlight e) := by
  unfold featureItem entryTags
  refine lines_whole' _ _ _ ?_
  generalize decide (some e.fid = highlight) = a
  cases a <;> cases cluster <;> decide +kernel

theorem clusterBox_whole (i : String) (c : Int) (es : List Entry) (feature : Option Nat) :
    Whole (clusterBox i c es feature) (clusterBoxTags i c es feature) :=
  ((clusterHeadLines_whole _ _ _).append (whole_flatMap _ _ _ fun e _ => featureItem_whole i c true feature e)).append
    (plain_whole _ _ _ (by decide +kernel) (by decide +kernel))

theorem listedCluster_whole (i : String) (feature : Option Nat) (cluster : Option Int) (x : Int × String × List Entry) :
    Whole (listedCluster i feature cluster x) (listedTags i feature cluster x) :=
  ((clusterHeadLines_whole _ _ _).append (whole_flatMap _ _ _ fun e _ => featureItem_whole i x.1 false feature e)).append
    (clusterFootLines_whole _ _ _)

theorem contextSearch_whole (i : String) (fields : List String) (cluster : Option Int) :
    Whole (contextSearch i fields cluster) (searchFormTags i fields cluster) :=
  ((searchLines_whole _).append (whole_flatMap _ _ _ fun f _ => optionLines_whole _)).append (searchEndLines_whole _ _)

theorem passageValues_eq (c : RowCell) : passageValues c = cellTexts c := by
  cases c with
  | passages ts => rfl
  | values vs =>
    simp only [passageValues, cellTexts]
    refine List.map_congr_left fun v _ => ?_
    cases v with
    | none => rfl
    | some x => cases x <;> rfl

theorem written_eq : written = valText := by funext v; cases v <;> rfl

theorem pageEntries_eq (fmt : Format σ) (x : Hyperreal.Shown σ) : pageEntries fmt x = shownEntries fmt x := by
  cases x <;> simp [pageEntries, shownEntries, rankedEntry, countedEntry, written_eq]

theorem overviewEntries_eq (fmt : Format σ) (x : Listing σ) : overviewEntries fmt x = listedEntries fmt x := by
  cases x <;> simp [overviewEntries, listedEntries, rankedEntry, countedEntry, written_eq, Function.comp_def]

theorem passageItem_whole (row : Dict String RowCell) : Whole (passageItem row) (passageTags row) := by
  unfold passageTags
  simp only [passageValues_eq]
  refine Whole.append (Whole.append (plain_whole _ _ _ (by decide +kernel) (by decide +kernel))
    (whole_flatMap _ _ _ fun e _ => whole_flatMap _ _ _ fun v _ => ?_)) (plain_whole _ _ _ (by decide +kernel) (by decide +kernel))
  have := lines_whole' (fun n => if n = "field" then e.1 else v) ["<dt>{{ field }}</dt>", "<dd>{{ value }}</dd>"]
    [⟨"dt", [], "{{ field }}"⟩, ⟨"/dt", [], ""⟩, ⟨"dd", [], "{{ value }}"⟩, ⟨"/dd", [], ""⟩] (by decide +kernel)
  rw [List.map_cons, List.map_cons, List.map_cons, List.map_cons, List.map_nil] at this
  simp only [Pattern.node, List.map_nil, textOf_pieces _ "{{ field }}" [.inr "field"] (by decide +kernel), textOf_pieces _ "" [] (by decide +kernel),
    textOf_pieces _ "{{ value }}" [.inr "value"] (by decide +kernel), List.foldr_cons, List.foldr_nil, String.append_empty] at this
  exact this

theorem lit_eq (s : String) : SX.lit s = s.toList := by unfold SX.lit; rfl

theorem item_whole (d : Html.Doc) (h : ∀ s, d = .markup s → Finished s) : Whole (Html.item d) (docTags d) := by
  cases d with
  | text s =>
    have := lines_whole' (fun _ => s) ["<li>{{ doc }}</li>"] [⟨"li", [], "{{ doc }}"⟩, ⟨"/li", [], ""⟩] (by decide +kernel)
    have h4 : cells ["<li>{{ doc }}</li>"] = "<li>".toList.map .inl ++ [.inr "doc"] ++ "</li>".toList.map .inl := by decide +kernel
    have h5 : fill (fun _ => s) ["<li>{{ doc }}</li>"] = Html.item (.text s) := by
      unfold fill Html.item
      rw [h4, List.flatMap_append, List.flatMap_append, lit_eq, lit_eq]
      simp [List.flatMap_map, cellChars]
    rw [h5] at this
    rw [List.map_cons, List.map_cons, List.map_nil] at this
    simp only [Pattern.node, List.map_nil, textOf_pieces _ "{{ doc }}" [.inr "doc"] (by decide +kernel), textOf_pieces _ "" [] (by decide +kernel),
      List.foldr_cons, List.foldr_nil, String.append_empty] at this
    exact this
  | markup s =>
    unfold Html.item
    rw [lit_eq, lit_eq]
    exact markup_item s (h s rfl)

theorem resultList_whole (asDoc : String → Html.Doc) (type : String) (r : Results) (x : List Char) (hf : FinishedDocs asDoc r)
    (h : resultList asDoc type r = some x) : Whole x (resultListTags asDoc r) := by
  unfold resultList at h
  split at h
  · rename_i rs
    split_ifs at h
    simp only [Option.some.injEq] at h
    subst h
    unfold Html.docList
    rw [lit_eq, lit_eq, List.flatMap_map]
    refine Whole.append (es := _ :: _) (Whole.append (es := [_]) (plain_whole (fun _ => "") ["<ul class=\"doc-list\">"] _ (by decide +kernel) (by decide +kernel))
      (whole_flatMap _ _ _ fun r hr => item_whole _ fun s hs => hf r hr s hs))
      (plain_whole (fun _ => "") ["</ul>"] _ (by decide +kernel) (by decide +kernel))
  · split_ifs at h
    simp only [Option.some.injEq] at h
    subst h
    refine Whole.append (es := _ :: _) (Whole.append (es := [_]) (plain_whole (fun _ => "") _ _ (by decide +kernel) (by decide +kernel))
      (whole_flatMap _ _ _ fun r _ => passageItem_whole _)) (plain_whole (fun _ => "") _ _ (by decide +kernel) (by decide +kernel))
  · cases h

theorem resultBox_whole (asDoc : String → Html.Doc) (type : String) (total : Nat) (r : Results) (x : List Char) (hf : FinishedDocs asDoc r)
    (h : resultBox asDoc type total r = some x) : Whole x (resultBoxTags asDoc total r) := by
  unfold resultBox at h
  unfold resultBoxTags
  rw [show found r = resultCount r by cases r <;> rfl]
  by_cases h0 : resultCount r = 0
  · rw [if_pos h0] at h ⊢
    simp only [Option.some.injEq] at h
    subst h
    exact whole_nil
  · rw [if_neg h0] at h ⊢
    cases hl : resultList asDoc type r with
    | none => rw [hl] at h; simp at h
    | some y =>
      rw [hl] at h
      simp only [Option.bind_eq_bind, Option.bind_some, Option.pure_def, Option.some.injEq] at h
      subst h
      refine Whole.append (Whole.append ?_ (resultList_whole asDoc type r y hf hl)) (plain_whole _ _ _ (by decide +kernel) (by decide +kernel))
      refine lines_whole' _ _ _ ?_
      by_cases hc : resultCount r < total
      · simp only [hc, if_true, decide_true]; decide +kernel
      · simp only [hc, if_false, decide_false]; decide +kernel

theorem frame_whole (title : String) (nav content : List Char) (a b : List Node) (ha : Whole nav a) (hb : Whole content b) :
    Page.nodes (frame title nav content) = pageTags title a b :=
  (((((headLines_whole _).append (bodyLines_whole _)).append ha).append (mainLines_whole _)).append hb |>.append (footLines_whole _)).nodes

theorem digits_bare (n : Nat) : toString n ≠ "" ∧ ∀ c ∈ (toString n).toList, isSpace c = false := by
  have hd : ∀ c ∈ (toString n).toList, c.isDigit = true := by
    intro c hc
    have : (toString n).toList = Nat.toDigits 10 n := by simp [toString, Nat.repr]
    rw [this] at hc
    exact Nat.isDigit_of_mem_toDigits (by norm_num) (by norm_num) hc
  constructor
  · intro h
    have : (toString n).toList = Nat.toDigits 10 n := by simp [toString, Nat.repr]
    rw [h] at this
    have h2 := Nat.length_toDigits_pos (b := 10) (n := n)
    rw [← this] at h2
    simp at h2
  · intro c hc
    have := hd c hc
    by_contra hs
    simp only [Bool.not_eq_false] at hs
    simp only [isSpace, Bool.or_eq_true, decide_eq_true_eq] at hs
    rcases hs with (((rfl | rfl) | rfl) | rfl) | rfl <;> revert this <;> decide

theorem clusterForms_whole (i : String) (c next : Int) (pinned : Bool) (es : List Entry) :
    Whole (clusterForms i c next pinned es) (clusterFormTags i c next pinned es) := by
  unfold clusterForms clusterFormTags
  dsimp only
  split_ifs with h1 h2
  · exact pinLines_whole _ _
  · exact (((((removeLines_whole _).append (whole_flatMap _ _ _ fun e _ => chooseLines_whole _)).append (deleteLines_whole _)).append
      whole_nil).append (pinLines_whole _ _)).append (splitLines_whole _)
  · refine (((((removeLines_whole _).append (whole_flatMap _ _ _ fun e _ => chooseLines_whole _)).append (deleteLines_whole _)).append
      (((visibleLines_whole _).append (whole_flatMap _ _ _ fun e _ => ?_)).append (visibleEndLines_whole _))).append (pinLines_whole _ _)).append
      (splitLines_whole _)
    exact lines_whole _ ["feature_id"] (fun n _ => digits_bare e.fid) _ _ (by decide +kernel)

end Hyperreal.Pages
