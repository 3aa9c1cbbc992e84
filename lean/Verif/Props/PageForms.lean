import Verif.Props.Pages

/-!
# Properties of the forms of the pages (C76)
-/

namespace Hyperreal.Props
open Web Pages Spec Spec.Page

variable {σ : Type}

/-! ## What forms send -/

theorem sends_hidden {n v : String} {a : List (String × String)} : Sends (.hidden n v) a ↔ a = [(n, v)] :=
  ⟨fun h => by cases h; rfl, fun h => by rw [h]; exact .hidden n v⟩

theorem sends_typed {n : String} {a : List (String × String)} : Sends (.typed n) a ↔ ∃ x, a = [(n, x)] :=
  ⟨fun h => by cases h with | typed _ x => exact ⟨x, rfl⟩, fun ⟨x, h⟩ => by rw [h]; exact .typed n x⟩

theorem sends_many {n : String} {o : List String} {a : List (String × String)} :
    Sends (.choose n true o) a ↔ ∃ l : List String, l.Sublist o ∧ a = l.map (fun v => (n, v)) :=
  ⟨fun h => by cases h with | many _ _ l hl => exact ⟨l, hl, rfl⟩, fun ⟨l, h, e⟩ => by rw [e]; exact .many n o l h⟩

theorem sends_one {n : String} {o : List String} (ho : o ≠ []) {a : List (String × String)} :
    Sends (.choose n false o) a ↔ ∃ v ∈ o, a = [(n, v)] :=
  ⟨fun h => by
    cases h with
    | one _ _ v hv => exact ⟨v, hv, rfl⟩
    | noOptions => exact absurd rfl ho, fun ⟨v, h, e⟩ => by rw [e]; exact .one n o v h⟩

theorem sends_hiddens (n : String) (vs : List String) (args : List (List (String × String))) :
    List.Forall₂ Sends (vs.map (fun v => .hidden n v)) args ↔ args = vs.map (fun v => [(n, v)]) := by
  induction vs generalizing args with
  | nil => simp
  | cons v vs ih =>
    rw [List.map_cons, List.forall₂_cons_left_iff]
    simp only [sends_hidden, ih]
    constructor
    · rintro ⟨_, _, rfl, rfl, rfl⟩; rfl
    · rintro rfl; exact ⟨_, _, rfl, rfl, rfl⟩

theorem sends_ticks (n : String) (vs : List String) (x : List (String × String)) :
    (∃ args, List.Forall₂ Sends (vs.map (fun v => .tick n v)) args ∧ x = args.flatten) ↔
      ∃ l : List String, l.Sublist vs ∧ x = l.map (fun v => (n, v)) := by
  induction vs generalizing x with
  | nil =>
    constructor
    · rintro ⟨args, h, rfl⟩
      simp only [List.map_nil, List.forall₂_nil_left_iff] at h
      subst h
      exact ⟨[], List.Sublist.refl _, rfl⟩
    · rintro ⟨l, h, rfl⟩
      rw [List.sublist_nil.1 h]
      exact ⟨[], by simp, rfl⟩
  | cons v vs ih =>
    constructor
    · rintro ⟨args, h, rfl⟩
      rw [List.map_cons, List.forall₂_cons_left_iff] at h
      obtain ⟨a, as, h1, h2, rfl⟩ := h
      obtain ⟨l, hl, e⟩ := (ih as.flatten).1 ⟨as, h2, rfl⟩
      cases h1 with
      | ticked => exact ⟨v :: l, hl.cons_cons _, by rw [List.flatten_cons, e]; rfl⟩
      | unticked => exact ⟨l, hl.cons _, by rw [List.flatten_cons, e]; rfl⟩
    · rintro ⟨l, h, rfl⟩
      cases h with
      | cons _ h =>
        obtain ⟨as, h2, e⟩ := (ih _).2 ⟨l, h, rfl⟩
        exact ⟨[] :: as, .cons (.unticked n v) h2, by rw [List.flatten_cons, e]; rfl⟩
      | cons_cons _ h =>
        rename_i l
        obtain ⟨as, h2, e⟩ := (ih _).2 ⟨l, h, rfl⟩
        exact ⟨[(n, v)] :: as, .cons (.ticked n v) h2, by rw [List.flatten_cons, ← e]; rfl⟩

theorem search_requests (i : String) (fields : List String) (cluster : Option Int) (hf : fields ≠ []) (r : Request) :
    r ∈ (searchFormOf i fields cluster).requests ↔ ∃ f ∈ fields, ∃ v, r = searchForm i cluster f v := by
  have hs : ∀ f v, searchForm i cluster f v = ⟨false, "/index/" ++ i ++ "/search", [("field", f), ("value", v)] ++
      (if cluster.getD 0 ≠ 0 then [("cluster_id", toString (cluster.getD 0))] else [])⟩ := by
    intro f v
    unfold searchForm
    cases cluster with
    | none => simp
    | some c => rfl
  simp only [hs]
  unfold Form.requests searchFormOf
  simp only [Set.mem_setOf_eq, List.mem_singleton, exists_eq_left, Option.getD_none]
  by_cases hc : cluster.getD 0 ≠ 0
  · simp only [if_pos hc, List.cons_append, List.nil_append, List.forall₂_cons_left_iff, List.forall₂_nil_left_iff, sends_one hf, sends_typed,
      sends_hidden]
    constructor
    · rintro ⟨args, ⟨a, as, ⟨f, hf, rfl⟩, ⟨b, bs, ⟨x, rfl⟩, ⟨d, ds, rfl, rfl, rfl⟩, rfl⟩, rfl⟩, rfl⟩
      exact ⟨f, hf, x, rfl⟩
    · rintro ⟨f, hf, x, rfl⟩
      exact ⟨_, ⟨_, _, ⟨f, hf, rfl⟩, ⟨_, _, ⟨x, rfl⟩, ⟨_, _, rfl, rfl, rfl⟩, rfl⟩, rfl⟩, rfl⟩
  · simp only [if_neg hc, List.append_nil, List.forall₂_cons_left_iff, List.forall₂_nil_left_iff, sends_one hf, sends_typed]
    constructor
    · rintro ⟨args, ⟨a, as, ⟨f, hf, rfl⟩, ⟨b, bs, ⟨x, rfl⟩, rfl, rfl⟩, rfl⟩, rfl⟩
      exact ⟨f, hf, x, rfl⟩
    · rintro ⟨f, hf, x, rfl⟩
      exact ⟨_, ⟨_, _, ⟨f, hf, rfl⟩, ⟨_, _, ⟨x, rfl⟩, rfl, rfl⟩, rfl⟩, rfl⟩

theorem pin_requests (i : String) (c : Int) (b : Bool) (r : Request) : r ∈ (pinForm i c b).requests ↔
    r = ⟨true, "/index/" ++ i ++ "/cluster/pin", [("return_to", "cluster"), ("cluster_id", toString c), ("pinned", if b then "0" else "1")]⟩ := by
  unfold Form.requests pinForm
  simp only [Set.mem_setOf_eq, List.mem_singleton, exists_eq_left, Option.getD_none, List.forall₂_cons_left_iff,
    List.forall₂_nil_left_iff, sends_hidden]
  constructor
  · rintro ⟨args, ⟨a, as, rfl, ⟨b, bs, rfl, ⟨d, ds, rfl, rfl, rfl⟩, rfl⟩, rfl⟩, rfl⟩; rfl
  · rintro rfl; exact ⟨_, ⟨_, _, rfl, ⟨_, _, rfl, ⟨_, _, rfl, rfl, rfl⟩, rfl⟩, rfl⟩, rfl⟩

theorem delete_requests (i : String) (c next : Int) (r : Request) : r ∈ (deleteForm i c next).requests ↔
    r = ⟨true, "/index/" ++ i ++ "/cluster/delete", [("return_cluster_id", toString next), ("cluster_id", toString c)]⟩ := by
  unfold Form.requests deleteForm
  simp only [Set.mem_setOf_eq, List.mem_singleton, exists_eq_left, Option.getD_none, List.forall₂_cons_left_iff,
    List.forall₂_nil_left_iff, sends_hidden]
  constructor
  · rintro ⟨args, ⟨a, as, rfl, ⟨b, bs, rfl, rfl, rfl⟩, rfl⟩, rfl⟩; rfl
  · rintro rfl; exact ⟨_, ⟨_, _, rfl, ⟨_, _, rfl, rfl, rfl⟩, rfl⟩, rfl⟩

theorem visible_requests (i : String) (ids : List Nat) (r : Request) : r ∈ (visibleForm i ids).requests ↔
    r = ⟨true, "/index/" ++ i ++ "/cluster/create", ids.map (fun f => ("feature_id", toString f))⟩ := by
  unfold Form.requests visibleForm
  have e : ids.map (fun f => Control.hidden "feature_id" (toString f)) = (ids.map toString).map (fun v => .hidden "feature_id" v) := by
    rw [List.map_map]; rfl
  have e2 : (List.map (fun v => [("feature_id", v)]) (ids.map toString)).flatten = ids.map (fun f => ("feature_id", toString f)) := by
    rw [List.map_map]
    induction ids with
    | nil => rfl
    | cons a l ih => simp only [List.map_cons, List.flatten_cons]; rw [ih (by rw [List.map_map]; rfl)]; rfl
  simp only [Set.mem_setOf_eq, List.mem_singleton, exists_eq_left, Option.getD_none, e, sends_hiddens]
  rw [e2]

theorem split_requests (i : String) (c : Int) (r : Request) : r ∈ (splitForm i c).requests ↔
    ∃ t n m, r = ⟨true, "/index/" ++ i ++ "/cluster/refine", [("cluster_id", toString c), ("return_to", "cluster"), ("target_clusters", t),
      ("iterations", n), ("minimum_cluster_features", m)]⟩ := by
  unfold Form.requests splitForm
  simp only [Set.mem_setOf_eq, List.mem_singleton, exists_eq_left, Option.getD_none, List.forall₂_cons_left_iff,
    List.forall₂_nil_left_iff, sends_hidden, sends_typed]
  constructor
  · rintro ⟨_, ⟨_, _, rfl, ⟨_, _, rfl, ⟨_, _, ⟨t, rfl⟩, ⟨_, _, ⟨n, rfl⟩, ⟨_, _, ⟨m, rfl⟩, rfl, rfl⟩, rfl⟩, rfl⟩, rfl⟩, rfl⟩, rfl⟩
    exact ⟨t, n, m, rfl⟩
  · rintro ⟨t, n, m, rfl⟩
    exact ⟨_, ⟨_, _, rfl, ⟨_, _, rfl, ⟨_, _, ⟨t, rfl⟩, ⟨_, _, ⟨n, rfl⟩, ⟨_, _, ⟨m, rfl⟩, rfl, rfl⟩, rfl⟩, rfl⟩, rfl⟩, rfl⟩, rfl⟩

theorem remove_requests (i : String) (c : Int) (ids : List Nat) (r : Request) : r ∈ (removeForm i c ids).requests ↔
    ∃ fids : List Nat, fids.Sublist ids ∧
      (r = ⟨true, "/index/" ++ i ++ "/feature/remove_from_model", ("cluster_id", toString c) :: fids.map (fun f => ("feature_id", toString f))⟩ ∨
       r = ⟨true, "/index/" ++ i ++ "/cluster/create", ("cluster_id", toString c) :: fids.map (fun f => ("feature_id", toString f))⟩) := by
  unfold Form.requests removeForm
  simp only [Set.mem_setOf_eq, List.mem_cons, List.not_mem_nil, or_false, List.forall₂_cons_left_iff,
    List.forall₂_nil_left_iff, sends_hidden, sends_many]
  constructor
  · rintro ⟨b, hb, _, ⟨_, _, rfl, ⟨_, _, ⟨l, hl, rfl⟩, rfl, rfl⟩, rfl⟩, rfl⟩
    obtain ⟨fids, hf, rfl⟩ := List.sublist_map_iff.1 hl
    refine ⟨fids, hf, ?_⟩
    rcases hb with rfl | rfl
    · left; simp [List.map_map, Function.comp_def]
    · right; simp [List.map_map, Function.comp_def]
  · rintro ⟨fids, hf, h | h⟩
    · exact ⟨none, Or.inl rfl, _, ⟨_, _, rfl, ⟨_, _, ⟨_, hf.map toString, rfl⟩, rfl, rfl⟩, rfl⟩, by
        rw [h]; simp [List.map_map, Function.comp_def]⟩
    · exact ⟨_, Or.inr rfl, _, ⟨_, _, rfl, ⟨_, _, ⟨_, hf.map toString, rfl⟩, rfl, rfl⟩, rfl⟩, by
        rw [h]; simp [List.map_map, Function.comp_def]⟩

/-- From a cluster page exactly those requests can be sent that `clusterPress` (C72) has for its buttons, and searches. -/
theorem cluster_page_requests (fmt : Format σ) (asDoc : String → Html.Doc) (i : String) (feature : Option Nat) (p : ClusterPage σ)
    (html : List Char) (h : clusterHtml fmt asDoc i feature p = some html) (hd : FinishedDocs asDoc p.results)
    (hff : FormFree asDoc p.results) (hfields : p.fields ≠ []) (r : Request) :
    r ∈ requests (nodes html) ↔
      (∃ b, clusterPress i p b = some r) ∨ ∃ f ∈ p.fields, ∃ v, r = searchForm i (some p.cluster) f v := by
  have hforms : forms (nodes html) = searchFormOf i p.fields (some p.cluster) :: clusterFormsOf i p.cluster p.next p.pinned p.features.ids := by
    rw [cluster_page_read fmt asDoc i feature p html h hd]
    unfold clusterPageTags
    refine page_fold _ _ _ _ (neutral_tags _ _ (by decide +kernel)) ?_
    simp only [List.foldl_append]
    rw [search_fold, neutral_tags _ (clusterMenuTags _) (by generalize decide (p.prev ≠ 0 ∨ p.next ≠ 0) = b; cases b <;> decide +kernel),
      neutral_tags _ editTags (by decide +kernel), clusterForms_fold, pageEntries_ids]
    rw [neutral_nodes _ (by decide +kernel), neutral_results asDoc _ _ hff, neutral_nodes [(⟨"li", [], ""⟩ : Node)] (by decide +kernel)]
    have hb : Neutral (clusterBoxTags i p.cluster (pageEntries fmt p.features) feature) :=
      neutral_append (neutral_append (neutral_tags _ _ (by decide +kernel)) (neutral_flatMap _ _ fun e _ => neutral_entry _ _ _ _ _))
        (neutral_nodes _ (by decide +kernel))
    rw [hb, neutral_nodes _ (by decide +kernel)]
    rfl
  unfold requests
  rw [hforms]
  simp only [Set.mem_setOf_eq, List.mem_cons, exists_eq_or_imp, search_requests i p.fields _ hfields]
  rw [or_comm]
  refine or_congr_left ?_
  unfold clusterFormsOf
  by_cases hp : p.pinned = true
  · simp only [if_pos hp, List.mem_singleton, exists_eq_left, pin_requests, if_true]
    constructor
    · rintro rfl; exact ⟨.unpin, by simp [clusterPress, hp]⟩
    · rintro ⟨b, hb⟩
      cases b <;> simp [clusterPress, hp] at hb
      exact hb.symm
  · simp only [if_neg hp, List.mem_append, List.mem_cons, List.not_mem_nil, or_false]
    have hp' : p.pinned = false := by simpa using hp
    constructor
    · rintro ⟨f, hf, hr⟩
      rcases hf with ((rfl | rfl) | hf) | rfl | rfl
      · obtain ⟨fids, hs, hr | hr⟩ := (remove_requests _ _ _ _).1 hr
        · exact ⟨.removeSelected fids, by simp [clusterPress, hp', hs, hr]⟩
        · exact ⟨.createSelected fids, by simp [clusterPress, hp', hs, hr]⟩
      · exact ⟨.delete, by rw [(delete_requests _ _ _ _).1 hr]; simp [clusterPress, hp']⟩
      · by_cases hi : p.features.ids = []
        · rw [if_pos hi] at hf; cases hf
        · rw [if_neg hi, List.mem_singleton] at hf
          subst hf
          exact ⟨.createVisible, by rw [(visible_requests _ _ _).1 hr]; simp [clusterPress, hp', hi]⟩
      · exact ⟨.pin, by rw [(pin_requests _ _ _ _).1 hr]; simp [clusterPress, hp']⟩
      · obtain ⟨t, n, m, rfl⟩ := (split_requests _ _ _).1 hr
        exact ⟨.split t n m, by simp [clusterPress, hp']⟩
    · rintro ⟨b, hb⟩
      cases b with
      | unpin => simp [clusterPress, hp'] at hb
      | pin => exact ⟨_, Or.inr (Or.inl rfl), (pin_requests _ _ _ _).2 (by simp [clusterPress, hp'] at hb; simp [← hb])⟩
      | delete => exact ⟨_, Or.inl (Or.inl (Or.inr rfl)), (delete_requests _ _ _ _).2 (by simp [clusterPress, hp'] at hb; simp [← hb])⟩
      | createVisible =>
        by_cases hi : p.features.ids = []
        · simp [clusterPress, hi] at hb
        · refine ⟨_, Or.inl (Or.inr (by rw [if_neg hi]; exact List.mem_singleton.2 rfl)), (visible_requests _ _ _).2 ?_⟩
          simp [clusterPress, hp', hi] at hb; simp [← hb]
      | removeSelected fids =>
        by_cases hs : fids.Sublist p.features.ids
        · refine ⟨_, Or.inl (Or.inl (Or.inl rfl)), (remove_requests _ _ _ _).2 ⟨fids, hs, Or.inl ?_⟩⟩
          simp [clusterPress, hp', hs] at hb; simp [← hb]
        · simp [clusterPress, hs] at hb
      | createSelected fids =>
        by_cases hs : fids.Sublist p.features.ids
        · refine ⟨_, Or.inl (Or.inl (Or.inl rfl)), (remove_requests _ _ _ _).2 ⟨fids, hs, Or.inr ?_⟩⟩
          simp [clusterPress, hp', hs] at hb; simp [← hb]
        · simp [clusterPress, hs] at hb
      | split t n m =>
        exact ⟨_, Or.inr (Or.inr rfl), (split_requests _ _ _).2 ⟨t, n, m, by simp [clusterPress, hp'] at hb; simp [← hb]⟩⟩

/-! ## The overview -/

def editForm (i : String) (cids : List Int) : Form :=
  ⟨some "cluster_edit", true, "/index/" ++ i ++ "/cluster/delete",
    [.hidden "return_to" "model", .typed "target_clusters"] ++ (cids.map toString).map (fun c => .tick "cluster_id" c),
    [some ("/index/" ++ i ++ "/cluster/refine"), none, some ("/index/" ++ i ++ "/cluster/merge")]⟩

theorem edit_fold (i : String) (F : List Form) : (tags (fun _ => i) indexEditTags).foldl FormReader.step ⟨F, none, none⟩ =
    ⟨F ++ [editForm i []], none, none⟩ := by
  rw [tags_fold _ indexEditTags [.start (some "cluster_edit") true "/index/{{ index_id }}/cluster/delete", .hidden none "return_to" "model",
    .typed none "target_clusters", .button (some "/index/{{ index_id }}/cluster/refine"), .button none,
    .button (some "/index/{{ index_id }}/cluster/merge"), .finish] _ (by decide +kernel)]
  simp [Op.apply, putControl, Form.add, editForm, textOf_action _ "/index/{{ index_id }}/cluster/delete" "/cluster/delete" (by decide +kernel),
    textOf_action _ "/index/{{ index_id }}/cluster/refine" "/cluster/refine" (by decide +kernel),
    textOf_action _ "/index/{{ index_id }}/cluster/merge" "/cluster/merge" (by decide +kernel), textOf_plain _ "model" (by decide +kernel)]

theorem listed_fold (i : String) (feature : Option Nat) (cluster : Option Int) (S : Form) (hS : S.id = none)
    (xs : List (Int × String × List Entry)) : ∀ cids : List Int,
    (xs.flatMap (fun x => ⟨"li", [], ""⟩ :: listedTags i feature cluster x ++ [⟨"/li", [], ""⟩])).foldl FormReader.step
      ⟨[S, editForm i cids], none, none⟩ = ⟨[S, editForm i (cids ++ xs.map (·.1))], none, none⟩ := by
  induction xs with
  | nil => intro cids; simp
  | cons x xs ih =>
    intro cids
    rw [List.flatMap_cons, List.foldl_append]
    have h1 : (⟨"li", [], ""⟩ :: listedTags i feature cluster x ++ [(⟨"/li", [], ""⟩ : Node)]).foldl FormReader.step
        ⟨[S, editForm i cids], none, none⟩ = ⟨[S, editForm i (cids ++ [x.1])], none, none⟩ := by
      rw [show (⟨"li", [], ""⟩ :: listedTags i feature cluster x ++ [(⟨"/li", [], ""⟩ : Node)]) =
        [(⟨"li", [], ""⟩ : Node)] ++ (listedTags i feature cluster x ++ [(⟨"/li", [], ""⟩ : Node)]) from rfl,
        List.foldl_append, neutral_nodes [(⟨"li", [], ""⟩ : Node)] (by decide +kernel), List.foldl_append]
      have h2 : (listedTags i feature cluster x).foldl FormReader.step ⟨[S, editForm i cids], none, none⟩ =
          ⟨[S, editForm i (cids ++ [x.1])], none, none⟩ := by
        unfold listedTags
        rw [List.foldl_append, List.foldl_append,
          neutral_tags _ (clusterHeadTags _ _) (by generalize decide (some x.1 = cluster) = b; cases b <;> decide +kernel),
          neutral_flatMap _ _ (fun e _ => neutral_entry _ _ _ _ _),
          tags_fold _ (clusterFootTags _ _) [.tick (some "cluster_edit") "cluster_id" "{{ cluster_id }}"] _
            (by generalize feature.isSome = a; generalize cluster.isSome = b; cases a <;> cases b <;> decide +kernel)]
        simp [Op.apply, putControl, Form.add, editForm, hS, textOf_value _ "{{ cluster_id }}" "cluster_id" (by decide +kernel)]
      rw [h2, neutral_nodes _ (by decide +kernel)]
    rw [h1, ih]
    simp

theorem edit_requests (i : String) (cids : List Int) (r : Request) : r ∈ (editForm i cids).requests ↔
    ∃ action ∈ ["refine", "delete", "merge"], ∃ l : List Int, l.Sublist cids ∧ ∃ t, r = ⟨true, "/index/" ++ i ++ "/cluster/" ++ action,
      [("return_to", "model"), ("target_clusters", t)] ++ l.map (fun c => ("cluster_id", toString c))⟩ := by
  have hargs : ∀ x : List (String × String), (∃ args, List.Forall₂ Sends (editForm i cids).controls args ∧ x = args.flatten) ↔
      ∃ l : List Int, l.Sublist cids ∧ ∃ t, x = [("return_to", "model"), ("target_clusters", t)] ++ l.map (fun c => ("cluster_id", toString c)) := by
    intro x
    unfold editForm
    simp only [List.cons_append, List.nil_append, List.forall₂_cons_left_iff, sends_hidden, sends_typed]
    constructor
    · rintro ⟨_, ⟨_, _, rfl, ⟨_, as, ⟨t, rfl⟩, h, rfl⟩, rfl⟩, rfl⟩
      obtain ⟨l, hl, e⟩ := (sends_ticks "cluster_id" (cids.map toString) as.flatten).1 ⟨as, h, rfl⟩
      obtain ⟨m, hm, rfl⟩ := List.sublist_map_iff.1 hl
      refine ⟨m, hm, t, ?_⟩
      rw [List.flatten_cons, List.flatten_cons, e, List.map_map]; rfl
    · rintro ⟨l, hl, t, rfl⟩
      obtain ⟨as, h, e⟩ := (sends_ticks "cluster_id" (cids.map toString) (l.map (fun c => ("cluster_id", toString c)))).2
        ⟨l.map toString, hl.map toString, by rw [List.map_map]; rfl⟩
      exact ⟨_, ⟨_, _, rfl, ⟨_, as, ⟨t, rfl⟩, h, rfl⟩, rfl⟩, by rw [List.flatten_cons, List.flatten_cons, ← e]; rfl⟩
  have hu : ∀ a b : String, "/index/" ++ i ++ "/cluster/" ++ a = "/index/" ++ i ++ ("/cluster/" ++ a) := fun a _ => by
    rw [String.append_assoc]
  constructor
  · rintro ⟨b, hb, args, h, rfl⟩
    obtain ⟨l, hl, t, e⟩ := (hargs args.flatten).1 ⟨args, h, rfl⟩
    rw [e]
    simp only [editForm, List.mem_cons, List.not_mem_nil, or_false] at hb
    rcases hb with rfl | rfl | rfl
    · exact ⟨"refine", by simp, l, hl, t, by rw [hu _ ""]; rfl⟩
    · exact ⟨"delete", by simp, l, hl, t, by rw [hu _ ""]; rfl⟩
    · exact ⟨"merge", by simp, l, hl, t, by rw [hu _ ""]; rfl⟩
  · rintro ⟨action, ha, l, hl, t, rfl⟩
    obtain ⟨args, h, e⟩ := (hargs _).2 ⟨l, hl, t, rfl⟩
    rw [e]
    simp only [List.mem_cons, List.not_mem_nil, or_false] at ha
    rcases ha with rfl | rfl | rfl
    · exact ⟨some ("/index/" ++ i ++ "/cluster/refine"), by simp [editForm], args, h, by rw [hu _ ""]; rfl⟩
    · exact ⟨none, by simp [editForm], args, h, by rw [hu _ ""]; rfl⟩
    · exact ⟨some ("/index/" ++ i ++ "/cluster/merge"), by simp [editForm], args, h, by rw [hu _ ""]; rfl⟩

/-- From the overview exactly those requests can be sent that `indexPress` has for its buttons, and searches. -/
theorem index_page_requests (fmt : Format σ) (asDoc : String → Html.Doc) (i : String) (p : IndexPage σ) (html : List Char)
    (h : indexHtml fmt asDoc i p = some html) (hd : FinishedDocs asDoc p.results) (hff : FormFree asDoc p.results)
    (hfields : p.fields ≠ []) (r : Request) :
    r ∈ requests (nodes html) ↔ (∃ b, indexPress i p b = some r) ∨ ∃ f ∈ p.fields, ∃ v, r = searchForm i none f v := by
  have hforms : forms (nodes html) = [searchFormOf i p.fields none, editForm i ((entries p.clusters).map (·.1))] := by
    rw [index_page_read fmt asDoc i p html h hd]
    unfold indexPageTags
    refine page_fold _ _ _ _ (neutral_tags _ _ (by decide +kernel)) ?_
    rw [List.foldl_append, List.foldl_append, List.foldl_append, List.foldl_append, search_fold, edit_fold, neutral_results asDoc _ _ hff,
      List.nil_append, List.cons_append, List.nil_append, listed_fold _ _ _ _ rfl, neutral_nodes _ (by decide +kernel)]
    rw [← overviewEntries_entries fmt]
    simp [Function.comp_def]
  unfold requests
  rw [hforms]
  simp only [Set.mem_setOf_eq, List.mem_cons, List.not_mem_nil, or_false, exists_eq_or_imp, exists_eq_left, search_requests i p.fields _ hfields,
    edit_requests]
  rw [or_comm]
  refine or_congr_left ?_
  constructor
  · rintro (⟨l, hl, t, rfl⟩ | ⟨l, hl, t, rfl⟩ | ⟨l, hl, t, rfl⟩)
    · exact ⟨.refineSelected l t, by simp only [indexPress, if_pos hl]⟩
    · exact ⟨.deleteSelected l t, by simp only [indexPress, if_pos hl]⟩
    · exact ⟨.mergeSelected l t, by simp only [indexPress, if_pos hl]⟩
  · rintro ⟨b, hb⟩
    cases b with
    | refineSelected l t =>
      simp only [indexPress] at hb
      split_ifs at hb with hl
      simp only [Option.some.injEq] at hb
      exact Or.inl ⟨l, hl, t, hb.symm⟩
    | deleteSelected l t =>
      simp only [indexPress] at hb
      split_ifs at hb with hl
      simp only [Option.some.injEq] at hb
      exact Or.inr (Or.inl ⟨l, hl, t, hb.symm⟩)
    | mergeSelected l t =>
      simp only [indexPress] at hb
      split_ifs at hb with hl
      simp only [Option.some.injEq] at hb
      exact Or.inr (Or.inr ⟨l, hl, t, hb.symm⟩)

/-! ## The details -/

/-- From the details exactly those requests can be sent that `detailsPress` has for its buttons. -/
theorem details_page_requests (i : String) (summary : List FieldRow) (clusters : Nat) (r : Request) :
    r ∈ requests (nodes (detailsHtml i summary clusters)) ↔ ∃ b, detailsPress i summary b = some r := by
  have hforms : forms (nodes (detailsHtml i summary clusters)) =
      [⟨none, true, "/index/" ++ i ++ "/recreate_model", [.choose "include_fields" true (summary.map (·.field)), .typed "iterations",
        .typed "min_docs", .typed "clusters", .typed "minimum_cluster_features"], [none]⟩,
       ⟨none, true, "/index/" ++ i ++ "/refine_model", [.typed "iterations", .typed "target_clusters", .typed "minimum_cluster_features"],
        [none]⟩] := by
    rw [details_page_read]
    unfold detailsPageTags
    dsimp only
    refine page_fold _ _ _ _ ?_ ?_
    · refine neutral_nodes _ fun n hn => ?_
      simp only [List.mem_cons, List.not_mem_nil, or_false] at hn
      rcases hn with rfl | rfl | rfl | rfl
      · show "li" ∉ formTags; decide
      · show "a" ∉ formTags; decide
      · show "/a" ∉ formTags; decide
      · show "/li" ∉ formTags; decide
    · rw [List.foldl_append, List.foldl_append, List.foldl_append, List.foldl_append, neutral_tags _ summaryTags (by decide +kernel),
        neutral_flatMap _ _ (fun r _ => neutral_tags _ fieldTags (by decide +kernel)),
        tags_fold _ recreateTags [.start none true "/index/{{ index_id }}/recreate_model", .select "include_fields" true] _
          (by decide +kernel)]
      simp only [List.foldl_cons, List.foldl_nil, Op.apply]
      have ho := options_fold (summary.map (·.field)) []
        (some ⟨none, true, "/index/" ++ i ++ "/recreate_model", [], []⟩) "include_fields" true []
      rw [List.flatMap_map] at ho
      rw [textOf_action _ "/index/{{ index_id }}/recreate_model" "/recreate_model" (by decide +kernel)]
      simp only [if_true]
      rw [ho, tags_fold _ detailsEndTags [.endSelect, .typed none "iterations", .typed none "min_docs", .typed none "clusters",
        .typed none "minimum_cluster_features", .button none, .finish, .start none true "/index/{{ index_id }}/refine_model",
        .typed none "iterations", .typed none "target_clusters", .typed none "minimum_cluster_features", .button none, .finish] _
        (by decide +kernel)]
      simp [Op.apply, putControl, Form.add, textOf_action _ "/index/{{ index_id }}/refine_model" "/refine_model" (by decide +kernel)]
  unfold requests
  rw [hforms]
  simp only [Set.mem_setOf_eq, List.mem_cons, List.not_mem_nil, or_false, exists_eq_or_imp, exists_eq_left, Form.requests,
    Option.getD_none, List.forall₂_cons_left_iff, List.forall₂_nil_left_iff, sends_typed, sends_many]
  constructor
  · rintro (⟨_, ⟨_, _, ⟨l, hl, rfl⟩, ⟨_, _, ⟨a, rfl⟩, ⟨_, _, ⟨b, rfl⟩, ⟨_, _, ⟨c, rfl⟩, ⟨_, _, ⟨d, rfl⟩, rfl, rfl⟩, rfl⟩, rfl⟩, rfl⟩, rfl⟩, rfl⟩ |
      ⟨_, ⟨_, _, ⟨a, rfl⟩, ⟨_, _, ⟨b, rfl⟩, ⟨_, _, ⟨c, rfl⟩, rfl, rfl⟩, rfl⟩, rfl⟩, rfl⟩)
    · exact ⟨.recreate l a b c d, by simp [detailsPress, hl]⟩
    · exact ⟨.refine a b c, rfl⟩
  · rintro ⟨b, hb⟩
    cases b with
    | recreate l a b c d =>
      simp only [detailsPress] at hb
      split_ifs at hb with hl
      left
      simp only [Option.some.injEq] at hb
      exact ⟨_, ⟨_, _, ⟨l, hl, rfl⟩, ⟨_, _, ⟨a, rfl⟩, ⟨_, _, ⟨b, rfl⟩, ⟨_, _, ⟨c, rfl⟩, ⟨_, _, ⟨d, rfl⟩, rfl, rfl⟩, rfl⟩, rfl⟩, rfl⟩, rfl⟩,
        by rw [← hb]; simp⟩
    | refine a b c =>
      right
      simp only [detailsPress, Option.some.injEq] at hb
      exact ⟨_, ⟨_, _, ⟨a, rfl⟩, ⟨_, _, ⟨b, rfl⟩, ⟨_, _, ⟨c, rfl⟩, rfl, rfl⟩, rfl⟩, rfl⟩, by rw [← hb]; simp⟩

/-- The list of indexes has no forms. -/
theorem listing_page_requests (path corpusType : String) : requests (nodes (listingHtml path corpusType)) = ∅ := by
  have : forms (nodes (listingHtml path corpusType)) = [] := by
    rw [listing_page_read]
    exact page_fold _ _ _ _ (fun r => rfl) (neutral_tags _ _ (by decide +kernel) _)
  ext r
  simp [requests, this]

/-- The page of a pinned cluster offers nothing but to unpin it, and searches. -/
theorem pinned_page_requests (fmt : Format σ) (asDoc : String → Html.Doc) (i : String) (feature : Option Nat) (p : ClusterPage σ)
    (html : List Char) (h : clusterHtml fmt asDoc i feature p = some html) (hd : FinishedDocs asDoc p.results)
    (hff : FormFree asDoc p.results) (hfields : p.fields ≠ []) (hp : p.pinned = true) (r : Request) (hr : r ∈ requests (nodes html))
    (hpost : r.post = true) :
    r = ⟨true, "/index/" ++ i ++ "/cluster/pin", [("return_to", "cluster"), ("cluster_id", toString p.cluster), ("pinned", "0")]⟩ := by
  rcases (cluster_page_requests fmt asDoc i feature p html h hd hff hfields r).1 hr with ⟨b, hb⟩ | ⟨f, -, v, rfl⟩
  · cases b with
    | unpin => simp [clusterPress, hp] at hb; exact hb.symm
    | _ => simp [clusterPress, hp] at hb
  · simp [searchForm] at hpost

/-! ## Examples -/

deriving instance DecidableEq for Request

/-- The page of cluster 1: it can be deleted, and features 1 and 2 can be selected, but not others. -/
example : ∃ p html, clusterPage fieldWeb 1 (some 1) none 30 none = .ok p ∧ clusterHtml demoFmt Html.Doc.text "0" (some 1) p = some html ∧
    (⟨true, "/index/0/cluster/delete", [("return_cluster_id", "2"), ("cluster_id", "1")]⟩ : Request) ∈ requests (nodes html) ∧
    (⟨true, "/index/0/feature/remove_from_model", [("cluster_id", "1"), ("feature_id", "2")]⟩ : Request) ∈ requests (nodes html) ∧
    (⟨false, "/index/0/search", [("field", "t"), ("value", "x"), ("cluster_id", "1")]⟩ : Request) ∈ requests (nodes html) := by
  obtain ⟨p, hp, he⟩ := ok_of_map (x := clusterPage fieldWeb 1 (some 1) none 30 none)
    (f := fun p => (p.fields, p.cluster, p.features.ids, p.pinned, p.next)) (b := (["t"], 1, [1, 2], false, 2)) (by decide +kernel)
  obtain ⟨html, hh⟩ := cluster_page_shown_partial demoFmt Html.Doc.text fieldWeb "0" 1 (some 1) none 30 none p hp (by decide)
  have hd := text_documents_finished Html.Doc.text (fun s => ⟨s, rfl⟩) p.results
  simp only [Prod.mk.injEq] at he
  obtain ⟨e1, e2, e3, e4, e5⟩ := he
  have key := cluster_page_requests demoFmt Html.Doc.text "0" (some 1) p html hh hd.1 hd.2 (by rw [e1]; simp)
  refine ⟨p, html, hp, hh, (key _).2 (Or.inl ⟨.delete, ?_⟩), (key _).2 (Or.inl ⟨.removeSelected [2], ?_⟩), (key _).2 (Or.inr ⟨"t", ?_, "x", ?_⟩)⟩
  · simp only [clusterPress, e4, e2, e5]; decide +kernel
  · simp only [clusterPress, e4, e2, e3]; decide +kernel
  · rw [e1]; simp
  · rw [e2]; decide +kernel

/-- The same index with cluster 1 pinned. -/
example : ∃ p html, clusterPage { fieldWeb with db := { fieldWeb.db with clusters := fieldWeb.db.clusters.map (fun r => { r with pinned := true }) } } 1 none none 30 none = .ok p ∧
    clusterHtml demoFmt Html.Doc.text "0" none p = some html ∧ p.pinned = true ∧ p.fields ≠ [] ∧ FinishedDocs Html.Doc.text p.results ∧
    FormFree Html.Doc.text p.results := by
  obtain ⟨p, hp, he⟩ := ok_of_map
    (x := clusterPage { fieldWeb with db := { fieldWeb.db with clusters := fieldWeb.db.clusters.map (fun r => { r with pinned := true }) } } 1 none none 30 none)
    (f := fun p => (p.fields, p.pinned)) (b := (["t"], true)) (by decide +kernel)
  obtain ⟨html, hh⟩ := cluster_page_shown_partial demoFmt Html.Doc.text _ "0" 1 none none 30 none p hp (by decide)
  have hd := text_documents_finished Html.Doc.text (fun s => ⟨s, rfl⟩) p.results
  simp only [Prod.mk.injEq] at he
  exact ⟨p, html, hp, hh, he.2, by rw [he.1]; simp, hd.1, hd.2⟩

/-- From the overview clusters 1 and 3 can be merged. -/
example : ∃ p html, indexPage fieldWeb none none 30 5 none = .ok (some p) ∧ indexHtml demoFmt Html.Doc.text "0" p = some html ∧
    ∀ r, r ∈ requests (nodes html) ↔ (∃ b, indexPress "0" p b = some r) ∨ ∃ v, r = searchForm "0" none "t" v := by
  obtain ⟨q, hq, he⟩ := ok_of_map (x := indexPage fieldWeb none none 30 5 none)
    (f := fun q => q.map (fun p => p.fields)) (b := some ["t"]) (by decide +kernel)
  cases q with
  | none => cases he
  | some p =>
    obtain ⟨html, hh⟩ := index_page_shown_partial demoFmt Html.Doc.text fieldWeb "0" none none 30 5 none p hq (by decide)
    have hd := text_documents_finished Html.Doc.text (fun s => ⟨s, rfl⟩) p.results
    have hf : p.fields = ["t"] := by simpa using he
    refine ⟨p, html, hq, hh, fun r => ?_⟩
    rw [index_page_requests demoFmt Html.Doc.text "0" p html hh hd.1 hd.2 (by rw [hf]; simp), hf]
    simp

/-- From the details a model of one field can be made. -/
example : (⟨true, "/index/0/recreate_model", [("include_fields", "t"), ("iterations", "10"), ("min_docs", "5"), ("clusters", "8"),
    ("minimum_cluster_features", "1")]⟩ : Request) ∈ requests (nodes (detailsHtml "0" [⟨"t", 3, .text "a", .text "c", 0⟩] 3)) :=
  (details_page_requests _ _ _ _).2 ⟨.recreate ["t"] "10" "5" "8" "1", by decide +kernel⟩

end Hyperreal.Props
