import Verif.Lemmas.Links
import Verif.Props.Requests

/-! # C72: links and forms lead where they say -/

namespace Hyperreal.Props
open Web Cli Spec

variable {σ : Type} [LinearOrder σ] {int : String → Option Int} {luck : Luck σ} {fault : Nat → Option Err}
variable {i : String}

/-! ## Links -/

/-- **C72.** Every link of a cluster page leads to the page it names, whatever the content of the index then is. -/
theorem cluster_links_lead (hint : ReadsNumbers int) (hi : int i = some 0) (hp : PathPart i) (w : Web σ) (p : ClusterPage σ)
    (l : Label) (u : String) (h : (l, u) ∈ clusterLinks i p) :
    ∃ g, onClusterPage p l = some g ∧ ∀ n, browse int luck fault w (n + 2) (.get u) = g.page w := by
  simp only [clusterLinks, baseLinks, List.mem_append, List.mem_cons, List.not_mem_nil, or_false, List.mem_map, Prod.mk.injEq] at h
  rcases h with (((⟨rfl, rfl⟩ | ⟨rfl, rfl⟩ | ⟨rfl, rfl⟩ | ⟨rfl, rfl⟩) | h) | ⟨rfl, rfl⟩) | ⟨f, hf, rfl, rfl⟩
  · exact ⟨_, rfl, fun n => goal_home (n + 1)⟩
  · exact ⟨_, rfl, fun n => goal_details hi (shape_details hp) (n + 2)⟩
  · exact ⟨_, rfl, fun n => goal_overview hint hi hp none none (.inl rfl) (shape_index hp) n⟩
  · exact ⟨_, rfl, fun n => goal_cluster hint hi _ none none (.inl rfl) (shape_cluster hp _) (n + 1)⟩
  · split at h
    · simp only [List.mem_cons, Prod.mk.injEq, List.not_mem_nil, or_false] at h
      rcases h with ⟨rfl, rfl⟩ | ⟨rfl, rfl⟩
      · exact ⟨_, rfl, fun n => goal_cluster hint hi _ none none (.inl rfl) (shape_cluster hp _) (n + 1)⟩
      · exact ⟨_, rfl, fun n => goal_cluster hint hi _ none none (.inl rfl) (shape_cluster hp _) (n + 1)⟩
    · cases h
  · refine ⟨_, rfl, fun n => goal_overview (slash := true) hint hi hp none (some p.cluster) (.inl rfl) ?_ n⟩
    exact shape_index_query hp "cluster_id" (by decide +kernel) p.cluster (by simp)
  · refine ⟨_, rfl, fun n => goal_cluster (slash := true) hint hi _ (some f) none (.inr rfl) ?_ (n + 1)⟩
    exact shape_cluster_query hp p.cluster "feature_id" (by decide +kernel) f true (by rw [toString_ofNat]; simp)

/-- **C72.** Every link of an index page leads to the page it names. -/
theorem index_links_lead (hint : ReadsNumbers int) (hi : int i = some 0) (hp : PathPart i) (w : Web σ) (p : IndexPage σ)
    (l : Label) (u : String) (h : (l, u) ∈ indexLinks i p) :
    ∃ g, onIndexPage p l = some g ∧ ∀ n, browse int luck fault w (n + 2) (.get u) = g.page w := by
  simp only [indexLinks, baseLinks, List.mem_append, List.mem_cons, List.not_mem_nil, or_false, List.mem_flatMap, Prod.mk.injEq] at h
  rcases h with (⟨rfl, rfl⟩ | ⟨rfl, rfl⟩ | ⟨rfl, rfl⟩ | ⟨rfl, rfl⟩) | ⟨x, hx, h⟩
  · exact ⟨_, rfl, fun n => goal_home (n + 1)⟩
  · exact ⟨_, rfl, fun n => goal_details hi (shape_details hp) (n + 2)⟩
  · exact ⟨_, rfl, fun n => goal_overview hint hi hp none none (.inl rfl) (shape_index hp) n⟩
  · refine ⟨_, rfl, fun n => goal_file (slash := false) hi ?_ (n + 2)⟩
    refine ⟨by simp [pathOf, queryOf], by simp, ?_, by simp⟩
    intro s hs
    simp only [List.mem_cons, List.not_mem_nil, or_false] at hs
    rcases hs with rfl | rfl | rfl
    · decide +kernel
    · exact hp
    · decide +kernel
  · simp only [entryLinks, List.mem_append, List.mem_map, Prod.mk.injEq, List.mem_cons, List.not_mem_nil, or_false] at h
    rcases h with ⟨f, hf, rfl, rfl⟩ | h | ⟨rfl, rfl⟩
    · refine ⟨_, rfl, fun n => goal_overview (slash := true) hint hi hp (some f) none (.inr rfl) ?_ n⟩
      exact shape_index_query hp "feature_id" (by decide +kernel) f (by rw [toString_ofNat]; simp)
    · cases hpf : p.feature with
      | some f =>
        rw [hpf] at h
        simp only [Prod.mk.injEq] at h
        obtain ⟨rfl, rfl⟩ := h
        refine ⟨.cluster x.1 (some f) none, by simp [onIndexPage, hpf], fun n => goal_cluster (slash := true) hint hi _ (some f) none (.inr rfl) ?_ (n + 1)⟩
        exact shape_cluster_query hp x.1 "feature_id" (by decide +kernel) f true (by rw [toString_ofNat]; simp)
      | none =>
        cases hpc : p.cluster with
        | some c =>
          rw [hpf, hpc] at h
          simp only [Prod.mk.injEq] at h
          obtain ⟨rfl, rfl⟩ := h
          refine ⟨.cluster x.1 none (some c), by simp [onIndexPage, hpc], fun n => goal_cluster (slash := true) hint hi _ none (some c) (.inl rfl) ?_ (n + 1)⟩
          exact shape_cluster_query hp x.1 "filter_cluster_id" (by decide +kernel) c true (by simp)
        | none =>
          rw [hpf, hpc] at h
          simp only [Prod.mk.injEq] at h
          obtain ⟨rfl, rfl⟩ := h
          exact ⟨_, rfl, fun n => goal_cluster hint hi _ none none (.inl rfl) (shape_cluster hp _) (n + 1)⟩
    · refine ⟨_, rfl, fun n => goal_overview (slash := true) hint hi hp none (some x.1) (.inl rfl) ?_ n⟩
      exact shape_index_query hp "cluster_id" (by decide +kernel) x.1 (by simp)

/-- **C72.** So do the links of the details and of the list of indexes. -/
theorem other_links_lead (hint : ReadsNumbers int) (hi : int i = some 0) (hp : PathPart i) (w : Web σ)
    (l : Label) (u : String) (h : (l, u) ∈ detailsLinks i ∨ (l, u) ∈ listingLinks) :
    ∃ g, onOtherPages l = some g ∧ ∀ n, browse int luck fault w (n + 2) (.get u) = g.page w := by
  simp only [detailsLinks, listingLinks, baseLinks, List.mem_append, List.mem_cons, List.not_mem_nil, or_false, Prod.mk.injEq] at h
  rcases h with (⟨rfl, rfl⟩ | ⟨rfl, rfl⟩) | (⟨rfl, rfl⟩ | ⟨rfl, rfl⟩)
  · exact ⟨_, rfl, fun n => goal_home (n + 1)⟩
  · exact ⟨_, rfl, fun n => goal_overview hint hi hp none none (.inl rfl) (shape_index hp) n⟩
  · exact ⟨_, rfl, fun n => goal_home (n + 1)⟩
  · exact ⟨_, rfl, fun n => goal_overview hint (hint 0) (plain_int 0) none none (.inl rfl) (shape_index (plain_int 0)) n⟩

/-! ## Forms -/

theorem perform_return {a a' : Action} (db : DB) (h : (a.plan luck).1 = (a'.plan luck).1) {k k' : Response}
    (ha : ∀ v, (a.plan luck).2 v = k) (ha' : ∀ v, (a'.plan luck).2 v = k') :
    (a.perform luck fault db).1 = (a'.perform luck fault db).1 ∧
      (((a.perform luck fault db).2 = k ∧ (a'.perform luck fault db).2 = k') ∨
        ∃ e, (a.perform luck fault db).2 = .failed e ∧ (a'.perform luck fault db).2 = .failed e) := by
  unfold Action.perform
  rw [h]
  rcases hc : calls fault 0 (a'.plan luck).1 (Atomic.Conn.fresh db) with ⟨c, v⟩
  cases v with
  | ok v => exact ⟨rfl, .inl ⟨ha v, ha' v⟩⟩
  | error e => exact ⟨rfl, .inr ⟨e, rfl, rfl⟩⟩

theorem shape_post (hp : PathPart i) (x y : String) (hx : PathPart x) (hy : PathPart y) {url : String}
    (h : url.toList = ("/index/" ++ i ++ "/" ++ x ++ "/" ++ y).toList) : Shape url ["index", i, x, y] false none := by
  refine ⟨by rw [h]; simp [pathOf, queryOf], by simp, ?_, by simp⟩
  intro s hs
  simp only [List.mem_cons, List.not_mem_nil, or_false] at hs
  rcases hs with rfl | rfl | rfl | rfl
  · decide +kernel
  · exact hp
  · exact hx
  · exact hy

theorem shape_post_index (hp : PathPart i) (x : String) (hx : PathPart x) {url : String}
    (h : url.toList = ("/index/" ++ i ++ "/" ++ x).toList) : Shape url ["index", i, x] false none := by
  refine ⟨by rw [h]; simp [pathOf, queryOf], by simp, ?_, by simp⟩
  intro s hs
  simp only [List.mem_cons, List.not_mem_nil, or_false] at hs
  rcases hs with rfl | rfl | rfl
  · decide +kernel
  · exact hp
  · exact hx

theorem filter_pairs_same {α : Type} (n : String) (l : List α) (g : α → String) :
    (((l.map (fun v => (n, g v))).filter (fun x => x.1 = n)).map (·.2)) = l.map g := by
  induction l with
  | nil => rfl
  | cons v l ih => simpa using ih

theorem filter_pairs_other {α : Type} (n m : String) (h : n ≠ m) (l : List α) (g : α → String) :
    (((l.map (fun v => (n, g v))).filter (fun x => x.1 = m)).map (·.2)) = [] := by
  induction l with
  | nil => rfl
  | cons v l ih => simp [h]

theorem toInt_zero (hint : ReadsNumbers int) : toInt int "0" = .ok 0 := toInt_numeral hint 0
theorem toInt_one (hint : ReadsNumbers int) : toInt int "1" = .ok 1 := toInt_numeral hint 1

theorem numeral_ne_empty (c : Int) : toString c ≠ "" := (plain_int c).1

section
variable {url : String} {segs : List String} {slash : Bool} {form : List (String × String)}

theorem arg_post_none (h : Shape url segs slash none) (n : String) (hf : (form.filter (fun x => x.1 = n)).map (·.2) = []) :
    (Request.mk true url form).arg n = .ok none := by
  unfold Request.arg; rw [values_post h, hf]

theorem arg_post_one (h : Shape url segs slash none) (n : String) {v : String}
    (hf : (form.filter (fun x => x.1 = n)).map (·.2) = [v]) : (Request.mk true url form).arg n = .ok (some v) := by
  unfold Request.arg; rw [values_post h, hf]

theorem argWith_post_none {α : Type} {conv : String → Except Err α} (h : Shape url segs slash none) (n : String)
    (hf : (form.filter (fun x => x.1 = n)).map (·.2) = []) : (Request.mk true url form).argWith conv n = .ok none := by
  unfold Request.argWith; rw [arg_post_none h n hf]; rfl

theorem argWith_post_one {α : Type} {conv : String → Except Err α} (h : Shape url segs slash none) (n : String) {v : String} {x : α}
    (hf : (form.filter (fun x => x.1 = n)).map (·.2) = [v]) (hx : conv v = .ok x) :
    (Request.mk true url form).argWith conv n = .ok (some x) := by
  unfold Request.argWith; rw [arg_post_one h n hf]; simp only [Web.ok_bind, hx]; rfl

theorem ints_post (hint : ReadsNumbers int) (h : Shape url segs slash none) (n : String) {l : List Int}
    (hf : (form.filter (fun x => x.1 = n)).map (·.2) = l.map (fun c => toString c)) :
    ((Request.mk true url form).values n).mapM (toInt int) = .ok l := by
  rw [values_post h, hf, mapM_ints hint]

theorem nats_post (hint : ReadsNumbers int) (h : Shape url segs slash none) (n : String) {l : List Nat}
    (hf : (form.filter (fun x => x.1 = n)).map (·.2) = l.map (fun c => toString c)) :
    ((Request.mk true url form).values n).mapM (toNat int) = .ok l := by
  rw [values_post h, hf, mapM_nats hint]

theorem target_post_some (hint : ReadsNumbers int) (h : Shape url segs slash none) {t : Int}
    (hf : (form.filter (fun x => x.1 = "target_clusters")).map (·.2) = [toString t]) :
    (Request.mk true url form).target int = .ok (some t) := by
  unfold Request.target
  rw [arg_post_one h _ hf]
  simp only [Web.ok_bind, numeral_ne_empty, if_false, toInt_numeral hint]
  rfl

theorem target_post_empty (h : Shape url segs slash none)
    (hf : (form.filter (fun x => x.1 = "target_clusters")).map (·.2) = [""]) :
    (Request.mk true url form).target int = .ok none := by
  unfold Request.target
  rw [arg_post_one h _ hf]
  rfl
end

theorem post_pin (hint : ReadsNumbers int) (hi : int i = some 0) (hp : PathPart i) (w : Web σ) (c : Int) (b : Bool) {s : String}
    (hs : s = if b then "1" else "0") (n : Nat) :
    browse int luck fault w (n + 3) ⟨true, "/index/" ++ i ++ "/cluster/pin",
      [("return_to", "cluster"), ("cluster_id", toString c), ("pinned", s)]⟩ =
      landing w ((Action.pin [c] b true).perform luck fault w.db) := by
  have hsh : Shape ("/index/" ++ i ++ "/cluster/pin") ["index", i, "cluster", "pin"] false none :=
    shape_post hp "cluster" "pin" (by decide +kernel) (by decide +kernel) (by simp)
  refine browse_landing hint hi hp (respond_post hsh hi .pin (by simp [route, indexAttributes, routeIn]) rfl (by simp)
    (by simp [Route.takes, Route.accepts, Request.names, hsh.urlParams]) _ _ ?_) n
  unfold Route.action
  dsimp only
  rw [ints_post (l := [c]) hint hsh "cluster_id" (by simp), Web.ok_bind,
    argWith_post_one (v := s) (x := if b then 1 else 0) hsh "pinned" (by simp) (by
      subst hs; cases b; exact toInt_zero hint; exact toInt_one hint), Web.ok_bind,
    arg_post_one (v := "cluster") hsh "return_to" (by simp), Web.ok_bind]
  cases b <;> rfl

theorem post_delete_one (hint : ReadsNumbers int) (hi : int i = some 0) (hp : PathPart i) (w : Web σ) (c back : Int) (n : Nat) :
    browse int luck fault w (n + 3) ⟨true, "/index/" ++ i ++ "/cluster/delete",
      [("return_cluster_id", toString back), ("cluster_id", toString c)]⟩ =
      landing w ((Action.delete [c] (some back)).perform luck fault w.db) := by
  have hsh : Shape ("/index/" ++ i ++ "/cluster/delete") ["index", i, "cluster", "delete"] false none :=
    shape_post hp "cluster" "delete" (by decide +kernel) (by decide +kernel) (by simp)
  obtain ⟨h1, h2⟩ := perform_return (luck := luck) (fault := fault) (a := .delete [c] none) (a' := .delete [c] (some back)) w.db rfl
    (k := .index none) (k' := .cluster back) (fun _ => rfl) (fun _ => rfl)
  have hr := respond_post (luck := luck) (fault := fault) (w := w) (form := [("return_cluster_id", toString back), ("cluster_id", toString c)])
    hsh hi .delete (by simp [route, indexAttributes, routeIn]) rfl (by simp)
    (by simp [Route.takes, Route.accepts]) (.delete [c] none) (locationRaw i (some (toString back)) "") (by
      unfold Route.action
      dsimp only
      rw [ints_post (l := [c]) hint hsh "cluster_id" (by simp), Web.ok_bind,
        arg_post_one (v := toString back) hsh "return_cluster_id" (by simp), Web.ok_bind]
      simp only [given, numeral_ne_empty, if_false]
      rfl)
  refine browse_landing_raw hint hi hp back (s := "") ?_ ?_ n
  · rcases h2 with h2 | ⟨e, h2⟩
    · exact .inl h2.2
    · exact .inr ⟨e, h2.2⟩
  · rw [hr, h1]
    rcases h2 with h2 | ⟨e, h2⟩
    · rw [h2.1, h2.2]; rfl
    · rw [h2.1, h2.2]

theorem post_create (hint : ReadsNumbers int) (hi : int i = some 0) (hp : PathPart i) (w : Web σ) (fids : List Nat)
    (form : List (String × String)) (hf : (form.filter (fun x => x.1 = "feature_id")).map (·.2) = fids.map (fun f => toString f))
    (hform : ∀ x ∈ form, x.1 ≠ "index_id") (n : Nat) :
    browse int luck fault w (n + 3) ⟨true, "/index/" ++ i ++ "/cluster/create", form⟩ =
      landing w ((Action.create fids).perform luck fault w.db) := by
  have hsh : Shape ("/index/" ++ i ++ "/cluster/create") ["index", i, "cluster", "create"] false none :=
    shape_post hp "cluster" "create" (by decide +kernel) (by decide +kernel) (by simp)
  refine browse_landing hint hi hp (respond_post hsh hi .create (by simp [route, indexAttributes, routeIn]) rfl hform
    (by simp [Route.takes, Route.accepts]) _ _ ?_) n
  unfold Route.action
  dsimp only
  rw [nats_post hint hsh "feature_id" hf, Web.ok_bind]
  rfl

theorem post_remove (hint : ReadsNumbers int) (hi : int i = some 0) (hp : PathPart i) (w : Web σ) (fids : List Nat) (c : Int) (n : Nat) :
    browse int luck fault w (n + 3) ⟨true, "/index/" ++ i ++ "/feature/remove_from_model",
      ("cluster_id", toString c) :: fids.map (fun f => ("feature_id", toString f))⟩ =
      landing w ((Action.removeFeatures fids (some c)).perform luck fault w.db) := by
  have hsh : Shape ("/index/" ++ i ++ "/feature/remove_from_model") ["index", i, "feature", "remove_from_model"] false none :=
    shape_post hp "feature" "remove_from_model" (by decide +kernel) (by decide +kernel) (by simp)
  obtain ⟨h1, h2⟩ := perform_return (luck := luck) (fault := fault) (a := .removeFeatures fids none)
    (a' := .removeFeatures fids (some c)) w.db rfl (k := .index none) (k' := .cluster c) (fun _ => rfl) (fun _ => rfl)
  have hr := respond_post (luck := luck) (fault := fault) (w := w)
    (form := ("cluster_id", toString c) :: fids.map (fun f => ("feature_id", toString f)))
    hsh hi .removeFeatures (by simp [route, indexAttributes, routeIn]) rfl (by simp)
    (by simp [Route.takes, Route.accepts, Request.names, hsh.urlParams]) (.removeFeatures fids none) (locationRaw i (some (toString c)) "/") (by
      unfold Route.action
      dsimp only
      rw [nats_post (l := fids) hint hsh "feature_id" (by
          have := filter_pairs_same "feature_id" fids (fun f => toString f)
          simpa using this), Web.ok_bind,
        arg_post_one (v := toString c) hsh "cluster_id" (by simp), Web.ok_bind]
      rfl)
  refine browse_landing_raw hint hi hp c (s := "/") ?_ ?_ n
  · rcases h2 with h2 | ⟨e, h2⟩
    · exact .inl h2.2
    · exact .inr ⟨e, h2.2⟩
  · rw [hr, h1]
    rcases h2 with h2 | ⟨e, h2⟩
    · rw [h2.1, h2.2]; rfl
    · rw [h2.1, h2.2]

theorem post_refine (hint : ReadsNumbers int) (hi : int i = some 0) (hp : PathPart i) (w : Web σ) (cids : List Int)
    (form : List (String × String)) (t : Option Int) (k : Option Int) (m : Option Nat) (toCluster : Bool)
    (hf : (form.filter (fun x => x.1 = "cluster_id")).map (·.2) = cids.map (fun c => toString c))
    (ht : (form.filter (fun x => x.1 = "target_clusters")).map (·.2) = [match t with | some t => toString t | none => ""])
    (hk : (form.filter (fun x => x.1 = "iterations")).map (·.2) = (k.map (fun k => toString k)).toList)
    (hm : (form.filter (fun x => x.1 = "minimum_cluster_features")).map (·.2) = (m.map (fun m => toString m)).toList)
    (hb : (form.filter (fun x => x.1 = "return_to")).map (·.2) = [if toCluster then "cluster" else "model"])
    (hform : ∀ x ∈ form, x.1 ∈ ["cluster_id", "target_clusters", "iterations", "return_to", "minimum_cluster_features"]) (n : Nat) :
    browse int luck fault w (n + 3) ⟨true, "/index/" ++ i ++ "/cluster/refine", form⟩ =
      landing w ((Action.refine cids t (k.getD 10) (m.getD 1) toCluster).perform luck fault w.db) := by
  have hsh : Shape ("/index/" ++ i ++ "/cluster/refine") ["index", i, "cluster", "refine"] false none :=
    shape_post hp "cluster" "refine" (by decide +kernel) (by decide +kernel) (by simp)
  refine browse_landing hint hi hp (respond_post hsh hi .refine (by simp [route, indexAttributes, routeIn]) rfl
    (by intro x hx h; have := hform x hx; rw [h] at this; revert this; decide)
    (by
      simp only [Route.takes, Route.accepts, Request.names, hsh.urlParams, List.all_eq_true]
      intro s hs
      simp only [Option.toList_none, List.map_nil, List.nil_append, List.mem_map] at hs
      obtain ⟨x, hx, rfl⟩ := hs
      simp only [Bool.or_eq_true, decide_eq_true_eq]
      exact .inl (.inl (hform x hx))) _ _ ?_) n
  unfold Route.action
  dsimp only
  rw [ints_post hint hsh "cluster_id" hf, Web.ok_bind]
  have h1 : (Request.mk true ("/index/" ++ i ++ "/cluster/refine") form).target int = .ok t := by
    cases t with
    | some t => exact target_post_some hint hsh ht
    | none => exact target_post_empty hsh ht
  have h2 : (Request.mk true ("/index/" ++ i ++ "/cluster/refine") form).argWith (toNat int) "minimum_cluster_features" = .ok m := by
    cases m with
    | some m => exact argWith_post_one hsh _ hm (toNat_numeral hint m)
    | none => exact argWith_post_none hsh _ hm
  have h3 : (Request.mk true ("/index/" ++ i ++ "/cluster/refine") form).argWith (toInt int) "iterations" = .ok k := by
    cases k with
    | some k => exact argWith_post_one hsh _ hk (toInt_numeral hint k)
    | none => exact argWith_post_none hsh _ hk
  rw [h1, Web.ok_bind, h2, Web.ok_bind, h3, Web.ok_bind, arg_post_one hsh "return_to" hb, Web.ok_bind]
  cases toCluster <;> rfl

/-- **C72.** Every button of a cluster page does what it says, to this cluster and the selected features, and shows what came of
it. -/
theorem cluster_buttons (hint : ReadsNumbers int) (hi : int i = some 0) (hp : PathPart i) (w : Web σ) (p : ClusterPage σ)
    (b : ClusterPress) (r : Request) (a : Action) (hr : clusterPress i p b = some r) (hm : ClusterMeans p b a) (n : Nat) :
    browse int luck fault w (n + 3) r = landing w (a.perform luck fault w.db) := by
  cases hm with
  | unpin =>
    unfold clusterPress at hr
    dsimp only at hr
    split at hr
    · cases hr; exact post_pin hint hi hp w _ false rfl n
    · cases hr
  | pin =>
    unfold clusterPress at hr
    dsimp only at hr
    split at hr
    · cases hr
    · cases hr; exact post_pin hint hi hp w _ true rfl n
  | delete =>
    unfold clusterPress at hr
    dsimp only at hr
    split at hr
    · cases hr
    · cases hr; exact post_delete_one hint hi hp w _ _ n
  | createVisible =>
    unfold clusterPress at hr
    dsimp only at hr
    split at hr
    · cases hr
    · cases hr
      exact post_create hint hi hp w _ _ (by
          have := filter_pairs_same "feature_id" p.features.ids (fun f => toString f)
          simpa using this) (by simp) n
  | removeSelected fids =>
    unfold clusterPress at hr
    dsimp only at hr
    split at hr
    · cases hr
    · cases hr; exact post_remove hint hi hp w _ _ n
  | createSelected fids =>
    unfold clusterPress at hr
    dsimp only at hr
    split at hr
    · cases hr
    · cases hr
      exact post_create hint hi hp w _ _ (by
          have := filter_pairs_same "feature_id" fids (fun f => toString f)
          simpa using this) (by simp) n
  | split t k m =>
    unfold clusterPress at hr
    dsimp only at hr
    split at hr
    · cases hr
    · cases hr
      exact post_refine hint hi hp w [p.cluster] _ (some t) (some k) (some m) true (by simp) (by simp) (by simp) (by simp) (by simp)
        (by simp) n
  | splitAny k m =>
    unfold clusterPress at hr
    dsimp only at hr
    split at hr
    · cases hr
    · cases hr
      exact post_refine hint hi hp w [p.cluster] _ none (some k) (some m) true (by simp) (by simp) (by simp) (by simp) (by simp)
        (by simp) n

theorem ids_of_form (cids : List Int) (t : String) :
    (([("return_to", "model"), ("target_clusters", t)] ++ cids.map (fun c => ("cluster_id", toString c))).filter
      (fun x => x.1 = "cluster_id")).map (·.2) = cids.map (fun c => toString c) := by
  have := filter_pairs_same "cluster_id" cids (fun c => toString c)
  simpa using this

theorem post_refine_selected (hint : ReadsNumbers int) (hi : int i = some 0) (hp : PathPart i) (w : Web σ) (cids : List Int)
    (t : Option Int) (n : Nat) :
    browse int luck fault w (n + 3) ⟨true, "/index/" ++ i ++ "/cluster/" ++ "refine", [("return_to", "model"),
      ("target_clusters", match t with | some t => toString t | none => "")] ++ cids.map (fun c => ("cluster_id", toString c))⟩ =
      landing w ((Action.refine cids t 10 1 false).perform luck fault w.db) := by
  have hu : "/index/" ++ i ++ "/cluster/" ++ "refine" = "/index/" ++ i ++ "/cluster/refine" := by
    rw [← String.toList_inj]; simp
  rw [hu]
  refine post_refine hint hi hp w cids _ t none none false (ids_of_form _ _) ?_ ?_ ?_ ?_ ?_ n
  · simp
  · simp
  · simp
  · simp
  · intro x hx
    simp only [List.cons_append, List.nil_append, List.mem_cons, List.mem_map] at hx
    rcases hx with rfl | rfl | ⟨c, -, rfl⟩ <;> simp

/-- **C72.** Every button of an index page does what it says to the selected clusters, and shows what came of it. -/
theorem index_buttons (hint : ReadsNumbers int) (hi : int i = some 0) (hp : PathPart i) (w : Web σ) (p : IndexPage σ)
    (b : IndexPress) (r : Request) (a : Action) (hr : indexPress i p b = some r) (hm : IndexMeans b a) (n : Nat) :
    browse int luck fault w (n + 3) r = landing w (a.perform luck fault w.db) := by
  cases hm with
  | refine cids t =>
    unfold indexPress at hr
    dsimp only at hr
    split at hr
    · cases hr; exact post_refine_selected hint hi hp w cids (some t) n
    · cases hr
  | refineAny cids =>
    unfold indexPress at hr
    dsimp only at hr
    split at hr
    · cases hr; exact post_refine_selected hint hi hp w cids none n
    · cases hr
  | delete cids t =>
    unfold indexPress at hr
    dsimp only at hr
    split at hr
    · cases hr
      have hsh : Shape ("/index/" ++ i ++ "/cluster/" ++ "delete") ["index", i, "cluster", "delete"] false none :=
        shape_post hp "cluster" "delete" (by decide +kernel) (by decide +kernel) (by simp)
      refine browse_landing_index (s := "") hint hi hp (.inl rfl) ?_ (respond_post hsh hi .delete
        (by simp [route, indexAttributes, routeIn]) rfl (by simp) (by simp [Route.takes, Route.accepts]) _ _ (by
          unfold Route.action
          dsimp only
          rw [ints_post hint hsh "cluster_id" (ids_of_form _ _), Web.ok_bind,
            arg_post_none hsh "return_cluster_id" (by simp), Web.ok_bind]
          rfl)) n
      unfold Action.perform
      rcases hc : calls fault 0 ((Action.delete cids none).plan luck).1 (Atomic.Conn.fresh w.db) with ⟨c, v⟩
      cases v with
      | ok v => exact .inl rfl
      | error e => exact .inr ⟨e, rfl⟩
    · cases hr
  | merge cids t =>
    unfold indexPress at hr
    dsimp only at hr
    split at hr
    · cases hr
      have hsh : Shape ("/index/" ++ i ++ "/cluster/" ++ "merge") ["index", i, "cluster", "merge"] false none :=
        shape_post hp "cluster" "merge" (by decide +kernel) (by decide +kernel) (by simp)
      refine browse_landing hint hi hp (respond_post hsh hi .merge
        (by simp [route, indexAttributes, routeIn]) rfl (by simp) (by simp [Route.takes, Route.accepts]) _ _ ?_) n
      unfold Route.action
      dsimp only
      rw [ints_post hint hsh "cluster_id" (ids_of_form _ _), Web.ok_bind]
      rfl
    · cases hr

/-- **C72.** The buttons of the details make a new model of the selected fields, or refine the model, with the numbers typed. -/
theorem details_buttons (hint : ReadsNumbers int) (hi : int i = some 0) (hp : PathPart i) (w : Web σ) (summary : List FieldRow)
    (b : DetailsPress) (r : Request) (a : Action) (hr : detailsPress i summary b = some r) (hm : DetailsMeans b a) (n : Nat) :
    browse int luck fault w (n + 3) r = landing w (a.perform luck fault w.db) := by
  cases hm with
  | recreate fields k d c m =>
    unfold detailsPress at hr
    dsimp only at hr
    split at hr
    · cases hr
      have hsh : Shape ("/index/" ++ i ++ "/recreate_model") ["index", i, "recreate_model"] false none :=
        shape_post_index hp "recreate_model" (by decide +kernel) (by simp)
      have hv : (Request.mk true ("/index/" ++ i ++ "/recreate_model") (fields.map (fun f => ("include_fields", f)) ++
          [("iterations", toString k), ("min_docs", toString d), ("clusters", toString c),
            ("minimum_cluster_features", toString m)])).values "include_fields" = fields := by
        rw [values_post hsh]
        have := filter_pairs_same "include_fields" fields id
        simpa using this
      refine browse_landing hint hi hp (respond_post hsh hi .recreateModel
        (by simp [route, indexAttributes, routeIn]) rfl ?_ ?_ _ _ ?_) n
      · intro x hx
        simp only [List.mem_append, List.mem_map, List.mem_cons, List.not_mem_nil, or_false] at hx
        rcases hx with ⟨f, -, rfl⟩ | rfl | rfl | rfl | rfl <;> simp
      · simp only [Route.takes, Route.accepts, Request.names, hsh.urlParams, List.all_eq_true]
        intro s hs
        simp only [Option.toList_none, List.map_nil, List.nil_append, List.mem_map, List.mem_append, List.mem_cons,
          List.not_mem_nil, or_false] at hs
        obtain ⟨x, hx, rfl⟩ := hs
        rcases hx with ⟨f, -, rfl⟩ | rfl | rfl | rfl | rfl <;> simp
      · unfold Route.action
        dsimp only
        rw [argWith_post_one hsh "clusters" (by simp) (toInt_numeral hint c), Web.ok_bind,
          argWith_post_one hsh "min_docs" (by simp) (toNat_numeral hint d), Web.ok_bind,
          argWith_post_one hsh "iterations" (by simp) (toInt_numeral hint k), Web.ok_bind,
          argWith_post_one hsh "minimum_cluster_features" (by simp) (toNat_numeral hint m), Web.ok_bind, hv]
        rfl
    · cases hr
  | refine k t m =>
    cases hr
    have hsh : Shape ("/index/" ++ i ++ "/refine_model") ["index", i, "refine_model"] false none :=
      shape_post_index hp "refine_model" (by decide +kernel) (by simp)
    refine browse_landing hint hi hp (respond_post hsh hi .refineModel
      (by simp [route, indexAttributes, routeIn]) rfl (by simp)
      (by simp [Route.takes, Route.accepts, Request.names, hsh.urlParams]) _ _ ?_) n
    unfold Route.action
    dsimp only
    rw [argWith_post_one hsh "iterations" (by simp) (toInt_numeral hint k), Web.ok_bind, values_post hsh,
      argWith_post_one hsh "minimum_cluster_features" (by simp) (toNat_numeral hint m),
      target_post_some (t := t) hint hsh (by simp)]
    rfl
  | refineAny k m =>
    cases hr
    have hsh : Shape ("/index/" ++ i ++ "/refine_model") ["index", i, "refine_model"] false none :=
      shape_post_index hp "refine_model" (by decide +kernel) (by simp)
    refine browse_landing hint hi hp (respond_post hsh hi .refineModel
      (by simp [route, indexAttributes, routeIn]) rfl (by simp)
      (by simp [Route.takes, Route.accepts, Request.names, hsh.urlParams]) _ _ ?_) n
    unfold Route.action
    dsimp only
    rw [argWith_post_one hsh "iterations" (by simp) (toInt_numeral hint k), Web.ok_bind, values_post hsh,
      argWith_post_one hsh "minimum_cluster_features" (by simp) (toNat_numeral hint m),
      target_post_empty hsh (by simp)]
    rfl

/-! ## The search form -/

/-- Where the search leads (the cluster 0 counts as none). -/
def searchTarget (i : String) (f : Nat) : Option Int → String
  | some c => if c ≠ 0 then "/index/" ++ i ++ "/cluster/" ++ toString c ++ "?feature_id=" ++ toString f
    else "/index/" ++ i ++ "/?feature_id=" ++ toString f
  | none => "/index/" ++ i ++ "/?feature_id=" ++ toString f

/-- The cluster the form sends. -/
def sentCluster : Option Int → Option String
  | some c => if c ≠ 0 then some (toString c) else none
  | none => none

theorem respond_search (hi : int i = some 0) (hp : PathPart i) (w : Web σ) (field value : String) (c : Option Int) :
    respond int luck fault w (searchForm i c field value) =
      match Web.search w.db field value with
      | .error e => (w.db, .failed e)
      | .ok f => (w.db, .redirect (searchTarget i f c)) := by
  have hsh : Shape ("/index/" ++ i ++ "/search") ["index", i, "search"] false none :=
    shape_post_index hp "search" (by decide +kernel) (by simp)
  have hu : (searchForm i c field value).url = "/index/" ++ i ++ "/search" := rfl
  have hpre : prepare int (searchForm i c field value) i .search = .ok (i, .search) := by
    have hl : lookupIndex int i = .ok () := by simp [lookupIndex, toInt, hi]; rfl
    unfold prepare
    have : (searchForm i c field value).pathArg "index_id" i = .ok i := rfl
    rw [this, Web.ok_bind, hl, Web.ok_bind]
    rfl
  have hval : ∀ n, (searchForm i c field value).values n = (((searchForm i c field value).form).filter (fun x => x.1 = n)).map (·.2) := by
    intro n
    simp only [Request.values, hu, hsh.urlParams]
    simp [searchForm]
  have htakes : Route.search.takes (searchForm i c field value) = true := by
    simp only [Route.takes, Route.accepts, Request.names, hu, hsh.urlParams, List.all_eq_true]
    intro s hs
    simp only [Option.toList_none, List.map_nil, List.nil_append, List.mem_map] at hs
    obtain ⟨x, hx, rfl⟩ := hs
    unfold searchForm at hx
    cases c with
    | none =>
      simp only [List.append_nil, List.mem_cons, List.not_mem_nil, or_false] at hx
      rcases hx with rfl | rfl <;> simp
    | some c =>
      dsimp only at hx
      split at hx
      · simp only [List.cons_append, List.nil_append, List.mem_cons, List.not_mem_nil, or_false] at hx
        rcases hx with rfl | rfl | rfl <;> simp
      · simp only [List.append_nil, List.mem_cons, List.not_mem_nil, or_false] at hx
        rcases hx with rfl | rfl <;> simp
  have h1 : (searchForm i c field value).arg "field" = .ok (some field) := by
    unfold Request.arg
    rw [hval]
    unfold searchForm
    cases c with
    | none => simp
    | some c => by_cases h0 : c = 0 <;> simp [h0]
  have h2 : (searchForm i c field value).arg "value" = .ok (some value) := by
    unfold Request.arg
    rw [hval]
    unfold searchForm
    cases c with
    | none => simp
    | some c => by_cases h0 : c = 0 <;> simp [h0]
  have h3 : (searchForm i c field value).arg "cluster_id" =
      .ok (sentCluster c) := by
    unfold Request.arg
    rw [hval]
    unfold searchForm sentCluster
    cases c with
    | none => simp
    | some c => by_cases h0 : c = 0 <;> simp [h0]
  unfold respond
  rw [hu, hsh.urlParts]
  have hroute : route [i, "search"] = some (i, .search) := by simp [route, indexAttributes, routeIn]
  simp only [hroute]
  unfold handle
  rw [hpre]
  simp only [Route.needsPost, Route.isIndex, htakes, Route.action, Bool.false_and, Bool.false_eq_true, if_false, Bool.not_true]
  unfold Route.show
  dsimp only
  rw [h1, Web.ok_bind, h2, Web.ok_bind, h3]
  dsimp only
  cases hs : Web.search w.db field value with
  | error e => rfl
  | ok f =>
    cases c with
    | none => rfl
    | some c =>
      unfold sentCluster searchTarget
      by_cases h0 : c = 0
      · simp only [h0, ne_eq, not_true_eq_false, if_false]; rfl
      · simp only [h0, ne_eq, not_false_eq_true, if_true]; rfl

/-- **C72.** The search form of the overview leads to the overview of the feature with this field and text; that of a cluster page
to this page with the feature — unless the id of the cluster is 0.  A text that is not in the index gives an error. -/
theorem search_form_partial (hint : ReadsNumbers int) (hi : int i = some 0) (hp : PathPart i) (w : Web σ) (field value : String) (n : Nat) :
    (∀ e, Web.search w.db field value = .error e → ∀ c,
      browse int luck fault w (n + 3) (searchForm i c field value) = .failed e) ∧
    (∀ f, Web.search w.db field value = .ok f →
      browse int luck fault w (n + 3) (searchForm i none field value) = Goal.page w (.overview (some f) none) ∧
      ∀ c, c ≠ 0 → browse int luck fault w (n + 3) (searchForm i (some c) field value) = Goal.page w (.cluster c (some f) none)) := by
  constructor
  · intro e he c
    unfold browse
    rw [respond_search hi hp, he]
  · intro f hf
    constructor
    · unfold browse
      rw [respond_search hi hp, hf]
      refine goal_overview (slash := true) hint hi hp (some f) none (.inr rfl) ?_ n
      exact shape_index_query hp "feature_id" (by decide +kernel) f (by rw [toString_ofNat]; simp [searchTarget])
    · intro c hc
      unfold browse
      rw [respond_search hi hp, hf]
      unfold searchTarget
      dsimp only
      rw [if_pos hc]
      refine goal_cluster (slash := false) hint hi _ (some f) none (.inr rfl) ?_ (n + 1)
      exact shape_cluster_query hp c "feature_id" (by decide +kernel) f false (by rw [toString_ofNat]; simp)

/-- **C72, refuted.** The search form on the page of the cluster 0 leaves the cluster: it leads to the overview. -/
theorem search_leaves_cluster_zero (hint : ReadsNumbers int) (hi : int i = some 0) (hp : PathPart i) (w : Web σ)
    (field value : String) (f : Nat) (hf : Web.search w.db field value = .ok f) (n : Nat) :
    browse int luck fault w (n + 3) (searchForm i (some 0) field value) = Goal.page w (.overview (some f) none) := by
  unfold browse
  rw [respond_search hi hp, hf]
  refine goal_overview (slash := true) hint hi hp (some f) none (.inr rfl) ?_ n
  exact shape_index_query hp "feature_id" (by decide +kernel) f (by rw [toString_ofNat]; simp [searchTarget])

/-! ## The pages are there -/

/-- Without a corpus, an index page can be shown for every feature and every existing cluster. -/
theorem index_page_ok (w : Web σ) (hw : FairWeb w) (hs : Settled w.db) (hsize : ∀ c, (featuresIn w.db c).length ≤ 2 ^ 62)
    (hno : w.corpus = none) (f : Option Nat) (c : Option Int) (hc : ∀ x, c = some x → hasCluster w.db x) (n topK : Nat)
    (hk : 1 ≤ topK) (t : Option String) : ∃ r, indexPage w f c n topK t = .ok r := by
  unfold indexPage
  by_cases h0 : clusterIds w.db = []
  · rw [if_pos h0]; exact ⟨_, rfl⟩
  rw [if_neg h0]
  have hq : ∃ q, indexQuery w f c = .ok q := by
    cases f with
    | some f => exact ⟨_, rfl⟩
    | none =>
      cases c with
      | none => exact ⟨_, rfl⟩
      | some c =>
        obtain ⟨D, hD, -⟩ := clusterDocs_spec hs c (hc c rfl)
        unfold indexQuery
        dsimp only
        rw [hD]
        exact ⟨_, rfl⟩
  obtain ⟨q, hq⟩ := hq
  rw [hq]
  cases q with
  | none => exact ⟨_, rfl⟩
  | some x =>
    obtain ⟨Q, F, C⟩ := x
    simp only [Web.ok_bind]
    by_cases hQ : Q = ∅
    · rw [if_pos hQ]; exact ⟨_, rfl⟩
    rw [if_neg hQ]
    obtain ⟨out, ho, -⟩ := pivot_clusters_spec w.rd hw.mono hw.pos w.visitC hw.visitC w.visit hw.visit
      w.arrange hw.arrange w.workers hw.workers w.completed hw.completed w.db hs hsize Q [] (by simp) (by simp) topK hk
    rw [ho, Web.ok_bind]
    unfold searchResults
    rw [hno]
    exact ⟨_, rfl⟩

/-- **C72.** A page about existing clusters is shown, when there is no corpus whose rendering could fail. -/
theorem existing_pages_shown (w : Web σ) (hw : FairWeb w) (hs : Settled w.db) (hsize : ∀ c, (featuresIn w.db c).length ≤ 2 ^ 62)
    (hno : w.corpus = none) (g : Goal) (hg : g.Exists w.db) (e : Err) : g.page w ≠ .failed e := by
  cases g with
  | listing => intro h; cases h
  | details => intro h; cases h
  | file => intro h; cases h
  | overview f c =>
    obtain ⟨r, hr⟩ := index_page_ok w hw hs hsize hno f c hg 5 40 (by decide) none
    unfold Goal.page
    dsimp only
    rw [hr]
    cases r <;> (intro h; cases h)
  | cluster c f g =>
    obtain ⟨p, hp⟩ := (cluster_page_spec w hw hs hsize c f g 30 none).2 hno hg.1 hg.2
    unfold Goal.page
    dsimp only
    rw [hp]
    intro h; cases h

/-- **C72.** Nothing a cluster page links to is missing. -/
theorem cluster_links_exist (w : Web σ) (hw : FairWeb w) (hs : Settled w.db) (hsize : ∀ c, (featuresIn w.db c).length ≤ 2 ^ 62)
    (c : Int) (f : Option Nat) (g : Option Int) (n : Nat) (t : Option String) (p : ClusterPage σ)
    (h : clusterPage w c f g n t = .ok p) (l : Label) (u : String) (hl : (l, u) ∈ clusterLinks i p) (goal : Goal)
    (hg : onClusterPage p l = some goal) : goal.Exists w.db := by
  have hc : hasCluster w.db c := (clusterPage_ok h).1
  obtain ⟨next, prev, h1, h2, -⟩ := cluster_ring w hw hs hsize
  obtain ⟨hn, hpv⟩ := h1 c f g n t p h
  obtain ⟨h3, h4, -, -⟩ := h2 c hc
  have hpc : p.cluster = c := ((cluster_page_spec w hw hs hsize c f g n t).1 p h).1
  unfold onClusterPage at hg
  cases l <;> simp only [Option.some.injEq, reduceCtorEq] at hg <;> subst hg
  all_goals first | exact trivial | skip
  · intro x hx; cases hx
  · exact ⟨hpc ▸ hc, by intro x hx; cases hx⟩
  · exact ⟨hpv ▸ h4, by intro x hx; cases hx⟩
  · exact ⟨hn ▸ h3, by intro x hx; cases hx⟩
  · intro x hx; cases hx; exact hpc ▸ hc
  · exact ⟨hpc ▸ hc, by intro x hx; cases hx⟩

theorem index_entries_exist (w : Web σ) (hw : FairWeb w) (hs : Settled w.db) (hsize : ∀ c, (featuresIn w.db c).length ≤ 2 ^ 62)
    (f : Option Nat) (c : Option Int) (n k : Nat) (hk : 1 ≤ k) (t : Option String) (p : IndexPage σ)
    (h : indexPage w f c n k t = .ok (some p)) : ∀ x ∈ (entries p.clusters).map (·.1), hasCluster w.db x := by
  obtain ⟨-, hsp⟩ := index_page_spec w hw hs hsize f c n k hk t _ h
  obtain ⟨Q, -, -, h1, h2⟩ := hsp p rfl
  by_cases hQ : Q = ∅
  · obtain ⟨L, hL, hperm, -⟩ := h1 hQ
    rw [hL]
    intro x hx
    have hx : x ∈ L.map (·.1) := by simpa [entries] using hx
    obtain ⟨y, hy, he⟩ := List.mem_map.1 (hperm.mem_iff.1 hx)
    exact ⟨y, hy, he⟩
  · obtain ⟨L, hL, -, hm, -⟩ := h2 hQ
    rw [hL]
    intro x hx
    have hx : x ∈ L.map (·.1) := by simpa [entries] using hx
    exact ((hm x).1 hx).1

theorem index_page_cluster (w : Web σ) (f : Option Nat) (c : Option Int) (n k : Nat) (t : Option String) (p : IndexPage σ)
    (h : indexPage w f c n k t = .ok (some p)) : ∀ x, p.cluster = some x → hasCluster w.db x := by
  unfold indexPage at h
  by_cases h0 : clusterIds w.db = []
  · rw [if_pos h0] at h; cases h
  rw [if_neg h0] at h
  obtain ⟨q, hq, h⟩ := bind_ok' h
  have hpc : p.cluster = if f.isSome then none else c := by
    cases q with
    | none => cases h; rfl
    | some x =>
      obtain ⟨Q, F, C⟩ := x
      dsimp only at h
      split at h
      · cases h; rfl
      · obtain ⟨so, -, h⟩ := bind_ok' h
        obtain ⟨re, -, h⟩ := bind_ok' h
        cases h; rfl
  intro x hx
  rw [hpc] at hx
  cases f with
  | some f => cases hx
  | none =>
    have hx : c = some x := by simpa using hx
    subst hx
    by_contra hn
    unfold indexQuery at hq
    dsimp only at hq
    rw [clusterDocs_unknown x hn] at hq
    cases hq

/-- **C72.** Nothing an index page links to is missing. -/
theorem index_links_exist (w : Web σ) (hw : FairWeb w) (hs : Settled w.db) (hsize : ∀ c, (featuresIn w.db c).length ≤ 2 ^ 62)
    (f : Option Nat) (c : Option Int) (n k : Nat) (hk : 1 ≤ k) (t : Option String) (p : IndexPage σ)
    (h : indexPage w f c n k t = .ok (some p)) (l : Label) (u : String) (hl : (l, u) ∈ indexLinks i p) (goal : Goal)
    (hg : onIndexPage p l = some goal) : goal.Exists w.db := by
  have he := index_entries_exist w hw hs hsize f c n k hk t p h
  simp only [indexLinks, baseLinks, List.mem_append, List.mem_cons, List.not_mem_nil, or_false, List.mem_flatMap, Prod.mk.injEq] at hl
  rcases hl with (⟨rfl, rfl⟩ | ⟨rfl, rfl⟩ | ⟨rfl, rfl⟩ | ⟨rfl, rfl⟩) | ⟨x, hx, hl⟩
  · cases hg; trivial
  · cases hg; trivial
  · cases hg; intro x hx; cases hx
  · cases hg; trivial
  · have hxc : hasCluster w.db x.1 := he x.1 (List.mem_map_of_mem hx)
    simp only [entryLinks, List.mem_append, List.mem_map, Prod.mk.injEq, List.mem_cons, List.not_mem_nil, or_false] at hl
    rcases hl with ⟨f, hf, rfl, rfl⟩ | hl | ⟨rfl, rfl⟩
    · cases hg; intro x hx; cases hx
    · cases hpf : p.feature with
      | some f =>
        rw [hpf] at hl
        simp only [Prod.mk.injEq] at hl
        obtain ⟨rfl, rfl⟩ := hl
        cases hg
        exact ⟨hxc, by intro x hx; cases hx⟩
      | none =>
        cases hpc : p.cluster with
        | some c =>
          rw [hpf, hpc] at hl
          simp only [Prod.mk.injEq] at hl
          obtain ⟨rfl, rfl⟩ := hl
          cases hg
          exact ⟨hxc, index_page_cluster w _ _ _ _ _ p h⟩
        | none =>
          rw [hpf, hpc] at hl
          simp only [Prod.mk.injEq] at hl
          obtain ⟨rfl, rfl⟩ := hl
          cases hg
          exact ⟨hxc, by intro x hx; cases hx⟩
    · cases hg; intro y hy; cases hy; exact hxc

/-! ## Going from cluster to cluster -/

/-- **C72.** A cluster page offers the previous and the next cluster if there is another cluster than this one and the
cluster 0. -/
theorem navigation_offered_partial (w : Web σ) (hw : FairWeb w) (hs : Settled w.db) (hsize : ∀ c, (featuresIn w.db c).length ≤ 2 ^ 62)
    (c : Int) (f : Option Nat) (g : Option Int) (n : Nat) (t : Option String) (p : ClusterPage σ)
    (h : clusterPage w c f g n t = .ok p) (x : Int) (hx : hasCluster w.db x) (hxc : x ≠ c) (hx0 : x ≠ 0) :
    (∃ u, (Label.previousCluster, u) ∈ clusterLinks i p) ∧ ∃ u, (Label.nextCluster, u) ∈ clusterLinks i p := by
  have hc : hasCluster w.db c := (clusterPage_ok h).1
  obtain ⟨next, prev, h1, h2, h3⟩ := cluster_ring w hw hs hsize
  obtain ⟨hn, hpv⟩ := h1 c f g n t p h
  obtain ⟨-, -, -, h5⟩ := h2 c hc
  have hcond : p.prev ≠ 0 ∨ p.next ≠ 0 := by
    by_contra hcon
    rw [not_or, not_not, not_not] at hcon
    have hn0 : next c = 0 := by rw [← hn]; exact hcon.2
    have hnc : next 0 = c := by rw [← hcon.1, hpv]; exact h5
    obtain ⟨k, -, hk⟩ := h3 c x hc hx
    have horbit : ∀ k, next^[k] c = c ∨ next^[k] c = 0 := by
      intro k
      induction k with
      | zero => exact .inl rfl
      | succ k ih =>
        rw [Function.iterate_succ_apply']
        rcases ih with ih | ih
        · rw [ih]; exact .inr hn0
        · rw [ih]; exact .inl hnc
    rcases horbit k with ho | ho
    · exact hxc (hk.symm.trans ho)
    · exact hx0 (hk.symm.trans ho)
  constructor
  · exact ⟨_, by unfold clusterLinks; rw [if_pos hcond]; simp; exact .inr rfl⟩
  · exact ⟨_, by unfold clusterLinks; rw [if_pos hcond]; simp; exact .inr rfl⟩

/-- **C72, refuted.** If the model consists of this cluster and the cluster 0, the page offers no other cluster. -/
theorem navigation_missing (w : Web σ) (hw : FairWeb w) (hs : Settled w.db) (hsize : ∀ c, (featuresIn w.db c).length ≤ 2 ^ 62)
    (c : Int) (hc0 : c ≠ 0) (honly : ∀ x, hasCluster w.db x ↔ x = c ∨ x = 0)
    (f : Option Nat) (g : Option Int) (n : Nat) (t : Option String) (p : ClusterPage σ)
    (h : clusterPage w c f g n t = .ok p) (u : String) :
    (Label.previousCluster, u) ∉ clusterLinks i p ∧ (Label.nextCluster, u) ∉ clusterLinks i p := by
  have hc : hasCluster w.db c := (clusterPage_ok h).1
  obtain ⟨next, prev, h1, h2, h3⟩ := cluster_ring w hw hs hsize
  obtain ⟨hn, hpv⟩ := h1 c f g n t p h
  obtain ⟨h4, h5, h6, h7⟩ := h2 c hc
  have hne : next c ≠ c := by
    intro he
    obtain ⟨k, -, hk⟩ := h3 c 0 hc ((honly 0).2 (.inr rfl))
    rw [Function.iterate_fixed he] at hk
    exact hc0 hk
  have hn0 : next c = 0 := ((honly _).1 h4).resolve_left hne
  have hpe : prev c ≠ c := by
    intro he
    apply hne
    rw [he] at h7
    exact h7
  have hp0 : prev c = 0 := ((honly _).1 h5).resolve_left hpe
  have hcond : ¬ (p.prev ≠ 0 ∨ p.next ≠ 0) := by rw [hn, hpv, hn0, hp0]; simp
  unfold clusterLinks baseLinks
  rw [if_neg hcond]
  simp

/-! ## Examples -/

theorem plainWeb_fair : FairWeb plainWeb :=
  ⟨demoWeb_fair.mono, demoWeb_fair.pos, demoWeb_fair.visitC, demoWeb_fair.visit, demoWeb_fair.visitT, demoWeb_fair.arrange,
    demoWeb_fair.workers, demoWeb_fair.completed⟩

theorem small_model (db : DB) (h : db.fc.length ≤ 2 ^ 62) (c : Int) : (featuresIn db c).length ≤ 2 ^ 62 := by
  have h1 : (featuresIn db c).length ≤ db.fc.length := by
    rw [featuresIn, List.length_map]; exact List.length_filter_le _ _
  omega

/-- The links of the page of cluster 1 of the example. -/
example : ((clusterPage plainWeb 1 none none 30 none).toOption.map (fun p => (clusterLinks "0" p).map (·.2))) =
    some ["/", "/index/0/details", "/index/0", "/index/0/cluster/1", "/index/0/cluster/3", "/index/0/cluster/2",
      "/index/0/?cluster_id=1", "/index/0/cluster/1/?feature_id=1", "/index/0/cluster/1/?feature_id=2"] := by
  decide +kernel

/-- The one to the next cluster leads there. -/
example (luck : Luck Rat) (fault : Nat → Option Err) (p : ClusterPage Rat) (h : clusterPage plainWeb 1 none none 30 none = .ok p)
    (u : String) (hu : (Label.nextCluster, u) ∈ clusterLinks "0" p) :
    browse readInt luck fault plainWeb 2 (.get u) = Goal.page plainWeb (.cluster p.next none none) ∧ hasCluster plainWeb.db p.next := by
  obtain ⟨g, hg, hb⟩ := cluster_links_lead (luck := luck) (fault := fault) readInt_reads (readInt_reads 0) (plain_int 0) plainWeb p _ u hu
  cases hg
  exact ⟨hb 0, (cluster_links_exist plainWeb plainWeb_fair queryDb_settled (small_model _ (by decide +kernel)) 1 none none 30 none p h _ u hu _ rfl).1⟩

/-- Buttons that are there, with what they mean. -/
example (p : ClusterPage Rat) (h : p.pinned = false) :
    clusterPress "0" p (.split "3" "10" "1") = some ⟨true, "/index/0/cluster/refine", [("cluster_id", toString p.cluster),
      ("return_to", "cluster"), ("target_clusters", "3"), ("iterations", "10"), ("minimum_cluster_features", "1")]⟩ ∧
    ClusterMeans p (.split "3" "10" "1") (.refine [p.cluster] (some 3) 10 1 true) := by
  refine ⟨?_, .split 3 10 1⟩
  simp only [clusterPress, h, Bool.false_eq_true, if_false]
  rfl

/-- Searching on the page of cluster 1. -/
example : Web.search plainWeb.db "t" "b" = .ok 1 ∧ searchForm "0" (some 1) "t" "b" =
    ⟨false, "/index/0/search", [("field", "t"), ("value", "b"), ("cluster_id", "1")]⟩ := by
  constructor
  · decide +kernel
  · rfl

/-- A new model with two clusters: they are 0 and 1. -/
def twoClusters : Web Rat :=
  { plainWeb with db := ((Action.recreateModel [] 2 2 10 1).perform demoLuck (fun _ => none) refineIndex).1 }

/-- The hypotheses of `navigation_missing` are met: cluster 1 has features and no link to cluster 0. -/
example : ∃ p, clusterPage twoClusters 1 none none 30 none = .ok p ∧ ∀ u,
    (Label.previousCluster, u) ∉ clusterLinks "0" p ∧ (Label.nextCluster, u) ∉ clusterLinks "0" p := by
  have hs : Settled twoClusters.db := requests_always_settled [(.recreateModel [] 2 2 10 1, demoLuck, fun _ => none)]
    (by intro r hr l; simp only [List.mem_singleton] at hr; subst hr; exact .refl l) refineIndex refineIndex_settled
  have hw : FairWeb twoClusters := ⟨plainWeb_fair.mono, plainWeb_fair.pos, plainWeb_fair.visitC, plainWeb_fair.visit,
    plainWeb_fair.visitT, plainWeb_fair.arrange, plainWeb_fair.workers, plainWeb_fair.completed⟩
  have hsize : ∀ c, (featuresIn twoClusters.db c).length ≤ 2 ^ 62 := small_model _ (by decide +kernel)
  have hids : twoClusters.db.clusters.map (·.cid) = [0, 1] := by decide +kernel
  have honly : ∀ x, hasCluster twoClusters.db x ↔ x = 1 ∨ x = 0 := by
    intro x
    have : hasCluster twoClusters.db x ↔ x ∈ twoClusters.db.clusters.map (·.cid) := by
      simp [hasCluster, List.mem_map]
    rw [this, hids]
    simp [or_comm]
  obtain ⟨p, hp⟩ := (cluster_page_spec twoClusters hw hs hsize 1 none none 30 none).2 rfl ((honly 1).2 (.inl rfl)) (by simp)
  exact ⟨p, hp, fun u => navigation_missing twoClusters hw hs hsize 1 (by decide) honly none none 30 none p hp u⟩

end Hyperreal.Props
