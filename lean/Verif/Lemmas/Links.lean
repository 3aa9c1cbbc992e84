import Verif.Lemmas.Routes
import Verif.Spec.Links

/-! # Where links lead -/

namespace Hyperreal.Web
open Atomic Cli Spec

section
variable {σ : Type} [LinearOrder σ] {int : String → Option Int} {luck : Luck σ} {fault : Nat → Option Err} {w : Web σ}
variable {url i : String} {rest : List String} {slash : Bool} {q : Option (String × String)}

theorem numeral_chars (c : Int) : ∀ ch ∈ (toString c).toList, ch.isDigit = true ∨ ch = '-' := by
  intro ch hch
  cases c with
  | ofNat n => exact .inl (plain_digits (n := n) ch hch)
  | negSucc n =>
    have h : toString (Int.negSucc n) = "-" ++ toString (n + 1) := rfl
    rw [h, String.toList_append, List.mem_append] at hch
    rcases hch with hch | hch
    · exact .inr (by simpa using hch)
    · exact .inl (plain_digits ch hch)

theorem numeral_ne (c : Int) (s : String) (hs : s.toList.any (fun ch => !ch.isDigit && ch != '-') = true) : toString c ≠ s := by
  rintro rfl
  obtain ⟨ch, hch, h⟩ := List.any_eq_true.mp hs
  rcases numeral_chars c ch hch with h' | h' <;> simp [h'] at h

theorem route_cluster (i : String) (c : Int) : route [i, "cluster", toString c] = some (i, .cluster (toString c)) := by
  have h : routeIn ["cluster", toString c] = some (.cluster (toString c)) := by
    have h1 := numeral_ne c "delete" (by decide +kernel)
    have h2 := numeral_ne c "create" (by decide +kernel)
    have h3 := numeral_ne c "merge" (by decide +kernel)
    have h4 := numeral_ne c "refine" (by decide +kernel)
    have h5 := numeral_ne c "pin" (by decide +kernel)
    generalize toString c = s at *
    unfold routeIn
    split <;> simp_all
  simp only [route]
  rw [if_pos (by decide +kernel), h]
  rfl

/-- The answer is no redirect: the browser stops. -/
theorem browse_stop {a : Answer σ} {r : Request} (h : (respond int luck fault w r).2 = a) (ha : ∀ u, a ≠ .redirect u) (n : Nat) :
    browse int luck fault w n r = a := by
  cases n with
  | zero => exact h
  | succ n =>
    rw [browse, h]
    cases a <;> first | rfl | exact absurd rfl (ha _)

/-- A page without redirects of its own. -/
theorem browse_page (h : Shape url ("index" :: i :: rest) slash q) (hi : int i = some 0) (t : Route)
    (hr : route (i :: rest) = some (i, t)) (ht : t.needsPost = false)
    (htakes : ∀ url', Shape url' ("index" :: i :: rest) true q → t.takes (Request.get url') = true)
    (hix : t.isIndex = true) (a : Answer σ)
    (hshown : ∀ url', Shape url' ("index" :: i :: rest) true q → shown int w i (Request.get url') t = a)
    (ha : ∀ u, a ≠ .redirect u) (n : Nat) : browse int luck fault w (n + 1) (Request.get url) = a := by
  have htrue : ∀ (url' : String), Shape url' ("index" :: i :: rest) true q → (respond int luck fault w (Request.get url')).2 = a := by
    intro url' h'
    rw [respond_get h' hi t hr ht]
    simp only [Bool.not_true, Bool.and_false, Bool.false_eq_true, if_false, htakes url' h', hshown url' h']
  cases slash with
  | true => exact browse_stop (htrue url h) ha _
  | false =>
    have hresp := respond_get (w := w) (luck := luck) (fault := fault) h hi t hr ht
    rw [browse, hresp]
    simp only [hix, Bool.not_false, Bool.and_true, if_true]
    exact browse_stop (htrue _ h.addSlash) ha _

/-- The names in the query. -/
theorem names_get (h : Shape url segs slash q) : (Request.get url).names = q.toList.map (·.1) := by
  simp [Request.names, Request.get, h.urlParams]

theorem takes_of (t : Route) {ns : List String} (hns : t.accepts = some ns) (h : Shape url segs slash q)
    (hq : ∀ x, q = some x → x.1 ∈ ns) : t.takes (Request.get url) = true := by
  unfold Route.takes
  rw [hns]
  simp only [names_get h, List.all_eq_true]
  intro n hn
  cases q with
  | none => simp at hn
  | some x =>
    have : n = x.1 := by simpa using hn
    subst this
    simp [hq x rfl]

/-- The query of a link to a cluster page. -/
def clusterQuery : Option Nat → Option Int → Option (String × String)
  | some f, _ => some ("feature_id", toString f)
  | none, some g => some ("filter_cluster_id", toString g)
  | none, none => none

theorem ok_bind {α β : Type} (a : α) (f : α → Except Err β) : (Except.ok a >>= f) = f a := rfl

theorem arg_absent (h : Shape url segs slash q) (n : String) (hn : ∀ x, q = some x → x.1 ≠ n) : (Request.get url).arg n = .ok none := by
  unfold Request.arg
  rw [h.values_get]
  cases q with
  | none => rfl
  | some x => simp [hn x rfl]

theorem arg_present (h : Shape url segs slash (some (n, v))) : (Request.get url).arg n = .ok (some v) := by
  unfold Request.arg
  rw [h.values_get]
  simp

theorem argWith_absent {α : Type} (conv : String → Except Err α) (h : Shape url segs slash q) (n : String)
    (hn : ∀ x, q = some x → x.1 ≠ n) : (Request.get url).argWith conv n = .ok none := by
  unfold Request.argWith
  rw [arg_absent h n hn]
  rfl

theorem argWith_present {α : Type} (conv : String → Except Err α) (h : Shape url segs slash (some (n, v))) {x : α}
    (hx : conv v = .ok x) : (Request.get url).argWith conv n = .ok (some x) := by
  unfold Request.argWith
  rw [arg_present h, ok_bind]
  show (conv v >>= fun x => pure (some x)) = _
  rw [hx]
  rfl

theorem scoring_absent (h : Shape url segs slash q) (hn : ∀ x, q = some x → x.1 ≠ "scoring") : (Request.get url).scoring = .ok () := by
  unfold Request.scoring
  rw [arg_absent h _ hn]
  rfl

theorem toInt_numeral (hint : ReadsNumbers int) (c : Int) : toInt int (toString c) = .ok c := by
  unfold toInt; rw [hint c]

theorem toNat_numeral (hint : ReadsNumbers int) (f : Nat) : toNat int (toString f) = .ok f := by
  have : toInt int (toString f) = .ok (f : Int) := toInt_numeral hint f
  unfold toNat
  rw [this, ok_bind, if_neg (by omega)]
  simp

theorem show_cluster (hint : ReadsNumbers int) (c : Int) (f : Option Nat) (g : Option Int) (hfg : f = none ∨ g = none)
    (h : Shape url segs slash (clusterQuery f g)) :
    (Route.cluster (toString c)).show int w i (Request.get url) =
      (clusterPage w c f g 30 none >>= fun p => pure (Answer.cluster p)) := by
  have hf : (Request.get url).argWith (toNat int) "feature_id" = .ok f := by
    cases f with
    | some f => exact argWith_present _ h (toNat_numeral hint f)
    | none =>
      refine argWith_absent _ h _ ?_
      intro x hx
      cases g with
      | none => simp [clusterQuery] at hx
      | some g => simp only [clusterQuery, Option.some.injEq] at hx; subst hx; simp
  have hg : (Request.get url).argWith (toInt int) "filter_cluster_id" = .ok g := by
    cases f with
    | some f =>
      have : g = none := by simpa using hfg
      subst this
      refine argWith_absent _ h _ ?_
      intro x hx; simp only [clusterQuery, Option.some.injEq] at hx; subst hx; simp
    | none =>
      cases g with
      | none => exact argWith_absent _ h _ (by intro x hx; simp [clusterQuery] at hx)
      | some g => exact argWith_present _ h (toInt_numeral hint g)
  have hother : ∀ n, n ≠ "feature_id" → n ≠ "filter_cluster_id" → ∀ x, clusterQuery f g = some x → x.1 ≠ n := by
    intro n h1 h2 x hx
    cases f with
    | some f => simp only [clusterQuery, Option.some.injEq] at hx; subst hx; exact h1.symm
    | none =>
      cases g with
      | none => simp [clusterQuery] at hx
      | some g => simp only [clusterQuery, Option.some.injEq] at hx; subst hx; exact h2.symm
  simp only [Route.show]
  rw [toInt_numeral hint c, ok_bind, hf, ok_bind, hg, ok_bind,
    argWith_absent _ h "exemplar_docs" (hother _ (by decide) (by decide)), ok_bind,
    scoring_absent h (hother _ (by decide) (by decide)), ok_bind,
    arg_absent h "result_type" (hother _ (by decide) (by decide)), ok_bind]
  rfl

theorem goal_cluster (hint : ReadsNumbers int) (hi : int i = some 0) (c : Int) (f : Option Nat) (g : Option Int)
    (hfg : f = none ∨ g = none) (h : Shape url ["index", i, "cluster", toString c] slash (clusterQuery f g)) (n : Nat) :
    browse int luck fault w (n + 1) (Request.get url) = Goal.page w (.cluster c f g) := by
  refine browse_page (q := clusterQuery f g) h hi (.cluster (toString c)) (route_cluster i c) rfl ?_ rfl _ ?_ ?_ n
  · intro url' h'
    refine takes_of _ rfl h' ?_
    intro x hx
    cases f with
    | some f => simp only [clusterQuery, Option.some.injEq] at hx; subst hx; simp
    | none =>
      cases g with
      | some g => simp only [clusterQuery, Option.some.injEq] at hx; subst hx; simp
      | none => simp [clusterQuery] at hx
  · intro url' h'
    unfold shown Goal.page
    rw [show_cluster hint c f g hfg h']
    dsimp only
    cases hx : clusterPage w c f g 30 none <;> rfl
  · intro u
    unfold Goal.page
    dsimp only
    split <;> simp

theorem show_details (r : Request) : shown int w i r .details = Goal.page w .details := rfl

theorem browse_plain (h : Shape url ("index" :: i :: rest) slash none) (hi : int i = some 0) (t : Route)
    (hr : route (i :: rest) = some (i, t)) (ht : t.needsPost = false) (hix : t.isIndex = false) {ns : List String}
    (hns : t.accepts = some ns) (a : Answer σ) (hs : shown int w i (Request.get url) t = a) (ha : ∀ u, a ≠ .redirect u) (n : Nat) :
    browse int luck fault w n (Request.get url) = a := by
  refine browse_stop ?_ ha n
  rw [respond_get h hi t hr ht]
  simp only [hix, Bool.false_and, Bool.false_eq_true, if_false, takes_of t hns h (by simp), Bool.not_true, hs]

theorem goal_details (hi : int i = some 0) (h : Shape url ["index", i, "details"] slash none) (n : Nat) :
    browse int luck fault w n (Request.get url) = Goal.page w .details := by
  refine browse_plain h hi .details ?_ rfl rfl rfl (Goal.page w .details) rfl (by simp [Goal.page]) n
  simp only [route]
  rw [if_pos (by decide +kernel)]
  rfl

theorem goal_file (hi : int i = some 0) (h : Shape url ["index", i, "export_clusters"] slash none) (n : Nat) :
    browse int luck fault w n (Request.get url) = Goal.page w .file := by
  refine browse_plain h hi .exportClusters ?_ rfl rfl rfl (Goal.page w .file) rfl (by simp [Goal.page]) n
  simp only [route]
  rw [if_pos (by decide +kernel)]
  rfl

/-- The query of a link to the overview. -/
def overviewQuery : Option Nat → Option Int → Option (String × String)
  | some f, _ => some ("feature_id", toString f)
  | none, some g => some ("cluster_id", toString g)
  | none, none => none

theorem show_overview (hint : ReadsNumbers int) (f : Option Nat) (c : Option Int) (hfc : f = none ∨ c = none)
    (h : Shape url segs slash (overviewQuery f c)) :
    Route.index.show int w i (Request.get url) = (indexPage w f c 5 40 none >>= fun p => pure (match p with
      | none => .redirect ("/index/" ++ i ++ "/details")
      | some p => .index p)) := by
  have hf : (Request.get url).argWith (toNat int) "feature_id" = .ok f := by
    cases f with
    | some f => exact argWith_present _ h (toNat_numeral hint f)
    | none =>
      refine argWith_absent _ h _ ?_
      intro x hx
      cases c with
      | none => simp [overviewQuery] at hx
      | some g => simp only [overviewQuery, Option.some.injEq] at hx; subst hx; simp
  have hg : (Request.get url).argWith (toInt int) "cluster_id" = .ok c := by
    cases f with
    | some f =>
      have : c = none := by simpa using hfc
      subst this
      refine argWith_absent _ h _ ?_
      intro x hx; simp only [overviewQuery, Option.some.injEq] at hx; subst hx; simp
    | none =>
      cases c with
      | none => exact argWith_absent _ h _ (by intro x hx; simp [overviewQuery] at hx)
      | some g => exact argWith_present _ h (toInt_numeral hint g)
  have hother : ∀ n, n ≠ "feature_id" → n ≠ "cluster_id" → ∀ x, overviewQuery f c = some x → x.1 ≠ n := by
    intro n h1 h2 x hx
    cases f with
    | some f => simp only [overviewQuery, Option.some.injEq] at hx; subst hx; exact h1.symm
    | none =>
      cases c with
      | none => simp [overviewQuery] at hx
      | some g => simp only [overviewQuery, Option.some.injEq] at hx; subst hx; exact h2.symm
  simp only [Route.show]
  rw [hf, ok_bind, hg, ok_bind,
    argWith_absent _ h "exemplar_docs" (hother _ (by decide) (by decide)), ok_bind,
    argWith_absent _ h "top_k_features" (hother _ (by decide) (by decide)), ok_bind,
    scoring_absent h (hother _ (by decide) (by decide)), ok_bind,
    arg_absent h "result_type" (hother _ (by decide) (by decide)), ok_bind]
  show (indexPage w f c 5 40 none >>= _) = _
  cases indexPage w f c 5 40 none with
  | error e => rfl
  | ok p => cases p <;> rfl

theorem shape_details (hp : PathPart i) : Shape ("/index/" ++ i ++ "/details") ["index", i, "details"] false none := by
  refine ⟨?_, by simp, ?_, by simp⟩
  · simp [pathOf, queryOf]
  · intro s hs
    simp only [List.mem_cons, List.not_mem_nil, or_false] at hs
    rcases hs with rfl | rfl | rfl
    · decide +kernel
    · exact hp
    · decide +kernel

theorem goal_overview (hint : ReadsNumbers int) (hi : int i = some 0) (hp : PathPart i) (f : Option Nat) (c : Option Int)
    (hfc : f = none ∨ c = none) (h : Shape url ["index", i] slash (overviewQuery f c)) (n : Nat) :
    browse int luck fault w (n + 2) (Request.get url) = Goal.page w (.overview f c) := by
  have htakes : ∀ url', Shape url' ["index", i] true (overviewQuery f c) → Route.index.takes (Request.get url') = true := by
    intro url' h'
    refine takes_of _ rfl h' ?_
    intro x hx
    cases f with
    | some f => simp only [overviewQuery, Option.some.injEq] at hx; subst hx; simp
    | none =>
      cases c with
      | some g => simp only [overviewQuery, Option.some.injEq] at hx; subst hx; simp
      | none => simp [overviewQuery] at hx
  have htrue : ∀ (url' : String) (m : Nat), Shape url' ["index", i] true (overviewQuery f c) →
      browse int luck fault w (m + 1) (Request.get url') = Goal.page w (.overview f c) := by
    intro url' m h'
    have hresp : respond int luck fault w (Request.get url') = (w.db, shown int w i (Request.get url') .index) := by
      rw [respond_get h' hi .index rfl rfl]
      simp only [Bool.not_true, Bool.and_false, Bool.false_eq_true, if_false, htakes url' h']
    have hsh := show_overview (w := w) (i := i) hint f c hfc h'
    unfold shown at hresp
    rw [hsh] at hresp
    rw [browse, hresp]
    unfold Goal.page
    dsimp only
    cases hx : indexPage w f c 5 40 none with
    | error e => rfl
    | ok p =>
      cases p with
      | some p => rfl
      | none =>
        show browse int luck fault w m (Request.get ("/index/" ++ i ++ "/details")) = _
        exact goal_details hi (shape_details hp) m
  cases slash with
  | true => exact htrue url _ h
  | false =>
    rw [browse, respond_get h hi .index rfl rfl]
    simp only [Route.isIndex, Bool.not_false, Bool.and_true, if_true]
    exact htrue _ _ h.addSlash

/-- The root. -/
theorem goal_home (n : Nat) : browse int luck fault w (n + 1) (Request.get "/") = Goal.page w .listing := by
  have h1 : respond int luck fault w (Request.get "/") = (w.db, .redirect "/index/") := by
    have : urlParts (Request.get "/").url = [] := by decide +kernel
    unfold respond
    rw [this]
  have h2 : respond int luck fault w (Request.get "/index/") = (w.db, .listing) := by
    have h : urlParts (Request.get "/index/").url = ["index"] := by decide +kernel
    have h' : urlSlash (Request.get "/index/").url = true := by decide +kernel
    unfold respond
    rw [h]
    simp only [h', if_true]
  rw [browse, h1]
  exact browse_stop (by rw [h2]; rfl) (by simp [Goal.page]) n

/-! ## The URLs of the links -/

theorem shape_index (hp : PathPart i) : Shape ("/index/" ++ i) ["index", i] false none := by
  refine ⟨by simp [pathOf, queryOf], by simp, ?_, by simp⟩
  intro s hs
  simp only [List.mem_cons, List.not_mem_nil, or_false] at hs
  rcases hs with rfl | rfl
  · decide +kernel
  · exact hp

theorem shape_index_slash (hp : PathPart i) : Shape ("/index/" ++ i ++ "/") ["index", i] true none := by
  refine ⟨by simp [pathOf, queryOf], by simp, ?_, by simp⟩
  intro s hs
  simp only [List.mem_cons, List.not_mem_nil, or_false] at hs
  rcases hs with rfl | rfl
  · decide +kernel
  · exact hp

theorem shape_index_query (hp : PathPart i) (n : String) (hn : PathPart n) (v : Int)
    (ht : url.toList = ("/index/" ++ i ++ "/?" ++ n ++ "=" ++ toString v).toList) : Shape url ["index", i] true (some (n, toString v)) := by
  refine ⟨?_, by simp, ?_, ?_⟩
  · rw [ht]; simp [pathOf, queryOf]
  · intro s hs
    simp only [List.mem_cons, List.not_mem_nil, or_false] at hs
    rcases hs with rfl | rfl
    · decide +kernel
    · exact hp
  · intro x hx
    cases hx
    exact ⟨hn, (plain_int v).2⟩

theorem shape_cluster (hp : PathPart i) (c : Int) :
    Shape ("/index/" ++ i ++ "/cluster/" ++ toString c) ["index", i, "cluster", toString c] false none := by
  refine ⟨by simp [pathOf, queryOf], by simp, ?_, by simp⟩
  intro s hs
  simp only [List.mem_cons, List.not_mem_nil, or_false] at hs
  rcases hs with rfl | rfl | rfl | rfl
  · decide +kernel
  · exact hp
  · decide +kernel
  · exact plain_int c

theorem shape_cluster_query (hp : PathPart i) (c : Int) (n : String) (hn : PathPart n) (v : Int) (slash : Bool)
    (ht : url.toList = ("/index/" ++ i ++ "/cluster/" ++ toString c ++ (if slash then "/" else "") ++ "?" ++ n ++ "=" ++ toString v).toList) :
    Shape url ["index", i, "cluster", toString c] slash (some (n, toString v)) := by
  refine ⟨?_, by simp, ?_, ?_⟩
  · rw [ht]; cases slash <;> simp [pathOf, queryOf]
  · intro s hs
    simp only [List.mem_cons, List.not_mem_nil, or_false] at hs
    rcases hs with rfl | rfl | rfl | rfl
    · decide +kernel
    · exact hp
    · decide +kernel
    · exact plain_int c
  · intro x hx
    cases hx
    exact ⟨hn, (plain_int v).2⟩

/-! ## Sending forms -/

theorem values_post {form : List (String × String)} (h : Shape url segs slash none) (n : String) :
    (Request.mk true url form).values n = (form.filter (fun x => x.1 = n)).map (·.2) := by
  simp only [Request.values, h.urlParams]
  simp

theorem mapM_ints (hint : ReadsNumbers int) (l : List Int) : (l.map (fun c => toString c)).mapM (toInt int) = .ok l := by
  induction l with
  | nil => rfl
  | cons c l ih => rw [List.map_cons, List.mapM_cons, toInt_numeral hint c, ok_bind, ih]; rfl

theorem mapM_nats (hint : ReadsNumbers int) (l : List Nat) : (l.map (fun f => toString f)).mapM (toNat int) = .ok l := by
  induction l with
  | nil => rfl
  | cons c l ih => rw [List.map_cons, List.mapM_cons, toNat_numeral hint c, ok_bind, ih]; rfl

theorem withArg_post (t : Route) (ht : t.needsPost = true) (r : Request) : t.withArg r = .ok t := by
  cases t <;> first | rfl | (simp [Route.needsPost] at ht)

theorem respond_post {form : List (String × String)} (h : Shape url ("index" :: i :: rest) slash none) (hi : int i = some 0)
    (t : Route) (hr : route (i :: rest) = some (i, t)) (ht : t.needsPost = true)
    (hform : ∀ x ∈ form, x.1 ≠ "index_id") (htakes : t.takes (Request.mk true url form) = true)
    (a : Action) (f : Response → Answer σ) (ha : t.action int i (Request.mk true url form) = .ok (some (a, f))) :
    respond int luck fault w (Request.mk true url form) =
      ((a.perform luck fault w.db).1, f (a.perform luck fault w.db).2) := by
  have hp : urlParts (Request.mk true url form).url = "index" :: i :: rest := h.urlParts
  have hpre : prepare int (Request.mk true url form) i t = .ok (i, t) := by
    have hl : lookupIndex int i = .ok () := by simp [lookupIndex, toInt, hi]; rfl
    have hpa : (Request.mk true url form).pathArg "index_id" i = .ok i := by
      have : form.filter (fun x => x.1 = "index_id") = [] := by
        rw [List.filter_eq_nil_iff]; intro x hx; simpa using hform x hx
      simp [Request.pathArg, this]
    unfold prepare
    rw [hpa, ok_bind, hl, ok_bind, withArg_post t ht, ok_bind]
    rfl
  have hix : t.isIndex = false := by cases t <;> first | rfl | (simp [Route.needsPost] at ht)
  unfold respond
  rw [hp]
  simp only [hr]
  unfold handle
  simp only [hpre, ht, hix, htakes, ha, Bool.not_true, Bool.and_false, Bool.false_and, Bool.false_eq_true, if_false]

/-- The redirect of an action leads to its page. -/
theorem browse_landing (hint : ReadsNumbers int) (hi : int i = some 0) (hp : PathPart i) {r : Request} {x : DB × Response}
    (h : respond int luck fault w r = (x.1, location i x.2)) (n : Nat) :
    browse int luck fault w (n + 3) r = landing w x := by
  rw [browse, h]
  obtain ⟨db, resp⟩ := x
  cases resp with
  | cluster c => exact goal_cluster hint hi c none none (.inl rfl) (shape_cluster hp c) (n + 1)
  | index c =>
    cases c with
    | none => exact goal_overview hint hi hp none none (.inl rfl) (shape_index hp) n
    | some c =>
      refine goal_overview (slash := true) hint hi hp none (some c) (.inl rfl) ?_ n
      exact shape_index_query hp "cluster_id" (by decide +kernel) c (by simp)
  | failed e => rfl

theorem browse_landing_raw (hint : ReadsNumbers int) (hi : int i = some 0) (hp : PathPart i) {r : Request} {x : DB × Response}
    (c : Int) {s : String} (hx : x.2 = .cluster c ∨ ∃ e, x.2 = .failed e)
    (h : respond int luck fault w r = (x.1, locationRaw i (some (toString c)) s x.2)) (n : Nat) :
    browse int luck fault w (n + 3) r = landing w x := by
  rw [browse, h]
  obtain ⟨db, resp⟩ := x
  rcases hx with hx | ⟨e, hx⟩
  · simp only at hx
    subst hx
    exact goal_cluster hint hi c none none (.inl rfl) (shape_cluster hp c) (n + 1)
  · simp only at hx
    subst hx
    rfl

theorem browse_landing_index (hint : ReadsNumbers int) (hi : int i = some 0) (hp : PathPart i) {r : Request} {x : DB × Response}
    {s : String} (hs : s = "" ∨ s = "/") (hx : x.2 = .index none ∨ ∃ e, x.2 = .failed e)
    (h : respond int luck fault w r = (x.1, locationRaw i none s x.2)) (n : Nat) :
    browse int luck fault w (n + 3) r = landing w x := by
  rw [browse, h]
  obtain ⟨db, resp⟩ := x
  rcases hx with hx | ⟨e, hx⟩
  · simp only at hx
    subst hx
    rcases hs with rfl | rfl
    · have : "/index/" ++ i ++ "" = "/index/" ++ i := by simp
      show browse int luck fault _ (n + 2) (Request.get ("/index/" ++ i ++ "")) = _
      rw [this]
      exact goal_overview hint hi hp none none (.inl rfl) (shape_index hp) n
    · exact goal_overview hint hi hp none none (.inl rfl) (shape_index_slash hp) n
  · simp only at hx
    subst hx
    rfl

end

end Hyperreal.Web
