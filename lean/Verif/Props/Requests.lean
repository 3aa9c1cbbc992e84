import Verif.Spec.Requests
import Verif.Lemmas.Links
import Verif.Props.WebActions
import Verif.Props.Server

/-! # C71: whatever is requested -/

namespace Hyperreal.Props
open Web Cli Spec

variable {σ : Type} [LinearOrder σ] (int : String → Option Int) (luck : Luck σ) (fault : Nat → Option Err)

theorem action_none (t : Route) (ht : t.needsPost = false) (i : String) (r : Request) :
    t.action (σ := σ) int i r = .ok none := by
  cases t <;> first | rfl | (simp [Route.needsPost] at ht)

theorem withArg_needsPost {t t' : Route} {r : Request} (h : t.withArg r = .ok t') : t'.needsPost = t.needsPost := by
  cases t with
  | cluster c =>
    unfold Route.withArg at h
    dsimp only at h
    cases hc : r.pathArg "cluster_id" c with
    | error e => rw [hc] at h; cases h
    | ok c' => rw [hc] at h; cases h; rfl
  | clusterSearch c =>
    unfold Route.withArg at h
    dsimp only at h
    cases hc : r.pathArg "cluster_id" c with
    | error e => rw [hc] at h; cases h
    | ok c' => rw [hc] at h; cases h; rfl
  | _ => cases h; rfl

theorem prepare_ok {r : Request} {i i' : String} {t t' : Route} (h : prepare int r i t = .ok (i', t')) :
    r.pathArg "index_id" i = .ok i' ∧ int i' = some 0 ∧ t'.needsPost = t.needsPost := by
  unfold prepare at h
  cases hc : r.pathArg "index_id" i with
  | error e => rw [hc] at h; cases h
  | ok j =>
    rw [hc, ok_bind] at h
    cases hl : lookupIndex int j with
    | error e => rw [hl] at h; cases h
    | ok u =>
      rw [hl, ok_bind] at h
      cases hw : t.withArg r with
      | error e => rw [hw] at h; cases h
      | ok t2 =>
        rw [hw, ok_bind] at h
        cases h
        refine ⟨rfl, ?_, withArg_needsPost hw⟩
        unfold lookupIndex toInt at hl
        cases hn : int i' with
        | none => rw [hn] at hl; cases hl
        | some n =>
          rw [hn] at hl
          change (if n ≠ 0 then Except.error (Err.http 404) else Except.ok ()) = _ at hl
          by_cases h0 : n = 0
          · rw [h0]
          · rw [if_pos h0] at hl; cases hl

/-- A request with a handler: nothing changes, or it is a POST, and one action is performed. -/
theorem handle_effect (w : Web σ) (r : Request) (i : String) (t : Route) :
    (handle int luck fault w r i t).1 = w.db ∨
      (r.post = true ∧ ∃ a : Action, (handle int luck fault w r i t).1 = (a.perform luck fault w.db).1) := by
  unfold handle
  by_cases h1 : (t.needsPost && !r.post) = true
  · rw [if_pos h1]; exact .inl rfl
  rw [if_neg h1]
  cases hp : prepare int r i t with
  | error e => exact .inl rfl
  | ok x =>
    obtain ⟨i', t'⟩ := x
    have hn := (prepare_ok int hp).2.2
    dsimp only
    by_cases h2 : (t'.isIndex && !urlSlash r.url) = true
    · rw [if_pos h2]; exact .inl rfl
    rw [if_neg h2]
    by_cases h3 : (!t'.takes r) = true
    · rw [if_pos h3]; exact .inl rfl
    rw [if_neg h3]
    cases ha : t'.action (σ := σ) int i' r with
    | error e => exact .inl rfl
    | ok x =>
      cases x with
      | none =>
        dsimp only
        cases hs : t'.show int w i' r <;> exact .inl rfl
      | some x =>
        obtain ⟨a, f⟩ := x
        refine .inr ⟨?_, a, rfl⟩
        by_contra hpost
        have : t'.needsPost = false := by
          rw [hn]
          cases hq : t.needsPost with
          | false => rfl
          | true => simp [hq, hpost] at h1
        rw [action_none int t' this] at ha
        cases ha

/-- **C71.** Any request: nothing in the index file changes, or it is a POST, and exactly one action (C58, C59) is performed. -/
theorem request_effect (w : Web σ) (r : Request) :
    (respond int luck fault w r).1 = w.db ∨
      (r.post = true ∧ ∃ a : Action, (respond int luck fault w r).1 = (a.perform luck fault w.db).1) := by
  unfold respond
  split
  · exact .inl rfl
  · split
    · exact .inl rfl
    · split
      · exact .inl rfl
      · exact handle_effect int luck fault w r _ _
  · exact .inl rfl

/-- **C71.** Looking around changes nothing: whatever is requested without POST, the index file stays as it is. -/
theorem reading_changes_nothing (w : Web σ) (r : Request) (hr : r.post = false) : (respond int luck fault w r).1 = w.db := by
  rcases request_effect int luck fault w r with h | ⟨h, -⟩
  · exact h
  · rw [hr] at h; cases h

/-- **C71.** The URLs of the editing requests are refused (405) unless they are sent as a POST. -/
theorem edits_need_post (w : Web σ) (r : Request) (hr : r.post = false) (i : String) (p : List String) (hp : p ∈ editPaths)
    (hurl : urlParts r.url = "index" :: i :: p) : respond int luck fault w r = (w.db, .failed (.http 405)) := by
  have key : ∀ t, route (i :: p) = some (i, t) → t.needsPost = true → respond int luck fault w r = (w.db, .failed (.http 405)) := by
    intro t h1 h2
    unfold respond
    rw [hurl]
    simp only [h1]
    unfold handle
    simp [h2, hr]
  simp only [editPaths, List.mem_cons, List.not_mem_nil, or_false] at hp
  rcases hp with rfl | rfl | rfl | rfl | rfl | rfl | rfl | rfl | rfl
  · exact key .recreateModel (by simp [route, indexAttributes, routeIn]) rfl
  · exact key .refineModel (by simp [route, indexAttributes, routeIn]) rfl
  · exact key .delete (by simp [route, indexAttributes, routeIn]) rfl
  · exact key .create (by simp [route, indexAttributes, routeIn]) rfl
  · exact key .merge (by simp [route, indexAttributes, routeIn]) rfl
  · exact key .refine (by simp [route, indexAttributes, routeIn]) rfl
  · exact key .pin (by simp [route, indexAttributes, routeIn]) rfl
  · exact key .removeFeatures (by simp [route, indexAttributes, routeIn]) rfl
  · exact key .pinFeatures (by simp [route, indexAttributes, routeIn]) rfl

/-- **C71.** Requests of any kind, malformed ones included, in any number and order, whatever the draws and failures: the index
file holds a settled model after each of them. -/
theorem any_requests_settled (w : Web σ) (rs : List (Request × Luck σ × (Nat → Option Err)))
    (hsh : ∀ x ∈ rs, ∀ l, (x.2.1.shuffle l).Perm l) (db : DB) (hs : Settled db) : Settled (afterRequests int w rs db) := by
  induction rs generalizing db with
  | nil => exact hs
  | cons x rs ih =>
    refine ih (fun y hy => hsh y (by simp [hy])) _ ?_
    rcases request_effect int x.2.1 x.2.2 { w with db := db } x.1 with h | ⟨-, a, h⟩
    · rw [h]; exact hs
    · rw [h]
      exact requests_always_settled [(a, x.2.1, x.2.2)] (by
        intro r hr l
        simp only [List.mem_singleton] at hr
        subst hr
        exact hsh x (by simp) l) db hs

theorem route_mem {parts : List String} {i : String} {t : Route} (h : route parts = some (i, t)) : i ∈ parts := by
  match parts with
  | [] => cases h
  | [j] => cases h; simp
  | j :: k :: rest =>
    unfold route at h
    dsimp only at h
    by_cases hk : k ∈ indexAttributes
    · rw [if_pos hk] at h
      cases hr : routeIn (k :: rest) with
      | none => rw [hr] at h; cases h
      | some t' => rw [hr] at h; cases h; simp
    · rw [if_neg hk] at h
      cases rest with
      | nil => cases h; simp
      | cons m rest =>
        dsimp only at h
        by_cases hm : m ∈ indexAttributes
        · rw [if_pos hm] at h
          cases hr : routeIn (m :: rest) with
          | none => rw [hr] at h; cases h
          | some t' => rw [hr] at h; cases h; simp
        · rw [if_neg hm] at h; cases h

theorem pathArg_mem {r : Request} {n p v : String} (h : r.pathArg n p = .ok v) : v = p ∨ (n, v) ∈ r.form := by
  unfold Request.pathArg at h
  by_cases hr : r.post = true
  · rw [if_pos hr] at h
    cases hf : (r.form.filter (fun x => x.1 = n)).map (·.2) with
    | nil => rw [hf] at h; cases h; exact .inl rfl
    | cons a l =>
      rw [hf] at h
      cases l with
      | nil =>
        cases h
        have : v ∈ (r.form.filter (fun x => x.1 = n)).map (·.2) := by rw [hf]; simp
        obtain ⟨x, hx, rfl⟩ := List.mem_map.1 this
        obtain ⟨h1, h2⟩ := List.mem_filter.1 hx
        have h2 : x.1 = n := by simpa using h2
        right
        rw [← h2]
        exact h1
      | cons b l => cases h
  · rw [if_neg hr] at h; cases h; exact .inl rfl

/-- **C71.** There is only the index 0: a request that names another one, or something that is no number, is refused and changes
nothing (or leads to the list of indexes, when it names none at all). -/
theorem other_index_refused (w : Web σ) (r : Request) (h : NamesOtherIndex int r) :
    (respond int luck fault w r).1 = w.db ∧
    ((∃ e, (respond int luck fault w r).2 = .failed e) ∨ (respond int luck fault w r).2 = .listing ∨
      (respond int luck fault w r).2 = .redirect "/index/") := by
  obtain ⟨h1, h2⟩ := h
  unfold respond
  split
  · exact ⟨rfl, .inr (.inr rfl)⟩
  · rename_i parts hparts
    split
    · refine ⟨rfl, ?_⟩
      dsimp only
      by_cases hs : urlSlash r.url = true
      · rw [if_pos hs]; exact .inr (.inl rfl)
      · rw [if_neg hs]; exact .inr (.inr rfl)
    · split
      · exact ⟨rfl, .inl ⟨_, rfl⟩⟩
      · rename_i i t hroute
        unfold handle
        by_cases hn : (t.needsPost && !r.post) = true
        · rw [if_pos hn]; exact ⟨rfl, .inl ⟨_, rfl⟩⟩
        rw [if_neg hn]
        cases hp : prepare int r i t with
        | error e => exact ⟨rfl, .inl ⟨_, rfl⟩⟩
        | ok x =>
          exfalso
          obtain ⟨hpa, h0, -⟩ := prepare_ok int (i' := x.1) (t' := x.2) hp
          rcases pathArg_mem hpa with he | he
          · refine h1 i ?_ (he ▸ h0)
            rw [hparts]
            exact List.mem_cons_of_mem _ (route_mem hroute)
          · exact h2 _ he h0
  · exact ⟨rfl, .inl ⟨_, rfl⟩⟩

/-! ## Numbers -/

/-- Reading digits. -/
def readNat (l : List Char) : Option Nat := if l ≠ [] ∧ l.all Char.isDigit then some (Nat.ofDigitChars 10 l 0) else none

/-- Reading numbers in decimal: what the examples use for Python's `int`. -/
def readInt (s : String) : Option Int :=
  match s.toList with
  | '-' :: l => (readNat l).map (fun n => -(n : Int))
  | l => (readNat l).map (fun n => (n : Int))

theorem readNat_digits (n : Nat) : readNat (toString n).toList = some n := by
  have h : (toString n).toList = Nat.toDigits 10 n := Nat.toList_repr
  unfold readNat
  rw [if_pos, h, Nat.ofDigitChars_ten_toDigits]
  refine ⟨?_, ?_⟩
  · intro h0
    exact (plain_nat n).1 (String.toList_inj.1 (by rw [h0]; rfl))
  · rw [List.all_eq_true]
    exact plain_digits

theorem readInt_reads : ReadsNumbers readInt := by
  intro n
  cases n with
  | ofNat n =>
    change readInt (toString n) = _
    unfold readInt
    split
    · rename_i l hl
      have := plain_digits (n := n) '-' (by rw [hl]; simp)
      exact absurd this (by decide)
    · rw [readNat_digits]; rfl
  | negSucc n =>
    change readInt ("-" ++ toString (n + 1)) = _
    have h : ("-" ++ toString (n + 1)).toList = '-' :: (toString (n + 1)).toList := by simp
    unfold readInt
    rw [h]
    change (readNat (toString (n + 1)).toList).map (fun n => -(n : Int)) = _
    rw [readNat_digits]
    rfl

/-! ## Examples -/

/-- The example index of C18. -/
def plainWeb : Web Rat := { demoWeb with corpus := none }

/-- A request for another index, one that is no number, and one with the id in the form. -/
example : NamesOtherIndex readInt (.get "/index/1/cluster/2") ∧
    NamesOtherIndex readInt ⟨true, "/index/x/cluster/delete", [("cluster_id", "1"), ("index_id", "7")]⟩ := by
  constructor <;> constructor
  · decide +kernel
  · intro v hv; cases hv
  · decide +kernel
  · intro v hv
    simp only [List.mem_cons, Prod.mk.injEq, String.reduceEq, false_and, true_and, List.not_mem_nil, or_false, false_or] at hv
    subst hv
    decide +kernel

/-- Deleting a cluster by following a link is refused. -/
example (luck : Luck Rat) (fault : Nat → Option Err) :
    respond readInt luck fault plainWeb (.get "/index/0/cluster/delete?cluster_id=1") = (plainWeb.db, .failed (.http 405)) :=
  edits_need_post _ luck fault _ _ rfl "0" ["cluster", "delete"] (by decide) (by decide +kernel)

/-- A POST does change it: cluster 1 is deleted. -/
example : let db := (respond readInt demoLuck (fun _ => none) plainWeb
      ⟨true, "/index/0/cluster/delete", [("return_cluster_id", "2"), ("cluster_id", "1")]⟩).1
    clusterIds db = [2, 3] ∧ clusterIds plainWeb.db = [1, 2, 3] := by
  decide +kernel

/-- Three requests: a malformed one, one that fails, and an edit. -/
example : Settled (afterRequests readInt plainWeb
    [(⟨true, "/index/0/cluster/merge", [("cluster_id", "x")]⟩, demoLuck, fun _ => none),
     (⟨true, "/index/0/cluster/refine", [("cluster_id", "1"), ("target_clusters", "3")]⟩, demoLuck, fun _ => some .worker),
     (⟨true, "/index/0/feature/pin", [("feature_id", "1"), ("feature_id", "2")]⟩, demoLuck, fun _ => none)] plainWeb.db) :=
  any_requests_settled _ _ _ (by
    intro x hx l
    simp only [List.mem_cons, List.not_mem_nil, or_false] at hx
    rcases hx with rfl | rfl | rfl <;> exact .refl l) _ queryDb_settled

end Hyperreal.Props
