import Verif.Spec.Links

/-! # Taking apart the URLs the server makes -/

namespace Hyperreal.Web
open Atomic Cli Spec

theorem plain_digits {n : Nat} : ∀ c ∈ (toString n).toList, c.isDigit = true := by
  intro c hc
  have : (toString n).toList = Nat.toDigits 10 n := by
    show (Nat.repr n).toList = _
    exact Nat.toList_repr
  rw [this] at hc
  exact Nat.isDigit_of_mem_toDigits (by decide) (by decide) hc

theorem digit_plain {c : Char} (h : c.isDigit = true) : c ≠ '/' ∧ c ≠ '?' ∧ c ≠ '&' ∧ c ≠ '=' := by
  refine ⟨?_, ?_, ?_, ?_⟩ <;> (rintro rfl; revert h; decide)

theorem plain_nat (n : Nat) : PathPart (toString n) := by
  refine ⟨?_, fun c hc => digit_plain (plain_digits c hc)⟩
  intro h
  have : (toString n).toList = Nat.toDigits 10 n := by
    show (Nat.repr n).toList = _
    exact Nat.toList_repr
  rw [h] at this
  exact Nat.toDigits_ne_nil this.symm

theorem toString_ofNat (n : Nat) : toString (n : Int) = toString n := rfl

theorem plain_int (n : Int) : PathPart (toString n) := by
  cases n with
  | ofNat n => exact plain_nat n
  | negSucc n =>
    have h : toString (Int.negSucc n) = "-" ++ toString (n + 1) := rfl
    rw [h]
    refine ⟨?_, ?_⟩
    · intro h
      have := congrArg String.toList h
      simp at this
    · intro c hc
      rw [String.toList_append, List.mem_append] at hc
      rcases hc with hc | hc
      · have : c = '-' := by simpa using hc
        subst this; decide
      · exact (plain_nat (n + 1)).2 c hc

/-- A path made of parts. -/
def pathOf (segs : List String) : List Char := segs.flatMap (fun s => '/' :: s.toList)

/-- A query with one parameter, or none. -/
def queryOf : Option (String × String) → List Char
  | none => []
  | some x => '?' :: (x.1.toList ++ '=' :: x.2.toList)

/-- The URL has these parts, a final slash or not, and this parameter, if any. -/
structure Shape (url : String) (segs : List String) (slash : Bool) (q : Option (String × String)) : Prop where
  text : url.toList = pathOf segs ++ ((if slash then ['/'] else []) ++ queryOf q)
  ne : segs ≠ []
  plain : ∀ s ∈ segs, PathPart s
  plainQ : ∀ x, q = some x → PathPart x.1 ∧ ∀ c ∈ x.2.toList, c ≠ '/' ∧ c ≠ '?' ∧ c ≠ '&' ∧ c ≠ '='

theorem splitOnP_cons_slash (l : List Char) : List.splitOnP (· == '/') ('/' :: l) = [] :: List.splitOnP (· == '/') l := by
  have := List.splitOnP_append_cons_of_forall_mem (p := (· == '/')) (xs := []) (by simp) '/' (by simp) l
  simpa using this

theorem split_path (segs : List String) (h : ∀ s ∈ segs, PathPart s) (slash : Bool) :
    ((pathOf segs ++ (if slash then ['/'] else [])).splitOnP (· == '/')).filter (· ≠ []) = segs.map String.toList := by
  have key : ∀ (segs : List String), (∀ s ∈ segs, PathPart s) →
      ∀ (pre : List Char), (∀ c ∈ pre, (c == '/') = false) →
      ((pre ++ (pathOf segs ++ (if slash then ['/'] else []))).splitOnP (· == '/')).filter (· ≠ []) =
        (if pre = [] then [] else [pre]) ++ segs.map String.toList := by
    intro segs
    induction segs with
    | nil =>
      intro _ pre hpre
      cases slash with
      | false =>
        have : List.splitOnP (· == '/') pre = [pre] := List.splitOnP_eq_singleton hpre
        simp only [pathOf, List.flatMap_nil, Bool.false_eq_true, if_false, List.append_nil, this, List.map_nil]
        by_cases hp : pre = [] <;> simp [hp]
      | true =>
        simp only [pathOf, List.flatMap_nil, if_true, List.nil_append, List.map_nil, List.append_nil]
        rw [List.splitOnP_append_cons_of_forall_mem hpre '/' (by simp)]
        by_cases hp : pre = [] <;> simp [hp]
    | cons s segs ih =>
      intro hs pre hpre
      have hs1 := hs s (by simp)
      have e : pre ++ (pathOf (s :: segs) ++ (if slash then ['/'] else [])) =
          pre ++ '/' :: (s.toList ++ (pathOf segs ++ (if slash then ['/'] else []))) := by
        simp [pathOf]
      rw [e, List.splitOnP_append_cons_of_forall_mem hpre '/' (by simp), List.filter_cons]
      rw [ih (fun x hx => hs x (by simp [hx])) s.toList (fun c hc => by simpa using (hs1.2 c hc).1)]
      have hne : s.toList ≠ [] := fun h => hs1.1 (String.toList_inj.mp (by rw [h]; rfl))
      by_cases hp : pre = [] <;> simp [hp, hne]
  have := key segs h [] (by simp)
  simpa using this

variable {url : String} {segs : List String} {slash : Bool} {q : Option (String × String)}

theorem takeWhile_append_stop {α : Type} {p : α → Bool} {a b : List α} (ha : ∀ x ∈ a, p x = true)
    (hb : ∀ x, b.head? = some x → p x = false) : (a ++ b).takeWhile p = a ∧ (a ++ b).dropWhile p = b := by
  induction a with
  | nil =>
    cases b with
    | nil => simp
    | cons x b => simp [hb x rfl]
  | cons x a ih =>
    have := ih (fun y hy => ha y (by simp [hy]))
    simp [ha x (by simp), this.1, this.2]

theorem Shape.clean (h : Shape url segs slash q) :
    ∀ c ∈ pathOf segs ++ (if slash then ['/'] else []), decide (c ≠ '?') = true := by
  intro c hc
  rw [List.mem_append] at hc
  rcases hc with hc | hc
  · obtain ⟨s, hs, hc⟩ := List.mem_flatMap.mp hc
    rcases List.mem_cons.mp hc with rfl | hc
    · decide
    · exact decide_eq_true ((h.plain s hs).2 c hc).2.1
  · cases slash
    · simp at hc
    · have : c = '/' := by simpa using hc
      subst this; decide

theorem Shape.parts (h : Shape url segs slash q) :
    urlPath url = pathOf segs ++ (if slash then ['/'] else []) ∧
    url.toList.dropWhile (· ≠ '?') = queryOf q := by
  have := takeWhile_append_stop (p := fun c => decide (c ≠ '?')) (a := pathOf segs ++ (if slash then ['/'] else []))
    (b := queryOf q) h.clean (by
        intro x hx
        cases q with
        | none => simp [queryOf] at hx
        | some y => simp [queryOf] at hx; subst hx; decide)
  unfold urlPath
  rw [h.text, ← List.append_assoc]
  exact this

theorem Shape.urlParts (h : Shape url segs slash q) : urlParts url = segs := by
  unfold Web.urlParts
  rw [h.parts.1, split_path segs h.plain slash, List.map_map]
  have : String.ofList ∘ String.toList = id := by funext s; simp
  rw [this, List.map_id]

theorem Shape.urlSlash (h : Shape url segs slash q) : urlSlash url = slash := by
  unfold Web.urlSlash
  rw [h.parts.1]
  cases slash with
  | true => simp
  | false =>
    obtain ⟨init, s, rfl⟩ : ∃ init s, segs = init ++ [s] := ⟨segs.dropLast, segs.getLast h.ne, (List.dropLast_append_getLast h.ne).symm⟩
    have hs := h.plain s (by simp)
    have hne : s.toList ≠ [] := fun h => hs.1 (String.toList_inj.mp (by rw [h]; rfl))
    have e : pathOf (init ++ [s]) ++ (if false = true then ['/'] else []) = pathOf init ++ ['/'] ++ s.toList := by simp [pathOf]
    rw [e, List.getLast?_append_of_ne_nil _ hne, List.getLast?_eq_some_getLast hne]
    have := (hs.2 _ (List.getLast_mem hne)).1
    simp [this]

theorem Shape.urlParams (h : Shape url segs slash q) : urlParams url = q.toList := by
  unfold Web.urlParams urlQuery
  rw [h.parts.2]
  cases q with
  | none => simp [queryOf]
  | some x =>
    obtain ⟨hn, hv⟩ := h.plainQ x rfl
    have hne : x.1.toList ≠ [] := fun h => hn.1 (String.toList_inj.mp (by rw [h]; rfl))
    have hs : List.splitOnP (· == '&') (x.1.toList ++ '=' :: x.2.toList) = [x.1.toList ++ '=' :: x.2.toList] := by
      refine List.splitOnP_eq_singleton ?_
      intro c hc
      rw [List.mem_append, List.mem_cons] at hc
      rcases hc with hc | rfl | hc
      · simpa using (hn.2 c hc).2.2.1
      · decide
      · simpa using (hv c hc).2.2.1
    have ht := takeWhile_append_stop (p := fun c => decide (c ≠ '=')) (a := x.1.toList) (b := '=' :: x.2.toList)
      (fun c hc => decide_eq_true (hn.2 c hc).2.2.2) (by intro y hy; simp at hy; subst hy; decide)
    simp only [queryOf, List.drop_succ_cons, List.drop_zero, hs]
    rw [List.filter_cons_of_pos (by simp), List.filter_nil, List.map_cons, List.map_nil, ht.1, ht.2]
    simp

/-- The redirect to the URL with a slash. -/
theorem Shape.addSlash (h : Shape url segs false q) :
    Shape (String.ofList (urlPath url ++ ['/'] ++ url.toList.dropWhile (· ≠ '?'))) segs true q := by
  refine ⟨?_, h.ne, h.plain, h.plainQ⟩
  rw [h.parts.1, h.parts.2]
  simp

theorem Shape.values_get (h : Shape url segs slash q) (n : String) :
    (Request.get url).values n = (q.toList.filter (fun x => x.1 = n)).map (·.2) := by
  simp [Request.values, Request.get, h.urlParams]

end Hyperreal.Web

namespace Hyperreal.Web
open Atomic Cli Spec

section
variable {σ : Type} [LinearOrder σ] {int : String → Option Int} {luck : Luck σ} {fault : Nat → Option Err} {w : Web σ}
variable {url : String} {segs : List String} {slash : Bool} {q : Option (String × String)}

theorem Route.show_congr {r r' : Request} (h : r.values = r'.values) (w : Web σ) (i : String) (t : Route) :
    t.show int w i r = t.show int w i r' := by
  cases t <;> simp only [Route.show, Request.argWith, Request.arg, Request.scoring, h]

/-- What a reading handler answers. -/
def shown (int : String → Option Int) (w : Web σ) (i : String) (r : Request) (t : Route) : Answer σ :=
  match t.show int w i r with
  | .error e => .failed e
  | .ok a => a

theorem pathArg_get (url n path : String) : (Request.get url).pathArg n path = .ok path := by
  simp [Request.pathArg, Request.get]

theorem withArg_get (url : String) (t : Route) : t.withArg (Request.get url) = .ok t := by
  cases t <;> simp [Route.withArg, pathArg_get] <;> rfl

theorem action_none (i : String) (r : Request) (t : Route) (h : t.needsPost = false) :
    t.action (σ := σ) int i r = .ok none := by
  cases t <;> first | rfl | (simp [Route.needsPost] at h)

theorem prepare_get (i : String) (hi : int i = some 0) (t : Route) (url : String) :
    prepare int (Request.get url) i t = .ok (i, t) := by
  have hl : lookupIndex int i = .ok () := by simp [lookupIndex, toInt, hi]; rfl
  unfold prepare
  rw [pathArg_get]
  show (lookupIndex int i >>= fun _ => t.withArg (Request.get url) >>= fun t => pure (i, t)) = _
  rw [hl, withArg_get]
  rfl

theorem handle_get (i : String) (hi : int i = some 0) (t : Route) (ht : t.needsPost = false) (url : String) :
    handle int luck fault w (Request.get url) i t =
      if t.isIndex && !urlSlash url then
        (w.db, .redirect (String.ofList (urlPath url ++ ['/'] ++ url.toList.dropWhile (· ≠ '?'))))
      else if !t.takes (Request.get url) then (w.db, .failed (.http 404))
      else (w.db, shown int w i (Request.get url) t) := by
  unfold handle
  rw [prepare_get i hi t url]
  simp only [ht, Bool.false_and, Bool.false_eq_true, if_false, action_none i _ t ht]
  show (if t.isIndex && !urlSlash url then _ else _) = _
  split
  · rfl
  · show (if _ then _ else _) = _
    split
    · rfl
    · unfold shown
      cases t.show int w i (Request.get url) <;> rfl

theorem respond_get (h : Shape url ("index" :: i :: rest) slash q) (hi : int i = some 0) (t : Route)
    (hr : route (i :: rest) = some (i, t)) (ht : t.needsPost = false) :
    respond int luck fault w (Request.get url) =
      if t.isIndex && !slash then
        (w.db, .redirect (String.ofList (urlPath url ++ ['/'] ++ url.toList.dropWhile (· ≠ '?'))))
      else if !t.takes (Request.get url) then (w.db, .failed (.http 404))
      else (w.db, shown int w i (Request.get url) t) := by
  unfold respond
  have hp : urlParts (Request.get url).url = "index" :: i :: rest := h.urlParts
  rw [hp]
  simp only [hr, handle_get i hi t ht, h.urlSlash]

/-- A page with an `index` method, reached with or without the slash. -/
theorem browse_get (h : Shape url ("index" :: i :: rest) slash q) (hi : int i = some 0) (t : Route)
    (hr : route (i :: rest) = some (i, t)) (ht : t.needsPost = false) (htakes : ∀ url', Shape url' ("index" :: i :: rest) true q → t.takes (Request.get url') = true)
    (hix : t.isIndex = true) (n : Nat) :
    ∃ url', Shape url' ("index" :: i :: rest) true q ∧
      browse int luck fault w (n + 1) (Request.get url) =
        (if slash then (match shown int w i (Request.get url') t with
          | .redirect u => browse int luck fault w n (.get u)
          | a => a)
        else browse int luck fault w n (.get url')) := by
  cases slash with
  | true =>
    refine ⟨url, h, ?_⟩
    have hresp := respond_get (w := w) (luck := luck) (fault := fault) h hi t hr ht
    rw [browse, hresp]
    simp only [hix, Bool.not_true, Bool.and_false, Bool.false_eq_true, if_false, htakes url h, if_true]
    rfl
  | false =>
    refine ⟨_, h.addSlash, ?_⟩
    have hresp := respond_get (w := w) (luck := luck) (fault := fault) h hi t hr ht
    rw [browse, hresp]
    simp only [hix, Bool.not_false, Bool.and_true, if_true, Bool.false_eq_true, if_false]

end

end Hyperreal.Web
