import Verif.Spec.Serve
import Verif.Props.Pipeline
import Verif.Props.Requests
import Verif.Props.Links

/-!
# Serving an index file

What a session of requests does to the file, and what is answered.
-/

namespace Hyperreal.Props
open Atomic Spec Cli Migrate Web Serve

variable {int : String → Option Int} {σ : Type} [LinearOrder σ]

/-- A request that does not open the index is answered without it. -/
theorem closed_request (luck : Luck σ) (fault : Nat → Option Err) (r : Request) (h : opens int r = false) (w : Web σ) :
    (respond int luck fault w r).1 = w.db ∧
    ∀ (luck' : Luck σ) (fault' : Nat → Option Err) (w' : Web σ), (respond int luck fault w r).2 = (respond int luck' fault' w' r).2 := by
  unfold opens at h
  unfold respond
  split
  · simp
  · rename_i parts hparts
    rw [hparts] at h
    cases parts with
    | nil => simp
    | cons p parts =>
      dsimp only at h ⊢
      cases hr : route (p :: parts) with
      | none => simp
      | some x =>
        obtain ⟨i, t⟩ := x
        simp only [hr] at h
        dsimp only
        unfold handle
        by_cases h1 : (t.needsPost && !r.post) = true
        · simp only [h1, if_true]; simp
        · rw [Bool.not_eq_true] at h1
          simp only [h1, Bool.not_false, Bool.true_and, Bool.false_eq_true, if_false] at h ⊢
          have hp : ∃ e, prepare int r i t = .error e := by
            unfold prepare
            cases hpa : r.pathArg "index_id" i with
            | error e => exact ⟨e, rfl⟩
            | ok i' =>
              rw [hpa] at h
              dsimp only at h
              have hl : ∃ e, lookupIndex int i' = .error e := by
                unfold lookupIndex toInt
                cases hi : int i' with
                | none => exact ⟨_, rfl⟩
                | some n =>
                  have : n ≠ 0 := by
                    rintro rfl
                    rw [hi] at h
                    simp at h
                  refine ⟨.http 404, ?_⟩
                  show (if n ≠ 0 then (Except.error (Err.http 404) : Except Err Unit) else .ok ()) = _
                  rw [if_pos this]
              obtain ⟨e, he⟩ := hl
              refine ⟨e, ?_⟩
              show (lookupIndex int i' >>= _) = _
              rw [he]
              rfl
          obtain ⟨e, he⟩ := hp
          rw [he]
          simp
  · simp

/-! ## The file -/

theorem servable_opens (f : File) (h : Servable f) :
    ∃ b, (openIndex Faults.none f).2 = .ok b ∧ Current (opened Faults.none f) ∧ Settled (opened Faults.none f).data ∧
      isIndexDb (opened Faults.none f) = true ∧ (Current f → (opened Faults.none f).data = f.data) ∧
      ∀ v, Genuine v f → Keeps v f.data (opened Faults.none f).data := by
  obtain ⟨h0, ⟨h1, h2⟩ | ⟨v, hg⟩⟩ := h
  · obtain ⟨a, b, c⟩ := open_current f h1.version
    refine ⟨false, a, ?_, ?_, ?_, fun _ => by rw [c]; rfl, ?_⟩
    · rw [c]; exact ⟨h1.version, h1.applicationId, h1.tables, h1.objects, h1.obsolete, h1.window⟩
    · rw [c]; exact h2
    · rw [c]; exact h0
    · intro v hv
      have e1 := hv.version
      have e2 := h1.version
      have e3 := hv.range
      omega
  · obtain ⟨a, -, b, c, -, d, e, -⟩ := open_upgrades v f hg
    refine ⟨true, a, b, c, e, ?_, ?_⟩
    · intro hc
      have e1 := hg.version
      have e2 := hc.version
      have e3 := hg.range
      omega
    · intro v' hv'
      have : v' = v := by rw [← hv'.version, ← hg.version]
      subst this
      exact d

theorem servable_opened (f : File) (h : Servable f) : Servable (opened Faults.none f) ∧
    opened Faults.none (opened Faults.none f) = opened Faults.none f := by
  obtain ⟨b, h1, h2, h3, h4, -⟩ := servable_opens f h
  exact ⟨⟨h4, .inl ⟨h2, h3⟩⟩, (reopen_idempotent Faults.none Faults.none f b h1).1⟩

theorem servable_with (f : File) (h : Servable f) (d : DB) (hd : Settled d) :
    Current { opened Faults.none f with data := d } ∧ Servable { opened Faults.none f with data := d } := by
  obtain ⟨b, h1, ⟨a1, a2, a3, a4, a5, a6⟩, h3, h4, -⟩ := servable_opens f h
  exact ⟨⟨a1, a2, a3, a4, a5, a6⟩, h4, .inl ⟨⟨a1, a2, a3, a4, a5, a6⟩, hd⟩⟩

/-- A request on a file that can be served. -/
theorem request_eq (connect : Except Err (Option Backing)) (f : File) (h : Servable f) (v : Visit σ) :
    request int connect f v =
      if opens int v.request then
        match connect with
        | .error e => (f, .failed e)
        | .ok backing =>
          ({ opened Faults.none f with
              data := (respond int v.luck v.fault (v.on backing (opened Faults.none f).data) v.request).1 },
            (respond int v.luck v.fault (v.on backing (opened Faults.none f).data) v.request).2)
      else (f, (respond int v.luck v.fault (v.on none f.data) v.request).2) := by
  obtain ⟨b, h1, -⟩ := servable_opens f h
  unfold request
  by_cases ho : opens int v.request = true
  · rw [if_pos ho, if_pos ho]
    cases connect with
    | error e => rfl
    | ok backing =>
      dsimp only
      cases hx : openIndex Faults.none f with
      | mk c r =>
        have e : c.close = opened Faults.none f := by rw [opened, hx]
        rw [hx] at h1
        dsimp only at h1
        subst h1
        dsimp only
        rw [e]
  · rw [if_neg ho, if_neg ho]

/-- A request that only reads: the file is at most opened; what is answered is what the handlers answer. -/
theorem request_reads (backing : Option Backing) (f : File) (h : Servable f) (v : Visit σ) (hr : v.request.post = false) :
    (request int (.ok backing) f v).1 = (if opens int v.request then opened Faults.none f else f) ∧
    (request int (.ok backing) f v).2 = (respond int v.luck v.fault (v.on backing (opened Faults.none f).data) v.request).2 := by
  rw [request_eq _ f h]
  by_cases ho : opens int v.request = true
  · rw [if_pos ho, if_pos ho]
    dsimp only
    refine ⟨?_, rfl⟩
    rw [reading_changes_nothing int v.luck v.fault _ v.request hr]
    rfl
  · rw [if_neg ho, if_neg ho]
    rw [Bool.not_eq_true] at ho
    exact ⟨rfl, (closed_request v.luck v.fault v.request ho _).2 _ _ _⟩

/-- Following redirects from a request that only reads. -/
theorem follow_reads (backing : Option Backing) (f : File) (h : Servable f) (v : Visit σ) (hr : v.request.post = false) (n : Nat) :
    ((follow int (.ok backing) f v n).1 = f ∨ (follow int (.ok backing) f v n).1 = opened Faults.none f) ∧
    (follow int (.ok backing) f v n).2 = browse int v.luck v.fault (v.on backing (opened Faults.none f).data) n v.request := by
  induction n generalizing f v with
  | zero =>
    obtain ⟨h1, h2⟩ := request_reads (int := int) backing f h v hr
    unfold follow browse
    refine ⟨?_, h2⟩
    rw [h1]
    split
    · exact .inr rfl
    · exact .inl rfl
  | succ n ih =>
    obtain ⟨h1, h2⟩ := request_reads (int := int) backing f h v hr
    obtain ⟨s1, s2⟩ := servable_opened f h
    unfold follow browse
    rw [← h2]
    cases hx : request int (.ok backing) f v with
    | mk f' a =>
      rw [hx] at h1
      dsimp only at h1
      have hf : f' = f ∨ f' = opened Faults.none f := by
        rw [h1]
        split
        · exact .inr rfl
        · exact .inl rfl
      cases a with
      | redirect url =>
        dsimp only
        rw [reading_changes_nothing int v.luck v.fault _ v.request hr]
        rcases hf with hf | hf
        · rw [hf]
          exact ih f h { v with request := .get url } rfl
        · rw [hf]
          have := ih (opened Faults.none f) s1 { v with request := .get url } rfl
          rw [s2] at this
          exact ⟨.inr (this.1.elim id id), this.2⟩
      | _ => exact ⟨hf, rfl⟩

/-- **C80.** A file that is not an index is refused with a `ValueError` and left as it is; an index is served, and every request
gets an answer. -/
theorem serve_accepts (connect : Except Err (Option Backing)) (f : File) (vs : List (Visit σ)) :
    (isIndexDb f = false → serveFile int connect f vs = (f, .error .valueError)) ∧
    (isIndexDb f = true → ∃ answers, (serveFile int connect f vs).2 = .ok answers ∧ answers.length = vs.length) := by
  constructor
  · intro h
    unfold serveFile
    rw [if_neg (by simp [h])]
  · intro h
    unfold serveFile
    rw [if_pos h]
    refine ⟨_, rfl, ?_⟩
    generalize f = g
    induction vs generalizing g with
    | nil => rfl
    | cons v vs ih =>
      unfold session
      dsimp only
      rw [List.length_cons, List.length_cons, ih]

/-- **C80.** A session of requests that only read, whatever the corpus: the index in the file stays as it is; a file of an older
version is upgraded once, or not at all if no request opens it. -/
theorem serve_reads (connect : Except Err (Option Backing)) (f : File) (h : Servable f) (vs : List (Visit σ))
    (hr : ∀ v ∈ vs, v.request.post = false) :
    (Current f → Current (serveFile int connect f vs).1 ∧ (serveFile int connect f vs).1.data = f.data) ∧
    (∀ n, Genuine n f → (serveFile int connect f vs).1 = f ∨
      (Current (serveFile int connect f vs).1 ∧ Settled (serveFile int connect f vs).1.data ∧
        Keeps n f.data (serveFile int connect f vs).1.data)) := by
  have key : (serveFile int connect f vs).1 = f ∨ (serveFile int connect f vs).1 = opened Faults.none f := by
    unfold serveFile
    rw [if_pos h.1]
    dsimp only
    induction vs generalizing f with
    | nil => exact .inl rfl
    | cons v vs ih =>
      have hv := hr v (by simp)
      have hf : (request int connect f v).1 = f ∨ (request int connect f v).1 = opened Faults.none f := by
        cases connect with
        | error e =>
          rw [request_eq _ f h]
          by_cases ho : opens int v.request = true
          · rw [if_pos ho]; exact .inl rfl
          · rw [if_neg ho]; exact .inl rfl
        | ok backing =>
          rw [(request_reads backing f h v hv).1]
          split
          · exact .inr rfl
          · exact .inl rfl
      obtain ⟨s1, s2⟩ := servable_opened f h
      unfold session
      dsimp only
      rcases hf with hf | hf
      · rw [hf]; exact ih f h (fun x hx => hr x (by simp [hx]))
      · rw [hf]
        have := ih (opened Faults.none f) s1 (fun x hx => hr x (by simp [hx]))
        rw [s2] at this
        exact .inr (this.elim id id)
  obtain ⟨b, -, h2, h3, h4, h5, h6⟩ := servable_opens f h
  constructor
  · intro hc
    rcases key with e | e
    · rw [e]; exact ⟨hc, rfl⟩
    · rw [e]; exact ⟨h2, h5 hc⟩
  · intro n hn
    rcases key with e | e
    · exact .inl e
    · rw [e]; exact .inr ⟨h2, h3, h6 n hn⟩

/-- **C80.** A session of any requests, whatever the corpus, the draws and the failures of actions: the file is one that can be
served again, and a current one stays current and settled. -/
theorem serve_settled (connect : Except Err (Option Backing)) (f : File) (h : Servable f) (vs : List (Visit σ))
    (hsh : ∀ v ∈ vs, ∀ l, (v.luck.shuffle l).Perm l) :
    Servable (serveFile int connect f vs).1 ∧
    (Current f → Current (serveFile int connect f vs).1 ∧ Settled (serveFile int connect f vs).1.data) ∧
    ((serveFile int connect f vs).1 = f ∨ Current (serveFile int connect f vs).1) := by
  have key : Servable (serveFile int connect f vs).1 ∧ ((serveFile int connect f vs).1 = f ∨ Current (serveFile int connect f vs).1) := by
    unfold serveFile
    rw [if_pos h.1]
    dsimp only
    induction vs generalizing f with
    | nil => exact ⟨h, .inl rfl⟩
    | cons v vs ih =>
      obtain ⟨b, -, h2, h3, -⟩ := servable_opens f h
      have hf : Servable (request int connect f v).1 ∧
          ((request int connect f v).1 = f ∨ Current (request int connect f v).1) := by
        rw [request_eq _ f h]
        by_cases ho : opens int v.request = true
        · rw [if_pos ho]
          cases connect with
          | error e => exact ⟨h, .inl rfl⟩
          | ok backing =>
            have := any_requests_settled int (v.on backing (opened Faults.none f).data) [(v.request, v.luck, v.fault)]
              (by
                intro x hx l
                simp only [List.mem_singleton] at hx
                subst hx
                exact hsh v (by simp) l) _ h3
            obtain ⟨c1, c2⟩ := servable_with f h _ this
            exact ⟨c2, .inr c1⟩
        · rw [if_neg ho]; exact ⟨h, .inl rfl⟩
      obtain ⟨i1, i2⟩ := ih _ hf.1 (fun x hx => hsh x (by simp [hx]))
      unfold session
      dsimp only
      refine ⟨i1, ?_⟩
      rcases i2 with e | e
      · rw [e]; exact hf.2
      · exact .inr e
  refine ⟨key.1, ?_, key.2⟩
  intro hc
  have hcur : Current (serveFile int connect f vs).1 := by
    rcases key.2 with e | e
    · rw [e]; exact hc
    · exact e
  refine ⟨hcur, ?_⟩
  rcases key.1.2 with ⟨-, e⟩ | ⟨n, e⟩
  · exact e
  · have e1 := e.version
    have e2 := hcur.version
    have e3 := e.range
    omega

/-! ## Without a corpus -/

theorem clusterPage_nothing (w : Web σ) (hno : w.corpus = none) (c : Int) (f : Option Nat) (g : Option Int) (n : Nat)
    (t : Option String) (p : ClusterPage σ) (h : clusterPage w c f g n t = .ok p) : p.results = .nothing := by
  unfold clusterPage at h
  by_cases h0 : c ∉ clusterIds w.db
  · rw [if_pos h0] at h; cases h
  rw [if_neg h0] at h
  obtain ⟨-, -, h⟩ := bind_ok' h
  obtain ⟨prev, -, h⟩ := bind_ok' h
  obtain ⟨next, -, h⟩ := bind_ok' h
  obtain ⟨docs, -, h⟩ := bind_ok' h
  obtain ⟨query, -, h⟩ := bind_ok' h
  obtain ⟨sorted, -, h⟩ := bind_ok' h
  obtain ⟨results, hres, h⟩ := bind_ok' h
  unfold searchResults at hres
  rw [hno] at hres
  cases hres
  cases h
  rfl

theorem indexPage_nothing (w : Web σ) (hno : w.corpus = none) (f : Option Nat) (c : Option Int) (n k : Nat)
    (t : Option String) (p : IndexPage σ) (h : indexPage w f c n k t = .ok (some p)) : p.results = .nothing := by
  unfold indexPage at h
  by_cases h0 : clusterIds w.db = []
  · rw [if_pos h0] at h; cases h
  rw [if_neg h0] at h
  obtain ⟨query, -, h⟩ := bind_ok' h
  cases query with
  | none => cases h; rfl
  | some x =>
    obtain ⟨docs, features, clauses⟩ := x
    dsimp only at h
    by_cases hd : docs = ∅
    · rw [if_pos hd] at h; cases h; rfl
    rw [if_neg hd] at h
    obtain ⟨sorted, -, h⟩ := bind_ok' h
    obtain ⟨results, hres, h⟩ := bind_ok' h
    unfold searchResults at hres
    rw [hno] at hres
    cases hres
    cases h
    rfl

theorem show_nothing (w : Web σ) (hno : w.corpus = none) (t : Route) (i : String) (r : Request) (a : Answer σ)
    (h : t.show int w i r = .ok a) : ¬ ShowsDocuments a := by
  cases t
  case index =>
    unfold Route.show at h
    dsimp only at h
    obtain ⟨_, -, h⟩ := bind_ok' h
    obtain ⟨_, -, h⟩ := bind_ok' h
    obtain ⟨_, -, h⟩ := bind_ok' h
    obtain ⟨_, -, h⟩ := bind_ok' h
    obtain ⟨_, -, h⟩ := bind_ok' h
    obtain ⟨_, -, h⟩ := bind_ok' h
    obtain ⟨p, hp, h⟩ := bind_ok' h
    cases p with
    | none => cases h; exact id
    | some p => cases h; exact fun hh => hh (indexPage_nothing w hno _ _ _ _ _ p hp)
  case cluster c =>
    unfold Route.show at h
    dsimp only at h
    obtain ⟨_, -, h⟩ := bind_ok' h
    obtain ⟨_, -, h⟩ := bind_ok' h
    obtain ⟨_, -, h⟩ := bind_ok' h
    obtain ⟨_, -, h⟩ := bind_ok' h
    obtain ⟨_, -, h⟩ := bind_ok' h
    obtain ⟨_, -, h⟩ := bind_ok' h
    obtain ⟨p, hp, h⟩ := bind_ok' h
    cases h
    exact fun hh => hh (clusterPage_nothing w hno _ _ _ _ _ p hp)
  case search =>
    unfold Route.show at h
    dsimp only at h
    obtain ⟨x, -, h⟩ := bind_ok' h
    obtain ⟨y, -, h⟩ := bind_ok' h
    split at h
    · obtain ⟨_, -, h⟩ := bind_ok' h
      obtain ⟨z, -, h⟩ := bind_ok' h
      cases z <;> (cases h; exact id)
    · cases h
  case clusterSearch c =>
    unfold Route.show at h
    dsimp only at h
    obtain ⟨x, -, h⟩ := bind_ok' h
    obtain ⟨y, -, h⟩ := bind_ok' h
    split at h
    · obtain ⟨_, -, h⟩ := bind_ok' h
      cases h; exact id
    · cases h
  all_goals (unfold Route.show at h; cases h; exact id)

theorem action_nothing (t : Route) (i : String) (r : Request) (a : Action) (k : Response → Answer σ)
    (h : t.action (σ := σ) int i r = .ok (some (a, k))) (x : Response) : ¬ ShowsDocuments (k x) := by
  have hloc : ∀ y, ¬ ShowsDocuments (location (σ := σ) i y) := by
    intro y; cases y <;> try exact id
    rename_i c; cases c <;> exact id
  have hraw : ∀ c s y, ¬ ShowsDocuments (locationRaw (σ := σ) i c s y) := by
    intro c s y; unfold locationRaw; cases y <;> cases c <;> exact id
  cases t
  all_goals try (unfold Route.action at h; cases h; done)
  all_goals unfold Route.action at h
  all_goals dsimp only at h
  all_goals obtain ⟨_, -, h⟩ := bind_ok' h
  all_goals try obtain ⟨_, -, h⟩ := bind_ok' h
  all_goals try obtain ⟨_, -, h⟩ := bind_ok' h
  all_goals try obtain ⟨_, -, h⟩ := bind_ok' h
  all_goals try obtain ⟨_, -, h⟩ := bind_ok' h
  all_goals try split at h
  all_goals try obtain ⟨_, -, h⟩ := bind_ok' h
  all_goals try obtain ⟨_, -, h⟩ := bind_ok' h
  all_goals (cases h; first | exact hloc x | exact hraw _ _ x)

theorem respond_nothing (luck : Luck σ) (fault : Nat → Option Err) (w : Web σ) (hno : w.corpus = none) (r : Request) :
    ¬ ShowsDocuments (respond int luck fault w r).2 := by
  unfold respond
  split
  · exact id
  · split
    · dsimp only; split <;> exact id
    · split
      · exact id
      · unfold handle
        split
        · exact id
        · split
          · exact id
          · split
            · exact id
            · split
              · exact id
              · split
                · exact id
                · rename_i h; exact action_nothing _ _ _ _ _ h _
                · split
                  · exact id
                  · rename_i h; exact show_nothing w hno _ _ _ _ h
  · exact id

/-- **C80.** `hyperreal serve`, without a corpus, never shows documents: whatever is requested, on whatever file, no answer has a
document or a part of one. -/
theorem serve_without_documents (f : File) (vs : List (Visit σ)) (answers : List (Answer σ))
    (h : (serveFile int noCorpus f vs).2 = .ok answers) : ∀ a ∈ answers, ¬ ShowsDocuments a := by
  unfold serveFile at h
  split at h
  · cases h
    have key : ∀ g : File, ∀ a ∈ (session int noCorpus g vs).2, ¬ ShowsDocuments a := by
      intro g
      induction vs generalizing g with
      | nil => intro a ha; cases ha
      | cons v vs ih =>
        unfold session
        dsimp only
        intro a ha
        rcases List.mem_cons.1 ha with rfl | ha
        · unfold request noCorpus
          split
          · dsimp only
            split
            · exact id
            · exact respond_nothing _ _ _ rfl _
          · exact respond_nothing _ _ _ rfl _
        · exact ih _ a ha
    exact key f
  · cases h

/-! ## Examples -/

/-- A visit, with the workers and draws of the other examples. -/
def demoVisit (r : Request) : Visit Rat := ⟨r, demoWeb, demoLuck, fun _ => none⟩

/-- A file of version 4 can be served; reading its overview upgrades it, a page that does not exist leaves it alone. -/
example : Servable oldFile ∧ (demoVisit (.get "/index/0")).request.post = false ∧ opens readInt (.get "/index/0/") = true ∧
    opens readInt (.get "/index/1/") = false ∧ opens readInt (.get "/nowhere") = false ∧
    (serveFile readInt noCorpus oldFile [demoVisit (.get "/nowhere")]).1.version = 4 ∧
    (serveFile readInt noCorpus oldFile [demoVisit (.get "/nowhere"), demoVisit (.get "/index/0/")]).1.version = 10 := by
  refine ⟨⟨by decide +kernel, .inr ⟨4, oldFile_genuine⟩⟩, rfl, ?_, ?_, ?_, ?_, ?_⟩ <;> decide +kernel

/-- A file of some other program is refused. -/
example : isIndexDb { oldFile with applicationId := 5 } = false ∧
    ((serveFile readInt noCorpus { oldFile with applicationId := 5 } [demoVisit (.get "/index/0/")]).2 matches .error .valueError) = true := by
  decide +kernel

end Hyperreal.Props
