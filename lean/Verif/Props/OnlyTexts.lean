import Verif.Props.Positions
import Verif.Props.PlainText
import Verif.Props.PipelineSample
import Verif.Props.SxRender

/-!
# What cannot be shown as a text (C36, C40, C41)

`" ".join` takes strings only.  A concordance or a passage with a number in it is not shown with the number turned into
a text: the call raises.  And what a plain text corpus renders is the texts that were stored.
-/

namespace Hyperreal.Props
open Atomic Spec

/-- A list of calls succeeds only if every call does. -/
theorem mapM_member {α β : Type} (f : α → Except Err β) : ∀ (l : List α) (r : List β), l.mapM f = .ok r →
    ∀ a ∈ l, ∃ b ∈ r, f a = .ok b := by
  intro l
  induction l with
  | nil => intro r _ a ha; cases ha
  | cons x l ih =>
    intro r h a ha
    rw [List.mapM_cons] at h
    cases hx : f x with
    | error e => rw [hx] at h; cases h
    | ok y =>
      rw [hx] at h
      cases hl : l.mapM f with
      | error e => rw [hl] at h; cases h
      | ok ys =>
        rw [hl] at h
        cases h
        rcases List.mem_cons.1 ha with rfl | ha
        · exact ⟨y, by simp, hx⟩
        · obtain ⟨b, hb, e⟩ := ih ys hl a ha
          exact ⟨b, by simp [hb], e⟩

/-- When it fails, it fails as one of the calls does. -/
theorem mapM_failure {α β : Type} (f : α → Except Err β) : ∀ (l : List α) (e : Err), l.mapM f = .error e →
    ∃ a ∈ l, f a = .error e := by
  intro l
  induction l with
  | nil => intro e h; cases h
  | cons x l ih =>
    intro e h
    rw [List.mapM_cons] at h
    cases hx : f x with
    | error e' => rw [hx] at h; cases h; exact ⟨x, by simp, hx⟩
    | ok y =>
      rw [hx] at h
      cases hl : l.mapM f with
      | error e' =>
        rw [hl] at h
        cases h
        obtain ⟨a, ha, e⟩ := ih _ hl
        exact ⟨a, by simp [ha], e⟩
      | ok ys => rw [hl] at h; cases h

section
variable {corpus : Corpus} {content : Val → Features} {db : DB}

/-- **C36** for `concordances`, the converse of `concordances_join`: a number in any of the windows makes the call raise
`TypeError`; no concordance shows it. -/
theorem concordances_numbers_fail (pick : Nat → Nat → List Nat) (query : Bitmap) (features : List FeatureRef) (w : Nat)
    (sample : Option Int) (sep : String) (docs : List (DocWindows (List (Option Val))))
    (h : extractWindows pick corpus db query features w sample = .ok docs)
    (hnum : ∃ x ∈ docs, ∃ e ∈ x.2.2, ∃ m ∈ e.2, ∃ window ∈ m.2, ∃ i, some (Val.int i) ∈ window) :
    concordances pick corpus db query features w sample sep = .error .typeError := by
  obtain ⟨x, hx, e, he, m, hm, window, hw, i, hi⟩ := hnum
  have htok : ∀ (v : Val) (err : Err), tokenText v = .error err → err = .typeError := by
    intro v err h; cases v <;> cases h; rfl
  have hwin : ∀ (win : List (Option Val)) (err : Err), joinWindow sep win = .error err → err = .typeError := by
    intro win err h
    rw [joinWindow] at h
    cases h1 : (win.filterMap (fun x => x)).mapM tokenText with
    | ok ts => rw [h1] at h; cases h
    | error e' =>
      rw [h1] at h
      cases h
      obtain ⟨a, -, ha⟩ := mapM_failure _ _ _ h1
      exact htok a _ ha
  have hfield : ∀ (f : String × Dict Val (List (List (Option Val)))) (err : Err), joinField sep f = .error err →
      err = .typeError := by
    intro f err h
    rw [joinField] at h
    generalize hms : List.mapM (m := Except Err) _ f.2 = ms at h
    cases ms with
    | ok ms => cases h
    | error e' =>
      cases h
      obtain ⟨a, -, ha⟩ := mapM_failure _ _ _ hms
      cases h1 : a.2.mapM (joinWindow sep) with
      | ok ss => rw [h1] at ha; cases ha
      | error e'' =>
        rw [h1] at ha
        cases ha
        obtain ⟨win, -, hwin'⟩ := mapM_failure _ _ _ h1
        exact hwin win _ hwin'
  rw [concordances, h]
  show docs.mapM _ = _
  generalize hr : List.mapM (m := Except Err) _ docs = r
  cases r with
  | error err =>
    obtain ⟨y, -, hy⟩ := mapM_failure _ _ _ hr
    cases h1 : y.2.2.mapM (joinField sep) with
    | ok fs => rw [h1] at hy; cases hy
    | error e'' =>
      rw [h1] at hy
      cases hy
      obtain ⟨f, -, hf⟩ := mapM_failure _ _ _ h1
      rw [hfield f _ hf]
  | ok res =>
    exfalso
    obtain ⟨y, -, hy⟩ := mapM_member _ _ _ hr x hx
    cases h1 : x.2.2.mapM (joinField sep) with
    | error e'' => rw [h1] at hy; cases hy
    | ok fs =>
      obtain ⟨z, -, hz⟩ := mapM_member _ _ _ h1 e he
      rw [joinField] at hz
      generalize hms : List.mapM (m := Except Err) _ e.2 = ms at hz
      cases ms with
      | error e'' => cases hz
      | ok ms =>
        obtain ⟨u, -, hu⟩ := mapM_member _ _ _ hms m hm
        cases h2 : m.2.mapM (joinWindow sep) with
        | error e'' => rw [h2] at hu; cases hu
        | ok ss =>
          obtain ⟨s, -, hs⟩ := mapM_member _ _ _ h2 window hw
          rw [joinWindow] at hs
          cases h3 : (window.filterMap (fun x => x)).mapM tokenText with
          | error e'' => rw [h3] at hs; cases hs
          | ok ts =>
            obtain ⟨t, -, ht⟩ := mapM_member _ _ _ h3 (.int i) (List.mem_filterMap.2 ⟨_, hi, rfl⟩)
            cases ht

/-- **C40**, the converse: `render_passages_table` succeeds only if in every passage the field is a sequence and every item
shown — from `overhang` before the start up to, but not including, `overhang` after the end — is a string: a `None` or a
number among them is never shown, and makes the call raise. -/
theorem render_only_texts (hs : Serves corpus content) (hI : IsIndexOf corpus content db)
    (keep : Nat → List Nat → List Nat)
    (order : List (Dict Nat (List Passage)) → List (Dict Nat (List Passage))) (ho : ∀ l, (order l).Perm l)
    (scored : Dict Nat (List Passage)) (once : scored.keys.Nodup) (known : ∀ e ∈ scored, e.1 < corpus.keys.length)
    (sortable : Sortable (scored.keys.filterMap (fun d => corpus.keys[d]?))) (overhang batchSize : Nat) (hb : 0 < batchSize)
    (rows : List (Nat × Val × Dict String RowCell))
    (h : renderPassages keep order corpus db scored overhang batchSize none = .ok rows) :
    ∀ e ∈ scored, ∀ p ∈ e.2, ∀ k, corpus.keys[e.1]? = some k → ∃ vs, (p.field, Values.seq vs) ∈ content k ∧
      ∀ (j : Nat) (item : Option Val), p.start - overhang ≤ j → j < p.stop + overhang → vs[j]? = some item → ∃ t, item = some (.text t) := by
  intro e he p hp k hk
  have hflat := chunks_flatten batchSize hb scored.length scored le_rfl
  have he' := he
  rw [← hflat] at he'
  obtain ⟨b, hbm, heb⟩ := List.mem_flatten.1 he'
  have hsub : b.Sublist scored := mem_chunks hbm
  rw [renderPassages] at h
  simp only [samplePassages] at h
  generalize hr : (order (chunks batchSize scored.length scored)).mapM (fun b => constructPassages corpus db b overhang) = r at h
  cases r with
  | error err => cases h
  | ok rs =>
  obtain ⟨part, -, hpart⟩ := mapM_member _ _ _ hr b ((ho _).mem_iff.2 hbm)
  have hbn : (Dict.keys b).Nodup := List.Nodup.sublist (hsub.map _) once
  have hbs : Sortable ((Dict.keys b).filterMap (fun d => corpus.keys[d]?)) := by
    have hall : ∀ v ∈ (Dict.keys b).filterMap (fun d => corpus.keys[d]?),
        v ∈ scored.keys.filterMap (fun d => corpus.keys[d]?) := fun v hv => ((hsub.map _).filterMap _).subset hv
    rcases sortable with h | h
    · exact Or.inl (fun v hv => h v (hall v hv))
    · exact Or.inr (fun v hv => h v (hall v hv))
  obtain ⟨docs, d1, d2, d3, -⟩ := indexedDocs_spec hs hI (Dict.keys b) hbn
    (fun d hd => by obtain ⟨x, hx, rfl⟩ := List.mem_map.1 hd; exact known x (hsub.subset hx)) hbs
  rw [constructPassages] at hpart
  change (indexedDocs corpus db (Dict.keys b) >>= fun docs => _) = _ at hpart
  rw [d1] at hpart
  change docs.mapM (constructDoc overhang b) = _ at hpart
  obtain ⟨x, hx, hxe⟩ := List.mem_map.1 (d2.mem_iff.2 (List.mem_map.2 ⟨e, heb, rfl⟩ : e.1 ∈ Dict.keys b))
  obtain ⟨row, -, hrow⟩ := mapM_member _ _ _ hpart x hx
  rw [constructDoc, hxe, Dict.getE, Dict.get?_of_mem hbn heb] at hrow
  change (e.2.mapM (passageText overhang x.2.2) >>= fun texts => _) = _ at hrow
  cases ht : e.2.mapM (passageText overhang x.2.2) with
  | error err => rw [ht] at hrow; cases hrow
  | ok texts =>
  obtain ⟨t, -, htp⟩ := mapM_member _ _ _ ht p hp
  obtain ⟨x1, x2⟩ := d3 x hx
  rw [hxe, hk] at x1
  cases x1
  rw [passageText] at htp
  cases hg : Dict.get? x.2.2 p.field with
  | none => rw [hg] at htp; cases htp
  | some v =>
  cases v with
  | bag vs => rw [hg] at htp; cases htp
  | seq vs =>
  rw [hg] at htp
  have hm := Dict.mem_of_get? hg
  rw [x2] at hm
  refine ⟨vs, hm, ?_⟩
  intro j item h1 h2 h3
  dsimp only at htp
  rw [joinTokens] at htp
  generalize hj : List.mapM itemText _ = js at htp
  cases js with
  | error err => cases htp
  | ok ts =>
  have hin : item ∈ (vs.take (p.stop + overhang)).drop (p.start - overhang) := by
    rw [List.mem_iff_getElem?]
    refine ⟨j - (p.start - overhang), ?_⟩
    rw [List.getElem?_drop, List.getElem?_take, if_pos (by omega)]
    rw [show p.start - overhang + (j - (p.start - overhang)) = j by omega]
    exact h3
  obtain ⟨s, -, hs'⟩ := mapM_member _ _ _ hj item hin
  cases item with
  | none => cases hs'
  | some v =>
    cases v with
    | int i => cases hs'
    | text t => exact ⟨t, rfl⟩

end

/-- **C41, what is rendered.** Both renderings of stored documents give the texts, each under the key asked for and in the
order asked (as a table: one column `text`); a key under which nothing is stored raises `IndexError`. -/
theorem docs_rendered (ts : List String) :
    (∀ ks : List Nat, (∀ k ∈ ks, 1 ≤ k ∧ k ≤ ts.length) →
      PlainText.renderHtml (some (numbered ts)) ks = .ok (ks.map (fun k => (k, ts.getD (k - 1) ""))) ∧
      PlainText.renderTable (some (numbered ts)) ks = .ok (ks.map (fun k => (k, [("text", ts.getD (k - 1) "")]))) ∧
      Pipeline.plainRender (some (numbered ts)) (ks.map (fun k : Nat => .int (k : Int))) =
        .ok (ks.map (fun k : Nat => (.int (k : Int), [("text", .text (ts.getD (k - 1) ""))])))) ∧
    (∀ ks : List Nat, (∃ k ∈ ks, k = 0 ∨ ts.length < k) →
      PlainText.renderHtml (some (numbered ts)) ks = .error .indexError ∧
      PlainText.renderTable (some (numbered ts)) ks = .error .indexError ∧
      Pipeline.plainRender (some (numbered ts)) (ks.map (fun k : Nat => .int (k : Int))) = .error .indexError) := by
  obtain ⟨-, -, hok, hno⟩ := docs_roundtrip ts
  have hone : ∀ k, 1 ≤ k → k ≤ ts.length → PlainText.docOf (some (numbered ts)) k = .ok (ts.getD (k - 1) "") := by
    intro k h1 h2
    have := hok [k] (by simp; omega)
    simp only [PlainText.docs, PlainText.yields] at this
    cases hd : PlainText.docOf (some (numbered ts)) k with
    | error e => rw [hd] at this; simp at this
    | ok t => rw [hd] at this; simp at this; rw [this, List.getD_eq_getElem?_getD]
  have hbad : ∀ k, (k = 0 ∨ ts.length < k) → PlainText.docOf (some (numbered ts)) k = .error .indexError := by
    intro k h
    have := hno k h
    simp only [PlainText.docs, PlainText.yields] at this
    cases hd : PlainText.docOf (some (numbered ts)) k with
    | error e => rw [hd] at this; simpa using this
    | ok t => rw [hd] at this; simp at this
  constructor
  · intro ks h
    refine ⟨?_, ?_, ?_⟩
    · rw [PlainText.renderHtml, hok ks h]
    · rw [PlainText.renderTable, hok ks h]; simp
    · rw [Pipeline.plainRender]
      rw [mapM_eq_map _ (fun v => (v, [("text", Cell.text (ts.getD (((PlainText.asKey v).getD 0) - 1) ""))]))]
      · simp [PlainText.asKey]
      · intro v hv
        obtain ⟨k, hk, rfl⟩ := List.mem_map.1 hv
        show (PlainText.docOf _ k).map _ = _
        rw [hone k (h k hk).1 (h k hk).2]; rfl
  · intro ks h
    have hy : (PlainText.docs (some (numbered ts)) (some ks)).2 = some .indexError := by
      show (PlainText.yields _ ks).2 = _
      induction ks with
      | nil => obtain ⟨k, hk, -⟩ := h; cases hk
      | cons a ks ih =>
        rw [PlainText.yields]
        by_cases ha : a = 0 ∨ ts.length < a
        · rw [hbad a ha]
        · rw [hone a (by omega) (by omega)]
          obtain ⟨k, hk, hk'⟩ := h
          rcases List.mem_cons.1 hk with rfl | hk
          · exact absurd hk' ha
          · exact ih ⟨k, hk, hk'⟩
    refine ⟨?_, ?_, ?_⟩
    · rw [PlainText.renderHtml]
      generalize PlainText.docs _ _ = r at hy
      obtain ⟨l, e⟩ := r
      dsimp only at hy
      subst hy
      rfl
    · rw [PlainText.renderTable]
      generalize PlainText.docs _ _ = r at hy
      obtain ⟨l, e⟩ := r
      dsimp only at hy
      subst hy
      rfl
    · obtain ⟨k, hk, hk'⟩ := h
      rw [Pipeline.plainRender]
      refine mapM_error _ _ (.int (k : Int)) (List.mem_map.2 ⟨k, hk, rfl⟩) .indexError ?_ ?_
      · show (PlainText.docOf _ k).map _ = _
        rw [hbad k hk']; rfl
      · intro y hy' e' he'
        obtain ⟨j, hj, rfl⟩ := List.mem_map.1 hy'
        change (PlainText.docOf _ j).map _ = _ at he'
        by_cases hj' : j = 0 ∨ ts.length < j
        · rw [hbad j hj'] at he'; cases he'; rfl
        · rw [hone j (by omega) (by omega)] at he'; cases he'

set_option synthInstance.maxSize 2000 in
set_option synthInstance.maxHeartbeats 200000 in
/-- A document whose sequence has the number 7 in it: the window around "a" is found, and cannot be shown. -/
example : let corpus := (⟨[.int 0], fun ks => .ok (ks.map (fun _ =>
        [("text", .seq [some (.text "a"), some (.int 7), none, some (.text "b")])]))⟩ : Corpus)
    let db := ({ ({} : DB) with docKeys := [(0, .int 0)] } : DB)
    (extractWindows (fun _ k => List.range k) corpus db {0} [.key "text" (.text "a")] 1 none).toOption =
      some [(.int 0, 0, [("text", [(.text "a", [[some (.text "a"), some (.int 7)]])])])] ∧
    concordances (fun _ k => List.range k) corpus db {0} [.key "text" (.text "a")] 1 none = .error .typeError ∧
    renderPassages (fun _ l => l) id corpus db [(0, [⟨"text", 0, 1, 1⟩])] 2 = .error .typeError ∧
    (renderPassages (fun _ l => l) id corpus db [(0, [⟨"text", 0, 1, 1⟩])] 0).toOption =
      some [(0, .int 0, [("text", .passages ["a"])])] ∧
    PlainText.renderTable (some (numbered ["b", "a"])) [2] = .ok [(2, [("text", "a")])] ∧
    PlainText.renderTable (some (numbered ["b", "a"])) [2, 3] = .error .indexError :=
  ⟨by decide +kernel, by decide +kernel, by decide +kernel, by decide +kernel, by decide +kernel, by decide +kernel⟩

end Hyperreal.Props
