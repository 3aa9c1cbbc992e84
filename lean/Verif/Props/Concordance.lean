import Verif.Spec.Concordance
import Verif.Props.Positions
import Verif.Props.Details

/-! # C90: the concordance of a text file -/

namespace Hyperreal.Props
open Atomic Spec Cli Migrate Serve PlainText

/-- Index on any corpus: the file describes the corpus completely. -/
theorem any_index {corpus : Corpus} {content : Val → Features} (hs : Serves corpus content) (cfg : IndexCfg)
    (hi : Indexable corpus content cfg.positions)
    (hne : corpus.keys ≠ []) (s : Schedule) (hf : Fair s) (hno : ∀ i, s.fault i = none) (f : File) (hu : Usable f) :
    let indexed := Pipeline.onIndex f (indexCall corpus cfg s)
    indexed.2 = .ok () ∧ Wellformed indexed.1.data ∧ IsIndexOf corpus content indexed.1.data ∧
    (cfg.positions = true → Searchable corpus content indexed.1.data) := by
  intro indexed
  obtain ⟨b, -, -, -, hset, -⟩ := usable_opens f hu
  have hidle : Idle (Conn.fresh f.data) f.data := fresh_idle _
  have hp := DB.Settled.toPending hset
  have hok := index_succeeds hidle hset hs hi hf hne hno
  obtain ⟨-, -, -, new, h1, h2, ⟨h3, -, h3', h4, h5, h6⟩, -⟩ := index_success hidle hp hs hf hok
  have hR := reindexed_isIndex (cfg := cfg) (s := s) hs hi hf hp.toWellformed
  have hindexed : indexed = ({ opened Faults.none f with data := new }, .ok ()) := by
    show Pipeline.onIndex f (indexCall corpus cfg s) = _
    rw [onIndex_usable f hu, hok]
    have : (indexCall corpus cfg s (Conn.fresh f.data)).1.close = new := h1.committed
    rw [this]
  have hI : IsIndexOf corpus content new := by
    refine ⟨?_, ?_, ?_, ?_⟩
    · rw [h3']; exact hR.docKeys
    · rw [h3']; exact hR.docIds
    · intro f v d; rw [DB.docsOfKey, h3]; exact hR.lookup f v d
    · intro r hr d
      rw [h3] at hr
      rw [DB.docsOf, DB.feature?, h3]; exact hR.featureLookup r hr d
  rw [hindexed]
  refine ⟨rfl, h2.toWellformed, hI, fun hpos => ?_⟩
  obtain ⟨new', g1, g2⟩ := index_searchable hidle hp hs hf hpos hok
  have : new' = new := g1.committed.symm.trans h1.committed
  subst this
  exact g2

theorem extend_all {κ β : Type} [DecidableEq κ] {P : β → Prop} {acc : Dict κ (List β)} {v : κ} {l : List β}
    (h : ∀ m ∈ acc, ∀ x ∈ m.2, P x) (hl : ∀ x ∈ l, P x) : ∀ m ∈ Dict.extend acc v l, ∀ x ∈ m.2, P x := by
  intro m hm x hx
  unfold Dict.extend at hm
  rcases Dict.mem_set hm with h1 | rfl
  · exact h m h1 x hx
  · rcases List.mem_append.1 hx with h1 | h1
    · cases hg : Dict.get? acc v with
      | none => rw [hg] at h1; cases h1
      | some old => rw [hg] at h1; exact h (v, old) (Dict.mem_of_get? hg) x h1
    · exact hl x h1

theorem windowLoop_all (wanted : List Val) (w : Nat) (vs : List (Option Val)) {P : List (Option Val) → Prop}
    (hP : ∀ window : List (Option Val), (∀ x ∈ window, x ∈ vs) → P window) : ∀ (rest : List (Option Val)) (i : Nat)
    (acc : Dict Val (List (List (Option Val)))), (∀ m ∈ acc, ∀ x ∈ m.2, P x) →
      ∀ m ∈ windowLoop wanted w vs i rest acc, ∀ x ∈ m.2, P x := by
  intro rest
  induction rest with
  | nil => intro i acc h; exact h
  | cons a rest ih =>
    intro i acc h
    cases a with
    | none => exact ih (i + 1) acc h
    | some v =>
      unfold windowLoop
      split
      · refine ih (i + 1) _ (extend_all h fun x hx => ?_)
        rw [List.mem_singleton] at hx
        subst hx
        exact hP _ fun y hy => List.mem_of_mem_take (List.mem_of_mem_drop hy)
      · exact ih (i + 1) acc h

theorem fieldWindows_all (w : Nat) (doc : Features) (field : String) (wanted : List Val) {P : List (Option Val) → Prop}
    (hP : ∀ vs, (field, Values.seq vs) ∈ doc → ∀ window : List (Option Val), (∀ x ∈ window, x ∈ vs) → P window) :
    ∀ m ∈ fieldWindows w doc field wanted, ∀ x ∈ m.2, P x := by
  unfold fieldWindows
  cases hg : Dict.get? doc field with
  | none => intro m hm; cases hm
  | some vs =>
    cases vs with
    | seq vs => exact windowLoop_all wanted w vs (hP vs (Dict.mem_of_get? hg)) vs 0 [] (by intro m hm; cases hm)
    | bag vs =>
      dsimp only
      generalize wanted.filter _ = l
      have : ∀ (l : List Val) (acc : Dict Val (List (List (Option Val)))), (∀ m ∈ acc, ∀ x ∈ m.2, P x) →
          ∀ m ∈ l.foldl (fun acc v => acc.extend v []) acc, ∀ x ∈ m.2, P x := by
        intro l
        induction l with
        | nil => intro acc h; exact h
        | cons v l ih => intro acc h; exact ih _ (extend_all h (by simp))
      exact this l [] (by intro m hm; cases hm)

/-- In a corpus of texts, windows contain texts. -/
theorem extracted_texts {corpus : Corpus} {content : Val → Features} {db : DB} (pick : Nat → Nat → List Nat) (hp : Draws pick)
    (hs : Serves corpus content) (hw : Wellformed db) (hI : IsIndexOf corpus content db) (query : Bitmap)
    (hq : ∀ d ∈ query, d < corpus.keys.length)
    (hsort : Sortable (query.elems.filterMap (fun d => corpus.keys[d]?))) (features : List FeatureRef)
    (hu : Understood db features) (w : Nat) (sample : Option Int) (hk : ∀ k, sample = some k → 0 ≤ k)
    (htexts : ∀ k ∈ corpus.keys, ∀ field vs, (field, Values.seq vs) ∈ content k → ∀ v, some v ∈ vs → ∃ t, v = .text t)
    (result : List (DocWindows (List (Option Val)))) (h : extractWindows pick corpus db query features w sample = .ok result) :
    ∀ x ∈ result, ∀ e ∈ x.2.2, ∀ m ∈ e.2, ∀ window ∈ m.2, ∀ v, some v ∈ window → ∃ t, v = .text t := by
  obtain ⟨s, h1, h2, -, -⟩ := maybeSample_ok pick hp query sample hk
  obtain ⟨fvs, h5, -⟩ := windowFeature_ok hw features hu
  have hsub : Sortable (s.elems.filterMap (fun d => corpus.keys[d]?)) := by
    have : ∀ k ∈ s.elems.filterMap (fun d => corpus.keys[d]?), k ∈ query.elems.filterMap (fun d => corpus.keys[d]?) := by
      intro k hk
      obtain ⟨d, hd, e⟩ := List.mem_filterMap.1 hk
      exact List.mem_filterMap.2 ⟨d, Bitmap.mem_elems.2 (h2 (Bitmap.mem_elems.1 hd)), e⟩
    rcases hsort with h | h
    · exact Or.inl (fun k hk => h k (this k hk))
    · exact Or.inr (fun k hk => h k (this k hk))
  obtain ⟨docs, g1, -, g3, -⟩ := indexedDocs_spec hs hI s.elems (Bitmap.elems_nodup s)
    (fun d hd => hq d (h2 (Bitmap.mem_elems.1 hd))) hsub
  have he : extractWindows pick corpus db query features w sample = .ok (docs.map (fun x => (x.2.1, x.1,
      (fvs.foldl addWanted []).map (fun e => (e.1, fieldWindows w x.2.2 e.1 e.2))))) := by
    rw [extractWindows, h1]
    show (features.mapM (windowFeature db) >>= fun fvs => _) = _
    rw [h5]
    show (indexedDocs corpus db s.elems >>= fun docs => _) = _
    rw [g1]; rfl
  rw [he] at h
  cases h
  intro x hx e he m hm
  obtain ⟨y, hy, rfl⟩ := List.mem_map.1 hx
  obtain ⟨e', -, rfl⟩ := List.mem_map.1 he
  obtain ⟨k1, k2⟩ := g3 y hy
  have hkey : y.2.1 ∈ corpus.keys := List.mem_of_getElem? k1
  refine fieldWindows_all w y.2.2 e'.1 e'.2 (P := fun window => ∀ v, some v ∈ window → ∃ t, v = Val.text t) ?_ m hm
  intro vs hvs window hwin v hv
  rw [k2] at hvs
  exact htexts _ hkey _ _ hvs v (hwin _ hv)

theorem seq_get (tokens : List String) (i : Nat) :
    (tokens.map (fun t => some (Val.text t)))[i]? = (tokens[i]?).map (fun t => some (Val.text t)) := List.getElem?_map ..

theorem contexts_eq (w : Nat) (sep : String) (tokens : List String) (word : String) :
    ((occurrences (tokens.map (fun t => some (Val.text t))) (.text word)).map
      (neighbourhood w (tokens.map (fun t => some (Val.text t))))).map (fun window => sep.intercalate (window.filterMap (fun v =>
        match v with
        | some (.text t) => some t
        | _ => none))) = contexts w sep tokens word := by
  unfold contexts occurrences neighbourhood
  rw [List.length_map, List.map_map]
  have e : (List.range tokens.length).filter (fun i => decide ((tokens.map (fun t => some (Val.text t)))[i]? = some (some (.text word)))) =
      (List.range tokens.length).filter (fun i => decide (tokens[i]? = some word)) := by
    apply List.filter_congr
    intro i _
    rw [seq_get]
    cases tokens[i]? <;> simp
  rw [e]
  apply List.map_congr_left
  intro i _
  show sep.intercalate _ = _
  congr 1
  rw [List.filterMap_filterMap]
  apply List.filterMap_congr
  intro j _
  rw [seq_get]
  cases tokens[j]? <;> rfl

/-- **C90.** After `create` and `index` of a text file, the concordances of some words in the lines that contain a given word: every such
line (or as many as the sample asks for), in the order of the file, with the contexts of each of the words, and nothing else. -/
theorem text_file_concordance (space : Char → Bool) (limit : Nat) (ls : List Line) (hls : ∀ l ∈ ls, l.Ok limit)
    (file : List Char) (hfile : file = ls.flatMap Line.render ∨ file ++ ['\n'] = ls.flatMap Line.render)
    (hne : documents space ls ≠ []) (old : PlainText.Db) (split : String → List String)
    (cfg : IndexCfg) (s : Schedule) (hf : Fair s) (hno : ∀ i, s.fault i = none) (f : File) (hu : Usable f)
    (pick : Nat → Nat → List Nat) (hp : Draws pick) (word : String) (words : List String) (w : Nat) (sep : String)
    (sample : Option Int) (hk : ∀ k, sample = some k → 0 ≤ k) :
    let docs := numbered (documents space ls)
    let corpus := Pipeline.create space limit file old
    let indexed := Pipeline.indexPlain split cfg s corpus.1 f
    let lines := docs.filter (fun d => word ∈ split d.2)
    corpus = (some docs, .ok ()) ∧ indexed.2 = .ok () ∧ ∃ chosen result,
      concordances pick (PlainText.corpus split docs) indexed.1.data (indexed.1.data.docsOfKey "text" (.text word))
        (words.map (fun x => .key "text" (.text x))) w sample sep = .ok result ∧
      chosen.Sublist lines ∧ (sample = none → chosen = lines) ∧
      (∀ k, sample = some k → (chosen.length : Int) = min k lines.length) ∧
      result.map (fun x => (x.1, x.2.1)) = chosen.map (fun d => (Val.int d.1, d.1 - 1)) ∧
      ∀ x ∈ result, ∀ d ∈ docs, x.1 = Val.int d.1 → ∀ field v, ∀ texts,
        shownFor x.2.2 field v = some texts ↔
          field = "text" ∧ ∃ t ∈ words, v = .text t ∧ t ∈ split d.2 ∧ texts = contexts w sep (split d.2) t := by
  intro docs corpus indexed lines
  obtain ⟨-, shown, S⟩ := text_file_source space limit ls hls file hfile hne old split cfg s
  have hcorpus : corpus = (some docs, .ok ()) := by
    obtain ⟨c1, c2⟩ := create_reads_partial space limit ls hls file hfile (Conn.fresh old) old ⟨rfl, rfl, rfl, rfl, rfl, rfl⟩
    show Pipeline.create space limit file old = _
    unfold Pipeline.create
    cases hx : plaintextCreate space limit (fun _ => none) file (Conn.fresh old) with
    | mk c r =>
      rw [hx] at c1 c2
      dsimp only at c1 c2
      rw [c1]
      dsimp only
      congr 1
      exact c2.committed
  obtain ⟨a1, hw, hI, -⟩ := any_index S.serves cfg S.indexable S.nonempty s hf hno f hu
  rw [← S.indexes f] at a1 hw hI
  have hget : ∀ i : Nat, (PlainText.corpus split docs).keys[i]? = (docs[i]?).map (fun d => Val.int d.1) := fun i => List.getElem?_map ..
  have hat : ∀ (i : Nat) d, docs[i]? = some d → d.1 = i + 1 := by
    intro i d h
    have := numbered_get (documents space ls) i
    rw [show (numbered (documents space ls))[i]? = some d from h] at this
    cases hx : (documents space ls)[i]? with
    | none => rw [hx] at this; cases this
    | some t => rw [hx] at this; cases this; rfl
  have hkeyat : ∀ (i : Nat) k, (PlainText.corpus split docs).keys[i]? = some k → k = .int ((i + 1 : Nat) : Int) := by
    intro i k h
    rw [hget] at h
    cases hx : docs[i]? with
    | none => rw [hx] at h; cases h
    | some d =>
      rw [hx] at h
      cases h
      show Val.int (d.1 : Int) = _
      rw [hat i d hx]
  have hpos : ∀ d ∈ docs, docs[d.1 - 1]? = some d := by
    intro d hd
    obtain ⟨i, hi⟩ := List.getElem?_of_mem hd
    rw [hat i d hi]
    exact hi
  have hcontent : ∀ d ∈ docs, plainContent split docs (.int d.1) = PlainText.features split d.2 := by
    intro d hd
    unfold plainContent PlainText.indexed
    have : PlainText.asKey (Val.int (d.1 : Int)) = some d.1 := rfl
    rw [this]
    dsimp only
    rw [PlainText.docOf_unique _ (numbered_keys _) _ hd]
  have hquery : ∀ i : Nat, i ∈ indexed.1.data.docsOfKey "text" (.text word) ↔ ∃ d, docs[i]? = some d ∧ word ∈ split d.2 := by
    intro i
    rw [show indexed = Pipeline.indexPlain split cfg s corpus.1 f from rfl, hI.lookup, occurs_iff, hget]
    constructor
    · rintro ⟨k, h1, h2⟩
      cases hx : docs[i]? with
      | none => rw [hx] at h1; cases h1
      | some d =>
        rw [hx] at h1
        cases h1
        obtain ⟨-, t, ht, e⟩ := (S.has d (List.mem_of_getElem? hx) "text" (.text word)).1 h2
        cases e
        exact ⟨d, rfl, ht⟩
    · rintro ⟨d, hx, hd⟩
      rw [hx]
      exact ⟨_, rfl, (S.has d (List.mem_of_getElem? hx) "text" (.text word)).2 ⟨rfl, word, hd, rfl⟩⟩
  set db := indexed.1.data with hdb
  set query := db.docsOfKey "text" (.text word) with hq
  have hlt : ∀ i ∈ query, i < (PlainText.corpus split docs).keys.length := by
    intro i hi
    obtain ⟨d, hd, -⟩ := (hquery i).1 hi
    rw [show (PlainText.corpus split docs).keys.length = docs.length from List.length_map ..]
    exact (List.getElem?_eq_some_iff.1 hd).1
  have hsort : Sortable (query.elems.filterMap (fun i => (PlainText.corpus split docs).keys[i]?)) := by
    refine .inl fun k hk => ?_
    obtain ⟨i, -, h⟩ := List.mem_filterMap.1 hk
    rw [hkeyat i k h]
    rfl
  have hund : Understood db (words.map (fun x => FeatureRef.key "text" (.text x))) := by
    intro ref href
    obtain ⟨x, -, rfl⟩ := List.mem_map.1 href
    trivial
  obtain ⟨chosenIds, result, r1, r2, r3, r4, r5, r6, r7⟩ := windows_exact pick hp S.serves hw hI query hlt hsort _ hund w sample hk
  have htext := extracted_texts pick hp S.serves hw hI query hlt hsort _ hund w sample hk (by
    intro k hk' field vs hvs v hv
    obtain ⟨d, hd, rfl⟩ := List.mem_map.1 (show k ∈ docs.map (fun d => Val.int d.1) from hk')
    rw [hcontent d hd] at hvs
    simp only [PlainText.features, List.mem_singleton, Prod.mk.injEq, Values.seq.injEq] at hvs
    obtain ⟨-, rfl⟩ := hvs
    obtain ⟨t, -, e⟩ := List.mem_map.1 hv
    cases e
    exact ⟨t, rfl⟩) result r1
  have hjoin := concordances_join pick query _ w sample sep result r1 htext
  have hsorted : (docs.map (fun d => d.1 - 1)).Pairwise (· < ·) := by
    have : docs.map (fun d => d.1 - 1) = List.range (documents space ls).length := by
      rw [show docs.map (fun d => d.1 - 1) = (docs.map (·.1)).map (· - 1) by rw [List.map_map]; rfl, numbered_fst, List.map_map]
      exact List.map_id'' (fun i => rfl) _
    rw [this]
    exact List.pairwise_lt_range
  have hids : ∀ (T : Bitmap), T ⊆ query → ((lines.filter (fun d => d.1 - 1 ∈ T)).map (fun d => d.1 - 1)) = T.elems := by
    intro T hT
    refine (Bitmap.elems_eq_of_sorted ?_ ?_).symm
    · exact hsorted.sublist ((List.filter_sublist.trans List.filter_sublist).map _)
    · intro i
      simp only [List.mem_map, List.mem_filter, decide_eq_true_eq, lines]
      constructor
      · rintro ⟨d, ⟨-, h⟩, rfl⟩; exact h
      · intro hi
        obtain ⟨d, hd, hd2⟩ := (hquery i).1 (hT hi)
        have := hat i d hd
        have hi2 : d.1 - 1 = i := by omega
        exact ⟨d, ⟨⟨List.mem_of_getElem? hd, hd2⟩, by rw [hi2]; exact hi⟩, hi2⟩
  have hall : lines.filter (fun d => d.1 - 1 ∈ query) = lines := by
    rw [List.filter_eq_self]
    intro d hd
    obtain ⟨h1, h2⟩ := List.mem_filter.1 hd
    simp only [decide_eq_true_eq] at h2 ⊢
    exact (hquery _).2 ⟨d, hpos d h1, h2⟩
  have hcard : ∀ (T : Bitmap), T ⊆ query → (lines.filter (fun d => d.1 - 1 ∈ T)).length = T.card := by
    intro T hT
    rw [← Bitmap.elems_length, ← hids T hT, List.length_map]
  have hresult : result.map (·.2.1) = chosenIds.elems := by
    refine r5.eq_of_pairwise (le := (· ≤ ·)) (fun a b _ _ h1 h2 => Nat.le_antisymm h1 h2) ?_ ((Bitmap.elems_pairwise _).imp Nat.le_of_lt)
    rw [List.pairwise_map] at r6 ⊢
    refine r6.imp_of_mem fun {a b} ha hb h => ?_
    rw [hkeyat _ _ (r7 a ha).1, hkeyat _ _ (r7 b hb).1] at h
    simp only [Val.le, decide_eq_true_eq] at h
    omega
  refine ⟨hcorpus, a1, lines.filter (fun d => d.1 - 1 ∈ chosenIds), _, hjoin, List.filter_sublist, ?_, ?_, ?_, ?_⟩
  · intro hs
    rw [r3 hs]
    exact hall
  · intro k hk'
    rw [hcard _ r2, r4 k hk', ← hcard query (Finset.Subset.refl _), hall]
  · rw [List.map_map]
    have e1 : result.map ((fun x : DocWindows String => (x.1, x.2.1)) ∘ fun x => (x.1, x.2.1,
        x.2.2.map (fun e => (e.1, e.2.map (fun m => (m.1, m.2.map (fun window => sep.intercalate (window.filterMap (fun v =>
          match v with
          | some (.text t) => some t
          | _ => none)))))))) ) = (result.map (·.2.1)).map (fun i : Nat => (Val.int ((i + 1 : Nat) : Int), i)) := by
      rw [List.map_map]
      apply List.map_congr_left
      intro x hx
      show (x.1, x.2.1) = _
      rw [hkeyat _ _ (r7 x hx).1]
      rfl
    refine e1.trans ?_
    rw [hresult, ← hids _ r2, List.map_map]
    apply List.map_congr_left
    intro d hd
    have hd1 := List.mem_of_mem_filter (List.mem_of_mem_filter hd)
    have := hat _ d (hpos d hd1)
    show (Val.int ((d.1 - 1 + 1 : Nat) : Int), d.1 - 1) = _
    rw [← this]
  · intro x hx d hd hxd field v texts
    obtain ⟨y, hy, rfl⟩ := List.mem_map.1 hx
    dsimp only at hxd
    obtain ⟨-, hrep⟩ := r7 y hy
    have hshown : ∀ g : List (Option Val) → String, shownFor (y.2.2.map (fun e => (e.1, e.2.map (fun m => (m.1, m.2.map g))))) field v =
        (reported y.2.2 field v).map (fun l => l.map g) := by
      intro g
      unfold shownFor reported
      rw [get?_mapDict (fun e : String × Dict Val (List (List (Option Val))) => e.2.map (fun m => (m.1, m.2.map g)))]
      cases Dict.get? y.2.2 field with
      | none => rfl
      | some e =>
        show Dict.get? (e.map _) v = (Dict.get? e v).map _
        rw [get?_mapDict (fun m : Val × List (List (Option Val)) => m.2.map g)]
    have hfeat : plainContent split docs y.1 = PlainText.features split d.2 := by rw [hxd]; exact hcontent d hd
    have hreq : Spec.Requested db (words.map (fun x => FeatureRef.key "text" (.text x))) field v ↔ field = "text" ∧ ∃ t ∈ words, v = .text t := by
      unfold Spec.Requested
      simp only [List.mem_map, FeatureRef.key.injEq, reduceCtorEq, and_false, exists_false, false_and, or_false]
      constructor
      · rintro ⟨t, ht, rfl, rfl⟩; exact ⟨rfl, t, ht, rfl⟩
      · rintro ⟨rfl, t, ht, rfl⟩; exact ⟨t, ht, rfl, rfl⟩
    obtain ⟨q1, q2, q3, -⟩ := hrep field v
    show shownFor _ field v = some texts ↔ _
    rw [hshown]
    by_cases hr : Spec.Requested db (words.map (fun x => FeatureRef.key "text" (.text x))) field v
    · obtain ⟨rfl, t, ht, rfl⟩ := hreq.1 hr
      by_cases hin : t ∈ split d.2
      · rw [q3 ((split d.2).map (fun t => some (Val.text t))) hr (by rw [hfeat]; simp [PlainText.features]) (List.mem_map.2 ⟨t, hin, rfl⟩)]
        rw [Option.map_some, Option.some.injEq]
        refine (Iff.of_eq (congrArg (· = texts) (contexts_eq w sep (split d.2) t))).trans ?_
        constructor
        · rintro rfl; exact ⟨rfl, t, ht, rfl, hin, rfl⟩
        · rintro ⟨-, t', -, e, -, rfl⟩; cases e; rfl
      · rw [q2 (by
          intro vs hvs hmem
          rw [hfeat] at hvs
          simp only [PlainText.features, List.mem_singleton, Prod.mk.injEq, true_and] at hvs
          subst hvs
          obtain ⟨t', h1, e⟩ := List.mem_map.1 hmem
          cases e
          exact hin h1)]
        constructor
        · intro h; cases h
        · rintro ⟨-, t', -, e, h, -⟩; cases e; exact absurd h hin
    · rw [q1 hr]
      constructor
      · intro h; cases h
      · rintro ⟨rfl, t, ht, rfl, -⟩; exact absurd (hreq.2 ⟨rfl, t, ht, rfl⟩) hr

/-- Three lines: the concordance of the letters "a" and "c" in the lines with a "c" is that of the line "a c", the second. -/
example (corpus : PlainText.Db × Except Err Unit) (hcorpus : Pipeline.create (· = ' ') 100 (demoLines.flatMap Line.render) none = corpus)
    (indexed : File × Except Err Unit) (hindexed : Pipeline.indexPlain letters ⟨2, 2, true⟩ demoSchedule corpus.1 earlierFile = indexed)
    (pick : Nat → Nat → List Nat) (hp : Draws pick) :
    ∃ x, concordances pick (PlainText.corpus letters (numbered (documents (· = ' ') demoLines))) indexed.1.data
        (indexed.1.data.docsOfKey "text" (.text "c")) ([.key "text" (.text "a"), .key "text" (.text "c")]) 5 none "-" = .ok [x] ∧
      x.1 = .int 2 ∧ x.2.1 = 1 ∧ shownFor x.2.2 "text" (.text "c") = some (contexts 5 "-" (letters "a c") "c") ∧
      contexts 5 "-" (letters "a c") "c" ≠ [] ∧ shownFor x.2.2 "text" (.text "b") = none := by
  have main := text_file_concordance (· = ' ') 100 demoLines demoLines_ok _ (.inl rfl) (by decide +kernel)
    none letters ⟨2, 2, true⟩ demoSchedule demo_fair (fun _ => rfl) earlierFile earlierFile_usable pick hp "c" ["a", "c"] 5 "-" none
    (by intro k hk; cases hk)
  dsimp only at main
  rw [hcorpus, hindexed] at main
  obtain ⟨-, -, chosen, result, r1, -, r3, -, r5, r6⟩ := main
  rw [r3 rfl, (by decide +kernel : (numbered (documents (· = ' ') demoLines)).filter (fun d => "c" ∈ letters d.2) = [(2, "a c")])] at r5
  have hone : ∃ x, result = [x] ∧ x.1 = .int 2 ∧ x.2.1 = 1 := by
    cases result with
    | nil => cases r5
    | cons x l =>
      cases l with
      | nil =>
        simp only [List.map_cons, List.map_nil, List.cons.injEq, Prod.mk.injEq, and_true] at r5
        exact ⟨x, rfl, r5.1, r5.2⟩
      | cons y l => simp at r5
  obtain ⟨x, rfl, h1, h2⟩ := hone
  have hx := r6 x (by simp) (2, "a c") (by decide +kernel) h1
  refine ⟨x, r1, h1, h2, (hx "text" (.text "c") _).2 ⟨rfl, "c", by simp, rfl, by decide +kernel, rfl⟩, by decide +kernel, ?_⟩
  cases hb : shownFor x.2.2 "text" (.text "b") with
  | none => rfl
  | some texts =>
    obtain ⟨-, t, ht, e, -⟩ := (hx "text" (.text "b") texts).1 hb
    cases e
    simp at ht

end Hyperreal.Props
