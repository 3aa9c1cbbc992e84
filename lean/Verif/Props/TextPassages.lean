import Verif.Props.Concordance

/-! # C91: passages that are found can be rendered; passages of a text file -/

namespace Hyperreal.Props
open Atomic Spec Cli Migrate Serve PlainText

/-- Each document once, and none without passages. -/
structure FullEntries {κ β : Type} (d : Dict κ (List β)) : Prop where
  once : d.keys.Nodup
  some : ∀ e ∈ d, e.2 ≠ []

theorem full_nil {κ β : Type} : FullEntries ([] : Dict κ (List β)) := ⟨by simp [Dict.keys], by intro e he; cases he⟩

theorem full_extend {κ β : Type} [DecidableEq κ] {d : Dict κ (List β)} (h : FullEntries d) (k : κ) {l : List β} (hl : l ≠ []) :
    FullEntries (Dict.extend d k l) := by
  refine ⟨nodup_extend h.once k l, fun e he => ?_⟩
  unfold Dict.extend at he
  rcases Dict.mem_set he with h1 | rfl
  · exact h.some e h1
  · exact fun hx => hl (List.append_eq_nil_iff.1 hx).2

theorem walk_full (field : String) (docs bounds positions : Bitmap) (w : Nat) : ∀ (ps : List Nat) (st : Walk)
    (scores result : Dict Nat (List Passage)), FullEntries scores → walk field docs bounds positions w st ps scores = .ok result →
      FullEntries result := by
  intro ps
  induction ps with
  | nil =>
    intro st scores result h hr
    unfold walk at hr
    cases hr
    split
    · exact full_extend h _ (by simp)
    · exact h
  | cons p ps ih =>
    intro st scores result h hr
    unfold walk at hr
    split at hr
    · cases he : enterDoc docs bounds p with
      | error e => rw [he] at hr; cases hr
      | ok st' => rw [he] at hr; exact ih st' _ _ (full_extend h _ (by simp)) hr
    · split at hr
      · exact ih _ _ _ (full_extend h _ (by simp)) hr
      · exact ih _ _ _ h hr

theorem passagesOf_full (field : String) (docs bounds positions : Bitmap) (w : Nat) (result : Dict Nat (List Passage))
    (hr : passagesOf field docs bounds positions w = .ok result) : FullEntries result := by
  unfold passagesOf at hr
  cases he : positions.elems with
  | nil => rw [he] at hr; cases hr; exact full_nil
  | cons p ps =>
    rw [he] at hr
    dsimp only at hr
    cases hd : enterDoc docs bounds p with
    | error e => rw [hd] at hr; cases hr
    | ok st => rw [hd] at hr; exact walk_full _ _ _ _ _ _ _ _ _ full_nil hr

theorem scorePartition_full (arrange : List (Nat × List Nat) → List (Nat × List Nat)) (db : DB) (field : String) (first : Nat)
    (clauses : List (List Nat)) (w : Nat) (result : Dict Nat (List Passage))
    (hr : scorePartition arrange db field first clauses w = .ok result) : FullEntries result := by
  unfold scorePartition at hr
  cases hm : partitionHeader db field first with
  | error e => rw [hm] at hr; cases hr
  | ok m =>
    rw [hm] at hr
    replace hr : (match arrange (clauses.map (fun c => (clauseWeight db first c, c))) with
      | [] => Except.error Err.indexError
      | c :: cs => do
        let valid ← expandWindow (unionPositions db first c.2) m.bounds w
        match ← narrow db first m.bounds w (cs.map Prod.snd) (unionPositions db first c.2) valid with
        | none => .ok []
        | some (positions, valid) => passagesOf field m.docs m.bounds (positions ∩ valid) w) = .ok result := hr
    cases hc : arrange (clauses.map (fun c => (clauseWeight db first c, c))) with
    | nil => rw [hc] at hr; cases hr
    | cons c cs =>
      rw [hc] at hr
      dsimp only at hr
      cases hv : expandWindow (unionPositions db first c.2) m.bounds w with
      | error e => rw [hv] at hr; cases hr
      | ok valid =>
        rw [hv] at hr
        replace hr : (narrow db first m.bounds w (cs.map Prod.snd) (unionPositions db first c.2) valid >>= fun x => match x with
          | none => .ok []
          | some (positions, valid) => passagesOf field m.docs m.bounds (positions ∩ valid) w) = .ok result := hr
        cases hn : narrow db first m.bounds w (cs.map Prod.snd) (unionPositions db first c.2) valid with
        | error e => rw [hn] at hr; cases hr
        | ok x =>
          rw [hn] at hr
          cases x with
          | none => cases hr; exact full_nil
          | some x => exact passagesOf_full _ _ _ _ _ _ hr

theorem merge_full : ∀ (l : List (Dict Nat (List Passage))) (acc : Dict Nat (List Passage)), FullEntries acc →
    (∀ d ∈ l, FullEntries d) → FullEntries (l.foldl (fun acc scores => scores.foldl (fun acc e => acc.extend e.1 e.2) acc) acc) := by
  intro l
  induction l with
  | nil => intro acc h _; exact h
  | cons d l ih =>
    intro acc h hl
    refine ih _ ?_ (fun d' hd' => hl d' (List.mem_cons_of_mem _ hd'))
    have hd := (hl d (List.mem_cons_self ..)).some
    clear hl ih
    revert acc
    induction d with
    | nil => intro acc h; exact h
    | cons e d ih =>
      intro acc h
      exact ih (fun e' he' => hd e' (List.mem_cons_of_mem _ he')) _ (full_extend h _ (hd e (List.mem_cons_self ..)))

theorem mapM_ok_mem {α β : Type} (f : α → Except Err β) : ∀ (l : List α) (r : List β), l.mapM f = .ok r → ∀ b ∈ r, ∃ a ∈ l, f a = .ok b := by
  intro l
  induction l with
  | nil => intro r h b hb; cases h; cases hb
  | cons a l ih =>
    intro r h b hb
    rw [List.mapM_cons] at h
    cases ha : f a with
    | error e => rw [ha] at h; cases h
    | ok x =>
      rw [ha] at h
      cases hl : l.mapM f with
      | error e => rw [hl] at h; cases h
      | ok xs =>
        rw [hl] at h
        cases h
        rcases List.mem_cons.1 hb with rfl | hb
        · exact ⟨a, by simp, ha⟩
        · obtain ⟨a', h1, h2⟩ := ih xs hl b hb
          exact ⟨a', List.mem_cons_of_mem _ h1, h2⟩

theorem scorePassages_full (arrange : List (Nat × List Nat) → List (Nat × List Nat))
    (order : List (String × Nat × List (List Nat)) → List (String × Nat × List (List Nat))) (db : DB)
    (clauses : List (List FeatureRef)) (w : Nat) (result : Dict Nat (List Passage))
    (hr : scorePassages arrange order db clauses w = .ok result) : FullEntries result := by
  unfold scorePassages at hr
  cases hq : fieldClauses db clauses with
  | error e => rw [hq] at hr; cases hr
  | ok queries =>
    rw [hq] at hr
    replace hr : ((order (queries.flatMap (fun e => (fieldPartitions db e.1).map (fun first => (e.1, first, e.2))))).mapM
        (fun t => scorePartition arrange db t.1 t.2.1 t.2.2 w) >>= fun results =>
        pure (results.foldl (fun (acc : Dict Nat (List Passage)) scores => scores.foldl (fun acc e => acc.extend e.1 e.2) acc) [])) = .ok result := hr
    generalize order _ = tasks at hr
    cases hm : tasks.mapM (fun t => scorePartition arrange db t.1 t.2.1 t.2.2 w) with
    | error e => rw [hm] at hr; cases hr
    | ok results =>
      rw [hm] at hr
      cases hr
      refine merge_full results [] full_nil fun d hd => ?_
      obtain ⟨t, -, h⟩ := mapM_ok_mem _ _ _ hm d hd
      exact scorePartition_full _ _ _ _ _ _ _ h

/-- **C91.** In a corpus whose sequences hold texts and whose keys can be sorted, every passage search succeeds, and what it finds can be
rendered: one row for each document found, which has at least one passage. -/
theorem found_passages_render {corpus : Corpus} {content : Val → Features} {db : DB} (h : Searchable corpus content db)
    (htexts : ∀ k ∈ corpus.keys, ∀ field vs, (field, Values.seq vs) ∈ content k → ∃ ts : List String, vs = ts.map (fun t => some (.text t)))
    (hsort : Sortable corpus.keys) (arrange : List (Nat × List Nat) → List (Nat × List Nat)) (ha : ∀ l, (arrange l).Perm l)
    (order : List (String × Nat × List (List Nat)) → List (String × Nat × List (List Nat))) (ho : ∀ l, (order l).Perm l)
    (clauses : List (List FeatureRef)) (hk : ∀ c ∈ clauses, Known db c) (w : Nat)
    (keep : Nat → List Nat → List Nat) (later : List (Dict Nat (List Passage)) → List (Dict Nat (List Passage))) (hl : ∀ l, (later l).Perm l)
    (overhang batchSize : Nat) (hb : 0 < batchSize) :
    ∃ found rows, scorePassages arrange order db clauses w = .ok found ∧
      renderPassages keep later corpus db found overhang batchSize none = .ok rows ∧
      (rows.map (·.1)).Nodup ∧ (∀ d, d ∈ rows.map (·.1) ↔ ∃ field, passagesIn found field d ≠ []) ∧
      ∀ row ∈ rows, Renders corpus content overhang found row := by
  obtain ⟨found, f1, -, f3⟩ := passages_partial h arrange ha order ho clauses hk w
  have hfull := scorePassages_full arrange order db clauses w found f1
  have hget : ∀ e ∈ found, Dict.get? found e.1 = some e.2 := fun e he => Dict.get?_of_mem hfull.once he
  have hin : ∀ e ∈ found, ∀ p ∈ e.2, p ∈ passagesIn found p.field e.1 := by
    intro e he p hp
    unfold passagesIn
    rw [hget e he]
    simpa using hp
  have htok : ∀ e ∈ found, ∀ p ∈ e.2, ∃ vs, HasTokens corpus content p.field e.1 vs := by
    intro e he p hp
    obtain ⟨⟨c, -, ref, -, v, -, vs, h1, -⟩, -⟩ := f3 e.1 p.field p (hin e he p hp) p.start (.inl rfl)
    exact ⟨vs, h1⟩
  have hr : Renderable corpus content found := by
    refine ⟨hfull.once, ?_, ?_, ?_⟩
    · intro e he
      obtain ⟨p, hp⟩ := List.exists_mem_of_ne_nil _ (hfull.some e he)
      obtain ⟨vs, k, h1, -⟩ := htok e he p hp
      exact (List.getElem?_eq_some_iff.1 h1).1
    · intro e he p hp
      obtain ⟨vs, k, h1, h2⟩ := htok e he p hp
      obtain ⟨ts, rfl⟩ := htexts k (List.mem_of_getElem? h1) _ _ h2
      exact ⟨ts, k, h1, h2⟩
    · have : ∀ k ∈ found.keys.filterMap (fun d => corpus.keys[d]?), k ∈ corpus.keys := by
        intro k hk
        obtain ⟨d, -, e⟩ := List.mem_filterMap.1 hk
        exact List.mem_of_getElem? e
      rcases hsort with hx | hx
      · exact .inl fun k hk => hx k (this k hk)
      · exact .inr fun k hk => hx k (this k hk)
  obtain ⟨rows, r1, r2, r3⟩ := render_partial h.serves h.features keep later hl found hr overhang batchSize hb
  refine ⟨found, rows, f1, r1, (r2.nodup_iff).2 hfull.once, fun d => ?_, r3⟩
  rw [r2.mem_iff]
  constructor
  · intro hd
    obtain ⟨e, he, rfl⟩ := List.mem_map.1 hd
    obtain ⟨p, hp⟩ := List.exists_mem_of_ne_nil _ (hfull.some e he)
    exact ⟨p.field, List.ne_nil_of_mem (hin e he p hp)⟩
  · rintro ⟨field, hne⟩
    unfold passagesIn at hne
    cases hg : Dict.get? found d with
    | none => rw [hg] at hne; simp at hne
    | some ps => exact List.mem_map.2 ⟨(d, ps), Dict.mem_of_get? hg, rfl⟩

theorem text_content {docs : List (Nat × String)} (hn : (docs.map (·.1)).Nodup) (split : String → List String) (d : Nat × String) (hd : d ∈ docs) :
    plainContent split docs (.int d.1) = PlainText.features split d.2 := by
  unfold plainContent PlainText.indexed
  have : PlainText.asKey (Val.int (d.1 : Int)) = some d.1 := rfl
  rw [this]
  dsimp only
  rw [PlainText.docOf_unique _ hn _ hd]

/-- What `create` writes. -/
theorem text_file_corpus (space : Char → Bool) (limit : Nat) (ls : List Line) (hls : ∀ l ∈ ls, l.Ok limit)
    (file : List Char) (hfile : file = ls.flatMap Line.render ∨ file ++ ['\n'] = ls.flatMap Line.render) (old : PlainText.Db) :
    Pipeline.create space limit file old = (some (numbered (documents space ls)), .ok ()) := by
  obtain ⟨c1, c2⟩ := create_reads_partial space limit ls hls file hfile (Conn.fresh old) old ⟨rfl, rfl, rfl, rfl, rfl, rfl⟩
  unfold Pipeline.create
  cases hx : plaintextCreate space limit (fun _ => none) file (Conn.fresh old) with
  | mk c r =>
    rw [hx] at c1 c2
    dsimp only at c1 c2
    rw [c1]
    dsimp only
    congr 1
    exact c2.committed

/-- Where the words of an indexed text file stand. -/
theorem text_tokens {docs : List (Nat × String)} (hn : (docs.map (·.1)).Nodup) (split : String → List String) (field : String) (i o : Nat) (v : Val) :
    TokenAt (PlainText.corpus split docs) (plainContent split docs) field i o v ↔
      field = "text" ∧ ∃ d t, docs[i]? = some d ∧ (split d.2)[o]? = some t ∧ v = .text t := by
  have hget : (PlainText.corpus split docs).keys[i]? = (docs[i]?).map (fun d => Val.int d.1) := List.getElem?_map ..
  have hcontent := fun d hd => text_content hn split d hd
  unfold TokenAt HasTokens
  rw [hget]
  constructor
  · rintro ⟨vs, ⟨k, h1, h2⟩, h3⟩
    cases hx : docs[i]? with
    | none => rw [hx] at h1; cases h1
    | some d =>
      rw [hx] at h1
      cases h1
      replace h2 : (field, Values.seq vs) ∈ plainContent split docs (.int d.1) := h2
      rw [hcontent d (List.mem_of_getElem? hx)] at h2
      simp only [PlainText.features, List.mem_singleton, Prod.mk.injEq, Values.seq.injEq] at h2
      obtain ⟨rfl, rfl⟩ := h2
      rw [seq_get] at h3
      cases ht : (split d.2)[o]? with
      | none => rw [ht] at h3; cases h3
      | some t => rw [ht] at h3; cases h3; exact ⟨rfl, d, t, rfl, ht, rfl⟩
  · rintro ⟨rfl, d, t, hx, ht, rfl⟩
    refine ⟨(split d.2).map (fun t => some (.text t)), ⟨.int d.1, by rw [hx]; rfl, ?_⟩, by rw [seq_get, ht]; rfl⟩
    rw [hcontent d (List.mem_of_getElem? hx)]
    simp [PlainText.features]

/-- **C91, text file.**  After `create` and `index` with positions, a passage search for two different words of the file and the rendering of
what it finds: every line in which the words stand close together has a row, with a passage that covers both places; and the rows are
lines, each with the text of its passages, which, unless they end at the first token, are in lines where the words stand close together. -/
theorem text_file_passages_partial (space : Char → Bool) (limit : Nat) (ls : List Line) (hls : ∀ l ∈ ls, l.Ok limit)
    (file : List Char) (hfile : file = ls.flatMap Line.render ∨ file ++ ['\n'] = ls.flatMap Line.render)
    (hne : documents space ls ≠ []) (old : PlainText.Db) (split : String → List String)
    (cfg : IndexCfg) (hpositions : cfg.positions = true) (s : Schedule) (hf : Fair s) (hno : ∀ i, s.fault i = none) (f : File) (hu : Usable f)
    (arrange : List (Nat × List Nat) → List (Nat × List Nat)) (ha : ∀ l, (arrange l).Perm l)
    (order : List (String × Nat × List (List Nat)) → List (String × Nat × List (List Nat))) (ho : ∀ l, (order l).Perm l)
    (keep : Nat → List Nat → List Nat) (later : List (Dict Nat (List Passage)) → List (Dict Nat (List Passage))) (hl : ∀ l, (later l).Perm l)
    (w overhang batchSize : Nat) (hb : 0 < batchSize) (a b : String) (hab : a ≠ b)
    (hina : ∃ d ∈ documents space ls, a ∈ split d) (hinb : ∃ d ∈ documents space ls, b ∈ split d) :
    let docs := numbered (documents space ls)
    let corpus := Pipeline.create space limit file old
    let indexed := Pipeline.indexPlain split cfg s corpus.1 f
    corpus = (some docs, .ok ()) ∧ indexed.2 = .ok () ∧ ∃ found rows,
      scorePassages arrange order indexed.1.data [[.key "text" (.text a)], [.key "text" (.text b)]] w = .ok found ∧
      renderPassages keep later (PlainText.corpus split docs) indexed.1.data found overhang batchSize none = .ok rows ∧
      (rows.map (·.1)).Nodup ∧
      (∀ row ∈ rows, ∃ d ∈ docs, row.1 = d.1 - 1 ∧ row.2.1 = .int d.1 ∧ ∃ passages : List Passage, passages ≠ [] ∧
        Dict.get? row.2.2 "text" = some (.passages (passages.map (fun p => " ".intercalate (shown overhang (split d.2) p)))) ∧
        (∀ p ∈ passages, p.stop ≠ 0 → Near w (split d.2) a b) ∧
        ∀ o o', (split d.2)[o]? = some a → (split d.2)[o']? = some b → Close w o o' →
          ∃ p ∈ passages, p.start ≤ o ∧ o ≤ p.stop ∧ p.start ≤ o' ∧ o' ≤ p.stop ∧
            (1 ≤ overhang → a ∈ shown overhang (split d.2) p ∧ b ∈ shown overhang (split d.2) p)) ∧
      ∀ d ∈ docs, Near w (split d.2) a b → ∃ row ∈ rows, row.2.1 = .int d.1 := by
  intro docs corpus indexed
  obtain ⟨-, shown', S⟩ := text_file_source space limit ls hls file hfile hne old split cfg s
  have hcorpus := text_file_corpus space limit ls hls file hfile old
  obtain ⟨a1, hw, hI, hS⟩ := any_index S.serves cfg S.indexable S.nonempty s hf hno f hu
  rw [← S.indexes f] at a1 hw hI hS
  have hS := hS hpositions
  have htok := fun (field : String) (i o : Nat) (v : Val) => text_tokens (docs := docs) (numbered_keys _) split field i o v
  have hat : ∀ (i : Nat) d, docs[i]? = some d → d.1 = i + 1 := by
    intro i d h
    have := numbered_get (documents space ls) i
    rw [show (numbered (documents space ls))[i]? = some d from h] at this
    cases hx : (documents space ls)[i]? with
    | none => rw [hx] at this; cases this
    | some t => rw [hx] at this; cases this; rfl
  have hpos : ∀ d ∈ docs, docs[d.1 - 1]? = some d := by
    intro d hd
    obtain ⟨i, hi⟩ := List.getElem?_of_mem hd
    rw [hat i d hi]
    exact hi
  have hkeyat : ∀ (i : Nat) d, docs[i]? = some d → (PlainText.corpus split docs).keys[i]? = some (.int d.1) := by
    intro i d h
    rw [show (PlainText.corpus split docs).keys[i]? = (docs[i]?).map (fun d => Val.int d.1) from List.getElem?_map .., h]
    rfl
  set db := indexed.1.data with hdb
  have hrow : ∀ x, (∃ d ∈ documents space ls, x ∈ split d) → ∃ r ∈ db.features, r.field = "text" ∧ r.value = .text x := by
    rintro x ⟨t, ht, hx⟩
    obtain ⟨i, hi⟩ := List.getElem?_of_mem ht
    have hd : docs[i]? = some (i + 1, t) := by
      show (numbered (documents space ls))[i]? = _
      rw [numbered_get, hi]; rfl
    have hmem := (hI.lookup "text" (.text x) i).2 ((occurs_iff ..).2 ⟨_, hkeyat i _ hd,
      (S.has _ (List.mem_of_getElem? hd) "text" (.text x)).2 ⟨rfl, x, hx, rfl⟩⟩)
    rw [DB.docsOfKey] at hmem
    split at hmem
    · rename_i r hr
      have h := List.find?_some hr
      simp only [decide_eq_true_eq] at h
      exact ⟨r, List.mem_of_find?_eq_some hr, h⟩
    · simp at hmem
  have hknown : ∀ x, (∃ d ∈ documents space ls, x ∈ split d) → Known db [.key "text" (.text x)] := by
    intro x hx ref href
    rw [List.mem_singleton] at href
    subst href
    obtain ⟨r, h1, h2, h3⟩ := hrow x hx
    exact .inr ⟨r, h1, h2.symm, h3.symm⟩
  have hconcerns : ∀ x, (∃ d ∈ documents space ls, x ∈ split d) → Concerns db "text" [.key "text" (.text x)] := by
    intro x hx
    obtain ⟨r, h1, h2, h3⟩ := hrow x hx
    exact ⟨_, List.mem_singleton.2 rfl, .text x, r, h1, ⟨h2.symm, h3.symm⟩, h2, h3⟩
  have hmatch : ∀ x, (∃ d ∈ documents space ls, x ∈ split d) → ∀ field i o,
      MatchAt (PlainText.corpus split docs) (plainContent split docs) db field [.key "text" (.text x)] i o ↔
        field = "text" ∧ ∃ d, docs[i]? = some d ∧ (split d.2)[o]? = some x := by
    intro x hx field i o
    unfold MatchAt
    constructor
    · rintro ⟨ref, href, v, ⟨r, -, h2, rfl, rfl⟩, h4⟩
      rw [List.mem_singleton] at href
      subst href
      obtain ⟨e1, e2⟩ := h2
      obtain ⟨h5, d, t, h6, h7, h8⟩ := (htok _ _ _ _).1 h4
      rw [← e2] at h8
      cases h8
      exact ⟨h5, d, h6, h7⟩
    · rintro ⟨rfl, d, h1, h2⟩
      obtain ⟨r, g1, g2, g3⟩ := hrow x hx
      exact ⟨_, List.mem_singleton.2 rfl, .text x, ⟨r, g1, ⟨g2.symm, g3.symm⟩, g2, g3⟩, (htok _ _ _ _).2 ⟨rfl, d, x, h1, h2, rfl⟩⟩
  have hk : ∀ c ∈ [[FeatureRef.key "text" (.text a)], [FeatureRef.key "text" (.text b)]], Known db c := by
    intro c hc
    rcases List.mem_cons.1 hc with rfl | hc
    · exact hknown a hina
    · rw [List.mem_singleton] at hc
      subst hc
      exact hknown b hinb
  obtain ⟨found, rows, f1, r1, r2, r3, r4⟩ := found_passages_render hS (by
    intro k hk' field vs hvs
    obtain ⟨i, hi⟩ := List.getElem?_of_mem hk'
    refine ⟨vs.map (fun x => match x with | some (.text t) => t | _ => ""), ?_⟩
    rw [List.map_map]
    conv_lhs => rw [← List.map_id vs]
    apply List.map_congr_left
    intro x hx
    obtain ⟨o, ho⟩ := List.getElem?_of_mem hx
    cases x with
    | some v =>
      obtain ⟨-, d, t, -, -, rfl⟩ := (htok field i o v).1 ⟨vs, ⟨k, hi, hvs⟩, ho⟩
      rfl
    | none =>
      exfalso
      obtain ⟨d, hd, rfl⟩ := List.mem_map.1 (show k ∈ docs.map (fun d => Val.int d.1) from hk')
      rw [text_content (numbered_keys _) split d hd] at hvs
      simp only [PlainText.features, List.mem_singleton, Prod.mk.injEq, Values.seq.injEq] at hvs
      obtain ⟨-, rfl⟩ := hvs
      simp at hx) (by
    refine .inl fun k hk' => ?_
    obtain ⟨d, hd, rfl⟩ := List.mem_map.1 (show k ∈ docs.map (fun d => Val.int d.1) from hk')
    rfl) arrange ha order ho _ hk w keep later hl overhang batchSize hb
  obtain ⟨found', g1, g2, g3⟩ := passages_partial hS arrange ha order ho _ hk w
  cases f1.symm.trans g1
  obtain ⟨found', g4, g5⟩ := passages_two_clauses hS arrange ha order ho _ _ (hknown a hina) (hknown b hinb) w
  cases f1.symm.trans g4
  have hcover : ∀ d ∈ docs, ∀ o o', (split d.2)[o]? = some a → (split d.2)[o']? = some b → Close w o o' →
      ∃ p ∈ passagesIn found "text" (d.1 - 1), p.start ≤ o ∧ o ≤ p.stop ∧ p.start ≤ o' ∧ o' ≤ p.stop := by
    intro d hd o o' h1 h2 h3
    have hA := (hmatch a hina "text" (d.1 - 1) o).2 ⟨rfl, d, hpos d hd, h1⟩
    have hB := (hmatch b hinb "text" (d.1 - 1) o').2 ⟨rfl, d, hpos d hd, h2⟩
    have hne' : o ≠ o' := by
      rintro rfl
      rw [h1] at h2
      exact hab (Option.some.inj h2)
    have hT := g2 (d.1 - 1) "text" {o, o'} (by
      intro x hx
      rcases Finset.mem_insert.1 hx with rfl | hx
      · exact ⟨_, by simp, hA⟩
      · rw [Finset.mem_singleton] at hx; subst hx; exact ⟨_, by simp, hB⟩) (by
      intro c hc _
      rcases List.mem_cons.1 hc with rfl | hc
      · exact ⟨o, by simp, hA⟩
      · rw [List.mem_singleton] at hc; subst hc; exact ⟨o', by simp, hB⟩) (by
      intro x hx y hy
      obtain ⟨c1, c2⟩ := h3
      simp only [Finset.mem_insert, Finset.mem_singleton] at hx hy
      unfold Close
      rcases hx with rfl | rfl <;> rcases hy with rfl | rfl <;> omega)
    rcases Nat.lt_or_gt_of_ne hne' with hlt | hgt
    · obtain ⟨p, p1, p2, p3⟩ := hT o (by simp) o' (by simp) hlt
      exact ⟨p, p1, p2, by omega, by omega, p3⟩
    · obtain ⟨p, p1, p2, p3⟩ := hT o' (by simp) o (by simp) hgt
      exact ⟨p, p1, by omega, p3, p2, by omega⟩
  refine ⟨hcorpus, a1, found, rows, f1, r1, r2, ?_, ?_⟩
  · intro row hrow'
    obtain ⟨field, hf1⟩ := (r3 row.1).1 (List.mem_map.2 ⟨row, hrow', rfl⟩)
    obtain ⟨p, hp⟩ := List.exists_mem_of_ne_nil _ hf1
    obtain ⟨⟨c, hc, hm⟩, -⟩ := g3 row.1 field p hp p.start (.inl rfl)
    have hd : field = "text" ∧ ∃ d, docs[row.1]? = some d := by
      rcases List.mem_cons.1 hc with rfl | hc
      · obtain ⟨e, d, h, -⟩ := (hmatch a hina _ _ _).1 hm; exact ⟨e, d, h⟩
      · rw [List.mem_singleton] at hc
        subst hc
        obtain ⟨e, d, h, -⟩ := (hmatch b hinb _ _ _).1 hm
        exact ⟨e, d, h⟩
    obtain ⟨rfl, d, hd⟩ := hd
    have hid := hat _ _ hd
    have hmem := List.mem_of_getElem? hd
    have hkey := (r4 row hrow').key
    rw [hkeyat _ _ hd] at hkey
    have hid' : row.1 = d.1 - 1 := by omega
    refine ⟨d, hmem, hid', (Option.some.inj hkey).symm, passagesIn found "text" row.1, hf1, ?_, ?_, ?_⟩
    · refine (r4 row hrow').passages "text" (split d.2) ⟨.int d.1, hkeyat _ _ hd, ?_⟩ hf1
      rw [text_content (numbered_keys _) split d hmem]
      simp [PlainText.features]
    · intro p hp hstop
      obtain ⟨o, o', h1, h2, h3⟩ := g5 row.1 "text" (hconcerns a hina) (hconcerns b hinb) p hp hstop
      obtain ⟨-, d1, e1, h1⟩ := (hmatch a hina _ _ _).1 h1
      obtain ⟨-, d2, e2, h2⟩ := (hmatch b hinb _ _ _).1 h2
      rw [hd] at e1 e2
      cases e1
      cases e2
      exact ⟨o, o', h1, h2, h3⟩
    · intro o o' h1 h2 h3
      rw [hid']
      obtain ⟨p, p1, p2, p3, p4, p5⟩ := hcover d hmem o o' h1 h2 h3
      exact ⟨p, p1, p2, p3, p4, p5, fun ho' => ⟨shown_complete overhang ho' _ p o a p2 p3 h1, shown_complete overhang ho' _ p o' b p4 p5 h2⟩⟩
  · rintro d hd ⟨o, o', h1, h2, h3⟩
    obtain ⟨p, hp, -⟩ := hcover d hd o o' h1 h2 h3
    obtain ⟨row, hrow', e⟩ := List.mem_map.1 ((r3 (d.1 - 1)).2 ⟨"text", List.ne_nil_of_mem hp⟩)
    refine ⟨row, hrow', ?_⟩
    have hkey := (r4 row hrow').key
    rw [e, hkeyat _ _ (hpos d hd)] at hkey
    exact (Option.some.inj hkey).symm

/-- Three lines: a search for "a" next to "b" finds the line "b a", the first, and shows both letters. -/
example (corpus : PlainText.Db × Except Err Unit) (hcorpus : Pipeline.create (· = ' ') 100 (demoLines.flatMap Line.render) none = corpus)
    (indexed : File × Except Err Unit) (hindexed : Pipeline.indexPlain letters ⟨2, 2, true⟩ demoSchedule corpus.1 earlierFile = indexed) :
    ∃ found rows, scorePassages id List.reverse indexed.1.data [[.key "text" (.text "a")], [.key "text" (.text "b")]] 1 = .ok found ∧
      renderPassages (fun _ l => l) id (PlainText.corpus letters (numbered (documents (· = ' ') demoLines))) indexed.1.data found 2 1 none = .ok rows ∧
      ∃ row ∈ rows, row.1 = 0 ∧ row.2.1 = .int 1 ∧ ∃ passages : List Passage,
        Dict.get? row.2.2 "text" = some (.passages (passages.map (fun p => " ".intercalate (shown 2 (letters "b a") p)))) ∧
        ∃ p ∈ passages, "a" ∈ shown 2 (letters "b a") p ∧ "b" ∈ shown 2 (letters "b a") p := by
  have main := text_file_passages_partial (· = ' ') 100 demoLines demoLines_ok _ (.inl rfl) (by decide +kernel)
    none letters ⟨2, 2, true⟩ rfl demoSchedule demo_fair (fun _ => rfl) earlierFile earlierFile_usable id (fun _ => .refl _)
    List.reverse List.reverse_perm (fun _ l => l) id (fun _ => .refl _) 1 2 1 (by decide) "a" "b" (by decide)
    (by decide +kernel) (by decide +kernel)
  dsimp only at main
  rw [hcorpus, hindexed] at main
  obtain ⟨-, -, found, rows, r1, r2, -, r4, r5⟩ := main
  have hd : ((1, "b a") : Nat × String) ∈ numbered (documents (· = ' ') demoLines) := by decide +kernel
  have hnear : (letters "b a")[1]? = some "a" ∧ (letters "b a")[0]? = some "b" := by decide +kernel
  obtain ⟨row, hrow, hkey⟩ := r5 _ hd ⟨1, 0, hnear.1, hnear.2, by decide, by decide⟩
  obtain ⟨d, hd', h1, h2, passages, -, h3, -, h4⟩ := r4 row hrow
  have hd1 : d = (1, "b a") := by
    rw [h2] at hkey
    have hn := (by decide +kernel : ∀ d ∈ numbered (documents (· = ' ') demoLines), d.1 = 1 → d = (1, "b a"))
    refine hn d hd' ?_
    simpa using hkey
  subst hd1
  obtain ⟨p, hp, -, -, -, -, hboth⟩ := h4 1 0 hnear.1 hnear.2 ⟨by decide, by decide⟩
  exact ⟨found, rows, r1, r2, row, hrow, h1, h2, passages, h3, p, hp, hboth (by decide)⟩

end Hyperreal.Props
