import Verif.Lemmas.Windows

namespace Hyperreal
open Spec Bitmap DB

variable {corpus : Corpus} {content : Val → Features} {db : DB}

theorem slice_shown (overhang : Nat) (ts : List String) (p : Passage) :
    (ts.take (p.stop + overhang)).drop (p.start - overhang) = shown overhang ts p := by
  rw [slice_eq, shown]
  congr 1
  apply List.filter_congr
  intro j _
  congr 1
  apply propext
  constructor <;> intro h <;> constructor <;> omega

theorem joinTokens_ok (ts : List String) : joinTokens (ts.map (fun t => some (.text t))) = .ok (" ".intercalate ts) := by
  rw [joinTokens]
  have : (ts.map (fun t => some (Val.text t))).mapM itemText = (.ok ts : Except Err _) := by
    induction ts with
    | nil => rfl
    | cons a ts ih => rw [List.map_cons, List.mapM_cons, ih]; rfl
  rw [this]; rfl

theorem passageText_ok (overhang : Nat) (doc : Features) (p : Passage) (ts : List String)
    (h : Dict.get? doc p.field = some (.seq (ts.map (fun t => some (.text t))))) :
    passageText overhang doc p = .ok (" ".intercalate (shown overhang ts p)) := by
  rw [passageText, h]
  show joinTokens ((List.take _ (ts.map (fun t => some (Val.text t)))).drop _) = _
  rw [← List.map_take, ← List.map_drop, joinTokens_ok, slice_shown]

theorem get?_passageRow (doc : Features) (hn : (Dict.keys doc).Nodup) (texts : Dict String (List String)) (ht : texts.keys.Nodup)
    (field : String) :
    Dict.get? (passageRow doc texts) field =
      match Dict.get? texts field with
      | some l => some (.passages l)
      | none => match Dict.get? doc field with
        | some (.bag vs) => some (.values vs)
        | _ => none := by
  have hbase : Dict.get? (doc.filterMap (fun e => match e.2 with
      | .bag vs => some (e.1, RowCell.values vs)
      | .seq _ => none) : Dict String RowCell) field = match Dict.get? doc field with
        | some (.bag vs) => some (.values vs)
        | _ => none := by
    clear ht
    induction doc with
    | nil => rfl
    | cons e doc ih =>
      rw [Dict.keys, List.map_cons, List.nodup_cons] at hn
      have ih := ih hn.2
      obtain ⟨f, v⟩ := e
      rw [Dict.get?_cons, List.filterMap_cons]
      cases v with
      | bag vs =>
        simp only [Dict.get?_cons]
        split
        · rfl
        · exact ih
      | seq vs =>
        simp only
        rw [ih]
        by_cases hf : f = field
        · subst hf
          have : Dict.get? doc f = none := (Dict.get?_eq_none _ _).2 hn.1
          rw [this, if_pos rfl]
        · rw [if_neg hf]
  rw [passageRow]
  generalize (doc.filterMap (fun e => match e.2 with
      | .bag vs => some (e.1, RowCell.values vs)
      | .seq _ => none) : Dict String RowCell) = base at hbase
  rw [← hbase]
  clear hbase hn
  induction texts generalizing base with
  | nil => rfl
  | cons e texts ih =>
    rw [Dict.keys, List.map_cons, List.nodup_cons] at ht
    rw [List.foldl_cons, ih ht.2, Dict.get?_set, Dict.get?_cons]
    by_cases hf : e.1 = field
    · subst hf
      have : Dict.get? texts e.1 = none := (Dict.get?_eq_none _ _).2 ht.1
      rw [this]; simp
    · rw [if_neg (fun h => hf h.symm), if_neg hf]

theorem byField_spec (ps : List Passage) (T : Passage → String) (field : String) :
    let d := (ps.zip (ps.map T)).foldl (fun (acc : Dict String (List String)) pt => acc.extend pt.1.field [pt.2]) []
    d.keys.Nodup ∧ Dict.get? d field = if (ps.filter (fun p => p.field = field)) = [] then none
      else some ((ps.filter (fun p => p.field = field)).map T) := by
  rw [zip_map_self]
  simp only
  have hkeys : ∀ (l : List Passage) (acc : Dict String (List String)), acc.keys.Nodup →
      ((l.map (fun a => (a, T a))).foldl (fun (acc : Dict String (List String)) pt => acc.extend pt.1.field [pt.2]) acc).keys.Nodup ∧
      (field ∈ ((l.map (fun a => (a, T a))).foldl (fun (acc : Dict String (List String)) pt => acc.extend pt.1.field [pt.2]) acc).keys ↔
        field ∈ acc.keys ∨ ∃ p ∈ l, p.field = field) := by
    intro l
    induction l with
    | nil => intro acc h; exact ⟨h, by simp⟩
    | cons p l ih =>
      intro acc h
      obtain ⟨i1, i2⟩ := ih (acc.extend p.field [T p]) (nodup_extend h _ _)
      refine ⟨i1, ?_⟩
      rw [List.map_cons, List.foldl_cons, i2, keys_extend]
      constructor
      · rintro ((rfl | h) | ⟨p', h, e⟩)
        · exact Or.inr ⟨p, by simp, rfl⟩
        · exact Or.inl h
        · exact Or.inr ⟨p', by simp [h], e⟩
      · rintro (h | ⟨p', h, e⟩)
        · exact Or.inl (Or.inr h)
        · rcases List.mem_cons.1 h with rfl | h
          · exact Or.inl (Or.inl e.symm)
          · exact Or.inr ⟨p', h, e⟩
  obtain ⟨k1, k2⟩ := hkeys ps [] (by simp [Dict.keys])
  refine ⟨k1, ?_⟩
  have hg := get?_foldl_extend (fun pt : Passage × String => pt.1.field) (fun pt => [pt.2]) field (ps.map (fun a => (a, T a)))
    ([] : Dict String (List String))
  simp only [Dict.get?_nil, Option.getD_none, List.nil_append, List.flatMap_map] at hg
  have hflat : ps.flatMap (fun a => if field = a.field then [T a] else []) = (ps.filter (fun p => p.field = field)).map T := by
    clear hg k1 k2
    induction ps with
    | nil => rfl
    | cons p ps ih =>
      rw [List.flatMap_cons, ih, List.filter_cons]
      by_cases h : field = p.field
      · simp [h]
      · simp [h, Ne.symm h]
  rw [hflat] at hg
  split
  · rename_i he
    rw [Dict.get?_eq_none, k2]
    rintro (h | ⟨p, hp, e⟩)
    · simp [Dict.keys] at h
    · have : p ∈ ps.filter (fun p => decide (p.field = field)) := List.mem_filter.2 ⟨hp, by simp [e]⟩
      rw [he] at this
      simp at this
  · rename_i he
    obtain ⟨p, hp⟩ := List.exists_mem_of_ne_nil _ he
    obtain ⟨hp1, hp2⟩ := List.mem_filter.1 hp
    obtain ⟨v, hv⟩ := (Dict.get?_isSome _ _).2 (k2.2 (Or.inr ⟨p, hp1, by simpa using hp2⟩))
    rw [hv] at hg ⊢
    simp only [Option.getD_some] at hg
    rw [hg]

theorem constructDoc_ok (hs : Serves corpus content) (overhang : Nat) (scored : Dict Nat (List Passage))
    (hr : Renderable corpus content scored) (x : Nat × Val × Features) (hx1 : x.1 ∈ scored.keys)
    (hx2 : corpus.keys[x.1]? = some x.2.1) (hx3 : x.2.2 = content x.2.1) :
    ∃ row, constructDoc overhang scored x = .ok row ∧ row.1 = x.1 ∧ Renders corpus content overhang scored row := by
  obtain ⟨ps, hps⟩ := (Dict.get?_isSome _ _).2 hx1
  have hmem := Dict.mem_of_get? hps
  have hkey : x.2.1 ∈ corpus.keys := List.mem_of_getElem? hx2
  have hnod : (Dict.keys (content x.2.1)).Nodup := hs.fields _ hkey
  have htext : ∀ p ∈ ps, ∃ ts, HasText corpus content p.field x.1 ts ∧
      Dict.get? x.2.2 p.field = some (.seq (ts.map (fun t => some (.text t)))) := by
    intro p hp
    obtain ⟨ts, hts⟩ := hr.text _ hmem p hp
    refine ⟨ts, hts, ?_⟩
    obtain ⟨k, h1, h2⟩ := hts
    rw [hx2, Option.some.injEq] at h1
    subst h1
    rw [hx3]
    exact Dict.get?_of_mem hnod h2
  choose! TS hTS using htext
  have hmap := mapM_eq_map (passageText overhang x.2.2) (fun p => " ".intercalate (shown overhang (TS p) p)) ps
    (fun p hp => passageText_ok overhang x.2.2 p (TS p) (hTS p hp).2)
  refine ⟨_, by rw [constructDoc, Dict.getE_eq _ _ _ hps]; show (ps.mapM (passageText overhang x.2.2) >>= fun texts => _) = _; rw [hmap]; rfl,
    rfl, ⟨hx2, ?_, ?_, ?_⟩⟩
  all_goals
    have hrow := fun field => get?_passageRow x.2.2 (by rw [hx3]; exact hnod) _
      (byField_spec ps (fun p => " ".intercalate (shown overhang (TS p) p)) field).1 field
    have hby := fun field => (byField_spec ps (fun p => " ".intercalate (shown overhang (TS p) p)) field).2
    have hpin : ∀ field, passagesIn scored field x.1 = ps.filter (fun p => p.field = field) := by
      intro field; rw [passagesIn, hps]; rfl
  · intro field ts hts hne
    simp only at hne ⊢
    rw [hpin] at hne ⊢
    have := hrow field
    rw [hby field, if_neg hne] at this
    rw [this]
    show some (RowCell.passages _) = some (RowCell.passages _)
    congr 2
    apply List.map_congr_left
    intro p hp
    obtain ⟨hp1, hp2⟩ := List.mem_filter.1 hp
    simp only [decide_eq_true_eq] at hp2
    have h1 := (hTS p hp1).1
    rw [hp2] at h1
    have h2 := hasTokens_unique hs hts h1
    have : ts = TS p := by
      have hinj : Function.Injective (fun t : String => some (Val.text t)) := by
        intro a b h; simpa using h
      exact hinj.list_map h2
    rw [this]
  · intro field vs hvs
    simp only at hvs ⊢
    have hget : Dict.get? x.2.2 field = some (.bag vs) := by rw [hx3]; exact Dict.get?_of_mem hnod hvs
    have hno : ps.filter (fun p => decide (p.field = field)) = [] := by
      rw [List.filter_eq_nil_iff]
      intro p hp e
      simp only [decide_eq_true_eq] at e
      have := (hTS p hp).2
      rw [e, hget] at this
      cases this
    have := hrow field
    rw [hby field, if_pos hno, hget] at this
    exact this
  · intro field hno hempty
    simp only at hno hempty ⊢
    rw [hpin] at hempty
    have := hrow field
    rw [hby field, if_pos hempty] at this
    rw [this]
    cases hget : Dict.get? x.2.2 field with
    | none => rfl
    | some v =>
      cases v with
      | seq vs => rfl
      | bag vs =>
        have := Dict.mem_of_get? hget
        rw [hx3] at this
        exact absurd this (hno vs)

theorem constructPassages_ok (hs : Serves corpus content) (hI : IsIndexOf corpus content db) (overhang : Nat)
    (scored : Dict Nat (List Passage)) (hr : Renderable corpus content scored) :
    ∃ rows, constructPassages corpus db scored overhang = .ok rows ∧ (rows.map (·.1)).Perm scored.keys ∧
      ∀ row ∈ rows, Renders corpus content overhang scored row := by
  obtain ⟨docs, h1, h2, h3, -⟩ := indexedDocs_spec hs hI scored.keys hr.once
    (fun d hd => by obtain ⟨e, he, rfl⟩ := List.mem_map.1 hd; exact hr.known e he) hr.sortable
  have hex : ∀ x ∈ docs, ∃ row, constructDoc overhang scored x = .ok row ∧ row.1 = x.1 ∧
      Renders corpus content overhang scored row := by
    intro x hx
    have hk : x.1 ∈ scored.keys := h2.mem_iff.1 (List.mem_map.2 ⟨x, hx, rfl⟩)
    exact constructDoc_ok hs overhang scored hr x hk (h3 x hx).1 (h3 x hx).2
  haveI : Nonempty (Nat × Val × Dict String RowCell) := ⟨(0, .int 0, [])⟩
  choose! R hR using hex
  refine ⟨docs.map R, ?_, ?_, ?_⟩
  · rw [constructPassages]
    show (indexedDocs corpus db scored.keys >>= fun docs => _) = _
    rw [h1]
    exact mapM_eq_map _ R docs (fun x hx => (hR x hx).1)
  · rw [List.map_map]
    refine List.Perm.trans (List.Perm.of_eq ?_) h2
    apply List.map_congr_left
    intro x hx
    exact (hR x hx).2.1
  · intro row hrow
    obtain ⟨x, hx, rfl⟩ := List.mem_map.1 hrow
    exact (hR x hx).2.2

theorem chunks_flatten {α : Type} (size : Nat) (hsz : 0 < size) : ∀ (n : Nat) (l : List α), l.length ≤ n →
    (chunks size n l).flatten = l := by
  intro n
  induction n with
  | zero => intro l h; have : l = [] := List.length_eq_zero_iff.1 (by omega); subst this; rfl
  | succ n ih =>
    intro l h
    cases l with
    | nil => rfl
    | cons a l =>
      show ((a :: l).take size :: chunks size n ((a :: l).drop size)).flatten = _
      rw [List.flatten_cons, ih _ (by simp only [List.length_drop, List.length_cons] at h ⊢; omega)]
      exact List.take_append_drop _ _

theorem mem_chunks {α : Type} {size n : Nat} {l b : List α} (hb : b ∈ chunks size n l) : b.Sublist l := by
  induction n generalizing l with
  | zero => simp [chunks] at hb
  | succ n ih =>
    cases l with
    | nil => simp [chunks] at hb
    | cons a l =>
      have hb : b ∈ (a :: l).take size :: chunks size n ((a :: l).drop size) := hb
      rcases List.mem_cons.1 hb with rfl | hb
      · exact List.take_sublist _ _
      · exact (ih hb).trans (List.drop_sublist _ _)

theorem renderable_sub {scored b : Dict Nat (List Passage)} (hr : Renderable corpus content scored) (hn : b.keys.Nodup)
    (hs : ∀ e ∈ b, e ∈ scored) : Renderable corpus content b := by
  refine ⟨hn, fun e he => hr.known e (hs e he), fun e he => hr.text e (hs e he), ?_⟩
  have hsub : ∀ k ∈ b.keys.filterMap (fun d => corpus.keys[d]?), k ∈ scored.keys.filterMap (fun d => corpus.keys[d]?) := by
    intro k hk
    obtain ⟨d, hd, e⟩ := List.mem_filterMap.1 hk
    obtain ⟨x, hx, rfl⟩ := List.mem_map.1 hd
    exact List.mem_filterMap.2 ⟨x.1, List.mem_map.2 ⟨x, hs x hx, rfl⟩, e⟩
  rcases hr.sortable with h | h
  · exact Or.inl (fun k hk => h k (hsub k hk))
  · exact Or.inr (fun k hk => h k (hsub k hk))

theorem renders_of_eq {overhang : Nat} {scored b : Dict Nat (List Passage)} {row : Nat × Val × Dict String RowCell}
    (h : Renders corpus content overhang b row) (e : Dict.get? b row.1 = Dict.get? scored row.1) :
    Renders corpus content overhang scored row := by
  have hp : ∀ field, passagesIn b field row.1 = passagesIn scored field row.1 := by
    intro field; rw [passagesIn, passagesIn, e]
  refine ⟨h.key, ?_, h.sets, ?_⟩
  · intro field ts ht hne; rw [← hp] at hne ⊢; exact h.passages field ts ht hne
  · intro field hno he; rw [← hp] at he; exact h.others field hno he

end Hyperreal
