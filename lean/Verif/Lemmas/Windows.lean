import Verif.Lemmas.ScorePassages
import Verif.Props.Indexing

namespace Hyperreal
open Spec Bitmap DB

theorem slice_eq {α : Type} (l : List α) : ∀ a b : Nat, (l.take b).drop a =
    ((List.range l.length).filter (fun j => a ≤ j ∧ j < b)).filterMap (fun j => l[j]?) := by
  induction l with
  | nil => simp
  | cons x l ih =>
    intro a b
    rw [List.length_cons, List.range_succ_eq_map, List.filter_cons]
    cases b with
    | zero => simp
    | succ b =>
      have hmap : ∀ c : Nat, ((List.range l.length).map Nat.succ).filter (fun j => decide (c ≤ j ∧ j < b + 1)) =
          ((List.range l.length).filter (fun j => decide (c - 1 ≤ j ∧ j < b))).map Nat.succ := by
        intro c
        rw [List.filter_map]
        congr 1
        apply List.filter_congr
        intro j _
        simp only [Function.comp]
        congr 1
        apply propext
        constructor <;> intro h <;> constructor <;> omega
      cases a with
      | zero =>
        rw [if_pos (by simp), hmap]
        have := ih 0 b
        rw [List.drop_zero] at this
        simp only [List.take_succ_cons, List.drop_zero, Nat.zero_sub, List.filterMap_cons, List.getElem?_cons_zero,
          List.filterMap_map]
        rw [this]
        rfl
      | succ a =>
        rw [if_neg (by simp), hmap, List.take_succ_cons, List.drop_succ_cons, ih a b, Nat.add_sub_cancel, List.filterMap_map]
        rfl

theorem window_eq (w : Nat) (vs : List (Option Val)) (i : Nat) : (vs.take (i + w + 1)).drop (i - w) = neighbourhood w vs i := by
  rw [slice_eq, neighbourhood]
  congr 1
  apply List.filter_congr
  intro j _
  congr 1
  apply propext
  constructor <;> intro h <;> constructor <;> omega

theorem windowLoop_spec (wanted : List Val) (w : Nat) (vs : List (Option Val)) (v : Val) : ∀ (rest : List (Option Val)) (i : Nat)
    (acc : Dict Val (List (List (Option Val)))), rest = vs.drop i →
    Dict.get? (windowLoop wanted w vs i rest acc) v =
      if v ∈ wanted ∧ some v ∈ rest then
        some ((Dict.get? acc v).getD [] ++ ((List.range' i rest.length).filter (fun j => vs[j]? = some (some v))).map
          (neighbourhood w vs))
      else Dict.get? acc v := by
  intro rest
  induction rest with
  | nil => intro i acc _; simp [windowLoop]
  | cons x rest ih =>
    intro i acc hr
    have hx : vs[i]? = some x := by
      have : (vs.drop i)[0]? = some x := by rw [← hr]; rfl
      rwa [List.getElem?_drop, Nat.add_zero] at this
    have hrest : rest = vs.drop (i + 1) := by
      have : (x :: rest).drop 1 = (vs.drop i).drop 1 := by rw [hr]
      rw [List.drop_drop] at this
      exact this
    rw [List.length_cons, List.range'_succ, List.filter_cons]
    have hskip : x ≠ some v → (v ∈ wanted ∧ some v ∈ x :: rest ↔ v ∈ wanted ∧ some v ∈ rest) ∧
        decide (vs[i]? = some (some v)) = false := by
      intro hne
      constructor
      · rw [List.mem_cons]
        constructor
        · rintro ⟨h1, h2 | h2⟩
          · exact absurd h2.symm hne
          · exact ⟨h1, h2⟩
        · rintro ⟨h1, h2⟩; exact ⟨h1, Or.inr h2⟩
      · simp [hx, hne]
    cases x with
    | none =>
      obtain ⟨h1, h2⟩ := hskip (by simp)
      rw [windowLoop, ih (i + 1) acc hrest, h2]
      simp only [h1]
      rfl
    | some y =>
      rw [windowLoop]
      by_cases hy : y ∈ wanted
      · rw [if_pos hy, ih (i + 1) _ hrest]
        by_cases hyv : y = v
        · subst hyv
          have hd : decide (vs[i]? = some (some y)) = true := by simp [hx]
          rw [hd, if_pos rfl, if_pos (c := y ∈ wanted ∧ some y ∈ some y :: rest) ⟨hy, List.mem_cons_self⟩, List.map_cons]
          have hg : Dict.get? (Dict.extend acc y [(vs.take (i + w + 1)).drop (i - w)]) y =
              some ((Dict.get? acc y).getD [] ++ [neighbourhood w vs i]) := by
            rw [Dict.extend, Dict.get?_set, if_pos rfl, window_eq]
          rw [hg]
          split
          · simp [List.append_assoc]
          · rename_i hc
            have : (List.range' (i + 1) rest.length).filter (fun j => decide (vs[j]? = some (some y))) = [] := by
              rw [List.filter_eq_nil_iff]
              intro j hj hjd
              simp only [decide_eq_true_eq] at hjd
              apply hc
              refine ⟨hy, ?_⟩
              rw [List.mem_range'_1] at hj
              rw [hrest]
              apply List.mem_of_getElem? (i := j - (i + 1))
              rw [List.getElem?_drop, show i + 1 + (j - (i + 1)) = j by omega]
              exact hjd
            rw [this]; rfl
        · obtain ⟨h1, h2⟩ := hskip (by simp [hyv])
          have hg : Dict.get? (Dict.extend acc y [(vs.take (i + w + 1)).drop (i - w)]) v = Dict.get? acc v := by
            rw [Dict.extend, Dict.get?_set, if_neg (fun h => hyv h.symm)]
          rw [hg, h2]
          simp only [h1]
          rfl
      · rw [if_neg hy, ih (i + 1) acc hrest]
        by_cases hyv : y = v
        · subst hyv
          rw [if_neg (fun h => hy h.1), if_neg (fun h => hy h.1)]
        · obtain ⟨h1, h2⟩ := hskip (by simp [hyv])
          rw [h2]
          simp only [h1]
          rfl

theorem windows_of_seq (wanted : List Val) (w : Nat) (vs : List (Option Val)) (v : Val) :
    Dict.get? (windowLoop wanted w vs 0 vs []) v =
      if v ∈ wanted ∧ some v ∈ vs then some ((occurrences vs v).map (neighbourhood w vs)) else none := by
  rw [windowLoop_spec wanted w vs v vs 0 [] rfl, occurrences, List.range_eq_range']
  simp

theorem windows_of_bag (v : Val) : ∀ (l : List Val) (acc : Dict Val (List (List (Option Val)))),
    (∀ x ys, Dict.get? acc x = some ys → ys = []) →
    Dict.get? (l.foldl (fun acc v => Dict.extend acc v []) acc) v = if v ∈ l then some [] else Dict.get? acc v := by
  intro l
  induction l with
  | nil => intro acc _; simp
  | cons a l ih =>
    intro acc h
    have hex : ∀ x, Dict.get? (Dict.extend acc a []) x = if x = a then some [] else Dict.get? acc x := by
      intro x
      rw [Dict.extend, Dict.get?_set]
      split
      · cases hg : Dict.get? acc a with
        | none => rfl
        | some ys => rw [h a ys hg]; rfl
      · rfl
    rw [List.foldl_cons, ih]
    · rw [hex]
      by_cases hv : v = a
      · subst hv; simp
      · simp [hv]
    · intro x ys hx
      rw [hex] at hx
      split at hx
      · simpa using hx.symm
      · exact h x ys hx

theorem wanted_spec (fvs : List (String × Val)) : ∀ acc : Dict String (List Val), acc.keys.Nodup →
    (fvs.foldl addWanted acc).keys.Nodup ∧
    ∀ field v, v ∈ (Dict.get? (fvs.foldl addWanted acc) field).getD [] ↔
      v ∈ (Dict.get? acc field).getD [] ∨ (field, v) ∈ fvs := by
  induction fvs with
  | nil => intro acc h; exact ⟨h, by simp⟩
  | cons fv fvs ih =>
    intro acc h
    obtain ⟨i1, i2⟩ := ih (addWanted acc fv) (Dict.nodup_set h _ _)
    refine ⟨i1, ?_⟩
    intro field v
    rw [List.foldl_cons, i2]
    have : v ∈ (Dict.get? (addWanted acc fv) field).getD [] ↔ v ∈ (Dict.get? acc field).getD [] ∨ (field, v) = fv := by
      rw [addWanted, Dict.get?_set]
      obtain ⟨f, u⟩ := fv
      by_cases hf : field = f
      · subst hf
        rw [if_pos rfl, Option.getD_some]
        simp only [Prod.mk.injEq, true_and]
        split
        · rename_i hin
          constructor
          · exact Or.inl
          · rintro (h | rfl)
            · exact h
            · exact hin
        · simp
      · rw [if_neg hf]
        simp [hf]
    rw [this, List.mem_cons, or_assoc]

theorem windowFeature_ok {db : DB} (hw : Wellformed db) (features : List FeatureRef) (h : Understood db features) :
    ∃ fvs, features.mapM (windowFeature db) = .ok fvs ∧ ∀ field v, (field, v) ∈ fvs ↔ Requested db features field v := by
  induction features with
  | nil => exact ⟨[], rfl, by simp [Requested]⟩
  | cons ref features ih =>
    obtain ⟨fvs, h1, h2⟩ := ih (fun r hr => h r (by simp [hr]))
    have href := h ref (by simp)
    cases ref with
    | range a b => exact href.elim
    | key f u =>
      refine ⟨(f, u) :: fvs, by rw [List.mapM_cons, h1]; rfl, ?_⟩
      intro field v
      rw [List.mem_cons, h2, Requested, Requested]
      simp only [List.mem_cons, Prod.mk.injEq, FeatureRef.key.injEq, reduceCtorEq, false_or]
      rw [or_assoc]
    | id f =>
      obtain ⟨r, hr, rfl⟩ := href
      have e : lookupFeature db r.fid = .ok (r.field, r.value) := by
        rw [lookupFeature, feature?_of_mem hw.featureIds hr]
      refine ⟨(r.field, r.value) :: fvs, ?_, ?_⟩
      · rw [List.mapM_cons, h1]
        show (lookupFeature db r.fid >>= fun x => _) = _
        rw [e]; rfl
      · intro field v
        rw [List.mem_cons, h2, Requested, Requested]
        simp only [List.mem_cons, Prod.mk.injEq, reduceCtorEq, false_or, FeatureRef.id.injEq]
        constructor
        · rintro (⟨rfl, rfl⟩ | h | ⟨r', h⟩)
          · exact Or.inr ⟨r, hr, Or.inl rfl, rfl, rfl⟩
          · exact Or.inl h
          · exact Or.inr ⟨r', h.1, Or.inr h.2.1, h.2.2⟩
        · rintro (h | ⟨r', h3, h4 | h4, h5⟩)
          · exact Or.inr (Or.inl h)
          · rw [feature_unique hw h3 hr h4] at h5
            exact Or.inl ⟨h5.1.symm, h5.2.symm⟩
          · exact Or.inr (Or.inr ⟨r', h3, h4, h5⟩)

theorem sortKeys_ok {ks : List Val} (h : Sortable ks) :
    sortKeys ks = .ok (ks.insertionSort (fun a b => Val.le a b = true)) := by
  rw [sortKeys, if_pos]
  rcases h with h | h
  · have : ks.all Val.isInt = true := List.all_eq_true.2 h
    rw [this]; rfl
  · have : ks.all (fun k => !k.isInt) = true := List.all_eq_true.2 (fun k hk => by simp [h k hk])
    rw [this]; simp

theorem sortKeys_err {ks : List Val} (h : ¬ Sortable ks) : sortKeys ks = .error .typeError := by
  rw [sortKeys, if_neg]
  intro hc
  apply h
  rw [Bool.or_eq_true, List.all_eq_true, List.all_eq_true] at hc
  rcases hc with hc | hc
  · exact Or.inl hc
  · exact Or.inr (fun k hk => by simpa using hc k hk)

theorem zip_map_self {α β : Type} (g : α → β) (l : List α) : l.zip (l.map g) = l.map (fun a => (a, g a)) := by
  induction l with
  | nil => rfl
  | cons a l ih => simp [ih]

variable {corpus : Corpus} {content : Val → Features} {db : DB}

/-- The documents of a query, in the order of their keys. -/
theorem indexedDocs_spec (hs : Serves corpus content) (hI : IsIndexOf corpus content db) (q : List Nat) (hn : q.Nodup)
    (hq : ∀ d ∈ q, d < corpus.keys.length)
    (hsort : Sortable (q.filterMap (fun d => corpus.keys[d]?))) :
    ∃ docs, indexedDocs corpus db q = .ok docs ∧ (docs.map (·.1)).Perm q ∧
      (∀ x ∈ docs, corpus.keys[x.1]? = some x.2.1 ∧ x.2.2 = content x.2.1) ∧
      (docs.map (·.2.1)).Pairwise (fun a b => Val.le a b = true) := by
  obtain ⟨a, -, b⟩ := Props.convertQuery_spec db q
  obtain ⟨r, hr⟩ := b (fun d hd => ⟨corpus.keys[d]'(hq d hd), (hI.docKeys _ _).2 (List.getElem?_eq_getElem (hq d hd))⟩)
  obtain ⟨a1, a2⟩ := a r hr
  have hkey : ∀ x ∈ r, corpus.keys[x.2]? = some x.1 := fun x hx => (hI.docKeys _ _).1 (a2 x hx)
  have hks : q.filterMap (fun d => corpus.keys[d]?) = r.map (·.1) := by
    rw [← a1, List.filterMap_map]
    clear a1 hr a2 hsort
    induction r with
    | nil => rfl
    | cons x r ih =>
      rw [List.filterMap_cons, List.map_cons, ← ih (fun y hy => hkey y (by simp [hy]))]
      simp only [Function.comp]
      rw [hkey x (by simp)]
  have hnd : (r.map (·.1)).Nodup := by
    have h2 : (r.map (·.2)).Nodup := by rw [a1]; exact hn
    refine List.pairwise_map.2 ((List.pairwise_map.1 h2).imp_of_mem ?_)
    intro x y hx hy hne e
    apply hne
    have hx' := hkey x hx
    have hy' := hkey y hy
    rw [← e] at hy'
    obtain ⟨l1, e1⟩ := List.getElem?_eq_some_iff.1 hx'
    obtain ⟨l2, e2⟩ := List.getElem?_eq_some_iff.1 hy'
    exact (List.Nodup.getElem_inj_iff hs.keys).1 (e1.trans e2.symm)
  rw [hks] at hsort
  set ks := (r.map (·.1)).insertionSort (fun a b => Val.le a b = true) with hksdef
  have hperm : ks.Perm (r.map (·.1)) := List.perm_insertionSort _ _
  have hmemk : ∀ k ∈ ks, k ∈ corpus.keys := by
    intro k hk
    obtain ⟨x, hx, rfl⟩ := List.mem_map.1 (hperm.mem_iff.1 hk)
    exact List.mem_of_getElem? (hkey x hx)
  have hget : ∀ k ∈ ks, ∃ d, Dict.get? r k = some d ∧ (k, d) ∈ r := by
    intro k hk
    obtain ⟨d, hd⟩ := (Dict.get?_isSome r k).2 (hperm.mem_iff.1 hk)
    exact ⟨d, hd, Dict.mem_of_get? hd⟩
  choose! D hD using hget
  have hmap := mapM_eq_map (fun x : Val × Features => (do let d ← Dict.getE r x.1; return (d, x.1, x.2) : Except Err _))
    (fun x => (D x.1, x.1, x.2)) (ks.map (fun k => (k, content k))) (by
      intro x hx
      obtain ⟨k, hk, rfl⟩ := List.mem_map.1 hx
      show (Dict.getE r k >>= fun d => _) = _
      rw [Dict.getE_eq _ _ _ (hD k hk).1]; rfl)
  refine ⟨ks.map (fun k => (D k, k, content k)), ?_, ?_, ?_, ?_⟩
  · rw [indexedDocs, hr]
    show (sortKeys (r.map (·.1)) >>= fun ks => _) = _
    rw [sortKeys_ok hsort]
    show (corpus.docs ks >>= fun docs => _) = _
    rw [hs.docs ks hmemk]
    show (ks.zip (ks.map content)).mapM _ = _
    rw [zip_map_self, hmap, List.map_map]; rfl
  · rw [List.map_map, ← a1]
    have : (r.map (·.2)).Perm ((r.map (·.1)).map D) := by
      rw [List.map_map]
      refine List.Perm.of_eq (List.map_congr_left ?_)
      intro x hx
      have hk : x.1 ∈ ks := hperm.mem_iff.2 (List.mem_map.2 ⟨x, hx, rfl⟩)
      have := Dict.get?_of_mem hnd (k := x.1) (v := x.2) hx
      rw [(hD x.1 hk).1] at this
      exact (Option.some.inj this).symm
    exact ((hperm.map D).trans this.symm)
  · intro x hx
    obtain ⟨k, hk, rfl⟩ := List.mem_map.1 hx
    exact ⟨hkey _ (hD k hk).2, rfl⟩
  · rw [List.map_map]
    have : (fun k => ((fun x : Nat × Val × Features => x.2.1) ∘ fun k => (D k, k, content k)) k) = (fun k => k) := rfl
    show (ks.map (fun k => k)).Pairwise _
    rw [List.map_id']
    haveI : Std.Total (fun a b : Val => Val.le a b = true) := ⟨Val.le_total⟩
    haveI : IsTrans Val (fun a b : Val => Val.le a b = true) := ⟨fun _ _ _ h1 h2 => Val.le_trans h1 h2⟩
    exact List.pairwise_insertionSort _ _

end Hyperreal
