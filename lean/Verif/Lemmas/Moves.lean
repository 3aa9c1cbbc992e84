import Verif.Lemmas.Heap
import Verif.Lemmas.Dict
import Verif.Lemmas.Scoring

/-! Lemmas about `scoreProposedMoves` and `findBestMoves`. -/

namespace Hyperreal
open Spec

variable {σ κ : Type} [LinearOrder σ] [LinearOrder κ]

theorem bind_ok {α β : Type} {x : Except Err α} {f : α → Except Err β} {b : β} (h : (x >>= f) = .ok b) :
    ∃ a, x = .ok a ∧ f a = .ok b := by
  cases x with
  | error e => cases h
  | ok a => exact ⟨a, rfl, h⟩

theorem bind_err {α β : Type} {x : Except Err α} {f : α → Except Err β} {e : Err} (h : (x >>= f) = .error e) :
    x = .error e ∨ ∃ a, x = .ok a ∧ f a = .error e := by
  cases x with
  | error e' => left; simpa [bind, Except.bind] using h
  | ok a => exact Or.inr ⟨a, rfl, h⟩

theorem mapM_ok {α β : Type} {f : α → Except Err β} : ∀ {l : List α} {bs : List β}, l.mapM f = .ok bs →
    List.Forall₂ (fun a b => f a = .ok b) l bs
  | [], bs, h => by
    simp only [List.mapM_nil, pure, Except.pure, Except.ok.injEq] at h
    subst h; exact .nil
  | a :: l, bs, h => by
    rw [List.mapM_cons] at h
    obtain ⟨b, hb, h⟩ := bind_ok h
    obtain ⟨bs', hbs, h⟩ := bind_ok h
    simp only [pure, Except.pure, Except.ok.injEq] at h
    subst h
    exact .cons hb (mapM_ok hbs)

theorem mapM_err {α β : Type} {f : α → Except Err β} : ∀ {l : List α} {e : Err}, l.mapM f = .error e →
    ∃ a ∈ l, f a = .error e
  | [], e, h => by cases h
  | a :: l, e, h => by
    rw [List.mapM_cons] at h
    rcases bind_err h with h | ⟨b, _, h⟩
    · exact ⟨a, by simp, h⟩
    · rcases bind_err h with h | ⟨bs, _, h⟩
      · obtain ⟨x, hx, he⟩ := mapM_err h
        exact ⟨x, by simp [hx], he⟩
      · cases h

theorem get?_recordScore (k : Nat) (t : κ) (b : Dict Nat (List (σ ×ₗ κ))) (x : Nat × σ) (g : Nat) :
    (recordScore k t b x).get? g =
      if g = x.1 then some (keepBest k ((b.get? x.1).getD []) (toLex (x.2, t))) else b.get? g := by
  simp only [recordScore, Dict.get?_set, keepBest]

/-- All scores in the order in which they are read. -/
def flatScores (results : List (κ × Contribution σ)) : List (κ × (Nat × σ)) :=
  results.flatMap (fun r => r.2.scores.map (fun x => (r.1, x)))

omit [LinearOrder σ] [LinearOrder κ] in
theorem foldl_flatScores {β : Type} (g : κ → β → Nat × σ → β) (results : List (κ × Contribution σ)) : ∀ b : β,
    results.foldl (fun b r => r.2.scores.foldl (g r.1) b) b = (flatScores results).foldl (fun b x => g x.1 b x.2) b := by
  induction results with
  | nil => intro b; rfl
  | cons r rs ih =>
    intro b
    simp only [flatScores, List.flatMap_cons, List.foldl_append, List.foldl_cons]
    rw [ih]
    congr 1
    rw [List.foldl_map]

theorem get?_bestFold (k : Nat) (L : List (κ × (Nat × σ))) (f : Nat) : ∀ b : Dict Nat (List (σ ×ₗ κ)),
    (L.foldl (fun b x => recordScore k x.1 b x.2) b).get? f =
      if L.filter (fun x => x.2.1 = f) = [] then b.get? f
      else some (((L.filter (fun x => x.2.1 = f)).map (fun x => toLex (x.2.2, x.1))).foldl (keepBest k)
        ((b.get? f).getD [])) := by
  induction L with
  | nil => intro b; simp
  | cons x L ih =>
    intro b
    rw [List.foldl_cons, ih, get?_recordScore]
    by_cases hx : x.2.1 = f
    · rw [List.filter_cons_of_pos (by simpa using hx), if_pos hx.symm]
      simp only [List.map_cons, List.foldl_cons, reduceCtorEq, if_false, Option.getD_some, hx]
      by_cases hL : L.filter (fun x => x.2.1 = f) = []
      · simp [hL]
      · simp [hL]
    · have hx' : f ≠ x.2.1 := fun h => hx h.symm
      rw [List.filter_cons_of_neg (by simpa using hx), if_neg hx']

theorem get?_map_values {α β γ : Type} [DecidableEq α] (g : β → γ) (d : Dict α β) (k : α) :
    Dict.get? (d.map (fun e => (e.1, g e.2))) k = (d.get? k).map g := by
  induction d with
  | nil => rfl
  | cons e d ih =>
    rw [List.map_cons, Dict.get?_cons, Dict.get?_cons]
    by_cases h : e.1 = k
    · simp [h]
    · simp only [h, if_false]; exact ih

theorem keys_map_values {α β γ : Type} (g : β → γ) (d : Dict α β) :
    Dict.keys (d.map (fun e => (e.1, g e.2))) = d.keys := by
  simp [Dict.keys]

theorem nodup_recordScore (k : Nat) (t : κ) (b : Dict Nat (List (σ ×ₗ κ))) (x : Nat × σ) (h : b.keys.Nodup) :
    (recordScore k t b x).keys.Nodup := Dict.nodup_set h _ _

theorem nodup_bestFold (k : Nat) (L : List (κ × (Nat × σ))) : ∀ b : Dict Nat (List (σ ×ₗ κ)), b.keys.Nodup →
    (L.foldl (fun b x => recordScore k x.1 b x.2) b).keys.Nodup := by
  induction L with
  | nil => intro b h; exact h
  | cons x L ih => intro b h; exact ih _ (nodup_recordScore k _ b _ h)

/-- A score of feature `f` measured for one of the tested clusters. -/
def Tested (measure : Finset Nat → Finset Nat → Except Err (Contribution σ)) (cf checks : Dict κ (Finset Nat))
    (f : Nat) (x : σ ×ₗ κ) : Prop :=
  ∃ G A r, cf.get? (ofLex x).2 = some G ∧ checks.get? (ofLex x).2 = some A ∧ measure G (A \ G) = .ok r ∧
    (f, (ofLex x).1) ∈ r.scores

omit [LinearOrder σ] in
theorem scoreCluster_ok {measure : Finset Nat → Finset Nat → Except Err (Contribution σ)}
    {cf checks : Dict κ (Finset Nat)} {k : κ} {x : κ × Contribution σ} (h : scoreCluster measure cf checks k = .ok x) :
    x.1 = k ∧ ∃ G A, cf.get? k = some G ∧ checks.get? k = some A ∧ measure G (A \ G) = .ok x.2 := by
  unfold scoreCluster at h
  obtain ⟨G, hG, h⟩ := bind_ok h
  obtain ⟨A, hA, h⟩ := bind_ok h
  obtain ⟨r, hr, h⟩ := bind_ok h
  simp only [pure, Except.pure, Except.ok.injEq] at h
  subst h
  exact ⟨rfl, G, A, (Dict.getE_ok_iff _ _ _).1 hG, (Dict.getE_ok_iff _ _ _).1 hA, hr⟩

theorem scoreProposedMoves_ok {measure : Finset Nat → Finset Nat → Except Err (Contribution σ)}
    {cf checks : Dict κ (Finset Nat)} {k : Nat} {s : Scores σ κ} (h : scoreProposedMoves measure cf checks k = .ok s) :
    (∀ c ∈ checks.keys, c ∈ cf.keys) ∧
    ∃ results : List (κ × Contribution σ),
      List.Forall₂ (fun c x => scoreCluster measure cf checks c = .ok x) (checks.keys.insertionSort (· ≤ ·)) results ∧
      s.1 = results.foldl (fun (d : Dict κ σ) r => d.set r.1 r.2.objective) [] ∧
      s.2 = ((flatScores results).foldl (fun b x => recordScore k x.1 b x.2) []).map (fun e => (e.1, e.2.reverse)) := by
  unfold scoreProposedMoves at h
  split at h
  · cases h
  · rename_i hk
    obtain ⟨results, hr, h⟩ := bind_ok h
    simp only [pure, Except.pure, Except.ok.injEq] at h
    subst h
    refine ⟨?_, results, mapM_ok hr, rfl, ?_⟩
    · intro c hc
      by_contra hn
      exact hk (List.any_eq_true.2 ⟨c, hc, by simpa using hn⟩)
    · simp only
      rw [foldl_flatScores (fun t b x => recordScore k t b x)]

theorem forall₂_keys {measure : Finset Nat → Finset Nat → Except Err (Contribution σ)}
    {cf checks : Dict κ (Finset Nat)} {ks : List κ} {results : List (κ × Contribution σ)}
    (h : List.Forall₂ (fun c x => scoreCluster measure cf checks c = .ok x) ks results) :
    results.map (·.1) = ks ∧ ∀ x ∈ results, ∃ G A, cf.get? x.1 = some G ∧ checks.get? x.1 = some A ∧
      measure G (A \ G) = .ok x.2 := by
  induction h with
  | nil => simp
  | cons hx _ ih =>
    obtain ⟨h1, G, A, h2, h3, h4⟩ := scoreCluster_ok hx
    refine ⟨by simp [ih.1, h1], ?_⟩
    intro y hy
    rcases List.mem_cons.1 hy with rfl | hy
    · exact ⟨G, A, by rw [h1]; exact h2, by rw [h1]; exact h3, h4⟩
    · exact ih.2 y hy

omit [LinearOrder σ] [LinearOrder κ] in
theorem flat_nodup (results : List (κ × Contribution σ)) (hk : (results.map (·.1)).Nodup)
    (hd : ∀ x ∈ results, (x.2.scores.map (·.1)).Nodup) (f : Nat) :
    (((flatScores results).filter (fun x => x.2.1 = f)).map (fun x => (toLex (x.2.2, x.1) : σ ×ₗ κ))).Nodup := by
  classical
  have hnd : ((flatScores results).map (fun x => (x.1, x.2.1))).Nodup := by
    clear f
    induction results with
    | nil => simp [flatScores]
    | cons r rs ih =>
      simp only [List.map_cons, List.nodup_cons] at hk
      simp only [flatScores, List.flatMap_cons, List.map_append, List.map_map]
      refine List.nodup_append.2 ⟨?_, ih hk.2 (fun x hx => hd x (by simp [hx])), ?_⟩
      · have := hd r (by simp)
        have h2 : (r.2.scores.map ((fun x : κ × (Nat × σ) => (x.1, x.2.1)) ∘ fun x => (r.1, x))) =
            (r.2.scores.map (·.1)).map (fun a => (r.1, a)) := by simp
        rw [h2]
        exact this.map (fun a b hab => by simpa using hab)
      · intro a ha b hb hab
        subst hab
        simp only [List.mem_map, Function.comp] at ha hb
        obtain ⟨x, _, rfl⟩ := ha
        obtain ⟨y, hy, hxy⟩ := hb
        simp only [List.mem_flatMap, List.mem_map] at hy
        obtain ⟨r', hr', z, _, rfl⟩ := hy
        simp only [Prod.mk.injEq] at hxy
        exact hk.1 (hxy.1 ▸ List.mem_map.2 ⟨r', hr', rfl⟩)
  have h1 := List.Nodup.of_map _ hnd
  refine List.Nodup.map_on ?_ (h1.filter _)
  intro a ha b hb hab
  have ha2 := (List.mem_filter.1 ha).2
  have hb2 := (List.mem_filter.1 hb).2
  simp only [decide_eq_true_eq] at ha2 hb2
  have : (a.2.2, a.1) = (b.2.2, b.1) := toLex.injective hab
  simp only [Prod.mk.injEq] at this
  ext <;> simp [this.1, this.2, ha2, hb2]

/-- What `scoreProposedMoves` returns, for any `measure` that scores a feature at most once. -/
theorem scoreProposedMoves_spec {measure : Finset Nat → Finset Nat → Except Err (Contribution σ)}
    (hmeas : ∀ G A r, measure G A = .ok r → (r.scores.map (·.1)).Nodup)
    {cf checks : Dict κ (Finset Nat)} (hn : checks.keys.Nodup) {k : Nat} {s : Scores σ κ}
    (h : scoreProposedMoves measure cf checks k = .ok s) :
    (∀ f L, s.2.get? f = some L → IsTop k (Tested measure cf checks f) L ∧ ∃ x, Tested measure cf checks f x) ∧
    (∀ f, (∃ x, Tested measure cf checks f x) → ∃ L, s.2.get? f = some L) ∧
    (∀ c o, s.1.get? c = some o ↔ ∃ G A r, cf.get? c = some G ∧ checks.get? c = some A ∧ measure G (A \ G) = .ok r ∧
      r.objective = o) ∧
    s.2.keys.Nodup := by
  obtain ⟨hsub, results, h2, hs1, hs2⟩ := scoreProposedMoves_ok h
  obtain ⟨hk, hres⟩ := forall₂_keys h2
  have hkn : (results.map (·.1)).Nodup := by
    rw [hk]; exact (List.perm_insertionSort _ _).nodup_iff.2 hn
  have hkmem : ∀ c, c ∈ checks.keys → ∃ r ∈ results, r.1 = c := by
    intro c hc
    have : c ∈ results.map (·.1) := by rw [hk]; exact (List.perm_insertionSort _ _).mem_iff.2 hc
    simpa using this
  have hT : ∀ f x, Tested measure cf checks f x ↔
      x ∈ ((flatScores results).filter (fun x => x.2.1 = f)).map (fun x => (toLex (x.2.2, x.1) : σ ×ₗ κ)) := by
    intro f x
    constructor
    · rintro ⟨G, A, r, hG, hA, hm, hf⟩
      obtain ⟨r', hr', hr1⟩ := hkmem (ofLex x).2 ((Dict.get?_isSome _ _).1 ⟨A, hA⟩)
      obtain ⟨G', A', hG', hA', hm'⟩ := hres r' hr'
      rw [hr1] at hG' hA'
      rw [hG] at hG'; rw [hA] at hA'
      cases hG'; cases hA'
      rw [hm] at hm'
      cases hm'
      refine List.mem_map.2 ⟨(r'.1, (f, (ofLex x).1)), List.mem_filter.2 ⟨?_, by simp⟩, ?_⟩
      · exact List.mem_flatMap.2 ⟨r', hr', List.mem_map.2 ⟨_, hf, rfl⟩⟩
      · simp only [hr1]; rfl
    · intro hx
      obtain ⟨y, hy, rfl⟩ := List.mem_map.1 hx
      obtain ⟨hy1, hy2⟩ := List.mem_filter.1 hy
      simp only [decide_eq_true_eq] at hy2
      obtain ⟨r, hr, hy3⟩ := List.mem_flatMap.1 hy1
      obtain ⟨z, hz, rfl⟩ := List.mem_map.1 hy3
      obtain ⟨G, A, hG, hA, hm⟩ := hres r hr
      refine ⟨G, A, r.2, hG, hA, hm, ?_⟩
      simp only [ofLex_toLex]
      simp only at hy2
      rw [← hy2]; exact hz
  have hd : ∀ x ∈ results, (x.2.scores.map (·.1)).Nodup := fun x hx => by
    obtain ⟨G, A, -, -, hm⟩ := hres x hx
    exact hmeas _ _ _ hm
  have hget : ∀ f, s.2.get? f = (((flatScores results).foldl (fun b x => recordScore k x.1 b x.2) []).get? f).map
      List.reverse := by
    intro f; rw [hs2]; exact get?_map_values _ _ _
  refine ⟨?_, ?_, ?_, ?_⟩
  · intro f L hL
    rw [hget, get?_bestFold] at hL
    by_cases he : (flatScores results).filter (fun x => x.2.1 = f) = []
    · rw [if_pos he] at hL; simp at hL
    · rw [if_neg he] at hL
      simp only [Dict.get?_nil, Option.getD_none, Option.map_some, Option.some.injEq] at hL
      subst hL
      constructor
      · have := (kept_foldl k _ (flat_nodup results hkn hd f)).isTop
        have e : Tested measure cf checks f = (· ∈ ((flatScores results).filter (fun x => x.2.1 = f)).map
            (fun x => (toLex (x.2.2, x.1) : σ ×ₗ κ))) := by
          funext x; exact propext (hT f x)
        rw [e]; exact this
      · obtain ⟨y, hy⟩ := List.exists_mem_of_ne_nil _ he
        exact ⟨_, (hT f _).2 (List.mem_map.2 ⟨y, hy, rfl⟩)⟩
  · rintro f ⟨x, hx⟩
    rw [hget, get?_bestFold]
    have : (flatScores results).filter (fun x => x.2.1 = f) ≠ [] := by
      intro he
      have := (hT f x).1 hx
      rw [he] at this
      simp at this
    rw [if_neg this]
    exact ⟨_, rfl⟩
  · intro c o
    have key : ∀ (rs : List (κ × Contribution σ)), (rs.map (·.1)).Nodup → ∀ d : Dict κ σ, ∀ c o,
        (rs.foldl (fun (d : Dict κ σ) r => d.set r.1 r.2.objective) d).get? c = some o ↔
        (∃ r ∈ rs, r.1 = c ∧ r.2.objective = o) ∨ (c ∉ rs.map (·.1) ∧ d.get? c = some o) := by
      intro rs
      induction rs with
      | nil => simp
      | cons r rs ih =>
        intro hnd d c o
        simp only [List.map_cons, List.nodup_cons] at hnd
        rw [List.foldl_cons, ih hnd.2, Dict.get?_set]
        by_cases hc : c = r.1
        · subst hc
          simp only [if_true, Option.some.injEq, List.mem_cons, List.map_cons]
          constructor
          · rintro (⟨r', hr', h1, h2⟩ | ⟨_, h⟩)
            · exact Or.inl ⟨r', Or.inr hr', h1, h2⟩
            · exact Or.inl ⟨r, Or.inl rfl, rfl, h⟩
          · rintro (⟨r', rfl | hr', h1, h2⟩ | ⟨h, _⟩)
            · exact Or.inr ⟨hnd.1, h2⟩
            · exact absurd (h1 ▸ List.mem_map.2 ⟨r', hr', rfl⟩) hnd.1
            · exact absurd (Or.inl trivial) h
        · have hc' : r.1 ≠ c := fun h => hc h.symm
          simp [hc, hc']
    rw [hs1, key results hkn [] c o]
    simp only [Dict.get?_nil, reduceCtorEq, and_false, or_false]
    constructor
    · rintro ⟨r, hr, rfl, ho⟩
      obtain ⟨G, A, hG, hA, hm⟩ := hres r hr
      exact ⟨G, A, r.2, hG, hA, hm, ho⟩
    · rintro ⟨G, A, r, hG, hA, hm, ho⟩
      obtain ⟨r', hr', hr1⟩ := hkmem c ((Dict.get?_isSome _ _).1 ⟨A, hA⟩)
      obtain ⟨G', A', hG', hA', hm'⟩ := hres r' hr'
      rw [hr1] at hG' hA'
      rw [hG] at hG'; rw [hA] at hA'
      cases hG'; cases hA'
      rw [hm] at hm'
      cases hm'
      exact ⟨r', hr', hr1, ho⟩
  · rw [hs2]
    rw [keys_map_values]
    exact nodup_bestFold k _ _ (by simp [Dict.keys])

/-- `scoreProposedMoves` succeeds when the tested clusters exist and all measurements succeed. -/
theorem scoreProposedMoves_total {measure : Finset Nat → Finset Nat → Except Err (Contribution σ)}
    (hmeas : ∀ G A, ∃ r, measure G A = .ok r) {cf checks : Dict κ (Finset Nat)}
    (hsub : ∀ c ∈ checks.keys, c ∈ cf.keys) (k : Nat) : ∃ s, scoreProposedMoves measure cf checks k = .ok s := by
  unfold scoreProposedMoves
  rw [if_neg (by
    intro h
    obtain ⟨c, hc, hn⟩ := List.any_eq_true.1 h
    simp only [decide_not, Bool.not_eq_eq_eq_not, Bool.not_true, decide_eq_false_iff_not] at hn
    exact hn (hsub c hc))]
  obtain ⟨rs, hrs, -⟩ := mapM_ok_of_forall (P := fun _ _ => True) (scoreCluster measure cf checks)
    (checks.keys.insertionSort (· ≤ ·)) (by
      intro c hc
      have hc' : c ∈ checks.keys := (List.perm_insertionSort _ _).mem_iff.1 hc
      obtain ⟨G, hG⟩ := (Dict.get?_isSome _ _).2 (hsub c hc')
      obtain ⟨A, hA⟩ := (Dict.get?_isSome _ _).2 hc'
      obtain ⟨r, hr⟩ := hmeas G (A \ G)
      refine ⟨(c, r), ?_, trivial⟩
      unfold scoreCluster
      rw [Dict.getE_eq _ _ _ hG, Dict.getE_eq _ _ _ hA]
      simp only [bind, Except.bind, hr]
      rfl)
  rw [hrs]
  exact ⟨_, rfl⟩

end Hyperreal
