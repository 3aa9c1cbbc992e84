import Verif.Lemmas.RefineLoop

/-! Lemmas about splitting clusters and about `refineGroups`. -/

namespace Hyperreal
open Spec

theorem get?_foldl_assign (c : Int) (l : List Nat) (f : Nat) : ∀ d : Dict Nat Int,
    (l.foldl (fun d f => Dict.set d f c) d).get? f = if f ∈ l then some c else d.get? f := by
  induction l with
  | nil => intro d; simp
  | cons a l ih =>
    intro d
    rw [List.foldl_cons, ih, Dict.get?_set]
    by_cases h1 : f ∈ l
    · simp [h1]
    · by_cases h2 : f = a <;> simp [h1, h2]

/-- No feature is in two clusters. -/
def Disjointed (cf : Clustering) : Prop := ∀ f c c', In cf c f → In cf c' f → c = c'

theorem in_cons {e : Int × Finset Nat} {cf : Clustering} (hn : Dict.keys (e :: cf) |>.Nodup) (c : Int) (f : Nat) :
    In (e :: cf) c f ↔ (c = e.1 ∧ f ∈ e.2) ∨ In cf c f := by
  have hn' : e.1 ∉ Dict.keys cf := by
    have := hn
    simp only [Dict.keys, List.map_cons, List.nodup_cons] at this
    exact this.1
  constructor
  · rintro ⟨G, hG, hf⟩
    rw [Dict.get?_cons] at hG
    split at hG
    · rename_i h; cases hG; exact Or.inl ⟨h.symm, hf⟩
    · exact Or.inr ⟨G, hG, hf⟩
  · rintro (⟨rfl, hf⟩ | ⟨G, hG, hf⟩)
    · exact ⟨e.2, by rw [Dict.get?_cons, if_pos rfl], hf⟩
    · refine ⟨G, ?_, hf⟩
      rw [Dict.get?_cons, if_neg]
      · exact hG
      · rintro rfl
        exact hn' ((Dict.get?_isSome _ _).1 ⟨G, hG⟩)

theorem invert_spec (cf : Clustering) : cf.keys.Nodup → Disjointed cf → ∀ f c,
    (invert cf).get? f = some c ↔ In cf c f := by
  intro hn hd
  have key : ∀ (cf : Clustering), cf.keys.Nodup → Disjointed cf → ∀ (d : Dict Nat Int) f c,
      (cf.foldl (fun d e => (Bitmap.elems e.2).foldl (fun d f => Dict.set d f e.1) d) d).get? f = some c ↔
      In cf c f ∨ ((∀ c', ¬ In cf c' f) ∧ d.get? f = some c) := by
    intro cf
    induction cf with
    | nil =>
      intro _ _ d f c
      simp [In]
    | cons e cf ih =>
      intro hn hd d f c
      have hn' : Dict.keys cf |>.Nodup := by
        simp only [Dict.keys, List.map_cons, List.nodup_cons] at hn; exact hn.2
      have hd' : Disjointed cf := fun f c c' h h' =>
        hd f c c' ((in_cons hn c f).2 (Or.inr h)) ((in_cons hn c' f).2 (Or.inr h'))
      rw [List.foldl_cons, ih hn' hd', get?_foldl_assign]
      simp only [in_cons hn, Bitmap.mem_elems]
      constructor
      · rintro (h | ⟨h1, h2⟩)
        · exact Or.inl (Or.inr h)
        · split at h2
          · rename_i hf
            cases h2
            exact Or.inl (Or.inl ⟨rfl, hf⟩)
          · rename_i hf
            refine Or.inr ⟨fun c' hc => ?_, h2⟩
            rcases hc with ⟨_, h⟩ | h
            · exact hf h
            · exact h1 c' h
      · rintro ((⟨rfl, hf⟩ | h) | ⟨h1, h2⟩)
        · right
          refine ⟨fun c' hc' => ?_, by rw [if_pos hf]⟩
          have := hd f e.1 c' ((in_cons hn _ f).2 (Or.inl ⟨rfl, hf⟩)) ((in_cons hn c' f).2 (Or.inr hc'))
          subst this
          have h1 := hc'.key
          simp only [Dict.keys, List.map_cons, List.nodup_cons] at hn
          exact hn.1 h1
        · exact Or.inl h
        · right
          refine ⟨fun c' hc' => h1 c' (Or.inr hc'), ?_⟩
          rw [if_neg (fun hf => h1 e.1 (Or.inl ⟨rfl, hf⟩))]
          exact h2
  intro f c
  have h := key cf hn hd [] f c
  simp only [Dict.get?_nil, reduceCtorEq, and_false, or_false] at h
  exact h

theorem largestCluster_mem {cf : Clustering} {e : Int × Finset Nat} (h : largestCluster cf = some e) : e ∈ cf := by
  have key : ∀ (l : Clustering) (acc : Option (Int × Finset Nat)),
      l.foldl (fun acc e => match acc with
        | none => some e
        | some b => if b.2.card < e.2.card ∨ (b.2.card = e.2.card ∧ b.1 ≤ e.1) then some e else some b) acc = some e →
      e ∈ l ∨ acc = some e := by
    intro l
    induction l with
    | nil => intro acc h; exact Or.inr h
    | cons a l ih =>
      intro acc h
      rw [List.foldl_cons] at h
      rcases ih _ h with h | h
      · exact Or.inl (by simp [h])
      · cases acc with
        | none => simp only [Option.some.injEq] at h; exact Or.inl (by simp [h])
        | some b =>
          simp only at h
          split at h
          · simp only [Option.some.injEq] at h; exact Or.inl (by simp [h])
          · exact Or.inr h
  rcases key cf none h with h | h
  · exact h
  · cases h

theorem largestCluster_some {cf : Clustering} (hne : cf ≠ []) : ∃ e, largestCluster cf = some e := by
  have key : ∀ (l : Clustering) (b : Int × Finset Nat), ∃ e,
      l.foldl (fun acc e => match acc with
        | none => some e
        | some b => if b.2.card < e.2.card ∨ (b.2.card = e.2.card ∧ b.1 ≤ e.1) then some e else some b) (some b) = some e := by
    intro l
    induction l with
    | nil => intro b; exact ⟨b, rfl⟩
    | cons a l ih =>
      intro b
      rw [List.foldl_cons]
      by_cases hc : b.2.card < a.2.card ∨ (b.2.card = a.2.card ∧ b.1 ≤ a.1)
      · simp only [hc, if_true]; exact ih a
      · simp only [hc, if_false]; exact ih b
  cases cf with
  | nil => exact absurd rfl hne
  | cons a l => exact key l a

theorem splitLargest_spec {U : Finset Nat} {coin : Nat → Bool} {pinned : Finset Nat} {new : Int} {st st' : Assignment}
    (hs : Sound U st) (hnew : new ∉ st.cf.keys) (h : splitLargest coin pinned new st = .ok st') :
    Sound U st' ∧ st'.cf.keys = st.cf.keys ++ [new] ∧ (∀ f ∈ pinned, st'.fc.get? f = st.fc.get? f) ∧
    (∀ f, st'.fc.get? f = st.fc.get? f ∨ st'.fc.get? f = some new) := by
  unfold splitLargest at h
  split at h
  · cases h
  · rename_i big features hbig
    have hmem := largestCluster_mem hbig
    have hgetb : st.cf.get? big = some features := Dict.get?_of_mem hs.nodup hmem
    have hbk : big ∈ st.cf.keys := (Dict.get?_isSome _ _).1 ⟨_, hgetb⟩
    have hbn : big ≠ new := fun h => hnew (h ▸ hbk)
    simp only at h
    obtain ⟨rest, hrest, h⟩ := bind_ok h
    rw [Dict.getE_ok_iff, Dict.get?_set, if_neg hbn, hgetb] at hrest
    cases hrest
    simp only [pure, Except.pure, Except.ok.injEq] at h
    subst h
    set split := features.filter (fun f => coin f = true ∧ f ∉ pinned) with hsplit
    have hk1 : (st.cf.set new split).keys = st.cf.keys ++ [new] := by rw [Dict.keys_set, if_neg hnew]
    have hk2 : ((st.cf.set new split).set big (features \ split)).keys = st.cf.keys ++ [new] := by
      rw [Dict.keys_set, hk1, if_pos (by simp [hbk])]
    have hfc : ∀ f, ((Bitmap.elems split).foldl (fun fc f => Dict.set fc f new) st.fc).get? f =
        if f ∈ split then some new else st.fc.get? f := by
      intro f
      rw [get?_foldl_assign]
      simp only [Bitmap.mem_elems]
    have hget : ∀ c, ((st.cf.set new split).set big (features \ split)).get? c =
        if c = big then some (features \ split) else if c = new then some split else st.cf.get? c := by
      intro c
      rw [Dict.get?_set, Dict.get?_set]
    have hsf : ∀ f ∈ split, st.fc.get? f = some big := by
      intro f hf
      exact (hs.agree f big).2 ⟨features, hgetb, (Finset.mem_filter.1 hf).1⟩
    refine ⟨⟨?_, ?_, ?_⟩, hk2, ?_, ?_⟩
    · simp only; rw [hk2]
      refine List.nodup_append.2 ⟨hs.nodup, by simp, ?_⟩
      intro a ha b hb hab
      simp only [List.mem_singleton] at hb
      exact hnew (hb ▸ hab ▸ ha)
    · intro f c
      simp only
      rw [hfc]
      constructor
      · intro hf
        by_cases hsp : f ∈ split
        · rw [if_pos hsp] at hf
          cases hf
          exact ⟨split, by rw [hget, if_neg (fun h => hbn h.symm), if_pos rfl], hsp⟩
        · rw [if_neg hsp] at hf
          obtain ⟨G, hG, hfG⟩ := (hs.agree f c).1 hf
          by_cases hcb : c = big
          · subst hcb
            rw [hgetb] at hG; cases hG
            exact ⟨features \ split, by rw [hget, if_pos rfl], Finset.mem_sdiff.2 ⟨hfG, hsp⟩⟩
          · have hcn : c ≠ new := fun h => hnew (h ▸ (Dict.get?_isSome _ _).1 ⟨G, hG⟩)
            exact ⟨G, by rw [hget, if_neg hcb, if_neg hcn]; exact hG, hfG⟩
      · rintro ⟨G, hG, hfG⟩
        rw [hget] at hG
        by_cases hcb : c = big
        · rw [if_pos hcb] at hG
          cases hG
          rw [Finset.mem_sdiff] at hfG
          rw [if_neg hfG.2, hcb]
          exact (hs.agree f big).2 ⟨features, hgetb, hfG.1⟩
        · rw [if_neg hcb] at hG
          by_cases hcn : c = new
          · rw [if_pos hcn] at hG
            cases hG
            rw [if_pos hfG, hcn]
          · rw [if_neg hcn] at hG
            have hf := (hs.agree f c).2 ⟨G, hG, hfG⟩
            have : f ∉ split := by
              intro hsp
              rw [hsf f hsp] at hf
              exact hcb (Option.some.inj hf).symm
            rw [if_neg this]; exact hf
    · intro f
      simp only
      rw [hs.all, hfc]
      by_cases hsp : f ∈ split
      · rw [if_pos hsp]
        exact ⟨fun _ => ⟨new, rfl⟩, fun _ => ⟨big, hsf f hsp⟩⟩
      · rw [if_neg hsp]
    · intro f hf
      simp only
      rw [hfc, if_neg]
      intro hsp
      exact (Finset.mem_filter.1 hsp).2.2 hf
    · intro f
      simp only
      rw [hfc]
      by_cases hsp : f ∈ split <;> simp [hsp]

theorem splitLargest_total {U : Finset Nat} {coin : Nat → Bool} {pinned : Finset Nat} {new : Int} {st : Assignment}
    (hs : Sound U st) (hne : st.cf ≠ []) : ∃ st', splitLargest coin pinned new st = .ok st' := by
  obtain ⟨e, he⟩ := largestCluster_some hne
  unfold splitLargest
  rw [he]
  have hk : e.1 ∈ st.cf.keys := List.mem_map.2 ⟨e, largestCluster_mem he, rfl⟩
  simp only
  have : e.1 ∈ (st.cf.set new (e.2.filter (fun f => coin f = true ∧ f ∉ pinned))).keys := by
    rw [Dict.mem_keys_set]; exact Or.inr hk
  obtain ⟨v, hv⟩ := (Dict.get?_isSome _ _).2 this
  rw [Dict.getE_eq _ _ _ hv]
  exact ⟨_, rfl⟩

theorem splitAll_spec {U : Finset Nat} {coin : Nat → Nat → Bool} {pinned : Finset Nat} : ∀ (l : List Int) (i : Nat)
    {st st' : Assignment}, Sound U st → l.Nodup → (∀ c ∈ l, c ∉ st.cf.keys) → splitAll coin pinned i l st = .ok st' →
    Sound U st' ∧ st'.cf.keys = st.cf.keys ++ l ∧ (∀ f ∈ pinned, st'.fc.get? f = st.fc.get? f) ∧
    (∀ f, st'.fc.get? f = st.fc.get? f ∨ ∃ c ∈ l, st'.fc.get? f = some c)
  | [], i, st, st', hs, _, _, h => by
    simp only [splitAll, Except.ok.injEq] at h
    subst h
    exact ⟨hs, by simp, fun _ _ => rfl, fun _ => Or.inl rfl⟩
  | new :: l, i, st, st', hs, hn, hnew, h => by
    unfold splitAll at h
    obtain ⟨st1, h1, h⟩ := bind_ok h
    obtain ⟨a1, a2, a3, a4⟩ := splitLargest_spec hs (hnew new (by simp)) h1
    obtain ⟨hnl, hn'⟩ := List.nodup_cons.1 hn
    obtain ⟨b1, b2, b3, b4⟩ := splitAll_spec l (i + 1) a1 hn' (by
      intro c hc
      rw [a2, List.mem_append, not_or]
      refine ⟨hnew c (by simp [hc]), ?_⟩
      simp only [List.mem_singleton]
      rintro rfl
      exact hnl hc) h
    refine ⟨b1, by rw [b2, a2]; simp, fun f hf => (b3 f hf).trans (a3 f hf), ?_⟩
    intro f
    rcases b4 f with h | ⟨c, hc, h⟩
    · rw [h]
      rcases a4 f with h | h
      · exact Or.inl h
      · exact Or.inr ⟨new, by simp, h⟩
    · exact Or.inr ⟨c, by simp [hc], h⟩

theorem splitAll_total {U : Finset Nat} {coin : Nat → Nat → Bool} {pinned : Finset Nat} : ∀ (l : List Int) (i : Nat)
    {st : Assignment}, Sound U st → l.Nodup → (∀ c ∈ l, c ∉ st.cf.keys) → st.cf ≠ [] →
    ∃ st', splitAll coin pinned i l st = .ok st'
  | [], i, st, _, _, _, _ => ⟨st, rfl⟩
  | new :: l, i, st, hs, hn, hnew, hne => by
    obtain ⟨st1, h1⟩ := splitLargest_total (coin := coin i) (pinned := pinned) (new := new) hs hne
    obtain ⟨a1, a2, -, -⟩ := splitLargest_spec hs (hnew new (by simp)) h1
    obtain ⟨hnl, hn'⟩ := List.nodup_cons.1 hn
    obtain ⟨st', h'⟩ := splitAll_total (coin := coin) (pinned := pinned) l (i + 1) a1 hn' (by
      intro c hc
      rw [a2, List.mem_append, not_or]
      refine ⟨hnew c (by simp [hc]), ?_⟩
      simp only [List.mem_singleton]
      rintro rfl
      exact hnl hc) (by
      intro h0
      rw [h0] at a2
      simp [Dict.keys] at a2)
    exact ⟨st', by unfold splitAll; rw [h1]; exact h'⟩

theorem nextLocalId_fresh (cf : Clustering) : ∀ c ∈ cf.keys, c < nextLocalId cf := by
  intro c hc
  unfold nextLocalId
  cases hk : cf.keys with
  | nil => rw [hk] at hc; simp at hc
  | cons a l =>
    rw [hk] at hc
    simp only
    have := foldl_max_le l a
    rcases List.mem_cons.1 hc with rfl | hc
    · omega
    · have := this.2 c hc; omega

theorem mem_rangeFrom {a n x : Int} : x ∈ rangeFrom a n ↔ a ≤ x ∧ x < a + n := by
  unfold rangeFrom
  rw [List.mem_map]
  constructor
  · rintro ⟨i, hi, rfl⟩
    rw [List.mem_range] at hi
    omega
  · rintro ⟨h1, h2⟩
    refine ⟨(x - a).toNat, ?_, by omega⟩
    rw [List.mem_range]; omega

theorem rangeFrom_nodup (a n : Int) : (rangeFrom a n).Nodup := by
  unfold rangeFrom
  refine List.Nodup.map ?_ List.nodup_range
  intro i j h
  simp only [Int.add_right_inj] at h
  omega

theorem rangeFrom_length (a n : Int) : (rangeFrom a n).length = n.toNat := by simp [rangeFrom]

theorem mem_foldl_union (cf : Clustering) (f : Nat) : ∀ s : Finset Nat,
    f ∈ cf.foldl (fun (s : Finset Nat) e => s ∪ e.2) s ↔ f ∈ s ∨ ∃ e ∈ cf, f ∈ e.2 := by
  induction cf with
  | nil => intro s; simp
  | cons e cf ih => intro s; rw [List.foldl_cons, ih]; simp [or_assoc]

/-- All features of a clustering. -/
def featuresOf (cf : Clustering) : Finset Nat := cf.foldl (fun (s : Finset Nat) e => s ∪ e.2) ∅

theorem mem_featuresOf {cf : Clustering} (hn : cf.keys.Nodup) (f : Nat) : f ∈ featuresOf cf ↔ ∃ c, In cf c f := by
  unfold featuresOf
  rw [mem_foldl_union]
  simp only [Finset.notMem_empty, false_or]
  constructor
  · rintro ⟨e, he, hf⟩; exact ⟨e.1, e.2, Dict.get?_of_mem hn he, hf⟩
  · rintro ⟨c, G, hG, hf⟩; exact ⟨(c, G), Dict.mem_of_get? hG, hf⟩

theorem movableOf_eq (cf : Clustering) (pinned : Finset Nat) : movableOf cf pinned = (featuresOf cf).filter (· ∉ pinned) := rfl

theorem sound_initial {cf : Clustering} (hn : cf.keys.Nodup) (hd : Disjointed cf) :
    Sound (featuresOf cf) ⟨cf, invert cf⟩ where
  nodup := hn
  agree := invert_spec cf hn hd
  all := by
    intro f
    rw [mem_featuresOf hn]
    simp only [invert_spec cf hn hd]

/-- The clusters with a pinned feature. -/
def pinnedIn (cf : Clustering) (pinned : Finset Nat) : List Int :=
  (cf.filter (fun e => (e.2 ∩ pinned).Nonempty)).map (·.1)

theorem mem_pinnedIn {cf : Clustering} (hn : cf.keys.Nodup) (pinned : Finset Nat) (c : Int) :
    c ∈ pinnedIn cf pinned ↔ ∃ f ∈ pinned, In cf c f := by
  unfold pinnedIn
  rw [List.mem_map]
  constructor
  · rintro ⟨e, he, rfl⟩
    obtain ⟨he1, he2⟩ := List.mem_filter.1 he
    simp only [decide_eq_true_eq] at he2
    obtain ⟨f, hf⟩ := he2
    rw [Finset.mem_inter] at hf
    exact ⟨f, hf.2, e.2, Dict.get?_of_mem hn he1, hf.1⟩
  · rintro ⟨f, hf, G, hG, hfG⟩
    exact ⟨(c, G), List.mem_filter.2 ⟨Dict.mem_of_get? hG, by
      simp only [decide_eq_true_eq]; exact ⟨f, Finset.mem_inter.2 ⟨hfG, hf⟩⟩⟩, rfl⟩

variable {σ : Type} [LinearOrder σ]

/-- The target as the refinement understands it. -/
def effectiveTarget (cfg : GroupCfg) (cf : Clustering) : Int := orDefault cfg.target cf.length

theorem pinsOk_initial {cf : Clustering} (hn : cf.keys.Nodup) (hd : Disjointed cf) (pinned : Finset Nat) :
    PinsOk (featuresOf cf) (movableOf cf pinned) (pinnedIn cf pinned) ⟨cf, invert cf⟩ := by
  refine ⟨fun f hf => ?_, fun f hf hm c hc => ?_⟩
  · rw [movableOf_eq] at hf; exact (Finset.mem_filter.1 hf).1
  · have hfp : f ∈ pinned := by
      by_contra hfp
      exact hm (by rw [movableOf_eq]; exact Finset.mem_filter.2 ⟨hf, by simpa using hfp⟩)
    rw [mem_pinnedIn hn]
    exact ⟨f, hfp, (invert_spec cf hn hd f c).1 hc⟩

/-- What a successful refinement of feature groups yields. -/
structure GroupsOk (cfg : GroupCfg) (pinned : Finset Nat) (cf cf' : Clustering) (newIds : List Int) : Prop where
  nodup : cf'.keys.Nodup
  disjointed : Disjointed cf'
  sameFeatures : ∀ f, (∃ c, In cf' c f) ↔ ∃ c, In cf c f
  pinnedStay : ∀ f ∈ pinned, ∀ c, In cf' c f ↔ In cf c f
  newIds_eq : newIds = rangeFrom (nextLocalId cf) (if cf.length = 0 then 0 else effectiveTarget cfg cf - cf.length)
  keysFrom : ∀ c ∈ cf'.keys, c ∈ cf.keys ∨ c ∈ newIds
  newKept : ∀ c ∈ newIds, c ∈ cf'.keys
  pinnedKept : ∀ c ∈ cf.keys, c ∉ cf'.keys → ∀ f ∈ pinned, ¬ In cf c f
  count : 0 < cf.length → 0 < cfg.iterations → cf'.length = cf.length + newIds.length -
    min (cf.length - effectiveTarget cfg cf).toNat ((cf.keys.filter (fun c => c ∉ pinnedIn cf pinned)).length)
  minimum : newIds = [] → ∀ c ∈ cf'.keys, ∀ G, cf.get? c = some G → cfg.minFeatures ≤ G.card →
    ∃ G', cf'.get? c = some G' ∧ cfg.minFeatures ≤ G'.card

theorem length_of_keys (cf : Clustering) : cf.length = cf.keys.length := by simp [Dict.keys]

theorem filter_notMem_length {l g : List Int} (hn : l.Nodup) (hg : g.Nodup) (hsub : ∀ c ∈ g, c ∈ l) :
    (l.filter (· ∉ g)).length + g.length = l.length := by
  have : (l.filter (· ∉ g) ++ g).Perm l := by
    rw [List.perm_ext_iff_of_nodup _ hn]
    · intro c
      rw [List.mem_append, List.mem_filter]
      by_cases hc : c ∈ g
      · simp [hc, hsub c hc]
      · simp [hc]
    · refine List.nodup_append.2 ⟨hn.filter _, hg, ?_⟩
      intro a ha b hb hab
      subst hab
      have := (List.mem_filter.1 ha).2
      simp [hb] at this
  rw [← this.length_eq, List.length_append]

theorem refineGroups_spec {score : Finset Nat → Nat → Clustering → Except Err (Scores σ Int)} {ch : Chance}
    {cfg : GroupCfg} {pinned : Finset Nat} {cf cf' : Clustering} {newIds : List Int}
    (hn : cf.keys.Nodup) (hd : Disjointed cf) (h : refineGroups score ch cfg pinned cf = .ok (cf', newIds)) :
    GroupsOk cfg pinned cf cf' newIds := by
  unfold refineGroups at h
  simp only at h
  split at h
  · -- nothing to refine
    rename_i h0
    simp only [Except.ok.injEq, Prod.mk.injEq] at h
    obtain ⟨rfl, rfl⟩ := h
    refine ⟨hn, hd, fun f => Iff.rfl, fun f _ c => Iff.rfl, ?_, fun c hc => Or.inl hc, by simp, fun c hc h => absurd hc h,
      fun h => absurd h0 (by omega), fun _ c _ G hG hm => ⟨G, hG, hm⟩⟩
    simp [h0, rangeFrom]
  · rename_i h0
    split at h
    · rename_i h1
      simp only [Except.ok.injEq, Prod.mk.injEq] at h
      obtain ⟨rfl, rfl⟩ := h
      have e1 : effectiveTarget cfg cf = 1 := h1.2
      refine ⟨hn, hd, fun f => Iff.rfl, fun f _ c => Iff.rfl, ?_, fun c hc => Or.inl hc, by simp, fun c hc h => absurd hc h,
        ?_, fun _ c _ G hG hm => ⟨G, hG, hm⟩⟩
      · rw [if_neg h0, e1, h1.1]; simp [rangeFrom]
      · intro _ _
        rw [e1, h1.1]; simp
    · obtain ⟨st, hst, h⟩ := bind_ok h
      obtain ⟨st', hst', h⟩ := bind_ok h
      simp only [pure, Except.pure, Except.ok.injEq, Prod.mk.injEq] at h
      obtain ⟨rfl, hnew⟩ := h
      set target := orDefault cfg.target cf.length with htarget
      have hs0 := sound_initial hn hd
      have hp0 := pinsOk_initial hn hd pinned
      have hfresh : ∀ c ∈ rangeFrom (nextLocalId cf) (target - cf.length), c ∉ cf.keys := by
        intro c hc hck
        have := (mem_rangeFrom.1 hc).1
        have := nextLocalId_fresh cf c hck
        omega
      obtain ⟨s1, s2, s3, s4⟩ := splitAll_spec _ 0 hs0 (rangeFrom_nodup _ _) hfresh hst
      simp only at s2 s3 s4
      have hpin1 : PinsOk (featuresOf cf) (movableOf cf pinned) (pinnedIn cf pinned) st := by
        refine ⟨hp0.1, fun f hf hm c hc => ?_⟩
        have hfp : f ∈ pinned := by
          by_contra hfp
          exact hm (by rw [movableOf_eq]; exact Finset.mem_filter.2 ⟨hf, by simpa using hfp⟩)
        rw [s3 f hfp] at hc
        exact hp0.2 f hf hm c hc
      obtain ⟨gone, g1, g2, g3⟩ := refineLoop_spec _ _ _ s1 hpin1 hst'
      simp only at g1 g2 g3
      have hmv : ∀ f ∈ pinned, f ∉ movableOf cf pinned := by
        intro f hf hm
        rw [movableOf_eq] at hm
        exact absurd hf (by simpa using (Finset.mem_filter.1 hm).2)
      have hlen1 : (st.cf.length : Int) = cf.length + (target - cf.length).toNat := by
        rw [length_of_keys, s2, List.length_append, rangeFrom_length, ← length_of_keys]
        push_cast; rfl
      -- when something is dissolved nothing is new
      have hexcl : newIds ≠ [] → gone = [] := by
        intro hne
        have : 0 < newIds.length := List.length_pos_of_ne_nil hne
        rw [← hnew, rangeFrom_length] at this
        have : gone.length ≤ 0 := by
          refine g3.trans ?_
          omega
        exact List.length_eq_zero_iff.1 (by omega)
      have hkeys' : st'.cf.keys = (cf.keys ++ newIds).filter (· ∉ gone) := by rw [g1.keys, s2, hnew]
      refine ⟨g1.sound.nodup, ?_, ?_, ?_, ?_, ?_, ?_, ?_, ?_, ?_⟩
      · intro f c c' hc hc'
        have h1 := (g1.sound.agree f c).2 hc
        have h2 := (g1.sound.agree f c').2 hc'
        rw [h1] at h2
        exact Option.some.inj h2
      · intro f
        rw [← mem_featuresOf hn, g1.sound.all]
        simp only [g1.sound.agree]
      · intro f hf c
        rw [← g1.sound.agree, g1.unmoved f (hmv f hf), s3 f hf]
        exact invert_spec cf hn hd f c
      · rw [if_neg h0]; exact hnew.symm
      · intro c hc
        rw [hkeys', List.mem_filter, List.mem_append] at hc
        exact hc.1
      · intro c hc
        have := hexcl (by rintro rfl; simp at hc)
        rw [hkeys', this]
        simp [hc]
      · intro c hc hcn f hf hin
        have : c ∈ gone := by
          by_contra hg
          exact hcn (by rw [hkeys', List.mem_filter]; exact ⟨by simp [hc], by simpa using hg⟩)
        exact g1.goneFree c this ((mem_pinnedIn hn pinned c).2 ⟨f, hf, hin⟩)
      · intro _ hit
        have hgk : ∀ c ∈ gone, c ∈ cf.keys ++ newIds := by
          intro c hc
          have := g1.goneKeys c hc
          rw [s2, hnew] at this
          exact this
        have hcn : (cf.keys ++ newIds).Nodup := by rw [← hnew, ← s2]; exact s1.nodup
        have hl := filter_notMem_length hcn g1.goneNodup hgk
        have e : st'.cf.length = ((cf.keys ++ newIds).filter (· ∉ gone)).length := by
          rw [length_of_keys, hkeys']
        rw [List.length_append, ← length_of_keys] at hl
        have hd2 : ((st.cf.length : Int) - target).toNat = ((cf.length : Int) - target).toNat := by omega
        have hg2 := g2 (by
          rw [hd2]
          set D := ((cf.length : Int) - target).toNat
          set R := max 1 (cfg.iterations - 1)
          have hR : 0 < R := by simp [R]
          have hRi : R ≤ cfg.iterations := by simp only [R]; omega
          calc D ≤ R * ((D + R - 1) / R) := by
                have := Nat.div_add_mod (D + R - 1) R
                have := Nat.mod_lt (D + R - 1) hR
                omega
            _ ≤ cfg.iterations * ((D + R - 1) / R) := Nat.mul_le_mul_right _ hRi)
        rw [hd2] at hg2
        have et : effectiveTarget cfg cf = target := rfl
        rw [et]
        by_cases hD : ((cf.length : Int) - target).toNat = 0
        · rw [hD] at hg2 ⊢
          simp only [Nat.zero_min] at hg2 ⊢
          omega
        · have hni : newIds = [] := by
            apply List.length_eq_zero_iff.1
            rw [← hnew, rangeFrom_length]
            omega
          have hst2 : st.cf.keys = cf.keys := by rw [s2, hnew, hni]; simp
          rw [hst2] at hg2
          have ex : (cf.keys.filter (fun c => c ∉ pinnedIn cf pinned)).length =
              (List.filter (fun x => decide (x ∉ List.map (fun x => x.1)
                (List.filter (fun e => decide (e.2 ∩ pinned).Nonempty) cf))) (Dict.keys cf)).length := by
            unfold pinnedIn; congr
          rw [ex]
          generalize (List.filter (fun x => decide (x ∉ List.map (fun x => x.1)
                (List.filter (fun e => decide (e.2 ∩ pinned).Nonempty) cf))) (Dict.keys cf)).length = q at hg2 ⊢
          omega
      · intro hnil c hc G hG hm
        have hst2 : splitAll ch.coin pinned 0 [] ⟨cf, invert cf⟩ = .ok st := by
          rw [← hnil, ← hnew]; exact hst
        simp only [splitAll, Except.ok.injEq] at hst2
        have hcg : c ∉ gone := by
          rw [hkeys', List.mem_filter] at hc
          simpa using hc.2
        exact g1.minimum c hcg G (by rw [← hst2]; exact hG) hm

end Hyperreal
