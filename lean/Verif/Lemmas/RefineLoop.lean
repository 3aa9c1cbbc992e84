import Verif.Lemmas.RefineMoves

/-! Lemmas about the refinement loop. -/

namespace Hyperreal
open Spec

variable {σ : Type} [LinearOrder σ]

theorem lowest_spec {objectives : Dict Int σ} {cands : List Int} (hn : cands.Nodup) {n : Nat} {ids : List Int}
    (h : lowest objectives cands n = .ok ids) :
    ids.Nodup ∧ (∀ c ∈ ids, c ∈ cands) ∧ ids.length = min n cands.length ∧
    (∀ a ∈ ids, ∀ b ∈ cands, b ∉ ids → ∃ x y, objectives.get? a = some x ∧ objectives.get? b = some y ∧ x ≤ y) := by
  unfold lowest at h
  obtain ⟨scored, hsc, h⟩ := bind_ok h
  simp only [pure, Except.pure, Except.ok.injEq] at h
  have h2 : List.Forall₂ (fun c (x : σ × Int) => x.2 = c ∧ objectives.get? c = some x.1) cands scored := by
    refine (mapM_ok hsc).imp ?_
    intro c x hx
    obtain ⟨o, ho, hx⟩ := bind_ok hx
    simp only [pure, Except.pure, Except.ok.injEq] at hx
    subst hx
    exact ⟨rfl, (Dict.getE_ok_iff _ _ _).1 ho⟩
  have hmap : scored.map (·.2) = cands := by
    clear * - h2
    induction h2 with
    | nil => rfl
    | cons hx _ ih => simp [hx.1, ih]
  have hobj : ∀ x ∈ scored, objectives.get? x.2 = some x.1 := by
    clear * - h2
    induction h2 with
    | nil => simp
    | cons hx _ ih =>
      intro y hy
      rcases List.mem_cons.1 hy with rfl | hy
      · rw [hx.1]; exact hx.2
      · exact ih y hy
  set sorted := scored.insertionSort (fun a b => a.1 ≤ b.1) with hsorted
  have hperm : sorted.Perm scored := List.perm_insertionSort _ _
  have hpair : sorted.Pairwise (fun a b => a.1 ≤ b.1) := by
    have : Std.Total (fun a b : σ × Int => a.1 ≤ b.1) := ⟨fun a b => le_total a.1 b.1⟩
    have : IsTrans (σ × Int) (fun a b : σ × Int => a.1 ≤ b.1) := ⟨fun a b c h1 h2 => le_trans h1 h2⟩
    exact List.pairwise_insertionSort _ _
  have hsn : (sorted.map (·.2)).Nodup := by
    rw [(hperm.map _).nodup_iff, hmap]; exact hn
  have hids : ids = (sorted.take n).map (·.2) := h.symm
  refine ⟨?_, ?_, ?_, ?_⟩
  · rw [hids, List.map_take]; exact hsn.sublist (List.take_sublist _ _)
  · intro c hc
    rw [hids] at hc
    obtain ⟨x, hx, rfl⟩ := List.mem_map.1 hc
    rw [← hmap]
    exact List.mem_map.2 ⟨x, hperm.mem_iff.1 (List.mem_of_mem_take hx), rfl⟩
  · rw [hids, List.length_map, List.length_take, hperm.length_eq, ← hmap, List.length_map]
  · intro a ha b hb hbn
    rw [hids] at ha hbn
    obtain ⟨x, hx, rfl⟩ := List.mem_map.1 ha
    rw [← hmap] at hb
    obtain ⟨y, hy, rfl⟩ := List.mem_map.1 hb
    refine ⟨x.1, y.1, hobj x (hperm.mem_iff.1 (List.mem_of_mem_take hx)), hobj y hy, ?_⟩
    have hys : y ∈ sorted := hperm.mem_iff.2 hy
    rw [← List.take_append_drop n sorted, List.mem_append] at hys
    rcases hys with hys | hys
    · exact absurd (List.mem_map.2 ⟨y, hys, rfl⟩) hbn
    · have := hpair
      rw [← List.take_append_drop n sorted, List.pairwise_append] at this
      exact this.2.2 x hx y hys

theorem lowest_total {objectives : Dict Int σ} {cands : List Int} (h : ∀ c ∈ cands, c ∈ objectives.keys) (n : Nat) :
    ∃ ids, lowest objectives cands n = .ok ids := by
  unfold lowest
  obtain ⟨bs, hbs, -⟩ := mapM_ok_of_forall (P := fun _ _ => True)
    (fun c => (do let o ← objectives.getE c; pure (o, c) : Except Err (σ × Int))) cands (by
      intro c hc
      obtain ⟨o, ho⟩ := (Dict.get?_isSome _ _).2 (h c hc)
      refine ⟨(o, c), ?_, trivial⟩
      rw [Dict.getE_eq _ _ _ ho]; rfl)
  rw [hbs]
  exact ⟨_, rfl⟩

theorem lowest_err {objectives : Dict Int σ} {cands : List Int} {n : Nat} {e : Err}
    (h : lowest objectives cands n = .error e) : e = .keyError := by
  unfold lowest at h
  rcases bind_err h with h | ⟨a, _, h⟩
  · obtain ⟨c, _, h⟩ := mapM_err h
    rcases bind_err h with h | ⟨a, _, h⟩
    · exact (Dict.getE_err _ _ _ h).1
    · cases h
  · cases h

theorem removeDissolved_spec : ∀ {ids : List Int} {cf : Clustering}, ids.Nodup → (∀ c ∈ ids, cf.get? c = some ∅) →
    removeDissolved ids cf = .ok (cf.filter (fun e => e.1 ∉ ids))
  | [], cf, _, _ => by simp [removeDissolved]
  | c :: cs, cf, hn, he => by
    obtain ⟨hc, hn'⟩ := List.nodup_cons.1 hn
    have h0 := he c (by simp)
    unfold removeDissolved
    rw [Dict.getE_eq _ _ _ h0]
    simp only [bind, Except.bind, Finset.card_empty, ne_eq, not_true_eq_false, if_false]
    rw [Dict.delE_eq ((Dict.get?_isSome _ _).1 ⟨_, h0⟩)]
    simp only
    rw [removeDissolved_spec hn' (by
      intro d hd
      have hdc : d ≠ c := fun h => hc (h ▸ hd)
      rw [Dict.get?_filter_ne, if_neg hdc]
      exact he d (by simp [hd]))]
    rw [List.filter_filter]
    congr 1
    apply List.filter_congr
    intro e _
    by_cases h1 : e.1 = c <;> by_cases h2 : e.1 ∈ cs <;> simp [h1, h2]

theorem keys_filter_notMem (cf : Clustering) (ids : List Int) :
    Dict.keys (cf.filter (fun e => e.1 ∉ ids)) = cf.keys.filter (· ∉ ids) := by
  simp only [Dict.keys, List.filter_map]
  rfl

theorem get?_filter_notMem (cf : Clustering) (ids : List Int) (c : Int) :
    Dict.get? (cf.filter (fun e => e.1 ∉ ids)) c = if c ∈ ids then none else cf.get? c := by
  induction cf with
  | nil => simp
  | cons e cf ih =>
    rw [List.filter_cons]
    by_cases he : e.1 ∈ ids
    · rw [if_neg (by simpa using he), ih, Dict.get?_cons]
      by_cases hc : c ∈ ids
      · simp [hc]
      · have : e.1 ≠ c := fun h => hc (h ▸ he)
        simp [hc, this]
    · rw [if_pos (by simpa using he), Dict.get?_cons, Dict.get?_cons, ih]
      by_cases hc : c ∈ ids
      · have : e.1 ≠ c := fun h => he (h ▸ hc)
        simp [hc, this]
      · simp [hc]

/-- The relation between the states before and after some iterations, in which the clusters `gone` were dissolved. -/
structure Refined (U movable : Finset Nat) (withPins : List Int) (m : Nat) (gone : List Int) (st st' : Assignment) :
    Prop where
  sound : Sound U st'
  keys : st'.cf.keys = st.cf.keys.filter (· ∉ gone)
  goneNodup : gone.Nodup
  goneKeys : ∀ c ∈ gone, c ∈ st.cf.keys
  goneFree : ∀ c ∈ gone, c ∉ withPins
  unmoved : ∀ f, f ∉ movable → st'.fc.get? f = st.fc.get? f
  minimum : ∀ c ∉ gone, ∀ G, st.cf.get? c = some G → m ≤ G.card → ∃ G', st'.cf.get? c = some G' ∧ m ≤ G'.card

/-- Features that may not move are in clusters with pins. -/
def PinsOk (U movable : Finset Nat) (withPins : List Int) (st : Assignment) : Prop :=
  (∀ f ∈ movable, f ∈ U) ∧ ∀ f ∈ U, f ∉ movable → ∀ c, st.fc.get? f = some c → c ∈ withPins

theorem toDissolve_spec {objectives : Dict Int σ} {cands : List Int} (hn : cands.Nodup) {d per : Nat} {ids : List Int}
    (h : toDissolve objectives cands d per = .ok ids) :
    ids.Nodup ∧ (∀ c ∈ ids, c ∈ cands) ∧ ids.length = min (min d per) cands.length := by
  unfold toDissolve at h
  split at h
  · rename_i h0
    cases h
    subst h0
    simp
  · obtain ⟨h1, h2, h3, -⟩ := lowest_spec hn h
    exact ⟨h1, h2, h3⟩

theorem emptied {U movable : Finset Nat} {withPins ids : List Int} {st1 : Assignment} {st : Assignment}
    (hp : PinsOk U movable withPins st) (hs1 : Sound U st1) (hk : st1.cf.keys = st.cf.keys)
    (hun : ∀ g, g ∉ movable → st1.fc.get? g = st.fc.get? g)
    (hout : ∀ f ∈ movable, ∀ c, st1.fc.get? f = some c → c ∉ ids)
    (hidk : ∀ c ∈ ids, c ∈ st.cf.keys) (hidp : ∀ c ∈ ids, c ∉ withPins) : ∀ c ∈ ids, st1.cf.get? c = some ∅ := by
  intro c hc
  obtain ⟨G, hG⟩ := (Dict.get?_isSome _ _).2 (hk ▸ hidk c hc)
  rcases Finset.eq_empty_or_nonempty G with h | ⟨f, hf⟩
  · rw [hG, h]
  · exfalso
    have hfc := (hs1.agree f c).2 ⟨G, hG, hf⟩
    by_cases hm : f ∈ movable
    · exact hout f hm c hfc hc
    · have := hun f hm
      rw [hfc] at this
      exact hidp c hc (hp.2 f ((hs1.all f).2 ⟨c, hfc⟩) hm c this.symm)

theorem sound_filter {U : Finset Nat} {st : Assignment} (hs : Sound U st) {ids : List Int}
    (he : ∀ c ∈ ids, st.cf.get? c = some ∅) : Sound U ⟨st.cf.filter (fun e => e.1 ∉ ids), st.fc⟩ where
  nodup := by
    simp only
    rw [keys_filter_notMem]; exact hs.nodup.filter _
  agree := by
    intro f c
    simp only
    rw [hs.agree]
    constructor
    · rintro ⟨G, hG, hf⟩
      have hc : c ∉ ids := by
        intro hc
        rw [he c hc] at hG
        cases hG
        simp at hf
      exact ⟨G, by rw [get?_filter_notMem, if_neg hc]; exact hG, hf⟩
    · rintro ⟨G, hG, hf⟩
      rw [get?_filter_notMem] at hG
      split at hG
      · cases hG
      · exact ⟨G, hG, hf⟩
  all := hs.all

omit [LinearOrder σ] in
theorem order_nodup (ctx : RefineCtx σ) (i : Nat) : (ctx.chance.order i (Bitmap.elems ctx.movable)).Nodup :=
  (ctx.chance.order_perm i _).nodup_iff.2 (Bitmap.elems_nodup _)

omit [LinearOrder σ] in
theorem mem_order (ctx : RefineCtx σ) (i : Nat) (f : Nat) :
    f ∈ ctx.chance.order i (Bitmap.elems ctx.movable) ↔ f ∈ ctx.movable := by
  rw [(ctx.chance.order_perm i _).mem_iff, Bitmap.mem_elems]

omit [LinearOrder σ] in
theorem cands_nodup (ctx : RefineCtx σ) (i : Nat) {cf : Clustering} (hn : cf.keys.Nodup) :
    (ctx.chance.setOrder i (cf.keys.filter (· ∉ ctx.withPins))).Nodup :=
  (ctx.chance.setOrder_perm i _).nodup_iff.2 (hn.filter _)

omit [LinearOrder σ] in
theorem mem_cands (ctx : RefineCtx σ) (i : Nat) (cf : Clustering) (c : Int) :
    c ∈ ctx.chance.setOrder i (cf.keys.filter (· ∉ ctx.withPins)) ↔ c ∈ cf.keys ∧ c ∉ ctx.withPins := by
  rw [(ctx.chance.setOrder_perm i _).mem_iff, List.mem_filter]
  simp

theorem possible_spec (cf : Clustering) (ids : List Int) :
    (∀ c ∈ cf.keys.filter (· ∉ ids), c ∉ ids) ∧ (∀ c ∈ cf.keys.filter (· ∉ ids), c ∈ cf.keys) := by
  constructor
  · intro c hc
    simpa using (List.mem_filter.1 hc).2
  · intro c hc
    exact (List.mem_filter.1 hc).1

theorem refineStep_spec {U : Finset Nat} {ctx : RefineCtx σ} {i d : Nat} {st : Assignment}
    {r : Assignment × Nat × List Int} (hs : Sound U st) (hp : PinsOk U ctx.movable ctx.withPins st)
    (h : refineStep ctx i d st = .ok r) :
    Refined U ctx.movable ctx.withPins ctx.minFeatures r.2.2 st r.1 ∧
    r.2.2.length = min (min d ctx.perIteration) (st.cf.keys.filter (· ∉ ctx.withPins)).length := by
  unfold refineStep at h
  obtain ⟨scores, hsc, h⟩ := bind_ok h
  obtain ⟨ids, hids, h⟩ := bind_ok h
  obtain ⟨m, hm, h⟩ := bind_ok h
  obtain ⟨cf, hcf, h⟩ := bind_ok h
  simp only [pure, Except.pure, Except.ok.injEq] at h
  subst h
  obtain ⟨i1, i2, i3⟩ := toDissolve_spec (cands_nodup ctx i hs.nodup) hids
  have i2' : ∀ c ∈ ids, c ∈ st.cf.keys ∧ c ∉ ctx.withPins := fun c hc => (mem_cands ctx i st.cf c).1 (i2 c hc)
  obtain ⟨m1, m2, m3, m4, m5⟩ := moves_spec (possible_spec st.cf ids).1 _ (order_nodup ctx i) hs hm
  simp only at m1 m2 m3 m4 m5
  have hun : ∀ g, g ∉ ctx.movable → m.1.fc.get? g = st.fc.get? g := fun g hg => m3 g (by rw [mem_order]; exact hg)
  have hem := emptied hp m1 m2 hun (fun f hf => m4 f ((mem_order ctx i f).2 hf)) (fun c hc => (i2' c hc).1)
    (fun c hc => (i2' c hc).2)
  rw [removeDissolved_spec i1 hem] at hcf
  cases hcf
  refine ⟨⟨sound_filter m1 hem, ?_, i1, fun c hc => (i2' c hc).1, fun c hc => (i2' c hc).2, hun, ?_⟩, ?_⟩
  · simp only; rw [keys_filter_notMem, m2]
  · intro c hc G hG hmin
    obtain ⟨G', hG', hmin'⟩ := m5 c hc G hG hmin
    exact ⟨G', by simp only; rw [get?_filter_notMem, if_neg hc]; exact hG', hmin'⟩
  · simp only
    rw [i3, (ctx.chance.setOrder_perm i _).length_eq]

theorem Refined.refl {U movable : Finset Nat} {withPins : List Int} {m : Nat} {st : Assignment} (hs : Sound U st) :
    Refined U movable withPins m [] st st where
  sound := hs
  keys := by simp
  goneNodup := List.nodup_nil
  goneKeys := by simp
  goneFree := by simp
  unmoved := fun _ _ => rfl
  minimum := fun c _ G hG hm => ⟨G, hG, hm⟩

theorem Refined.trans {U movable : Finset Nat} {withPins g1 g2 : List Int} {m : Nat} {a b c : Assignment}
    (h1 : Refined U movable withPins m g1 a b) (h2 : Refined U movable withPins m g2 b c) :
    Refined U movable withPins m (g1 ++ g2) a c where
  sound := h2.sound
  keys := by
    rw [h2.keys, h1.keys, List.filter_filter]
    apply List.filter_congr
    intro x _
    by_cases h1 : x ∈ g1 <;> by_cases h2 : x ∈ g2 <;> simp [h1, h2]
  goneNodup := by
    refine List.nodup_append.2 ⟨h1.goneNodup, h2.goneNodup, ?_⟩
    intro x hx y hy hxy
    subst hxy
    have := h2.goneKeys x hy
    rw [h1.keys, List.mem_filter] at this
    simp [hx] at this
  goneKeys := by
    intro x hx
    rcases List.mem_append.1 hx with hx | hx
    · exact h1.goneKeys x hx
    · have := h2.goneKeys x hx
      rw [h1.keys, List.mem_filter] at this
      exact this.1
  goneFree := by
    intro x hx
    rcases List.mem_append.1 hx with hx | hx
    · exact h1.goneFree x hx
    · exact h2.goneFree x hx
  unmoved := fun f hf => (h2.unmoved f hf).trans (h1.unmoved f hf)
  minimum := by
    intro x hx G hG hm
    rw [List.mem_append, not_or] at hx
    obtain ⟨G1, hG1, hm1⟩ := h1.minimum x hx.1 G hG hm
    exact h2.minimum x hx.2 G1 hG1 hm1

theorem Refined.pinsOk {U movable : Finset Nat} {withPins g : List Int} {m : Nat} {a b : Assignment}
    (h : Refined U movable withPins m g a b) (hp : PinsOk U movable withPins a) : PinsOk U movable withPins b := by
  refine ⟨hp.1, fun f hf hm c hc => ?_⟩
  rw [h.unmoved f hm] at hc
  exact hp.2 f hf hm c hc

theorem free_length {U movable : Finset Nat} {withPins g : List Int} {m : Nat} {a b : Assignment}
    (hn : a.cf.keys.Nodup) (h : Refined U movable withPins m g a b) :
    (b.cf.keys.filter (· ∉ withPins)).length + g.length = (a.cf.keys.filter (· ∉ withPins)).length := by
  rw [h.keys, List.filter_filter]
  have h1 : (a.cf.keys.filter (· ∉ withPins)).Perm
      ((a.cf.keys.filter (fun c => decide (c ∉ withPins) && decide (c ∉ g))) ++ g) := by
    rw [List.perm_ext_iff_of_nodup (hn.filter _)]
    · intro c
      rw [List.mem_filter, List.mem_append, List.mem_filter]
      simp only [decide_eq_true_eq, Bool.and_eq_true]
      constructor
      · rintro ⟨h1, h2⟩
        by_cases hg : c ∈ g
        · exact Or.inr hg
        · exact Or.inl ⟨h1, h2, hg⟩
      · rintro (⟨h1, h2, -⟩ | hg)
        · exact ⟨h1, h2⟩
        · exact ⟨h.goneKeys c hg, h.goneFree c hg⟩
    · refine List.nodup_append.2 ⟨hn.filter _, h.goneNodup, ?_⟩
      intro x hx y hy hxy
      subst hxy
      have := (List.mem_filter.1 hx).2
      simp [hy] at this
  have := h1.length_eq
  rw [List.length_append] at this
  omega

theorem refineLoop_spec {U : Finset Nat} {ctx : RefineCtx σ} : ∀ (n i d : Nat) {st st' : Assignment},
    Sound U st → PinsOk U ctx.movable ctx.withPins st → refineLoop ctx n i d st = .ok st' →
    ∃ gone, Refined U ctx.movable ctx.withPins ctx.minFeatures gone st st' ∧
      (d ≤ n * ctx.perIteration → gone.length = min d (st.cf.keys.filter (· ∉ ctx.withPins)).length) ∧
      gone.length ≤ d
  | 0, i, d, st, st', hs, hp, h => by
    simp only [refineLoop, Except.ok.injEq] at h
    subst h
    refine ⟨[], Refined.refl hs, ?_, by simp⟩
    intro hd
    have : d = 0 := by omega
    simp [this]
  | n + 1, i, d, st, st', hs, hp, h => by
    unfold refineLoop at h
    obtain ⟨r, hr, h⟩ := bind_ok h
    obtain ⟨r1, r2⟩ := refineStep_spec hs hp hr
    have hfree := free_length hs.nodup r1
    have key : refineLoop ctx n (i + 1) (d - min d ctx.perIteration) r.1 = .ok st' →
        ∃ gone, Refined U ctx.movable ctx.withPins ctx.minFeatures gone st st' ∧
          (d ≤ (n + 1) * ctx.perIteration → gone.length = min d (st.cf.keys.filter (· ∉ ctx.withPins)).length) ∧
          gone.length ≤ d := by
      intro h
      obtain ⟨gone, g1, g2, g3⟩ := refineLoop_spec n (i + 1) _ r1.sound (r1.pinsOk hp) h
      refine ⟨r.2.2 ++ gone, r1.trans g1, ?_, ?_⟩
      · intro hd
        rw [List.length_append]
        have hd' : d - min d ctx.perIteration ≤ n * ctx.perIteration := by
          rw [Nat.add_mul] at hd; omega
        have := g2 hd'
        omega
      · rw [List.length_append]; omega
    split at h
    · rename_i hnil
      split at h
      · cases h
      · split at h
        · cases h
          refine ⟨r.2.2, r1, ?_, by rw [hnil]; simp⟩
          intro hd
          rw [hnil, List.length_nil] at r2
          rw [hnil, List.length_nil]
          rcases Nat.eq_zero_or_pos d with h0 | hpos
          · omega
          · have : ctx.perIteration ≠ 0 := by
              intro h0; rw [h0] at hd; simp at hd; omega
            omega
        · exact key h
    · exact key h

/-- The consistency error is never raised by an iteration. -/
theorem refineStep_no_valueError {U : Finset Nat} {ctx : RefineCtx σ} {i d : Nat} {st : Assignment}
    (hs : Sound U st) (hp : PinsOk U ctx.movable ctx.withPins st)
    (hscore : ∀ i cf, ctx.score i cf ≠ .error .valueError) : refineStep ctx i d st ≠ .error .valueError := by
  intro h
  unfold refineStep at h
  rcases bind_err h with h | ⟨scores, hsc, h⟩
  · exact hscore _ _ h
  rcases bind_err h with h | ⟨ids, hids, h⟩
  · unfold toDissolve at h
    split at h
    · cases h
    · have := lowest_err h; cases this
  rcases bind_err h with h | ⟨m, hm, h⟩
  · -- moves raise key errors and index errors only
    have key : ∀ (l : List Nat) (st : Assignment × Nat) (best : Dict Nat (List (σ ×ₗ Int))) (possible : List Int) mf ac pk,
        l.foldlM (moveOne best ids possible mf ac pk) st ≠ .error .valueError := by
      intro l
      induction l with
      | nil => intro st best possible mf ac pk h; cases h
      | cons f l ih =>
        intro st best possible mf ac pk h
        rw [List.foldlM_cons] at h
        rcases bind_err h with h | ⟨st1, _, h⟩
        · have hmove : ∀ cur dst st, doMove f cur dst st ≠ .error .valueError := by
            intro cur dst st h
            unfold doMove at h
            rcases bind_err h with h | ⟨_, _, h⟩
            · have := (Dict.getE_err _ _ _ h).1; cases this
            · rcases bind_err h with h | ⟨_, _, h⟩
              · have := (Dict.getE_err _ _ _ h).1; cases this
              · cases h
          unfold moveOne at h
          rcases bind_err h with h | ⟨dst, _, h⟩
          · unfold bestMove at h
            rcases bind_err h with h | ⟨L, _, h⟩
            · have := (Dict.getE_err _ _ _ h).1; cases this
            · split at h <;> cases h
          rcases bind_err h with h | ⟨cur, _, h⟩
          · have := (Dict.getE_err _ _ _ h).1; cases this
          split at h
          · rcases bind_err h with h | ⟨x, _, h⟩
            · unfold rehome choice at h
              split at h
              · split at h <;> cases h
              · cases h
            · rcases bind_err h with h | ⟨_, _, h⟩
              · exact hmove _ _ _ h
              · cases h
          · split at h
            · cases h
            · split at h
              · cases h
              · rcases bind_err h with h | ⟨_, _, h⟩
                · have := (Dict.getE_err _ _ _ h).1; cases this
                · split at h
                  · cases h
                  · split at h
                    · rcases bind_err h with h | ⟨_, _, h⟩
                      · exact hmove _ _ _ h
                      · cases h
                    · cases h
        · exact ih _ _ _ _ _ _ h
    exact key _ _ _ _ _ _ _ h
  rcases bind_err h with h | ⟨cf, hcf, h⟩
  · obtain ⟨i1, i2, i3⟩ := toDissolve_spec (cands_nodup ctx i hs.nodup) hids
    have i2' : ∀ c ∈ ids, c ∈ st.cf.keys ∧ c ∉ ctx.withPins := fun c hc => (mem_cands ctx i st.cf c).1 (i2 c hc)
    obtain ⟨m1, m2, m3, m4, m5⟩ := moves_spec (possible_spec st.cf ids).1 _ (order_nodup ctx i) hs hm
    simp only at m1 m2 m3 m4 m5
    have hun : ∀ g, g ∉ ctx.movable → m.1.fc.get? g = st.fc.get? g := fun g hg => m3 g (by rw [mem_order]; exact hg)
    have hem := emptied hp m1 m2 hun (fun f hf => m4 f ((mem_order ctx i f).2 hf)) (fun c hc => (i2' c hc).1)
      (fun c hc => (i2' c hc).2)
    rw [removeDissolved_spec i1 hem] at h
    cases h
  · cases h

theorem refineLoop_no_valueError {U : Finset Nat} {ctx : RefineCtx σ}
    (hscore : ∀ i cf, ctx.score i cf ≠ .error .valueError) : ∀ (n i d : Nat) {st : Assignment},
    Sound U st → PinsOk U ctx.movable ctx.withPins st → refineLoop ctx n i d st ≠ .error .valueError
  | 0, i, d, st, hs, hp => by simp [refineLoop]
  | n + 1, i, d, st, hs, hp => by
    intro h
    unfold refineLoop at h
    rcases bind_err h with h | ⟨r, hr, h⟩
    · exact refineStep_no_valueError hs hp hscore h
    · obtain ⟨r1, -⟩ := refineStep_spec hs hp hr
      split at h
      · split at h
        · cases h
        · split at h
          · cases h
          · exact refineLoop_no_valueError hscore n _ _ r1.sound (r1.pinsOk hp) h
      · exact refineLoop_no_valueError hscore n _ _ r1.sound (r1.pinsOk hp) h

end Hyperreal
