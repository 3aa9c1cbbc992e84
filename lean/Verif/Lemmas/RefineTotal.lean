import Verif.Lemmas.RefineResult

/-! When the refinement succeeds. -/

namespace Hyperreal
open Spec

variable {σ : Type} [LinearOrder σ]

/-- The scoring of at most `N` clusters finds a move for every movable feature; with `all` for the clusters it also knows the objective of
every cluster. -/
def GoodScore (U : Finset Nat) (movable : Finset Nat) (score : Nat → Clustering → Except Err (Scores σ Int))
    (N : Nat) (all : Clustering → Prop) : Prop :=
  ∀ i st, Sound U st → st.cf ≠ [] → st.cf.length ≤ N → ∃ s, score i st.cf = .ok s ∧
    (∀ f ∈ movable, ∃ d, bestMove s.2 f = .ok d ∧ d ∈ st.cf.keys) ∧ (all st.cf → ∀ c ∈ st.cf.keys, c ∈ s.1.keys)

theorem refineStep_total {U : Finset Nat} {ctx : RefineCtx σ} {all : Clustering → Prop} {i d : Nat} {st : Assignment} (hs : Sound U st)
    (hp : PinsOk U ctx.movable ctx.withPins st) {N : Nat} (hg : GoodScore U ctx.movable ctx.score N all) (hN : st.cf.length ≤ N)
    (hne : st.cf ≠ []) (hd : d < st.cf.length ∨ ∃ c ∈ st.cf.keys, c ∈ ctx.withPins) :
    (∃ r, refineStep ctx i d st = .ok r) ∨ (refineStep ctx i d st = .error .keyError ∧ 0 < d ∧ ¬ all st.cf) := by
  obtain ⟨s, hsc, hbest, hall⟩ := hg i st hs hne hN
  cases hids : toDissolve s.1 (ctx.chance.setOrder i (st.cf.keys.filter (· ∉ ctx.withPins))) d ctx.perIteration with
  | error e =>
    right
    have hd0 : 0 < d := by
      by_contra h
      rw [toDissolve, if_pos (by omega)] at hids
      cases hids
    rw [toDissolve, if_neg (by omega)] at hids
    refine ⟨?_, hd0, fun h => ?_⟩
    · unfold refineStep
      rw [hsc]
      simp only [bind, Except.bind]
      rw [toDissolve, if_neg (by omega), hids, lowest_err hids]
    · obtain ⟨ids, h'⟩ := lowest_total (objectives := s.1) (fun c hc => hall h c ((mem_cands ctx i st.cf c).1 hc).1) (min d ctx.perIteration)
      rw [h'] at hids
      cases hids
  | ok ids =>
  left
  obtain ⟨i1, i2, i3⟩ := toDissolve_spec (cands_nodup ctx i hs.nodup) hids
  have i2' : ∀ c ∈ ids, c ∈ st.cf.keys ∧ c ∉ ctx.withPins := fun c hc => (mem_cands ctx i st.cf c).1 (i2 c hc)
  have hpne : st.cf.keys.filter (· ∉ ids) ≠ [] := by
    intro h0
    rcases hd with hd | ⟨c, hc, hcp⟩
    · have := filter_notMem_length hs.nodup i1 (fun c hc => (i2' c hc).1)
      rw [h0, ← Dict.length_eq_keys] at this
      simp only [List.length_nil, Nat.zero_add] at this
      omega
    · have : c ∈ st.cf.keys.filter (· ∉ ids) :=
        List.mem_filter.2 ⟨hc, by simpa using fun h => (i2' c h).2 hcp⟩
      rw [h0] at this
      cases this
  obtain ⟨m, hm⟩ := moves_total (m := ctx.minFeatures) (accept := ctx.chance.accept i) (pick := ctx.chance.pick i)
    (possible_spec st.cf ids).1 (ctx.chance.order i (Bitmap.elems ctx.movable)) (st := (st, 0)) hs
    (fun f hf => hp.1 f ((mem_order ctx i f).1 hf)) (fun f hf => hbest f ((mem_order ctx i f).1 hf))
    (possible_spec st.cf ids).2 (fun _ => hpne)
  obtain ⟨m1, m2, m3, m4, m5⟩ := moves_spec (possible_spec st.cf ids).1 _ (order_nodup ctx i) hs hm
  simp only at m1 m2 m3 m4 m5
  have hun : ∀ g, g ∉ ctx.movable → m.1.fc.get? g = st.fc.get? g := fun g hg => m3 g (by rw [mem_order]; exact hg)
  have hem := emptied hp m1 m2 hun (fun f hf => m4 f ((mem_order ctx i f).2 hf)) (fun c hc => (i2' c hc).1)
    (fun c hc => (i2' c hc).2)
  unfold refineStep
  rw [hsc]
  simp only [bind, Except.bind]
  rw [hids]
  simp only
  rw [hm]
  simp only
  rw [removeDissolved_spec i1 hem]
  exact ⟨_, rfl⟩

theorem refineLoop_total {U : Finset Nat} {ctx : RefineCtx σ} {all : Clustering → Prop} {N : Nat} (hg : GoodScore U ctx.movable ctx.score N all)
    (hkeep : ∀ gone st st', Refined U ctx.movable ctx.withPins ctx.minFeatures gone st st' → Sound U st → all st.cf → all st'.cf)
    (hm : ctx.movable.Nonempty) : ∀ (n i d : Nat) {st : Assignment}, Sound U st →
    PinsOk U ctx.movable ctx.withPins st → st.cf.length ≤ N →
    (d < st.cf.length ∨ ∃ c ∈ st.cf.keys, c ∈ ctx.withPins) →
    (∃ st', refineLoop ctx n i d st = .ok st') ∨ (refineLoop ctx n i d st = .error .keyError ∧ 0 < d ∧ ¬ all st.cf)
  | 0, i, d, st, _, _, _, _ => .inl ⟨st, rfl⟩
  | n + 1, i, d, st, hs, hp, hN, hd => by
    have hne : st.cf ≠ [] := by intro h; rw [h] at hd; simp [Dict.keys] at hd
    rcases refineStep_total (i := i) hs hp hg hN hne hd with ⟨r, hr⟩ | ⟨hr, h1, h2⟩
    swap
    · right
      refine ⟨?_, h1, h2⟩
      unfold refineLoop
      rw [hr]
      rfl
    obtain ⟨r1, r2⟩ := refineStep_spec hs hp hr
    have hl := filter_notMem_length hs.nodup r1.goneNodup r1.goneKeys
    have hlen : r.1.cf.length + r.2.2.length = st.cf.length := by
      rw [Dict.length_eq_keys, r1.keys, Dict.length_eq_keys st.cf]; exact hl
    have hrest := refineLoop_total hg hkeep hm n (i + 1) (d - min d ctx.perIteration) r1.sound (r1.pinsOk hp) (by omega) (by
        rcases hd with hd | ⟨c, hc, hcp⟩
        · left; omega
        · right
          refine ⟨c, ?_, hcp⟩
          rw [r1.keys]
          exact List.mem_filter.2 ⟨hc, by simpa using fun h => r1.goneFree c h hcp⟩)
    unfold refineLoop
    rw [hr]
    simp only [bind, Except.bind]
    have hc : ctx.movable.card ≠ 0 := Finset.card_ne_zero.2 hm
    have hrest' : (∃ st', refineLoop ctx n (i + 1) (d - min d ctx.perIteration) r.1 = .ok st') ∨
        (refineLoop ctx n (i + 1) (d - min d ctx.perIteration) r.1 = .error .keyError ∧ 0 < d ∧ ¬ all st.cf) :=
      hrest.imp_right (fun ⟨a, b, c⟩ => ⟨a, by omega, fun h => c (hkeep _ _ _ r1 hs h)⟩)
    split
    · split
      · exact .inl ⟨_, rfl⟩
      · exact hrest'
    · exact hrest'

theorem refineGroups_total {score : Finset Nat → Nat → Clustering → Except Err (Scores σ Int)} {ch : Chance}
    {cfg : GroupCfg} {pinned : Finset Nat} {cf : Clustering} {all : Clustering → Prop} (hn : cf.keys.Nodup) (hd : Disjointed cf)
    {N : Nat} (hg : GoodScore (featuresOf cf) (movableOf cf pinned) (score (movableOf cf pinned)) N all)
    (hN : (cf.length : Int) ≤ N ∧ effectiveTarget cfg cf ≤ N)
    (hkeep : ∀ gone st st', Refined (featuresOf cf) (movableOf cf pinned) (pinnedIn cf pinned) cfg.minFeatures gone st st' →
      Sound (featuresOf cf) st → all st.cf → all st'.cf)
    (hm : (movableOf cf pinned).Nonempty ∨ cf = []) (ht : cf ≠ [] → 1 ≤ effectiveTarget cfg cf ∨ pinnedIn cf pinned ≠ []) :
    (∃ r, refineGroups score ch cfg pinned cf = .ok r) ∨
    (refineGroups score ch cfg pinned cf = .error .keyError ∧ effectiveTarget cfg cf < cf.length ∧ ¬ all cf) := by
  unfold refineGroups
  simp only
  split
  · exact .inl ⟨_, rfl⟩
  · rename_i h0
    have hne : cf ≠ [] := by rintro rfl; exact h0 rfl
    have hm' := hm.resolve_right hne
    have ht' := ht hne
    split
    · exact .inl ⟨_, rfl⟩
    · set target := orDefault cfg.target cf.length with htarget
      have et : effectiveTarget cfg cf = target := rfl
      rw [et] at ht' hN ⊢
      have hs0 := sound_initial hn hd
      have hp0 := pinsOk_initial hn hd pinned
      have hfresh : ∀ c ∈ rangeFrom (nextLocalId cf) (target - cf.length), c ∉ cf.keys := by
        intro c hc hck
        have := (mem_rangeFrom.1 hc).1
        have := nextLocalId_fresh cf c hck
        omega
      obtain ⟨st, hst⟩ := splitAll_total (coin := ch.coin) (pinned := pinned) _ 0 hs0 (rangeFrom_nodup _ _) hfresh hne
      obtain ⟨s1, s2, s3, s4⟩ := splitAll_spec _ 0 hs0 (rangeFrom_nodup _ _) hfresh hst
      simp only at s2 s3 s4
      have hpin1 : PinsOk (featuresOf cf) (movableOf cf pinned) (pinnedIn cf pinned) st := by
        refine ⟨hp0.1, fun f hf hm c hc => ?_⟩
        have hfp : f ∈ pinned := by
          by_contra hfp
          exact hm (by rw [movableOf_eq]; exact Finset.mem_filter.2 ⟨hf, by simpa using hfp⟩)
        rw [s3 f hfp] at hc
        exact hp0.2 f hf hm c hc
      have hlen1 : (st.cf.length : Int) = cf.length + (target - cf.length).toNat := by
        rw [length_of_keys, s2, List.length_append, rangeFrom_length, ← length_of_keys]
        push_cast; rfl
      rw [hst]
      simp only [bind, Except.bind]
      set ctx : RefineCtx σ := ⟨score (movableOf cf pinned), ch, cfg.minFeatures, cfg.tolerance, pinnedIn cf pinned,
        movableOf cf pinned, (((st.cf.length : Int) - target).toNat + max 1 (cfg.iterations - 1) - 1) /
          max 1 (cfg.iterations - 1)⟩ with hctx
      have hpos : 0 < cf.length := List.length_pos_of_ne_nil hne
      have hloop := refineLoop_total (ctx := ctx) hg hkeep hm' cfg.iterations 0 ((st.cf.length : Int) - target).toNat s1
        hpin1 (by omega) (by
          rcases ht' with h | h
          · left; omega
          · right
            obtain ⟨c, hc⟩ := List.exists_mem_of_ne_nil _ h
            refine ⟨c, ?_, hc⟩
            rw [s2]
            obtain ⟨e, he, rfl⟩ := List.mem_map.1 hc
            exact List.mem_append_left _ (List.mem_map.2 ⟨e, (List.mem_filter.1 he).1, rfl⟩))
      rcases hloop with ⟨st', h'⟩ | ⟨h', h1, h2⟩
      · left
        have e : refineLoop ⟨score (movableOf cf pinned), ch, cfg.minFeatures, cfg.tolerance,
          (cf.filter (fun e => (e.2 ∩ pinned).Nonempty)).map (·.1),
          movableOf cf pinned, (((st.cf.length : Int) - target).toNat + max 1 (cfg.iterations - 1) - 1) /
          max 1 (cfg.iterations - 1)⟩ cfg.iterations 0 ((st.cf.length : Int) - target).toNat st = .ok st' := h'
        rw [e]
        exact ⟨_, rfl⟩
      · right
        have e : refineLoop ⟨score (movableOf cf pinned), ch, cfg.minFeatures, cfg.tolerance,
          (cf.filter (fun e => (e.2 ∩ pinned).Nonempty)).map (·.1),
          movableOf cf pinned, (((st.cf.length : Int) - target).toNat + max 1 (cfg.iterations - 1) - 1) /
          max 1 (cfg.iterations - 1)⟩ cfg.iterations 0 ((st.cf.length : Int) - target).toNat st = .error .keyError := h'
        rw [e]
        have hlt : target < cf.length := by omega
        refine ⟨rfl, hlt, ?_⟩
        have : rangeFrom (nextLocalId cf) (target - cf.length) = [] := by
          rw [← List.length_eq_zero_iff, rangeFrom_length]; omega
        rw [this] at hst
        cases hst
        exact h2

theorem refineGroups_no_valueError {score : Finset Nat → Nat → Clustering → Except Err (Scores σ Int)} {ch : Chance}
    {cfg : GroupCfg} {pinned : Finset Nat} {cf : Clustering} (hn : cf.keys.Nodup) (hd : Disjointed cf)
    (hscore : ∀ M i cf, score M i cf ≠ .error .valueError) :
    refineGroups score ch cfg pinned cf ≠ .error .valueError := by
  intro h
  unfold refineGroups at h
  simp only at h
  split at h
  · cases h
  · rename_i h0
    have hne : cf ≠ [] := by rintro rfl; exact h0 rfl
    split at h
    · cases h
    · set target := orDefault cfg.target cf.length with htarget
      have hs0 := sound_initial hn hd
      have hp0 := pinsOk_initial hn hd pinned
      have hfresh : ∀ c ∈ rangeFrom (nextLocalId cf) (target - cf.length), c ∉ cf.keys := by
        intro c hc hck
        have := (mem_rangeFrom.1 hc).1
        have := nextLocalId_fresh cf c hck
        omega
      obtain ⟨st, hst⟩ := splitAll_total (coin := ch.coin) (pinned := pinned) _ 0 hs0 (rangeFrom_nodup _ _) hfresh hne
      obtain ⟨s1, s2, s3, s4⟩ := splitAll_spec _ 0 hs0 (rangeFrom_nodup _ _) hfresh hst
      simp only at s2 s3 s4
      have hpin1 : PinsOk (featuresOf cf) (movableOf cf pinned) (pinnedIn cf pinned) st := by
        refine ⟨hp0.1, fun f hf hm c hc => ?_⟩
        have hfp : f ∈ pinned := by
          by_contra hfp
          exact hm (by rw [movableOf_eq]; exact Finset.mem_filter.2 ⟨hf, by simpa using hfp⟩)
        rw [s3 f hfp] at hc
        exact hp0.2 f hf hm c hc
      rw [hst] at h
      rcases bind_err h with h | ⟨_, h1, h⟩
      · cases h
      · cases h1
        rcases bind_err h with h | ⟨_, _, h⟩
        · exact refineLoop_no_valueError (fun i cf => hscore _ i cf) _ _ _ s1 hpin1 h
        · cases h

/-! ## When it fails -/

/-- With nothing to move and nothing to dissolve the first iteration divides by zero (or fails before). -/
theorem refineLoop_fails_unmovable {U : Finset Nat} {ctx : RefineCtx σ} (hm : ctx.movable = ∅) {n i d : Nat} {st : Assignment}
    (hs : Sound U st) (hp : PinsOk U ctx.movable ctx.withPins st) (hd : d = 0 ∨ ∀ c ∈ st.cf.keys, c ∈ ctx.withPins) :
    ∀ st', refineLoop ctx (n + 1) i d st ≠ .ok st' := by
  intro st' h
  unfold refineLoop at h
  obtain ⟨r, hr, h⟩ := bind_ok h
  obtain ⟨-, r2⟩ := refineStep_spec hs hp hr
  have h0 : r.2.2 = [] := by
    rw [← List.length_eq_zero_iff, r2]
    rcases hd with rfl | hd
    · simp
    · rw [List.filter_eq_nil_iff.2 (fun c hc => by simpa using hd c hc)]
      simp
  rw [if_pos h0, if_pos (by rw [hm]; rfl)] at h
  cases h

/-- Dissolving more clusters than there are, none of them with pins. -/
theorem refineLoop_fails_over {U : Finset Nat} {ctx : RefineCtx σ} (hU : U.Nonempty) (hw : ctx.withPins = []) :
    ∀ (n i d : Nat) {st : Assignment}, Sound U st → PinsOk U ctx.movable ctx.withPins st → st.cf.length < d →
      d ≤ n * ctx.perIteration → ∀ st', refineLoop ctx n i d st ≠ .ok st'
  | 0, i, d, st, _, _, h1, h2, _, _ => by simp at h2; omega
  | n + 1, i, d, st, hs, hp, h1, h2, st', h => by
    unfold refineLoop at h
    obtain ⟨r, hr, h⟩ := bind_ok h
    obtain ⟨r1, r2⟩ := refineStep_spec hs hp hr
    have hall : st.cf.keys.filter (· ∉ ctx.withPins) = st.cf.keys := by
      rw [hw]; simp
    rw [hall, ← Dict.length_eq_keys] at r2
    have hl := filter_notMem_length hs.nodup r1.goneNodup r1.goneKeys
    have hlen : r.1.cf.length + r.2.2.length = st.cf.length := by
      rw [Dict.length_eq_keys, r1.keys, Dict.length_eq_keys st.cf]; exact hl
    have hsome : ∀ {a : Assignment}, Sound U a → 0 < a.cf.length := by
      intro a ha
      obtain ⟨f, hf⟩ := hU
      obtain ⟨c, hc⟩ := (ha.all f).1 hf
      have := ha.key_of hc
      rw [Dict.length_eq_keys]
      exact List.length_pos_of_mem this
    have h3 := hsome hs
    have h4 := hsome r1.sound
    rw [Nat.succ_mul] at h2
    have h5 : 0 < ctx.perIteration := by
      rcases Nat.eq_zero_or_pos ctx.perIteration with h0 | h0
      · rw [h0] at h2; simp at h2; omega
      · exact h0
    have hne : r.2.2 ≠ [] := by
      intro h0
      rw [h0] at r2
      simp only [List.length_nil] at r2
      omega
    rw [if_neg hne] at h
    exact refineLoop_fails_over hU hw n (i + 1) _ r1.sound (r1.pinsOk hp) (by omega) (by omega) st' h

/-- The two ways to fail, whatever the scoring. -/
theorem refineGroups_fails {score : Finset Nat → Nat → Clustering → Except Err (Scores σ Int)} {ch : Chance}
    {cfg : GroupCfg} {pinned : Finset Nat} {cf : Clustering} (hn : cf.keys.Nodup) (hd : Disjointed cf) (hne : cf ≠ [])
    (hnonempty : ∀ c G, cf.get? c = some G → G.Nonempty) (hit : 1 ≤ cfg.iterations)
    (htriv : ¬ (cf.length = 1 ∧ effectiveTarget cfg cf = 1))
    (hbad : movableOf cf pinned = ∅ ∨ (effectiveTarget cfg cf < 0 ∧ pinnedIn cf pinned = [])) :
    ∀ r, refineGroups score ch cfg pinned cf ≠ .ok r := by
  intro r h
  unfold refineGroups at h
  simp only at h
  rw [if_neg (by rwa [List.length_eq_zero_iff]), if_neg (show ¬ (cf.length = 1 ∧ orDefault cfg.target cf.length = 1) from htriv)] at h
  set target := orDefault cfg.target cf.length with htarget
  have et : effectiveTarget cfg cf = target := rfl
  rw [et] at hbad
  have hs0 := sound_initial hn hd
  have hp0 := pinsOk_initial hn hd pinned
  have hfresh : ∀ c ∈ rangeFrom (nextLocalId cf) (target - cf.length), c ∉ cf.keys := by
    intro c hc hck
    have := (mem_rangeFrom.1 hc).1
    have := nextLocalId_fresh cf c hck
    omega
  obtain ⟨st, hst, h⟩ := bind_ok h
  obtain ⟨s1, s2, s3, s4⟩ := splitAll_spec _ 0 hs0 (rangeFrom_nodup _ _) hfresh hst
  simp only at s2 s3 s4
  have hpin1 : PinsOk (featuresOf cf) (movableOf cf pinned) (pinnedIn cf pinned) st := by
    refine ⟨hp0.1, fun f hf hm c hc => ?_⟩
    have hfp : f ∈ pinned := by
      by_contra hfp
      exact hm (by rw [movableOf_eq]; exact Finset.mem_filter.2 ⟨hf, by simpa using hfp⟩)
    rw [s3 f hfp] at hc
    exact hp0.2 f hf hm c hc
  have hlen1 : (st.cf.length : Int) = cf.length + (target - cf.length).toNat := by
    rw [length_of_keys, s2, List.length_append, rangeFrom_length, ← length_of_keys]
    push_cast; rfl
  obtain ⟨st', h', -⟩ := bind_ok h
  rcases hbad with hbad | ⟨ht, hbad⟩
  · obtain ⟨k, hk⟩ : ∃ k, cfg.iterations = k + 1 := ⟨cfg.iterations - 1, by omega⟩
    rw [hk] at h'
    refine refineLoop_fails_unmovable (U := featuresOf cf) (by exact hbad) s1 hpin1 ?_ st' h'
    by_cases hle : (cf.length : Int) ≤ target
    · left; omega
    · right
      intro c hc
      have hc' : c ∈ cf.keys := by
        rw [s2, List.mem_append] at hc
        rcases hc with hc | hc
        · exact hc
        · have := mem_rangeFrom.1 hc
          omega
      obtain ⟨G, hG⟩ := (Dict.get?_isSome _ _).2 hc'
      obtain ⟨f, hf⟩ := hnonempty c G hG
      refine (mem_pinnedIn hn pinned c).2 ⟨f, ?_, G, hG, hf⟩
      by_contra hfp
      have : f ∈ movableOf cf pinned := by
        rw [movableOf_eq]
        exact Finset.mem_filter.2 ⟨(mem_featuresOf hn f).2 ⟨c, G, hG, hf⟩, hfp⟩
      rw [hbad] at this
      simp at this
  · refine refineLoop_fails_over (U := featuresOf cf) ?_ (by exact hbad) _ _ _ s1 hpin1 ?_ ?_ st' h'
    · obtain ⟨e, he⟩ := List.exists_mem_of_ne_nil _ hne
      obtain ⟨f, hf⟩ := hnonempty e.1 e.2 (Dict.get?_of_mem hn he)
      exact ⟨f, (mem_featuresOf hn f).2 ⟨e.1, e.2, Dict.get?_of_mem hn he, hf⟩⟩
    · omega
    · dsimp only
      set D := ((st.cf.length : Int) - target).toNat
      have hr : 0 < max 1 (cfg.iterations - 1) := by omega
      have hle : max 1 (cfg.iterations - 1) ≤ cfg.iterations := by omega
      have h1 : D ≤ max 1 (cfg.iterations - 1) * ((D + max 1 (cfg.iterations - 1) - 1) / max 1 (cfg.iterations - 1)) := by
        set R := max 1 (cfg.iterations - 1)
        have := Nat.lt_mul_div_succ (D + R - 1) hr
        rw [Nat.mul_succ] at this
        omega
      exact h1.trans (Nat.mul_le_mul_right _ hle)

/-- When the scoring of a clustering knows nothing, the first iteration fails. -/
theorem refineStep_unscored {ctx : RefineCtx σ} {i d : Nat} {st : Assignment} (hm : ctx.movable.Nonempty)
    (hs : ∀ s, ctx.score i st.cf = .ok s → s = ([], [])) (r : Assignment × Nat × List Int) : refineStep ctx i d st ≠ .ok r := by
  intro h
  unfold refineStep at h
  obtain ⟨s, h1, h⟩ := bind_ok h
  obtain rfl := hs s h1
  obtain ⟨ids, -, h⟩ := bind_ok h
  obtain ⟨m, h2, -⟩ := bind_ok h
  obtain ⟨f, hf⟩ := hm
  have hmem := (mem_order ctx i f).2 hf
  cases hl : ctx.chance.order i (Bitmap.elems ctx.movable) with
  | nil => rw [hl] at hmem; cases hmem
  | cons x l =>
    rw [hl, List.foldlM_cons] at h2
    obtain ⟨a, h3, -⟩ := bind_ok h2
    unfold moveOne at h3
    obtain ⟨d, h4, -⟩ := bind_ok h3
    unfold bestMove at h4
    obtain ⟨v, h5, -⟩ := bind_ok h4
    cases h5

/-- When the first scoring knows nothing, the refinement fails. -/
theorem refineGroups_unscored {score : Finset Nat → Nat → Clustering → Except Err (Scores σ Int)} {ch : Chance}
    {cfg : GroupCfg} {pinned : Finset Nat} {cf : Clustering} (hn : cf.keys.Nodup) (hd : Disjointed cf) (hne : cf ≠ [])
    (hi : 1 ≤ cfg.iterations) (hm : (movableOf cf pinned).Nonempty) (h1 : ¬ (cf.length = 1 ∧ effectiveTarget cfg cf = 1))
    (hs : ∀ st : Assignment, st.cf.keys.Nodup → (st.cf.length : Int) = max (cf.length : Int) (effectiveTarget cfg cf) →
      ∀ s, score (movableOf cf pinned) 0 st.cf = .ok s → s = ([], []))
    (r : Clustering × List Int) : refineGroups score ch cfg pinned cf ≠ .ok r := by
  intro h
  change ¬ (cf.length = 1 ∧ orDefault cfg.target (cf.length : Int) = 1) at h1
  unfold refineGroups at h
  simp only at h
  rw [if_neg (by have := List.length_pos_of_ne_nil hne; omega), if_neg h1] at h
  obtain ⟨st, hst, h⟩ := bind_ok h
  obtain ⟨st', h', -⟩ := bind_ok h
  set target := orDefault cfg.target cf.length with htarget
  have et : effectiveTarget cfg cf = target := rfl
  rw [et] at hs
  have hfresh : ∀ c ∈ rangeFrom (nextLocalId cf) (target - cf.length), c ∉ cf.keys := by
    intro c hc hck
    have := (mem_rangeFrom.1 hc).1
    have := nextLocalId_fresh cf c hck
    omega
  obtain ⟨s1, s2, -, -⟩ := splitAll_spec _ 0 (sound_initial hn hd) (rangeFrom_nodup _ _) hfresh hst
  simp only at s2
  have hlen1 : (st.cf.length : Int) = cf.length + (target - cf.length).toNat := by
    rw [length_of_keys, s2, List.length_append, rangeFrom_length, ← length_of_keys]
    push_cast; rfl
  obtain ⟨k, hk⟩ : ∃ k, cfg.iterations = k + 1 := ⟨cfg.iterations - 1, by omega⟩
  rw [hk, refineLoop] at h'
  obtain ⟨q, hq, -⟩ := bind_ok h'
  exact refineStep_unscored hm (hs st s1.nodup (by omega)) q hq

/-- The code's scoring is good enough. -/
theorem exactScorer_good (ch : Chance) (args : RefineArgs) (db : DB) (batches : Nat) (U movable : Finset Nat)
    (hmv : ∀ f ∈ movable, f ∈ U) (hm : movable.Nonempty) (N : Nat)
    (hk : 1 ≤ args.groupTopK ∨ batches = 0 ∨ N < 2 * batches) :
    GoodScore U movable (exactScorer ch args db batches movable) N (fun cf => batches ≤ 1 ∨ cf.length < 2 * batches ∨
      (batches ≤ args.groupTopK ∧ 1 ≤ args.minFeatures ∧ ∀ c G, cf.get? c = some G → args.minFeatures ≤ G.card)) := by
  intro i st hs hne hN
  have hC := measureContribution_complete db.docsOf args.probe
  have hmov : ∀ f ∈ movable, ∃ c G, st.cf.get? c = some G ∧ f ∈ G := by
    intro f hf
    obtain ⟨c, hc⟩ := (hs.all f).1 (hmv f hf)
    obtain ⟨G, hG, hfG⟩ := (hs.agree f c).1 hc
    exact ⟨c, G, hG, hfG⟩
  obtain ⟨s, checks, h1, h2, h3, h4, h5, h6, h7, h8⟩ := findBestMoves_spec hC hs.nodup hne
    (ch.clusterOrder_perm i st.cf.keys) movable hmov batches args.groupTopK (hk.imp_right (Or.imp_right (by omega)))
  obtain ⟨t1, t2, t3, -⟩ := scoreProposedMoves_spec hC.distinct h3 h2
  refine ⟨s, h1, ?_, ?_⟩
  · intro f hf
    obtain ⟨c, G, A, hG, hGne, hA, hfA⟩ := h5 f (Or.inl hf)
    obtain ⟨sc, hsc⟩ := tested_exists hC hG hA hGne (Or.inr hfA)
    obtain ⟨L, hL⟩ := t2 f ⟨_, hsc⟩
    have htop := (t1 f L hL).1
    have hne' : L ≠ [] := by
      rintro rfl
      have := (htop.best _ hsc (by simp)).1
      simp at this
    obtain ⟨y, T, rfl⟩ := List.exists_cons_of_ne_nil hne'
    obtain ⟨G', A', r', hG', -⟩ := htop.members y (by simp)
    refine ⟨(ofLex y).2, ?_, (Dict.get?_isSome _ _).1 ⟨G', hG'⟩⟩
    unfold bestMove
    rw [Dict.getE_eq _ _ _ hL]
    rfl
  · intro hb c hc
    obtain ⟨f, hf⟩ := hm
    have hck : c ∈ checks.keys := by
      rcases hb with hb | hb | ⟨hb, hmin, hall⟩
      · obtain ⟨A, hA, -⟩ := h7 hb f (Or.inl hf) c hc
        exact (Dict.get?_isSome _ _).1 ⟨A, hA⟩
      rotate_left
      · by_cases hdense : batches = 0 ∨ batches * 2 > st.cf.length
        · obtain ⟨A, hA, -⟩ := h6 hdense c hc
          exact (Dict.get?_isSome _ _).1 ⟨A, hA⟩
        obtain ⟨groups, M, g1, g2, -, g4, g5⟩ := h8 hdense
        have hfM : f ∈ M := (g4 f).2 (Or.inl hf)
        obtain ⟨L, hL, hLc⟩ := g5 f hfM
        obtain ⟨g, hg, hcg⟩ := List.mem_flatten.1 (g2.mem_iff.2 hc)
        obtain ⟨G, hG⟩ := (Dict.get?_isSome _ _).2 hc
        have hGne : G.Nonempty := Finset.card_pos.1 (by have := hall c G hG; omega)
        have hU : (groupUnion st.cf g).Nonempty := by
          obtain ⟨x, hx⟩ := hGne
          exact ⟨x, by unfold groupUnion; exact Finset.mem_biUnion.2 ⟨c, List.mem_toFinset.2 hcg, by rw [hG]; exact hx⟩⟩
        obtain ⟨r, hr⟩ := hC.total (groupUnion st.cf g) (M \ groupUnion st.cf g)
        have hsc := (hC.scored _ _ r f hr).2 ⟨hU, by
          by_cases h : f ∈ groupUnion st.cf g
          · exact .inl h
          · exact .inr (Finset.mem_sdiff.2 ⟨hfM, h⟩)⟩
        obtain ⟨⟨f', sc⟩, hmem, e⟩ := List.mem_map.1 hsc
        dsimp only at e
        subst e
        have hin : (toLex (sc, g) : Rat ×ₗ List Int) ∈ L := by
          by_contra hout
          have hfull := (hL.best (toLex (sc, g)) ⟨hg, r, hr, hmem⟩ hout).1
          have hnd : (L.map (fun x => (ofLex x).2)).Nodup := by
            have hLn : L.Nodup := hL.descending.imp (fun h => ne_of_gt h)
            refine hLn.map_on ?_
            intro x hx y hy hxy
            obtain ⟨-, rx, hrx, hx'⟩ := hL.members x hx
            obtain ⟨-, ry, hry, hy'⟩ := hL.members y hy
            rw [← hxy, hrx] at hry
            cases hry
            have := List.inj_on_of_nodup_map (hC.distinct _ _ rx hrx) hx' hy' rfl
            have h1 : (ofLex x).1 = (ofLex y).1 := congrArg Prod.snd this
            exact ofLex.injective (Prod.ext h1 hxy)
          have hg' : g ∉ L.map (fun x => (ofLex x).2) := by
            intro h
            obtain ⟨y, hy, e⟩ := List.mem_map.1 h
            obtain ⟨-, ry, hry, hy'⟩ := hL.members y hy
            rw [e, hr] at hry
            cases hry
            have := List.inj_on_of_nodup_map (hC.distinct _ _ r hr) hmem hy' rfl
            have h1 : sc = (ofLex y).1 := congrArg Prod.snd this
            apply hout
            have : y = toLex (sc, g) := ofLex.injective (Prod.ext h1.symm e)
            rw [← this]; exact hy
          have hsub : (g :: L.map (fun x => (ofLex x).2)) ⊆ groups := by
            intro z hz
            rcases List.mem_cons.1 hz with rfl | hz
            · exact hg
            · obtain ⟨y, hy, rfl⟩ := List.mem_map.1 hz
              exact (hL.members y hy).1
          have := (List.Nodup.subperm (List.nodup_cons.2 ⟨hg', hnd⟩) hsub).length_le
          simp only [List.length_cons, List.length_map] at this
          omega
        obtain ⟨A, hA, -⟩ := (hLc c).2 ⟨_, hin, hcg⟩
        exact (Dict.get?_isSome _ _).1 ⟨A, hA⟩
      · obtain ⟨A, hA, -⟩ := h6 (.inr (by omega)) c hc
        exact (Dict.get?_isSome _ _).1 ⟨A, hA⟩
    obtain ⟨G, hG⟩ := (Dict.get?_isSome _ _).2 hc
    obtain ⟨A, hA⟩ := (Dict.get?_isSome _ _).2 hck
    obtain ⟨r, hr⟩ := hC.total G (A \ G)
    exact (Dict.get?_isSome _ _).1 ⟨r.objective, (t3 c r.objective).2 ⟨G, A, r, hG, hA, hr, rfl⟩⟩

end Hyperreal
