import Verif.Lemmas.SeededSame

/-! Every run with a generator is a run of `Verif.Model.Refine` for some outcomes of the draws. -/

namespace Hyperreal
open Spec

/-- The outcomes of the draws of one iteration. -/
structure Round where
  order : List Nat → List Nat
  order_perm : ∀ l, (order l).Perm l
  accept : Nat → Bool
  pick : Nat → Nat
  clusterOrder : List Int → List Int
  clusterOrder_perm : ∀ l, (clusterOrder l).Perm l
  setOrder : List Int → List Int
  setOrder_perm : ∀ l, (setOrder l).Perm l

/-- The draws of iteration `i`. -/
def Chance.round (ch : Chance) (i : Nat) : Round :=
  ⟨ch.order i, ch.order_perm i, ch.accept i, ch.pick i, ch.clusterOrder i, ch.clusterOrder_perm i, ch.setOrder i,
    ch.setOrder_perm i⟩

/-- Outcomes given by coins and rounds. -/
def Chance.ofRounds (coin : Nat → Nat → Bool) (r : Nat → Round) : Chance :=
  ⟨coin, fun i => (r i).order, fun i => (r i).order_perm, fun i => (r i).accept, fun i => (r i).pick,
    fun i => (r i).clusterOrder, fun i => (r i).clusterOrder_perm, fun i => (r i).setOrder, fun i => (r i).setOrder_perm⟩

section
variable {ρ : Type} (g : Generator ρ) {σ : Type} [LinearOrder σ]

/-- The draws split a list of distinct features as some coins do. -/
theorem drawSplit_coins (pinned : Finset Nat) : ∀ (l : List Nat), l.Nodup → ∀ s, ∃ (coin : Nat → Bool) (s' : ρ),
    drawSplit g pinned l s = (.ok (l.toFinset.filter (fun f => coin f = true ∧ f ∉ pinned)), s')
  | [], _, s => ⟨fun _ => true, s, rfl⟩
  | f :: fs, hn, s => by
    obtain ⟨hf, hn'⟩ := List.nodup_cons.1 hn
    obtain ⟨coin, s', h⟩ := drawSplit_coins pinned fs hn' (g.random s).2
    refine ⟨fun x => if x = f then decide ((g.random s).1 < 1 / 2) else coin x, s', ?_⟩
    show (g.below (1 / 2) >>= fun head => drawSplit g pinned fs >>= fun rest =>
      pure (if head = true ∧ f ∉ pinned then insert f rest else rest)) s = _
    rw [Draw.run_bind]
    simp only [Generator.below]
    rw [Draw.run_bind, h]
    simp only [pure]
    refine Prod.ext ?_ rfl
    simp only [Except.ok.injEq]
    have hrest : fs.toFinset.filter (fun x => (if x = f then decide ((g.random s).1 < 1 / 2) else coin x) = true ∧ x ∉ pinned)
        = fs.toFinset.filter (fun x => coin x = true ∧ x ∉ pinned) := by
      apply Finset.filter_congr
      intro x hx
      have : x ≠ f := fun e => hf (by simpa [e] using hx)
      simp [this]
    rw [List.toFinset_cons, Finset.filter_insert, hrest]
    simp only [if_true]

theorem splitLargestDraw_coins (lay : Layout) (i : Nat) (pinned : Finset Nat) (new : Int) (st : Assignment) (s : ρ) :
    ∃ coin : Nat → Bool, (splitLargestDraw g lay i pinned new st s).1 = splitLargest coin pinned new st := by
  unfold splitLargestDraw splitLargest
  cases h : largestCluster st.cf with
  | none => exact ⟨fun _ => true, rfl⟩
  | some x =>
    obtain ⟨big, features⟩ := x
    simp only
    have hp := lay.features_perm i features
    obtain ⟨coin, s', hd⟩ := drawSplit_coins g pinned (lay.features i features) (hp.nodup_iff.2 (Bitmap.elems_nodup _)) s
    refine ⟨coin, ?_⟩
    rw [Draw.run_bind, hd]
    simp only
    rw [List.toFinset_eq_of_perm _ _ hp, Bitmap.elems_toFinset]
    cases hb : (st.cf.set new (features.filter (fun f => coin f = true ∧ f ∉ pinned))).getE big with
    | error e => rfl
    | ok r => rfl

theorem splitAllDraw_coins (lay : Layout) (pinned : Finset Nat) : ∀ (ids : List Int) (i : Nat) (st : Assignment) (s : ρ),
    ∃ coin : Nat → Nat → Bool, ∀ coin' : Nat → Nat → Bool, (∀ j, i ≤ j → coin' j = coin j) →
      (splitAllDraw g lay pinned i ids st s).1 = splitAll coin' pinned i ids st
  | [], i, st, s => ⟨fun _ _ => true, fun _ _ => rfl⟩
  | new :: rest, i, st, s => by
    obtain ⟨c, hc⟩ := splitLargestDraw_coins g lay i pinned new st s
    rcases hx : splitLargestDraw g lay i pinned new st s with ⟨r, s'⟩
    rw [hx] at hc
    simp only at hc
    cases r with
    | error e =>
      refine ⟨fun _ => c, fun coin' h => ?_⟩
      show ((splitLargestDraw g lay i pinned new st >>= _) s).1 = _
      rw [Draw.run_bind, hx]
      simp only [splitAll]
      rw [h i (le_refl _), ← hc]
      rfl
    | ok st' =>
      obtain ⟨coin, hcoin⟩ := splitAllDraw_coins lay pinned rest (i + 1) st' s'
      refine ⟨fun j => if j = i then c else coin j, fun coin' h => ?_⟩
      show ((splitLargestDraw g lay i pinned new st >>= fun st => splitAllDraw g lay pinned (i + 1) rest st) s).1 = _
      rw [Draw.run_bind, hx]
      simp only [splitAll]
      have hi : coin' i = c := by rw [h i (le_refl _)]; simp
      rw [hi, ← hc]
      refine hcoin coin' (fun j hj => ?_)
      rw [h j (by omega)]
      show (if j = i then c else coin j) = coin j
      rw [if_neg (by omega)]

/-- A choice from a list is a choice from any other arrangement of it. -/
theorem chosen_choice {l l' : List Int} (hp : l.Perm l') (s : ρ) : ∃ i, (g.chosen l s).1 = choice l' i := by
  unfold Generator.chosen
  by_cases h : l.length = 0
  · rw [if_pos h]
    have hl' : l' = [] := List.length_eq_zero_iff.1 (by rw [← hp.length_eq]; exact h)
    subst hl'
    exact ⟨0, rfl⟩
  · rw [if_neg h]
    simp only [choice]
    have hlt : (g.choose l.length s).1 % l.length < l.length := Nat.mod_lt _ (by omega)
    rw [List.getElem?_eq_getElem hlt]
    have hm : l[(g.choose l.length s).1 % l.length] ∈ l' := hp.mem_iff.1 (List.getElem_mem hlt)
    obtain ⟨i, hi, he⟩ := List.mem_iff_getElem.1 hm
    refine ⟨i, ?_⟩
    rw [Nat.mod_eq_of_lt hi, List.getElem?_eq_getElem hi, he]

omit [LinearOrder σ] in
theorem moveOneDraw_link (b : Dict Nat (List (σ ×ₗ Int))) (dis : List Int) {pos pos' : List Int} (hp : pos.Perm pos')
    (m : Nat) (p : Rat) (st : Assignment × Nat) (f : Nat) (s : ρ) : ∃ (a : Bool) (k : Nat),
    ∀ (accept : Nat → Bool) (pick : Nat → Nat), accept f = a → pick f = k →
      (moveOneDraw g b dis pos m p st f s).1 = moveOne b dis pos' m accept pick st f := by
  obtain ⟨k, hk⟩ := chosen_choice g hp (g.random s).2
  refine ⟨decide ((g.random s).1 < p), k, ?_⟩
  intro accept pick ha hpk
  unfold moveOneDraw moveOne
  cases bestMove b f with
  | error e => rfl
  | ok dst =>
    rw [Draw.lift_ok_bind]
    cases st.1.fc.getE f with
    | error e => rfl
    | ok cur =>
      rw [Draw.lift_ok_bind, Draw.run_bind]
      simp only [Generator.below]
      show _ = (if cur ∈ dis then _ else _ : Except Err (Assignment × Nat))
      by_cases h1 : cur ∈ dis
      · rw [if_pos h1, if_pos h1, Draw.run_bind]
        unfold rehomeDraw rehome
        by_cases h2 : dst ∈ dis
        · simp only [if_pos h2, hpk]
          rcases hx : g.chosen pos (g.random s).2 with ⟨r, s'⟩
          rw [hx] at hk
          simp only at hk
          rw [← hk]
          cases r with
          | error e => rfl
          | ok d =>
            simp only
            cases hd : doMove f cur d st.1 with
            | error e => simp only [bind, Except.bind, hd, Draw.lift]
            | ok a => simp only [bind, Except.bind, hd, Draw.lift, pure, Except.pure]
        · simp only [if_neg h2]
          cases hd : doMove f cur dst st.1 with
          | error e => simp only [bind, Except.bind, hd, Draw.lift, pure]
          | ok a => simp only [bind, Except.bind, hd, Draw.lift, pure, Except.pure]
      · rw [if_neg h1, if_neg h1]
        by_cases h2 : dst ∈ dis
        · rw [if_pos h2, if_pos h2]; rfl
        · rw [if_neg h2, if_neg h2]
          by_cases h3 : cur = dst
          · rw [if_pos h3, if_pos h3]; rfl
          · rw [if_neg h3, if_neg h3]
            cases hg : st.1.cf.getE cur with
            | error e => rfl
            | ok fs =>
              rw [Draw.lift_ok_bind]
              simp only [bind, Except.bind]
              by_cases h4 : fs.card = m
              · rw [if_pos h4, if_pos h4]; rfl
              · rw [if_neg h4, if_neg h4, ha]
                by_cases h5 : (g.random s).1 < p
                · rw [decide_eq_true h5, if_pos rfl]
                  cases hd : doMove f cur dst st.1 with
                  | error e => rfl
                  | ok a => rfl
                · rw [decide_eq_false h5, if_neg Bool.false_ne_true]
                  rfl

omit [LinearOrder σ] in
theorem movesDraw_link (b : Dict Nat (List (σ ×ₗ Int))) (dis : List Int) {pos pos' : List Int} (hp : pos.Perm pos')
    (m : Nat) (p : Rat) : ∀ (l : List Nat), l.Nodup → ∀ (st : Assignment × Nat) (s : ρ),
    ∃ (accept : Nat → Bool) (pick : Nat → Nat), ∀ (accept' : Nat → Bool) (pick' : Nat → Nat),
      (∀ f ∈ l, accept' f = accept f ∧ pick' f = pick f) →
      (movesDraw g b dis pos m p st l s).1 = l.foldlM (moveOne b dis pos' m accept' pick') st
  | [], _, st, s => ⟨fun _ => true, fun _ => 0, fun _ _ _ => rfl⟩
  | f :: fs, hn, st, s => by
    obtain ⟨hf, hn'⟩ := List.nodup_cons.1 hn
    obtain ⟨a, k, hone⟩ := moveOneDraw_link g b dis hp m p st f s
    rcases hx : moveOneDraw g b dis pos m p st f s with ⟨r, s'⟩
    rw [hx] at hone
    simp only at hone
    cases r with
    | error e =>
      refine ⟨fun _ => a, fun _ => k, fun accept' pick' h => ?_⟩
      show ((moveOneDraw g b dis pos m p st f >>= _) s).1 = _
      rw [Draw.run_bind, hx, List.foldlM_cons, ← hone accept' pick' (h f (by simp)).1 (h f (by simp)).2]
      rfl
    | ok st' =>
      obtain ⟨acc, pk, hrest⟩ := movesDraw_link b dis hp m p fs hn' st' s'
      refine ⟨fun x => if x = f then a else acc x, fun x => if x = f then k else pk x, fun accept' pick' h => ?_⟩
      show ((moveOneDraw g b dis pos m p st f >>= fun st => movesDraw g b dis pos m p st fs) s).1 = _
      have h0 := h f (by simp)
      simp only [if_true] at h0
      rw [Draw.run_bind, hx, List.foldlM_cons, ← hone accept' pick' h0.1 h0.2]
      simp only [bind, Except.bind]
      refine hrest accept' pick' (fun x hx => ?_)
      have hxf : x ≠ f := fun e => hf (e ▸ hx)
      have := h x (List.mem_cons_of_mem _ hx)
      simpa [hxf] using this

/-- Scoring for given outcomes: the shuffled cluster ids are an outcome. -/
def scoreOf (score : Nat → List Int → Clustering → Except Err (Scores σ Int)) (ch : Chance) (i : Nat) (cf : Clustering) :
    Except Err (Scores σ Int) := score i (ch.clusterOrder i cf.keys) cf

/-- Outcomes that agree from iteration `i` on. -/
def AgreeFrom (i : Nat) (ch ch' : Chance) : Prop := ∀ j, i ≤ j → ch.round j = ch'.round j

theorem step_link (ctx : DrawCtx σ) (i d : Nat) (visit : List Nat) (hv : visit.Perm (Bitmap.elems ctx.movable))
    (st : Assignment) (s : ρ) : ∃ rd : Round, ∀ ch : Chance, ch.round i = rd →
      refineStep ⟨scoreOf ctx.score ch, ch, ctx.minFeatures, ctx.tolerance, ctx.withPins, ctx.movable, ctx.perIteration⟩ i d st
        = (refineStepDraw g ctx i d visit st s).1.map (fun r => (r.1, r.2.1, r.2.2.1)) := by
  classical
  -- the outcomes of the shuffles
  have hsh : ∀ {α : Type} (l : List α) (s : ρ), ∃ l', g.shuffled l s = (.ok l', (g.shuffle l.length s).2) ∧ l'.Perm l := by
    intro α l s
    exact ⟨_, rfl, shuffled_perm g l s _ rfl⟩
  obtain ⟨v, hv1, hvp⟩ := hsh visit (g.shuffle st.cf.keys.length s).2
  set s2 := (g.shuffle visit.length (g.shuffle st.cf.keys.length s).2).2 with hs2
  obtain ⟨ids, hi1, hip⟩ := hsh st.cf.keys s
  set s1 := (g.shuffle st.cf.keys.length s).2 with hs1
  -- what happens after the scores
  have hmoves : ∀ (b : Dict Nat (List (σ ×ₗ Int))) (dis : List Int), ∃ (accept : Nat → Bool) (pick : Nat → Nat),
      (movesDraw g b dis (ctx.layout.possible i (st.cf.keys.filter (· ∉ dis))) ctx.minFeatures ctx.p (st, 0) v s2).1 =
        v.foldlM (moveOne b dis (st.cf.keys.filter (· ∉ dis)) ctx.minFeatures accept pick) (st, 0) := by
    intro b dis
    obtain ⟨a, k, h⟩ := movesDraw_link g b dis (ctx.layout.possible_perm i (st.cf.keys.filter (· ∉ dis))) ctx.minFeatures ctx.p v
      ((hvp.trans hv).nodup_iff.2 (Bitmap.elems_nodup _)) (st, 0) s2
    exact ⟨a, k, h a k (fun _ _ => ⟨rfl, rfl⟩)⟩
  let mk : (Nat → Bool) → (Nat → Nat) → Round := fun accept pick =>
    ⟨fun l => if l = Bitmap.elems ctx.movable then v else l,
      fun l => by
        split
        · rename_i h; rw [h]; exact hvp.trans hv
        · exact List.Perm.refl _,
      accept, pick, fun l => if l = st.cf.keys then ids else l,
      fun l => by
        split
        · rename_i h; rw [h]; exact hip
        · exact List.Perm.refl _,
      ctx.layout.candidates i, ctx.layout.candidates_perm i⟩
  have fields : ∀ (ch : Chance) (a : Nat → Bool) (k : Nat → Nat), ch.round i = mk a k →
      ch.order i (Bitmap.elems ctx.movable) = v ∧ ch.accept i = a ∧ ch.pick i = k ∧ ch.clusterOrder i st.cf.keys = ids ∧
      ch.setOrder i = ctx.layout.candidates i := by
    intro ch a k h
    have h1 : (ch.round i).order = (mk a k).order := by rw [h]
    have h2 : (ch.round i).accept = (mk a k).accept := by rw [h]
    have h3 : (ch.round i).pick = (mk a k).pick := by rw [h]
    have h4 : (ch.round i).clusterOrder = (mk a k).clusterOrder := by rw [h]
    have h5 : (ch.round i).setOrder = (mk a k).setOrder := by rw [h]
    refine ⟨?_, h2, h3, ?_, h5⟩
    · have := congrFun h1 (Bitmap.elems ctx.movable)
      simpa [mk, Chance.round] using this
    · have := congrFun h4 st.cf.keys
      simpa [mk, Chance.round] using this
  cases hsc : ctx.score i ids st.cf with
  | error e =>
    refine ⟨mk (fun _ => true) (fun _ => 0), fun ch hch => ?_⟩
    obtain ⟨f1, f2, f3, f4, f5⟩ := fields ch _ _ hch
    unfold refineStep refineStepDraw
    rw [Draw.run_bind, hi1]
    simp only [scoreOf, f4, hsc]
    rfl
  | ok scores =>
    cases hdis : toDissolve scores.1 (ctx.layout.candidates i (st.cf.keys.filter (· ∉ ctx.withPins))) d ctx.perIteration with
    | error e =>
      refine ⟨mk (fun _ => true) (fun _ => 0), fun ch hch => ?_⟩
      obtain ⟨f1, f2, f3, f4, f5⟩ := fields ch _ _ hch
      unfold refineStep refineStepDraw
      rw [Draw.run_bind, hi1]
      simp only [scoreOf, f4, f5, hsc, hdis, Draw.lift_ok_bind, Draw.lift_error_bind]
      simp only [bind, Except.bind, hdis]
      rfl
    | ok dis =>
      obtain ⟨a, k, hak⟩ := hmoves scores.2 dis
      refine ⟨mk a k, fun ch hch => ?_⟩
      obtain ⟨f1, f2, f3, f4, f5⟩ := fields ch _ _ hch
      unfold refineStep refineStepDraw
      rw [Draw.run_bind, hi1]
      simp only [scoreOf, f4, f5, hsc, hdis, Draw.lift_ok_bind, f1, f2, f3]
      rw [Draw.run_bind, hv1]
      dsimp only
      rw [Draw.run_bind]
      rcases hx : movesDraw g scores.2 dis (ctx.layout.possible i (st.cf.keys.filter (· ∉ dis))) ctx.minFeatures ctx.p (st, 0)
        v s2 with ⟨r, s3⟩
      rw [hx] at hak
      dsimp only at hak
      show (Except.ok scores >>= _) = _
      simp only [bind, Except.bind, hdis]
      rw [← hak]
      cases r with
      | error e => rfl
      | ok r =>
        simp only
        cases hr : removeDissolved dis r.1.cf with
        | error e => simp only [hr, Draw.lift]; rfl
        | ok cf => simp only [hr, Draw.lift]; rfl

theorem step_visit (ctx : DrawCtx σ) (i d : Nat) (visit : List Nat) (st : Assignment) :
    (refineStepDraw g ctx i d visit st).Gives (fun r => r.2.2.2.Perm visit) := by
  unfold refineStepDraw
  refine Draw.gives_bind (Draw.gives_true _) (fun _ _ => ?_)
  refine Draw.gives_bind (Draw.gives_true _) (fun _ _ => ?_)
  refine Draw.gives_bind (Draw.gives_true _) (fun _ _ => ?_)
  refine Draw.gives_bind (shuffled_perm g visit) (fun v hv => ?_)
  refine Draw.gives_bind (Draw.gives_true _) (fun _ _ => ?_)
  refine Draw.gives_bind (Draw.gives_true _) (fun _ _ => ?_)
  exact Draw.gives_pure hv

theorem loop_link (ctx : DrawCtx σ) : ∀ (n i d : Nat) (visit : List Nat) (_ : visit.Perm (Bitmap.elems ctx.movable))
    (st : Assignment) (s : ρ), ∃ rds : Nat → Round, ∀ ch : Chance, (∀ j, i ≤ j → ch.round j = rds j) →
      refineLoop ⟨scoreOf ctx.score ch, ch, ctx.minFeatures, ctx.tolerance, ctx.withPins, ctx.movable, ctx.perIteration⟩ n i d st
        = (refineLoopDraw g ctx n i d visit st s).1
  | 0, i, d, visit, hv, st, s => by
    obtain ⟨rd, -⟩ := step_link g ctx 0 d visit hv st s
    exact ⟨fun _ => rd, fun _ _ => rfl⟩
  | n + 1, i, d, visit, hv, st, s => by
    obtain ⟨rd, hrd⟩ := step_link g ctx i d visit hv st s
    have hvis := step_visit g ctx i d visit st s
    rcases hx : refineStepDraw g ctx i d visit st s with ⟨r, s'⟩
    rw [hx] at hrd hvis
    simp only at hrd hvis
    cases r with
    | error e =>
      refine ⟨fun _ => rd, fun ch hch => ?_⟩
      unfold refineLoop refineLoopDraw
      rw [hrd ch (hch i (le_refl _)), Draw.run_bind, hx]
      rfl
    | ok r =>
      obtain ⟨rds, hrds⟩ := loop_link ctx n (i + 1) (d - min d ctx.perIteration) r.2.2.2 ((hvis r rfl).trans hv) r.1 s'
      refine ⟨fun j => if j = i then rd else rds j, fun ch hch => ?_⟩
      have h0 : ch.round i = rd := by rw [hch i (le_refl _)]; simp
      have hrest := hrds ch (fun j hj => by exact (hch j (by omega)).trans (if_neg (by omega)))
      unfold refineLoop refineLoopDraw
      rw [hrd ch h0, Draw.run_bind, hx]
      simp only [Except.map, bind, Except.bind]
      by_cases h1 : r.2.2.1 = []
      · rw [if_pos h1, if_pos h1]
        by_cases h2 : ctx.movable.card = 0
        · rw [if_pos h2, if_pos h2]; rfl
        · rw [if_neg h2, if_neg h2]
          by_cases h3 : (r.2.1 : Rat) / (ctx.movable.card : Rat) < ctx.tolerance
          · rw [if_pos h3, if_pos h3]; rfl
          · rw [if_neg h3, if_neg h3]; exact hrest
      · rw [if_neg h1, if_neg h1]; exact hrest

theorem groups_link (score : Finset Nat → Nat → List Int → Clustering → Except Err (Scores σ Int)) (lay : Layout) (p : Rat)
    (cfg : GroupCfg) (pinned : Finset Nat) (cf : Clustering) (s : ρ) : ∃ ch : Chance,
    refineGroups (fun M => scoreOf (score M) ch) ch cfg pinned cf = (refineGroupsDraw g score lay p cfg pinned cf s).1 := by
  let one : Round := ⟨id, fun _ => .refl _, fun _ => true, fun _ => 0, id, fun _ => .refl _, id, fun _ => .refl _⟩
  unfold refineGroups refineGroupsDraw
  simp only
  by_cases h0 : cf.length = 0
  · exact ⟨Chance.ofRounds (fun _ _ => true) (fun _ => one), by rw [if_pos h0, if_pos h0]; rfl⟩
  · by_cases h1 : cf.length = 1 ∧ orDefault cfg.target cf.length = 1
    · exact ⟨Chance.ofRounds (fun _ _ => true) (fun _ => one), by rw [if_neg h0, if_neg h0, if_pos h1, if_pos h1]; rfl⟩
    · simp only [if_neg h0, if_neg h1]
      obtain ⟨coin, hcoin⟩ := splitAllDraw_coins g lay pinned
        (rangeFrom (nextLocalId cf) (orDefault cfg.target cf.length - cf.length)) 0 ⟨cf, invert cf⟩ s
      have hc := hcoin coin (fun _ _ => rfl)
      rcases hx : splitAllDraw g lay pinned 0 (rangeFrom (nextLocalId cf) (orDefault cfg.target cf.length - cf.length))
        ⟨cf, invert cf⟩ s with ⟨r, s'⟩
      rw [hx] at hc
      simp only at hc
      cases r with
      | error e =>
        refine ⟨Chance.ofRounds coin (fun _ => one), ?_⟩
        rw [Draw.run_bind, hx]
        show (splitAll coin pinned 0 _ _ >>= _) = _
        rw [← hc]
        rfl
      | ok st =>
        set M := movableOf cf pinned with hM
        set dis := ((st.cf.length : Int) - orDefault cfg.target cf.length).toNat with hdis
        set wp := (cf.filter (fun e => (e.2 ∩ pinned).Nonempty)).map (·.1) with hwp
        set per := (dis + max 1 (cfg.iterations - 1) - 1) / max 1 (cfg.iterations - 1) with hper
        obtain ⟨rds, hrds⟩ := loop_link g (⟨score M, lay, p, cfg.minFeatures, cfg.tolerance, wp, M, per⟩ : DrawCtx σ)
          cfg.iterations 0 dis (lay.movable M) (lay.movable_perm M) st s'
        refine ⟨Chance.ofRounds coin rds, ?_⟩
        have hl := hrds (Chance.ofRounds coin rds) (fun _ _ => rfl)
        rw [Draw.run_bind, hx]
        show (splitAll coin pinned 0 _ _ >>= _) = _
        rw [← hc]
        simp only [bind, Except.bind]
        simp only at hl
        rw [← hdis, ← hper, hl]
        rcases refineLoopDraw g (⟨score M, lay, p, cfg.minFeatures, cfg.tolerance, wp, M, per⟩ : DrawCtx σ)
          cfg.iterations 0 dis (lay.movable M) st s' with ⟨r2, s2⟩
        cases r2 with
        | error e => rfl
        | ok st2 => rfl

/-- Workers that iterate in ascending order. -/
def sortedWorkers : Workers := ⟨fun _ G _ => Bitmap.elems G, fun _ _ _ => .refl _⟩

/-- Every plan made with a generator is the plan for some outcomes of the draws. -/
theorem plan_link (lay : Layout) (ws : Workers) (p : Rat) (args : RefineArgs) (db : DB) (s : ρ) : ∃ ch : Chance,
    (refinePlanDraw g lay ws p args db s).1 = refinePlan (exactScorer ch args) ch args db := by
  rw [refinePlanDraw_same g lay ws sortedWorkers]
  unfold refinePlanDraw refinePlan
  by_cases h : args.iterations < 1
  · let one : Round := ⟨id, fun _ => .refl _, fun _ => true, fun _ => 0, id, fun _ => .refl _, id, fun _ => .refl _⟩
    exact ⟨Chance.ofRounds (fun _ _ => true) (fun _ => one), by rw [if_pos h, if_pos h]; rfl⟩
  · simp only [if_neg h]
    set cf := selectClusters args db with hcf
    set dropped := dropPinned (pinnedClusterIds db) cf with hdr
    obtain ⟨ch, hch⟩ := groups_link g
      (workerScore sortedWorkers args db (args.groupBatches.getD (autoBatches dropped.1.length))) lay p
      ⟨args.iterations.toNat, args.minFeatures, args.tolerance, some (orDefault args.target cf.length - dropped.2)⟩
      (selectPinned args db) dropped.1 s
    refine ⟨ch, ?_⟩
    have hscore : (fun M => scoreOf (workerScore sortedWorkers args db
        (args.groupBatches.getD (autoBatches dropped.1.length)) M) ch) =
        exactScorer ch args db (args.groupBatches.getD (autoBatches dropped.1.length)) := rfl
    rw [hscore] at hch
    rw [hch, Draw.run_bind]
    rcases refineGroupsDraw g (workerScore sortedWorkers args db (args.groupBatches.getD (autoBatches dropped.1.length))) lay p
      ⟨args.iterations.toNat, args.minFeatures, args.tolerance, some (orDefault args.target cf.length - dropped.2)⟩
      (selectPinned args db) dropped.1 s with ⟨r, s'⟩
    cases r with
    | error e => rfl
    | ok r =>
      simp only [bind, Except.bind, Draw.lift]
      split
      · rename_i heq; simp only [Prod.mk.injEq] at heq; rw [heq.1]; simp only
        split
        · rename_i heq2; simp only [Prod.mk.injEq] at heq2; rw [heq2.1]; rfl
        · rename_i heq2; simp only [Prod.mk.injEq] at heq2; rw [heq2.1]
      · rename_i heq; simp only [Prod.mk.injEq] at heq; rw [heq.1]

end
end Hyperreal
