import Verif.Lemmas.Seeded

/-! Refinement with a generator does not depend on the workers' orders. -/

namespace Hyperreal
open Spec

namespace Draw
variable {ρ α β : Type}

/-- What a computation gives when it succeeds. -/
def Gives (x : Draw ρ α) (P : α → Prop) : Prop := ∀ s a, (x s).1 = .ok a → P a

theorem run_bind (x : Draw ρ α) (f : α → Draw ρ β) (s : ρ) :
    (x >>= f) s = match x s with
      | (.ok a, s') => f a s'
      | (.error e, s') => (.error e, s') := rfl

theorem bind_congr_of {x : Draw ρ α} {P : α → Prop} (hx : x.Gives P) {f f' : α → Draw ρ β} (h : ∀ a, P a → f a = f' a) :
    x >>= f = x >>= f' := by
  funext s
  rw [run_bind, run_bind]
  have := hx s
  rcases hxs : x s with ⟨r, s'⟩
  rw [hxs] at this
  cases r with
  | ok a => simp only [h a (this a rfl)]
  | error e => rfl

theorem gives_bind {x : Draw ρ α} {P : α → Prop} (hx : x.Gives P) {f : α → Draw ρ β} {Q : β → Prop}
    (h : ∀ a, P a → (f a).Gives Q) : (x >>= f).Gives Q := by
  intro s b hb
  rw [run_bind] at hb
  have := hx s
  rcases hxs : x s with ⟨r, s'⟩
  rw [hxs] at this hb
  cases r with
  | ok a => exact h a (this a rfl) s' b hb
  | error e => cases hb

theorem gives_pure {P : α → Prop} {a : α} (h : P a) : (pure a : Draw ρ α).Gives P := by
  intro s b hb
  have : (Except.ok a : Except Err α) = .ok b := hb
  cases this
  exact h

theorem gives_lift {P : α → Prop} {x : Except Err α} (h : ∀ a, x = .ok a → P a) : (Draw.lift x : Draw ρ α).Gives P := by
  intro s a ha
  exact h a ha

theorem gives_true (x : Draw ρ α) : x.Gives (fun _ => True) := fun _ _ _ => trivial

theorem lift_ok_bind (a : α) (f : α → Draw ρ β) : (Draw.lift (.ok a) >>= f) = f a := rfl

theorem lift_error_bind (e : Err) (f : α → Draw ρ β) : (Draw.lift (.error e) >>= f) = Draw.lift (.error e) := rfl

end Draw

section
variable {ρ : Type} (g : Generator ρ) {σ : Type} [LinearOrder σ]

theorem getE_congr {κ ν : Type} [DecidableEq κ] {d d' : Dict κ ν} (h : ∀ k, d.get? k = d'.get? k) (k : κ) :
    d.getE k = d'.getE k := by simp only [Dict.getE, h]

theorem toDissolve_congr {o o' : Dict Int σ} (h : ∀ c, o.get? c = o'.get? c) (cs : List Int) (d per : Nat) :
    toDissolve o cs d per = toDissolve o' cs d per := by
  unfold toDissolve lowest
  simp only [getE_congr h]

theorem bestMove_congr {b b' : Dict Nat (List (σ ×ₗ Int))} (h : ∀ f, b.get? f = b'.get? f) (f : Nat) :
    bestMove b f = bestMove b' f := by
  unfold bestMove
  rw [getE_congr h]

theorem movesDraw_congr {b b' : Dict Nat (List (σ ×ₗ Int))} (h : ∀ f, b.get? f = b'.get? f) (dis pos : List Int) (m : Nat)
    (p : Rat) : ∀ (l : List Nat) (st : Assignment × Nat), movesDraw g b dis pos m p st l = movesDraw g b' dis pos m p st l
  | [], st => rfl
  | f :: fs, st => by
    have e : moveOneDraw g b dis pos m p st f = moveOneDraw g b' dis pos m p st f := by
      unfold moveOneDraw
      rw [bestMove_congr h]
    show (moveOneDraw g b dis pos m p st f >>= fun st => movesDraw g b dis pos m p st fs) =
      (moveOneDraw g b' dis pos m p st f >>= fun st => movesDraw g b' dis pos m p st fs)
    rw [e]
    congr 1
    funext st
    exact movesDraw_congr h dis pos m p fs st

theorem shuffled_perm {α : Type} (l : List α) : (g.shuffled l).Gives (fun l' => l'.Perm l) := by
  intro s l' h
  simp only [Generator.shuffled, Except.ok.injEq] at h
  subst h
  refine ((g.shuffle_perm l.length s).filterMap _).trans ?_
  have : (List.range l.length).filterMap (fun i => l[i]?) = l := by
    induction l using List.reverseRecOn with
    | nil => rfl
    | append_singleton l a ih =>
      rw [List.length_append, List.length_singleton, List.range_succ, List.filterMap_append]
      simp only [List.filterMap_cons, List.filterMap_nil]
      rw [List.getElem?_append_right (le_refl _)]
      simp only [Nat.sub_self, List.getElem?_cons_zero]
      congr 1
      rw [← ih]
      rw [ih]
      conv_rhs => rw [← ih]
      apply List.filterMap_congr
      intro i hi
      rw [List.getElem?_append_left (List.mem_range.1 hi)]
  rw [this]

theorem doMove_nodup {f : Nat} {cur dst : Int} {st st' : Assignment} (hn : st.cf.keys.Nodup)
    (h : doMove f cur dst st = .ok st') : st'.cf.keys.Nodup := by
  unfold doMove at h
  obtain ⟨a, -, h⟩ := bind_ok h
  obtain ⟨b, -, h⟩ := bind_ok h
  simp only [pure, Except.pure, Except.ok.injEq] at h
  subst h
  exact Dict.nodup_set (Dict.nodup_set hn _ _) _ _

omit [LinearOrder σ] in
theorem moveOneDraw_nodup (b : Dict Nat (List (σ ×ₗ Int))) (dis pos : List Int) (m : Nat) (p : Rat) (st : Assignment × Nat)
    (hn : st.1.cf.keys.Nodup) (f : Nat) :
    (moveOneDraw g b dis pos m p st f).Gives (fun r => r.1.cf.keys.Nodup) := by
  unfold moveOneDraw
  refine Draw.gives_bind (Draw.gives_true _) (fun dst _ => ?_)
  refine Draw.gives_bind (Draw.gives_true _) (fun cur _ => ?_)
  refine Draw.gives_bind (Draw.gives_true _) (fun acc _ => ?_)
  split
  · refine Draw.gives_bind (Draw.gives_true _) (fun dst _ => ?_)
    refine Draw.gives_bind (Draw.gives_lift (P := fun a => a.cf.keys.Nodup) (fun a ha => doMove_nodup hn ha)) (fun a ha => ?_)
    exact Draw.gives_pure ha
  · split
    · exact Draw.gives_pure hn
    · split
      · exact Draw.gives_pure hn
      · refine Draw.gives_bind (Draw.gives_true _) (fun fs _ => ?_)
        split
        · exact Draw.gives_pure hn
        · split
          · refine Draw.gives_bind (Draw.gives_lift (P := fun a => a.cf.keys.Nodup) (fun a ha => doMove_nodup hn ha))
              (fun a ha => ?_)
            exact Draw.gives_pure ha
          · exact Draw.gives_pure hn

omit [LinearOrder σ] in
theorem movesDraw_nodup (b : Dict Nat (List (σ ×ₗ Int))) (dis pos : List Int) (m : Nat) (p : Rat) :
    ∀ (l : List Nat) (st : Assignment × Nat), st.1.cf.keys.Nodup →
      (movesDraw g b dis pos m p st l).Gives (fun r => r.1.cf.keys.Nodup)
  | [], st, hn => Draw.gives_pure hn
  | f :: fs, st, hn => Draw.gives_bind (moveOneDraw_nodup g b dis pos m p st hn f)
      (fun st' hn' => movesDraw_nodup b dis pos m p fs st' hn')

theorem removeDissolved_nodup : ∀ (ids : List Int) (cf cf' : Clustering), cf.keys.Nodup →
    removeDissolved ids cf = .ok cf' → cf'.keys.Nodup
  | [], cf, cf', hn, h => by
    simp only [removeDissolved, Except.ok.injEq] at h
    exact h ▸ hn
  | c :: cs, cf, cf', hn, h => by
    unfold removeDissolved at h
    obtain ⟨s, -, h⟩ := bind_ok h
    split at h
    · cases h
    · obtain ⟨d, hd, h⟩ := bind_ok h
      refine removeDissolved_nodup cs d cf' ?_ h
      unfold Dict.delE at hd
      split at hd
      · cases hd
        rw [Dict.keys_filter_ne]
        exact hn.filter _
      · cases hd

theorem splitAllDraw_nodup (lay : Layout) (pinned : Finset Nat) : ∀ (ids : List Int) (i : Nat) (st : Assignment),
    st.cf.keys.Nodup → (splitAllDraw g lay pinned i ids st).Gives (fun r => r.cf.keys.Nodup)
  | [], i, st, hn => Draw.gives_pure hn
  | new :: rest, i, st, hn => by
    refine Draw.gives_bind (P := fun r => r.cf.keys.Nodup) ?_ (fun st' hn' => splitAllDraw_nodup lay pinned rest (i + 1) st' hn')
    unfold splitLargestDraw
    split
    · exact Draw.gives_lift (fun a ha => by cases ha)
    · refine Draw.gives_bind (Draw.gives_true _) (fun sp _ => ?_)
      refine Draw.gives_bind (Draw.gives_true _) (fun r _ => ?_)
      exact Draw.gives_pure (Dict.nodup_set (Dict.nodup_set hn _ _) _ _)

/-- Two ways to score that agree on every lookup. -/
def SameScoring (s1 s2 : Nat → List Int → Clustering → Except Err (Scores σ Int)) : Prop :=
  ∀ i ids cf, ids.Nodup → SameScores (s1 i ids cf) (s2 i ids cf)

theorem refineStepDraw_same {s1 s2 : Nat → List Int → Clustering → Except Err (Scores σ Int)} (hs : SameScoring s1 s2)
    (lay : Layout) (p : Rat) (m : Nat) (tol : Rat) (wp : List Int) (mov : Finset Nat) (per i d : Nat) (visit : List Nat)
    (st : Assignment) (hn : st.cf.keys.Nodup) :
    refineStepDraw g ⟨s1, lay, p, m, tol, wp, mov, per⟩ i d visit st =
      refineStepDraw g ⟨s2, lay, p, m, tol, wp, mov, per⟩ i d visit st := by
  unfold refineStepDraw
  refine Draw.bind_congr_of (shuffled_perm g _) (fun ids hp => ?_)
  rcases hs i ids st.cf (hp.nodup_iff.2 hn) with ⟨e, e1, e2⟩ | ⟨a, b, e1, e2, h1, h2⟩
  · simp only [e1, e2]
  · simp only [e1, e2, Draw.lift_ok_bind, toDissolve_congr h1, movesDraw_congr g h2]

theorem refineStepDraw_nodup (ctx : DrawCtx σ) (i d : Nat) (visit : List Nat) (st : Assignment) (hn : st.cf.keys.Nodup) :
    (refineStepDraw g ctx i d visit st).Gives (fun r => r.1.cf.keys.Nodup) := by
  unfold refineStepDraw
  refine Draw.gives_bind (Draw.gives_true _) (fun _ _ => ?_)
  refine Draw.gives_bind (Draw.gives_true _) (fun _ _ => ?_)
  refine Draw.gives_bind (Draw.gives_true _) (fun _ _ => ?_)
  refine Draw.gives_bind (Draw.gives_true _) (fun _ _ => ?_)
  refine Draw.gives_bind (movesDraw_nodup g _ _ _ _ _ _ _ hn) (fun r hr => ?_)
  refine Draw.gives_bind (Draw.gives_lift (P := fun cf : Clustering => cf.keys.Nodup)
    (fun cf h => removeDissolved_nodup _ _ _ hr h)) (fun cf hcf => ?_)
  exact Draw.gives_pure hcf

theorem refineLoopDraw_same {s1 s2 : Nat → List Int → Clustering → Except Err (Scores σ Int)} (hs : SameScoring s1 s2)
    (lay : Layout) (p : Rat) (m : Nat) (tol : Rat) (wp : List Int) (mov : Finset Nat) (per : Nat) :
    ∀ (n i d : Nat) (visit : List Nat) (st : Assignment), st.cf.keys.Nodup →
      refineLoopDraw g ⟨s1, lay, p, m, tol, wp, mov, per⟩ n i d visit st =
        refineLoopDraw g ⟨s2, lay, p, m, tol, wp, mov, per⟩ n i d visit st
  | 0, _, _, _, _, _ => rfl
  | n + 1, i, d, visit, st, hn => by
    unfold refineLoopDraw
    rw [refineStepDraw_same g hs lay p m tol wp mov per i d visit st hn]
    refine Draw.bind_congr_of (refineStepDraw_nodup g _ i d visit st hn) (fun r hr => ?_)
    simp only [refineLoopDraw_same hs lay p m tol wp mov per n (i + 1) _ r.2.2.2 r.1 hr]

theorem refineGroupsDraw_same {s1 s2 : Finset Nat → Nat → List Int → Clustering → Except Err (Scores σ Int)}
    (hs : ∀ M, SameScoring (s1 M) (s2 M)) (lay : Layout) (p : Rat) (cfg : GroupCfg) (pinned : Finset Nat)
    (cf : Clustering) (hn : cf.keys.Nodup) :
    refineGroupsDraw g s1 lay p cfg pinned cf = refineGroupsDraw g s2 lay p cfg pinned cf := by
  unfold refineGroupsDraw
  simp only
  split
  · rfl
  · split
    · rfl
    · refine Draw.bind_congr_of (splitAllDraw_nodup g lay pinned _ 0 ⟨cf, invert cf⟩ hn) (fun st hst => ?_)
      rw [refineLoopDraw_same g (hs _) lay p _ _ _ _ _ _ _ _ _ st hst]

theorem selectClusters_nodup (args : RefineArgs) (db : DB) : (selectClusters args db).keys.Nodup := by
  unfold selectClusters
  simp only
  generalize (if args.clusterIds = [] then db.clusters.map (·.cid) else args.clusterIds) = ids
  suffices h : ∀ (l : List FCRow) (d : Clustering), d.keys.Nodup →
      (l.foldl (fun d r => if r.cid ∈ ids then Dict.set d r.cid (insert r.fid ((d.get? r.cid).getD ∅)) else d) d).keys.Nodup from
    h db.fc [] (by simp [Dict.keys])
  intro l
  induction l with
  | nil => intro d hd; exact hd
  | cons r l ih =>
    intro d hd
    rw [List.foldl_cons]
    apply ih
    split
    · exact Dict.nodup_set hd _ _
    · exact hd

theorem dropPinned_nodup (pinned : List Int) (cf : Clustering) (hn : cf.keys.Nodup) : (dropPinned pinned cf).1.keys.Nodup := by
  unfold dropPinned
  suffices h : ∀ (s : Clustering × Nat), s.1.keys.Nodup →
      (pinned.foldl (fun s c => if c ∈ Dict.keys s.1 then (s.1.filter (fun e => e.1 ≠ c), s.2 + 1) else s) s).1.keys.Nodup from
    h (cf, 0) hn
  induction pinned with
  | nil => intro s hs; exact hs
  | cons c cs ih =>
    intro s hs
    rw [List.foldl_cons]
    apply ih
    split
    · show (Dict.keys (s.1.filter (fun e => e.1 ≠ c))).Nodup
      rw [Dict.keys_filter_ne]
      exact hs.filter _
    · exact hs

/-- The plan and the state of the generator do not depend on the workers. -/
theorem refinePlanDraw_same (lay : Layout) (ws1 ws2 : Workers) (p : Rat) (args : RefineArgs) (db : DB) :
    refinePlanDraw g lay ws1 p args db = refinePlanDraw g lay ws2 p args db := by
  unfold refinePlanDraw
  split
  · rfl
  · simp only
    rw [refineGroupsDraw_same g (s1 := workerScore ws1 args db _) (s2 := workerScore ws2 args db _)
      (fun M i ids cf hids => workerScore_same ws1 ws2 args db _ M i ids hids cf) lay p _ _ _
      (dropPinned_nodup _ _ (selectClusters_nodup args db))]

end
end Hyperreal
