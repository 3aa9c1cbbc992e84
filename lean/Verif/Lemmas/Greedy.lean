import Verif.Lemmas.RefineExec
import Verif.Props.Scoring

/-! Which moves the refinement makes. -/

namespace Hyperreal
open Spec

section
variable {σ : Type}

/-- What the visits of an iteration do with one feature. -/
structure Visit (best : Dict Nat (List (σ ×ₗ Int))) (ids possible : List Int) (m : Nat) (accept : Nat → Bool)
    (st st' : Assignment) (W : Finset Nat) (f : Nat) (cur dst : Int) : Prop where
  from_ : st.fc.get? f = some cur
  to_ : bestMove best f = .ok dst
  evicted : cur ∈ ids → f ∈ W ∧ ∃ y, st'.fc.get? f = some y ∧ (dst ∉ ids → y = dst) ∧ (dst ∈ ids → y ∈ possible)
  wants : cur ∉ ids → f ∈ W → dst ∉ ids ∧ dst ≠ cur ∧ st'.fc.get? f = some (if accept f = true then dst else cur)
  stays : cur ∉ ids → f ∉ W → st'.fc.get? f = some cur ∧
    (dst = cur ∨ dst ∈ ids ∨ ∀ C : Finset Nat, (∀ h ∈ C, st.fc.get? h = some cur ∧ st'.fc.get? h = some cur) → C.card ≤ m)

theorem moveOne_visit {U : Finset Nat} {best : Dict Nat (List (σ ×ₗ Int))} {ids possible : List Int} {m : Nat}
    {accept : Nat → Bool} {pick : Nat → Nat} {st st' : Assignment × Nat} {f : Nat} (hs : Sound U st.1)
    (h : moveOne best ids possible m accept pick st f = .ok st') :
    ∃ b : Bool, st'.2 = st.2 + (if b then 1 else 0) ∧ ∃ cur dst,
      Visit best ids possible m accept st.1 st'.1 (if b then {f} else ∅) f cur dst := by
  unfold moveOne at h
  obtain ⟨dst, hdst, h⟩ := bind_ok h
  obtain ⟨cur, hcur, h⟩ := bind_ok h
  rw [Dict.getE_ok_iff] at hcur
  split at h
  · rename_i hci
    obtain ⟨dst', hd', h⟩ := bind_ok h
    obtain ⟨a, ha, h⟩ := bind_ok h
    simp only [pure, Except.pure, Except.ok.injEq] at h
    subst h
    obtain ⟨-, -, -, h4, -⟩ := doMove_spec hs hcur ha
    refine ⟨true, rfl, cur, dst, hcur, hdst, fun _ => ⟨by simp, dst', by rw [h4, if_pos rfl], ?_, ?_⟩,
      fun hc => absurd hci hc, fun hc => absurd hci hc⟩
    · intro hn
      unfold rehome at hd'
      rw [if_neg hn] at hd'
      cases hd'; rfl
    · intro hn
      unfold rehome at hd'
      rw [if_pos hn] at hd'
      exact choice_mem hd'
  · rename_i hci
    have stay : st' = st → (dst = cur ∨ dst ∈ ids ∨ ∀ G, st.1.cf.get? cur = some G → G.card = m) →
        ∃ b : Bool, st'.2 = st.2 + (if b then 1 else 0) ∧ ∃ cur dst,
          Visit best ids possible m accept st.1 st'.1 (if b then {f} else ∅) f cur dst := by
      rintro rfl hwhy
      refine ⟨false, rfl, cur, dst, hcur, hdst, fun hc => absurd hc hci, fun _ hf => by simp at hf, fun _ _ => ⟨hcur, ?_⟩⟩
      rcases hwhy with h | h | h
      · exact .inl h
      · exact .inr (.inl h)
      · refine .inr (.inr fun C hC => ?_)
        obtain ⟨G, hG, -⟩ := (hs.agree f cur).1 hcur
        rw [← h G hG]
        refine Finset.card_le_card fun x hx => ?_
        obtain ⟨G', hG', hx'⟩ := (hs.agree x cur).1 (hC x hx).1
        rw [hG] at hG'; cases hG'; exact hx'
    split at h
    · rename_i hdi
      simp only [pure, Except.pure, Except.ok.injEq] at h
      exact stay h.symm (.inr (.inl hdi))
    · rename_i hdi
      split at h
      · rename_i hcd
        simp only [pure, Except.pure, Except.ok.injEq] at h
        exact stay h.symm (.inl hcd.symm)
      · rename_i hcd
        obtain ⟨G0, hG0, h⟩ := bind_ok h
        rw [Dict.getE_ok_iff] at hG0
        split at h
        · rename_i hcard
          simp only [pure, Except.pure, Except.ok.injEq] at h
          exact stay h.symm (.inr (.inr fun G hG => by rw [hG0] at hG; cases hG; exact hcard))
        · split at h
          · rename_i hacc
            obtain ⟨a, ha, h⟩ := bind_ok h
            simp only [pure, Except.pure, Except.ok.injEq] at h
            subst h
            obtain ⟨-, -, -, h4, -⟩ := doMove_spec hs hcur ha
            exact ⟨true, rfl, cur, dst, hcur, hdst, fun hc => absurd hc hci,
              fun _ _ => ⟨hdi, fun e => hcd e.symm, by rw [h4, if_pos rfl, if_pos hacc]⟩, fun _ hf => by simp at hf⟩
          · rename_i hacc
            simp only [pure, Except.pure, Except.ok.injEq] at h
            subst h
            exact ⟨true, rfl, cur, dst, hcur, hdst, fun hc => absurd hc hci,
              fun _ _ => ⟨hdi, fun e => hcd e.symm, by rw [if_neg hacc]; exact hcur⟩, fun _ hf => by simp at hf⟩

theorem moves_visits {U : Finset Nat} {best : Dict Nat (List (σ ×ₗ Int))} {ids possible : List Int} {m : Nat}
    {accept : Nat → Bool} {pick : Nat → Nat} (hposs : ∀ c ∈ possible, c ∉ ids) :
    ∀ (l : List Nat), l.Nodup → ∀ {st st' : Assignment × Nat}, Sound U st.1 →
    l.foldlM (moveOne best ids possible m accept pick) st = .ok st' →
    ∃ W : Finset Nat, (∀ f ∈ W, f ∈ l) ∧ st'.2 = st.2 + W.card ∧
      ∀ f ∈ l, ∃ cur dst, Visit best ids possible m accept st.1 st'.1 W f cur dst
  | [], _, st, st', hs, h => by
    simp only [List.foldlM_nil, pure, Except.pure, Except.ok.injEq] at h
    subst h
    exact ⟨∅, by simp, by simp, by simp⟩
  | f :: l, hn, st, st', hs, h => by
    rw [List.foldlM_cons] at h
    obtain ⟨st1, h1, h⟩ := bind_ok h
    obtain ⟨a1, -, a3, -, -⟩ := moveOne_spec hposs hs h1
    obtain ⟨hfl, hn'⟩ := List.nodup_cons.1 hn
    obtain ⟨-, -, b3, -, -⟩ := moves_spec hposs l hn' a1 h
    obtain ⟨b, hb, cur, dst, v⟩ := moveOne_visit hs h1
    obtain ⟨W, w1, w2, w3⟩ := moves_visits hposs l hn' a1 h
    have hfW : f ∉ W := fun hf => hfl (w1 f hf)
    have hlast := b3 f hfl
    refine ⟨(if b then {f} else ∅) ∪ W, ?_, ?_, ?_⟩
    · intro g hg
      rcases Finset.mem_union.1 hg with hg | hg
      · cases b <;> simp at hg
        simp [hg]
      · exact List.mem_cons_of_mem _ (w1 g hg)
    · rw [Finset.card_union_of_disjoint (by cases b <;> simp [hfW]), w2, hb]
      cases b <;> simp; omega
    · intro g hg
      rcases List.mem_cons.1 hg with rfl | hg
      · refine ⟨cur, dst, v.from_, v.to_, fun hc => ?_, fun hc hw => ?_, fun hc hw => ?_⟩
        · obtain ⟨e1, y, e2, e3⟩ := v.evicted hc
          exact ⟨Finset.mem_union_left _ e1, y, hlast.trans e2, e3⟩
        · rcases Finset.mem_union.1 hw with hw | hw
          · obtain ⟨e1, e2, e3⟩ := v.wants hc hw
            exact ⟨e1, e2, hlast.trans e3⟩
          · exact absurd hw hfW
        · rw [Finset.mem_union, not_or] at hw
          obtain ⟨e1, e2⟩ := v.stays hc hw.1
          refine ⟨hlast.trans e1, ?_⟩
          rcases e2 with e2 | e2 | e2
          · exact .inl e2
          · exact .inr (.inl e2)
          · refine .inr (.inr fun C hC => e2 C fun x hx => ⟨(hC x hx).1, ?_⟩)
            by_cases hxg : x = g
            · rw [hxg]; exact e1
            · rw [a3 x hxg]; exact (hC x hx).1
      · obtain ⟨cur', dst', v'⟩ := w3 g hg
        have hgf : g ≠ f := fun e => hfl (e ▸ hg)
        have hgW : g ∈ (if b then {f} else ∅) ∪ W ↔ g ∈ W := by
          rw [Finset.mem_union]
          cases b <;> simp [hgf]
        refine ⟨cur', dst', (a3 g hgf).symm.trans v'.from_, v'.to_, fun hc => ?_, fun hc hw => ?_, fun hc hw => ?_⟩
        · obtain ⟨e1, e2⟩ := v'.evicted hc
          exact ⟨hgW.2 e1, e2⟩
        · exact v'.wants hc (hgW.1 hw)
        · obtain ⟨e1, e2⟩ := v'.stays hc (fun h => hw (hgW.2 h))
          refine ⟨e1, ?_⟩
          rcases e2 with e2 | e2 | e2
          · exact .inl e2
          · exact .inr (.inl e2)
          · refine .inr (.inr fun C hC => e2 C fun x hx => ⟨?_, (hC x hx).2⟩)
            by_cases hxf : x = f
            · rw [hxf, ← hlast, ← hxf]; exact (hC x hx).2
            · rw [a3 x hxf]; exact (hC x hx).1

end

/-- The placement an assignment stands for. -/
def placed (cf : Clustering) : Placement := ⟨cf.keys.toFinset, fun c => (cf.get? c).getD ∅⟩

theorem mem_placed {cf : Clustering} {c : Int} {f : Nat} : f ∈ (placed cf).members c ↔ In cf c f := by
  unfold In placed
  cases h : cf.get? c with
  | none => simp [h]
  | some G => simp [h]

theorem toDissolve_lowest {objectives : Dict Int Rat} {cands : List Int} (hn : cands.Nodup) {d per : Nat} {ids : List Int}
    (h : toDissolve objectives cands d per = .ok ids) :
    ∀ a ∈ ids, ∀ b ∈ cands, b ∉ ids → ∃ x y, objectives.get? a = some x ∧ objectives.get? b = some y ∧ x ≤ y := by
  unfold toDissolve at h
  split at h
  · cases h; simp
  · exact (lowest_spec hn h).2.2.2

/-- One iteration is a round. -/
theorem step_round {U : Finset Nat} {ch : Chance} {args : RefineArgs} {db : DB} {batches : Nat} {withPins : List Int}
    {movable : Finset Nat} {minF per : Nat} {tol : Rat} {i d : Nat} {st : Assignment} {r : Assignment × Nat × List Int}
    (hs : Sound U st) (hp : PinsOk U movable withPins st) (hm : movable.Nonempty) (hk : 1 ≤ args.groupTopK)
    (h : refineStep ⟨exactScorer ch args db batches movable, ch, minF, tol, withPins, movable, per⟩ i d st = .ok r) :
    ∃ tested wants, Round (seen db.docsOf args.probe) movable withPins.toFinset minF (min d per) (ch.accept i)
        (placed st.cf) (placed r.1.cf) tested r.2.2.toFinset wants ∧ wants.card = r.2.1 ∧
      TestedIn (seen db.docsOf args.probe) (placed st.cf) batches args.groupTopK movable tested := by
  have hspec := refineStep_spec hs hp h
  obtain ⟨hr, hlen⟩ := hspec
  unfold refineStep at h
  obtain ⟨scores, hsc, h⟩ := bind_ok h
  obtain ⟨ids, hids, h⟩ := bind_ok h
  obtain ⟨m, hmv, h⟩ := bind_ok h
  obtain ⟨cf, hcf, h⟩ := bind_ok h
  simp only [pure, Except.pure, Except.ok.injEq] at h
  subst h
  simp only at hr hlen hsc hids hmv
  set ctx : RefineCtx Rat := ⟨exactScorer ch args db batches movable, ch, minF, tol, withPins, movable, per⟩ with hctx
  have hmov : ∀ f ∈ movable, ∃ c G, st.cf.get? c = some G ∧ f ∈ G := by
    intro f hf
    obtain ⟨c, hc⟩ := (hs.all f).1 (hp.1 f hf)
    obtain ⟨G, hG, hfG⟩ := (hs.agree f c).1 hc
    exact ⟨c, G, hG, hfG⟩
  obtain ⟨s, tested, q1, q2, q3, q4, q5⟩ := Props.every_movable_feature_gets_its_best_move db.docsOf args.probe st.cf hs.nodup
    (ch.clusterOrder i st.cf.keys) (ch.clusterOrder_perm i _) movable hmov hm batches args.groupTopK hk
  have hss : scores = s := by
    have : exactScorer ch args db batches movable i st.cf = .ok s := q1
    rw [this] at hsc
    exact (Except.ok.inj hsc).symm
  subst hss
  have hcn := cands_nodup ctx i hs.nodup
  obtain ⟨i1, i2, i3⟩ := toDissolve_spec hcn hids
  have ilow := toDissolve_lowest hcn hids
  have mc : ∀ c, c ∈ ch.setOrder i (st.cf.keys.filter (· ∉ withPins)) ↔ c ∈ st.cf.keys ∧ c ∉ withPins := mem_cands ctx i st.cf
  obtain ⟨W, w1, w2, w3⟩ := moves_visits (possible_spec st.cf ids).1 _ (order_nodup ctx i) hs hmv
  have hord : ∀ f, f ∈ ch.order i (Bitmap.elems movable) ↔ f ∈ movable := mem_order ctx i
  have hfin : ∀ f x, f ∈ (placed cf).members x ↔ m.1.fc.get? f = some x := fun f x => by
    rw [mem_placed]; exact (hr.sound.agree f x).symm
  have hini : ∀ f x, f ∈ (placed st.cf).members x ↔ st.fc.get? f = some x := fun f x => by
    rw [mem_placed]; exact (hs.agree f x).symm
  have hkeys : ∀ x, x ∈ (placed cf).clusters ↔ x ∈ st.cf.keys ∧ x ∉ ids := fun x => by
    show x ∈ cf.keys.toFinset ↔ _
    rw [List.mem_toFinset, hr.keys, List.mem_filter]
    simp
  have hcand : ∀ x, x ∈ (placed st.cf).clusters \ withPins.toFinset ↔ x ∈ st.cf.keys ∧ x ∉ withPins := fun x => by
    simp [placed]
  have hbest : ∀ f ∈ movable, ∀ dst, bestMove scores.2 f = .ok dst → BestAmong (seen db.docsOf args.probe) (placed st.cf)
      (tested f) f dst := by
    intro f hf dst hd
    obtain ⟨score, to_, e1, -, e3⟩ := q4 f hf
    unfold bestMove at hd
    rw [Dict.getE_eq _ _ _ e1] at hd
    simp only [bind, Except.bind, Except.ok.injEq] at hd
    rw [← hd]
    exact e3
  refine ⟨tested, W, ?_, by simpa using w2.symm, q2⟩
  constructor
  · exact q3
  · intro x hx
    rw [hcand]
    exact (mc x).1 (i2 x (List.mem_toFinset.1 hx))
  · have e : (st.cf.keys.filter (· ∉ withPins)).toFinset = (placed st.cf).clusters \ withPins.toFinset := by
      ext x
      rw [hcand, List.mem_toFinset, List.mem_filter]
      simp
    rw [List.toFinset_card_of_nodup i1, hlen, ← e, List.toFinset_card_of_nodup (hs.nodup.filter _)]
  · intro x hx y hy hyn
    obtain ⟨a, b, ha, hb, hab⟩ := ilow x (List.mem_toFinset.1 hx) y ((mc y).2 ((hcand y).1 hy)) (fun h => hyn (List.mem_toFinset.2 h))
    exact ((q5 x a ha).2.symm.trans_le hab).trans_eq (q5 y b hb).2
  · ext x
    rw [hkeys]; simp [placed]
  · intro f x y hx hy
    rw [hfin] at hx hy
    rw [hx] at hy
    exact Option.some.inj hy
  · intro x hx
    ext f
    simp only [Finset.notMem_empty, iff_false]
    intro hf
    exact hx (List.mem_toFinset.2 (mem_placed.1 hf).key)
  · intro f hf x
    rw [hfin, hini]
    have := hr.unmoved f hf
    simp only at this
    rw [this]
  · intro f hf
    exact (hord f).1 (w1 f hf)
  · intro x hx hge
    obtain ⟨hxk, hxi⟩ := (hkeys x).1 hx
    obtain ⟨G, hG⟩ := (Dict.get?_isSome _ _).2 hxk
    have e : (placed st.cf).members x = G := by simp [placed, hG]
    rw [e] at hge
    obtain ⟨G', hG', hc⟩ := hr.minimum x hxi G hG hge
    have e' : (placed cf).members x = G' := by
      simp only at hG'
      simp [placed, hG']
    rw [e']; exact hc
  · intro f hf x hx hfx
    obtain ⟨cur, dst, v⟩ := w3 f ((hord f).2 hf)
    have hcx : cur = x := by
      have := v.from_
      rw [(hini f x).1 hfx] at this
      exact (Option.some.inj this).symm
    subst hcx
    obtain ⟨e1, y, e2, e3, e4⟩ := v.evicted (List.mem_toFinset.1 hx)
    refine ⟨e1, y, ?_, (hfin f y).2 e2, ?_⟩
    · exact List.mem_toFinset.2 (mem_placed.1 ((hfin f y).2 e2)).key
    · intro b hb hbn
      have hd := hbest f hf dst v.to_
      have : b = dst := by
        obtain ⟨a1, s1, a2, a3⟩ := hb
        obtain ⟨b1, s2, b2, b3⟩ := hd
        rcases a3 dst b1 s2 b2 with h | ⟨h, h'⟩
        · rcases b3 b a1 s1 a2 with h2 | ⟨h2, -⟩
          · exact absurd (lt_trans h h2) (lt_irrefl _)
          · rw [h2] at h; exact absurd h (lt_irrefl _)
        · rcases b3 b a1 s1 a2 with h2 | ⟨-, h2⟩
          · rw [h] at h2; exact absurd h2 (lt_irrefl _)
          · exact le_antisymm h2 h'
      rw [e3 (fun h => hbn (by rw [this]; exact List.mem_toFinset.2 h)), this]
  · intro f hf x hx hfx
    have hfm := (hord f).1 (w1 f hf)
    obtain ⟨cur, dst, v⟩ := w3 f (w1 f hf)
    have hcx : cur = x := by
      have := v.from_
      rw [(hini f x).1 hfx] at this
      exact (Option.some.inj this).symm
    subst hcx
    obtain ⟨e1, e2, e3⟩ := v.wants (fun h => hx (List.mem_toFinset.2 h)) hf
    exact ⟨dst, hbest f hfm dst v.to_, e2, fun h => e1 (List.mem_toFinset.1 h), (hfin _ _).2 e3⟩
  · intro f hf hfW x hfx
    obtain ⟨cur, dst, v⟩ := w3 f ((hord f).2 hf)
    have hcx : cur = x := by
      have := v.from_
      rw [(hini f x).1 hfx] at this
      exact (Option.some.inj this).symm
    subst hcx
    have hci : cur ∉ ids := fun h => hfW (v.evicted h).1
    obtain ⟨e1, e2⟩ := v.stays hci hfW
    refine ⟨(hfin _ _).2 e1, dst, hbest f hf dst v.to_, ?_⟩
    rcases e2 with e2 | e2 | e2
    · exact .inl e2
    · exact .inr (.inl (List.mem_toFinset.2 e2))
    · refine .inr (.inr (e2 _ fun g hg => ?_))
      rw [Finset.mem_inter] at hg
      exact ⟨(hini _ _).1 hg.1, (hfin _ _).1 hg.2⟩

theorem loop_course {U : Finset Nat} {ch : Chance} {args : RefineArgs} {db : DB} {batches : Nat} {withPins : List Int}
    {movable : Finset Nat} {minF per : Nat} {tol : Rat} (hm : movable.Nonempty) (hk : 1 ≤ args.groupTopK) :
    ∀ (n i d : Nat) {st st' : Assignment}, Sound U st → PinsOk U movable withPins st →
    refineLoop ⟨exactScorer ch args db batches movable, ch, minF, tol, withPins, movable, per⟩ n i d st = .ok st' →
    ∃ k p tested gone wants, p 0 = placed st.cf ∧ p k = placed st'.cf ∧ (1 ≤ n → 1 ≤ k) ∧
      Course (seen db.docsOf args.probe) movable withPins.toFinset minF per batches args.groupTopK tol
        (fun j => ch.accept (i + j)) n d k p tested gone wants
  | 0, i, d, st, st', hs, hp, h => by
    simp only [refineLoop, Except.ok.injEq] at h
    subst h
    exact ⟨0, fun _ => placed st.cf, fun _ _ => ∅, fun _ => ∅, fun _ => ∅, rfl, rfl, fun h => h, le_refl _, by simp, by simp, by simp,
      by simp⟩
  | n + 1, i, d, st, st', hs, hp, h => by
    unfold refineLoop at h
    obtain ⟨r, hr, h⟩ := bind_ok h
    obtain ⟨r1, -⟩ := refineStep_spec hs hp hr
    obtain ⟨tested, wants, s1, s2, s3⟩ := step_round hs hp hm hk hr
    simp only at h
    have key : (r.2.2 = [] → tol ≤ ((wants.card : Rat)) / movable.card) →
        refineLoop ⟨exactScorer ch args db batches movable, ch, minF, tol, withPins, movable, per⟩ n (i + 1) (d - min d per) r.1 =
        .ok st' → ∃ k p tested gone wants, p 0 = placed st.cf ∧ p k = placed st'.cf ∧ (1 ≤ n + 1 → 1 ≤ k) ∧
      Course (seen db.docsOf args.probe) movable withPins.toFinset minF per batches args.groupTopK tol
        (fun j => ch.accept (i + j)) (n + 1) d k p tested gone wants := by
      intro hgo h
      obtain ⟨k, p, t, g, w, c1, c2, c3, c4⟩ := loop_course hm hk n (i + 1) _ r1.sound (r1.pinsOk hp) h
      refine ⟨k + 1, fun j => match j with | 0 => placed st.cf | j + 1 => p j,
        fun j => match j with | 0 => tested | j + 1 => t j, fun j => match j with | 0 => r.2.2.toFinset | j + 1 => g j,
        fun j => match j with | 0 => wants | j + 1 => w j, rfl, c2, fun _ => by omega, ?_⟩
      refine ⟨by have := c4.atMost; omega, ?_, ?_, ?_, ?_⟩
      · intro j hj
        cases j with
        | zero =>
          simp only [Nat.zero_mul, Nat.sub_zero, Nat.add_zero]
          rw [c1]; exact s1
        | succ j =>
          have := c4.rounds j (by omega)
          have e : d - min d per - j * per = d - (j + 1) * per := by rw [Nat.succ_mul]; omega
          rw [e] at this
          simp only at this ⊢
          rw [show i + 1 + j = i + (j + 1) by omega] at this
          exact this
      · intro j hj
        cases j with
        | zero => exact s3
        | succ j => exact c4.tests j (by omega)
      · intro j hj
        cases j with
        | zero =>
          intro h0
          exact hgo (by
            have : r.2.2.toFinset = ∅ := h0
            simpa using this)
        | succ j => exact c4.goesOn j (by omega)
      · intro hkn
        obtain ⟨j, e1, e2, e3⟩ := c4.stops (by omega)
        exact ⟨j + 1, by omega, e2, e3⟩
    split at h
    · rename_i hnil
      split at h
      · cases h
      · split at h
        · rename_i hlt
          cases h
          refine ⟨1, fun j => match j with | 0 => placed st.cf | _ + 1 => placed r.1.cf, fun _ => tested, fun _ => r.2.2.toFinset,
            fun _ => wants, rfl, rfl, fun _ => le_refl _, ?_⟩
          refine ⟨by omega, ?_, ?_, ?_, ?_⟩
          · intro j hj
            obtain rfl : j = 0 := by omega
            simp only [Nat.zero_mul, Nat.sub_zero, Nat.add_zero]
            exact s1
          · intro j hj
            obtain rfl : j = 0 := by omega
            exact s3
          · intro j hj; omega
          · intro _
            exact ⟨0, rfl, by rw [hnil]; rfl, by rw [s2]; exact hlt⟩
        · rename_i hlt
          exact key (fun _ => by rw [s2]; exact not_lt.1 hlt) h
    · rename_i hnil
      exact key (fun h => absurd h hnil) h

/-! ## Splitting -/

theorem largestCluster_max {cf : Clustering} {e : Int × Finset Nat} (h : largestCluster cf = some e) :
    ∀ z ∈ cf, z.2.card < e.2.card ∨ (z.2.card = e.2.card ∧ z.1 ≤ e.1) := by
  have key : ∀ (l : Clustering) (acc : Option (Int × Finset Nat)),
      l.foldl (fun acc e => match acc with
        | none => some e
        | some b => if b.2.card < e.2.card ∨ (b.2.card = e.2.card ∧ b.1 ≤ e.1) then some e else some b) acc = some e →
      (∀ z ∈ l, z.2.card < e.2.card ∨ (z.2.card = e.2.card ∧ z.1 ≤ e.1)) ∧
      (∀ b, acc = some b → b.2.card < e.2.card ∨ (b.2.card = e.2.card ∧ b.1 ≤ e.1)) := by
    intro l
    induction l with
    | nil =>
      intro acc h
      simp only [List.foldl_nil] at h
      refine ⟨by simp, fun b hb => ?_⟩
      rw [hb] at h
      cases h
      exact .inr ⟨rfl, le_refl _⟩
    | cons a l ih =>
      intro acc h
      rw [List.foldl_cons] at h
      cases acc with
      | none =>
        obtain ⟨h1, h2⟩ := ih _ h
        refine ⟨fun z hz => ?_, by simp⟩
        rcases List.mem_cons.1 hz with rfl | hz
        · exact h2 z rfl
        · exact h1 z hz
      | some b =>
        simp only at h
        by_cases hba : b.2.card < a.2.card ∨ (b.2.card = a.2.card ∧ b.1 ≤ a.1)
        · rw [if_pos hba] at h
          obtain ⟨h1, h2⟩ := ih _ h
          have ha := h2 a rfl
          refine ⟨fun z hz => ?_, fun b' hb' => ?_⟩
          · rcases List.mem_cons.1 hz with rfl | hz
            · exact ha
            · exact h1 z hz
          · cases hb'
            omega
        · rw [if_neg hba] at h
          obtain ⟨h1, h2⟩ := ih _ h
          have hb := h2 b rfl
          refine ⟨fun z hz => ?_, fun b' hb' => by cases hb'; exact hb⟩
          rcases List.mem_cons.1 hz with rfl | hz
          · omega
          · exact h1 z hz
  exact fun z hz => (key cf none h).1 z hz

theorem splitLargest_split {U : Finset Nat} {coin : Nat → Bool} {pinned : Finset Nat} {new : Int} {st st' : Assignment}
    (hs : Sound U st) (hnew : new ∉ st.cf.keys) (h : splitLargest coin pinned new st = .ok st') :
    Split pinned coin new (placed st.cf) (placed st'.cf) := by
  have hspec := splitLargest_spec hs hnew h
  unfold splitLargest at h
  split at h
  · cases h
  · rename_i big features hbig
    have hmem := largestCluster_mem hbig
    have hmax := largestCluster_max hbig
    have hgetb : st.cf.get? big = some features := Dict.get?_of_mem hs.nodup hmem
    have hbk : big ∈ st.cf.keys := (Dict.get?_isSome _ _).1 ⟨_, hgetb⟩
    have hbn : big ≠ new := fun h => hnew (h ▸ hbk)
    simp only at h
    obtain ⟨rest, hrest, h⟩ := bind_ok h
    rw [Dict.getE_ok_iff, Dict.get?_set, if_neg hbn, hgetb] at hrest
    cases hrest
    simp only [pure, Except.pure, Except.ok.injEq] at h
    subst h
    set split := features.filter (fun f => coin f = true ∧ f ∉ pinned) with hsplit
    have hpb : (placed st.cf).members big = features := by simp [placed, hgetb]
    have hget : ∀ y, (placed ((st.cf.set new split).set big (features \ split))).members y =
        if y = big then features \ split else if y = new then split else (placed st.cf).members y := by
      intro y
      simp only [placed]
      rw [Dict.get?_set, Dict.get?_set]
      split
      · rfl
      · split <;> rfl
    refine ⟨by simpa [placed] using hnew, ?_, big, by simpa [placed] using hbk, ?_, ?_, ?_, ?_⟩
    · ext x
      have := hspec.2.1
      simp only at this
      simp only [placed, this, List.mem_toFinset, Finset.mem_insert, List.mem_append, List.mem_singleton]
      tauto
    · intro z hz
      obtain ⟨G, hG⟩ := (Dict.get?_isSome _ _).2 (List.mem_toFinset.1 hz)
      have hpz : (placed st.cf).members z = G := by simp [placed, hG]
      rw [hpz, hpb]
      exact hmax (z, G) (Dict.mem_of_get? hG)
    · intro f
      rw [hget, if_neg hbn.symm, if_pos rfl, hsplit, Finset.mem_filter, hpb]
      tauto
    · intro f
      rw [hget, if_pos rfl, hget, if_neg hbn.symm, if_pos rfl, Finset.mem_sdiff, hpb]
    · intro y hy hyn
      rw [hget, if_neg hy, if_neg hyn]

theorem splitAll_splits {U : Finset Nat} {coin : Nat → Nat → Bool} {pinned : Finset Nat} : ∀ (l : List Int) (i : Nat)
    {st st' : Assignment}, Sound U st → l.Nodup → (∀ c ∈ l, c ∉ st.cf.keys) → splitAll coin pinned i l st = .ok st' →
    ∃ q : Nat → Placement, q 0 = placed st.cf ∧ q l.length = placed st'.cf ∧
      ∀ j c, l[j]? = some c → Split pinned (coin (i + j)) c (q j) (q (j + 1))
  | [], i, st, st', hs, _, _, h => by
    simp only [splitAll, Except.ok.injEq] at h
    subst h
    exact ⟨fun _ => placed st.cf, rfl, rfl, by simp⟩
  | new :: l, i, st, st', hs, hn, hnew, h => by
    unfold splitAll at h
    obtain ⟨st1, h1, h⟩ := bind_ok h
    obtain ⟨a1, a2, a3, a4⟩ := splitLargest_spec hs (hnew new (by simp)) h1
    obtain ⟨hnl, hn'⟩ := List.nodup_cons.1 hn
    obtain ⟨q, q1, q2, q3⟩ := splitAll_splits l (i + 1) a1 hn' (by
      intro c hc
      rw [a2, List.mem_append, not_or]
      refine ⟨hnew c (by simp [hc]), ?_⟩
      simp only [List.mem_singleton]
      rintro rfl
      exact hnl hc) h
    refine ⟨fun j => match j with | 0 => placed st.cf | j + 1 => q j, rfl, q2, ?_⟩
    intro j c hj
    cases j with
    | zero =>
      simp only [List.getElem?_cons_zero, Option.some.injEq] at hj
      subst hj
      simp only [Nat.add_zero]
      rw [q1]
      exact splitLargest_split hs (hnew new (by simp)) h1
    | succ j =>
      have := q3 j c (by simpa using hj)
      simp only
      rw [show i + (j + 1) = i + 1 + j by omega]
      exact this

/-- The course of the refinement of groups. -/
theorem groups_course {ch : Chance} {args : RefineArgs} {db : DB} {batches : Nat} {cfg : GroupCfg} {pinned : Finset Nat}
    {cf cf' : Clustering} {newIds : List Int} (hn : cf.keys.Nodup) (hd : Disjointed cf) (hne : ∀ c ∈ cf.keys, ∃ f, In cf c f)
    (hk : 1 ≤ args.groupTopK) (hit : 1 ≤ cfg.iterations)
    (hwork : ¬ (cf.length = 0 ∨ (cf.length = 1 ∧ effectiveTarget cfg cf = 1)))
    (h : refineGroups (exactScorer ch args db batches) ch cfg pinned cf = .ok (cf', newIds)) :
    let e := effectiveTarget cfg cf
    let d := ((cf.length : Int) - e).toNat
    let r := max 1 (cfg.iterations - 1)
    (movableOf cf pinned).Nonempty ∧
    ∃ (q : Nat → Placement) (k : Nat) (p : Nat → Placement) (tested : Nat → Nat → Finset Int) (gone : Nat → Finset Int)
      (wants : Nat → Finset Nat), q 0 = placed cf ∧
      (∀ j : Nat, j < (e - cf.length).toNat → Split pinned (ch.coin j) (nextLocalId cf + j) (q j) (q (j + 1))) ∧
      p 0 = q (e - cf.length).toNat ∧ p k = placed cf' ∧ 1 ≤ k ∧
      Course (seen db.docsOf args.probe) (movableOf cf pinned) (pinnedIn cf pinned).toFinset cfg.minFeatures ((d + r - 1) / r) batches
        args.groupTopK cfg.tolerance ch.accept cfg.iterations d k p tested gone wants := by
  intro e d r
  rw [not_or] at hwork
  unfold refineGroups at h
  simp only at h
  rw [if_neg hwork.1, if_neg (by exact hwork.2)] at h
  obtain ⟨st, hst, h⟩ := bind_ok h
  obtain ⟨st', hst', h⟩ := bind_ok h
  simp only [pure, Except.pure, Except.ok.injEq, Prod.mk.injEq] at h
  obtain ⟨rfl, hnew⟩ := h
  have hs0 := sound_initial hn hd
  have hp0 := pinsOk_initial hn hd pinned
  have he : orDefault cfg.target cf.length = e := rfl
  rw [he] at hst hst'
  have hfresh : ∀ c ∈ rangeFrom (nextLocalId cf) (e - cf.length), c ∉ cf.keys := by
    intro c hc hck
    have := (mem_rangeFrom.1 hc).1
    have := nextLocalId_fresh cf c hck
    omega
  obtain ⟨s1, s2, s3, s4⟩ := splitAll_spec _ 0 hs0 (rangeFrom_nodup _ _) hfresh hst
  obtain ⟨q, q1, q2, q3⟩ := splitAll_splits _ 0 hs0 (rangeFrom_nodup _ _) hfresh hst
  simp only at s2 s3 s4
  have hpin1 : PinsOk (featuresOf cf) (movableOf cf pinned) (pinnedIn cf pinned) st := by
    refine ⟨hp0.1, fun f hf hm c hc => ?_⟩
    have hfp : f ∈ pinned := by
      by_contra hfp
      exact hm (by rw [movableOf_eq]; exact Finset.mem_filter.2 ⟨hf, by simpa using hfp⟩)
    rw [s3 f hfp] at hc
    exact hp0.2 f hf hm c hc
  have hlen : st.cf.length = cf.length + (e - cf.length).toNat := by
    rw [length_of_keys, s2, List.length_append, rangeFrom_length, ← length_of_keys]
  have hde : ((st.cf.length : Int) - e).toNat = d := by
    simp only [d]; omega
  rw [hde] at hst'
  have hmv : (movableOf cf pinned).Nonempty := by
    by_contra hno
    rw [Finset.not_nonempty_iff_eq_empty] at hno
    obtain ⟨n, hn1⟩ : ∃ n, cfg.iterations = n + 1 := ⟨cfg.iterations - 1, by omega⟩
    rw [hn1] at hst'
    unfold refineLoop at hst'
    obtain ⟨rr, hrr, hst'⟩ := bind_ok hst'
    obtain ⟨-, hl⟩ := refineStep_spec s1 hpin1 hrr
    have hnil : rr.2.2 = [] := by
      apply List.length_eq_zero_iff.1
      rw [hl]
      rcases Nat.eq_zero_or_pos d with h0 | h0
      · simp [h0]
      · have hg : (e - cf.length).toNat = 0 := by simp only [d] at h0; omega
        have hcand : (st.cf.keys.filter (· ∉ pinnedIn cf pinned)) = [] := by
          rw [List.filter_eq_nil_iff]
          intro c hc
          rw [s2] at hc
          have hc' : c ∈ cf.keys := by
            rcases List.mem_append.1 hc with hc | hc
            · exact hc
            · have := (mem_rangeFrom.1 hc); omega
          obtain ⟨f, hf⟩ := hne c hc'
          have hfU : f ∈ featuresOf cf := (mem_featuresOf hn f).2 ⟨c, hf⟩
          have := hp0.2 f hfU (by rw [hno]; simp) c ((invert_spec cf hn hd f c).2 hf)
          simpa using this
        have h0 : (st.cf.keys.filter (· ∉ pinnedIn cf pinned)).length = 0 := by rw [hcand]; rfl
        simp only
        have h1 : ∀ m, min m (st.cf.keys.filter (· ∉ pinnedIn cf pinned)).length = 0 := fun m => by rw [h0]; simp
        exact h1 _
    rw [if_pos hnil, if_pos (by simp only; rw [hno]; rfl)] at hst'
    cases hst'
  obtain ⟨k, p, t, g, w, c1, c2, c3, c4⟩ := loop_course hmv hk cfg.iterations 0 d s1 hpin1 hst'
  refine ⟨hmv, q, k, p, t, g, w, q1, ?_, ?_, c2, c3 hit, ?_⟩
  · intro j hj
    have := q3 j (nextLocalId cf + j) (by
      unfold rangeFrom
      rw [List.getElem?_map, List.getElem?_range hj]
      rfl)
    rw [Nat.zero_add] at this
    exact this
  · rw [c1, ← q2, rangeFrom_length]
  · simp only [Nat.zero_add] at c4
    exact c4

end Hyperreal
