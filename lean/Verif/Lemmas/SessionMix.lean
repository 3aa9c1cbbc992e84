import Verif.Lemmas.Session
import Verif.Spec.Session
import Verif.Lemmas.Pivot
import Verif.Props.Pivot

/-! Lemmas about sessions whose questions are answered from different contents. -/

namespace Hyperreal
open Spec DB

namespace Session
variable {α β : Type}

theorem mixes_mono {P Q : DB → Prop} (h : ∀ d, P d → Q d) (S : Session α) (r : Except Err α) (hm : Mixes P S r) : Mixes Q S r := by
  induction S with
  | done r' => exact hm
  | ask k ih =>
    obtain ⟨d, h1, h2⟩ := hm
    exact ⟨d, h d h1, ih d h2⟩

theorem mixes_of_on (S : Session α) (ds : List DB) (P : DB → Prop) (hP : ∀ d ∈ ds, P d) (r : Except Err α)
    (hr : S.on (ds.map .ok) = some r) : Mixes P S r := by
  induction S generalizing ds with
  | done r' =>
    cases ds with
    | nil => simp only [List.map_nil, on, Option.some.injEq] at hr; exact hr.symm
    | cons => simp [on] at hr
  | ask k ih =>
    cases ds with
    | nil => simp [on] at hr
    | cons d ds =>
      exact ⟨d, hP d (by simp), ih d ds (fun x hx => hP x (by simp [hx])) hr⟩

/-- Every outcome is one. -/
theorem on_of_mixes (S : Session α) (P : DB → Prop) (r : Except Err α) (h : Mixes P S r) :
    ∃ ds : List DB, (∀ d ∈ ds, P d) ∧ S.on (ds.map .ok) = some r := by
  induction S with
  | done r' => exact ⟨[], by simp, by simp only [List.map_nil, on]; exact congrArg some (Eq.symm h)⟩
  | ask k ih =>
    obtain ⟨d, h1, h2⟩ := h
    obtain ⟨ds, h3, h4⟩ := ih d h2
    exact ⟨d :: ds, by simpa using ⟨h1, h3⟩, h4⟩

variable {P : DB → Prop}

theorem mixes_bind' (S : Session α) (f : α → Session β) (r : Except Err β) :
    Mixes P (Session.bind S f) r ↔ (∃ e, Mixes P S (.error e) ∧ r = .error e) ∨ ∃ a, Mixes P S (.ok a) ∧ Mixes P (f a) r := by
  induction S with
  | done r' =>
    cases r' with
    | error e =>
      simp only [Session.bind, Mixes]
      constructor
      · intro h; exact Or.inl ⟨e, rfl, h⟩
      · rintro (⟨e', h1, h2⟩ | ⟨a, h1, -⟩)
        · cases h1; exact h2
        · cases h1
    | ok a =>
      simp only [Session.bind, Mixes]
      constructor
      · intro h; exact Or.inr ⟨a, rfl, h⟩
      · rintro (⟨e', h1, -⟩ | ⟨b, h1, h2⟩)
        · cases h1
        · cases h1; exact h2
  | ask k ih =>
    simp only [Session.bind, Mixes]
    constructor
    · rintro ⟨d, h1, h2⟩
      rcases (ih d).1 h2 with ⟨e, h3, h4⟩ | ⟨a, h3, h4⟩
      · exact Or.inl ⟨e, ⟨d, h1, h3⟩, h4⟩
      · exact Or.inr ⟨a, ⟨d, h1, h3⟩, h4⟩
    · rintro (⟨e, ⟨d, h1, h3⟩, h4⟩ | ⟨a, ⟨d, h1, h3⟩, h4⟩)
      · exact ⟨d, h1, (ih d).2 (Or.inl ⟨e, h3, h4⟩)⟩
      · exact ⟨d, h1, (ih d).2 (Or.inr ⟨a, h3, h4⟩)⟩

theorem mixes_bind (S : Session α) (f : α → Session β) (r : Except Err β) :
    Mixes P (S >>= f) r ↔ (∃ e, Mixes P S (.error e) ∧ r = .error e) ∨ ∃ a, Mixes P S (.ok a) ∧ Mixes P (f a) r :=
  mixes_bind' S f r

theorem mixes_lift (r r' : Except Err α) : Mixes P (lift r) r' ↔ r' = r := Iff.rfl

theorem mixes_pure (a : α) (r' : Except Err α) : Mixes P (pure a : Session α) r' ↔ r' = .ok a := Iff.rfl

theorem mixes_look (f : DB → α) (r : Except Err α) : Mixes P (look f) r ↔ ∃ d, P d ∧ r = .ok (f d) := Iff.rfl

theorem mixes_try (f : DB → Except Err α) (r : Except Err α) : Mixes P (try_ f) r ↔ ∃ d, P d ∧ r = f d := Iff.rfl

/-- A read that cannot raise, followed by more. -/
theorem mixes_look_bind (g : DB → α) (f : α → Session β) (r : Except Err β) :
    Mixes P (look g >>= f) r ↔ ∃ d, P d ∧ Mixes P (f (g d)) r := Iff.rfl

theorem mixes_try_bind (g : DB → Except Err α) (f : α → Session β) (r : Except Err β) :
    Mixes P (try_ g >>= f) r ↔ (∃ d e, P d ∧ g d = .error e ∧ r = .error e) ∨ ∃ d a, P d ∧ g d = .ok a ∧ Mixes P (f a) r := by
  rw [mixes_bind]
  simp only [mixes_try]
  constructor
  · rintro (⟨e, ⟨d, h1, h2⟩, h3⟩ | ⟨a, ⟨d, h1, h2⟩, h3⟩)
    · exact Or.inl ⟨d, e, h1, h2.symm, h3⟩
    · exact Or.inr ⟨d, a, h1, h2.symm, h3⟩
  · rintro (⟨d, e, h1, h2, h3⟩ | ⟨d, a, h1, h2, h3⟩)
    · exact Or.inl ⟨e, ⟨d, h1, h2.symm⟩, h3⟩
    · exact Or.inr ⟨a, ⟨d, h1, h2.symm⟩, h3⟩

theorem mixes_each (f : α → Session β) (l : List α) (r : Except Err (List β)) (h : Mixes P (each f l) r) :
    (∃ e, ∃ a ∈ l, Mixes P (f a) (.error e) ∧ r = .error e) ∨
      ∃ bs, r = .ok bs ∧ List.Forall₂ (fun a b => Mixes P (f a) (.ok b)) l bs := by
  induction l generalizing r with
  | nil => exact Or.inr ⟨[], h, .nil⟩
  | cons a l ih =>
    rw [each, mixes_bind'] at h
    rcases h with ⟨e, h1, h2⟩ | ⟨b, h1, h2⟩
    · exact Or.inl ⟨e, a, by simp, h1, h2⟩
    · rw [mixes_bind'] at h2
      rcases h2 with ⟨e, h3, h4⟩ | ⟨bs, h3, h4⟩
      · rcases ih _ h3 with ⟨e', a', h5, h6, h7⟩ | ⟨bs, h5, -⟩
        · cases h7
          exact Or.inl ⟨e, a', by simp [h5], h6, h4⟩
        · cases h5
      · rcases ih _ h3 with ⟨e', a', h5, h6, h7⟩ | ⟨bs', h5, h6⟩
        · cases h7
        · cases h5
          exact Or.inr ⟨b :: bs, h4, .cons h1 h6⟩

end Session

open Session

section
variable {σ : Type} [LinearOrder σ]

theorem heapPushPop_perm {α : Type} [LinearOrder α] (y : α) (t : List α) (x : α) :
    ∃ z h, heapPushPop (y :: t) x = h ∧ h.length = t.length + 1 ∧ (z :: h).Perm (x :: y :: t) := by
  simp only [heapPushPop]
  split
  · refine ⟨y, _, rfl, ?_, ?_⟩
    · simp [heapPush, List.orderedInsert_length]
    · exact ((List.perm_orderedInsert _ x t).cons y).trans (List.Perm.swap _ _ _)
  · exact ⟨x, _, rfl, by simp, List.Perm.refl _⟩

theorem pivotLoop_sound (rd : Rat → σ) (db : DB) (query : Bitmap) (rest : List (σ × Listed)) (heap : List (σ ×ₗ Int))
    (hne : heap ≠ []) :
    ∃ heap' dropped, pivotLoop rd db query rest heap = .ok heap' ∧ heap'.length = heap.length ∧
      (heap' ++ dropped).Perm (heap ++ rest.map (fun x => pivotItem rd db query x.2)) := by
  induction rest generalizing heap with
  | nil => exact ⟨heap, [], rfl, rfl, by simp⟩
  | cons x rest ih =>
    obtain ⟨bound, f⟩ := x
    obtain ⟨top, tl, rfl⟩ := List.exists_cons_of_ne_nil hne
    simp only [pivotLoop]
    by_cases hb : bound < (ofLex top).1
    · rw [if_pos hb]
      exact ⟨_, _, rfl, rfl, List.Perm.refl _⟩
    · rw [if_neg hb]
      obtain ⟨z, h, h1, h2, h3⟩ := heapPushPop_perm top tl (pivotItem rd db query f)
      have h1' : heapPushPop (top :: tl) (toLex (jaccard rd query (db.docsOf f.fid), (f.fid : Int))) = h := h1
      rw [h1']
      obtain ⟨heap', dropped, e1, e2, e3⟩ := ih h (by intro hh; rw [hh] at h2; simp at h2)
      refine ⟨heap', z :: dropped, e1, by rw [e2, h2]; simp, ?_⟩
      have e4 : (heap' ++ z :: dropped).Perm (z :: (h ++ rest.map (fun x => pivotItem rd db query x.2))) :=
        List.perm_middle.trans (e3.cons z)
      refine e4.trans ?_
      have e5 : (z :: (h ++ rest.map (fun x => pivotItem rd db query x.2))).Perm
          (pivotItem rd db query f :: top :: tl ++ rest.map (fun x => pivotItem rd db query x.2)) := h3.append_right _
      refine e5.trans ?_
      simp only [List.map_cons, List.cons_append]
      exact (List.perm_middle (a := pivotItem rd db query f) (l₁ := top :: tl)).symm

theorem clusterFeatures_rows {visit : List Listed → List Listed} (hv : AnyOrder visit) {db : DB} (hw : Wellformed db) (c : Int)
    (k : Nat) : ((clusterFeatures visit db c k).map (·.fid)).Nodup ∧
      ∀ x ∈ clusterFeatures visit db c k, x ∈ clusterRows db c := by
  have hp := listing_perm hv db c
  refine ⟨?_, fun x hx => hp.mem_iff.1 (List.mem_of_mem_take hx)⟩
  refine ((List.take_sublist k _).map _).nodup ?_
  rw [(hp.map _).nodup_iff, clusterRows_fids hw]
  exact featuresIn_nodup hw c

theorem pivotBound_ok (rd : Rat → σ) {q inter : Nat} (hq : 1 ≤ q) (f : Nat) : ∃ b, pivotBound rd q inter f = .ok b := by
  have : ¬ ((q : Int) + f - min f inter) = 0 := by
    have := min_le_left f inter
    omega
  exact ⟨_, by rw [pivotBound, if_neg this]⟩

/-- The second job of the pivot, whatever the first one found. -/
theorem pivotCluster_right {rd : Rat → σ} (hpos : ∀ x, 0 < x → rd 0 < rd x)
    {visit : List Listed → List Listed} (hv : AnyOrder visit)
    {arrange : List (σ ×ₗ Int) → List (σ ×ₗ Int)} (ha : AnyOrder arrange)
    {db : DB} (hs : Settled db) (query : Bitmap) (hq : 1 ≤ query.card) (topK inter : Nat) (c : Int) :
    (pivotCluster rd visit arrange db query topK inter c = .error .indexError ∧ (topK = 0 ∨ ¬ hasCluster db c)) ∨
    ∃ x, pivotCluster rd visit arrange db query topK inter c = .ok x ∧ x.1 = c ∧ RightFor rd db query topK x := by
  have hw := hs.toWellformed
  obtain ⟨hfids, hrow⟩ := clusterFeatures_rows hv hw c (2 ^ 62)
  set rows := clusterFeatures visit db c with hrows
  obtain ⟨bounded, hb1, hb2⟩ := mapM_ok_of_forall (P := fun f (x : σ × Listed) => x.2 = f)
    (fun f => (pivotBound rd query.card inter f.docsCount).map (fun b => (b, f))) rows (by
      intro f hf
      obtain ⟨b, e1⟩ := pivotBound_ok rd (inter := inter) hq f.docsCount
      exact ⟨(b, f), by rw [e1]; rfl, rfl⟩)
  have hsnd : bounded.map (·.2) = rows := Props.forall₂_map_snd (fun b x h => h) hb2
  set order := orderDesc (fun (x : σ × Listed) => toLex (x.1, x.2.fid)) bounded with horder
  have hop : order.Perm bounded := orderDesc_perm _ _
  have hpc : pivotCluster rd visit arrange db query topK inter c =
      (pivotLoop rd db query order (List.replicate topK (toLex (rd 0, (-1 : Int)))) >>= fun heap =>
        clusterDocs db c >>= fun docs => .ok (c, jaccard rd query docs, orderDesc (fun (r : Nat × String × Val × σ) => r.2.2.2)
          (((arrange heap).filter (fun x => rd 0 < (ofLex x).1)).filterMap (pivotEntry rows)))) := by
    rw [pivotCluster, ← hrows, hb1]; rfl
  rw [hpc]
  have hloop : (topK = 0 ∧ order ≠ [] ∧
      pivotLoop rd db query order (List.replicate topK (toLex (rd 0, (-1 : Int)))) = .error .indexError) ∨
      ∃ heap dropped, pivotLoop rd db query order (List.replicate topK (toLex (rd 0, (-1 : Int)))) = .ok heap ∧
        heap.length = topK ∧ (heap ++ dropped).Perm (List.replicate topK (toLex (rd 0, (-1 : Int))) ++
          order.map (fun x => pivotItem rd db query x.2)) := by
    by_cases hk : topK = 0
    · subst hk
      cases ho : order with
      | nil => right; exact ⟨[], [], rfl, rfl, by simp⟩
      | cons x l => left; exact ⟨rfl, by simp, rfl⟩
    · right
      obtain ⟨heap, dropped, h1, h2, h3⟩ := pivotLoop_sound rd db query order
        (List.replicate topK (toLex (rd 0, (-1 : Int)))) (by simpa using hk)
      exact ⟨heap, dropped, h1, by simpa using h2, h3⟩
  rcases hloop with ⟨hk, -, hl⟩ | ⟨heap, dropped, hl, hlen, hperm⟩
  · left; rw [hl]; exact ⟨rfl, Or.inl hk⟩
  · rw [hl]
    by_cases hc : hasCluster db c
    · right
      obtain ⟨D, hD, hDm⟩ := clusterDocs_spec hs c hc
      set kept := (arrange heap).filter (fun x => rd 0 < (ofLex x).1) with hkept
      have hsub : kept.Subperm (order.map (fun x => pivotItem rd db query x.2)) := by
        have h1 : (heap.filter (fun x => rd 0 < (ofLex x).1) ++ dropped.filter (fun x => rd 0 < (ofLex x).1)).Perm
            ((order.map (fun x => pivotItem rd db query x.2)).filter (fun x => rd 0 < (ofLex x).1)) := by
          have := hperm.filter (fun x => rd 0 < (ofLex x).1)
          rw [List.filter_append, List.filter_append] at this
          have h0 : (List.replicate topK (toLex (rd 0, (-1 : Int)))).filter (fun x => rd 0 < (ofLex x).1) = [] := by
            rw [List.filter_eq_nil_iff]
            intro x hx
            rw [List.eq_of_mem_replicate hx]
            simp
          rwa [h0, List.nil_append] at this
        have h2 : kept.Perm (heap.filter (fun x => rd 0 < (ofLex x).1)) := (ha heap).filter _
        have h3 : (heap.filter (fun x => rd 0 < (ofLex x).1)).Subperm
            (heap.filter (fun x => rd 0 < (ofLex x).1) ++ dropped.filter (fun x => rd 0 < (ofLex x).1)) :=
          (List.sublist_append_left _ _).subperm
        exact (h2.subperm.trans h3).trans (h1.subperm.trans List.filter_sublist.subperm)
      have hpositive : ∀ x ∈ kept, rd 0 < (ofLex x).1 := fun x hx => by simpa using (List.mem_filter.1 hx).2
      have hentry : ∀ x ∈ kept, ∃ r ∈ rows, pivotEntry rows x = some (r.fid, r.field, r.value, (ofLex x).1) ∧
          (r.fid : Int) = (ofLex x).2 ∧ (ofLex x).1 = jaccard rd query (db.docsOf r.fid) := by
        intro x hx
        obtain ⟨y, hy, rfl⟩ := List.mem_map.1 (hsub.subset hx)
        have hyr : y.2 ∈ rows := by rw [← hsnd]; exact List.mem_map.2 ⟨y, hop.mem_iff.1 hy, rfl⟩
        cases hq : rows.find? (fun r => (r.fid : Int) = (ofLex (pivotItem rd db query y.2)).2) with
        | none =>
          rw [List.find?_eq_none] at hq
          exact absurd (hq _ hyr) (by simp [pivotItem])
        | some r =>
          have e : (r.fid : Int) = (ofLex (pivotItem rd db query y.2)).2 := by simpa using List.find?_some hq
          refine ⟨r, List.mem_of_find?_eq_some hq, by rw [pivotEntry, hq]; rfl, e, ?_⟩
          have e2 : r.fid = y.2.fid := by
            have : (r.fid : Int) = (y.2.fid : Int) := e
            exact_mod_cast this
          rw [e2]; rfl
      have hback : ∀ l : List (σ ×ₗ Int), (∀ x ∈ l, ∃ r ∈ rows, pivotEntry rows x = some (r.fid, r.field, r.value, (ofLex x).1) ∧
          (r.fid : Int) = (ofLex x).2 ∧ (ofLex x).1 = jaccard rd query (db.docsOf r.fid)) →
          (l.filterMap (pivotEntry rows)).map (fun r => (r.1 : Int)) = l.map (fun x => (ofLex x).2) := by
        intro l
        induction l with
        | nil => intro _; rfl
        | cons x l ih =>
          intro h
          obtain ⟨r, -, e1, e2, -⟩ := h x (by simp)
          rw [List.filterMap_cons, e1]
          simp only [List.map_cons]
          rw [ih (fun y hy => h y (by simp [hy])), e2]
      set entries := kept.filterMap (pivotEntry rows) with hentries
      have hep : (orderDesc (fun (r : Nat × String × Val × σ) => r.2.2.2) entries).Perm entries := orderDesc_perm _ _
      have hmem : ∀ e ∈ entries, ∃ r ∈ rows, e = (r.fid, r.field, r.value, jaccard rd query (db.docsOf r.fid)) ∧
          rd 0 < jaccard rd query (db.docsOf r.fid) := by
        intro e he
        obtain ⟨x, hx, he⟩ := List.mem_filterMap.1 he
        obtain ⟨r, h1, h2, -, h3⟩ := hentry x hx
        rw [h2] at he
        refine ⟨r, h1, ?_, ?_⟩
        · rw [← Option.some.inj he, h3]
        · rw [← h3]; exact hpositive x hx
      refine ⟨_, by rw [hD]; rfl, rfl, hc, ⟨D, hDm, rfl⟩, ?_, ?_, ?_, ?_, ?_, ?_⟩
      · show (orderDesc _ entries).length ≤ topK
        rw [hep.length_eq]
        refine (List.length_filterMap_le _ _).trans ?_
        refine (List.length_filter_le _ _).trans ?_
        rw [(ha heap).length_eq, hlen]
      · show ((orderDesc _ entries).map (·.1)).Nodup
        rw [(hep.map _).nodup_iff]
        have h1 : (kept.map (fun x => (ofLex x).2)).Nodup := by
          obtain ⟨l, hl1, hl2⟩ := hsub
          rw [← (hl1.map _).nodup_iff]
          refine (hl2.map (fun x => (ofLex x).2)).nodup ?_
          have h3 : (order.map (fun x => pivotItem rd db query x.2)).map (fun y => (ofLex y).2) =
              (order.map (fun x => x.2.fid)).map (fun n => ((n : Nat) : Int)) := by
            simp [pivotItem, Function.comp_def]
          rw [h3]
          refine List.Nodup.map (fun a b h => by exact_mod_cast h) ?_
          rw [(hop.map _).nodup_iff]
          have h4 : bounded.map (fun x => x.2.fid) = (bounded.map (·.2)).map (·.fid) := by simp
          rw [h4, hsnd]; exact hfids
        rw [← hback kept hentry] at h1
        have h5 : (entries.map (fun r => (r.1 : Int))) = (entries.map (·.1)).map (fun n => ((n : Nat) : Int)) := by simp
        rw [h5] at h1
        exact List.Nodup.of_map _ h1
      · intro e he
        obtain ⟨r, h1, rfl, -⟩ := hmem e (hep.mem_iff.1 he)
        obtain ⟨g1, g2, -⟩ := (mem_clusterRows hw c r).1 (hrow r h1)
        exact ⟨g1, g2⟩
      · intro e he
        obtain ⟨r, h1, rfl, h2⟩ := hmem e (hep.mem_iff.1 he)
        exact (jaccard_pos_iff hpos _ _).1 h2
      · intro e he
        obtain ⟨r, h1, rfl, h2⟩ := hmem e (hep.mem_iff.1 he)
        rfl
      · exact orderDesc_sorted _ _
    · left
      rw [clusterDocs_unknown c hc]
      exact ⟨rfl, Or.inr hc⟩

end
end Hyperreal
