import Verif.Lemmas.SessionMix
import Verif.Props.Server

/-! The pivot with contents that change meanwhile. -/

namespace Hyperreal
open Spec DB Session Props
variable {σ : Type} [LinearOrder σ] {P : DB → Prop}

theorem forall₂_mem_right {α β : Type} {R : α → β → Prop} {l : List α} {l' : List β} (h : List.Forall₂ R l l') :
    ∀ b ∈ l', ∃ a ∈ l, R a b := by
  induction h with
  | nil => simp
  | cons h _ ih =>
    intro b hb
    rcases List.mem_cons.1 hb with rfl | hb
    · exact ⟨_, by simp, h⟩
    · obtain ⟨a, h1, h2⟩ := ih b hb
      exact ⟨a, by simp [h1], h2⟩

theorem forall₂_mem_left {α β : Type} {R : α → β → Prop} {l : List α} {l' : List β} (h : List.Forall₂ R l l') :
    ∀ a ∈ l, ∃ b ∈ l', R a b := by
  induction h with
  | nil => simp
  | cons h _ ih =>
    intro a ha
    rcases List.mem_cons.1 ha with rfl | ha
    · exact ⟨_, by simp, h⟩
    · obtain ⟨b, h1, h2⟩ := ih a ha
      exact ⟨b, by simp [h1], h2⟩

/-- The first jobs. -/
theorem weights_mixes (rd : Rat → σ) (hP : ∀ d, P d → Settled d) (query : Bitmap) (all : List Int) (n : Nat)
    (hn : 1 ≤ n) (r : Except Err (List (List (Int × σ × Nat))))
    (h : Mixes P (each (fun i => try_ fun d => queryCooccurrence rd d query (everyNth all i n)) (List.range n)) r) :
    (r = .error .indexError ∧ ∃ c ∈ all, ∃ d, P d ∧ ¬ hasCluster d c) ∨
    ∃ ws, r = .ok ws ∧ (∀ x ∈ ws.flatten, x.1 ∈ all ∧ ∃ d, P d ∧ hasCluster d x.1 ∧ Touches d query x.1) ∧
      (all.Nodup → (ws.flatten.map (·.1)).Nodup) ∧
      ∀ c ∈ all, (∀ d, P d → hasCluster d c → Touches d query c) → c ∈ ws.flatten.map (·.1) := by
  rcases mixes_each _ _ _ h with ⟨e, i, hi, h1, rfl⟩ | ⟨ws, rfl, hf⟩
  · left
    obtain ⟨d, hd, h2⟩ := h1
    change Except.error e = queryCooccurrence rd d query (everyNth all i n) at h2
    by_cases hc : ∀ c ∈ everyNth all i n, hasCluster d c
    · rw [queryCooccurrence_spec rd (hP d hd) query _ hc] at h2; cases h2
    · simp only [not_forall] at hc
      obtain ⟨c, hc1, hc2⟩ := hc
      rw [queryCooccurrence_unknown rd (hP d hd) query _ ⟨c, hc1, hc2⟩] at h2
      exact ⟨congrArg _ (Except.error.inj h2), c, everyNth_mem_of hc1, d, hd, hc2⟩
  · right
    have hf' : List.Forall₂ (fun (i : Nat) ws => ∃ d, P d ∧ (∀ c ∈ everyNth all i n, hasCluster d c) ∧
        ws = ((everyNth all i n).filter (fun c => (query ∩ docsOfCluster d c).Nonempty)).map (weightOf rd d query))
        (List.range n) ws := by
      refine hf.imp ?_
      rintro i b ⟨d, hd, h2⟩
      change Except.ok b = queryCooccurrence rd d query (everyNth all i n) at h2
      by_cases hc : ∀ c ∈ everyNth all i n, hasCluster d c
      · rw [queryCooccurrence_spec rd (hP d hd) query _ hc] at h2
        exact ⟨d, hd, hc, Except.ok.inj h2⟩
      · simp only [not_forall] at hc
        obtain ⟨c, hc1, hc2⟩ := hc
        rw [queryCooccurrence_unknown rd (hP d hd) query _ ⟨c, hc1, hc2⟩] at h2
        cases h2
    refine ⟨ws, rfl, ?_, ?_, ?_⟩
    · intro x hx
      obtain ⟨l, hl, hx⟩ := List.mem_flatten.1 hx
      obtain ⟨i, -, d, hd, hex, rfl⟩ := forall₂_mem_right hf' l hl
      obtain ⟨c, hc, rfl⟩ := List.mem_map.1 hx
      obtain ⟨hc1, hc2⟩ := List.mem_filter.1 hc
      exact ⟨everyNth_mem_of hc1, d, hd, hex c hc1, (touches_iff (hP d hd) (hex c hc1) query).1 (by simpa using hc2)⟩
    · intro hall
      have hsub : ∀ (is : List Nat) (ws : List (List (Int × σ × Nat))),
          List.Forall₂ (fun (i : Nat) ws => ∃ d, P d ∧ (∀ c ∈ everyNth all i n, hasCluster d c) ∧
            ws = ((everyNth all i n).filter (fun c => (query ∩ docsOfCluster d c).Nonempty)).map (weightOf rd d query)) is ws →
          (ws.flatten.map (·.1)).Sublist (is.flatMap (fun i => everyNth all i n)) := by
        intro is ws hh
        induction hh with
        | nil => simp
        | cons hx _ ih =>
          obtain ⟨d, -, -, rfl⟩ := hx
          rw [List.flatten_cons, List.map_append, List.flatMap_cons]
          refine List.Sublist.append ?_ ih
          rw [List.map_map]
          have : ((fun x : Int × σ × Nat => x.1) ∘ weightOf rd d query) = id := by funext c; rfl
          rw [this, List.map_id]
          exact List.filter_sublist
      exact (hsub _ _ hf').nodup ((deal_perm all n hn).nodup_iff.2 hall)
    · intro c hc ht
      have hc' := (deal_perm all n hn).mem_iff.2 hc
      obtain ⟨i, hi, hci⟩ := List.mem_flatMap.1 hc'
      obtain ⟨l, hl, d, hd, hex, rfl⟩ := forall₂_mem_left hf' i hi
      refine List.mem_map.2 ⟨weightOf rd d query c, List.mem_flatten.2 ⟨_, hl, ?_⟩, rfl⟩
      refine List.mem_map.2 ⟨c, List.mem_filter.2 ⟨hci, ?_⟩, rfl⟩
      simpa using (touches_iff (hP d hd) (hex c hci) query).2 (ht d hd (hex c hci))

/-- The clusters a pivot is about when the contents are of the kind `P`. -/
def RequestedIn (P : DB → Prop) (ids : List Int) (c : Int) : Prop :=
  if ids = [] then ∃ d, P d ∧ hasCluster d c else c ∈ ids

/-- The second jobs. -/
theorem seconds_mixes (w : Web σ) (hw : FairWeb w) (hP : ∀ d, P d → Settled d) (query : Bitmap) (topK : Nat)
    (ws : List (Int × σ × Nat)) (hq : ws ≠ [] → 1 ≤ query.card) (r : Except Err (List (Int × σ × List (Nat × String × Val × σ))))
    (h : Mixes P (each (fun x : Int × σ × Nat => try_ fun d => pivotCluster w.rd (w.visit x.1) (w.arrange x.1) d query topK x.2.2 x.1) ws) r) :
    (r = .error .indexError ∧ (topK = 0 ∨ ∃ x ∈ ws, ∃ d, P d ∧ ¬ hasCluster d x.1)) ∨
    ∃ out, r = .ok out ∧ out.map (·.1) = ws.map (·.1) ∧ ∀ x ∈ out, ∃ d, P d ∧ RightFor w.rd d query topK x := by
  rcases mixes_each _ _ _ h with ⟨e, x, hx, h1, rfl⟩ | ⟨out, rfl, hf⟩
  · left
    obtain ⟨d, hd, h2⟩ := h1
    change Except.error e = pivotCluster w.rd (w.visit x.1) (w.arrange x.1) d query topK x.2.2 x.1 at h2
    rcases pivotCluster_right hw.pos (hw.visit x.1) (hw.arrange x.1) (hP d hd) query (hq (List.ne_nil_of_mem hx)) topK x.2.2 x.1 with
      ⟨h3, h4⟩ | ⟨y, h3, -⟩
    · rw [h3] at h2
      refine ⟨congrArg _ (Except.error.inj h2), h4.imp id (fun h => ⟨x, hx, d, hd, h⟩)⟩
    · rw [h3] at h2; cases h2
  · right
    have hf' : List.Forall₂ (fun (a : Int × σ × Nat) (b : Int × σ × List (Nat × String × Val × σ)) => b.1 = a.1 ∧
        ∃ d, P d ∧ RightFor w.rd d query topK b) ws out := by
      have hq' : ∀ a ∈ ws, 1 ≤ query.card := fun a ha => hq (List.ne_nil_of_mem ha)
      clear hq h
      induction hf with
      | nil => exact .nil
      | cons hab _ ih =>
        refine .cons ?_ (ih (fun a ha => hq' a (by simp [ha])))
        obtain ⟨d, hd, h2⟩ := hab
        rename_i a b _ _ _
        change Except.ok b = pivotCluster w.rd (w.visit a.1) (w.arrange a.1) d query topK a.2.2 a.1 at h2
        rcases pivotCluster_right hw.pos (hw.visit a.1) (hw.arrange a.1) (hP d hd) query (hq' a (by simp)) topK a.2.2 a.1 with
          ⟨h3, -⟩ | ⟨y, h3, h4, h5⟩
        · rw [h3] at h2; cases h2
        · rw [h3] at h2
          cases h2
          exact ⟨h4, d, hd, h5⟩
    refine ⟨out, rfl, ?_, ?_⟩
    · clear hf h hq
      induction hf' with
      | nil => rfl
      | cons h _ ih => simp [h.1, ih]
    · intro x hx
      obtain ⟨a, -, -, h⟩ := forall₂_mem_right hf' x hx
      exact h

/-- The whole pivot. -/
theorem pivot_mixes (w : Web σ) (hw : FairWeb w) (hP : ∀ d, P d → Settled d) (query : Bitmap) (ids : List Int) (hids : ids.Nodup)
    (topK : Nat) (r : Except Err (List (Int × σ × List (Nat × String × Val × σ))))
    (h : Mixes P (pivotSession w query ids topK) r) :
    (r = .error .indexError ∧ (topK = 0 ∨ ∃ c, RequestedIn P ids c ∧ ∃ d, P d ∧ ¬ hasCluster d c)) ∨
    ∃ out, r = .ok out ∧ (out.map (·.1)).Nodup ∧
      (∀ x ∈ out, RequestedIn P ids x.1 ∧ (∃ d, P d ∧ hasCluster d x.1 ∧ Touches d query x.1) ∧ ∃ d, P d ∧ RightFor w.rd d query topK x) ∧
      ∀ c, (ids = [] → ∀ d, P d → hasCluster d c) → (ids ≠ [] → c ∈ ids) →
        (∀ d, P d → hasCluster d c → Touches d query c) → c ∈ out.map (·.1) := by
  have hn : 1 ≤ w.workers * 2 := by have := hw.workers; omega
  have main : ∀ all : List Int, all.Nodup → (∀ c ∈ all, RequestedIn P ids c) →
      Mixes P (each (fun i => try_ fun d => queryCooccurrence w.rd d query (everyNth all i (w.workers * 2)))
        (List.range (w.workers * 2)) >>= fun weights =>
          each (fun x => try_ fun d => pivotCluster w.rd (w.visit x.1) (w.arrange x.1) d query topK x.2.2 x.1)
            (orderDesc (fun (x : Int × σ × Nat) => x.2.1) (w.completed weights).flatten)) r →
      (r = .error .indexError ∧ (topK = 0 ∨ ∃ c, RequestedIn P ids c ∧ ∃ d, P d ∧ ¬ hasCluster d c)) ∨
      ∃ out, r = .ok out ∧ (out.map (·.1)).Nodup ∧
        (∀ x ∈ out, RequestedIn P ids x.1 ∧ (∃ d, P d ∧ hasCluster d x.1 ∧ Touches d query x.1) ∧ ∃ d, P d ∧ RightFor w.rd d query topK x) ∧
        ∀ c ∈ all, (∀ d, P d → hasCluster d c → Touches d query c) → c ∈ out.map (·.1) := by
    intro all hnd hreq hm
    rw [mixes_bind] at hm
    rcases hm with ⟨e, h1, rfl⟩ | ⟨ws, h1, h2⟩
    · rcases weights_mixes w.rd hP query all _ hn _ h1 with ⟨h3, c, h4, h5⟩ | ⟨ws, h3, -⟩
      · exact Or.inl ⟨congrArg _ (Except.error.inj h3), Or.inr ⟨c, hreq c h4, h5⟩⟩
      · cases h3
    · rcases weights_mixes w.rd hP query all _ hn _ h1 with ⟨h3, -⟩ | ⟨ws', h3, g1, g2, g3⟩
      · cases h3
      · cases h3
        have hp : (orderDesc (fun (x : Int × σ × Nat) => x.2.1) (w.completed ws).flatten).Perm ws.flatten :=
          (orderDesc_perm _ _).trans (hw.completed ws).flatten
        rcases seconds_mixes w hw hP query topK _ (by
            intro hne
            obtain ⟨x, hx⟩ := List.exists_mem_of_ne_nil _ hne
            obtain ⟨-, d, -, -, k, hk, -⟩ := g1 x (hp.mem_iff.1 hx)
            exact Finset.card_pos.2 ⟨k, hk⟩) _ h2 with ⟨h3, h4⟩ | ⟨out, h3, h4, h5⟩
        · refine Or.inl ⟨h3, h4.imp id ?_⟩
          rintro ⟨x, hx, hd⟩
          exact ⟨x.1, hreq _ (g1 x (hp.mem_iff.1 hx)).1, hd⟩
        · right
          refine ⟨out, h3, ?_, ?_, ?_⟩
          · rw [h4, (hp.map _).nodup_iff]; exact g2 hnd
          · intro x hx
            have : x.1 ∈ (orderDesc (fun (x : Int × σ × Nat) => x.2.1) (w.completed ws).flatten).map (·.1) := by
              rw [← h4]; exact List.mem_map.2 ⟨x, hx, rfl⟩
            obtain ⟨y, hy, e⟩ := List.mem_map.1 this
            obtain ⟨k1, k2⟩ := g1 y (hp.mem_iff.1 hy)
            change y.1 = x.1 at e
            rw [e] at k1 k2
            exact ⟨hreq _ k1, k2, h5 x hx⟩
          · intro c hc ht
            rw [h4, (hp.map _).mem_iff]
            exact g3 c hc ht
  unfold pivotSession at h
  cases ids with
  | nil =>
    simp only [List.isEmpty_nil, if_true] at h
    rw [mixes_look_bind] at h
    obtain ⟨d, hd, h⟩ := h
    have hp := (((orderDesc_perm (fun c : ClusterRow => c.featureCount) (w.visitC d.clusters)).trans (hw.visitC _)).map (·.cid))
    rcases main _ (by rw [hp.nodup_iff]; exact (hP d hd).toWellformed.clusterIds) (by
        intro c hc
        rw [hp.mem_iff] at hc
        obtain ⟨k, hk, rfl⟩ := List.mem_map.1 hc
        simp only [RequestedIn, if_true]
        exact ⟨d, hd, k, hk, rfl⟩) h with h' | ⟨out, h1, h2, h3, h4⟩
    · exact Or.inl h'
    · refine Or.inr ⟨out, h1, h2, h3, fun c hc _ ht => h4 c ?_ ht⟩
      obtain ⟨k, hk, rfl⟩ := hc rfl d hd
      rw [hp.mem_iff]
      exact List.mem_map.2 ⟨k, hk, rfl⟩
  | cons a l =>
    simp only [List.isEmpty_cons, Bool.false_eq_true, if_false] at h
    rcases main (a :: l) hids (fun c hc => by simpa [RequestedIn] using hc) h with h' | ⟨out, h1, h2, h3, h4⟩
    · exact Or.inl h'
    · exact Or.inr ⟨out, h1, h2, h3, fun c _ hc ht => h4 c (hc (by simp)) ht⟩

end Hyperreal
