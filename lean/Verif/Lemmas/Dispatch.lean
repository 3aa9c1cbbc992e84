import Verif.Spec.Indexing
import Verif.Lemmas.IndexDocs

namespace Hyperreal
open Spec

/-- The keys inserted by the dispatch loop. -/
def inserted : List Event → List (Nat × Val)
  | [] => []
  | .insert k :: es => k :: inserted es
  | _ :: es => inserted es

theorem dispatch_spec (size : Int) (workers : Nat)
    (pick : List (List (Nat × Val)) → List (List (Nat × Val)) × List (List (Nat × Val)))
    (hp : ∀ fs, ((pick fs).1 ++ (pick fs).2).Perm fs) (ks : List (Nat × Val)) :
    ∀ (batch : List (Nat × Val)) (futures : List (List (Nat × Val))), (batch ≠ [] → (batch.length : Int) < size) →
    let r := dispatch size workers pick ks batch futures
    (submitted r.1).flatten = batch ++ ks ∧ inserted r.1 = ks ∧
    (∀ b ∈ submitted r.1, b ≠ [] ∧ (b.length : Int) ≤ max 1 size) ∧
    (awaited r.1 ++ r.2).Perm (submitted r.1 ++ futures) := by
  induction ks with
  | nil =>
    intro batch futures hb
    simp only [dispatch]
    split
    · rename_i h; subst h; simp [submitted, inserted, awaited]
    · rename_i h
      have := hb h
      simp only [submitted, inserted, awaited, List.flatten_cons, List.flatten_nil, List.append_nil, List.nil_append,
        List.mem_singleton, true_and, List.singleton_append, List.Perm.refl, and_true]
      rintro b rfl
      exact ⟨h, by omega⟩
  | cons k ks ih =>
    intro batch futures hb
    simp only [dispatch]
    split
    · rename_i hsz
      have hlen : ((batch ++ [k]).length : Int) ≤ max 1 size := by
        by_cases h : batch = []
        · subst h; simp
        · have := hb h; simp; omega
      split
      · obtain ⟨h1, h2, h3, h4⟩ := ih [] (pick ((batch ++ [k]) :: futures)).2 (by simp)
        simp only [submitted, inserted, awaited, List.flatten_cons, h1, h2]
        refine ⟨by simp, by simp, ?_, ?_⟩
        · intro b hb'
          rcases List.mem_cons.1 hb' with rfl | hb'
          · exact ⟨by simp, hlen⟩
          · exact h3 b hb'
        · have hpk := hp ((batch ++ [k]) :: futures)
          generalize pick ((batch ++ [k]) :: futures) = pk at *
          rw [List.append_assoc]
          refine (h4.append_left _).trans ?_
          rw [List.cons_append]
          refine List.Perm.trans ?_ List.perm_middle
          refine List.Perm.trans ?_ (hpk.append_left _)
          rw [← List.append_assoc, ← List.append_assoc]
          exact List.perm_append_comm.append_right _
      · obtain ⟨h1, h2, h3, h4⟩ := ih [] ((batch ++ [k]) :: futures) (by simp)
        simp only [submitted, inserted, awaited, List.flatten_cons, h1, h2]
        refine ⟨by simp, by simp, ?_, ?_⟩
        · intro b hb'
          rcases List.mem_cons.1 hb' with rfl | hb'
          · exact ⟨by simp, hlen⟩
          · exact h3 b hb'
        · exact h4.trans (List.perm_middle)
    · rename_i hsz
      obtain ⟨h1, h2, h3, h4⟩ := ih (batch ++ [k]) futures (fun _ => by omega)
      simp only [submitted, inserted, awaited, h1, h2]
      exact ⟨by simp, by simp, h3, h4⟩

theorem mem_enumKeys (keys : List Val) (x : Nat × Val) : x ∈ enumKeys keys ↔ keys[x.1]? = some x.2 := by
  obtain ⟨d, k⟩ := x
  simp only [enumKeys, List.mem_map, Prod.mk.injEq]
  constructor
  · rintro ⟨⟨a, i⟩, h, h1, h2⟩
    simp only at h1 h2
    subst h1 h2
    exact List.mem_zipIdx_iff_getElem?.1 h
  · intro h
    exact ⟨(k, d), List.mem_zipIdx_iff_getElem?.2 h, rfl, rfl⟩

theorem enumKeys_ids (keys : List Val) : (enumKeys keys).map (·.1) = List.range keys.length := by
  simp only [enumKeys, List.map_map]
  have : (fun x : Nat × Val => x.1) ∘ (fun x : Val × Nat => (x.2, x.1)) = Prod.snd := rfl
  rw [this, List.zipIdx_map_snd, List.range_eq_range']

theorem enumKeys_keys (keys : List Val) : (enumKeys keys).map (·.2) = keys := by
  simp only [enumKeys, List.map_map]
  have : (fun x : Nat × Val => x.2) ∘ (fun x : Val × Nat => (x.2, x.1)) = Prod.fst := rfl
  rw [this, List.zipIdx_map_fst]

theorem enumKeys_sorted (keys : List Val) : (enumKeys keys).Pairwise (fun x y => x.1 < y.1) := by
  have h : ((enumKeys keys).map (·.1)).Pairwise (· < ·) := by rw [enumKeys_ids]; exact List.pairwise_lt_range
  exact List.pairwise_map.1 h

/-- A batch as it reaches a worker: part of the enumeration, in order. -/
structure GoodBatch (corpus : Corpus) (b : List (Nat × Val)) : Prop where
  nonempty : b ≠ []
  part : ∀ x ∈ b, corpus.keys[x.1]? = some x.2
  sorted : b.Pairwise (fun x y => x.1 < y.1)

theorem batches_good (corpus : Corpus) (bs : List (List (Nat × Val))) (h : bs.flatten = enumKeys corpus.keys)
    (hne : ∀ b ∈ bs, b ≠ []) : (∀ b ∈ bs, GoodBatch corpus b) ∧
    bs.Pairwise (fun b b' => ∀ x ∈ b, ∀ y ∈ b', x.1 < y.1) := by
  have hs := enumKeys_sorted corpus.keys
  rw [← h, List.pairwise_flatten] at hs
  refine ⟨fun b hb => ⟨hne b hb, ?_, hs.1 b hb⟩, hs.2⟩
  intro x hx
  have : x ∈ enumKeys corpus.keys := by rw [← h]; exact List.mem_flatten.2 ⟨b, hb, hx⟩
  exact (mem_enumKeys _ _).1 this

/-! ## One worker -/

/-- The triples of a batch, in terms of the contents. -/
def triplesOf (content : Val → Features) (b : List (Nat × Val)) : List (Nat × String × Values) :=
  b.flatMap (fun x => (content x.2).map (fun fv => (x.1, fv.1, fv.2)))

theorem mem_triplesOf (content : Val → Features) (b : List (Nat × Val)) (d : Nat) (f : String) (vs : Values) :
    (d, f, vs) ∈ triplesOf content b ↔ ∃ k, (d, k) ∈ b ∧ (f, vs) ∈ content k := by
  simp only [triplesOf, List.mem_flatMap, List.mem_map, Prod.mk.injEq]
  constructor
  · rintro ⟨⟨e, k⟩, h1, ⟨g, ws⟩, h2, rfl, rfl, rfl⟩; exact ⟨k, h1, h2⟩
  · rintro ⟨k, h1, h2⟩; exact ⟨(d, k), h1, (f, vs), h2, rfl, rfl, rfl⟩

theorem batchTriples_eq (content : Val → Features) (b : List (Nat × Val)) :
    batchTriples (b.map (·.1)) ((b.map (·.2)).map content) = triplesOf content b := by
  simp only [batchTriples, triplesOf, List.map_map]
  rw [List.zip_map', List.flatMap_map]
  rfl

/-- The rows of a worker for a good batch. -/
structure GoodOut (content : Val → Features) (positions : Bool) (b : List (Nat × Val)) (first last : Nat)
    (o : BatchOut) : Prop where
  segKeys : (o.segs.map (fun s => (s.field, s.value))).Nodup
  present : ∀ f v, (f, v) ∈ o.segs.map (fun s => (s.field, s.value)) ↔
    ∃ d k vs, (d, k) ∈ b ∧ (f, vs) ∈ content k ∧ some v ∈ vs.items
  seg : ∀ s ∈ o.segs, s.firstDoc = first ∧ s.docsCount = s.docs.card ∧ s.posCount = s.positions.card ∧
    (∀ d, d ∈ s.docs ↔ ∃ k vs, (d, k) ∈ b ∧ (s.field, vs) ∈ content k ∧ some s.value ∈ vs.items) ∧
    (∀ p, p ∈ s.positions ↔ OccursAt (seqsOf positions s.field (triplesOf content b)) s.value p)
  posKeys : (o.pos.map (·.field)).Nodup
  posPresent : ∀ f, seqsOf positions f (triplesOf content b) ≠ [] → ∃ m ∈ o.pos, m.field = f
  pos : ∀ m ∈ o.pos, m.firstDoc = first ∧ m.lastDoc = last ∧ m.docsCount = m.docs.card ∧
    m.docs = ((seqsOf positions m.field (triplesOf content b)).map (·.1)).toFinset ∧
    m.bounds = (offsets (seqsOf positions m.field (triplesOf content b))).toFinset

theorem indexDocs_good {corpus : Corpus} {content : Val → Features} {positions : Bool} (hs : Serves corpus content)
    (hi : Indexable corpus content positions) {b : List (Nat × Val)} (hb : GoodBatch corpus b) :
    ∃ first last o, (b.map (·.1)).head? = some first ∧ (b.map (·.1)).getLast? = some last ∧
      indexDocs corpus positions b = .ok o ∧ GoodOut content positions b first last o := by
  have hmem : ∀ x ∈ b, x.2 ∈ corpus.keys := fun x hx => List.mem_of_getElem? (hb.part x hx)
  have hdocs := hs.docs (b.map (·.2)) (by
    intro k hk
    obtain ⟨x, hx, rfl⟩ := List.mem_map.1 hk
    exact hmem x hx)
  obtain ⟨st, hst⟩ := indexFields_ok positions (triplesOf content b) (by
    rintro ⟨d, f, vs⟩ hx hp ws rfl
    obtain ⟨k, h1, h2⟩ := (mem_triplesOf content b d f _).1 hx
    exact hi hp k (hmem _ h1) f ws h2) {}
  have hI := indexFields_inv positions _ [] {} st (batchInv_nil positions) hst
  rw [List.nil_append] at hI
  cases hfst : b.map (·.1) with
  | nil => exact absurd (List.map_eq_nil_iff.1 hfst) hb.nonempty
  | cons first rest =>
    refine ⟨first, (first :: rest).getLast (by simp),
      ⟨st.entries.map (fun e => ⟨e.1.1, e.1.2, e.2.1.card, e.2.1, e.2.2.card, e.2.2, first⟩),
       st.starts.map (fun e => ⟨e.1, first, (first :: rest).getLast (by simp), e.2.1.card, e.2.1, e.2.2⟩)⟩,
      rfl, List.getLast?_eq_some_getLast (by simp), ?_, ?_⟩
    · simp only [indexDocs]
      split
      · rename_i h; rw [hfst] at h; cases h
      · rename_i first' rest' h
        rw [hfst] at h
        obtain ⟨rfl, rfl⟩ := List.cons.inj h
        rw [hdocs]
        simp only
        have ht : batchTriples (first :: rest) ((b.map (·.2)).map content) = triplesOf content b := by
          rw [← hfst, batchTriples_eq]
        rw [ht, hst]
    · have hkeys : (st.entries.map (fun e => (⟨e.1.1, e.1.2, e.2.1.card, e.2.1, e.2.2.card, e.2.2, first⟩ : SegRow))).map
          (fun s => (s.field, s.value)) = st.entries.map (·.1) := by
        rw [List.map_map]; rfl
      constructor
      · rw [hkeys]; exact hI.keys
      · intro f v
        rw [hkeys, hI.present]
        constructor
        · rintro ⟨d, vs, h1, h2⟩
          obtain ⟨k, h3, h4⟩ := (mem_triplesOf _ _ _ _ _).1 h1
          exact ⟨d, k, vs, h3, h4, h2⟩
        · rintro ⟨d, k, vs, h3, h4, h2⟩
          exact ⟨d, vs, (mem_triplesOf _ _ _ _ _).2 ⟨k, h3, h4⟩, h2⟩
      · intro s hs
        obtain ⟨e, he, rfl⟩ := List.mem_map.1 hs
        obtain ⟨⟨f, v⟩, D, P⟩ := e
        have hg := ((Assoc.mem_iff_get (∅, ∅) st.entries hI.keys (f, v) (D, P)).1 he).2
        refine ⟨rfl, rfl, rfl, ?_, ?_⟩
        · intro d
          have := hI.docs f v d
          rw [hg] at this
          rw [this]
          constructor
          · rintro ⟨vs, h1, h2⟩
            obtain ⟨k, h3, h4⟩ := (mem_triplesOf _ _ _ _ _).1 h1
            exact ⟨k, vs, h3, h4, h2⟩
          · rintro ⟨k, vs, h3, h4, h2⟩
            exact ⟨vs, (mem_triplesOf _ _ _ _ _).2 ⟨k, h3, h4⟩, h2⟩
        · intro p
          have := hI.poss f v p
          rw [hg] at this
          exact this
      · rw [List.map_map]; exact hI.startKeys
      · intro f hf
        obtain ⟨e, he, rfl⟩ := List.mem_map.1 (hI.startsPresent f hf)
        exact ⟨_, List.mem_map.2 ⟨e, he, rfl⟩, rfl⟩
      · intro m hm
        obtain ⟨e, he, rfl⟩ := List.mem_map.1 hm
        obtain ⟨f, D, B⟩ := e
        have hg := ((Assoc.mem_iff_get (∅, {0}) st.starts hI.startKeys f (D, B)).1 he).2
        rw [hI.starts] at hg
        simp only [Prod.mk.injEq] at hg
        exact ⟨rfl, rfl, rfl, hg.1.symm, hg.2.symm⟩

end Hyperreal
