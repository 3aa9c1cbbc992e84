import Verif.Spec.InFlight
import Verif.Props.Indexing

/-!
# The work of `index()` in flight (C77)
-/

namespace Hyperreal.Props
open Atomic Spec

private theorem dispatch_bounded (size : Int) (workers M : Nat) (hM : max 1 size = (M : Int))
    (pick : List (List (Nat × Val)) → List (List (Nat × Val)) × List (List (Nat × Val)))
    (hp : ∀ fs, ((pick fs).1 ++ (pick fs).2).Perm fs) (hw : ∀ fs, fs ≠ [] → (pick fs).1 ≠ []) :
    ∀ (ks batch : List (Nat × Val)) (futures : List (List (Nat × Val))),
      batch.length + 1 ≤ M → futures.length ≤ workers → (∀ b ∈ futures, b.length ≤ M) →
      ∀ pre post, (dispatch size workers pick ks batch futures).1 = pre ++ post →
        futures.length + (batchesStarted pre).length ≤ (batchesDone pre).length + (workers + 1) ∧
        batch.length + futures.flatten.length + (keysRead pre).length ≤
          (batchesDone pre).flatten.length + (workers + 1) * M := by
  have hsum : ∀ fs : List (List (Nat × Val)), (∀ b ∈ fs, b.length ≤ M) → fs.flatten.length ≤ fs.length * M := by
    intro fs
    induction fs with
    | nil => simp
    | cons b fs ih =>
      intro h
      have h1 := ih (fun x hx => h x (by simp [hx]))
      have h2 := h b (by simp)
      simp only [List.flatten_cons, List.length_append, List.length_cons]
      rw [Nat.add_mul, Nat.one_mul]
      omega
  intro ks
  induction ks with
  | nil =>
    intro batch futures hb hf hl pre post h
    have h1 := hsum futures hl
    have h2 : futures.length * M ≤ workers * M := Nat.mul_le_mul_right _ hf
    rw [dispatch] at h
    have h3 : (workers + 1) * M = workers * M + M := by rw [Nat.add_mul, Nat.one_mul]
    split at h
    · obtain ⟨rfl, rfl⟩ := List.append_eq_nil_iff.1 h.symm
      simp only [batchesStarted, batchesDone, keysRead, List.filterMap_nil, List.flatMap_nil, List.flatten_nil, List.length_nil]
      omega
    · cases pre with
      | nil =>
        simp only [batchesStarted, batchesDone, keysRead, List.filterMap_nil, List.flatMap_nil, List.flatten_nil, List.length_nil]
        omega
      | cons e pre =>
        simp only [List.cons_append, List.cons.injEq] at h
        obtain ⟨rfl, h⟩ := h
        obtain ⟨rfl, rfl⟩ := List.append_eq_nil_iff.1 h.symm
        simp [batchesStarted, batchesDone, keysRead, -List.length_flatten]
        omega
  | cons k ks ih =>
    intro batch futures hb hf hl pre post h
    have h1 := hsum futures hl
    have h2 : futures.length * M ≤ workers * M := Nat.mul_le_mul_right _ hf
    have h3 : (workers + 1) * M = workers * M + M := by rw [Nat.add_mul, Nat.one_mul]
    cases pre with
    | nil =>
      simp only [batchesStarted, batchesDone, keysRead, List.filterMap_nil, List.flatMap_nil, List.flatten_nil, List.length_nil]
      omega
    | cons e pre =>
    rw [dispatch] at h
    dsimp only at h
    split at h
    · split at h
      · rename_i hlen hfull
        have hfl : futures.length = workers := by simp only [List.length_cons] at hfull; omega
        have hperm := hp ((batch ++ [k]) :: futures)
        have hdone := hw ((batch ++ [k]) :: futures) (by simp)
        have hlenp := hperm.length_eq
        have hflatp := hperm.flatten.length_eq
        have hmem : ∀ b ∈ (pick ((batch ++ [k]) :: futures)).2, b.length ≤ M := by
          intro b hbm
          have := hperm.mem_iff.1 (List.mem_append_right _ hbm)
          rcases List.mem_cons.1 this with rfl | h
          · simp; omega
          · exact hl b h
        generalize pick ((batch ++ [k]) :: futures) = pk at h hdone hlenp hflatp hmem
        obtain ⟨done, left⟩ := pk
        dsimp only at h hdone hlenp hflatp hmem
        have hd1 : 1 ≤ done.length := List.length_pos_iff.2 hdone
        simp only [List.length_append, List.length_cons, List.flatten_cons, List.flatten_append, List.length_nil] at hlenp hflatp
        simp only [List.cons_append, List.cons.injEq] at h
        obtain ⟨rfl, h⟩ := h
        cases pre with
        | nil => simp [batchesStarted, batchesDone, keysRead, -List.length_flatten]; omega
        | cons e pre =>
        simp only [List.cons_append, List.cons.injEq] at h
        obtain ⟨rfl, h⟩ := h
        cases pre with
        | nil => simp [batchesStarted, batchesDone, keysRead, -List.length_flatten] at *; omega
        | cons e pre =>
        simp only [List.cons_append, List.cons.injEq] at h
        obtain ⟨rfl, h⟩ := h
        have := ih [] left (by simp; omega) (by omega) hmem pre post h
        simp only [batchesStarted, batchesDone, keysRead, List.filterMap_cons, List.flatMap_cons, List.length_cons, List.length_append,
          List.flatten_append, List.length_nil] at this ⊢
        omega
      · rename_i hlen hfull
        simp only [List.cons_append, List.cons.injEq] at h
        obtain ⟨rfl, h⟩ := h
        cases pre with
        | nil => simp [batchesStarted, batchesDone, keysRead, -List.length_flatten]; omega
        | cons e pre =>
        simp only [List.cons_append, List.cons.injEq] at h
        obtain ⟨rfl, h⟩ := h
        simp only [List.length_cons] at hfull
        have := ih [] ((batch ++ [k]) :: futures) (by simp; omega) (by simp; omega) (by
          intro b hbm
          rcases List.mem_cons.1 hbm with rfl | hbm
          · simp; omega
          · exact hl b hbm) pre post h
        simp only [batchesStarted, batchesDone, keysRead, List.filterMap_cons, List.flatMap_cons, List.length_cons, List.length_append,
          List.flatten_cons, List.length_nil, List.nil_append] at this ⊢
        omega
    · rename_i hlen
      simp only [List.length_append, List.length_cons, List.length_nil] at hlen
      simp only [List.cons_append, List.cons.injEq] at h
      obtain ⟨rfl, h⟩ := h
      have := ih (batch ++ [k]) futures (by simp; omega) hf hl pre post h
      simp only [batchesStarted, batchesDone, keysRead, List.filterMap_cons, List.flatMap_cons, List.length_cons, List.length_append,
        List.length_nil, List.nil_append] at this ⊢
      omega

/-- **C77.** `index()` limits the work in flight: at every moment of the dispatch loop (after any beginning of its history),
whatever the corpus and whichever batches finish first, at most one more batch than there are workers is running or
waiting for a worker; and of the keys read from the corpus at most that many batches' worth belong to documents whose
results have not been collected yet: keys are not read ahead. -/
theorem index_in_flight (corpus : Corpus) (cfg : IndexCfg) (s : Schedule) (hf : Fair s) (hw : Waits s)
    (history rest : List Event) (h : (indexEvents corpus cfg s).1 = history ++ rest) :
    (batchesStarted history).length ≤ (batchesDone history).length + (cfg.workers + 1) ∧
    ((keysRead history).length : Int) ≤
      ((batchesDone history).flatten.length : Int) + ((cfg.workers : Int) + 1) * max 1 cfg.size := by
  obtain ⟨M, hM⟩ : ∃ M : Nat, max 1 cfg.size = (M : Int) := ⟨(max 1 cfg.size).toNat, by omega⟩
  have := dispatch_bounded cfg.size cfg.workers M hM s.pick hf.pick hw (enumKeys corpus.keys) [] [] (by simp; omega) (by simp)
    (by simp) history rest h
  simp only [List.length_nil, List.flatten_nil, Nat.zero_add] at this
  refine ⟨this.1, ?_⟩
  rw [hM]
  exact_mod_cast this.2

/-- The pool is kept busy: a batch is collected only when all workers have work and one more batch is waiting — before, the
loop does not stop for results. -/
theorem index_keeps_busy (corpus : Corpus) (cfg : IndexCfg) (s : Schedule) (hf : Fair s)
    (history rest : List Event) (bs : List (List (Nat × Val)))
    (h : (indexEvents corpus cfg s).1 = history ++ .await bs :: rest) :
    (batchesDone history).length + (cfg.workers + 1) ≤ (batchesStarted history).length := by
  have key : ∀ (pick : List (List (Nat × Val)) → List (List (Nat × Val)) × List (List (Nat × Val)))
      (_ : ∀ fs, ((pick fs).1 ++ (pick fs).2).Perm fs) (ks batch : List (Nat × Val)) (futures : List (List (Nat × Val))) (pre post : List Event)
      (bs : List (List (Nat × Val))), (dispatch cfg.size cfg.workers pick ks batch futures).1 = pre ++ .await bs :: post →
      (batchesDone pre).length + (cfg.workers + 1) ≤ futures.length + (batchesStarted pre).length := by
    intro pick hp ks
    induction ks with
    | nil =>
      intro batch futures pre post bs h
      rw [dispatch] at h
      split at h
      · simp at h
      · cases pre with
        | nil => simp at h
        | cons e pre => simp at h
    | cons k ks ih =>
      intro batch futures pre post bs h
      rw [dispatch] at h
      dsimp only at h
      split at h
      · split at h
        · rename_i hlen hfull
          have hlenp := (hp ((batch ++ [k]) :: futures)).length_eq
          generalize pick ((batch ++ [k]) :: futures) = pk at h hlenp
          obtain ⟨done, left⟩ := pk
          dsimp only at h hlenp
          cases pre with
          | nil => simp at h
          | cons e pre =>
          simp only [List.cons_append, List.cons.injEq] at h
          obtain ⟨rfl, h⟩ := h
          cases pre with
          | nil => simp at h
          | cons e pre =>
          simp only [List.cons_append, List.cons.injEq] at h
          obtain ⟨rfl, h⟩ := h
          cases pre with
          | nil =>
            simp [batchesStarted, batchesDone] at hfull ⊢
            omega
          | cons e pre =>
          simp only [List.cons_append, List.cons.injEq] at h
          obtain ⟨rfl, h⟩ := h
          have := ih [] left pre post bs h
          simp only [batchesStarted, batchesDone, List.filterMap_cons, List.flatMap_cons, List.length_cons,
            List.length_append, List.length_nil] at this hlenp ⊢
          omega
        · cases pre with
          | nil => simp at h
          | cons e pre =>
          simp only [List.cons_append, List.cons.injEq] at h
          obtain ⟨rfl, h⟩ := h
          cases pre with
          | nil => simp at h
          | cons e pre =>
          simp only [List.cons_append, List.cons.injEq] at h
          obtain ⟨rfl, h⟩ := h
          have := ih [] ((batch ++ [k]) :: futures) pre post bs h
          simp only [batchesStarted, batchesDone, List.filterMap_cons, List.flatMap_cons, List.length_cons,
            List.nil_append] at this ⊢
          omega
      · cases pre with
        | nil => simp at h
        | cons e pre =>
        simp only [List.cons_append, List.cons.injEq] at h
        obtain ⟨rfl, h⟩ := h
        have := ih (batch ++ [k]) futures pre post bs h
        simpa [batchesStarted, batchesDone] using this
  have := key s.pick hf.pick _ _ _ _ _ _ h
  simpa using this

/-- Five documents, batches of one, one worker, the oldest batch finishing first: two batches are in flight at most, and two
are when the third key is read. -/
example : let s : Schedule := { demoSchedule with pick := fun fs => (fs.drop 1, fs.take 1) }
    let corpus : Corpus := ⟨[.int 5, .int 6, .int 7], fun ks => .ok (ks.map (fun _ => []))⟩
    let cfg : IndexCfg := ⟨1, 1, false⟩
    (keysRead (indexEvents corpus cfg s).1).length = 3 ∧ (batchesDone (indexEvents corpus cfg s).1).length = 2 ∧
    (indexEvents corpus cfg s).2.length = 1 ∧ (batchesStarted ((indexEvents corpus cfg s).1.take 4)).length = 2 ∧
    (batchesDone ((indexEvents corpus cfg s).1.take 4)).length = 0 := by decide +kernel

end Hyperreal.Props
