import Verif.Props.Hansard
import Verif.Props.TextPassages

/-! # C92: passages of the Hansard example -/

namespace Hyperreal.Props
open Spec Atomic

/-- **C92.** After indexing the pages with positions, every passage search for known features succeeds and can be rendered: one row for
each page found, with its id and the passages, which are words of its text. -/
theorem hansard_passages (t : Hansard.TextOps) (db : Hansard.Db) (hr : HansardReadable t db) (hne : db.pages ≠ [])
    (hids : Sortable (db.pages.map (·.id))) (cfg : IndexCfg) (hpos : cfg.positions = true)
    (s : Schedule) (hf : Fair s) (hno : ∀ i, s.fault i = none) (f : Migrate.File) (hu : Usable f)
    (arrange : List (Nat × List Nat) → List (Nat × List Nat)) (ha : ∀ l, (arrange l).Perm l)
    (order : List (String × Nat × List (List Nat)) → List (String × Nat × List (List Nat))) (ho : ∀ l, (order l).Perm l)
    (keep : Nat → List Nat → List Nat) (later : List (Dict Nat (List Passage)) → List (Dict Nat (List Passage)))
    (hl : ∀ l, (later l).Perm l) (w overhang batchSize : Nat) (hb : 0 < batchSize) :
    let indexed := (Pipeline.onIndex f (indexCall (Hansard.corpus t db) cfg s)).1.data
    ∀ clauses : List (List FeatureRef), (∀ c ∈ clauses, Known indexed c) →
      ∃ found rows, scorePassages arrange order indexed clauses w = .ok found ∧
        renderPassages keep later (Hansard.corpus t db) indexed found overhang batchSize none = .ok rows ∧
        (rows.map (·.1)).Nodup ∧ (∀ i, i ∈ rows.map (·.1) ↔ passagesIn found "page" i ≠ []) ∧
        ∀ row ∈ rows, ∃ p, db.pages[row.1]? = some p ∧ p.id = row.2.1 ∧
          ∀ debate title root y m d, PageFacts t db p debate title root y m d →
            Dict.get? row.2.2 "page" = some (.passages ((passagesIn found "page" row.1).map
              (fun x => " ".intercalate (shown overhang (t.tokens (" ".intercalate root.texts)) x)))) := by
  intro indexed clauses hk
  obtain ⟨content, hs, hi, hv⟩ := hansard_serves hr
  have hkeys : (Hansard.corpus t db).keys ≠ [] := by
    show db.pages.map (·.id) ≠ []
    simpa using hne
  obtain ⟨-, -, -, hsearch⟩ := any_index hs cfg (hi _) hkeys s hf hno f hu
  have h := hsearch hpos
  have hget : ∀ (i : Nat) k, (Hansard.corpus t db).keys[i]? = some k → ∃ p, db.pages[i]? = some p ∧ p.id = k := by
    intro i k hik
    have : (db.pages.map (·.id))[i]? = some k := hik
    rw [List.getElem?_map, Option.map_eq_some_iff] at this
    exact this
  have hseq : ∀ k ∈ (Hansard.corpus t db).keys, ∀ field vs, (field, Values.seq vs) ∈ content k →
      field = "page" ∧ ∃ ts : List String, vs = ts.map (fun t => some (.text t)) := by
    intro k hkm field vs hm
    obtain ⟨p, hp, rfl⟩ := List.mem_map.1 hkm
    obtain ⟨debate, title, root, y, m, d, hfacts⟩ := hr.facts p hp
    obtain ⟨rfl, rfl⟩ := ((hv p hp _ _ _ _ _ _ hfacts).2 field vs).1 hm
    exact ⟨rfl, _, rfl⟩
  obtain ⟨found, rows, r1, r2, r3, r4, r5⟩ := found_passages_render h (fun k hkm field vs hm => (hseq k hkm field vs hm).2) hids arrange ha
    order ho clauses hk w keep later hl overhang batchSize hb
  obtain ⟨found', f1, -, f3⟩ := passages_partial h arrange ha order ho clauses hk w
  rw [r1] at f1
  cases f1
  have hpage : ∀ i, i ∈ rows.map (·.1) ↔ passagesIn found "page" i ≠ [] := by
    intro i
    rw [r4 i]
    constructor
    · rintro ⟨field, hne'⟩
      obtain ⟨x, hx⟩ := List.exists_mem_of_ne_nil _ hne'
      obtain ⟨⟨c, -, ref, -, v, -, vs, ⟨k, hik, hm⟩, -⟩, -⟩ := f3 i field x hx x.start (.inl rfl)
      obtain ⟨rfl, -⟩ := hseq k (List.mem_of_getElem? hik) field vs hm
      exact hne'
    · exact fun h => ⟨"page", h⟩
  refine ⟨found, rows, r1, r2, r3, hpage, ?_⟩
  intro row hrow
  have hren := r5 row hrow
  obtain ⟨p, hp, hpid⟩ := hget _ _ hren.key
  refine ⟨p, hp, hpid, ?_⟩
  intro debate title root y m d hfacts
  refine hren.passages "page" _ ?_ ((hpage _).1 (List.mem_map.2 ⟨row, hrow, rfl⟩))
  refine ⟨row.2.1, hren.key, ?_⟩
  rw [← hpid]
  exact ((hv p (List.mem_of_getElem? hp) _ _ _ _ _ _ hfacts).2 _ _).2 ⟨rfl, rfl⟩

/-- The passages of the one word that the third page of the example consists of. -/
example : let indexed := (Pipeline.onIndex earlierFile (indexCall (Hansard.corpus hansardOps demoHansard) ⟨2, 2, true⟩ demoSchedule)).1.data
    ∃ found rows, scorePassages id id indexed [[.key "page" (.text "No Noes")]] 1 = .ok found ∧
      renderPassages (fun _ l => l) id (Hansard.corpus hansardOps demoHansard) indexed found 2 1 none = .ok rows ∧
      (rows.map (·.1)).Nodup := by
  intro indexed
  have hcal : Calendar 2000 1 1 := by unfold Calendar; decide +kernel
  obtain ⟨-, -, -, -, h⟩ := hansard_found hansardOps demoHansard demoHansard_readable (by decide +kernel) ⟨2, 2, true⟩ demoSchedule demo_fair
    (fun _ => rfl) earlierFile earlierFile_usable
  have h2 := (h 2 _ rfl (.int 1) (some "<b>Bills") _ 2000 1 1 ⟨rfl, by decide +kernel, ⟨_, rfl, rfl⟩, ⟨_, rfl, rfl⟩, hcal⟩ "page"
    (.text "No Noes")).2 (.inl ⟨rfl, "No Noes", by decide +kernel, rfl⟩)
  obtain ⟨found, rows, r1, r2, r3, -⟩ := hansard_passages hansardOps demoHansard demoHansard_readable (by decide +kernel)
    (.inl (by decide +kernel)) ⟨2, 2, true⟩ rfl demoSchedule demo_fair (fun _ => rfl) earlierFile earlierFile_usable id (fun _ => .refl _)
    id (fun _ => .refl _) (fun _ l => l) id (fun _ => .refl _) 1 2 1 (by decide) [[.key "page" (.text "No Noes")]] (by
      intro c hc ref href
      simp only [List.mem_cons, List.not_mem_nil, or_false] at hc
      subst hc
      simp only [List.mem_cons, List.not_mem_nil, or_false] at href
      subst href
      refine .inr ?_
      unfold DB.docsOfKey at h2
      split at h2
      · next r hr =>
        have := List.find?_some hr
        simp only [decide_eq_true_eq] at this
        exact ⟨r, List.mem_of_find?_eq_some hr, this.1.symm, this.2.symm⟩
      · simp at h2)
  exact ⟨found, rows, r1, r2, r3⟩

end Hyperreal.Props
