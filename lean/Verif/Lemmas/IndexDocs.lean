import Verif.Model.Indexing
import Verif.Lemmas.Bitmap

namespace Hyperreal

/-! ## defaultdict -/

namespace Assoc
variable {K E : Type} [DecidableEq K]

theorem get_upsert (dflt : E) (k : K) (f : E → E) (l : List (K × E)) (k' : K) :
    get dflt (upsert dflt k f l) k' = if k' = k then f (get dflt l k) else get dflt l k' := by
  induction l with
  | nil =>
    simp only [upsert, get]
    by_cases h : k = k'
    · simp [h]
    · simp [h, Ne.symm h]
  | cons x l ih =>
    obtain ⟨a, e⟩ := x
    simp only [upsert]
    by_cases h : a = k
    · subst h
      by_cases h2 : a = k'
      · subst h2; simp [get]
      · simp [get, h2, Ne.symm h2]
    · simp only [h, if_false, get]
      by_cases h2 : a = k'
      · subst h2; simp [h]
      · simp only [h2, if_false, ih]

theorem mem_keys_upsert (dflt : E) (k : K) (f : E → E) (l : List (K × E)) (k' : K) :
    k' ∈ (upsert dflt k f l).map (·.1) ↔ k' = k ∨ k' ∈ l.map (·.1) := by
  induction l with
  | nil => simp [upsert]
  | cons x l ih =>
    obtain ⟨a, e⟩ := x
    simp only [upsert]
    by_cases h : a = k
    · subst h; simp
    · simp only [h, if_false, List.map_cons, List.mem_cons, ih]
      tauto

theorem nodup_upsert (dflt : E) (k : K) (f : E → E) (l : List (K × E)) (h : (l.map (·.1)).Nodup) :
    ((upsert dflt k f l).map (·.1)).Nodup := by
  induction l with
  | nil => simp [upsert]
  | cons x l ih =>
    obtain ⟨a, e⟩ := x
    simp only [List.map_cons, List.nodup_cons] at h
    simp only [upsert]
    by_cases h1 : a = k
    · simpa [h1] using ⟨by simpa [h1] using h.1, h.2⟩
    · simp only [h1, if_false, List.map_cons, List.nodup_cons, mem_keys_upsert]
      exact ⟨fun h2 => by rcases h2 with h2 | h2; exacts [(by simp at h2), h.1 h2], ih h.2⟩

theorem mem_iff_get (dflt : E) (l : List (K × E)) (h : (l.map (·.1)).Nodup) (k : K) (e : E) :
    (k, e) ∈ l ↔ k ∈ l.map (·.1) ∧ get dflt l k = e := by
  induction l with
  | nil => simp
  | cons x l ih =>
    obtain ⟨a, b⟩ := x
    simp only [List.map_cons, List.nodup_cons] at h
    simp only [List.mem_cons, Prod.mk.injEq, List.map_cons, get]
    by_cases h1 : a = k
    · subst h1
      simp only [if_true, true_or, true_and]
      constructor
      · rintro (h2 | h2)
        · exact h2.symm
        · exact absurd (List.mem_map.2 ⟨_, h2, rfl⟩) h.1
      · exact fun h2 => Or.inl h2.symm
    · simp only [h1, if_false]
      rw [ih h.2]
      simp [Ne.symm h1]

theorem get_of_not_mem (dflt : E) (l : List (K × E)) (k : K) (h : k ∉ l.map (·.1)) : get dflt l k = dflt := by
  induction l with
  | nil => rfl
  | cons x l ih =>
    simp only [List.map_cons, List.mem_cons, not_or] at h
    simp only [get]
    rw [if_neg (Ne.symm h.1), ih h.2]

end Assoc

/-! ## One batch -/

/-- The documents of a batch that have a non-empty sequence in a field, in order, with that sequence. -/
def seqsOf (positions : Bool) (field : String) (done : List (Nat × String × Values)) : List (Nat × List (Option Val)) :=
  done.filterMap (fun x =>
    match positions, x.2.2 with
    | true, .seq vs => if x.2.1 = field ∧ vs ≠ [] then some (x.1, vs) else none
    | _, _ => none)

/-- Where the `i`-th document starts. -/
def offsets (seqs : List (Nat × List (Option Val))) : List Nat :=
  (seqs.map (fun x => x.2.length)).scanl (· + ·) 0

def totalLen (seqs : List (Nat × List (Option Val))) : Nat := (seqs.map (fun x => x.2.length)).sum

theorem offsets_snoc (s : List (Nat × List (Option Val))) (x : Nat × List (Option Val)) :
    offsets (s ++ [x]) = offsets s ++ [totalLen s + x.2.length] := by
  simp only [offsets, totalLen]
  have : ∀ (l : List Nat) (a b : Nat), (l ++ [b]).scanl (· + ·) a = l.scanl (· + ·) a ++ [a + l.sum + b] := by
    intro l
    induction l with
    | nil => intro a b; simp
    | cons c l ih => intro a b; simp [ih, Nat.add_assoc]
  simp [this]

theorem offsets_nil : offsets [] = [0] := by simp [offsets]

theorem totalLen_snoc (s : List (Nat × List (Option Val))) (x : Nat × List (Option Val)) :
    totalLen (s ++ [x]) = totalLen s + x.2.length := by simp [totalLen]

theorem offsets_le (s : List (Nat × List (Option Val))) : ∀ x ∈ offsets s, x ≤ totalLen s := by
  induction s using List.reverseRecOn with
  | nil => simp [offsets_nil, totalLen]
  | append_singleton s x ih =>
    intro y hy
    rw [offsets_snoc] at hy
    rw [totalLen_snoc]
    rcases List.mem_append.1 hy with h | h
    · have := ih y h; omega
    · simp at h; omega

theorem total_mem_offsets (s : List (Nat × List (Option Val))) : totalLen s ∈ offsets s := by
  induction s using List.reverseRecOn with
  | nil => simp [offsets_nil, totalLen]
  | append_singleton s x ih => rw [offsets_snoc, totalLen_snoc]; simp

theorem last_offsets (s : List (Nat × List (Option Val))) : Bitmap.last (offsets s).toFinset = totalLen s := by
  apply le_antisymm
  · simp only [Bitmap.last]
    apply Finset.sup_le
    intro x hx
    exact offsets_le s x (by simpa using hx)
  · exact Finset.le_sup (f := id) (List.mem_toFinset.2 (total_mem_offsets s))

/-- An occurrence of a value in the concatenation of the sequences. -/
def OccursAt (seqs : List (Nat × List (Option Val))) (v : Val) (p : Nat) : Prop :=
  ∃ pre x post o, seqs = pre ++ x :: post ∧ x.2[o]? = some (some v) ∧ p = totalLen pre + o

theorem occursAt_snoc (s : List (Nat × List (Option Val))) (x : Nat × List (Option Val)) (v : Val) (p : Nat) :
    OccursAt (s ++ [x]) v p ↔ OccursAt s v p ∨ ∃ o, x.2[o]? = some (some v) ∧ p = totalLen s + o := by
  constructor
  · rintro ⟨pre, y, post, o, h1, h2, h3⟩
    rcases List.eq_nil_or_concat post with rfl | ⟨post', z, rfl⟩
    · have h := List.append_inj' (h1 : s ++ [x] = pre ++ [y]) rfl
      obtain ⟨rfl, h⟩ := h
      simp at h; subst h
      exact Or.inr ⟨o, h2, h3⟩
    · left
      have h : s ++ [x] = (pre ++ y :: post') ++ [z] := by rw [h1]; simp
      obtain ⟨rfl, -⟩ := List.append_inj' h rfl
      exact ⟨pre, y, post', o, rfl, h2, h3⟩
  · rintro (⟨pre, y, post, o, rfl, h2, h3⟩ | ⟨o, h2, h3⟩)
    · exact ⟨pre, y, post ++ [x], o, by simp, h2, h3⟩
    · exact ⟨s, x, [], o, rfl, h2, h3⟩

/-- The dictionaries after the triples `done`. -/
structure BatchInv (positions : Bool) (done : List (Nat × String × Values)) (st : BatchState) : Prop where
  keys : (st.entries.map (·.1)).Nodup
  startKeys : (st.starts.map (·.1)).Nodup
  present : ∀ f v, (f, v) ∈ st.entries.map (·.1) ↔ ∃ d vs, (d, f, vs) ∈ done ∧ some v ∈ vs.items
  docs : ∀ f v d, d ∈ (Assoc.get (∅, ∅) st.entries (f, v)).1 ↔ ∃ vs, (d, f, vs) ∈ done ∧ some v ∈ vs.items
  poss : ∀ f v p, p ∈ (Assoc.get (∅, ∅) st.entries (f, v)).2 ↔ OccursAt (seqsOf positions f done) v p
  starts : ∀ f, Assoc.get (∅, {0}) st.starts f =
    (((seqsOf positions f done).map (·.1)).toFinset, (offsets (seqsOf positions f done)).toFinset)
  startsPresent : ∀ f, seqsOf positions f done ≠ [] → f ∈ st.starts.map (·.1)

theorem addPositions_spec (field : String) (vs : List (Option Val)) : ∀ (p : Nat) (st st' : BatchState),
    addPositions field p vs st = .ok st' →
    (none ∉ vs) ∧ st'.starts = st.starts ∧
    ((st.entries.map (·.1)).Nodup → (st'.entries.map (·.1)).Nodup) ∧
    (∀ k, k ∈ st'.entries.map (·.1) ↔ k ∈ st.entries.map (·.1) ∨ (k.1 = field ∧ some k.2 ∈ vs)) ∧
    (∀ k, (Assoc.get (∅, ∅) st'.entries k).1 = (Assoc.get (∅, ∅) st.entries k).1) ∧
    (∀ f v q, q ∈ (Assoc.get (∅, ∅) st'.entries (f, v)).2 ↔
      q ∈ (Assoc.get (∅, ∅) st.entries (f, v)).2 ∨ (f = field ∧ ∃ o, vs[o]? = some (some v) ∧ q = p + o)) := by
  induction vs with
  | nil =>
    intro p st st' h
    simp only [addPositions, Except.ok.injEq] at h
    subst h
    simp
  | cons a vs ih =>
    intro p st st' h
    cases a with
    | none => simp [addPositions] at h
    | some w =>
      simp only [addPositions] at h
      obtain ⟨h0, h1, h2, h3, h4, h5⟩ := ih _ _ _ h
      refine ⟨by simpa using h0, h1, fun hn => h2 (Assoc.nodup_upsert _ _ _ _ hn), ?_, ?_, ?_⟩
      · intro k
        rw [h3, Assoc.mem_keys_upsert]
        obtain ⟨kf, kv⟩ := k
        simp only [Prod.mk.injEq, List.mem_cons, Option.some.injEq]
        tauto
      · intro k
        rw [h4, Assoc.get_upsert]
        split
        · rename_i e; rw [e]
        · rfl
      · intro f v q
        rw [h5, Assoc.get_upsert]
        constructor
        · rintro (h | ⟨rfl, o, ho, rfl⟩)
          · split at h
            · rename_i e
              simp only [Prod.mk.injEq] at e
              obtain ⟨rfl, rfl⟩ := e
              rcases Finset.mem_insert.1 h with rfl | h
              · exact Or.inr ⟨rfl, 0, by simp, by simp⟩
              · exact Or.inl h
            · exact Or.inl h
          · exact Or.inr ⟨rfl, o + 1, by simpa using ho, by omega⟩
        · rintro (h | ⟨rfl, o, ho, rfl⟩)
          · left
            split
            · rename_i e; rw [← e]; exact Finset.mem_insert_of_mem h
            · exact h
          · cases o with
            | zero =>
              left
              simp at ho
              subst ho
              simp
            | succ o => exact Or.inr ⟨rfl, o, by simpa using ho, by omega⟩

theorem addPositions_ok (field : String) (vs : List (Option Val)) (hv : none ∉ vs) : ∀ (p : Nat) (st : BatchState),
    ∃ st', addPositions field p vs st = .ok st' := by
  induction vs with
  | nil => intro p st; exact ⟨st, rfl⟩
  | cons a vs ih =>
    intro p st
    cases a with
    | none => simp at hv
    | some w =>
      simp only [addPositions]
      exact ih (by simpa using hv) _ _

theorem addDocs_spec (field : String) (d : Nat) (vs : List (Option Val)) (st : BatchState) :
    (addDocs field d vs st).starts = st.starts ∧
    ((st.entries.map (·.1)).Nodup → ((addDocs field d vs st).entries.map (·.1)).Nodup) ∧
    (∀ k, k ∈ (addDocs field d vs st).entries.map (·.1) ↔ k ∈ st.entries.map (·.1) ∨ (k.1 = field ∧ some k.2 ∈ vs)) ∧
    (∀ k, (Assoc.get (∅, ∅) (addDocs field d vs st).entries k).2 = (Assoc.get (∅, ∅) st.entries k).2) ∧
    (∀ f v e, e ∈ (Assoc.get (∅, ∅) (addDocs field d vs st).entries (f, v)).1 ↔
      e ∈ (Assoc.get (∅, ∅) st.entries (f, v)).1 ∨ (f = field ∧ some v ∈ vs ∧ e = d)) := by
  have key : ∀ (ws : List Val) (st : BatchState),
      let st' := ws.foldl (fun (st : BatchState) v => { st with entries := Assoc.upsert (∅, ∅) (field, v) (fun e => (insert d e.1, e.2)) st.entries }) st
      st'.starts = st.starts ∧ ((st.entries.map (·.1)).Nodup → (st'.entries.map (·.1)).Nodup) ∧
      (∀ k, k ∈ st'.entries.map (·.1) ↔ k ∈ st.entries.map (·.1) ∨ (k.1 = field ∧ k.2 ∈ ws)) ∧
      (∀ k, (Assoc.get (∅, ∅) st'.entries k).2 = (Assoc.get (∅, ∅) st.entries k).2) ∧
      (∀ f v e, e ∈ (Assoc.get (∅, ∅) st'.entries (f, v)).1 ↔
        e ∈ (Assoc.get (∅, ∅) st.entries (f, v)).1 ∨ (f = field ∧ v ∈ ws ∧ e = d)) := by
    intro ws
    induction ws with
    | nil => intro st; simp
    | cons w ws ih =>
      intro st
      simp only [List.foldl_cons]
      obtain ⟨h1, h2, h3, h4, h5⟩ := ih { st with entries := Assoc.upsert (∅, ∅) (field, w) (fun e => (insert d e.1, e.2)) st.entries }
      refine ⟨h1, fun hn => h2 (Assoc.nodup_upsert _ _ _ _ hn), ?_, ?_, ?_⟩
      · intro k
        rw [h3, Assoc.mem_keys_upsert]
        obtain ⟨kf, kv⟩ := k
        simp only [Prod.mk.injEq, List.mem_cons]
        tauto
      · intro k
        rw [h4, Assoc.get_upsert]
        split
        · rename_i e; rw [e]
        · rfl
      · intro f v e
        rw [h5, Assoc.get_upsert]
        constructor
        · rintro (h | ⟨rfl, hv, rfl⟩)
          · split at h
            · rename_i e
              simp only [Prod.mk.injEq] at e
              obtain ⟨rfl, rfl⟩ := e
              rcases Finset.mem_insert.1 h with rfl | h
              · exact Or.inr ⟨rfl, by simp, rfl⟩
              · exact Or.inl h
            · exact Or.inl h
          · exact Or.inr ⟨rfl, by simp [hv], rfl⟩
        · rintro (h | ⟨rfl, hv, rfl⟩)
          · left
            split
            · rename_i e; rw [← e]; exact Finset.mem_insert_of_mem h
            · exact h
          · rcases List.mem_cons.1 hv with rfl | hv
            · left; simp
            · exact Or.inr ⟨rfl, hv, rfl⟩
  obtain ⟨h1, h2, h3, h4, h5⟩ := key (vs.filterMap id).dedup st
  have hm : ∀ v, v ∈ (vs.filterMap id).dedup ↔ some v ∈ vs := by intro v; simp
  refine ⟨h1, h2, ?_, h4, ?_⟩
  · intro k; rw [← hm]; exact h3 k
  · intro f v e; rw [← hm]; exact h5 f v e

theorem seqsOf_snoc (positions : Bool) (f : String) (done : List (Nat × String × Values)) (x : Nat × String × Values) :
    seqsOf positions f (done ++ [x]) = seqsOf positions f done ++ seqsOf positions f [x] := by
  simp [seqsOf]

/-- One field keeps the invariant. -/
theorem indexField_inv (positions : Bool) (done : List (Nat × String × Values)) (st st' : BatchState) (d : Nat)
    (field : String) (values : Values) (hI : BatchInv positions done st)
    (h : indexField positions d field values st = .ok st') : BatchInv positions (done ++ [(d, field, values)]) st' := by
  -- the plain case: only documents
  have plain : seqsOf positions field [(d, field, values)] = [] →
      BatchInv positions (done ++ [(d, field, values)]) (addDocs field d values.items st) := by
    intro hs
    have hs' : ∀ f, seqsOf positions f (done ++ [(d, field, values)]) = seqsOf positions f done := by
      intro f
      rw [seqsOf_snoc]
      by_cases hf : f = field
      · rw [hf, hs, List.append_nil]
      · have : seqsOf positions f [(d, field, values)] = [] := by
          simp only [seqsOf, List.filterMap_cons, List.filterMap_nil]
          cases positions <;> cases values <;> simp [Ne.symm hf]
        rw [this, List.append_nil]
    obtain ⟨h1, h2, h3, h4, h5⟩ := addDocs_spec field d values.items st
    constructor
    · exact h2 hI.keys
    · rw [h1]; exact hI.startKeys
    · intro f v
      rw [h3, hI.present]
      simp only [List.mem_append, List.mem_singleton, Prod.mk.injEq]
      constructor
      · rintro (⟨e, vs, a, b⟩ | ⟨rfl, b⟩)
        · exact ⟨e, vs, Or.inl a, b⟩
        · exact ⟨d, values, Or.inr ⟨rfl, rfl, rfl⟩, b⟩
      · rintro ⟨e, vs, a | ⟨rfl, rfl, rfl⟩, b⟩
        · exact Or.inl ⟨e, vs, a, b⟩
        · exact Or.inr ⟨rfl, b⟩
    · intro f v e
      rw [h5, hI.docs]
      simp only [List.mem_append, List.mem_singleton, Prod.mk.injEq]
      constructor
      · rintro (⟨vs, a, b⟩ | ⟨rfl, b, rfl⟩)
        · exact ⟨vs, Or.inl a, b⟩
        · exact ⟨values, Or.inr ⟨rfl, rfl, rfl⟩, b⟩
      · rintro ⟨vs, a | ⟨rfl, rfl, rfl⟩, b⟩
        · exact Or.inl ⟨vs, a, b⟩
        · exact Or.inr ⟨rfl, b, rfl⟩
    · intro f v p; rw [h4, hI.poss, hs']
    · intro f; rw [h1, hI.starts, hs']
    · intro f hne; rw [h1]; rw [hs'] at hne; exact hI.startsPresent f hne
  match positions, values, h with
  | false, values, h =>
    simp only [indexField, Except.ok.injEq] at h
    subst h
    exact plain (by simp [seqsOf])
  | true, .bag vs, h =>
    simp only [indexField, Except.ok.injEq] at h
    subst h
    exact plain (by simp [seqsOf])
  | true, .seq vs, h =>
    simp only [indexField] at h
    split at h
    · cases h
    · rename_i st1 hst1
      obtain ⟨a0, a1, a2, a3, a4, a5⟩ := addPositions_spec _ _ _ _ _ hst1
      simp only at a1 a2 a3 a4 a5
      have hbase : Bitmap.last (Assoc.get (∅, {0}) st.starts field).2 = totalLen (seqsOf true field done) := by
        rw [hI.starts]; exact last_offsets _
      rw [hbase] at a5 h
      split at h
      · rename_i hnil
        subst hnil
        simp only [Except.ok.injEq] at h
        subst h
        have hs' : ∀ f, seqsOf true f (done ++ [(d, field, Values.seq [])]) = seqsOf true f done := by
          intro f; rw [seqsOf_snoc]; simp [seqsOf]
        have hno : ∀ f v, (∃ e vs, (e, f, vs) ∈ done ++ [(d, field, Values.seq [])] ∧ some v ∈ vs.items) ↔
            (∃ e vs, (e, f, vs) ∈ done ∧ some v ∈ vs.items) := by
          intro f v
          simp only [List.mem_append, List.mem_singleton, Prod.mk.injEq]
          constructor
          · rintro ⟨e, vs, a | ⟨rfl, rfl, rfl⟩, b⟩
            · exact ⟨e, vs, a, b⟩
            · simp [Values.items] at b
          · rintro ⟨e, vs, a, b⟩; exact ⟨e, vs, Or.inl a, b⟩
        constructor
        · exact a2 hI.keys
        · rw [a1]; exact Assoc.nodup_upsert _ _ _ _ hI.startKeys
        · intro f v; rw [a3, hno, hI.present]; simp
        · intro f v e
          rw [a4, hI.docs]
          simp only [List.mem_append, List.mem_singleton, Prod.mk.injEq]
          constructor
          · rintro ⟨vs, a, b⟩; exact ⟨vs, Or.inl a, b⟩
          · rintro ⟨vs, a | ⟨rfl, rfl, rfl⟩, b⟩
            · exact ⟨vs, a, b⟩
            · simp [Values.items] at b
        · intro f v p; rw [a5, hs', hI.poss]; simp
        · intro f
          rw [a1, Assoc.get_upsert, hs']
          split
          · rename_i e; rw [id, ← e, hI.starts]
          · exact hI.starts f
        · intro f hne
          rw [a1, Assoc.mem_keys_upsert]
          rw [hs'] at hne
          exact Or.inr (hI.startsPresent f hne)
      · rename_i hne
        simp only [Except.ok.injEq] at h
        subst h
        obtain ⟨b1, b2, b3, b4, b5⟩ := addDocs_spec field d vs
          ⟨st1.entries, Assoc.upsert (∅, {0}) field
            (fun e => (insert d e.1, insert (totalLen (seqsOf true field done) + vs.length) e.2)) st1.starts⟩
        have hs1 : seqsOf true field [(d, field, Values.seq vs)] = [(d, vs)] := by simp [seqsOf, hne]
        have hs2 : ∀ f, f ≠ field → seqsOf true f [(d, field, Values.seq vs)] = [] := by
          intro f hf; simp [seqsOf, Ne.symm hf]
        constructor
        · exact b2 (a2 hI.keys)
        · rw [b1]; simp only; rw [a1]
          exact Assoc.nodup_upsert _ _ _ _ (Assoc.nodup_upsert _ _ _ _ hI.startKeys)
        · intro f v
          rw [b3]; simp only; rw [a3, hI.present]
          simp only [List.mem_append, List.mem_singleton, Prod.mk.injEq]
          constructor
          · rintro ((⟨e, vs, a, b⟩ | ⟨rfl, b⟩) | ⟨rfl, b⟩)
            · exact ⟨e, vs, Or.inl a, b⟩
            · exact ⟨d, _, Or.inr ⟨rfl, rfl, rfl⟩, b⟩
            · exact ⟨d, _, Or.inr ⟨rfl, rfl, rfl⟩, b⟩
          · rintro ⟨e, vs, a | ⟨rfl, rfl, rfl⟩, b⟩
            · exact Or.inl (Or.inl ⟨e, vs, a, b⟩)
            · exact Or.inr ⟨rfl, b⟩
        · intro f v e
          rw [b5]; simp only; rw [a4, hI.docs]
          simp only [List.mem_append, List.mem_singleton, Prod.mk.injEq]
          constructor
          · rintro (⟨vs, a, b⟩ | ⟨rfl, b, rfl⟩)
            · exact ⟨vs, Or.inl a, b⟩
            · exact ⟨_, Or.inr ⟨rfl, rfl, rfl⟩, b⟩
          · rintro ⟨vs, a | ⟨rfl, rfl, rfl⟩, b⟩
            · exact Or.inl ⟨vs, a, b⟩
            · exact Or.inr ⟨rfl, b, rfl⟩
        · intro f v p
          rw [b4]; simp only; rw [a5, seqsOf_snoc, hI.poss]
          by_cases hf : f = field
          · subst hf; rw [hs1, occursAt_snoc]; simp
          · rw [hs2 f hf, List.append_nil]; simp [hf]
        · intro f
          rw [b1]; simp only; rw [a1]
          simp only [Assoc.get_upsert]
          rw [seqsOf_snoc]
          by_cases hf : f = field
          · subst hf
            rw [hs1, offsets_snoc]
            simp only [if_true, id, hI.starts, List.map_append, List.map_cons, List.map_nil, List.toFinset_append,
              List.toFinset_cons, List.toFinset_nil]
            refine Prod.ext ?_ ?_
            · ext z; simp
            · ext z; simp
          · simp only [hf, if_false, hs2 f hf, List.append_nil]; exact hI.starts f
        · intro f hn
          rw [b1]; simp only; rw [a1]
          simp only [Assoc.mem_keys_upsert]
          rw [seqsOf_snoc] at hn
          by_cases hf : f = field
          · exact Or.inl hf
          · rw [hs2 f hf, List.append_nil] at hn
            exact Or.inr (Or.inr (hI.startsPresent f hn))

theorem indexFields_inv (positions : Bool) (xs : List (Nat × String × Values)) :
    ∀ (done : List (Nat × String × Values)) (st st' : BatchState), BatchInv positions done st →
    indexFields positions xs st = .ok st' → BatchInv positions (done ++ xs) st' := by
  induction xs with
  | nil => intro done st st' hI h; simp only [indexFields, Except.ok.injEq] at h; subst h; simpa using hI
  | cons x xs ih =>
    intro done st st' hI h
    simp only [indexFields] at h
    split at h
    · cases h
    · rename_i st1 h1
      have := ih (done ++ [x]) st1 st' (indexField_inv positions done st st1 x.1 x.2.1 x.2.2 hI h1) h
      simpa using this

/-- The batch can be indexed: no `None` in a sequence whose positions are recorded. -/
def NoNone (positions : Bool) (values : Values) : Prop :=
  positions = true → ∀ vs, values = .seq vs → none ∉ vs

theorem indexFields_ok (positions : Bool) (xs : List (Nat × String × Values))
    (h : ∀ x ∈ xs, NoNone positions x.2.2) : ∀ st, ∃ st', indexFields positions xs st = .ok st' := by
  induction xs with
  | nil => intro st; exact ⟨st, rfl⟩
  | cons x xs ih =>
    intro st
    have : ∃ st1, indexField positions x.1 x.2.1 x.2.2 st = .ok st1 := by
      have hx := h x (by simp)
      revert hx
      generalize x.2.2 = values
      intro hx
      match positions, values, hx with
      | false, values, _ => exact ⟨_, rfl⟩
      | true, .bag vs, _ => exact ⟨_, rfl⟩
      | true, .seq vs, hx =>
        simp only [indexField]
        obtain ⟨st1, h1⟩ := addPositions_ok x.2.1 vs (hx rfl vs rfl)
          (Bitmap.last (Assoc.get (∅, {0}) st.starts x.2.1).2)
          { st with starts := Assoc.upsert (∅, {0}) x.2.1 id st.starts }
        rw [h1]
        simp only
        split
        · exact ⟨_, rfl⟩
        · exact ⟨_, rfl⟩
    obtain ⟨st1, h1⟩ := this
    simp only [indexFields, h1]
    exact ih (fun y hy => h y (by simp [hy])) st1

theorem batchInv_nil (positions : Bool) : BatchInv positions [] {} := by
  constructor <;> simp [Assoc.get, seqsOf, OccursAt, offsets_nil]

end Hyperreal
