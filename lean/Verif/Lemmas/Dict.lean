import Verif.Model.Dict
import Mathlib.Tactic

/-! Lemmas about the model of `dict`. -/

namespace Hyperreal.Dict
variable {κ ν : Type} [DecidableEq κ]

@[simp] theorem get?_nil (k : κ) : get? ([] : Dict κ ν) k = none := rfl

theorem get?_cons (e : κ × ν) (d : Dict κ ν) (k : κ) :
    get? (e :: d) k = if e.1 = k then some e.2 else get? d k := by
  simp only [get?, List.find?_cons]
  by_cases h : e.1 = k <;> simp [h]

theorem any_iff (d : Dict κ ν) (k : κ) : (d.any (fun e => e.1 = k)) = true ↔ k ∈ d.keys := by
  simp [keys]

theorem get?_eq_none (d : Dict κ ν) (k : κ) : d.get? k = none ↔ k ∉ d.keys := by
  induction d with
  | nil => simp [keys]
  | cons e d ih =>
    rw [get?_cons]
    by_cases h : e.1 = k
    · simp [h, keys]
    · have h' : k ≠ e.1 := fun x => h x.symm
      rw [if_neg h, ih]; simp [keys, h']

theorem get?_isSome (d : Dict κ ν) (k : κ) : (∃ v, d.get? k = some v) ↔ k ∈ d.keys := by
  have := get?_eq_none d k
  cases h : d.get? k with
  | none => simp [this.1 h]
  | some v =>
    simp only [Option.some.injEq, exists_eq', true_iff]
    by_contra hk
    rw [this.2 hk] at h
    cases h

theorem mem_of_get? {d : Dict κ ν} {k : κ} {v : ν} (h : d.get? k = some v) : (k, v) ∈ d := by
  simp only [get?, Option.map_eq_some_iff] at h
  obtain ⟨e, he, rfl⟩ := h
  have h1 := List.mem_of_find?_eq_some he
  have h2 := List.find?_some he
  simp only [decide_eq_true_eq] at h2
  rw [← h2]; exact h1

theorem get?_of_mem {d : Dict κ ν} (hn : d.keys.Nodup) {k : κ} {v : ν} (h : (k, v) ∈ d) : d.get? k = some v := by
  induction d with
  | nil => simp at h
  | cons e d ih =>
    rw [get?_cons]
    have hn' : e.1 ∉ keys d ∧ (keys d).Nodup := by simpa [keys] using hn
    rcases List.mem_cons.1 h with rfl | h
    · simp
    · have : e.1 ≠ k := by
        rintro rfl
        exact hn'.1 (List.mem_map.2 ⟨(e.1, v), h, rfl⟩)
      rw [if_neg this]
      exact ih hn'.2 h

theorem getE_ok_iff (d : Dict κ ν) (k : κ) (v : ν) : d.getE k = .ok v ↔ d.get? k = some v := by
  unfold getE
  cases d.get? k <;> simp

theorem getE_eq (d : Dict κ ν) (k : κ) (v : ν) (h : d.get? k = some v) : d.getE k = .ok v := (getE_ok_iff d k v).2 h

theorem getE_err (d : Dict κ ν) (k : κ) (e : Err) : d.getE k = .error e → e = .keyError ∧ k ∉ d.keys := by
  unfold getE
  cases h : d.get? k with
  | none => simp only [Except.error.injEq]; rintro rfl; exact ⟨rfl, (get?_eq_none d k).1 h⟩
  | some v => simp

theorem keys_set (d : Dict κ ν) (k : κ) (v : ν) :
    (d.set k v).keys = if k ∈ d.keys then d.keys else d.keys ++ [k] := by
  unfold set
  by_cases h : k ∈ d.keys
  · rw [if_pos ((any_iff d k).2 h), if_pos h]
    simp only [keys, List.map_map]
    apply List.map_congr_left
    intro e _
    by_cases he : e.1 = k <;> simp [he]
  · rw [if_neg (fun hh => h ((any_iff d k).1 hh)), if_neg h]
    simp [keys]

theorem mem_set {d : Dict κ ν} {k : κ} {v : ν} {e : κ × ν} (h : e ∈ d.set k v) : e ∈ d ∨ e = (k, v) := by
  unfold Dict.set at h
  split at h
  · obtain ⟨e', he', rfl⟩ := List.mem_map.1 h
    split
    · exact .inr rfl
    · exact .inl he'
  · rcases List.mem_append.1 h with h | h
    · exact .inl h
    · exact .inr (List.mem_singleton.1 h)

theorem mem_keys_set (d : Dict κ ν) (k : κ) (v : ν) (x : κ) : x ∈ (d.set k v).keys ↔ x = k ∨ x ∈ d.keys := by
  rw [keys_set]
  by_cases h : k ∈ d.keys
  · rw [if_pos h]
    constructor
    · exact Or.inr
    · rintro (rfl | hx)
      · exact h
      · exact hx
  · rw [if_neg h]; simp [or_comm]

theorem nodup_set {d : Dict κ ν} (hn : d.keys.Nodup) (k : κ) (v : ν) : (d.set k v).keys.Nodup := by
  rw [keys_set]
  by_cases h : k ∈ d.keys
  · rw [if_pos h]; exact hn
  · rw [if_neg h]
    exact List.nodup_append.2 ⟨hn, by simp, by
      intro a ha b hb
      simp only [List.mem_singleton] at hb
      rintro rfl
      exact h (hb ▸ ha)⟩

theorem get?_append (d d' : Dict κ ν) (k : κ) : get? (d ++ d') k = (get? d k).or (get? d' k) := by
  induction d with
  | nil => simp [get?]
  | cons e d ih =>
    rw [List.cons_append, get?_cons, get?_cons]
    by_cases h : e.1 = k
    · simp [h]
    · rw [if_neg h, if_neg h]; exact ih

theorem get?_set (d : Dict κ ν) (k : κ) (v : ν) (x : κ) :
    (d.set k v).get? x = if x = k then some v else d.get? x := by
  unfold set
  by_cases h : k ∈ d.keys
  · rw [if_pos ((any_iff d k).2 h)]
    induction d with
    | nil => simp [keys] at h
    | cons e d ih =>
      rw [List.map_cons, get?_cons, get?_cons]
      by_cases he : e.1 = k
      · rw [if_pos he]
        by_cases hx : x = k
        · simp [hx]
        · have hkx : k ≠ x := fun h => hx h.symm
          rw [if_neg hkx, if_neg hx, if_neg (he ▸ hkx)]
          by_cases hk : k ∈ keys d
          · rw [ih hk, if_neg hx]
          · have : ∀ a ∈ d, ¬ a.1 = k := fun a ha hh => hk (List.mem_map.2 ⟨a, ha, hh⟩)
            have e2 : List.map (fun e => if e.1 = k then (k, v) else e) d = d := by
              conv_rhs => rw [← List.map_id d]
              exact List.map_congr_left (fun a ha => by simp [this a ha])
            rw [e2]
      · rw [if_neg he]
        have hk : k ∈ keys d := by
          simp only [keys, List.map_cons, List.mem_cons] at h
          rcases h with h | h
          · exact absurd h.symm he
          · exact h
        rw [ih hk]
        by_cases hx : x = k
        · subst hx; simp [he]
        · simp [hx]
  · rw [if_neg (fun hh => h ((any_iff d k).1 hh))]
    rw [get?_append]
    have e1 : get? [(k, v)] x = if k = x then some v else none := by rw [get?_cons]; simp
    rw [e1]
    by_cases hx : x = k
    · subst hx
      simp [(get?_eq_none d x).2 h]
    · have hkx : k ≠ x := fun h => hx h.symm
      rw [if_neg hx, if_neg hkx]
      simp

omit [DecidableEq κ] in
theorem length_eq_keys (d : Dict κ ν) : d.length = d.keys.length := by simp [keys]

theorem get?_filter_ne (d : Dict κ ν) (k x : κ) :
    get? (d.filter (fun e => e.1 ≠ k)) x = if x = k then none else d.get? x := by
  induction d with
  | nil => simp
  | cons e d ih =>
    rw [List.filter_cons]
    by_cases he : e.1 = k
    · rw [if_neg (by simpa using he), ih, get?_cons]
      by_cases hx : x = k
      · simp [hx]
      · have : e.1 ≠ x := fun h => hx (h.symm.trans he)
        simp [hx, this]
    · rw [if_pos (by simpa using he), get?_cons, get?_cons, ih]
      by_cases hx : x = k
      · subst hx; simp [he]
      · simp [hx]

theorem keys_filter_ne (d : Dict κ ν) (k : κ) : keys (d.filter (fun e => e.1 ≠ k)) = d.keys.filter (· ≠ k) := by
  simp only [keys, List.filter_map]
  rfl

theorem delE_ok {d d' : Dict κ ν} {k : κ} (h : d.delE k = .ok d') :
    k ∈ d.keys ∧ d' = d.filter (fun e => e.1 ≠ k) := by
  unfold delE at h
  split at h
  · rename_i hk
    exact ⟨(any_iff d k).1 hk, by simpa using h.symm⟩
  · cases h

theorem delE_eq {d : Dict κ ν} {k : κ} (h : k ∈ d.keys) : d.delE k = .ok (d.filter (fun e => e.1 ≠ k)) := by
  unfold delE
  rw [if_pos ((any_iff d k).2 h)]

theorem mem_values_iff {d : Dict κ ν} (hn : d.keys.Nodup) (k : κ) (v : ν) : (k, v) ∈ d ↔ d.get? k = some v :=
  ⟨get?_of_mem hn, mem_of_get?⟩

end Hyperreal.Dict
