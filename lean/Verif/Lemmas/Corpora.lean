import Verif.Spec.Indexing
import Verif.Lemmas.ScorePassages

namespace Hyperreal
open Spec

/-- The mapping of a document, if it can be computed. -/
def okOr (x : Except Err Features) : Features :=
  match x with
  | .ok f => f
  | .error _ => []

theorem okOr_eq {x : Except Err Features} {f : Features} (h : x = .ok f) : okOr x = f := by subst h; rfl

/-- A corpus that looks up its documents one by one keeps the contract when every key yields a mapping. -/
theorem serves_of_lookup (keys : List Val) (look : Val → Except Err Features) (hn : keys.Nodup)
    (hk : ∀ k ∈ keys, ∃ f, look k = .ok f ∧ (f.map (·.1)).Nodup) :
    Serves ⟨keys, fun ks => ks.mapM look⟩ (fun k => okOr (look k)) := by
  refine ⟨hn, ?_, ?_⟩
  · intro ks hks
    refine mapM_eq_map _ _ ks ?_
    intro k hk'
    obtain ⟨f, hf, -⟩ := hk k (hks k hk')
    rw [okOr_eq hf, hf]
  · intro k hk'
    obtain ⟨f, hf, h2⟩ := hk k hk'
    rw [okOr_eq hf]; exact h2

theorem head?_filter_mem {α : Type} {p : α → Bool} {l : List α} {x : α} (h : (l.filter p).head? = some x) :
    x ∈ l ∧ p x = true := by
  have := List.mem_of_mem_head? (Option.mem_def.2 h)
  exact List.mem_filter.1 this

theorem head?_filter_some {α : Type} {p : α → Bool} {l : List α} {x : α} (hx : x ∈ l) (hp : p x = true) :
    ∃ y, (l.filter p).head? = some y ∧ y ∈ l ∧ p y = true := by
  cases h : (l.filter p).head? with
  | none =>
    rw [List.head?_eq_none_iff, List.filter_eq_nil_iff] at h
    exact absurd hp (h x hx)
  | some y => exact ⟨y, rfl, head?_filter_mem h⟩

theorem mapM_ok_of {α β : Type} (f : α → Except Err β) : ∀ l : List α, (∀ a ∈ l, ∃ b, f a = .ok b) → ∃ r, l.mapM f = .ok r
  | [], _ => ⟨[], rfl⟩
  | a :: l, h => by
    obtain ⟨b, hb⟩ := h a (by simp)
    obtain ⟨r, hr⟩ := mapM_ok_of f l (fun x hx => h x (by simp [hx]))
    exact ⟨b :: r, by rw [List.mapM_cons, hb, hr]; rfl⟩

end Hyperreal
