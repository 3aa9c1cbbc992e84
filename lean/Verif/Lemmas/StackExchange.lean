import Verif.Spec.StackExchange
import Verif.Lemmas.Atomic

namespace Hyperreal.SX
open Atomic Spec

/-! ## Keyed tables -/

section keyed
variable {α K : Type} [DecidableEq K] (key : α → Option K)

/-- All rows one after another. -/
def putAll (l rows : List α) : List α := rows.foldl (replaceRow key) l

theorem replaceRow_some (l : List α) (x : α) (k : K) (h : key x = some k) :
    replaceRow key l x = l.filter (fun y => key y ≠ some k) ++ [x] := by simp [replaceRow, h]

theorem replaceRow_none (l : List α) (x : α) (h : key x = none) : replaceRow key l x = l ++ [x] := by
  simp [replaceRow, h]

/-- Rows that conflict with none of the new ones stay, in order; the rest depends on the new rows only. -/
theorem putAll_eq (rows : List α) (hk : ∀ x ∈ rows, key x ≠ none) : ∀ l : List α,
    putAll key l rows = l.filter (fun y => key y = none ∨ key y ∉ rows.map key) ++ putAll key [] rows := by
  induction rows using List.reverseRecOn with
  | nil => intro l; simp [putAll]
  | append_singleton rows x ih =>
    intro l
    obtain ⟨k, hx⟩ : ∃ k, key x = some k := by
      cases h : key x with
      | none => exact absurd h (hk x (by simp))
      | some k => exact ⟨k, rfl⟩
    have ih := ih (fun y hy => hk y (by simp [hy]))
    have e : ∀ l, putAll key l (rows ++ [x]) = replaceRow key (putAll key l rows) x := by
      intro l; simp [putAll, List.foldl_append]
    rw [e, e, replaceRow_some key _ x k hx, replaceRow_some key _ x k hx, ih l, List.filter_append, List.append_assoc,
      List.filter_filter]
    congr 1
    apply List.filter_congr
    intro y _
    simp only [hx, List.map_append, List.map_cons, List.map_nil, List.mem_append, List.mem_singleton, not_or]
    cases h : key y with
    | none => simp
    | some k' => simp [and_comm]

theorem mem_putAll (rows : List α) : ∀ l : List α, ∀ y ∈ putAll key l rows, y ∈ l ∨ y ∈ rows := by
  induction rows using List.reverseRecOn with
  | nil => intro l y hy; exact .inl hy
  | append_singleton rows x ih =>
    intro l y hy
    have hy : y ∈ replaceRow key (putAll key l rows) x := by simpa [putAll, List.foldl_append] using hy
    simp only [replaceRow, List.mem_append, List.mem_singleton] at hy
    rcases hy with hy | rfl
    · have : y ∈ putAll key l rows := by
        cases h : key x with
        | none => simpa [h] using hy
        | some k => rw [h] at hy; exact (List.mem_filter.1 hy).1
      rcases ih l y this with h | h
      · exact .inl h
      · exact .inr (by simp [h])
    · exact .inr (by simp)

/-- Importing the same rows (and a row without key) again changes nothing that a filter excluding the latter sees. -/
theorem putAll_twice (rows : List α) (hk : ∀ x ∈ rows, key x ≠ none) (roots : List α) (hr : ∀ x ∈ roots, key x = none)
    (q : α → Bool) (hq : ∀ x ∈ roots, q x = false) (l : List α) :
    ((putAll key (putAll key l rows ++ roots) rows) ++ roots).filter q = (putAll key l rows ++ roots).filter q := by
  have hroots : roots.filter q = [] := by
    rw [List.filter_eq_nil_iff]; intro x hx; simp [hq x hx]
  rw [List.filter_append, hroots, List.append_nil, List.filter_append, hroots, List.append_nil]
  rw [putAll_eq key rows hk (putAll key l rows ++ roots), putAll_eq key rows hk l]
  have h1 : (putAll key [] rows).filter (fun y => key y = none ∨ key y ∉ rows.map key) = [] := by
    rw [List.filter_eq_nil_iff]
    intro y hy
    rcases mem_putAll key rows [] y hy with h | h
    · cases h
    · simp only [decide_eq_true_eq, not_or, not_not]
      exact ⟨hk y h, List.mem_map.2 ⟨y, h, rfl⟩⟩
  have h2 : roots.filter (fun y => key y = none ∨ key y ∉ rows.map key) = roots := by
    rw [List.filter_eq_self]
    intro y hy
    simp [hr y hy]
  simp only [List.filter_append, h1, h2, hroots, List.append_nil, List.filter_filter]
  congr 1
  apply List.filter_congr
  intro y _
  simp

/-- Rows for which the new row does not count and that cannot conflict with it. -/
theorem filter_replaceRow (q : α → Bool) (x : α) (hx : q x = false)
    (hk : ∀ y, q y = true → key x ≠ none → key y ≠ key x) (l : List α) :
    (replaceRow key l x).filter q = l.filter q := by
  cases h : key x with
  | none => rw [replaceRow_none key l x h, List.filter_append]; simp [hx]
  | some k =>
    rw [replaceRow_some key l x k h, List.filter_append, List.filter_filter]
    simp only [List.filter_cons, hx, Bool.false_eq_true, if_false, List.filter_nil, List.append_nil]
    apply List.filter_congr
    intro y _
    cases hy : q y with
    | false => simp
    | true =>
      have := hk y hy (by simp [h])
      rw [h] at this
      simp [this]

theorem filter_putAll (q : α → Bool) (rows : List α) (hx : ∀ x ∈ rows, q x = false)
    (hk : ∀ x ∈ rows, ∀ y, q y = true → key x ≠ none → key y ≠ key x) : ∀ l : List α,
    (putAll key l rows).filter q = l.filter q := by
  induction rows using List.reverseRecOn with
  | nil => intro l; rfl
  | append_singleton rows x ih =>
    intro l
    have e : putAll key l (rows ++ [x]) = replaceRow key (putAll key l rows) x := by
      simp [putAll, List.foldl_append]
    rw [e, filter_replaceRow key q x (hx x (by simp)) (hk x (by simp)),
      ih (fun x h => hx x (by simp [h])) (fun x h => hk x (by simp [h]))]

/-- Distinct keys: the rows are appended. -/
theorem putAll_nil (rows : List α) (hk : ∀ x ∈ rows, key x ≠ none) (hn : (rows.map key).Nodup) : putAll key [] rows = rows := by
  induction rows using List.reverseRecOn with
  | nil => rfl
  | append_singleton rows x ih =>
    obtain ⟨k, hx⟩ : ∃ k, key x = some k := by
      cases h : key x with
      | none => exact absurd h (hk x (by simp))
      | some k => exact ⟨k, rfl⟩
    simp only [List.map_append, List.map_cons, List.map_nil, List.nodup_append, List.nodup_cons, List.not_mem_nil,
      not_false_eq_true, List.nodup_nil, and_self, true_and, List.mem_singleton] at hn
    have e : putAll key [] (rows ++ [x]) = replaceRow key (putAll key [] rows) x := by
      simp [putAll, List.foldl_append]
    rw [e, ih (fun y hy => hk y (by simp [hy])) hn.1, replaceRow_some key _ x k hx]
    congr 1
    rw [List.filter_eq_self]
    intro y hy
    have := hn.2 (key y) (List.mem_map.2 ⟨y, hy, rfl⟩) (key x) rfl
    rw [hx] at this
    simpa using this

end keyed

/-! ## Posts -/

/-- The post made from a row. -/
def mkPost (d site : Nat) (kind : String) (r : PostRow) : Post :=
  ⟨d, site, r.id, r.owner, r.license, r.parent, r.title, r.created, r.body, kind⟩

/-- What a row does to a post that is already there. -/
def updPost (site : Nat) (kind : String) (r : PostRow) (p : Post) : Post :=
  if p.key ≠ none ∧ p.key = (mkPost 0 site kind r).key then mkPost p.docId site kind r else p

theorem updPost_docId (site kind r p) : (updPost site kind r p).docId = p.docId := by
  unfold updPost; split <;> rfl

theorem mkPost_key (d d' site kind r) : (mkPost d site kind r).key = (mkPost d' site kind r).key := rfl

theorem mkPost_key_eq (d site kind r) : (mkPost d site kind r).key = r.id.map (fun i => (site, i)) := rfl

theorem key_some {p : Post} {s : Nat} {i : Int} (h : p.key = some (s, i)) : p.site = s ∧ p.id = some i := by
  unfold Post.key at h
  cases hp : p.id with
  | none => simp [hp] at h
  | some j => simp [hp] at h; exact ⟨h.1, by rw [h.2]⟩

theorem updPost_same (site kind r p) : (updPost site kind r p).site = p.site ∧ (updPost site kind r p).id = p.id ∧
    (updPost site kind r p).key = p.key := by
  unfold updPost
  split
  · next h =>
    obtain ⟨h1, h2⟩ := h
    cases hp : p.key with
    | none => exact absurd hp h1
    | some k =>
      obtain ⟨s, i⟩ := k
      rw [hp] at h2
      obtain ⟨a1, a2⟩ := key_some hp
      obtain ⟨b1, b2⟩ := key_some h2.symm
      exact ⟨by rw [a1, ← b1]; rfl, by rw [a2, ← b2]; rfl, by rw [h2]; rfl⟩
  · exact ⟨rfl, rfl, rfl⟩

theorem insertPost_map (x : Post) : ∀ posts : List Post, posts.Pairwise (fun p q => p.docId < q.docId) →
    x.docId ∈ posts.map (·.docId) →
    insertPost x (posts.filter (fun p => p.docId ≠ x.docId)) = posts.map (fun p => if p.docId = x.docId then x else p)
  | [], _, h => by cases h
  | p :: l, hs, h => by
    obtain ⟨h1, h2⟩ := List.pairwise_cons.1 hs
    by_cases hp : p.docId = x.docId
    · rw [List.filter_cons_of_neg (by simp [hp])]
      have hl : l.filter (fun p => p.docId ≠ x.docId) = l := by
        rw [List.filter_eq_self]
        intro q hq
        have := h1 q hq
        simp only [decide_eq_true_eq]; omega
      have hm : l.map (fun p => if p.docId = x.docId then x else p) = l := by
        conv_rhs => rw [← List.map_id l]
        apply List.map_congr_left
        intro q hq
        have := h1 q hq
        rw [if_neg (by omega)]; rfl
      rw [hl, List.map_cons, if_pos hp, hm]
      cases l with
      | nil => rfl
      | cons q l =>
        have := h1 q (by simp)
        rw [insertPost, if_pos (by omega)]
    · rw [List.filter_cons_of_pos (by simpa using hp), List.map_cons, if_neg hp]
      have hm : x.docId ∈ l.map (·.docId) := by
        rcases List.mem_cons.1 h with h | h
        · exact absurd h.symm hp
        · exact h
      obtain ⟨q, hq, e⟩ := List.mem_map.1 hm
      have := h1 q hq
      rw [insertPost, if_neg (by omega), insertPost_map x l h2 hm]

theorem insertPost_end (x : Post) : ∀ posts : List Post, (∀ p ∈ posts, p.docId < x.docId) → insertPost x posts = posts ++ [x]
  | [], _ => rfl
  | p :: l, h => by
    have := h p (by simp)
    rw [insertPost, if_neg (by omega), insertPost_end x l (fun q hq => h q (by simp [hq]))]
    rfl

theorem le_foldr_max {l : List Nat} {x : Nat} (h : x ∈ l) : x ≤ l.foldr max 0 := by
  induction l with
  | nil => cases h
  | cons a l ih =>
    rcases List.mem_cons.1 h with rfl | h
    · exact le_max_left _ _
    · exact (ih h).trans (le_max_right _ _)

/-- The constraints on the posts. -/
structure PostsOk (posts : List Post) : Prop where
  docIds : posts.Pairwise (fun p q => p.docId < q.docId)
  keys : ∀ p ∈ posts, ∀ q ∈ posts, p.key ≠ none → p.key = q.key → p = q

theorem PostsOk.unique {posts : List Post} (h : PostsOk posts) {p q : Post} (hp : p ∈ posts) (hq : q ∈ posts)
    (e : p.docId = q.docId) : p = q := by
  have hn : (posts.map (·.docId)).Nodup := by
    rw [List.Nodup, List.pairwise_map]
    exact h.docIds.imp (fun h => by omega)
  exact List.inj_on_of_nodup_map hn hp hq e

/-- A row either updates the post with its key in place or is appended. -/
theorem replacePost_cases (site : Nat) (kind : String) (r : PostRow) (posts : List Post) (h : PostsOk posts) :
    ((∃ q ∈ posts, q.key ≠ none ∧ q.key = (mkPost 0 site kind r).key) ∧
      replacePost site kind r posts = posts.map (updPost site kind r)) ∨
    ((∀ q ∈ posts, q.key ≠ none → q.key ≠ (mkPost 0 site kind r).key) ∧
      replacePost site kind r posts =
        posts ++ [mkPost ((posts.map (·.docId)).foldr max 0 + 1) site kind r]) := by
  by_cases hex : ∃ q ∈ posts, q.key ≠ none ∧ q.key = (mkPost 0 site kind r).key
  · left
    refine ⟨hex, ?_⟩
    obtain ⟨q, hq, h1, h2⟩ := hex
    obtain ⟨i, hi⟩ : ∃ i, r.id = some i := by
      cases hr : r.id with
      | none => rw [h2, mkPost_key_eq, hr] at h1; exact absurd rfl h1
      | some i => exact ⟨i, rfl⟩
    have hkey : (mkPost 0 site kind r).key = some (site, i) := by rw [mkPost_key_eq, hi]; rfl
    have hold : oldDocId site r.id posts = some q.docId := by
      have hmem : q ∈ posts.filter (fun p => p.key = some (site, i)) :=
        List.mem_filter.2 ⟨hq, by rw [h2, hkey]; simp⟩
      simp only [oldDocId, hi]
      cases hf : posts.filter (fun p => p.key = some (site, i)) with
      | nil => rw [hf] at hmem; cases hmem
      | cons q' l =>
        have hq' : q' ∈ posts.filter (fun p => p.key = some (site, i)) := by rw [hf]; simp
        obtain ⟨hq'1, hq'2⟩ := List.mem_filter.1 hq'
        have hq'2 : q'.key = some (site, i) := by simpa using hq'2
        have : q' = q := h.keys q' hq'1 q hq (by rw [hq'2]; simp) (by rw [hq'2, h2, hkey])
        simp [this]
    have hrep : replacePost site kind r posts = insertPost (mkPost q.docId site kind r)
        (posts.filter (fun p => ¬ (p.docId = q.docId ∨ (p.key ≠ none ∧ p.key = (mkPost q.docId site kind r).key)))) := by
      unfold replacePost; rw [hold]; rfl
    rw [hrep]
    have hfil : posts.filter (fun p => ¬ (p.docId = q.docId ∨ (p.key ≠ none ∧ p.key = (mkPost q.docId site kind r).key))) =
        posts.filter (fun p => p.docId ≠ (mkPost q.docId site kind r).docId) := by
      apply List.filter_congr
      intro p hp
      simp only [decide_eq_decide, not_or]
      constructor
      · exact fun h => h.1
      · intro hne
        refine ⟨hne, ?_⟩
        rintro ⟨e1, e2⟩
        exact hne (show p.docId = q.docId by rw [h.keys p hp q hq e1 (by rw [e2, h2]; rfl)])
    rw [hfil, insertPost_map (mkPost q.docId site kind r) posts h.docIds (List.mem_map.2 ⟨q, hq, rfl⟩)]
    apply List.map_congr_left
    intro p hp
    by_cases hpq : p = q
    · subst hpq
      rw [if_pos (show p.docId = (mkPost p.docId site kind r).docId from rfl), updPost, if_pos ⟨h1, h2⟩]
    · rw [if_neg (show ¬ p.docId = (mkPost q.docId site kind r).docId from fun e => hpq (h.unique hp hq e)), updPost,
        if_neg]
      rintro ⟨e1, e2⟩
      exact hpq (h.keys p hp q hq e1 (by rw [e2, h2]))
  · right
    have hno : ∀ q ∈ posts, q.key ≠ none → q.key ≠ (mkPost 0 site kind r).key := by
      intro q hq h1 h2
      exact hex ⟨q, hq, h1, h2⟩
    refine ⟨hno, ?_⟩
    have hold : oldDocId site r.id posts = none := by
      cases hr : r.id with
      | none => rfl
      | some i =>
        have : posts.filter (fun p => p.key = some (site, i)) = [] := by
          rw [List.filter_eq_nil_iff]
          intro p hp
          simp only [decide_eq_true_eq]
          intro e
          exact hno p hp (by rw [e]; simp) (by rw [e, mkPost_key_eq, hr]; rfl)
        simp [oldDocId, this]
    have hrep : replacePost site kind r posts = insertPost (mkPost ((posts.map (·.docId)).foldr max 0 + 1) site kind r)
        (posts.filter (fun p => ¬ (p.docId = (posts.map (·.docId)).foldr max 0 + 1 ∨
          (p.key ≠ none ∧ p.key = (mkPost ((posts.map (·.docId)).foldr max 0 + 1) site kind r).key)))) := by
      unfold replacePost; rw [hold]; rfl
    have hlt : ∀ p ∈ posts, p.docId < (posts.map (·.docId)).foldr max 0 + 1 := by
      intro p hp
      have := le_foldr_max (List.mem_map.2 ⟨p, hp, rfl⟩ : p.docId ∈ posts.map (·.docId))
      omega
    rw [hrep]
    generalize hM : (posts.map (·.docId)).foldr max 0 + 1 = M at hlt
    have hfil : posts.filter (fun p => ¬ (p.docId = M ∨ (p.key ≠ none ∧ p.key = (mkPost M site kind r).key))) = posts := by
      rw [List.filter_eq_self]
      intro p hp
      have h1 := hlt p hp
      have h2 := hno p hp
      simp only [decide_eq_true_eq, not_or, not_and]
      exact ⟨by omega, h2⟩
    rw [hfil, insertPost_end _ _ hlt]

theorem replacePost_ok (site : Nat) (kind : String) (r : PostRow) (posts : List Post) (h : PostsOk posts) :
    PostsOk (replacePost site kind r posts) := by
  rcases replacePost_cases site kind r posts h with ⟨hex, e⟩ | ⟨hno, e⟩
  · rw [e]
    constructor
    · rw [List.pairwise_map]
      exact h.docIds.imp (fun {a b} hab => by rw [updPost_docId, updPost_docId]; exact hab)
    · intro p hp q hq h1 h2
      obtain ⟨p', hp', rfl⟩ := List.mem_map.1 hp
      obtain ⟨q', hq', rfl⟩ := List.mem_map.1 hq
      rw [(updPost_same site kind r p').2.2] at h1 h2
      rw [(updPost_same site kind r q').2.2] at h2
      rw [h.keys p' hp' q' hq' h1 h2]
  · rw [e]
    constructor
    · rw [List.pairwise_append]
      refine ⟨h.docIds, by simp, ?_⟩
      intro p hp q hq
      simp only [List.mem_singleton] at hq
      subst hq
      have := le_foldr_max (List.mem_map.2 ⟨p, hp, rfl⟩ : p.docId ∈ posts.map (·.docId))
      simp only [mkPost]; omega
    · intro p hp q hq h1 h2
      simp only [List.mem_append, List.mem_singleton] at hp hq
      rcases hp with hp | rfl <;> rcases hq with hq | rfl
      · exact h.keys p hp q hq h1 h2
      · exact absurd h2 (hno p hp h1)
      · exact absurd h2.symm (hno q hq (h2 ▸ h1))
      · rfl

/-- All rows of a dump, one after another. -/
def putPosts (site : Nat) (rows : List (PostRow × String)) (posts : List Post) : List Post :=
  rows.foldl (fun ps r => replacePost site r.2 r.1 ps) posts

theorem putPosts_snoc (site rows r posts) :
    putPosts site (rows ++ [r]) posts = replacePost site r.2 r.1 (putPosts site rows posts) := by
  simp [putPosts, List.foldl_append]

theorem putPosts_ok (site : Nat) (rows : List (PostRow × String)) (posts : List Post) (h : PostsOk posts) :
    PostsOk (putPosts site rows posts) := by
  induction rows using List.reverseRecOn with
  | nil => exact h
  | append_singleton rows r ih => rw [putPosts_snoc]; exact replacePost_ok _ _ _ _ ih

/-- What all rows do to a post that is already there. -/
def updAll (site : Nat) (rows : List (PostRow × String)) (p : Post) : Post :=
  rows.foldl (fun p r => updPost site r.2 r.1 p) p

theorem updAll_snoc (site rows r p) : updAll site (rows ++ [r]) p = updPost site r.2 r.1 (updAll site rows p) := by
  simp [updAll, List.foldl_append]

theorem updAll_same (site rows p) : (updAll site rows p).docId = p.docId ∧ (updAll site rows p).site = p.site ∧
    (updAll site rows p).id = p.id ∧ (updAll site rows p).key = p.key := by
  induction rows using List.reverseRecOn with
  | nil => exact ⟨rfl, rfl, rfl, rfl⟩
  | append_singleton rows r ih =>
    rw [updAll_snoc]
    obtain ⟨a, b, c⟩ := updPost_same site r.2 r.1 (updAll site rows p)
    exact ⟨by rw [updPost_docId, ih.1], by rw [a, ih.2.1], by rw [b, ih.2.2.1], by rw [c, ih.2.2.2]⟩

/-- Old posts stay (updated), in order; new ones come after them. -/
theorem putPosts_old (site : Nat) (rows : List (PostRow × String)) (posts : List Post) (h : PostsOk posts) :
    ∃ fresh, putPosts site rows posts = posts.map (updAll site rows) ++ fresh ∧ ∀ p ∈ fresh, p.site = site := by
  induction rows using List.reverseRecOn with
  | nil => exact ⟨[], by simp [putPosts, show updAll site [] = id from rfl], by simp⟩
  | append_singleton rows r ih =>
    obtain ⟨fresh, e, hf⟩ := ih
    rw [putPosts_snoc]
    have hupd : posts.map (updAll site (rows ++ [r])) = (posts.map (updAll site rows)).map (updPost site r.2 r.1) := by
      rw [List.map_map]
      apply List.map_congr_left
      intro p _
      exact updAll_snoc site rows r p
    rcases replacePost_cases site r.2 r.1 _ (putPosts_ok site rows posts h) with ⟨-, e'⟩ | ⟨hno, e'⟩
    · rw [e', e, List.map_append, ← hupd]
      refine ⟨_, rfl, ?_⟩
      intro p hp
      obtain ⟨q, hq, rfl⟩ := List.mem_map.1 hp
      rw [(updPost_same _ _ _ _).1, hf q hq]
    · rw [e']
      have hid : (posts.map (updAll site rows)).map (updPost site r.2 r.1) = posts.map (updAll site rows) := by
        conv_rhs => rw [← List.map_id (posts.map (updAll site rows))]
        apply List.map_congr_left
        intro p hp
        rw [updPost, if_neg]
        · rfl
        · rintro ⟨h1, h2⟩
          exact hno p (by rw [e]; exact List.mem_append.2 (.inl hp)) h1 h2
      rw [hupd, hid, e, List.append_assoc]
      refine ⟨_, rfl, ?_⟩
      intro p hp
      simp only [List.mem_append, List.mem_singleton] at hp
      rcases hp with hp | rfl
      · exact hf p hp
      · rfl

/-- After the import, importing again changes none of the posts. -/
theorem updAll_fixed (site : Nat) (rows : List (PostRow × String)) (posts : List Post) (h : PostsOk posts) :
    ∀ p ∈ putPosts site rows posts, updAll site rows p = p ∨ (p ∈ posts ∧ p.key = none) ∨ p.id = none := by
  induction rows using List.reverseRecOn with
  | nil => intro p _; exact .inl rfl
  | append_singleton rows r ih =>
    intro p hp
    rw [putPosts_snoc] at hp
    rw [updAll_snoc]
    cases hkp : p.id with
    | none => exact .inr (.inr rfl)
    | some i =>
    left
    have hk : p.key = some (p.site, i) := by simp [Post.key, hkp]
    have hu := updAll_same site rows p
    by_cases hm : p.key = (mkPost 0 site r.2 r.1).key
    · have hpp : p = mkPost p.docId site r.2 r.1 := by
        rcases replacePost_cases site r.2 r.1 _ (putPosts_ok site rows posts h) with ⟨-, e'⟩ | ⟨hno, e'⟩
        · rw [e'] at hp
          obtain ⟨q, hq, rfl⟩ := List.mem_map.1 hp
          rw [(updPost_same _ _ _ _).2.2] at hm hk
          rw [updPost, if_pos ⟨by rw [hk]; simp, hm⟩]
          rfl
        · rw [e'] at hp
          simp only [List.mem_append, List.mem_singleton] at hp
          rcases hp with hp | rfl
          · exact absurd hm (hno p hp (by rw [hk]; simp))
          · rfl
      rw [updPost, if_pos ⟨by rw [hu.2.2.2, hk]; simp, by rw [hu.2.2.2, hm]⟩, hu.1]
      exact hpp.symm
    · have hmem : p ∈ putPosts site rows posts := by
        rcases replacePost_cases site r.2 r.1 _ (putPosts_ok site rows posts h) with ⟨-, e'⟩ | ⟨hno, e'⟩
        · rw [e'] at hp
          obtain ⟨q, hq, rfl⟩ := List.mem_map.1 hp
          rw [(updPost_same _ _ _ _).2.2] at hm
          rw [updPost, if_neg (fun h => hm h.2)]
          exact hq
        · rw [e'] at hp
          simp only [List.mem_append, List.mem_singleton] at hp
          rcases hp with hp | rfl
          · exact hp
          · exact absurd rfl hm
      rw [updPost, if_neg (by rw [hu.2.2.2]; exact fun h => hm h.2)]
      rcases ih p hmem with h | h | h
      · exact h
      · rw [hk] at h; cases h.2
      · rw [hkp] at h; cases h

/-- Every row's key is present after the import. -/
theorem putPosts_present (site : Nat) (rows : List (PostRow × String)) (posts : List Post) (h : PostsOk posts) :
    ∀ r ∈ rows, r.1.id ≠ none → ∃ q ∈ putPosts site rows posts, q.key ≠ none ∧ q.key = (mkPost 0 site r.2 r.1).key := by
  induction rows using List.reverseRecOn with
  | nil => intro r hr; cases hr
  | append_singleton rows x ih =>
    intro r hr hid
    rw [putPosts_snoc]
    have hkey : (mkPost 0 site r.2 r.1).key ≠ none := by
      rw [mkPost_key_eq]
      cases hi : r.1.id with
      | none => exact absurd hi hid
      | some i => simp
    simp only [List.mem_append, List.mem_singleton] at hr
    rcases replacePost_cases site x.2 x.1 _ (putPosts_ok site rows posts h) with ⟨⟨q, hq, h1, h2⟩, e'⟩ | ⟨hno, e'⟩
    · rw [e']
      rcases hr with hr | rfl
      · obtain ⟨q', hq', h1', h2'⟩ := ih r hr hid
        exact ⟨_, List.mem_map.2 ⟨q', hq', rfl⟩, by rw [(updPost_same _ _ _ _).2.2]; exact h1',
          by rw [(updPost_same _ _ _ _).2.2]; exact h2'⟩
      · exact ⟨_, List.mem_map.2 ⟨q, hq, rfl⟩, by rw [(updPost_same _ _ _ _).2.2]; exact h1,
          by rw [(updPost_same _ _ _ _).2.2]; exact h2⟩
    · rw [e']
      rcases hr with hr | rfl
      · obtain ⟨q', hq', h1', h2'⟩ := ih r hr hid
        exact ⟨q', List.mem_append.2 (.inl hq'), h1', h2'⟩
      · exact ⟨_, List.mem_append.2 (.inr (List.mem_singleton.2 rfl)), hkey, rfl⟩

/-- With all keys present the rows only update. -/
theorem putPosts_all_present (site : Nat) (rows : List (PostRow × String)) (posts : List Post) (h : PostsOk posts)
    (hp : ∀ r ∈ rows, ∃ q ∈ posts, q.key ≠ none ∧ q.key = (mkPost 0 site r.2 r.1).key) :
    putPosts site rows posts = posts.map (updAll site rows) := by
  induction rows using List.reverseRecOn with
  | nil => simp [putPosts, show updAll site [] = id from rfl]
  | append_singleton rows r ih =>
    have ih := ih (fun r hr => hp r (by simp [hr]))
    rw [putPosts_snoc]
    rcases replacePost_cases site r.2 r.1 _ (putPosts_ok site rows posts h) with ⟨-, e'⟩ | ⟨hno, e'⟩
    · rw [e', ih, List.map_map]
      apply List.map_congr_left
      intro p _
      exact (updAll_snoc site rows r p).symm
    · obtain ⟨q, hq, h1, h2⟩ := hp r (by simp)
      refine absurd h2 ?_
      have := hno (updAll site rows q) (by rw [ih]; exact List.mem_map.2 ⟨q, hq, rfl⟩)
      rw [(updAll_same site rows q).2.2.2] at this
      exact this h1

/-- The same rows again: the posts do not change. -/
theorem putPosts_twice (site : Nat) (rows : List (PostRow × String)) (posts : List Post) (h : PostsOk posts)
    (hid : ∀ r ∈ rows, r.1.id ≠ none) :
    putPosts site rows (putPosts site rows posts) = putPosts site rows posts := by
  rw [putPosts_all_present site rows _ (putPosts_ok site rows posts h)
    (fun r hr => putPosts_present site rows posts h r hr (hid r hr))]
  conv_rhs => rw [← List.map_id (putPosts site rows posts)]
  apply List.map_congr_left
  intro p hp
  have hnone : p.id = none → updAll site rows p = p := by
    intro hn
    have hk : p.key = none := by simp [Post.key, hn]
    have : ∀ rows, updAll site rows p = p := by
      intro rows
      induction rows using List.reverseRecOn with
      | nil => rfl
      | append_singleton rows r ih => rw [updAll_snoc, ih, updPost, if_neg]; rintro ⟨h1, -⟩; exact h1 hk
    exact this rows
  rcases updAll_fixed site rows posts h p hp with h | h | h
  · exact h
  · apply hnone
    have := h.2
    unfold Post.key at this
    cases hi : p.id with
    | none => rfl
    | some i => simp [hi] at this
  · exact hnone h

end Hyperreal.SX
