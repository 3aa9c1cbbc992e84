import Verif.Spec.PlainText
import Verif.Lemmas.Atomic
import Verif.Lemmas.ScorePassages

namespace Hyperreal.PlainText
open Atomic Spec

theorem nextId_numbered (ts : List String) : nextId (numbered ts) = ts.length + 1 := by
  have : ∀ (ts : List String) (k : Nat), (((ts.zipIdx k).map (fun p => (p.2 + 1, p.1))).map (·.1)).foldr max 0 =
      if ts = [] then 0 else k + ts.length := by
    intro ts
    induction ts with
    | nil => intro k; rfl
    | cons t ts ih =>
      intro k
      simp only [List.zipIdx_cons, List.map_cons, List.foldr_cons]
      rw [ih (k + 1)]
      cases ts <;> simp; omega
  simp only [nextId, numbered, this ts 0]
  cases ts <;> simp

theorem numbered_snoc (ts : List String) (t : String) : numbered (ts ++ [t]) = numbered ts ++ [(ts.length + 1, t)] := by
  simp [numbered, List.zipIdx_append]

theorem stmt_inside (fault : Option Err) (f : Db → Except Err (Db × Unit)) (c : Conn Db) (hs : c.stack ≠ []) :
    (∃ e, stmt fault f c = (c.after c.work false 1, .error e) ∧ (fault = some e ∨ (fault = none ∧ f c.work = .error e))) ∨
    ∃ w, fault = none ∧ f c.work = .ok (w, ()) ∧ stmt fault f c = (c.after w false 1, .ok ()) := by
  have hin : c.inTxn = true := by
    unfold Conn.inTxn
    cases h : c.stack with
    | nil => exact absurd h hs
    | cons a l => simp
  cases hf : fault with
  | some e => exact .inl ⟨e, by simp [stmt, log_eq_after], .inl rfl⟩
  | none =>
    cases hw : f c.work with
    | error e => exact .inl ⟨e, by simp [stmt, Conn.exec, hw, log_eq_after], .inr ⟨rfl, rfl⟩⟩
    | ok r =>
      obtain ⟨w, u⟩ := r
      exact .inr ⟨w, rfl, rfl, by simp [stmt, Conn.exec, hw, hin, setWork_log]⟩

theorem texts_cons_text (t : Option String) (src : List Item) :
    texts (.text t :: src) = t.toList ++ texts src := by
  cases t <;> simp [texts]

theorem loadTexts_inside (fault : Nat → Option Err) (src : List Item) : ∀ (n : Nat) (c : Conn Db) (ts : List String),
    c.stack ≠ [] → c.work = some (numbered ts) →
    ∃ w m, (loadTexts fault n src c).1 = c.after w false m ∧
      (((loadTexts fault n src c).2 = .ok () ∧ Clean src ∧ w = some (numbered (ts ++ texts src))) ∨
        ∃ e, (loadTexts fault n src c).2 = .error e ∧ (Item.raise e ∈ src ∨ ∃ k, fault k = some e)) := by
  induction src with
  | nil =>
    intro n c ts hs hw
    exact ⟨c.work, 0, by simp [loadTexts, Conn.after], .inl ⟨rfl, by simp [Clean], by simpa [texts] using hw⟩⟩
  | cons i src ih =>
    intro n c ts hs hw
    cases i with
    | raise e => exact ⟨c.work, 0, by simp [loadTexts, Conn.after], .inr ⟨e, rfl, .inl (by simp)⟩⟩
    | text t =>
      rcases stmt_inside (fault n) (insertDoc t) c hs with ⟨e, h1, h2⟩ | ⟨w, h1, h2, h3⟩
      · refine ⟨c.work, 1, by simp [loadTexts, h1], .inr ⟨e, by simp [loadTexts, h1], ?_⟩⟩
        rcases h2 with h2 | ⟨-, h2⟩
        · exact .inr ⟨n, h2⟩
        · rw [hw] at h2
          cases t <;> simp [insertDoc] at h2
      · have hw' : w = some (numbered (ts ++ t.toList)) := by
          rw [hw] at h2
          cases t with
          | none => simp [insertDoc] at h2; simp [h2]
          | some s =>
            simp only [insertDoc, Except.ok.injEq, Prod.mk.injEq, and_true] at h2
            rw [← h2, nextId_numbered, Option.toList_some, numbered_snoc]
        obtain ⟨w', m, e1, e2⟩ := ih (n + 1) (c.after w false 1) _ hs hw'
        refine ⟨w', m + 1, by simp only [loadTexts, h3]; rw [e1, after_after]; rfl, ?_⟩
        simp only [loadTexts, h3]
        rcases e2 with ⟨e2, e3, e4⟩ | ⟨e, e2, e3⟩
        · refine .inl ⟨e2, ?_, by rw [e4, texts_cons_text, List.append_assoc]⟩
          intro e he
          rcases List.mem_cons.1 he with he | he
          · cases he
          · exact e3 e he
        · refine .inr ⟨e, e2, ?_⟩
          rcases e3 with e3 | e3
          · exact .inl (List.mem_cons_of_mem _ e3)
          · exact .inr e3

theorem loadBody_inside (fault : Nat → Option Err) (src : List Item) (c : Conn Db) (hs : c.stack ≠ []) :
    ∃ w m, (loadBody fault src c).1 = c.after w false m ∧
      (((loadBody fault src c).2 = .ok () ∧ Clean src ∧ w = some (numbered (texts src))) ∨
        ∃ e, (loadBody fault src c).2 = .error e ∧ (Item.raise e ∈ src ∨ ∃ k, fault k = some e)) := by
  unfold loadBody
  rcases stmt_inside (fault 2) dropDoc c hs with ⟨e, h1, h2⟩ | ⟨w, h1, h2, h3⟩
  · refine ⟨c.work, 1, by rw [h1], .inr ⟨e, by rw [h1], .inr ⟨2, ?_⟩⟩⟩
    rcases h2 with h2 | ⟨-, h2⟩
    · exact h2
    · simp [dropDoc] at h2
  simp only [dropDoc, Except.ok.injEq, Prod.mk.injEq, and_true] at h2
  subst h2
  rw [h3]
  dsimp only
  rcases stmt_inside (fault 3) createDoc (c.after none false 1) hs with ⟨e, g1, g2⟩ | ⟨w, g1, g2, g3⟩
  · rw [g1, after_after]
    refine ⟨_, _, rfl, .inr ⟨e, rfl, .inr ⟨3, ?_⟩⟩⟩
    rcases g2 with g2 | ⟨-, g2⟩
    · exact g2
    · simp [createDoc, Conn.after] at g2
  simp only [createDoc, Conn.after, Except.ok.injEq, Prod.mk.injEq, and_true] at g2
  subst g2
  rw [g3, after_after]
  dsimp only
  rcases stmt_inside (fault 4) deleteDoc (c.after (some []) (false || false) (1 + 1)) hs with ⟨e, k1, k2⟩ | ⟨w, k1, k2, k3⟩
  · rw [k1, after_after]
    refine ⟨_, _, rfl, .inr ⟨e, rfl, .inr ⟨4, ?_⟩⟩⟩
    rcases k2 with k2 | ⟨-, k2⟩
    · exact k2
    · simp [deleteDoc, Conn.after] at k2
  simp only [deleteDoc, Conn.after, Except.ok.injEq, Prod.mk.injEq, and_true] at k2
  subst k2
  rw [k3, after_after]
  dsimp only
  obtain ⟨w, m, e1, e2⟩ := loadTexts_inside fault src 5 (c.after (some []) (false || false || false) (1 + (1 + 1))) [] hs rfl
  refine ⟨w, m + (1 + (1 + 1)), ?_, ?_⟩
  · rw [e1, after_after]; rfl
  · simpa using e2

theorem docOf_unique (rows : List (Nat × String)) (hn : (rows.map (·.1)).Nodup) (r : Nat × String) (hr : r ∈ rows) :
    docOf (some rows) r.1 = .ok r.2 := by
  have : rows.filter (fun x => x.1 = r.1) = [r] := by
    induction rows with
    | nil => cases hr
    | cons a l ih =>
      simp only [List.map_cons, List.nodup_cons] at hn
      rcases List.mem_cons.1 hr with rfl | h
      · rw [List.filter_cons_of_pos (by simp)]
        congr 1
        rw [List.filter_eq_nil_iff]
        intro x hx
        simp only [decide_eq_true_eq]
        exact fun e => hn.1 (List.mem_map.2 ⟨x, hx, e⟩)
      · rw [List.filter_cons_of_neg, ih hn.2 h]
        simp only [decide_eq_true_eq]
        exact fun e => hn.1 (List.mem_map.2 ⟨r, h, e.symm⟩)
  simp [docOf, this]

theorem yields_ok (f : Nat → Except Err String) (g : Nat → String) : ∀ ks : List Nat, (∀ k ∈ ks, f k = .ok (g k)) →
    yields f ks = (ks.map (fun k => (k, g k)), none)
  | [], _ => rfl
  | k :: ks, h => by
    rw [yields, h k (by simp), yields_ok f g ks (fun k hk => h k (by simp [hk]))]
    rfl

theorem numbered_fst (ts : List String) : (numbered ts).map (·.1) = (List.range ts.length).map (· + 1) := by
  apply List.ext_getElem?
  intro i
  simp only [numbered, List.getElem?_map, List.getElem?_zipIdx, List.getElem?_range]
  by_cases h : i < ts.length
  · simp [h]
  · simp [h]

theorem numbered_nodup (ts : List String) : ((numbered ts).map (·.1)).Nodup := by
  rw [numbered_fst]
  exact List.Nodup.map (fun a b h => by simpa using h) List.nodup_range

end Hyperreal.PlainText
