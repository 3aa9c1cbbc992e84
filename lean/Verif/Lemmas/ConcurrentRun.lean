import Verif.Lemmas.Concurrent

namespace Hyperreal.Concurrent
open Spec Atomic
variable {σ V ι : Type} {Allowed : ι → Code σ V → Prop}

theorem alone_aloneTxn (p : Code σ V) : ∀ c : Conn σ, alone (aloneTxn p c).1 (aloneTxn p c).2 = alone p c := by
  induction p with
  | done r => intro c; rfl
  | exec f k ih =>
    intro c
    simp only [aloneTxn, alone]
    split
    · exact ih _ _
    · rfl
  | cmd a k ih =>
    intro c
    simp only [aloneTxn, alone]
    split
    · exact ih _ _
    · rfl

theorem look_look (w : World σ V ι) (t : Thread σ V ι) (h : t.conn.inTxn = true) : t.look w = t := by
  unfold Thread.look
  rw [if_pos h]

/-- A thread that finds nobody in its way can run its transaction to the end. -/
theorem run_txn {s : σ} (i : Nat) (p : Code σ V) : ∀ w : World σ V ι, Reachable Allowed s w →
    (w.threads i).code = p → ((w.threads i).conn.inTxn = true → w.lock = some i) →
    ((w.threads i).conn.inTxn = false → w.lock = none) → (∀ r, p ≠ .done r) →
    (aloneTxn p ((w.threads i).look w).conn).2.inTxn = false →
    ∃ w' E, Reachable Allowed s w' ∧ w'.log = E :: w.log ∧ E.label = (w.threads i).label ∧ E.thread = i ∧
      E.began = (w.threads i).began ∧ (E.code, E.conn) = aloneTxn p ((w.threads i).look w).conn ∧ E.published = true ∧
      w'.count = w.count + 1 ∧ w'.lock = none ∧ (w'.threads i).code = E.code ∧ (w'.threads i).conn = E.conn ∧
      (w'.threads i).label = (w.threads i).label ∧ (w'.threads i).began = (w.threads i).began ∧
      E.base = ((w.threads i).look w).base ∧ (∀ j, j ≠ i → w'.threads j = w.threads j) ∧
      w'.disk = E.conn.committed := by
  have hlabel : ∀ (w : World σ V ι) (t : Thread σ V ι), (t.look w).label = t.label ∧ (t.look w).began = t.began ∧
      (t.look w).code = t.code := by
    intro w t; unfold Thread.look; split <;> exact ⟨rfl, rfl, rfl⟩
  have main : ∀ (p' : Code σ V) (w : World σ V ι) (c' : Conn σ), Reachable Allowed s w →
      ((w.threads i).conn.inTxn = true → w.lock = some i) → ((w.threads i).conn.inTxn = false → w.lock = none) →
      (w.threads i).code.next ((w.threads i).look w).conn = some (p', c') →
      (c'.inTxn = true → (∀ r, p' ≠ .done r) → ∀ w : World σ V ι, Reachable Allowed s w →
        (w.threads i).code = p' → ((w.threads i).conn.inTxn = true → w.lock = some i) →
        ((w.threads i).conn.inTxn = false → w.lock = none) → (w.threads i).conn = c' →
        (aloneTxn p' ((w.threads i).look w).conn).2.inTxn = false →
        ∃ w' E, Reachable Allowed s w' ∧ w'.log = E :: w.log ∧ E.label = (w.threads i).label ∧ E.thread = i ∧
          E.began = (w.threads i).began ∧ (E.code, E.conn) = aloneTxn p' ((w.threads i).look w).conn ∧
          E.published = true ∧ w'.count = w.count + 1 ∧ w'.lock = none ∧ (w'.threads i).code = E.code ∧
          (w'.threads i).conn = E.conn ∧ (w'.threads i).label = (w.threads i).label ∧
          (w'.threads i).began = (w.threads i).began ∧ E.base = ((w.threads i).look w).base ∧
          (∀ j, j ≠ i → w'.threads j = w.threads j) ∧ w'.disk = E.conn.committed) →
      (aloneTxn (w.threads i).code ((w.threads i).look w).conn).2.inTxn = false →
      ∃ w' E, Reachable Allowed s w' ∧ w'.log = E :: w.log ∧ E.label = (w.threads i).label ∧ E.thread = i ∧
        E.began = (w.threads i).began ∧ (E.code, E.conn) = aloneTxn (w.threads i).code ((w.threads i).look w).conn ∧
        E.published = true ∧ w'.count = w.count + 1 ∧ w'.lock = none ∧ (w'.threads i).code = E.code ∧
        (w'.threads i).conn = E.conn ∧ (w'.threads i).label = (w.threads i).label ∧
        (w'.threads i).began = (w.threads i).began ∧ E.base = ((w.threads i).look w).base ∧
        (∀ j, j ≠ i → w'.threads j = w.threads j) ∧ w'.disk = E.conn.committed := by
    intro p' w c' hr h1 h2 hn ih hfin
    obtain ⟨l1, l2, l3⟩ := hlabel w (w.threads i)
    have hlock : w.lock = some i ∨ (w.lock = none ∧ ((w.threads i).look w).base = w.count) := by
      by_cases ht : (w.threads i).conn.inTxn = true
      · exact Or.inl (h1 ht)
      · refine Or.inr ⟨h2 (by simpa using ht), ?_⟩
        unfold Thread.look; rw [if_neg ht]
    have hstep := Step.write (Allowed := Allowed) w i p' c' true hlock (by rw [l3]; exact hn) (fun e => by cases e)
    have hr' := Reachable.step hr hstep
    rw [next_aloneTxn hn] at hfin ⊢
    by_cases hin : c'.inTxn = true
    · rw [if_pos hin] at hfin ⊢
      have hp' : ∀ r, p' ≠ .done r := by
        intro r e; rw [e] at hfin; simp only [aloneTxn] at hfin; rw [hin] at hfin; cases hfin
      have hw : w.after i { (w.threads i).look w with code := p', conn := c' } true true =
          { w.set i { (w.threads i).look w with code := p', conn := c' } with lock := some i } := by
        unfold World.after; simp only [hin, if_true]
      rw [hw] at hr'
      have hth : ∀ j, ({ w.set i { (w.threads i).look w with code := p', conn := c' } with lock := some i } :
          World σ V ι).threads j = if j = i then { (w.threads i).look w with code := p', conn := c' } else w.threads j :=
        fun j => set_threads w i j _
      have hthi := hth i
      rw [if_pos rfl] at hthi
      have hc : (({ w.set i { (w.threads i).look w with code := p', conn := c' } with lock := some i } :
          World σ V ι).threads i).conn.inTxn = true := by rw [hthi]; exact hin
      obtain ⟨w', E, g1, g2, g3, g4, g5, g6, g7, g8, g9, g10, g11, g12, g13, g14, g15, g16⟩ := ih hin hp' _ hr'
        (by rw [hthi]) (fun _ => rfl) (fun e => by rw [hc] at e; cases e) (by rw [hthi])
        (by rw [look_look _ _ hc, hthi]; exact hfin)
      rw [look_look _ _ hc] at g6 g14
      rw [hthi] at g3 g5 g6 g12 g13 g14
      exact ⟨w', E, g1, g2, g3.trans l1, g4, g5.trans l2, g6, g7, g8, g9, g10, g11, g12.trans l1, g13.trans l2, g14,
        fun j hj => by rw [g15 j hj, hth j, if_neg hj], g16⟩
    · rw [if_neg hin]
      have hin' : c'.inTxn = false := by simpa using hin
      obtain ⟨a1, -, -, a4⟩ := after_log w i { (w.threads i).look w with code := p', conn := c' } true true
      rcases a4 with ⟨a4, -⟩ | ⟨-, a4, a5⟩
      · rw [hin'] at a4; cases a4
      · have hdisk : (w.after i { (w.threads i).look w with code := p', conn := c' } true true).lock = none ∧
            (w.after i { (w.threads i).look w with code := p', conn := c' } true true).disk = c'.committed := by
          unfold World.after
          simp only [hin', Bool.false_eq_true, if_false, if_true, World.disk, Function.update_self, and_self]
        refine ⟨_, _, hr', a4, l1, rfl, l2, rfl, rfl, a5 rfl, hdisk.1, ?_, ?_, ?_, ?_, rfl, ?_, hdisk.2⟩
        · rw [a1, set_threads, if_pos rfl]
        · rw [a1, set_threads, if_pos rfl]
        · rw [a1, set_threads, if_pos rfl]; exact l1
        · rw [a1, set_threads, if_pos rfl]; exact l2
        · intro j hj; rw [a1, set_threads, if_neg hj]
  induction p with
  | done r => intro w _ _ _ _ h; exact absurd rfl (h r)
  | exec f k ih =>
    intro w hr hp h1 h2 _ hfin
    rw [← hp] at hfin ⊢
    refine main _ w _ hr h1 h2 (by rw [hp]; rfl) ?_ hfin
    intro _ hnd w hr hp h1 h2 hc hfin
    exact ih _ w hr hp h1 h2 hnd hfin
  | cmd a k ih =>
    intro w hr hp h1 h2 _ hfin
    rw [← hp] at hfin ⊢
    refine main _ w _ hr h1 h2 (by rw [hp]; rfl) ?_ hfin
    intro _ hnd w hr hp h1 h2 hc hfin
    exact ih _ w hr hp h1 h2 hnd hfin

/-- A thread that finds nobody in its way can run until its code is done, although its transaction stays open. -/
theorem run_stuck {s : σ} (i : Nat) (p : Code σ V) : ∀ w : World σ V ι, Reachable Allowed s w →
    (w.threads i).code = p → ((w.threads i).conn.inTxn = true → w.lock = some i) →
    ((w.threads i).conn.inTxn = false → w.lock = none) → (∀ r, p ≠ .done r) →
    (aloneTxn p ((w.threads i).look w).conn).2.inTxn = true →
    ∃ w', Reachable Allowed s w' ∧ (w'.threads i).code = (aloneTxn p ((w.threads i).look w).conn).1 ∧
      (w'.threads i).label = (w.threads i).label ∧ w'.log = w.log ∧ w'.count = w.count ∧ w'.version = w.version ∧
      ∀ j, j ≠ i → w'.threads j = w.threads j := by
  have hlabel : ∀ (w : World σ V ι) (t : Thread σ V ι), (t.look w).label = t.label ∧ (t.look w).code = t.code := by
    intro w t; unfold Thread.look; split <;> exact ⟨rfl, rfl⟩
  have main : ∀ (p' : Code σ V) (w : World σ V ι) (c' : Conn σ), Reachable Allowed s w →
      ((w.threads i).conn.inTxn = true → w.lock = some i) → ((w.threads i).conn.inTxn = false → w.lock = none) →
      (w.threads i).code.next ((w.threads i).look w).conn = some (p', c') →
      (∀ w : World σ V ι, Reachable Allowed s w → (∀ r, p' ≠ .done r) →
        (w.threads i).code = p' → ((w.threads i).conn.inTxn = true → w.lock = some i) →
        ((w.threads i).conn.inTxn = false → w.lock = none) →
        (aloneTxn p' ((w.threads i).look w).conn).2.inTxn = true →
        ∃ w', Reachable Allowed s w' ∧ (w'.threads i).code = (aloneTxn p' ((w.threads i).look w).conn).1 ∧
          (w'.threads i).label = (w.threads i).label ∧ w'.log = w.log ∧ w'.count = w.count ∧ w'.version = w.version ∧
          ∀ j, j ≠ i → w'.threads j = w.threads j) →
      (aloneTxn (w.threads i).code ((w.threads i).look w).conn).2.inTxn = true →
      ∃ w', Reachable Allowed s w' ∧ (w'.threads i).code = (aloneTxn (w.threads i).code ((w.threads i).look w).conn).1 ∧
        (w'.threads i).label = (w.threads i).label ∧ w'.log = w.log ∧ w'.count = w.count ∧ w'.version = w.version ∧
        ∀ j, j ≠ i → w'.threads j = w.threads j := by
    intro p' w c' hr h1 h2 hn ih hfin
    obtain ⟨l1, l3⟩ := hlabel w (w.threads i)
    have hlock : w.lock = some i ∨ (w.lock = none ∧ ((w.threads i).look w).base = w.count) := by
      by_cases ht : (w.threads i).conn.inTxn = true
      · exact Or.inl (h1 ht)
      · refine Or.inr ⟨h2 (by simpa using ht), ?_⟩
        unfold Thread.look; rw [if_neg ht]
    have hstep := Step.write (Allowed := Allowed) w i p' c' true hlock (by rw [l3]; exact hn) (fun e => by cases e)
    have hr' := Reachable.step hr hstep
    rw [next_aloneTxn hn] at hfin ⊢
    have hin : c'.inTxn = true := by
      by_contra hc
      rw [if_neg hc] at hfin
      exact hc hfin
    rw [if_pos hin] at hfin ⊢
    have hw : w.after i { (w.threads i).look w with code := p', conn := c' } true true =
        { w.set i { (w.threads i).look w with code := p', conn := c' } with lock := some i } := by
      unfold World.after; simp only [hin, if_true]
    rw [hw] at hr'
    have hth : ∀ j, ({ w.set i { (w.threads i).look w with code := p', conn := c' } with lock := some i } :
        World σ V ι).threads j = if j = i then { (w.threads i).look w with code := p', conn := c' } else w.threads j :=
      fun j => set_threads w i j _
    have hthi := hth i
    rw [if_pos rfl] at hthi
    have hc : (({ w.set i { (w.threads i).look w with code := p', conn := c' } with lock := some i } :
        World σ V ι).threads i).conn.inTxn = true := by rw [hthi]; exact hin
    by_cases hp' : ∃ r, p' = .done r
    · obtain ⟨r, rfl⟩ := hp'
      exact ⟨_, hr', by rw [hthi]; rfl, by rw [hthi]; exact l1, rfl, rfl, rfl, fun j hj => by rw [hth j, if_neg hj]⟩
    · obtain ⟨w', g1, g2, g3, g4, g5, g6, g7⟩ := ih _ hr' (fun r e => hp' ⟨r, e⟩) (by rw [hthi]) (fun _ => rfl)
        (fun e => by rw [hc] at e; cases e) (by rw [look_look _ _ hc, hthi]; exact hfin)
      rw [look_look _ _ hc, hthi] at g2
      rw [hthi] at g3
      exact ⟨w', g1, g2, g3.trans l1, g4, g5, g6, fun j hj => by rw [g7 j hj, hth j, if_neg hj]⟩
  induction p with
  | done r => intro w _ _ _ _ h; exact absurd rfl (h r)
  | exec f k ih =>
    intro w hr hp h1 h2 _ hfin
    rw [← hp] at hfin ⊢
    refine main _ w _ hr h1 h2 (by rw [hp]; rfl) ?_ hfin
    intro w hr hnd hp h1 h2 hfin
    exact ih _ w hr hp h1 h2 hnd hfin
  | cmd a k ih =>
    intro w hr hp h1 h2 _ hfin
    rw [← hp] at hfin ⊢
    refine main _ w _ hr h1 h2 (by rw [hp]; rfl) ?_ hfin
    intro w hr hnd hp h1 h2 hfin
    exact ih _ w hr hp h1 h2 hnd hfin

/-- A call that is one transaction, when nobody is in its way. -/
theorem run_call {s : σ} {w : World σ V ι} (h : Reachable Allowed s w) (i : Nat) (l : ι) (p : Code σ V)
    (hp : Allowed l p) (hnd : ∀ r, p ≠ .done r) (hidle : (w.threads i).conn.inTxn = false) (r : Except Err V)
    (hdone : (w.threads i).code = .done r) (hlock : w.lock = none)
    (hfin : (aloneTxn p { (w.threads i).conn with committed := w.disk, work := w.disk }).2.inTxn = false) :
    ∃ w' E, Reachable Allowed s w' ∧ w'.log = E :: w.log ∧ E.label = l ∧ E.thread = i ∧ E.began = w.count ∧
      (E.code, E.conn) = aloneTxn p { (w.threads i).conn with committed := w.disk, work := w.disk } ∧
      E.published = true ∧ w'.count = w.count + 1 ∧ w'.lock = none ∧ (w'.threads i).code = E.code ∧
      (w'.threads i).conn = E.conn ∧ (w'.threads i).label = l ∧ (w'.threads i).began = w.count ∧ E.base = w.count ∧
      (∀ j, j ≠ i → w'.threads j = w.threads j) ∧ w'.disk = E.conn.committed := by
  have hr := Reachable.step h (Step.start w i l p hp r hdone hidle)
  have hth : ∀ j, (w.set i { w.threads i with code := p, label := l, began := w.count }).threads j =
      if j = i then { w.threads i with code := p, label := l, began := w.count } else w.threads j :=
    fun j => set_threads w i j _
  have hthi := hth i
  rw [if_pos rfl] at hthi
  have hc : ((w.set i { w.threads i with code := p, label := l, began := w.count }).threads i).conn.inTxn = false := by
    rw [hthi]; exact hidle
  have hlook : ((w.set i { w.threads i with code := p, label := l, began := w.count }).threads i).look
      (w.set i { w.threads i with code := p, label := l, began := w.count }) =
      ⟨{ (w.threads i).conn with committed := w.disk, work := w.disk }, p, l, w.count, w.count,
        (p, { (w.threads i).conn with committed := w.disk, work := w.disk })⟩ := by
    unfold Thread.look
    rw [if_neg (by rw [hc]; simp), hthi]
    rfl
  obtain ⟨w', E, g1, g2, g3, g4, g5, g6, g7, g8, g9, g10, g11, g12, g13, g14, g15, g16⟩ := run_txn i p _ hr
    (by rw [hthi]) (fun e => by rw [hc] at e; cases e) (fun _ => hlock) hnd (by rw [hlook]; exact hfin)
  rw [hthi] at g3 g5 g12 g13
  rw [hlook] at g6 g14
  exact ⟨w', E, g1, g2, g3, g4, g5, g6, g7, g8, g9, g10, g11, g12, g13, g14,
    fun j hj => by rw [g15 j hj, hth j, if_neg hj], g16⟩

end Hyperreal.Concurrent
