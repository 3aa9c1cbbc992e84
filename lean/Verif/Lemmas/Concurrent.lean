import Verif.Spec.Concurrent
import Verif.Lemmas.Atomic

namespace Hyperreal.Concurrent
open Spec Atomic
variable {σ V ι : Type}

/-! ## One command -/

theorem exec_inTxn (c : Conn σ) (f : σ → Except Err (σ × V)) : (c.exec f).1.inTxn = c.inTxn := by
  simp only [Conn.exec]
  split
  · rfl
  · split <;> rfl

theorem exec_committed (c : Conn σ) (f : σ → Except Err (σ × V)) (h : c.inTxn = true) :
    (c.exec f).1.committed = c.committed := by
  simp only [Conn.exec]
  split
  · rfl
  · simp [h, Conn.log]

theorem findSp_mem {n : String} {l : List (String × σ)} {e : String × σ} {rest : List (String × σ)}
    (h : findSp n l = some (e, rest)) : e ∈ l ∧ ∀ x ∈ rest, x ∈ l := by
  induction l with
  | nil => simp [findSp] at h
  | cons a l ih =>
    simp only [findSp] at h
    split at h
    · simp only [Option.some.injEq, Prod.mk.injEq] at h
      obtain ⟨rfl, rfl⟩ := h
      exact ⟨by simp, fun x hx => by simp [hx]⟩
    · obtain ⟨h1, h2⟩ := ih h
      exact ⟨by simp [h1], fun x hx => by simp [h2 x hx]⟩

/-- As long as the transaction is open nothing is committed. -/
theorem cmd_committed (a : Cmd σ) (c : Conn σ) (h : (a.exec c).1.inTxn = true) :
    (a.exec c).1.committed = c.committed := by
  cases a with
  | enter n => rfl
  | rollbackTo n =>
    simp only [Cmd.exec, Conn.rollbackTo] at h ⊢
    cases findSp n c.stack with
    | none => rfl
    | some e => rfl
  | leave w hk =>
    simp only [Cmd.exec]
    split
    · split <;> rfl
    · rfl
  | release n =>
    simp only [Cmd.exec, Conn.release] at h ⊢
    cases hf : findSp n c.stack with
    | none => rfl
    | some e =>
      simp only [hf] at h ⊢
      by_cases hr : (e.2.isEmpty && !c.begun) = true
      · simp only [hr, if_true, Conn.log, Conn.inTxn] at h
        simp only [Bool.and_eq_true, Bool.not_eq_true'] at hr
        simp [hr.2] at h
      · simp only [hr, if_false, Conn.log, Bool.false_eq_true]
  | begin =>
    simp only [Cmd.exec, Conn.begin]
    split
    · rfl
    · rename_i h'
      split at h'
      · cases h'
      · simp only [Option.some.injEq] at h'; subst h'; rfl
  | commit =>
    simp only [Cmd.exec, Conn.commit] at h ⊢
    by_cases hc : c.inTxn = true
    · simp only [hc, if_true, Conn.log] at h; simp [Conn.inTxn] at h
    · simp [hc]
  | rollback =>
    simp only [Cmd.exec, Conn.rollback] at h ⊢
    by_cases hc : c.inTxn = true
    · simp only [hc, if_true, Conn.log] at h; simp [Conn.inTxn] at h
    · simp [hc]
  | settle hk => rfl

/-- Everything the connection holds is the content `s`. -/
structure Pure (c : Conn σ) (s : σ) : Prop where
  committed : c.committed = s
  work : c.work = s
  stack : ∀ e ∈ c.stack, e.2 = s

theorem cmd_quiet (a : Cmd σ) (k : Option Err → Code σ V) (c : Conn σ) (s : σ) (h : (Code.cmd a k).Quiet c)
    (hc : Pure c s) : Pure (a.exec c).1 s := by
  obtain ⟨h1, h2, h3⟩ := hc
  cases a with
  | enter n =>
    refine ⟨h1, h2, ?_⟩
    intro e he
    simp only [Cmd.exec, Conn.savepoint, Conn.log, List.mem_cons] at he
    rcases he with rfl | he
    · exact h2
    · exact h3 e he
  | rollbackTo n =>
    simp only [Cmd.exec, Conn.rollbackTo]
    cases hf : findSp n c.stack with
    | none => exact ⟨h1, h2, h3⟩
    | some e =>
      obtain ⟨m1, m2⟩ := findSp_mem hf
      refine ⟨h1, h3 _ m1, ?_⟩
      intro x hx
      simp only [Conn.log, List.mem_cons] at hx
      rcases hx with rfl | hx
      · exact h3 _ m1
      · exact h3 _ (m2 x hx)
  | leave w hk =>
    simp only [Cmd.exec]
    cases hk with
    | none =>
      split
      · exact ⟨h1, h2, h3⟩
      · exact ⟨h1, h2, h3⟩
    | some hk =>
      simp only [Code.Quiet] at h
      simp only [h, Bool.false_eq_true, if_false]
      exact ⟨h1, h2, h3⟩
  | release n =>
    simp only [Cmd.exec, Conn.release]
    cases hf : findSp n c.stack with
    | none => exact ⟨h1, h2, h3⟩
    | some e =>
      obtain ⟨m1, m2⟩ := findSp_mem hf
      by_cases hr : (e.2.isEmpty && !c.begun) = true
      · simp only [hr, if_true]
        exact ⟨h2, h2, by simp [Conn.log]⟩
      · simp only [hr, if_false, Bool.false_eq_true]
        exact ⟨h1, h2, fun x hx => h3 _ (m2 x hx)⟩
  | begin =>
    simp only [Cmd.exec, Conn.begin]
    by_cases hc : c.inTxn = true
    · simp only [hc, if_true]; exact ⟨h1, h2, h3⟩
    · simp only [hc, if_false, Bool.false_eq_true]; exact ⟨h1, h2, h3⟩
  | commit =>
    simp only [Cmd.exec, Conn.commit]
    by_cases hc : c.inTxn = true
    · simp only [hc, if_true]; exact ⟨h2, h2, by simp [Conn.log]⟩
    · simp only [hc, if_false, Bool.false_eq_true]; exact ⟨h1, h2, h3⟩
  | rollback =>
    simp only [Cmd.exec, Conn.rollback]
    by_cases hc : c.inTxn = true
    · simp only [hc, if_true]; exact ⟨h1, h1, by simp [Conn.log]⟩
    · simp only [hc, if_false, Bool.false_eq_true]; exact ⟨h1, h2, h3⟩
  | settle hk => exact absurd h id

theorem exec_quiet (f : σ → Except Err (σ × V)) (k : Except Err V → Code σ V) (c : Conn σ) (s : σ)
    (h : (Code.exec f k).Quiet c) (hc : Pure c s) : Pure (c.exec f).1 s := by
  obtain ⟨h1, h2, h3⟩ := hc
  simp only [Conn.exec]
  cases hf : f c.work with
  | error e => exact ⟨h1, h2, h3⟩
  | ok sv =>
    obtain ⟨s', v⟩ := sv
    have hs : s' = c.work := h s' v hf
    simp only
    by_cases hc : c.inTxn = true
    · simp only [hc, if_true]; exact ⟨h1, hs.trans h2, h3⟩
    · simp only [hc, if_false, Bool.false_eq_true]; exact ⟨hs.trans h2, hs.trans h2, h3⟩

theorem next_quiet {p p' : Code σ V} {c c' : Conn σ} {s : σ} (hq : p.Quiet c) (hn : p.next c = some (p', c'))
    (hc : Pure c s) : Pure c' s := by
  cases p with
  | done r => simp [Code.next] at hn
  | exec f k =>
    simp only [Code.next, Option.some.injEq, Prod.mk.injEq] at hn
    obtain ⟨-, rfl⟩ := hn
    exact exec_quiet f k c s hq hc
  | cmd a k =>
    simp only [Code.next, Option.some.injEq, Prod.mk.injEq] at hn
    obtain ⟨-, rfl⟩ := hn
    exact cmd_quiet a k c s hq hc

theorem next_committed {p p' : Code σ V} {c c' : Conn σ} (hn : p.next c = some (p', c')) (h : c'.inTxn = true) :
    c'.committed = c.committed := by
  cases p with
  | done r => simp [Code.next] at hn
  | exec f k =>
    simp only [Code.next, Option.some.injEq, Prod.mk.injEq] at hn
    obtain ⟨-, rfl⟩ := hn
    rw [exec_inTxn] at h
    exact exec_committed c f h
  | cmd a k =>
    simp only [Code.next, Option.some.injEq, Prod.mk.injEq] at hn
    obtain ⟨-, rfl⟩ := hn
    exact cmd_committed a c h

theorem next_aloneTxn {p p' : Code σ V} {c c' : Conn σ} (hn : p.next c = some (p', c')) :
    aloneTxn p c = if c'.inTxn then aloneTxn p' c' else (p', c') := by
  cases p with
  | done r => simp [Code.next] at hn
  | exec f k =>
    simp only [Code.next, Option.some.injEq, Prod.mk.injEq] at hn
    obtain ⟨rfl, rfl⟩ := hn
    rfl
  | cmd a k =>
    simp only [Code.next, Option.some.injEq, Prod.mk.injEq] at hn
    obtain ⟨rfl, rfl⟩ := hn
    rfl

theorem next_alone {p p' : Code σ V} {c c' : Conn σ} (hn : p.next c = some (p', c')) : alone p c = alone p' c' := by
  cases p with
  | done r => simp [Code.next] at hn
  | exec f k =>
    simp only [Code.next, Option.some.injEq, Prod.mk.injEq] at hn
    obtain ⟨rfl, rfl⟩ := hn
    rfl
  | cmd a k =>
    simp only [Code.next, Option.some.injEq, Prod.mk.injEq] at hn
    obtain ⟨rfl, rfl⟩ := hn
    rfl

theorem inTxn_false_iff (c : Conn σ) : c.inTxn = false ↔ c.begun = false ∧ c.stack = [] := by
  simp [Conn.inTxn, List.isEmpty_iff]

/-! ## The invariant -/

/-- What may be assumed of code and connection between transactions, and how it is kept. -/
structure Regime (Allowed : ι → Code σ V → Prop) (R : ι → Code σ V → Conn σ → Prop) : Prop where
  start : ∀ l l0 p c r, Allowed l p → R l0 (.done r) c → c.inTxn = false → R l p c
  look : ∀ l p c s, R l p c → c.inTxn = false → R l p { c with committed := s, work := s }
  next : ∀ l p c, R l p c → c.inTxn = false → c.committed = c.work → (aloneTxn p c).2.inTxn = false →
    R l (aloneTxn p c).1 (aloneTxn p c).2
  fresh : ∀ l s r, R l (.done r) (Conn.fresh s)

/-- The same, when all contents have the property `Inv` and later contents are related to earlier ones by `Le`. -/
structure RegimeOn (Allowed : ι → Code σ V → Prop) (Inv : σ → Prop) (Le : σ → σ → Prop)
    (R : ι → Code σ V → Conn σ → Prop) : Prop where
  refl : ∀ s, Le s s
  trans : ∀ s s' s'', Le s s' → Le s' s'' → Le s s''
  start : ∀ l l0 p c r, Allowed l p → R l0 (.done r) c → c.inTxn = false → R l p c
  later : ∀ l p c s, R l p c → c.inTxn = false → Le c.committed s → R l p { c with committed := s, work := s }
  next : ∀ l p c, R l p c → c.inTxn = false → c.committed = c.work → Inv c.committed → (aloneTxn p c).2.inTxn = false →
    R l (aloneTxn p c).1 (aloneTxn p c).2 ∧ Inv (aloneTxn p c).2.committed ∧ Le c.committed (aloneTxn p c).2.committed
  fresh : ∀ l s r, Inv s → R l (.done r) (Conn.fresh s)

theorem Regime.on {Allowed : ι → Code σ V → Prop} {R : ι → Code σ V → Conn σ → Prop} (h : Regime Allowed R) :
    RegimeOn Allowed (fun _ => True) (fun _ _ => True) R :=
  ⟨fun _ => trivial, fun _ _ _ _ _ => trivial, h.start, fun l p c s h1 h2 _ => h.look l p c s h1 h2,
    fun l p c h1 h2 h3 _ h5 => ⟨h.next l p c h1 h2 h3 h5, trivial, trivial⟩, fun l s r _ => h.fresh l s r⟩

/-- The facts about a thread about to run a command. -/
structure Core (R : ι → Code σ V → Conn σ → Prop) (w : World σ V ι) (i : Nat) (t : Thread σ V ι) : Prop where
  homeIdle : t.home.2.inTxn = false
  homeCommitted : t.home.2.committed = w.version t.base
  homeWork : t.home.2.work = w.version t.base
  homeReady : R t.label t.home.1 t.home.2
  homeDone : ∀ r, t.home.1 = .done r → t.code = .done r
  txn : aloneTxn t.home.1 t.home.2 = aloneTxn t.code t.conn
  all : alone t.home.1 t.home.2 = alone t.code t.conn
  committed : t.conn.committed = w.version t.base
  began : t.began ≤ t.base
  base : t.base ≤ w.count
  held : w.lock = some i → t.base = w.count
  free : w.lock ≠ some i → Pure t.conn (w.version t.base)

/-- The facts about a thread. -/
structure ThreadOk (R : ι → Code σ V → Conn σ → Prop) (w : World σ V ι) (i : Nat) (t : Thread σ V ι) : Prop where
  inside : t.conn.inTxn = true → Core R w i t
  outside : t.conn.inTxn = false → w.lock ≠ some i ∧ t.began ≤ w.count ∧
    R t.label t.code { t.conn with committed := w.disk, work := w.disk }

/-- The facts about a finished transaction. -/
structure EntryOk (R : ι → Code σ V → Conn σ → Prop) (w : World σ V ι) (E : Entry σ V ι) : Prop where
  began : E.began ≤ E.base
  base : E.base ≤ E.ended
  ended : E.ended ≤ w.count
  homeIdle : E.home.2.inTxn = false
  homeCommitted : E.home.2.committed = w.version E.base
  homeWork : E.home.2.work = w.version E.base
  homeReady : R E.label E.home.1 E.home.2
  busy : ∀ r, E.home.1 ≠ .done r
  txn : aloneTxn E.home.1 E.home.2 = (E.code, E.conn)
  all : alone E.home.1 E.home.2 = alone E.code E.conn
  over : E.conn.inTxn = false
  published : E.published = true → E.base = E.ended ∧ E.base < w.count ∧ w.version (E.base + 1) = E.conn.committed
  unpublished : E.published = false → E.conn.committed = w.version E.base

/-- The facts about the world. -/
structure WorldOk (R : ι → Code σ V → Conn σ → Prop) (w : World σ V ι) : Prop where
  threads : ∀ i, ThreadOk R w i (w.threads i)
  log : ∀ E ∈ w.log, EntryOk R w E
  writers : (w.log.filter (·.published)).map (·.base) = (List.range w.count).reverse

variable {Allowed : ι → Code σ V → Prop} {R : ι → Code σ V → Conn σ → Prop} {Inv : σ → Prop}
  {Le : σ → σ → Prop}

/-- All contents have the property, and each is related to the later ones. -/
structure Always (Inv : σ → Prop) (Le : σ → σ → Prop) (w : World σ V ι) : Prop where
  inv : ∀ k, k ≤ w.count → Inv (w.version k)
  le : ∀ j k, j ≤ k → k ≤ w.count → Le (w.version j) (w.version k)

theorem look_core {w : World σ V ι} {i : Nat} {t : Thread σ V ι}
    (h : ThreadOk R w i t) :
    Core R w i (t.look w) := by
  unfold Thread.look
  by_cases ht : t.conn.inTxn = true
  · rw [if_pos ht]; exact h.inside ht
  · rw [if_neg ht]
    have ht' : t.conn.inTxn = false := by simpa using ht
    obtain ⟨h1, h2, h3⟩ := h.outside ht'
    have hs := (inTxn_false_iff _).1 ht'
    refine ⟨ht', rfl, rfl, h3, fun _ e => e, rfl, rfl, rfl, h2, le_refl _, fun e => absurd e h1, fun _ => ?_⟩
    refine ⟨rfl, rfl, ?_⟩
    intro e he
    simp only [hs.2, List.not_mem_nil] at he

/-- Moving the lock or the current content does not disturb the others. -/
theorem ThreadOk.transfer (hR : RegimeOn Allowed Inv Le R) {w w' : World σ V ι} {i : Nat} {t : Thread σ V ι}
    (h : ThreadOk R w i t) (hle : Le w.disk w'.disk)
    (hv : ∀ k, k ≤ w.count → w'.version k = w.version k) (hc : w.count ≤ w'.count)
    (hl : w'.lock = some i → w.lock = some i ∧ w'.count = w.count)
    (hl' : w'.lock ≠ some i → w.lock ≠ some i) : ThreadOk R w' i t := by
  refine ⟨fun ht => ?_, fun ht => ?_⟩
  · have hC := h.inside ht
    have hb := hv _ hC.base
    exact ⟨hC.homeIdle, by rw [hb]; exact hC.homeCommitted, by rw [hb]; exact hC.homeWork, hC.homeReady, hC.homeDone, hC.txn, hC.all,
      by rw [hb]; exact hC.committed, hC.began, hC.base.trans hc, fun e => by rw [(hl e).2]; exact hC.held (hl e).1,
      fun e => by rw [hb]; exact hC.free (hl' e)⟩
  · obtain ⟨h1, h2, h3⟩ := h.outside ht
    exact ⟨fun e => h1 (hl e).1, h2.trans hc, hR.later _ _ { t.conn with committed := w.disk, work := w.disk } w'.disk h3 ht hle⟩

theorem EntryOk.transfer {w w' : World σ V ι} {E : Entry σ V ι} (h : EntryOk R w E)
    (hv : ∀ k, k ≤ w.count → w'.version k = w.version k) (hc : w.count ≤ w'.count) : EntryOk R w' E := by
  have hb := hv _ (h.base.trans h.ended)
  refine ⟨h.began, h.base, h.ended.trans hc, h.homeIdle, by rw [hb]; exact h.homeCommitted, by rw [hb]; exact h.homeWork,
    h.homeReady, h.busy, h.txn, h.all, h.over, fun e => ?_, fun e => by rw [hb]; exact h.unpublished e⟩
  obtain ⟨h1, h2, h3⟩ := h.published e
  exact ⟨h1, by omega, by rw [hv _ (by omega)]; exact h3⟩

theorem set_threads (w : World σ V ι) (i j : Nat) (t : Thread σ V ι) :
    (w.set i t).threads j = if j = i then t else w.threads j := by
  simp [World.set, Function.update_apply]

/-- A command keeps the invariant. -/
theorem after_ok (hR : RegimeOn Allowed Inv Le R) {w : World σ V ι} (h : WorldOk R w) (hI : Always Inv Le w) (i : Nat) (t : Thread σ V ι)
    (hC : Core R w i t) (p : Code σ V) (c : Conn σ) (hn : t.code.next t.conn = some (p, c)) (held pub : Bool)
    (hh : held = true → w.lock = some i ∨ (w.lock = none ∧ t.base = w.count))
    (hf : held = false → w.lock ≠ some i ∧ t.code.Quiet t.conn) (hp : held = false → pub = false)
    (hp' : held = true → pub = false → c.inTxn = false → c.committed = w.disk) :
    WorldOk R (w.after i { t with code := p, conn := c } held pub) ∧
      Always Inv Le (w.after i { t with code := p, conn := c } held pub) := by
  have hbusy : ∀ r, t.home.1 ≠ .done r := by
    intro r e
    rw [hC.homeDone r e] at hn
    simp [Code.next] at hn
  have hbase : held = true → t.base = w.count := fun e => (hh e).elim hC.held (·.2)
  have hpure : held = false → Pure c (w.version t.base) := fun e =>
    next_quiet (hf e).2 hn (hC.free (hf e).1)
  have htxn := next_aloneTxn hn
  have hall := next_alone hn
  by_cases hin : c.inTxn = true
  · -- still inside
    have hcore : ∀ lk : Option Nat, (lk = some i ↔ held = true) → Core R
        { w.set i { t with code := p, conn := c } with lock := lk } i { t with code := p, conn := c } := by
      intro lk hlk
      refine ⟨hC.homeIdle, hC.homeCommitted, hC.homeWork, hC.homeReady, fun r e => absurd e (hbusy r), ?_, hC.all.trans hall, ?_, hC.began, hC.base,
        fun e => hbase (hlk.1 e), fun e => hpure (by simpa using fun e' => e (hlk.2 e'))⟩
      · rw [hC.txn, htxn, if_pos hin]
      · exact (next_committed hn hin).trans hC.committed
    have hlock : (if held = true then some i else w.lock) = some i ↔ held = true := by
      cases held with
      | true => simp
      | false => simpa using (hf rfl).1
    have hothers : ∀ j, j ≠ i → ((if held = true then some i else w.lock) = some j ↔ w.lock = some j) := by
      intro j hj
      cases held with
      | false => simp
      | true =>
        simp only [if_true]
        constructor
        · intro e; exact absurd (Option.some.inj e).symm hj
        · intro e
          rcases hh rfl with h1 | ⟨h1, -⟩
          · rw [h1] at e; exact absurd (Option.some.inj e).symm hj
          · rw [h1] at e; cases e
    unfold World.after
    simp only [hin, if_true]
    refine ⟨?_, ⟨hI.inv, hI.le⟩⟩
    refine ⟨?_, ?_, ?_⟩
    · intro j
      show ThreadOk R _ j ((w.set i _).threads j)
      rw [set_threads]
      by_cases hj : j = i
      · subst hj
        rw [if_pos rfl]
        exact ⟨fun _ => hcore _ hlock, fun e => absurd hin (by simp [e])⟩
      · rw [if_neg hj]
        refine (h.threads j).transfer hR (hR.refl _) (fun _ _ => rfl) (le_refl _) (fun e => ⟨(hothers j hj).1 e, rfl⟩)
          (fun e e' => e ((hothers j hj).2 e'))
    · intro E hE
      exact (h.log E hE).transfer (fun _ _ => rfl) (le_refl _)
    · exact h.writers
  · have hin' : c.inTxn = false := by simpa using hin
    have htx : aloneTxn t.home.1 t.home.2 = (p, c) := by rw [hC.txn, htxn, if_neg hin]
    obtain ⟨hready, hinv, hle⟩ : R t.label p c ∧ Inv c.committed ∧ Le (w.version t.base) c.committed := by
      have := hR.next _ _ _ hC.homeReady hC.homeIdle (hC.homeCommitted.trans hC.homeWork.symm)
        (by rw [hC.homeCommitted]; exact hI.inv _ hC.base) (by rw [htx]; exact hin')
      rwa [htx, hC.homeCommitted] at this
    unfold World.after
    simp only [hin', if_false, Bool.false_eq_true]
    have hlock : (if held = true then none else w.lock) ≠ some i := by
      cases held with
      | true => simp
      | false => simpa using (hf rfl).1
    have hothers : ∀ j, j ≠ i → ((if held = true then none else w.lock) = some j ↔ w.lock = some j) := by
      intro j hj
      cases held with
      | false => simp
      | true =>
        simp only [if_true]
        refine ⟨(fun e => by cases e), fun e => ?_⟩
        rcases hh rfl with h1 | ⟨h1, -⟩
        · rw [h1] at e; exact absurd (Option.some.inj e).symm hj
        · rw [h1] at e; cases e
    cases pub with
    | false =>
      simp only [if_false, Bool.false_eq_true]
      have hcom : c.committed = w.version t.base := by
        cases held with
        | false => exact (hpure rfl).committed
        | true => rw [hbase rfl]; exact hp' rfl rfl hin'
      refine ⟨?_, ⟨hI.inv, hI.le⟩⟩
      refine ⟨?_, ?_, ?_⟩
      · intro j
        show ThreadOk R _ j ((w.set i _).threads j)
        rw [set_threads]
        by_cases hj : j = i
        · subst hj
          rw [if_pos rfl]
          exact ⟨fun e => absurd hin (by simp [e]), fun _ => ⟨hlock, hC.began.trans hC.base,
            hR.later _ _ _ w.disk hready hin' (by rw [hcom]; exact hI.le _ _ hC.base (le_refl _))⟩⟩
        · rw [if_neg hj]
          exact (h.threads j).transfer hR (hR.refl _) (fun _ _ => rfl) (le_refl _) (fun e => ⟨(hothers j hj).1 e, rfl⟩)
            (fun e e' => e ((hothers j hj).2 e'))
      · intro E hE
        rcases List.mem_cons.1 hE with rfl | hE
        · exact ⟨hC.began, hC.base, le_refl _, hC.homeIdle, hC.homeCommitted, hC.homeWork, hC.homeReady, hbusy, htx,
            hC.all.trans hall, hin', (fun e => by cases e), fun _ => hcom⟩
        · exact (h.log E hE).transfer (fun _ _ => rfl) (le_refl _)
      · show List.map _ (List.filter _ (_ :: w.log)) = (List.range w.count).reverse
        simpa using h.writers
    | true =>
      simp only [if_true]
      have hheld : held = true := by
        cases held with
        | true => rfl
        | false => exact absurd (hp rfl) (by simp)
      have hb := hbase hheld
      have hv : ∀ k, k ≤ w.count → Function.update w.version (w.count + 1) c.committed k = w.version k := by
        intro k hk
        rw [Function.update_of_ne (by omega)]
      have hnew : Function.update w.version (w.count + 1) c.committed (w.count + 1) = c.committed := Function.update_self ..
      refine ⟨?_, ?_, ?_⟩
      rotate_left
      · intro k hk
        change k ≤ w.count + 1 at hk
        show Inv (Function.update w.version (w.count + 1) c.committed k)
        by_cases hk' : k = w.count + 1
        · rw [hk', hnew]; exact hinv
        · rw [hv k (by omega)]; exact hI.inv k (by omega)
      · intro m k hmk hk
        change k ≤ w.count + 1 at hk
        show Le (Function.update w.version (w.count + 1) c.committed m) (Function.update w.version (w.count + 1) c.committed k)
        by_cases hk' : k = w.count + 1
        · subst hk'
          by_cases hm : m = w.count + 1
          · rw [hm]; exact hR.refl _
          · rw [hnew, hv m (by omega)]
            exact hR.trans _ _ _ (hI.le m w.count (by omega) (le_refl _)) (by rw [← hb]; exact hle)
        · rw [hv k (by omega), hv m (by omega)]; exact hI.le m k hmk (by omega)
      refine ⟨?_, ?_, ?_⟩
      · intro j
        show ThreadOk R _ j ((w.set i _).threads j)
        rw [set_threads]
        by_cases hj : j = i
        · subst hj
          rw [if_pos rfl]
          refine ⟨fun e => absurd hin (by simp [e]), fun _ => ⟨hlock, (hC.began.trans hC.base).trans (Nat.le_succ _), ?_⟩⟩
          refine hR.later _ _ _ _ hready hin' ?_
          show Le c.committed (Function.update w.version (w.count + 1) c.committed (w.count + 1))
          rw [hnew]; exact hR.refl _
        · rw [if_neg hj]
          refine (h.threads j).transfer hR ?_ hv (Nat.le_succ _) (fun e => by rw [hheld] at e; cases e)
            (fun e e' => e ((hothers j hj).2 e'))
          show Le (w.version w.count) (Function.update w.version (w.count + 1) c.committed (w.count + 1))
          rw [hnew, ← hb]; exact hle
      · intro E hE
        rcases List.mem_cons.1 hE with rfl | hE
        · have hvb := hv _ hC.base
          exact ⟨hC.began, hC.base, Nat.le_succ _, hC.homeIdle, hC.homeCommitted.trans hvb.symm, hC.homeWork.trans hvb.symm,
            hC.homeReady, hbusy, htx, hC.all.trans hall, hin', fun _ => ⟨hb, by simp [hb], by simp [hb]⟩, fun e => by cases e⟩
        · exact (h.log E hE).transfer hv (Nat.le_succ _)
      · simp only [List.filter_cons, if_true, List.map_cons, h.writers, List.range_succ, List.reverse_append,
          List.reverse_cons, List.reverse_nil, List.nil_append, List.singleton_append, hb]

theorem step_ok (hR : RegimeOn Allowed Inv Le R) {w w' : World σ V ι} (h : WorldOk R w) (hI : Always Inv Le w)
    (hs : Step Allowed w w') : WorldOk R w' ∧ Always Inv Le w' := by
  cases hs with
  | start i l p hp r hr ht =>
    refine ⟨?_, ⟨hI.inv, hI.le⟩⟩
    refine ⟨?_, ?_, h.writers⟩
    · intro j
      rw [set_threads]
      split
      · rename_i hj; subst hj
        obtain ⟨h1, h2, h3⟩ := (h.threads j).outside ht
        rw [hr] at h3
        exact ⟨(fun e => by rw [ht] at e; cases e), fun _ => ⟨h1, le_refl _, hR.start _ _ _ _ _ hp h3 ht⟩⟩
      · exact (h.threads j).transfer hR (hR.refl _) (fun _ _ => rfl) (le_refl _) (fun e => ⟨e, rfl⟩) (fun e => e)
    · intro E hE
      exact (h.log E hE).transfer (fun _ _ => rfl) (le_refl _)
  | read i p c hl hq hn =>
    exact after_ok hR h hI i _ (look_core (h.threads i)) p c hn false false (fun e => by cases e) (fun _ => ⟨hl, hq⟩)
      (fun _ => rfl) (fun e => by cases e)
  | write i p c pub hl hn hp =>
    exact after_ok hR h hI i _ (look_core (h.threads i)) p c hn true pub (fun _ => hl) (fun e => by cases e)
      (fun e => by cases e) (fun _ => hp)
  | stop i r =>
    refine ⟨?_, ⟨hI.inv, hI.le⟩⟩
    refine ⟨?_, ?_, h.writers⟩
    · intro j
      show ThreadOk R _ j ((w.set i _).threads j)
      rw [set_threads]
      by_cases hj : j = i
      · subst hj
        rw [if_pos rfl]
        have hb : (w.threads j).began ≤ w.count := by
          by_cases ht : (w.threads j).conn.inTxn = true
          · exact ((h.threads j).inside ht).began.trans ((h.threads j).inside ht).base
          · exact ((h.threads j).outside (by simpa using ht)).2.1
        refine ⟨fun e => by simp [Conn.fresh, Conn.inTxn] at e, fun _ => ⟨?_, hb, hR.fresh _ _ _ (hI.inv _ (le_refl _))⟩⟩
        show (if w.lock = some j then none else w.lock) ≠ some j
        by_cases hl : w.lock = some j
        · simp [hl]
        · simp [hl]
      · rw [if_neg hj]
        refine (h.threads j).transfer hR (hR.refl _) (fun _ _ => rfl) (le_refl _) (fun e => ⟨?_, rfl⟩) (fun e e' => e ?_)
        · change (if w.lock = some i then none else w.lock) = some j at e
          by_cases hl : w.lock = some i
          · simp [hl] at e
          · simpa [hl] using e
        · show (if w.lock = some i then none else w.lock) = some j
          have hl : w.lock ≠ some i := by
            rw [e']; intro h1; exact hj (Option.some.inj h1)
          rw [if_neg hl]; exact e'
    · intro E hE
      exact (h.log E hE).transfer (fun _ _ => rfl) (le_refl _)

theorem reachable_on (hR : RegimeOn Allowed Inv Le R) {s : σ} (hs : Inv s) {w : World σ V ι} (h : Reachable Allowed s w) :
    WorldOk R w ∧ Always Inv Le w := by
  induction h with
  | init l r =>
    refine ⟨⟨fun i => ⟨fun e => by simp [World.initial, Conn.fresh, Conn.inTxn] at e, fun _ => ⟨by simp [World.initial], ?_, hR.fresh _ _ _ hs⟩⟩, ?_, rfl⟩, fun _ _ => hs, fun _ _ _ _ => hR.refl _⟩
    · exact le_refl 0
    · intro E hE; simp [World.initial] at hE
  | step _ hs ih => exact step_ok hR ih.1 ih.2 hs

theorem reachable_ok (hR : Regime Allowed R) {s : σ} {w : World σ V ι} (h : Reachable Allowed s w) : WorldOk R w :=
  (reachable_on hR.on trivial h).1

theorem after_log (w : World σ V ι) (i : Nat) (t : Thread σ V ι) (held pub : Bool) :
    (w.after i t held pub).threads = (w.set i t).threads ∧
    w.count ≤ (w.after i t held pub).count ∧
    (∀ k, k ≤ w.count → (w.after i t held pub).version k = w.version k) ∧
    ((t.conn.inTxn = true ∧ (w.after i t held pub).log = w.log) ∨
      (t.conn.inTxn = false ∧ (w.after i t held pub).log =
        ⟨i, t.label, t.began, t.base, t.home, t.code, t.conn, w.count, pub⟩ :: w.log ∧
        (pub = true → (w.after i t held pub).count = w.count + 1))) := by
  unfold World.after
  by_cases ht : t.conn.inTxn = true
  · rw [if_pos ht]
    exact ⟨rfl, le_refl _, fun _ _ => rfl, Or.inl ⟨ht, rfl⟩⟩
  · rw [if_neg ht]
    have ht' : t.conn.inTxn = false := by simpa using ht
    cases pub with
    | true =>
      refine ⟨rfl, Nat.le_succ _, ?_, Or.inr ⟨ht', rfl, fun _ => rfl⟩⟩
      intro k hk
      show Function.update w.version (w.count + 1) t.conn.committed k = w.version k
      rw [Function.update_of_ne (by omega)]
    | false => exact ⟨rfl, le_refl _, fun _ _ => rfl, Or.inr ⟨ht', rfl, fun e => by cases e⟩⟩

/-- Committed contents stay. -/
theorem step_version {w w' : World σ V ι} (hs : Step Allowed w w') :
    w.count ≤ w'.count ∧ ∀ k, k ≤ w.count → w'.version k = w.version k := by
  cases hs with
  | start => exact ⟨le_refl _, fun _ _ => rfl⟩
  | read i p c => exact ⟨(after_log _ _ _ _ _).2.1, (after_log _ _ _ _ _).2.2.1⟩
  | write i p c => exact ⟨(after_log _ _ _ _ _).2.1, (after_log _ _ _ _ _).2.2.1⟩
  | stop => exact ⟨le_refl _, fun _ _ => rfl⟩

theorem version_zero {s : σ} {w : World σ V ι} (h : Reachable Allowed s w) : w.version 0 = s := by
  induction h with
  | init l r => rfl
  | step _ hs ih => rw [(step_version hs).2 0 (Nat.zero_le _)]; exact ih

/-! ## The transactions of one call -/

/-- Where the code of a transaction (starting from content number at least `n`) comes from: the call begins with it, or
an earlier transaction of the same call left it. -/
def Origin (Allowed : ι → Code σ V → Prop) (w : World σ V ι) (i : Nat) (l : ι) (b n : Nat) (p : Code σ V) : Prop :=
  Allowed l p ∨ (∃ r, p = .done r) ∨ ∃ E ∈ w.log, E.thread = i ∧ E.label = l ∧ E.began = b ∧ E.code = p ∧
    E.ended ≤ n ∧ (E.published = true → E.ended < n)

theorem Origin.mono {w w' : World σ V ι} {i : Nat} {l : ι} {b n n' : Nat} {p : Code σ V}
    (h : Origin Allowed w i l b n p) (hl : ∀ E ∈ w.log, E ∈ w'.log) (hn : n ≤ n') : Origin Allowed w' i l b n' p := by
  rcases h with h | h | ⟨E, h0, h1, h2, h3, h4, h5, h6⟩
  · exact Or.inl h
  · exact Or.inr (Or.inl h)
  · exact Or.inr (Or.inr ⟨E, hl E h0, h1, h2, h3, h4, h5.trans hn, fun e => (h6 e).trans_le hn⟩)

/-- Every transaction has its place in a call. -/
structure Chain (Allowed : ι → Code σ V → Prop) (w : World σ V ι) : Prop where
  outside : ∀ i, (w.threads i).conn.inTxn = false →
    Origin Allowed w i (w.threads i).label (w.threads i).began w.count (w.threads i).code
  inside : ∀ i, (w.threads i).conn.inTxn = true →
    Origin Allowed w i (w.threads i).label (w.threads i).began (w.threads i).base (w.threads i).home.1
  log : ∀ E ∈ w.log, Origin Allowed w E.thread E.label E.began E.base E.home.1

theorem look_origin {w : World σ V ι} (h : Chain Allowed w) (i : Nat) :
    Origin Allowed w i ((w.threads i).look w).label ((w.threads i).look w).began ((w.threads i).look w).base
      ((w.threads i).look w).home.1 := by
  unfold Thread.look
  by_cases ht : (w.threads i).conn.inTxn = true
  · rw [if_pos ht]; exact h.inside i ht
  · rw [if_neg ht]; exact h.outside i (by simpa using ht)

theorem after_chain {w : World σ V ι} (h : Chain Allowed w) (i : Nat) (p : Code σ V) (c : Conn σ) (held pub : Bool) :
    Chain Allowed (w.after i { (w.threads i).look w with code := p, conn := c } held pub) := by
  obtain ⟨h1, h2, -, h4⟩ := after_log w i { (w.threads i).look w with code := p, conn := c } held pub
  have hmem : ∀ E ∈ w.log, E ∈ (w.after i { (w.threads i).look w with code := p, conn := c } held pub).log := by
    intro E hE
    rcases h4 with ⟨-, h4⟩ | ⟨-, h4, -⟩
    · rw [h4]; exact hE
    · rw [h4]; exact List.mem_cons_of_mem _ hE
  have hlook := look_origin h i
  refine ⟨?_, ?_, ?_⟩
  · intro j hj
    rw [h1, set_threads] at hj ⊢
    by_cases hji : j = i
    · subst hji
      rw [if_pos rfl] at hj ⊢
      rcases h4 with ⟨h4, -⟩ | ⟨-, h4, h5⟩
      · rw [h4] at hj; cases hj
      · refine Or.inr (Or.inr ⟨_, by rw [h4]; exact List.mem_cons_self .., rfl, rfl, rfl, rfl, h2, fun e => ?_⟩)
        rw [h5 e]; exact Nat.lt_succ_self _
    · rw [if_neg hji] at hj ⊢
      exact (h.outside j hj).mono hmem h2
  · intro j hj
    rw [h1, set_threads] at hj ⊢
    by_cases hji : j = i
    · subst hji
      rw [if_pos rfl] at hj ⊢
      exact hlook.mono hmem (le_refl _)
    · rw [if_neg hji] at hj ⊢
      exact (h.inside j hj).mono hmem (le_refl _)
  · intro E hE
    rcases h4 with ⟨-, h4⟩ | ⟨-, h4, -⟩
    · rw [h4] at hE; exact (h.log E hE).mono hmem (le_refl _)
    · rw [h4] at hE
      rcases List.mem_cons.1 hE with rfl | hE
      · exact hlook.mono hmem (le_refl _)
      · exact (h.log E hE).mono hmem (le_refl _)

theorem reachable_chain {s : σ} {w : World σ V ι} (h : Reachable Allowed s w) : Chain Allowed w := by
  induction h with
  | init l r =>
    exact ⟨fun _ _ => Or.inr (Or.inl ⟨r, rfl⟩), fun _ _ => Or.inr (Or.inl ⟨r, rfl⟩),
      fun E hE => by simp [World.initial] at hE⟩
  | step _ hs ih =>
    cases hs with
    | start i l p hp r hr ht =>
      refine ⟨?_, ?_, fun E hE => (ih.log E hE).mono (fun _ h => h) (le_refl _)⟩
      · intro j hj
        rw [set_threads] at hj ⊢
        by_cases hji : j = i
        · rw [if_pos hji]; exact Or.inl hp
        · rw [if_neg hji] at hj ⊢; exact (ih.outside j hj).mono (fun _ h => h) (le_refl _)
      · intro j hj
        rw [set_threads] at hj ⊢
        by_cases hji : j = i
        · rw [if_pos hji] at hj
          change (_ : Thread σ V _).conn.inTxn = true at hj
          rw [show (_ : Conn σ).inTxn = false from ht] at hj
          cases hj
        · rw [if_neg hji] at hj ⊢; exact (ih.inside j hj).mono (fun _ h => h) (le_refl _)
    | read i p c => exact after_chain ih i p c _ _
    | write i p c => exact after_chain ih i p c _ _
    | stop i r =>
      refine ⟨?_, ?_, fun E hE => (ih.log E hE).mono (fun _ h => h) (le_refl _)⟩
      · intro j hj
        change Origin _ _ _ ((World.set _ i _).threads j).label ((World.set _ i _).threads j).began _
          ((World.set _ i _).threads j).code
        change ((World.set _ i _).threads j).conn.inTxn = false at hj
        rw [set_threads] at hj ⊢
        by_cases hji : j = i
        · rw [if_pos hji]; exact Or.inr (Or.inl ⟨r, rfl⟩)
        · rw [if_neg hji] at hj ⊢; exact (ih.outside j hj).mono (fun _ h => h) (le_refl _)
      · intro j hj
        change Origin _ _ _ ((World.set _ i _).threads j).label ((World.set _ i _).threads j).began
          ((World.set _ i _).threads j).base ((World.set _ i _).threads j).home.1
        change ((World.set _ i _).threads j).conn.inTxn = true at hj
        rw [set_threads] at hj ⊢
        by_cases hji : j = i
        · rw [if_pos hji] at hj; simp [Conn.fresh, Conn.inTxn] at hj
        · rw [if_neg hji] at hj ⊢; exact (ih.inside j hj).mono (fun _ h => h) (le_refl _)

end Hyperreal.Concurrent
