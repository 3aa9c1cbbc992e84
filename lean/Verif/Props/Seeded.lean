import Verif.Lemmas.SeededLink
import Verif.Props.Refine

/-!
# C73: same seed, same calls, same model

`userSession g lay ws i calls x` are the answers and the final state (connection and random generator) of the calls made one
after the other on one `Index` object; `ws` says in which orders the worker processes iterate over the sets they are sent.
-/

namespace Hyperreal.Props
open Hyperreal Spec Atomic

variable {ρ : Type} (g : Generator ρ)

/-- Workers do compute their scores in orders of their own: the lists they return differ. -/
example : (measureContribution (fun f => if f = 1 then {1, 2} else {2, 3}) none [1, 2] {3}).toOption.map (·.removeFeature) = some [1, 2]
    ∧ (measureContribution (fun f => if f = 1 then {1, 2} else {2, 3}) none [2, 1] {3}).toOption.map (·.removeFeature) = some [2, 1] := by
  decide +kernel

/-- C73: from equal contents and an equal state of the generator, the same calls give the same answers, the same contents
after every call and the same state of the generator, in whatever orders the workers go through their sets. -/
theorem same_state_same_results (lay : Layout) (ws1 ws2 : Nat → Workers) (calls : List (UserCall × Option Err)) :
    ∀ (i : Nat) (x : Conn DB × ρ), userSession g lay ws1 i calls x = userSession g lay ws2 i calls x := by
  induction calls with
  | nil => intro i x; rfl
  | cons c rest ih =>
    obtain ⟨call, fault⟩ := c
    intro i x
    have hcall : call.exec g lay (ws1 i) fault x = call.exec g lay (ws2 i) fault x := by
      cases call with
      | initialise n m fs => rfl
      | refine p args =>
        simp only [UserCall.exec, UserCall.op, UserCall.after]
        have : (fun db => (refinePlanDraw g lay (ws1 i) p args db x.2).1) = fun db =>
            (refinePlanDraw g lay (ws2 i) p args db x.2).1 := by
          funext db
          rw [refinePlanDraw_same g lay (ws1 i) (ws2 i)]
        rw [this, refinePlanDraw_same g lay (ws1 i) (ws2 i)]
      | other op => rfl
    simp only [userSession, hcall, ih]

/-- C73: two `Index` objects opened with the same `random_seed` on files with the same content, given the same calls, give
the same answers and leave files with the same content. -/
theorem same_seed_same_results (lay : Layout) (ws1 ws2 : Nat → Workers) (calls : List (UserCall × Option Err)) (db : DB)
    (seed : Int) :
    (userSession g lay ws1 0 calls (Conn.fresh db, g.seed seed)).2 = (userSession g lay ws2 0 calls (Conn.fresh db, g.seed seed)).2 ∧
    (userSession g lay ws1 0 calls (Conn.fresh db, g.seed seed)).1.1.committed =
      (userSession g lay ws2 0 calls (Conn.fresh db, g.seed seed)).1.1.committed := by
  rw [same_state_same_results g lay ws1 ws2]
  exact ⟨rfl, rfl⟩

/-- A refinement reads the content of its connection once. -/
theorem refine_exec_congr {plan plan' : DB → Except Err (List (Int × List Nat))} (fault : Option Err) (c : Conn DB)
    (h : plan c.work = plan' c.work) : (ModelOp.refine plan).exec fault c = (ModelOp.refine plan').exec fault c := by
  have key : ∀ (pl : DB → Except Err (List (Int × List Nat))), (ModelOp.refine pl).exec fault c =
      (ModelOp.refine (fun _ => pl c.work)).exec fault c := by
    intro pl
    simp only [ModelOp.exec, ModelOp.method, Atomic.callMethod, Atomic.run, refineWith, reading, Conn.exec, Conn.savepoint,
      Conn.log, Conn.inTxn, List.isEmpty_cons, Bool.not_false, Bool.or_true, if_true]
  rw [key plan, key plan', h]

/-- What an ordinary call of the kind is: the calls the theorems about the model's edits are about. -/
def Ordinary : UserCall → ModelOp → Prop
  | .initialise n m fs, op => ∃ shuffle : List (Nat × Nat) → List (Nat × Nat), (∀ l, (shuffle l).Perm l) ∧
      op = .initialise n m fs shuffle
  | .refine _ args, op => ∃ ch : Chance, op = refineClusters (exactScorer ch args) ch args
  | .other op', op => op = op'

/-- C73: what a call with the index's own generator does is what the ordinary call does for some outcomes of the draws, so
that all that is proved for every outcome (C15, C16, C18 to C28, C67) holds of it. -/
theorem drawn_call_is_ordinary (lay : Layout) (ws : Workers) (fault : Option Err) (call : UserCall) (x : Conn DB × ρ) :
    ∃ op, Ordinary call op ∧ (call.exec g lay ws fault x).1.1 = (op.exec fault x.1).1 ∧
      (call.exec g lay ws fault x).2 = (op.exec fault x.1).2 := by
  cases call with
  | initialise n m fs =>
    exact ⟨_, ⟨fun l => (g.shuffle l.length x.2).1.filterMap (fun i => l[i]?), fun l => shuffled_perm g l x.2 _ rfl, rfl⟩,
      rfl, rfl⟩
  | refine p args =>
    obtain ⟨ch, hch⟩ := plan_link g lay ws p args x.1.work x.2
    refine ⟨_, ⟨ch, rfl⟩, ?_⟩
    have := refine_exec_congr (plan := fun db => (refinePlanDraw g lay ws p args db x.2).1)
      (plan' := refinePlan (exactScorer ch args) ch args) fault x.1 hch
    simp only [UserCall.exec, UserCall.op, refineClusters, this, and_self]
  | other op => exact ⟨op, rfl, rfl, rfl⟩

/-! ## A concrete session

A generator that counts its draws: it shuffles by rotating, its random numbers cycle through the tenths, and its choices are the
count. -/

/-- The counting generator. -/
def counting : Generator Nat where
  seed n := n.toNat
  random s := (((s % 10 : Nat) : Rat) / 10, s + 1)
  shuffle n s := ((List.range n).rotate s, s + 1)
  shuffle_perm n s := List.rotate_perm _ _
  choose _ s := (s, s + 1)

/-- Sets in ascending order. -/
def sortedLayout : Layout where
  features _ s := Bitmap.elems s
  features_perm _ _ := .refl _
  movable s := Bitmap.elems s
  movable_perm _ := .refl _
  candidates _ l := l
  candidates_perm _ _ := .refl _
  possible _ l := l
  possible_perm _ _ := .refl _

/-- Workers that go through their sets backwards. -/
def backwards : Workers := ⟨fun _ G _ => (Bitmap.elems G).reverse, fun _ _ _ => List.reverse_perm _⟩

/-- Start with two clusters, refine once, pin a feature, and refine to three clusters. -/
def demoCalls : List (UserCall × Option Err) :=
  [(.initialise 2 0 [], none), (.refine 1 { iterations := 1 }, none), (.other (.pinFeatures [2] true), none),
   (.refine (1 / 2) { iterations := 2, target := some 3 }, none)]

/-- The session makes a model, and the seed matters. -/
example : assignments (userSession counting sortedLayout (fun _ => sortedWorkers) 0 demoCalls
      (Conn.fresh refineIndex, counting.seed 1)).1.1.committed ≠ [] ∧
    assignments (userSession counting sortedLayout (fun _ => sortedWorkers) 0 demoCalls
      (Conn.fresh refineIndex, counting.seed 1)).1.1.committed ≠
    assignments (userSession counting sortedLayout (fun _ => sortedWorkers) 0 demoCalls
      (Conn.fresh refineIndex, counting.seed 4)).1.1.committed := by decide +kernel

/-- With workers going backwards the outcome is the same. -/
example : (userSession counting sortedLayout (fun _ => backwards) 0 demoCalls (Conn.fresh refineIndex, counting.seed 1)).1.1.committed =
    (userSession counting sortedLayout (fun _ => sortedWorkers) 0 demoCalls (Conn.fresh refineIndex, counting.seed 1)).1.1.committed :=
  (same_seed_same_results counting sortedLayout _ _ demoCalls refineIndex 1).2

end Hyperreal.Props
