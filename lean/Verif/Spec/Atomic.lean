import Verif.Model.Atomic

/-!
# Specification of all-or-nothing methods

`eval` is the transactional meaning of a program: no connection, no savepoints, no levels.  A call that raises an
`Exception` has no effect on the database; one that returns has exactly the effects of its body.
-/

namespace Hyperreal.Spec
open Atomic
variable {σ V : Type}

/-- The effect and the outcome of a program when every call is all-or-nothing.  (An interrupt —
`KeyboardInterrupt` — is not covered by the promise and keeps the effects so far.) -/
def eval : Prog σ V → σ → σ × Except Err V
  | .ret r, s => (s, r)
  | .stmt f k, s =>
    match f s with
    | .ok (s', v) => eval (k (.ok v)) s'
    | .error e => eval (k (.error e)) s
  | .call _ _ body k, s =>
    match eval body s with
    | (s', .ok v) => eval (k (.ok v)) s'
    | (s', .error e) => eval (k (.error e)) (if e.isException then s else s')

/-- Whether some call of a method marked `writes=True` returned normally while the program ran. -/
def touched : Prog σ V → σ → Bool
  | .ret _, _ => false
  | .stmt f k, s =>
    match f s with
    | .ok (s', v) => touched (k (.ok v)) s'
    | .error e => touched (k (.error e)) s
  | .call _ w body k, s =>
    match eval body s with
    | (s', .ok v) => touched body s || w || touched (k (.ok v)) s'
    | (s', .error e) => touched body s || touched (k (.error e)) (if e.isException then s else s')

/-- Nothing is in progress on the connection and both sides agree that the content is `s`. -/
structure Idle (c : Conn σ) (s : σ) : Prop where
  committed : c.committed = s
  work : c.work = s
  stack : c.stack = []
  begun : c.begun = false
  level : c.level = 0
  changed : c.changed = false

end Hyperreal.Spec
