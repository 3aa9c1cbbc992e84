import Verif.Model.Bitmap

/-!
# Model of the `atomic` decorator and of the SQLite connection it drives

`σ` is the content of the database, `V` the type of values returned by methods and statements.
-/

namespace Hyperreal

/-- Which exceptions `except Exception` catches (index.py:109): all but `KeyboardInterrupt`/`SystemExit`. -/
def Err.isException : Err → Bool
  | .interrupt => false
  | _ => true

namespace Atomic

/-- A SQLite connection with `isolation_level=None` (db_utilities.py:27-29) together with the two attributes of
`Index` used by the decorator (index.py:190-191).

* `committed` is what other connections (and the next process, after a crash) see;
* `work` is what this connection sees;
* `stack` is the savepoint stack, innermost first, each with the database content when it was set;
* `begun` tells whether an explicit `begin` is open;
* `seen` is a ghost log of what was visible to other connections after each SQL statement. -/
structure Conn (σ : Type) where
  committed : σ
  work : σ
  stack : List (String × σ)
  begun : Bool
  level : Int
  changed : Bool
  seen : List σ

variable {σ V : Type}

/-- A freshly opened connection on a database with content `s` (index.py:190-191). -/
def Conn.fresh (s : σ) : Conn σ :=
  { committed := s, work := s, stack := [], begun := false, level := 0, changed := false, seen := [] }

/-- Is a transaction open on the connection? -/
def Conn.inTxn (c : Conn σ) : Bool := c.begun || !c.stack.isEmpty

/-- Log what other connections see now. -/
def Conn.log (c : Conn σ) : Conn σ := { c with seen := c.committed :: c.seen }

/-- SQL `savepoint n`. -/
def Conn.savepoint (c : Conn σ) (n : String) : Conn σ :=
  ({ c with stack := (n, c.work) :: c.stack } : Conn σ).log

/-- The part of the savepoint stack below and including the innermost savepoint called `n`. -/
def findSp (n : String) : List (String × σ) → Option ((String × σ) × List (String × σ))
  | [] => none
  | e :: rest => if e.1 = n then some (e, rest) else findSp n rest

/-- SQL `rollback to n`: restores the content at the innermost savepoint `n`, which stays on the stack; the more
recent ones are dropped.  `none` when there is no such savepoint (`OperationalError`). -/
def Conn.rollbackTo (c : Conn σ) (n : String) : Option (Conn σ) :=
  match findSp n c.stack with
  | none => none
  | some (e, rest) => some ({ c with work := e.2, stack := e :: rest } : Conn σ).log

/-- SQL `release n`: removes the innermost savepoint `n` and all more recent ones; when it was the outermost one and no
`begin` is open this commits. -/
def Conn.release (c : Conn σ) (n : String) : Option (Conn σ) :=
  match findSp n c.stack with
  | none => none
  | some (_, rest) =>
    some (if rest.isEmpty && !c.begun
      then ({ c with committed := c.work, stack := [] } : Conn σ).log
      else ({ c with stack := rest } : Conn σ).log)

/-- A SQL statement that modifies (or only reads) the database; outside any transaction it commits at once
(autocommit).  A failing statement changes nothing (SQLite's statement atomicity). -/
def Conn.exec (c : Conn σ) (f : σ → Except Err (σ × V)) : Conn σ × Except Err V :=
  match f c.work with
  | .error e => (c.log, .error e)
  | .ok (s, v) =>
    if c.inTxn then (({ c with work := s } : Conn σ).log, .ok v)
    else (({ c with work := s, committed := s } : Conn σ).log, .ok v)

/-- `Index.__enter__` (index.py:229-230): `begin`; an error inside a transaction. -/
def Conn.begin (c : Conn σ) : Option (Conn σ) :=
  if c.inTxn then none else some ({ c with begun := true } : Conn σ).log

/-- `Index.__exit__`/`close` (index.py:232-233, 241-242): closing the connection discards an open transaction. What
remains is the committed content. -/
def Conn.close (c : Conn σ) : σ := c.committed

/-- Code that uses the connection: a tree of statements and of calls of decorated methods.  Each step gets the outcome
(value or exception) of the step before, so loops, branches on what was read, `try/except` and `raise` are all
expressible. -/
inductive Prog (σ V : Type) where
  | ret (r : Except Err V)
  | stmt (f : σ → Except Err (σ × V)) (k : Except Err V → Prog σ V)
  | call (name : String) (writes : Bool) (body : Prog σ V) (k : Except Err V → Prog σ V)

/-- The housekeeping run by the decorator (`_update_changed_clusters`, index.py:126): given what the workers see
(committed content) and the content in the current transaction, the content it leaves and the exception it may raise. -/
abbrev Housekeeping (σ : Type) := σ → σ → σ × Option Err

/-- index.py:117-129, the `finally` clause: decrement the level, run the housekeeping when leaving the outermost call
with changes, release the savepoint.  An exception from the housekeeping replaces the outcome and skips the
release and the reset of `_changed`. -/
def finish (hk : Housekeeping σ) (name : String) (c : Conn σ) (r : Except Err V) : Conn σ × Except Err V :=
  let c : Conn σ := { c with level := c.level - 1 }
  let rel (c : Conn σ) : Conn σ × Except Err V :=
    match c.release name with
    | none => (c, .error .operational)
    | some c => (c, r)
  if c.level = 0 ∧ c.changed = true then
    match hk c.committed c.work with
    | (s, some e) => (({ c with work := s } : Conn σ).log, .error e)
    | (s, none) => rel ({ c with work := s, changed := false } : Conn σ).log
  else rel c

/-- index.py:96-129, what happens around the body: `c` and `r` are the connection and the outcome when the body ends. -/
def afterBody (hk : Housekeeping σ) (name : String) (writes : Bool) (c : Conn σ) (r : Except Err V) :
    Conn σ × Except Err V :=
  match r with
  | .ok v => finish hk name { c with changed := c.changed || writes } (.ok v)
  | .error e =>
    if e.isException then
      match c.rollbackTo name with
      | none => finish hk name c (.error .operational)
      | some c => finish hk name c (.error e)
    else finish hk name c (.error e)

/-- index.py:80-133, executing code on the connection. -/
def run (hk : Housekeeping σ) : Prog σ V → Conn σ → Conn σ × Except Err V
  | .ret r, c => (c, r)
  | .stmt f k, c =>
    let (c, r) := c.exec f
    run hk (k r) c
  | .call name writes body k, c =>
    let c := ({ c with level := c.level + 1 } : Conn σ).savepoint name
    let (c, r) := run hk body c
    let (c, r) := afterBody hk name writes c r
    run hk (k r) c

/-- One decorated method called from outside. -/
def callMethod (hk : Housekeeping σ) (name : String) (writes : Bool) (body : Prog σ V) (c : Conn σ) :
    Conn σ × Except Err V :=
  run hk (.call name writes body .ret) c

end Atomic
end Hyperreal
