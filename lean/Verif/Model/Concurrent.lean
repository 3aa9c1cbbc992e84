import Verif.Model.Store
import Verif.Model.Indexing

/-!
# Several connections on one database file

Every `Index` object owns one SQLite connection (index.py:155-156); processes and threads each have their own `Index`
(the web server opens one per request, server.py; pool workers unpickle one, index.py:235-239), and the file is in WAL
mode (index.py:164).  This file models what the connections can do to each other.

The code a thread runs is cut into SQL commands (`Code`).  A global state (`World`) has the sequence of all contents
ever committed, the holder of SQLite's single write lock, and for each thread its connection and the rest of its code.
One `Step` is one command of one thread, the start of a new call, or the end of a thread at any moment.

Modelled facts about SQLite in WAL mode:
* a transaction sees the content committed when its first command ran;
* a command that changes the content needs the write lock, which is given to one connection at a time, and only if
  nothing was committed since the start of its transaction (otherwise `SQLITE_BUSY`/`SQLITE_BUSY_SNAPSHOT`);
* commit publishes the content if something was written, otherwise it only ends the transaction;
* closing a connection, or the death of its process, discards its open transaction and frees its lock.

A command refused with `SQLITE_BUSY` raises `OperationalError` and changes nothing.  When that happens depends on
timing; the model lets every command fail that way at any time (`Faulted`, `Cmd.leave none`).

Simplifications: the snapshot is taken at the `savepoint`/`begin` that opens the transaction, not at the first
`select` after it (no command in between sees the content); the pool workers of `refine_clusters`, which have
connections of their own, read the content the calling connection sees (when something else has been committed in the
meantime the call cannot write any more, so what they read has no effect); a thread whose call ended with an open transaction (after a failure of the housekeeping)
can only end, since nothing it does later is ever durable (`atomic_never_durable_again`).
-/

namespace Hyperreal.Concurrent
open Atomic

variable {σ V : Type}

/-- The SQL commands of the library other than plain statements, with the Python bookkeeping around them. -/
inductive Cmd (σ : Type) where
  /-- index.py:96-97: increment the level, `savepoint`. -/
  | enter (name : String)
  /-- index.py:113: `rollback to`. -/
  | rollbackTo (name : String)
  /-- index.py:101-102, 118-127: note a change if `writes`, decrement the level and run the housekeeping when it is
  due; `none` stands for a housekeeping whose first command is refused (`SQLITE_BUSY`). -/
  | leave (writes : Bool) (hk : Option (Housekeeping σ))
  /-- index.py:129: `release`. -/
  | release (name : String)
  /-- index.py:342, 538: `begin`. -/
  | begin
  /-- index.py:536, 540: `commit`. -/
  | commit
  /-- index.py:544: `rollback`. -/
  | rollback
  /-- index.py:539: the housekeeping inside `index`. -/
  | settle (hk : Housekeeping σ)

/-- The housekeeping whose first command is refused. -/
def busyHk : Housekeeping σ := fun _ w => (w, some .operational)

/-- Is the housekeeping due when leaving a decorated method (index.py:121)? -/
def due (writes : Bool) (c : Conn σ) : Bool := decide (c.level - 1 = 0) && (c.changed || writes)

/-- The effect of a command on the connection, and the exception it raises. -/
def Cmd.exec : Cmd σ → Conn σ → Conn σ × Option Err
  | .enter n, c => (({ c with level := c.level + 1 } : Conn σ).savepoint n, none)
  | .rollbackTo n, c =>
    match c.rollbackTo n with
    | none => (c, some .operational)
    | some c => (c, none)
  | .leave writes hk, c =>
    if due writes c then
      match hk.getD busyHk c.committed c.work with
      | (s, some e) => (({ c with level := c.level - 1, changed := true, work := s } : Conn σ).log, some e)
      | (s, none) => (({ c with level := c.level - 1, work := s, changed := false } : Conn σ).log, none)
    else ({ c with level := c.level - 1, changed := c.changed || writes }, none)
  | .release n, c =>
    match c.release n with
    | none => (c, some .operational)
    | some c => (c, none)
  | .begin, c =>
    match c.begin with
    | none => (c, some .operational)
    | some c => (c, none)
  | .commit, c =>
    match c.commit with
    | none => (c, some .operational)
    | some c => (c, none)
  | .rollback, c =>
    match c.rollback with
    | none => (c, some .operational)
    | some c => (c, none)
  | .settle hk, c =>
    match hk c.committed c.work with
    | (s, e) => (({ c with work := s } : Conn σ).log, e)

/-- The code a thread has still to run. -/
inductive Code (σ V : Type) where
  | done (r : Except Err V)
  | exec (f : σ → Except Err (σ × V)) (k : Except Err V → Code σ V)
  | cmd (c : Cmd σ) (k : Option Err → Code σ V)

/-- One command. -/
def Code.next : Code σ V → Conn σ → Option (Code σ V × Conn σ)
  | .done _, _ => none
  | .exec f k, c => some (k (c.exec f).2, (c.exec f).1)
  | .cmd a k, c => some (k (a.exec c).2, (a.exec c).1)

/-- The next command can run without the write lock: it does not write. -/
def Code.Quiet : Code σ V → Conn σ → Prop
  | .exec f _, c => ∀ s v, f c.work = .ok (s, v) → s = c.work
  | .cmd (.leave w (some _)) _, c => due w c = false
  | .cmd (.settle _) _, _ => False
  | _, _ => True

/-! ## The library's methods as code -/

/-- index.py:96-129, after the body of a decorated method ended with `r`. -/
def exitCode (hk : Option (Housekeeping σ)) (name : String) (writes : Bool) (r : Except Err V)
    (K : Except Err V → Code σ V) : Code σ V :=
  let fin (writes : Bool) (r : Except Err V) : Code σ V :=
    .cmd (.leave writes hk) fun e =>
      match e with
      | some e => K (.error e)
      | none => .cmd (.release name) fun e =>
        match e with
        | some e => K (.error e)
        | none => K r
  match r with
  | .ok v => fin writes (.ok v)
  | .error e =>
    if e.isException then
      .cmd (.rollbackTo name) fun e' =>
        match e' with
        | some e' => fin false (.error e')
        | none => fin false (.error e)
    else fin false (.error e)

/-- index.py:80-133, as commands; `K` is what comes after. -/
def compile (hk : Option (Housekeeping σ)) : Prog σ V → (Except Err V → Code σ V) → Code σ V
  | .ret r, K => K r
  | .stmt f k, K => .exec f fun r => compile hk (k r) K
  | .call name writes body k, K =>
    .cmd (.enter name) fun _ => compile hk body fun r => exitCode hk name writes r fun r => compile hk (k r) K

/-- A call of a decorated method from outside. -/
def callCode (hk : Option (Housekeeping σ)) (name : String) (writes : Bool) (body : Prog σ V) : Code σ V :=
  compile hk (.call name writes body .ret) .done

/-- `Faulted p p'`: `p'` is `p` with some statements refused (`SQLITE_BUSY`, `OperationalError`). -/
inductive Faulted : Prog σ V → Prog σ V → Prop where
  | ret (r : Except Err V) : Faulted (.ret r) (.ret r)
  | stmt (f : σ → Except Err (σ × V)) (k k' : Except Err V → Prog σ V) (h : ∀ r, Faulted (k r) (k' r)) :
      Faulted (.stmt f k) (.stmt f k')
  | busy (f : σ → Except Err (σ × V)) (k k' : Except Err V → Prog σ V) (h : ∀ r, Faulted (k r) (k' r)) :
      Faulted (.stmt f k) (.stmt (fun _ => .error .operational) k')
  | call (name : String) (writes : Bool) (b b' : Prog σ V) (k k' : Except Err V → Prog σ V) (hb : Faulted b b')
      (h : ∀ r, Faulted (k r) (k' r)) : Faulted (.call name writes b k) (.call name writes b' k')

/-- index.py:542-545: what `index` does with an exception. -/
def failCode (e : Err) : Code DB Ret :=
  if e.isException then
    .cmd .rollback fun e' =>
      match e' with
      | some e' => .done (.error e')
      | none => .done (.error e)
  else .done (.error e)

/-- The steps of `index` (index.py:354-540) as commands; `fault i` strikes at step `i`.  A refused command
(`SQLITE_BUSY`) is a fault `.operational`; a housekeeping whose first command is refused has the same effect as a fault
at the `begin` before it. -/
def stepsCode (corpus : Corpus) (positions : Bool) (fault : Nat → Option Err) : Nat → List Hyperreal.Step → Code DB Ret
  | _, [] => .done (.ok .none)
  | i, .housekeeping :: sts => .cmd (.settle (DB.updateChanged (fault i))) fun e =>
      match e with
      | some e => failCode e
      | none => stepsCode corpus positions fault (i + 1) sts
  | i, .sql f :: sts =>
    match fault i with
    | some e => failCode e
    | none => .exec (fun db => (f db).map (fun d => (d, Ret.none))) fun r =>
        match r with
        | .ok _ => stepsCode corpus positions fault (i + 1) sts
        | .error e => failCode e
  | i, .await bs :: sts =>
    match fault i with
    | some e => failCode e
    | none =>
      match awaitErr corpus positions bs with
      | some e => failCode e
      | none => stepsCode corpus positions fault (i + 1) sts
  | i, .nop :: sts =>
    match fault i with
    | some e => failCode e
    | none => stepsCode corpus positions fault (i + 1) sts
  | i, .begin :: sts =>
    match fault i with
    | some e => failCode e
    | none => .cmd .begin fun e =>
        match e with
        | some e => failCode e
        | none => stepsCode corpus positions fault (i + 1) sts
  | i, .commit :: sts =>
    match fault i with
    | some e => failCode e
    | none => .cmd .commit fun e =>
        match e with
        | some e => failCode e
        | none => stepsCode corpus positions fault (i + 1) sts

/-- `Index.index` (index.py:301-556) as commands. -/
def indexCode (corpus : Corpus) (cfg : IndexCfg) (s : Schedule) : Code DB Ret :=
  .cmd .begin fun e =>
    match e with
    | some _ => .done (.error .indexing)
    | none => stepsCode corpus cfg.positions s.fault 0 (indexPhase1 corpus cfg s ++ indexPhase2)

/-! ## The world -/

/-- One thread (or process): its connection, the code still to run, what it is doing (`label`, for the record), and for
the record also: how many contents had been committed when its call started, the number of the content its
transaction started from, and code and connection at that moment. -/
structure Thread (σ V ι : Type) where
  conn : Conn σ
  code : Code σ V
  label : ι
  began : Nat
  base : Nat
  home : Code σ V × Conn σ

/-- A finished transaction. -/
structure Entry (σ V ι : Type) where
  thread : Nat
  label : ι
  began : Nat
  base : Nat
  home : Code σ V × Conn σ
  code : Code σ V
  conn : Conn σ
  ended : Nat
  published : Bool

/-- The state of the file and of all threads.  `version 0, ..., version count` are the contents committed so far; the
last one is the current content.  `lock` is the holder of the write lock.  `log` lists the finished transactions,
the latest first. -/
structure World (σ V ι : Type) where
  version : Nat → σ
  count : Nat
  lock : Option Nat
  threads : Nat → Thread σ V ι
  log : List (Entry σ V ι)

variable {ι : Type}

/-- The current content. -/
def World.disk (w : World σ V ι) : σ := w.version w.count

/-- A connection outside transactions, about to run a command: it will see the current content. -/
def Thread.look (w : World σ V ι) (t : Thread σ V ι) : Thread σ V ι :=
  if t.conn.inTxn then t
  else
    let c : Conn σ := { t.conn with committed := w.disk, work := w.disk }
    { t with conn := c, base := w.count, home := (t.code, c) }

/-- Put a thread back. -/
def World.set (w : World σ V ι) (i : Nat) (t : Thread σ V ι) : World σ V ι :=
  { w with threads := Function.update w.threads i t }

/-- What the rest of the world sees of a thread's command.  `held`: the thread holds the write lock; `pub`: if the
transaction is over, it left a new content. -/
def World.after (w : World σ V ι) (i : Nat) (t : Thread σ V ι) (held pub : Bool) : World σ V ι :=
  if t.conn.inTxn then { w.set i t with lock := if held then some i else w.lock }
  else
    let entry : Entry σ V ι := ⟨i, t.label, t.began, t.base, t.home, t.code, t.conn, w.count, pub⟩
    let lock := if held then none else w.lock
    if pub then
      { w.set i t with
        version := Function.update w.version (w.count + 1) t.conn.committed
        count := w.count + 1
        lock := lock
        log := entry :: w.log }
    else { w.set i t with lock := lock, log := entry :: w.log }

/-- One step of the world.  `Allowed l p`: a thread may start code `p` under the label `l`. -/
inductive Step (Allowed : ι → Code σ V → Prop) : World σ V ι → World σ V ι → Prop where
  /-- A thread that is not doing anything starts a call. -/
  | start (w : World σ V ι) (i : Nat) (l : ι) (p : Code σ V) (hp : Allowed l p) (r : Except Err V)
      (hr : (w.threads i).code = .done r) (ht : (w.threads i).conn.inTxn = false) :
      Step Allowed w (w.set i { w.threads i with code := p, label := l, began := w.count })
  /-- A thread runs a command that does not write, without holding the lock. -/
  | read (w : World σ V ι) (i : Nat) (p : Code σ V) (c : Conn σ) (hl : w.lock ≠ some i)
      (hq : ((w.threads i).look w).code.Quiet ((w.threads i).look w).conn)
      (hn : ((w.threads i).look w).code.next ((w.threads i).look w).conn = some (p, c)) :
      Step Allowed w (w.after i { (w.threads i).look w with code := p, conn := c } false false)
  /-- A thread runs a command holding the lock, or acquiring it: nobody has it and nothing was committed since the
  start of the transaction.  If the transaction ends with the content it started from (after a rollback, say), that may
  or may not count as a new content. -/
  | write (w : World σ V ι) (i : Nat) (p : Code σ V) (c : Conn σ) (pub : Bool)
      (hl : w.lock = some i ∨ (w.lock = none ∧ ((w.threads i).look w).base = w.count))
      (hn : ((w.threads i).look w).code.next ((w.threads i).look w).conn = some (p, c))
      (hp : pub = false → c.inTxn = false → c.committed = w.disk) :
      Step Allowed w (w.after i { (w.threads i).look w with code := p, conn := c } true pub)
  /-- A thread closes its connection, or its process dies: the open transaction is gone.  A new connection may later
  take its place. -/
  | stop (w : World σ V ι) (i : Nat) (r : Except Err V) :
      Step Allowed w
        { w.set i { w.threads i with conn := Conn.fresh w.disk, code := .done r } with
          lock := if w.lock = some i then none else w.lock }

/-- The world when nothing has happened yet: the file has content `s`, no thread is doing anything. -/
def World.initial (s : σ) (l : ι) (r : Except Err V) : World σ V ι :=
  { version := fun _ => s, count := 0, lock := none, log := [],
    threads := fun _ => ⟨Conn.fresh s, .done r, l, 0, 0, (.done r, Conn.fresh s)⟩ }

/-- A world that can be reached. -/
inductive Reachable (Allowed : ι → Code σ V → Prop) (s : σ) : World σ V ι → Prop where
  | init (l : ι) (r : Except Err V) : Reachable Allowed s (World.initial s l r)
  | step {w w' : World σ V ι} (h : Reachable Allowed s w) (hs : Step Allowed w w') : Reachable Allowed s w'

end Hyperreal.Concurrent
