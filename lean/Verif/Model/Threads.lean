import Verif.Model.File
/-
Several threads calling methods of one `File` object (`/repo/src/hdf5storage/__init__.py:1643, 1781-2237`): what is done before the lock is taken, what is done
under it, in which steps, and what is done without it.

Simplifications: `threading.Lock` works; single attribute accesses are atomic; under the lock the items of `writes` and `reads` are single steps (the theorem about
locking, `linearizable_of`, holds for any finer division).  `__iter__` returns an iterator, which is consumed later without the lock; the call here is
`list(f)`, both together.  h5py's iterator looks up all names when the first one is asked for, which is one step; on a File closed meanwhile the class of the exception is left
open (`.other`).
-/
namespace HS

/-- Something done in steps, between any two of which other threads may run: each step changes the shared state, the rest depends on the state the step saw.  In the end there is
a result, or something is returned (`lazy`) that gives the result when it is evaluated. -/
inductive Prog
  | ret (r : Res Out)
  | lazy (f : FileS → Res Out)
  | step (f : FileS → FileS) (k : FileS → Prog)

/-- The steps done without interruption. -/
def runProg : Prog → FileS → Res Out × FileS
  | .ret r, F => (r, F)
  | .lazy f, F => (f F, F)
  | .step f k, F => runProg (k F) (f F)

/-- A method call up to the lock: it returns or raises before, it reads the shared state without the lock, or it does something under the lock. -/
inductive Call
  | now (r : Res Out)
  | look (f : FileS → Res Out)
  | locked (p : Prog)

/-- `if self._file is None: raise OSError` and then the rest (`__init__.py:1803-1804`, `1917-1918`, `2023-2024`, `2056-2057`, `2092-2093`, `2235-2236`). -/
def ifOpen (p : Prog) : Prog := .step id fun F => if F.isOpen then p else .ret (.error .osError)

/-- The loop of `writes` item by item (`__init__.py:1921-1927`). -/
def writeProg (x : Ctx) (n : Nat) : List ((Str × Str) × Val) → Prog
  | [] => .ret (.ok .unit)
  | (gt, v) :: r => .step (fun F => (runFile F (writeOne x n gt v)).2) fun F =>
    match (runFile F (writeOne x n gt v)).1 with
    | .ok _ => writeProg x n r
    | .error e => .ret (.error e)

/-- The loop of `reads` item by item (`__init__.py:2026-2035`); `acc` is `datas`, `fin` what is done with it. -/
def readProg (x : Ctx) (n : Nat) (fin : List Val → Res Out) : List (Str × Str) → List Val → Prog
  | [], acc => .ret (fin acc)
  | gt :: r, acc => .step id fun F =>
    match readOne x n F.st.heap gt with
    | .ok v => readProg x n fin r (acc ++ [v])
    | .error e => .ret (.error e)

/-- `File.writes(mdict)` (`__init__.py:1844-1927`); `w` is `self._writable`.  On a file opened read-only the outcome of the loop is that of `runFile`, taken as one
step. -/
def writesCall (x : Ctx) (n : Nat) (w : Bool) (mdict : List (PathArg × Val)) : Call :=
  if !w then .now (.error .osError)
  else match checkItems x.o.refsPath mdict with
    | .error e => .now (.error e)
    | .ok tw => .locked (ifOpen (.step id fun F =>
        if F.ro then .step (fun F => (runFile F (writeMany x n tw)).2) fun F => .ret (outOf (fun _ => .unit) (runFile F (writeMany x n tw)).1)
        else writeProg x n tw))

/-- `File.reads(paths)` (`__init__.py:1964-2037`); `fin` makes the result. -/
def readsCall (x : Ctx) (n : Nat) (fin : List Val → Res Out) (paths : List PathArg) : Call :=
  match checkPaths x.o.refsPath paths with
  | .error e => .now (.error e)
  | .ok tr => .locked (ifOpen (readProg x n fin tr []))

/-- The method calls (`__init__.py:1781-2237`). -/
def callOf (x : Ctx) (n : Nat) (w : Bool) : Op → Call
  | .writes m => writesCall x n w m
  | .write p v => writesCall x n w [(p, v)]
  | .reads ps => readsCall x n (fun l => .ok (.vals l)) ps
  | .read p => readsCall x n (fun l => outOf .val (pyHead l)) [p]
  | .len => .locked (ifOpen (.step id fun F => .ret (outOf .num (fileLen x F))))
  | .contains p =>
    match processPath p with
    | .error .typeError => .now (.ok (.bool false))
    | .error e => .now (.error e)
    | .ok gt => .locked (ifOpen (.step id fun F => .ret (outOf .bool (do h5Contains F.st.heap (← pJoin [gt.1, gt.2])))))
  | .iter => .locked (ifOpen (.lazy fun F => if F.isOpen then outOf .names (fileIter x F) else .error .other))
  | .del p =>
    if !w then .now (.error .osError)
    else match processPath p with
      | .error e => .now (.error e)
      | .ok gt => .locked (ifOpen (
        match pJoin [gt.1, gt.2] with
        | .error e => .ret (.error e)
        | .ok j => .step (fun F => (runFile F (unlinkPath 0 (commonComps j))).2) fun F => .ret (outOf (fun _ => .unit) (runFile F (unlinkPath 0 (commonComps j))).1)))
  | .close => .locked (.step (fun F => { F with isOpen := false }) fun _ => .ret (.ok .unit))
  | .flush => .locked (ifOpen (.ret (.ok .unit)))
  | .closed => .look fun F => .ok (.bool (fileClosed F))

/-- What a thread is doing: nothing; about to execute a call (with its number); something under the lock; it has the result and is about to return. -/
inductive TState
  | idle
  | ready (id : Nat) (c : Call)
  | inside (id : Nat) (p : Prog)
  | done (id : Nat) (r : Res Out)

/-- What can be observed from outside: calls (numbered) and returns. -/
inductive Event
  | call (id t : Nat) (op : Op)
  | ret (id : Nat) (r : Res Out)

/-- The state of everything: who holds the lock, the `File` with its file, what the threads are doing, how many calls there were and what was observed so far. -/
structure Conf where
  lock : Option Nat
  file : FileS
  th : Nat → TState
  next : Nat
  hist : List Event

/-- Change of one thread's state. -/
def setTh (f : Nat → TState) (t : Nat) (s : TState) : Nat → TState := fun u => if u = t then s else f u

/-- One step of one thread.  `impl` says how methods are executed. -/
inductive TStep (impl : Op → Call) (ops : Op → Prop) : Conf → Conf → Prop
  | invoke (c : Conf) (t : Nat) (op : Op) : c.th t = .idle → ops op →
      TStep impl ops c { c with th := setTh c.th t (.ready c.next (impl op)), next := c.next + 1, hist := c.hist ++ [.call c.next t op] }
  | now (c : Conf) (t id : Nat) (r : Res Out) : c.th t = .ready id (.now r) → TStep impl ops c { c with th := setTh c.th t (.done id r) }
  | look (c : Conf) (t id : Nat) (f : FileS → Res Out) : c.th t = .ready id (.look f) → TStep impl ops c { c with th := setTh c.th t (.done id (f c.file)) }
  | acquire (c : Conf) (t id : Nat) (p : Prog) : c.th t = .ready id (.locked p) → c.lock = none →
      TStep impl ops c { c with lock := some t, th := setTh c.th t (.inside id p) }
  | run (c : Conf) (t id : Nat) (f : FileS → FileS) (k : FileS → Prog) : c.th t = .inside id (.step f k) →
      TStep impl ops c { c with file := f c.file, th := setTh c.th t (.inside id (k c.file)) }
  | release (c : Conf) (t id : Nat) (r : Res Out) : c.th t = .inside id (.ret r) → TStep impl ops c { c with lock := none, th := setTh c.th t (.done id r) }
  | leave (c : Conf) (t id : Nat) (f : FileS → Res Out) : c.th t = .inside id (.lazy f) →
      TStep impl ops c { c with lock := none, th := setTh c.th t (.ready id (.look f)) }
  | ret (c : Conf) (t id : Nat) (r : Res Out) : c.th t = .done id r → TStep impl ops c { c with th := setTh c.th t .idle, hist := c.hist ++ [.ret id r] }

/-- Any number of steps. -/
inductive TRun (impl : Op → Call) (ops : Op → Prop) : Conf → Conf → Prop
  | refl (c : Conf) : TRun impl ops c c
  | step {c d e : Conf} : TRun impl ops c d → TStep impl ops d e → TRun impl ops c e

/-- The start: no thread is doing anything. -/
def Conf.init (F : FileS) : Conf := ⟨none, F, fun _ => .idle, 0, []⟩

end HS
