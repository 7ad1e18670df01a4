/-!
# AsyncSafeSignalManager

launch/launch/utilities/signal_management.py on POSIX, in the main thread.

Managers are numbered.  File descriptors are abstract: none (-1), one of somebody else, or the writing socket of a manager, which is a
fresh one whenever the manager is entered.  Sockets have unbounded buffers (in reality a full one makes `os.write` raise
BlockingIOError and the data is dropped).

Not modelled: Windows, loops without `add_reader`, other threads (ValueError before anything is changed), the check
`signal.Signals(signum)` and that the handler is callable.
-/

namespace Verif

/-- A wakeup file descriptor. -/
inductive Fd where
  | none
  | ext (n : Nat)
  | mgr (m : Nat)
  deriving DecidableEq, Repr

/-- A manager, signal_management.py:77-91.  `buf`: what was written to its socket and not read yet; `handlers`: the registered handlers
by signal.  Ghost field: `seen`, the signals it has read since it was entered, with the handler called, if any. -/
structure SigMgr where
  parent : Option Nat := .none
  prev : Fd := .none
  buf : List Nat := []
  handlers : Nat → Option Nat := fun _ => .none
  seen : List (Nat × Option Nat) := []

/-- The process.  `fd`: the wakeup file descriptor of the process; `override`: the manager to which a replaced `signal.set_wakeup_fd`
belongs; `current`: the class variable `__current` (line 65).  Ghost fields: `out`, the signals
written to file descriptors of somebody else (or to none); `returned`, the results of the calls of
`signal.set_wakeup_fd` by somebody else; `failed`, the number of failed assertions. -/
structure SigSt where
  fd : Fd := .none
  override : Option Nat := .none
  current : Option Nat := .none
  mgr : Nat → SigMgr := fun _ => {}
  out : List (Fd × Nat) := []
  returned : List Fd := []
  failed : Nat := 0

/-- What can happen. -/
inductive SigLabel where
  /-- `__enter__` -/
  | enter (m : Nat)
  /-- `__exit__` -/
  | leave (m : Nat)
  /-- `handle` -/
  | register (m : Nat) (sig : Nat) (handler : Option Nat)
  /-- somebody else calls `signal.set_wakeup_fd` -/
  | setFd (n : Option Nat)
  /-- the process gets a signal -/
  | signal (sig : Nat)
  /-- the loop of manager `m` reads up to `k` bytes (4096 in the code) -/
  | read (m : Nat) (k : Nat)
  deriving DecidableEq, Repr

namespace SigSt

/-- Replace a manager. -/
def upd (s : SigSt) (m : Nat) (x : SigMgr) : SigSt := { s with mgr := fun i => if i = m then x else s.mgr i }

/-- Writing to a file descriptor. -/
def write (f : Fd) (data : List Nat) (s : SigSt) : SigSt :=
  match f with
  | .mgr m => s.upd m { s.mgr m with buf := (s.mgr m).buf ++ data }
  | _ => { s with out := s.out ++ data.map fun x => (f, x) }

/-- `__chain_wakeup_handle`, signal_management.py:184-199: the handle is replaced and the old one returned. -/
def chainHandle (m : Nat) (f : Fd) (s : SigSt) : SigSt × Fd :=
  (s.upd m { s.mgr m with prev := f }, (s.mgr m).prev)

/-- `__enter__`: `__install_signal_writers` and `__chain`, signal_management.py:93-114, 150-182. -/
def enter (m : Nat) (s : SigSt) : SigSt :=
  let s := s.upd m { s.mgr m with buf := [], seen := [] }
  let s := (chainHandle m s.fd { s with fd := Fd.mgr m }).1
  let s := s.upd m { s.mgr m with parent := s.current }
  { s with current := some m, override := match s.current with | .none => some m | some _ => s.override }

/-- `__exit__`: `__uninstall_signal_writers` and `__unchain`, signal_management.py:116-127, 159-162, 177-182; the sockets are closed. -/
def leave (m : Nat) (s : SigSt) : SigSt :=
  let own := s.fd
  let prev := (chainHandle m .none s).2
  let s := (chainHandle m .none s).1
  let s := { s with fd := prev, failed := s.failed + (if own = Fd.mgr m then 0 else 1) }
  let s := { s with current := (s.mgr m).parent,
                    override := match (s.mgr m).parent with | .none => .none | some _ => s.override }
  s.upd m { s.mgr m with buf := [] }

/-- `signal.set_wakeup_fd`, replaced or not, signal_management.py:168-175. -/
def setFd (f : Fd) (s : SigSt) : SigSt :=
  match s.override with
  | .none => { s with fd := f, returned := s.returned ++ [s.fd] }
  | some m =>
    { (chainHandle m f s).1 with returned := s.returned ++ [(chainHandle m f s).2] }

/-- The loop over the signals read, signal_management.py:207-210, for a manager's handlers; `raises` tells which handlers raise.
The flag tells whether the end is reached. -/
def callHandlers (raises : Nat → Bool) (hs : Nat → Option Nat) : List Nat → List (Nat × Option Nat) × Bool
  | [] => ([], true)
  | x :: xs =>
    match hs x with
    | .none => ((x, .none) :: (callHandlers raises hs xs).1, (callHandlers raises hs xs).2)
    | some h =>
      if raises h then ([(x, some h)], false)
      else ((x, some h) :: (callHandlers raises hs xs).1, (callHandlers raises hs xs).2)

/-- One pass of the loop of `__handle_signal`, signal_management.py:201-221. -/
def read (raises : Nat → Bool) (m k : Nat) (s : SigSt) : SigSt :=
  let data := (s.mgr m).buf.take k
  let r := callHandlers raises (s.mgr m).handlers data
  let s := s.upd m { s.mgr m with buf := (s.mgr m).buf.drop k, seen := (s.mgr m).seen ++ r.1 }
  if r.2 then write (s.mgr m).prev data s else s

/-- `handle`, signal_management.py:223-246. -/
def register (m sig : Nat) (h : Option Nat) (s : SigSt) : SigSt :=
  s.upd m { s.mgr m with handlers := fun x => if x = sig then h else (s.mgr m).handlers x }

/-- One step. -/
def step (raises : Nat → Bool) (s : SigSt) : SigLabel → SigSt
  | .enter m => s.enter m
  | .leave m => s.leave m
  | .register m sig h => s.register m sig h
  | .setFd n => s.setFd (match n with | .none => .none | some n => .ext n)
  | .signal sig => write s.fd [sig] s
  | .read m k => s.read raises m k

/-- A history. -/
def run (raises : Nat → Bool) (s : SigSt) (ls : List SigLabel) : SigSt := ls.foldl (step raises) s

end SigSt
end Verif
