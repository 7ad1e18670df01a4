/-!
# ReadyAggregator

launch_testing/launch_testing/ready_aggregator.py:18-46.  Calls of `ready_fn` may be made by any number of threads at the same time.
-/

namespace Verif

/-- Where one call of `ready_fn` is, ready_aggregator.py:33-46. -/
inductive ReadyPc where
  /-- not called yet, or waiting for the lock (line 40) -/
  | idle
  /-- has the lock (line 41) -/
  | inside
  /-- has decremented the count (line 42) -/
  | counted
  /-- has read the count into `local_count`, still has the lock -/
  | read (c : Int)
  /-- has released the lock (line 44) -/
  | out (c : Int)
  /-- has returned -/
  | done
  deriving DecidableEq, Repr

/-- A ReadyAggregator and the calls of its `ready_fn`, numbered arbitrarily. -/
structure Ready where
  count : Int
  lock : Option Nat := none
  pcs : Nat → ReadyPc := fun _ => .idle
  /-- the calls that called the parent's function, in order -/
  fired : List Nat := []
  /-- bookkeeping, not part of the code: the calls in the order in which they decremented the count -/
  order : List Nat := []

namespace Ready

/-- `ReadyAggregator.__init__`, ready_aggregator.py:21-31. -/
def init (n : Nat) : Ready := { count := n }

def setPc (s : Ready) (i : Nat) (p : ReadyPc) : Ready := { s with pcs := fun j => if j = i then p else s.pcs j }

/-- The next step of a call, ready_aggregator.py:33-46; `none` if it has to wait for the lock or has returned. -/
def step (s : Ready) (i : Nat) : Option Ready :=
  match s.pcs i with
  | .idle => if s.lock = none then some { s.setPc i .inside with lock := some i } else none
  | .inside => some { s.setPc i .counted with count := s.count - 1, order := s.order ++ [i] }
  | .counted => some (s.setPc i (.read s.count))
  | .read c => some { s.setPc i (.out c) with lock := none }
  | .out c => some { s.setPc i .done with fired := if c = 0 then s.fired ++ [i] else s.fired }
  | .done => none

/-- A schedule: which call makes the next step. -/
def run (s : Ready) : List Nat → Option Ready
  | [] => some s
  | i :: is =>
    match s.step i with
    | none => none
    | some s' => run s' is

end Ready

end Verif
