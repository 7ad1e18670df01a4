import Verif.Model.ExecuteLocal

/-! # Specification of process actions -/

namespace Verif

/-- The start and exit events of processes `k`, `k + 1`, …: each process starts, exits, and only then the
next one starts; the last one may still be running. -/
inductive Lifecycles : Nat → List ProcEv → Prop
  | nil (k : Nat) : Lifecycles k []
  | running (k : Nat) : Lifecycles k [.started k]
  | exited (k : Nat) (code : Int) (rest : List ProcEv) : Lifecycles (k + 1) rest →
      Lifecycles k (.started k :: .exited k code :: rest)

/-- Events about starts and exits. -/
def ProcEv.isLife : ProcEv → Bool
  | .started _ => true
  | .exited _ _ => true
  | _ => false

/-- How many processes the action has started. -/
def ProcAct.started (a : ProcAct) : Nat := a.procs.length

/-- The state of a process action after these labels, from before it was executed. -/
def ProcAct.Reaches (c : ProcCfg) (ls : List ProcLabel) (a : ProcAct) : Prop :=
  runSteps (ProcAct.step c) {} ls = some a

end Verif
