import Verif.Model.Signal

/-!
# What is expected of signal managers

Specifications over histories alone: nested use, a process without managers, and the signals that arrived since a manager was entered.
-/

namespace Verif

/-- Managers are used like nested `with` statements: the managers entered and not left yet, the latest first; `none` if a manager that
is in use is entered, or another one than the latest is left. -/
def nested : List Nat → List SigLabel → Option (List Nat)
  | st, [] => some st
  | st, .enter m :: ls => if m ∈ st then none else nested (m :: st) ls
  | st, .leave m :: ls => if st.head? = some m then nested st.tail ls else none
  | st, _ :: ls => nested st ls

/-- What calls of `set_wakeup_fd` do in a process without managers: the file descriptor, and the results. -/
def plainFd : Fd × List Fd → List SigLabel → Fd × List Fd
  | p, [] => p
  | (f, rs), .setFd .none :: ls => plainFd (.none, rs ++ [f]) ls
  | (f, rs), .setFd (some n) :: ls => plainFd (.ext n, rs ++ [f]) ls
  | p, _ :: ls => plainFd p ls

/-- The signals the process got. -/
def arrived : List SigLabel → List Nat
  | [] => []
  | .signal x :: ls => x :: arrived ls
  | _ :: ls => arrived ls

/-- The signals the process got since manager `m` was entered last (`acc` before this history). -/
def arrivedSince (m : Nat) : List Nat → List SigLabel → List Nat
  | acc, [] => acc
  | acc, .signal x :: ls => arrivedSince m (acc ++ [x]) ls
  | acc, .enter m' :: ls => arrivedSince m (if m' = m then [] else acc) ls
  | acc, _ :: ls => arrivedSince m acc ls

/-- The handler registered for a signal with a manager: the one of the last call of `handle`. -/
def registeredFor (m sig : Nat) : Option Nat → List SigLabel → Option Nat
  | acc, [] => acc
  | acc, .register m' sig' h :: ls => registeredFor m sig (if m' = m ∧ sig' = sig then h else acc) ls
  | acc, _ :: ls => registeredFor m sig acc ls

/-- Signals written to the sockets of these managers (the latest first) and not read yet, the oldest first. -/
def unread (s : SigSt) : List Nat → List Nat
  | [] => []
  | m :: st => unread s st ++ (s.mgr m).buf

/-- No data is dropped: a manager is left only when it has read everything, and handlers do not raise. -/
def Lossless (raises : Nat → Bool) : SigSt → List SigLabel → Prop
  | _, [] => True
  | s, l :: ls =>
    (match l with
      | .leave m => (s.mgr m).buf = []
      | .read m k => ∀ x ∈ (s.mgr m).buf.take k, ∀ h, (s.mgr m).handlers x = some h → raises h = false
      | _ => True) ∧ Lossless raises (s.step raises l) ls

/-- A process without active managers. -/
structure Idle (s : SigSt) : Prop where
  noManager : ∀ m, s.fd ≠ .mgr m
  override : s.override = none
  current : s.current = none
  prev : ∀ m, (s.mgr m).prev = .none
  buf : ∀ m, (s.mgr m).buf = []

end Verif
