import Verif.Model.Frontend

/-!
# Versions of pytest

launch_testing/launch_testing/pytest/hooks.py: how the plug-in finds out the version of pytest, and which of the interfaces of pytest it uses.
What the interfaces do is part of pytest.
-/

namespace Verif

/-- Comparison `a >= b` of tuples of numbers in Python. -/
def tupleGe : List Int → List Int → Bool
  | _, [] => true
  | [], _ :: _ => false
  | x :: xs, y :: ys => if x = y then tupleGe xs ys else decide (y < x)

/-- `_pytest_version_ge`, hooks.py:27-31; `version` is `pytest.__version__`. -/
def pytestVersionGe (O : Oracle) (version : String) (major : Nat) (minor : Nat := 0) (patch : Nat := 0) : Res Bool :=
  match mapRes (fun v => match O.parseInt (String.ofList v) with
      | some i => Except.ok i
      | none => .error .valueError) (splitSep ['.'] 0 [] version.toList) with
  | .error e => .error e
  | .ok [] => .error .assertionError
  | .ok l => .ok (tupleGe l [major, minor, patch])

/-- How a test file is imported: `import_path` with or without the argument `consider_namespace_packages`, or `pyimport` of the old path class. -/
inductive ImportCall where
  | namespacePackages
  | importPath
  | pyimport
  deriving DecidableEq, Repr

/-- The import in `LaunchTestModule.collect` and in `find_launch_test_entrypoint`, hooks.py:159-168, 177-187. -/
def importCall (O : Oracle) (version : String) : Res ImportCall :=
  match pytestVersionGe O version 8 1 0 with
  | .error e => .error e
  | .ok true => .ok .namespacePackages
  | .ok false =>
    match pytestVersionGe O version 7 0 0 with
    | .error e => .error e
    | .ok true => .ok .importPath
    | .ok false => .ok .pyimport

/-- How collectors are made: `from_parent` with `path`, `from_parent` with `fspath`, or the constructor. -/
inductive MakeCall where
  | path
  | fspath
  | constructor
  deriving DecidableEq, Repr

/-- The end of `pytest_pycollect_makemodule`, hooks.py:202-216: modules and packages that are no launch tests. -/
def makeCall (O : Oracle) (version : String) : Res MakeCall :=
  match pytestVersionGe O version 7 with
  | .error e => .error e
  | .ok true => .ok .path
  | .ok false =>
    match pytestVersionGe O version 5 4 with
    | .error e => .error e
    | .ok true => .ok .fspath
    | .ok false => .ok .constructor

end Verif
