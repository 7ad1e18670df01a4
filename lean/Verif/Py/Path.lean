import Verif.Model.Subst

/-!
# Paths

`os.path.normpath` and `os.path.expanduser` on POSIX (CPython posixpath).  Paths are lists of characters here.
-/

namespace Verif

/-- `path.split('/')`: the components, there is at least one. -/
def slashSplit : List Char → List (List Char)
  | [] => [[]]
  | c :: cs =>
    if c = '/' then [] :: slashSplit cs
    else
      match slashSplit cs with
      | [] => [[c]]
      | p :: ps => (c :: p) :: ps

/-- `'/'.join(comps)`. -/
def slashJoin : List (List Char) → List Char
  | [] => []
  | [p] => p
  | p :: ps => p ++ '/' :: slashJoin ps

/-- The loop of `normpath` over the components; `acc` is `new_comps`, last component first. -/
def normComps (rooted : Bool) : List (List Char) → List (List Char) → List (List Char)
  | acc, [] => acc.reverse
  | acc, p :: ps =>
    if p = [] ∨ p = ['.'] then normComps rooted acc ps
    else if p ≠ ['.', '.'] ∨ (rooted = false ∧ acc = []) ∨ acc.head? = some ['.', '.'] then normComps rooted (p :: acc) ps
    else normComps rooted acc.tail ps

/-- The slashes a normalized path starts with: two slashes are kept, three or more are one. -/
def initialSlashes : List Char → List Char
  | '/' :: '/' :: '/' :: _ => ['/']
  | '/' :: '/' :: _ => ['/', '/']
  | '/' :: _ => ['/']
  | _ => []

/-- `os.path.normpath(path)`. -/
def normPath (path : List Char) : List Char :=
  let r := initialSlashes path ++ slashJoin (normComps (!(initialSlashes path).isEmpty) [] (slashSplit path))
  if r = [] then ['.'] else r

/-- `s.rstrip('/')`. -/
def rstripSlash (s : List Char) : List Char := (s.reverse.dropWhile (· = '/')).reverse

/-- `os.path.expanduser(path)`; `home name` is the home directory of a user of the system (`[]`: of the user running the program, `$HOME` if it is set). -/
def expandUser (home : List Char → Option (List Char)) : List Char → List Char
  | '~' :: rest =>
    let name := rest.takeWhile (· ≠ '/')
    match home name with
    | none => '~' :: rest
    | some h =>
      let r := rstripSlash h ++ rest.dropWhile (· ≠ '/')
      if r = [] then ['/'] else r
  | path => path

end Verif
