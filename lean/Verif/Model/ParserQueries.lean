import Verif.Model.Frontend
import Verif.Model.Expose

/-!
# Asking for front ends

launch/launch/frontend/parser.py:138-215: the class methods of `Parser` that say which front ends are installed and which files they are for.  An entry
point is its name and its class, or `none` if loading it raises; all of these methods load the front ends first (parser.py:141, 153, 166, 187, 200, 210).

Not modelled: the warnings that two of the methods are deprecated.
-/

namespace Verif

variable {α : Type}

/-- `Parser.get_available_extensions`, parser.py:138-143. -/
def availableExtensions (es : List (String × Option (Impl α))) : List String := (loadParsers es).keys

/-- `Parser.is_extension_valid`, parser.py:145-155. -/
def isExtensionValid (es : List (String × Option (Impl α))) (extension : String) : Bool := (loadParsers es).has extension

/-- `Parser.get_parser_from_extension`, parser.py:157-171. -/
def parserFromExtension (es : List (String × Option (Impl α))) (extension : String) : Res (Impl α) :=
  match (loadParsers es).get? extension with
  | some p => .ok p
  | none => .error .runtimeError

/-- `frontend_parsers.values()`. -/
def installedParsers (es : List (String × Option (Impl α))) : List (Impl α) := (loadParsers es).map (·.2)

/-- `Parser.is_filename_valid`, parser.py:181-192. -/
def isFilenameValid (es : List (String × Option (Impl α))) (filename : String) : Bool := (installedParsers es).any (·.mayParse filename)

/-- `Parser.get_parsers_from_filename`, parser.py:194-205. -/
def parsersFromFilename (es : List (String × Option (Impl α))) (filename : String) : List (Impl α) :=
  (installedParsers es).filter (·.mayParse filename)

/-- A `set` of the items, as a list without repetitions; its order has no meaning. -/
def toSet : List String → List String
  | [] => []
  | x :: xs => if x ∈ xs then toSet xs else x :: toSet xs

/-- `Parser.get_file_extensions_from_parsers`, parser.py:207-215. -/
def knownExtensions (es : List (String × Option (Impl α))) : List String := toSet ((installedParsers es).flatMap (·.exts))

end Verif
