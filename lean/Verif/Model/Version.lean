import Verif.Model.Basic
/-!
The version of the library: the file `esl/version`, which is included by `version.hpp`, the function `version` (`version.cpp:33-40`), and `read_version` in `esl/__init__.py:39-55` and `setup.py:21-37`, which read the file when the package
is imported and when it is built.
-/
namespace Esl.Version

/-- `constexpr unsigned int `. -/
def declaration : List Char := ['c', 'o', 'n', 's', 't', 'e', 'x', 'p', 'r', ' ', 'u', 'n', 's', 'i', 'g', 'n', 'e', 'd', ' ', 'i', 'n', 't', ' ']

/-- `ESL_VERSION_`. -/
def marker : List Char := ['E', 'S', 'L', '_', 'V', 'E', 'R', 'S', 'I', 'O', 'N', '_']

/-- A line of the file `esl/version`: a definition, or a comment. -/
inductive Line where
  | definition (name numeral : List Char)
  | comment (text : List Char)

/-- `esl/version`, the text of a line. The file in the repository aligns the numbers with spaces, which are left out. -/
def Line.text : Line → List Char
  | .definition name numeral => declaration ++ name ++ [' ', '=', ' '] ++ numeral ++ [';']
  | .comment t => ['/', '/', ' '] ++ t

def major : List Char := ['E', 'S', 'L', '_', 'V', 'E', 'R', 'S', 'I', 'O', 'N', '_', 'M', 'A', 'J', 'O', 'R']
def minor : List Char := ['E', 'S', 'L', '_', 'V', 'E', 'R', 'S', 'I', 'O', 'N', '_', 'M', 'I', 'N', 'O', 'R']
def revision : List Char := ['E', 'S', 'L', '_', 'V', 'E', 'R', 'S', 'I', 'O', 'N', '_', 'R', 'E', 'V', 'I', 'S', 'I', 'O', 'N']

/-- The text of the file; there is no newline behind the last line. -/
def fileText : List Line → List Char
  | [] => []
  | [l] => l.text
  | l :: m :: ls => l.text ++ '\n' :: fileText (m :: ls)

/-! ## In C++ -/

/-- An integer literal of digits: octal if it starts with zero; octal literals with other digits do not compile. The value is that of an `unsigned int`. -/
def literal (numeral : List Char) : Outcome Nat :=
  match numeral with
  | [] => .throws
  | [c] => if c.isDigit then .ok (Nat.ofDigitChars 10 [c] 0) else .throws
  | '0' :: ds => if ds.all fun c => decide ('0' ≤ c ∧ c ≤ '7') then .ok (Nat.ofDigitChars 8 ds 0 % 2 ^ 32) else .throws
  | ds => if ds.all (·.isDigit) then .ok (Nat.ofDigitChars 10 ds 0 % 2 ^ 32) else .throws

/-- The value of a constant; without a definition the library does not compile. -/
def constant (file : List Line) (name : List Char) : Outcome Nat :=
  match file with
  | [] => .throws
  | .comment _ :: ls => constant ls name
  | .definition n numeral :: ls => if n = name then literal numeral else constant ls name

/-- `version.cpp:33-40` `version`. -/
def version (file : List Line) : Outcome (List Char) :=
  constant file major >>= fun a => constant file minor >>= fun b => constant file revision >>= fun c =>
    .ok (Nat.toDigits 10 a ++ '.' :: (Nat.toDigits 10 b ++ '.' :: Nat.toDigits 10 c))

/-! ## In Python -/

/-- `str.split` for one character. -/
def split (c : Char) : List Char → List (List Char)
  | [] => [[]]
  | x :: xs =>
    if x = c then [] :: split c xs
    else match split c xs with
      | [] => [[x]]
      | l :: ls => (x :: l) :: ls

/-- `str.strip`. -/
def strip (s : List Char) : List Char := ((s.dropWhile (·.isWhitespace)).reverse.dropWhile (·.isWhitespace)).reverse

/-- `int(s)`. Signs and underscores, which Python accepts too, are left out. -/
def int (s : List Char) : Outcome Nat := if s ≠ [] ∧ s.all (·.isDigit) then .ok (Nat.ofDigitChars 10 s 0) else .throws

/-- `"ESL_VERSION_" in line`. -/
def mentions (line : List Char) : Bool := marker.isPrefixOf line || match line with | [] => false | _ :: l => mentions l

/-- `esl/__init__.py:50`: `int(line.split(";")[0].split('=')[1].strip())`. -/
def number (line : List Char) : Outcome Nat :=
  match (split ';' line).head? with
  | none => .throws
  | some l => match (split '=' l)[1]? with
    | none => .throws
    | some n => int (strip n)

/-- `esl/__init__.py:47-53`. -/
def numbers : List (List Char) → Outcome (List Nat)
  | [] => .ok []
  | l :: ls => if mentions l then number l >>= fun n => numbers ls >>= fun ns => .ok (n :: ns) else numbers ls

/-- `esl/__init__.py:39-55` `read_version`; `setup.py:21-37` is the same function. Exceptions become `ValueError`. -/
def readVersion (text : List Char) : Outcome (List Nat) := numbers (split '\n' text)

/-- `setup.py:76`: `'.'.join(map(str, version))`. -/
def join : List Nat → List Char
  | [] => []
  | [n] => Nat.toDigits 10 n
  | n :: m :: ns => Nat.toDigits 10 n ++ '.' :: join (m :: ns)

/-- The version of the package. -/
def packageVersion (text : List Char) : Outcome (List Char) := readVersion text >>= fun v => .ok (join v)

end Esl.Version
