import Verif.Model.Basic
/-!
Models of `esl/data/format/delimiter_separated_values.hpp` and `esl/data/representation.hpp`.

A text is a list of characters. What `operator<<` prints for an element that is not a container is given as a text.
-/
namespace Esl.Text

abbrev Str := List Char

/-! ## Delimiter-separated values -/

/-- `delimiter_separated_values.hpp:62-67`: the loop over the characters. -/
def escapeLoop (quote escape : Char) : Str → Str
  | [] => []
  | c :: cs => (if quote = c ∨ escape = c then [escape] else []) ++ [c] ++ escapeLoop quote escape cs

/-- `delimiter_separated_values.hpp:44-73` `render`. -/
def render (delimiter quote escape : Char) (text : Str) : Str :=
  let quote_ := if delimiter ∈ text then true else if escape ∈ text then true else false
  (if quote_ then [quote] else []) ++ escapeLoop quote escape text ++ (if quote_ then [quote] else [])

/-- `delimiter_separated_values.hpp:76-112` `extract_element`, as called by `render_row`: a first element and the others. The lambda at 123 takes its arguments by value and passes them on as lvalues that are
not constant, so that the function at 104 is chosen while there are several elements (the one at 95 takes only rvalues), and the one at 76 with `element_t_ = std::string` for the last one (the specialization at
87 is for `element_t_ = const std::string &`, which is never deduced). So strings are printed as they are, like all other elements. -/
def extractElement : Str → List Str → Str
  | v, [] => v
  | first, second :: rest => first ++ [','] ++ extractElement second rest

/-- A row: a tuple, which has at least one element. -/
structure Row where
  first : Str
  rest : List Str
  deriving DecidableEq

/-- `delimiter_separated_values.hpp:119-128` `render_row`. -/
def renderRow (r : Row) : Str := extractElement r.first r.rest ++ ['\n']

/-- `delimiter_separated_values.hpp:135-142` `render_records`. -/
def renderRecords : List Row → Str
  | [] => []
  | r :: rs => renderRow r ++ renderRecords rs

/-! ## Printed containers -/

/-- The loops `for(auto i = b; i != end(); ++i) { stream << ", " << *i; }`. -/
def following (separator : Str) : List Str → Str
  | [] => []
  | x :: xs => separator ++ x ++ following separator xs

/-- `representation.hpp:213-226`, a vector. -/
def printVector : List Str → Str
  | [] => ['['] ++ [']']
  | x :: xs => ['['] ++ x ++ following [',', ' '] xs ++ [']']

/-- `representation.hpp:300-314`, an array: the loop over the indices from one, with `k` of them left. -/
def arrayLoop (a : List Str) (i : Nat) : Nat → Outcome Str
  | 0 => .ok []
  | k + 1 =>
    match a[i]? with
    | none => .ub
    | some x => arrayLoop a (i + 1) k >>= fun s => .ok ([',', ' '] ++ x ++ s)

/-- `representation.hpp:300-314`, an array. -/
def printArray (a : List Str) : Outcome Str :=
  match a with
  | [] => .ok (['['] ++ [']'])
  | x :: _ => arrayLoop a 1 (a.length - 1) >>= fun s => .ok (['['] ++ x ++ s ++ [']'])

/-- `representation.hpp:174-184` `extract_element`. -/
def tupleElements : Str → List Str → Str
  | v, [] => v
  | first, second :: rest => first ++ [',', ' '] ++ tupleElements second rest

/-- `representation.hpp:191-202`, a tuple; without elements it does not compile. -/
def printTuple (first : Str) (rest : List Str) : Str := ['('] ++ tupleElements first rest ++ [')']

/-- `representation.hpp:53-70`, 80-97 and 129-147: maps, whose elements are visited in the order of iteration. -/
def printMap : List (Str × Str) → Str
  | [] => ['{'] ++ ['}']
  | b :: xs => ['{'] ++ b.1 ++ [':', ' '] ++ b.2 ++ following [',', ' '] (xs.map fun i => i.1 ++ [':', ' '] ++ i.2) ++ ['}']

/-- `representation.hpp:240-243`: the loop of the queue, whose size shrinks while `c` grows. -/
def queueLoop (c : Nat) : List Str → Str
  | [] => []
  | x :: queue => if c < (x :: queue).length then [',', ' '] ++ x ++ queueLoop (c + 1) queue else []

/-- `representation.hpp:233-247`, a queue. -/
def printQueue : List Str → Str
  | [] => ['['] ++ [']']
  | x :: queue => ['['] ++ x ++ queueLoop 0 queue ++ [']']

end Esl.Text
