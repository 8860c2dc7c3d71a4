import Verif.Model.Names
import Verif.Model.Log
/-!
The Python interface: `esl/python_module_esl.cpp`.

Modelled are the functions written there that convert between Python and C++ values, the views of containers, and the calls of overridden methods. Python itself, `boost::python`, and the bindings that
name a C++ member without code of their own are not modelled.
-/
namespace Esl.Python
open Esl.Log (Severity Streams)

/-! ## Views of containers -/

/-- Position of a new entry in `std::map`, `std::multimap` and `flat_multimap`: after all entries with keys that are not greater. -/
def insertSorted {α : Type} (k : Nat) (v : α) : List (Nat × α) → List (Nat × α)
  | [] => [(k, v)]
  | e :: l => if k < e.1 then (k, v) :: e :: l else e :: insertSorted k v l

/-- python_module_esl.cpp:206-215 and 1133-1141 `get_item`: `find` returns the first entry with the key; `KeyError` without. -/
def getItem {α : Type} (l : List (Nat × α)) (k : Nat) : Outcome α :=
  match l.find? fun e => e.1 == k with
  | some e => .ok e.2
  | none => .throws

/-- python_module_esl.cpp:217-221 `set_item` of maps: `container[i] = v`. -/
def mapSet {α : Type} (l : List (Nat × α)) (k : Nat) (v : α) : List (Nat × α) :=
  if l.any fun e => e.1 == k then l.map fun e => if e.1 = k then (e.1, v) else e else insertSorted k v l

/-- python_module_esl.cpp:1143-1150 `set_item` of multimaps. -/
def multimapSet {α : Type} (l : List (Nat × α)) (k : Nat) (v : α) : List (Nat × α) := l.map fun e => if e.1 = k then (e.1, v) else e

/-- python_module_esl.cpp:223-227 and 1152-1156 `delete_item`: `erase` of a key. -/
def deleteItem {α : Type} (l : List (Nat × α)) (k : Nat) : List (Nat × α) := l.filter fun e => !(e.1 == k)

/-- python_module_esl.cpp:235-239 and 1164-1168 `contains`. -/
def contains {α : Type} (l : List (Nat × α)) (k : Nat) : Bool := (l.find? fun e => e.1 == k).isSome

/-- python_module_esl.cpp:247-254 and 1195-1202 `keys`. -/
def keys {α : Type} (l : List (Nat × α)) : List Nat := l.map (·.1)

/-- python_module_esl.cpp:256-263 and 1204-1211 `values`. -/
def values {α : Type} (l : List (Nat × α)) : List α := l.map (·.2)

/-! ## Logging -/

/-- python_module_esl.cpp:523-548 `python_log_detailed`, with `main_log`. The line number is converted to `unsigned int`. `fresh` tells that `str(o)` is an object of its own and not, as for a string, the
object itself: `render_` points into it, and it is destroyed at the end of the line (530) that creates it. The default case cannot occur for the four severities. -/
def logDetailed (release : Bool) (s : Streams) (level : Severity) (fresh : Bool) (text file : List Char) (line : Nat) : Outcome Streams :=
  let as := fun l => if fresh then .ub else .ok (Log.logMessage release (Log.mainFilter release) s (.static l (some file) (line % 2 ^ 32) [text, ['\n']]))
  match level with
  | .trace => as .trace
  | .notice => as .notice
  | .warning => as .notice
  | .errorlog => as .notice

/-! ## Codes -/

/-- python_module_esl.cpp:564-567 `python_currency_code`. -/
def currencyCode (c : List Nat) : Outcome (List Nat) :=
  match c with
  | a :: b :: _ => .ok [a, b]
  | _ => .ub

/-- python_module_esl.cpp:978-981 `python_country_code`. -/
def countryCode (c : List Nat) : Outcome (List Nat) :=
  match c with
  | a :: b :: _ => .ok [a, b]
  | _ => .ub

/-- python_module_esl.cpp:675-678 `set_isin_code`. -/
def setIsinCode (i : Codes.Isin) (code : List Nat) : Outcome Codes.Isin := Codes.toArray 0 9 code >>= fun a => .ok { i with code := a }

/-- python_module_esl.cpp:669-672 `get_isin_code`. -/
def getIsinCode (i : Codes.Isin) : List Nat := i.code

/-- python_module_esl.cpp:1242-1247 `python_iso_17442_local`. -/
def entityLocal (l : Codes.Lei) : List Nat := l.loc

/-- python_module_esl.cpp:1249-1254 `python_iso_17442_code`. -/
def entityCode (l : Codes.Lei) : List Nat := l.code

/-- python_module_esl.cpp:1256-1262 `python_iso_17442_checksum`. -/
def entityChecksum (l : Codes.Lei) : List Nat := l.checksum

/-- What a class has under the name `__repr__` or `__str__`: a method, or a property, that is, an attribute whose value a function computes. -/
inductive Member (α : Type) where
  | method (f : α → Outcome (List Nat))
  | property (f : α → Outcome (List Nat))

/-- `repr(x)` and `str(x)`: Python takes the attribute from the class for the object, and calls it. For a property this computes its value, and calls that; a string cannot be called. -/
def printed {α : Type} (m : Member α) (x : α) : Outcome (List Nat) :=
  match m with
  | .method f => f x
  | .property f => f x >>= fun _ => .throws

/-- python_module_esl.cpp:1744-1745: `add_property`. -/
def currencyMember : Member (List Nat) := .property currencyCode

/-- python_module_esl.cpp:2370-2373: `def`, with `representation`, the two letters. -/
def countryMember : Member (List Nat) := .method fun c => .ok c

/-! ## Messages -/

/-- `inbox` and `outbox` of a communicator; messages are numbered. -/
structure Communicator where
  inbox : List (Nat × Nat)
  outbox : List Nat
deriving DecidableEq, Repr

/-- What Python code can do to send or deliver messages. -/
inductive Statement where
  | sendMessage (m : Nat)
  | outboxAppend (m : Nat)
  | inboxAssign (time m : Nat)
  | inboxDelete (time : Nat)
deriving DecidableEq, Repr

/-- The effect of a statement on the object that the attribute `inbox` or `outbox` evaluates to. `send_message` (python_module_esl.cpp:1221-1227) has no effect. -/
def onAttribute (c : Communicator) : Statement → Communicator
  | .sendMessage _ => c
  | .outboxAppend m => { c with outbox := c.outbox ++ [m] }
  | .inboxAssign t m => { c with inbox := multimapSet c.inbox t m }
  | .inboxDelete t => { c with inbox := deleteItem c.inbox t }

/-- For `communicator` the attributes are references (python_module_esl.cpp:2666-2669, `def_readwrite`); for `agent` they are copies (1618-1624, lambdas that return by value). -/
def execute (reference : Bool) (c : Communicator) (s : Statement) : Communicator := if reference then onAttribute c s else c

/-! ## Parameters -/

/-- The types of parameters that the Python interface can create (python_module_esl.cpp:3115-3125); numbers by their value, floating point numbers and prices by their representation. -/
inductive Parameter where
  | double (bits : Nat)
  | int64 (z : Int)
  | uint64 (n : Nat)
  | price (value : Int) (currency : List Nat)
deriving DecidableEq, Repr

/-- Python numbers. -/
inductive Number where
  | float (bits : Nat)
  | int (z : Int)
deriving DecidableEq, Repr

/-- python_module_esl.cpp:1469-1479 `pack<double>`. -/
def packDouble : Parameter → Option Number
  | .double b => some (.float b)
  | _ => none

/-- `pack<std::int64_t>`. -/
def packInt : Parameter → Option Number
  | .int64 z => some (.int z)
  | _ => none

/-- `pack<std::uint64_t>`. -/
def packUint : Parameter → Option Number
  | .uint64 n => some (.int n)
  | _ => none

/-- python_module_esl.cpp:1488-1512 `parametrization_get_helper`; names are numbered. -/
def getParameter (p : List (Nat × Parameter)) (name : Nat) : Outcome Number :=
  match p.lookup name with
  | none => .throws
  | some v =>
    match packDouble v with
    | some r => .ok r
    | none =>
      match packInt v with
      | some r => .ok r
      | none =>
        match packUint v with
        | some r => .ok r
        | none => .throws

/-! ## Overridden methods -/

/-- What a Python method returns: `None`, a time, or something that cannot be converted to one. -/
inductive Returned where
  | none
  | time (t : Nat)
  | other
deriving DecidableEq, Repr

/-- python_module_esl.cpp:326-340 `python_agent::act` and 1442-1455 `python_model::step`: the method of the base class if there is no override. A Python integer that is not a `uint64_t` cannot be converted. -/
def callTime (override : Option Returned) (base : Nat) (upper : Nat) : Outcome Nat :=
  match override with
  | none => .ok base
  | some .none => .ok upper
  | some (.time t) => if t < 2 ^ 64 then .ok t else .throws
  | some .other => .throws

/-! ## Walrasian orders -/

/-- A value in a Python dictionary: a number, with its floating point representation, or anything else. -/
inductive Value where
  | number (bits : Nat)
  | other
deriving DecidableEq, Repr

/-- A key: the identity of a property, or anything else. -/
inductive Key where
  | property (i : Nat)
  | other (i : Nat)
deriving DecidableEq, Repr

/-- `std::map::emplace`: no effect when the key is present. -/
def mapEmplace {α : Type} (l : List (Nat × α)) (k : Nat) (v : α) : List (Nat × α) := if l.any fun e => e.1 == k then l else insertSorted k v l

/-- python_module_esl.cpp:808-826: the loop over the dictionary that the method `excess_demand` returns. -/
def convertDemand (d : List (Key × Value)) : List (Nat × Nat) :=
  d.foldl (fun result e =>
    match e.1, e.2 with
    | .property i, .number b => mapEmplace result i b
    | _, _ => result) []

/-- python_module_esl.cpp:843-861 `set_differentiable_order_message_supply`: the dictionary maps properties to long and short quantities. `insert` has no effect when the key is present. -/
def setSupply (d : List (Nat × (Nat × Nat))) : List (Nat × (Nat × Nat)) := d.foldl (fun supply e => mapEmplace supply e.1 e.2) []

/-- Assignment to a key of a Python dictionary. -/
def dictSet {α : Type} (d : List (Nat × α)) (k : Nat) (v : α) : List (Nat × α) :=
  if d.any fun e => e.1 == k then d.map fun e => if e.1 = k then (e.1, v) else e else d ++ [(k, v)]

/-- python_module_esl.cpp:834-841 `get_differentiable_order_message_supply`. -/
def getSupply (supply : List (Nat × (Nat × Nat))) : List (Nat × (Nat × Nat)) := supply.foldl (fun d e => dictSet d e.1 (e.2.1, e.2.2)) []

/-! ## Quotes -/

/-- What a quote is in terms of (quote.hpp): a price or an exchange rate. -/
inductive QuoteType where
  | price (value : Int) (currency : List Nat)
  | rate (numerator denominator : Nat)
deriving DecidableEq, Repr

/-- python_module_esl.cpp:692-696 `quote_helper_get_price`: the pointer is null if the quote is not a price. -/
def getPrice : QuoteType → Outcome (Int × List Nat)
  | .price v c => .ok (v, c)
  | .rate _ _ => .ub

/-- python_module_esl.cpp:699-702 `quote_helper_set_price`. -/
def setPrice (_ : QuoteType) (v : Int) (c : List Nat) : QuoteType := .price v c

end Esl.Python
