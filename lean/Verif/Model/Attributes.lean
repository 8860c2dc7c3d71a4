import Verif.Model.Company
/-!
More of the Python interface, `esl/python_module_esl.cpp`: the order in which its classes are defined, the methods that order books have in Python, and the attributes of companies.

`boost::python` is modelled by what it does with these definitions: the class of a C++ type is entered in a registry that all extension modules share; a class with a base that is not in the registry
is refused with an exception; and a value of a type that is not in the registry is not converted to a Python object, with an exception.
-/
namespace Esl.Attributes

/-! ## Classes -/

/-- `class_<type, bases<...>>`: a C++ type and the types it names as bases. -/
structure Definition where
  type : String
  bases : List String := []
  deriving DecidableEq

/-- The definitions of a module are executed in order, from the registry `known`. -/
def define (known : List String) : List Definition → Outcome (List String)
  | [] => .ok known
  | d :: ds => if d.bases.all fun b => known.contains b then define (d.type :: known) ds else .throws

/-- `python_module_esl.cpp:1536-3140`: the classes that `BOOST_PYTHON_MODULE(_esl)` defines, in order. The classes of entries of containers, which have no bases, are left out. -/
def eslModule : List Definition :=
  [ ⟨"std::seed_seq", []⟩, -- 1544
    ⟨"exception", []⟩, ⟨"quantity", []⟩, ⟨"python_agent", []⟩, ⟨"block<object>", []⟩, ⟨"python_environment", []⟩, ⟨"agent_timing", []⟩, ⟨"activation", []⟩, ⟨"migration", []⟩, ⟨"deactivation", []⟩,
    ⟨"iso_4217", []⟩, ⟨"map<share_class, uint64_t>", []⟩, ⟨"python_organization", []⟩, -- 1741-1758
    ⟨"python_company", ["python_organization"]⟩, -- 1762
    ⟨"map<identity<property>, quote>", []⟩, ⟨"standard", []⟩, ⟨"price", []⟩, ⟨"isin", []⟩, ⟨"cusip", []⟩, ⟨"share_class", []⟩, ⟨"map<share_class, tuple<uint64_t, price>>", []⟩,
    ⟨"dividend_policy", []⟩, ⟨"iso_10383", []⟩, ⟨"quote", []⟩, ⟨"ticker", []⟩,
    ⟨"centralized_exchange", ["market"]⟩, -- 2128
    ⟨"position_report", []⟩,
    ⟨"logon_message", ["header"]⟩, ⟨"logout_message", ["header"]⟩, ⟨"market_data_request_message", ["header"]⟩, ⟨"order_status_request", ["header"]⟩, -- 2143-2167
    ⟨"order_status_response_message", ["header"]⟩, ⟨"new_order_single", ["header"]⟩, ⟨"execution_report_message", ["header"]⟩, -- 2171-2181
    ⟨"vector<execution_report>", []⟩, ⟨"execution_report", []⟩, ⟨"vector<order_identifier>", []⟩, ⟨"limit_order", []⟩, ⟨"vector<limit_order>", []⟩, ⟨"basic_book", []⟩,
    ⟨"static_order_book", ["basic_book"]⟩, ⟨"binary_tree_order_book", ["basic_book"]⟩, -- 2291, 2298
    ⟨"matching_engine", []⟩, ⟨"python_differentiable_order_message", []⟩, ⟨"messages_t", []⟩, ⟨"python_excess_demand_model", []⟩, ⟨"iso_3166_1_alpha_2", []⟩, ⟨"callback_handle", []⟩, ⟨"callback_t", []⟩,
    ⟨"inbox_t", []⟩, ⟨"outbox_t", []⟩, ⟨"communicator", []⟩,
    ⟨"header", []⟩, -- 2672
    ⟨"python_message", ["header"]⟩, -- 2696
    ⟨"iso_17442", []⟩, ⟨"legal_entity", []⟩, ⟨"jurisdiction", []⟩, ⟨"identity<property>", []⟩, ⟨"property", []⟩, ⟨"natural_person", []⟩, ⟨"entity<object>", []⟩, ⟨"python_identity", []⟩,
    ⟨"agent_collection", []⟩, ⟨"python_model", []⟩, ⟨"time_interval", []⟩, ⟨"world", []⟩, ⟨"parameter_base", []⟩,
    ⟨"constant<double>", ["parameter_base"]⟩, ⟨"constant<int64_t>", ["parameter_base"]⟩, ⟨"constant<uint64_t>", ["parameter_base"]⟩, ⟨"constant<price>", ["parameter_base"]⟩, -- 3115-3124
    ⟨"map<string, shared_ptr<parameter_base>>", []⟩, ⟨"parametrization", []⟩ ]

/-- `import esl`, that is `esl/__init__.py:81`, with what other modules have entered in the registry before. -/
def importEsl (known : List String) : Outcome (List String) := define known eslModule

/-! ## Order books -/

/-- The classes of order books in Python. -/
inductive BookClass
  | basic
  | static
  | tree
  deriving DecidableEq

/-- The methods that tell the best prices. -/
inductive Query
  | ask
  | bid
  deriving DecidableEq

/-- How a method gives its result to Python: through `optional_to_python` (python_module_esl.cpp:96-103), or as the `std::optional` that the C++ function returns. -/
inductive Binding
  | converted
  | raw
  deriving DecidableEq

/-- What a class itself defines: `basic_book` (2275-2288), `static_order_book` (2291-2296) and `binary_tree_order_book` (2298-2305). -/
def BookClass.own : BookClass → Query → Option Binding
  | .basic, _ => some .converted
  | .static, _ => none
  | .tree, _ => some .raw

/-- An attribute of an object: that of its class, or else of the base. -/
def BookClass.find (c : BookClass) (q : Query) : Option Binding :=
  match c.own q with
  | some b => some b
  | none => BookClass.own .basic q

/-- `book.ask()` and `book.bid()` in Python, where the C++ function returns `best`: a quote, `None`, or an exception. No class is defined for `std::optional<quote>`. -/
def BookClass.call {α : Type} (c : BookClass) (q : Query) (best : Option α) : Outcome (Option α) :=
  match c.find q with
  | none => .throws
  | some .converted => .ok best
  | some .raw => .throws

/-! ## Companies -/

open Esl.Company (Register ShareClass)

/-- A company as a C++ object (`company.hpp:70-77`), and the Python objects that a program has of its registers. -/
structure Program where
  outstanding : Register Nat
  shareholders : List (Nat × Register Nat)
  objects : List (Register Nat)
  deriving DecidableEq

/-- A program after it has created a company: `company.cpp:90-100`. -/
def Program.new : Program := ⟨[], [], []⟩

/-- What a program can do with the attributes of a company. -/
inductive Statement
  /-- `x = company.shares_outstanding` -/
  | read
  /-- `x[s] = n` -/
  | setItem (x : Nat) (s : ShareClass) (n : Nat)
  /-- `del x[s]` -/
  | deleteItem (x : Nat) (s : ShareClass)
  /-- `company.shares_outstanding = x` -/
  | assign (x : Nat)
  /-- `company.shareholders` -/
  | readShareholders
  /-- `company.shareholders = x` -/
  | assignShareholders (x : Nat)

/-- The effect of a statement, and whether it raised an exception. python_module_esl.cpp:1765 and 1766: the functions for both attributes return a copy, and there is no function that assigns. No class is defined
for the type of `shareholders` (1751-1753). For the registers, see 217-227; to delete an entry that is not there has no effect. -/
def Program.execute (p : Program) : Statement → Program × Bool
  | .read => ({ p with objects := p.objects ++ [p.outstanding] }, false)
  | .setItem x s n =>
    match p.objects[x]? with
    | some m => ({ p with objects := p.objects.set x (Register.assign m s n) }, false)
    | none => (p, true)
  | .deleteItem x s =>
    match p.objects[x]? with
    | some m => ({ p with objects := p.objects.set x (m.filter fun e => e.1.lt s || s.lt e.1) }, false)
    | none => (p, true)
  | .assign _ => (p, true)
  | .readShareholders => (p, true)
  | .assignShareholders _ => (p, true)

/-- A program that goes on after exceptions. -/
def Program.run (p : Program) (l : List Statement) : Program := l.foldl (fun p s => (p.execute s).1) p

end Esl.Attributes
