import Verif.Model.Company
import Verif.Model.Distributed
/-!
More of the Python interface, `esl/python_module_esl.cpp`: the clearing model, agents and companies. Python and `boost::python` are modelled by what they pass on: `boost::python` converts `None` to a null
`boost::shared_ptr`, refuses to convert an object of another class, and raises a Python error when an object that is not callable is called.
-/
namespace Esl.Bindings

/-! ## The clearing model -/

/-- A Python object where an object of a class `α` is expected: such an object, `None`, or anything else. -/
inductive Object (α : Type) where
  | object (a : α)
  | none
  | other
deriving DecidableEq, Repr

/-- The dictionary of quotes: keys are properties, by their identities. -/
abbrev Dict (q : Type) := List (Object Nat × Object q)

/-- `try_emplace` into `law::property_map`, which compares properties by their identities: no effect when the key is present. The order of an `unordered_map` is not modelled. -/
def tryEmplace {q : Type} (m : List (Nat × q)) (k : Nat) (v : q) : List (Nat × q) := if m.any fun e => e.1 == k then m else m ++ [(k, v)]

/-- python_module_esl.cpp:905-928 `excess_demand_model_python_constructor`: the loop over the dictionary. Entries that are not a property with a quote are skipped; `None` is converted to a null pointer, and finding its
place in the map reads the identity through it. A quote is extracted by value, so `None` is not a quote. -/
def construct {q : Type} : Dict q → List (Nat × q) → Outcome (List (Nat × q))
  | [], m => .ok m
  | (.object k, .object v) :: d, m => construct d (tryEmplace m k v)
  | (.none, .object _) :: _, _ => .ub
  | _ :: d, m => construct d m

/-- The orders of the clearing model, `excess_demand_functions_`: pointers, which may be null. -/
abbrev Orders := List (Option Nat)

/-- python_module_esl.cpp:961-969 `set_excess_demand_functions`: the loop, with the orders so far. The orders afterwards, and whether an exception was thrown. -/
def setOrdersLoop : List (Object Nat) → Orders → Orders × Bool
  | [], o => (o, false)
  | .object m :: l, o => setOrdersLoop l (o ++ [some m])
  | .none :: l, o => setOrdersLoop l (o ++ [none])
  | .other :: _, o => (o, true)

/-- python_module_esl.cpp:961-969 `set_excess_demand_functions`: the orders are cleared first (964). -/
def setOrders (_ : Orders) (l : List (Object Nat)) : Orders × Bool := setOrdersLoop l []

/-- python_module_esl.cpp:947-954 `get_excess_demand_functions`: a new vector. -/
def getOrders (o : Orders) : Orders := o

/-- What a Python program does with `excess_demand_functions`. -/
inductive Statement where
  /-- `model.excess_demand_functions = l` -/
  | assign (l : List (Object Nat))
  /-- `model.excess_demand_functions.append(m)`, with `None` or an order -/
  | append (m : Option Nat)
  /-- `del model.excess_demand_functions[i]` -/
  | delete (i : Nat)
deriving Repr

/-- The effect on the model: assigning goes through `set_excess_demand_functions`; the other statements change the vector that `get_excess_demand_functions` returned (python_module_esl.cpp:2354-2356). -/
def execute (o : Orders) : Statement → Orders
  | .assign l => (setOrders o l).1
  | .append m => let copy := getOrders o ++ [m]; (copy, o).2
  | .delete i => let copy := (getOrders o).eraseIdx i; (copy, o).2

/-- tatonnement.cpp:238-250 (and 274-288): the demand of all orders; a null pointer is dereferenced. -/
def demands (f : Nat → Rat) : Orders → Outcome Rat
  | [] => .ok 0
  | none :: _ => .ub
  | some m :: o => demands f o >>= fun d => .ok (f m + d)

/-- python_module_esl.cpp:885-898 `compute_clearing_quotes`: the dictionary for the result of the C++ function, which is a map from properties to factors. -/
def clearingQuotes {q : Type} (result : Option (List (Nat × q))) : List (Nat × q) :=
  match result with
  | some l => l.foldl (fun d e => if d.any fun x => x.1 == e.1 then d.map fun x => if x.1 = e.1 then e else x else d ++ [e]) []
  | none => []

/-! ## Companies -/

/-- python_module_esl.cpp:604-616 `python_company::upcoming_dividend`. `override` is what the method of the Python class returns, if the class has one: without, `get_override` gives `None`, which is called all the same. -/
def upcomingDividend (override : Option (Object Company.Policy)) : Outcome (Option Company.Policy) :=
  match override with
  | none => .throws
  | some .none => .ok none
  | some (.object p) => .ok (some p)
  | some .other => .throws

/-- `company::act` of a Python company (company.cpp:111-183): calls `upcoming_dividend` first. -/
def companyAct (shareholders : List (Nat × Company.Register Nat)) (st : Company.State) (lower upper : Nat) (override : Option (Object Company.Policy)) :
    Outcome (Nat × Company.State × List Company.Announcement) :=
  upcomingDividend override >>= fun p => .ok (Company.act shareholders st lower upper p)

/-! ## Agents -/

/-- python_module_esl.cpp:1360-1366 `python_agent_collection_create` and 1345-1353 `python_agent_collection_create_identifier`: the collection is not used, and the result is a null pointer, which is `None` in Python. -/
def create {α : Type} (c : Mpi.Collection α) (_ : α) : Mpi.Collection α × Object (Nat × α) := (c, .none)

/-- python_module_esl.cpp:1370-1373 `python_agent_collection_activate`: agents have an identity. -/
def activate {α : Type} (c : Mpi.Collection α) (a : Object (Nat × α)) : Outcome (Mpi.Collection α) :=
  match a with
  | .object (i, x) => .ok (c.activate i x)
  | .none => .ub
  | .other => .throws

/-- python_module_esl.cpp:1377-1380 `python_agent_collection_deactivate`. -/
def deactivate {α : Type} (c : Mpi.Collection α) (a : Object (Nat × α)) : Outcome (Mpi.Collection α) :=
  match a with
  | .object (i, _) => .ok (c.deactivate i)
  | .none => .ub
  | .other => .throws

/-- agent_collection.hpp:64 `local_agents_`: the pointers to the agents, by identity, as C++ code sees them. -/
def inhabitants {α : Type} (c : Mpi.Collection α) : List (Nat × Option α) := c.here

/-- python_module_esl.cpp:1312-1321 `agent_collection_local_agents`: a dictionary of the pointers, by identity. To make a Python object of a key, a class for `identity<agent>` has to be in the registry `known`; the conversions of
3100-3104 are only for arguments of functions. That the pointers need a class too is not modelled. -/
def localAgents {α : Type} (known : List String) (c : Mpi.Collection α) : Outcome (List (Nat × Option α)) :=
  if c.here.isEmpty || known.contains "identity<agent>" then .ok c.here else .throws

/-! ## Seeds -/

/-- python_module_esl.cpp:55-63 `construct_seed_seq_from_list`: elements are 32 bits wide, a number that does not fit cannot be converted. -/
def seedSequence : List (Object Int) → Outcome (List Nat)
  | [] => .ok []
  | .object z :: l => if 0 ≤ z ∧ z < 2 ^ 32 then seedSequence l >>= fun r => .ok (z.toNat :: r) else .throws
  | _ :: _ => .throws

end Esl.Bindings
