import Verif.Model.Basic
import Verif.Model.Attributes
import Verif.Model.Hashing
/-!
Values of the library as Python objects (`esl/python_module_esl.cpp`): how they compare, how they are found in dictionaries, and which attributes can be read.

Python is modelled by what it does with these classes: an object has an address, and two objects that exist at the same time have different addresses. A class that defines no `==` inherits the one of `object`, which compares addresses;
one that defines no `__hash__` inherits that of `object`, which is a permutation of the bits of the address. (`boost::python` adds methods to a class that exists, so that the rule that a class with `==` has no inherited `__hash__` does not apply.)
-/
namespace Esl.Values

/-! ## Comparison and dictionaries -/

/-- An object with its address and the C++ value that it holds. -/
structure Object (α : Type) where
  address : Nat
  value : α
deriving DecidableEq, Repr

/-- What a class defines: `.def(self == self)`, and `.def("__hash__", ...)` with this function. -/
structure Methods (α : Type) where
  eq : Option (α → α → Bool)
  hash : Option (α → Nat)

/-- `a == b` in Python. -/
def equal {α : Type} (c : Methods α) (a b : Object α) : Bool :=
  match c.eq with
  | some f => f a.value b.value
  | none => a.address == b.address

/-- The hash of `object`: the address, rotated by four bits. -/
def addressHash (a : Nat) : Nat := a / 16 + a % 16 * 2 ^ 60

/-- The hash of a Python integer that `__hash__` returns: as it is, if it fits, and else modulo a prime number. -/
def reduceHash (n : Nat) : Nat := if n < 2 ^ 63 then n else n % (2 ^ 61 - 1)

/-- `hash(a)`. -/
def hash {α : Type} (c : Methods α) (a : Object α) : Nat :=
  match c.hash with
  | some f => reduceHash (f a.value)
  | none => addressHash a.address

/-- A dictionary: entries with the hash of the key at the time when it was entered. -/
abbrev Dict (α β : Type) := List (Nat × Object α × β)

/-- Whether an entry is the one for `k`: the hashes agree, and the keys are the same object or equal. -/
def matching {α β : Type} (c : Methods α) (k : Object α) (e : Nat × Object α × β) : Bool := e.1 == hash c k && (e.2.1.address == k.address || equal c e.2.1 k)

/-- `d.get(k)`. -/
def Dict.get {α β : Type} (c : Methods α) (d : Dict α β) (k : Object α) : Option β := (d.find? (matching c k)).map (·.2.2)

/-- `d[k] = v`: the first key stays. -/
def Dict.assign {α β : Type} (c : Methods α) : Dict α β → Object α → β → Dict α β
  | [], k, v => [(hash c k, k, v)]
  | e :: d, k, v => if matching c k e then (e.1, e.2.1, v) :: d else e :: Dict.assign c d k v

/-- A Python program that enters values into an empty dictionary. -/
def Dict.run {α β : Type} (c : Methods α) (l : List (Object α × β)) : Dict α β := l.foldl (fun d e => d.assign c e.1 e.2) []

/-- `python_module_esl.cpp:3039-3053` `identity` and 2724-2738 `property_identity`. -/
def identityClass (combine : Nat → Nat → Nat) : Methods (List Nat) := ⟨some Identity.eq, some (Hashing.identityHash combine)⟩

/-- `python_module_esl.cpp:2101-2116` `ticker`. Likewise `quantity` (1578), `price` (1990), `share_class` (2038), `iso_10383` (2073), `quote` (2083) and `entity` (3030) define `==` and no `__hash__`. -/
def tickerClass : Methods Ticker.Ticker := ⟨some Ticker.eq, none⟩

/-- `python_module_esl.cpp:1990-2003` `price`. -/
def priceClass : Methods Price.P := ⟨some Price.P.eq, none⟩

/-- `python_module_esl.cpp:1741-1745` `iso_4217`. Likewise `iso_3166_1_alpha_2` (2368), `iso_6166` (2011), `cusip` (2025), `iso_17442` (2706), `jurisdiction` (2715) and `time_interval` (3079) define neither. -/
def currencyClass : Methods Price.Currency := ⟨none, none⟩

/-- `python_module_esl.cpp:1992`, `p.valuation`: every access makes a new object for the member; `a` is the address of the new object. -/
def valuation (p : Object Price.P) (a : Nat) : Object Price.Currency := ⟨a, p.value.valuation⟩

/-- `python_module_esl.cpp:3041`: `digits` is a reference to the vector in the identity, and the class of the vector (2235-2238) has methods to change it. The effect of `i.digits[...] = ...`, for the object itself and in the dictionaries that have it as a key. -/
def mutate {β : Type} (d : Dict (List Nat) β) (i : Object (List Nat)) (digits : List Nat) : Dict (List Nat) β × Object (List Nat) :=
  (d.map fun e => if e.2.1.address = i.address then (e.1, { e.2.1 with value := digits }, e.2.2) else e, { i with value := digits })

/-! ## Attributes -/

/-- How a value is given to Python: numbers, texts, enumerations and Python objects as they are, and the values of classes by the class that is registered for the C++ type. -/
inductive Kind where
  | plain
  | instance (type : String)
deriving DecidableEq, Repr

structure Attribute where
  owner : String
  name : String
  kind : Kind
deriving DecidableEq, Repr

/-- The attributes of the classes that `BOOST_PYTHON_MODULE(_esl)` defines, with the types of their values (`python_module_esl.cpp:1536-3140`). Plain are numbers, texts, enumerations that the module
defines, Python objects and what functions convert to dictionaries. `seed.size` (1547), which names a function, is left out, and so are the attributes that order books have from their base. The price of a quote that is an exchange rate (692-696) is not modelled. -/
def attributes : List Attribute :=
  [ ⟨"agent", "identifier", .instance "python_identity"⟩, ⟨"agent", "inbox", .instance "inbox_t"⟩, ⟨"agent", "outbox", .instance "outbox_t"⟩, -- 1614-1624
    ⟨"block", "data", .plain⟩, ⟨"block", "index", .plain⟩, -- 1643-1646
    ⟨"agent_timing", "messaging", .instance "milliseconds"⟩, ⟨"agent_timing", "acting", .instance "milliseconds"⟩, -- 1667-1668
    ⟨"activation", "location", .plain⟩, ⟨"activation", "activated", .instance "identity<agent>"⟩, -- 1678-1679
    ⟨"migration", "source", .plain⟩, ⟨"migration", "target", .plain⟩, ⟨"migration", "migrant", .instance "identity<agent>"⟩, -- 1682-1684
    ⟨"deactivation", "deactivated", .instance "identity<agent>"⟩, -- 1687
    ⟨"iso_4217", "code", .plain⟩, ⟨"iso_4217", "denominator", .plain⟩, -- 1742-1743
    ⟨"company", "balance_sheet", .instance "balance_sheet"⟩, ⟨"company", "shares_outstanding", .instance "map<share_class, uint64_t>"⟩, -- 1764-1765
    ⟨"company", "shareholders", .instance "unordered_map<identity<shareholder>, map<share_class, uint64_t>>"⟩, -- 1766
    ⟨"standard", "reporting_currency", .instance "iso_4217"⟩, ⟨"standard", "foreign_currencies", .instance "map<iso_4217, exchange_rate>"⟩, -- 1796-1797
    ⟨"price", "value", .plain⟩, ⟨"price", "valuation", .instance "iso_4217"⟩, -- 1991-1992
    ⟨"iso_6166", "issuer", .instance "iso_3166_1_alpha_2"⟩, ⟨"iso_6166", "code", .plain⟩, ⟨"cusip", "issuer", .plain⟩, -- 2017-2030
    ⟨"share_class", "rank", .plain⟩, ⟨"share_class", "votes", .plain⟩, ⟨"share_class", "preference", .plain⟩, ⟨"share_class", "dividend", .plain⟩, ⟨"share_class", "cumulative", .plain⟩, ⟨"share_class", "redeemable", .plain⟩, -- 2041-2046
    ⟨"dividend_policy", "announcement_date", .plain⟩, ⟨"dividend_policy", "ex_dividend_date", .plain⟩, ⟨"dividend_policy", "dividend_period", .instance "time_interval"⟩, ⟨"dividend_policy", "payable_date", .plain⟩, -- 2056-2059
    ⟨"dividend_policy", "dividend_currency", .instance "iso_4217"⟩, ⟨"dividend_policy", "dividend_per_share", .instance "map<share_class, tuple<uint64_t, price>>"⟩, -- 2060-2061
    ⟨"quote", "price", .instance "price"⟩, ⟨"quote", "lot", .plain⟩, ⟨"ticker", "base", .instance "python_identity"⟩, ⟨"ticker", "quote", .instance "python_identity"⟩, -- 2086-2110
    ⟨"centralized_exchange", "positions", .instance "flat_map<ticker, flat_map<identity<agent>, position_report>>"⟩, -- 2130
    ⟨"position_report", "supply", .plain⟩, ⟨"position_report", "bought", .plain⟩, ⟨"position_report", "sold", .plain⟩, -- 2134-2136
    ⟨"logon_message", "supply", .instance "flat_map<ticker, uint64_t>"⟩, -- 2144
    ⟨"market_data_request_message", "instruments", .instance "vector<ticker>"⟩, ⟨"market_data_request_message", "type", .plain⟩, ⟨"market_data_request_message", "depth", .plain⟩, -- 2161-2163
    ⟨"new_order_single", "order_details", .instance "limit_order"⟩, ⟨"execution_report_message", "report", .instance "execution_report"⟩, -- 2176, 2182
    ⟨"execution_report", "state", .plain⟩, ⟨"execution_report", "quantity", .plain⟩, ⟨"execution_report", "identifier", .plain⟩, ⟨"execution_report", "side", .plain⟩, ⟨"execution_report", "limit", .instance "quote"⟩, -- 2222-2226
    ⟨"execution_report", "owner", .instance "python_identity"⟩, -- 2227-2230
    ⟨"limit_order", "lifetime", .plain⟩, ⟨"limit_order", "side", .plain⟩, ⟨"limit_order", "symbol", .instance "ticker"⟩, ⟨"limit_order", "owner", .instance "python_identity"⟩, ⟨"limit_order", "limit", .instance "quote"⟩, -- 2258-2264
    ⟨"limit_order", "quantity", .plain⟩, ⟨"basic_book", "reports", .instance "vector<execution_report>"⟩, ⟨"matching_engine", "books", .instance "flat_map<ticker, shared_ptr<basic_book>>"⟩, -- 2265, 2276, 2308
    ⟨"differentiable_order_message", "supply", .plain⟩, ⟨"excess_demand_model", "circuit_breaker", .instance "pair<double, double>"⟩, ⟨"excess_demand_model", "methods", .instance "vector<solver>"⟩, -- 2337-2351
    ⟨"excess_demand_model", "quotes", .instance "property_map<quote>"⟩, ⟨"excess_demand_model", "excess_demand_functions", .instance "messages_t"⟩, -- 2352-2356
    ⟨"iso_3166_1_alpha_2", "code", .plain⟩, -- 2369
    ⟨"callback_t", "function", .instance "callback_handle"⟩, ⟨"callback_t", "description", .plain⟩, ⟨"callback_t", "message", .plain⟩, ⟨"callback_t", "file", .plain⟩, ⟨"callback_t", "line", .plain⟩, -- 2641-2646
    ⟨"communicator", "inbox", .instance "inbox_t"⟩, ⟨"communicator", "outbox", .instance "outbox_t"⟩, -- 2668-2669
    ⟨"header", "type", .plain⟩, ⟨"header", "sender", .instance "python_identity"⟩, ⟨"header", "recipient", .instance "python_identity"⟩, ⟨"header", "sent", .plain⟩, ⟨"header", "received", .plain⟩, ⟨"message", "code", .plain⟩, -- 2681-2697
    ⟨"iso_17442", "local", .plain⟩, ⟨"iso_17442", "code", .plain⟩, ⟨"jurisdiction", "sovereign", .instance "iso_3166_1_alpha_2"⟩, ⟨"jurisdiction", "tender", .instance "iso_4217"⟩, -- 2707-2717
    ⟨"property", "identifier", .instance "python_identity"⟩, ⟨"natural_person", "nationality", .instance "iso_3166_1_alpha_2"⟩, -- 2746-2754
    ⟨"entity", "identifier", .instance "python_identity"⟩, ⟨"identity", "digits", .instance "vector<order_identifier>"⟩, -- 3032, 3041
    ⟨"model", "start", .plain⟩, ⟨"model", "end", .plain⟩, ⟨"model", "time", .plain⟩, ⟨"model", "sample", .plain⟩, ⟨"model", "world", .instance "world"⟩, ⟨"model", "agents", .instance "agent_collection"⟩, -- 3064-3072
    ⟨"time_interval", "lower", .plain⟩, ⟨"time_interval", "upper", .plain⟩, ⟨"world", "identifier", .instance "identity<world>"⟩, -- 3081-3092
    ⟨"parametrization", "values", .instance "map<string, shared_ptr<parameter_base>>"⟩ ] -- 3136

/-- Reading an attribute with the value `v`: an exception if the type of the value is not registered. -/
def read {α : Type} (known : List String) (a : Attribute) (v : α) : Outcome α :=
  match a.kind with
  | .plain => .ok v
  | .instance t => if known.contains t then .ok v else .throws

end Esl.Values
