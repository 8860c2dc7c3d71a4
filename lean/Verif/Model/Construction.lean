import Verif.Model.Basic
import Verif.Model.Identity
/-!
Construction of properties and agents: which identifier an object has, given the arguments of its constructor.

`property` and `agent` hold the identifier (`entity::identifier`), and most classes inherit them virtually. In C++ a virtual base is initialised by the constructor of the most derived class only: by its own
initialiser for that base, or by the default constructor of the base if there is none; initialisers for the base in the constructors of other bases are not executed.
-/
namespace Esl.Construction
open Esl.Identity (Ident)

/-- The classes that derive from `property` and from `agent`. Classes that cannot be compiled (`physical_money`, `commodity_money`) and `convertible_bond`, which has no constructor, are left out.
`owner` stands for `owner<property_t_>` with any type other than `property`. -/
inductive Class where
  | property | asset | money | cash | commodity | contract | security | stock | bond | loan | lending
  | agent | ownerOfProperty | owner | legalPerson | organization | debtor | shareholder | bondholder | company | market | priceSetter | impactMarket | exchange | pythonAgent
deriving DecidableEq, Repr

/-- Direct bases among these classes, and whether they are virtual. -/
def bases : Class → List (Class × Bool)
  | .property => [] -- law/property.hpp:38
  | .asset => [(.property, true)] -- economics/asset.hpp:55-56
  | .money => [(.asset, false)] -- economics/money.hpp:41-42
  | .cash => [(.money, false)] -- economics/cash.hpp:41-42
  | .commodity => [(.asset, true)] -- economics/commodity.hpp:33-34
  | .contract => [(.property, true)] -- law/contract.hpp:39-40
  | .security => [(.asset, false), (.contract, false)] -- economics/finance/security.hpp:45-48
  | .stock => [(.security, true)] -- economics/finance/stock.hpp:37-38
  | .bond => [(.security, true)] -- economics/finance/bond.hpp:60-61
  | .loan => [(.contract, false)] -- economics/finance/loan.hpp:43-44
  | .lending => [(.contract, false)] -- economics/finance/securities_lending_contract.hpp:46-47
  | .agent => [] -- agent.hpp:40
  | .ownerOfProperty => [(.agent, true)] -- economics/owner.hpp:57-58
  | .owner => [(.ownerOfProperty, true)] -- economics/owner.hpp:172-173
  | .legalPerson => [(.agent, true), (.ownerOfProperty, true)] -- law/legal_person.hpp:50-52
  | .organization => [(.legalPerson, false)] -- law/organization.hpp:38-39
  | .debtor => [(.legalPerson, true)] -- economics/finance/debtor.hpp:35-36
  | .shareholder => [(.owner, true)] -- economics/finance/shareholder.hpp:53-55, for `owner<cash>` and `owner<stock>`
  | .bondholder => [(.owner, true)] -- economics/finance/bondholder.hpp:53-55
  | .company => [(.organization, false), (.shareholder, false), (.bondholder, false)] -- economics/company.hpp:58-61
  | .market => [(.agent, true)] -- economics/markets/market.hpp:44-45
  | .priceSetter => [(.market, false)] -- economics/markets/walras/price_setter.hpp:47-48
  | .impactMarket => [(.market, false)] -- economics/markets/impact_function/market.hpp:40-41
  | .exchange => [(.market, false)] -- economics/markets/centralized_exchange.hpp:59-60
  | .pythonAgent => [(.agent, false)] -- python_module_esl.cpp:314-316

/-- The identifiers of cash and of securities lending contracts begin with the hash code of their type; `tag` is that hash code. -/
def prepend (tag : Nat) (i : Ident) : Ident := tag :: i

/-- The initialisers for these bases in the constructor that takes an identifier: the identifier that is passed to the base. For contracts without one, and for `commodity`, it is the only constructor. The parameter of `cash`
is the currency, as an identity with its hash as the only digit; that of `lending` is the identifier of the security. -/
def initialisers (tag : Nat) (i : Ident) : Class → List (Class × Ident)
  | .property => [] -- law/property.cpp:34-38
  | .asset => [(.property, i)] -- economics/asset.cpp:31-35
  | .money => [(.property, i), (.asset, i)] -- economics/money.hpp:47-54
  | .cash => [(.property, prepend tag i), (.money, prepend tag i)] -- economics/cash.hpp:45-60
  | .commodity => [(.asset, [])] -- economics/commodity.hpp:38-44
  | .contract => [(.property, [])] -- law/contract.hpp:46-53
  | .security => [(.asset, i), (.contract, [])] -- economics/finance/security.hpp:50-56; the contract is given its parties
  | .stock => [(.property, i), (.security, i)] -- economics/finance/stock.cpp:88-97
  | .bond => [(.property, i), (.security, i)] -- economics/finance/bond.hpp:90-95
  | .loan => [(.contract, [])] -- economics/finance/loan.hpp:56-63; the contract is given its parties
  | .lending => [(.property, prepend tag i), (.contract, [])] -- economics/finance/securities_lending_contract.hpp:36-66
  | .agent => [] -- agent.cpp:38-42
  | .ownerOfProperty => [(.agent, i)] -- economics/owner.hpp:64-66
  | .owner => [(.ownerOfProperty, i)] -- economics/owner.hpp:188-192
  | .legalPerson => [(.agent, i)] -- law/legal_person.hpp:68-98, each of the four
  | .organization => [(.agent, i), (.legalPerson, i)] -- law/organization.hpp:45-50
  | .debtor => [(.legalPerson, i)] -- economics/finance/debtor.hpp:40-44
  | .shareholder => [(.agent, i), (.owner, i)] -- economics/finance/shareholder.cpp:44-48
  | .bondholder => [(.agent, i), (.owner, i)] -- economics/finance/bondholder.cpp:38-39
  | .company => [(.agent, i), (.owner, i), (.organization, i), (.shareholder, i)] -- economics/company.cpp:89-99
  | .market => [(.agent, i)] -- economics/markets/market.hpp:87-93
  | .priceSetter => [(.agent, i), (.market, i)] -- economics/markets/walras/price_setter.cpp:72-79
  | .impactMarket => [(.agent, i), (.market, i)] -- economics/markets/impact_function/market.cpp:45-51
  | .exchange => [(.agent, i), (.market, i)] -- economics/markets/centralized_exchange.hpp:427-431
  | .pythonAgent => [(.agent, i)] -- python_module_esl.cpp:319-323

/-- Whether a class has `root` as a virtual base, directly or through at most `fuel` of its bases. -/
def isVirtualBase (root : Class) : Nat → Class → Bool
  | 0, _ => false
  | fuel + 1, c => (bases c).any fun b => (b.1 == root && b.2) || isVirtualBase root fuel b.1

/-- The identifier of an object of class `c` that is constructed with `i`: of its part `root`, which is `property` or `agent`. If `root` is not a virtual base, the first base passes it on.
The hierarchy is less than eight deep. -/
def construct (tag : Nat) (root : Class) : Nat → Class → Ident → Ident
  | 0, _, i => i
  | fuel + 1, c, i =>
    if c = root then i
    else if isVirtualBase root 8 c then ((initialisers tag i c).lookup root).getD []
    else
      match bases c with
      | [] => []
      | b :: _ => construct tag root fuel b.1 (((initialisers tag i c).lookup b.1).getD [])

/-- The identifier of a property. -/
def propertyIdentifier (tag : Nat) (c : Class) (i : Ident) : Ident := construct tag .property 8 c i

/-- The identifier of an agent. -/
def agentIdentifier (c : Class) (i : Ident) : Ident := construct 0 .agent 8 c i

/-! ## Classes of the user -/

/-- A class of the user, derived without `virtual` from a class of the library or from another class of the user. Its constructor takes an identifier and passes it to its direct base; `names` says whether it
also names the virtual base (`: agent(i), shareholder(i)`) or not (`: shareholder(i)`). -/
inductive UserClass where
  | library (c : Class)
  | derived (base : UserClass) (names : Bool)
deriving DecidableEq, Repr

/-- The class of the library that a class of the user is derived from. -/
def UserClass.origin : UserClass → Class
  | .library c => c
  | .derived b _ => b.origin

/-- The identifier of an object of a class of the user that derives from `agent`; the rule of the language is the same as in `construct`. -/
def UserClass.identifier : UserClass → Ident → Ident
  | .library c, i => agentIdentifier c i
  | .derived b names, i =>
    if isVirtualBase .agent 8 b.origin then (if names then i else [])
    else b.identifier i

/-! ## Parties to contracts -/

/-- A contract with what identifies it: law/contract.hpp:44 `parties`. -/
structure Contract where
  identifier : Ident
  parties : List Ident
deriving DecidableEq, Repr

/-- economics/finance/loan.hpp:56-63. -/
def loan (lender borrower : Ident) : Contract := ⟨propertyIdentifier 0 .loan [], [lender, borrower]⟩

/-- economics/finance/securities_lending_contract.hpp:55-66; the size of the contract is left out. -/
def lending (tag : Nat) (lender borrower security : Ident) : Contract := ⟨propertyIdentifier tag .lending security, [lender, borrower]⟩

/-- economics/finance/bond.hpp:90-95: the issuer is not used, and `security` is given no parties. -/
def bond (i _issuer : Ident) : Contract := ⟨propertyIdentifier 0 .bond i, []⟩

/-- `parties[k]` of a `std::vector`. -/
def party (c : Contract) (k : Nat) : Outcome Ident :=
  match c.parties[k]? with
  | some i => .ok i
  | none => .ub

/-- economics/finance/loan.hpp:46-49. -/
def lender (c : Contract) : Outcome Ident := party c 0

/-- economics/finance/loan.hpp:51-54. -/
def borrower (c : Contract) : Outcome Ident := party c 1

/-- Insertion into a collection of properties (law/property_collection.hpp): an `unordered_map` whose keys are compared by their identifiers; `insert` has no effect for a key that is present. -/
def insertProperty {α : Type} (l : List (Contract × α)) (c : Contract) (v : α) : List (Contract × α) :=
  if l.any fun e => Identity.eq e.1.identifier c.identifier then l else (c, v) :: l

end Esl.Construction
