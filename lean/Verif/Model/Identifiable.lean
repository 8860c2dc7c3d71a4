import Verif.Model.Construction
/-!
# Model of `esl/simulation/identifiable_as.hpp`

A class `T` that has `identifiable_as<T>` among its bases can be converted to `identity<T>`. The conversion casts the address of the base `identifiable_as<T>` with `dynamic_cast<const T *>` and follows the result.
In C++ such a cast looks at the dynamic type of the object, which is, while a constructor or destructor runs, the class of that constructor or destructor; it gives a null pointer if that class is not `T`, or derived from `T`.
-/
namespace Esl.Identifiable
open Esl.Identity (Ident)
open Esl.Construction (Class bases)

/-- The classes of the library with agents and properties at their root. -/
def classes : List Class :=
  [.property, .asset, .money, .cash, .commodity, .contract, .security, .stock, .bond, .loan, .lending, .agent, .ownerOfProperty, .owner, .legalPerson, .organization, .debtor, .shareholder, .bondholder, .company, .market,
   .priceSetter, .impactMarket, .exchange, .pythonAgent]

/-- The argument of `identifiable_as` among the direct bases of a class. For `property` and `agent` it is a base of `entity<property>` and `entity<agent>` (simulation/entity.hpp:64-66). -/
def identifiable : Class → Option Class
  | .property => some .property -- law/property.hpp:38
  | .agent => some .agent -- agent.hpp:40
  | .ownerOfProperty => some .ownerOfProperty -- economics/owner.hpp:59
  | .owner => some .owner -- economics/owner.hpp:174
  | .shareholder => some .shareholder -- economics/finance/shareholder.hpp:56
  | .bondholder => some .bondholder -- economics/finance/bondholder.hpp:56
  | .company => some .company -- economics/company.hpp:62
  | .market => some .market -- economics/markets/market.hpp:46
  | .exchange => some .exchange -- economics/markets/centralized_exchange.hpp:61
  | .bond => some .bond -- economics/finance/bond.hpp:62
  | _ => none

/-- Whether the class is `t` or derived from it, through at most `fuel` classes. The hierarchy is less than eight deep. -/
def derives (t : Class) : Nat → Class → Bool
  | 0, _ => false
  | fuel + 1, c => c == t || (bases c).any fun b => derives t fuel b.1

/-- A type: a class of the library, or a class of the user, which is named by a number. -/
inductive Kind where
  | library (c : Class)
  | user (name : Nat)
deriving DecidableEq, Repr

/-- A class of the user: its name, and the argument of `identifiable_as` among its bases, if there is one. Nothing in identifiable_as.hpp:55-62 makes sure that the argument is the class itself. -/
structure Level where
  name : Nat
  argument : Option Kind
deriving DecidableEq, Repr

/-- Whether a class is a type or derived from it: a class of the user is the first of `levels`, each of which derives from the next, and the last from `origin`. Without levels it is `origin`.
Simplification: a class of the user has one base besides `identifiable_as`. -/
def isA (origin : Class) (levels : List Level) : Kind → Bool
  | .library t => derives t 8 origin
  | .user n => levels.any fun l => l.name == n

/-- The types that the compiler can convert an object of this static type to: one for each base `identifiable_as`, direct or not. -/
def offered (origin : Class) (levels : List Level) : List Kind :=
  levels.filterMap (·.argument) ++ ((classes.filter fun c => derives c 8 origin).filterMap identifiable).map .library

/-- simulation/identifiable_as.hpp:64-78: the conversion to `identity<t>`. `dynamic` is the list of classes of the user of the dynamic type; `identifier` is the identifier in the entity. Following a null pointer is undefined. -/
def convert (identifier : Ident) (origin : Class) (dynamic : List Level) (t : Kind) : Outcome Ident :=
  if isA origin dynamic t then .ok identifier else .ub

end Esl.Identifiable
