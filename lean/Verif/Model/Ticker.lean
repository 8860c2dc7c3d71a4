import Verif.Model.Identity
/-!
Model of `esl/economics/markets/ticker.hpp`.
-/
namespace Esl.Ticker
open Esl.Identity (Ident)

/-- `ticker` (ticker.hpp:34-62): the property that is bought, and the property that is paid with. -/
structure Ticker where
  base : Ident
  quote : Ident
deriving DecidableEq, Repr

/-- ticker.hpp:64-67 `operator==`. -/
def eq (a b : Ticker) : Bool := Identity.eq a.base b.base && Identity.eq a.quote b.quote

/-- ticker.hpp:69-72 `operator!=`. -/
def ne (a b : Ticker) : Bool := Identity.ne a.base b.base || Identity.ne a.quote b.quote

/-- ticker.hpp:74-78 `operator<`. -/
def lt (a b : Ticker) : Bool := Identity.lt a.base b.base || (Identity.eq a.base b.base && Identity.lt a.quote b.quote)

/-- ticker.hpp:80-83 `operator<=`. -/
def le (a b : Ticker) : Bool := lt a b || eq a b

/-- ticker.hpp:85-89 `operator>`. -/
def gt (a b : Ticker) : Bool := Identity.gt a.base b.base || (Identity.eq a.base b.base && Identity.gt a.quote b.quote)

/-- ticker.hpp:91-94 `operator>=`. -/
def ge (a b : Ticker) : Bool := gt a b || eq a b

/-- ticker.hpp:100-105 `operator<<`. The width `w` of the stream is used by the base (identity.hpp:292-310), which resets it, unless the base has no digits; then it is used by the slash,
which is padded on the left with the fill character of the stream. -/
def render (w : Nat) (fill : Char) (t : Ticker) : List Char :=
  match t.base with
  | [] => List.replicate (w - 1) fill ++ '/' :: Identity.render 0 t.quote
  | _ :: _ => Identity.render w t.base ++ '/' :: Identity.render 0 t.quote

/-- `boost::container::flat_map` with tickers as keys (for example centralized_exchange.hpp:67): a vector that is sorted by `operator<`. `lower_bound` is the place of the first key that is not less. -/
def lowerBound {α : Type} (k : Ticker) : List (Ticker × α) → List (Ticker × α) × List (Ticker × α)
  | [] => ([], [])
  | e :: l => if lt e.1 k then ((e :: (lowerBound k l).1), (lowerBound k l).2) else ([], e :: l)

/-- `flat_map::find`: the element at the lower bound, unless its key is greater. -/
def find {α : Type} (k : Ticker) (l : List (Ticker × α)) : Option α :=
  match (lowerBound k l).2 with
  | [] => none
  | e :: _ => if lt k e.1 then none else some e.2

/-- `flat_map::emplace`: no effect when the key is present. -/
def emplace {α : Type} (k : Ticker) (v : α) (l : List (Ticker × α)) : List (Ticker × α) :=
  match find k l with
  | some _ => l
  | none => (lowerBound k l).1 ++ (k, v) :: (lowerBound k l).2

/-- `flat_map::operator[]` with an assignment. -/
def insertOrAssign {α : Type} (k : Ticker) (v : α) (l : List (Ticker × α)) : List (Ticker × α) :=
  match (lowerBound k l).2 with
  | [] => (lowerBound k l).1 ++ [(k, v)]
  | e :: r => if lt k e.1 then (lowerBound k l).1 ++ (k, v) :: e :: r else (lowerBound k l).1 ++ (e.1, v) :: r

/-- `flat_map::erase` of a key. -/
def erase {α : Type} (k : Ticker) (l : List (Ticker × α)) : List (Ticker × α) :=
  match (lowerBound k l).2 with
  | [] => l
  | e :: r => if lt k e.1 then l else (lowerBound k l).1 ++ r

/-- Changes of a map. -/
inductive Change (α : Type) where
  | emplace (k : Ticker) (v : α)
  | assign (k : Ticker) (v : α)
  | erase (k : Ticker)

def apply {α : Type} (l : List (Ticker × α)) : Change α → List (Ticker × α)
  | .emplace k v => emplace k v l
  | .assign k v => insertOrAssign k v l
  | .erase k => erase k l

end Esl.Ticker
