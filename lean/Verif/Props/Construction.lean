import Verif.Model.Construction
import Verif.Props.Identity
/-!
C123: an agent or property has the identifier that it is constructed with. C124: different contracts are different properties, and know their parties.
-/
namespace Esl.Construction
open Esl.Identity (Ident)

/-- C123 for properties that are given an identifier, other than `security` itself: stocks, bonds, money and assets have it. -/
theorem C123_property_partial (tag : Nat) (i : Ident) (c : Class) (hc : c ∈ [Class.property, .asset, .money, .stock, .bond]) : propertyIdentifier tag c i = i := by
  simp only [List.mem_cons, List.not_mem_nil, or_false] at hc
  rcases hc with h | h | h | h | h <;> subst h <;> rfl

/-- C123: two different stocks or bonds never have the same identifier. -/
theorem C123_property_injective (tag tag' : Nat) (i j : Ident) (c : Class) (hc : c ∈ [Class.stock, .bond]) (h : propertyIdentifier tag c i = propertyIdentifier tag' c j) : i = j := by
  simp only [List.mem_cons, List.not_mem_nil, or_false] at hc
  rcases hc with h' | h' <;> subst h' <;> exact h

/-- C123: cash in different currencies, and lending contracts on different securities, have different identifiers, and neither is the identifier of the other. -/
theorem C123_tagged (t u : Nat) (i j : Ident) :
    (propertyIdentifier t .cash i = propertyIdentifier t .cash j ↔ i = j)
    ∧ (propertyIdentifier t .lending i = propertyIdentifier t .lending j ↔ i = j)
    ∧ (t ≠ u → propertyIdentifier t .cash i ≠ propertyIdentifier u .lending j) := by
  refine ⟨?_, ?_, ?_⟩
  · show (t :: i = t :: j) ↔ _
    simp
  · show (t :: i = t :: j) ↔ _
    simp
  · intro h e
    have e' : t :: i = u :: j := e
    simp at e'
    exact h e'.1

/-- C123 fails for `security`: whatever identifier it is constructed with, it has the empty identifier. -/
theorem C123_counterexample_security (tag : Nat) (i : Ident) : propertyIdentifier tag .security i = [] := rfl

/-- C123 for agents: owners of property, legal persons, organizations, companies, shareholders, bondholders, markets and agents written in Python have the identifier that they are constructed with. -/
theorem C123_agent_partial (i : Ident) (c : Class)
    (hc : c ∈ [Class.agent, .ownerOfProperty, .legalPerson, .organization, .shareholder, .bondholder, .company, .market, .priceSetter, .impactMarket, .exchange, .pythonAgent]) :
    agentIdentifier c i = i := by
  simp only [List.mem_cons, List.not_mem_nil, or_false] at hc
  rcases hc with h | h | h | h | h | h | h | h | h | h | h | h <;> subst h <;> rfl

/-- C123 fails for an owner of one type of property and for a debtor: they have the empty identifier. -/
theorem C123_counterexample_owner (i : Ident) : agentIdentifier .owner i = [] ∧ agentIdentifier .debtor i = [] := ⟨rfl, rfl⟩

/-- C123: an agent of a class of the user has the identifier it is given, if the constructor names `agent` and the class is derived, through any number of classes, from a class that inherits `agent` virtually. -/
theorem C123_user_partial (b : UserClass) (i : Ident) (hb : isVirtualBase .agent 8 b.origin = true) : (UserClass.derived b true).identifier i = i := by
  simp [UserClass.identifier, hb]

/-- C123: the classes of agents that inherit `agent` virtually are all but `agent` itself and the class for Python. -/
theorem C123_virtual (c : Class) :
    isVirtualBase .agent 8 c = true ↔ c ∈ [Class.ownerOfProperty, .owner, .legalPerson, .organization, .debtor, .shareholder, .bondholder, .company, .market, .priceSetter, .impactMarket, .exchange] := by
  cases c <;> decide +kernel

/-- C123: an agent of a class of the user that is derived from `agent` without any of the other classes has the identifier it is given, whether or not its constructor names `agent`. -/
theorem C123_plain (u : UserClass) (i : Ident) (h : u.origin = .agent) : u.identifier i = i := by
  induction u with
  | library c => simp only [UserClass.origin] at h; subst h; rfl
  | derived b n ih =>
    have hb : b.origin = .agent := h
    have e : isVirtualBase .agent 8 b.origin = false := by rw [hb]; rfl
    simp only [UserClass.identifier, e]
    exact ih hb

/-- C123 fails for classes of the user that pass the identifier to their direct base only, which itself passes it on correctly: all agents of such a class have the empty identifier. -/
theorem C123_counterexample_user (b : UserClass) (i : Ident) (hb : isVirtualBase .agent 8 b.origin = true) : (UserClass.derived b false).identifier i = [] := by
  simp [UserClass.identifier, hb]

/-- A user's fund, derived from a user's trader, derived from `shareholder`. -/
example : (UserClass.derived (.derived (.library .shareholder) true) true).identifier [3, 1] = [3, 1] := by decide +kernel
example : (UserClass.derived (.derived (.library .shareholder) true) false).identifier [3, 1] = [] := by decide +kernel
example : (UserClass.derived (.derived (.library .agent) false) false).identifier [3, 1] = [3, 1] := by decide +kernel
example : propertyIdentifier 0 .stock [3, 1] = [3, 1] := by decide +kernel
example : propertyIdentifier 5 .cash [840] ≠ propertyIdentifier 5 .cash [978] := by decide +kernel

/-- C124: a loan knows its lender and borrower. -/
theorem C124_parties_partial (l b : Ident) : lender (loan l b) = .ok l ∧ borrower (loan l b) = .ok b := ⟨rfl, rfl⟩

/-- C124: a lending contract records its lender and borrower. -/
theorem C124_lending_parties (t : Nat) (l b s : Ident) : (lending t l b s).parties = [l, b] := rfl

/-- C124 fails for the issuer of bonds: it is not recorded, bonds by different issuers are the same. -/
theorem C124_counterexample_issuer (i a b : Ident) : bond i a = bond i b ∧ (bond i a).parties = [] := ⟨rfl, rfl⟩

/-- C124 fails for loans: any two loans are the same property. -/
theorem C124_counterexample_loans (l b l' b' : Ident) : (loan l b).identifier = (loan l' b').identifier := rfl

/-- C124 fails for lending contracts: those on the same security are the same property, whoever lends and borrows. -/
theorem C124_counterexample_lending (t : Nat) (l b l' b' s : Ident) : (lending t l b s).identifier = (lending t l' b' s).identifier := rfl

/-- C124: as a consequence an agent cannot hold two loans: if its inventory has one, adding another one has no effect. -/
theorem C124_counterexample_inventory {α : Type} (inv : List (Contract × α)) (l b l' b' : Ident) (v w : α) (h : (loan l b, v) ∈ inv) : insertProperty inv (loan l' b') w = inv := by
  have e : (inv.any fun e => Identity.eq e.1.identifier (loan l' b').identifier) = true := by
    rw [List.any_eq_true]
    exact ⟨_, h, rfl⟩
  exact if_pos e

/-- C124: bonds with different identifiers are held side by side. -/
theorem C124_bonds_partial {α : Type} (inv : List (Contract × α)) (i a : Ident) (v : α) (h : ∀ e ∈ inv, e.1.identifier ≠ i) : insertProperty inv (bond i a) v = (bond i a, v) :: inv := by
  have e : (inv.any fun e => Identity.eq e.1.identifier (bond i a).identifier) = false := by
    rw [List.any_eq_false]
    intro x hx he
    exact h x hx ((Identity.eq_iff _ _).mp he)
  exact if_neg (by rw [e]; decide)

example : insertProperty (insertProperty [] (loan [1] [2]) 10) (loan [3] [4]) 20 = [(loan [1] [2], 10)] := by decide +kernel
example : insertProperty (insertProperty [] (bond [1] [2]) 10) (bond [3] [4]) 20 = [(bond [3] [4], 20), (bond [1] [2], 10)] := by decide +kernel
example : lender (loan [1] [2]) = .ok [1] := by decide +kernel
example : lender (bond [1] [2]) = .ub := by decide +kernel

end Esl.Construction
