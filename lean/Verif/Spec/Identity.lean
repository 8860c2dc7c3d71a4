/-! Specification of the identity properties, independent of the model. -/
namespace Esl.Identity.Spec

/-- `a` comes strictly before `b` in the lexicographic (dictionary) order of digit sequences: either
`a` is a proper prefix of `b`, or at the first position at which they differ `a` has the smaller
digit. -/
def Before (a b : List Nat) : Prop :=
  (∃ x t, b = a ++ x :: t) ∨
  (∃ p x s y t, a = p ++ x :: s ∧ b = p ++ y :: t ∧ x < y)

end Esl.Identity.Spec
