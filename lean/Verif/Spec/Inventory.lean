/-! Specification vocabulary for inventories and transfers. -/
namespace Esl.Inventory.Spec

/-- The amount of property `k` held according to a map from properties to amounts. -/
def held (m : Nat → Option Nat) (k : Nat) : Nat := (m k).getD 0

/-- The amount of property `k` in a bundle. -/
def inBundle (b : List (Nat × Nat)) (k : Nat) : Nat := ((b.filter fun x => x.1 = k).map (·.2)).sum

/-- A bundle lists every property at most once (it is the content of a map). -/
def IsMap (b : List (Nat × Nat)) : Prop := (b.map (·.1)).Nodup

/-- The amount of property `k` held by the owners `0 .. n-1` together. -/
def total (n : Nat) (w : Nat → Nat → Option Nat) (k : Nat) : Nat :=
  ((List.range n).map fun o => held (w o) k).sum

end Esl.Inventory.Spec
