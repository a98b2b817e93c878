import Mathlib.Data.List.Permutation
/-!
# Chance: means over equally likely cases
-/

namespace Spec

/-- The mean of `f` over the entries of a list, all equally likely. -/
def mean {α : Type} (l : List α) (f : α → Rat) : Rat := (l.map f).sum / l.length

/-- The mean of `f` over the orders of a list: every one of the orders of its places is equally likely. -/
def meanOfOrders {α : Type} (l : List α) (f : List α → Rat) : Rat := mean l.permutations f

end Spec
