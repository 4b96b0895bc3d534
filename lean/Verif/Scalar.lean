/-! # Scalars

The arithmetic that NavFuse performs on `double`s, as bare operations without laws.  The model in `Verif/Model` is written once over
an arbitrary type `α` carrying these operations, and then used at ℝ (`Verif/RealInst.lean`), at the reals extended with NaN and the
infinities (`Verif/XR.lean`), at rounded reals (`Verif/Rnd.lean`) and at IEEE `Float` (`Verif/Conformance.lean`).

`+ - * /` and unary minus come from Lean's own classes, so that at ℝ they are literally Mathlib's. -/

namespace NavFuse

/-- a way of bracketing a sum of terms indexed by `ι` -/
inductive SumTree (ι : Type) where
  | leaf (i : ι)
  | node (s t : SumTree ι)

namespace SumTree
variable {ι κ : Type}

/-- the sum, evaluated in this order -/
def eval {α : Type} [Add α] (f : ι → α) : SumTree ι → α
  | leaf i => f i
  | node s t => s.eval f + t.eval f

/-- the terms, from left to right -/
def leaves : SumTree ι → List ι
  | leaf i => [i]
  | node s t => s.leaves ++ t.leaves

/-- the same bracketing of other terms -/
def map (g : ι → κ) : SumTree ι → SumTree κ
  | leaf i => leaf (g i)
  | node s t => node (s.map g) (t.map g)

theorem leaves_map (g : ι → κ) (t : SumTree ι) : (t.map g).leaves = t.leaves.map g := by
  induction t with
  | leaf i => rfl
  | node s t hs ht => simp [map, leaves, hs, ht]

end SumTree

/-- An order of evaluation for the sums inside Eigen's products, `dot` and `squaredNorm`: for every number of terms a bracketing in which each
term occurs once.  Eigen chooses it by type, size, storage order and vector instruction set. -/
structure SumOrder where
  tree : (n : Nat) → SumTree (Fin (n + 1))
  perm : ∀ n, ((tree n).leaves).Perm (List.finRange (n + 1))

/-- from left to right -/
def SumOrder.leftTree : (n : Nat) → SumTree (Fin (n + 1))
  | 0 => .leaf 0
  | n + 1 => .node ((leftTree n).map Fin.castSucc) (.leaf (Fin.last (n + 1)))

theorem SumOrder.leftTree_leaves (n : Nat) : (leftTree n).leaves = List.finRange (n + 1) := by
  induction n with
  | zero => rfl
  | succ n ih => rw [leftTree, SumTree.leaves, SumTree.leaves_map, ih, List.finRange_succ_last (n := n + 1)]; rfl

/-- sums from left to right -/
def SumOrder.left : SumOrder := ⟨leftTree, fun n => by rw [leftTree_leaves]⟩

/-- The `<cmath>` functions, literals, comparisons and conversions on `double` that `/repo/src` uses. -/
class Flt (α : Type) where
  /-- a numeric literal such as `30.6001` -/
  lit : Rat → α
  /-- `(double) n` for an integer `n` -/
  ofInt : Int → α
  /-- `M_PI` -/
  pi : α
  sqrt : α → α
  sin : α → α
  cos : α → α
  tan : α → α
  asin : α → α
  atan : α → α
  floor : α → α
  abs : α → α
  /-- `atan2 y x` -/
  atan2 : α → α → α
  fmod : α → α → α
  /-- `std::pow(x, n)` with an integer exponent -/
  powi : α → Nat → α
  /-- `std::pow(x, q)` with a fractional exponent -/
  powq : α → Rat → α
  /-- conversion `double → long int`; `none` when the value is not representable (undefined behaviour) -/
  toLong : α → Option Int
  /-- `x < y` -/
  lt : α → α → Bool
  /-- `x <= y` -/
  le : α → α → Bool
  /-- `x == y` -/
  eq : α → α → Bool
  /-- the order in which sums are evaluated -/
  order : SumOrder

end NavFuse
