import Mathlib.Tactic.Attr.Register

/-! Simp sets used to evaluate the model: `rsimp` at ℝ, `xsimp` at XR, `osimp` for outcomes and checked Eigen operations. -/

/-- evaluation of scalar operations at ℝ -/
register_simp_attr rsimp
/-- evaluation of scalar operations at XR on finite values -/
register_simp_attr xsimp
/-- evaluation of outcomes and of the checked vector/matrix operations -/
register_simp_attr osimp
