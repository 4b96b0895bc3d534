import Verif.Lemmas.RungeKutta
import Verif.Props.NavUtils
import Mathlib.Analysis.SpecialFunctions.Sqrt
import Mathlib.Analysis.SpecialFunctions.Trigonometric.Deriv
import Mathlib.Analysis.Calculus.ContDiff.Operations

/-! # Smoothness of the navigation equations -/

namespace NavFuse.Rk
open Matrix Spec NavUtils

variable {V : Type*} [NormedAddCommGroup V] [NormedSpace ℝ V] {n : WithTop ℕ∞}

theorem contDiff_w {f : V → ℝ} {x : V} (hf : ContDiffAt ℝ n f x) : ContDiffAt ℝ n (fun x => Real.sqrt (1 - ecc2 * Real.sin (f x) ^ 2)) x :=
  ContDiffAt.sqrt (contDiffAt_const.sub (contDiffAt_const.mul (hf.sin.pow 2))) (w_pos _).ne'

theorem contDiff_meridian {f : V → ℝ} {x : V} (hf : ContDiffAt ℝ n f x) : ContDiffAt ℝ n (fun x => meridian (f x)) x :=
  contDiffAt_const.div ((contDiff_w hf).pow 3) (pow_ne_zero _ (Real.sqrt_pos.2 (w_pos _)).ne')

theorem contDiff_primeVertical {f : V → ℝ} {x : V} (hf : ContDiffAt ℝ n f x) : ContDiffAt ℝ n (fun x => primeVertical (f x)) x :=
  contDiffAt_const.div (contDiff_w hf) (Real.sqrt_pos.2 (w_pos _)).ne'

theorem contDiffAt_nav {s g : V → Fin 3 → ℝ} {y : V → Fin 6 → ℝ} {x : V} (hs : ContDiffAt ℝ n s x) (hg : ContDiffAt ℝ n g x) (hy : ContDiffAt ℝ n y x)
    (hr : RegularPos (y x 0) (y x 2)) : ContDiffAt ℝ n (fun x => navRates (s x) (g x) (y x)) x := by
  rw [contDiffAt_pi] at hs hg hy ⊢
  have hlat := (hy 3).div ((contDiff_meridian (hy 0)).add (hy 2)) hr.merid
  have hlon := (hy 4).div (((contDiff_primeVertical (hy 0)).add (hy 2)).mul (hy 0).cos) (mul_ne_zero hr.prime hr.pole)
  have hk : ∀ c : ℝ, ContDiffAt ℝ n (fun _ : V => c) x := fun c => contDiffAt_const
  intro i
  fin_cases i <;> simp [navRates, posRates, velRates, earthVec, transportVec, crossProduct]
  · exact hlat
  · exact hlon
  · exact (hy 5).neg
  · exact ((hs 0).add (hg 0)).sub (((hlat.mul (hy 5)).neg).sub (((((hk 2).mul ((hk _).mul (hy 0).sin)).neg).add (hlon.mul (hy 0).sin).neg).mul (hy 4)))
  · exact ((hs 1).add (hg 1)).sub (((((hk 2).mul ((hk _).mul (hy 0).sin)).neg.add (hlon.mul (hy 0).sin).neg).mul (hy 3)).sub
      ((((hk 2).mul ((hk _).mul (hy 0).cos)).add (hlon.mul (hy 0).cos)).mul (hy 5)))
  · exact ((hs 2).add (hg 2)).sub (((((hk 2).mul ((hk _).mul (hy 0).cos)).add (hlon.mul (hy 0).cos)).mul (hy 4)).add (hlat.mul (hy 3)))

theorem analyticAt_nav (s g : Fin 3 → ℝ) (y : Fin 6 → ℝ) (hr : RegularPos (y 0) (y 2)) : AnalyticAt ℝ (navRates s g) y :=
  (contDiffAt_nav (x := y) contDiffAt_const contDiffAt_const contDiffAt_id hr : ContDiffAt ℝ ⊤ (navRates s g) y).analyticAt

end NavFuse.Rk
