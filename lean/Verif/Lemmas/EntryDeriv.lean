import Verif.Spec.Motion
import Mathlib.Analysis.ODE.Gronwall
import Mathlib.Analysis.Calculus.Deriv.Mul
import Mathlib.Analysis.Calculus.Deriv.Add
import Mathlib.Analysis.Calculus.Deriv.Pi
import Mathlib.Analysis.Calculus.Deriv.Prod

/-! # Matrices and vectors that depend on time, entry by entry -/

namespace NavFuse.EntryDeriv
open Matrix NavFuse.Spec

variable {n m k : ℕ}

/-- derivative of a matrix -/
def DM (A : ℝ → Matrix (Fin n) (Fin m) ℝ) (A' : Matrix (Fin n) (Fin m) ℝ) (t : ℝ) : Prop := ∀ i j, HasDerivAt (fun τ => A τ i j) (A' i j) t

/-- derivative of a vector -/
def DV (v : ℝ → Fin n → ℝ) (v' : Fin n → ℝ) (t : ℝ) : Prop := ∀ i, HasDerivAt (fun τ => v τ i) (v' i) t

variable {t : ℝ} {A B : ℝ → Matrix (Fin n) (Fin m) ℝ} {A' B' : Matrix (Fin n) (Fin m) ℝ} {u v : ℝ → Fin n → ℝ} {u' v' : Fin n → ℝ}

theorem DM.add (hA : DM A A' t) (hB : DM B B' t) : DM (fun τ => A τ + B τ) (A' + B') t := fun i j => (hA i j).add (hB i j)
theorem DM.sub (hA : DM A A' t) (hB : DM B B' t) : DM (fun τ => A τ - B τ) (A' - B') t := fun i j => (hA i j).sub (hB i j)
theorem DV.sub (hu : DV u u' t) (hv : DV v v' t) : DV (fun τ => u τ - v τ) (u' - v') t := fun i => (hu i).sub (hv i)

theorem DM.mul {B : ℝ → Matrix (Fin m) (Fin k) ℝ} {B' : Matrix (Fin m) (Fin k) ℝ} (hA : DM A A' t) (hB : DM B B' t) :
    DM (fun τ => A τ * B τ) (A' * B t + A t * B') t := fun i j => by
  have h := HasDerivAt.fun_sum (u := Finset.univ) fun l (_ : l ∈ Finset.univ) => (hA i l).mul (hB l j)
  simp only [Matrix.add_apply, mul_apply, ← Finset.sum_add_distrib]
  exact h

theorem DV.cross {ψ : ℝ → Fin 3 → ℝ} {ψ' : Fin 3 → ℝ} (h : DV ψ ψ' t) : DM (fun τ => crossMat (ψ τ)) (crossMat ψ') t := fun i j => by
  have h0 := h 0
  have h1 := h 1
  have h2 := h 2
  fin_cases i <;> fin_cases j
  · exact hasDerivAt_const t _
  · exact h2.neg
  · exact h1
  · exact h2
  · exact hasDerivAt_const t _
  · exact h0.neg
  · exact h1.neg
  · exact h0
  · exact hasDerivAt_const t _

/-- all entries of a matrix and two vectors are at most `N` -/
def Within (N : ℝ) (A : Matrix (Fin 3) (Fin 3) ℝ) (v p : Fin 3 → ℝ) : Prop := (∀ i j, |A i j| ≤ N) ∧ (∀ i, |v i| ≤ N) ∧ ∀ i, |p i| ≤ N

theorem gronwall_le {δ K ε x T : ℝ} (hK : 1 ≤ K) (hδ : 0 ≤ δ) (hε : 0 ≤ ε) (hx : x ≤ T) : gronwallBound δ K ε x ≤ (δ + ε) * Real.exp (K * T) := by
  rw [gronwallBound_of_K_ne_0 (by linarith)]
  have h1 : Real.exp (K * x) ≤ Real.exp (K * T) := Real.exp_le_exp.2 (mul_le_mul_of_nonneg_left hx (by linarith))
  have h2 : ε / K ≤ ε := div_le_self hε hK
  have h3 : 0 ≤ ε / K := div_nonneg hε (by linarith)
  have h4 := Real.exp_pos (K * x)
  have h5 := Real.exp_pos (K * T)
  have e1 := mul_le_mul_of_nonneg_left h1 hδ
  have e2 : ε / K * (Real.exp (K * x) - 1) ≤ ε / K * Real.exp (K * T) := mul_le_mul_of_nonneg_left (by linarith) h3
  have e3 := mul_le_mul_of_nonneg_right h2 h5.le
  simp only
  linarith

/-- Gronwall's inequality for a matrix and two vectors -/
theorem grow {T δ K ε : ℝ} (hK : 1 ≤ K) (hδ : 0 ≤ δ) (hε : 0 ≤ ε) {A A' : ℝ → Matrix (Fin 3) (Fin 3) ℝ} {v v' p p' : ℝ → Fin 3 → ℝ}
    (hA : ∀ t ∈ Set.Icc 0 T, DM A (A' t) t) (hv : ∀ t ∈ Set.Icc 0 T, DV v (v' t) t) (hp : ∀ t ∈ Set.Icc 0 T, DV p (p' t) t) (h0 : Within δ (A 0) (v 0) (p 0))
    (hb : ∀ t ∈ Set.Icc 0 T, ∀ N, 0 ≤ N → Within N (A t) (v t) (p t) → Within (K * N + ε) (A' t) (v' t) (p' t)) :
    ∀ t ∈ Set.Icc 0 T, Within ((δ + ε) * Real.exp (K * T)) (A t) (v t) (p t) := by
  let f : ℝ → (Fin 3 → Fin 3 → ℝ) × (Fin 3 → ℝ) × (Fin 3 → ℝ) := fun t => (A t, v t, p t)
  let f' : ℝ → (Fin 3 → Fin 3 → ℝ) × (Fin 3 → ℝ) × (Fin 3 → ℝ) := fun t => (A' t, v' t, p' t)
  have key : ∀ (N : ℝ), 0 ≤ N → ∀ (B : Matrix (Fin 3) (Fin 3) ℝ) (x y : Fin 3 → ℝ), ‖((B, x, y) : (Fin 3 → Fin 3 → ℝ) × (Fin 3 → ℝ) × (Fin 3 → ℝ))‖ ≤ N ↔ Within N B x y := by
    intro N hN B x y
    rw [norm_prod_le_iff, norm_prod_le_iff, pi_norm_le_iff_of_nonneg hN, pi_norm_le_iff_of_nonneg hN, pi_norm_le_iff_of_nonneg hN]
    refine and_congr (forall_congr' fun i => ?_) (and_congr Iff.rfl Iff.rfl)
    exact pi_norm_le_iff_of_nonneg hN
  have hd : ∀ t ∈ Set.Icc 0 T, HasDerivAt f (f' t) t := fun t ht =>
    (hasDerivAt_pi.2 fun i => hasDerivAt_pi.2 fun j => hA t ht i j).prodMk ((hasDerivAt_pi.2 fun i => hv t ht i).prodMk (hasDerivAt_pi.2 fun i => hp t ht i))
  have hg := norm_le_gronwallBound_of_norm_deriv_right_le (f := f) (f' := f') (δ := δ) (K := K) (ε := ε) (a := 0) (b := T)
    (fun t ht => (hd t ht).continuousAt.continuousWithinAt) (fun t ht => (hd t (Set.Ico_subset_Icc_self ht)).hasDerivWithinAt) ((key δ hδ _ _ _).2 h0)
    fun t ht => by
      have n0 : 0 ≤ ‖f t‖ := norm_nonneg _
      exact (key _ (by positivity) _ _ _).2 (hb t (Set.Ico_subset_Icc_self ht) _ n0 ((key _ n0 _ _ _).1 le_rfl))
  intro t ht
  have h1 := (hg t ht).trans (gronwall_le hK hδ hε (by linarith [ht.2] : t - 0 ≤ T))
  exact (key _ (by positivity) _ _ _).1 h1

end NavFuse.EntryDeriv
