import Verif.Props.UkfRun

/-! # Coordinates, units and the order of the sigma points in the unscented filter: C159 -/

namespace NavFuse.Props
open Matrix Kalman Spec KA

variable {n m N : ℕ}

/-- a program that uses the unscented filter with nonlinear models: propagation through `f`, measurement through `h` -/
inductive NlOp (n : ℕ) where
  | predict (f : (Fin n → ℝ) → Fin n → ℝ) (Q : Matrix (Fin n) (Fin n) ℝ)
  | update (m : ℕ) (z : Fin m → ℝ) (h : (Fin n → ℝ) → Fin m → ℝ) (R : Matrix (Fin m) (Fin m) ℝ)

/-- every point through `f` -/
def throughPts (f : (Fin n → ℝ) → Fin m → ℝ) (Y : Matrix (Fin n) (Fin N) ℝ) : Matrix (Fin m) (Fin N) ℝ := of fun k i => f (fun l => Y l i) k

/-- how a program chooses weights and points for a state and a covariance -/
abbrev Points (n : ℕ) := (Fin n → ℝ) → Matrix (Fin n) (Fin n) ℝ → (Fin (2 * n + 1) → ℝ) × Matrix (Fin n) (Fin (2 * n + 1)) ℝ

/-- one step: choose points, map them, call the library -/
noncomputable def NlOp.exec (L : LinSolver ℝ) (rule : Points n) (x : Fin n → ℝ) (P : Matrix (Fin n) (Fin n) ℝ) : NlOp n → Out (Bool × DVec ℝ × DMat ℝ)
  | .predict f Q => filterUkfPredict ⟨2 * n + 1, (rule x P).1⟩ ⟨n, 2 * n + 1, throughPts f (rule x P).2⟩ ⟨n, n, Q⟩ ⟨n, x⟩ ⟨n, n, P⟩
  | .update m z h R => filterUkfUpdate L ⟨n, x⟩ ⟨n, n, P⟩ ⟨n, 2 * n + 1, (rule x P).2⟩ ⟨2 * n + 1, (rule x P).1⟩ ⟨m, 2 * n + 1, throughPts h (rule x P).2⟩ ⟨m, z⟩ ⟨m, m, R⟩ ⟨n, x⟩ ⟨n, n, P⟩

/-- a whole run ends with the given state and covariance -/
def RunsTo (L : LinSolver ℝ) (rule : Points n) : List (NlOp n) → (Fin n → ℝ) → Matrix (Fin n) (Fin n) ℝ → (Fin n → ℝ) → Matrix (Fin n) (Fin n) ℝ → Prop
  | [], x, P, y, Y => x = y ∧ P = Y
  | o :: os, x, P, y, Y => ∃ x' P', o.exec L rule x P = .ok (true, ⟨n, x'⟩, ⟨n, n, P'⟩) ∧ RunsTo L rule os x' P' y Y

/-- the weights are nonnegative and sum to one -/
def Points.Weights (rule : Points n) : Prop := ∀ x P, ∑ i, (rule x P).1 i = 1 ∧ ∀ i, 0 ≤ (rule x P).1 i

/-- the rule does the same in other coordinates -/
def Points.Follows (rule : Points n) (T : Matrix (Fin n) (Fin n) ℝ) (c : Fin n → ℝ) : Prop :=
  ∀ x P, rule (T *ᵥ x + c) (T * P * Tᵀ) = ((rule x P).1, mapPts T c (rule x P).2)

/-- the same step in other coordinates, `z = T x + c` with the inverse `S` of `T`; measurements multiplied by an invertible `U` and shifted by `d` -/
inductive NlOp.InCoords (T S : Matrix (Fin n) (Fin n) ℝ) (c : Fin n → ℝ) : NlOp n → NlOp n → Prop
  | predict (f Q) : InCoords T S c (.predict f Q) (.predict (fun z => T *ᵥ f (S *ᵥ (z - c)) + c) (T * Q * Tᵀ))
  | update (m z h R) (U V : Matrix (Fin m) (Fin m) ℝ) (d : Fin m → ℝ) (hU : U * V = 1) :
    InCoords T S c (.update m z h R) (.update m (U *ᵥ z + d) (fun w => U *ᵥ h (S *ᵥ (w - c)) + d) (U * R * Uᵀ))

/-- measurement noise is positive definite -/
def NlOp.Sound : NlOp n → Prop
  | .predict _ _ => True
  | .update _ _ _ R => IsPosCov R

theorem through_change {T S : Matrix (Fin n) (Fin n) ℝ} (hS : S * T = 1) (c : Fin n → ℝ) (U : Matrix (Fin m) (Fin m) ℝ) (d : Fin m → ℝ) (f : (Fin n → ℝ) → Fin m → ℝ)
    (Y : Matrix (Fin n) (Fin N) ℝ) : throughPts (fun z => U *ᵥ f (S *ᵥ (z - c)) + d) (mapPts T c Y) = mapPts U d (throughPts f Y) := by
  ext k i
  have e : S *ᵥ ((fun l => mapPts T c Y l i) - c) = fun l => Y l i := by
    have : ((fun l => mapPts T c Y l i) - c) = T *ᵥ fun l => Y l i := by ext l; simp [mapPts]
    rw [this, mulVec_mulVec, hS, one_mulVec]
  simp only [throughPts, of_apply, e, Pi.add_apply]
  rfl

theorem wscat_change {W : Fin N → ℝ} (T : Matrix (Fin n) (Fin n) ℝ) (c : Fin n → ℝ) (U : Matrix (Fin m) (Fin m) ℝ) (d : Fin m → ℝ) (Y : Matrix (Fin n) (Fin N) ℝ) (a : Fin n → ℝ)
    (Z : Matrix (Fin m) (Fin N) ℝ) (b : Fin m → ℝ) : wscat W (mapPts T c Y) (T *ᵥ a + c) (mapPts U d Z) (U *ᵥ b + d) = T * wscat W Y a Z b * Uᵀ := by
  rw [wscat, dev_mapPts, dev_mapPts, moment_mulVec_left, moment_mulVec_right, wscat, Matrix.mul_assoc]

theorem posCov_conj {R : Matrix (Fin m) (Fin m) ℝ} (hR : IsPosCov R) {U V : Matrix (Fin m) (Fin m) ℝ} (hU : U * V = 1) : IsPosCov (U * R * Uᵀ) := by
  refine ⟨by rw [IsSymm, transpose_mul, transpose_mul, transpose_transpose, hR.1, Matrix.mul_assoc], fun v hv => ?_⟩
  have : v ⬝ᵥ ((U * R * Uᵀ) *ᵥ v) = (Uᵀ *ᵥ v) ⬝ᵥ (R *ᵥ (Uᵀ *ᵥ v)) := by
    rw [← mulVec_mulVec, ← mulVec_mulVec, dotProduct_mulVec, mulVec_transpose, dotProduct_mulVec]
  rw [this]
  refine hR.2 _ fun z => hv ?_
  have := congrArg (fun w => Vᵀ *ᵥ w) z
  simpa only [mulVec_mulVec, ← transpose_mul, hU, transpose_one, one_mulVec, mulVec_zero] using this

theorem ukfS_pd {W : Fin N → ℝ} (hW : ∀ i, 0 ≤ W i) (Z : Matrix (Fin m) (Fin N) ℝ) {R : Matrix (Fin m) (Fin m) ℝ} (hR : IsPosCov R) : (ukfS W Z R).PosDef := by
  rw [ukfS]
  exact (isPosCov_iff.1 hR).add_posSemidef (isCov_iff.1 (moment_psd _ _ fun i => Or.inr (hW i)))

/-- one update in other coordinates -/
theorem ukfUpdate_change {L : LinSolver ℝ} (hL : L.Correct) (x : Fin n → ℝ) (P : Matrix (Fin n) (Fin n) ℝ) (W : Fin (2 * n + 1) → ℝ) (h1 : ∑ i, W i = 1) (h0 : ∀ i, 0 ≤ W i)
    (Y : Matrix (Fin n) (Fin (2 * n + 1)) ℝ) (Z : Matrix (Fin m) (Fin (2 * n + 1)) ℝ) (z : Fin m → ℝ) (R : Matrix (Fin m) (Fin m) ℝ) (hR : IsPosCov R)
    (T : Matrix (Fin n) (Fin n) ℝ) (c : Fin n → ℝ) (U V : Matrix (Fin m) (Fin m) ℝ) (hU : U * V = 1) (d : Fin m → ℝ) (xo xo' : Fin n → ℝ) (Po Po' : Matrix (Fin n) (Fin n) ℝ) :
    ∃ y Q, filterUkfUpdate L ⟨n, x⟩ ⟨n, n, P⟩ ⟨n, 2 * n + 1, Y⟩ ⟨2 * n + 1, W⟩ ⟨m, 2 * n + 1, Z⟩ ⟨m, z⟩ ⟨m, m, R⟩ ⟨n, xo⟩ ⟨n, n, Po⟩ = .ok (true, ⟨n, y⟩, ⟨n, n, Q⟩) ∧
      filterUkfUpdate L ⟨n, T *ᵥ x + c⟩ ⟨n, n, T * P * Tᵀ⟩ ⟨n, 2 * n + 1, mapPts T c Y⟩ ⟨2 * n + 1, W⟩ ⟨m, 2 * n + 1, mapPts U d Z⟩ ⟨m, U *ᵥ z + d⟩ ⟨m, m, U * R * Uᵀ⟩ ⟨n, xo'⟩ ⟨n, n, Po'⟩
        = .ok (true, ⟨n, T *ᵥ y + c⟩, ⟨n, n, T * Q * Tᵀ⟩) := by
  have hm := wmean_mapPts W h1 U d Z
  have hS := ukfS_pd h0 Z hR
  have hS' : ukfS W (mapPts U d Z) (U * R * Uᵀ) = U * ukfS W Z R * Uᵀ := by
    rw [ukfS, hm, wscat_change, ukfS, Matrix.mul_add, Matrix.add_mul]
  have hc : wscat W (mapPts T c Y) (T *ᵥ x + c) (mapPts U d Z) (wmean W (mapPts U d Z)) = T * wscat W Y x Z (wmean W Z) * Uᵀ := by rw [hm, wscat_change]
  have hd : IsUnit (ukfS W Z R).det := pd_det hS
  have hd' : IsUnit (U * ukfS W Z R * Uᵀ).det := pd_det (isPosCov_iff.1 (posCov_conj (isPosCov_iff.2 hS) hU))
  have hUu : IsUnit U.det := by
    have := congrArg det hU
    rw [det_mul, det_one] at this
    exact IsUnit.of_mul_eq_one _ this
  have hUt : IsUnit Uᵀ.det := by rwa [det_transpose]
  refine ⟨_, _, ukfUpdate_R hL x P Y W Z z R xo Po hd, ?_⟩
  rw [ukfUpdate_R hL _ _ _ W _ _ _ xo' Po' (by rw [hS']; exact hd'), hS', hc, hm]
  generalize ukfS W Z R = E at *
  generalize wscat W Y x Z (wmean W Z) = C at *
  have hK : T * C * Uᵀ * (U * E * Uᵀ)⁻¹ = T * (C * E⁻¹) * U⁻¹ := by
    rw [Matrix.mul_inv_rev, Matrix.mul_inv_rev]
    calc T * C * Uᵀ * ((Uᵀ)⁻¹ * (E⁻¹ * U⁻¹)) = T * C * (Uᵀ * (Uᵀ)⁻¹) * (E⁻¹ * U⁻¹) := by simp only [Matrix.mul_assoc]
      _ = _ := by rw [Matrix.mul_nonsing_inv _ hUt, Matrix.mul_one]; simp only [Matrix.mul_assoc]
  have hUi : U⁻¹ * U = 1 := Matrix.nonsing_inv_mul _ hUu
  rw [hK]
  have e1 : U *ᵥ z + d - (U *ᵥ wmean W Z + d) = U *ᵥ (z - wmean W Z) := by rw [add_sub_add_right_eq_sub, ← mulVec_sub]
  have e2 : (T * (C * E⁻¹) * U⁻¹) *ᵥ (U *ᵥ (z - wmean W Z)) = T *ᵥ ((C * E⁻¹) *ᵥ (z - wmean W Z)) := by
    rw [mulVec_mulVec, Matrix.mul_assoc, hUi, Matrix.mul_one, mulVec_mulVec]
  have e3 : T * (C * E⁻¹) * U⁻¹ * (U * E * Uᵀ) * (T * (C * E⁻¹) * U⁻¹)ᵀ = T * (C * E⁻¹ * E * (C * E⁻¹)ᵀ) * Tᵀ := by
    have hUit : Uᵀ * (U⁻¹)ᵀ = 1 := by rw [← transpose_mul, hUi, transpose_one]
    rw [transpose_mul, transpose_mul]
    calc T * (C * E⁻¹) * U⁻¹ * (U * E * Uᵀ) * ((U⁻¹)ᵀ * ((C * E⁻¹)ᵀ * Tᵀ)) = T * (C * E⁻¹) * (U⁻¹ * U) * E * (Uᵀ * (U⁻¹)ᵀ) * (C * E⁻¹)ᵀ * Tᵀ := by simp only [Matrix.mul_assoc]
      _ = _ := by rw [hUi, hUit, Matrix.mul_one, Matrix.mul_one]; simp only [Matrix.mul_assoc]
  rw [e1, e2, e3, mulVec_add, Matrix.mul_sub, Matrix.sub_mul]
  congr 4
  abel

/-- C159: whole runs of the unscented filter with nonlinear models, in other coordinates and units (any invertible `T`, an origin `c`; each measurement with an invertible
matrix and an origin of its own). If the sigma points are chosen accordingly, the estimate and the covariance are the same in the new coordinates. -/
theorem C159_coordinates {L : LinSolver ℝ} (hL : L.Correct) (rule : Points n) (hw : rule.Weights) (T S : Matrix (Fin n) (Fin n) ℝ) (hS : S * T = 1) (c : Fin n → ℝ) (hr : rule.Follows T c)
    (ops ops' : List (NlOp n)) (hops : ∀ o ∈ ops, o.Sound) (hu : List.Forall₂ (NlOp.InCoords T S c) ops ops') (x : Fin n → ℝ) (P : Matrix (Fin n) (Fin n) ℝ) :
    ∃ y Y, RunsTo L rule ops x P y Y ∧ RunsTo L rule ops' (T *ᵥ x + c) (T * P * Tᵀ) (T *ᵥ y + c) (T * Y * Tᵀ) := by
  induction hu generalizing x P with
  | nil => exact ⟨x, P, ⟨rfl, rfl⟩, rfl, rfl⟩
  | @cons o o' os os' h _ ih =>
    have ho := hops o (by simp)
    have hos : ∀ o ∈ os, o.Sound := fun o' h => hops o' (by simp [h])
    obtain ⟨h1, h0⟩ := hw x P
    cases h with
    | predict f Q =>
      obtain ⟨y, Y, r, r'⟩ := ih hos (wmean (rule x P).1 (throughPts f (rule x P).2)) (Q + wscat (rule x P).1 (throughPts f (rule x P).2) (wmean (rule x P).1 (throughPts f (rule x P).2))
        (throughPts f (rule x P).2) (wmean (rule x P).1 (throughPts f (rule x P).2)))
      refine ⟨y, Y, ⟨_, _, ukfPredict_R _ _ Q x P, r⟩, _, _, ?_, r'⟩
      rw [NlOp.exec, hr x P, ukfPredict_R, through_change hS, wmean_mapPts _ h1, wscat_change, Matrix.mul_add, Matrix.add_mul]
    | update m z h R U V d hU =>
      obtain ⟨y1, Y1, e1, e2⟩ := ukfUpdate_change hL x P (rule x P).1 h1 h0 (rule x P).2 (throughPts h (rule x P).2) z R ho T c U V hU d x (T *ᵥ x + c) P (T * P * Tᵀ)
      obtain ⟨y, Y, r, r'⟩ := ih hos y1 Y1
      refine ⟨y, Y, ⟨_, _, e1, r⟩, _, _, ?_, r'⟩
      rw [NlOp.exec, hr x P, through_change hS]
      exact e2

theorem wmean_perm (σ : Equiv.Perm (Fin N)) (W : Fin N → ℝ) (Y : Matrix (Fin n) (Fin N) ℝ) : wmean (W ∘ σ) (Y.submatrix id σ) = wmean W Y :=
  funext fun k => Equiv.sum_comp σ fun i => W i * Y k i

theorem wscat_perm (σ : Equiv.Perm (Fin N)) (W : Fin N → ℝ) (Y : Matrix (Fin n) (Fin N) ℝ) (a : Fin n → ℝ) (Z : Matrix (Fin m) (Fin N) ℝ) (b : Fin m → ℝ) :
    wscat (W ∘ σ) (Y.submatrix id σ) a (Z.submatrix id σ) b = wscat W Y a Z b := by
  ext p q
  exact Equiv.sum_comp σ fun i => W i * ((Y p i - a p) * (Z q i - b q))

/-- C159: the order in which the sigma points are listed does not matter. -/
theorem C159_order {L : LinSolver ℝ} (hL : L.Correct) (σ : Equiv.Perm (Fin (2 * n + 1))) (W : Fin (2 * n + 1) → ℝ) (Y : Matrix (Fin n) (Fin (2 * n + 1)) ℝ) (Q : Matrix (Fin n) (Fin n) ℝ)
    (x xo : Fin n → ℝ) (P Po : Matrix (Fin n) (Fin n) ℝ) (Z : Matrix (Fin m) (Fin (2 * n + 1)) ℝ) (z : Fin m → ℝ) (R : Matrix (Fin m) (Fin m) ℝ)
    (hS : IsPosCov (R + wscat W Z (wmean W Z) Z (wmean W Z))) :
    filterUkfPredict ⟨2 * n + 1, W ∘ σ⟩ ⟨n, 2 * n + 1, Y.submatrix id σ⟩ ⟨n, n, Q⟩ ⟨n, xo⟩ ⟨n, n, Po⟩ = filterUkfPredict ⟨2 * n + 1, W⟩ ⟨n, 2 * n + 1, Y⟩ ⟨n, n, Q⟩ ⟨n, xo⟩ ⟨n, n, Po⟩ ∧
    filterUkfUpdate L ⟨n, x⟩ ⟨n, n, P⟩ ⟨n, 2 * n + 1, Y.submatrix id σ⟩ ⟨2 * n + 1, W ∘ σ⟩ ⟨m, 2 * n + 1, Z.submatrix id σ⟩ ⟨m, z⟩ ⟨m, m, R⟩ ⟨n, xo⟩ ⟨n, n, Po⟩
      = filterUkfUpdate L ⟨n, x⟩ ⟨n, n, P⟩ ⟨n, 2 * n + 1, Y⟩ ⟨2 * n + 1, W⟩ ⟨m, 2 * n + 1, Z⟩ ⟨m, z⟩ ⟨m, m, R⟩ ⟨n, xo⟩ ⟨n, n, Po⟩ := by
  have hd : IsUnit (ukfS W Z R).det := pd_det (isPosCov_iff.1 hS)
  have e : ukfS (W ∘ σ) (Z.submatrix id σ) R = ukfS W Z R := by rw [ukfS, wmean_perm, wscat_perm, ukfS]
  constructor
  · rw [ukfPredict_R, ukfPredict_R, wmean_perm, wscat_perm]
  · rw [ukfUpdate_R hL _ _ _ _ _ _ _ _ _ (by rw [e]; exact hd), ukfUpdate_R hL _ _ _ _ _ _ _ _ _ hd, e, wmean_perm, wscat_perm]

/-- the usual three points of a scalar state with variance `p`: the mean and one and a half standard deviations to either side -/
noncomputable def threePoints : Points 1 := fun x P => (![5 / 9, 2 / 9, 2 / 9], !![x 0, x 0 + 3 / 2 * √(P 0 0), x 0 - 3 / 2 * √(P 0 0)])

/-- non-vacuity of C159: these points have the weights required and follow every change of unit and origin -/
example : threePoints.Weights ∧ threePoints.Follows !![7] ![2] ∧ (!![1 / 7] : Matrix (Fin 1) (Fin 1) ℝ) * !![7] = 1 := by
  refine ⟨fun x P => ⟨?_, ?_⟩, fun x P => ?_, ?_⟩
  · simp [threePoints, Fin.sum_univ_succ]; norm_num
  · intro i; fin_cases i <;> simp [threePoints] <;> norm_num
  · have e : √((!![7] * P * !![7]ᵀ : Matrix (Fin 1) (Fin 1) ℝ) 0 0) = 7 * √(P 0 0) := by
      have : (!![7] * P * !![7]ᵀ : Matrix (Fin 1) (Fin 1) ℝ) 0 0 = 7 ^ 2 * P 0 0 := by simp [Matrix.mul_apply, vecMul, dotProduct]; ring
      rw [this, Real.sqrt_mul (by norm_num), Real.sqrt_sq (by norm_num)]
    refine Prod.ext rfl ?_
    ext k i
    fin_cases k
    fin_cases i <;> simp only [threePoints, e, mapPts] <;> simp [mulVec, dotProduct] <;> ring
  · ext i j; fin_cases i; fin_cases j; norm_num [Matrix.mul_apply]

end NavFuse.Props
