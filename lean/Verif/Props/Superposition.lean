import Verif.Props.KalmanUncoupled

/-! # C200: the covariance does not depend on the data, and the estimate is linear in them -/

namespace NavFuse.Props
open Matrix Kalman Spec KA

variable {α : Type} [Add α] [Sub α] [Mul α] [Div α] [Neg α] [Flt α] {n : ℕ}

/-- a call of the filter in any arithmetic, with two different values of the measurement -/
inductive TwinOp (α : Type) (n : ℕ) : Type
  | predict (F Q : Matrix (Fin n) (Fin n) α)
  | update (m : ℕ) (z w : Fin m → α) (H : Matrix (Fin m) (Fin n) α) (R : Matrix (Fin m) (Fin m) α)

/-- perform one call with the measurement that `pick` selects; stop when a call reports failure -/
def TwinOp.exec (L : LinSolver α) (pick : ∀ m, (Fin m → α) → (Fin m → α) → Fin m → α) (s : DVec α × DMat α) : TwinOp α n → Out (DVec α × DMat α)
  | .predict F Q => do
    let r ← filterPredict s.1 s.2 ⟨n, n, F⟩ ⟨n, n, Q⟩ s.1 s.2
    if r.1 then .ok r.2 else .error .throws
  | .update m z w H R => do
    let r ← filterUpdate L s.1 s.2 ⟨m, pick m z w⟩ ⟨m, n, H⟩ ⟨m, m, R⟩ s.1 s.2
    if r.1 then .ok r.2 else .error .throws

/-- a whole run -/
def runTwin (L : LinSolver α) (pick : ∀ m, (Fin m → α) → (Fin m → α) → Fin m → α) : List (TwinOp α n) → DVec α × DMat α → Out (DVec α × DMat α)
  | [], s => .ok s
  | o :: os, s => do let s' ← o.exec L pick s; runTwin L pick os s'

/-- C200: the covariance does not depend on the data. Two runs with the same models and starting covariance, but different starting estimates and different measured values, both succeed
and report the same covariance to the last bit: in every arithmetic and whatever the solver does. -/
theorem C200_covariance (L : LinSolver α) (ops : List (TwinOp α n)) (x y : Fin n → α) (P : Matrix (Fin n) (Fin n) α) :
    ∃ x' y' P', runTwin L (fun _ z _ => z) ops (⟨n, x⟩, ⟨n, n, P⟩) = .ok (⟨n, x'⟩, ⟨n, n, P'⟩)
      ∧ runTwin L (fun _ _ w => w) ops (⟨n, y⟩, ⟨n, n, P⟩) = .ok (⟨n, y'⟩, ⟨n, n, P'⟩) := by
  induction ops generalizing x y P with
  | nil => exact ⟨x, y, P, rfl, rfl⟩
  | cons o ops ih =>
    cases o with
    | predict F Q =>
      obtain ⟨x', y', P', h, k⟩ := ih (mvec F x) (mvec F y) (madd (mmul (mmul F P) (mtr F)) Q)
      refine ⟨x', y', P', ?_, ?_⟩
      · rw [runTwin, TwinOp.exec, predict_fit]; exact h
      · rw [runTwin, TwinOp.exec, predict_fit]; exact k
    | update m z w H R =>
      obtain ⟨x', y', P', h, k⟩ := ih (vadd x (mvec (gainC L P H R) (vsub z (mvec H x)))) (vadd y (mvec (gainC L P H R) (vsub w (mvec H y))))
        (madd (mmul (mmul (msub mid (mmul (gainC L P H R) H)) P) (mtr (msub mid (mmul (gainC L P H R) H)))) (mmul (mmul (gainC L P H R) R) (mtr (gainC L P H R))))
      refine ⟨x', y', P', ?_, ?_⟩
      · rw [runTwin, TwinOp.exec, update_fit]; exact h
      · rw [runTwin, TwinOp.exec, update_fit]; exact k

/-- C200: superposition. In exact arithmetic the run that starts from `a x + b y` and is given the measurements `a z + b w` returns `a x' + b y'`, where `x'` and `y'` are the results
of the runs with `x`, `z` and with `y`, `w`; the covariances agree. -/
theorem C200_superposition (L : LinSolver ℝ) (a b : ℝ) (ops : List (TwinOp ℝ n)) (x y : Fin n → ℝ) (P : Matrix (Fin n) (Fin n) ℝ) :
    ∃ x' y' P', runTwin L (fun _ z _ => z) ops (⟨n, x⟩, ⟨n, n, P⟩) = .ok (⟨n, x'⟩, ⟨n, n, P'⟩)
      ∧ runTwin L (fun _ _ w => w) ops (⟨n, y⟩, ⟨n, n, P⟩) = .ok (⟨n, y'⟩, ⟨n, n, P'⟩)
      ∧ runTwin L (fun _ z w => a • z + b • w) ops (⟨n, a • x + b • y⟩, ⟨n, n, P⟩) = .ok (⟨n, a • x' + b • y'⟩, ⟨n, n, P'⟩) := by
  induction ops generalizing x y P with
  | nil => exact ⟨x, y, P, rfl, rfl, rfl⟩
  | cons o ops ih =>
    cases o with
    | predict F Q =>
      obtain ⟨x', y', P', h, k, l⟩ := ih (F *ᵥ x) (F *ᵥ y) (F * P * Fᵀ + Q)
      refine ⟨x', y', P', ?_, ?_, ?_⟩
      · rw [runTwin, TwinOp.exec, predict_R]; exact h
      · rw [runTwin, TwinOp.exec, predict_R]; exact k
      · rw [runTwin, TwinOp.exec, predict_R, mulVec_add, mulVec_smul, mulVec_smul]; exact l
    | update m z w H R =>
      obtain ⟨x', y', P', h, k, l⟩ := ih (x + (P * Hᵀ * L.inv (H * P * Hᵀ + R)) *ᵥ (z - H *ᵥ x)) (y + (P * Hᵀ * L.inv (H * P * Hᵀ + R)) *ᵥ (w - H *ᵥ y))
        (joseph P H R (P * Hᵀ * L.inv (H * P * Hᵀ + R)))
      refine ⟨x', y', P', ?_, ?_, ?_⟩
      · rw [runTwin, TwinOp.exec, update_solver]; exact h
      · rw [runTwin, TwinOp.exec, update_solver]; exact k
      · rw [runTwin, TwinOp.exec, update_solver]
        rw [← l]
        have e : a • x + b • y + (P * Hᵀ * L.inv (H * P * Hᵀ + R)) *ᵥ (a • z + b • w - H *ᵥ (a • x + b • y))
            = a • (x + (P * Hᵀ * L.inv (H * P * Hᵀ + R)) *ᵥ (z - H *ᵥ x)) + b • (y + (P * Hᵀ * L.inv (H * P * Hᵀ + R)) *ᵥ (w - H *ᵥ y)) := by
          have : a • z + b • w - H *ᵥ (a • x + b • y) = a • (z - H *ᵥ x) + b • (w - H *ᵥ y) := by
            rw [mulVec_add, mulVec_smul, mulVec_smul, smul_sub, smul_sub]; abel
          rw [this, mulVec_add, mulVec_smul, mulVec_smul, smul_add, smul_add]; abel
        rw [← e]; rfl

/-- a prediction and a measurement with two different values -/
example : ([.predict 1 1, .update 1 ![3] ![5] 1 1] : List (TwinOp ℝ 1)).length = 2 ∧ (![3] : Fin 1 → ℝ) ≠ ![5] := ⟨rfl, fun h => by
  have := congrFun h 0
  norm_num at this⟩

end NavFuse.Props
