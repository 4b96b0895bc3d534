import Verif.Props.Kalman

/-! # C197: states that have nothing to do with each other -/

namespace NavFuse.Props
open Matrix Kalman Spec KA

variable {n p : ℕ}

/-- a call of a filter for two groups of states: a prediction of both, each by its own model, or a measurement of the first group alone -/
inductive PairOp (n p : ℕ) : Type
  | predict (F1 Q1 : Matrix (Fin n) (Fin n) ℝ) (F2 Q2 : Matrix (Fin p) (Fin p) ℝ)
  | update (m : ℕ) (z : Fin m → ℝ) (H : Matrix (Fin m) (Fin n) ℝ) (R : Matrix (Fin m) (Fin m) ℝ)

/-- measurement matrix for all states: the second group is not measured -/
def firstOnly {m : ℕ} (H : Matrix (Fin m) (Fin n) ℝ) (p : ℕ) : Matrix (Fin m) (Fin (n + p)) ℝ := of fun i => Fin.append (H i) 0

/-- the call of the joint filter -/
def PairOp.joint : PairOp n p → FilterOp (n + p)
  | .predict F1 Q1 F2 Q2 => .predict (blockDiag2 F1 F2) (blockDiag2 Q1 Q2)
  | .update m z H R => .update m z (firstOnly H p) R
/-- the call of a filter for the first group -/
def PairOp.first : PairOp n p → FilterOp n
  | .predict F1 Q1 _ _ => .predict F1 Q1
  | .update m z H R => .update m z H R
/-- the calls of a filter for the second group -/
def PairOp.second : PairOp n p → List (FilterOp p)
  | .predict _ _ F2 Q2 => [.predict F2 Q2]
  | .update _ _ _ _ => []

section blocks
variable {m : ℕ}

theorem firstOnly_tr (H : Matrix (Fin m) (Fin n) ℝ) : (firstOnly H p)ᵀ = stackM Hᵀ 0 := by
  ext i j
  refine Fin.addCases (fun i => ?_) (fun i => ?_) i <;> simp [firstOnly, stackM]

theorem firstOnly_mulVec (H : Matrix (Fin m) (Fin n) ℝ) (a : Fin n → ℝ) (b : Fin p → ℝ) : firstOnly H p *ᵥ stackV a b = H *ᵥ a := by
  ext i; simp [firstOnly, stackV, mulVec, dotProduct, Fin.sum_univ_add]

theorem firstOnly_mul_blockDiag (H : Matrix (Fin m) (Fin n) ℝ) (A : Matrix (Fin n) (Fin n) ℝ) (B : Matrix (Fin p) (Fin p) ℝ) :
    firstOnly H p * blockDiag2 A B = firstOnly (H * A) p := by
  ext i j
  refine Fin.addCases (fun j => ?_) (fun j => ?_) j <;> simp [firstOnly, blockDiag2, mul_apply, Fin.sum_univ_add]

theorem firstOnly_mul_stackM {k : ℕ} (H : Matrix (Fin m) (Fin n) ℝ) (A : Matrix (Fin n) (Fin k) ℝ) : firstOnly H p * stackM A 0 = H * A := by
  ext i j; simp [firstOnly, stackM, mul_apply, Fin.sum_univ_add]

theorem blockDiag_mul_stackM {k : ℕ} (A : Matrix (Fin n) (Fin n) ℝ) (B : Matrix (Fin p) (Fin p) ℝ) (C : Matrix (Fin n) (Fin k) ℝ) :
    blockDiag2 A B * stackM C 0 = stackM (A * C) 0 := by
  ext i j
  refine Fin.addCases (fun i => ?_) (fun i => ?_) i <;> simp [blockDiag2, stackM, mul_apply, Fin.sum_univ_add]

theorem stackM_mul {k : ℕ} (A : Matrix (Fin n) (Fin m) ℝ) (C : Matrix (Fin m) (Fin k) ℝ) : stackM A (0 : Matrix (Fin p) (Fin m) ℝ) * C = stackM (A * C) 0 := by
  ext i j
  refine Fin.addCases (fun i => ?_) (fun i => ?_) i <;> simp [stackM, mul_apply]

theorem stackM_mul_firstOnly (A : Matrix (Fin n) (Fin m) ℝ) (H : Matrix (Fin m) (Fin n) ℝ) :
    stackM A (0 : Matrix (Fin p) (Fin m) ℝ) * firstOnly H p = blockDiag2 (A * H) 0 := by
  ext i j
  refine Fin.addCases (fun i => ?_) (fun i => ?_) i <;> refine Fin.addCases (fun j => ?_) (fun j => ?_) j <;>
    simp [stackM, firstOnly, blockDiag2, mul_apply]

theorem stackM_zero_mulVec (A : Matrix (Fin n) (Fin m) ℝ) (v : Fin m → ℝ) : stackM A (0 : Matrix (Fin p) (Fin m) ℝ) *ᵥ v = stackV (A *ᵥ v) 0 := by
  ext i
  refine Fin.addCases (fun i => ?_) (fun i => ?_) i <;> simp [stackM, stackV, mulVec, dotProduct]

theorem blockDiag_add (A C : Matrix (Fin n) (Fin n) ℝ) (B D : Matrix (Fin p) (Fin p) ℝ) : blockDiag2 A B + blockDiag2 C D = blockDiag2 (A + C) (B + D) := by
  ext i j
  refine Fin.addCases (fun i => ?_) (fun i => ?_) i <;> refine Fin.addCases (fun j => ?_) (fun j => ?_) j <;> simp [blockDiag2]

theorem blockDiag_sub (A C : Matrix (Fin n) (Fin n) ℝ) (B D : Matrix (Fin p) (Fin p) ℝ) : blockDiag2 A B - blockDiag2 C D = blockDiag2 (A - C) (B - D) := by
  ext i j
  refine Fin.addCases (fun i => ?_) (fun i => ?_) i <;> refine Fin.addCases (fun j => ?_) (fun j => ?_) j <;> simp [blockDiag2]

theorem stackV_add (a a' : Fin n → ℝ) (b b' : Fin p → ℝ) : stackV a b + stackV a' b' = stackV (a + a') (b + b') := by
  ext i
  refine Fin.addCases (fun i => ?_) (fun i => ?_) i <;> simp [stackV]
end blocks

/-- the update with the gain that the solver's inverse gives -/
theorem update_solver {m : ℕ} (L : LinSolver ℝ) (x : Fin n → ℝ) (P : Matrix (Fin n) (Fin n) ℝ) (z : Fin m → ℝ) (H : Matrix (Fin m) (Fin n) ℝ) (R : Matrix (Fin m) (Fin m) ℝ)
    (xo : Fin n → ℝ) (Po : Matrix (Fin n) (Fin n) ℝ) :
    filterUpdate L ⟨n, x⟩ ⟨n, n, P⟩ ⟨m, z⟩ ⟨m, n, H⟩ ⟨m, m, R⟩ ⟨n, xo⟩ ⟨n, n, Po⟩
      = .ok (true, ⟨n, x + (P * Hᵀ * L.inv (H * P * Hᵀ + R)) *ᵥ (z - H *ᵥ x)⟩, ⟨n, n, joseph P H R (P * Hᵀ * L.inv (H * P * Hᵀ + R))⟩) := by
  rw [update_fit]; simp only [gainC, rsimp, joseph]

/-- C197: states that are uncorrelated with the others at the start, are predicted by a model of their own and are not measured do not influence the others, and are not influenced by
the measurements of them: the filter for all states returns what two separate filters return, for every sequence of calls and whatever the solver does. -/
theorem C197_uncoupled (L : LinSolver ℝ) (ops : List (PairOp n p)) (x1 x1' : Fin n → ℝ) (P1 P1' : Matrix (Fin n) (Fin n) ℝ) (x2 x2' : Fin p → ℝ)
    (P2 P2' : Matrix (Fin p) (Fin p) ℝ) (h1 : runFilter L (ops.map PairOp.first) (⟨n, x1⟩, ⟨n, n, P1⟩) = .ok (⟨n, x1'⟩, ⟨n, n, P1'⟩))
    (h2 : runFilter L (ops.flatMap PairOp.second) (⟨p, x2⟩, ⟨p, p, P2⟩) = .ok (⟨p, x2'⟩, ⟨p, p, P2'⟩)) :
    runFilter L (ops.map PairOp.joint) (⟨n + p, stackV x1 x2⟩, ⟨n + p, n + p, blockDiag2 P1 P2⟩) = .ok (⟨n + p, stackV x1' x2'⟩, ⟨n + p, n + p, blockDiag2 P1' P2'⟩) := by
  have ep : ∀ (k : ℕ) (F Q P : Matrix (Fin k) (Fin k) ℝ) (x : Fin k → ℝ) (os : List (FilterOp k)),
      runFilter L (.predict F Q :: os) (⟨k, x⟩, ⟨k, k, P⟩) = runFilter L os (⟨k, F *ᵥ x⟩, ⟨k, k, F * P * Fᵀ + Q⟩) := fun k F Q P x os => by
    rw [runFilter, FilterOp.exec, predict_R]; rfl
  have eu : ∀ (k m : ℕ) (z : Fin m → ℝ) (H : Matrix (Fin m) (Fin k) ℝ) (R : Matrix (Fin m) (Fin m) ℝ) (P : Matrix (Fin k) (Fin k) ℝ) (x : Fin k → ℝ) (os : List (FilterOp k)),
      runFilter L (.update m z H R :: os) (⟨k, x⟩, ⟨k, k, P⟩) = runFilter L os (⟨k, x + (P * Hᵀ * L.inv (H * P * Hᵀ + R)) *ᵥ (z - H *ᵥ x)⟩,
        ⟨k, k, joseph P H R (P * Hᵀ * L.inv (H * P * Hᵀ + R))⟩) := fun k m z H R P x os => by
    rw [runFilter, FilterOp.exec, update_solver]; rfl
  induction ops generalizing x1 P1 x2 P2 with
  | nil =>
    simp only [List.map_nil, List.flatMap_nil, runFilter, Except.ok.injEq, Prod.mk.injEq, DVec.mk.injEq, DMat.mk.injEq, heq_eq_eq, true_and] at h1 h2 ⊢
    rw [h1.1, h1.2, h2.1, h2.2]; exact ⟨rfl, rfl⟩
  | cons o ops ih =>
    cases o with
    | predict F1 Q1 F2 Q2 =>
      simp only [List.map_cons, List.flatMap_cons, PairOp.first, PairOp.second, PairOp.joint, List.singleton_append, ep] at h1 h2 ⊢
      rw [blockDiag_mulVec, blockDiag_tr, blockDiag_mul, blockDiag_mul, blockDiag_add]
      exact ih _ _ _ _ h1 h2
    | update m z H R =>
      simp only [List.map_cons, List.flatMap_cons, PairOp.first, PairOp.second, PairOp.joint, List.nil_append, eu] at h1 h2 ⊢
      have := ih _ _ _ _ h1 h2
      rw [← this]
      congr 4
      · rw [firstOnly_mulVec, firstOnly_mul_blockDiag, firstOnly_tr, firstOnly_mul_stackM, blockDiag_mul_stackM, stackM_mul, stackM_zero_mulVec, stackV_add, add_zero]
      · rw [firstOnly_mul_blockDiag, firstOnly_tr, firstOnly_mul_stackM, blockDiag_mul_stackM, stackM_mul]
        generalize P1 * Hᵀ * L.inv (H * P1 * Hᵀ + R) = K
        have kr : stackM K (0 : Matrix (Fin p) (Fin m) ℝ) * R * (stackM K 0)ᵀ = blockDiag2 (K * R * Kᵀ) 0 := by
          have : (stackM K (0 : Matrix (Fin p) (Fin m) ℝ))ᵀ = firstOnly Kᵀ p := by
            rw [← transpose_transpose (firstOnly Kᵀ p), firstOnly_tr, transpose_transpose]
          rw [this, stackM_mul, stackM_mul_firstOnly]
        rw [joseph, joseph, stackM_mul_firstOnly, ← blockDiag_one, blockDiag_sub, blockDiag_tr, blockDiag_mul, blockDiag_mul, kr, blockDiag_add, sub_zero]
        simp

/-- one measured and one unmeasured state: a prediction of both and a measurement of the first -/
def pairOps : List (PairOp 1 1) := [.predict 1 1 1 1, .update 1 ![3] 1 1]

/-- every sequence of calls of the right sizes succeeds -/
theorem run_succeeds (L : LinSolver ℝ) (ops : List (FilterOp n)) (x : Fin n → ℝ) (P : Matrix (Fin n) (Fin n) ℝ) :
    ∃ x' P', runFilter L ops (⟨n, x⟩, ⟨n, n, P⟩) = .ok (⟨n, x'⟩, ⟨n, n, P'⟩) := by
  induction ops generalizing x P with
  | nil => exact ⟨x, P, rfl⟩
  | cons o ops ih =>
    cases o with
    | predict F Q =>
      obtain ⟨x', P', h⟩ := ih (F *ᵥ x) (F * P * Fᵀ + Q)
      refine ⟨x', P', ?_⟩
      rw [runFilter, FilterOp.exec, predict_R]; exact h
    | update m z H R =>
      obtain ⟨x', P', h⟩ := ih (x + (P * Hᵀ * L.inv (H * P * Hᵀ + R)) *ᵥ (z - H *ᵥ x)) (joseph P H R (P * Hᵀ * L.inv (H * P * Hᵀ + R)))
      refine ⟨x', P', ?_⟩
      rw [runFilter, FilterOp.exec, update_solver]; exact h

/-- the separate runs succeed -/
example (L : LinSolver ℝ) : ∃ x1' P1' x2' P2', runFilter L (pairOps.map PairOp.first) (⟨1, ![0]⟩, ⟨1, 1, 1⟩) = .ok (⟨1, x1'⟩, ⟨1, 1, P1'⟩)
    ∧ runFilter L (pairOps.flatMap PairOp.second) (⟨1, ![0]⟩, ⟨1, 1, 1⟩) = .ok (⟨1, x2'⟩, ⟨1, 1, P2'⟩) := by
  obtain ⟨a, A, h⟩ := run_succeeds L (pairOps.map PairOp.first) ![0] 1
  obtain ⟨b, B, k⟩ := run_succeeds L (pairOps.flatMap PairOp.second) ![0] 1
  exact ⟨a, A, b, B, h, k⟩

end NavFuse.Props
