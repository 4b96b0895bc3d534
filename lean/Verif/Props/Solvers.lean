import Verif.Lemmas.Solvers
import Verif.Lemmas.SumSmall
import Verif.Props.Kalman
import Verif.Props.LeastSquares

/-! # Properties C111-C114: the estimators with Eigen's own elimination algorithms -/

set_option linter.unusedSectionVars false

namespace NavFuse.Props
open Matrix Kalman Spec KA XR Lsq

variable {n m : ℕ}

/-! ## C111 -/

/-- one filter call of a run, for any scalar type -/
inductive FilterCall (α : Type) (n : ℕ) : Type
  | predict (F Q : Matrix (Fin n) (Fin n) α)
  | update (m : ℕ) (z : Fin m → α) (H : Matrix (Fin m) (Fin n) α) (R : Matrix (Fin m) (Fin m) α)

section
variable {α : Type} [Add α] [Sub α] [Mul α] [Div α] [Neg α] [Flt α]

/-- perform one call with Eigen's solvers, writing the result over the current state -/
def FilterCall.exec (s : DVec α × DMat α) : FilterCall α n → Out (Bool × DVec α × DMat α)
  | .predict F Q => filterPredict s.1 s.2 ⟨n, n, F⟩ ⟨n, n, Q⟩ s.1 s.2
  | .update m z H R => filterUpdate LinSolver.eigen s.1 s.2 ⟨m, z⟩ ⟨m, n, H⟩ ⟨m, m, R⟩ s.1 s.2

/-- a whole run: the values returned by the calls and the final state -/
def runCalls : List (FilterCall α n) → DVec α × DMat α → Out (List Bool × DVec α × DMat α)
  | [], s => .ok ([], s)
  | o :: os, s => do
    let r ← o.exec s
    let q ← runCalls os r.2
    return (r.1 :: q.1, q.2)
end

/-- a call with finite arguments -/
def FilterOp.finite : FilterOp n → FilterCall XR n
  | .predict F Q => .predict (finM F) (finM Q)
  | .update m z H R => .update m (finV z) (finM H) (finM R)

theorem update_X (x : Fin n → ℝ) (P : Matrix (Fin n) (Fin n) ℝ) (z : Fin m → ℝ) (H : Matrix (Fin m) (Fin n) ℝ) (R : Matrix (Fin m) (Fin m) ℝ)
    (hS : IsUnit (H * P * Hᵀ + R).det) (xo : Fin n → XR) (Po : Matrix (Fin n) (Fin n) XR) :
    filterUpdate LinSolver.eigen ⟨n, finV x⟩ ⟨n, n, finM P⟩ ⟨m, finV z⟩ ⟨m, n, finM H⟩ ⟨m, m, finM R⟩ ⟨n, xo⟩ ⟨n, n, Po⟩
      = .ok (true, ⟨n, finV (x + gain P H R *ᵥ (z - H *ᵥ x))⟩, ⟨n, n, finM (joseph P H R (gain P H R))⟩) := by
  have hg : gainC LinSolver.eigen (finM P) (finM H) (finM R) = finM (gain P H R) := by
    have := luInverse_X _ hS
    simp only [gainC, xsimp, LinSolver.eigen, this, gain, innov]
  rw [update_fit, hg]
  simp only [xsimp, joseph]

theorem predict_X (x : Fin n → ℝ) (P F Q : Matrix (Fin n) (Fin n) ℝ) (xo : Fin n → XR) (Po : Matrix (Fin n) (Fin n) XR) :
    filterPredict ⟨n, finV x⟩ ⟨n, n, finM P⟩ ⟨n, n, finM F⟩ ⟨n, n, finM Q⟩ ⟨n, xo⟩ ⟨n, n, Po⟩
      = .ok (true, ⟨n, finV (F *ᵥ x)⟩, ⟨n, n, finM (F * P * Fᵀ + Q)⟩) := by
  rw [predict_fit]; simp only [xsimp]

/-- C111. With Eigen's LU inverse, every finite run of predictions and updates with sound noise matrices, on finite data, stays finite (no
division by zero, no NaN): all calls succeed and the final estimate and covariance are those of exact arithmetic with an exact inverse. -/
theorem C111_run_finite {L : LinSolver ℝ} (hL : L.Correct) (ops : List (FilterOp n)) (hops : ∀ o ∈ ops, o.Sound) (x : Fin n → ℝ)
    (P : Matrix (Fin n) (Fin n) ℝ) (hP : IsCov P) :
    ∃ x' P', runCalls (ops.map FilterOp.finite) (⟨n, finV x⟩, ⟨n, n, finM P⟩) = .ok (List.replicate ops.length true, ⟨n, finV x'⟩, ⟨n, n, finM P'⟩)
      ∧ runFilter L ops (⟨n, x⟩, ⟨n, n, P⟩) = .ok (⟨n, x'⟩, ⟨n, n, P'⟩) ∧ IsCov P' := by
  induction ops generalizing x P with
  | nil => exact ⟨x, P, rfl, rfl, hP⟩
  | cons o os ih =>
    have ho := hops o (by simp)
    have hos : ∀ o ∈ os, o.Sound := fun o' h => hops o' (by simp [h])
    cases o with
    | predict F Q =>
      have hc := (C74_predict_covariance x P F Q x P hP ho)
      obtain ⟨x1, P1, h, -, -, hc⟩ := hc
      have e := predict_R x P F Q x P
      rw [h] at e
      obtain ⟨x', P', h1, h2, h3⟩ := ih hos x1 P1 hc
      simp only [Except.ok.injEq, Prod.mk.injEq, DVec.mk.injEq, DMat.mk.injEq, heq_eq_eq, true_and] at e
      obtain ⟨rfl, rfl⟩ := e
      refine ⟨x', P', ?_, ?_, h3⟩
      · simp only [List.map_cons, FilterOp.finite, runCalls, FilterCall.exec, predict_X, osimp, h1]
        rfl
      · simp [runFilter, FilterOp.exec, h, osimp, h2]
    | update m z H R =>
      obtain ⟨x1, P1, h, hc, -⟩ := C75_update_covariance hL x P z H R x P hP ho
      have hP' := isCov_iff.1 hP
      have hR' := isPosCov_iff.1 ho
      have e := update_R hL x hP' z H hR' x P
      rw [h] at e
      obtain ⟨x', P', h1, h2, h3⟩ := ih hos x1 P1 hc
      simp only [Except.ok.injEq, Prod.mk.injEq, DVec.mk.injEq, DMat.mk.injEq, heq_eq_eq, true_and] at e
      obtain ⟨rfl, rfl⟩ := e
      refine ⟨x', P', ?_, ?_, h3⟩
      · simp only [List.map_cons, FilterOp.finite, runCalls, FilterCall.exec, update_X x P z H R (pd_det (innov_pd hP' H hR')), osimp, h1]
        rfl
      · simp [runFilter, FilterOp.exec, h, osimp, h2]

/-- two states, one predicted and then measured twice, the second time with two readings at once -/
example : ∃ ops : List (FilterOp 2), ops.length = 3 ∧ (∀ o ∈ ops, o.Sound) ∧ IsCov (1 : Matrix (Fin 2) (Fin 2) ℝ) := by
  have h1 : ∀ k, IsPosCov (1 : Matrix (Fin k) (Fin k) ℝ) := fun k => isPosCov_iff.2 PosDef.one
  have h2 : ∀ k, IsCov (1 : Matrix (Fin k) (Fin k) ℝ) := fun k => isCov_iff.2 PosSemidef.one
  refine ⟨[.predict !![1, 1; 0, 1] 1, .update 1 ![3] !![1, 0] 1, .update 2 ![4, 1] 1 1], rfl, ?_, h2 2⟩
  simp [FilterOp.Sound, h1, h2]

/-! ## C112 -/

/-- C112, what holds: if the innovation covariance `H P Hᵀ + R` is invertible, the update of finite data is finite and is the textbook one,
whatever else `P` and `R` are. -/
theorem C112_update_finite_partial (x : Fin n → ℝ) (P : Matrix (Fin n) (Fin n) ℝ) (z : Fin m → ℝ) (H : Matrix (Fin m) (Fin n) ℝ)
    (R : Matrix (Fin m) (Fin m) ℝ) (hS : IsUnit (H * P * Hᵀ + R).det) (xo : Fin n → XR) (Po : Matrix (Fin n) (Fin n) XR) :
    ∃ K : Matrix (Fin n) (Fin m) ℝ, K * (H * P * Hᵀ + R) = P * Hᵀ ∧
      filterUpdate LinSolver.eigen ⟨n, finV x⟩ ⟨n, n, finM P⟩ ⟨m, finV z⟩ ⟨m, n, finM H⟩ ⟨m, m, finM R⟩ ⟨n, xo⟩ ⟨n, n, Po⟩
        = .ok (true, ⟨n, finV (x + K *ᵥ (z - H *ᵥ x))⟩, ⟨n, n, finM ((1 - K * H) * P * (1 - K * H)ᵀ + K * R * Kᵀ)⟩) := by
  refine ⟨gain P H R, ?_, update_X x P z H R hS xo Po⟩
  rw [gain, innov, Matrix.mul_assoc, nonsing_inv_mul _ hS, Matrix.mul_one]

theorem fsum_nan_term {k : ℕ} (f : Fin k → XR) (i : Fin k) (h : f i = nan) : fsum f = nan := by
  cases k with
  | zero => exact i.elim0
  | succ k => exact eval_nan f _ i (((Flt.order XR).perm k).mem_iff.2 (List.mem_finRange i)) h

/-- the innovation covariance may be invertible although the measurement is exact and the covariance is not positive definite -/
example : IsUnit ((!![1, 0] : Matrix (Fin 1) (Fin 2) ℝ) * (!![1, 0; 0, 0] : Matrix (Fin 2) (Fin 2) ℝ) * (!![1, 0] : Matrix (Fin 1) (Fin 2) ℝ)ᵀ
    + (0 : Matrix (Fin 1) (Fin 1) ℝ)).det := by
  rw [Matrix.det_fin_one, add_zero, Matrix.mul_apply]
  simp [Fin.sum_univ_two]

/-- C112 fails: a state known exactly, measured exactly. The innovation covariance is zero, both outputs become NaN, and the call reports
success. -/
theorem C112_singular_fails : filterUpdate LinSolver.eigen ⟨1, finV ![0]⟩ ⟨1, 1, finM !![0]⟩ ⟨1, finV ![0]⟩ ⟨1, 1, finM !![1]⟩ ⟨1, 1, finM !![0]⟩
      ⟨1, finV ![0]⟩ ⟨1, 1, finM !![0]⟩
    = .ok (true, ⟨1, fun _ => nan⟩, ⟨1, 1, of fun _ _ => nan⟩) := by
  have hS : madd (mmul (mmul (finM !![(1 : ℝ)]) (finM !![(0 : ℝ)])) (mtr (finM !![(1 : ℝ)]))) (finM !![(0 : ℝ)]) = finM !![(0 : ℝ)] := by
    simp only [xsimp]; congr 1; ext i j; rw [Matrix.add_apply, Matrix.mul_apply]; fin_cases i; fin_cases j; simp
  have hi : luInverse (finM !![(0 : ℝ)]) = (of fun _ _ => pinf : Matrix (Fin 1) (Fin 1) XR) := by
    ext i j
    fin_cases i; fin_cases j
    simp only [luInverse, luSolve, of_apply, Fin.fin_one_eq_zero (argmax _), Equiv.swap_self, Equiv.refl_apply]
    simp [fsum, xsimp, pos_div_zero]
  have hg : gainC LinSolver.eigen (finM !![(0 : ℝ)]) (finM !![(1 : ℝ)]) (finM !![(0 : ℝ)]) = (of fun _ _ => nan : Matrix (Fin 1) (Fin 1) XR) := by
    rw [gainC, hS]
    show mmul _ (luInverse (finM !![(0 : ℝ)])) = _
    rw [hi]
    have : mmul (finM !![(0 : ℝ)]) (mtr (finM !![(1 : ℝ)])) = finM !![(0 : ℝ)] := by
      simp only [xsimp]; congr 1; ext i j; rw [Matrix.mul_apply]; fin_cases i; fin_cases j; simp
    rw [this]
    ext i j
    fin_cases i; fin_cases j
    simp [mmul, fsum_one, xsimp]
  rw [update_fit, hg]
  have hn : ∀ A : Matrix (Fin 1) (Fin 1) XR, mmul (of fun _ _ => nan : Matrix (Fin 1) (Fin 1) XR) A = of fun _ _ => nan := by
    intro A; ext i j; exact fsum_nan_term (fun l => nan * A l j) 0 (nan_mul _)
  have hv : ∀ v : Fin 1 → XR, mvec (of fun _ _ => nan : Matrix (Fin 1) (Fin 1) XR) v = fun _ => nan := by
    intro A; ext i; exact fsum_nan_term _ 0 (nan_mul _)
  have ha : ∀ A : Matrix (Fin 1) (Fin 1) XR, madd A (of fun _ _ => nan) = of fun _ _ => nan := by
    intro A; ext i j; exact add_nan (A i j)
  have hva : ∀ v : Fin 1 → XR, vadd v (fun _ => nan) = fun _ => nan := by intro v; ext i; exact add_nan (v i)
  simp only [hn, hv, ha, hva]

/-- C112 fails for good: once estimate and covariance are NaN they stay NaN through every sequence of further calls, and every call reports
success. -/
theorem C112_never_recovers_fails (ops : List (FilterCall XR (n + 1))) :
    runCalls ops (⟨n + 1, fun _ => nan⟩, ⟨n + 1, n + 1, of fun _ _ => nan⟩)
      = .ok (List.replicate ops.length true, ⟨n + 1, fun _ => nan⟩, ⟨n + 1, n + 1, of fun _ _ => nan⟩) := by
  have mul_l : ∀ {k l : ℕ} (A : Matrix (Fin k) (Fin (n + 1)) XR), mmul A (of fun _ _ => nan : Matrix (Fin (n + 1)) (Fin l) XR) = of fun _ _ => nan := by
    intro k l A; ext i j; exact fsum_nan_term (fun l => A i l * nan) 0 (mul_nan _)
  have mul_r : ∀ {k l : ℕ} (A : Matrix (Fin (n + 1)) (Fin k) XR), mmul (of fun _ _ => nan : Matrix (Fin l) (Fin (n + 1)) XR) A = of fun _ _ => nan := by
    intro k l A; ext i j; exact fsum_nan_term (fun l => nan * A l j) 0 (nan_mul _)
  have add_l : ∀ {k l : ℕ} (A : Matrix (Fin k) (Fin l) XR), madd (of fun _ _ => nan) A = of fun _ _ => nan := by
    intro k l A; ext i j; exact nan_add (A i j)
  have mv : ∀ A : Matrix (Fin (n + 1)) (Fin (n + 1)) XR, mvec A (fun _ => nan) = fun _ => nan := by
    intro A; funext i; exact fsum_nan_term _ 0 (mul_nan _)
  have va : ∀ v : Fin (n + 1) → XR, vadd (fun _ => nan) v = fun _ => nan := by intro v; funext i; exact nan_add (v i)
  induction ops with
  | nil => rfl
  | cons o os ih =>
    cases o with
    | predict F Q =>
      simp only [runCalls, FilterCall.exec, predict_fit, mul_l, mul_r, add_l, mv, osimp, ih]
      rfl
    | update m z H R =>
      simp only [runCalls, FilterCall.exec, update_fit, mul_l, mul_r, add_l, va, osimp, ih]
      rfl

/-! ## C113 -/

/-- the measurement matrix lengthens every vector by a factor above `2^-511` (the square root of the smallest normal double) -/
def NotTiny (H : Matrix (Fin m) (Fin n) ℝ) : Prop := ∀ x : Fin n → ℝ, x ≠ 0 → (∑ j, x j ^ 2) / 2 ^ 1022 < ∑ i, (H *ᵥ x) i ^ 2

theorem NotTiny.rank {H : Matrix (Fin m) (Fin n) ℝ} (h : NotTiny H) : FullColumnRank H := fun x y e => by
  by_contra hne
  have := h (x - y) (sub_ne_zero.2 hne)
  rw [mulVec_sub, e, sub_self] at this
  simp only [Pi.zero_apply, ne_eq, OfNat.ofNat_ne_zero, not_false_eq_true, zero_pow, Finset.sum_const_zero] at this
  exact absurd this (not_lt.2 (by positivity))

theorem NotTiny.wellPos {H : Matrix (Fin m) (Fin n) ℝ} (h : NotTiny H) : WellPos (Hᵀ * H) := by
  refine ⟨by rw [transpose_mul, transpose_transpose], fun x hx => ?_⟩
  have := h x hx
  have e1 : x ⬝ᵥ ((Hᵀ * H) *ᵥ x) = ∑ i, (H *ᵥ x) i ^ 2 := by
    rw [← mulVec_mulVec, dotProduct_mulVec, vecMul_transpose, dotProduct]
    exact Finset.sum_congr rfl fun i _ => by ring
  have e2 : x ⬝ᵥ x = ∑ j, x j ^ 2 := Finset.sum_congr rfl fun i _ => by ring
  rw [e1, e2]
  unfold dblMin
  push_cast
  rw [one_div, inv_mul_eq_div]
  exact this

theorem cost_X (y : Fin m → ℝ) (H : Matrix (Fin m) (Fin n) ℝ) (x : Fin n → ℝ) (J : XR) :
    computeCostFunction ⟨m, finV y⟩ ⟨m, n, finM H⟩ ⟨n, finV x⟩ J = .ok (true, fin ((1 / 2) * ((y - H *ᵥ x) ⬝ᵥ (y - H *ᵥ x)))) := by
  have h2 : (Flt.lit 2 : XR) = fin 2 := by simp [xsimp]
  simp only [computeCostFunction, ne_eq, not_true_eq_false, or_self, if_false, osimp, xsimp]
  try simp

theorem ulls_X (y : Fin m → ℝ) (H : Matrix (Fin m) (Fin n) ℝ) (x0 : Fin n → XR) (J : XR) (h : n ≤ m) :
    unweightedLinear LinSolver.eigen ⟨m, finV y⟩ ⟨m, n, finM H⟩ ⟨n, x0⟩ J
      = .ok (true, ⟨n, finV (eigenLdlt (Hᵀ * H) (Hᵀ *ᵥ y))⟩,
          fin ((1 / 2) * ((y - H *ᵥ eigenLdlt (Hᵀ * H) (Hᵀ *ᵥ y)) ⬝ᵥ (y - H *ᵥ eigenLdlt (Hᵀ * H) (Hᵀ *ᵥ y))))) := by
  have hc : ¬ (n > m) := by omega
  have hl : eigenLdlt (finM (Hᵀ * H)) (finV (Hᵀ *ᵥ y)) = finV (eigenLdlt (Hᵀ * H) (Hᵀ *ᵥ y)) := ldltGo_X _ _ _
  simp only [unweightedLinear, ne_eq, not_true_eq_false, or_self, if_false, hc, osimp, xsimp, LinSolver.eigen, hl, cost_X]
  rfl

theorem wlls_X (y : Fin m → ℝ) (H : Matrix (Fin m) (Fin n) ℝ) (W : Matrix (Fin m) (Fin m) ℝ) (x0 : Fin n → XR) (J : XR) (h : n ≤ m) :
    weightedLinear LinSolver.eigen ⟨m, finV y⟩ ⟨m, n, finM H⟩ ⟨m, m, finM W⟩ ⟨n, x0⟩ J
      = .ok (true, ⟨n, finV (eigenLdlt (Hᵀ * W * H) ((Hᵀ * W) *ᵥ y))⟩,
          fin ((1 / 2) * ((y - H *ᵥ eigenLdlt (Hᵀ * W * H) ((Hᵀ * W) *ᵥ y)) ⬝ᵥ (y - H *ᵥ eigenLdlt (Hᵀ * W * H) ((Hᵀ * W) *ᵥ y))))) := by
  have hc : ¬ (n > m) := by omega
  have hl : eigenLdlt (finM (Hᵀ * W * H)) (finV ((Hᵀ * W) *ᵥ y)) = finV (eigenLdlt (Hᵀ * W * H) ((Hᵀ * W) *ᵥ y)) := ldltGo_X _ _ _
  simp only [weightedLinear, ne_eq, not_true_eq_false, or_self, if_false, hc, osimp, xsimp, LinSolver.eigen, hl, cost_X]
  rfl

/-- C113, what holds: for a measurement matrix that is not tiny, unweighted least squares with Eigen's LDLT yields on finite data a finite
estimate, the unique minimiser of the squared residual, and half the minimum as cost. -/
theorem C113_ldlt_minimiser_partial (y : Fin m → ℝ) (H : Matrix (Fin m) (Fin n) ℝ) (hH : NotTiny H) (x0 : Fin n → XR) (J0 : XR) :
    ∃ x J, unweightedLinear LinSolver.eigen ⟨m, finV y⟩ ⟨m, n, finM H⟩ ⟨n, x0⟩ J0 = .ok (true, ⟨n, finV x⟩, fin J)
      ∧ UniqueMin (fun x => ∑ i, (y i - (H *ᵥ x) i) ^ 2) x ∧ J = (∑ i, (y i - (H *ᵥ x) i) ^ 2) / 2 := by
  have hq : ∀ x, ∑ i, (y i - (H *ᵥ x) i) ^ 2 = quad 1 (y - H *ᵥ x) := by
    intro x; simp [quad, dotProduct, sq]
  refine ⟨_, _, ulls_X y H x0 J0 hH.rank.le, ?_, ?_⟩
  · simp only [hq]
    apply normal_unique_min hH.rank PosDef.one
    rw [Matrix.mul_one]
    exact ldltGo_R _ _ _ hH.wellPos
  · rw [hq]; simp [quad]; ring

/-- `2^-510` is enough -/
example : NotTiny (!![1 / 2 ^ 510; 3] : Matrix (Fin 2) (Fin 1) ℝ) := by
  intro x hx
  have hx0 : x 0 ≠ 0 := fun h => hx (by ext i; fin_cases i; simpa using h)
  have h1 : (0 : ℝ) < x 0 ^ 2 := by positivity
  have h2 : (1 : ℝ) < 2 ^ 1022 := one_lt_pow₀ (by norm_num) (by norm_num)
  have h3 : x 0 ^ 2 / 2 ^ 1022 < x 0 ^ 2 := div_lt_self h1 h2
  have h4 : (0 : ℝ) ≤ (1 / 2 ^ 510 * x 0) ^ 2 := sq_nonneg _
  simp only [Finset.univ_unique, Fin.default_eq_zero, Finset.sum_singleton, Fin.sum_univ_two, mulVec, dotProduct, of_apply, cons_val_zero,
    cons_val_one, cons_val_fin_one]
  generalize (1 / 2 ^ 510 * x 0) ^ 2 = a at h4
  generalize x 0 ^ 2 / 2 ^ 1022 = b at h3
  nlinarith

/-- the same with weights -/
def NotTinyW (H : Matrix (Fin m) (Fin n) ℝ) (W : Matrix (Fin m) (Fin m) ℝ) : Prop :=
  ∀ x : Fin n → ℝ, x ≠ 0 → (∑ j, x j ^ 2) / 2 ^ 1022 < quad W (H *ᵥ x)

theorem NotTinyW.rank {H : Matrix (Fin m) (Fin n) ℝ} {W : Matrix (Fin m) (Fin m) ℝ} (h : NotTinyW H W) : FullColumnRank H := fun x y e => by
  by_contra hne
  have := h (x - y) (sub_ne_zero.2 hne)
  rw [mulVec_sub, e, sub_self, quad, zero_dotProduct] at this
  exact absurd this (not_lt.2 (by positivity))

theorem NotTinyW.wellPos {H : Matrix (Fin m) (Fin n) ℝ} {W : Matrix (Fin m) (Fin m) ℝ} (hW : Wᵀ = W) (h : NotTinyW H W) : WellPos (Hᵀ * W * H) := by
  refine ⟨by rw [transpose_mul, transpose_mul, transpose_transpose, hW, Matrix.mul_assoc], fun x hx => ?_⟩
  have := h x hx
  have e1 : x ⬝ᵥ ((Hᵀ * W * H) *ᵥ x) = quad W (H *ᵥ x) := by
    rw [quad, ← mulVec_mulVec, ← mulVec_mulVec, dotProduct_mulVec, vecMul_transpose]
  have e2 : x ⬝ᵥ x = ∑ j, x j ^ 2 := Finset.sum_congr rfl fun i _ => by ring
  rw [e1, e2]
  unfold dblMin
  push_cast
  rw [one_div, inv_mul_eq_div]
  exact this

/-- C113, weighted: the same for `WeightedLinearLeastSquares` with symmetric positive definite weights (the reported cost is not the weighted
one, see C68). -/
theorem C113_weighted_minimiser_partial (y : Fin m → ℝ) (H : Matrix (Fin m) (Fin n) ℝ) (W : Matrix (Fin m) (Fin m) ℝ) (hW : IsPosCov W)
    (hH : NotTinyW H W) (x0 : Fin n → XR) (J0 : XR) :
    ∃ x J, weightedLinear LinSolver.eigen ⟨m, finV y⟩ ⟨m, n, finM H⟩ ⟨m, m, finM W⟩ ⟨n, x0⟩ J0 = .ok (true, ⟨n, finV x⟩, fin J)
      ∧ UniqueMin (fun x => ∑ i, ∑ j, (y i - (H *ᵥ x) i) * W i j * (y j - (H *ᵥ x) j)) x := by
  rw [isPosCov_iff] at hW
  have hq : ∀ x, ∑ i, ∑ j, (y i - (H *ᵥ x) i) * W i j * (y j - (H *ᵥ x) j) = quad W (y - H *ᵥ x) := by
    intro x
    simp only [quad, dotProduct, mulVec, Pi.sub_apply, Finset.mul_sum, mul_assoc]
  have hw := hH.wellPos (by simpa [IsHermitian, conjTranspose_eq_transpose_of_trivial] using hW.1)
  refine ⟨_, _, wlls_X y H W x0 J0 hH.rank.le, ?_⟩
  · simp only [hq]
    exact normal_unique_min hH.rank hW _ _ (ldltGo_R _ _ _ hw)

/-- weights 1/4 and 2 -/
example : IsPosCov (diagonal ![1 / 4, 2] : Matrix (Fin 2) (Fin 2) ℝ) ∧ NotTinyW (!![1; 3] : Matrix (Fin 2) (Fin 1) ℝ) (diagonal ![1 / 4, 2]) := by
  constructor
  · rw [isPosCov_iff, posDef_diagonal_iff]
    intro i; fin_cases i <;> norm_num
  · intro x hx
    have hx0 : x 0 ≠ 0 := fun h => hx (by ext i; fin_cases i; simpa using h)
    have h1 : (0 : ℝ) < x 0 ^ 2 := by positivity
    have h2 : (1 : ℝ) < 2 ^ 1022 := one_lt_pow₀ (by norm_num) (by norm_num)
    have h3 : x 0 ^ 2 / 2 ^ 1022 < x 0 ^ 2 := div_lt_self h1 h2
    simp only [Finset.univ_unique, Fin.default_eq_zero, Finset.sum_singleton, quad, Fin.sum_univ_two, mulVec, dotProduct, of_apply,
      cons_val_zero, cons_val_one, cons_val_fin_one, diagonal_apply, if_true, if_false, zero_ne_one, one_ne_zero]
    generalize x 0 ^ 2 / 2 ^ 1022 = b at h3
    nlinarith

/-- C113, rank-deficient measurements: as long as no pivot of the factorisation lies in `(0, 2^-1022]`, what is returned is finite and minimises the squared
residual, even if `H` does not determine the state. -/
theorem C113_ldlt_any_rank_partial (y : Fin m → ℝ) (H : Matrix (Fin m) (Fin n) ℝ) (hn : n ≤ m)
    (hc : ∀ p ∈ ldltPivots (Hᵀ * H) (fun i => (Hᵀ * H) i i), p = 0 ∨ 1 / 2 ^ 1022 < p) (x0 : Fin n → XR) (J0 : XR) :
    ∃ x J, unweightedLinear LinSolver.eigen ⟨m, finV y⟩ ⟨m, n, finM H⟩ ⟨n, x0⟩ J0 = .ok (true, ⟨n, finV x⟩, fin J)
      ∧ ∀ x', ∑ i, (y i - (H *ᵥ x) i) ^ 2 ≤ ∑ i, (y i - (H *ᵥ x') i) ^ 2 := by
  have hpsd : Psd (Hᵀ * H) := by
    refine ⟨by rw [transpose_mul, transpose_transpose], fun x => ?_⟩
    rw [← mulVec_mulVec, dotProduct_mulVec, vecMul_transpose]
    exact Finset.sum_nonneg fun i _ => mul_self_nonneg _
  obtain ⟨w, hw⟩ : ∃ w, Hᵀ *ᵥ y = (Hᵀ * H) *ᵥ w := by
    have hle : LinearMap.range (Hᵀ * H).mulVecLin ≤ LinearMap.range Hᵀ.mulVecLin := by
      rw [mulVecLin_mul]; exact LinearMap.range_comp_le_range _ _
    have heq := Submodule.eq_of_le_of_finrank_eq hle (by
      have h1 := rank_transpose_mul_self H
      have h2 := rank_transpose H
      unfold Matrix.rank at h1 h2
      rw [h1, ← h2])
    have hmem : Hᵀ *ᵥ y ∈ LinearMap.range (Hᵀ * H).mulVecLin := by rw [heq]; exact ⟨y, rfl⟩
    obtain ⟨w, hw⟩ := hmem
    exact ⟨w, hw.symm⟩
  have hn' := ldltGo_psd (Hᵀ * H) (fun i => (Hᵀ * H) i i) w hpsd (by simpa [dblMin] using hc)
  refine ⟨_, _, ulls_X y H x0 J0 hn, fun x' => ?_⟩
  set x := eigenLdlt (Hᵀ * H) (Hᵀ *ᵥ y) with hx
  have hne : (Hᵀ * H) *ᵥ x = Hᵀ *ᵥ y := by rw [hx, hw]; exact hn'
  clear_value x
  have e : ∀ v : Fin m → ℝ, ∑ i, v i ^ 2 = v ⬝ᵥ v := fun v => Finset.sum_congr rfl fun i _ => by ring
  have e1 := e (y - H *ᵥ x)
  have e2 := e (y - H *ᵥ x')
  have ho : Hᵀ *ᵥ (y - H *ᵥ x) = 0 := by rw [mulVec_sub, mulVec_mulVec, hne, sub_self]
  have hsp : y - H *ᵥ x' = (y - H *ᵥ x) + H *ᵥ (x - x') := by rw [mulVec_sub]; abel
  have hz : (y - H *ᵥ x) ⬝ᵥ (H *ᵥ (x - x')) = 0 := by
    rw [dotProduct_mulVec, ← mulVec_transpose, ho, zero_dotProduct]
  have hp : 0 ≤ (H *ᵥ (x - x')) ⬝ᵥ (H *ᵥ (x - x')) := Finset.sum_nonneg fun i _ => mul_self_nonneg _
  rw [hsp] at e2
  rw [add_dotProduct, dotProduct_add, dotProduct_add, hz, dotProduct_comm (H *ᵥ (x - x')) (y - H *ᵥ x), hz] at e2
  simp only [Pi.sub_apply, Pi.add_apply] at e1 e2
  rw [e1]
  calc _ ≤ (y - H *ᵥ x) ⬝ᵥ (y - H *ᵥ x) + 0 + (0 + H *ᵥ (x - x') ⬝ᵥ H *ᵥ (x - x')) := by linarith
    _ = _ := by rw [← e2]; exact Finset.sum_congr rfl fun i _ => by rw [mulVec_sub, Pi.sub_apply]; ring

/-- the same direction measured twice: pivots 5 and 0 -/
example : ∀ p ∈ ldltPivots ((!![1, 1; 2, 2] : Matrix (Fin 2) (Fin 2) ℝ)ᵀ * !![1, 1; 2, 2])
    (fun i => ((!![1, 1; 2, 2] : Matrix (Fin 2) (Fin 2) ℝ)ᵀ * !![1, 1; 2, 2] : Matrix (Fin 2) (Fin 2) ℝ) i i), p = 0 ∨ 1 / 2 ^ 1022 < p := by
  have h2 : (1 : ℝ) / 2 ^ 1022 < 5 := by
    have : (1 : ℝ) < 2 ^ 1022 := one_lt_pow₀ (by norm_num) (by norm_num)
    have := (div_lt_one (by positivity)).2 this
    exact this.trans (by norm_num)
  have hA : (!![1, 1; 2, 2] : Matrix (Fin 2) (Fin 2) ℝ)ᵀ * !![1, 1; 2, 2] = !![5, 5; 5, 5] := by
    ext i j; fin_cases i <;> fin_cases j <;> simp [Matrix.mul_apply, Fin.sum_univ_two] <;> norm_num
  rw [hA]
  generalize (1 : ℝ) / 2 ^ 1022 = t at h2 ⊢
  simp [ldltPivots, argmax, rsimp, h2, lowerOf]

theorem ldltGo_one (A : Matrix (Fin 1) (Fin 1) ℝ) (d b : Fin 1 → ℝ) (h : |A 0 0| ≤ (dblMin : ℝ)) : ldltGo A d b = fun _ => 0 := by
  have hp : ∀ p : Fin 1, p = 0 := fun p => Fin.fin_one_eq_zero p
  funext i
  rw [hp i]
  simp only [ldltGo, hp (argmax _), Equiv.swap_self, Equiv.refl_apply, Fin.cons_zero, lowerOf, of_apply, le_refl, if_true]
  simp [fsum, rsimp, not_lt.2 h]

/-- C113, in any case: on finite data of matching sizes linear least squares with Eigen's LDLT never divides by zero: estimate and cost are
finite numbers, for every `H` and `W`. -/
theorem C113_always_finite (y : Fin m → ℝ) (H : Matrix (Fin m) (Fin n) ℝ) (W : Matrix (Fin m) (Fin m) ℝ) (hn : n ≤ m) (x0 : Fin n → XR) (J0 : XR) :
    (∃ x J, unweightedLinear LinSolver.eigen ⟨m, finV y⟩ ⟨m, n, finM H⟩ ⟨n, x0⟩ J0 = .ok (true, ⟨n, finV x⟩, fin J))
      ∧ ∃ x J, weightedLinear LinSolver.eigen ⟨m, finV y⟩ ⟨m, n, finM H⟩ ⟨m, m, finM W⟩ ⟨n, x0⟩ J0 = .ok (true, ⟨n, finV x⟩, fin J) :=
  ⟨⟨_, _, ulls_X y H x0 J0 hn⟩, ⟨_, _, wlls_X y H W x0 J0 hn⟩⟩

/-- C113 fails: one state measured with the (finite, normal) coefficient `2^-512`: the true minimiser is `2^512`, the call returns 0 with
success. -/
theorem C113_tiny_fails (x0 : Fin 1 → ℝ) (J0 : ℝ) :
    ∃ J, unweightedLinear LinSolver.eigen ⟨1, ![1]⟩ ⟨1, 1, !![1 / 2 ^ 512]⟩ ⟨1, x0⟩ J0 = .ok (true, ⟨1, ![0]⟩, J)
      ∧ UniqueMin (fun x : Fin 1 → ℝ => ∑ i, ((![1] : Fin 1 → ℝ) i - ((!![1 / 2 ^ 512] : Matrix (Fin 1) (Fin 1) ℝ) *ᵥ x) i) ^ 2) ![2 ^ 512] := by
  have hs : LinSolver.eigen.ldltSolve ((!![1 / 2 ^ 512] : Matrix (Fin 1) (Fin 1) ℝ)ᵀ * !![1 / 2 ^ 512]) ((!![1 / 2 ^ 512] : Matrix (Fin 1) (Fin 1) ℝ)ᵀ *ᵥ ![1]) = ![0] := by
    refine (ldltGo_one _ _ _ ?_).trans ?_
    · rw [Matrix.mul_apply]
      simp only [Finset.univ_unique, Fin.default_eq_zero, Finset.sum_singleton, transpose_apply, of_apply, cons_val_zero, dblMin]
      rw [abs_of_nonneg (by positivity)]
      push_cast
      rw [div_mul_div_comm, ← pow_add, one_mul]
      exact one_div_le_one_div_of_le (by positivity) (pow_le_pow_right₀ (by norm_num) (by norm_num))
    · ext i; fin_cases i; rfl
  refine ⟨_, by rw [ulls_R _ _ _ _ _ le_rfl, hs], fun x hx => ?_⟩
  have hx0 : x 0 ≠ 2 ^ 512 := fun h => hx (by ext i; fin_cases i; simpa using h)
  have : (1 : ℝ) - 1 / 2 ^ 512 * x 0 ≠ 0 := by
    intro h
    apply hx0
    have h2 : (0 : ℝ) < 2 ^ 512 := by positivity
    generalize (2 : ℝ) ^ 512 = t at h h2 ⊢
    field_simp at h
    linarith
  simp only [Finset.univ_unique, Fin.default_eq_zero, Finset.sum_singleton, mulVec, dotProduct, of_apply, cons_val_fin_one]
  have h2 : (2 : ℝ) ^ 512 ≠ 0 := by positivity
  rw [one_div_mul_cancel h2, sub_self, zero_pow two_ne_zero]
  exact sq_pos_of_ne_zero this

/-! ## C114 -/

/-- C114, what holds: more states than measurements are refused, and nothing is written. -/
theorem C114_more_states_partial (L : LinSolver ℝ) (y : Fin m → ℝ) (H : Matrix (Fin m) (Fin n) ℝ) (W : Matrix (Fin m) (Fin m) ℝ) (h : m < n)
    (x0 : Fin n → ℝ) (J0 : ℝ) :
    ¬ FullColumnRank H ∧ unweightedLinear L ⟨m, y⟩ ⟨m, n, H⟩ ⟨n, x0⟩ J0 = .ok (false, ⟨n, x0⟩, J0)
      ∧ weightedLinear L ⟨m, y⟩ ⟨m, n, H⟩ ⟨m, m, W⟩ ⟨n, x0⟩ J0 = .ok (false, ⟨n, x0⟩, J0) := by
  refine ⟨fun hr => absurd hr.le (by omega), ?_, ?_⟩
  · simp [unweightedLinear, h]
  · simp [weightedLinear, h]

/-- C114 fails: with at least as many measurements as states, measurements that do not determine the state are accepted, whatever the solver:
both calls report success, although some other state fits exactly as well as the one returned. -/
theorem C114_undetermined_fails (L : LinSolver ℝ) (y : Fin m → ℝ) (H : Matrix (Fin m) (Fin n) ℝ) (W : Matrix (Fin m) (Fin m) ℝ) (h : n ≤ m)
    (hH : ¬ FullColumnRank H) (x0 : Fin n → ℝ) (J0 : ℝ) :
    (∃ x J, unweightedLinear L ⟨m, y⟩ ⟨m, n, H⟩ ⟨n, x0⟩ J0 = .ok (true, ⟨n, x⟩, J) ∧ ∃ x' ≠ x, y - H *ᵥ x' = y - H *ᵥ x)
      ∧ ∃ x J, weightedLinear L ⟨m, y⟩ ⟨m, n, H⟩ ⟨m, m, W⟩ ⟨n, x0⟩ J0 = .ok (true, ⟨n, x⟩, J) ∧ ∃ x' ≠ x, y - H *ᵥ x' = y - H *ᵥ x := by
  have key : ∀ x : Fin n → ℝ, ∃ x' ≠ x, y - H *ᵥ x' = y - H *ᵥ x := by
    intro x
    obtain ⟨a, b, hab, hne⟩ : ∃ a b, H *ᵥ a = H *ᵥ b ∧ a ≠ b := by
      simp only [FullColumnRank, not_forall] at hH
      obtain ⟨a, b, h1, h2⟩ := hH
      exact ⟨a, b, h1, h2⟩
    refine ⟨x + (a - b), fun e => hne (sub_eq_zero.1 (by simpa using e)), ?_⟩
    rw [mulVec_add, mulVec_sub, hab, sub_self, add_zero]
  exact ⟨⟨_, _, ulls_R L y H x0 J0 h, key _⟩, ⟨_, _, wlls_R L y H W x0 J0 h, key _⟩⟩

/-- the same direction measured twice -/
example : ¬ FullColumnRank (!![1, 1; 2, 2] : Matrix (Fin 2) (Fin 2) ℝ) := by
  intro h
  have := @h ![1, 0] ![0, 1] (by ext i; fin_cases i <;> simp [mulVec, dotProduct, Fin.sum_univ_two])
  simpa using congrFun this 0

end NavFuse.Props
