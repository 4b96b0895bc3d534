import Verif.Lemmas.GaussNewton

/-! # Convergence of the nonlinear least-squares solvers -/

namespace NavFuse.Props
open Matrix Spec Lsq

variable {n m : ℕ}

/-- A smooth fitting problem near a stationary point `xs` of the weighted cost: within the distance `ρ` the measurement function `h` has the Jacobian `D`,
which is Lipschitz with constant `l` and bounded below by `c`; the residual at `xs` is at most `e`. All lengths of measurements in the metric of the weights. -/
structure Smooth (h : (Fin n → ℝ) → Fin m → ℝ) (D : (Fin n → ℝ) → Matrix (Fin m) (Fin n) ℝ) (W : Matrix (Fin m) (Fin m) ℝ) (y : Fin m → ℝ) (xs : Fin n → ℝ)
    (ρ c l e : ℝ) : Prop where
  weight : W.PosDef
  radius : 0 ≤ ρ
  c_pos : 0 < c
  l_nonneg : 0 ≤ l
  deriv : ∀ x, len (x - xs) ≤ ρ → HasFDerivAt h (asDeriv (D x)) x
  lower : ∀ x, len (x - xs) ≤ ρ → ∀ v, c * len v ≤ wlen W (D x *ᵥ v)
  lipschitz : ∀ x x', len (x - xs) ≤ ρ → len (x' - xs) ≤ ρ → ∀ v, wlen W ((D x - D x') *ᵥ v) ≤ l * len (x - x') * len v
  stationary : (D xs)ᵀ *ᵥ (W *ᵥ (y - h xs)) = 0
  residual : wlen W (y - h xs) ≤ e

variable {h : (Fin n → ℝ) → Fin m → ℝ} {D : (Fin n → ℝ) → Matrix (Fin m) (Fin n) ℝ} {W : Matrix (Fin m) (Fin m) ℝ} {y : Fin m → ℝ} {xs : Fin n → ℝ} {ρ c l e : ℝ}

theorem Smooth.taylor (w : Smooth h D W y xs ρ c l e) {x : Fin n → ℝ} (hx : len (x - xs) ≤ ρ) :
    wlen W (h xs - h x - D x *ᵥ (xs - x)) ≤ l * len (x - xs) ^ 2 / 2 := by
  have on : ∀ t ∈ Set.Icc (0 : ℝ) 1, len (x + t • (xs - x) - xs) ≤ ρ := fun t ht => by
    have : x + t • (xs - x) - xs = (1 - t) • (x - xs) := by ext i; simp; ring
    rw [this, len_smul, abs_of_nonneg (by linarith [ht.2])]
    exact (mul_le_of_le_one_left (len_nonneg _) (by linarith [ht.1])).trans hx
  have flip : len (xs - x) = len (x - xs) := by rw [← len_neg]; congr 1; abel
  have := taylor_le w.weight (h := h) (D := D) (x := x) (d := xs - x) (l := l * len (x - xs) ^ 2) (fun t ht => w.deriv _ (on t ht)) (fun t ht => by
    have a := w.lipschitz _ x (on t ht) hx (xs - x)
    have : x + t • (xs - x) - x = t • (xs - x) := by abel
    rw [this, len_smul, abs_of_nonneg ht.1, flip] at a
    exact a.trans (le_of_eq (by ring)))
  rwa [show x + (xs - x) = xs by abel] at this

/-- distance to the stationary point after a step whose equations are solved up to `ε` -/
theorem Smooth.step (w : Smooth h D W y xs ρ c l e) {x dx ε : Fin n → ℝ} (hx : len (x - xs) ≤ ρ)
    (hd : ((D x)ᵀ * W * D x) *ᵥ dx = ((D x)ᵀ * W) *ᵥ (y - h x) + ε) :
    len (x + dx - xs) ≤ l / (2 * c) * len (x - xs) ^ 2 + l * e / c ^ 2 * len (x - xs) + len ε / c ^ 2 := by
  obtain ⟨p, ep⟩ : ∃ p, p = x + dx - xs := ⟨_, rfl⟩
  obtain ⟨R, eR⟩ : ∃ R, R = h xs - h x - D x *ᵥ (xs - x) := ⟨_, rfl⟩
  rw [← ep]
  have c0 := w.c_pos
  have l0 := w.l_nonneg
  have tl := w.taylor hx
  rw [← eR] at tl
  have h0 : len (xs - xs) ≤ ρ := by rw [sub_self]; simpa [len] using w.radius
  -- the equation of the error
  have e1 : ((D x)ᵀ * W * D x) *ᵥ p = (D x)ᵀ *ᵥ (W *ᵥ R) + (D x - D xs)ᵀ *ᵥ (W *ᵥ (y - h xs)) + ε := by
    have a : p = dx - (xs - x) := by rw [ep]; abel
    rw [a, mulVec_sub, hd, eR, transpose_sub, sub_mulVec _ _ (W *ᵥ _), w.stationary, sub_zero]
    simp only [← mulVec_mulVec, mulVec_sub]
    abel
  have e2 : quad W (D x *ᵥ p) = p ⬝ᵥ (((D x)ᵀ * W * D x) *ᵥ p) := by
    simp only [quad, ← mulVec_mulVec]
    rw [dotProduct_mulVec p, vecMul_transpose]
  rw [e1, dotProduct_add, dotProduct_add, dotProduct_mulVec p, vecMul_transpose, dotProduct_mulVec p (D x - D xs)ᵀ, vecMul_transpose, ← wlen_sq w.weight] at e2
  have b1 := w_cauchy w.weight (D x *ᵥ p) R
  have b2 := w_cauchy w.weight ((D x - D xs) *ᵥ p) (y - h xs)
  have b3 := dot_le p ε
  have b4 := w.lipschitz x xs hx h0 p
  have b5 := w.lower x hx p
  have e0 : 0 ≤ e := (wlen_nonneg _).trans w.residual
  have b6 : wlen W ((D x - D xs) *ᵥ p) * wlen W (y - h xs) ≤ l * len (x - xs) * len p * e :=
    mul_le_mul b4 w.residual (wlen_nonneg _) (mul_nonneg (mul_nonneg l0 (len_nonneg _)) (len_nonneg _))
  obtain ⟨a, ea⟩ : ∃ a, a = wlen W (D x *ᵥ p) := ⟨_, rfl⟩
  rw [← ea] at e2 b1 b5
  have a0 : 0 ≤ a := ea ▸ wlen_nonneg _
  obtain ⟨s, es⟩ : ∃ s, s = len (x - xs) := ⟨_, rfl⟩
  obtain ⟨q, eq⟩ : ∃ q, q = len p := ⟨_, rfl⟩
  obtain ⟨g, eg⟩ : ∃ g, g = len ε := ⟨_, rfl⟩
  rw [← es] at tl b6 ⊢
  rw [← eq] at b3 b5 b6 ⊢
  rw [← eg] at b3 ⊢
  have q0 : 0 ≤ q := eq ▸ len_nonneg _
  have s0 : 0 ≤ s := es ▸ len_nonneg _
  have g0 : 0 ≤ g := eg ▸ len_nonneg _
  have k1 : a ^ 2 ≤ a * (l * s ^ 2 / 2) + q * (l * s * e + g) := by
    have := mul_le_mul_of_nonneg_left tl a0
    linarith
  have k2 : a ^ 2 ≤ a * (l * s ^ 2 / 2 + (l * s * e + g) / c) := by
    have : q ≤ a / c := by rw [le_div_iff₀ c0]; linarith
    have := mul_le_mul_of_nonneg_right this (show 0 ≤ l * s * e + g by positivity)
    have e : a / c * (l * s * e + g) = a * ((l * s * e + g) / c) := by ring
    rw [mul_add, ← e]
    linarith
  have k3 : a ≤ l * s ^ 2 / 2 + (l * s * e + g) / c := by
    rcases a0.eq_or_lt with z | z
    · rw [← z]; positivity
    · rw [_root_.sq] at k2; exact le_of_mul_le_mul_left k2 z
  have k4 : c * q ≤ c * (l / (2 * c) * s ^ 2 + l * e / c ^ 2 * s + g / c ^ 2) := by
    have : c * (l / (2 * c) * s ^ 2 + l * e / c ^ 2 * s + g / c ^ 2) = l * s ^ 2 / 2 + (l * s * e + g) / c := by field_simp; ring
    rw [this]
    linarith
  exact le_of_mul_le_mul_left k4 c0

theorem Smooth.posDef (w : Smooth h D W y xs ρ c l e) {x : Fin n → ℝ} (hx : len (x - xs) ≤ ρ) : ((D x)ᵀ * W * D x).PosDef := by
  rw [← isPosCov_iff]
  have hW := w.weight.isHermitian
  rw [IsHermitian, conjTranspose_eq_transpose_of_trivial] at hW
  refine ⟨by rw [IsSymm, transpose_mul, transpose_mul, hW, transpose_transpose, Matrix.mul_assoc], fun v hv => ?_⟩
  have : v ⬝ᵥ (((D x)ᵀ * W * D x) *ᵥ v) = wlen W (D x *ᵥ v) ^ 2 := by
    rw [wlen_sq w.weight]
    simp only [quad, ← mulVec_mulVec]
    rw [dotProduct_mulVec v, vecMul_transpose]
  rw [this]
  have p : 0 < len v := by
    refine lt_of_le_of_ne (len_nonneg _) fun z => hv ?_
    have := len_sq v
    rw [← z] at this
    exact dotProduct_self_eq_zero.1 (by linarith)
  exact pow_pos (lt_of_lt_of_le (mul_pos w.c_pos p) (w.lower x hx v)) 2

/-- C151: one round of the solver brings the estimate closer: quadratically when the data are consistent (`e = 0`), otherwise linearly with the factor
`l·e/c²` in the limit. -/
theorem C151_step {L : LinSolver ℝ} (hL : L.Correct) (w : Smooth h D W y xs ρ c l e) {x : Fin n → ℝ} (hx : len (x - xs) ≤ ρ) :
    len (gnStep L h D W y x - xs) ≤ l / (2 * c) * len (x - xs) ^ 2 + l * e / c ^ 2 * len (x - xs) := by
  have := w.step (dx := L.ldltSolve ((D x)ᵀ * W * D x) (((D x)ᵀ * W) *ᵥ (y - h x))) (ε := 0) hx (by rw [add_zero]; exact hL.solve _ _ (w.posDef hx))
  rw [show len (0 : Fin n → ℝ) = 0 by simp [len], zero_div, add_zero] at this
  exact this

/-- contraction factor within the distance `ρ` -/
noncomputable def gnRate (ρ c l e : ℝ) : ℝ := l * ρ / (2 * c) + l * e / c ^ 2

theorem gnRate_nonneg (w : Smooth h D W y xs ρ c l e) : 0 ≤ gnRate ρ c l e := by
  have := w.c_pos
  have := w.l_nonneg
  have := w.radius
  have : 0 ≤ e := (wlen_nonneg _).trans w.residual
  unfold gnRate; positivity

theorem gn_contract {L : LinSolver ℝ} (hL : L.Correct) (w : Smooth h D W y xs ρ c l e) {x : Fin n → ℝ} (hx : len (x - xs) ≤ ρ) :
    len (gnStep L h D W y x - xs) ≤ gnRate ρ c l e * len (x - xs) := by
  refine (C151_step hL w hx).trans ?_
  have := w.c_pos
  have a : 0 ≤ l / (2 * c) := div_nonneg w.l_nonneg (by linarith)
  have b := mul_le_mul_of_nonneg_left (mul_le_mul_of_nonneg_right hx (len_nonneg (x - xs))) a
  unfold gnRate
  have e : l * ρ / (2 * c) * len (x - xs) = l / (2 * c) * (ρ * len (x - xs)) := by ring
  rw [add_mul, e, _root_.sq]
  linarith

/-- C151: with consistent data every round squares the error: `θ^(2^k)` where `θ` is the initial error in units of `2c/l`. -/
theorem C151_quadratic {L : LinSolver ℝ} (hL : L.Correct) (w : Smooth h D W y xs ρ c l 0) (hρ : l / (2 * c) * ρ ≤ 1) {x : Fin n → ℝ} (hx : len (x - xs) ≤ ρ) (k : ℕ) :
    l / (2 * c) * len ((gnStep L h D W y)^[k] x - xs) ≤ (l / (2 * c) * len (x - xs)) ^ 2 ^ k ∧ len ((gnStep L h D W y)^[k] x - xs) ≤ ρ := by
  have a : 0 ≤ l / (2 * c) := div_nonneg w.l_nonneg (by linarith [w.c_pos])
  induction k with
  | zero => simpa using hx
  | succ k ih =>
    obtain ⟨i1, i2⟩ := ih
    rw [Function.iterate_succ_apply']
    generalize (gnStep L h D W y)^[k] x = z at i1 i2
    have s := C151_step hL w i2
    rw [mul_zero, zero_div, zero_mul, add_zero] at s
    have z0 := len_nonneg (z - xs)
    constructor
    · rw [pow_succ, pow_mul]
      calc _ ≤ l / (2 * c) * (l / (2 * c) * len (z - xs) ^ 2) := mul_le_mul_of_nonneg_left s a
        _ = (l / (2 * c) * len (z - xs)) ^ 2 := by ring
        _ ≤ _ := pow_le_pow_left₀ (mul_nonneg a z0) i1 2
    · have : l / (2 * c) * len (z - xs) ≤ 1 := (mul_le_mul_of_nonneg_left i2 a).trans hρ
      have := mul_le_mul_of_nonneg_right this z0
      have e : l / (2 * c) * len (z - xs) ^ 2 = l / (2 * c) * len (z - xs) * len (z - xs) := by ring
      linarith

/-- the loop ends after a round of length at most `eps` -/
theorem gn_loop {T : (Fin n → ℝ) → Fin n → ℝ} {body : NlState ℝ → Out (Bool × NlState ℝ)} {q eps : ℝ} (q0 : 0 ≤ q) (q1 : q < 1)
    (hb : ∀ s u, s.xk = ⟨n, u⟩ → body s = .ok (true, ⟨⟨m, h u⟩, ⟨m, n, D u⟩, ⟨n, T u⟩, ⟨n, T u⟩, ⟨n, T u - u⟩⟩))
    (hT : ∀ u, len (u - xs) ≤ ρ → len (T u - xs) ≤ q * len (u - xs)) (k : ℕ) :
    ∀ (s : NlState ℝ) (x : Fin n → ℝ), s.xk = ⟨n, x⟩ → Flt.lt eps s.res.norm = true → len (x - xs) ≤ ρ → (1 + q) * q ^ k * len (x - xs) ≤ eps → ∀ fuel, k + 1 ≤ fuel →
      ∃ u, len (u - xs) ≤ ρ ∧ len (T u - u) ≤ eps ∧ ∃ g yx, whileLoop (fun s => Flt.lt eps s.res.norm) body fuel s
        = some (.ok (true, ⟨yx, ⟨m, n, D u⟩, ⟨n, T u⟩, ⟨n, T u⟩, g⟩)) := by
  induction k with
  | zero =>
    intro s x hs hc hx hk fuel hf
    obtain ⟨f, rfl⟩ : ∃ f, fuel = f + 1 := ⟨fuel - 1, by omega⟩
    have small : len (T x - x) ≤ eps := by
      have a := len_add_le (T x - xs) (xs - x)
      have b := hT x hx
      rw [show T x - xs + (xs - x) = T x - x by abel, show xs - x = -(x - xs) by abel, len_neg] at a
      rw [pow_zero, mul_one, add_mul, one_mul] at hk
      linarith
    have stop : Flt.lt eps (DVec.norm ⟨n, T x - x⟩) = false := by rw [norm_len]; exact lt_false_R small
    refine ⟨x, hx, small, ⟨n, T x - x⟩, ⟨m, h x⟩, ?_⟩
    rw [whileLoop]
    simp only [hc, if_true, hb s x hs]
    cases f <;> simp [whileLoop, stop]
  | succ k ih =>
    intro s x hs hc hx hk fuel hf
    obtain ⟨f, rfl⟩ : ∃ f, fuel = f + 1 := ⟨fuel - 1, by omega⟩
    have b := hT x hx
    by_cases stop : Flt.lt eps (DVec.norm ⟨n, T x - x⟩) = true
    · have hx' : len (T x - xs) ≤ ρ := b.trans ((mul_le_of_le_one_left (len_nonneg _) q1.le).trans hx)
      obtain ⟨u, h1, h2, g, yx, h3⟩ := ih ⟨⟨m, h x⟩, ⟨m, n, D x⟩, ⟨n, T x⟩, ⟨n, T x⟩, ⟨n, T x - x⟩⟩ (T x) rfl stop hx' (by
        refine le_trans ?_ hk
        have := mul_le_mul_of_nonneg_left b (show 0 ≤ (1 + q) * q ^ k by positivity)
        exact this.trans (le_of_eq (by ring))) f (by omega)
      refine ⟨u, h1, h2, g, yx, ?_⟩
      rw [whileLoop]
      simp only [hc, if_true, hb s x hs]
      exact h3
    · have stop' : Flt.lt eps (DVec.norm ⟨n, T x - x⟩) = false := by simpa using stop
      refine ⟨x, hx, ?_, ⟨n, T x - x⟩, ⟨m, h x⟩, ?_⟩
      · have := stop'
        rw [norm_len] at this
        rw [← Bool.not_eq_true, R_lt, not_lt] at this
        exact this
      rw [whileLoop]
      simp only [hc, if_true, hb s x hs]
      cases f <;> simp [whileLoop, stop']

theorem gn_final {T : (Fin n → ℝ) → Fin n → ℝ} {q eps : ℝ} (q0 : 0 ≤ q) (q1 : q < 1)
    (hT : ∀ u, len (u - xs) ≤ ρ → len (T u - xs) ≤ q * len (u - xs)) {u : Fin n → ℝ} (hu : len (u - xs) ≤ ρ) (hs : len (T u - u) ≤ eps) :
    len (T u - xs) ≤ q / (1 - q) * eps := by
  have a := len_add_le (-(T u - u)) (T u - xs)
  have b := hT u hu
  rw [len_neg, show -(T u - u) + (T u - xs) = u - xs by abel] at a
  have p : 0 < 1 - q := by linarith
  rw [div_mul_eq_mul_div, le_div_iff₀ p]
  nlinarith

/-- C151: started close enough to a stationary point, the weighted nonlinear solver finishes, after at most `k + 1` rounds, with a result within
`q/(1-q)·eps` of it. -/
theorem C151_weighted {L : LinSolver ℝ} (hL : L.Correct) (w : Smooth h D W y xs ρ c l e) (hq : gnRate ρ c l e < 1) (hnm : n ≤ m) {x x1 : Fin n → ℝ} (hx : len (x - xs) ≤ ρ)
    {eps : ℝ} (gap : eps < len (x1 - x)) {k : ℕ} (hk : (1 + gnRate ρ c l e) * gnRate ρ c l e ^ k * len (x - xs) ≤ eps) (H0 : Matrix (Fin m) (Fin n) ℝ) (J : ℝ)
    {fuel : ℕ} (hf : k + 1 ≤ fuel) :
    ∃ u z J', weightedNonlinear L (fnModel h D) fuel ⟨m, y⟩ ⟨m, n, H0⟩ ⟨n, x⟩ ⟨m, m, W⟩ eps ⟨n, x1⟩ J = some (.ok (true, ⟨⟨m, n, D u⟩, ⟨n, z⟩, ⟨n, z⟩, J'⟩))
      ∧ len (z - xs) ≤ gnRate ρ c l e / (1 - gnRate ρ c l e) * eps := by
  have hnm' : ¬ (n > m) := by omega
  have q0 := gnRate_nonneg w
  obtain ⟨u, h1, h2, g, yx, h3⟩ := gn_loop (h := h) (D := D) q0 hq (bodyW_fn L h D y W) (fun u hu => gn_contract hL w hu) k
    ⟨⟨0, Fin.elim0⟩, ⟨m, n, H0⟩, ⟨n, x⟩, ⟨n, x1⟩, ⟨n, x1 - x⟩⟩ x rfl (by simp only [norm_len]; exact (R_lt _ _).2 gap) hx hk fuel hf
  refine ⟨u, gnStep L h D W y u, (1 / 2) * ((y - D u *ᵥ gnStep L h D W y u) ⬝ᵥ (y - D u *ᵥ gnStep L h D W y u)), ?_, gn_final q0 hq (fun u hu => gn_contract hL w hu) h1 h2⟩
  simp only [weightedNonlinear, ne_eq, not_true_eq_false, or_self, if_false, hnm', osimp, rsimp, h3, finish, cost_R]

/-- C151 (unweighted). -/
theorem C151_unweighted {L : LinSolver ℝ} (hL : L.Correct) (w : Smooth h D 1 y xs ρ c l e) (hq : gnRate ρ c l e < 1) (hnm : n ≤ m) {x x1 : Fin n → ℝ} (hx : len (x - xs) ≤ ρ)
    {eps : ℝ} (gap : eps < len (x1 - x)) {k : ℕ} (hk : (1 + gnRate ρ c l e) * gnRate ρ c l e ^ k * len (x - xs) ≤ eps) (H0 : Matrix (Fin m) (Fin n) ℝ) (J : ℝ)
    {fuel : ℕ} (hf : k + 1 ≤ fuel) :
    ∃ u z J', unweightedNonlinear L (fnModel h D) fuel ⟨m, y⟩ ⟨m, n, H0⟩ ⟨n, x⟩ eps ⟨n, x1⟩ J = some (.ok (true, ⟨⟨m, n, D u⟩, ⟨n, z⟩, ⟨n, z⟩, J'⟩))
      ∧ len (z - xs) ≤ gnRate ρ c l e / (1 - gnRate ρ c l e) * eps := by
  have hnm' : ¬ (n > m) := by omega
  have q0 := gnRate_nonneg w
  obtain ⟨u, h1, h2, g, yx, h3⟩ := gn_loop (h := h) (D := D) q0 hq (bodyU_fn L h D y) (fun u hu => gn_contract hL w hu) k
    ⟨⟨0, Fin.elim0⟩, ⟨m, n, H0⟩, ⟨n, x⟩, ⟨n, x1⟩, ⟨n, x1 - x⟩⟩ x rfl (by simp only [norm_len]; exact (R_lt _ _).2 gap) hx hk fuel hf
  refine ⟨u, gnStep L h D 1 y u, (1 / 2) * ((y - D u *ᵥ gnStep L h D 1 y u) ⬝ᵥ (y - D u *ᵥ gnStep L h D 1 y u)), ?_, gn_final q0 hq (fun u hu => gn_contract hL w hu) h1 h2⟩
  simp only [unweightedNonlinear, ne_eq, not_true_eq_false, or_self, if_false, hnm', osimp, rsimp, h3, finish, cost_R]

/-- C151: what the solver converges to is a strict minimum of the weighted cost. -/
theorem C151_minimum (w : Smooth h D W y xs ρ c l e) {x : Fin n → ℝ} (hx : len (x - xs) ≤ ρ) (ne : x ≠ xs) (hc : l / 2 * len (x - xs) ≤ c)
    (he : l * e < (c - l / 2 * len (x - xs)) ^ 2) : quad W (y - h xs) < quad W (y - h x) := by
  obtain ⟨r, er⟩ : ∃ r, r = y - h xs := ⟨_, rfl⟩
  obtain ⟨d, ed⟩ : ∃ d, d = h xs - h x := ⟨_, rfl⟩
  have h0 : len (xs - xs) ≤ ρ := by rw [sub_self]; simpa [len] using w.radius
  obtain ⟨s, es⟩ : ∃ s, s = len (x - xs) := ⟨_, rfl⟩
  have s0 : 0 < s := by
    rw [es]
    refine lt_of_le_of_ne (len_nonneg _) fun z => ne ?_
    have := len_sq (x - xs)
    rw [← z] at this
    exact sub_eq_zero.1 (dotProduct_self_eq_zero.1 (by linarith))
  have flip : len (xs - x) = s := by rw [es, ← len_neg]; congr 1; abel
  have l0 := w.l_nonneg
  -- the linearisation at `xs`
  have on : ∀ t ∈ Set.Icc (0 : ℝ) 1, len (xs + t • (x - xs) - xs) ≤ ρ := fun t ht => by
    rw [add_sub_cancel_left, len_smul, abs_of_nonneg ht.1]
    exact (mul_le_of_le_one_left (len_nonneg _) ht.2).trans hx
  have tl := taylor_le w.weight (h := h) (D := D) (x := xs) (d := x - xs) (l := l * s ^ 2) (fun t ht => w.deriv _ (on t ht)) (fun t ht => by
    have a := w.lipschitz _ xs (on t ht) h0 (x - xs)
    rw [add_sub_cancel_left, len_smul, abs_of_nonneg ht.1, ← es] at a
    exact a.trans (le_of_eq (by ring)))
  rw [show xs + (x - xs) = x by abel] at tl
  obtain ⟨R, eR⟩ : ∃ R, R = h x - h xs - D xs *ᵥ (x - xs) := ⟨_, rfl⟩
  rw [← eR] at tl
  have orth : (D xs *ᵥ (x - xs)) ⬝ᵥ (W *ᵥ r) = 0 := by
    rw [← vecMul_transpose, ← dotProduct_mulVec, er, w.stationary, dotProduct_zero]
  have ed' : d = -R - D xs *ᵥ (x - xs) := by rw [ed, eR]; abel
  have c1 : d ⬝ᵥ (W *ᵥ r) = -(R ⬝ᵥ (W *ᵥ r)) := by rw [ed', sub_dotProduct, orth, neg_dotProduct, sub_zero]
  have c2 := w_cauchy w.weight R r
  have res : wlen W r ≤ e := er ▸ w.residual
  have c3 : R ⬝ᵥ (W *ᵥ r) ≤ l * s ^ 2 / 2 * e := c2.trans (mul_le_mul tl res (wlen_nonneg _) (by positivity))
  -- the size of the change
  have lo := w.lower xs h0 (x - xs)
  rw [← es] at lo hc he
  have dl : (c - l / 2 * s) * s ≤ wlen W d := by
    have q : wlen W (D xs *ᵥ (x - xs)) ^ 2 = (D xs *ᵥ (x - xs)) ⬝ᵥ (W *ᵥ (-R + -d)) := by
      rw [wlen_sq w.weight, quad]; congr 2; rw [ed']; abel
    have a1 := w_cauchy w.weight (D xs *ᵥ (x - xs)) (-R)
    have a2 := w_cauchy w.weight (D xs *ᵥ (x - xs)) (-d)
    have nR : wlen W (-R) = wlen W R := by simp [wlen, quad, mulVec_neg]
    have nd : wlen W (-d) = wlen W d := by simp [wlen, quad, mulVec_neg]
    rw [mulVec_add, dotProduct_add] at q
    rw [nR] at a1
    rw [nd] at a2
    obtain ⟨a, ea⟩ : ∃ a, a = wlen W (D xs *ᵥ (x - xs)) := ⟨_, rfl⟩
    rw [← ea] at q a1 a2 lo
    have ap : 0 < a := lt_of_lt_of_le (mul_pos w.c_pos s0) lo
    have : a * a ≤ a * (wlen W R + wlen W d) := by nlinarith
    have := le_of_mul_le_mul_left this ap
    nlinarith
  have d2 : ((c - l / 2 * s) * s) ^ 2 ≤ quad W d := by
    rw [← wlen_sq w.weight]
    exact pow_le_pow_left₀ (mul_nonneg (by linarith) s0.le) dl 2
  have ex : quad W (y - h x) = quad W r + 2 * (d ⬝ᵥ (W *ᵥ r)) + quad W d := by
    have : y - h x = r + d := by rw [er, ed]; abel
    rw [this]
    simp only [quad, mulVec_add, add_dotProduct, dotProduct_add]
    rw [w_symm w.weight r d]
    ring
  rw [ex, c1, ← er]
  have := mul_lt_mul_of_pos_right he (pow_pos s0 2)
  nlinarith

/-- the square as a measurement -/
def sqH : (Fin 1 → ℝ) → Fin 1 → ℝ := fun x => ![x 0 ^ 2]
def sqD : (Fin 1 → ℝ) → Matrix (Fin 1) (Fin 1) ℝ := fun x => !![2 * x 0]

theorem len_one (v : Fin 1 → ℝ) : len v = |v 0| := by simp [len, Real.sqrt_sq_eq_abs]

/-- measuring `x²` as 4, near `x = 2` -/
theorem sq_smooth : Smooth sqH sqD 1 ![4] ![2] (1 / 2) 3 2 0 where
  weight := one_posDef
  radius := by norm_num
  c_pos := by norm_num
  l_nonneg := by norm_num
  deriv x _ := by
    rw [hasFDerivAt_pi']
    intro i
    fin_cases i
    have h1 : HasFDerivAt (fun x : Fin 1 → ℝ => x 0) (ContinuousLinearMap.proj (R := ℝ) 0) x := (ContinuousLinearMap.proj (R := ℝ) (φ := fun _ : Fin 1 => ℝ) 0).hasFDerivAt
    have h2 := h1.pow 2
    refine h2.congr_fderiv ?_
    ext v
    simp [asDeriv, sqD, dotProduct]
  lower x hx v := by
    rw [wlen_one, len_one, len_one]
    rw [len_one] at hx
    have hx' : |x 0 - 2| ≤ 1 / 2 := by simpa using hx
    have := abs_le.1 hx'
    simp only [sqD, mulVec, dotProduct, Fin.sum_univ_one, of_apply, cons_val', cons_val_fin_one, Fin.isValue, abs_mul]
    rw [abs_of_nonneg (show 0 ≤ x 0 by linarith), abs_two]
    exact mul_le_mul_of_nonneg_right (by linarith) (abs_nonneg _)
  lipschitz x x' _ _ v := by
    rw [wlen_one, len_one, len_one, len_one]
    simp only [sqD, mulVec, dotProduct, Fin.sum_univ_one, Matrix.sub_apply, of_apply, cons_val', cons_val_fin_one, Fin.isValue, abs_mul, Pi.sub_apply]
    rw [← mul_sub, abs_mul, abs_two]
  stationary := by
    have : (![4] - sqH ![2] : Fin 1 → ℝ) = 0 := by ext i; fin_cases i; norm_num [sqH]
    rw [this, mulVec_zero, mulVec_zero]
  residual := by simp [wlen_one, len_one, sqH]; norm_num

example : gnRate (1 / 2) 3 2 0 = 1 / 6 := by unfold gnRate; norm_num

/-! ## C152 -/

/-- half the sum of squared residuals of the measurement function itself -/
noncomputable def halfCost (h : (Fin n → ℝ) → Fin m → ℝ) (y : Fin m → ℝ) (x : Fin n → ℝ) : ℝ := (∑ i, (y i - h x i) ^ 2) / 2

/-- C152, what does hold. (Full claim: the reported `J` is half the sum of squared residuals of the returned estimate. Missing: every nonlinear `h`.) The
reported `J` is that of the linear function `x ↦ H x` with the last Jacobian `H`, hence right when `h` is linear. -/
theorem C152_cost_partial {L : LinSolver ℝ} (M : MeasModel ℝ) (fuel : ℕ) {H H0 : Matrix (Fin m) (Fin n) ℝ} {x x1 z z' : Fin n → ℝ} {eps J J' : ℝ}
    (hr : unweightedNonlinear L M fuel ⟨m, y⟩ ⟨m, n, H0⟩ ⟨n, x⟩ eps ⟨n, x1⟩ J = some (.ok (true, ⟨⟨m, n, H⟩, ⟨n, z'⟩, ⟨n, z⟩, J'⟩))) :
    J' = halfCost (fun x => H *ᵥ x) y z := by
  simp only [unweightedNonlinear] at hr
  split_ifs at hr
  · simp at hr
  · simp at hr
  · simp at hr
  · simp only [osimp] at hr
    revert hr
    generalize whileLoop _ _ _ _ = o
    intro hr
    rcases o with _ | ⟨_ | ⟨b, s⟩⟩
    · simp [finish] at hr
    · simp [finish] at hr
    · cases b
      · simp [finish] at hr
      · rcases s with ⟨yx, Hk, xk, xkp1, res⟩
        simp only [finish] at hr
        cases hc : computeCostFunction ⟨m, y⟩ Hk xkp1 J with
        | error e => rw [hc] at hr; simp [osimp] at hr
        | ok a =>
          rw [hc] at hr
          simp only [osimp, Option.some.injEq, Except.ok.injEq, Prod.mk.injEq, NlOut.mk.injEq] at hr
          obtain ⟨h1, rfl, -, rfl, rfl⟩ := hr
          rw [cost_R] at hc
          simp only [Except.ok.injEq] at hc
          rw [← hc]
          simp [halfCost, dotProduct, _root_.sq]
          ring

/-- C152 is false of the code: fitting `x²` to the measurement 4 from the exact solution 2, with a correct solver and Jacobian, the solver returns the
perfect fit `x = 2` and reports the cost 8 instead of 0. -/
theorem C152_cost_fails {L : LinSolver ℝ} (hL : L.Correct) :
    unweightedNonlinear L (fnModel sqH sqD) 1 ⟨1, ![4]⟩ ⟨1, 1, !![1]⟩ ⟨1, ![2]⟩ (1 / 2) ⟨1, ![3]⟩ 0 = some (.ok (true, ⟨⟨1, 1, sqD ![2]⟩, ⟨1, ![2]⟩, ⟨1, ![2]⟩, 8⟩))
      ∧ halfCost sqH ![4] ![2] = 0 := by
  have z : len (![2] - ![2] : Fin 1 → ℝ) ≤ 1 / 2 := by rw [len_one]; simp
  have fix : gnStep L sqH sqD 1 ![4] ![2] = ![2] := by
    have a := C151_step hL sq_smooth z
    have b : len (![2] - ![2] : Fin 1 → ℝ) = 0 := by rw [len_one]; simp
    rw [b] at a
    have c := len_sq (gnStep L sqH sqD 1 ![4] ![2] - ![2])
    have d := len_nonneg (gnStep L sqH sqD 1 ![4] ![2] - ![2])
    have d' : len (gnStep L sqH sqD 1 ![4] ![2] - ![2]) = 0 := le_antisymm (by simpa using a) d
    rw [d'] at c
    exact sub_eq_zero.1 (dotProduct_self_eq_zero.1 (by linarith))
  refine ⟨?_, by simp [halfCost, sqH]; norm_num⟩
  have gap : Flt.lt (1 / 2 : ℝ) (DVec.norm ⟨1, ![3] - ![2]⟩) = true := by rw [norm_len, len_one, R_lt]; norm_num
  have stop : Flt.lt (1 / 2 : ℝ) (DVec.norm ⟨1, ![2] - ![2]⟩) = false := by rw [norm_len]; exact lt_false_R z
  have loop : whileLoop (fun s : NlState ℝ => Flt.lt (1 / 2) s.res.norm) (bodyU L (fnModel sqH sqD) ⟨1, ![4]⟩) 1
      ⟨⟨0, Fin.elim0⟩, ⟨1, 1, !![1]⟩, ⟨1, ![2]⟩, ⟨1, ![3]⟩, ⟨1, ![3] - ![2]⟩⟩
      = some (.ok (true, ⟨⟨1, sqH ![2]⟩, ⟨1, 1, sqD ![2]⟩, ⟨1, ![2]⟩, ⟨1, ![2]⟩, ⟨1, ![2] - ![2]⟩⟩)) := by
    rw [whileLoop]
    simp only [gap, if_true]
    rw [bodyU_fn L sqH sqD ![4] _ ![2] rfl, fix]
    simp only [whileLoop, stop]
    rfl
  simp only [unweightedNonlinear, ne_eq, not_true_eq_false, or_self, if_false, gt_iff_lt, lt_self_iff_false, osimp, rsimp, loop, finish, cost_R]
  norm_num [sqD, dotProduct, mulVec]

end NavFuse.Props
