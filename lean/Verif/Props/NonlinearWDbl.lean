import Verif.Props.NonlinearDbl

/-! # Weighted nonlinear least squares in double precision -/

namespace NavFuse.Props
open Matrix Spec KA Lsq
variable [Machine] {r : ℝ → ℝ} {n m : ℕ}

omit [Machine] in
theorem wlen_neg {W : Matrix (Fin m) (Fin m) ℝ} (u : Fin m → ℝ) : wlen W (-u) = wlen W u := by simp [wlen, quad, mulVec_neg]

omit [Machine] in
theorem wlen_add_le {W : Matrix (Fin m) (Fin m) ℝ} (hW : W.PosDef) (u v : Fin m → ℝ) : wlen W (u + v) ≤ wlen W u + wlen W v := by
  have h := w_cauchy hW u v
  have hu := wlen_sq hW u
  have hv := wlen_sq hW v
  refine wlen_le (add_nonneg (wlen_nonneg u) (wlen_nonneg v)) ?_
  unfold quad at *
  rw [mulVec_add, add_dotProduct, dotProduct_add, dotProduct_add, w_symm hW v u]
  nlinarith

omit [Machine] in
/-- one Gauss–Newton step with a perturbed prediction and Jacobian, in the metric of the weights -/
theorem gn_perturbed_w {W : Matrix (Fin m) (Fin m) ℝ} (hW : W.PosDef) {h : (Fin n → ℝ) → Fin m → ℝ} {D : (Fin n → ℝ) → Matrix (Fin m) (Fin n) ℝ} {y yh : Fin m → ℝ} {xs x dx : Fin n → ℝ}
    {H : Matrix (Fin m) (Fin n) ℝ} {ρ c l e a b : ℝ} (c0 : 0 < c) (l0 : 0 ≤ l)
    (deriv : ∀ x, len (x - xs) ≤ ρ → HasFDerivAt h (asDeriv (D x)) x)
    (lip : ∀ x x', len (x - xs) ≤ ρ → len (x' - xs) ≤ ρ → ∀ v, wlen W ((D x - D x') *ᵥ v) ≤ l * len (x - x') * len v)
    (stat : (D xs)ᵀ *ᵥ (W *ᵥ (y - h xs)) = 0) (res : wlen W (y - h xs) ≤ e) (hx : len (x - xs) ≤ ρ)
    (lower : ∀ v, c * len v ≤ wlen W (H *ᵥ v)) (b0 : 0 ≤ b) (hy : wlen W (yh - h x) ≤ a) (hH : ∀ v, wlen W ((H - D x) *ᵥ v) ≤ b * len v)
    (hd : (Hᵀ * W * H) *ᵥ dx = (Hᵀ * W) *ᵥ (y - yh)) :
    len (x + dx - xs) ≤ (l / (2 * c) * len (x - xs) + b / c + l * e / c ^ 2) * len (x - xs) + (a / c + b * e / c ^ 2) := by
  have ρ0 : 0 ≤ ρ := (len_nonneg _).trans hx
  have on : ∀ t ∈ Set.Icc (0 : ℝ) 1, len (x + t • (xs - x) - xs) ≤ ρ := fun t ht => by
    have : x + t • (xs - x) - xs = (1 - t) • (x - xs) := by ext i; simp; ring
    rw [this, len_smul, abs_of_nonneg (by linarith [ht.2])]
    exact (mul_le_of_le_one_left (len_nonneg _) (by linarith [ht.1])).trans hx
  have flip : len (xs - x) = len (x - xs) := by rw [← len_neg]; congr 1; abel
  have tl := taylor_le hW (h := h) (D := D) (x := x) (d := xs - x) (l := l * len (x - xs) ^ 2) (fun t ht => deriv _ (on t ht)) (fun t ht => by
    have a := lip _ x (on t ht) hx (xs - x)
    have : x + t • (xs - x) - x = t • (xs - x) := by abel
    rw [this, len_smul, abs_of_nonneg ht.1, flip] at a
    exact a.trans (le_of_eq (by ring)))
  rw [show x + (xs - x) = xs by abel] at tl
  obtain ⟨p, ep⟩ : ∃ p, p = x + dx - xs := ⟨_, rfl⟩
  obtain ⟨R, eR⟩ : ∃ R, R = h xs - h x - D x *ᵥ (xs - x) := ⟨_, rfl⟩
  rw [← ep]
  rw [← eR] at tl
  have h0 : len (xs - xs) ≤ ρ := by rw [sub_self]; simpa [len] using ρ0
  obtain ⟨S, eS⟩ : ∃ S, S = R + -(yh - h x) + -((H - D x) *ᵥ (xs - x)) := ⟨_, rfl⟩
  have Sle : wlen W S ≤ l * len (x - xs) ^ 2 / 2 + a + b * len (x - xs) := by
    rw [eS]
    have a1 := wlen_add_le hW (R + -(yh - h x)) (-((H - D x) *ᵥ (xs - x)))
    have a2 := wlen_add_le hW R (-(yh - h x))
    have a3 := hH (xs - x)
    rw [wlen_neg] at a1 a2
    rw [flip] at a3
    linarith
  have e1 : (Hᵀ * W * H) *ᵥ p = Hᵀ *ᵥ (W *ᵥ S) + (H - D xs)ᵀ *ᵥ (W *ᵥ (y - h xs)) := by
    have q : p = dx - (xs - x) := by rw [ep]; abel
    rw [q, mulVec_sub, hd, eS, eR, transpose_sub, sub_mulVec _ _ (W *ᵥ (y - h xs)), stat, sub_zero, mulVec_mulVec, mulVec_mulVec, ← mulVec_mulVec (xs - x) (Hᵀ * W) H, ← mulVec_sub, ← mulVec_add]
    congr 1
    rw [sub_mulVec]
    abel
  have e2 : wlen W (H *ᵥ p) ^ 2 = p ⬝ᵥ ((Hᵀ * W * H) *ᵥ p) := by
    rw [wlen_sq hW, quad, ← mulVec_mulVec, ← mulVec_mulVec, dotProduct_mulVec p, vecMul_transpose]
  rw [e1, dotProduct_add, dotProduct_mulVec p, vecMul_transpose, dotProduct_mulVec p (H - D xs)ᵀ, vecMul_transpose] at e2
  have b1 := w_cauchy hW (H *ᵥ p) S
  have b2 := w_cauchy hW ((H - D xs) *ᵥ p) (y - h xs)
  have b3 : wlen W ((H - D xs) *ᵥ p) ≤ (b + l * len (x - xs)) * len p := by
    have q : (H - D xs) *ᵥ p = (H - D x) *ᵥ p + (D x - D xs) *ᵥ p := by rw [← add_mulVec]; congr 1; abel
    rw [q]
    have := wlen_add_le hW ((H - D x) *ᵥ p) ((D x - D xs) *ᵥ p)
    have := hH p
    have := lip x xs hx h0 p
    linarith
  have b5 := lower p
  have e0 : 0 ≤ e := (wlen_nonneg _).trans res
  have a0 : 0 ≤ a := (wlen_nonneg _).trans hy
  obtain ⟨s, es⟩ : ∃ s, s = len (x - xs) := ⟨_, rfl⟩
  obtain ⟨q, eq⟩ : ∃ q, q = len p := ⟨_, rfl⟩
  obtain ⟨A, eA⟩ : ∃ A, A = wlen W (H *ᵥ p) := ⟨_, rfl⟩
  have q0 : 0 ≤ q := eq ▸ len_nonneg _
  have s0 : 0 ≤ s := es ▸ len_nonneg _
  have A0 : 0 ≤ A := eA ▸ wlen_nonneg _
  rw [← es] at b3 Sle ⊢
  rw [← eq] at b3 b5 ⊢
  rw [← eA] at b1 b5 e2
  have b6 : wlen W ((H - D xs) *ᵥ p) * wlen W (y - h xs) ≤ (b + l * s) * q * e := mul_le_mul b3 res (wlen_nonneg _) (by positivity)
  have b7 := mul_le_mul_of_nonneg_left Sle A0
  have k1 : A ^ 2 ≤ A * (l * s ^ 2 / 2 + a + b * s) + q * ((b + l * s) * e) := by linarith
  have k2 : A ^ 2 ≤ A * (l * s ^ 2 / 2 + a + b * s + (b + l * s) * e / c) := by
    have : q ≤ A / c := by rw [le_div_iff₀ c0]; linarith
    have := mul_le_mul_of_nonneg_right this (show 0 ≤ (b + l * s) * e by positivity)
    have e : A / c * ((b + l * s) * e) = A * ((b + l * s) * e / c) := by ring
    rw [mul_add, ← e]
    linarith
  have k3 : A ≤ l * s ^ 2 / 2 + a + b * s + (b + l * s) * e / c := by
    rcases A0.eq_or_lt with z | z
    · rw [← z]; positivity
    · rw [_root_.sq] at k2; exact le_of_mul_le_mul_left k2 z
  have k4 : c * q ≤ c * ((l / (2 * c) * s + b / c + l * e / c ^ 2) * s + (a / c + b * e / c ^ 2)) := by
    have : c * ((l / (2 * c) * s + b / c + l * e / c ^ 2) * s + (a / c + b * e / c ^ 2)) = l * s ^ 2 / 2 + a + b * s + (b + l * s) * e / c := by field_simp; ring
    rw [this]
    linarith
  exact le_of_mul_le_mul_left k4 c0

/-- A fitting problem near a stationary point `xs` of the weighted cost, as in `Smooth`, with the user's functions evaluated in doubles: they return finite numbers
`yh x` and `Hh x` that differ from the measurement function `h` by at most `a` and from its Jacobian `D` by at most `b`. Entries of the computed Jacobian,
of the residuals and of the states are at most `η`, `ζ`, `X`, those of the weights at most `ω`; the computed
Jacobian is bounded below by `c`. Lengths of measurements in the metric of the weights. -/
structure NlwPosed (M : MeasModel (Dbl r)) (h : (Fin n → ℝ) → Fin m → ℝ) (D : (Fin n → ℝ) → Matrix (Fin m) (Fin n) ℝ) (W : Matrix (Fin m) (Fin m) ℝ)
    (yh : (Fin n → ℝ) → Fin m → ℝ) (Hh : (Fin n → ℝ) → Matrix (Fin m) (Fin n) ℝ) (y : Fin m → ℝ) (xs : Fin n → ℝ) (ρ c l e a b η ω ζ X κ : ℝ) : Prop where
  meas_le : m ≤ 10 ^ 6
  weight : W.PosDef
  radius : 0 ≤ ρ
  c_pos : 0 < c
  l_nonneg : 0 ≤ l
  b_nonneg : 0 ≤ b
  deriv : ∀ x, len (x - xs) ≤ ρ → HasFDerivAt h (asDeriv (D x)) x
  lipschitz : ∀ x x', len (x - xs) ≤ ρ → len (x' - xs) ≤ ρ → ∀ v, wlen W ((D x - D x') *ᵥ v) ≤ l * len (x - x') * len v
  stationary : (D xs)ᵀ *ᵥ (W *ᵥ (y - h xs)) = 0
  residual : wlen W (y - h xs) ≤ e
  predicted : ∀ x o, len (x - xs) ≤ ρ → M.predicted ⟨n, dV x⟩ o = .ok (true, ⟨m, dV (yh x)⟩)
  relinearize : ∀ x o, len (x - xs) ≤ ρ → M.relinearize ⟨n, dV x⟩ o = .ok (true, ⟨m, n, dM (Hh x)⟩)
  yh_near : ∀ x, len (x - xs) ≤ ρ → wlen W (yh x - h x) ≤ a
  Hh_near : ∀ x, len (x - xs) ≤ ρ → ∀ v, wlen W ((Hh x - D x) *ᵥ v) ≤ b * len v
  H_le : ∀ x, len (x - xs) ≤ ρ → ∀ i j, |Hh x i j| ≤ η
  W_le : ∀ i j, |W i j| ≤ ω
  y_le : ∀ i, |y i| ≤ ζ
  yh_le : ∀ x, len (x - xs) ≤ ρ → ∀ i, |yh x i| ≤ ζ
  x_le : ∀ i, |xs i| + ρ ≤ X
  le_η : 1e-20 ≤ η
  η_le : η ≤ 1e14
  le_ω : 1e-20 ≤ ω
  le_ζ : 1e-20 ≤ ζ
  ζ_le : ζ ≤ 1e60
  le_X : 1e-90 ≤ X
  X_le : X ≤ 1e60
  normal : ∀ x, len (x - xs) ≤ ρ → Normal ((Hh x)ᵀ * W * Hh x) (m * (m * (η * ω) * η)) (c * c) κ (m * (m * (η * ω) * (ζ + ζ))) (2 * m + 3)

/-- largest correction in one round -/
noncomputable def nlwStep (n m : ℕ) (c η ω ζ : ℝ) : ℝ := 8 * n * (m * (m * (η * ω) * (ζ + ζ))) / (c * c)

/-- error added in one round: by the user's functions, by the solver and by the addition -/
noncomputable def nlwFloor (n m : ℕ) (c e a b η ω ζ X : ℝ) : ℝ :=
  a / c + b * e / c ^ 2 + n * (fitErr n (2 * m + 3) (m * (m * (η * ω) * η)) (c * c) (m * (m * (η * ω) * (ζ + ζ))) + ulp * (X + nlwStep n m c η ω ζ))

variable {M : MeasModel (Dbl r)} {h : (Fin n → ℝ) → Fin m → ℝ} {D : (Fin n → ℝ) → Matrix (Fin m) (Fin n) ℝ}
    {yh : (Fin n → ℝ) → Fin m → ℝ} {Hh : (Fin n → ℝ) → Matrix (Fin m) (Fin n) ℝ} {y : Fin m → ℝ} {xs : Fin n → ℝ} {ρ c l e a b η ω ζ X κ : ℝ} {W : Matrix (Fin m) (Fin m) ℝ}

omit [Machine] in
theorem NlwPosed.coord (w : NlwPosed M h D W yh Hh y xs ρ c l e a b η ω ζ X κ) {x : Fin n → ℝ} (hx : len (x - xs) ≤ ρ) (i : Fin n) : |x i| ≤ X := by
  have a := (abs_le_len (x - xs) i).trans hx
  have b := abs_add_le ((x - xs) i) (xs i)
  rw [Pi.sub_apply] at a b
  rw [sub_add_cancel] at b
  linarith [w.x_le i]

/-- C162: one round of the weighted nonlinear solver in doubles. -/
theorem C162_round (hr : Rounds53 r) (w : NlwPosed M h D W yh Hh y xs ρ c l e a b η ω ζ X κ) (keep : nlRate ρ c l e b * ρ + nlwFloor n m c e a b η ω ζ X ≤ ρ)
    {x : Fin n → ℝ} (hx : len (x - xs) ≤ ρ) {s : NlState (Dbl r)} (hs : s.xk = ⟨n, dV x⟩) :
    ∃ z g : Fin n → ℝ, bodyW LinSolver.eigen M ⟨m, dV y⟩ ⟨m, m, dM W⟩ s = .ok (true, ⟨⟨m, dV (yh x)⟩, ⟨m, n, dM (Hh x)⟩, ⟨n, dV z⟩, ⟨n, dV z⟩, ⟨n, dV g⟩⟩)
      ∧ len (z - xs) ≤ nlRate ρ c l e b * len (x - xs) + nlwFloor n m c e a b η ω ζ X ∧ len (g - (z - x)) ≤ n * (ulp * (X + X)) := by
  have wn := w.normal x hx
  have c0 := w.c_pos
  have cc : 0 < c * c := mul_pos c0 c0
  have η0 : 0 ≤ η := le_trans (by norm_num) w.le_η
  have ζ0 : 0 ≤ ζ := le_trans (by norm_num) w.le_ζ
  have X0 : 0 ≤ X := le_trans (by norm_num) w.le_X
  have hm := w.meas_le
  have n1 : (1 : ℝ) ≤ n := by exact_mod_cast wn.size
  have n2 : (n : ℝ) ≤ 100 := by exact_mod_cast wn.size_le
  have lower : ∀ v, c * len v ≤ wlen W (Hh x *ᵥ v) := fun v => by
    have p := wn.pos v
    rw [← mulVec_mulVec, ← mulVec_mulVec, dotProduct_mulVec v, vecMul_transpose, ← len_sq] at p
    refine abs_le_of_sq_le_sq' ?_ (wlen_nonneg _) |>.2
    rw [mul_pow, _root_.sq c, wlen_sq w.weight]; exact p
  have rank : FullColumnRank (Hh x) := fun u u' e => by
    have h1 := lower (u - u')
    rw [mulVec_sub, e, sub_self] at h1
    have z : wlen W (0 : Fin m → ℝ) = 0 := by simp [wlen, quad]
    rw [z] at h1
    have h2 : len (u - u') = 0 := le_antisymm (by by_contra hh; push Not at hh; nlinarith [mul_pos c0 hh]) (len_nonneg _)
    have h3 := len_sq (u - u')
    rw [h2] at h3
    exact sub_eq_zero.1 (dotProduct_self_eq_zero.1 (by linarith))
  have nm := rank.le
  have m0 : 0 < m := lt_of_lt_of_le wn.size nm
  have m1 : (1 : ℝ) ≤ m := by exact_mod_cast m0
  have ω0 : 0 ≤ ω := le_trans (by norm_num) w.le_ω
  have ηω : (1e-40 : ℝ) ≤ η * ω := le_trans (by norm_num) (mul_le_mul w.le_η w.le_ω (by norm_num) η0)
  have mηω : (1e-40 : ℝ) ≤ m * (η * ω) := ηω.trans (le_mul_of_one_le_left (by positivity) m1)
  have s0 : (1e-60 : ℝ) ≤ m * (η * ω) * η := le_trans (by norm_num) (mul_le_mul mηω w.le_η (by norm_num) (by positivity))
  have t0 : (1e-60 : ℝ) ≤ m * (η * ω) * (ζ + ζ) :=
    le_trans (by norm_num) (mul_le_mul mηω (show (1e-20 : ℝ) ≤ ζ + ζ by linarith [w.le_ζ]) (by norm_num) (by positivity))
  have β0 : 0 ≤ m * (m * (η * ω) * (ζ + ζ)) := by positivity
  have β1 : m * (m * (η * ω) * (ζ + ζ)) ≤ 1e50 := (le_mul_of_one_le_right β0 (one_le_pow₀ (by linarith [wn.le_κ]))).trans wn.grow
  have ωle : m * (η * ω) ≤ 1e80 := by
    by_contra hh
    push Not at hh
    have h1 : (1e80 : ℝ) * 1e-20 ≤ m * (η * ω) * (ζ + ζ) := mul_le_mul hh.le (show (1e-20 : ℝ) ≤ ζ + ζ by linarith [w.le_ζ]) (by norm_num) (by positivity)
    have h2 := h1.trans (le_mul_of_one_le_left (by positivity) m1)
    have h3 := h2.trans β1
    norm_num at h3
  have ζ1 : ζ + ζ ≤ 1e95 := by
    by_contra hh
    push Not at hh
    have h1 : (1e-40 : ℝ) * 1e95 ≤ m * (η * ω) * (ζ + ζ) := mul_le_mul mηω hh.le (by norm_num) (by positivity)
    have h2 := (h1.trans (le_mul_of_one_le_left (by positivity) m1)).trans β1
    norm_num at h2
  -- the normal equations
  have hH := dM_const (r := r) (w.H_le x hx)
  have eT : (constM m n η)ᵀ = constM n m η := rfl
  have hW := dM_const (r := r) w.W_le
  have hHW := hH.tr.mmul hr hW (fun _ _ _ => le_trans (by norm_num) ηω) (fun i j => by rw [eT, constM_mul]; exact ωle.trans (by norm_num)) (by omega)
  rw [eT, constM_mul] at hHW
  have hN := hHW.mmul hr hH (fun _ _ _ => le_trans (by norm_num) s0) (fun i j => by rw [constM_mul]; exact wn.s_le.trans (by norm_num)) (by omega)
  rw [constM_mul] at hN
  have vy : VRl (dV y : Fin m → Dbl r) y 0 fun _ => ζ := fun i => Rl.exact (w.y_le i)
  have vh : VRl (dV (yh x) : Fin m → Dbl r) (yh x) 0 fun _ => ζ := fun i => Rl.exact (w.yh_le x hx i)
  have vd := vy.vsub hr vh (fun i => le_trans (le_trans (by norm_num) w.le_ζ) (le_add_of_nonneg_right ζ0)) (fun i => ζ1.trans (by norm_num)) (by norm_num)
  have vd' : VRl (vsub (dV y) (dV (yh x)) : Fin m → Dbl r) (y - yh x) (0 + 1) fun _ => ζ + ζ := vd
  have eM : (constM n m (m * (η * ω)) *ᵥ fun _ => (ζ + ζ)) = fun _ => m * (m * (η * ω) * (ζ + ζ)) := by funext i; simp [constM, mulVec, dotProduct]
  have hb := hHW.mvec hr vd' (fun _ _ => le_trans (by norm_num) t0) (fun i => by rw [eM]; exact β1.trans (by norm_num)) (by omega)
  rw [eM] at hb
  obtain ⟨dx, ex, hdx, -, acc⟩ := normal_solve hr wn (hN.mono (by omega)) (hb.mono (by omega))
  have eS : nlwStep n m c η ω ζ = 8 * n * (m * (m * (η * ω) * (ζ + ζ))) / (c * c) := rfl
  rw [← eS] at hdx
  have S0 : 0 ≤ nlwStep n m c η ω ζ := by rw [eS]; positivity
  have S1 : nlwStep n m c η ω ζ ≤ 1e71 := by
    rw [eS, div_le_iff₀ cc]
    have h1 : 8 * n * (m * (m * (η * ω) * (ζ + ζ))) ≤ 8 * 100 * 1e50 := mul_le_mul (by linarith) β1 β0 (by norm_num)
    have h2 : (1e71 : ℝ) * 1e-18 ≤ 1e71 * (c * c) := mul_le_mul_of_nonneg_left wn.le_c (by norm_num)
    exact h1.trans (le_trans (by norm_num) h2)
  -- the sum
  have vx : VRl (dV x : Fin n → Dbl r) x 0 fun _ => X := fun i => Rl.exact (w.coord hx i)
  have vdx : VRl (dV dx : Fin n → Dbl r) dx 0 fun _ => nlwStep n m c η ω ζ := fun i => Rl.exact (hdx i)
  have vz := vx.vadd hr vdx (fun i => le_trans (le_trans (by norm_num) w.le_X) (le_add_of_nonneg_right S0))
    (fun i => (add_le_add w.X_le S1).trans (by norm_num)) (by norm_num)
  choose z ez dz using fun i => (vz i).near
  have ez' : vadd (dV x) (dV dx) = (dV z : Fin n → Dbl r) := funext ez
  have g1 : gr (0 + 1) - 1 = ulp := by simp [gr]
  rw [g1] at dz
  -- the exact step
  have reg : IsUnit ((Hh x)ᵀ * W * Hh x).det := ((show PosL ((Hh x)ᵀ * W * Hh x) (c * c) from ⟨wn.sym, wn.pos⟩).low cc).regular (div_pos cc (by linarith))
  obtain ⟨de, hde⟩ : ∃ de, de = ((Hh x)ᵀ * W * Hh x)⁻¹ *ᵥ (((Hh x)ᵀ * W) *ᵥ (y - yh x)) := ⟨_, rfl⟩
  have ede : ((Hh x)ᵀ * W * Hh x) *ᵥ de = ((Hh x)ᵀ * W) *ᵥ (y - yh x) := by rw [hde, mulVec_mulVec, mul_nonsing_inv _ reg, one_mulVec]
  have acc' := acc de ede
  have pert := gn_perturbed_w w.weight c0 w.l_nonneg w.deriv w.lipschitz w.stationary w.residual hx lower w.b_nonneg (w.yh_near x hx) (w.Hh_near x hx) ede
  have dist : len (z - (x + de)) ≤ n * (fitErr n (2 * m + 3) (m * (m * (η * ω) * η)) (c * c) (m * (m * (η * ω) * (ζ + ζ))) + ulp * (X + nlwStep n m c η ω ζ)) := by
    refine len_le_of (fun i => ?_) wn.size
    have a1 := dz i
    have a2 := acc' i
    have a3 := abs_add_le (z i - (x + dx) i) (dx i - de i)
    have e : z i - (x + dx) i + (dx i - de i) = (z - (x + de)) i := by simp only [Pi.sub_apply, Pi.add_apply]; ring
    rw [e] at a3
    have a4 : |z i - (x + dx) i| ≤ ulp * (X + nlwStep n m c η ω ζ) := a1
    have a5 : |dx i - de i| ≤ fitErr n (2 * m + 3) (m * (m * (η * ω) * η)) (c * c) (m * (m * (η * ω) * (ζ + ζ))) := a2
    linarith
  have hz : len (z - xs) ≤ nlRate ρ c l e b * len (x - xs) + nlwFloor n m c e a b η ω ζ X := by
    have t := len_add_le (z - (x + de)) (x + de - xs)
    rw [sub_add_sub_cancel] at t
    have k : l / (2 * c) * len (x - xs) + b / c + l * e / c ^ 2 ≤ nlRate ρ c l e b := by
      unfold nlRate
      have := mul_le_mul_of_nonneg_left hx (div_nonneg w.l_nonneg (show 0 ≤ 2 * c by linarith))
      linarith
    have k' := mul_le_mul_of_nonneg_right k (len_nonneg (x - xs))
    unfold nlwFloor
    linarith
  have q0 : 0 ≤ nlRate ρ c l e b := by
    have := w.l_nonneg; have := w.b_nonneg; have := w.radius; have : 0 ≤ e := (wlen_nonneg _).trans w.residual
    unfold nlRate; positivity
  have hz' : len (z - xs) ≤ ρ := hz.trans (by linarith [mul_le_mul_of_nonneg_left hx q0])
  have vz' : VRl (dV z : Fin n → Dbl r) z 0 fun _ => X := fun i => Rl.exact (w.coord hz' i)
  have vg := vz'.vsub hr vx (fun i => le_trans (le_trans (by norm_num) w.le_X) (le_add_of_nonneg_right X0))
    (fun i => (add_le_add w.X_le w.X_le).trans (by norm_num)) (by norm_num)
  choose g eg dg using fun i => (vg i).near
  have eg' : vsub (dV z) (dV x) = (dV g : Fin n → Dbl r) := funext eg
  rw [g1] at dg
  refine ⟨z, g, ?_, hz, len_le_of (fun i => dg i) wn.size⟩
  have e1 : (LinSolver.eigen : LinSolver (Dbl r)).ldltSolve (mmul (mmul (mtr (dM (Hh x))) (dM W)) (dM (Hh x))) (mvec (mmul (mtr (dM (Hh x))) (dM W)) (vsub (dV y) (dV (yh x)))) = dV dx := ex
  simp only [bodyW, hs, w.predicted x _ hx, w.relinearize x _ hx, osimp, Bool.not_true, Bool.false_eq_true, if_false, e1, ez', eg']

/-- C162: in doubles, with Eigen's solver, the weighted nonlinear solver started close enough to a stationary point of the weighted cost finishes after at most `k + 1` rounds and reports
success, for every tolerance above the noise of the computation; the result is within `q/(1-q)` times the tolerance, plus noise, of the stationary point. -/
theorem C162_terminates (hr : Rounds53 r) (w : NlwPosed M h D W yh Hh y xs ρ c l e a b η ω ζ X κ) (keep : nlRate ρ c l e b * ρ + nlwFloor n m c e a b η ω ζ X ≤ ρ)
    (q1 : nlRate ρ c l e b < 1) {x x1 : Fin n → ℝ} (hx : len (x - xs) ≤ ρ) {eps : ℝ} (e0 : 1e-90 ≤ eps) (e1 : eps ≤ 1e80)
    (gap : Flt.lt (.fin eps : Dbl r) (vnorm (vsub (dV x1) (dV x))) = true) {k : ℕ}
    (hk : 101 / 100 * ((1 + nlRate ρ c l e b) * (nlwFloor n m c e a b η ω ζ X / (1 - nlRate ρ c l e b) + nlRate ρ c l e b ^ k * ρ)
      + nlwFloor n m c e a b η ω ζ X + n * (ulp * (X + X))) ≤ eps) (H0 : Matrix (Fin m) (Fin n) (Dbl r)) (J : Dbl r) {fuel : ℕ} (hf : k + 1 ≤ fuel) :
    ∃ (u z : Fin n → ℝ) (J' : ℝ), weightedNonlinear LinSolver.eigen M fuel ⟨m, dV y⟩ ⟨m, n, H0⟩ ⟨n, dV x⟩ ⟨m, m, dM W⟩ (.fin eps) ⟨n, dV x1⟩ J
        = some (.ok (true, ⟨⟨m, n, dM (Hh u)⟩, ⟨n, dV z⟩, ⟨n, dV z⟩, .fin J'⟩))
      ∧ len (z - xs) ≤ nlRate ρ c l e b / (1 - nlRate ρ c l e b) * (101 / 100 * eps + n * (ulp * (X + X)))
        + nlwFloor n m c e a b η ω ζ X / (1 - nlRate ρ c l e b) := by
  have wn := w.normal x hx
  have X0 : 0 ≤ X := le_trans (by norm_num) w.le_X
  have n1 : (1 : ℝ) ≤ n := by exact_mod_cast wn.size
  have n2 : (n : ℝ) ≤ 100 := by exact_mod_cast wn.size_le
  have ee : 0 ≤ e := (wlen_nonneg _).trans w.residual
  have aa : 0 ≤ a := (wlen_nonneg _).trans (w.yh_near x hx)
  have c0 := w.c_pos
  have b0 := w.b_nonneg
  have l0 := w.l_nonneg
  have ρ0 := w.radius
  have η0 : 0 ≤ η := le_trans (by norm_num) w.le_η
  have ζ0 : 0 ≤ ζ := le_trans (by norm_num) w.le_ζ
  have ω0 : 0 ≤ ω := le_trans (by norm_num) w.le_ω
  have q0 : 0 ≤ nlRate ρ c l e b := by unfold nlRate; positivity
  have u0 := ulp_pos
  have φ0 : 0 ≤ nlwFloor n m c e a b η ω ζ X := by
    have := ldTol_nonneg n
    have := opTol_nonneg (2 * m + 3)
    unfold nlwFloor fitErr normalTol nlwStep; positivity
  have τ0 : 0 ≤ n * (ulp * (X + X)) := by positivity
  have τ1 : n * (ulp * (X + X)) ≤ 1e80 := by
    have h1 : ulp * (X + X) ≤ 1 * (1e60 + 1e60) := mul_le_mul (by unfold ulp; norm_num) (add_le_add w.X_le w.X_le) (by positivity) (by norm_num)
    have h2 : n * (ulp * (X + X)) ≤ 100 * (1 * (1e60 + 1e60)) := mul_le_mul n2 h1 (by positivity) (by norm_num)
    exact h2.trans (by norm_num)
  have ρ1 : ρ ≤ 1e80 := by
    have := w.x_le ⟨0, wn.size⟩
    have := abs_nonneg (xs ⟨0, wn.size⟩)
    have := w.X_le
    norm_num at this ⊢
    linarith
  have rank : FullColumnRank (Hh x) := fun u u' e => by
    have h1 := wn.pos (u - u')
    rw [← mulVec_mulVec, mulVec_sub, e, sub_self, mulVec_zero, dotProduct_zero] at h1
    have cc : 0 < c * c := mul_pos c0 c0
    have h2 : (u - u') ⬝ᵥ (u - u') ≤ 0 := by by_contra hh; push Not at hh; nlinarith [mul_pos cc hh]
    have h3 : (u - u') ⬝ᵥ (u - u') = 0 := le_antisymm h2 (Finset.sum_nonneg fun k _ => mul_self_nonneg _)
    exact sub_eq_zero.1 (dotProduct_self_eq_zero.1 h3)
  have hnm' : ¬ (n > m) := by have := rank.le; omega
  have p : 0 < 1 - nlRate ρ c l e b := by linarith
  obtain ⟨u, z, g, h1, h2', h2, yx, h3⟩ := nl_loop (n := n) (m := m) (yh := yh) (Hh := Hh) (xs := xs) (ρ := ρ) hr wn.size_le q0 q1 e0 e1 keep ρ1 τ1
    (fun s u hs hu => C162_round hr w keep hu hs) k ⟨⟨0, Fin.elim0⟩, ⟨m, n, H0⟩, ⟨n, dV x⟩, ⟨n, dV x1⟩, ⟨n, vsub (dV x1) (dV x)⟩⟩ x ρ rfl gap hx
    (by have := div_nonneg φ0 p.le; linarith) hk fuel hf
  have m1 : (1 : ℝ) ≤ m := by have := rank.le; have := wn.size; exact_mod_cast (by omega : 1 ≤ m)
  have η1 := w.η_le
  have ζ1 := w.ζ_le
  obtain ⟨J', eJ, -⟩ := cost_D hr (n := n) (m := m) (w.H_le u h1) w.y_le (w.coord h2') wn.size_le w.meas_le w.le_η (le_trans (by norm_num) w.le_X)
    (le_trans (by norm_num) w.le_ζ) (by
      have h3 : η * X ≤ 1e14 * 1e60 := mul_le_mul η1 w.X_le X0 (by norm_num)
      have h4 : n * (η * X) ≤ 100 * (1e14 * 1e60) := mul_le_mul n2 h3 (by positivity) (by norm_num)
      exact (add_le_add ζ1 h4).trans (by norm_num))
  refine ⟨u, z, J', ?_, h2⟩
  rw [← eJ]
  simp only [weightedNonlinear, ne_eq, not_true_eq_false, or_self, if_false, hnm', osimp, h3, finish, computeCostFunction]

omit [Machine] in
theorem four_posDef : (!![4] : Matrix (Fin 1) (Fin 1) ℝ).PosDef := by
  refine PosDef.of_dotProduct_mulVec_pos ?_ fun v hv => ?_
  · ext i j; fin_cases i; fin_cases j; simp
  · have : v 0 ≠ 0 := fun h => hv (funext fun i => by fin_cases i; exact h)
    have := mul_self_pos.2 this
    simp [dotProduct, mulVec]
    linarith

omit [Machine] in
theorem wlen_four (u : Fin 1 → ℝ) : wlen !![4] u = 2 * |u 0| := by
  have : quad !![4] u = (2 * |u 0|) ^ 2 := by
    rw [mul_pow, sq_abs]; simp [quad, dotProduct, mulVec]; ring
  rw [wlen, this, Real.sqrt_sq (by positivity)]

omit [Machine] in
/-- `x²` fitted to 4 near `x = 2` with weight 4, in doubles -/
theorem sq_wposed (hr : Rounds53 r) : NlwPosed (r := r) sqModel sqH sqD !![4] (fun x => ![r (x 0 * x 0)]) (fun x => !![r (2 * x 0)]) ![4] ![2]
    (1 / 2) (29 / 5) 4 0 (20 * ulp) (20 * ulp) 6 4 7 (5 / 2) 5 := by
  have s := sq_posed hr
  have two : ∀ {u : Fin 1 → ℝ} {t : ℝ}, len u ≤ t → wlen !![4] u ≤ 2 * t := fun {u t} h => by
    rw [wlen_four]; rw [len_one] at h; linarith
  exact {
    meas_le := s.meas_le, weight := four_posDef, radius := s.radius, c_pos := by norm_num, l_nonneg := by norm_num
    b_nonneg := mul_nonneg (by norm_num) ulp_pos.le, deriv := s.deriv
    lipschitz := fun x x' h h' v => (two (s.lipschitz x x' h h' v)).trans (le_of_eq (by ring))
    stationary := by ext i; fin_cases i; simp [sqD, sqH, mulVec, dotProduct]; norm_num
    residual := (two s.residual).trans (by norm_num)
    predicted := s.predicted, relinearize := s.relinearize
    yh_near := fun x h => (two (s.yh_near x h)).trans (le_of_eq (by ring))
    Hh_near := fun x h v => (two (s.Hh_near x h v)).trans (le_of_eq (by ring))
    H_le := s.H_le, W_le := fun i j => by fin_cases i; fin_cases j; simp
    y_le := s.y_le, yh_le := s.yh_le, x_le := s.x_le, le_η := s.le_η, η_le := by norm_num, le_ω := by norm_num, le_ζ := s.le_ζ, ζ_le := by norm_num
    le_X := s.le_X, X_le := s.X_le
    normal := fun x h => {
      size := by norm_num, size_le := by norm_num, ops := by norm_num
      sym := by ext i j; fin_cases i; fin_cases j; rfl
      pos := fun v => by
        have := (s.normal x h).pos v
        simp [dotProduct, mulVec, mul_apply] at this ⊢
        linarith
      le_c := by norm_num, s_le := by norm_num, le_β := by norm_num, le_κ := by norm_num, κ_le := by norm_num, ratio := by norm_num, grow := by norm_num
      cond := by unfold ldTol opTol; norm_num } }

/-- and the tolerance `1e-6` is reached within eleven rounds -/
example : nlRate (1 / 2) (29 / 5) 4 0 (20 * ulp) * (1 / 2) + nlwFloor 1 1 (29 / 5) 0 (20 * ulp) (20 * ulp) 6 4 7 (5 / 2) ≤ 1 / 2
    ∧ nlRate (1 / 2) (29 / 5) 4 0 (20 * ulp) < 1
    ∧ 101 / 100 * ((1 + nlRate (1 / 2) (29 / 5) 4 0 (20 * ulp)) * (nlwFloor 1 1 (29 / 5) 0 (20 * ulp) (20 * ulp) 6 4 7 (5 / 2) / (1 - nlRate (1 / 2) (29 / 5) 4 0 (20 * ulp))
      + nlRate (1 / 2) (29 / 5) 4 0 (20 * ulp) ^ 10 * (1 / 2)) + nlwFloor 1 1 (29 / 5) 0 (20 * ulp) (20 * ulp) 6 4 7 (5 / 2) + (1 : ℕ) * (ulp * (5 / 2 + 5 / 2))) ≤ 1e-6 := by
  unfold nlRate nlwFloor fitErr normalTol nlwStep ldTol opTol ulp
  norm_num

end NavFuse.Props
