import Verif.Lemmas.RoundNonlinear

/-! # Nonlinear least squares in double precision -/

namespace NavFuse.Props
open Matrix Spec KA Lsq
variable [Machine] {r : ℝ → ℝ} {n m : ℕ}

/-- A fitting problem near a stationary point `xs` of the cost, as in `Smooth`, with the user's functions evaluated in doubles: they return finite numbers
`yh x` and `Hh x` that differ from the measurement function `h` by at most `a` and from its Jacobian `D` by at most `b`. Entries of the computed Jacobian,
of the residuals and of the states are at most `η`, `ζ`, `X`; the computed Jacobian is bounded below by `c`. -/
structure NlPosed (M : MeasModel (Dbl r)) (h : (Fin n → ℝ) → Fin m → ℝ) (D : (Fin n → ℝ) → Matrix (Fin m) (Fin n) ℝ)
    (yh : (Fin n → ℝ) → Fin m → ℝ) (Hh : (Fin n → ℝ) → Matrix (Fin m) (Fin n) ℝ) (y : Fin m → ℝ) (xs : Fin n → ℝ) (ρ c l e a b η ζ X κ : ℝ) : Prop where
  meas_le : m ≤ 10 ^ 6
  radius : 0 ≤ ρ
  c_pos : 0 < c
  l_nonneg : 0 ≤ l
  b_nonneg : 0 ≤ b
  deriv : ∀ x, len (x - xs) ≤ ρ → HasFDerivAt h (asDeriv (D x)) x
  lipschitz : ∀ x x', len (x - xs) ≤ ρ → len (x' - xs) ≤ ρ → ∀ v, len ((D x - D x') *ᵥ v) ≤ l * len (x - x') * len v
  stationary : (D xs)ᵀ *ᵥ (y - h xs) = 0
  residual : len (y - h xs) ≤ e
  predicted : ∀ x o, len (x - xs) ≤ ρ → M.predicted ⟨n, dV x⟩ o = .ok (true, ⟨m, dV (yh x)⟩)
  relinearize : ∀ x o, len (x - xs) ≤ ρ → M.relinearize ⟨n, dV x⟩ o = .ok (true, ⟨m, n, dM (Hh x)⟩)
  yh_near : ∀ x, len (x - xs) ≤ ρ → len (yh x - h x) ≤ a
  Hh_near : ∀ x, len (x - xs) ≤ ρ → ∀ v, len ((Hh x - D x) *ᵥ v) ≤ b * len v
  H_le : ∀ x, len (x - xs) ≤ ρ → ∀ i j, |Hh x i j| ≤ η
  y_le : ∀ i, |y i| ≤ ζ
  yh_le : ∀ x, len (x - xs) ≤ ρ → ∀ i, |yh x i| ≤ ζ
  x_le : ∀ i, |xs i| + ρ ≤ X
  le_η : 1e-20 ≤ η
  le_ζ : 1e-20 ≤ ζ
  le_X : 1e-90 ≤ X
  X_le : X ≤ 1e60
  normal : ∀ x, len (x - xs) ≤ ρ → Normal ((Hh x)ᵀ * Hh x) (m * (η * η)) (c * c) κ (m * (η * (ζ + ζ))) (m + 2)

/-- contraction factor -/
noncomputable def nlRate (ρ c l e b : ℝ) : ℝ := l / (2 * c) * ρ + b / c + l * e / c ^ 2

/-- largest correction in one round -/
noncomputable def nlStep (n m : ℕ) (c η ζ : ℝ) : ℝ := 8 * n * (m * (η * (ζ + ζ))) / (c * c)

/-- error added in one round: by the user's functions, by the solver and by the addition -/
noncomputable def nlFloor (n m : ℕ) (c e a b η ζ X : ℝ) : ℝ :=
  a / c + b * e / c ^ 2 + n * (fitErr n (m + 2) (m * (η * η)) (c * c) (m * (η * (ζ + ζ))) + ulp * (X + nlStep n m c η ζ))

variable {M : MeasModel (Dbl r)} {h : (Fin n → ℝ) → Fin m → ℝ} {D : (Fin n → ℝ) → Matrix (Fin m) (Fin n) ℝ}
    {yh : (Fin n → ℝ) → Fin m → ℝ} {Hh : (Fin n → ℝ) → Matrix (Fin m) (Fin n) ℝ} {y : Fin m → ℝ} {xs : Fin n → ℝ} {ρ c l e a b η ζ X κ : ℝ}

omit [Machine] in
theorem NlPosed.coord (w : NlPosed M h D yh Hh y xs ρ c l e a b η ζ X κ) {x : Fin n → ℝ} (hx : len (x - xs) ≤ ρ) (i : Fin n) : |x i| ≤ X := by
  have a := (abs_le_len (x - xs) i).trans hx
  have b := abs_add_le ((x - xs) i) (xs i)
  rw [Pi.sub_apply] at a b
  rw [sub_add_cancel] at b
  linarith [w.x_le i]

/-- C153: one round of the nonlinear solver in doubles. -/
theorem C153_round (hr : Rounds53 r) (w : NlPosed M h D yh Hh y xs ρ c l e a b η ζ X κ) (keep : nlRate ρ c l e b * ρ + nlFloor n m c e a b η ζ X ≤ ρ)
    {x : Fin n → ℝ} (hx : len (x - xs) ≤ ρ) {s : NlState (Dbl r)} (hs : s.xk = ⟨n, dV x⟩) :
    ∃ z g : Fin n → ℝ, bodyU LinSolver.eigen M ⟨m, dV y⟩ s = .ok (true, ⟨⟨m, dV (yh x)⟩, ⟨m, n, dM (Hh x)⟩, ⟨n, dV z⟩, ⟨n, dV z⟩, ⟨n, dV g⟩⟩)
      ∧ len (z - xs) ≤ nlRate ρ c l e b * len (x - xs) + nlFloor n m c e a b η ζ X ∧ len (g - (z - x)) ≤ n * (ulp * (X + X)) := by
  have wn := w.normal x hx
  have c0 := w.c_pos
  have cc : 0 < c * c := mul_pos c0 c0
  have η0 : 0 ≤ η := le_trans (by norm_num) w.le_η
  have ζ0 : 0 ≤ ζ := le_trans (by norm_num) w.le_ζ
  have X0 : 0 ≤ X := le_trans (by norm_num) w.le_X
  have hm := w.meas_le
  have n1 : (1 : ℝ) ≤ n := by exact_mod_cast wn.size
  have n2 : (n : ℝ) ≤ 100 := by exact_mod_cast wn.size_le
  have lower : ∀ v, c * len v ≤ len (Hh x *ᵥ v) := fun v => by
    have p := wn.pos v
    rw [← mulVec_mulVec, dotProduct_mulVec, vecMul_transpose, ← len_sq, ← len_sq] at p
    refine abs_le_of_sq_le_sq' ?_ (len_nonneg _) |>.2
    rw [mul_pow, _root_.sq c]; exact p
  have rank : FullColumnRank (Hh x) := fun u u' e => by
    have h1 := lower (u - u')
    rw [mulVec_sub, e, sub_self] at h1
    have z : len (0 : Fin m → ℝ) = 0 := by simp [len]
    rw [z] at h1
    have h2 : len (u - u') = 0 := le_antisymm (by by_contra hh; push Not at hh; nlinarith [mul_pos c0 hh]) (len_nonneg _)
    have h3 := len_sq (u - u')
    rw [h2] at h3
    exact sub_eq_zero.1 (dotProduct_self_eq_zero.1 (by linarith))
  have nm := rank.le
  have m0 : 0 < m := lt_of_lt_of_le wn.size nm
  have m1 : (1 : ℝ) ≤ m := by exact_mod_cast m0
  have ηη : (1e-250 : ℝ) ≤ η * η := le_trans (by norm_num) (mul_le_mul w.le_η w.le_η (by norm_num) η0)
  have ηζ : (1e-40 : ℝ) ≤ η * (ζ + ζ) := le_trans (by norm_num) (mul_le_mul w.le_η (show (1e-20 : ℝ) ≤ ζ + ζ by linarith [w.le_ζ]) (by norm_num) η0)
  have β0 : 0 ≤ m * (η * (ζ + ζ)) := by positivity
  have β1 : m * (η * (ζ + ζ)) ≤ 1e50 := (le_mul_of_one_le_right β0 (one_le_pow₀ (by linarith [wn.le_κ]))).trans wn.grow
  have ζ1 : ζ + ζ ≤ 1e80 := by
    by_contra hh
    push Not at hh
    have h1 : (1e-20 : ℝ) * 1e80 ≤ η * (ζ + ζ) := mul_le_mul w.le_η hh.le (by norm_num) η0
    have h2 := (h1.trans (le_mul_of_one_le_left (by positivity) m1)).trans β1
    norm_num at h2
  -- the normal equations
  have hH := dM_const (r := r) (w.H_le x hx)
  have eT : (constM m n η)ᵀ = constM n m η := rfl
  have hN := hH.tr.mmul hr hH (fun _ _ _ => ηη) (fun i j => by rw [eT, constM_mul]; exact wn.s_le.trans (by norm_num)) (by omega)
  rw [eT, constM_mul] at hN
  have vy : VRl (dV y : Fin m → Dbl r) y 0 fun _ => ζ := fun i => Rl.exact (w.y_le i)
  have vh : VRl (dV (yh x) : Fin m → Dbl r) (yh x) 0 fun _ => ζ := fun i => Rl.exact (w.yh_le x hx i)
  have vd := vy.vsub hr vh (fun i => le_trans (le_trans (by norm_num) w.le_ζ) (le_add_of_nonneg_right ζ0)) (fun i => ζ1.trans (by norm_num)) (by norm_num)
  have vd' : VRl (vsub (dV y) (dV (yh x)) : Fin m → Dbl r) (y - yh x) (0 + 1) fun _ => ζ + ζ := vd
  have eM : ((constM m n η)ᵀ *ᵥ fun _ => (ζ + ζ)) = fun _ => m * (η * (ζ + ζ)) := by funext i; simp [constM, mulVec, dotProduct]
  have hb := hH.tr.mvec hr vd' (fun _ _ => le_trans (by norm_num) ηζ) (fun i => by rw [eM]; exact β1.trans (by norm_num)) (by omega)
  rw [eM] at hb
  obtain ⟨dx, ex, hdx, -, acc⟩ := normal_solve hr wn (hN.mono (by omega)) (hb.mono (by omega))
  have eS : nlStep n m c η ζ = 8 * n * (m * (η * (ζ + ζ))) / (c * c) := rfl
  rw [← eS] at hdx
  have S0 : 0 ≤ nlStep n m c η ζ := by rw [eS]; positivity
  have S1 : nlStep n m c η ζ ≤ 1e71 := by
    rw [eS, div_le_iff₀ cc]
    have h1 : 8 * n * (m * (η * (ζ + ζ))) ≤ 8 * 100 * 1e50 := mul_le_mul (by linarith) β1 β0 (by norm_num)
    have h2 : (1e71 : ℝ) * 1e-18 ≤ 1e71 * (c * c) := mul_le_mul_of_nonneg_left wn.le_c (by norm_num)
    exact h1.trans (le_trans (by norm_num) h2)
  -- the sum
  have vx : VRl (dV x : Fin n → Dbl r) x 0 fun _ => X := fun i => Rl.exact (w.coord hx i)
  have vdx : VRl (dV dx : Fin n → Dbl r) dx 0 fun _ => nlStep n m c η ζ := fun i => Rl.exact (hdx i)
  have vz := vx.vadd hr vdx (fun i => le_trans (le_trans (by norm_num) w.le_X) (le_add_of_nonneg_right S0))
    (fun i => (add_le_add w.X_le S1).trans (by norm_num)) (by norm_num)
  choose z ez dz using fun i => (vz i).near
  have ez' : vadd (dV x) (dV dx) = (dV z : Fin n → Dbl r) := funext ez
  have g1 : gr (0 + 1) - 1 = ulp := by simp [gr]
  rw [g1] at dz
  -- the exact step
  have reg : IsUnit ((Hh x)ᵀ * Hh x).det := ((show PosL ((Hh x)ᵀ * Hh x) (c * c) from ⟨wn.sym, wn.pos⟩).low cc).regular (div_pos cc (by linarith))
  obtain ⟨de, hde⟩ : ∃ de, de = ((Hh x)ᵀ * Hh x)⁻¹ *ᵥ ((Hh x)ᵀ *ᵥ (y - yh x)) := ⟨_, rfl⟩
  have ede : ((Hh x)ᵀ * Hh x) *ᵥ de = (Hh x)ᵀ *ᵥ (y - yh x) := by rw [hde, mulVec_mulVec, mul_nonsing_inv _ reg, one_mulVec]
  have acc' := acc de ede
  have pert := gn_perturbed c0 w.l_nonneg w.deriv w.lipschitz w.stationary w.residual hx lower w.b_nonneg (w.yh_near x hx) (w.Hh_near x hx) ede
  have dist : len (z - (x + de)) ≤ n * (fitErr n (m + 2) (m * (η * η)) (c * c) (m * (η * (ζ + ζ))) + ulp * (X + nlStep n m c η ζ)) := by
    refine len_le_of (fun i => ?_) wn.size
    have a1 := dz i
    have a2 := acc' i
    have a3 := abs_add_le (z i - (x + dx) i) (dx i - de i)
    have e : z i - (x + dx) i + (dx i - de i) = (z - (x + de)) i := by simp only [Pi.sub_apply, Pi.add_apply]; ring
    rw [e] at a3
    have a4 : |z i - (x + dx) i| ≤ ulp * (X + nlStep n m c η ζ) := a1
    have a5 : |dx i - de i| ≤ fitErr n (m + 2) (m * (η * η)) (c * c) (m * (η * (ζ + ζ))) := a2
    linarith
  have hz : len (z - xs) ≤ nlRate ρ c l e b * len (x - xs) + nlFloor n m c e a b η ζ X := by
    have t := len_add_le (z - (x + de)) (x + de - xs)
    rw [sub_add_sub_cancel] at t
    have k : l / (2 * c) * len (x - xs) + b / c + l * e / c ^ 2 ≤ nlRate ρ c l e b := by
      unfold nlRate
      have := mul_le_mul_of_nonneg_left hx (div_nonneg w.l_nonneg (show 0 ≤ 2 * c by linarith))
      linarith
    have k' := mul_le_mul_of_nonneg_right k (len_nonneg (x - xs))
    unfold nlFloor
    linarith
  have q0 : 0 ≤ nlRate ρ c l e b := by
    have := w.l_nonneg; have := w.b_nonneg; have := w.radius; have : 0 ≤ e := (len_nonneg _).trans w.residual
    unfold nlRate; positivity
  have hz' : len (z - xs) ≤ ρ := hz.trans (by linarith [mul_le_mul_of_nonneg_left hx q0])
  have vz' : VRl (dV z : Fin n → Dbl r) z 0 fun _ => X := fun i => Rl.exact (w.coord hz' i)
  have vg := vz'.vsub hr vx (fun i => le_trans (le_trans (by norm_num) w.le_X) (le_add_of_nonneg_right X0))
    (fun i => (add_le_add w.X_le w.X_le).trans (by norm_num)) (by norm_num)
  choose g eg dg using fun i => (vg i).near
  have eg' : vsub (dV z) (dV x) = (dV g : Fin n → Dbl r) := funext eg
  rw [g1] at dg
  refine ⟨z, g, ?_, hz, len_le_of (fun i => dg i) wn.size⟩
  have e1 : (LinSolver.eigen : LinSolver (Dbl r)).ldltSolve (mmul (mtr (dM (Hh x))) (dM (Hh x))) (mvec (mtr (dM (Hh x))) (vsub (dV y) (dV (yh x)))) = dV dx := ex
  simp only [bodyU, hs, w.predicted x _ hx, w.relinearize x _ hx, osimp, Bool.not_true, Bool.false_eq_true, if_false, e1, ez', eg']

/-- the loop in doubles -/
theorem nl_loop (hr : Rounds53 r) {body : NlState (Dbl r) → Out (Bool × NlState (Dbl r))} {q φ τ eps : ℝ} (hn : n ≤ 100) (q0 : 0 ≤ q) (q1 : q < 1)
    (e0 : 1e-90 ≤ eps) (e1 : eps ≤ 1e80) (keep : q * ρ + φ ≤ ρ) (ρ1 : ρ ≤ 1e80) (τ1 : τ ≤ 1e80)
    (hb : ∀ s u, s.xk = ⟨n, dV u⟩ → len (u - xs) ≤ ρ → ∃ z g : Fin n → ℝ, body s = .ok (true, ⟨⟨m, dV (yh u)⟩, ⟨m, n, dM (Hh u)⟩, ⟨n, dV z⟩, ⟨n, dV z⟩, ⟨n, dV g⟩⟩)
      ∧ len (z - xs) ≤ q * len (u - xs) + φ ∧ len (g - (z - u)) ≤ τ) (k : ℕ) :
    ∀ (s : NlState (Dbl r)) (x : Fin n → ℝ) (σ : ℝ), s.xk = ⟨n, dV x⟩ → Flt.lt (.fin eps : Dbl r) s.res.norm = true → len (x - xs) ≤ ρ → len (x - xs) ≤ φ / (1 - q) + σ →
      101 / 100 * ((1 + q) * (φ / (1 - q) + q ^ k * σ) + φ + τ) ≤ eps → ∀ fuel, k + 1 ≤ fuel →
      ∃ u z g, len (u - xs) ≤ ρ ∧ len (z - xs) ≤ ρ ∧ len (z - xs) ≤ q / (1 - q) * (101 / 100 * eps + τ) + φ / (1 - q)
        ∧ ∃ yx, whileLoop (fun s => Flt.lt (.fin eps : Dbl r) s.res.norm) body fuel s
        = some (.ok (true, ⟨yx, ⟨m, n, dM (Hh u)⟩, ⟨n, dV z⟩, ⟨n, dV z⟩, ⟨n, dV g⟩⟩)) := by
  have p : 0 < 1 - q := by linarith
  have fx : q * (φ / (1 - q)) + φ = φ / (1 - q) := by field_simp; ring
  -- the end of the loop
  have last : ∀ u z g : Fin n → ℝ, len (u - xs) ≤ ρ → len (z - xs) ≤ q * len (u - xs) + φ → len (g - (z - u)) ≤ τ →
      Flt.lt (.fin eps : Dbl r) (vnorm (dV g)) = false → len (z - xs) ≤ q / (1 - q) * (101 / 100 * eps + τ) + φ / (1 - q) := by
    intro u z g hu hz hg hs
    have zr : len (z - xs) ≤ ρ := hz.trans (by linarith [mul_le_mul_of_nonneg_left hu q0])
    have t1 := len_add_le (g - (z - u)) (z - u)
    have t2 := len_add_le (z - xs) (-(u - xs))
    have t3 := len_add_le (z - xs) (-(z - u))
    have t4 := len_add_le g (-(g - (z - u)))
    rw [show g - (z - u) + (z - u) = g by abel] at t1
    rw [len_neg, show z - xs + -(u - xs) = z - u by abel] at t2
    rw [len_neg, show z - xs + -(z - u) = u - xs by abel] at t3
    rw [len_neg, show g + -(g - (z - u)) = z - u by abel] at t4
    have sh := vnorm_ends hr hn (by norm_num at ρ1 τ1 ⊢; linarith) e0 hs
    have : len (z - xs) * (1 - q) ≤ q * (101 / 100 * eps + τ) + φ := by nlinarith
    rw [div_mul_eq_mul_div, ← add_div, le_div_iff₀ p]
    exact this
  induction k with
  | zero =>
    intro s x σ hs hc hx hσ hk fuel hf
    obtain ⟨f, rfl⟩ : ∃ f, fuel = f + 1 := ⟨fuel - 1, by omega⟩
    obtain ⟨z, g, eb, hz, hg⟩ := hb s x hs hx
    have zr : len (z - xs) ≤ ρ := hz.trans (by linarith [mul_le_mul_of_nonneg_left hx q0])
    have t1 := len_add_le (g - (z - x)) (z - x)
    have t2 := len_add_le (z - xs) (-(x - xs))
    rw [show g - (z - x) + (z - x) = g by abel] at t1
    rw [len_neg, show z - xs + -(x - xs) = z - x by abel] at t2
    rw [pow_zero, one_mul] at hk
    have small : len g ≤ (1 + q) * (φ / (1 - q) + σ) + φ + τ := by
      have := mul_le_mul_of_nonneg_left hσ (show 0 ≤ 1 + q by linarith)
      linarith
    have stop := vnorm_stop hr hn small e0 e1 hk
    refine ⟨x, z, g, hx, zr, last x z g hx hz hg stop, ⟨m, dV (yh x)⟩, ?_⟩
    have stop' : Flt.lt (.fin eps : Dbl r) (DVec.norm ⟨n, dV g⟩) = false := stop
    rw [whileLoop]
    simp only [hc, if_true, eb]
    cases f <;> simp [whileLoop, stop']
  | succ k ih =>
    intro s x σ hs hc hx hσ hk fuel hf
    obtain ⟨f, rfl⟩ : ∃ f, fuel = f + 1 := ⟨fuel - 1, by omega⟩
    obtain ⟨z, g, eb, hz, hg⟩ := hb s x hs hx
    have zr : len (z - xs) ≤ ρ := hz.trans (by linarith [mul_le_mul_of_nonneg_left hx q0])
    by_cases stop : Flt.lt (.fin eps : Dbl r) (DVec.norm ⟨n, dV g⟩) = true
    · obtain ⟨u, z', g', h1, h2', h2, yx, h3⟩ := ih ⟨⟨m, dV (yh x)⟩, ⟨m, n, dM (Hh x)⟩, ⟨n, dV z⟩, ⟨n, dV z⟩, ⟨n, dV g⟩⟩ z (q * σ) rfl stop zr (by
        have := mul_le_mul_of_nonneg_left hσ q0
        linarith) (by rw [← mul_assoc, ← pow_succ]; exact hk) f (by omega)
      refine ⟨u, z', g', h1, h2', h2, yx, ?_⟩
      rw [whileLoop]
      simp only [hc, if_true, eb]
      exact h3
    · have stop' : Flt.lt (.fin eps : Dbl r) (DVec.norm ⟨n, dV g⟩) = false := by simpa using stop
      refine ⟨x, z, g, hx, zr, last x z g hx hz hg stop', ⟨m, dV (yh x)⟩, ?_⟩
      rw [whileLoop]
      simp only [hc, if_true, eb]
      cases f <;> simp [whileLoop, stop']

/-- C153: in doubles, with Eigen's solver, the nonlinear solver started close enough to a stationary point finishes after at most `k + 1` rounds and reports
success, for every tolerance above the noise of the computation; the result is within `q/(1-q)` times the tolerance, plus noise, of the stationary point. -/
theorem C153_terminates (hr : Rounds53 r) (w : NlPosed M h D yh Hh y xs ρ c l e a b η ζ X κ) (keep : nlRate ρ c l e b * ρ + nlFloor n m c e a b η ζ X ≤ ρ)
    (q1 : nlRate ρ c l e b < 1) {x x1 : Fin n → ℝ} (hx : len (x - xs) ≤ ρ) {eps : ℝ} (e0 : 1e-90 ≤ eps) (e1 : eps ≤ 1e80)
    (gap : Flt.lt (.fin eps : Dbl r) (vnorm (vsub (dV x1) (dV x))) = true) {k : ℕ}
    (hk : 101 / 100 * ((1 + nlRate ρ c l e b) * (nlFloor n m c e a b η ζ X / (1 - nlRate ρ c l e b) + nlRate ρ c l e b ^ k * ρ)
      + nlFloor n m c e a b η ζ X + n * (ulp * (X + X))) ≤ eps) (H0 : Matrix (Fin m) (Fin n) (Dbl r)) (J : Dbl r) {fuel : ℕ} (hf : k + 1 ≤ fuel) :
    ∃ (u z : Fin n → ℝ) (J' : ℝ), unweightedNonlinear LinSolver.eigen M fuel ⟨m, dV y⟩ ⟨m, n, H0⟩ ⟨n, dV x⟩ (.fin eps) ⟨n, dV x1⟩ J
        = some (.ok (true, ⟨⟨m, n, dM (Hh u)⟩, ⟨n, dV z⟩, ⟨n, dV z⟩, .fin J'⟩))
      ∧ len (z - xs) ≤ nlRate ρ c l e b / (1 - nlRate ρ c l e b) * (101 / 100 * eps + n * (ulp * (X + X)))
        + nlFloor n m c e a b η ζ X / (1 - nlRate ρ c l e b) := by
  have wn := w.normal x hx
  have X0 : 0 ≤ X := le_trans (by norm_num) w.le_X
  have n1 : (1 : ℝ) ≤ n := by exact_mod_cast wn.size
  have n2 : (n : ℝ) ≤ 100 := by exact_mod_cast wn.size_le
  have ee : 0 ≤ e := (len_nonneg _).trans w.residual
  have aa : 0 ≤ a := (len_nonneg _).trans (w.yh_near x hx)
  have c0 := w.c_pos
  have b0 := w.b_nonneg
  have l0 := w.l_nonneg
  have ρ0 := w.radius
  have η0 : 0 ≤ η := le_trans (by norm_num) w.le_η
  have ζ0 : 0 ≤ ζ := le_trans (by norm_num) w.le_ζ
  have q0 : 0 ≤ nlRate ρ c l e b := by unfold nlRate; positivity
  have u0 := ulp_pos
  have φ0 : 0 ≤ nlFloor n m c e a b η ζ X := by
    have := ldTol_nonneg n
    have := opTol_nonneg (m + 2)
    unfold nlFloor fitErr normalTol nlStep; positivity
  have τ0 : 0 ≤ n * (ulp * (X + X)) := by positivity
  have τ1 : n * (ulp * (X + X)) ≤ 1e80 := by
    have h1 : ulp * (X + X) ≤ 1 * (1e60 + 1e60) := mul_le_mul (by unfold ulp; norm_num) (add_le_add w.X_le w.X_le) (by positivity) (by norm_num)
    have h2 : n * (ulp * (X + X)) ≤ 100 * (1 * (1e60 + 1e60)) := mul_le_mul n2 h1 (by positivity) (by norm_num)
    exact h2.trans (by norm_num)
  have ρ1 : ρ ≤ 1e80 := by
    have := w.x_le ⟨0, wn.size⟩
    have := abs_nonneg (xs ⟨0, wn.size⟩)
    have := w.X_le
    norm_num at this ⊢
    linarith
  have rank : FullColumnRank (Hh x) := fun u u' e => by
    have h1 := wn.pos (u - u')
    rw [← mulVec_mulVec, mulVec_sub, e, sub_self, mulVec_zero, dotProduct_zero] at h1
    have cc : 0 < c * c := mul_pos c0 c0
    have h2 : (u - u') ⬝ᵥ (u - u') ≤ 0 := by by_contra hh; push Not at hh; nlinarith [mul_pos cc hh]
    have h3 : (u - u') ⬝ᵥ (u - u') = 0 := le_antisymm h2 (Finset.sum_nonneg fun k _ => mul_self_nonneg _)
    exact sub_eq_zero.1 (dotProduct_self_eq_zero.1 h3)
  have hnm' : ¬ (n > m) := by have := rank.le; omega
  have p : 0 < 1 - nlRate ρ c l e b := by linarith
  obtain ⟨u, z, g, h1, h2', h2, yx, h3⟩ := nl_loop (n := n) (m := m) (yh := yh) (Hh := Hh) (xs := xs) (ρ := ρ) hr wn.size_le q0 q1 e0 e1 keep ρ1 τ1
    (fun s u hs hu => C153_round hr w keep hu hs) k ⟨⟨0, Fin.elim0⟩, ⟨m, n, H0⟩, ⟨n, dV x⟩, ⟨n, dV x1⟩, ⟨n, vsub (dV x1) (dV x)⟩⟩ x ρ rfl gap hx
    (by have := div_nonneg φ0 p.le; linarith) hk fuel hf
  have m1 : (1 : ℝ) ≤ m := by have := rank.le; have := wn.size; exact_mod_cast (by omega : 1 ≤ m)
  have η1 := eta_le m1 wn.s_le
  have ζ1 : ζ ≤ 1e80 := by
    by_contra hh
    push Not at hh
    have β0 : 0 ≤ m * (η * (ζ + ζ)) := by positivity
    have β1 : m * (η * (ζ + ζ)) ≤ 1e50 := (le_mul_of_one_le_right β0 (one_le_pow₀ (by linarith [wn.le_κ]))).trans wn.grow
    have h1 : (1e-20 : ℝ) * 1e80 ≤ η * (ζ + ζ) := mul_le_mul w.le_η (by linarith) (by norm_num) η0
    have h2 := (h1.trans (le_mul_of_one_le_left (by positivity) m1)).trans β1
    norm_num at h2
  obtain ⟨J', eJ, -⟩ := cost_D hr (n := n) (m := m) (w.H_le u h1) w.y_le (w.coord h2') wn.size_le w.meas_le w.le_η (le_trans (by norm_num) w.le_X)
    (le_trans (by norm_num) w.le_ζ) (by
      have h3 : η * X ≤ 1e14 * 1e60 := mul_le_mul η1 w.X_le X0 (by norm_num)
      have h4 : n * (η * X) ≤ 100 * (1e14 * 1e60) := mul_le_mul n2 h3 (by positivity) (by norm_num)
      exact (add_le_add ζ1 h4).trans (by norm_num))
  refine ⟨u, z, J', ?_, h2⟩
  rw [← eJ]
  simp only [unweightedNonlinear, ne_eq, not_true_eq_false, or_self, if_false, hnm', osimp, h3, finish, computeCostFunction]

/-- the square and its derivative, computed on doubles -/
noncomputable def sqModel : MeasModel (Dbl r) where
  predicted x o := if hx : 1 = x.n then .ok (true, ⟨1, fun i => x.v (i.cast hx) * x.v (i.cast hx)⟩) else .ok (false, o)
  relinearize x H := if hx : 1 = x.n then .ok (true, ⟨1, 1, of fun i _ => .fin 2 * x.v (i.cast hx)⟩) else .ok (false, H)

omit [Machine] in
/-- `x²` fitted to 4 near `x = 2`, in doubles -/
theorem sq_posed (hr : Rounds53 r) : NlPosed (r := r) sqModel sqH sqD (fun x => ![r (x 0 * x 0)]) (fun x => !![r (2 * x 0)]) ![4] ![2]
    (1 / 2) (29 / 10) 2 0 (10 * ulp) (10 * ulp) 6 7 (5 / 2) 5 := by
  have cl : ∀ x : Fin 1 → ℝ, len (x - ![2]) ≤ 1 / 2 → 3 / 2 ≤ x 0 ∧ x 0 ≤ 5 / 2 := fun x hx => by
    rw [len_one] at hx
    have hx' : |x 0 - 2| ≤ 1 / 2 := by simpa using hx
    have := abs_le.1 hx'
    constructor <;> linarith
  have u9 : ulp ≤ 1 / 10 ^ 15 := by unfold ulp; norm_num
  have sqe : ∀ x : Fin 1 → ℝ, len (x - ![2]) ≤ 1 / 2 → |r (x 0 * x 0) - x 0 * x 0| ≤ ulp * 10 := fun x hx => by
    obtain ⟨a, b⟩ := cl x hx
    exact hr.rel_floor (by rw [abs_of_nonneg (by nlinarith)]; nlinarith) (by norm_num)
  have dbe : ∀ x : Fin 1 → ℝ, len (x - ![2]) ≤ 1 / 2 → |r (2 * x 0) - 2 * x 0| ≤ ulp * 10 := fun x hx => by
    obtain ⟨a, b⟩ := cl x hx
    exact hr.rel_floor (by rw [abs_of_nonneg (by linarith)]; linarith) (by norm_num)
  have sm := sq_smooth
  refine {
    meas_le := by norm_num, radius := by norm_num, c_pos := by norm_num, l_nonneg := by norm_num, b_nonneg := mul_nonneg (by norm_num) ulp_pos.le, deriv := sm.deriv,
    lipschitz := fun x x' a b v => by have := sm.lipschitz x x' a b v; rwa [wlen_one] at this,
    stationary := by have := sm.stationary; rwa [one_mulVec] at this, residual := by have := sm.residual; rwa [wlen_one] at this,
    predicted := ?_, relinearize := ?_, yh_near := ?_, Hh_near := ?_, H_le := ?_, y_le := ?_, yh_le := ?_, x_le := ?_, le_η := by norm_num, le_ζ := by norm_num,
    le_X := by norm_num, X_le := by norm_num, normal := ?_ }
  · intro x o hx
    obtain ⟨c1, c2⟩ := cl x hx
    have fin : |r (x 0 * x 0)| < 2 ^ 1024 := lt_of_le_of_lt (by
      have := abs_le.1 (sqe x hx)
      rw [abs_le]; norm_num at u9 ⊢; constructor <;> nlinarith) Dbl.big
    simp only [sqModel, dite_true, Fin.cast_refl, id]
    congr 3
    funext i
    fin_cases i
    show Dbl.rd r (.fin (x 0 * x 0)) = _
    rw [Dbl.rd_fin fin]; rfl
  · intro x o hx
    obtain ⟨c1, c2⟩ := cl x hx
    have fin : |r (2 * x 0)| < 2 ^ 1024 := lt_of_le_of_lt (by
      have := abs_le.1 (dbe x hx)
      rw [abs_le]; norm_num at u9 ⊢; constructor <;> nlinarith) Dbl.big
    simp only [sqModel, dite_true, Fin.cast_refl, id]
    congr 3
    ext i j
    fin_cases i; fin_cases j
    show Dbl.rd r (.fin (2 * x 0)) = _
    rw [Dbl.rd_fin fin]; rfl
  · intro x hx
    rw [len_one]
    have := sqe x hx
    simp only [sqH, Pi.sub_apply, cons_val_fin_one, Fin.isValue]
    rw [_root_.sq]; linarith
  · intro x hx v
    rw [len_one, len_one]
    have := mul_le_mul_of_nonneg_right (dbe x hx) (abs_nonneg (v 0))
    simp only [sqD, mulVec, dotProduct, Fin.sum_univ_one, Matrix.sub_apply, of_apply, cons_val', cons_val_fin_one, Fin.isValue, abs_mul]
    linarith
  · intro x hx i j
    have := abs_le.1 (dbe x hx)
    obtain ⟨c1, c2⟩ := cl x hx
    fin_cases i; fin_cases j
    simp only [of_apply, cons_val', cons_val_fin_one, Fin.isValue, Fin.zero_eta]
    rw [abs_le]; norm_num at u9 ⊢; constructor <;> linarith
  · intro i; fin_cases i; norm_num
  · intro x hx i
    have := abs_le.1 (sqe x hx)
    obtain ⟨c1, c2⟩ := cl x hx
    fin_cases i
    simp only [cons_val_fin_one, Fin.isValue, Fin.zero_eta]
    rw [abs_le]; norm_num at u9 ⊢; constructor <;> nlinarith
  · intro i; fin_cases i; norm_num
  · intro x hx
    have := abs_le.1 (dbe x hx)
    obtain ⟨c1, c2⟩ := cl x hx
    refine {
      size := by norm_num, size_le := by norm_num, ops := by norm_num, sym := ?_, pos := ?_, le_c := by norm_num, s_le := by norm_num, le_β := by norm_num,
      le_κ := by norm_num, κ_le := by norm_num, ratio := by norm_num, grow := by norm_num, cond := by unfold ldTol opTol; norm_num }
    · ext i j; fin_cases i; fin_cases j; rfl
    · intro v
      have k : (29 / 10 : ℝ) ≤ r (2 * x 0) := by norm_num at u9 ⊢; linarith
      have k2 : (29 / 10 : ℝ) * (29 / 10) ≤ r (2 * x 0) * r (2 * x 0) := mul_le_mul k k (by norm_num) (by linarith)
      have := mul_le_mul_of_nonneg_right k2 (mul_self_nonneg (v 0))
      simp [dotProduct, mulVec, mul_apply]
      linarith

/-- and the tolerance `1e-6` is reached within eleven rounds -/
example : nlRate (1 / 2) (29 / 10) 2 0 (10 * ulp) * (1 / 2) + nlFloor 1 1 (29 / 10) 0 (10 * ulp) (10 * ulp) 6 7 (5 / 2) ≤ 1 / 2
    ∧ nlRate (1 / 2) (29 / 10) 2 0 (10 * ulp) < 1
    ∧ 101 / 100 * ((1 + nlRate (1 / 2) (29 / 10) 2 0 (10 * ulp)) * (nlFloor 1 1 (29 / 10) 0 (10 * ulp) (10 * ulp) 6 7 (5 / 2) / (1 - nlRate (1 / 2) (29 / 10) 2 0 (10 * ulp))
      + nlRate (1 / 2) (29 / 10) 2 0 (10 * ulp) ^ 10 * (1 / 2)) + nlFloor 1 1 (29 / 10) 0 (10 * ulp) (10 * ulp) 6 7 (5 / 2) + (1 : ℕ) * (ulp * (5 / 2 + 5 / 2))) ≤ 1e-6 := by
  unfold nlRate nlFloor fitErr normalTol nlStep ldTol opTol ulp
  norm_num

end NavFuse.Props
