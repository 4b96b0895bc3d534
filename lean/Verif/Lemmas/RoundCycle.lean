import Verif.Lemmas.KalmanStab

/-! One cycle of the Kalman filter (update, then prediction) in double precision with Eigen's inverse. -/

namespace NavFuse.Props
open Matrix Kalman Spec KA
variable [Machine] {r : ℝ → ℝ} {n m : ℕ}

/-- one cycle: the models and the measurement -/
structure Cyc (n m : ℕ) where
  F : Matrix (Fin n) (Fin n) ℝ
  Q : Matrix (Fin n) (Fin n) ℝ
  H : Matrix (Fin m) (Fin n) ℝ
  R : Matrix (Fin m) (Fin m) ℝ
  z : Fin m → ℝ

/-- the two calls of a cycle, on doubles -/
def Cyc.calls (c : Cyc n m) : List (Gained n) := [.update m c.z c.H c.R 0, .predict c.F c.Q]

/-- the two calls of a cycle, in exact arithmetic -/
def Cyc.ops (c : Cyc n m) : List (FilterOp n) := [.update m c.z c.H c.R, .predict c.F c.Q]

/-- bound for the entries of the computed gain -/
noncomputable def gainMax (n m : ℕ) (η p ρ : ℝ) : ℝ := 16 * m ^ 3 * n * η * p / ρ
/-- magnitudes inside the covariance update -/
noncomputable def updMag (n m : ℕ) (κ η p ρ₁ : ℝ) : ℝ := n * (n * ((1 + m * (κ * η)) * p) * (1 + m * (κ * η))) + m * (m * (κ * ρ₁) * κ)
/-- magnitudes inside the update of the estimate -/
noncomputable def estMag (n m : ℕ) (κ η X Z : ℝ) : ℝ := X + m * (κ * (Z + n * (η * X)))
/-- rounding errors of a cycle in the covariance -/
noncomputable def cycErr (n m : ℕ) (φ b M : ℝ) : ℝ :=
  (2 * m + 2 * n + 7) / 2 ^ 51 * (n * (n * (φ * M) * φ)) + (2 * n + 3) / 2 ^ 51 * (n * (n * (φ * (2 * M)) * φ) + b)
/-- rounding errors of a cycle in the estimate -/
noncomputable def estErr (n m : ℕ) (φ X : ℝ) : ℝ := (2 * m + 2 * n + 7) / 2 ^ 51 * (n * (φ * X)) + (2 * n + 3) / 2 ^ 51 * (n * (φ * (2 * X)))

/-- one cycle on doubles -/
theorem cycle_dbl (h : Rounds53 r) (c : Cyc n m) {x : Fin n → ℝ} {P : Matrix (Fin n) (Fin n) ℝ} {p η ρ ρ₁ φ b X Z : ℝ} (w : Noisy P c.H c.R p η ρ ρ₁)
    (hF : ∀ i j, |c.F i j| ≤ φ) (hQ : ∀ i j, |c.Q i j| ≤ b) (hx : ∀ i, |x i| ≤ X) (hz : ∀ i, |c.z i| ≤ Z) (φ1 : 1 ≤ φ) (b1 : 1e-50 ≤ b) (X1 : 1e-50 ≤ X)
    (Z1 : 1e-50 ≤ Z) (g1 : 1e-50 ≤ gainMax n m η p ρ) (ρ11 : 1e-50 ≤ ρ₁)
    (c1 : n * (n * (φ * (2 * updMag n m (gainMax n m η p ρ) η p ρ₁)) * φ) + b ≤ 1e100) (c2 : n * (φ * (2 * estMag n m (gainMax n m η p ρ) η X Z)) ≤ 1e100) :
    ∃ (K : Matrix (Fin n) (Fin m) ℝ) (y : Fin n → ℝ) (Y : Matrix (Fin n) (Fin n) ℝ),
      (∀ gs, runD LinSolver.eigen (c.calls ++ gs) (⟨n, dV x⟩, ⟨n, n, (dM P : Matrix _ _ (Dbl r))⟩) = runD LinSolver.eigen gs (⟨n, dV y⟩, ⟨n, n, dM Y⟩))
      ∧ (∀ i j, |K i j| ≤ gainMax n m η p ρ)
      ∧ (∀ i j, |K i j - gain P c.H c.R i j| ≤ m * n * η * p / ρ * gainTol n m (innovMax n p η ρ₁ / ρ))
      ∧ (∀ i, |y i - (c.F *ᵥ (x + K *ᵥ (c.z - c.H *ᵥ x))) i| ≤ estErr n m φ (estMag n m (gainMax n m η p ρ) η X Z))
      ∧ ∀ i j, |Y i j - (c.F * joseph P c.H c.R K * c.Fᵀ + c.Q) i j| ≤ cycErr n m φ b (updMag n m (gainMax n m η p ρ) η p ρ₁) := by
  obtain ⟨F, Q, H, R, z⟩ := c
  obtain ⟨K, eK, mK, dK⟩ := C148_gain h w
  simp only at *
  have n1 : (1 : ℝ) ≤ n := by exact_mod_cast w.states
  have m1 : (1 : ℝ) ≤ m := by exact_mod_cast w.meas
  have p0 : 0 < p := lt_of_lt_of_le (by norm_num) w.le_p
  have η0 : 0 < η := lt_of_lt_of_le (by norm_num) w.le_η
  have k0 : 0 < gainMax n m η p ρ := lt_of_lt_of_le (by norm_num) g1
  have mK' : ∀ i j, |K i j| ≤ gainMax n m η p ρ := mK
  set κ := gainMax n m η p ρ with hκ
  set M := updMag n m κ η p ρ₁ with hM
  set V := estMag n m κ η X Z with hV
  have le50 : ∀ {a b : ℕ} {A : Matrix (Fin a) (Fin b) ℝ} {c : ℝ}, (∀ i j, |A i j| ≤ c) → (1e-50 : ℝ) ≤ c → ∀ i j, |mgM A i j| ≤ c := fun hA hc i j =>
    (abs_of_nonneg (le_trans (by norm_num) (mgM_floor _ i j))).trans_le (max_le (hA i j) hc)
  have le50v : ∀ {a : ℕ} {v : Fin a → ℝ} {c : ℝ}, (∀ i, |v i| ≤ c) → (1e-50 : ℝ) ≤ c → ∀ i, |mgV v i| ≤ c := fun hA hc i =>
    (abs_of_nonneg (le_trans (by norm_num) (mgV_floor _ i))).trans_le (max_le (hA i) hc)
  have gK := le50 mK' g1
  have gH := le50 w.H_le (le_trans (by norm_num) w.le_η)
  have gP := le50 w.P_le (le_trans (by norm_num) w.le_p)
  have gR := le50 w.R_le ρ11
  have gF := le50 hF (le_trans (by norm_num) φ1)
  have gQ := le50 hQ b1
  have gx := le50v hx X1
  have gz := le50v hz Z1
  have M0 : 0 ≤ M := by
    have : 0 ≤ ρ₁ := le_trans (by norm_num) ρ11
    rw [hM, updMag]; positivity
  have V0 : X ≤ V := by
    have : 0 ≤ X := le_trans (by norm_num) X1
    have : 0 ≤ Z := le_trans (by norm_num) Z1
    rw [hV, estMag]
    have : 0 ≤ m * (κ * (Z + n * (η * X))) := by positivity
    linarith
  have X0 : 0 ≤ X := le_trans (by norm_num) X1
  have φ0 : 0 ≤ φ := by linarith
  -- the update
  have mx : ∀ i, ((Gained.update m z H R K).mags (mgV x, mgM P)).1 i ≤ V := fun i => by
    show (mgV x + mgM K *ᵥ (mgV z + mgM H *ᵥ mgV x)) i ≤ _
    rw [Pi.add_apply]
    refine add_le_add ((le_abs_self _).trans (gx i)) ((le_abs_self _).trans (mulVec_entry_le gK (fun l => ?_) i))
    rw [Pi.add_apply]
    exact (abs_add_le _ _).trans (add_le_add (gz l) (mulVec_entry_le gH gx l))
  have A1 : ∀ i j, |(1 + mgM K * mgM H : Matrix (Fin n) (Fin n) ℝ) i j| ≤ 1 + m * (κ * η) := fun i j => by
    rw [Matrix.add_apply]
    have h3 : |(1 : Matrix (Fin n) (Fin n) ℝ) i j| ≤ 1 := by rw [one_apply]; split_ifs <;> simp
    exact (abs_add_le _ _).trans (add_le_add h3 (mul_entry_le gK gH i j))
  have mP : ∀ i j, ((Gained.update m z H R K).mags (mgV x, mgM P)).2 i j ≤ M := fun i j => by
    show ((1 + mgM K * mgM H) * mgM P * (1 + mgM K * mgM H)ᵀ + mgM K * mgM R * (mgM K)ᵀ : Matrix (Fin n) (Fin n) ℝ) i j ≤ _
    rw [Matrix.add_apply]
    exact add_le_add ((le_abs_self _).trans (mul_entry_le (mul_entry_le A1 gP) (fun i j => A1 j i) i j))
      ((le_abs_self _).trans (mul_entry_le (mul_entry_le gK gR) (fun i j => gK j i) i j))
  have fM : M ≤ n * (n * (φ * (2 * M)) * φ) := by
    have a1 : M ≤ n * (φ * (2 * M)) := by
      have : 1 * (1 * (2 * M)) ≤ n * (φ * (2 * M)) := mul_le_mul n1 (mul_le_mul_of_nonneg_right φ1 (by positivity)) (by positivity) (by positivity)
      linarith
    have a2 : 1 * (M * 1) ≤ n * (n * (φ * (2 * M)) * φ) := mul_le_mul n1 (mul_le_mul a1 φ1 (by norm_num) (by positivity)) (by positivity) (by positivity)
    linarith
  have fV : V ≤ n * (φ * (2 * V)) := by
    have : 1 * (1 * (2 * V)) ≤ n * (φ * (2 * V)) := mul_le_mul n1 (mul_le_mul_of_nonneg_right φ1 (by linarith)) (by linarith) (by positivity)
    linarith
  have b0 : 0 ≤ b := le_trans (by norm_num) b1
  have hc : 2 * m + 2 * n + 7 ≤ 10 ^ 15 := by have := w.states_le; have := w.meas_le; omega
  have hc' : 2 * n + 3 ≤ 10 ^ 15 := by have := w.states_le; omega
  obtain ⟨y', Y', e, a, B, -, -⟩ := exec_rl h LinSolver.eigen (.update m z H R K) (dV_rl x) (dM_rl P) (mgV_floor x) (mgM_floor P) (by rw [zero_add]; exact hc) eK w.meas
    (fun i => (mx i).trans (fV.trans c2)) (fun i j => (mP i j).trans (fM.trans ((le_add_of_nonneg_right b0).trans c1)))
  rw [zero_add] at a B
  have e' : (Gained.update m z H R 0).exec LinSolver.eigen (⟨n, dV x⟩, ⟨n, n, (dM P : Matrix _ _ (Dbl r))⟩) = .ok (true, ⟨n, y'⟩, ⟨n, n, Y'⟩) := e
  choose y ey dy using fun i => (a i).near
  choose Y eY dY using fun i j => (B i j).near
  have ey' : y' = dV y := funext ey
  have eY' : Y' = dM (of Y) := by ext i j; exact eY i j
  have hgr := gr_le hc
  have hgr' := gr_le hc'
  have dy1 : ∀ i, |y i - (x + K *ᵥ (z - H *ᵥ x)) i| ≤ (2 * m + 2 * n + 7) / 2 ^ 51 * V := fun i => by
    refine (dy i).trans (mul_le_mul ?_ (mx i) (a i).M_nonneg (by positivity))
    show gr (2 * m + 2 * n + 7) - 1 ≤ _
    push_cast at hgr
    linarith
  have dY1 : ∀ i j, |of Y i j - joseph P H R K i j| ≤ (2 * m + 2 * n + 7) / 2 ^ 51 * M := fun i j => by
    refine (dY i j).trans (mul_le_mul ?_ (mP i j) (B i j).M_nonneg (by positivity))
    show gr (2 * m + 2 * n + 7) - 1 ≤ _
    push_cast at hgr
    linarith
  have small : ((2 * m + 2 * n + 7 : ℝ)) / 2 ^ 51 ≤ 1 := by
    rw [div_le_one (by norm_num)]
    have : ((2 * m + 2 * n + 7 : ℕ) : ℝ) ≤ ((10 ^ 15 : ℕ) : ℝ) := by exact_mod_cast hc
    push_cast at this
    refine this.trans (by norm_num)
  have y2 : ∀ i, |y i| ≤ 2 * V := fun i => by
    have q1 := (dy1 i).trans (mul_le_mul_of_nonneg_right small (by linarith))
    have q2 := ((a i).mag).trans (mx i)
    have q2' : |(x + K *ᵥ (z - H *ᵥ x)) i| ≤ V := q2
    have := abs_sub_abs_le_abs_sub (y i) ((x + K *ᵥ (z - H *ᵥ x)) i)
    linarith
  have Y2 : ∀ i j, |of Y i j| ≤ 2 * M := fun i j => by
    have q1 := (dY1 i j).trans (mul_le_mul_of_nonneg_right small M0)
    have q2' : |joseph P H R K i j| ≤ M := ((B i j).mag).trans (mP i j)
    have := abs_sub_abs_le_abs_sub (of Y i j) (joseph P H R K i j)
    linarith
  -- the prediction
  have px : ∀ i, ((Gained.predict F Q).mags (mgV y, mgM (of Y))).1 i ≤ n * (φ * (2 * V)) := fun i => by
    refine max_le ((le_abs_self _).trans (mulVec_entry_le gF (le50v y2 (by linarith)) i)) (by linarith)
  have M50 : 1e-50 ≤ 2 * M := by
    have q1 : 1 ≤ 1 + m * (κ * η) := by have : 0 ≤ m * (κ * η) := by positivity
                                        linarith
    have q2 : p ≤ n * (n * ((1 + m * (κ * η)) * p) * (1 + m * (κ * η))) := by
      have a1 : 1 * (1 * p) ≤ n * ((1 + m * (κ * η)) * p) := mul_le_mul n1 (mul_le_mul_of_nonneg_right q1 p0.le) (by positivity) (by positivity)
      have a2 : 1 * (1 * (1 * p) * 1) ≤ n * (n * ((1 + m * (κ * η)) * p) * (1 + m * (κ * η))) :=
        mul_le_mul n1 (mul_le_mul a1 q1 (by norm_num) (by positivity)) (by positivity) (by positivity)
      linarith
    have q3 : 0 ≤ m * (m * (κ * ρ₁) * κ) := by
      have : 0 ≤ ρ₁ := le_trans (by norm_num) ρ11
      positivity
    have q4 := w.le_p
    have : p ≤ M := by rw [hM, updMag]; linarith
    have : (1e-50 : ℝ) ≤ 1e-20 := by norm_num
    linarith
  have pP : ∀ i j, ((Gained.predict F Q).mags (mgV y, mgM (of Y))).2 i j ≤ n * (n * (φ * (2 * M)) * φ) + b := fun i j => by
    show (mgM F * mgM (of Y) * (mgM F)ᵀ + mgM Q) i j ≤ _
    rw [Matrix.add_apply]
    exact add_le_add ((le_abs_self _).trans (mul_entry_le (mul_entry_le gF (le50 Y2 M50)) (fun i j => gF j i) i j)) ((le_abs_self _).trans (gQ i j))
  obtain ⟨y'', Y'', E, A, BB, -, -⟩ := exec_rl (r := r) h LinSolver.eigen (.predict F Q) (dV_rl y) (dM_rl (of Y)) (mgV_floor y) (mgM_floor (of Y))
    (by rw [zero_add]; exact hc') trivial trivial (fun i => (px i).trans c2) (fun i j => (pP i j).trans c1)
  rw [zero_add] at A BB
  choose u eu du using fun i => (A i).near
  choose U eU dU using fun i j => (BB i j).near
  have eu' : y'' = dV u := funext eu
  have eU' : Y'' = dM (of U) := by ext i j; exact eU i j
  refine ⟨K, u, of U, fun gs => ?_, mK', dK, fun i => ?_, fun i j => ?_⟩
  · rw [← ey', ← eY'] at E
    simp only [Cyc.calls, List.cons_append, List.nil_append, runD, e', E, osimp, if_true]
    rw [eu', eU']
  · have d1 : |u i - (F *ᵥ y) i| ≤ (2 * n + 3) / 2 ^ 51 * (n * (φ * (2 * V))) := by
      refine (du i).trans (mul_le_mul ?_ (px i) (A i).M_nonneg (by positivity))
      show gr (2 * n + 3) - 1 ≤ _
      push_cast at hgr'
      linarith
    have d2 := mulVec_entry_le (v := y - (x + K *ᵥ (z - H *ᵥ x))) hF dy1 i
    rw [mulVec_sub, Pi.sub_apply] at d2
    have d3 := abs_add_le (u i - (F *ᵥ y) i) ((F *ᵥ y) i - (F *ᵥ (x + K *ᵥ (z - H *ᵥ x))) i)
    rw [sub_add_sub_cancel] at d3
    refine (d3.trans (add_le_add d1 d2)).trans (le_of_eq ?_)
    rw [estErr]; ring
  · have d1 : |of U i j - (F * of Y * Fᵀ + Q) i j| ≤ (2 * n + 3) / 2 ^ 51 * (n * (n * (φ * (2 * M)) * φ) + b) := by
      refine (dU i j).trans (mul_le_mul ?_ (pP i j) (BB i j).M_nonneg (by positivity))
      show gr (2 * n + 3) - 1 ≤ _
      push_cast at hgr'
      linarith
    have d2 := mul_entry_le (B := Fᵀ) (mul_entry_le hF (B := of Y - joseph P H R K) dY1) (fun i j => hF j i) i j
    rw [Matrix.mul_sub, Matrix.sub_mul, Matrix.sub_apply] at d2
    have d3 := abs_add_le (of U i j - (F * of Y * Fᵀ + Q) i j) ((F * of Y * Fᵀ + Q) i j - (F * joseph P H R K * Fᵀ + Q) i j)
    rw [sub_add_sub_cancel, Matrix.add_apply (F * of Y * Fᵀ), Matrix.add_apply (F * joseph P H R K * Fᵀ), add_sub_add_right_eq_sub] at d3
    refine (d3.trans (add_le_add d1 d2)).trans (le_of_eq ?_)
    rw [cycErr]; ring

end NavFuse.Props
