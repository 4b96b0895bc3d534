import Verif.Props.GaussNewton

/-! # Coordinates and units in least squares: C158 -/

namespace NavFuse.Props
open Matrix Spec Lsq
variable {n m : ℕ}

/-- the normal equations in other coordinates -/
theorem solve_change {L : LinSolver ℝ} (hL : L.Correct) {H : Matrix (Fin m) (Fin n) ℝ} (hH : FullColumnRank H) {W : Matrix (Fin m) (Fin m) ℝ} (hW : IsPosCov W)
    {T S : Matrix (Fin n) (Fin n) ℝ} (hT : T * S = 1) {U V : Matrix (Fin m) (Fin m) ℝ} (hU : U * V = 1) (ρ : Fin m → ℝ) :
    FullColumnRank (U * H * T) ∧ IsPosCov (Vᵀ * W * V) ∧
      T *ᵥ L.ldltSolve ((U * H * T)ᵀ * (Vᵀ * W * V) * (U * H * T)) (((U * H * T)ᵀ * (Vᵀ * W * V)) *ᵥ (U *ᵥ ρ)) = L.ldltSolve (Hᵀ * W * H) ((Hᵀ * W) *ᵥ ρ) := by
  have hS : S * T = 1 := mul_eq_one_comm.1 hT
  have hV : V * U = 1 := mul_eq_one_comm.1 hU
  have hVt : Uᵀ * Vᵀ = 1 := by rw [← transpose_mul, hV, transpose_one]
  have hSt : Sᵀ * Tᵀ = 1 := by rw [← transpose_mul, hT, transpose_one]
  have rk : FullColumnRank (U * H * T) := fun a b e => by
    have e1 : H *ᵥ (T *ᵥ a) = H *ᵥ (T *ᵥ b) := by
      have := congrArg (fun v => V *ᵥ v) e
      simp only [mulVec_mulVec] at this
      rw [← Matrix.mul_assoc, ← Matrix.mul_assoc, hV, Matrix.one_mul] at this
      simpa only [mulVec_mulVec] using this
    have e2 := congrArg (fun v => S *ᵥ v) (hH _ _ e1)
    simpa only [mulVec_mulVec, hS, one_mulVec] using e2
  have pw : IsPosCov (Vᵀ * W * V) := by
    refine ⟨by rw [IsSymm, transpose_mul, transpose_mul, transpose_transpose, hW.1, Matrix.mul_assoc], fun v hv => ?_⟩
    have : v ⬝ᵥ ((Vᵀ * W * V) *ᵥ v) = (V *ᵥ v) ⬝ᵥ (W *ᵥ (V *ᵥ v)) := by
      rw [← mulVec_mulVec, ← mulVec_mulVec, dotProduct_mulVec, vecMul_transpose]
    rw [this]
    refine hW.2 _ fun z => hv ?_
    have := congrArg (fun w => U *ᵥ w) z
    simpa only [mulVec_mulVec, hU, one_mulVec, mulVec_zero] using this
  refine ⟨rk, pw, ?_⟩
  have e1 : (U * H * T)ᵀ * (Vᵀ * W * V) = Tᵀ * (Hᵀ * W * V) := by
    calc (U * H * T)ᵀ * (Vᵀ * W * V) = Tᵀ * (Hᵀ * ((Uᵀ * Vᵀ) * W * V)) := by rw [transpose_mul, transpose_mul]; simp only [Matrix.mul_assoc]
      _ = _ := by rw [hVt, Matrix.one_mul, Matrix.mul_assoc Hᵀ]
  have e2 : (U * H * T)ᵀ * (Vᵀ * W * V) * (U * H * T) = Tᵀ * (Hᵀ * W * H) * T := by
    rw [e1]
    calc Tᵀ * (Hᵀ * W * V) * (U * H * T) = Tᵀ * (Hᵀ * W * ((V * U) * H)) * T := by simp only [Matrix.mul_assoc]
      _ = _ := by rw [hV, Matrix.one_mul]
  have s1 := hL.solve _ (((U * H * T)ᵀ * (Vᵀ * W * V)) *ᵥ (U *ᵥ ρ)) (normal_pd rk (isPosCov_iff.1 pw))
  have s2 := hL.solve _ ((Hᵀ * W) *ᵥ ρ) (normal_pd hH (isPosCov_iff.1 hW))
  have inj : Function.Injective (fun w : Fin n → ℝ => (Hᵀ * W * H) *ᵥ w) := mulVec_injective_iff_isUnit.2 (normal_pd hH (isPosCov_iff.1 hW)).isUnit
  apply inj
  show _ *ᵥ _ = _ *ᵥ _
  rw [s2]
  generalize L.ldltSolve ((U * H * T)ᵀ * (Vᵀ * W * V) * (U * H * T)) (((U * H * T)ᵀ * (Vᵀ * W * V)) *ᵥ (U *ᵥ ρ)) = b at s1
  rw [e2, e1, mulVec_mulVec] at s1
  have s3 := congrArg (fun v => Sᵀ *ᵥ v) s1
  simp only [mulVec_mulVec] at s3
  rw [show Sᵀ * (Tᵀ * (Hᵀ * W * H) * T) = Hᵀ * W * H * T by rw [← Matrix.mul_assoc, ← Matrix.mul_assoc, hSt, Matrix.one_mul],
    show Sᵀ * (Tᵀ * (Hᵀ * W * V) * U) = Hᵀ * W by
      rw [← Matrix.mul_assoc, ← Matrix.mul_assoc, hSt, Matrix.one_mul, Matrix.mul_assoc, hV, Matrix.mul_one]] at s3
  rw [mulVec_mulVec, s3]

/-- an orthogonal map keeps sums of squares -/
theorem orth_dot {U : Matrix (Fin m) (Fin m) ℝ} (hU : Uᵀ * U = 1) (v : Fin m → ℝ) : (U *ᵥ v) ⬝ᵥ (U *ᵥ v) = v ⬝ᵥ v := by
  rw [dotProduct_mulVec, vecMul_mulVec, ← mulVec_transpose, transpose_mul, transpose_transpose, hU, one_mulVec]

/-- C158 (linear). States in other coordinates, `x = T z + c`, and measurements multiplied by an invertible `U` (weights accordingly): the same estimate, in the new
coordinates; and the same cost if `U` is orthogonal, e.g. a reordering of the measurements. -/
theorem C158_weighted {L : LinSolver ℝ} (hL : L.Correct) (y : Fin m → ℝ) (H : Matrix (Fin m) (Fin n) ℝ) (hH : FullColumnRank H) (W : Matrix (Fin m) (Fin m) ℝ) (hW : IsPosCov W)
    (T S : Matrix (Fin n) (Fin n) ℝ) (hT : T * S = 1) (U V : Matrix (Fin m) (Fin m) ℝ) (hU : U * V = 1) (c x0 z0 : Fin n → ℝ) (J0 J0' : ℝ) :
    ∃ z J J', weightedLinear L ⟨m, y⟩ ⟨m, n, H⟩ ⟨m, m, W⟩ ⟨n, x0⟩ J0 = .ok (true, ⟨n, T *ᵥ z + c⟩, J) ∧
      weightedLinear L ⟨m, U *ᵥ (y - H *ᵥ c)⟩ ⟨m, n, U * H * T⟩ ⟨m, m, Vᵀ * W * V⟩ ⟨n, z0⟩ J0' = .ok (true, ⟨n, z⟩, J') ∧ (Uᵀ * U = 1 → J' = J) := by
  obtain ⟨rk, pw, e⟩ := solve_change hL hH hW hT hU (y - H *ᵥ c)
  have s2 := hL.solve _ ((Hᵀ * W) *ᵥ y) (normal_pd hH (isPosCov_iff.1 hW))
  have s3 := hL.solve _ ((Hᵀ * W) *ᵥ (y - H *ᵥ c)) (normal_pd hH (isPosCov_iff.1 hW))
  have inj : Function.Injective (fun w : Fin n → ℝ => (Hᵀ * W * H) *ᵥ w) := mulVec_injective_iff_isUnit.2 (normal_pd hH (isPosCov_iff.1 hW)).isUnit
  have k : L.ldltSolve (Hᵀ * W * H) ((Hᵀ * W) *ᵥ y) = L.ldltSolve (Hᵀ * W * H) ((Hᵀ * W) *ᵥ (y - H *ᵥ c)) + c := by
    apply inj
    show _ *ᵥ _ = _ *ᵥ _
    rw [s2, mulVec_add, s3, mulVec_sub, mulVec_mulVec, sub_add_cancel]
  refine ⟨_, _, _, by rw [wlls_R L y H W x0 J0 hH.le, k, ← e], wlls_R L _ _ _ z0 J0' hH.le, fun hO => ?_⟩
  generalize L.ldltSolve ((U * H * T)ᵀ * (Vᵀ * W * V) * (U * H * T)) (((U * H * T)ᵀ * (Vᵀ * W * V)) *ᵥ (U *ᵥ (y - H *ᵥ c))) = z
  have : U *ᵥ (y - H *ᵥ c) - (U * H * T) *ᵥ z = U *ᵥ (y - H *ᵥ (T *ᵥ z + c)) := by
    rw [mulVec_add, ← mulVec_mulVec, ← mulVec_mulVec, ← mulVec_sub]; congr 1; abel
  rw [this, orth_dot hO]

/-- C158 (linear, unweighted): measurements multiplied by an orthogonal matrix. -/
theorem C158_unweighted {L : LinSolver ℝ} (hL : L.Correct) (y : Fin m → ℝ) (H : Matrix (Fin m) (Fin n) ℝ) (hH : FullColumnRank H)
    (T S : Matrix (Fin n) (Fin n) ℝ) (hT : T * S = 1) (U : Matrix (Fin m) (Fin m) ℝ) (hU : Uᵀ * U = 1) (c x0 z0 : Fin n → ℝ) (J0 J0' : ℝ) :
    ∃ z J, unweightedLinear L ⟨m, y⟩ ⟨m, n, H⟩ ⟨n, x0⟩ J0 = .ok (true, ⟨n, T *ᵥ z + c⟩, J) ∧
      unweightedLinear L ⟨m, U *ᵥ (y - H *ᵥ c)⟩ ⟨m, n, U * H * T⟩ ⟨n, z0⟩ J0' = .ok (true, ⟨n, z⟩, J) := by
  have hU' : U * Uᵀ = 1 := mul_eq_one_comm.1 hU
  obtain ⟨z, J, J', a, b, e⟩ := C158_weighted hL y H hH 1 (isPosCov_iff.2 PosDef.one) T S hT U Uᵀ hU' c x0 z0 J0 J0'
  rw [transpose_transpose, Matrix.mul_one, hU'] at b
  rw [C67_unit_weights] at a b
  exact ⟨z, J, a, by rw [b, e hU]⟩

/-- a Gauss-Newton step in other coordinates -/
theorem gnStep_change {L : LinSolver ℝ} (hL : L.Correct) {h : (Fin n → ℝ) → Fin m → ℝ} {D : (Fin n → ℝ) → Matrix (Fin m) (Fin n) ℝ} {W : Matrix (Fin m) (Fin m) ℝ} (hW : IsPosCov W)
    {T S : Matrix (Fin n) (Fin n) ℝ} (hT : T * S = 1) {U V : Matrix (Fin m) (Fin m) ℝ} (hU : U * V = 1) (c : Fin n → ℝ) (d y : Fin m → ℝ) (z : Fin n → ℝ) (hD : FullColumnRank (D (T *ᵥ z + c))) :
    T *ᵥ gnStep L (fun z => U *ᵥ h (T *ᵥ z + c) + d) (fun z => U * D (T *ᵥ z + c) * T) (Vᵀ * W * V) (U *ᵥ y + d) z + c = gnStep L h D W y (T *ᵥ z + c) := by
  obtain ⟨-, -, e⟩ := solve_change hL hD hW hT hU (y - h (T *ᵥ z + c))
  unfold gnStep
  simp only
  rw [add_sub_add_right_eq_sub, ← mulVec_sub, mulVec_add, e]
  abel

/-- a similarity of factor `s` multiplies lengths by `s` -/
theorem len_similar {T : Matrix (Fin n) (Fin n) ℝ} {s : ℝ} (hs : 0 < s) (hT : Tᵀ * T = s ^ 2 • 1) (v : Fin n → ℝ) : len (T *ᵥ v) = s * len v := by
  have h1 := len_sq (T *ᵥ v)
  rw [dotProduct_mulVec, vecMul_mulVec, ← mulVec_transpose, transpose_mul, transpose_transpose, hT, smul_mulVec, one_mulVec, smul_dotProduct, ← len_sq, smul_eq_mul, ← mul_pow] at h1
  exact (pow_left_inj₀ (len_nonneg _) (mul_nonneg hs.le (len_nonneg _)) two_ne_zero).1 h1

/-- two loops in step -/
theorem loop_change {cond cond' : NlState ℝ → Bool} {body body' : NlState ℝ → Out (Bool × NlState ℝ)}
    (Rel : NlState ℝ → NlState ℝ → Prop) (hc : ∀ s s', Rel s s' → cond s = cond' s')
    (hb : ∀ s s', Rel s s' → ∃ t t', body s = .ok (true, t) ∧ body' s' = .ok (true, t') ∧ Rel t t') (fuel : ℕ) (s s' : NlState ℝ) (hs : Rel s s') :
    (whileLoop cond body fuel s = none ∧ whileLoop cond' body' fuel s' = none) ∨
      ∃ t t', whileLoop cond body fuel s = some (.ok (true, t)) ∧ whileLoop cond' body' fuel s' = some (.ok (true, t')) ∧ Rel t t' := by
  induction fuel generalizing s s' with
  | zero =>
    unfold whileLoop
    rw [hc s s' hs]
    cases cond' s'
    · exact .inr ⟨s, s', rfl, rfl, hs⟩
    · exact .inl ⟨rfl, rfl⟩
  | succ k ih =>
    unfold whileLoop
    rw [hc s s' hs]
    cases cond' s'
    · exact .inr ⟨s, s', rfl, rfl, hs⟩
    · obtain ⟨t, t', b, b', ht⟩ := hb s s' hs
      simp only [if_true, b, b']
      exact ih t t' ht

/-- states of two runs that correspond to each other -/
structure InCoords (T : Matrix (Fin n) (Fin n) ℝ) (U : Matrix (Fin m) (Fin m) ℝ) (c : Fin n → ℝ) (s s' : NlState ℝ) : Prop where
  hH : ∃ H, s.Hk = ⟨m, n, H⟩ ∧ s'.Hk = ⟨m, n, U * H * T⟩
  hx : ∃ z, s.xk = ⟨n, T *ᵥ z + c⟩ ∧ s'.xk = ⟨n, z⟩
  hx1 : ∃ z, s.xkp1 = ⟨n, T *ᵥ z + c⟩ ∧ s'.xkp1 = ⟨n, z⟩
  hres : ∃ w, s.res = ⟨n, T *ᵥ w⟩ ∧ s'.res = ⟨n, w⟩

/-- the outcomes of two nonlinear solves that correspond to each other: both still running, or both successful with the same estimate -/
def SameSolve (T : Matrix (Fin n) (Fin n) ℝ) (U : Matrix (Fin m) (Fin m) ℝ) (c : Fin n → ℝ) (d : Fin m → ℝ) (a a' : Option (Out (Bool × NlOut ℝ))) : Prop :=
  (a = none ∧ a' = none) ∨ ∃ H z z1 J J', a = some (.ok (true, ⟨⟨m, n, H⟩, ⟨n, T *ᵥ z + c⟩, ⟨n, T *ᵥ z1 + c⟩, J⟩)) ∧
    a' = some (.ok (true, ⟨⟨m, n, U * H * T⟩, ⟨n, z⟩, ⟨n, z1⟩, J'⟩)) ∧ (Uᵀ * U = 1 → c = 0 → d = 0 → J' = J)

theorem finish_change {T : Matrix (Fin n) (Fin n) ℝ} {U : Matrix (Fin m) (Fin m) ℝ} {c : Fin n → ℝ} {d y : Fin m → ℝ} {J0 J0' : ℝ} {a a' : Option (Out (Bool × NlState ℝ))}
    (h : (a = none ∧ a' = none) ∨ ∃ t t', a = some (.ok (true, t)) ∧ a' = some (.ok (true, t')) ∧ InCoords T U c t t') :
    SameSolve T U c d (finish ⟨m, y⟩ J0 a) (finish ⟨m, U *ᵥ y + d⟩ J0' a') := by
  rcases h with ⟨rfl, rfl⟩ | ⟨t, t', rfl, rfl, ht⟩
  · exact .inl ⟨rfl, rfl⟩
  obtain ⟨H, h1, h1'⟩ := ht.hH
  obtain ⟨z, h2, h2'⟩ := ht.hx
  obtain ⟨z1, h3, h3'⟩ := ht.hx1
  refine .inr ⟨H, z, z1, (1 / 2) * ((y - H *ᵥ (T *ᵥ z1 + c)) ⬝ᵥ (y - H *ᵥ (T *ᵥ z1 + c))),
    (1 / 2) * ((U *ᵥ y + d - (U * H * T) *ᵥ z1) ⬝ᵥ (U *ᵥ y + d - (U * H * T) *ᵥ z1)), ?_, ?_, ?_⟩
  · simp only [finish, h1, h2, h3, cost_R, osimp]
  · simp only [finish, h1', h2', h3', cost_R, osimp]
  · rintro hO rfl rfl
    have : U *ᵥ y + 0 - (U * H * T) *ᵥ z1 = U *ᵥ (y - H *ᵥ (T *ᵥ z1 + 0)) := by
      rw [add_zero, add_zero, ← mulVec_mulVec, ← mulVec_mulVec, ← mulVec_sub]
    rw [this, orth_dot hO]

/-- C158 (nonlinear). States in other coordinates, `x = T z + c`, with `T` a rotation, reflection or change of unit common to all states (factor `s`), and measurements
multiplied by an invertible `U` and shifted by `d`: the two solves take the same rounds, pass the same points and end with the same estimate. -/
theorem C158_nonlinear {L : LinSolver ℝ} (hL : L.Correct) (h : (Fin n → ℝ) → Fin m → ℝ) (D : (Fin n → ℝ) → Matrix (Fin m) (Fin n) ℝ) (hD : ∀ x, FullColumnRank (D x))
    (W : Matrix (Fin m) (Fin m) ℝ) (hW : IsPosCov W) (T : Matrix (Fin n) (Fin n) ℝ) {s : ℝ} (hs : 0 < s) (hT : Tᵀ * T = s ^ 2 • 1) (U V : Matrix (Fin m) (Fin m) ℝ) (hU : U * V = 1)
    (c : Fin n → ℝ) (d y : Fin m → ℝ) (H0 : Matrix (Fin m) (Fin n) ℝ) (z z1 : Fin n → ℝ) (eps J0 J0' : ℝ) (fuel : ℕ) :
    SameSolve T U c d
      (weightedNonlinear L (fnModel h D) fuel ⟨m, y⟩ ⟨m, n, H0⟩ ⟨n, T *ᵥ z + c⟩ ⟨m, m, W⟩ eps ⟨n, T *ᵥ z1 + c⟩ J0)
      (weightedNonlinear L (fnModel (fun z => U *ᵥ h (T *ᵥ z + c) + d) (fun z => U * D (T *ᵥ z + c) * T)) fuel ⟨m, U *ᵥ y + d⟩ ⟨m, n, U * H0 * T⟩ ⟨n, z⟩ ⟨m, m, Vᵀ * W * V⟩ (eps / s)
        ⟨n, z1⟩ J0') := by
  have hTS : T * ((s ^ 2)⁻¹ • Tᵀ) = 1 := by
    apply mul_eq_one_comm.1
    rw [Matrix.smul_mul, hT, smul_smul, inv_mul_cancel₀ (pow_pos hs 2).ne', one_smul]
  have hnm : ¬ (n > m) := by have := (hD 0).le; omega
  simp only [weightedNonlinear, ne_eq, not_true_eq_false, or_self, if_false, hnm, osimp, rsimp]
  refine finish_change (loop_change (InCoords T U c) ?_ ?_ fuel _ _ ⟨⟨H0, rfl, rfl⟩, ⟨z, rfl, rfl⟩, ⟨z1, rfl, rfl⟩, ⟨z1 - z, ?_, rfl⟩⟩)
  · intro a a' r
    obtain ⟨w, h1, h2⟩ := r.hres
    rw [h1, h2, norm_len, norm_len, len_similar hs hT]
    exact decide_eq_decide.2 (by rw [div_lt_iff₀ hs, mul_comm])
  · intro a a' r
    obtain ⟨v, h1, h2⟩ := r.hx
    refine ⟨_, _, bodyW_fn L h D y W a _ h1, bodyW_fn L _ _ _ _ a' _ h2, ?_⟩
    rw [← gnStep_change hL hW hTS hU c d y v (hD _)]
    refine ⟨⟨_, rfl, rfl⟩, ⟨_, rfl, rfl⟩, ⟨_, rfl, rfl⟩, ⟨_, ?_, rfl⟩⟩
    rw [add_sub_add_right_eq_sub, ← mulVec_sub]
  · rw [add_sub_add_right_eq_sub, ← mulVec_sub]

/-- C158 (nonlinear, unweighted). -/
theorem C158_unweighted_nonlinear {L : LinSolver ℝ} (hL : L.Correct) (h : (Fin n → ℝ) → Fin m → ℝ) (D : (Fin n → ℝ) → Matrix (Fin m) (Fin n) ℝ) (hD : ∀ x, FullColumnRank (D x))
    (T : Matrix (Fin n) (Fin n) ℝ) {s : ℝ} (hs : 0 < s) (hT : Tᵀ * T = s ^ 2 • 1) (U : Matrix (Fin m) (Fin m) ℝ) (hU : Uᵀ * U = 1)
    (c : Fin n → ℝ) (d y : Fin m → ℝ) (H0 : Matrix (Fin m) (Fin n) ℝ) (z z1 : Fin n → ℝ) (eps J0 J0' : ℝ) (fuel : ℕ) :
    SameSolve T U c d
      (unweightedNonlinear L (fnModel h D) fuel ⟨m, y⟩ ⟨m, n, H0⟩ ⟨n, T *ᵥ z + c⟩ eps ⟨n, T *ᵥ z1 + c⟩ J0)
      (unweightedNonlinear L (fnModel (fun z => U *ᵥ h (T *ᵥ z + c) + d) (fun z => U * D (T *ᵥ z + c) * T)) fuel ⟨m, U *ᵥ y + d⟩ ⟨m, n, U * H0 * T⟩ ⟨n, z⟩ (eps / s)
        ⟨n, z1⟩ J0') := by
  have hTS : T * ((s ^ 2)⁻¹ • Tᵀ) = 1 := by
    apply mul_eq_one_comm.1
    rw [Matrix.smul_mul, hT, smul_smul, inv_mul_cancel₀ (pow_pos hs 2).ne', one_smul]
  have hUV : U * Uᵀ = 1 := mul_eq_one_comm.1 hU
  have hW : IsPosCov (1 : Matrix (Fin m) (Fin m) ℝ) := isPosCov_iff.2 PosDef.one
  have e1 : (Uᵀ)ᵀ * 1 * Uᵀ = (1 : Matrix (Fin m) (Fin m) ℝ) := by rw [transpose_transpose, Matrix.mul_one, hUV]
  have hnm : ¬ (n > m) := by have := (hD 0).le; omega
  simp only [unweightedNonlinear, ne_eq, not_true_eq_false, or_self, if_false, hnm, osimp, rsimp]
  refine finish_change (loop_change (InCoords T U c) ?_ ?_ fuel _ _ ⟨⟨H0, rfl, rfl⟩, ⟨z, rfl, rfl⟩, ⟨z1, rfl, rfl⟩, ⟨z1 - z, ?_, rfl⟩⟩)
  · intro a a' r
    obtain ⟨w, h1, h2⟩ := r.hres
    rw [h1, h2, norm_len, norm_len, len_similar hs hT]
    exact decide_eq_decide.2 (by rw [div_lt_iff₀ hs, mul_comm])
  · intro a a' r
    obtain ⟨v, h1, h2⟩ := r.hx
    refine ⟨_, _, bodyU_fn L h D y a _ h1, bodyU_fn L _ _ _ a' _ h2, ?_⟩
    have g := gnStep_change (h := h) hL hW hTS hUV c d y v (hD _)
    rw [e1] at g
    rw [← g]
    refine ⟨⟨_, rfl, rfl⟩, ⟨_, rfl, rfl⟩, ⟨_, rfl, rfl⟩, ⟨_, ?_, rfl⟩⟩
    rw [add_sub_add_right_eq_sub, ← mulVec_sub]
  · rw [add_sub_add_right_eq_sub, ← mulVec_sub]

/-- non-vacuity of C158: one state measured through x + x³/3, in units three times as large and with another origin -/
example : (∀ x : Fin 1 → ℝ, FullColumnRank (!![1 + x 0 ^ 2] : Matrix (Fin 1) (Fin 1) ℝ)) ∧ IsPosCov (1 : Matrix (Fin 1) (Fin 1) ℝ) ∧
    (!![3] : Matrix (Fin 1) (Fin 1) ℝ)ᵀ * !![3] = (3 : ℝ) ^ 2 • 1 ∧ (!![2] : Matrix (Fin 1) (Fin 1) ℝ) * !![1 / 2] = 1 := by
  refine ⟨fun x a b e => ?_, isPosCov_iff.2 PosDef.one, ?_, ?_⟩
  · have e0 : (1 + x 0 ^ 2) * a 0 = (1 + x 0 ^ 2) * b 0 := by simpa [mulVec, dotProduct] using congrFun e 0
    have := mul_left_cancel₀ (by positivity) e0
    ext i; fin_cases i; exact this
  · ext i j; fin_cases i; fin_cases j; norm_num [Matrix.mul_apply]
  · ext i j; fin_cases i; fin_cases j; norm_num [Matrix.mul_apply]

/-- non-vacuity of C158: two states, three measurements, the last two measurements swapped and the states rotated by a quarter turn -/
example : FullColumnRank (!![1, 0; 1, 1; 1, 2] : Matrix (Fin 3) (Fin 2) ℝ) ∧ (!![0, 1; -1, 0] : Matrix (Fin 2) (Fin 2) ℝ) * !![0, -1; 1, 0] = 1 ∧
    (!![1, 0, 0; 0, 0, 1; 0, 1, 0] : Matrix (Fin 3) (Fin 3) ℝ)ᵀ * !![1, 0, 0; 0, 0, 1; 0, 1, 0] = 1 := by
  refine ⟨fullColumnRank_example, ?_, ?_⟩
  · ext i j; fin_cases i <;> fin_cases j <;> simp [Matrix.mul_apply, Fin.sum_univ_two]
  · ext i j; fin_cases i <;> fin_cases j <;> simp [Matrix.mul_apply, Fin.sum_univ_three]

end NavFuse.Props
