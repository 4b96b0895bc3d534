import Verif.Props.KalmanOrder

/-! # C193: simultaneous measurements act through their total information -/

namespace NavFuse.Props
open Matrix Kalman Spec KA

variable {n : ℕ}

/-- information that a list of measurements carries: the sum of `Hᵀ R⁻¹ H` (predictions carry none) -/
noncomputable def totalInfo : List (FilterOp n) → Matrix (Fin n) (Fin n) ℝ
  | [] => 0
  | .predict _ _ :: os => totalInfo os
  | .update _ _ H R :: os => Hᵀ * R⁻¹ * H + totalInfo os

/-- what the measured values contribute: the sum of `Hᵀ R⁻¹ z` -/
noncomputable def totalSight : List (FilterOp n) → Fin n → ℝ
  | [] => 0
  | .predict _ _ :: os => totalSight os
  | .update _ z H R :: os => Hᵀ *ᵥ (R⁻¹ *ᵥ z) + totalSight os

/-- all calls are measurement updates with sensible noise -/
def Updates (os : List (FilterOp n)) : Prop := ∀ o ∈ os, o.Sound ∧ ∃ m z H R, o = .update m z H R

theorem totalInfo_psd {os : List (FilterOp n)} (h : Updates os) : (totalInfo os).PosSemidef := by
  induction os with
  | nil => exact Matrix.PosSemidef.zero
  | cons o os ih =>
    obtain ⟨hs, m, z, H, R, rfl⟩ := h o List.mem_cons_self
    exact (info_psd H (isPosCov_iff.1 hs)).add (ih fun o h' => h o (List.mem_cons_of_mem _ h'))

/-- updates in push-through form -/
theorem updates_total {L : LinSolver ℝ} (hL : L.Correct) {os : List (FilterOp n)} (h : Updates os) (x : Fin n → ℝ) {P : Matrix (Fin n) (Fin n) ℝ} (hP : P.PosSemidef) :
    ∃ x' P', runFilter L os (⟨n, x⟩, ⟨n, n, P⟩) = .ok (⟨n, x'⟩, ⟨n, n, P'⟩) ∧ (1 + P * totalInfo os) * P' = P
      ∧ (1 + P * totalInfo os) *ᵥ x' = x + P *ᵥ totalSight os := by
  induction os generalizing x P with
  | nil => exact ⟨x, P, rfl, by simp [totalInfo], by simp [totalInfo, totalSight]⟩
  | cons o os ih =>
    obtain ⟨hs, m, z, H, R, rfl⟩ := h o List.mem_cons_self
    have hR := isPosCov_iff.1 hs
    have hP1 := joseph_psd hP H hR.posSemidef (gain P H R)
    obtain ⟨x', P', e, c, mm⟩ := ih (fun o h' => h o (List.mem_cons_of_mem _ h')) (x + gain P H R *ᵥ (z - H *ᵥ x)) hP1
    have c1 := post_cov hP H hR
    have m1 := post_mean hP H hR x z
    set P1 := joseph P H R (gain P H R) with hP1d
    have hfac : (1 + P * info H R) * (1 + P1 * totalInfo os) = 1 + P * totalInfo (.update m z H R :: os) := by
      rw [Matrix.mul_add, ← Matrix.mul_assoc, c1, totalInfo, info, Matrix.mul_one, Matrix.mul_add]; abel
    refine ⟨x', P', ?_, ?_, ?_⟩
    · rw [runFilter, FilterOp.exec, update_R hL x hP z H hR]
      exact e
    · rw [← hfac, Matrix.mul_assoc, c, c1]
    · rw [← hfac, ← mulVec_mulVec, mm, mulVec_add, m1, mulVec_mulVec _ _ P1, c1, totalSight, mulVec_add, add_assoc]

/-- C193: two lists of simultaneous measurements with the same total information `Σ Hᵀ R⁻¹ H` and the same total `Σ Hᵀ R⁻¹ z` have the same effect on estimate and covariance,
however many measurements they consist of, in whatever order, of whatever sizes, and whatever calls follow. -/
theorem C193_total_information {L : LinSolver ℝ} (hL : L.Correct) (us us' post : List (FilterOp n)) (hus : Updates us) (hus' : Updates us')
    (hJ : totalInfo us = totalInfo us') (hj : totalSight us = totalSight us') (x : Fin n → ℝ) (P : Matrix (Fin n) (Fin n) ℝ) (hP : IsCov P) :
    runFilter L (us ++ post) (⟨n, x⟩, ⟨n, n, P⟩) = runFilter L (us' ++ post) (⟨n, x⟩, ⟨n, n, P⟩) := by
  rw [isCov_iff] at hP
  obtain ⟨x1, P1, e1, c1, m1⟩ := updates_total hL hus x hP
  obtain ⟨x2, P2, e2, c2, m2⟩ := updates_total hL hus' x hP
  rw [← hJ] at c2 m2
  rw [← hj] at m2
  have u := one_add_mul_unit hP (totalInfo_psd hus)
  have inj : Function.Injective (fun w : Fin n → ℝ => (1 + P * totalInfo us) *ᵥ w) := mulVec_injective_iff_isUnit.2 ((isUnit_iff_isUnit_det _).2 u)
  have ex : x1 = x2 := inj (m1.trans m2.symm)
  have eP : P1 = P2 := by
    have := congrArg (fun w => (1 + P * totalInfo us)⁻¹ * w) (c1.trans c2.symm)
    simpa only [← Matrix.mul_assoc, nonsing_inv_mul _ u, Matrix.one_mul] using this
  rw [runFilter_cat, runFilter_cat, e1, e2, ex, eP]

/-- C193 (averaging): any positive number of measurements of the same quantity with the same noise has the effect of one measurement of their mean with the noise covariance divided
by their number. -/
theorem C193_averaging {m : ℕ} {L : LinSolver ℝ} (hL : L.Correct) (zs : List (Fin m → ℝ)) (hz : zs ≠ []) (H : Matrix (Fin m) (Fin n) ℝ) (R : Matrix (Fin m) (Fin m) ℝ)
    (hR : IsPosCov R) (post : List (FilterOp n)) (x : Fin n → ℝ) (P : Matrix (Fin n) (Fin n) ℝ) (hP : IsCov P) :
    runFilter L (zs.map (fun z => .update m z H R) ++ post) (⟨n, x⟩, ⟨n, n, P⟩)
      = runFilter L (.update m ((zs.length : ℝ)⁻¹ • zs.sum) H ((zs.length : ℝ)⁻¹ • R) :: post) (⟨n, x⟩, ⟨n, n, P⟩) := by
  have hN : (0 : ℝ) < zs.length := Nat.cast_pos.2 (List.length_pos_iff.2 hz)
  have hRp := isPosCov_iff.1 hR
  have hinv : ((zs.length : ℝ)⁻¹ • R)⁻¹ = (zs.length : ℝ) • R⁻¹ := by
    refine inv_eq_left_inv ?_
    rw [Matrix.smul_mul, Matrix.mul_smul, smul_smul, mul_inv_cancel₀ hN.ne', one_smul, nonsing_inv_mul _ (pd_det hRp)]
  have t1 : ∀ zs : List (Fin m → ℝ), totalInfo (zs.map (fun z => FilterOp.update m z H R)) = (zs.length : ℝ) • (Hᵀ * R⁻¹ * H) := fun zs => by
    induction zs with
    | nil => simp [totalInfo]
    | cons z zs ih => rw [List.map_cons, totalInfo, ih, List.length_cons, Nat.cast_succ, add_smul, one_smul, add_comm]
  have t2 : ∀ zs : List (Fin m → ℝ), totalSight (zs.map (fun z => FilterOp.update m z H R)) = Hᵀ *ᵥ (R⁻¹ *ᵥ zs.sum) := fun zs => by
    induction zs with
    | nil => simp [totalSight]
    | cons z zs ih => rw [List.map_cons, totalSight, ih, List.sum_cons, mulVec_add, mulVec_add]
  refine C193_total_information hL _ [_] post (fun o ho => ?_) (fun o ho => ?_) ?_ ?_ x P hP
  · obtain ⟨z, -, rfl⟩ := List.mem_map.1 ho
    exact ⟨hR, m, z, H, R, rfl⟩
  · rw [List.mem_singleton.1 ho]
    exact ⟨isPosCov_iff.2 (hRp.smul (inv_pos.2 hN)), _, _, _, _, rfl⟩
  · rw [t1, totalInfo, totalInfo, hinv, Matrix.mul_smul, Matrix.smul_mul, add_zero]
  · rw [t2, totalSight, totalSight, hinv, smul_mulVec, mulVec_smul, mulVec_smul, mulVec_smul, smul_smul, mul_inv_cancel₀ hN.ne', one_smul, add_zero]

/-- two measurements `1` and `3` of a state with unit noise, or one measurement `2` with half of it -/
example : Updates [FilterOp.update 1 ![1] (1 : Matrix (Fin 1) (Fin 1) ℝ) 1, .update 1 ![3] 1 1] := fun o ho => by
  have p : IsPosCov (1 : Matrix (Fin 1) (Fin 1) ℝ) := isPosCov_iff.2 Matrix.PosDef.one
  simp only [List.mem_cons, List.not_mem_nil, or_false] at ho
  rcases ho with rfl | rfl
  · exact ⟨p, _, _, _, _, rfl⟩
  · exact ⟨p, _, _, _, _, rfl⟩

end NavFuse.Props
