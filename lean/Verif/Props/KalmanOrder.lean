import Verif.Props.Kalman

/-! # C179: merging predictions, reordering simultaneous measurements -/

namespace NavFuse.Props
open Matrix Kalman Spec KA

theorem runFilter_cat {n : ℕ} (L : LinSolver ℝ) (a b : List (FilterOp n)) (s : DVec ℝ × DMat ℝ) :
    runFilter L (a ++ b) s = runFilter L a s >>= runFilter L b := by
  induction a generalizing s with
  | nil => rfl
  | cons o a ih =>
    rw [List.cons_append, runFilter, runFilter]
    cases o.exec L s with
    | error e => rfl
    | ok r => exact ih r

/-- transition and noise accumulated over consecutive intervals, the first one first: the error of the last interval's end is what the later transitions make of it -/
noncomputable def overall {n : ℕ} : List (Matrix (Fin n) (Fin n) ℝ × Matrix (Fin n) (Fin n) ℝ) → Matrix (Fin n) (Fin n) ℝ × Matrix (Fin n) (Fin n) ℝ
  | [] => (1, 0)
  | p :: ps => ((overall ps).1 * p.1, (overall ps).1 * p.2 * (overall ps).1ᵀ + (overall ps).2)

/-- C179: any number of consecutive predictions has the effect of one prediction over the whole interval, with the product of the transition matrices and the accumulated
noise, whatever calls follow. -/
theorem C179_predictions_merge {n : ℕ} (L : LinSolver ℝ) (ps : List (Matrix (Fin n) (Fin n) ℝ × Matrix (Fin n) (Fin n) ℝ)) (os : List (FilterOp n))
    (x : Fin n → ℝ) (P : Matrix (Fin n) (Fin n) ℝ) :
    runFilter L (ps.map (fun p => .predict p.1 p.2) ++ os) (⟨n, x⟩, ⟨n, n, P⟩)
      = runFilter L (.predict (overall ps).1 (overall ps).2 :: os) (⟨n, x⟩, ⟨n, n, P⟩) := by
  have e1 : ∀ (F Q : Matrix (Fin n) (Fin n) ℝ) (x : Fin n → ℝ) (P : Matrix (Fin n) (Fin n) ℝ),
      (FilterOp.predict F Q).exec L (⟨n, x⟩, ⟨n, n, P⟩) = .ok (⟨n, F *ᵥ x⟩, ⟨n, n, F * P * Fᵀ + Q⟩) := by
    intro F Q x P
    rw [FilterOp.exec, predict_R]; rfl
  induction ps generalizing x P with
  | nil =>
    rw [runFilter, overall, e1, one_mulVec, one_mul, transpose_one, mul_one, add_zero]; rfl
  | cons p ps ih =>
    rw [List.map_cons, List.cons_append, runFilter, e1, Out.ok_bind, ih, runFilter, runFilter, e1, e1, overall, mulVec_mulVec]
    simp only [transpose_mul, Matrix.mul_add, Matrix.add_mul, Matrix.mul_assoc, add_assoc]

/-- C179: the order in which simultaneous measurements are handed over does not matter. Permuting a block of consecutive updates anywhere in a run changes nothing. -/
theorem C179_updates_commute {n : ℕ} {L : LinSolver ℝ} (hL : L.Correct) (pre us us' post : List (FilterOp n)) (hpre : ∀ o ∈ pre, o.Sound)
    (hus : ∀ o ∈ us, o.Sound ∧ ∃ m z H R, o = .update m z H R) (hperm : us.Perm us')
    (x : Fin n → ℝ) (P : Matrix (Fin n) (Fin n) ℝ) (hP : IsCov P) :
    runFilter L (pre ++ us ++ post) (⟨n, x⟩, ⟨n, n, P⟩) = runFilter L (pre ++ us' ++ post) (⟨n, x⟩, ⟨n, n, P⟩) := by
  have key : ∀ (x : Fin n → ℝ) (P : Matrix (Fin n) (Fin n) ℝ), IsCov P → runFilter L us (⟨n, x⟩, ⟨n, n, P⟩) = runFilter L us' (⟨n, x⟩, ⟨n, n, P⟩) := by
    induction hperm with
    | nil => intro x P _; rfl
    | @cons o l l' _ ih =>
      intro x P hP
      obtain ⟨x', P', e, hP'⟩ := C80_covariance_health hL [o] (fun q hq => by
        rw [List.mem_singleton] at hq; rw [hq]; exact (hus o (by simp)).1) x P hP
      have e' : o.exec L (⟨n, x⟩, ⟨n, n, P⟩) = .ok (⟨n, x'⟩, ⟨n, n, P'⟩) := by
        rw [runFilter] at e
        cases h : o.exec L (⟨n, x⟩, ⟨n, n, P⟩) with
        | error q => rw [h] at e; cases e
        | ok r => rw [h] at e; exact e
      rw [runFilter, runFilter, e', Out.ok_bind, Out.ok_bind]
      exact ih (fun q hq => hus q (by simp [hq])) x' P' hP'
    | swap o o' l =>
      intro x P hP
      obtain ⟨h1, m, z, H, R, rfl⟩ := hus o (by simp)
      obtain ⟨h2, m', z', H', R', rfl⟩ := hus o' (by simp)
      have hc := C79_order_independent hL x P z' H' R' z H R x P hP h2 h1
      obtain ⟨x1, P1, f1, c1, -⟩ := C75_update_covariance hL x P z H R x P hP h1
      obtain ⟨x2, P2, f2, c2, -⟩ := C75_update_covariance hL x P z' H' R' x P hP h2
      rw [f2, f1, Out.ok_bind, Out.ok_bind] at hc
      have g1 := (update_R hL x1 (isCov_iff.1 c1) z' H' (isPosCov_iff.1 h2) x1 P1).trans (update_R hL x1 (isCov_iff.1 c1) z' H' (isPosCov_iff.1 h2) x P).symm
      have g2 := (update_R hL x2 (isCov_iff.1 c2) z H (isPosCov_iff.1 h1) x2 P2).trans (update_R hL x2 (isCov_iff.1 c2) z H (isPosCov_iff.1 h1) x P).symm
      simp only [runFilter, FilterOp.exec, f1, f2, osimp, g1, g2, hc, if_true]
    | trans h1 _ ih1 ih2 =>
      intro x P hP
      rw [ih1 hus x P hP, ih2 (fun q hq => hus q (h1.mem_iff.2 hq)) x P hP]
  obtain ⟨x', P', e, hP'⟩ := C80_covariance_health hL pre hpre x P hP
  rw [List.append_assoc, List.append_assoc, runFilter_cat, runFilter_cat L pre, e, Out.ok_bind, Out.ok_bind, runFilter_cat, runFilter_cat L us',
    key x' P' hP']

/-- two predictions, and two measurements of different size in either order, meet the hypotheses -/
example : (∀ o ∈ [FilterOp.update (n := 2) 1 ![3] !![1, 0] (diagonal ![2]), .update 2 ![3, 4] !![1, 0; 0, 1] (diagonal ![2, 5])],
      o.Sound ∧ ∃ m z H R, o = .update m z H R)
    ∧ [FilterOp.update (n := 2) 1 ![3] !![1, 0] (diagonal ![2]), .update 2 ![3, 4] !![1, 0; 0, 1] (diagonal ![2, 5])].Perm
      [.update 2 ![3, 4] !![1, 0; 0, 1] (diagonal ![2, 5]), .update 1 ![3] !![1, 0] (diagonal ![2])]
    ∧ (overall [((!![1, 1; 0, 1] : Matrix (Fin 2) (Fin 2) ℝ), !![0, 0; 0, 1]), (!![1, 1; 0, 1], !![0, 0; 0, 1])]).2 = !![1, 1; 1, 2] := by
  refine ⟨?_, List.Perm.swap _ _ _, ?_⟩
  · intro o ho
    simp only [List.mem_cons, List.not_mem_nil, or_false] at ho
    rcases ho with rfl | rfl
    · exact ⟨diag_isPosCov _ (by intro i; fin_cases i; norm_num), _, _, _, _, rfl⟩
    · exact ⟨diag_isPosCov _ (by intro i; fin_cases i <;> norm_num), _, _, _, _, rfl⟩
  · simp only [overall, one_mul, transpose_one, mul_one, add_zero]
    ext i j
    fin_cases i <;> fin_cases j <;> norm_num [Matrix.mul_apply, Fin.sum_univ_two, Matrix.vecMul, dotProduct]

end NavFuse.Props
