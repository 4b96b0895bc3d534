import Verif.Props.KalmanRun
import Verif.Props.Estimators

/-! # Properties C107 and C108: cautious noise settings -/

namespace NavFuse.Props
open Matrix Kalman Spec KA MeasureTheory

variable {n : ℕ}

/-! ## C107 -/

/-- The second call is the first with noise settings at least as large. The measured values may differ. -/
inductive MoreCautious : FilterOp n → FilterOp n → Prop
  | predict (F Q Q' : Matrix (Fin n) (Fin n) ℝ) (h : CovLe Q Q') : MoreCautious (.predict F Q) (.predict F Q')
  | update (m : ℕ) (z z' : Fin m → ℝ) (H : Matrix (Fin m) (Fin n) ℝ) (R R' : Matrix (Fin m) (Fin m) ℝ) (h : CovLe R R') :
      MoreCautious (.update m z H R) (.update m z' H R')

theorem covLe_conj {k : ℕ} {A B : Matrix (Fin n) (Fin n) ℝ} (h : CovLe A B) (F : Matrix (Fin k) (Fin n) ℝ) : CovLe (F * A * Fᵀ) (F * B * Fᵀ) := by
  rw [covLe_iff] at *
  have := psd_conj h F
  rwa [Matrix.mul_sub, Matrix.sub_mul] at this

theorem covLe_add {A B C D : Matrix (Fin n) (Fin n) ℝ} (h : CovLe A B) (h' : CovLe C D) : CovLe (A + C) (B + D) := by
  rw [covLe_iff] at *
  rw [add_sub_add_comm]; exact h.add h'

theorem covLe_trans {A B C : Matrix (Fin n) (Fin n) ℝ} (h : CovLe A B) (h' : CovLe B C) : CovLe A C := by
  rw [covLe_iff] at *
  rw [← sub_add_sub_cancel C B A]; exact h'.add h

theorem covLe_joseph {m : ℕ} {P P' : Matrix (Fin n) (Fin n) ℝ} {R R' : Matrix (Fin m) (Fin m) ℝ} (hP : CovLe P P') (hR : CovLe R R')
    (H : Matrix (Fin m) (Fin n) ℝ) (G : Matrix (Fin n) (Fin m) ℝ) : CovLe (joseph P H R G) (joseph P' H R' G) :=
  covLe_add (covLe_conj hP _) (covLe_conj hR _)

/-- the updated covariance is the smallest over all gains -/
theorem joseph_min {m : ℕ} {P : Matrix (Fin n) (Fin n) ℝ} (hP : P.PosSemidef) (H : Matrix (Fin m) (Fin n) ℝ) {R : Matrix (Fin m) (Fin m) ℝ}
    (hR : R.PosDef) (G : Matrix (Fin n) (Fin m) ℝ) : CovLe (joseph P H R (gain P H R)) (joseph P H R G) := by
  have hS := innov_pd hP H hR
  rw [covLe_iff, joseph_gap (psd_tr hP) (psd_tr hS.posSemidef) (pd_det hS) G, joseph_opt (psd_tr hP) (psd_tr hS.posSemidef) (pd_det hS),
    add_sub_cancel_left]
  exact psd_conj hS.posSemidef (G - gain P H R)

/-- C107. Two runs with the same models, the second started from a covariance at least as large and given noise settings at least as large:
the covariance it reports is at least as large in every direction, whatever either run measures. -/
theorem C107_monotone {L : LinSolver ℝ} (hL : L.Correct) (ops ops' : List (FilterOp n)) (hs : ∀ o ∈ ops, o.Sound)
    (hc : List.Forall₂ MoreCautious ops ops') (x x' : Fin n → ℝ) (P P' : Matrix (Fin n) (Fin n) ℝ) (hP : IsCov P) (hPP : CovLe P P') :
    ∃ y Y y' Y', runFilter L ops (⟨n, x⟩, ⟨n, n, P⟩) = .ok (⟨n, y⟩, ⟨n, n, Y⟩)
      ∧ runFilter L ops' (⟨n, x'⟩, ⟨n, n, P'⟩) = .ok (⟨n, y'⟩, ⟨n, n, Y'⟩) ∧ CovLe Y Y' := by
  induction hc generalizing x x' P P' with
  | nil => exact ⟨x, P, x', P', rfl, rfl, hPP⟩
  | @cons o o' os os' h _ ih =>
    have ho := hs o (by simp)
    have hos : ∀ o ∈ os, o.Sound := fun o' h => hs o' (by simp [h])
    have up : ∀ {k : ℕ} {A B : Matrix (Fin k) (Fin k) ℝ}, IsCov A → CovLe A B → IsCov B := by
      intro k A B hA hAB
      rw [isCov_iff] at *
      rw [covLe_iff] at hAB
      have := hA.add hAB
      rwa [add_sub_cancel] at this
    have hP' := up hP hPP
    cases h with
    | predict F Q Q' h =>
      have ho' : IsCov Q := ho
      obtain ⟨x1, P1, h1, -, e1, c1⟩ := C74_predict_covariance x P F Q x P hP ho
      obtain ⟨x2, P2, h2, -, e2, -⟩ := C74_predict_covariance x' P' F Q' x' P' hP' (up ho' h)
      obtain ⟨y, Y, y', Y', r, r', hle⟩ := ih hos x1 x2 P1 P2 c1 (by rw [e1, e2]; exact covLe_add (covLe_conj hPP F) h)
      exact ⟨y, Y, y', Y', by simp [runFilter, FilterOp.exec, h1, osimp, r], by simp [runFilter, FilterOp.exec, h2, osimp, r'], hle⟩
    | update m z z' H R R' h =>
      have hR : R.PosDef := isPosCov_iff.1 ho
      have hR' : R'.PosDef := by
        have := hR.add_posSemidef (covLe_iff.1 h)
        rwa [add_sub_cancel] at this
      have hPp := isCov_iff.1 hP
      have hPp' := isCov_iff.1 hP'
      have h1 := update_R hL x hPp z H hR x P
      have h2 := update_R hL x' hPp' z' H hR' x' P'
      obtain ⟨y, Y, y', Y', r, r', hle⟩ := ih hos _ _ (joseph P H R (gain P H R)) (joseph P' H R' (gain P' H R'))
        (isCov_iff.2 (joseph_psd hPp H hR.posSemidef _))
        (covLe_trans (joseph_min hPp H hR (gain P' H R')) (covLe_joseph hPP h H _))
      exact ⟨y, Y, y', Y', by simp only [runFilter, FilterOp.exec, h1, osimp]; simpa [osimp] using r,
        by simp only [runFilter, FilterOp.exec, h2, osimp]; simpa [osimp] using r', hle⟩

/-- non-vacuity: a larger process noise and a larger measurement noise -/
example : List.Forall₂ MoreCautious [FilterOp.predict (n := 1) !![1] (diagonal ![1]), .update 1 ![3] !![1] (diagonal ![2])]
    [.predict !![1] (diagonal ![4]), .update 1 ![5] !![1] (diagonal ![7])] := by
  have le : ∀ a b : ℝ, a ≤ b → CovLe (diagonal ![a]) (diagonal ![b]) := by
    intro a b h
    rw [covLe_iff, diagonal_sub]
    exact PosSemidef.diagonal (by intro i; fin_cases i; simpa using h)
  exact .cons (.predict _ _ _ (le _ _ (by norm_num))) (.cons (.update _ _ _ _ _ _ (le _ _ (by norm_num))) .nil)

/-! ## C108 -/

variable {Ω : Type} [MeasurableSpace Ω] {μ : Measure Ω}

/-- As `White`, but the noises are only known to be at most as large as the filter is told, and `R` may be singular. -/
def WhiteAtMost (μ : Measure Ω) : Set (Ω → ℝ) → List (Stage Ω n) → Prop
  | _, [] => True
  | past, .move _ Q w :: rest => Fresh μ past w ∧ CovLe (secondMoment μ w w) Q ∧ WhiteAtMost μ (past ∪ comps w) rest
  | past, .sense _ _ R v :: rest => Fresh μ past v ∧ CovLe (secondMoment μ v v) R ∧ WhiteAtMost μ (past ∪ comps v) rest

/-- second moment of a linear combination of something built from the past and fresh noise -/
theorem sm_fresh {m k : ℕ} {past : Set (Ω → ℝ)} (h2 : ∀ g ∈ past, MemLp g 2 μ) {e : Ω → Fin n → ℝ}
    (he : ∀ i, (fun ω => e ω i) ∈ Submodule.span ℝ past) {u : Ω → Fin m → ℝ} (hu : Fresh μ past u)
    (A : Matrix (Fin k) (Fin n) ℝ) (B : Matrix (Fin k) (Fin m) ℝ) :
    secondMoment μ (fun ω => A *ᵥ e ω + B *ᵥ u ω) (fun ω => A *ᵥ e ω + B *ᵥ u ω)
      = A * secondMoment μ e e * Aᵀ + B * secondMoment μ u u * Bᵀ := by
  have he2 : L2V μ e := fun i => l2_span h2 (he i)
  have hu2 : L2V μ u := fun i => (hu _ ⟨i, rfl⟩).1
  have hA := he2.mulVec A
  have hB := hu2.mulVec B
  have hue : secondMoment μ u e = 0 :=
    sm_zero fun i j => (corr_span (hu _ ⟨i, rfl⟩).1 h2 (fun g hg => (hu _ ⟨i, rfl⟩).2 g hg) (he j)).2
  have heu : secondMoment μ e u = 0 := by rw [← sm_tr, hue, transpose_zero]
  rw [sm_add_left hA hB (hA.add hB), sm_add_right hA hA hB, sm_add_right hB hA hB, sm_mulVec_left A he2 hA, sm_mulVec_left A he2 hB,
    sm_mulVec_left B hu2 hA, sm_mulVec_left B hu2 hB, sm_mulVec_right A he2 he2, sm_mulVec_right B he2 hu2, sm_mulVec_right A hu2 he2,
    sm_mulVec_right B hu2 hu2, heu, hue]
  simp [Matrix.mul_assoc]

/-- C108 (from any intermediate point) -/
theorem cautious_run (L : LinSolver ℝ) (stages : List (Stage Ω n)) (past : Set (Ω → ℝ)) (x est : Ω → Fin n → ℝ)
    (P : Matrix (Fin n) (Fin n) ℝ) (h2 : ∀ g ∈ past, MemLp g 2 μ) (hx : ∀ i, (fun ω => x ω i) ∈ Submodule.span ℝ past)
    (he : ∀ i, (fun ω => est ω i) ∈ Submodule.span ℝ past)
    (hP : CovLe (secondMoment μ (fun ω => x ω - est ω) (fun ω => x ω - est ω)) P) (hW : WhiteAtMost μ past stages) :
    ∃ (est' : Ω → Fin n → ℝ) (P' : Matrix (Fin n) (Fin n) ℝ),
      (∀ ω, runFilter L (callsAlong stages x ω) (⟨n, est ω⟩, ⟨n, n, P⟩) = .ok (⟨n, est' ω⟩, ⟨n, n, P'⟩))
      ∧ CovLe (secondMoment μ (fun ω => worldAfter stages x ω - est' ω) (fun ω => worldAfter stages x ω - est' ω)) P' := by
  induction stages generalizing past x est P with
  | nil => exact ⟨est, P, fun ω => rfl, hP⟩
  | cons s rest ih =>
    have hd : ∀ i, (fun ω => (x ω - est ω) i) ∈ Submodule.span ℝ past := fun i => Submodule.sub_mem _ (hx i) (he i)
    have l2' : ∀ {m : ℕ} {u : Ω → Fin m → ℝ}, Fresh μ past u → ∀ g ∈ past ∪ comps u, MemLp g 2 μ := by
      rintro m u hu g (hg | hg)
      · exact h2 g hg
      · exact (hu g hg).1
    cases s with
    | move F Q w =>
      obtain ⟨hw, hQ, hr⟩ := hW
      have e : (fun ω => F *ᵥ x ω + w ω - F *ᵥ est ω) = fun ω => F *ᵥ (x ω - est ω) + (1 : Matrix (Fin n) (Fin n) ℝ) *ᵥ w ω := by
        funext ω; rw [mulVec_sub, one_mulVec]; abel
      obtain ⟨est', P', h, hc⟩ := ih _ (fun ω => F *ᵥ x ω + w ω) (fun ω => F *ᵥ est ω) (F * P * Fᵀ + Q) (l2' hw)
        (fun i => Submodule.add_mem _ (RunInv.mono_span (span_mulVec F hx i)) (RunInv.comps_span w i))
        (fun i => RunInv.mono_span (span_mulVec F he i))
        (by rw [e, sm_fresh h2 hd hw]; simpa using covLe_add (covLe_conj hP F) hQ) hr
      refine ⟨est', P', fun ω => ?_, hc⟩
      have := predict_R (est ω) P F Q (est ω) P
      simp [callsAlong, runFilter, FilterOp.exec, this, osimp, h]
    | sense m H R v =>
      obtain ⟨hv, hR, hr⟩ := hW
      obtain ⟨G, hG⟩ := update_any L P H R
      have e : (fun ω => x ω - (est ω + G *ᵥ (H *ᵥ x ω + v ω - H *ᵥ est ω)))
          = fun ω => (1 - G * H) *ᵥ (x ω - est ω) + (-G) *ᵥ v ω := by
        funext ω
        rw [show H *ᵥ x ω + v ω - H *ᵥ est ω = H *ᵥ (x ω - est ω) + v ω by rw [mulVec_sub]; abel,
          mulVec_add, mulVec_mulVec, sub_mulVec, one_mulVec, neg_mulVec]
        abel
      obtain ⟨est', P', h, hc⟩ := ih _ x (fun ω => est ω + G *ᵥ (H *ᵥ x ω + v ω - H *ᵥ est ω)) (joseph P H R G) (l2' hv)
        (fun i => RunInv.mono_span (hx i))
        (fun i => Submodule.add_mem _ (RunInv.mono_span (he i)) (span_mulVec G (a := fun ω => H *ᵥ x ω + v ω - H *ᵥ est ω)
          (fun j => Submodule.sub_mem _ (Submodule.add_mem _ (RunInv.mono_span (span_mulVec H hx j)) (RunInv.comps_span v j))
            (RunInv.mono_span (span_mulVec H he j))) i))
        (by
          rw [e, sm_fresh h2 hd hv]
          have := covLe_joseph hP hR H G
          simpa [joseph] using this) hr
      refine ⟨est', P', fun ω => ?_, hc⟩
      simp only [callsAlong, runFilter, FilterOp.exec, hG, osimp]
      simpa [osimp] using h ω

/-- C108. A filter with cautious settings is never overconfident. Any probability space, any number of states, any finite sequence of motions and
measurements: let the initial guess `x0` (possibly biased) have an error second moment at most `P0`, and let all noises be uncorrelated with the
past, with second moments at most what the filter is told. Then along every realisation all calls succeed, the covariance `P` does not depend on
the realisation, and the error of the estimate has a second moment of at most `P` in every direction. This holds whatever `inverse()` returns. -/
theorem C108_cautious_is_honest [IsFiniteMeasure μ] (L : LinSolver ℝ) (stages : List (Stage Ω n)) (x : Ω → Fin n → ℝ) (x0 : Fin n → ℝ)
    (P0 : Matrix (Fin n) (Fin n) ℝ) (h2 : ∀ f ∈ comps x, MemLp f 2 μ)
    (hcov : CovLe (secondMoment μ (fun ω => x ω - x0) (fun ω => x ω - x0)) P0)
    (hW : WhiteAtMost μ ({fun _ => 1} ∪ comps x) stages) :
    ∃ (est : Ω → Fin n → ℝ) (P : Matrix (Fin n) (Fin n) ℝ),
      (∀ ω, runFilter L (callsAlong stages x ω) (⟨n, x0⟩, ⟨n, n, P0⟩) = .ok (⟨n, est ω⟩, ⟨n, n, P⟩))
      ∧ CovLe (secondMoment μ (fun ω => worldAfter stages x ω - est ω) (fun ω => worldAfter stages x ω - est ω)) P := by
  refine cautious_run L stages ({fun _ => 1} ∪ comps x) x (fun _ => x0) P0 ?_ (fun i => Submodule.subset_span (Or.inr ⟨i, rfl⟩)) (fun i => ?_) hcov hW
  · rintro g (rfl | hg)
    · exact memLp_const 1
    · exact h2 g hg
  · have : (fun _ : Ω => x0 i) = x0 i • fun _ => (1 : ℝ) := by funext ω; simp
    rw [this]; exact Submodule.smul_mem _ _ (Submodule.subset_span (Or.inl rfl))

/-- non-vacuity: a biased first guess, and noises smaller than the filter is told -/
example :
    let x : Fin 4 → Fin 1 → ℝ := fun ω _ => ![5, 5, 1, 1] ω
    let v : Fin 4 → Fin 1 → ℝ := fun ω _ => ![1, -1, 1, -1] ω
    let w : Fin 4 → Fin 1 → ℝ := fun ω _ => ![3, -3, -3, 3] ω
    CovLe (secondMoment fair4 (fun ω => x ω - ![2]) (fun ω => x ω - ![2])) !![6]
      ∧ WhiteAtMost fair4 ({fun _ => 1} ∪ comps x) [.sense 1 !![2] !![4] v, .move !![1 / 2] !![10] w] := by
  intro x v w
  have le : ∀ a b : ℝ, a ≤ b → CovLe !![a] !![b] := by
    intro a b h
    refine ⟨by ext i j; fin_cases i; fin_cases j; rfl, fun v => ?_⟩
    simp [dotProduct, Matrix.mulVec]
    nlinarith [sq_nonneg (v 0), mul_nonneg (sub_nonneg.2 h) (sq_nonneg (v 0))]
  refine ⟨?_, ⟨?_, ?_, ⟨?_, ?_, trivial⟩⟩⟩
  · rw [show secondMoment fair4 (fun ω => x ω - ![2]) (fun ω => x ω - ![2]) = !![(5 : ℝ)] from ?_]
    · exact le _ _ (by norm_num)
    · ext i j; fin_cases i; fin_cases j; simp [secondMoment, corr, integral_fair4, x]; norm_num
  · rintro f ⟨i, rfl⟩
    refine ⟨l2_fair4 _, ?_⟩
    rintro g (rfl | ⟨j, rfl⟩) <;> simp [corr, integral_fair4, x, v]
  · rw [show secondMoment fair4 v v = !![(1 : ℝ)] from ?_]
    · exact le _ _ (by norm_num)
    · ext i j; fin_cases i; fin_cases j; simp [secondMoment, corr, integral_fair4, v]; norm_num
  · rintro f ⟨i, rfl⟩
    refine ⟨l2_fair4 _, ?_⟩
    rintro g ((rfl | ⟨j, rfl⟩) | ⟨j, rfl⟩) <;> simp [corr, integral_fair4, x, v, w]
  · rw [show secondMoment fair4 w w = !![(9 : ℝ)] from ?_]
    · exact le _ _ (by norm_num)
    · ext i j; fin_cases i; fin_cases j; simp [secondMoment, corr, integral_fair4, w]; norm_num

end NavFuse.Props
