import Verif.Props.Kalman
import Verif.Lemmas.Stochastic
import Mathlib.Probability.ProbabilityMassFunction.Integrals
import Mathlib.Probability.Distributions.Uniform

/-! # Property C96: whole runs of the linear Kalman filter in a noisy world -/

namespace NavFuse.Props
open Matrix Kalman Spec KA MeasureTheory

variable {Ω : Type} {n : ℕ}

/-- The calls a user makes along one realisation `ω` of the world: predict with the system's `F` and `Q`, update with the measurement made. -/
def callsAlong : List (Stage Ω n) → (Ω → Fin n → ℝ) → Ω → List (FilterOp n)
  | [], _, _ => []
  | .move F Q w :: rest, x, ω => .predict F Q :: callsAlong rest (fun ω => F *ᵥ x ω + w ω) ω
  | .sense m H R v :: rest, x, ω => .update m (H *ᵥ x ω + v ω) H R :: callsAlong rest x ω

variable [MeasurableSpace Ω] {μ : Measure Ω}

/-- (helper) the invariant carried along the run -/
structure RunInv (μ : Measure Ω) (past S : Set (Ω → ℝ)) (x est : Ω → Fin n → ℝ) (P : Matrix (Fin n) (Fin n) ℝ) : Prop where
  l2 : ∀ g ∈ past, MemLp g 2 μ
  obs : ∀ g ∈ S, g ∈ Submodule.span ℝ past
  state : ∀ i, (fun ω => x ω i) ∈ Submodule.span ℝ past
  aff : ∀ i, (fun ω => est ω i) ∈ Submodule.span ℝ S
  orth : ∀ i, ∀ g ∈ S, corr μ (fun ω => (x ω - est ω) i) g = 0
  cov : secondMoment μ (fun ω => x ω - est ω) (fun ω => x ω - est ω) = P

namespace RunInv
set_option linter.unusedSectionVars false
variable {past S : Set (Ω → ℝ)} {x est : Ω → Fin n → ℝ} {P : Matrix (Fin n) (Fin n) ℝ} (I : RunInv μ past S x est P)
include I

theorem l2S : ∀ g ∈ S, MemLp g 2 μ := fun g hg => l2_span I.l2 (I.obs g hg)
theorem l2x : L2V μ x := fun i => l2_span I.l2 (I.state i)
theorem l2est : L2V μ est := fun i => l2_span I.l2S (I.aff i)
theorem l2e : L2V μ fun ω => x ω - est ω := I.l2x.sub I.l2est
theorem psd : P.PosSemidef := isCov_iff.1 (I.cov ▸ sm_isCov I.l2e)

theorem est_past (i : Fin n) : (fun ω => est ω i) ∈ Submodule.span ℝ past :=
  Submodule.span_le.2 (fun g hg => I.obs g hg) (I.aff i)

theorem err_past (i : Fin n) : (fun ω => (x ω - est ω) i) ∈ Submodule.span ℝ past :=
  Submodule.sub_mem _ (I.state i) (I.est_past i)

/-- fresh noise is uncorrelated with anything built from the past -/
theorem fresh_span {m : ℕ} {u : Ω → Fin m → ℝ} (hu : Fresh μ past u) (i : Fin m) {g : Ω → ℝ} (hg : g ∈ Submodule.span ℝ past) :
    corr μ (fun ω => u ω i) g = 0 :=
  (corr_span (hu _ ⟨i, rfl⟩).1 I.l2 (fun g hg => (hu _ ⟨i, rfl⟩).2 g hg) hg).2

omit I in
theorem l2u {m : ℕ} {u : Ω → Fin m → ℝ} (hu : Fresh μ past u) : L2V μ u := fun i => (hu _ ⟨i, rfl⟩).1

theorem cross {m : ℕ} {u : Ω → Fin m → ℝ} (hu : Fresh μ past u) : secondMoment μ (fun ω => x ω - est ω) u = 0 :=
  sm_zero fun i j => by rw [corr_comm]; exact I.fresh_span hu j (I.err_past i)

theorem l2past' {m : ℕ} {u : Ω → Fin m → ℝ} (hu : Fresh μ past u) : ∀ g ∈ past ∪ comps u, MemLp g 2 μ := by
  rintro g (hg | hg)
  · exact I.l2 g hg
  · exact (hu g hg).1

omit I in
theorem mono_span {A B : Set (Ω → ℝ)} {g : Ω → ℝ} (hg : g ∈ Submodule.span ℝ A) : g ∈ Submodule.span ℝ (A ∪ B) :=
  Submodule.span_mono Set.subset_union_left hg

omit I in
theorem comps_span {m : ℕ} {A : Set (Ω → ℝ)} (u : Ω → Fin m → ℝ) (i : Fin m) : (fun ω => u ω i) ∈ Submodule.span ℝ (A ∪ comps u) :=
  Submodule.subset_span (Or.inr ⟨i, rfl⟩)

/-- second moment of a linear combination of error and fresh noise -/
theorem sm_lin {m k : ℕ} {u : Ω → Fin m → ℝ} (hu : Fresh μ past u) {W : Matrix (Fin m) (Fin m) ℝ} (hW : secondMoment μ u u = W)
    (A : Matrix (Fin k) (Fin n) ℝ) (B : Matrix (Fin k) (Fin m) ℝ) :
    secondMoment μ (fun ω => A *ᵥ (x ω - est ω) + B *ᵥ u ω) (fun ω => A *ᵥ (x ω - est ω) + B *ᵥ u ω) = A * P * Aᵀ + B * W * Bᵀ := by
  have he := I.l2e
  have hu2 := l2u hu
  have hA := he.mulVec A
  have hB := hu2.mulVec B
  have hue : secondMoment μ u (fun ω => x ω - est ω) = 0 := by rw [← sm_tr, I.cross hu, transpose_zero]
  rw [sm_add_left hA hB (hA.add hB), sm_add_right hA hA hB, sm_add_right hB hA hB, sm_mulVec_left A he hA, sm_mulVec_left A he hB,
    sm_mulVec_left B hu2 hA, sm_mulVec_left B hu2 hB, sm_mulVec_right A he he, sm_mulVec_right B he hu2, sm_mulVec_right A hu2 he,
    sm_mulVec_right B hu2 hu2, I.cross hu, hue, I.cov, hW]
  simp [Matrix.mul_assoc]

/-- such a combination is uncorrelated with everything observed so far -/
theorem orth_lin {m k : ℕ} {u : Ω → Fin m → ℝ} (hu : Fresh μ past u) (A : Matrix (Fin k) (Fin n) ℝ) (B : Matrix (Fin k) (Fin m) ℝ)
    (i : Fin k) {g : Ω → ℝ} (hg : g ∈ S) : corr μ (fun ω => (A *ᵥ (x ω - est ω) + B *ᵥ u ω) i) g = 0 := by
  have hgl := I.l2S g hg
  have h1 := corr_span (μ := μ) (f := g) (S := comps (fun ω => x ω - est ω) ∪ comps u) (g := fun ω => (A *ᵥ (x ω - est ω) + B *ᵥ u ω) i)
    hgl (by rintro _ (⟨j, rfl⟩ | ⟨j, rfl⟩); exacts [I.l2e j, l2u hu j])
    (by
      rintro _ (⟨j, rfl⟩ | ⟨j, rfl⟩) <;> rw [corr_comm]
      exacts [I.orth j g hg, I.fresh_span hu j (I.obs g hg)])
    (Submodule.add_mem _ (span_mulVec A (fun j => Submodule.subset_span (Or.inl ⟨j, rfl⟩)) i)
      (span_mulVec B (fun j => Submodule.subset_span (Or.inr ⟨j, rfl⟩)) i))
  rw [corr_comm]; exact h1.2

theorem move {F Q : Matrix (Fin n) (Fin n) ℝ} {w : Ω → Fin n → ℝ} (hw : Fresh μ past w) (hQ : secondMoment μ w w = Q) :
    RunInv μ (past ∪ comps w) S (fun ω => F *ᵥ x ω + w ω) (fun ω => F *ᵥ est ω) (F * P * Fᵀ + Q) := by
  have e : (fun ω => F *ᵥ x ω + w ω - F *ᵥ est ω) = fun ω => F *ᵥ (x ω - est ω) + (1 : Matrix (Fin n) (Fin n) ℝ) *ᵥ w ω := by
    funext ω; rw [mulVec_sub, one_mulVec]; abel
  refine ⟨I.l2past' hw, fun g hg => mono_span (I.obs g hg), fun i => ?_, fun i => span_mulVec F I.aff i, fun i g hg => ?_, ?_⟩
  · exact Submodule.add_mem _ (mono_span (span_mulVec F I.state i)) (comps_span w i)
  · have := I.orth_lin hw F 1 i hg
    rwa [← congrArg (fun (f : Ω → Fin n → ℝ) ω => f ω i) e] at this
  · rw [e, I.sm_lin hw hQ]; simp

theorem sense {m : ℕ} {H : Matrix (Fin m) (Fin n) ℝ} {R : Matrix (Fin m) (Fin m) ℝ} {v : Ω → Fin m → ℝ} (hv : Fresh μ past v)
    (hR : secondMoment μ v v = R) (hRp : R.PosDef) :
    RunInv μ (past ∪ comps v) (S ∪ comps fun ω => H *ᵥ x ω + v ω) x (fun ω => est ω + gain P H R *ᵥ (H *ᵥ x ω + v ω - H *ᵥ est ω))
      (joseph P H R (gain P H R)) := by
  set K := gain P H R with hK
  have hz : ∀ i, (fun ω => (H *ᵥ x ω + v ω) i) ∈ Submodule.span ℝ (S ∪ comps fun ω => H *ᵥ x ω + v ω) :=
    comps_span (A := S) fun ω => H *ᵥ x ω + v ω
  have e : (fun ω => x ω - (est ω + K *ᵥ (H *ᵥ x ω + v ω - H *ᵥ est ω)))
      = fun ω => (1 - K * H) *ᵥ (x ω - est ω) + (-K) *ᵥ v ω := by
    funext ω
    rw [show H *ᵥ x ω + v ω - H *ᵥ est ω = H *ᵥ (x ω - est ω) + v ω by rw [mulVec_sub]; abel,
      mulVec_add, mulVec_mulVec, sub_mulVec, one_mulVec, neg_mulVec]
    abel
  have hS := innov_pd I.psd H hRp
  refine ⟨I.l2past' hv, ?_, fun i => mono_span (I.state i), fun i => ?_, fun i g hg => ?_, ?_⟩
  · rintro g (hg | ⟨i, rfl⟩)
    · exact mono_span (I.obs g hg)
    · exact Submodule.add_mem _ (mono_span (span_mulVec H I.state i)) (comps_span v i)
  · refine Submodule.add_mem _ (mono_span (I.aff i)) (span_mulVec K (a := fun ω => H *ᵥ x ω + v ω - H *ᵥ est ω) (fun j => ?_) i)
    exact Submodule.sub_mem _ (hz j) (mono_span (span_mulVec H I.aff j))
  · have ho : ∀ g ∈ S, corr μ (fun ω => ((1 - K * H : Matrix (Fin n) (Fin n) ℝ) *ᵥ (x ω - est ω) + (-K) *ᵥ v ω) i) g = 0 := fun g hg => I.orth_lin hv _ _ i hg
    have he2 : L2V μ fun ω => (1 - K * H) *ᵥ (x ω - est ω) + (-K) *ᵥ v ω := (I.l2e.mulVec _).add ((l2u hv).mulVec _)
    rw [congrArg (fun (f : Ω → Fin n → ℝ) ω => f ω i) e]
    rcases hg with hg | ⟨j, rfl⟩
    · exact ho g hg
    · have hd : (fun ω => (H *ᵥ x ω + v ω) j) = (fun ω => (H *ᵥ est ω) j) + fun ω => (H *ᵥ (x ω - est ω) + v ω) j := by
        funext ω; simp only [mulVec_sub, Pi.add_apply, Pi.sub_apply]; ring
      have h1 := corr_span (he2 i) I.l2S ho (span_mulVec H I.aff j)
      have h2 : secondMoment μ (fun ω => (1 - K * H) *ᵥ (x ω - est ω) + (-K) *ᵥ v ω) (fun ω => H *ᵥ (x ω - est ω) + v ω) = 0 := by
        have hA := I.l2e.mulVec (1 - K * H)
        have hB := (l2u hv).mulVec (-K)
        have hH := I.l2e.mulVec H
        have hue : secondMoment μ v (fun ω => x ω - est ω) = 0 := by rw [← sm_tr, I.cross hv, transpose_zero]
        rw [sm_add_left hA hB (hH.add (l2u hv)), sm_add_right hA hH (l2u hv), sm_add_right hB hH (l2u hv), sm_mulVec_left _ I.l2e hH,
          sm_mulVec_left _ I.l2e (l2u hv), sm_mulVec_left _ (l2u hv) hH, sm_mulVec_left _ (l2u hv) (l2u hv), sm_mulVec_right _ I.l2e I.l2e,
          sm_mulVec_right _ (l2u hv) I.l2e, I.cross hv, hue, I.cov, hR]
        have := gain_mul_innov (pd_det hS)
        rw [innov, ← hK, Matrix.mul_add] at this
        simp only [Matrix.mul_zero, Matrix.zero_mul, add_zero, zero_add, Matrix.sub_mul, Matrix.one_mul, Matrix.neg_mul]
        have h5 : P * Hᵀ - K * (H * P * Hᵀ) - K * R = 0 := by rw [← this]; abel
        rw [← h5]; simp only [Matrix.mul_assoc]; abel
      have h3 := corr_of_sm h2 i j
      have h4 := integral_add (corr_int (he2 i) h1.1) (corr_int (he2 i) ((I.l2e.mulVec H).add (l2u hv) j))
      change corr μ _ (fun ω => (H *ᵥ x ω + v ω) j) = 0
      rw [hd]
      simp only [corr, Pi.add_apply, mul_add] at h1 h3 h4 ⊢
      rw [h4, h1.2]; simpa [corr] using h3
  · rw [e, I.sm_lin hv hR, joseph]; simp

/-- an estimate uncorrelated with the observations is at least as good as any affine function of them -/
theorem best {ψ : Ω → Fin n → ℝ} (hψ : AffineIn S ψ) : CovLe P (secondMoment μ (fun ω => x ω - ψ ω) (fun ω => x ω - ψ ω)) := by
  have hψ2 : L2V μ ψ := fun i => l2_span I.l2S (hψ _ ⟨i, rfl⟩)
  have hd2 : L2V μ fun ω => est ω - ψ ω := I.l2est.sub hψ2
  have e : (fun ω => x ω - ψ ω) = fun ω => (x ω - est ω) + (est ω - ψ ω) := by funext ω; abel
  have h0 : secondMoment μ (fun ω => x ω - est ω) (fun ω => est ω - ψ ω) = 0 :=
    sm_zero fun i j => (corr_span (I.l2e i) I.l2S (I.orth i) (Submodule.sub_mem _ (I.aff j) (hψ _ ⟨j, rfl⟩))).2
  have h0' : secondMoment μ (fun ω => est ω - ψ ω) (fun ω => x ω - est ω) = 0 := by rw [← sm_tr, h0, transpose_zero]
  rw [e, sm_add_left I.l2e hd2 (I.l2e.add hd2), sm_add_right I.l2e I.l2e hd2, sm_add_right hd2 I.l2e hd2, h0, h0', I.cov, covLe_iff]
  have := isCov_iff.1 (sm_isCov hd2)
  simpa using this

end RunInv

/-- (helper) the run from any intermediate point -/
theorem run_inv {L : LinSolver ℝ} (hL : L.Correct) (stages : List (Stage Ω n)) (past S : Set (Ω → ℝ)) (x est : Ω → Fin n → ℝ)
    (P : Matrix (Fin n) (Fin n) ℝ) (I : RunInv μ past S x est P) (hW : White μ past stages) :
    ∃ (past' S' : Set (Ω → ℝ)) (est' : Ω → Fin n → ℝ) (P' : Matrix (Fin n) (Fin n) ℝ),
      (∀ ω, runFilter L (callsAlong stages x ω) (⟨n, est ω⟩, ⟨n, n, P⟩) = .ok (⟨n, est' ω⟩, ⟨n, n, P'⟩))
      ∧ RunInv μ past' S' (worldAfter stages x) est' P' ∧ S ⊆ S' ∧ S' ∪ {fun _ => 1} = S ∪ observed stages x := by
  induction stages generalizing past S x est P with
  | nil => exact ⟨past, S, est, P, fun ω => rfl, I, subset_rfl, rfl⟩
  | cons s rest ih =>
    cases s with
    | move F Q w =>
      obtain ⟨hw, hQ, hr⟩ := hW
      obtain ⟨past', S', est', P', h, I', hs, ho⟩ := ih _ S _ _ _ (I.move hw hQ) hr
      refine ⟨past', S', est', P', fun ω => ?_, I', hs, ho⟩
      have := predict_R (est ω) P F Q (est ω) P
      simp [callsAlong, runFilter, FilterOp.exec, this, osimp, h]
    | sense m H R v =>
      obtain ⟨hv, hR, hRp, hr⟩ := hW
      rw [isPosCov_iff] at hRp
      obtain ⟨past', S', est', P', h, I', hs, ho⟩ := ih _ _ _ _ _ (I.sense (H := H) hv hR hRp) hr
      refine ⟨past', S', est', P', fun ω => ?_, I', fun g hg => hs (Or.inl hg), ?_⟩
      · have := update_R hL (est ω) I.psd (H *ᵥ x ω + v ω) H hRp (est ω) P
        simp [callsAlong, runFilter, FilterOp.exec, this, osimp, h]
      · rw [ho, observed, Set.union_assoc]

/-- C96. A run of the filter in a noisy world, on any probability space, for every number of states and every finite sequence of motions and
measurements (of any sizes, time-varying `F`, `Q`, `H`, `R`). Start from a guess `x0` of the random initial state `x`, right on average, with
error second moment `P0`; let all noises be white with the second moments the filter is told. Then along every realisation all calls succeed;
the final covariance does not depend on the realisation; it is exactly the second moment of the error of the final estimate; and no estimator
affine in the measurements, however chosen, has a smaller error second moment in any direction. -/
theorem C96_run_consistent_and_optimal [IsProbabilityMeasure μ] {L : LinSolver ℝ} (hL : L.Correct) (stages : List (Stage Ω n))
    (x : Ω → Fin n → ℝ) (x0 : Fin n → ℝ) (P0 : Matrix (Fin n) (Fin n) ℝ)
    (h2 : ∀ f ∈ comps x, MemLp f 2 μ) (hmean : ∀ i, ∫ ω, x ω i ∂μ = x0 i)
    (hcov : secondMoment μ (fun ω => x ω - x0) (fun ω => x ω - x0) = P0)
    (hW : White μ ({fun _ => 1} ∪ comps x) stages) :
    ∃ (est : Ω → Fin n → ℝ) (P : Matrix (Fin n) (Fin n) ℝ),
      (∀ ω, runFilter L (callsAlong stages x ω) (⟨n, x0⟩, ⟨n, n, P0⟩) = .ok (⟨n, est ω⟩, ⟨n, n, P⟩))
      ∧ AffineIn (observed stages x) est
      ∧ secondMoment μ (fun ω => worldAfter stages x ω - est ω) (fun ω => worldAfter stages x ω - est ω) = P
      ∧ ∀ ψ : Ω → Fin n → ℝ, AffineIn (observed stages x) ψ →
          CovLe P (secondMoment μ (fun ω => worldAfter stages x ω - ψ ω) (fun ω => worldAfter stages x ω - ψ ω)) := by
  have hobs1 : ∀ (l : List (Stage Ω n)) y, (fun _ => 1) ∈ observed l y := by
    intro l
    induction l with
    | nil => intro y; exact rfl
    | cons s l ih => intro y; cases s with
      | move F Q w => exact ih _
      | sense m H R v => exact Or.inr (ih _)
  have h1 : MemLp (fun _ : Ω => (1 : ℝ)) 2 μ := memLp_const 1
  have I : RunInv μ ({fun _ => 1} ∪ comps x) {fun _ => 1} x (fun _ => x0) P0 := by
    refine ⟨?_, fun g hg => Submodule.subset_span (Or.inl hg), fun i => Submodule.subset_span (Or.inr ⟨i, rfl⟩), fun i => ?_, ?_, hcov⟩
    · rintro g (rfl | hg)
      · exact h1
      · exact h2 g hg
    · have : (fun _ : Ω => x0 i) = x0 i • fun _ => (1 : ℝ) := by funext ω; simp
      rw [this]; exact Submodule.smul_mem _ _ (Submodule.subset_span rfl)
    · rintro i g rfl
      have hi : Integrable (fun ω => x ω i) μ := (h2 _ ⟨i, rfl⟩).integrable (by norm_num)
      simp only [corr, mul_one, Pi.sub_apply]
      rw [integral_sub hi (integrable_const _), hmean i]; simp
  obtain ⟨past', S', est, P, h, I', hs, ho⟩ := run_inv hL stages _ _ x _ P0 I hW
  have hS' : S' = observed stages x := by
    have e1 : S' ∪ {fun _ => 1} = S' := Set.union_eq_left.2 hs
    have e2 : {fun _ => 1} ∪ observed stages x = observed stages x :=
      Set.union_eq_right.2 (Set.singleton_subset_iff.2 (hobs1 stages x))
    rw [← e1, ho, e2]
  subst hS'
  exact ⟨est, P, h, by rintro f ⟨i, rfl⟩; exact I'.aff i, I'.cov, fun ψ hψ => I'.best hψ⟩

/-- the hypotheses of C96 are met: four equally likely outcomes carry an initial error, a measurement noise and a process noise, pairwise
uncorrelated -/
noncomputable def fair4 : Measure (Fin 4) := (PMF.uniformOfFintype (Fin 4)).toMeasure

instance : IsProbabilityMeasure fair4 := by unfold fair4; infer_instance

theorem integral_fair4 (f : Fin 4 → ℝ) : ∫ ω, f ω ∂fair4 = (f 0 + f 1 + f 2 + f 3) / 4 := by
  rw [fair4, PMF.integral_eq_sum]; simp [Fin.sum_univ_four]; ring

theorem l2_fair4 (f : Fin 4 → ℝ) : MemLp f 2 fair4 := MemLp.of_discrete

example :
    let x : Fin 4 → Fin 1 → ℝ := fun ω _ => ![5, 5, 1, 1] ω
    let v : Fin 4 → Fin 1 → ℝ := fun ω _ => ![1, -1, 1, -1] ω
    let w : Fin 4 → Fin 1 → ℝ := fun ω _ => ![3, -3, -3, 3] ω
    (∀ f ∈ comps x, MemLp f 2 fair4) ∧ (∀ i, ∫ ω, x ω i ∂fair4 = ![3] i)
      ∧ secondMoment fair4 (fun ω => x ω - ![3]) (fun ω => x ω - ![3]) = !![4]
      ∧ White fair4 ({fun _ => 1} ∪ comps x) [.sense 1 !![2] !![1] v, .move !![1 / 2] !![9] w] := by
  intro x v w
  refine ⟨fun f _ => l2_fair4 f, ?_, ?_, ⟨?_, ?_, ?_, ⟨?_, ?_, trivial⟩⟩⟩
  · intro i; rw [integral_fair4]; fin_cases i; simp [x]; norm_num
  · ext i j; fin_cases i; fin_cases j; simp [secondMoment, corr, integral_fair4, x]; norm_num
  · rintro f ⟨i, rfl⟩
    refine ⟨l2_fair4 _, ?_⟩
    rintro g (rfl | ⟨j, rfl⟩) <;> simp [corr, integral_fair4, x, v]
  · ext i j; fin_cases i; fin_cases j; simp [secondMoment, corr, integral_fair4, v]; norm_num
  · have := diag_isPosCov ![(1 : ℝ)] (by intro i; fin_cases i; norm_num)
    convert this using 1; ext i j; fin_cases i; fin_cases j; simp
  · rintro f ⟨i, rfl⟩
    refine ⟨l2_fair4 _, ?_⟩
    rintro g ((rfl | ⟨j, rfl⟩) | ⟨j, rfl⟩) <;> simp [corr, integral_fair4, x, v, w]
  · ext i j; fin_cases i; fin_cases j; simp [secondMoment, corr, integral_fair4, w]; norm_num

end NavFuse.Props
