import Verif.Props.KalmanRun

/-! # Property C109: the innovations of a whole run are white -/

namespace NavFuse.Props
open Matrix Kalman Spec KA MeasureTheory

variable {Ω : Type} [MeasurableSpace Ω] {μ : Measure Ω} {n : ℕ}

theorem runFilter_append (L : LinSolver ℝ) (a b : List (FilterOp n)) (s t : DVec ℝ × DMat ℝ) (h : runFilter L a s = .ok t) :
    runFilter L (a ++ b) s = runFilter L b t := by
  induction a generalizing s with
  | nil => cases h; rfl
  | cons o os ih =>
    simp only [runFilter] at h
    cases hs : o.exec L s with
    | error e => rw [hs] at h; simp [osimp] at h
    | ok s' =>
      rw [hs] at h
      simp only [osimp] at h
      simp only [List.cons_append, runFilter, hs, osimp]
      exact ih s' h

/-- (helper) at the next measurement, from an intermediate point of the run: the innovation has the covariance the filter computes and is
uncorrelated with everything observed before that point -/
theorem innov_next {L : LinSolver ℝ} (hL : L.Correct) (pre : List (Stage Ω n)) {m : ℕ} (H : Matrix (Fin m) (Fin n) ℝ) (R : Matrix (Fin m) (Fin m) ℝ)
    (v : Ω → Fin m → ℝ) (post : List (Stage Ω n)) (past S : Set (Ω → ℝ)) (x est : Ω → Fin n → ℝ)
    (P : Matrix (Fin n) (Fin n) ℝ) (I : RunInv μ past S x est P) (hW : White μ past (pre ++ .sense m H R v :: post)) :
    ∃ (past' S' : Set (Ω → ℝ)) (est' : Ω → Fin n → ℝ) (P' : Matrix (Fin n) (Fin n) ℝ),
      (∀ ω, runFilter L (callsAlong pre x ω) (⟨n, est ω⟩, ⟨n, n, P⟩) = .ok (⟨n, est' ω⟩, ⟨n, n, P'⟩))
      ∧ RunInv μ past' S' (worldAfter pre x) est' P' ∧ S ⊆ S' ∧ White μ past' (.sense m H R v :: post) := by
  induction pre generalizing past S x est P with
  | nil => exact ⟨past, S, est, P, fun ω => rfl, I, subset_rfl, hW⟩
  | cons s rest ih =>
    cases s with
    | move F Q w =>
      obtain ⟨hw, hQ, hr⟩ := hW
      obtain ⟨past', S', est', P', h, I', hs, ho⟩ := ih _ S _ _ _ (I.move hw hQ) hr
      refine ⟨past', S', est', P', fun ω => ?_, I', hs, ho⟩
      have := predict_R (est ω) P F Q (est ω) P
      simp [callsAlong, runFilter, FilterOp.exec, this, osimp, h]
    | sense m1 H1 R1 v1 =>
      obtain ⟨hv, hR, hRp, hr⟩ := hW
      rw [isPosCov_iff] at hRp
      obtain ⟨past', S', est', P', h, I', hs, ho⟩ := ih _ _ _ _ _ (I.sense (H := H1) hv hR hRp) hr
      refine ⟨past', S', est', P', fun ω => ?_, I', fun g hg => hs (Or.inl hg), ho⟩
      have := update_R hL (est ω) I.psd (H1 *ᵥ x ω + v1 ω) H1 hRp (est ω) P
      simp [callsAlong, runFilter, FilterOp.exec, this, osimp, h]

theorem callsAlong_append (a b : List (Stage Ω n)) (x : Ω → Fin n → ℝ) (ω : Ω) :
    callsAlong (a ++ b) x ω = callsAlong a x ω ++ callsAlong b (worldAfter a x) ω := by
  induction a generalizing x with
  | nil => rfl
  | cons s rest ih => cases s <;> simp [callsAlong, worldAfter, ih]

theorem worldAfter_append (a b : List (Stage Ω n)) (x : Ω → Fin n → ℝ) : worldAfter (a ++ b) x = worldAfter b (worldAfter a x) := by
  induction a generalizing x with
  | nil => rfl
  | cons s rest ih => cases s <;> simp [worldAfter, ih]

/-- C109. Under the assumptions of C96, take any two measurements of the run. The difference between what is measured and what the filter
expected has mean zero and exactly the covariance `H P Hᵀ + R` the filter computes, and the differences at the two measurements are
uncorrelated. -/
theorem C109_innovations_white [IsProbabilityMeasure μ] {L : LinSolver ℝ} (hL : L.Correct) (pre mid post : List (Stage Ω n))
    {m m' : ℕ} (H : Matrix (Fin m) (Fin n) ℝ) (R : Matrix (Fin m) (Fin m) ℝ) (v : Ω → Fin m → ℝ)
    (H' : Matrix (Fin m') (Fin n) ℝ) (R' : Matrix (Fin m') (Fin m') ℝ) (v' : Ω → Fin m' → ℝ)
    (x : Ω → Fin n → ℝ) (x0 : Fin n → ℝ) (P0 : Matrix (Fin n) (Fin n) ℝ)
    (h2 : ∀ f ∈ comps x, MemLp f 2 μ) (hmean : ∀ i, ∫ ω, x ω i ∂μ = x0 i)
    (hcov : secondMoment μ (fun ω => x ω - x0) (fun ω => x ω - x0) = P0)
    (hW : White μ ({fun _ => 1} ∪ comps x) (pre ++ .sense m H R v :: (mid ++ .sense m' H' R' v' :: post))) :
    ∃ (est est' : Ω → Fin n → ℝ) (P P' : Matrix (Fin n) (Fin n) ℝ),
      (∀ ω, runFilter L (callsAlong pre x ω) (⟨n, x0⟩, ⟨n, n, P0⟩) = .ok (⟨n, est ω⟩, ⟨n, n, P⟩))
      ∧ (∀ ω, runFilter L (callsAlong (pre ++ .sense m H R v :: mid) x ω) (⟨n, x0⟩, ⟨n, n, P0⟩) = .ok (⟨n, est' ω⟩, ⟨n, n, P'⟩))
      ∧ (let ν := fun ω => H *ᵥ worldAfter pre x ω + v ω - H *ᵥ est ω
         let ν' := fun ω => H' *ᵥ worldAfter (pre ++ .sense m H R v :: mid) x ω + v' ω - H' *ᵥ est' ω
         (∀ i, ∫ ω, ν ω i ∂μ = 0) ∧ (∀ i, ∫ ω, ν' ω i ∂μ = 0)
          ∧ secondMoment μ ν ν = H * P * Hᵀ + R ∧ secondMoment μ ν' ν' = H' * P' * H'ᵀ + R' ∧ secondMoment μ ν' ν = 0) := by
  have I : RunInv μ ({fun _ => 1} ∪ comps x) {fun _ => 1} x (fun _ => x0) P0 := by
    refine ⟨?_, fun g hg => Submodule.subset_span (Or.inl hg), fun i => Submodule.subset_span (Or.inr ⟨i, rfl⟩), fun i => ?_, ?_, hcov⟩
    · rintro g (rfl | hg)
      · exact memLp_const 1
      · exact h2 g hg
    · have : (fun _ : Ω => x0 i) = x0 i • fun _ => (1 : ℝ) := by funext ω; simp
      rw [this]; exact Submodule.smul_mem _ _ (Submodule.subset_span rfl)
    · rintro i g rfl
      have hi : Integrable (fun ω => x ω i) μ := (h2 _ ⟨i, rfl⟩).integrable (by norm_num)
      simp only [corr, mul_one, Pi.sub_apply]
      rw [integral_sub hi (integrable_const _), hmean i]; simp
  obtain ⟨past1, S1, est, P, r1, I1, s1, W1⟩ := innov_next hL pre H R v _ _ _ x _ P0 I hW
  obtain ⟨hv, hR, hRp, W2⟩ := W1
  have hRpd := isPosCov_iff.1 hRp
  obtain ⟨past3, S3, est', P', r3, I3, s3, W3⟩ := innov_next hL mid H' R' v' post _ _ _ _ _ (I1.sense (H := H) hv hR hRpd) W2
  obtain ⟨hv', hR', -, -⟩ := W3
  have w1 : (fun _ : Ω => (1 : ℝ)) ∈ S1 := s1 rfl
  have w3 : (fun _ : Ω => (1 : ℝ)) ∈ S3 := s3 (Or.inl w1)
  have e1 : (fun ω => H *ᵥ worldAfter pre x ω + v ω - H *ᵥ est ω)
      = fun ω => H *ᵥ (worldAfter pre x ω - est ω) + (1 : Matrix (Fin m) (Fin m) ℝ) *ᵥ v ω := by
    funext ω; rw [mulVec_sub, one_mulVec]; abel
  have ew : worldAfter (pre ++ .sense m H R v :: mid) x = worldAfter mid (worldAfter pre x) := by rw [worldAfter_append]; rfl
  have e3 : (fun ω => H' *ᵥ worldAfter (pre ++ .sense m H R v :: mid) x ω + v' ω - H' *ᵥ est' ω)
      = fun ω => H' *ᵥ (worldAfter mid (worldAfter pre x) ω - est' ω) + (1 : Matrix (Fin m') (Fin m') ℝ) *ᵥ v' ω := by
    funext ω; rw [mulVec_sub, one_mulVec, ew]; abel
  have sub3 : ∀ g, g ∈ Submodule.span ℝ (S1 ∪ comps fun ω => H *ᵥ worldAfter pre x ω + v ω) → g ∈ Submodule.span ℝ S3 :=
    fun g hg => Submodule.span_mono s3 hg
  refine ⟨est, est', P, P', r1, fun ω => ?_, ?_⟩
  · rw [callsAlong_append, runFilter_append _ _ _ _ _ (r1 ω)]
    have := update_R hL (est ω) I1.psd (H *ᵥ worldAfter pre x ω + v ω) H hRpd (est ω) P
    simp [callsAlong, runFilter, FilterOp.exec, this, osimp, r3 ω]
  · intro ν ν'
    refine ⟨fun i => ?_, fun i => ?_, ?_, ?_, ?_⟩
    · have := I1.orth_lin hv H 1 i w1
      rw [corr_comm] at this
      simp only [corr, one_mul] at this
      rw [show ν = _ from e1]; exact this
    · have := I3.orth_lin hv' H' 1 i w3
      rw [corr_comm] at this
      simp only [corr, one_mul] at this
      rw [show ν' = _ from e3]; exact this
    · rw [show ν = _ from e1, I1.sm_lin hv hR]; simp
    · rw [show ν' = _ from e3, I3.sm_lin hv' hR']; simp
    · rw [show ν' = _ from e3]
      refine sm_zero fun i j => ?_
      have hν : (fun ω => ν ω j) ∈ Submodule.span ℝ S3 := by
        refine sub3 _ (Submodule.sub_mem _ (RunInv.comps_span (A := S1) (fun ω => H *ᵥ worldAfter pre x ω + v ω) j)
          (RunInv.mono_span (span_mulVec H I1.aff j)))
      have hl : L2V μ fun ω => H' *ᵥ (worldAfter mid (worldAfter pre x) ω - est' ω) + (1 : Matrix (Fin m') (Fin m') ℝ) *ᵥ v' ω :=
        (I3.l2e.mulVec _).add ((RunInv.l2u hv').mulVec _)
      exact (corr_span (hl i) I3.l2S (fun g hg => I3.orth_lin hv' H' 1 i hg) hν).2

/-- non-vacuity: two measurements of a constant, with uncorrelated noises, on four equally likely outcomes -/
example :
    let x : Fin 4 → Fin 1 → ℝ := fun ω _ => ![5, 5, 1, 1] ω
    let v : Fin 4 → Fin 1 → ℝ := fun ω _ => ![1, -1, 1, -1] ω
    let v' : Fin 4 → Fin 1 → ℝ := fun ω _ => ![3, -3, -3, 3] ω
    (∀ i, ∫ ω, x ω i ∂fair4 = ![3] i) ∧ secondMoment fair4 (fun ω => x ω - ![3]) (fun ω => x ω - ![3]) = !![4]
      ∧ White fair4 ({fun _ => 1} ∪ comps x) ([] ++ .sense 1 !![2] !![1] v :: ([] ++ .sense 1 !![1] !![9] v' :: [])) := by
  intro x v v'
  have pos : ∀ a : ℝ, 0 < a → IsPosCov !![a] := by
    intro a ha
    have := diag_isPosCov ![a] (by intro i; fin_cases i; simpa using ha)
    convert this using 1; ext i j; fin_cases i; fin_cases j; simp
  refine ⟨?_, ?_, ⟨?_, ?_, pos _ (by norm_num), ⟨?_, ?_, pos _ (by norm_num), trivial⟩⟩⟩
  · intro i; rw [integral_fair4]; fin_cases i; simp [x]; norm_num
  · ext i j; fin_cases i; fin_cases j; simp [secondMoment, corr, integral_fair4, x]; norm_num
  · rintro f ⟨i, rfl⟩
    refine ⟨l2_fair4 _, ?_⟩
    rintro g (rfl | ⟨j, rfl⟩) <;> simp [corr, integral_fair4, x, v]
  · ext i j; fin_cases i; fin_cases j; simp [secondMoment, corr, integral_fair4, v]; norm_num
  · rintro f ⟨i, rfl⟩
    refine ⟨l2_fair4 _, ?_⟩
    rintro g ((rfl | ⟨j, rfl⟩) | ⟨j, rfl⟩) <;> simp [corr, integral_fair4, x, v, v']
  · ext i j; fin_cases i; fin_cases j; simp [secondMoment, corr, integral_fair4, v']; norm_num

end NavFuse.Props
