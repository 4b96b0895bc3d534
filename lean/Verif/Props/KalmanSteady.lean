import Verif.Lemmas.Riccati

/-! # Property C133: with constant models the covariance settles -/

set_option linter.unusedSectionVars false

namespace NavFuse.Props
open Matrix Kalman Spec KA Filter Topology

variable {n m : ℕ} {q b : ℝ} {F Q : Matrix (Fin n) (Fin n) ℝ} {H : Matrix (Fin m) (Fin n) ℝ} {R : Matrix (Fin m) (Fin m) ℝ}

/-- some estimator with a constant gain `G`, started with the uncertainty `M`, never becomes more uncertain than `M` -/
def Keeps (F Q : Matrix (Fin n) (Fin n) ℝ) (H : Matrix (Fin m) (Fin n) ℝ) (R : Matrix (Fin m) (Fin m) ℝ) (G : Matrix (Fin n) (Fin m) ℝ)
    (M : Matrix (Fin n) (Fin n) ℝ) : Prop :=
  CovLe (F * ((1 - G * H) * M * (1 - G * H)ᵀ + G * R * Gᵀ) * Fᵀ + Q) M

/-- C133 (growth). Started from perfect knowledge, the covariance after `k` cycles does not depend on the measurements and never decreases from cycle to cycle; and it stays
below every `M` that some constant-gain estimator keeps, as does the covariance of a run started from any covariance below `M`. -/
theorem C133_grows {L : LinSolver ℝ} (hL : L.Correct) (hQ : IsCov Q) (hR : IsPosCov R) :
    ∃ P : ℕ → Matrix (Fin n) (Fin n) ℝ, P 0 = 0 ∧ (∀ k, IsCov (P k)) ∧ (∀ k, CovLe (P k) (P (k + 1)))
      ∧ (∀ zs x, ∃ x', runFilter L (cycles F Q H R zs) (⟨n, x⟩, ⟨n, n, 0⟩) = .ok (⟨n, x'⟩, ⟨n, n, P zs.length⟩))
      ∧ ∀ M G, IsCov M → Keeps F Q H R G M → (∀ k, CovLe (P k) M)
        ∧ ∀ P0, IsCov P0 → CovLe P0 M → ∀ zs x, ∃ x' Y, runFilter L (cycles F Q H R zs) (⟨n, x⟩, ⟨n, n, P0⟩) = .ok (⟨n, x'⟩, ⟨n, n, Y⟩) ∧ CovLe Y M := by
  refine ⟨fun k => (ric F Q H R)^[k] 0, rfl, iter_isCov hQ hR zero_isCov, fun k => iter_incr hQ hR k.le_succ, fun zs x => run_cycles hL hQ hR zs x zero_isCov,
    fun M G hM hG => ⟨iter_le hQ hR hM hG zero_isCov (covLe_zero hM), fun P0 hP0 h zs x => ?_⟩⟩
  obtain ⟨x', e⟩ := run_cycles (F := F) (H := H) hL hQ hR zs x hP0
  exact ⟨x', _, e, iter_le hQ hR hM hG hP0 h _⟩

/-- C133. If every prediction adds at least the variance `q > 0` in every direction, and some constant-gain estimator keeps an uncertainty `M` of at most `b` in every direction,
then there is exactly one covariance that a cycle leaves unchanged. From every initial covariance, with whatever measurements, the reported covariance approaches it at least as
fast as `(1 - q/b)^k`. -/
theorem C133_settles {L : LinSolver ℝ} (hL : L.Correct) (hQc : IsCov Q) (hR : IsPosCov R) (hq : 0 < q) (hqb : q ≤ b) (hQ : ∀ v, q * (v ⬝ᵥ v) ≤ quad Q v)
    {M : Matrix (Fin n) (Fin n) ℝ} (hM : IsCov M) (hMb : ∀ v, quad M v ≤ b * (v ⬝ᵥ v)) {G : Matrix (Fin n) (Fin m) ℝ} (hG : Keeps F Q H R G M) :
    ∃ P : Matrix (Fin n) (Fin n) ℝ, IsCov P ∧ CovLe P M
      ∧ (∀ z x, ∃ x', runFilter L (cycle F Q H R z) (⟨n, x⟩, ⟨n, n, P⟩) = .ok (⟨n, x'⟩, ⟨n, n, P⟩))
      ∧ (∀ P', IsCov P' → (∀ z x, ∃ x', runFilter L (cycle F Q H R z) (⟨n, x⟩, ⟨n, n, P'⟩) = .ok (⟨n, x'⟩, ⟨n, n, P'⟩)) → P' = P)
      ∧ ∀ P0, IsCov P0 → ∀ c, 0 ≤ c → (∀ v, quad P0 (Fᵀ *ᵥ v) ≤ c * (q * (v ⬝ᵥ v))) → ∀ z zs x,
        ∃ x' Y, runFilter L (cycles F Q H R (z :: zs)) (⟨n, x⟩, ⟨n, n, P0⟩) = .ok (⟨n, x'⟩, ⟨n, n, Y⟩)
          ∧ ∀ v, |quad Y v - quad P v| ≤ max c (b / q) * b * (1 - q / b) ^ zs.length * (v ⬝ᵥ v) := by
  have hb : 0 < b := hq.trans_le hqb
  have hρ : 0 ≤ 1 - q / b := by rw [sub_nonneg, div_le_one hb]; exact hqb
  have hρ1 : 1 - q / b < 1 := by have : 0 < q / b := by positivity
                                 linarith
  have vv : ∀ v : Fin n → ℝ, 0 ≤ v ⬝ᵥ v := fun v => Finset.sum_nonneg fun i _ => mul_self_nonneg _
  set A : ℕ → Matrix (Fin n) (Fin n) ℝ := fun k => (ric F Q H R)^[k] 0 with hA
  have hAc : ∀ k, IsCov (A k) := iter_isCov hQc hR zero_isCov
  have hAM : ∀ k, CovLe (A k) M := iter_le hQc hR hM hG zero_isCov (covLe_zero hM)
  have hAb : ∀ k v, quad (A k) v ≤ b * (v ⬝ᵥ v) := fun k v => ((hAM k).2 v).trans (hMb v)
  have hmono : ∀ v, Monotone fun k => quad (A k) v := fun v k l h => (iter_incr (F := F) (H := H) hQc hR h).2 v
  have hbdd : ∀ v, BddAbove (Set.range fun k => quad (A k) v) := fun v => ⟨b * (v ⬝ᵥ v), by rintro _ ⟨k, rfl⟩; exact hAb k v⟩
  obtain ⟨P, hPc, hPq⟩ := limit_exists hAc (fun v => ⨆ k, quad (A k) v) fun v => tendsto_atTop_ciSup (hmono v) (hbdd v)
  have hlim : ∀ v, Tendsto (fun k => quad (A k) v) atTop (𝓝 (quad P v)) := fun v => by
    rw [hPq]; exact tendsto_atTop_ciSup (hmono v) (hbdd v)
  have sub : ∀ {X Y : Matrix (Fin n) (Fin n) ℝ}, IsCov X → IsCov Y → (∀ v, quad X v ≤ quad Y v) → CovLe X Y := fun {X Y} hX hY h =>
    ⟨by rw [IsSymm, transpose_sub, hX.1, hY.1], h⟩
  have hAP : ∀ k, CovLe (A k) P := fun k => sub (hAc k) hPc fun v => (hmono v).ge_of_tendsto (hlim v) k
  have hPM : CovLe P M := sub hPc hM fun v => le_of_tendsto' (hlim v) fun k => (hAM k).2 v
  -- every run against the one from zero
  have gap : ∀ P0, IsCov P0 → ∀ c, 0 ≤ c → (∀ v, quad P0 (Fᵀ *ᵥ v) ≤ c * (q * (v ⬝ᵥ v))) → ∀ k v,
      quad (A (k + 1)) v ≤ quad ((ric F Q H R)^[k + 1] P0) v
        ∧ quad ((ric F Q H R)^[k + 1] P0) v - quad (A (k + 1)) v ≤ c * b * (1 - q / b) ^ k * (v ⬝ᵥ v) := by
    intro P0 hP0 c hc h k v
    refine ⟨(iter_mono hQc hR zero_isCov (covLe_zero hP0) (k + 1)).2 v, ?_⟩
    have h0 := (ric_first (F := F) (Q := Q) (H := H) hR zero_isCov v).2
    have := gap_iter (F := F) (H := H) (P := ric F Q H R 0) (P' := ric F Q H R P0) hQc hQ hR hq.le hb hqb (ric_isCov hQc hR hP0)
      (fun k v => hAb (k + 1) v) hc (fun v => by
        have h1 := (ric_first (F := F) (Q := Q) (H := H) hR hP0 v).1
        rw [quad_conj] at h1
        rw [h0]
        have h2 := h v
        have h3 := mul_le_mul_of_nonneg_left (hQ v) hc
        linarith) k v
    refine this.trans ?_
    rw [mul_right_comm c b, mul_assoc _ b]
    exact mul_le_mul_of_nonneg_left (hAb (k + 1) v) (by positivity)
  -- the limit is left unchanged
  have hle : CovLe P (ric F Q H R P) := sub hPc (ric_isCov hQc hR hPc) fun v => by
    refine le_of_tendsto' ((tendsto_add_atTop_iff_nat 1).2 (hlim v)) fun k => ?_
    have := (ric_mono (F := F) (Q := Q) (H := H) hR (hAc k) (hAP k)).2 v
    rw [hA]
    simp only [Function.iterate_succ_apply']
    exact this
  have hPF : ∀ X, IsCov X → CovLe X (ric F Q H R X) → ∀ v, quad X v ≤ quad P v := by
    intro X hX hXr v
    obtain ⟨s, hs, hs0⟩ := quad_bounded hq (F * X * Fᵀ)
    simp only [quad_conj] at hs
    have inc : ∀ k, CovLe X ((ric F Q H R)^[k] X) := fun k => by
      induction k with
      | zero => exact covLe_refl X
      | succ k ih =>
        rw [Function.iterate_succ_apply']
        exact covLe_trans hXr (ric_mono hR hX ih)
    have hz : Tendsto (fun k : ℕ => s * b * (1 - q / b) ^ k * (v ⬝ᵥ v)) atTop (𝓝 0) := by
      have := ((tendsto_pow_atTop_nhds_zero_of_lt_one hρ hρ1).const_mul (s * b)).mul_const (v ⬝ᵥ v)
      simpa using this
    have h1 : ∀ k, quad X v - quad P v ≤ s * b * (1 - q / b) ^ k * (v ⬝ᵥ v) := fun k => by
      have a := (inc (k + 1)).2 v
      have b1 := (gap X hX s hs0 hs k v).2
      have c1 := (hAP (k + 1)).2 v
      simp only [quad] at *
      linarith
    have := ge_of_tendsto' hz h1
    linarith
  have hfix : ric F Q H R P = P := by
    have hrc := ric_isCov (F := F) (H := H) hQc hR hPc
    refine covLe_antisymm (sub hrc hPc ?_) hle hrc.1 hPc.1
    exact hPF _ hrc (ric_mono hR hPc hle)
  have hPb : ∀ v, quad P v ≤ b * (v ⬝ᵥ v) := fun v => (hPM.2 v).trans (hMb v)
  have hit : ∀ X, ric F Q H R X = X → ∀ k, (ric F Q H R)^[k] X = X := fun X h k => Function.iterate_fixed h k
  have hgP : ∀ k v, quad P v - quad (A (k + 1)) v ≤ b / q * b * (1 - q / b) ^ k * (v ⬝ᵥ v) := fun k v => by
    have h0 := (ric_first (F := F) (Q := Q) (H := H) hR zero_isCov v).2
    have := gap_iter (F := F) (H := H) (P := ric F Q H R 0) (P' := P) hQc hQ hR hq.le hb hqb hPc
      (fun k v => hAb (k + 1) v) (c := b / q) (by positivity) (fun v => by
        rw [h0]
        have h1 := hPb v
        have h2 : b * (v ⬝ᵥ v) = b / q * (q * (v ⬝ᵥ v)) := by field_simp
        have h3 : b / q * (q * (v ⬝ᵥ v)) ≤ b / q * quad Q v := mul_le_mul_of_nonneg_left (hQ v) (by positivity)
        have h4 : 0 ≤ quad Q v := hQc.2 v
        linarith) k v
    rw [hit P hfix] at this
    refine this.trans ?_
    rw [mul_right_comm (b / q) b, mul_assoc _ b]
    exact mul_le_mul_of_nonneg_left (hAb (k + 1) v) (by positivity)
  refine ⟨P, hPc, hPM, fun z x => ?_, fun P' hP' h => ?_, fun P0 hP0 c hc h z zs x => ?_⟩
  · obtain ⟨x', e⟩ := run_cycle (F := F) (Q := Q) (H := H) hL hR z x hPc
    rw [hfix] at e
    exact ⟨x', e⟩
  · obtain ⟨x', e⟩ := run_cycle (F := F) (Q := Q) (H := H) hL hR 0 0 hP'
    obtain ⟨x'', e'⟩ := h 0 0
    rw [e] at e'
    have hf : ric F Q H R P' = P' := (show x' = x'' ∧ ric F Q H R P' = P' by simpa using e').2
    refine covLe_antisymm (sub hP' hPc (hPF P' hP' (by rw [hf]; exact covLe_refl P'))) (sub hPc hP' fun v => ?_) hP'.1 hPc.1
    refine le_of_tendsto' (hlim v) fun k => ?_
    have := (iter_mono (F := F) (H := H) hQc hR zero_isCov (covLe_zero hP') k).2 v
    rw [hit P' hf] at this
    exact this
  · obtain ⟨x', e⟩ := run_cycles (F := F) (H := H) hL hQc hR (z :: zs) x hP0
    refine ⟨x', _, e, fun v => ?_⟩
    obtain ⟨g1, g2⟩ := gap P0 hP0 c hc h zs.length v
    have g3 := hgP zs.length v
    have g4 : quad (A (zs.length + 1)) v ≤ quad P v := (hAP (zs.length + 1)).2 v
    have w : 0 ≤ b * (1 - q / b) ^ zs.length * (v ⬝ᵥ v) := by have := vv v; positivity
    have m1 := mul_le_mul_of_nonneg_right (le_max_left c (b / q)) w
    have m2 := mul_le_mul_of_nonneg_right (le_max_right c (b / q)) w
    rw [List.length_cons, abs_le]
    constructor <;> nlinarith

/-- C133 (limit). Under the same conditions the reported covariance converges, entry by entry and from every initial covariance, to that one covariance. -/
theorem C133_converges {L : LinSolver ℝ} (hL : L.Correct) (hQc : IsCov Q) (hR : IsPosCov R) (hq : 0 < q) (hqb : q ≤ b) (hQ : ∀ v, q * (v ⬝ᵥ v) ≤ quad Q v)
    {M : Matrix (Fin n) (Fin n) ℝ} (hM : IsCov M) (hMb : ∀ v, quad M v ≤ b * (v ⬝ᵥ v)) {G : Matrix (Fin n) (Fin m) ℝ} (hG : Keeps F Q H R G M) :
    ∃ P : Matrix (Fin n) (Fin n) ℝ, IsCov P ∧ ∀ P0, IsCov P0 → ∃ Y : ℕ → Matrix (Fin n) (Fin n) ℝ,
      (∀ zs x, ∃ x', runFilter L (cycles F Q H R zs) (⟨n, x⟩, ⟨n, n, P0⟩) = .ok (⟨n, x'⟩, ⟨n, n, Y zs.length⟩))
      ∧ ∀ i j, Tendsto (fun k => Y k i j) atTop (𝓝 (P i j)) := by
  obtain ⟨P, hP, -, -, -, h⟩ := C133_settles hL hQc hR hq hqb hQ hM hMb hG
  refine ⟨P, hP, fun P0 hP0 => ⟨fun k => (ric F Q H R)^[k] P0, fun zs x => run_cycles hL hQc hR zs x hP0, fun i j => ?_⟩⟩
  have hb : 0 < b := hq.trans_le hqb
  have hρ : 0 ≤ 1 - q / b := by rw [sub_nonneg, div_le_one hb]; exact hqb
  have hρ1 : 1 - q / b < 1 := by have : 0 < q / b := by positivity
                                 linarith
  obtain ⟨s, hs, hs0⟩ := quad_bounded hq (F * P0 * Fᵀ)
  have hv : ∀ v, Tendsto (fun k => quad ((ric F Q H R)^[k] P0) v) atTop (𝓝 (quad P v)) := fun v => by
    rw [← tendsto_add_atTop_iff_nat 1, tendsto_iff_dist_tendsto_zero]
    have hz : Tendsto (fun k : ℕ => max s (b / q) * b * (1 - q / b) ^ k * (v ⬝ᵥ v)) atTop (𝓝 0) := by
      have := ((tendsto_pow_atTop_nhds_zero_of_lt_one hρ hρ1).const_mul (max s (b / q) * b)).mul_const (v ⬝ᵥ v)
      simpa using this
    refine squeeze_zero (fun _ => dist_nonneg) (fun k => ?_) hz
    obtain ⟨x', Y, e, g⟩ := h P0 hP0 s hs0 (fun v => by rw [← quad_conj]; exact hs v) 0 (List.replicate k 0) 0
    obtain ⟨x'', e'⟩ := run_cycles (F := F) (H := H) hL hQc hR (0 :: List.replicate k 0) 0 hP0
    rw [e] at e'
    have hY : Y = (ric F Q H R)^[k + 1] P0 := by
      simp only [Except.ok.injEq, Prod.mk.injEq, DVec.mk.injEq, DMat.mk.injEq, true_and, heq_eq_eq, List.length_cons, List.length_replicate] at e'
      exact e'.2
    have := g v
    rw [hY, List.length_replicate] at this
    exact this
  have he : ∀ k, (ric F Q H R)^[k] P0 i j = (quad ((ric F Q H R)^[k] P0) (Pi.single i 1 + Pi.single j 1) - quad ((ric F Q H R)^[k] P0) (Pi.single i 1)
      - quad ((ric F Q H R)^[k] P0) (Pi.single j 1)) / 2 := fun k => entry_quad (iter_isCov hQc hR hP0 k).1 i j
  simp only [he]
  rw [entry_quad hP.1 i j]
  exact (((hv _).sub (hv _)).sub (hv _)).div_const 2

/-- Non-vacuity: a random walk that is measured directly, both with unit noise. The gain 2/3 keeps the variance 2. -/
example : IsCov (diagonal ![(1 : ℝ)]) ∧ (∀ v : Fin 1 → ℝ, 1 * (v ⬝ᵥ v) ≤ quad (diagonal ![(1 : ℝ)]) v) ∧ (∀ v, quad (diagonal ![(2 : ℝ)]) v ≤ 2 * (v ⬝ᵥ v))
    ∧ Keeps (diagonal ![(1 : ℝ)]) (diagonal ![1]) (diagonal ![1]) (diagonal ![1]) (diagonal ![2 / 3]) (diagonal ![2]) := by
  refine ⟨diag_isCov _ (by intro i; fin_cases i; norm_num), fun v => ?_, fun v => ?_, ?_⟩
  · simp [quad, mulVec_diagonal, dotProduct]
  · simp [quad, mulVec_diagonal, dotProduct]; linarith
  · rw [Keeps, covLe_iff]
    have : (diagonal ![(2 : ℝ)] - (diagonal ![(1 : ℝ)] * ((1 - diagonal ![(2 : ℝ) / 3] * diagonal ![1]) * diagonal ![2] * (1 - diagonal ![(2 : ℝ) / 3] * diagonal ![1])ᵀ
        + diagonal ![(2 : ℝ) / 3] * diagonal ![1] * (diagonal ![(2 : ℝ) / 3])ᵀ) * (diagonal ![(1 : ℝ)])ᵀ + diagonal ![1])) = (diagonal ![1 / 3] : Matrix (Fin 1) (Fin 1) ℝ) := by
      ext i j; fin_cases i; fin_cases j; simp [mul_apply]; norm_num
    rw [this]
    exact PosSemidef.diagonal (by intro i; fin_cases i; norm_num)

end NavFuse.Props
