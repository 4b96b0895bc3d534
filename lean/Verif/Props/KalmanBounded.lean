import Verif.Props.KalmanLongRun
import Verif.Props.KalmanSteady

/-! # Property C166: bounded measurements give bounded estimates

With models for which some estimator keeps a bounded uncertainty, the estimate of the Kalman filter stays within a multiple of the largest measurement, over
runs of any length.  This replaces the assumption of C154 on the exact run by assumptions on the models alone. -/

namespace NavFuse.Props
open Matrix Kalman Spec KA
variable [Machine] {r : ℝ → ℝ} {n m : ℕ} {φ η q b ρ ρ₁ X Z N : ℝ}

/-- models of a cycle for which some gain does not increase the uncertainty `M`: process noise at least `q`, measurement noise at least `ρ`, and
measurements at most `Z` -/
structure Cyc.Holds (c : Cyc n m) (M : Matrix (Fin n) (Fin n) ℝ) (q ρ Z : ℝ) : Prop where
  keeps : ∃ G, Keeps c.F c.Q c.H c.R G M
  Q_symm : c.Q.IsSymm
  R_symm : c.R.IsSymm
  Q_ge : ∀ v : Fin n → ℝ, q * (v ⬝ᵥ v) ≤ v ⬝ᵥ (c.Q *ᵥ v)
  R_ge : ∀ v : Fin m → ℝ, ρ * (v ⬝ᵥ v) ≤ v ⬝ᵥ (c.R *ᵥ v)
  z_le : ∀ i, |c.z i| ≤ Z

omit [Machine] in
theorem sq_add_le {a c e d s t : ℝ} (he : 0 ≤ e) (hd : 0 ≤ d) (hs : 0 ≤ s) (ht : 0 ≤ t) (ha : a ^ 2 ≤ e * t) (hc : c ^ 2 ≤ d * s) :
    (a + c) ^ 2 ≤ (e + d) * (t + s) := by
  have h1 : (2 * (a * c)) ^ 2 ≤ (e * s + d * t) ^ 2 := by
    have := mul_le_mul ha hc (sq_nonneg c) (by positivity)
    nlinarith [sq_nonneg (e * s - d * t)]
  have h2 := abs_le_of_sq_le_sq h1 (by positivity)
  nlinarith [(abs_le.1 h2).2]

omit [Machine] in
/-- one cycle keeps the bound of the estimate -/
theorem bounded_step {M : Matrix (Fin n) (Fin n) ℝ} (hM : IsCov M) (hMb : ∀ v, quad M v ≤ b * (v ⬝ᵥ v)) (hq : 0 < q) (hb : 0 < b) (hρ : 0 < ρ) (c : Cyc n m)
    (hc : c.Holds M q ρ Z) (x : Fin n → ℝ) {P : Matrix (Fin n) (Fin n) ℝ} (hP : IsCov P) (hPM : CovLe P M)
    (hx : ∀ u, (u ⬝ᵥ x) ^ 2 ≤ m * Z ^ 2 / ρ * (b / q) * quad P u) :
    IsCov (c.kalman (x, P)).2 ∧ CovLe (c.kalman (x, P)).2 M ∧ ∀ u, (u ⬝ᵥ (c.kalman (x, P)).1) ^ 2 ≤ m * Z ^ 2 / ρ * (b / q) * quad (c.kalman (x, P)).2 u := by
  have vv : ∀ {k : ℕ} (v : Fin k → ℝ), 0 ≤ v ⬝ᵥ v := fun v => Finset.sum_nonneg fun i _ => mul_self_nonneg _
  have hR : IsPosCov c.R := ⟨hc.R_symm, fun v hv => lt_of_lt_of_le (mul_pos hρ (by
    rcases (vv v).eq_or_lt with h0 | h0
    · exact absurd (dotProduct_self_eq_zero.1 h0.symm) hv
    · exact h0)) (hc.R_ge v)⟩
  have hQ : IsCov c.Q := ⟨hc.Q_symm, fun v => (mul_nonneg hq.le (vv v)).trans (hc.Q_ge v)⟩
  rw [kalman_ric c x hP hR]
  obtain ⟨G', hG'⟩ := hc.keeps
  have hle : CovLe (ric c.F c.Q c.H c.R P) M := iter_le hQ hR hM hG' hP hPM 1
  refine ⟨ric_isCov hQ hR hP, hle, fun u => ?_⟩
  set G := gain P c.H c.R with hG
  set A := quad (ric c.F c.Q c.H c.R P) u with hA
  set w := (1 - G * c.H)ᵀ *ᵥ (c.Fᵀ *ᵥ u) with hw
  set g := Gᵀ *ᵥ (c.Fᵀ *ᵥ u) with hg
  have eA : A = quad P w + quad c.R g + quad c.Q u := by
    rw [hA, ric, quad_plus, quad_conj, joseph, quad_plus, quad_conj, quad_conj]
  have t0 : 0 ≤ quad P w := hP.2 w
  have s0 : 0 ≤ quad c.R g := (mul_nonneg hρ.le (vv g)).trans (hc.R_ge g)
  have hAb : A ≤ b * (u ⬝ᵥ u) := (hle.2 u).trans (hMb u)
  have hQu : q / b * A ≤ quad c.Q u := by
    refine le_trans ?_ (hc.Q_ge u)
    rw [div_mul_eq_mul_div, div_le_iff₀ hb, mul_assoc q, mul_comm (u ⬝ᵥ u)]
    exact mul_le_mul_of_nonneg_left hAb hq.le
  have ts : quad P w + quad c.R g ≤ (1 - q / b) * A := by
    have : (1 - q / b) * A = A - q / b * A := by ring
    rw [this]; linarith
  have hz : c.z ⬝ᵥ c.z ≤ m * Z ^ 2 := by
    rw [dotProduct]
    refine (Finset.sum_le_card_nsmul _ _ (Z ^ 2) fun i _ => ?_).trans (le_of_eq (by simp))
    rw [← sq, ← sq_abs]
    exact pow_le_pow_left₀ (abs_nonneg _) (hc.z_le i) 2
  have hgz : (g ⬝ᵥ c.z) ^ 2 ≤ m * Z ^ 2 / ρ * quad c.R g := by
    have h1 : (g ⬝ᵥ c.z) ^ 2 ≤ (g ⬝ᵥ g) * (c.z ⬝ᵥ c.z) := by
      simp only [dotProduct, ← sq]
      exact Finset.sum_mul_sq_le_sq_mul_sq _ _ _
    have h2 : g ⬝ᵥ g ≤ quad c.R g / ρ := by rw [le_div_iff₀ hρ, mul_comm]; exact hc.R_ge g
    refine h1.trans ((mul_le_mul h2 hz (vv _) (by positivity)).trans (le_of_eq (by ring)))
  have eu : u ⬝ᵥ (c.F *ᵥ (x + G *ᵥ (c.z - c.H *ᵥ x))) = w ⬝ᵥ x + g ⬝ᵥ c.z := by
    have e1 : x + G *ᵥ (c.z - c.H *ᵥ x) = (1 - G * c.H) *ᵥ x + G *ᵥ c.z := by
      rw [mulVec_sub, sub_mulVec, one_mulVec, mulVec_mulVec]; abel
    rw [e1, dotProduct_mulVec, ← mulVec_transpose, dotProduct_add, dotProduct_mulVec, dotProduct_mulVec, ← mulVec_transpose, ← mulVec_transpose]
  show (u ⬝ᵥ (c.F *ᵥ (x + G *ᵥ (c.z - c.H *ᵥ x)))) ^ 2 ≤ _ * A
  rw [eu]
  have D0 : 0 ≤ m * Z ^ 2 / ρ := by positivity
  have hA0 : 0 ≤ A := (ric_isCov hQ hR hP).2 u
  refine (sq_add_le (by positivity) D0 s0 t0 (hx w) hgz).trans ?_
  have h1 : m * Z ^ 2 / ρ * (b / q) + m * Z ^ 2 / ρ = m * Z ^ 2 / ρ * (b / q + 1) := by ring
  rw [h1, mul_assoc, mul_assoc]
  refine mul_le_mul_of_nonneg_left ?_ D0
  refine (mul_le_mul_of_nonneg_left ts (by positivity)).trans ?_
  have h2 : (b / q + 1) * ((1 - q / b) * A) = (b / q - q / b) * A := by field_simp; ring
  rw [h2]
  exact mul_le_mul_of_nonneg_right (by have : 0 < q / b := by positivity
                                       linarith) hA0

omit [Machine] in
/-- from the bound in all directions to the entries -/
theorem bounded_entry {M : Matrix (Fin n) (Fin n) ℝ} (hMb : ∀ v, quad M v ≤ b * (v ⬝ᵥ v)) (hq : 0 < q) (hb : 0 < b) (hρ : 0 < ρ) (hZ : 0 ≤ Z) {x : Fin n → ℝ}
    {P : Matrix (Fin n) (Fin n) ℝ} (hPM : CovLe P M) (hx : ∀ u, (u ⬝ᵥ x) ^ 2 ≤ m * Z ^ 2 / ρ * (b / q) * quad P u) (i : Fin n) :
    |x i| ≤ Z * b * Real.sqrt (m / (ρ * q)) := by
  have h1 := hx (Pi.single i 1)
  rw [single_one_dotProduct] at h1
  have h2 : quad P (Pi.single i 1) ≤ b := ((hPM.2 _).trans (hMb _)).trans (by simp)
  have h3 : x i ^ 2 ≤ (Z * b) ^ 2 * (m / (ρ * q)) := by
    refine h1.trans ((mul_le_mul_of_nonneg_left h2 (by positivity)).trans (le_of_eq ?_))
    field_simp
  rw [← Real.sqrt_sq_eq_abs]
  refine (Real.sqrt_le_sqrt h3).trans (le_of_eq ?_)
  rw [Real.sqrt_mul (by positivity), Real.sqrt_sq (by positivity)]

omit [Machine] in
/-- C166. Models that may change from cycle to cycle, with process noise at least `q` and measurement noise at least `ρ` in every direction, for each of which
some gain keeps the uncertainty `M`, which is at most `b` in every direction; measurements of at most `Z`.  Then through any number of cycles all calls succeed, the
reported covariance stays below `M`, and every entry of the estimate stays below `Z b √(m / (ρ q))`, whatever the measurements. -/
theorem C166_bounded {L : LinSolver ℝ} (hL : L.Correct) {M : Matrix (Fin n) (Fin n) ℝ} (hM : IsCov M) (hMb : ∀ v, v ⬝ᵥ (M *ᵥ v) ≤ b * (v ⬝ᵥ v)) (hq : 0 < q)
    (hb : 0 < b) (hρ : 0 < ρ) (hZ : 0 ≤ Z) (cs : List (Cyc n m)) (hc : ∀ c ∈ cs, c.Holds M q ρ Z) (x : Fin n → ℝ) (P : Matrix (Fin n) (Fin n) ℝ) (hP : IsCov P)
    (hPM : CovLe P M) (hx : ∀ u, (u ⬝ᵥ x) ^ 2 ≤ m * Z ^ 2 / ρ * (b / q) * (u ⬝ᵥ (P *ᵥ u))) :
    ∃ (y : Fin n → ℝ) (Y : Matrix (Fin n) (Fin n) ℝ), runFilter L (cs.flatMap Cyc.ops) (⟨n, x⟩, ⟨n, n, P⟩) = .ok (⟨n, y⟩, ⟨n, n, Y⟩)
      ∧ IsCov Y ∧ CovLe Y M ∧ (∀ u, (u ⬝ᵥ y) ^ 2 ≤ m * Z ^ 2 / ρ * (b / q) * (u ⬝ᵥ (Y *ᵥ u))) ∧ ∀ i, |y i| ≤ Z * b * Real.sqrt (m / (ρ * q)) := by
  have vv : ∀ {k : ℕ} (v : Fin k → ℝ), 0 ≤ v ⬝ᵥ v := fun v => Finset.sum_nonneg fun i _ => mul_self_nonneg _
  induction cs generalizing x P with
  | nil => exact ⟨x, P, rfl, hP, hPM, hx, bounded_entry hMb hq hb hρ hZ hPM hx⟩
  | cons c cs ih =>
    have fc := hc c (by simp)
    have hR : IsPosCov c.R := ⟨fc.R_symm, fun v hv => lt_of_lt_of_le (mul_pos hρ (by
      rcases (vv v).eq_or_lt with h0 | h0
      · exact absurd (dotProduct_self_eq_zero.1 h0.symm) hv
      · exact h0)) (fc.R_ge v)⟩
    obtain ⟨h1, h2, h3⟩ := bounded_step hM hMb hq hb hρ c fc x hP hPM hx
    obtain ⟨y, Y, e, h⟩ := ih (fun d hd => hc d (by simp [hd])) _ _ h1 h2 h3
    refine ⟨y, Y, ?_, h⟩
    rw [List.flatMap_cons, ops_kalman hL c x hP hR]
    exact e

/-- a cycle with the measurement disturbed by `d` -/
def Cyc.disturb (c : Cyc n m) (d : Fin m → ℝ) : Cyc n m := ⟨c.F, c.Q, c.H, c.R, c.z + d⟩

omit [Machine] in
/-- C166 (robustness). Disturb every measurement of a run by at most `Z`.  However long the run and whatever the disturbances, the reported covariance is the same and the
estimates differ by at most `Z b √(m / (ρ q))`. -/
theorem C166_robust {L : LinSolver ℝ} (hL : L.Correct) {M : Matrix (Fin n) (Fin n) ℝ} (hM : IsCov M) (hMb : ∀ v, v ⬝ᵥ (M *ᵥ v) ≤ b * (v ⬝ᵥ v)) (hq : 0 < q)
    (hb : 0 < b) (hρ : 0 < ρ) (hZ : 0 ≤ Z) (cs : List (Cyc n m × (Fin m → ℝ))) (hc : ∀ c ∈ cs, (⟨c.1.F, c.1.Q, c.1.H, c.1.R, c.2⟩ : Cyc n m).Holds M q ρ Z)
    (x : Fin n → ℝ) (P : Matrix (Fin n) (Fin n) ℝ) (hP : IsCov P) (hPM : CovLe P M) :
    ∃ (y y' : Fin n → ℝ) (Y : Matrix (Fin n) (Fin n) ℝ), runFilter L (cs.flatMap fun c => c.1.ops) (⟨n, x⟩, ⟨n, n, P⟩) = .ok (⟨n, y⟩, ⟨n, n, Y⟩)
      ∧ runFilter L (cs.flatMap fun c => (c.1.disturb c.2).ops) (⟨n, x⟩, ⟨n, n, P⟩) = .ok (⟨n, y'⟩, ⟨n, n, Y⟩)
      ∧ ∀ i, |y' i - y i| ≤ Z * b * Real.sqrt (m / (ρ * q)) := by
  have vv : ∀ {k : ℕ} (v : Fin k → ℝ), 0 ≤ v ⬝ᵥ v := fun v => Finset.sum_nonneg fun i _ => mul_self_nonneg _
  suffices H : ∀ x', (∀ u, (u ⬝ᵥ (x' - x)) ^ 2 ≤ m * Z ^ 2 / ρ * (b / q) * quad P u) →
      ∃ (y y' : Fin n → ℝ) (Y : Matrix (Fin n) (Fin n) ℝ), runFilter L (cs.flatMap fun c => c.1.ops) (⟨n, x⟩, ⟨n, n, P⟩) = .ok (⟨n, y⟩, ⟨n, n, Y⟩)
      ∧ runFilter L (cs.flatMap fun c => (c.1.disturb c.2).ops) (⟨n, x'⟩, ⟨n, n, P⟩) = .ok (⟨n, y'⟩, ⟨n, n, Y⟩)
      ∧ ∀ i, |y' i - y i| ≤ Z * b * Real.sqrt (m / (ρ * q)) from
    H x fun u => by
      rw [sub_self, dotProduct_zero, zero_pow (by norm_num)]
      exact mul_nonneg (by positivity) (hP.2 u)
  induction cs generalizing x P with
  | nil => exact fun x' hx => ⟨x, x', P, rfl, rfl, bounded_entry hMb hq hb hρ hZ hPM hx⟩
  | cons c cs ih =>
    intro x' hx
    have fc := hc c (by simp)
    have hR : IsPosCov c.1.R := ⟨fc.R_symm, fun v hv => lt_of_lt_of_le (mul_pos hρ (by
      rcases (vv v).eq_or_lt with h0 | h0
      · exact absurd (dotProduct_self_eq_zero.1 h0.symm) hv
      · exact h0)) (fc.R_ge v)⟩
    obtain ⟨h1, h2, h3⟩ := bounded_step hM hMb hq hb hρ _ fc (x' - x) hP hPM hx
    have e : ((c.1.disturb c.2).kalman (x', P)).1 - (c.1.kalman (x, P)).1 = ((⟨c.1.F, c.1.Q, c.1.H, c.1.R, c.2⟩ : Cyc n m).kalman (x' - x, P)).1 := by
      simp only [Cyc.kalman, Cyc.disturb, mulVec_add, mulVec_sub]
      abel
    obtain ⟨y, y', Y, e1, e2, d⟩ := ih (fun d hd => hc d (by simp [hd])) (c.1.kalman (x, P)).1 (c.1.kalman (x, P)).2 h1 h2
      ((c.1.disturb c.2).kalman (x', P)).1 (fun u => by rw [e]; exact h3 u)
    refine ⟨y, y', Y, ?_, ?_, d⟩
    · rw [List.flatMap_cons, ops_kalman hL c.1 x hP hR]
      exact e1
    · rw [List.flatMap_cons, ops_kalman hL (c.1.disturb c.2) x' hP hR]
      exact e2

omit [Machine] in
/-- the assumption of C154 on the exact run, from the models -/
theorem along_of_holds {M : Matrix (Fin n) (Fin n) ℝ} (hM : IsCov M) (hMb : ∀ v, quad M v ≤ b * (v ⬝ᵥ v)) (hq : 0 < q) (hb : 0 < b) (hρ : 0 < ρ) (hZ : 0 ≤ Z)
    (hX : Z * b * Real.sqrt (m / (ρ * q)) ≤ X) (hN : Z + n * (η * (Z * b * Real.sqrt (m / (ρ * q)))) ≤ N) (cs : List (Cyc n m))
    (hc : ∀ c ∈ cs, c.Holds M q ρ Z) (hH : ∀ c ∈ cs, ∀ i j, |c.H i j| ≤ η) (x : Fin n → ℝ) (P : Matrix (Fin n) (Fin n) ℝ) (hP : IsCov P) (hPM : CovLe P M)
    (hx : ∀ u, (u ⬝ᵥ x) ^ 2 ≤ m * Z ^ 2 / ρ * (b / q) * quad P u) : Along b X N cs (x, P) := by
  induction cs generalizing x P with
  | nil => exact ⟨fun v => (hPM.2 v).trans (hMb v), fun i => (bounded_entry hMb hq hb hρ hZ hPM hx i).trans hX⟩
  | cons c cs ih =>
    have fc := hc c (by simp)
    obtain ⟨h1, h2, h3⟩ := bounded_step hM hMb hq hb hρ c fc x hP hPM hx
    have hxi := bounded_entry hMb hq hb hρ hZ hPM hx
    refine ⟨fun v => (hPM.2 v).trans (hMb v), fun i => (hxi i).trans hX, fun l => ?_,
      ih (fun d hd => hc d (by simp [hd])) (fun d hd => hH d (by simp [hd])) _ _ h1 h2 h3⟩
    refine le_trans ?_ hN
    rw [Pi.sub_apply]
    exact (abs_sub _ _).trans (add_le_add (fc.z_le l) (mulVec_entry_le (hH c (by simp)) hxi l))

/-- C166 in double precision: under the same assumptions on the models (and the size conditions of C154), in any rounding mode and with Eigen's inverse, through any
number of cycles all calls succeed on finite numbers, and the computed estimate and covariance keep within the bounds of C154 from the exact ones, which are themselves
bounded by C166. -/
theorem C166_double (h : Rounds53 r) (w : LongRun n m φ η q b ρ ρ₁ X Z N) {L : LinSolver ℝ} (hL : L.Correct) {M : Matrix (Fin n) (Fin n) ℝ} (hM : IsCov M)
    (hMb : ∀ v, v ⬝ᵥ (M *ᵥ v) ≤ b * (v ⬝ᵥ v)) (hX : Z * b * Real.sqrt (m / (ρ * q)) ≤ X) (hN : Z + n * (η * (Z * b * Real.sqrt (m / (ρ * q)))) ≤ N)
    (cs : List (Cyc n m)) (hk : ∀ c ∈ cs, ∃ G, Keeps c.F c.Q c.H c.R G M) (hc : ∀ c ∈ cs, c.Fits φ η q ρ ρ₁ Z)
    (x : Fin n → ℝ) (P : Matrix (Fin n) (Fin n) ℝ) (hP : IsCov P) (hPM : CovLe P M)
    (hx : ∀ u, (u ⬝ᵥ x) ^ 2 ≤ m * Z ^ 2 / ρ * (b / q) * (u ⬝ᵥ (P *ᵥ u))) :
    ∃ (y y' : Fin n → ℝ) (Y Y' : Matrix (Fin n) (Fin n) ℝ),
      runD LinSolver.eigen (cs.flatMap Cyc.calls) (⟨n, dV x⟩, ⟨n, n, (dM P : Matrix _ _ (Dbl r))⟩) = .ok (⟨n, dV y⟩, ⟨n, n, dM Y⟩)
      ∧ runFilter L (cs.flatMap Cyc.ops) (⟨n, x⟩, ⟨n, n, P⟩) = .ok (⟨n, y'⟩, ⟨n, n, Y'⟩)
      ∧ IsCov Y' ∧ CovLe Y' M ∧ (∀ i, |y' i| ≤ Z * b * Real.sqrt (m / (ρ * q)))
      ∧ (∀ i, |y i - y' i| ≤ lrEst n m φ η q b ρ ρ₁ X Z N)
      ∧ (∀ v, |v ⬝ᵥ (Y *ᵥ v) - v ⬝ᵥ (Y' *ᵥ v)| ≤ lrVar n m φ η q b ρ ρ₁ * (v ⬝ᵥ (Y' *ᵥ v)))
      ∧ ∀ i j, |Y i j - Y j i| ≤ 4 * b * lrAsym n m φ η q b ρ ρ₁ := by
  have b0 : 0 < b := lt_of_lt_of_le (by norm_num) w.le_b
  have ρ0 : 0 < ρ := lt_of_lt_of_le (by norm_num) w.le_ρ
  have Z0 : 0 < Z := lt_of_lt_of_le (by norm_num) w.le_Z
  have hh : ∀ c ∈ cs, c.Holds M q ρ Z := fun c hcm => ⟨hk c hcm, (hc c hcm).Q_symm, (hc c hcm).R_symm, (hc c hcm).Q_ge, (hc c hcm).R_ge, (hc c hcm).z_le⟩
  obtain ⟨y, y', Y, Y', e1, e2, -, -, d1, d2, d3, -⟩ := C154_long_run h w hL cs hc x P hP
    (along_of_holds hM hMb w.q_pos b0 ρ0 Z0.le hX hN cs hh (fun c hcm => (hc c hcm).H_le) x P hP hPM hx)
  obtain ⟨u, U, e3, hI, hU, -, hu⟩ := C166_bounded hL hM hMb w.q_pos b0 ρ0 Z0.le cs hh x P hP hPM hx
  rw [e2] at e3
  simp only [Except.ok.injEq, Prod.mk.injEq, DVec.mk.injEq, DMat.mk.injEq, true_and, heq_eq_eq] at e3
  obtain ⟨rfl, rfl⟩ := e3
  exact ⟨y, y', Y, Y', e1, e2, hI, hU, hu, d1, d2, d3⟩

/-! ## A case: a position that drifts without limit, driven by a velocity that decays, of which the position is measured -/

/-- one cycle with the measurement `z` -/
noncomputable def tracker (z : ℝ) : Cyc 2 1 := ⟨!![1, 1 / 10; 0, 2 / 5], 1, !![1, 0], 1, fun _ => z⟩

/-- the gain of an estimator that is never more uncertain than 5/3 -/
noncomputable def trackerGain : Matrix (Fin 2) (Fin 1) ℝ := !![3 / 5; 0]

omit [Machine] in
theorem tracker_keeps (z : ℝ) : Keeps (tracker z).F (tracker z).Q (tracker z).H (tracker z).R trackerGain ((5 / 3 : ℝ) • (1 : Matrix (Fin 2) (Fin 2) ℝ)) := by
  have e1 : 1 - trackerGain * (tracker z).H = !![2 / 5, 0; 0, 1] := by
    ext i j
    fin_cases i <;> fin_cases j <;> norm_num [tracker, trackerGain, mul_apply, one_apply]
  have e2 : trackerGain * (tracker z).R * trackerGainᵀ = !![9 / 25, 0; 0, 0] := by
    ext i j
    fin_cases i <;> fin_cases j <;> norm_num [tracker, trackerGain, mul_apply, one_apply]
  have e3 : (!![2 / 5, 0; 0, 1] : Matrix (Fin 2) (Fin 2) ℝ) * ((5 / 3 : ℝ) • 1) * (!![2 / 5, 0; 0, 1] : Matrix (Fin 2) (Fin 2) ℝ)ᵀ + !![9 / 25, 0; 0, 0]
      = !![47 / 75, 0; 0, 5 / 3] := by
    ext i j
    fin_cases i <;> fin_cases j <;> norm_num [mul_apply, Fin.sum_univ_two, vecMul, dotProduct]
  have e4 : (tracker z).F * !![47 / 75, 0; 0, 5 / 3] * (tracker z).Fᵀ + (tracker z).Q = !![493 / 300, 1 / 15; 1 / 15, 19 / 15] := by
    ext i j
    fin_cases i <;> fin_cases j <;> norm_num [tracker, mul_apply, Fin.sum_univ_two, vecMul, dotProduct]
  unfold Keeps
  rw [e1, e2, e3, e4]
  refine ⟨?_, fun v => ?_⟩
  · ext i j
    fin_cases i <;> fin_cases j <;> simp
  · rw [smul_mulVec, one_mulVec, dotProduct_smul, smul_eq_mul]
    simp only [dotProduct, mulVec, Fin.sum_univ_two, of_apply, cons_val_zero, cons_val_one]
    nlinarith [sq_nonneg (v 0 - 3 * v 1), sq_nonneg (v 0), sq_nonneg (v 1)]

omit [Machine] in
theorem tracker_fits {z : ℝ} (hz : |z| ≤ 1) : (tracker z).Fits 1 1 1 1 1 1 := by
  refine ⟨?_, ?_, ?_, fun _ => hz, transpose_one, transpose_one, fun v => by rw [tracker, one_mulVec, one_mul], fun v => by rw [tracker, one_mulVec, one_mul]⟩
  · intro i j; fin_cases i <;> fin_cases j <;> norm_num [tracker, abs_of_pos]
  · intro i j; fin_cases i; fin_cases j <;> norm_num [tracker]
  · intro i j; fin_cases i; fin_cases j; norm_num [tracker]

omit [Machine] in
theorem tracker_bounds : lrErr 2 1 1 1 (5 / 3) 1 1 ≤ 6.1e-8 ∧ lrAsym 2 1 1 1 1 (5 / 3) 1 1 ≤ 1.7e-6 ∧ lrVar 2 1 1 1 1 (5 / 3) 1 1 ≤ 4e-5
    ∧ lrStep 2 1 1 1 1 (5 / 3) 1 1 (5 / 3) 1 (13 / 3) ≤ 0.012 ∧ 0 ≤ lrStep 2 1 1 1 1 (5 / 3) 1 1 (5 / 3) 1 (13 / 3) := by
  have e : lrErr 2 1 1 1 (5 / 3) 1 1 ≤ 6.1e-8 := by unfold lrErr cycErr updMag gainMax; norm_num
  have g : lrGain 2 1 1 (5 / 3) 1 1 ≤ 9e-11 := by unfold lrGain gainTol innovMax luTol; norm_num
  have g0 : 0 ≤ lrGain 2 1 1 (5 / 3) 1 1 := by unfold lrGain gainTol innovMax luTol; norm_num
  have e0 : 0 ≤ lrErr 2 1 1 1 (5 / 3) 1 1 := by unfold lrErr cycErr updMag gainMax; norm_num
  have a : lrAsym 2 1 1 1 1 (5 / 3) 1 1 ≤ 1.7e-6 := by unfold lrAsym; norm_num; linarith
  have a0 : 0 ≤ lrAsym 2 1 1 1 1 (5 / 3) 1 1 := by unfold lrAsym; norm_num; linarith
  have l : lrLoss 2 1 1 1 1 (5 / 3) 1 1 ≤ 2.38e-5 := by
    unfold lrLoss gainShift innovMax
    norm_num
    nlinarith
  have l0 : 0 ≤ lrLoss 2 1 1 1 1 (5 / 3) 1 1 := by
    unfold lrLoss gainShift innovMax
    norm_num
    nlinarith
  have v : lrVar 2 1 1 1 1 (5 / 3) 1 1 ≤ 4e-5 := by unfold lrVar; norm_num; linarith
  have v0 : 0 ≤ lrVar 2 1 1 1 1 (5 / 3) 1 1 := by unfold lrVar; norm_num; linarith
  refine ⟨e, a, v, ?_, ?_⟩
  all_goals
    unfold lrStep gainShift estErr estMag gainMax
    norm_num
    linarith

omit [Machine] in
theorem tracker_est : lrEst 2 1 1 1 1 (5 / 3) 1 1 (5 / 3) 1 (13 / 3) ≤ 0.6 := by
  obtain ⟨-, -, -, h, h0⟩ := tracker_bounds
  have s : Real.sqrt (((2 : ℕ) : ℝ) * (5 / 3) / 1) ≤ 1.83 := by rw [Real.sqrt_le_left (by norm_num)]; norm_num
  have h2 := mul_le_mul_of_nonneg_left s (show (0 : ℝ) ≤ 16 * ((5 / 3) / 1) by norm_num)
  rw [lrEst]
  calc _ ≤ 16 * ((5 / 3) / 1) * 1.83 * lrStep 2 1 1 1 1 (5 / 3) 1 1 (5 / 3) 1 (13 / 3) := mul_le_mul_of_nonneg_right h2 h0
    _ ≤ _ := by linarith

omit [Machine] in
theorem tracker_longRun : LongRun 2 1 1 1 1 (5 / 3) 1 1 (5 / 3) 1 (13 / 3) := by
  obtain ⟨-, a, v, -, -⟩ := tracker_bounds
  refine ⟨by norm_num, by norm_num, by norm_num, by norm_num, by norm_num, by norm_num, by norm_num, by norm_num, by norm_num, by norm_num, by norm_num, by norm_num,
    le_refl _, by norm_num, by unfold luTol; norm_num, a.trans (by norm_num), v.trans (by norm_num), by norm_num, by norm_num, by norm_num,
    by unfold estMag gainMax; norm_num, tracker_est.trans (by norm_num)⟩

omit [Machine] in
theorem tracker_holds {z : ℝ} (hz : |z| ≤ 1) : (tracker z).Holds ((5 / 3 : ℝ) • (1 : Matrix (Fin 2) (Fin 2) ℝ)) 1 1 1 :=
  let f := tracker_fits hz
  ⟨⟨_, tracker_keeps z⟩, f.Q_symm, f.R_symm, f.Q_ge, f.R_ge, f.z_le⟩

/-- C166 for the tracker: although the position it follows is unbounded, after any number of measurements between -1 and 1, in any rounding mode, the exact estimates are at most
5/3, the computed ones are within 0.6 of them, and the computed variances are within `4·10⁻⁵` of their values. -/
theorem C166_tracker (h : Rounds53 r) (zs : List ℝ) (hz : ∀ z ∈ zs, |z| ≤ 1) :
    ∃ (y y' : Fin 2 → ℝ) (Y Y' : Matrix (Fin 2) (Fin 2) ℝ),
      runD LinSolver.eigen ((zs.map tracker).flatMap Cyc.calls) (⟨2, dV 0⟩, ⟨2, 2, (dM 1 : Matrix _ _ (Dbl r))⟩) = .ok (⟨2, dV y⟩, ⟨2, 2, dM Y⟩)
      ∧ runFilter LinSolver.exact ((zs.map tracker).flatMap Cyc.ops) (⟨2, 0⟩, ⟨2, 2, 1⟩) = .ok (⟨2, y'⟩, ⟨2, 2, Y'⟩)
      ∧ (∀ i, |y' i| ≤ 5 / 3) ∧ (∀ i, |y i - y' i| ≤ 0.6)
      ∧ ∀ v, |v ⬝ᵥ (Y *ᵥ v) - v ⬝ᵥ (Y' *ᵥ v)| ≤ 4e-5 * (v ⬝ᵥ (Y' *ᵥ v)) := by
  have vv : ∀ {k : ℕ} (v : Fin k → ℝ), 0 ≤ v ⬝ᵥ v := fun v => Finset.sum_nonneg fun i _ => mul_self_nonneg _
  have s1 : (1 : ℝ) * (5 / 3) * Real.sqrt ((1 : ℕ) / (1 * 1)) = 5 / 3 := by norm_num
  have hle : CovLe (1 : Matrix (Fin 2) (Fin 2) ℝ) ((5 / 3 : ℝ) • 1) := by
    refine ⟨?_, fun v => ?_⟩
    · rw [Matrix.IsSymm, transpose_sub, transpose_smul, transpose_one]
    · rw [smul_mulVec, one_mulVec, dotProduct_smul, smul_eq_mul]; linarith [vv v]
  obtain ⟨y, y', Y, Y', e1, e2, hc, c, b1, d1, d2, -⟩ := C166_double h tracker_longRun LinSolver.exact_correct
    (M := (5 / 3 : ℝ) • (1 : Matrix (Fin 2) (Fin 2) ℝ)) ⟨by rw [Matrix.IsSymm, transpose_smul, transpose_one], fun v => by
      rw [smul_mulVec, one_mulVec, dotProduct_smul, smul_eq_mul]; have := vv v; positivity⟩
    (fun v => by rw [smul_mulVec, one_mulVec, dotProduct_smul, smul_eq_mul]) s1.le (by rw [s1]; norm_num) (zs.map tracker)
    (fun c hc => by obtain ⟨z, -, rfl⟩ := List.mem_map.1 hc; exact ⟨_, tracker_keeps z⟩)
    (fun c hc => by obtain ⟨z, hz', rfl⟩ := List.mem_map.1 hc; exact tracker_fits (hz z hz'))
    0 1 ⟨transpose_one, fun v => by rw [one_mulVec]; exact vv v⟩ hle (fun u => by
      rw [dotProduct_zero, one_mulVec, zero_pow (by norm_num)]; exact mul_nonneg (by norm_num) (vv u))
  refine ⟨y, y', Y, Y', e1, e2, fun i => (b1 i).trans s1.le, fun i => (d1 i).trans tracker_est, fun v => (d2 v).trans ?_⟩
  exact mul_le_mul_of_nonneg_right tracker_bounds.2.2.1 (hc.2 v)

example (h : Rounds53 r) (k : ℕ) : ∃ (y : Fin 2 → ℝ) (Y : Matrix (Fin 2) (Fin 2) ℝ),
    runD LinSolver.eigen (((List.replicate k (1 / 2)).map tracker).flatMap Cyc.calls) (⟨2, dV 0⟩, ⟨2, 2, (dM 1 : Matrix _ _ (Dbl r))⟩) = .ok (⟨2, dV y⟩, ⟨2, 2, dM Y⟩)
      ∧ ∀ i, |y i| ≤ 2.3 := by
  obtain ⟨y, y', Y, -, e, -, h1, h2, -⟩ := C166_tracker h (List.replicate k (1 / 2)) (fun z hz => by rw [List.eq_of_mem_replicate hz]; norm_num [abs_of_pos])
  refine ⟨y, Y, e, fun i => ?_⟩
  have := abs_le.1 (h1 i)
  have := abs_le.1 (h2 i)
  rw [abs_le]
  constructor <;> linarith

/-- disturbances of at most 1 in the measurements of the tracker move its estimates by at most 5/3, however long it runs -/
example (zs : List (ℝ × ℝ)) (hz : ∀ z ∈ zs, |z.2| ≤ 1) :
    ∃ (y y' : Fin 2 → ℝ) (Y : Matrix (Fin 2) (Fin 2) ℝ),
      runFilter LinSolver.exact ((zs.map fun z => ((tracker z.1, fun _ => z.2) : Cyc 2 1 × (Fin 1 → ℝ))).flatMap fun c => c.1.ops) (⟨2, 0⟩, ⟨2, 2, 0⟩) = .ok (⟨2, y⟩, ⟨2, 2, Y⟩)
      ∧ runFilter LinSolver.exact ((zs.map fun z => ((tracker z.1, fun _ => z.2) : Cyc 2 1 × (Fin 1 → ℝ))).flatMap fun c => (c.1.disturb c.2).ops) (⟨2, 0⟩, ⟨2, 2, 0⟩) = .ok (⟨2, y'⟩, ⟨2, 2, Y⟩)
      ∧ ∀ i, |y' i - y i| ≤ 5 / 3 := by
  have vv : ∀ {k : ℕ} (v : Fin k → ℝ), 0 ≤ v ⬝ᵥ v := fun v => Finset.sum_nonneg fun i _ => mul_self_nonneg _
  have hM : IsCov ((5 / 3 : ℝ) • (1 : Matrix (Fin 2) (Fin 2) ℝ)) := ⟨by rw [Matrix.IsSymm, transpose_smul, transpose_one], fun v => by
    rw [smul_mulVec, one_mulVec, dotProduct_smul, smul_eq_mul]; have := vv v; positivity⟩
  obtain ⟨y, y', Y, e1, e2, d⟩ := C166_robust (b := 5 / 3) (q := 1) (ρ := 1) (Z := 1) LinSolver.exact_correct hM
    (fun v => by rw [smul_mulVec, one_mulVec, dotProduct_smul, smul_eq_mul]) (by norm_num) (by norm_num) (by norm_num) (by norm_num)
    (zs.map fun z => ((tracker z.1, fun _ => z.2) : Cyc 2 1 × (Fin 1 → ℝ))) (fun c hc => by obtain ⟨z, hz', rfl⟩ := List.mem_map.1 hc; exact tracker_holds (hz z hz'))
    0 0 zero_isCov (covLe_zero hM)
  exact ⟨y, y', Y, e1, e2, fun i => (d i).trans (by norm_num)⟩

end NavFuse.Props
