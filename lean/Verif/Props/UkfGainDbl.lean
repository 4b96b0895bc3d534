import Verif.Props.GainDbl
import Verif.Props.UkfDbl

/-! # The unscented update in double precision with Eigen's inverse: C161 -/

namespace NavFuse.Props
open Matrix Kalman Spec
variable [Machine] {r : ℝ → ℝ} {n m : ℕ}

omit [Machine] in
theorem _root_.NavFuse.Rl.widen {X : Dbl r} {y M M' : ℝ} {k : ℕ} (a : Rl X y k M) (hM : M ≤ M') : Rl X y k M' := by
  obtain ⟨x, e, b⟩ := a.near
  exact ⟨⟨x, e, b.trans (mul_le_mul_of_nonneg_left hM (by linarith [one_le_gr k]))⟩, a.mag.trans hM⟩

/-- accuracy of a product `T S⁻¹` relative to `m t / ρ` when `T` and `S` carry `a` and `b` roundings, with `κ = s / ρ` -/
noncomputable def quotTol (m a b : ℕ) (κ : ℝ) : ℝ :=
  16 * m ^ 2 * (a + m + 1) / 2 ^ 52 + 2 * m ^ 2 * luTol m * (1 + 16 * m ^ 3 * κ) + 4 * m ^ 4 * (b / 2 ^ 52) * κ

/-- the product of a rounded matrix with Eigen's inverse of a rounded matrix -/
theorem quot_dbl (h : Rounds53 r) {T' : Matrix (Fin n) (Fin m) (Dbl r)} {S' : Matrix (Fin m) (Fin m) (Dbl r)} {T : Matrix (Fin n) (Fin m) ℝ}
    {S : Matrix (Fin m) (Fin m) ℝ} {a b : ℕ} {t s ρ : ℝ} (hT : MRl T' T a (constM n m t)) (hS : MRl S' S b (constM m m s)) (lS : Low S (ρ / m))
    (mp : 0 < m) (mle : m ≤ 30) (ha : a ≤ 10 ^ 14) (hb : b ≤ 10 ^ 14) (t1 : 1e-40 ≤ t) (t2 : t ≤ 1e43) (ρ1 : 1e-16 ≤ ρ) (ρs : ρ ≤ s) (s2 : s ≤ 1e18)
    (cond : s * (16 * m ^ 3 * luTol m + 4 * b * m ^ 2 / 2 ^ 52) ≤ ρ) :
    ∃ K : Matrix (Fin n) (Fin m) ℝ, mmul T' (luInverse S') = dM K ∧ (∀ i j, |K i j| ≤ 16 * m ^ 3 * t / ρ)
      ∧ ∀ i j, |K i j - (T * S⁻¹) i j| ≤ m * t / ρ * quotTol m a b (s / ρ) := by
  have m0 : (0 : ℝ) < m := by exact_mod_cast mp
  have m1 : (1 : ℝ) ≤ m := by exact_mod_cast mp
  have m2 : (m : ℝ) ≤ 30 := by exact_mod_cast mle
  have ρ0 : 0 < ρ := lt_of_lt_of_le (by norm_num) ρ1
  have sp : 0 < s := ρ0.trans_le ρs
  have t0 : 0 < t := lt_of_lt_of_le (by norm_num) t1
  have ρ18 : ρ ≤ 1e18 := ρs.trans s2
  choose Ŝ eŜ dŜ using fun i j => (hS i j).near
  have eŜ' : S' = (dM (of Ŝ) : Matrix _ _ (Dbl r)) := by ext i j; exact eŜ i j
  have hg : gr b - 1 ≤ 2 * b / 2 ^ 52 := by
    have := gr_le (k := b) (by omega)
    have e : 2 * (b : ℝ) / 2 ^ 52 = b / 2 ^ 51 := by ring
    rw [e]; linarith
  set δ := 2 * b / 2 ^ 52 * s with hδ
  have b0 : (0 : ℝ) ≤ b := Nat.cast_nonneg b
  have a0 : (0 : ℝ) ≤ a := Nat.cast_nonneg a
  have δ0 : 0 ≤ δ := by positivity
  have dS : ∀ i j, |of Ŝ i j - S i j| ≤ δ := fun i j => (dŜ i j).trans (mul_le_mul_of_nonneg_right hg sp.le)
  have mS : ∀ i j, |S i j| ≤ s := fun i j => (hS i j).mag
  have δs : δ ≤ s := by
    rw [hδ]
    refine mul_le_of_le_one_left sp.le ?_
    rw [div_le_one (by positivity)]
    have : (b : ℝ) ≤ 10 ^ 14 := by exact_mod_cast hb
    exact le_trans (by linarith : 2 * (b : ℝ) ≤ 2 * 10 ^ 14) (by norm_num)
  have mŜ : ∀ i j, |of Ŝ i j| ≤ 2 * s := fun i j => by
    have h1 := abs_sub_abs_le_abs_sub (of Ŝ i j) (S i j)
    linarith [dS i j, mS i j]
  have tol0 : 0 ≤ luTol m := by unfold luTol; positivity
  have c1 : 2 * m ^ 2 * δ ≤ ρ := by
    have : 0 ≤ s * (16 * m ^ 3 * luTol m) := by positivity
    have e : 2 * m ^ 2 * δ = s * (4 * b * m ^ 2 / 2 ^ 52) := by rw [hδ]; ring
    rw [e]; linarith
  have c2 : 16 * m ^ 3 * luTol m * s ≤ ρ := by
    have : 0 ≤ s * (4 * b * m ^ 2 / 2 ^ 52) := by positivity
    linarith
  have c3 : m * δ ≤ ρ / (2 * m) := by
    rw [le_div_iff₀ (by positivity)]; linarith
  have c4 : ρ / m = ρ / (2 * m) + ρ / (2 * m) := by field_simp; ring
  have c5 : 0 < ρ / (2 * m) := by positivity
  have lŜ : Low (of Ŝ) (ρ / (2 * m)) := (lS.perturb (by positivity) dS (by linarith)).mono (by linarith)
  have eB : 1 / (ρ / (2 * m)) = 2 * m / ρ := by rw [one_div_div]
  have wc : WellCond (of Ŝ) (2 * s) (2 * m / ρ) := by
    refine ⟨mp, mle, lŜ.regular c5, mŜ, fun i j => eB ▸ lŜ.inv_le c5 i j, ?_, ?_, ?_, ?_, ?_⟩
    · exact le_trans (by linarith : 2 * s ≤ 2 * 1e18) (by norm_num)
    · exact le_trans (by norm_num) (ρ1.trans (by linarith))
    · rw [div_le_iff₀ ρ0]
      have : (1e18 : ℝ) * 1e-16 ≤ 1e18 * ρ := mul_le_mul_of_nonneg_left ρ1 (by norm_num)
      refine le_trans ?_ this
      norm_num; linarith
    · rw [le_div_iff₀ ρ0]
      have : (1e-20 : ℝ) * ρ ≤ 1e-20 * 1e18 := mul_le_mul_of_nonneg_left ρ18 (by norm_num)
      refine this.trans ?_
      norm_num; linarith
    · have : 4 * luTol m * m ^ 2 * (2 * s * (2 * m / ρ)) = 16 * m ^ 3 * luTol m * s / ρ := by field_simp; ring
      rw [this, div_le_one ρ0]; exact c2
  obtain ⟨Y, eY, mY, -, dY⟩ := C147_accurate h (of Ŝ) wc
  have mY' : ∀ i j, |Y i j| ≤ 8 * m ^ 2 / ρ := fun i j => (mY i j).trans (le_of_eq (by ring))
  have y0 : (1e-20 : ℝ) ≤ 8 * m ^ 2 / ρ := by
    rw [le_div_iff₀ ρ0]
    have : (1e-20 : ℝ) * ρ ≤ 1e-20 * 1e18 := mul_le_mul_of_nonneg_left ρ18 (by norm_num)
    refine this.trans ?_
    have : (1 : ℝ) ≤ m ^ 2 := one_le_pow₀ m1
    norm_num; linarith
  have y1 : 8 * m ^ 2 / ρ ≤ 1e20 := by
    rw [div_le_iff₀ ρ0]
    have : (1e20 : ℝ) * 1e-16 ≤ 1e20 * ρ := mul_le_mul_of_nonneg_left ρ1 (by norm_num)
    refine le_trans ?_ this
    have : (m : ℝ) ^ 2 ≤ 30 ^ 2 := pow_le_pow_left₀ m0.le m2 2
    norm_num at this ⊢; linarith
  have hK := hT.mmul h (dM_const (r := r) mY') (fun _ _ _ => by
      show (1e-250 : ℝ) ≤ t * (8 * m ^ 2 / ρ)
      exact le_trans (by norm_num) (mul_le_mul t1 y0 (by norm_num) t0.le))
    (fun i j => by
      rw [constM_mul]
      show (m : ℝ) * (t * (8 * m ^ 2 / ρ)) ≤ 1e199
      exact (mul_le_mul m2 (mul_le_mul t2 y1 (by positivity) (by norm_num)) (by positivity) (by norm_num)).trans (by norm_num))
    (by omega)
  rw [constM_mul] at hK
  choose K eK dK using fun i j => (hK i j).near
  refine ⟨of K, ?_, fun i j => ?_, fun i j => ?_⟩
  · rw [eŜ', eY]
    ext i j
    exact eK i j
  · have := Rl.val_le (dK i j) (hK i j).mag
    refine this.trans ((mul_le_mul_of_nonneg_right (gr_le_two (by omega)) (hK i j).M_nonneg).trans (le_of_eq ?_))
    show 2 * (m * (t * (8 * m ^ 2 / ρ))) = _
    ring
  · have dI : ∀ i j, |Y i j - S⁻¹ i j| ≤ 2 * m ^ 2 / ρ * (luTol m * (1 + 16 * m ^ 3 * (s / ρ))) + 2 * m ^ 4 / ρ * ((2 * b / 2 ^ 52) * (s / ρ)) := fun i j => by
      have h1 := dY i j
      have e1 : m * (2 * m / ρ) * (luTol m * (1 + 4 * m ^ 2 * (2 * s * (2 * m / ρ)))) = 2 * m ^ 2 / ρ * (luTol m * (1 + 16 * m ^ 3 * (s / ρ))) := by ring
      rw [e1] at h1
      have uS := lS.regular (by positivity)
      have uŜ := lŜ.regular c5
      have e2 : (of Ŝ)⁻¹ - S⁻¹ = (of Ŝ)⁻¹ * (S - of Ŝ) * S⁻¹ := by
        rw [mul_sub, sub_mul, nonsing_inv_mul _ uŜ, one_mul, Matrix.mul_assoc, mul_nonsing_inv _ uS, mul_one]
      have h2 : |((of Ŝ)⁻¹ - S⁻¹) i j| ≤ m * (m * (2 * m / ρ * δ) * (m / ρ)) := by
        rw [e2]
        refine mul_entry_le (mul_entry_le (fun i j => eB ▸ lŜ.inv_le c5 i j) fun i j => ?_) (fun i j => ?_) i j
        · rw [Matrix.sub_apply, abs_sub_comm]; exact dS i j
        · have := lS.inv_le (by positivity) i j
          rwa [one_div_div] at this
      have e3 : m * (m * (2 * m / ρ * δ) * (m / ρ)) = 2 * m ^ 4 / ρ * ((2 * b / 2 ^ 52) * (s / ρ)) := by rw [hδ]; ring
      rw [e3, Matrix.sub_apply] at h2
      have := abs_add_le (Y i j - (of Ŝ)⁻¹ i j) ((of Ŝ)⁻¹ i j - S⁻¹ i j)
      rw [sub_add_sub_cancel] at this
      linarith
    have k1 : |of K i j - (T * Y) i j| ≤ 2 * (a + m + 1) / 2 ^ 52 * (m * (t * (8 * m ^ 2 / ρ))) := by
      have q0 : 0 ≤ m * (t * (8 * m ^ 2 / ρ)) := by positivity
      refine (dK i j).trans (mul_le_mul_of_nonneg_right ?_ q0)
      have := gr_le (k := a + 0 + 1 + m) (by omega)
      push_cast at this
      have e : 2 * ((a : ℝ) + m + 1) / 2 ^ 52 = (a + 0 + 1 + m) / 2 ^ 51 := by ring
      rw [e]; linarith
    have k2 : |(T * (Y - S⁻¹)) i j| ≤ m * (t
        * (2 * m ^ 2 / ρ * (luTol m * (1 + 16 * m ^ 3 * (s / ρ))) + 2 * m ^ 4 / ρ * ((2 * b / 2 ^ 52) * (s / ρ)))) :=
      mul_entry_le (fun i j => (hT i j).mag) (fun i j => by rw [Matrix.sub_apply]; exact dI i j) i j
    rw [Matrix.mul_sub, Matrix.sub_apply] at k2
    have k3 := abs_add_le (of K i j - (T * Y) i j) ((T * Y) i j - (T * S⁻¹) i j)
    rw [sub_add_sub_cancel] at k3
    refine (k3.trans (add_le_add k1 k2)).trans (le_of_eq ?_)
    rw [quotTol]
    ring

/-- the weighted scatter of states about `x` against measurements about their mean, exactly -/
noncomputable def pcross {N : ℕ} (W : Fin N → ℝ) (Y : Matrix (Fin n) (Fin N) ℝ) (x : Fin n → ℝ) (Z : Matrix (Fin m) (Fin N) ℝ) : Matrix (Fin n) (Fin m) ℝ :=
  of fun p q => ∑ i, W i * (Y p i - x p) * (Z q i - pmean W Z q)

/-- the same with magnitudes (not below 10⁻⁵⁰) and sums for differences -/
noncomputable def pcrossMag {N : ℕ} (W : Fin N → ℝ) (Y : Matrix (Fin n) (Fin N) ℝ) (x : Fin n → ℝ) (Z : Matrix (Fin m) (Fin N) ℝ) : Matrix (Fin n) (Fin m) ℝ :=
  of fun p q => ∑ i, mgV W i * (mgM Y p i + mgV x p) * (mgM Z q i + pmeanMag W Z q)

omit [Machine] in
/-- a matrix with quadratic form at least `ρ` does not shrink vectors by more than that -/
theorem low_of_quad {S : Matrix (Fin m) (Fin m) ℝ} {ρ : ℝ} (m0 : 0 < m) (ρ0 : 0 < ρ) (hS : ∀ v : Fin m → ℝ, ρ * (v ⬝ᵥ v) ≤ v ⬝ᵥ (S *ᵥ v)) : Low S (ρ / m) := by
  have := innovation_low (P := (0 : Matrix (Fin 1) (Fin 1) ℝ)) (H := (0 : Matrix (Fin m) (Fin 1) ℝ)) m0 ρ0 (fun v => by simp) hS
  simpa using this

/-- an unscented update whose innovation covariance is not negligible in any direction: it is at least `ρ`, its terms add up to at most `s`, those of the
scatter of states against measurements to at most `t` -/
structure UkfNoisy (x : Fin n → ℝ) (Y : Matrix (Fin n) (Fin (2 * n + 1)) ℝ) (W : Fin (2 * n + 1) → ℝ) (Z : Matrix (Fin m) (Fin (2 * n + 1)) ℝ)
    (R : Matrix (Fin m) (Fin m) ℝ) (s t ρ : ℝ) : Prop where
  states_le : n ≤ 1000
  meas : 0 < m
  meas_le : m ≤ 30
  noise : ∀ v : Fin m → ℝ, ρ * (v ⬝ᵥ v) ≤ v ⬝ᵥ (pspread W Z R *ᵥ v)
  S_le : ∀ i j, pspreadMag W Z R i j ≤ s
  T_le : ∀ i j, pcrossMag W Y x Z i j ≤ t
  W_le : ∀ i, |W i| ≤ 1e15
  Z_le : ∀ i j, |Z i j| ≤ 1e20
  Y_le : ∀ i j, |Y i j| ≤ 1e20
  x_le : ∀ i, |x i| ≤ 1e20
  R_le : ∀ i j, |R i j| ≤ 1e40
  le_t : 1e-20 ≤ t
  t_le : t ≤ 1e30
  le_ρ : 1e-16 ≤ ρ
  s_le : s ≤ 1e18
  /-- the innovation covariance is well enough conditioned -/
  cond : s * (16 * m ^ 3 * luTol m + (24 * n + 36) * m ^ 2 / 2 ^ 52) ≤ ρ
  gain : 16 * m ^ 3 * t / ρ ≤ 1e20

/-- accuracy of the gain relative to `m t / ρ`, with `κ = s / ρ` the ratio of the innovation covariance to its smallest value -/
noncomputable def ukfGainTol (n m : ℕ) (κ : ℝ) : ℝ :=
  16 * m ^ 2 * (4 * n + m + 8) / 2 ^ 52 + 2 * m ^ 2 * luTol m * (1 + 16 * m ^ 3 * κ) + 4 * m ^ 4 * ((6 * n + 9) / 2 ^ 52) * κ

/-- C161: in double precision, with Eigen's inverse, the gain of the unscented update is finite and within `m t / ρ · ukfGainTol n m (s/ρ)` of `T S⁻¹`. -/
theorem C161_gain (h : Rounds53 r) {x : Fin n → ℝ} {Y : Matrix (Fin n) (Fin (2 * n + 1)) ℝ} {W : Fin (2 * n + 1) → ℝ} {Z : Matrix (Fin m) (Fin (2 * n + 1)) ℝ}
    {R : Matrix (Fin m) (Fin m) ℝ} {s t ρ : ℝ} (w : UkfNoisy x Y W Z R s t ρ) : ∃ K : Matrix (Fin n) (Fin m) ℝ, UkfGainIs (r := r) LinSolver.eigen x Y W Z R K
      ∧ (∀ i j, |K i j| ≤ 16 * m ^ 3 * t / ρ)
      ∧ ∀ i j, |K i j - (pcross W Y x Z * (pspread W Z R)⁻¹) i j| ≤ m * t / ρ * ukfGainTol n m (s / ρ) := by
  have hN : ((2 * n + 1 : ℕ) : ℝ) ≤ 3e9 := by
    have : ((2 * n + 1 : ℕ) : ℝ) ≤ ((2 * 1000 + 1 : ℕ) : ℝ) := by exact_mod_cast (by have := w.states_le; omega)
    exact this.trans (by norm_num)
  have ρ0 : 0 < ρ := lt_of_lt_of_le (by norm_num) w.le_ρ
  obtain ⟨a, b⟩ := sums_rl (r := r) h hN w.W_le w.Z_le w.R_le
  have nl := w.states_le
  have z50 : (0 : ℝ) ≤ 1e-50 := by norm_num
  have hT : MRl (scatterC (dV W) (dM Y) (dV x) (dM Z) (meanC (dV W) (dM Z)) mzero : Matrix (Fin n) (Fin m) (Dbl r)) (pcross W Y x Z) (4 * n + 7) (pcrossMag W Y x Z) := fun p q => by
    have cA : ∀ i, mgM Y p i + mgV x p ≤ 1e60 := fun i => (add_le_add (mgM_le w.Y_le (by norm_num) p i) (mgV_le w.x_le (by norm_num) p)).trans (by norm_num)
    have cB : ∀ i, mgM Z q i + pmeanMag W Z q ≤ 1e60 := fun i => (add_le_add (mgM_le w.Z_le (by norm_num) q i) (pmeanMag_le hN w.W_le w.Z_le q)).trans (by norm_num)
    have hC : (0 : Matrix (Fin n) (Fin m) ℝ) p q + ∑ i, mgV W i * (mgM Y p i + mgV x p) * (mgM Z q i + pmeanMag W Z q) ≤ 1e199 := by
      rw [Matrix.zero_apply, zero_add]
      exact (w.T_le p q).trans (w.t_le.trans (by norm_num))
    have := scatterC_rl h (dV_rl W) (dM_rl Y) (dM_rl Z) (dV_rl x) a (fun _ _ => Rl.zero h : MRl mzero 0 0 0) (mgV_floor W) (mgM_floor Y) (mgM_floor Z)
      (fun i => (mgV_le w.W_le (by norm_num) i).trans (by norm_num)) p q cA cB hC (by omega)
    rw [zero_add (∑ i, mgV W i * (mgM Y p i + mgV x p) * (mgM Z q i + pmeanMag W Z q)), zero_add (∑ i, W i * (Y p i - x p) * (Z q i - pmean W Z q))] at this
    exact this.mono (by omega)
  have hS : MRl (scatterC (dV W) (dM Z) (meanC (dV W) (dM Z)) (dM Z) (meanC (dV W) (dM Z)) (dM R) : Matrix (Fin m) (Fin m) (Dbl r)) (pspread W Z R) (6 * n + 9) (constM m m s) :=
    fun i j => ((b i j).mono (by omega)).widen (w.S_le i j)
  have lS : Low (pspread W Z R) (ρ / m) := low_of_quad w.meas ρ0 w.noise
  have ρs : ρ ≤ s := by
    let k : Fin m := ⟨0, w.meas⟩
    have h1 := w.noise (Pi.single k 1)
    simp only [dotProduct_single, mul_one, Pi.single_eq_same, single_dotProduct, one_mul, mulVec_single_one, col_apply] at h1
    exact h1.trans ((le_abs_self _).trans (hS k k).mag)
  obtain ⟨K, e, k1, k2⟩ := quot_dbl h (fun i j => (hT i j).widen (w.T_le i j)) hS lS w.meas w.meas_le (by omega) (by omega) (le_trans (by norm_num) w.le_t)
    (w.t_le.trans (by norm_num)) w.le_ρ ρs w.s_le (by
      have e : (4 * ((6 * n + 9 : ℕ) : ℝ) * m ^ 2) = (24 * n + 36) * m ^ 2 := by push_cast; ring
      rw [e]; exact w.cond)
  refine ⟨K, e, k1, fun i j => (k2 i j).trans (le_of_eq ?_)⟩
  rw [quotTol, ukfGainTol]
  push_cast
  ring

/-- C161: an unscented update in double precision with Eigen's inverse.  The call succeeds; every number of the new state and covariance is finite; the
state differs from the exact unscented update by the rounding of the last steps plus the error `ε` of the gain times the innovation, the covariance from the
exact one by the rounding plus `2 m ε t + m² ε² s`. -/
theorem C161_update (h : Rounds53 r) {x : Fin n → ℝ} {Y : Matrix (Fin n) (Fin (2 * n + 1)) ℝ} {W : Fin (2 * n + 1) → ℝ} {Z : Matrix (Fin m) (Fin (2 * n + 1)) ℝ}
    {R : Matrix (Fin m) (Fin m) ℝ} {s t ρ : ℝ} (w : UkfNoisy x Y W Z R s t ρ) (hRs : R.IsSymm) (P : Matrix (Fin n) (Fin n) ℝ) (z : Fin m → ℝ)
    (hP : ∀ i j, |P i j| ≤ 1e40) (hz : ∀ i, |z i| ≤ 1e20) (xo : Fin n → Dbl r) (Po : Matrix (Fin n) (Fin n) (Dbl r)) :
    ∃ (K : Matrix (Fin n) (Fin m) ℝ) (x' : Fin n → ℝ) (P' : Matrix (Fin n) (Fin n) ℝ),
      filterUkfUpdate LinSolver.eigen ⟨n, dV x⟩ ⟨n, n, dM P⟩ ⟨n, 2 * n + 1, dM Y⟩ ⟨2 * n + 1, dV W⟩ ⟨m, 2 * n + 1, dM Z⟩ ⟨m, dV z⟩ ⟨m, m, dM R⟩ ⟨n, xo⟩ ⟨n, n, Po⟩
        = .ok (true, ⟨n, dV x'⟩, ⟨n, n, dM P'⟩)
      ∧ (∀ i j, |K i j| ≤ 16 * m ^ 3 * t / ρ)
      ∧ (let G := pcross W Y x Z * (pspread W Z R)⁻¹
         let ε := m * t / ρ * ukfGainTol n m (s / ρ)
         (∀ k, |x' k - (x + G *ᵥ (z - pmean W Z)) k| ≤ (2 * n + m + 5) / 2 ^ 51 * (mgV x + mgM K *ᵥ (mgV z + pmeanMag W Z)) k + ε * ∑ l, |(z - pmean W Z) l|)
          ∧ ∀ p q, |P' p q - (P - G * pspread W Z R * Gᵀ) p q|
              ≤ (6 * n + 2 * m + 12) / 2 ^ 51 * (mgM P + mgM K * pspreadMag W Z R * (mgM K)ᵀ) p q + (2 * m * ε * t + m ^ 2 * ε ^ 2 * s)) := by
  obtain ⟨K, eK, mK, dK⟩ := C161_gain (r := r) h w
  have ρ0 : 0 < ρ := lt_of_lt_of_le (by norm_num) w.le_ρ
  have m0 : (0 : ℝ) < m := by exact_mod_cast w.meas
  have nl := w.states_le
  have ml := w.meas_le
  obtain ⟨x', P', e, b1, b2⟩ := C144_update h (by omega) (by omega) LinSolver.eigen x P Y W Z z R K eK (fun i => (w.x_le i).trans (by norm_num)) hP w.W_le w.Z_le hz w.R_le
    (fun i j => (mK i j).trans w.gain) xo Po
  refine ⟨K, x', P', e, mK, fun k => ?_, fun p q => ?_⟩
  · have h2 : |(x + K *ᵥ (z - pmean W Z)) k - (x + (pcross W Y x Z * (pspread W Z R)⁻¹) *ᵥ (z - pmean W Z)) k|
        ≤ m * t / ρ * ukfGainTol n m (s / ρ) * ∑ l, |(z - pmean W Z) l| := by
      rw [Pi.add_apply, Pi.add_apply, add_sub_add_left_eq_sub, mulVec, mulVec, ← sub_dotProduct, dotProduct, Finset.mul_sum]
      refine (Finset.abs_sum_le_sum_abs _ _).trans (Finset.sum_le_sum fun l _ => ?_)
      rw [abs_mul]
      exact mul_le_mul_of_nonneg_right (dK k l) (abs_nonneg _)
    have h3 := abs_add_le (x' k - (x + K *ᵥ (z - pmean W Z)) k) ((x + K *ᵥ (z - pmean W Z)) k - (x + (pcross W Y x Z * (pspread W Z R)⁻¹) *ᵥ (z - pmean W Z)) k)
    rw [sub_add_sub_cancel] at h3
    exact h3.trans (add_le_add (b1 k) h2)
  · have hN : ((2 * n + 1 : ℕ) : ℝ) ≤ 3e9 := by
      have : ((2 * n + 1 : ℕ) : ℝ) ≤ ((2 * 1000 + 1 : ℕ) : ℝ) := by exact_mod_cast (by omega)
      exact this.trans (by norm_num)
    have uS := (low_of_quad w.meas ρ0 w.noise).regular (by positivity)
    have mS : ∀ i j, |pspread W Z R i j| ≤ s := fun i j => ((sums_rl (r := r) h hN w.W_le w.Z_le w.R_le).2 i j).mag.trans (w.S_le i j)
    have sS : (pspread W Z R)ᵀ = pspread W Z R := by ext i j; exact pspread_symm W Z hRs j i
    have mT : ∀ i j, |pcross W Y x Z i j| ≤ t := fun i j => by
      refine le_trans ?_ (w.T_le i j)
      rw [pcross, of_apply]
      refine (Finset.abs_sum_le_sum_abs _ _).trans (Finset.sum_le_sum fun l _ => ?_)
      rw [abs_mul, abs_mul]
      have q1 : |pmean W Z j| ≤ pmeanMag W Z j := ((sums_rl (r := r) h hN w.W_le w.Z_le w.R_le).1 j).mag
      have q2 : |Y i l - x i| ≤ mgM Y i l + mgV x i := (abs_sub _ _).trans (add_le_add (le_max_left _ _) (le_max_left _ _))
      have q3 : |Z j l - pmean W Z j| ≤ mgM Z j l + pmeanMag W Z j := (abs_sub _ _).trans (add_le_add (le_max_left _ _) q1)
      exact mul_le_mul (mul_le_mul (le_max_left _ _) q2 (abs_nonneg _) ((abs_nonneg _).trans (le_max_left _ _))) q3 (abs_nonneg _)
        (mul_nonneg ((abs_nonneg _).trans (le_max_left _ _)) ((abs_nonneg _).trans q2))
    set S := pspread W Z R with hS
    set T := pcross W Y x Z with hT
    set ε := m * t / ρ * ukfGainTol n m (s / ρ) with hε
    have dE : ∀ i j, |(K - T * S⁻¹) i j| ≤ ε := dK
    have eG : T * S⁻¹ * S = T := by rw [Matrix.mul_assoc, nonsing_inv_mul _ uS, Matrix.mul_one]
    have eG' : S * (T * S⁻¹)ᵀ = Tᵀ := by
      rw [← transpose_inj, transpose_mul, transpose_transpose, transpose_transpose, sS, eG]
    have eK : P - K * S * Kᵀ - (P - T * S⁻¹ * S * (T * S⁻¹)ᵀ) = -((K - T * S⁻¹) * Tᵀ + T * (K - T * S⁻¹)ᵀ + (K - T * S⁻¹) * S * (K - T * S⁻¹)ᵀ) := by
      generalize hE : K - T * S⁻¹ = E
      have : K = T * S⁻¹ + E := by rw [← hE]; abel
      have e1 : K * S * Kᵀ = T * S⁻¹ * S * (T * S⁻¹)ᵀ + (E * Tᵀ + T * Eᵀ + E * S * Eᵀ) := by
        rw [this, transpose_add, Matrix.add_mul, Matrix.mul_add, Matrix.add_mul, Matrix.add_mul, Matrix.mul_assoc E S (T * S⁻¹)ᵀ, eG', eG]
        abel
      rw [e1]; abel
    have k1 := mul_entry_le dE (fun i j => mT j i : ∀ i j, |Tᵀ i j| ≤ t) p q
    have k2 := mul_entry_le mT (fun i j => dE j i : ∀ i j, |(K - T * S⁻¹)ᵀ i j| ≤ ε) p q
    have k3 := mul_entry_le (mul_entry_le dE mS) (fun i j => dE j i : ∀ i j, |(K - T * S⁻¹)ᵀ i j| ≤ ε) p q
    have k4 : |(P - K * S * Kᵀ) p q - (P - T * S⁻¹ * S * (T * S⁻¹)ᵀ) p q| ≤ 2 * m * ε * t + m ^ 2 * ε ^ 2 * s := by
      rw [← Matrix.sub_apply, eK, Matrix.neg_apply, abs_neg, Matrix.add_apply, Matrix.add_apply]
      refine (abs_add_three _ _ _).trans ((add_le_add (add_le_add k1 k2) k3).trans (le_of_eq ?_))
      ring
    have k5 := abs_add_le (P' p q - (P - K * S * Kᵀ) p q) ((P - K * S * Kᵀ) p q - (P - T * S⁻¹ * S * (T * S⁻¹)ᵀ) p q)
    rw [sub_add_sub_cancel] at k5
    exact k5.trans (add_le_add (b2 p q) k4)

omit [Machine] in
/-- with nonnegative weights the measurement noise alone is a floor of the innovation covariance -/
theorem C161_floor {N : ℕ} {W : Fin N → ℝ} (hW : ∀ i, 0 ≤ W i) (Z : Matrix (Fin m) (Fin N) ℝ) {R : Matrix (Fin m) (Fin m) ℝ} {ρ : ℝ}
    (hR : ∀ v : Fin m → ℝ, ρ * (v ⬝ᵥ v) ≤ v ⬝ᵥ (R *ᵥ v)) (v : Fin m → ℝ) : ρ * (v ⬝ᵥ v) ≤ v ⬝ᵥ (pspread W Z R *ᵥ v) := by
  rw [pspread_quad]
  have := Finset.sum_nonneg fun (i : Fin N) (_ : i ∈ Finset.univ) => mul_nonneg (hW i) (sq_nonneg (∑ p, v p * (Z p i - pmean W Z p)))
  linarith [hR v]

omit [Machine] in
/-- one state with sigma points 0, 1, -1 and weights 0, 1/2, 1/2, measured directly with variance one -/
theorem ukfNoisy_eg : UkfNoisy (![0] : Fin 1 → ℝ) (!![0, 1, -1] : Matrix (Fin 1) (Fin 3) ℝ) (![0, 1 / 2, 1 / 2] : Fin 3 → ℝ) (!![0, 1, -1] : Matrix (Fin 1) (Fin 3) ℝ)
    (1 : Matrix (Fin 1) (Fin 1) ℝ) 10 10 1 := by
  have b1 : ∀ i, |(![0, 1 / 2, 1 / 2] : Fin 3 → ℝ) i| ≤ 1 / 2 := fun i => by fin_cases i <;> norm_num
  have b2 : ∀ (i : Fin 1) j, |(!![0, 1, -1] : Matrix (Fin 1) (Fin 3) ℝ) i j| ≤ 1 := fun i j => by fin_cases i; fin_cases j <;> norm_num
  have g0 : mgV (![0, 1 / 2, 1 / 2] : Fin 3 → ℝ) 0 = 1e-50 := by simp [mgV]; norm_num
  have g1 : mgV (![0, 1 / 2, 1 / 2] : Fin 3 → ℝ) 1 = 1 / 2 := by simp [mgV]; norm_num
  have g2 : mgV (![0, 1 / 2, 1 / 2] : Fin 3 → ℝ) 2 = 1 / 2 := by simp [mgV]; norm_num
  have z0 : mgM (!![0, 1, -1] : Matrix (Fin 1) (Fin 3) ℝ) 0 0 = 1e-50 := by simp [mgM]; norm_num
  have z1 : mgM (!![0, 1, -1] : Matrix (Fin 1) (Fin 3) ℝ) 0 1 = 1 := by simp [mgM]; norm_num
  have z2 : mgM (!![0, 1, -1] : Matrix (Fin 1) (Fin 3) ℝ) 0 2 = 1 := by simp [mgM]; norm_num
  have x0 : mgV (![0] : Fin 1 → ℝ) 0 = 1e-50 := by simp [mgV]; norm_num
  have r0 : mgM (1 : Matrix (Fin 1) (Fin 1) ℝ) 0 0 = 1 := by simp [mgM]; norm_num
  refine ⟨by norm_num, by norm_num, by norm_num, C161_floor (fun i => by fin_cases i <;> norm_num) _ fun v => by rw [one_mulVec, one_mul], fun i j => ?_, fun i j => ?_,
    fun i => (b1 i).trans (by norm_num), fun i j => (b2 i j).trans (by norm_num), fun i j => (b2 i j).trans (by norm_num), fun i => by fin_cases i; norm_num,
    fun i j => by fin_cases i; fin_cases j; norm_num, by norm_num, by norm_num, by norm_num, by norm_num, by unfold luTol; norm_num, by norm_num⟩
  · rw [Subsingleton.elim i 0, Subsingleton.elim j 0, pspreadMag, of_apply, pmeanMag]
    erw [Fin.sum_univ_three, Fin.sum_univ_three]
    rw [g0, g1, g2, z0, z1, z2, r0]
    norm_num
  · rw [Subsingleton.elim i 0, Subsingleton.elim j 0, pcrossMag, of_apply, pmeanMag]
    erw [Fin.sum_univ_three, Fin.sum_univ_three]
    rw [g0, g1, g2, z0, z1, z2, x0]
    norm_num

/-- in the example the computed gain is within `10⁻¹⁰` of the exact one, one half -/
example (h : Rounds53 r) : ∃ K : Matrix (Fin 1) (Fin 1) ℝ,
    UkfGainIs (r := r) LinSolver.eigen (n := 1) ![0] !![0, 1, -1] ![0, 1 / 2, 1 / 2] !![0, 1, -1] (1 : Matrix (Fin 1) (Fin 1) ℝ) K ∧ |K 0 0 - 1 / 2| ≤ 1e-10 := by
  obtain ⟨K, e, -, d⟩ := C161_gain (r := r) h ukfNoisy_eg
  refine ⟨K, e, ?_⟩
  have := d 0 0
  have hS : pspread (![0, 1 / 2, 1 / 2] : Fin 3 → ℝ) (!![0, 1, -1] : Matrix (Fin 1) (Fin 3) ℝ) (1 : Matrix (Fin 1) (Fin 1) ℝ) = !![2] := by
    ext i j; fin_cases i; fin_cases j
    simp [pspread, pmean, Fin.sum_univ_three]; norm_num
  have hT : pcross (![0, 1 / 2, 1 / 2] : Fin 3 → ℝ) (!![0, 1, -1] : Matrix (Fin 1) (Fin 3) ℝ) (![0] : Fin 1 → ℝ) (!![0, 1, -1] : Matrix (Fin 1) (Fin 3) ℝ) = !![1] := by
    ext i j; fin_cases i; fin_cases j
    simp [pcross, pmean, Fin.sum_univ_three]; norm_num
  have hI : (!![2] : Matrix (Fin 1) (Fin 1) ℝ)⁻¹ = !![1 / 2] := by
    refine inv_eq_left_inv ?_
    ext i j; fin_cases i; fin_cases j; simp
  rw [hS, hT, hI] at this
  have e2 : ((!![1] : Matrix (Fin 1) (Fin 1) ℝ) * (!![1 / 2] : Matrix (Fin 1) (Fin 1) ℝ) : Matrix (Fin 1) (Fin 1) ℝ) 0 0 = 1 / 2 := by simp
  rw [e2] at this
  refine this.trans ?_
  unfold ukfGainTol luTol
  norm_num

end NavFuse.Props
