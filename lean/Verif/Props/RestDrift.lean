import Verif.Props.VerticalChannel
import Verif.Props.StrapdownNav
import Mathlib.Analysis.ODE.PicardLindelof
import Mathlib.Analysis.SpecialFunctions.Trigonometric.Bounds

/-! # C167: at rest with perfect sensors the navigator drives away -/

namespace NavFuse.Props
open Matrix Spec NavUtils Filter Topology NNReal

/-- the point of the box `[lo, hi]` next to `z` -/
def clampTo {n : ℕ} (lo hi z : Fin n → ℝ) : Fin n → ℝ := lo ⊔ (hi ⊓ z)

theorem clampTo_mem {n : ℕ} {lo hi : Fin n → ℝ} (h : lo ≤ hi) (z : Fin n → ℝ) : clampTo lo hi z ∈ Set.Icc lo hi :=
  ⟨le_sup_left, sup_le h inf_le_left⟩

theorem clampTo_of_mem {n : ℕ} {lo hi z : Fin n → ℝ} (h : z ∈ Set.Icc lo hi) : clampTo lo hi z = z := by
  rw [clampTo, inf_eq_right.2 h.2, sup_eq_right.2 h.1]

theorem clampTo_lipschitz {n : ℕ} (lo hi : Fin n → ℝ) : LipschitzWith 1 (clampTo lo hi) := by
  refine LipschitzWith.of_dist_le_mul fun x y => ?_
  rw [NNReal.coe_one, one_mul, dist_pi_le_iff dist_nonneg]
  intro i
  refine le_trans ?_ (dist_le_pi_dist x y i)
  simp only [clampTo, Pi.sup_apply, Pi.inf_apply, Real.dist_eq]
  refine (abs_max_sub_max_le_max _ _ _ _).trans ?_
  rw [sub_self, abs_zero, max_eq_right (abs_nonneg _)]
  refine (abs_min_sub_min_le_max _ _ _ _).trans ?_
  rw [sub_self, abs_zero, max_eq_right (abs_nonneg _)]

/-- solutions of an equation whose right-hand side is kept inside a box exist for as long as we like -/
theorem clamped_solution {n : ℕ} (A : ℝ → Fin n → ℝ) (hA : Continuous A) (B : (Fin n → ℝ) → Fin n → ℝ) (lo hi : Fin n → ℝ) (hle : lo ≤ hi)
    (hB : ∀ z ∈ Set.Icc lo hi, ContDiffAt ℝ 1 B z) (z0 : Fin n → ℝ) (T : ℝ) (hT : 0 < T) :
    ∃ z : ℝ → Fin n → ℝ, z 0 = z0 ∧ ∀ t ∈ Set.Ioo (-T) T, HasDerivAt z (A t + B (clampTo lo hi (z t))) t := by
  have hcomp : IsCompact (Set.Icc lo hi) := isCompact_Icc
  have hloc : LocallyLipschitzOn (Set.Icc lo hi) B := fun z hz => by
    obtain ⟨K, s, hs, hl⟩ := (hB z hz).exists_lipschitzOnWith
    exact ⟨K, s, mem_nhdsWithin_of_mem_nhds hs, hl⟩
  obtain ⟨K, hK⟩ := hloc.exists_lipschitzOnWith_of_compact hcomp
  have hKc : LipschitzWith K fun z => B (clampTo lo hi z) := by
    refine LipschitzWith.of_dist_le_mul fun x y => ?_
    refine (hK.dist_le_mul _ (clampTo_mem hle x) _ (clampTo_mem hle y)).trans ?_
    have := (clampTo_lipschitz lo hi).dist_le_mul x y
    rw [NNReal.coe_one, one_mul] at this
    exact mul_le_mul_of_nonneg_left this K.2
  have hBc : ContinuousOn B (Set.Icc lo hi) := fun z hz => (hB z hz).continuousAt.continuousWithinAt
  obtain ⟨b, hb⟩ := hcomp.exists_bound_of_continuousOn hBc
  obtain ⟨c, hc⟩ := (isCompact_Icc (a := -T) (b := T)).exists_bound_of_continuousOn hA.continuousOn
  have hL : ∀ t ∈ Set.Icc (-T) T, ∀ z, ‖A t + B (clampTo lo hi z)‖ ≤ (Real.toNNReal (c + b) : ℝ) := fun t ht z =>
    ((norm_add_le _ _).trans (add_le_add (hc t ht) (hb _ (clampTo_mem hle z)))).trans (Real.le_coe_toNNReal _)
  have hP : IsPicardLindelof (fun t z => A t + B (clampTo lo hi z)) (⟨0, by constructor <;> linarith⟩ : Set.Icc (-T) T) z0
      (Real.toNNReal (c + b) * Real.toNNReal T) 0 (Real.toNNReal (c + b)) K :=
    ⟨fun t _ => (LipschitzWith.of_dist_le_mul fun x y => by
        rw [dist_add_left]; exact hKc.dist_le_mul x y).lipschitzOnWith,
      fun z _ => (hA.add continuous_const).continuousOn, fun t ht z _ => hL t ht z, by
        simp [hT.le]⟩
  obtain ⟨z, h0, hz⟩ := hP.exists_eq_forall_mem_Icc_hasDerivWithinAt₀
  exact ⟨z, h0, fun t ht => (hz t (Set.Ioo_subset_Icc_self ht)).hasDerivAt (Icc_mem_nhds ht.1 ht.2)⟩

/-- gravity on the equator -/
noncomputable def eqG (h : ℝ) : ℝ := 9.7803267715 * (1 - 2 / 6378137 * (1 + 1 / 298.257222101 + mR) * h + 3 * h ^ 2 / 6378137 ^ 2)

/-- the navigation equations on the equator, for (altitude, velocity east, velocity down, longitude), without the specific force -/
noncomputable def eqB (z : Fin 4 → ℝ) : Fin 4 → ℝ :=
  ![-z 2, (2 * earthRate + z 1 / (6378137 + z 0)) * z 2, eqG (z 0) - (2 * earthRate + z 1 / (6378137 + z 0)) * z 1, z 1 / (6378137 + z 0)]

/-- the specific force (east and down) that a navigator computes from the readings of a vehicle at rest, when it takes its attitude to turn with the Earth -/
noncomputable def eqA (h₀ t : ℝ) : Fin 4 → ℝ := ![0, eqG h₀ * Real.sin (earthRate * t), -(eqG h₀ * Real.cos (earthRate * t)), 0]

/-- the box in which the motion stays for ten minutes -/
def boxLo (h₀ : ℝ) : Fin 4 → ℝ := ![h₀ - 20000, -200, -100, 0]
def boxHi (h₀ : ℝ) : Fin 4 → ℝ := ![h₀ + 20000, 200, 100, 0]

theorem box_le (h₀ : ℝ) : boxLo h₀ ≤ boxHi h₀ := by
  intro i; fin_cases i <;> (simp [boxLo, boxHi]; try linarith)

theorem eqB_smooth (h₀ : ℝ) (hh : 0 ≤ h₀) (z : Fin 4 → ℝ) (hz : z ∈ Set.Icc (boxLo h₀) (boxHi h₀)) : ContDiffAt ℝ 1 eqB z := by
  have h1 : 6378137 + z 0 ≠ 0 := by
    have : h₀ - 20000 ≤ z 0 := hz.1 0
    have : 0 < 6378137 + z 0 := by linarith
    exact this.ne'
  have hc : ∀ i : Fin 4, ContDiffAt ℝ 1 (fun z : Fin 4 → ℝ => z i) z := fun i => (contDiff_apply ℝ ℝ i).contDiffAt
  have hq : ContDiffAt ℝ 1 (fun z : Fin 4 → ℝ => z 1 / (6378137 + z 0)) z := (hc 1).div (contDiffAt_const.add (hc 0)) h1
  have hG : ContDiffAt ℝ 1 (fun z : Fin 4 → ℝ => eqG (z 0)) z :=
    contDiffAt_const.mul ((contDiffAt_const.sub (contDiffAt_const.mul (hc 0))).add ((contDiffAt_const.mul ((hc 0).pow 2)).div_const _))
  refine contDiffAt_pi.2 fun i => ?_
  fin_cases i
  · exact (hc 2).neg
  · exact (contDiffAt_const.add hq).mul (hc 2)
  · exact hG.sub ((contDiffAt_const.add hq).mul (hc 1))
  · exact hq

theorem mR_small : 0 ≤ mR ∧ mR ≤ 0.0035 := by
  unfold mR
  constructor
  · positivity
  · norm_num

theorem eqG_bounds {h : ℝ} (h0 : 0 ≤ h) (h1 : h ≤ 20000) : 9.71 ≤ eqG h ∧ eqG h ≤ 9.781 := by
  obtain ⟨m0, m1⟩ := mR_small
  have a1 : 0 ≤ 2 / 6378137 * (1 + 1 / 298.257222101 + mR) * h := by positivity
  have a2 : 2 / 6378137 * (1 + 1 / 298.257222101 + mR) * h ≤ 2 / 6378137 * (1 + 1 / 298.257222101 + 0.0035) * 20000 := by gcongr
  have a3 : 0 ≤ 3 * h ^ 2 / 6378137 ^ 2 := by positivity
  have a5 : 3 * h ^ 2 / 6378137 ^ 2 ≤ 3 * 20000 / 6378137 ^ 2 * h := by
    rw [div_mul_eq_mul_div]
    refine div_le_div_of_nonneg_right ?_ (by norm_num)
    nlinarith
  have a6 : 2 / 6378137 * (1 + 0 + 0) * h ≤ 2 / 6378137 * (1 + 1 / 298.257222101 + mR) * h := by gcongr; norm_num
  have a4 : 3 * 20000 / 6378137 ^ 2 * h ≤ 2 / 6378137 * (1 + 0 + 0) * h := mul_le_mul_of_nonneg_right (by norm_num) h0
  unfold eqG
  constructor
  · have : (2 : ℝ) / 6378137 * (1 + 1 / 298.257222101 + 0.0035) * 20000 ≤ 0.00632 := by norm_num
    linarith
  · linarith

theorem eqG_lipschitz {h k : ℝ} (h0 : 0 ≤ h) (h1 : h ≤ 20000) (hk : |k - h| ≤ 20000) : |eqG k - eqG h| ≤ 0.0626 := by
  obtain ⟨m0, m1⟩ := mR_small
  have e : eqG k - eqG h = 9.7803267715 * (3 * (k + h) / 6378137 ^ 2 - 2 / 6378137 * (1 + 1 / 298.257222101 + mR)) * (k - h) := by
    unfold eqG; ring
  obtain ⟨k1, k2⟩ := abs_le.1 hk
  have b1 : |9.7803267715 * (3 * (k + h) / 6378137 ^ 2 - 2 / 6378137 * (1 + 1 / 298.257222101 + mR))| ≤ 3.13e-6 := by
    have c1 : 3 * (k + h) / 6378137 ^ 2 ≤ 5e-9 := by rw [div_le_iff₀ (by norm_num)]; linarith
    have c2 : -1.5e-9 ≤ 3 * (k + h) / 6378137 ^ 2 := by rw [le_div_iff₀ (by norm_num)]; linarith
    have c3 : (2 : ℝ) / 6378137 * (1 + 1 / 298.257222101 + mR) ≤ 2 / 6378137 * (1 + 1 / 298.257222101 + 0.0035) := by gcongr
    have c4 : (2 : ℝ) / 6378137 * (1 + 1 / 298.257222101 + 0.0035) ≤ 3.158e-7 := by norm_num
    have c5 : 0 ≤ (2 : ℝ) / 6378137 * (1 + 1 / 298.257222101 + mR) := by positivity
    rw [abs_le]; constructor <;> linarith
  rw [e, abs_mul]
  calc _ ≤ 3.13e-6 * 20000 := mul_le_mul b1 hk (abs_nonneg _) (by norm_num)
    _ ≤ 0.0626 := by norm_num

/-- The motion that the readings of a vehicle at rest on the equator describe, when the attitude is integrated without subtracting the rotation of the Earth. -/
theorem drift_motion (h₀ lon : ℝ) (hh : 0 ≤ h₀) (htop : h₀ ≤ 20000) :
    ∃ a < 0, ∃ z : ℝ → Fin 4 → ℝ, z 0 = ![h₀, 0, 0, lon] ∧
      (∀ t ∈ Set.Ioo a 600.5, |z t 0 - h₀| ≤ 20000 ∧ HasDerivAt z (eqA h₀ t + eqB (z t)) t) ∧
      ∀ t ∈ Set.Icc 0 600, |z t 0 - h₀| ≤ 0.054 * t ^ 2 ∧ |z t 1| ≤ 3.7e-4 * t ^ 2 ∧ |z t 2| ≤ 0.108 * t ∧ 3.4e-4 * t ^ 2 ≤ z t 1 ∧ 1.76e-11 * t ^ 3 ≤ z t 3 - lon := by
  have hAc : Continuous (eqA h₀) := by
    refine continuous_pi fun i => ?_
    fin_cases i
    · exact continuous_const
    · exact continuous_const.mul (Real.continuous_sin.comp (continuous_const.mul continuous_id))
    · exact (continuous_const.mul (Real.continuous_cos.comp (continuous_const.mul continuous_id))).neg
    · exact continuous_const
  obtain ⟨z, z0, hz⟩ := clamped_solution (eqA h₀) hAc eqB (boxLo h₀) (boxHi h₀) (box_le h₀) (eqB_smooth h₀ hh) ![h₀, 0, 0, lon] 602 (by norm_num)
  set p : ℝ → Fin 4 → ℝ := fun t => clampTo (boxLo h₀) (boxHi h₀) (z t) with hp
  have pm : ∀ t, p t ∈ Set.Icc (boxLo h₀) (boxHi h₀) := fun t => clampTo_mem (box_le h₀) (z t)
  have p0 : ∀ t, |p t 0 - h₀| ≤ 20000 := fun t => by
    have h1 : h₀ - 20000 ≤ p t 0 := (pm t).1 0
    have h2 : p t 0 ≤ h₀ + 20000 := (pm t).2 0
    rw [abs_le]; constructor <;> linarith
  have p1 : ∀ t, |p t 1| ≤ 200 := fun t => by
    have h1 : -200 ≤ p t 1 := (pm t).1 1
    have h2 : p t 1 ≤ 200 := (pm t).2 1
    rw [abs_le]; constructor <;> linarith
  have p2 : ∀ t, |p t 2| ≤ |z t 2| := fun t => by
    show |max (-100) (min 100 (z t 2))| ≤ _
    rcases le_total 0 (z t 2) with h | h
    · have h1 : (0 : ℝ) ≤ min 100 (z t 2) := le_min (by norm_num) h
      rw [abs_of_nonneg h, max_eq_right (by linarith), abs_of_nonneg h1]
      exact min_le_right _ _
    · rw [abs_of_nonpos h, min_eq_right (by linarith), abs_of_nonpos (max_le (by norm_num) h)]
      linarith [le_max_right (-100 : ℝ) (z t 2)]
  have hd : ∀ t ∈ Set.Ioo (-602 : ℝ) 602, ∀ i, HasDerivAt (fun t => z t i) ((eqA h₀ t + eqB (p t)) i) t := fun t ht => hasDerivAt_pi.1 (hz t ht)
  obtain ⟨g1, g2⟩ := eqG_bounds hh htop
  have hden : ∀ t, 6358137 ≤ 6378137 + p t 0 ∧ 6378137 + p t 0 ≤ 6418137 := fun t => by
    obtain ⟨a1, a2⟩ := abs_le.1 (p0 t); constructor <;> linarith
  have hco : ∀ t, |2 * earthRate + p t 1 / (6378137 + p t 0)| ≤ 1.774e-4 := fun t => by
    have h1 : |p t 1 / (6378137 + p t 0)| ≤ 200 / 6358137 := by
      rw [abs_div, abs_of_pos (show 0 < 6378137 + p t 0 by linarith [(hden t).1])]
      exact div_le_div₀ (by norm_num) (p1 t) (by norm_num) (hden t).1
    refine (abs_add_le _ _).trans ?_
    have h2 : |2 * earthRate| ≤ 1.4585e-4 := by unfold earthRate; rw [abs_of_pos] <;> norm_num
    have h3 : (200 : ℝ) / 6358137 ≤ 3.155e-5 := by norm_num
    linarith
  have hx : ∀ t ∈ Set.Icc (0 : ℝ) 601, 0 ≤ earthRate * t ∧ earthRate * t ≤ 0.04383 := fun t ht => by
    unfold earthRate
    constructor
    · have := ht.1; positivity
    · have := ht.2; norm_num; linarith
  have hIoo : ∀ t ∈ Set.Icc (0 : ℝ) 601, t ∈ Set.Ioo (-602 : ℝ) 602 := fun t ht => ⟨by linarith [ht.1], by linarith [ht.2]⟩
  have d0 : ∀ t ∈ Set.Icc (0 : ℝ) 601, HasDerivAt (fun t => z t 0) (-p t 2) t := fun t ht => by
    have := hd t (hIoo t ht) 0; simpa [eqA, eqB] using this
  have d1 : ∀ t ∈ Set.Icc (0 : ℝ) 601, HasDerivAt (fun t => z t 1) (eqG h₀ * Real.sin (earthRate * t) + (2 * earthRate + p t 1 / (6378137 + p t 0)) * p t 2) t :=
    fun t ht => by have := hd t (hIoo t ht) 1; simpa [eqA, eqB] using this
  have d2 : ∀ t ∈ Set.Icc (0 : ℝ) 601, HasDerivAt (fun t => z t 2)
      (-(eqG h₀ * Real.cos (earthRate * t)) + (eqG (p t 0) - (2 * earthRate + p t 1 / (6378137 + p t 0)) * p t 1)) t :=
    fun t ht => by have := hd t (hIoo t ht) 2; simpa [eqA, eqB] using this
  have d3 : ∀ t ∈ Set.Icc (0 : ℝ) 601, HasDerivAt (fun t => z t 3) (p t 1 / (6378137 + p t 0)) t :=
    fun t ht => by have := hd t (hIoo t ht) 3; simpa [eqA, eqB] using this
  have hlin : ∀ c x : ℝ, HasDerivAt (fun t => c * t) c x := fun c x => by simpa using (hasDerivAt_id x).const_mul c
  have hsq : ∀ c x : ℝ, HasDerivAt (fun t => c * t ^ 2) (2 * c * x) x := fun c x => by
    have := (hasDerivAt_pow 2 x).const_mul c; exact this.congr_deriv (by simp; ring)
  have hcu : ∀ c x : ℝ, HasDerivAt (fun t => c * t ^ 3) (3 * c * x ^ 2) x := fun c x => by
    have := (hasDerivAt_pow 3 x).const_mul c; exact this.congr_deriv (by simp; ring)
  have b2 : ∀ t ∈ Set.Icc (0 : ℝ) 601, |z t 2| ≤ 0.108 * t := by
    refine image_norm_le_of_norm_deriv_right_le_deriv_boundary (B := fun t => 0.108 * t) (fun t ht => (d2 t ht).continuousAt.continuousWithinAt)
      (fun t ht => (d2 t (Set.Ico_subset_Icc_self ht)).hasDerivWithinAt) (by simp [z0]) (hlin 0.108) fun t ht => ?_
    have ht' := Set.Ico_subset_Icc_self ht
    rw [Real.norm_eq_abs]
    have e : -(eqG h₀ * Real.cos (earthRate * t)) + (eqG (p t 0) - (2 * earthRate + p t 1 / (6378137 + p t 0)) * p t 1)
      = eqG h₀ * (1 - Real.cos (earthRate * t)) + (eqG (p t 0) - eqG h₀) - (2 * earthRate + p t 1 / (6378137 + p t 0)) * p t 1 := by ring
    rw [e]
    obtain ⟨x0, x1⟩ := hx t ht'
    have c1 := Real.one_sub_sq_div_two_le_cos (x := earthRate * t)
    have c2 := Real.cos_le_one (earthRate * t)
    have c3 : (earthRate * t) ^ 2 ≤ 0.04383 ^ 2 := by gcongr
    have q1 : |eqG h₀ * (1 - Real.cos (earthRate * t))| ≤ 9.781 * (0.04383 ^ 2 / 2) := by
      rw [abs_of_nonneg (mul_nonneg (by linarith) (by linarith))]
      exact mul_le_mul g2 (by linarith) (by linarith) (by norm_num)
    have q2 := eqG_lipschitz hh htop (p0 t)
    have q3 : |(2 * earthRate + p t 1 / (6378137 + p t 0)) * p t 1| ≤ 1.774e-4 * 200 := by
      rw [abs_mul]; exact mul_le_mul (hco t) (p1 t) (abs_nonneg _) (by norm_num)
    refine (abs_sub _ _).trans ?_
    have := abs_add_le (eqG h₀ * (1 - Real.cos (earthRate * t))) (eqG (p t 0) - eqG h₀)
    have k1 : (9.781 : ℝ) * (0.04383 ^ 2 / 2) ≤ 0.0095 := by norm_num
    have k2 : (1.774e-4 : ℝ) * 200 ≤ 0.0355 := by norm_num
    linarith
  have b0 : ∀ t ∈ Set.Icc (0 : ℝ) 601, |z t 0 - h₀| ≤ 0.054 * t ^ 2 := by
    refine image_norm_le_of_norm_deriv_right_le_deriv_boundary (f := fun t => z t 0 - h₀) (B := fun t => 0.054 * t ^ 2)
      (fun t ht => ((d0 t ht).sub_const h₀).continuousAt.continuousWithinAt)
      (fun t ht => ((d0 t (Set.Ico_subset_Icc_self ht)).sub_const h₀).hasDerivWithinAt) (by simp [z0]) (hsq 0.054) fun t ht => ?_
    have ht' := Set.Ico_subset_Icc_self ht
    rw [Real.norm_eq_abs, abs_neg]
    have := (p2 t).trans (b2 t ht')
    linarith
  have q4 : ∀ t ∈ Set.Icc (0 : ℝ) 601, |(2 * earthRate + p t 1 / (6378137 + p t 0)) * p t 2| ≤ 1.92e-5 * t := fun t ht => by
    rw [abs_mul]
    have h1 := mul_le_mul (hco t) ((p2 t).trans (b2 t ht)) (abs_nonneg _) (by norm_num)
    have := ht.1
    norm_num at h1 ⊢
    linarith
  have b1 : ∀ t ∈ Set.Icc (0 : ℝ) 601, |z t 1| ≤ 3.7e-4 * t ^ 2 := by
    refine image_norm_le_of_norm_deriv_right_le_deriv_boundary (B := fun t => 3.7e-4 * t ^ 2) (fun t ht => (d1 t ht).continuousAt.continuousWithinAt)
      (fun t ht => (d1 t (Set.Ico_subset_Icc_self ht)).hasDerivWithinAt) (by simp [z0]) (hsq 3.7e-4) fun t ht => ?_
    have ht' := Set.Ico_subset_Icc_self ht
    obtain ⟨x0, x1⟩ := hx t ht'
    rw [Real.norm_eq_abs]
    refine (abs_add_le _ _).trans ?_
    have h1 : |eqG h₀ * Real.sin (earthRate * t)| ≤ 9.781 * (earthRate * t) := by
      rw [abs_mul, abs_of_pos (show 0 < eqG h₀ by linarith)]
      refine mul_le_mul g2 ?_ (abs_nonneg _) (by norm_num)
      have := Real.abs_sin_le_abs (x := earthRate * t); rwa [abs_of_nonneg x0] at this
    have h2 : 9.781 * (earthRate * t) ≤ 7.14e-4 * t := by
      rw [← mul_assoc]; refine mul_le_mul_of_nonneg_right ?_ ht'.1; unfold earthRate; norm_num
    have h3 := q4 t ht'
    norm_num at h1 h2 h3 ⊢
    linarith [ht'.1]
  -- inside the box nothing is cut off
  have pin : ∀ t, |z t 0 - h₀| ≤ 20000 → |z t 1| ≤ 200 → |z t 2| ≤ 100 → eqB (p t) = eqB (z t) := fun t a0 a1 a2 => by
    have e0 : p t 0 = z t 0 := by
      show max (h₀ - 20000) (min (h₀ + 20000) (z t 0)) = z t 0
      obtain ⟨l, u⟩ := abs_le.1 a0
      rw [min_eq_right (by linarith), max_eq_right (by linarith)]
    have e1 : p t 1 = z t 1 := by
      show max (-200) (min 200 (z t 1)) = z t 1
      obtain ⟨l, u⟩ := abs_le.1 a1
      rw [min_eq_right (by linarith), max_eq_right (by linarith)]
    have e2 : p t 2 = z t 2 := by
      show max (-100) (min 100 (z t 2)) = z t 2
      obtain ⟨l, u⟩ := abs_le.1 a2
      rw [min_eq_right (by linarith), max_eq_right (by linarith)]
    simp only [eqB, e0, e1, e2]
  have hbox : ∀ t ∈ Set.Icc (0 : ℝ) 601, |z t 0 - h₀| ≤ 20000 ∧ |z t 1| ≤ 200 ∧ |z t 2| ≤ 100 := fun t ht => by
    have h2 : t ^ 2 ≤ 601 ^ 2 := by have := ht.1; have := ht.2; gcongr
    have := b0 t ht; have := b1 t ht; have := b2 t ht
    refine ⟨?_, ?_, ?_⟩
    · linarith
    · norm_num at *; linarith
    · linarith [ht.2]
  have hc0 : ContinuousAt z 0 := (hz 0 (by norm_num)).continuousAt
  have hev : ∀ᶠ t in 𝓝 (0 : ℝ), |z t 0 - h₀| < 20000 ∧ |z t 1| < 200 ∧ |z t 2| < 100 := by
    have hi : ∀ i, ContinuousAt (fun t => z t i) 0 := fun i => (continuous_apply i).continuousAt.comp hc0
    refine (((hi 0).sub continuousAt_const).abs.eventually_lt continuousAt_const ?_).and
      (((hi 1).abs.eventually_lt continuousAt_const ?_).and ((hi 2).abs.eventually_lt continuousAt_const ?_)) <;> simp [z0]
  obtain ⟨η, hη, H⟩ := Metric.eventually_nhds_iff.1 hev
  have hall : ∀ t ∈ Set.Ioo (-min η 602) 600.5, |z t 0 - h₀| ≤ 20000 ∧ |z t 1| ≤ 200 ∧ |z t 2| ≤ 100 := fun t ht => by
    rcases le_or_gt 0 t with h | h
    · exact hbox t ⟨h, by have := ht.2; norm_num at this; linarith⟩
    · have hm : |t| < η := by rw [abs_of_neg h]; linarith [ht.1, min_le_left η 602]
      have := @H t (by rwa [Real.dist_0_eq_abs])
      exact ⟨this.1.le, this.2.1.le, this.2.2.le⟩
  have hsub : ∀ t ∈ Set.Icc (0 : ℝ) 600, t ∈ Set.Icc (0 : ℝ) 601 := fun t ht => ⟨ht.1, by linarith [ht.2]⟩
  have mono : ∀ (F F' : ℝ → ℝ), (∀ t ∈ Set.Icc (0 : ℝ) 601, HasDerivAt F (F' t) t) → (∀ t ∈ Set.Ioo (0 : ℝ) 601, 0 ≤ F' t) → F 0 = 0 →
      ∀ t ∈ Set.Icc (0 : ℝ) 601, 0 ≤ F t := fun F F' hF h0 hz0 t ht => by
    have hm : MonotoneOn F (Set.Icc 0 601) := by
      refine monotoneOn_of_deriv_nonneg (convex_Icc 0 601) (fun s hs => (hF s hs).continuousAt.continuousWithinAt) (fun s hs => ?_) (fun s hs => ?_)
      · rw [interior_Icc] at hs
        exact (hF s (Set.Ioo_subset_Icc_self hs)).differentiableAt.differentiableWithinAt
      · rw [interior_Icc] at hs
        rw [(hF s (Set.Ioo_subset_Icc_self hs)).deriv]; exact h0 s hs
    have := hm ⟨le_rfl, by norm_num⟩ ht ht.1
    rwa [hz0] at this
  have l1 : ∀ t ∈ Set.Icc (0 : ℝ) 601, 0 ≤ z t 1 - 3.4e-4 * t ^ 2 := by
    refine mono _ _ (fun t ht => (d1 t ht).sub (hsq 3.4e-4 t)) (fun t ht => ?_) (by simp [z0])
    have ht' := Set.Ioo_subset_Icc_self ht
    obtain ⟨x0, x1⟩ := hx t ht'
    have x2 : 0 < earthRate * t := mul_pos earthRate_pos ht.1
    have s1 := Real.sin_gt_sub_cube x2
    have s2 : (earthRate * t) ^ 3 ≤ 0.04383 ^ 2 * (earthRate * t) := by
      rw [show (earthRate * t) ^ 3 = (earthRate * t) ^ 2 * (earthRate * t) by ring]; gcongr
    have s3 : 0.9995 * (earthRate * t) ≤ Real.sin (earthRate * t) := by norm_num at s2 ⊢; linarith
    have s4 : 9.71 * (0.9995 * (earthRate * t)) ≤ eqG h₀ * Real.sin (earthRate * t) := mul_le_mul g1 s3 (by positivity) (by linarith)
    have s5 : 7.07e-4 * t ≤ 9.71 * (0.9995 * (earthRate * t)) := by
      rw [show 9.71 * (0.9995 * (earthRate * t)) = (9.71 * 0.9995 * earthRate) * t by ring]
      refine mul_le_mul_of_nonneg_right ?_ ht'.1; unfold earthRate; norm_num
    have s6 := (abs_le.1 (q4 t ht')).1
    norm_num at s5 s6 ⊢
    linarith [ht'.1]
  have l3 : ∀ t ∈ Set.Icc (0 : ℝ) 601, 0 ≤ z t 3 - lon - 1.76e-11 * t ^ 3 := by
    refine mono _ _ (fun t ht => ((d3 t ht).sub_const lon).sub (hcu 1.76e-11 t)) (fun t ht => ?_) (by simp [z0])
    have ht' := Set.Ioo_subset_Icc_self ht
    have e1 : p t 1 = z t 1 := by
      show max (-200) (min 200 (z t 1)) = z t 1
      obtain ⟨l, u⟩ := abs_le.1 (hbox t ht').2.1
      rw [min_eq_right (by linarith), max_eq_right (by linarith)]
    have h1 := l1 t ht'
    rw [e1]
    have h2 : 3.4e-4 * t ^ 2 / 6418137 ≤ z t 1 / (6378137 + p t 0) :=
      div_le_div₀ (le_trans (by positivity) (sub_nonneg.1 h1)) (sub_nonneg.1 h1) (by linarith [(hden t).1]) (hden t).2
    have h3 : 3 * 1.76e-11 * t ^ 2 ≤ 3.4e-4 * t ^ 2 / 6418137 := by
      rw [mul_div_right_comm]; exact mul_le_mul_of_nonneg_right (by norm_num) (sq_nonneg t)
    linarith
  refine ⟨-min η 602, by simp [hη], z, z0, fun t ht => ⟨(hall t ht).1, ?_⟩, fun t ht => ?_⟩
  · have h6 : t ∈ Set.Ioo (-602 : ℝ) 602 := ⟨by linarith [ht.1, min_le_right η 602], by have := ht.2; norm_num at this; linarith⟩
    rw [← pin t (hall t ht).1 (hall t ht).2.1 (hall t ht).2.2]
    exact hz t h6
  · have ht' := hsub t ht
    exact ⟨b0 t ht', b1 t ht', b2 t ht', sub_nonneg.1 (l1 t ht'), sub_nonneg.1 (l3 t ht')⟩

/-- what a navigator at rest on the equator with perfect sensors takes for the specific force: a vector turning with the Earth -/
theorem drift_force (lon h₀ : ℝ) (R₀ : M3 ℝ) (hR : IsRot R₀) (X : ℝ → M3 ℝ) (hX0 : X 0 = R₀)
    (hX : ∀ τ u, HasDerivAt (fun s => X s *ᵥ u) (X τ *ᵥ ((R₀ᵀ *ᵥ earthVec 0) ⨯₃ u)) τ) (t : ℝ) :
    X t *ᵥ (R₀ᵀ *ᵥ (-stateGravity ![0, lon, h₀, 0, 0, 0])) = ![0, eqG h₀ * Real.sin (earthRate * t), -(eqG h₀ * Real.cos (earthRate * t))] := by
  have hT : IsRot R₀ᵀ := hR.transpose
  set ω := R₀ᵀ *ᵥ earthVec 0 with hω
  have hg : -stateGravity ![0, lon, h₀, 0, 0, 0] = ![0, 0, -eqG h₀] := by
    have := gravity_equator ![0, lon, h₀, 0, 0, 0] rfl
    have g0 : stateGravity ![0, lon, h₀, 0, 0, 0] 0 = 0 := by rw [stateGravity, gravity_R]; simp
    ext i; fin_cases i
    · simp [g0]
    · simp [this.1]
    · simp [this.2, eqG]
  rw [hg]
  set f := R₀ᵀ *ᵥ ![0, 0, -eqG h₀] with hf
  set e := R₀ᵀ *ᵥ ![0, eqG h₀, 0] with he
  have c1 : ω ⨯₃ f = earthRate • e := by
    rw [hω, hf, he, hT.cross, ← mulVec_smul]
    congr 1
    ext i; fin_cases i <;> simp [earthVec, cross_apply]
  have c2 : ω ⨯₃ e = -(earthRate • f) := by
    rw [hω, hf, he, hT.cross, ← mulVec_smul, ← mulVec_neg]
    congr 1
    ext i; fin_cases i <;> simp [earthVec, cross_apply]
  have df : ∀ τ, HasDerivAt (fun s => X s *ᵥ f) (earthRate • (X τ *ᵥ e)) τ := fun τ => by
    have := hX τ f; rwa [c1, mulVec_smul] at this
  have de : ∀ τ, HasDerivAt (fun s => X s *ᵥ e) (-(earthRate • (X τ *ᵥ f))) τ := fun τ => by
    have := hX τ e; rwa [c2, mulVec_neg, mulVec_smul] at this
  have hΩ : ∀ τ : ℝ, HasDerivAt (fun s => earthRate * s) earthRate τ := fun τ => by simpa using (hasDerivAt_id τ).const_mul earthRate
  have hp : ∀ τ, HasDerivAt (fun s => Real.cos (earthRate * s) • (X s *ᵥ f) - Real.sin (earthRate * s) • (X s *ᵥ e)) 0 τ := fun τ => by
    have := ((hΩ τ).cos.smul (df τ)).sub ((hΩ τ).sin.smul (de τ))
    refine this.congr_deriv ?_
    ext i; simp; ring
  have hq : ∀ τ, HasDerivAt (fun s => Real.sin (earthRate * s) • (X s *ᵥ f) + Real.cos (earthRate * s) • (X s *ᵥ e)) 0 τ := fun τ => by
    have := ((hΩ τ).sin.smul (df τ)).add ((hΩ τ).cos.smul (de τ))
    refine this.congr_deriv ?_
    ext i; simp; ring
  have kp := is_const_of_deriv_eq_zero (fun τ => (hp τ).differentiableAt) (fun τ => (hp τ).deriv) t 0
  have kq := is_const_of_deriv_eq_zero (fun τ => (hq τ).differentiableAt) (fun τ => (hq τ).deriv) t 0
  have f0 : X 0 *ᵥ f = ![0, 0, -eqG h₀] := by rw [hX0, hf, mulVec_mulVec, hR.1, one_mulVec]
  have e0 : X 0 *ᵥ e = ![0, eqG h₀, 0] := by rw [hX0, he, mulVec_mulVec, hR.1, one_mulVec]
  simp only [mul_zero, Real.cos_zero, Real.sin_zero, one_smul, zero_smul, sub_zero, zero_add, f0, e0] at kp kq
  have hsum : X t *ᵥ f = Real.cos (earthRate * t) • (![0, 0, -eqG h₀] : V3 ℝ) + Real.sin (earthRate * t) • (![0, eqG h₀, 0] : V3 ℝ) := by
    rw [← kp, ← kq]
    ext i
    have := Real.sin_sq_add_cos_sq (earthRate * t)
    simp only [Pi.add_apply, Pi.sub_apply, Pi.smul_apply, smul_eq_mul]
    linear_combination (-(X t *ᵥ f) i) * this
  rw [hsum]
  ext i; fin_cases i <;> simp <;> ring

/-- C167 fails: a vehicle at rest on the equator, at any altitude up to 20 km and in any attitude `R₀`, initialised without error and measured without error
(the gyroscopes read the rotation of the Earth, the accelerometers read gravity). Whatever the attitude `X` that solves the attitude equation with those readings,
the navigator drives off to the east: at every step of the first ten minutes its velocity east is at least `3.4e-4 t²` m/s and its longitude has moved by at least
`1.76e-11 t³` rad, less a multiple of the step length. -/
theorem C167_drives_off_fails (lon h₀ : ℝ) (hh : 0 ≤ h₀) (htop : h₀ ≤ 20000) (R₀ : M3 ℝ) (hR : IsRot R₀) (X : ℝ → M3 ℝ) (hX0 : X 0 = R₀)
    (hX : ∀ τ u, HasDerivAt (fun s => X s *ᵥ u) (X τ *ᵥ ((R₀ᵀ *ᵥ earthVec 0) ⨯₃ u)) τ) :
    ∃ C, ∃ dt0 > 0, ∀ dt, 0 < dt → dt ≤ dt0 → ∀ Y : ℕ → Fin 6 → ℝ, Y 0 = ![0, lon, h₀, 0, 0, 0] →
      (∀ k : ℕ, ∃ old, strapdownRk4 ⟨6, Y k⟩ dt (X (k * dt + dt) *ᵥ (dt • (R₀ᵀ *ᵥ (-stateGravity ![0, lon, h₀, 0, 0, 0]))))
        (Gravity.gravityNed (Y k 0) (Y k 2)).2 ⟨6, old⟩ = .ok (true, ⟨6, Y (k + 1)⟩)) →
      ∀ k : ℕ, k * dt ≤ 600 → 3.4e-4 * (k * dt) ^ 2 - C * dt ≤ Y k 4 ∧ 1.76e-11 * (k * dt) ^ 3 - C * dt ≤ Y k 1 - lon := by
  obtain ⟨a, ha, z, z0, hz, hb⟩ := drift_motion h₀ lon hh htop
  have hM : meridian 0 = 6378137 * (1 - ecc2) := by simp [meridian, semiMajor]
  have hN : primeVertical 0 = 6378137 := by simp [primeVertical, semiMajor]
  have he : 6300000 ≤ 6378137 * (1 - ecc2) := by unfold ecc2 semiMinor semiMajor flattening; norm_num
  set y : ℝ → Fin 6 → ℝ := fun t => ![0, z t 3, z t 0, 0, z t 1, z t 2] with hy
  have hr : ∀ t ∈ Set.Ioo a 600.5, RegularPos (y t 0) (y t 2) := fun t ht => by
    have h1 := (abs_le.1 (hz t ht).1).1
    refine ⟨by simp [hy], ?_, ?_⟩
    · show meridian 0 + z t 0 ≠ 0
      rw [hM]; have : 0 < 6378137 * (1 - ecc2) + z t 0 := by linarith
      exact this.ne'
    · show primeVertical 0 + z t 0 ≠ 0
      rw [hN]; have : 0 < 6378137 + z t 0 := by linarith
      exact this.ne'
  have hd : ∀ t ∈ Set.Ioo a 600.5, HasDerivAt y (navRates (X t *ᵥ (R₀ᵀ *ᵥ (-stateGravity ![0, lon, h₀, 0, 0, 0]))) (stateGravity (y t)) (y t)) t := fun t ht => by
    have hi := hasDerivAt_pi.1 (hz t ht).2
    rw [drift_force lon h₀ R₀ hR X hX0 hX t]
    obtain ⟨n0, n2, n3, n4, n5⟩ := navRates_apply ![0, eqG h₀ * Real.sin (earthRate * t), -(eqG h₀ * Real.cos (earthRate * t))] (stateGravity (y t)) (y t)
    have g := gravity_equator (y t) rfl
    have g0 : stateGravity (y t) 0 = 0 := by rw [stateGravity, gravity_R]; simp [hy]
    refine hasDerivAt_pi.2 fun i => ?_
    fin_cases i
    · refine (hasDerivAt_const t (0 : ℝ)).congr_deriv ?_
      refine Eq.trans ?_ n0.symm
      simp [hy]
    · refine (hi 3).congr_deriv ?_
      simp [eqA, eqB, navRates, posRates, hy, hN]
    · refine (hi 0).congr_deriv ?_
      refine Eq.trans ?_ n2.symm
      simp [eqA, eqB, hy]
    · refine (hasDerivAt_const t (0 : ℝ)).congr_deriv ?_
      refine Eq.trans ?_ n3.symm
      rw [g0]; simp [hy]
    · refine (hi 1).congr_deriv ?_
      refine Eq.trans ?_ n4.symm
      rw [g.1]; simp [eqA, eqB, hy, hN]
    · refine (hi 2).congr_deriv ?_
      refine Eq.trans ?_ n5.symm
      rw [g.2]; simp [eqA, eqB, hy, hN, eqG]; ring
  have hω : R₀ᵀ *ᵥ earthVec 0 ≠ 0 := fun h => by
    have h1 : R₀ *ᵥ (R₀ᵀ *ᵥ earthVec 0) = 0 := by rw [h, mulVec_zero]
    rw [mulVec_mulVec, hR.1, one_mulVec] at h1
    have := congrFun h1 0
    simp [earthVec, earthRate_pos.ne'] at this
  obtain ⟨C, dt0, hdt0, H⟩ := C105_converges a 600.5 600 ha (by norm_num) (by norm_num) X _ _ hω hX y hr hd
  refine ⟨C, dt0, hdt0, fun dt hdt hle Y hY0 hY k hk => ?_⟩
  have hy0 : y 0 = ![0, lon, h₀, 0, 0, 0] := by simp [hy, z0]
  have h := H dt hdt hle Y (hY0.trans hy0.symm) hY k hk
  obtain ⟨-, -, -, b1, b3⟩ := hb (k * dt) ⟨by positivity, hk⟩
  have h4 : |Y k 4 - z (k * dt) 1| ≤ C * dt := h 4
  have h1 : |Y k 1 - z (k * dt) 3| ≤ C * dt := h 1
  have := (abs_le.1 h4).1
  have := (abs_le.1 h1).1
  constructor <;> linarith

/-- C167 fails, in numbers: with small enough steps, the navigator of a vehicle at rest reports more than 120 m/s, and a position more than 24 km away, within ten
minutes. -/
theorem C167_ten_minutes_fails (lon h₀ : ℝ) (hh : 0 ≤ h₀) (htop : h₀ ≤ 20000) (R₀ : M3 ℝ) (hR : IsRot R₀) (X : ℝ → M3 ℝ) (hX0 : X 0 = R₀)
    (hX : ∀ τ u, HasDerivAt (fun s => X s *ᵥ u) (X τ *ᵥ ((R₀ᵀ *ᵥ earthVec 0) ⨯₃ u)) τ) :
    ∃ dt0 > 0, ∀ dt, 0 < dt → dt ≤ dt0 → ∀ Y : ℕ → Fin 6 → ℝ, Y 0 = ![0, lon, h₀, 0, 0, 0] →
      (∀ k : ℕ, ∃ old, strapdownRk4 ⟨6, Y k⟩ dt (X (k * dt + dt) *ᵥ (dt • (R₀ᵀ *ᵥ (-stateGravity ![0, lon, h₀, 0, 0, 0]))))
        (Gravity.gravityNed (Y k 0) (Y k 2)).2 ⟨6, old⟩ = .ok (true, ⟨6, Y (k + 1)⟩)) →
      ∃ k : ℕ, k * dt ≤ 600 ∧ 120 ≤ Y k 4 ∧ 24000 ≤ 6378137 * (Y k 1 - lon) := by
  obtain ⟨C, dt0, hdt0, H⟩ := C167_drives_off_fails lon h₀ hh htop R₀ hR X hX0 hX
  refine ⟨min dt0 (min 1 (1e-5 / (|C| + 1))), by positivity, fun dt hdt hle Y hY0 hY => ?_⟩
  have l1 := hle.trans (min_le_left _ _)
  have l2 := hle.trans ((min_le_right _ _).trans (min_le_left _ _))
  have l3 := hle.trans ((min_le_right _ _).trans (min_le_right _ _))
  have hC : C * dt ≤ 1e-5 := by
    rw [le_div_iff₀ (by positivity)] at l3
    have := le_abs_self C
    nlinarith
  have hk1 : (⌊600 / dt⌋₊ : ℝ) * dt ≤ 600 := by
    have := Nat.floor_le (show 0 ≤ 600 / dt by positivity)
    rwa [le_div_iff₀ hdt] at this
  have hk2 : 599 ≤ (⌊600 / dt⌋₊ : ℝ) * dt := by
    have := Nat.lt_floor_add_one (600 / dt)
    rw [div_lt_iff₀ hdt] at this
    linarith
  obtain ⟨h4, h1⟩ := H dt hdt l1 Y hY0 hY ⌊600 / dt⌋₊ hk1
  refine ⟨⌊600 / dt⌋₊, hk1, ?_, ?_⟩
  · have : (599 : ℝ) ^ 2 ≤ ((⌊600 / dt⌋₊ : ℝ) * dt) ^ 2 := by gcongr
    norm_num at *; linarith
  · have : (599 : ℝ) ^ 3 ≤ ((⌊600 / dt⌋₊ : ℝ) * dt) ^ 3 := by gcongr
    norm_num at *; linarith

/-- C167, what does hold: if the gyroscope readings are relative to north, east and down (somebody has subtracted the rotation of the Earth) and do not tilt the
vehicle, then the navigator stays exactly where it is for ever, at every latitude. (Full claim: it stays there with the readings that sensors at rest give; missing: the
code never subtracts the rotation of the Earth, see `C167_drives_off_fails`.) -/
theorem C167_rates_relative_to_ned_partial (p : V3 ℝ) (X : ℝ → M3 ℝ) (ω f : V3 ℝ) (hX : ∀ τ u, HasDerivAt (fun s => X s *ᵥ u) (X τ *ᵥ (ω ⨯₃ u)) τ)
    (hup : ω ⨯₃ f = 0) (hf : X 0 *ᵥ f = -stateGravity ![p 0, p 1, p 2, 0, 0, 0]) (dt : ℝ) (hdt : dt ≠ 0) (Y : ℕ → Fin 6 → ℝ) (h0 : Y 0 = ![p 0, p 1, p 2, 0, 0, 0])
    (hY : ∀ k : ℕ, ∃ old, strapdownRk4 ⟨6, Y k⟩ dt (X (k * dt + dt) *ᵥ (dt • f)) (Gravity.gravityNed (Y k 0) (Y k 2)).2 ⟨6, old⟩ = .ok (true, ⟨6, Y (k + 1)⟩)) (k : ℕ) :
    Y k = ![p 0, p 1, p 2, 0, 0, 0] := by
  have hconst : ∀ t, X t *ᵥ f = -stateGravity ![p 0, p 1, p 2, 0, 0, 0] := by
    intro t
    rw [← hf]
    refine is_const_of_deriv_eq_zero (f := fun s => X s *ᵥ f) (fun τ => (hX τ f).differentiableAt) (fun τ => ?_) t 0
    rw [(hX τ f).deriv, hup, mulVec_zero]
  induction k with
  | zero => exact h0
  | succ k ih =>
    obtain ⟨old, h⟩ := hY k
    rw [ih, mulVec_smul, hconst, C40_classical_rk4, smul_smul, inv_mul_cancel₀ hdt, one_smul] at h
    have h1 := stationary_step p (stateGravity ![p 0, p 1, p 2, 0, 0, 0]) dt
    simp only [stateGravity] at h1 h
    rw [h1] at h
    simpa using h.symm

/-- non-vacuity: the attitude and the computed sequence exist for every start and every step -/
example (lon h₀ dt : ℝ) (R₀ : M3 ℝ) (hR : IsRot R₀) :
    ∃ X : ℝ → M3 ℝ, X 0 = R₀ ∧ (∀ τ u, HasDerivAt (fun s => X s *ᵥ u) (X τ *ᵥ ((R₀ᵀ *ᵥ earthVec 0) ⨯₃ u)) τ) ∧
      ∃ Y : ℕ → Fin 6 → ℝ, Y 0 = ![0, lon, h₀, 0, 0, 0] ∧
      ∀ k : ℕ, ∃ old, strapdownRk4 ⟨6, Y k⟩ dt (X (k * dt + dt) *ᵥ (dt • (R₀ᵀ *ᵥ (-stateGravity ![0, lon, h₀, 0, 0, 0]))))
        (Gravity.gravityNed (Y k 0) (Y k 2)).2 ⟨6, old⟩ = .ok (true, ⟨6, Y (k + 1)⟩) := by
  have hω : R₀ᵀ *ᵥ earthVec 0 ≠ 0 := fun h => by
    have h1 : R₀ *ᵥ (R₀ᵀ *ᵥ earthVec 0) = 0 := by rw [h, mulVec_zero]
    rw [mulVec_mulVec, hR.1, one_mulVec] at h1
    have := congrFun h1 0
    simp [earthVec, earthRate_pos.ne'] at this
  obtain ⟨X, h0, hX⟩ := exists_attitude R₀ _ hω
  exact ⟨X, h0, hX, fun k => Nat.rec ![0, lon, h₀, 0, 0, 0] (fun k y => rk4 (navRates (dt⁻¹ • (X (k * dt + dt) *ᵥ (dt • (R₀ᵀ *ᵥ (-stateGravity ![0, lon, h₀, 0, 0, 0])))))
    (Gravity.gravityNed (y 0) (y 2)).2) dt y) k, rfl, fun k => ⟨0, C40_classical_rk4 _ _ _ _ _⟩⟩

example : IsRot (1 : M3 ℝ) := ⟨by simp, by simp⟩

/-- non-vacuity of the partial claim: level, turning about the vertical -/
example (w : ℝ) (hw : w ≠ 0) (p : V3 ℝ) (hp : stateGravity ![p 0, p 1, p 2, 0, 0, 0] 0 = 0) : ∃ X : ℝ → M3 ℝ, X 0 = 1
    ∧ (∀ τ u, HasDerivAt (fun s => X s *ᵥ u) (X τ *ᵥ (![0, 0, w] ⨯₃ u)) τ) ∧ (![0, 0, w] ⨯₃ (-stateGravity ![p 0, p 1, p 2, 0, 0, 0]) : V3 ℝ) = 0 := by
  obtain ⟨X, h0, hX⟩ := exists_attitude 1 ![0, 0, w] fun h0 => hw (by simpa using congrFun h0 2)
  have g1 : stateGravity ![p 0, p 1, p 2, 0, 0, 0] 1 = 0 := by rw [stateGravity, gravity_R]; rfl
  exact ⟨X, h0, hX, by ext i; fin_cases i <;> simp [cross_apply, hp, g1]⟩

end NavFuse.Props
