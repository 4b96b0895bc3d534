import Verif.Props.StrapdownNav
import Verif.Props.Geodesy

/-! # Properties C171 and C172: level flight along a parallel, and what happens at the 180th meridian -/

set_option linter.unusedSectionVars false

namespace NavFuse.Props
open Matrix NavFuse.Spec NavFuse.Strapdown NavFuse.NavUtils NavFuse.XR NavFuse.Rotations

/-- the rate of longitude of a vehicle flying east with speed `v` at latitude `lat` and altitude `h` -/
noncomputable def lonRate (lat h v : ℝ) : ℝ := v / ((primeVertical lat + h) * Real.cos lat)

/-- the specific force (north, east, down) that keeps a vehicle flying east with constant speed `v` at constant latitude and altitude where gravity is `g`: it balances
gravity, the Coriolis acceleration and the curvature of the path -/
noncomputable def levelForce (lat h v : ℝ) (g : V3 ℝ) : V3 ℝ :=
  ((2 : ℝ) • earthVec lat + transportVec lat 0 (lonRate lat h v)) ⨯₃ ![0, v, 0] - g

theorem level_rates (lat x h v : ℝ) (g : V3 ℝ) : navRates (levelForce lat h v g) g ![lat, x, h, 0, v, 0] = ![0, lonRate lat h v, 0, 0, 0, 0] := by
  have e : velRates lat h ![0, v, 0] (levelForce lat h v g) g = 0 := by
    rw [velRates, levelForce]
    simp [posRates, lonRate]
  ext i
  fin_cases i <;> simp [navRates, posRates, lonRate, e]

theorem level_stage (lat x h v c w : ℝ) : (![lat, x, h, 0, v, 0] : Fin 6 → ℝ) + c • ![0, w, 0, 0, 0, 0] = ![lat, x + c * w, h, 0, v, 0] := by
  ext i; fin_cases i <;> simp

theorem level_step (lat x h v dt : ℝ) (g : V3 ℝ) : rk4 (navRates (levelForce lat h v g) g) dt ![lat, x, h, 0, v, 0] = ![lat, x + dt * lonRate lat h v, h, 0, v, 0] := by
  simp only [rk4, level_rates, level_stage]
  ext i; fin_cases i <;> simp; ring

/-- one call: the position moves along the parallel by exactly the rate times the interval -/
theorem level_call (s : St XR) (lat x h v : ℝ) (φ dV : V3 ℝ) (R R' : M3 ℝ) (t t' : Int) (hs : Ready s (finV ![lat, x, h]) (finV ![0, v, 0]) (finM R) t)
    (hp : RegularPos lat h) (hφ : φ ≠ 0) (ht : t' ≠ t) (hf : -2 ^ 63 ≤ t' - t ∧ t' - t < 2 ^ 63) (hR' : ∀ u, R' *ᵥ u = R *ᵥ rotByVec φ u)
    (hdV : R' *ᵥ dV = (((t' - t : ℤ) : ℝ) / 1000000) • levelForce lat h v (Gravity.gravityNed lat h).2) :
    ∃ s', integrate s (finV dV) (finV φ) t' = .ok (true, s')
      ∧ Ready s' (finV ![lat, x + ((t' - t : ℤ) : ℝ) / 1000000 * lonRate lat h v, h]) (finV ![0, v, 0]) (finM R') t' := by
  have hd0 : ((t' - t : ℤ) : ℝ) / 1000000 ≠ 0 := by
    have : ((t' - t : ℤ) : ℝ) ≠ 0 := by exact_mod_cast sub_ne_zero.2 ht
    positivity
  generalize hdt : ((t' - t : ℤ) : ℝ) / 1000000 = dt at *
  generalize hg : (Gravity.gravityNed lat h).2 = g at *
  have hF : dt⁻¹ • (R' *ᵥ dV) = levelForce lat h v g := by rw [hdV, smul_smul, inv_mul_cancel₀ hd0, one_smul]
  have hst : StagesRegular (navRates (levelForce lat h v g) g) dt ![lat, x, h, 0, v, 0] := by
    simp only [StagesRegular, level_rates, level_stage]
    exact ⟨hp, hp, hp, hp⟩
  have hz : (![(![lat, x, h] : V3 ℝ) 0, (![lat, x, h] : V3 ℝ) 1, (![lat, x, h] : V3 ℝ) 2, (![0, v, 0] : V3 ℝ) 0, (![0, v, 0] : V3 ℝ) 1, (![0, v, 0] : V3 ℝ) 2] : Fin 6 → ℝ)
      = ![lat, x, h, 0, v, 0] := rfl
  have hg' : (Gravity.gravityNed ((![lat, x, h] : V3 ℝ) 0) ((![lat, x, h] : V3 ℝ) 2)).2 = g := hg
  obtain ⟨s', e, h1, h2, h3⟩ := C90_runge_kutta_step s ![lat, x, h] ![0, v, 0] dV φ R t t' hs hφ ht hf R' hR' dt hdt.symm
    (by rw [hg', hF, hz]; exact hst) _ rfl
  rw [hg', hF, hz, level_step] at h1 h2
  refine ⟨s', e, h1, h2, h3, ?_⟩
  have := integrate_eval s (finV ![lat, x, h]) (finV ![0, v, 0]) (finV dV) (finV φ) (finM R) t t' hs hf
  rw [e] at this
  rw [show s' = _ from (Prod.mk.injEq _ _ _ _ ▸ Except.ok.inj this).2]

/-- C171: level flight along a parallel is tracked exactly. A vehicle flies east (or west, `v < 0`) with constant speed at any latitude except the poles and any
altitude above the ellipsoid, turning about its axes in any way (`φ k ≠ 0` is the rotation during interval `k`, `R k` the true attitude), measured without error at any
times. After every call position, velocity and attitude are the true ones, whatever the lengths of the intervals. -/
theorem C171_level_flight (lat lon h v : ℝ) (hc : Real.cos lat ≠ 0) (hh : 0 ≤ h) (s : ℕ → St XR) (t : ℕ → Int) (φ dV : ℕ → V3 ℝ) (R : ℕ → M3 ℝ)
    (h0 : Ready (s 0) (finV ![lat, lon, h]) (finV ![0, v, 0]) (finM (R 0)) (t 0)) (hφ : ∀ k, φ k ≠ 0)
    (ht : ∀ k, t (k + 1) ≠ t k ∧ -2 ^ 63 ≤ t (k + 1) - t k ∧ t (k + 1) - t k < 2 ^ 63) (hR : ∀ k u, R (k + 1) *ᵥ u = R k *ᵥ rotByVec (φ k) u)
    (hdV : ∀ k, R (k + 1) *ᵥ dV k = (((t (k + 1) - t k : ℤ) : ℝ) / 1000000) • levelForce lat h v (Gravity.gravityNed lat h).2)
    (hs : ∀ k, integrate (s k) (finV (dV k)) (finV (φ k)) (t (k + 1)) = .ok (true, s (k + 1))) (k : ℕ) :
    Ready (s k) (finV ![lat, lon + ((t k - t 0 : ℤ) : ℝ) / 1000000 * lonRate lat h v, h]) (finV ![0, v, 0]) (finM (R k)) (t k) := by
  induction k with
  | zero => simpa using h0
  | succ k ih =>
    obtain ⟨s', e, g⟩ := level_call (s k) lat _ h v (φ k) (dV k) (R k) (R (k + 1)) (t k) (t (k + 1)) ih (regular_of_surface hc hh) (hφ k) (ht k).1 (ht k).2
      (hR k) (hdV k)
    have hs' : s' = s (k + 1) := (Prod.mk.injEq _ _ _ _ ▸ Except.ok.inj (e.symm.trans (hs k))).2
    rw [hs'] at g
    convert g using 4
    push_cast
    ring_nf

/-- such a flight exists for every start, all times and every sequence of rotations -/
theorem level_flight_exists (lat lon h v : ℝ) (hc : Real.cos lat ≠ 0) (hh : 0 ≤ h) (s0 : St XR) (R0 : M3 ℝ) (hR0 : IsRot R0) (t : ℕ → Int) (φ : ℕ → V3 ℝ)
    (h0 : Ready s0 (finV ![lat, lon, h]) (finV ![0, v, 0]) (finM R0) (t 0)) (hφ : ∀ k, φ k ≠ 0)
    (ht : ∀ k, t (k + 1) ≠ t k ∧ -2 ^ 63 ≤ t (k + 1) - t k ∧ t (k + 1) - t k < 2 ^ 63) :
    ∃ (s : ℕ → St XR) (dV : ℕ → V3 ℝ) (R : ℕ → M3 ℝ), s 0 = s0 ∧ R 0 = R0 ∧ (∀ k, IsRot (R k)) ∧ (∀ k u, R (k + 1) *ᵥ u = R k *ᵥ rotByVec (φ k) u)
      ∧ (∀ k, R (k + 1) *ᵥ dV k = (((t (k + 1) - t k : ℤ) : ℝ) / 1000000) • levelForce lat h v (Gravity.gravityNed lat h).2)
      ∧ ∀ k, integrate (s k) (finV (dV k)) (finV (φ k)) (t (k + 1)) = .ok (true, s (k + 1)) := by
  let R : ℕ → M3 ℝ := fun k => Nat.rec R0 (fun j A => A * attInc (φ j)) k
  have hRs : ∀ k, R (k + 1) = R k * attInc (φ k) := fun k => rfl
  have hRr : ∀ k, IsRot (R k) := fun k => by
    induction k with
    | zero => exact hR0
    | succ k ih => rw [hRs]; exact ih.mul (attInc_isRot _ (hφ k))
  have hRu : ∀ k u, R (k + 1) *ᵥ u = R k *ᵥ rotByVec (φ k) u := fun k u => by rw [hRs, ← mulVec_mulVec, attInc_R _ _ (hφ k)]
  let f : ℕ → V3 ℝ := fun k => (((t (k + 1) - t k : ℤ) : ℝ) / 1000000) • levelForce lat h v (Gravity.gravityNed lat h).2
  let dV : ℕ → V3 ℝ := fun k => (R (k + 1))ᵀ *ᵥ f k
  have hdV : ∀ k, R (k + 1) *ᵥ dV k = f k := fun k => by
    show R (k + 1) *ᵥ ((R (k + 1))ᵀ *ᵥ f k) = f k
    rw [mulVec_mulVec, (hRr (k + 1)).1, one_mulVec]
  have hstep : ∀ k (s : {s : St XR // ∃ x, Ready s (finV ![lat, x, h]) (finV ![0, v, 0]) (finM (R k)) (t k)}),
      ∃ s' : {s : St XR // ∃ x, Ready s (finV ![lat, x, h]) (finV ![0, v, 0]) (finM (R (k + 1))) (t (k + 1))},
        integrate s.1 (finV (dV k)) (finV (φ k)) (t (k + 1)) = .ok (true, s'.1) := by
    rintro k ⟨s, x, hs⟩
    obtain ⟨s', e, g⟩ := level_call s lat x h v (φ k) (dV k) (R k) (R (k + 1)) (t k) (t (k + 1)) hs (regular_of_surface hc hh) (hφ k) (ht k).1 (ht k).2
      (hRu k) (hdV k)
    exact ⟨⟨s', _, g⟩, e⟩
  choose next hnext using hstep
  refine ⟨fun k => (Nat.rec ⟨s0, lon, h0⟩ next k : {s : St XR // ∃ x, Ready s (finV ![lat, x, h]) (finV ![0, v, 0]) (finM (R k)) (t k)}).1, dV, R, rfl, rfl, hRr, hRu, hdV,
    fun k => hnext _ _⟩

/-- non-vacuity of C171: an airliner at 60 degrees north, 250 m/s, 100 Hz, slowly rolling -/
example : ∃ (s : ℕ → St XR) (dV : ℕ → V3 ℝ) (R : ℕ → M3 ℝ), Ready (s 0) (finV ![Real.pi / 3, 3, 10000]) (finV ![0, 250, 0]) (finM (R 0)) 0
    ∧ (∀ k u, R (k + 1) *ᵥ u = R k *ᵥ rotByVec ![0.001, 0, 0] u)
    ∧ (∀ k : ℕ, R (k + 1) *ᵥ dV k = (((10000 * ((k + 1 : ℕ) : ℤ) - 10000 * (k : ℤ) : ℤ) : ℝ) / 1000000) • levelForce (Real.pi / 3) 10000 250 (Gravity.gravityNed (Real.pi / 3) 10000).2)
    ∧ ∀ k : ℕ, integrate (s k) (finV (dV k)) (finV ![0.001, 0, 0]) (10000 * ((k + 1 : ℕ) : ℤ)) = .ok (true, s (k + 1)) := by
  obtain ⟨s, dV, R, h0, hR0, -, h1, h2, h3⟩ := level_flight_exists (Real.pi / 3) 3 10000 250 (by rw [Real.cos_pi_div_three]; norm_num) (by norm_num)
    { lla := some (finV ![Real.pi / 3, 3, 10000]), vNed := some (finV ![0, 250, 0]), RB2N := some (finM 1), tov := some 0 } 1 IsRot.one
    (fun k => 10000 * (k : ℤ)) (fun _ => ![0.001, 0, 0]) ⟨rfl, rfl, rfl, rfl⟩ (fun _ h => by have := congrFun h 0; norm_num at this)
    (fun k => by push_cast; constructor <;> [omega; constructor] <;> linarith)
  exact ⟨s, dV, R, by rw [h0, hR0]; exact ⟨rfl, rfl, rfl, rfl⟩, h1, h2, h3⟩

/-! ## C172 -/

/-- `lla2Ecef`, `computeREcef2Ned` and `computeRNed2Ecef` all accept the position -/
def Convertible (p : V3 XR) : Prop :=
  ∀ (R0 : M3 XR) (r0 : V3 XR), (computeREcef2Ned (p 0) (p 1) R0).1 = true ∧ (computeRNed2Ecef (p 0) (p 1) R0).1 = true ∧ (lla2Ecef (p 0) (p 1) (p 2) r0).1 = true

/-- none of them accepts it -/
def NotConvertible (p : V3 XR) : Prop :=
  ∀ (R0 : M3 XR) (r0 : V3 XR), (computeREcef2Ned (p 0) (p 1) R0).1 = false ∧ (computeRNed2Ecef (p 0) (p 1) R0).1 = false ∧ (lla2Ecef (p 0) (p 1) (p 2) r0).1 = false

theorem rejected_fin (x l : ℝ) : rejected (fin x) l ↔ l < |x| := by
  simp [rejected]

theorem convertible_iff (p : V3 ℝ) : Convertible (finV p) ↔ |p 0| ≤ Real.pi / 2 ∧ |p 1| ≤ Real.pi := by
  have key := fun (R0 : M3 XR) (r0 : V3 XR) => C22_nan_accepted (fin (p 0)) (fin (p 1)) (fin (p 2)) R0 r0
  simp only [rejected_fin] at key
  simp only [Convertible, finV_apply]
  constructor
  · intro h
    by_contra hn
    have h1 := ((key (fun _ _ => nan) (fun _ => nan)).1).2 (by rw [not_and_or, not_le, not_le] at hn; exact hn)
    exact absurd (((h _ (fun _ => nan)).1).symm.trans h1) (by decide)
  · intro h R0 r0
    have hn : ¬(Real.pi / 2 < |p 0| ∨ Real.pi < |p 1|) := by rw [not_or, not_lt, not_lt]; exact h
    obtain ⟨k1, k2, k3⟩ := key R0 r0
    exact ⟨by simpa using mt k1.1 hn, by simpa using mt k2.1 hn, by simpa using mt k3.1 hn⟩

theorem notConvertible_iff (p : V3 ℝ) : NotConvertible (finV p) ↔ ¬Convertible (finV p) := by
  rw [convertible_iff]
  have key := fun (R0 : M3 XR) (r0 : V3 XR) => C22_nan_accepted (fin (p 0)) (fin (p 1)) (fin (p 2)) R0 r0
  simp only [rejected_fin] at key
  have e : ¬(|p 0| ≤ Real.pi / 2 ∧ |p 1| ≤ Real.pi) ↔ (Real.pi / 2 < |p 0| ∨ Real.pi < |p 1|) := by rw [not_and_or, not_le, not_le]
  rw [e]
  constructor
  · intro h
    exact ((key (fun _ _ => nan) (fun _ => nan)).1).1 (h _ (fun _ => nan)).1
  · intro h R0 r0
    obtain ⟨k1, k2, k3⟩ := key R0 r0
    exact ⟨k1.2 h, k2.2 h, k3.2 h⟩

/-- C172 fails: at every latitude off the poles, every altitude and every eastward speed, initialised on the 180th meridian with a longitude the conversions accept and fed
one exact reading over any interval, the navigator reports success and a position that every conversion to Earth-fixed coordinates rejects. -/
theorem C172_date_line_fails (s : St XR) (lat h v : ℝ) (rph φ : V3 ℝ) (t t' : Int) (hlat : |lat| < Real.pi / 2) (hh : 0 ≤ h) (hv : 0 < v) (hφ : φ ≠ 0) (ht : t < t')
    (hf : t' - t < 2 ^ 63) :
    Convertible (finV ![lat, Real.pi, h]) ∧ ∃ dV s' p, run s [.init (finV ![lat, Real.pi, h]) (finV ![0, v, 0]) (finV rph) t, .integ (finV dV) (finV φ) t'] = .ok ([true, true], s')
      ∧ s'.lla = some p ∧ NotConvertible p := by
  have hcos : 0 < Real.cos lat := Real.cos_pos_of_mem_Ioo (by rw [abs_lt] at hlat; exact hlat)
  refine ⟨(convertible_iff _).2 ⟨hlat.le, by simp [abs_of_pos Real.pi_pos]⟩, ?_⟩
  have h1 := init_ready s (finV ![lat, Real.pi, h]) (finV ![0, v, 0]) (finV rph) t
  rw [C34_finite] at h1
  set R := ((bodyToNed (rph 0) (rph 1) (rph 2))ᵀ : M3 ℝ) with hRdef
  have hR : IsRot R := (bodyToNed_isRot _ _ _).transpose
  have hR2 : IsRot (R * attInc φ) := hR.mul (attInc_isRot φ hφ)
  obtain ⟨s', e, g⟩ := level_call _ lat Real.pi h v φ ((R * attInc φ)ᵀ *ᵥ ((((t' - t : ℤ) : ℝ) / 1000000) • levelForce lat h v (Gravity.gravityNed lat h).2)) R
    (R * attInc φ) t t' h1 (regular_of_surface hcos.ne' hh) hφ ht.ne' ⟨by linarith, hf⟩ (fun u => by rw [← mulVec_mulVec, attInc_R φ _ hφ])
    (by rw [mulVec_mulVec, hR2.1, one_mulVec])
  refine ⟨(R * attInc φ)ᵀ *ᵥ ((((t' - t : ℤ) : ℝ) / 1000000) • levelForce lat h v (Gravity.gravityNed lat h).2), s', finV ![lat, Real.pi + ((t' - t : ℤ) : ℝ) / 1000000 * lonRate lat h v, h], ?_, g.1, ?_⟩
  · rw [run, call, Out.ok_bind, run, call, e]; rfl
  · rw [notConvertible_iff, convertible_iff]
    rintro ⟨-, hle⟩
    have hpos : 0 < ((t' - t : ℤ) : ℝ) / 1000000 * lonRate lat h v := by
      have h2 : (0 : ℝ) < ((t' - t : ℤ) : ℝ) := by exact_mod_cast sub_pos.2 ht
      have h3 := primeVertical_pos lat
      unfold lonRate
      positivity
    have := le_abs_self ((![lat, Real.pi + ((t' - t : ℤ) : ℝ) / 1000000 * lonRate lat h v, h] : V3 ℝ) 1)
    simp only [cons_val_one, cons_val_zero] at this hle
    linarith

/-- non-vacuity of C172: a 10 ms interval over Fiji at 250 m/s -/
example : |(-0.3 : ℝ)| < Real.pi / 2 ∧ (0 : ℝ) ≤ 10000 ∧ (0 : ℝ) < 250 ∧ (![0, 0, 1e-6] : V3 ℝ) ≠ 0 ∧ (0 : ℤ) < 10000 ∧ (10000 - 0 : ℤ) < 2 ^ 63 := by
  refine ⟨?_, by norm_num, by norm_num, fun h => by have : (1e-6 : ℝ) = 0 := congrFun h 2; norm_num at this, by norm_num, by norm_num⟩
  rw [abs_of_neg (by norm_num)]; linarith [Real.pi_gt_three]

/-- non-vacuity of `C172_eastbound_partial`: its hypotheses are those of `C171_level_flight` with increasing times; see the example there -/
example (k : ℕ) : (10000 * (k : ℤ)) < 10000 * ((k + 1 : ℕ) : ℤ) ∧ 10000 * ((k + 1 : ℕ) : ℤ) - 10000 * (k : ℤ) < 2 ^ 63 := by
  push_cast; constructor <;> linarith

/-- C172, over whole flights: an eastbound level flight of any length. The conversions accept the reported position exactly until the true longitude, counted on from the
start, passes 180 degrees; from then on they reject it. -/
theorem C172_eastbound_partial (lat lon h v : ℝ) (hlat : |lat| < Real.pi / 2) (hlon : |lon| ≤ Real.pi) (hh : 0 ≤ h) (hv : 0 ≤ v) (s : ℕ → St XR) (t : ℕ → Int) (φ dV : ℕ → V3 ℝ)
    (R : ℕ → M3 ℝ) (h0 : Ready (s 0) (finV ![lat, lon, h]) (finV ![0, v, 0]) (finM (R 0)) (t 0)) (hφ : ∀ k, φ k ≠ 0)
    (ht : ∀ k, t k < t (k + 1) ∧ t (k + 1) - t k < 2 ^ 63) (hR : ∀ k u, R (k + 1) *ᵥ u = R k *ᵥ rotByVec (φ k) u)
    (hdV : ∀ k, R (k + 1) *ᵥ dV k = (((t (k + 1) - t k : ℤ) : ℝ) / 1000000) • levelForce lat h v (Gravity.gravityNed lat h).2)
    (hs : ∀ k, integrate (s k) (finV (dV k)) (finV (φ k)) (t (k + 1)) = .ok (true, s (k + 1))) (k : ℕ) :
    ∃ p, (s k).lla = some p ∧ (Convertible p ↔ lon + ((t k - t 0 : ℤ) : ℝ) / 1000000 * lonRate lat h v ≤ Real.pi) := by
  have hcos : 0 < Real.cos lat := Real.cos_pos_of_mem_Ioo (by rw [abs_lt] at hlat; exact hlat)
  have g := C171_level_flight lat lon h v hcos.ne' hh s t φ dV R h0 hφ (fun k => ⟨(ht k).1.ne', by linarith [(ht k).1], (ht k).2⟩) hR hdV hs k
  refine ⟨_, g.1, ?_⟩
  have hmono : t 0 ≤ t k := (monotone_nat_of_le_succ fun k => (ht k).1.le) (Nat.zero_le k)
  have hge : 0 ≤ ((t k - t 0 : ℤ) : ℝ) / 1000000 * lonRate lat h v := by
    have h2 : (0 : ℝ) ≤ ((t k - t 0 : ℤ) : ℝ) := by exact_mod_cast sub_nonneg.2 hmono
    have h3 := primeVertical_pos lat
    unfold lonRate
    positivity
  rw [convertible_iff]
  simp only [cons_val_one, cons_val_zero, abs_le] at hlon ⊢
  rw [abs_lt] at hlat
  constructor
  · exact fun h => h.2.2
  · exact fun h => ⟨⟨by linarith, by linarith⟩, by linarith, h⟩

/-- C172, what a caller can do: whenever the latitude is in range, the reported longitude reduced by whole turns into ±π is accepted, and the conversions then give the point
and the axes that belong to the longitude as reported. -/
theorem C172_wrapped_partial (lat lon alt : ℝ) (k : ℤ) (hlat : |lat| ≤ Real.pi / 2) (hk : |lon - k * (2 * Real.pi)| ≤ Real.pi) (R0 : M3 ℝ) (r0 : V3 ℝ) :
    lla2Ecef lat (lon - k * (2 * Real.pi)) alt r0 = (true, ![(primeVertical lat + alt) * Real.cos lat * Real.cos lon, (primeVertical lat + alt) * Real.cos lat * Real.sin lon,
        ((1 - ecc2) * primeVertical lat + alt) * Real.sin lat])
    ∧ computeRNed2Ecef lat (lon - k * (2 * Real.pi)) R0 = (true, !![-(Real.sin lat * Real.cos lon), -Real.sin lon, -(Real.cos lat * Real.cos lon);
        -(Real.sin lat * Real.sin lon), Real.cos lon, -(Real.cos lat * Real.sin lon); Real.cos lat, 0, -Real.sin lat])
    ∧ computeREcef2Ned lat (lon - k * (2 * Real.pi)) R0 = (true, (!![-(Real.sin lat * Real.cos lon), -Real.sin lon, -(Real.cos lat * Real.cos lon);
        -(Real.sin lat * Real.sin lon), Real.cos lon, -(Real.cos lat * Real.sin lon); Real.cos lat, 0, -Real.sin lat])ᵀ) := by
  have hr : InRange lat (lon - k * (2 * Real.pi)) := ⟨hlat, hk⟩
  have e := ned2ecef_R hr R0
  have hM : ned2ecef lat (lon - k * (2 * Real.pi)) = !![-(Real.sin lat * Real.cos lon), -Real.sin lon, -(Real.cos lat * Real.cos lon);
        -(Real.sin lat * Real.sin lon), Real.cos lon, -(Real.cos lat * Real.sin lon); Real.cos lat, 0, -Real.sin lat] := by
    ext i j; fin_cases i <;> fin_cases j <;> simp [ned2ecef, Real.cos_sub_int_mul_two_pi, Real.sin_sub_int_mul_two_pi]
  rw [hM] at e
  obtain ⟨hb, htr⟩ := C21_bitwise_transpose lat (lon - k * (2 * Real.pi)) R0 R0
  rw [e] at hb htr
  refine ⟨?_, e, Prod.ext hb ?_⟩
  · rw [lla2Ecef_R hr]
    congr 1
    ext i; fin_cases i <;> simp [ellPoint, Real.cos_sub_int_mul_two_pi, Real.sin_sub_int_mul_two_pi, primeVertical]
  · ext i j
    exact htr hb i j

example : |(0.5 : ℝ)| ≤ Real.pi / 2 ∧ |3.2 - ((1 : ℤ) : ℝ) * (2 * Real.pi)| ≤ Real.pi := by
  constructor
  · rw [abs_of_pos (by norm_num)]; linarith [Real.pi_gt_three]
  · rw [abs_le]; constructor <;> push_cast <;> linarith [Real.pi_gt_d2, Real.pi_lt_d2]

end NavFuse.Props
