import Verif.Props.StrapdownNav
import Verif.Props.EulerExact
/-! C91 and C92 exactly: for which steps the attitude of a vehicle at rest is kept, and for which attitudes `initialize` stores the right matrix. -/

namespace NavFuse.Props.Nav
open Matrix NavFuse.Spec NavFuse.Attitude NavFuse.XR NavFuse.Strapdown

/-- C91, exactly: with the gyroscope data of a vehicle at rest, an `integrate` call over `dt` keeps the attitude relative to north-east-down if and only if
the Earth makes a whole number of turns in that time. -/
theorem C91_characterised (s : St XR) (l v dV : V3 XR) (R : M3 ℝ) (hR : IsRot R) (t t' : Int) (lat dt : ℝ) (hdt : dt ≠ 0)
    (h : s.lla = some l ∧ s.vNed = some v ∧ s.RB2N = some (finM R) ∧ s.tov = some t) (hf : -2 ^ 63 ≤ t' - t ∧ t' - t < 2 ^ 63) :
    ∃ s' R', integrate s dV (finV (Rᵀ *ᵥ (dt • earthVec lat))) t' = .ok (true, s') ∧ s'.RB2N = some (finM R')
      ∧ (R' = R ↔ ∃ k : ℤ, earthRate * dt = k * (2 * Real.pi)) := by
  obtain ⟨s', R', e, g, -, hu⟩ := C91_inertially_fixed_partial s l v dV R hR t t' lat dt hdt h hf
  refine ⟨s', R', e, g, fun hE => ?_, fun ⟨k, hk⟩ => ?_⟩
  · have h1 := hu (Rᵀ *ᵥ ![0, 1, 0])
    rw [hE, mulVec_mulVec, hR.1, one_mulVec, turn_eq] at h1
    have h2 := congrFun h1 1
    simp at h2
    obtain ⟨k, hk⟩ := (Real.cos_eq_one_iff _).1 h2.symm
    exact ⟨k, hk.symm⟩
  · have hc : Real.cos (earthRate * dt) = 1 := (Real.cos_eq_one_iff _).2 ⟨k, hk.symm⟩
    have hs : Real.sin (earthRate * dt) = 0 := by
      have := Real.sin_sq_add_cos_sq (earthRate * dt)
      rw [hc] at this
      exact pow_eq_zero_iff two_ne_zero |>.1 (by linarith)
    apply ext_of_mulVec_single
    intro i
    rw [hu, turn, hc, hs]; simp

/-- both outcomes occur: a hundredth of a second, and a sidereal day -/
example : (¬ ∃ k : ℤ, earthRate * 0.01 = k * (2 * Real.pi)) ∧ ∃ k : ℤ, earthRate * (2 * Real.pi / earthRate) = k * (2 * Real.pi) := by
  constructor
  · rintro ⟨k, hk⟩
    have h1 : 0 < earthRate * 0.01 := mul_pos earthRate_pos (by norm_num)
    have h2 : earthRate * 0.01 < 1 := by norm_num [earthRate]
    have hp := Real.pi_pos
    rcases lt_or_ge 0 k with h | h
    · have : (1 : ℝ) ≤ k := by exact_mod_cast h
      have := Real.pi_gt_d2
      nlinarith
    · have : (k : ℝ) ≤ 0 := by exact_mod_cast h
      nlinarith
  · exact ⟨1, by have := earthRate_pos.ne'; push_cast; field_simp⟩

/-- C92, exactly: the attitude stored by `initialize` is the body-to-NED matrix of the given angles if and only if that attitude applied twice is the
identity (no rotation, or a half turn). -/
theorem C92_characterised (s : St XR) (lla vNed : V3 XR) (e : V3 ℝ) (t : Int) :
    (Strapdown.init s lla vNed (finV e) t).2.RB2N = some (finM (bodyToNed (e 0) (e 1) (e 2)))
      ↔ bodyToNed (e 0) (e 1) (e 2) * bodyToNed (e 0) (e 1) (e 2) = 1 := by
  rw [(C92_initial_attitude_partial s lla vNed e t).1, ← C35_characterised e, euler_R]
  simp only [Option.some.injEq, Prod.mk.injEq, true_and]
  constructor
  · intro h
    ext i j
    have := congrFun (congrFun h i) j
    simpa [finM] using this
  · intro h; rw [h]

/-- due south is stored correctly, due east is not -/
example : bodyToNed 0 0 Real.pi * bodyToNed 0 0 Real.pi = 1 ∧ bodyToNed 0 0 (Real.pi / 2) * bodyToNed 0 0 (Real.pi / 2) ≠ 1 := by
  have h1 := (C35_level_characterised Real.pi).2 (by simp)
  have h2 : ¬ euler2Dcm ![0, 0, Real.pi / 2] = (true, bodyToNed 0 0 (Real.pi / 2)) := by rw [C35_level_characterised]; simp
  have e1 := C35_characterised ![0, 0, Real.pi]
  have e2 := C35_characterised ![0, 0, Real.pi / 2]
  simp only [cons_val_zero, cons_val_one, cons_val] at e1 e2
  exact ⟨e1.1 h1, fun h => h2 (e2.2 h)⟩

end NavFuse.Props.Nav
