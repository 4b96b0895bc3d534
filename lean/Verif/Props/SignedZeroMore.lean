import Verif.Props.SignedZero
import Verif.Model.J2000
import Verif.Lemmas.KalmanEval

/-! # C175, continued: the J2000 frame and the prediction of the Kalman filter -/

set_option linter.unusedSimpArgs false

namespace NavFuse.Props
open SZ XR Rotations Matrix

theorem mjdJ2000_sz : (mjdJ2000 : SZ).x = mjdJ2000 := rfl
theorem arcs_sz : (arcs : SZ).x = arcs := div_x _ pl_pi
theorem arcs_pl : Pl (arcs : SZ) := pl_of_ne (by
  rw [arcs_sz]
  have := Real.pi_pos
  simp only [arcs, xsimp, fin_mul, ne_eq]
  rw [fin_div _ _ this.ne', fin_inj]
  positivity)
theorem radC_sz : (radC : SZ).x = radC := div_x _ (pl_lit _)
theorem rev_sz : (rev : SZ).x = rev := rfl

theorem frameX_sz (t : SZ) : mx (frameX t) = frameX t.x := by ext i j; fin_cases i <;> fin_cases j <;> simp [frameX]
theorem frameY_sz (t : SZ) : mx (frameY t) = frameY t.x := by ext i j; fin_cases i <;> fin_cases j <;> simp [frameY]
theorem frameZ_sz (t : SZ) : mx (frameZ t) = frameZ t.x := by ext i j; fin_cases i <;> fin_cases j <;> simp [frameZ]

theorem reduceRev_sz (x : SZ) : (reduceRev x).x = reduceRev x.x := by
  unfold reduceRev
  by_cases h : Flt.lt (Flt.fmod x.x (rev : XR)) (Flt.lit 0) = true
  · exact (congrArg SZ.x (if_pos h)).trans (if_pos h).symm
  · exact (congrArg SZ.x (if_neg h)).trans (if_neg h).symm

theorem nutArg_sz (l lp F D Om : SZ) (c : NutRow) : (nutArg l lp F D Om c).x = nutArg l.x lp.x F.x D.x Om.x c := by
  simp only [nutArg, div_x _ arcs_pl, add_x, mul_x, ofInt_x, arcs_sz]

theorem nutationAngles_sz (m : SZ) : (nutationAngles m).1.x = (nutationAngles m.x).1 ∧ (nutationAngles m).2.x = (nutationAngles m.x).2 := by
  have key : ∀ (cs : List NutRow) (T l lp F D Om : SZ) (s : SZ × SZ) (s' : XR × XR), s.1.x = s'.1 → s.2.x = s'.2 →
      let r := cs.foldl (fun (s : SZ × SZ) c => let arg := nutArg l lp F D Om c
        (s.1 + ((Flt.ofInt c.c5 + (Flt.ofInt c.c6 * T)) * Flt.sin arg), s.2 + ((Flt.ofInt c.c7 + (Flt.ofInt c.c8 * T)) * Flt.cos arg))) s
      let r' := cs.foldl (fun (s : XR × XR) c => let arg := nutArg l.x lp.x F.x D.x Om.x c
        (s.1 + ((Flt.ofInt c.c5 + (Flt.ofInt c.c6 * T.x)) * Flt.sin arg), s.2 + ((Flt.ofInt c.c7 + (Flt.ofInt c.c8 * T.x)) * Flt.cos arg))) s'
      r.1.x = r'.1 ∧ r.2.x = r'.2 := by
    intro cs
    induction cs with
    | nil => intro T l lp F D Om s s' h1 h2; exact ⟨h1, h2⟩
    | cons c cs ih =>
      intro T l lp F D Om s s' h1 h2
      apply ih
      · simp only [add_x, mul_x, ofInt_x, sin_x, nutArg_sz, h1]
      · simp only [add_x, mul_x, ofInt_x, cos_x, nutArg_sz, h2]
  have hT : ((m - mjdJ2000) / Flt.lit 36525).x = (m.x - mjdJ2000) / Flt.lit 36525 := by rw [div_x _ (pl_lit _)]; rfl
  obtain ⟨k1, k2⟩ := key nutTable ((m - mjdJ2000) / Flt.lit 36525) (reduceRev (argPolys ((m - mjdJ2000) / Flt.lit 36525)).1)
    (reduceRev (argPolys ((m - mjdJ2000) / Flt.lit 36525)).2.1) (reduceRev (argPolys ((m - mjdJ2000) / Flt.lit 36525)).2.2.1)
    (reduceRev (argPolys ((m - mjdJ2000) / Flt.lit 36525)).2.2.2.1) (reduceRev (argPolys ((m - mjdJ2000) / Flt.lit 36525)).2.2.2.2)
    (Flt.lit 0, Flt.lit 0) (Flt.lit 0, Flt.lit 0) rfl rfl
  simp only [reduceRev_sz, argPolys, add_x, mul_x, sub_x, lit_x, rev_sz, hT] at k1 k2
  constructor
  · simp only [nutationAngles, argPolys]
    rw [div_x _ arcs_pl, mul_x, k1, arcs_sz, lit_x]
  · simp only [nutationAngles, argPolys]
    rw [div_x _ arcs_pl, mul_x, k2, arcs_sz, lit_x]

theorem meanObliquity_sz (m : SZ) : (meanObliquity m).x = meanObliquity m.x := by
  simp only [meanObliquity, div_x _ (pl_lit _), mul_x, sub_x, add_x, lit_x, radC_sz, mjdJ2000_sz]

theorem gsTime_sz (u m : SZ) : (gsTime u m).x = gsTime u.x m.x := by
  simp only [gsTime, gmstSec, div_x _ (pl_lit _), mul_x, sub_x, add_x, lit_x, mjdJ2000_sz, fmod_x, floor_x, pi_x, cos_x, meanObliquity_sz, (nutationAngles_sz m).1]

/-- C175, J2000 to ECEF: the rotation matrix does not depend on the signs of zeros among the date and the Earth orientation parameters. -/
theorem C175_j2kProduct (mjd : SZ) (e : EopVal SZ) :
    mx (j2kProduct mjd e) = j2kProduct mjd.x ⟨e.xPole.x, e.yPole.x, e.ut1Utc.x, e.lod.x, e.taiUtc.x⟩ := by
  have hP : ∀ a b : SZ, mx (computePrecession a b) = computePrecession a.x b.x := by
    intro a b
    simp only [computePrecession, mmul_x, frameZ_sz, frameY_sz, neg_x, add_x, mul_x, sub_x, lit_x, div_x _ (pl_lit _), div_x _ arcs_pl, arcs_sz, mjdJ2000_sz]
  have hN : ∀ a : SZ, mx (computeNutation a) = computeNutation a.x := by
    intro a
    simp only [computeNutation, mmul_x, frameX_sz, frameZ_sz, neg_x, sub_x, meanObliquity_sz, (nutationAngles_sz a).1, (nutationAngles_sz a).2]
  simp only [j2kProduct, mmul_x, polarRotation, computeGreenwichHourAngle, frameX_sz, frameY_sz, frameZ_sz, gsTime_sz, hP, hN, add_x, sub_x, neg_x, lit_x,
    div_x _ (pl_lit _), mjdJ2000_sz]

/-- C175, prediction of the Kalman filter, in every dimension. -/
theorem C175_filterPredict {n : ℕ} (x xo : Fin n → SZ) (P F Q Po : Matrix (Fin n) (Fin n) SZ) :
    ∃ x' P', Kalman.filterPredict ⟨n, x⟩ ⟨n, n, P⟩ ⟨n, n, F⟩ ⟨n, n, Q⟩ ⟨n, xo⟩ ⟨n, n, Po⟩ = .ok (true, ⟨n, x'⟩, ⟨n, n, P'⟩)
      ∧ Kalman.filterPredict ⟨n, vx x⟩ ⟨n, n, mx P⟩ ⟨n, n, mx F⟩ ⟨n, n, mx Q⟩ ⟨n, vx xo⟩ ⟨n, n, mx Po⟩ = .ok (true, ⟨n, vx x'⟩, ⟨n, n, mx P'⟩) :=
  ⟨_, _, Kalman.predict_fit x P F Q xo Po, by rw [Kalman.predict_fit, mvec_x, madd_x, mmul_x, mmul_x, mtr_x]⟩

/-- the hypotheses-free statements apply to parameters with zeros of either sign -/
example : (⟨fin 0, true⟩ : SZ) ≠ ⟨fin 0, false⟩ ∧ mx (j2kProduct ⟨fin 0, true⟩ ⟨⟨fin 0, true⟩, ⟨fin 0, false⟩, ⟨fin 0, true⟩, ⟨fin 0, false⟩, ⟨fin 37, false⟩⟩)
    = mx (j2kProduct ⟨fin 0, false⟩ ⟨⟨fin 0, false⟩, ⟨fin 0, true⟩, ⟨fin 0, false⟩, ⟨fin 0, true⟩, ⟨fin 37, false⟩⟩) :=
  ⟨fun h => (by injection h with _ h; cases h), by rw [C175_j2kProduct, C175_j2kProduct]⟩

end NavFuse.Props
