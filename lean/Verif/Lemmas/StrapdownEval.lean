import Verif.Model.Strapdown
import Verif.Lemmas.NavEval
import Verif.Props.RotVec
import Verif.Props.NavUtils
import Verif.Props.Euler

/-! Evaluation of the strapdown functions. -/

set_option linter.unusedSectionVars false

namespace NavFuse.Strapdown
open Matrix Spec NavUtils

section generic
variable {α : Type} [Add α] [Sub α] [Mul α] [Div α] [Neg α] [Flt α]

/-- the attitude increment computed by `updateAttitude` -/
def attInc (dTh : V3 α) : M3 α :=
  let m := vnorm dTh
  let X := (NavUtils.skewSymmetric dTh).2
  madd (madd mid (msmul (Flt.sin m / m) X)) (mmul (msmul ((Flt.lit 1 - Flt.cos m) / (m * m)) X) X)

theorem update_eval (s : St α) (dTh : V3 α) (Rp : M3 α) (h : s.RB2NPrev = some Rp) :
    updateAttitude s dTh = .ok (true, { s with RB2N := some (mmul Rp (attInc dTh)) }) := by
  simp only [updateAttitude, skewSymmetric, Bool.not_true, Bool.false_eq_true, if_false, h, rd, osimp, attInc]

/-- position, velocity, attitude and time are set -/
def Ready (s : St α) (lla vNed : V3 α) (R : M3 α) (t : Int) : Prop :=
  s.lla = some lla ∧ s.vNed = some vNed ∧ s.RB2N = some R ∧ s.tov = some t

/-- the state (position, velocity) after an `integrate` call -/
def nextY (lla vNed dV : V3 α) (R : M3 α) (dTh : V3 α) (d : Int) : Fin 6 → α :=
  rk4G (mvec (mmul R (attInc dTh)) dV) (Gravity.gravityNed (lla 0) (lla 2)).2 (Flt.ofInt d / Flt.lit 1e6)
    ![lla 0, lla 1, lla 2, vNed 0, vNed 1, vNed 2]

theorem get6 (Y : Fin 6 → α) : DVec.get ⟨6, Y⟩ 0 = .ok (Y 0) ∧ DVec.get ⟨6, Y⟩ 1 = .ok (Y 1) ∧ DVec.get ⟨6, Y⟩ 2 = .ok (Y 2)
    ∧ DVec.get ⟨6, Y⟩ 3 = .ok (Y 3) ∧ DVec.get ⟨6, Y⟩ 4 = .ok (Y 4) ∧ DVec.get ⟨6, Y⟩ 5 = .ok (Y 5) := by
  refine ⟨?_, ?_, ?_, ?_, ?_, ?_⟩ <;> (rw [DVec.get, dif_pos (by simp)]; rfl)

theorem advance_eval (s : St α) (lla p v dV : V3 α) (R : M3 α) (dt : α) (h1 : s.RB2N = some R) (h2 : s.lla = some lla) (h3 : s.llaPrev = some p)
    (h4 : s.vNedPrev = some v) (h5 : s.dt = some dt) (Y : Fin 6 → α)
    (hY : rk4G (mvec R dV) (Gravity.gravityNed (lla 0) (lla 2)).2 dt ![p 0, p 1, p 2, v 0, v 1, v 2] = Y) :
    advance s dV = .ok (true, { s with lla := some ![Y 0, Y 1, Y 2], vNed := some ![Y 3, Y 4, Y 5] }) := by
  have hr : strapdownRk4 ⟨6, ![p 0, p 1, p 2, v 0, v 1, v 2]⟩ dt (mvec R dV) (Gravity.gravityNed (lla 0) (lla 2)).2 (DVec.zero 6)
      = .ok (true, ⟨6, Y⟩) := by rw [DVec.zero, rk4_eval, hY]
  have hg : (Gravity.gravityNed (lla 0) (lla 2)).1 = true := rfl
  clear hY
  simp only [advance, h1, h2, rd, osimp]
  generalize Gravity.gravityNed (lla 0) (lla 2) = g at *
  rw [hg, h3, Out.ok_bind, h4, Out.ok_bind, h5, Out.ok_bind, hr]
  obtain ⟨g0, g1, g2, g3, g4, g5⟩ := get6 Y
  simp only [Bool.not_true, Bool.false_eq_true, if_false, osimp, g0, g1, g2, g3, g4, g5]

theorem integrate_eval (s : St α) (lla vNed dV dTh : V3 α) (R : M3 α) (t tov : Int) (h : Ready s lla vNed R t)
    (ht : -2 ^ 63 ≤ tov - t ∧ tov - t < 2 ^ 63) :
    integrate s dV dTh tov = .ok (true,
      { lla := some ![nextY lla vNed dV R dTh (tov - t) 0, nextY lla vNed dV R dTh (tov - t) 1, nextY lla vNed dV R dTh (tov - t) 2],
        vNed := some ![nextY lla vNed dV R dTh (tov - t) 3, nextY lla vNed dV R dTh (tov - t) 4, nextY lla vNed dV R dTh (tov - t) 5],
        RB2N := some (mmul R (attInc dTh)), tov := some tov, dt := some (Flt.ofInt (tov - t) / Flt.lit 1e6),
        llaPrev := some lla, vNedPrev := some vNed, RB2NPrev := some R, tovPrev := some t }) := by
  obtain ⟨h1, h2, h3, h4⟩ := h
  have e1 : keepPrev s = .ok { s with llaPrev := some lla, vNedPrev := some vNed, RB2NPrev := some R, tovPrev := some t } := by
    simp only [keepPrev, h1, h2, h3, h4, rd, osimp]
  have hs : sub64 tov t = .ok (tov - t) := by rw [sub64, if_pos ht]
  rw [integrate, e1, Out.ok_bind, stamp, rd, Out.ok_bind, hs, Out.ok_bind, Out.pure_eq, Out.ok_bind, update_eval _ _ R rfl, Out.ok_bind]
  simp only [Bool.not_true, Bool.false_eq_true, if_false]
  exact advance_eval (St.mk s.lla s.vNed (some (mmul R (attInc dTh))) (some tov) (some (Flt.ofInt (tov - t) / Flt.lit 1e6)) (some lla) (some vNed)
    (some R) (some t)) lla lla vNed dV (mmul R (attInc dTh)) (Flt.ofInt (tov - t) / Flt.lit 1e6) rfl h1 rfl rfl rfl _ (by rw [nextY])

end generic

/-! The attitude increment is Rodrigues' rotation. -/

theorem sk_R (φ : V3 ℝ) : (skewSymmetric φ).2 = !![0, -φ 2, φ 1; φ 2, 0, -φ 0; -φ 1, φ 0, 0] := by
  simp only [skewSymmetric, rsimp]

theorem attInc_R (φ v : V3 ℝ) (h : φ ≠ 0) : attInc φ *ᵥ v = rotByVec φ v := by
  have hl := Props.len3_pos h
  have hs := Props.len3_sq φ
  have hm : vnorm φ = len3 φ := Props.vnorm_len3 φ
  simp only [attInc, hm, sk_R, rsimp, rotByVec, turn]
  have hc : ∀ x y : ℝ, x = len3 φ ^ 2 * y → y = (len3 φ ^ 2)⁻¹ * x := fun x y e => by rw [e]; field_simp
  generalize len3 φ = m at *
  have hc2 := Real.sin_sq_add_cos_sq m
  generalize Real.cos m = c at *
  generalize Real.sin m = σ at *
  ext i
  simp only [Pi.add_apply, Pi.smul_apply, smul_eq_mul]
  fin_cases i <;> simp [mulVec, dotProduct, Fin.sum_univ_three, cross_apply] <;> field_simp
  all_goals first
    | linear_combination (v 0 * (1 - c)) * hs
    | linear_combination (v 1 * (1 - c)) * hs
    | linear_combination (v 2 * (1 - c)) * hs

end NavFuse.Strapdown
