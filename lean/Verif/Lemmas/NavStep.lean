import Verif.Lemmas.RoundNav
import Verif.Lemmas.DblBound
import Verif.Props.AttitudeRnd

/-! # One navigation step: rounded against exact -/

set_option linter.unusedSimpArgs false

namespace NavFuse
open Matrix Spec NavUtils Strapdown Props
variable [Machine] {r : ℝ → ℝ}

/-- position and velocity after a step with the updated attitude `A` -/
def stepY {α : Type} [Add α] [Sub α] [Mul α] [Div α] [Neg α] [Flt α] (lla vNed dV : V3 α) (A : M3 α) (d : Int) : Fin 6 → α :=
  rk4G (mvec A dV) (Gravity.gravityNed (lla 0) (lla 2)).2 (Flt.ofInt d / Flt.lit 1e6) ![lla 0, lla 1, lla 2, vNed 0, vNed 1, vNed 2]

/-- where the bounds are claimed: latitudes below 71.6 degrees, altitudes up to 20 km, velocities up to 300 m/s in each direction -/
structure Flight (p v : V3 ℝ) : Prop where
  lat : |p 0| ≤ 1.25
  lon : |p 1| ≤ 4
  alt : |p 2| ≤ 20000
  vel : ∀ i, |v i| ≤ 300

theorem dt_ap (h : Rounds53 r) {d : Int} (hd : 1000 ≤ d ∧ d ≤ 20000) : Aj ((Flt.ofInt d : Dbl r) / Flt.lit 1e6) ((Flt.ofInt d : Rnd r) / Flt.lit 1e6) ((Flt.ofInt d : ℝ) / Flt.lit 1e6) 5e-18 0.02 := by
  have hd1 : (1000 : ℝ) ≤ d := by exact_mod_cast hd.1
  have hd2 : (d : ℝ) ≤ 20000 := by exact_mod_cast hd.2
  have e : (Flt.ofInt d : Rnd r).val = d := h.int d (by rw [abs_of_nonneg (by omega)]; omega)
  have e2 : (Flt.lit 1e6 : Rnd r).val = 1000000 := by
    have := h.int 1000000 (by norm_num)
    show r ((1e6 : ℚ) : ℝ) = _
    norm_num at this ⊢
    exact this
  have m : |(Flt.ofInt d : ℝ) / Flt.lit 1e6| ≤ 0.02 := by
    have e3 : (Flt.ofInt d : ℝ) / Flt.lit 1e6 = d / 1000000 := by simp only [rsimp]; norm_num
    rw [e3, abs_of_nonneg (by positivity), div_le_iff₀ (by norm_num)]; linarith
  suffices a : Ap ((Flt.ofInt d : Rnd r) / Flt.lit 1e6) ((Flt.ofInt d : ℝ) / Flt.lit 1e6) 5e-18 0.02 by
    refine ⟨.div (.ofInt d ?_) (.lit 1e6 ?_) (by rw [e2]; norm_num) (Aj.small a (by norm_num)), a⟩
    · rw [e, abs_of_nonneg (by positivity)]; exact hd2.trans (by norm_num)
    · rw [e2]; norm_num
  refine ⟨?_, m⟩
  show |r ((Flt.ofInt d : Rnd r).val / (Flt.lit 1e6 : Rnd r).val) - _| ≤ _
  rw [e, e2]
  have e3 : (Flt.ofInt d : ℝ) / Flt.lit 1e6 = d / 1000000 := by simp only [rsimp]; norm_num
  rw [e3] at m ⊢
  exact Ap.round h (d := 0) (by simp) m (by norm_num)

omit [Machine] in
theorem dt_R (d : Int) : (Flt.ofInt d : ℝ) / Flt.lit 1e6 = d / 1000000 := by simp only [rsimp]; norm_num

/-- one step, in every rounding mode: no overflow, and rounding errors -/
theorem step_joint (h : Rounds53 r) (lla vNed dV : V3 (Rnd r)) (A : M3 (Rnd r)) (d : Int) (hd : 1000 ≤ d ∧ d ≤ 20000)
    (hA : ∀ i, len3 (valM A i) ≤ 11 / 10) (hV : len3 (valV dV) ≤ 50 * ((d : ℝ) / 1000000)) (hF : Flight (valV lla) (valV vNed)) (i : Fin 6) :
    Dbl.Sim (stepY (dblV lla) (dblV vNed) (dblV dV) (dblM A) d i) (stepY lla vNed dV A d i)
    ∧ |(stepY lla vNed dV A d i).val - stepY (valV lla) (valV vNed) (valV dV) (valM A) d i|
      ≤ (![2e-15, 5e-15, 3e-11, 6e-13, 6e-13, 6e-13] : Fin 6 → ℝ) i := by
  have hd1 : (1000 : ℝ) ≤ d := by exact_mod_cast hd.1
  have hd2 : (d : ℝ) ≤ 20000 := by exact_mod_cast hd.2
  have hu := ulp_pos
  have hu2 := ulp_le'
  have hdt := dt_ap h hd
  obtain ⟨g0, g1, g2⟩ := gravity_ap h (Aj.exact (lla 0) hF.lat) (Aj.exact (lla 2) hF.alt)
  have ha : ∀ i, Aj (mvec (dblM A) (dblV dV) i / (Flt.ofInt d / Flt.lit 1e6)) (mvec A dV i / (Flt.ofInt d / Flt.lit 1e6)) (mvec (valM A) (valV dV) i / (Flt.ofInt d / Flt.lit 1e6)) 1e-11 56 := by
    intro i
    have hrow : ∀ l, |valM A i l| ≤ 11 / 10 := fun l => (le_len3 _ l).trans (hA i)
    have hcol : ∀ l, |valV dV l| ≤ 50 * ((d : ℝ) / 1000000) := fun l => (le_len3 _ l).trans hV
    have e1 := Rnd.dot3 h (fun l => A i l) dV 1.1 (fun l => by
      rw [abs_mul]
      have h1 := mul_le_mul (hrow l) (hcol l) (abs_nonneg _) (by norm_num)
      refine h1.trans ?_
      norm_num; linarith)
    have e2 : mvec (valM A) (valV dV) i = ∑ l, (A i l).val * (dV l).val := by simp only [rsimp]; rfl
    have hm : |mvec (valM A) (valV dV) i| ≤ 55 * ((d : ℝ) / 1000000) := by
      have e3 : mvec (valM A) (valV dV) i = valM A i ⬝ᵥ valV dV := e2
      rw [e3]
      refine (dot_le_len3 _ _).trans ?_
      have := mul_le_mul (hA i) hV (len3_nonneg' _) (by norm_num)
      linarith
    have a0 : Aj (mvec (dblM A) (dblV dV) i) (mvec A dV i) (mvec (valM A) (valV dV) i) 2.8e-15 1.1 := by
      refine ⟨(Bd.mvec h (k := 1) (l := 0) (fun i j => ⟨rfl, ?_⟩) (fun j => ⟨rfl, ?_⟩) (by norm_num) i).sim, ?_, hm.trans (by norm_num; linarith)⟩
      · exact ((le_len3 (valM A i) j).trans (hA i)).trans (by norm_num)
      · refine (hcol j).trans ?_
        norm_num; linarith
      rw [e2]
      refine e1.trans ?_
      norm_num at hu2 ⊢; linarith
    have a1 := Aj.div h a0 hdt (m := 0.001) (q := 8.4e-12) (D := 1e-11) (N := 1100)
      (by rw [dt_R, abs_of_nonneg (by positivity), le_div_iff₀ (by norm_num)]; norm_num; linarith) (by norm_num) (by norm_num) (by norm_num) (by norm_num)
    refine ⟨a1.sim, a1.err, ?_⟩
    have hp : (0 : ℝ) < (d : ℝ) / 1000000 := by positivity
    rw [dt_R, abs_div, abs_of_pos hp, div_le_iff₀ hp]
    linarith
  have q := rk4_ap h (DVN := mvec (dblM A) (dblV dV)) (GN := (Gravity.gravityNed (dblV lla 0) (dblV lla 2)).2) (DT := Flt.ofInt d / Flt.lit 1e6)
    (Y := ![dblV lla 0, dblV lla 1, dblV lla 2, dblV vNed 0, dblV vNed 1, dblV vNed 2]) (dVN := mvec A dV) (gN := (Gravity.gravityNed (lla 0) (lla 2)).2) (dt := Flt.ofInt d / Flt.lit 1e6)
    (y := ![lla 0, lla 1, lla 2, vNed 0, vNed 1, vNed 2]) (dVN' := mvec (valM A) (valV dV))
    (gN' := (Gravity.gravityNed (valV lla 0) (valV lla 2)).2) (dt' := Flt.ofInt d / Flt.lit 1e6)
    (y' := ![valV lla 0, valV lla 1, valV lla 2, valV vNed 0, valV vNed 1, valV vNed 2])
    (Aj.exact (lla 0) hF.lat) (Aj.exact (lla 1) hF.lon) (Aj.exact (lla 2) hF.alt) (Aj.exact (vNed 0) (hF.vel 0)) (Aj.exact (vNed 1) (hF.vel 1))
    (Aj.exact (vNed 2) (hF.vel 2)) hdt (ha 0) (ha 1) (ha 2) g0 g1 g2
  obtain ⟨q0, q1, q2, q3, q4, q5⟩ := q
  fin_cases i
  · exact ⟨q0.sim, q0.err.trans (by norm_num)⟩
  · exact ⟨q1.sim, q1.err.trans (by norm_num)⟩
  · exact ⟨q2.sim, q2.err.trans (by norm_num)⟩
  · exact ⟨q3.sim, q3.err.trans (by norm_num)⟩
  · exact ⟨q4.sim, q4.err.trans (by norm_num)⟩
  · exact ⟨q5.sim, q5.err.trans (by norm_num)⟩

/-- rounding errors of one step, in every rounding mode -/
theorem step_round (h : Rounds53 r) (lla vNed dV : V3 (Rnd r)) (A : M3 (Rnd r)) (d : Int) (hd : 1000 ≤ d ∧ d ≤ 20000)
    (hA : ∀ i, len3 (valM A i) ≤ 11 / 10) (hV : len3 (valV dV) ≤ 50 * ((d : ℝ) / 1000000)) (hF : Flight (valV lla) (valV vNed)) (i : Fin 6) :
    |(stepY lla vNed dV A d i).val - stepY (valV lla) (valV vNed) (valV dV) (valM A) d i|
      ≤ (![2e-15, 5e-15, 3e-11, 6e-13, 6e-13, 6e-13] : Fin 6 → ℝ) i := (step_joint h lla vNed dV A d hd hA hV hF i).2

end NavFuse
