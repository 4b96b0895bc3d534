import Verif.Lemmas.NavLip

/-! # How a navigation step spreads differences in its inputs -/

namespace NavFuse
open Matrix Spec NavUtils Strapdown Props

/-- two Runge-Kutta steps stay close when the rates do -/
theorem rk4_sens {ε dt : ℝ} (hε : 0 ≤ ε) (hd : 0 ≤ dt ∧ dt ≤ 0.02) {f f' : (Fin 6 → ℝ) → Fin 6 → ℝ} {w W c M R0 R : Fin 6 → ℝ} {y y' e : Fin 6 → ℝ}
    (hf : ∀ z z' : Fin 6 → ℝ, (∀ i, Lp ε (z i) (z' i) (W i) (R i)) → ∀ i, Lp ε (f z i) (f' z' i) (c i) (M i))
    (hw : ∀ i, w i + 0.02 * c i ≤ W i) (hR : ∀ i, R0 i + 0.02 * M i ≤ R i) (hc : ∀ i, 0 ≤ c i) (hM : ∀ i, 0 ≤ M i)
    (he : ∀ i, e i ≤ w i * ε) (hy : ∀ i, |y i - y' i| ≤ e i) (h1 : ∀ i, |y i| ≤ R0 i) (h2 : ∀ i, |y' i| ≤ R0 i) (i : Fin 6) :
    |rk4 f dt y i - rk4 f' dt y' i| ≤ e i + dt * c i * ε := by
  have stage : ∀ (s : ℝ) (k k' : Fin 6 → ℝ), 0 ≤ s → s ≤ 0.02 → (∀ i, Lp ε (k i) (k' i) (c i) (M i)) →
      ∀ i, Lp ε ((y + s • k) i) ((y' + s • k') i) (W i) (R i) := by
    intro s k k' hs hs2 hk i
    have b : Lp ε (s * k i) (s * k' i) (0.02 * c i) (0.02 * M i) := by
      have m := fun x (hx : |x| ≤ M i) => show |s * x| ≤ 0.02 * M i by
        rw [abs_mul, abs_of_nonneg hs]; exact mul_le_mul hs2 hx (abs_nonneg _) (by norm_num)
      refine ⟨?_, m _ (hk i).m1, m _ (hk i).m2⟩
      rw [← mul_sub, abs_mul, abs_of_nonneg hs, mul_assoc]
      exact mul_le_mul hs2 (hk i).err (abs_nonneg _) (by norm_num)
    exact Lp.add hε ⟨(hy i).trans (he i), h1 i, h2 i⟩ b (hw i) (hR i)
  have k1 := hf y y' (fun i => Lp.mono hε ⟨(hy i).trans (he i), h1 i, h2 i⟩ (by linarith [hw i, hc i]) (by linarith [hR i, hM i]))
  have hh : dt / 2 ≤ 0.02 := by linarith [hd.1, hd.2]
  have k2 := hf _ _ (stage (dt / 2) _ _ (by linarith [hd.1]) hh k1)
  have k3 := hf _ _ (stage (dt / 2) _ _ (by linarith [hd.1]) hh k2)
  have k4 := hf _ _ (stage dt _ _ hd.1 hd.2 k3)
  have b1 := (k1 i).err
  have b2 := (k2 i).err
  have b3 := (k3 i).err
  have b4 := (k4 i).err
  have b0 := hy i
  show |(y i + dt / 6 * (f y i + 2 * f (y + (dt / 2) • f y) i + 2 * f (y + (dt / 2) • f (y + (dt / 2) • f y)) i
      + f (y + dt • f (y + (dt / 2) • f (y + (dt / 2) • f y))) i))
    - (y' i + dt / 6 * (f' y' i + 2 * f' (y' + (dt / 2) • f' y') i + 2 * f' (y' + (dt / 2) • f' (y' + (dt / 2) • f' y')) i
      + f' (y' + dt • f' (y' + (dt / 2) • f' (y' + (dt / 2) • f' y'))) i))| ≤ _
  generalize f y i = p1 at *
  generalize f' y' i = q1 at *
  generalize f (y + (dt / 2) • f y) i = p2 at *
  generalize f' (y' + (dt / 2) • f' y') i = q2 at *
  generalize f (y + (dt / 2) • f (y + (dt / 2) • f y)) i = p3 at *
  generalize f' (y' + (dt / 2) • f' (y' + (dt / 2) • f' y')) i = q3 at *
  generalize f (y + dt • f (y + (dt / 2) • f (y + (dt / 2) • f y))) i = p4 at *
  generalize f' (y' + dt • f' (y' + (dt / 2) • f' (y' + (dt / 2) • f' y'))) i = q4 at *
  rw [show y i + dt / 6 * (p1 + 2 * p2 + 2 * p3 + p4) - (y' i + dt / 6 * (q1 + 2 * q2 + 2 * q3 + q4))
    = (y i - y' i) + dt / 6 * ((p1 - q1) + 2 * (p2 - q2) + 2 * (p3 - q3) + (p4 - q4)) by ring]
  have hs : |(p1 - q1) + 2 * (p2 - q2) + 2 * (p3 - q3) + (p4 - q4)| ≤ 6 * (c i * ε) := by
    rw [abs_le] at b1 b2 b3 b4 ⊢
    constructor <;> linarith [b1.1, b1.2, b2.1, b2.2, b3.1, b3.2, b4.1, b4.2]
  refine (abs_add_le _ _).trans (add_le_add b0 ?_)
  have h6 : 0 ≤ dt / 6 := by linarith [hd.1]
  rw [abs_mul, abs_of_nonneg h6]
  refine (mul_le_mul_of_nonneg_left hs h6).trans (le_of_eq ?_)
  ring

theorem rk4G_rk4 (dVN gN : V3 ℝ) (dt : ℝ) (y : Fin 6 → ℝ) : rk4G dVN gN dt y = rk4 (dynG dVN gN dt) dt y := by
  have e : dynG dVN gN dt = navRates (dt⁻¹ • dVN) gN := by funext z; exact dyn_R dVN gN dt z
  rw [rk4_R, e]

/-- weights of the six state components: latitude, longitude, altitude, velocities -/
noncomputable def wt : Fin 6 → ℝ := ![1.6e-7, 5e-7, 1, 2e-3, 2e-3, 2e-3]

/-- the six numbers carried from step to step -/
def st6 (p v : V3 ℝ) : Fin 6 → ℝ := ![p 0, p 1, p 2, v 0, v 1, v 2]

theorem Flight.st6_le {p v : V3 ℝ} (h : Flight p v) (i : Fin 6) : |st6 p v i| ≤ (![1.25, 4, 20000, 300, 300, 300] : Fin 6 → ℝ) i := by
  fin_cases i
  exacts [h.lat, h.lon, h.alt, h.vel 0, h.vel 1, h.vel 2]

theorem force_le {A : M3 ℝ} {dV : V3 ℝ} {d : Int} (hd : 1000 ≤ d) (hA : ∀ i, len3 (A i) ≤ 11 / 10) (hV : len3 dV ≤ 50 * ((d : ℝ) / 1000000)) (i : Fin 3) :
    |mvec A dV i / ((d : ℝ) / 1000000)| ≤ 56 := by
  have hd1 : (1000 : ℝ) ≤ d := by exact_mod_cast hd
  have hp : (0 : ℝ) < (d : ℝ) / 1000000 := by positivity
  have e3 : mvec A dV i = A i ⬝ᵥ dV := by simp only [rsimp]; rfl
  rw [abs_div, abs_of_pos hp, div_le_iff₀ hp, e3]
  refine (dot_le_len3 _ _).trans ?_
  have := mul_le_mul (hA i) hV (len3_nonneg' _) (by norm_num)
  linarith

/-- the same attitude, two nearby states -/
theorem step_lip {ε : ℝ} (hε : 0 ≤ ε) (hε1 : ε ≤ 1) {p v p' v' dV : V3 ℝ} {A : M3 ℝ} {d : Int} (hd : 1000 ≤ d ∧ d ≤ 20000)
    (hA : ∀ i, len3 (A i) ≤ 11 / 10) (hV : len3 dV ≤ 50 * ((d : ℝ) / 1000000)) (hF : Flight p v) (hF' : Flight p' v')
    (hy : ∀ i, |st6 p v i - st6 p' v' i| ≤ wt i * ε) (i : Fin 6) :
    |stepY p v dV A d i - stepY p' v' dV A d i| ≤ wt i * ((1 + 2.7e-3 * ((d : ℝ) / 1000000)) * ε) := by
  have hd1 : (1000 : ℝ) ≤ d := by exact_mod_cast hd.1
  have hd2 : (d : ℝ) ≤ 20000 := by exact_mod_cast hd.2
  have hdt : 0 ≤ (d : ℝ) / 1000000 ∧ (d : ℝ) / 1000000 ≤ 0.02 := ⟨by positivity, by rw [div_le_iff₀ (by norm_num)]; norm_num; linarith⟩
  obtain ⟨g0, g1, g2⟩ := gravity_lip hε (φ := p 0) (φ' := p' 0) (z := p 2) (z' := p' 2) ⟨hy 0, hF.lat, hF'.lat⟩ ⟨hy 2, hF.alt, hF'.alt⟩
  have a := fun i => Lp.const hε _ (force_le hd.1 hA hV i)
  have hf : ∀ z z' : Fin 6 → ℝ, (∀ i, Lp ε (z i) (z' i) ((![1.61e-7, 6e-7, 1.01, 2.02e-3, 2.02e-3, 2.02e-3] : Fin 6 → ℝ) i)
      ((![1.251, 5, 20010, 305, 305, 305] : Fin 6 → ℝ) i)) →
      ∀ i, Lp ε (dynG (mvec A dV) (Gravity.gravityNed (p 0) (p 2)).2 ((d : ℝ) / 1000000) z i)
        (dynG (mvec A dV) (Gravity.gravityNed (p' 0) (p' 2)).2 ((d : ℝ) / 1000000) z' i)
        ((![3.3e-10, 1.2e-9, 2.02e-3, 5.3e-6, 5.3e-6, 5.3e-6] : Fin 6 → ℝ) i) ((![1e-3, 1e-3, 305, 70, 70, 70] : Fin 6 → ℝ) i) := by
    intro z z' hz i
    obtain ⟨q0, q1, q2, q3, q4, q5⟩ := dyn_lip hε (by linarith) (hz 0) (hz 2) (hz 3) (hz 4) (hz 5) (a 0) (a 1) (a 2) g0 g1 g2
    fin_cases i
    · exact q0.mono hε (by norm_num) (by norm_num)
    · exact q1.mono hε (by norm_num) (by norm_num)
    · exact q2.mono hε (by norm_num) (by norm_num)
    · exact q3.mono hε (by norm_num) (by norm_num)
    · exact q4.mono hε (by norm_num) (by norm_num)
    · exact q5.mono hε (by norm_num) (by norm_num)
  have key := rk4_sens hε hdt (w := wt) (R0 := ![1.25, 4, 20000, 300, 300, 300]) (e := fun i => wt i * ε) hf (fun i => by fin_cases i <;> norm_num [wt])
    (fun i => by fin_cases i <;> norm_num) (fun i => by fin_cases i <;> norm_num) (fun i => by fin_cases i <;> norm_num)
    (fun i => le_rfl) hy hF.st6_le hF'.st6_le i
  rw [stepY, stepY, rk4G_rk4, rk4G_rk4, dt_R]
  refine key.trans ?_
  rw [← sub_nonneg]
  have hn := mul_nonneg hdt.1 hε
  generalize (d : ℝ) / 1000000 = t at *
  fin_cases i <;> norm_num [wt] at hn ⊢ <;> nlinarith

/-- the same state, two nearby specific forces -/
theorem step_force2 {κ : ℝ} (hε : 0 ≤ κ) (hκ1 : κ ≤ 100) {p v dV dV' : V3 ℝ} {A B : M3 ℝ} {d : Int} (hd : 1000 ≤ d ∧ d ≤ 20000)
    (hA : ∀ i, len3 (A i) ≤ 11 / 10) (hB : ∀ i, len3 (B i) ≤ 11 / 10) (hV : len3 dV ≤ 50 * ((d : ℝ) / 1000000))
    (hV' : len3 dV' ≤ 50 * ((d : ℝ) / 1000000)) (hF : Flight p v)
    (hAB : ∀ i, |mvec A dV i - mvec B dV' i| ≤ κ * ((d : ℝ) / 1000000)) (i : Fin 6) :
    |stepY p v dV A d i - stepY p v dV' B d i| ≤ wt i * (520 * ((d : ℝ) / 1000000) * κ) := by
  have hd1 : (1000 : ℝ) ≤ d := by exact_mod_cast hd.1
  have hd2 : (d : ℝ) ≤ 20000 := by exact_mod_cast hd.2
  have hdt : 0 < (d : ℝ) / 1000000 ∧ (d : ℝ) / 1000000 ≤ 0.02 := ⟨by positivity, by rw [div_le_iff₀ (by norm_num)]; norm_num; linarith⟩
  have g : ∀ i, Lp κ ((Gravity.gravityNed (p 0) (p 2)).2 i) ((Gravity.gravityNed (p 0) (p 2)).2 i) 0 11 := by
    intro i
    obtain ⟨g0, g1, g2⟩ := gravity_lip (ε := 0) le_rfl (φ := p 0) (φ' := p 0) (z := p 2) (z' := p 2) ⟨by simp, hF.lat, hF.lat⟩ ⟨by simp, hF.alt, hF.alt⟩
    fin_cases i
    exacts [.const hε _ g0.m1, .const hε _ g1.m1, .const hε _ g2.m1]
  have a : ∀ i, Lp κ (mvec A dV i / ((d : ℝ) / 1000000)) (mvec B dV' i / ((d : ℝ) / 1000000)) 1 56 := by
    intro i
    refine ⟨?_, force_le hd.1 hA hV i, force_le hd.1 hB hV' i⟩
    rw [← sub_div, abs_div, abs_of_pos hdt.1, div_le_iff₀ hdt.1, one_mul]
    exact hAB i
  have hf : ∀ z z' : Fin 6 → ℝ, (∀ i, Lp κ (z i) (z' i) ((![1e-10, 1, 5e-4, 0.0206, 0.0206, 0.0206] : Fin 6 → ℝ) i)
      ((![1.251, 5, 20010, 305, 305, 305] : Fin 6 → ℝ) i)) →
      ∀ i, Lp κ (dynG (mvec A dV) (Gravity.gravityNed (p 0) (p 2)).2 ((d : ℝ) / 1000000) z i)
        (dynG (mvec B dV') (Gravity.gravityNed (p 0) (p 2)).2 ((d : ℝ) / 1000000) z' i)
        ((![3.4e-9, 1.1e-8, 0.0206, 1.01, 1.01, 1.01] : Fin 6 → ℝ) i) ((![1e-3, 1e-3, 305, 70, 70, 70] : Fin 6 → ℝ) i) := by
    intro z z' hz i
    obtain ⟨q0, q1, q2, q3, q4, q5⟩ := dyn_lip_force hε hκ1 (hz 0) (hz 2) (hz 3) (hz 4) (hz 5) (a 0) (a 1) (a 2) (g 0) (g 1) (g 2)
    fin_cases i
    · exact q0.mono hε (by norm_num) (by norm_num)
    · exact q1.mono hε (by norm_num) (by norm_num)
    · exact q2.mono hε (by norm_num) (by norm_num)
    · exact q3.mono hε (by norm_num) (by norm_num)
    · exact q4.mono hε (by norm_num) (by norm_num)
    · exact q5.mono hε (by norm_num) (by norm_num)
  have key := rk4_sens hε ⟨hdt.1.le, hdt.2⟩ (w := 0) (R0 := ![1.25, 4, 20000, 300, 300, 300]) (e := fun _ => 0) hf (fun i => by fin_cases i <;> norm_num)
    (fun i => by fin_cases i <;> norm_num) (fun i => by fin_cases i <;> norm_num) (fun i => by fin_cases i <;> norm_num)
    (fun i => by simp) (y := st6 p v) (y' := st6 p v) (fun i => by simp) hF.st6_le hF.st6_le i
  rw [stepY, stepY, rk4G_rk4, rk4G_rk4, dt_R]
  refine key.trans ?_
  have hn := mul_nonneg hdt.1.le hε
  rw [← sub_nonneg]
  generalize (d : ℝ) / 1000000 = t at *
  fin_cases i <;> norm_num [wt] at hn ⊢ <;> nlinarith


/-- the same state, two nearby attitudes -/
theorem step_force {η : ℝ} (hη : 0 ≤ η) (hη1 : η ≤ 1) {p v dV : V3 ℝ} {A B : M3 ℝ} {d : Int} (hd : 1000 ≤ d ∧ d ≤ 20000)
    (hA : ∀ i, len3 (A i) ≤ 11 / 10) (hB : ∀ i, len3 (B i) ≤ 11 / 10) (hV : len3 dV ≤ 50 * ((d : ℝ) / 1000000)) (hF : Flight p v)
    (hAB : ∀ i, len3 (A i - B i) ≤ η) (i : Fin 6) :
    |stepY p v dV A d i - stepY p v dV B d i| ≤ wt i * (26000 * ((d : ℝ) / 1000000) * η) := by
  have := step_force2 (κ := 50 * η) (by positivity) (by linarith) hd hA hB hV hV hF (fun i => by
    have e3 : ∀ A : M3 ℝ, mvec A dV i = A i ⬝ᵥ dV := fun A => by simp only [rsimp]; rfl
    rw [e3, e3, ← sub_dotProduct]
    refine (dot_le_len3 _ _).trans ?_
    have := mul_le_mul (hAB i) hV (len3_nonneg' _) hη
    linarith) i
  refine this.trans (le_of_eq ?_)
  ring

end NavFuse
