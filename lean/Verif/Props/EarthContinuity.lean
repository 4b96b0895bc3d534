import Verif.Props.TimeFrame

/-! # The Earth turns without jumps: C181

The rows of the table change at midnight, and so does the pair of rows between which `getCurrentEop` interpolates; the sidereal time of the code is
reduced to a day.  None of it may show in the matrix. -/

namespace NavFuse.Props
open Matrix Spec Rotations

/-- one row a day, none left out and none twice -/
def Daily (t : Eops ℝ) : Prop :=
  ∀ i a b, t.mjd[i]? = some a → t.mjd[i + 1]? = some b → b = a + 1

theorem Daily.at {t : Eops ℝ} (h : Daily t) {i : ℕ} {a : ℝ} (hi : t.mjd[i]? = some a) : ∀ {k : ℕ} {b : ℝ}, t.mjd[i + k]? = some b → b = a + k := by
  intro k
  induction k with
  | zero => intro b hb; rw [Nat.add_zero, hi] at hb; cases hb; simp
  | succ k ih =>
    intro b hb
    have hl : i + k < t.mjd.length := by
      by_contra hc
      rw [List.getElem?_eq_none (by omega)] at hb; cases hb
    have := h (i + k) _ b (List.getElem?_eq_getElem hl) hb
    rw [this, ih (List.getElem?_eq_getElem hl)]
    push_cast; ring

/-- the day determines the row -/
theorem Daily.index {t : Eops ℝ} (h : Daily t) {i j : ℕ} {a b : ℝ} (hi : t.mjd[i]? = some a) (hj : t.mjd[j]? = some b) : b - a = (j : ℝ) - i := by
  rcases Nat.le_total i j with c | c
  · obtain ⟨k, rfl⟩ := Nat.exists_eq_add_of_le c
    rw [h.at hi hj]; push_cast; ring
  · obtain ⟨k, rfl⟩ := Nat.exists_eq_add_of_le c
    rw [h.at hj hi]; push_cast; ring

theorem IsRow.unique {t : Eops ℝ} {i : ℕ} {a b : EopRow ℝ} (ha : IsRow t i a) (hb : IsRow t i b) : a = b := by
  obtain ⟨a1, a2, a3, a4, a5, a6⟩ := ha
  obtain ⟨b1, b2, b3, b4, b5, b6⟩ := hb
  rw [a1] at b1; rw [a2] at b2; rw [a3] at b3; rw [a4] at b4; rw [a5] at b5; rw [a6] at b6
  cases a; cases b
  simp only [Option.some.injEq] at *
  subst b1 b2 b3 b4 b5 b6; rfl

/-- a column on straight lines: steps of at most `2 M` per day, across midnight too -/
theorem line_step {p q q' M u d : ℝ} (hf : ⌊u + d⌋ = ⌊u⌋ + 1) (hp : |p| ≤ M) (hq : |q| ≤ M) (hq' : |q'| ≤ M) :
    |between (Int.fract (u + d)) q q' - between (Int.fract u) p q| ≤ 2 * M * d := by
  have f0 := Int.fract_nonneg (u + d)
  have f1 := (Int.fract_lt_one u).le
  have fr : Int.fract (u + d) = d - (1 - Int.fract u) := by rw [Int.fract, Int.fract, hf]; push_cast; ring
  have e : between (Int.fract (u + d)) q q' - between (Int.fract u) p q = (q' - q) * Int.fract (u + d) + (q - p) * (1 - Int.fract u) := by
    unfold between; ring
  rw [e]
  refine (abs_add_le _ _).trans ?_
  rw [abs_mul, abs_mul, abs_of_nonneg f0, abs_of_nonneg (sub_nonneg.2 f1)]
  have A := mul_le_mul_of_nonneg_right ((abs_sub q' q).trans (add_le_add hq' hq)) f0
  have B := mul_le_mul_of_nonneg_right ((abs_sub q p).trans (add_le_add hq hp)) (sub_nonneg.2 f1)
  have : (M + M) * Int.fract (u + d) + (M + M) * (1 - Int.fract u) = 2 * M * d := by rw [fr]; ring
  linarith

theorem line_step' {p q M u d : ℝ} (hd : 0 ≤ d) (hf : ⌊u + d⌋ = ⌊u⌋) (hp : |p| ≤ M) (hq : |q| ≤ M) :
    |between (Int.fract (u + d)) p q - between (Int.fract u) p q| ≤ 2 * M * d := by
  have fr : Int.fract (u + d) = Int.fract u + d := by rw [Int.fract, Int.fract, hf]; ring
  have e : between (Int.fract (u + d)) p q - between (Int.fract u) p q = (q - p) * d := by rw [fr]; unfold between; ring
  rw [e, abs_mul, abs_of_nonneg hd]
  exact mul_le_mul_of_nonneg_right ((abs_sub _ _).trans (by linarith)) hd

/-- the parameters move continuously, across midnight too -/
theorem eop_step (obj : Obj ℝ) (hR : obj.eops.Rect) (hU : UsualTable obj.eops) (hD : Daily obj.eops) (u d : ℝ) (hd : 0 ≤ d) (hd1 : d ≤ 1.2e-5) (e e' : EopVal ℝ)
    (h : getCurrentEop obj u = .ok (some e)) (h' : getCurrentEop obj (u + d) = .ok (some e')) :
    |e.taiUtc| ≤ 100 ∧ |e.ut1Utc| ≤ 1 ∧ |e'.ut1Utc - e.ut1Utc| ≤ 2 * d ∧ |e'.xPole - e.xPole| ≤ 1e-5 * d ∧ |e'.yPole - e.yPole| ≤ 1e-5 * d := by
  obtain ⟨i, p, q, r1, r2, r3, rfl⟩ := lookup_rows obj hR u e h
  obtain ⟨j, p', q', s1, s2, s3, rfl⟩ := lookup_rows obj hR (u + d) e' h'
  obtain ⟨a1, a2, a3, a4⟩ := hU _ _ r1
  obtain ⟨b1, b2, b3, -⟩ := hU _ _ r2
  obtain ⟨c1, c2, c3, -⟩ := hU _ _ s2
  have ar := arcsec_bd
  unfold arcsec at ar
  have ix := hD.index r1.1 s1.1
  rw [r3, s3] at ix
  have key : ∀ {x y M : ℝ}, |y - x| ≤ 2 * M * d → M ≤ 1 → |y - x| ≤ 2 * d := fun {x y M} hh hM => hh.trans (by nlinarith)
  have pole : ∀ {x y : ℝ}, |y - x| ≤ 2 * 1 * d → |y * (Real.pi / 648000) - x * (Real.pi / 648000)| ≤ 1e-5 * d := fun {x y} hh => by
    rw [← sub_mul, abs_mul, abs_of_pos ar.1]
    have := mul_le_mul hh ar.2.le ar.1.le (by positivity)
    norm_num at *
    linarith
  have bt := (between_le (Int.fract_nonneg u) (Int.fract_lt_one u).le a3 b3).trans (show (0.9 : ℝ) ≤ 1 by norm_num)
  have fl : ⌊u + d⌋ = ⌊u⌋ ∨ ⌊u + d⌋ = ⌊u⌋ + 1 := by
    have g1 : ⌊u⌋ ≤ ⌊u + d⌋ := Int.floor_le_floor (by linarith)
    have g2 : ⌊u + d⌋ < ⌊u⌋ + 2 := by
      rw [Int.floor_lt]; push_cast; have := Int.lt_floor_add_one u; norm_num at hd1; linarith
    omega
  rcases fl with hf | hf
  · have ij : j = i := by
      rw [hf, sub_self] at ix
      exact_mod_cast (sub_eq_zero.1 ix.symm)
    subst ij
    cases r1.unique s1
    cases r2.unique s2
    exact ⟨a4, bt, key (line_step' hd hf a3 b3) (by norm_num), pole (line_step' hd hf a1 b1), pole (line_step' hd hf a2 b2)⟩
  · have ij : j = i + 1 := by
      rw [hf] at ix; push_cast at ix
      have : (j : ℝ) = i + 1 := by linarith
      exact_mod_cast this
    subst ij
    have hl : i + 1 < obj.eops.mjd.length := by
      by_contra hc
      have := s1.1
      rw [List.getElem?_eq_none (by omega)] at this; cases this
    rw [if_pos hl] at r2
    cases r2.unique s1
    exact ⟨a4, bt, key (line_step hf a3 b3 c3) (by norm_num), pole (line_step hf a1 b1 c1), pole (line_step hf a2 b2 c2)⟩

theorem len3_opp (x : Fin 3 → ℝ) : len3 (-x) = len3 x := by simp [len3]

/-- C181: with one row a day and no leap second in between, the J2000-to-ECEF matrix moves by no more than the rotation of the Earth: 6.303 rad per day, up
to 2·10⁻¹⁴ rad; midnight, where the rows change, makes no difference.  It also moves by at least 6.298 rad per day. -/
theorem C181_no_jumps (obj : Obj ℝ) (hR : obj.eops.Rect) (hU : UsualTable obj.eops) (hD : Daily obj.eops) (u d : ℝ) (hd : 0 ≤ d) (hd1 : d ≤ 1.2e-5)
    (hu : |u - 51544.5| ≤ 36525) (e e' : EopVal ℝ) (h : getCurrentEop obj u = .ok (some e)) (h' : getCurrentEop obj (u + d) = .ok (some e')) (hl : e'.taiUtc = e.taiUtc) :
    OpNear (j2kProduct u e) (j2kProduct (u + d) e') (6.303 * d + 2e-14) ∧
    ∃ x, len3 x = 1 ∧ 6.298 * d - 2e-14 ≤ len3 ((j2kProduct u e - j2kProduct (u + d) e' : Matrix (Fin 3) (Fin 3) ℝ) *ᵥ x) := by
  obtain ⟨c1, c2, c3, c4, c5⟩ := eop_step obj hR hU hD u d hd hd1 e e' h h'
  obtain ⟨ra, x, x1, x2⟩ := orientation_rate u d e e' hd hd1 hu hl c1 c2 c3 c4 c5
  have A := j2k_orientation u e
  have B := j2k_orientation (u + d) e'
  have B' : OpNear (orientation (u + d) e') (j2kProduct (u + d) e') 1e-14 := fun y => by
    have := B y
    rwa [← neg_sub, neg_mulVec, len3_opp] at this
  refine ⟨((A.trans ra).trans B').mono (by norm_num; linarith), x, x1, ?_⟩
  have s : (orientation u e - orientation (u + d) e') *ᵥ x
      = ((j2kProduct u e - j2kProduct (u + d) e' : Matrix (Fin 3) (Fin 3) ℝ) *ᵥ x + (orientation u e - j2kProduct u e) *ᵥ x) + (j2kProduct (u + d) e' - orientation (u + d) e') *ᵥ x := by
    rw [← add_mulVec, ← add_mulVec]; congr 1; abel
  rw [s] at x2
  have t1 := len3_add ((j2kProduct u e - j2kProduct (u + d) e' : Matrix (Fin 3) (Fin 3) ℝ) *ᵥ x + (orientation u e - j2kProduct u e) *ᵥ x) ((j2kProduct (u + d) e' - orientation (u + d) e') *ᵥ x)
  have t2 := len3_add ((j2kProduct u e - j2kProduct (u + d) e' : Matrix (Fin 3) (Fin 3) ℝ) *ᵥ x) ((orientation u e - j2kProduct u e) *ᵥ x)
  have t3 := B x
  have t4 := A x
  rw [← neg_sub, neg_mulVec, len3_opp] at t4
  rw [x1] at t3 t4
  norm_num at *
  linarith

/-- hypotheses met: half a second before to half a second after the midnight between two rows -/
example : ∃ (obj : Obj ℝ) (u d : ℝ) (e e' : EopVal ℝ), obj.eops.Rect ∧ UsualTable obj.eops ∧ Daily obj.eops ∧ 0 < d ∧ d ≤ 1.2e-5 ∧ |u - 51544.5| ≤ 36525 ∧
    ⌊u + d⌋ = ⌊u⌋ + 1 ∧ getCurrentEop obj u = .ok (some e) ∧ getCurrentEop obj (u + d) = .ok (some e') ∧ e'.taiUtc = e.taiUtc := by
  have hR : (⟨[60000, 60001], [0.04, 0.05], [0.38, 0.37], [0.355, 0.354], [0.001, 0.002], [37, 37]⟩ : Eops ℝ).Rect := by simp [Eops.Rect]
  have f1 : ⌊(60001 - 5e-6 : ℝ)⌋ = 60000 := by rw [Int.floor_eq_iff]; norm_num
  have f2 : ⌊(60001 - 5e-6 + 1e-5 : ℝ)⌋ = 60001 := by rw [Int.floor_eq_iff]; norm_num
  obtain ⟨p, q, r1, -, h1⟩ := (C13_lookup ⟨true, _⟩ hR (60001 - 5e-6)).2 rfl 0 (by rw [f1]; simp) (by simp)
  obtain ⟨p', q', s1, -, h2⟩ := (C13_lookup ⟨true, _⟩ hR (60001 - 5e-6 + 1e-5)).2 rfl 1 (by rw [f2]; simp) (fun j hj => by
    obtain rfl : j = 0 := by omega
    rw [f2]; norm_num)
  refine ⟨_, _, 1e-5, _, _, hR, ?_, ?_, by norm_num, by norm_num, by rw [abs_le]; norm_num, by rw [f1, f2]; rfl, h1, h2, ?_⟩
  · rintro i row ⟨-, a, b, c, -, t⟩
    rcases i with _ | _ | i <;> simp at a b c t
    all_goals rw [← a, ← b, ← c, ← t]; simp only [abs_le]; norm_num
  · intro i a b ha hb
    rcases i with _ | _ | i <;> simp at ha hb
    subst ha hb; norm_num
  · have := r1.2.2.2.2.2
    have := s1.2.2.2.2.2
    simp at *
    linarith

end NavFuse.Props
