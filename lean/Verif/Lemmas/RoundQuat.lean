import Verif.Lemmas.RoundGeodesy
import Verif.Props.Quaternion
import Verif.Props.AttitudeRnd

/-! Rounding errors of the conversions between quaternions and rotation matrices. -/

namespace NavFuse.Attitude
open Matrix Spec Props
variable [Machine] {r : ℝ → ℝ}


theorem dcm_ap (h : Rounds53 r) {Q : Fin 4 → Dbl r} {q : Fin 4 → Rnd r} {p : Fin 4 → ℝ} (hq : ∀ i, Aj (Q i) (q i) (p i) 0 1.05)
    (h1 : 0.9 ≤ sq4 p) (h2 : sq4 p ≤ 1.1) (i j : Fin 3) : Aj (dcmG Q i j) (dcmG q i j) (dcmG p i j) 9.22e-15 1 := by
  have hne : p ≠ 0 := by rintro rfl; simp [sq4] at h1; norm_num at h1
  have hrot := (dcm_isRot hne).entry_le
  have pr : ∀ i j, Aj (Q i * Q j) (q i * q j) (p i * p j) 2.76e-16 1.11 := fun i j => (hq i).mul h (hq j) (by norm_num) (by norm_num)
  have t : Aj (Flt.lit 2 : Dbl r) (Flt.lit 2 : Rnd r) 2 5e-16 2 := by simpa using Aj.lit h 2 (N := 2) (D := 5e-16) (by norm_num) (by norm_num)
  have den : Aj (Q 0 * Q 0 + Q 1 * Q 1 + Q 2 * Q 2 + Q 3 * Q 3) (q 0 * q 0 + q 1 * q 1 + q 2 * q 2 + q 3 * q 3)
      (p 0 * p 0 + p 1 * p 1 + p 2 * p 2 + p 3 * p 3) 3.61e-15 4.44 :=
    (((pr 0 0).add h (pr 1 1) (D := 1.11e-15) (N := 2.22) (by norm_num) (by norm_num)).add h (pr 2 2) (D := 2.22e-15) (N := 3.33) (by norm_num) (by norm_num)).add h (pr 3 3)
      (by norm_num) (by norm_num)
  have low : 0.9 ≤ |p 0 * p 0 + p 1 * p 1 + p 2 * p 2 + p 3 * p 3| := by
    refine le_trans (h1.trans (le_of_eq ?_)) (le_abs_self _)
    simp only [sq4]; ring
  have quo : ∀ {X : Dbl r} {x : Rnd r} {y N : ℝ} (i j : Fin 3), Aj X x y 4.45e-15 N → y / (p 0 * p 0 + p 1 * p 1 + p 2 * p 2 + p 3 * p 3) = dcmG p i j
      → Aj (X / (Q 0 * Q 0 + Q 1 * Q 1 + Q 2 * Q 2 + Q 3 * Q 3)) (x / (q 0 * q 0 + q 1 * q 1 + q 2 * q 2 + q 3 * q 3)) (dcmG p i j) 9.22e-15 1 := by
    intro X x y N i j a e
    have := hrot i j
    rw [← e] at this ⊢
    exact a.div_mag h den low this (by norm_num) (q := 8.96e-15) (by norm_num) (by norm_num)
  have pp : ∀ a b c e, Aj (Q a * Q a + Q b * Q b - Q c * Q c - Q e * Q e) (q a * q a + q b * q b - q c * q c - q e * q e)
      (p a * p a + p b * p b - p c * p c - p e * p e) 4.45e-15 4.44 := fun a b c e =>
    (((pr a a).add h (pr b b) (D := 1.11e-15) (N := 2.22) (by norm_num) (by norm_num)).sub h (pr c c) (D := 2.22e-15) (N := 3.33) (by norm_num) (by norm_num)).sub h (pr e e)
      (by norm_num) (by norm_num)
  have mp : ∀ a b c e, Aj (Q a * Q a - Q b * Q b + Q c * Q c - Q e * Q e) (q a * q a - q b * q b + q c * q c - q e * q e)
      (p a * p a - p b * p b + p c * p c - p e * p e) 4.45e-15 4.44 := fun a b c e =>
    (((pr a a).sub h (pr b b) (D := 1.11e-15) (N := 2.22) (by norm_num) (by norm_num)).add h (pr c c) (D := 2.22e-15) (N := 3.33) (by norm_num) (by norm_num)).sub h (pr e e)
      (by norm_num) (by norm_num)
  have mm : ∀ a b c e, Aj (Q a * Q a - Q b * Q b - Q c * Q c + Q e * Q e) (q a * q a - q b * q b - q c * q c + q e * q e)
      (p a * p a - p b * p b - p c * p c + p e * p e) 4.45e-15 4.44 := fun a b c e =>
    (((pr a a).sub h (pr b b) (D := 1.11e-15) (N := 2.22) (by norm_num) (by norm_num)).sub h (pr c c) (D := 2.22e-15) (N := 3.33) (by norm_num) (by norm_num)).add h (pr e e)
      (by norm_num) (by norm_num)
  have oa : ∀ a b c e, Aj (Flt.lit 2 * (Q a * Q b + Q c * Q e)) (Flt.lit 2 * (q a * q b + q c * q e)) (2 * (p a * p b + p c * p e)) 4.45e-15 4.44 := fun a b c e =>
    t.mul h ((pr a b).add h (pr c e) (D := 1.11e-15) (N := 2.22) (by norm_num) (by norm_num)) (by norm_num) (by norm_num)
  have os : ∀ a b c e, Aj (Flt.lit 2 * (Q a * Q b - Q c * Q e)) (Flt.lit 2 * (q a * q b - q c * q e)) (2 * (p a * p b - p c * p e)) 4.45e-15 4.44 := fun a b c e =>
    t.mul h ((pr a b).sub h (pr c e) (D := 1.11e-15) (N := 2.22) (by norm_num) (by norm_num)) (by norm_num) (by norm_num)
  fin_cases i <;> fin_cases j
  · exact quo 0 0 (pp 0 1 2 3) (by simp [dcmG])
  · exact quo 0 1 (oa 1 2 0 3) (by simp [dcmG, rsimp])
  · exact quo 0 2 (os 1 3 0 2) (by simp [dcmG, rsimp])
  · exact quo 1 0 (os 1 2 0 3) (by simp [dcmG, rsimp])
  · exact quo 1 1 (mp 0 1 2 3) (by simp [dcmG])
  · exact quo 1 2 (oa 2 3 0 1) (by simp [dcmG, rsimp])
  · exact quo 2 0 (oa 1 3 0 2) (by simp [dcmG, rsimp])
  · exact quo 2 1 (os 2 3 0 1) (by simp [dcmG, rsimp])
  · exact quo 2 2 (mm 0 1 2 3) (by simp [dcmG])

theorem dcm_ap' (h : Rounds53 r) {Q : Fin 4 → Dbl r} {q : Fin 4 → Rnd r} {p : Fin 4 → ℝ} (hq : ∀ i, Aj (Q i) (q i) (p i) 1.61e-13 1.05)
    (h1 : 0.9 ≤ sq4 p) (h2 : sq4 p ≤ 1.1) (i j : Fin 3) : Aj (dcmG Q i j) (dcmG q i j) (dcmG p i j) 3.07e-12 1 := by
  have hne : p ≠ 0 := by rintro rfl; simp [sq4] at h1; norm_num at h1
  have hrot := (dcm_isRot hne).entry_le
  have pr : ∀ i j, Aj (Q i * Q j) (q i * q j) (p i * p j) 3.39e-13 1.11 := fun i j => (hq i).mul h (hq j) (by norm_num) (by norm_num)
  have t : Aj (Flt.lit 2 : Dbl r) (Flt.lit 2 : Rnd r) 2 5e-16 2 := by simpa using Aj.lit h 2 (N := 2) (D := 5e-16) (by norm_num) (by norm_num)
  have den : Aj (Q 0 * Q 0 + Q 1 * Q 1 + Q 2 * Q 2 + Q 3 * Q 3) (q 0 * q 0 + q 1 * q 1 + q 2 * q 2 + q 3 * q 3)
      (p 0 * p 0 + p 1 * p 1 + p 2 * p 2 + p 3 * p 3) 1.37e-12 4.44 :=
    (((pr 0 0).add h (pr 1 1) (D := 6.79e-13) (N := 2.22) (by norm_num) (by norm_num)).add h (pr 2 2) (D := 1.02e-12) (N := 3.33) (by norm_num) (by norm_num)).add h (pr 3 3)
      (by norm_num) (by norm_num)
  have low : 0.9 ≤ |p 0 * p 0 + p 1 * p 1 + p 2 * p 2 + p 3 * p 3| := by
    refine le_trans (h1.trans (le_of_eq ?_)) (le_abs_self _)
    simp only [sq4]; ring
  have quo : ∀ {X : Dbl r} {x : Rnd r} {y N : ℝ} (i j : Fin 3), Aj X x y 1.38e-12 N → y / (p 0 * p 0 + p 1 * p 1 + p 2 * p 2 + p 3 * p 3) = dcmG p i j
      → Aj (X / (Q 0 * Q 0 + Q 1 * Q 1 + Q 2 * Q 2 + Q 3 * Q 3)) (x / (q 0 * q 0 + q 1 * q 1 + q 2 * q 2 + q 3 * q 3)) (dcmG p i j) 3.07e-12 1 := by
    intro X x y N i j a e
    have := hrot i j
    rw [← e] at this ⊢
    exact a.div_mag h den low this (by norm_num) (q := 3.06e-12) (by norm_num) (by norm_num)
  have pp : ∀ a b c e, Aj (Q a * Q a + Q b * Q b - Q c * Q c - Q e * Q e) (q a * q a + q b * q b - q c * q c - q e * q e)
      (p a * p a + p b * p b - p c * p c - p e * p e) 1.38e-12 4.44 := fun a b c e =>
    (((pr a a).add h (pr b b) (D := 6.79e-13) (N := 2.22) (by norm_num) (by norm_num)).sub h (pr c c) (D := 1.02e-12) (N := 3.33) (by norm_num) (by norm_num)).sub h (pr e e)
      (by norm_num) (by norm_num)
  have mp : ∀ a b c e, Aj (Q a * Q a - Q b * Q b + Q c * Q c - Q e * Q e) (q a * q a - q b * q b + q c * q c - q e * q e)
      (p a * p a - p b * p b + p c * p c - p e * p e) 1.38e-12 4.44 := fun a b c e =>
    (((pr a a).sub h (pr b b) (D := 6.79e-13) (N := 2.22) (by norm_num) (by norm_num)).add h (pr c c) (D := 1.02e-12) (N := 3.33) (by norm_num) (by norm_num)).sub h (pr e e)
      (by norm_num) (by norm_num)
  have mm : ∀ a b c e, Aj (Q a * Q a - Q b * Q b - Q c * Q c + Q e * Q e) (q a * q a - q b * q b - q c * q c + q e * q e)
      (p a * p a - p b * p b - p c * p c + p e * p e) 1.38e-12 4.44 := fun a b c e =>
    (((pr a a).sub h (pr b b) (D := 6.79e-13) (N := 2.22) (by norm_num) (by norm_num)).sub h (pr c c) (D := 1.02e-12) (N := 3.33) (by norm_num) (by norm_num)).add h (pr e e)
      (by norm_num) (by norm_num)
  have oa : ∀ a b c e, Aj (Flt.lit 2 * (Q a * Q b + Q c * Q e)) (Flt.lit 2 * (q a * q b + q c * q e)) (2 * (p a * p b + p c * p e)) 1.38e-12 4.44 := fun a b c e =>
    t.mul h ((pr a b).add h (pr c e) (D := 6.79e-13) (N := 2.22) (by norm_num) (by norm_num)) (by norm_num) (by norm_num)
  have os : ∀ a b c e, Aj (Flt.lit 2 * (Q a * Q b - Q c * Q e)) (Flt.lit 2 * (q a * q b - q c * q e)) (2 * (p a * p b - p c * p e)) 1.38e-12 4.44 := fun a b c e =>
    t.mul h ((pr a b).sub h (pr c e) (D := 6.79e-13) (N := 2.22) (by norm_num) (by norm_num)) (by norm_num) (by norm_num)
  fin_cases i <;> fin_cases j
  · exact quo 0 0 (pp 0 1 2 3) (by simp [dcmG])
  · exact quo 0 1 (oa 1 2 0 3) (by simp [dcmG, rsimp])
  · exact quo 0 2 (os 1 3 0 2) (by simp [dcmG, rsimp])
  · exact quo 1 0 (os 1 2 0 3) (by simp [dcmG, rsimp])
  · exact quo 1 1 (mp 0 1 2 3) (by simp [dcmG])
  · exact quo 1 2 (oa 2 3 0 1) (by simp [dcmG, rsimp])
  · exact quo 2 0 (oa 1 3 0 2) (by simp [dcmG, rsimp])
  · exact quo 2 1 (os 2 3 0 1) (by simp [dcmG, rsimp])
  · exact quo 2 2 (mm 0 1 2 3) (by simp [dcmG])

omit [Machine] in
theorem _root_.NavFuse.Aj.congr {X : Dbl r} {x : Rnd r} {y y' d M : ℝ} (a : Aj X x y d M) (e : y = y') : Aj X x y' d M := e ▸ a

theorem _root_.NavFuse.Aj.lt_true {X X' : Dbl r} {x x' : Rnd r} {y y' d d' M M' : ℝ} (a : Aj X x y d M) (b : Aj X' x' y' d' M') (hl : y + (d + d') < y') :
    Flt.lt X X' = true := by
  rw [a.sim, b.sim]
  have h1 := abs_le.1 a.err
  have h2 := abs_le.1 b.err
  exact decide_eq_true (show x.val < x'.val by linarith)

theorem _root_.NavFuse.Aj.lt_false {X X' : Dbl r} {x x' : Rnd r} {y y' d d' M M' : ℝ} (a : Aj X x y d M) (b : Aj X' x' y' d' M') (hl : y' + (d + d') ≤ y) :
    Flt.lt X X' = false := by
  rw [a.sim, b.sim]
  have h1 := abs_le.1 a.err
  have h2 := abs_le.1 b.err
  exact decide_eq_false (not_lt.2 (show x'.val ≤ x.val by linarith))

/-- the largest squared component, plus a margin -/
def Clear (B : M3 ℝ) (k : Fin 4) : Prop := ∀ i, i ≠ k → prodM B i i / 4 + 2e-14 ≤ prodM B k k / 4

/-- the quaternion of a rotation whose `k`-th component is the largest, with that component positive -/
noncomputable def quatK (B : M3 ℝ) (k : Fin 4) : Fin 4 → ℝ := fun i => prodM B k i * (1 / (4 * Real.sqrt (prodM B k k / 4)))

omit [Machine] in
theorem prodM_diag_le {B : M3 ℝ} (hB : IsRot B) (k : Fin 4) : prodM B k k ≤ 4 := by
  have := prodM_trace B
  have h0 := prodM_nonneg hB 0; have h1 := prodM_nonneg hB 1; have h2 := prodM_nonneg hB 2; have h3 := prodM_nonneg hB 3
  fin_cases k <;> simp only [Fin.zero_eta, Fin.mk_one, Fin.reduceFinMk] <;> linarith

omit [Machine] in
theorem prodM_off_le {B : M3 ℝ} (hB : IsRot B) {k i : Fin 4} (hik : i ≠ k) : |prodM B k i| ≤ 2 := by
  have htr := prodM_trace B
  have h0 := prodM_nonneg hB 0; have h1 := prodM_nonneg hB 1; have h2 := prodM_nonneg hB 2; have h3 := prodM_nonneg hB 3
  have hs : prodM B k k + prodM B i i ≤ 4 := by
    fin_cases k <;> fin_cases i <;> simp_all only [ne_eq, not_true_eq_false, Fin.zero_eta, Fin.mk_one, Fin.reduceFinMk] <;> linarith
  have hr := prodM_rank_one hB k i i
  refine abs_le_of_sq_le_sq' ?_ (by norm_num) |> abs_le.2
  have := sq_nonneg (prodM B k k - prodM B i i)
  have := prodM_nonneg hB k
  have := prodM_nonneg hB i
  nlinarith

omit [Machine] in
theorem Clear.low {B : M3 ℝ} {k : Fin 4} (hk : Clear B k) : 1 ≤ prodM B k k := by
  have htr := prodM_trace B
  have hi : ∀ i, prodM B i i ≤ prodM B k k := by
    intro i
    by_cases h : i = k
    · rw [h]
    · linarith [hk i h]
  linarith [hi 0, hi 1, hi 2, hi 3]

theorem quat_ap (h : Rounds53 r) {R' : M3 (Dbl r)} {R : M3 (Rnd r)} {B : M3 ℝ} (hR : ∀ i j, Aj (R' i j) (R i j) (B i j) 1e-14 1) (hB : IsRot B) {k : Fin 4}
    (hk : Clear B k) : ∃ q : Fin 4 → Rnd r, ∀ i, Aj (quatG R' i) (q i) (quatK B k i) 1.6e-13 1 := by
  have lt (q : ℚ) (N D : ℝ) (h1 : |(q : ℝ)| ≤ N) (h2 : N / 4e15 ≤ D) (h3 : 1e-50 ≤ N) (h4 : N + D ≤ 1e200) : Aj (Flt.lit q : Dbl r) (Flt.lit q : Rnd r) q D N :=
    Aj.lit h q h1 h2 (.inl h3) h4
  have l1 := lt 1 1 2.5e-16 (by norm_num) (by norm_num) (by norm_num) (by norm_num)
  have l4 := lt 4 4 1e-15 (by norm_num) (by norm_num) (by norm_num) (by norm_num)
  have lq := lt 0.25 0.25 6.25e-17 (by norm_num) (by norm_num) (by norm_num) (by norm_num)
  have dl := prodM_diag_le hB
  have dn := prodM_nonneg hB
  have mag : ∀ k, |prodM B k k / 4| ≤ 1 := fun k => by rw [abs_of_nonneg (by linarith [dn k])]; linarith [dl k]
  have s0 : Aj (Flt.lit 0.25 * (Flt.lit 1 + R' 0 0 + R' 1 1 + R' 2 2)) (Flt.lit 0.25 * (Flt.lit 1 + R 0 0 + R 1 1 + R 2 2)) (prodM B 0 0 / 4) 8.8e-15 1 :=
    ((lq.mul h (((l1.add h (hR 0 0) (D := 1.08e-14) (N := 2) (by norm_num) (by norm_num)).add h (hR 1 1) (D := 2.16e-14) (N := 3) (by norm_num) (by norm_num)).add h
      (hR 2 2) (D := 3.27e-14) (N := 4) (by norm_num) (by norm_num)) (D := 8.8e-15) (by norm_num) (N := 1) (by norm_num)).congr (by simp [prodM]; ring)).bound (mag 0)
  have s1 : Aj (Flt.lit 0.25 * (Flt.lit 1 + R' 0 0 - R' 1 1 - R' 2 2)) (Flt.lit 0.25 * (Flt.lit 1 + R 0 0 - R 1 1 - R 2 2)) (prodM B 1 1 / 4) 8.8e-15 1 :=
    ((lq.mul h (((l1.add h (hR 0 0) (D := 1.08e-14) (N := 2) (by norm_num) (by norm_num)).sub h (hR 1 1) (D := 2.16e-14) (N := 3) (by norm_num) (by norm_num)).sub h
      (hR 2 2) (D := 3.27e-14) (N := 4) (by norm_num) (by norm_num)) (D := 8.8e-15) (by norm_num) (N := 1) (by norm_num)).congr (by simp [prodM]; ring)).bound (mag 1)
  have s2 : Aj (Flt.lit 0.25 * (Flt.lit 1 - R' 0 0 + R' 1 1 - R' 2 2)) (Flt.lit 0.25 * (Flt.lit 1 - R 0 0 + R 1 1 - R 2 2)) (prodM B 2 2 / 4) 8.8e-15 1 :=
    ((lq.mul h (((l1.sub h (hR 0 0) (D := 1.08e-14) (N := 2) (by norm_num) (by norm_num)).add h (hR 1 1) (D := 2.16e-14) (N := 3) (by norm_num) (by norm_num)).sub h
      (hR 2 2) (D := 3.27e-14) (N := 4) (by norm_num) (by norm_num)) (D := 8.8e-15) (by norm_num) (N := 1) (by norm_num)).congr (by simp [prodM]; ring)).bound (mag 2)
  have s3 : Aj (Flt.lit 0.25 * (Flt.lit 1 - R' 0 0 - R' 1 1 + R' 2 2)) (Flt.lit 0.25 * (Flt.lit 1 - R 0 0 - R 1 1 + R 2 2)) (prodM B 3 3 / 4) 8.8e-15 1 :=
    ((lq.mul h (((l1.sub h (hR 0 0) (D := 1.08e-14) (N := 2) (by norm_num) (by norm_num)).sub h (hR 1 1) (D := 2.16e-14) (N := 3) (by norm_num) (by norm_num)).add h
      (hR 2 2) (D := 3.27e-14) (N := 4) (by norm_num) (by norm_num)) (D := 8.8e-15) (by norm_num) (N := 1) (by norm_num)).congr (by simp [prodM]; ring)).bound (mag 3)
  have low := hk.low
  -- root, reciprocal and the selected component
  have root : ∀ {X : Dbl r} {x : Rnd r}, Aj X x (prodM B k k / 4) 8.8e-15 1 → Aj (Flt.sqrt X) (Flt.sqrt x) (Real.sqrt (prodM B k k / 4)) 1.8e-14 1 :=
    fun a => a.sqrt h (s := 0.5) (by norm_num) (by norm_num; linarith) (d' := 1.76e-14) (by norm_num) (by norm_num) (by norm_num)
  have sl : 2 ≤ |4 * Real.sqrt (prodM B k k / 4)| := by
    refine le_trans ?_ (le_abs_self _)
    have : (1 / 2 : ℝ) ≤ Real.sqrt (prodM B k k / 4) := Real.le_sqrt_of_sq_le (by linarith)
    linarith
  have rcp : ∀ {X : Dbl r} {x : Rnd r}, Aj X x (prodM B k k / 4) 8.8e-15 1 →
      Aj (Flt.lit 1 / (Flt.lit 4 * Flt.sqrt X)) (Flt.lit 1 / (Flt.lit 4 * Flt.sqrt x)) (1 / (4 * Real.sqrt (prodM B k k / 4))) 1.9e-14 0.5 := fun a =>
    ((l1.congr (by norm_num)).div h (((l4.congr (by norm_num)).mul h (root a) (D := 7.41e-14) (N := 4) (by norm_num) (by norm_num))) sl (by norm_num)
      (q := 1.87e-14) (by norm_num) (by norm_num) (by norm_num))
  have own : ∀ {X : Dbl r} {x : Rnd r}, Aj X x (prodM B k k / 4) 8.8e-15 1 →
      Aj (Flt.lit 4 * Flt.powi (Flt.sqrt X) 2) (Flt.lit 4 * Flt.powi (Flt.sqrt x) 2) (prodM B k k) 1.48e-13 4 := fun a =>
    ((l4.congr (y' := 4) (by norm_num)).mul h ((root a).sq h (D := 3.64e-14) (N := 1) (by norm_num) (by norm_num)) (D := 1.48e-13) (by norm_num) (by norm_num)).congr
      (by rw [Real.sq_sqrt (by linarith [dn k])]; ring)
  have fin4 : ∀ {X : Dbl r} {x : Rnd r} {Y : Dbl r} {y : Rnd r} (i : Fin 4), Aj X x (prodM B k k / 4) 8.8e-15 1 → Aj Y y (prodM B k i) 1.48e-13 4 →
      (i ≠ k → Aj Y y (prodM B k i) 2.1e-14 2) →
      Aj (Y * (Flt.lit 1 / (Flt.lit 4 * Flt.sqrt X))) (y * (Flt.lit 1 / (Flt.lit 4 * Flt.sqrt x))) (quatK B k i) 1.6e-13 1 := by
    intro X x Y y i a b c
    by_cases hi : i = k
    · have := b.mul h (rcp a) (D := 1.6e-13) (N := 2) (by norm_num) (by norm_num)
      refine this.bound ?_
      rw [hi]
      show |prodM B k k * (1 / (4 * Real.sqrt (prodM B k k / 4)))| ≤ 1
      have e : prodM B k k * (1 / (4 * Real.sqrt (prodM B k k / 4))) = Real.sqrt (prodM B k k / 4) := by
        have : Real.sqrt (prodM B k k / 4) ≠ 0 := (Real.sqrt_pos.2 (by linarith)).ne'
        have e2 := Real.sq_sqrt (show 0 ≤ prodM B k k / 4 by linarith)
        field_simp
        linarith
      rw [e, abs_of_nonneg (Real.sqrt_nonneg _)]
      exact Real.sqrt_le_one.2 (by linarith [dl k])
    · exact ((c hi).mul h (rcp a) (D := 1.6e-13) (N := 1) (by norm_num) (by norm_num))
  have ad : ∀ a b c d, Aj (R' a b + R' c d) (R a b + R c d) (B a b + B c d) 2.1e-14 2 := fun a b c d =>
    (hR a b).add h (hR c d) (by norm_num) (by norm_num)
  have sb : ∀ a b c d, Aj (R' a b - R' c d) (R a b - R c d) (B a b - B c d) 2.1e-14 2 := fun a b c d =>
    (hR a b).sub h (hR c d) (by norm_num) (by norm_num)
  have wide : ∀ {X : Dbl r} {x : Rnd r} {y : ℝ}, Aj X x y 2.1e-14 2 → Aj X x y 1.48e-13 4 := fun a => a.mono (by norm_num) (by norm_num)
  have sep : ∀ {X X' : Dbl r} {x x' : Rnd r} (i : Fin 4), i ≠ k → Aj X x (prodM B i i / 4) 8.8e-15 1 → Aj X' x' (prodM B k k / 4) 8.8e-15 1 →
      Flt.lt X X' = true ∧ Flt.lt X' X = false := fun i hi a b =>
    ⟨a.lt_true b (by linarith [hk i hi]), b.lt_false a (by linarith [hk i hi])⟩
  fin_cases k
  · obtain ⟨a1, -⟩ := sep 1 (by decide) s1 s0
    obtain ⟨a2, -⟩ := sep 2 (by decide) s2 s0
    obtain ⟨a3, -⟩ := sep 3 (by decide) s3 s0
    refine ⟨fun i => ![Flt.lit 4 * Flt.powi (Flt.sqrt (Flt.lit 0.25 * (Flt.lit 1 + R 0 0 + R 1 1 + R 2 2))) 2, R 1 2 - R 2 1, R 2 0 - R 0 2, R 0 1 - R 1 0] i
      * (Flt.lit 1 / (Flt.lit 4 * Flt.sqrt (Flt.lit 0.25 * (Flt.lit 1 + R 0 0 + R 1 1 + R 2 2)))), fun i => ?_⟩
    simp only [quatG, a1, a2, a3, Bool.and_self, if_true]
    fin_cases i
    · exact fin4 0 s0 (own s0) (fun h => absurd rfl h)
    · exact fin4 1 s0 (wide (sb 1 2 2 1)) (fun _ => sb 1 2 2 1)
    · exact fin4 2 s0 (wide (sb 2 0 0 2)) (fun _ => sb 2 0 0 2)
    · exact fin4 3 s0 (wide (sb 0 1 1 0)) (fun _ => sb 0 1 1 0)
  · obtain ⟨a1, b1⟩ := sep 0 (by decide) s0 s1
    obtain ⟨a2, -⟩ := sep 2 (by decide) s2 s1
    obtain ⟨a3, -⟩ := sep 3 (by decide) s3 s1
    refine ⟨fun i => ![R 1 2 - R 2 1, Flt.lit 4 * Flt.powi (Flt.sqrt (Flt.lit 0.25 * (Flt.lit 1 + R 0 0 - R 1 1 - R 2 2))) 2, R 0 1 + R 1 0, R 2 0 + R 0 2] i
      * (Flt.lit 1 / (Flt.lit 4 * Flt.sqrt (Flt.lit 0.25 * (Flt.lit 1 + R 0 0 - R 1 1 - R 2 2)))), fun i => ?_⟩
    simp only [quatG, a1, a2, a3, b1, Bool.and_self, Bool.false_and, Bool.false_eq_true, if_true, if_false]
    fin_cases i
    · exact fin4 0 s1 (wide (sb 1 2 2 1)) (fun _ => sb 1 2 2 1)
    · exact fin4 1 s1 (own s1) (fun h => absurd rfl h)
    · exact fin4 2 s1 (wide (ad 0 1 1 0)) (fun _ => ad 0 1 1 0)
    · exact fin4 3 s1 (wide (ad 2 0 0 2)) (fun _ => ad 2 0 0 2)
  · obtain ⟨a1, b1⟩ := sep 0 (by decide) s0 s2
    obtain ⟨a2, b2⟩ := sep 1 (by decide) s1 s2
    obtain ⟨a3, -⟩ := sep 3 (by decide) s3 s2
    refine ⟨fun i => ![R 2 0 - R 0 2, R 0 1 + R 1 0, Flt.lit 4 * Flt.powi (Flt.sqrt (Flt.lit 0.25 * (Flt.lit 1 - R 0 0 + R 1 1 - R 2 2))) 2, R 1 2 + R 2 1] i
      * (Flt.lit 1 / (Flt.lit 4 * Flt.sqrt (Flt.lit 0.25 * (Flt.lit 1 - R 0 0 + R 1 1 - R 2 2)))), fun i => ?_⟩
    simp only [quatG, a1, a2, a3, b1, b2, Bool.and_self, Bool.false_and, Bool.and_false, Bool.false_eq_true, if_true, if_false]
    fin_cases i
    · exact fin4 0 s2 (wide (sb 2 0 0 2)) (fun _ => sb 2 0 0 2)
    · exact fin4 1 s2 (wide (ad 0 1 1 0)) (fun _ => ad 0 1 1 0)
    · exact fin4 2 s2 (own s2) (fun h => absurd rfl h)
    · exact fin4 3 s2 (wide (ad 1 2 2 1)) (fun _ => ad 1 2 2 1)
  · obtain ⟨a1, b1⟩ := sep 0 (by decide) s0 s3
    obtain ⟨a2, b2⟩ := sep 1 (by decide) s1 s3
    obtain ⟨a3, b3⟩ := sep 2 (by decide) s2 s3
    refine ⟨fun i => ![R 0 1 - R 1 0, R 2 0 + R 0 2, R 1 2 + R 2 1, Flt.lit 4 * Flt.powi (Flt.sqrt (Flt.lit 0.25 * (Flt.lit 1 - R 0 0 - R 1 1 + R 2 2))) 2] i
      * (Flt.lit 1 / (Flt.lit 4 * Flt.sqrt (Flt.lit 0.25 * (Flt.lit 1 - R 0 0 - R 1 1 + R 2 2)))), fun i => ?_⟩
    simp only [quatG, b1, b2, b3, Bool.and_false, Bool.false_eq_true, if_false]
    fin_cases i
    · exact fin4 0 s3 (wide (sb 0 1 1 0)) (fun _ => sb 0 1 1 0)
    · exact fin4 1 s3 (wide (ad 2 0 0 2)) (fun _ => ad 2 0 0 2)
    · exact fin4 2 s3 (wide (ad 1 2 2 1)) (fun _ => ad 1 2 2 1)
    · exact fin4 3 s3 (own s3) (fun h => absurd rfl h)

omit [Machine] in
theorem quatK_dcm {B : M3 ℝ} (hB : IsRot B) {k : Fin 4} (hk : 1 ≤ prodM B k k) : sq4 (quatK B k) = 1 ∧ dcmG (quatK B k) = B := by
  refine dcm_of_products fun i j => ?_
  have hs : 0 < Real.sqrt (prodM B k k / 4) := Real.sqrt_pos.2 (by linarith)
  have hss : Real.sqrt (prodM B k k / 4) ^ 2 = prodM B k k / 4 := Real.sq_sqrt (by linarith)
  have := prodM_rank_one hB k i j
  simp only [quatK]
  have h0 : prodM B k k ≠ 0 := by linarith
  field_simp
  rw [hss, this]; ring

end NavFuse.Attitude
